import Verif.Lemmas.Precise
import Verif.Props.IsaProps
import Verif.Props.Illegal
/-!
# C10: every trap of every instruction word is precise, with the exceptions named
-/
namespace Ama.Precise
open M Ama.Spec
variable {σ : Type} {E : Env σ} {s s' : St σ}

/-- `q` is `s` after its devices were polled at the start of a step (before that the profiling window may have opened or
closed) -/
def Polled (E : Env σ) (s q : St σ) : Prop :=
  ∃ d pa pp g, tick E d { s with trapped := false, profActive := pa, profPc := pp, hw := g } = .ok ((), q)

/-- `s'` differs from `s` by the entry of one trap and by the polling of the devices, which left them as in `q` -/
structure OneTrap (s q : St σ) (cause tval : W) (s' : St σ) : Prop where
  rf : s'.rf = s.rf
  ram : s'.ram = s.ram
  retired : s'.simInst = s.simInst
  uart : s'.uart = q.uart
  clint : s'.clint = q.clint
  printed : s'.uart.log = s.uart.log
  log : s'.trapLog = (cause, tval, s.pc) :: s.trapLog
  pc : s'.pc = s.csr 0x305#16
  mepc : s'.csr 0x341#16 = s.pc
  mcause : s'.csr 0x342#16 = cause
  mtval : s'.csr 0x343#16 = tval
  mstatus : ∀ k, (s'.csr 0x300#16).getLsbD k = if k = 7 then (s.csr 0x300#16).getLsbD 3
    else if k = 3 then false else (s.csr 0x300#16).getLsbD k
  mip : s'.csr 0x344#16 = q.csr 0x344#16
  others : ∀ x, x ∉ [0x300#16, 0x341#16, 0x342#16, 0x343#16, 0x344#16] → s'.csr x = s.csr x

theorem status_bits (m : W) (k : Nat) :
    (((m &&& ~~~0x80#32) ||| ((m &&& 0x8#32) <<< 4)) &&& ~~~0x8#32).getLsbD k =
      if k = 7 then m.getLsbD 3 else if k = 3 then false else m.getLsbD k := by
  by_cases hk : k < 32
  · have h0 : (0x80#32).getLsbD k = decide (k = 7) := by revert k; decide
    have h8 : (8#32).getLsbD k = decide (k = 3) := by revert k; decide
    have h4 : (8#32).getLsbD (k - 4) = decide (k = 7) := by revert k; decide
    rw [BitVec.getLsbD_and, BitVec.getLsbD_not, h8]
    by_cases h3 : k = 3
    · simp [h3]
    · by_cases h7 : k = 7
      · subst h7
        simp
      · simp only [h3, h7, if_false, BitVec.getLsbD_or, BitVec.getLsbD_and, BitVec.getLsbD_not, BitVec.getLsbD_shiftLeft, h0, h4]
        simp [hk]
  · have h1 : k ≠ 7 := by omega
    have h2 : k ≠ 3 := by omega
    rw [BitVec.getLsbD_of_ge _ _ (by omega), if_neg h1, if_neg h2, BitVec.getLsbD_of_ge _ _ (by omega)]

theorem inst_steps {n : BitVec 64} : PrimsE E (fun s : St σ => s.simInst = n) where
  trap := fun _ _ => pres_trap fun _ h => h
  ramWr := ramWr_of (fun _ _ h => h) (fun _ _ h => h)
  uartWr := uartWr_of (fun _ _ h => h)
  uartRd := uartRd_of (fun _ _ h => h) (fun _ _ h => h)
  wrCsr := fun _ _ _ _ => wrCsr_of (fun _ _ => pres_trap fun _ h => h) (fun _ _ _ h => h) _ _
  uartIn := uartIn_of (fun _ _ h => h) (fun _ _ h => h)
  mtime := mtime_of (fun _ _ h => h) (fun _ _ h => h) _

theorem inst_stepExec {q0 q1 : St σ} (e : stepExec E q0 = .ok ((), q1)) : q1.simInst = q0.simInst := by
  obtain ⟨d, nt, qa, c1, -, hc⟩ := stepExec_split e
  have h1 : qa.simInst = q0.simInst := inst_steps.checkInterrupts _ _ _ _ rfl c1
  rcases hc with ⟨_, _, qc, f1, f2⟩ | ⟨rfl, _⟩
  · have h2 : qc.simInst = q0.simInst := inst_steps.fetch _ _ _ (show (wakeSt nt qa).simInst = _ from h1) f1
    exact inst_steps.exec _ _ _ h2 f2
  · exact h1

theorem finish_trapped {q : St σ} (h : q.trapped = true) : (finishSt E q).rf = q.rf ∧ (finishSt E q).ram = q.ram ∧
    (finishSt E q).uart = q.uart ∧ (finishSt E q).clint = q.clint ∧ (finishSt E q).csr = q.csr ∧ (finishSt E q).pc = q.pc ∧
    (finishSt E q).trapLog = q.trapLog ∧ (finishSt E q).simInst = q.simInst ∧ (finishSt E q).inst = q.inst := by
  unfold finishSt finishSt1
  simp only [h]
  split
  · simp
  · simp

theorem one_of {cs : List W} {q q0 q1 : St σ} (hs : q0.rf = s.rf ∧ q0.ram = s.ram ∧ q0.pc = s.pc ∧ q0.trapLog = s.trapLog ∧
      q0.simInst = s.simInst ∧ q0.uart.log = s.uart.log ∧ q0.csr = s.csr) (hk : Kept q0 q) (he : Entered cs q q1)
    (hn : q1.simInst = s.simInst) : ∃ c ∈ cs, ∃ t, OneTrap s q c t (finishSt E q1) := by
  obtain ⟨f1, f2, f3, f4, f5, f6, f7, f8, -⟩ := finish_trapped (E := E) he.1
  obtain ⟨ht, c, hc, t, c1, c2, c3, c4, c5, c6, c7⟩ := he
  obtain ⟨g1, g2, g3, g4, g5, g6, g7⟩ := hs
  have hcsr : ∀ x, x ≠ A.mip → q.csr x = s.csr x := fun x hx => (hk.csr x hx).trans (by rw [g7])
  refine ⟨c, hc, t, ?_⟩
  refine ⟨by rw [f1, c1, hk.rf, g1], by rw [f2, c2, hk.ram, g2], by rw [f8, hn], by rw [f3, c3], by rw [f4, c4],
    by rw [f3, c3, hk.log, g6], by rw [f7, c7, hk.trapLog, hk.pc, g3, g4], ?_, ?_, ?_, ?_, ?_, ?_, ?_⟩
  · rw [f6, c6]; exact hcsr _ (by decide)
  · rw [f5, c5, ← g3, ← hk.pc]; rfl
  · rw [f5, c5]; rfl
  · rw [f5, c5]; rfl
  · intro k
    rw [f5, c5, ← hcsr 0x300#16 (by decide)]
    exact status_bits _ k
  · rw [f5, c5]; rfl
  · intro x hx
    simp only [List.mem_cons, List.not_mem_nil, or_false, not_or] at hx
    rw [f5, c5, ← hcsr x hx.2.2.2.2]
    unfold trapCsr
    rw [if_neg (c := x = A.mstatus) hx.1, if_neg (c := x = A.mepc) hx.2.1, if_neg (c := x = A.mtval) hx.2.2.2.1,
      if_neg (c := x = A.mcause) hx.2.2.1]

/-- **C10**, for every instruction word, every state and every hardware model: a step that traps from an aligned pc takes
an interrupt, executes one of the words of `Imprecise`, or raises one exception; interrupt and exception have no other
effect than trap entry. -/
theorem traps_precise_partial (h : step E s = .ok ((), s')) (ht : s'.trapped = true) (ha : ialigned E.cfg.rv32c s.pc) :
    ∃ q, Polled E s q ∧
      ((∃ c ∈ [0x80000007#32, 0x8000000b#32], OneTrap s q c 0#32 s') ∨
       Imprecise E s'.inst ∨
       (∃ c ∈ [0#32, 2#32, 3#32, 4#32, 5#32, 6#32, 7#32, 11#32], ∃ t, OneTrap s q c t s')) := by
  rcases step_split h with hx | ⟨q0, q1, e1, e2, rfl⟩
  · obtain ⟨pa, pp, g, hq, -⟩ := profWindow_frame hx
    rw [hq] at ht
    cases ht
  obtain ⟨pa, pp, g, hq, hr, -⟩ := profWindow_frame e1
  have hq0 : q0 = { s with trapped := false, profActive := pa, profPc := pp, hw := g } := by
    rw [hr rfl] at hq
    exact hq
  have hs : q0.rf = s.rf ∧ q0.ram = s.ram ∧ q0.pc = s.pc ∧ q0.trapLog = s.trapLog ∧
      q0.simInst = s.simInst ∧ q0.uart.log = s.uart.log ∧ q0.csr = s.csr := by rw [hq0]; simp
  have ht0 : q0.trapped = false := by rw [hq0]
  obtain ⟨g1, -⟩ := Dasm.finishSt_frame (E := E) q1
  rw [g1] at ht
  have hn : q1.simInst = s.simInst := (inst_stepExec e2).trans hs.2.2.2.2.1
  obtain ⟨d, nt, qa, c1, -, hc⟩ := stepExec_split e2
  obtain ⟨q, t1, ht1⟩ := check_cases c1
  have hk := kept_tick t1
  refine ⟨q, ⟨d, pa, pp, g, hq0 ▸ t1⟩, ?_⟩
  have hq1 : q.trapped = false := hk.trapped.trans ht0
  rcases ht1 with hqa | ⟨c, hcm, rfl⟩
  · subst hqa
    right
    rcases hc with ⟨_, _, qc, f1, f2⟩ | ⟨rfl, _⟩
    · by_cases hi : Imprecise E (finishSt E q1).inst
      · exact .inl hi
      · right
        rw [(finish_trapped ht).2.2.2.2.2.2.2.2] at hi
        have hpc : qa.pc = s.pc := hk.pc.trans hs.2.2.1
        have hcalm : Calm qa (wakeSt nt qa) := ⟨hq1, rfl, rfl, rfl, rfl, rfl, rfl, rfl⟩
        have hcalm := q_fetch (by show qa.pc.toNat % 2 = 0; rw [hpc]; exact even_of_ialigned ha) hcalm f1
        rcases p_exec (by rw [hpc]; exact ha) hcalm f2 hi with hp | hp
        · rw [hp] at ht; cases ht
        · exact one_of hs hk hp hn
    · rw [show (wakeSt nt qa).trapped = qa.trapped from rfl, hq1] at ht
      cases ht
  · left
    have hw : q1 = wakeSt nt { trapTo c 0#32 q with lastInstBranch := false } := by
      rcases hc with ⟨hf, _⟩ | ⟨h1, _⟩
      · cases hf
      · exact h1
    have he : Entered [c] q q1 := by
      rw [hw]
      exact ⟨rfl, c, by simp, 0#32, rfl, rfl, rfl, rfl, rfl, rfl, rfl⟩
    obtain ⟨c', hc', t, ho⟩ := one_of (E := E) hs hk he hn
    have hcc : c' = c := by simpa using hc'
    subst hcc
    have : t = 0#32 := by
      have h1 := ho.log
      rw [(finish_trapped ht).2.2.2.2.2.2.1, hw] at h1
      have h2 : (c', 0#32, q.pc) :: q.trapLog = (c', t, s.pc) :: s.trapLog := h1
      injection h2 with h2
      injection h2 with _ h2
      injection h2 with h2
      exact h2.symm
    exact ⟨c', hcm, this ▸ ho⟩

/-- nothing retires in a step that traps, whatever the instruction -/
theorem trap_never_retires (h : step E s = .ok ((), s')) (ht : s'.trapped = true) : s'.simInst = s.simInst := by
  rcases step_split h with hx | ⟨q0, q1, e1, e2, rfl⟩
  · obtain ⟨pa, pp, g, hq, -⟩ := profWindow_frame hx
    rw [hq] at ht
    cases ht
  · obtain ⟨pa, pp, g, hq, -⟩ := profWindow_frame e1
    rw [(Dasm.finishSt_frame (E := E) q1).1] at ht
    rw [(finish_trapped ht).2.2.2.2.2.2.2.1]
    exact (inst_stepExec e2).trans (by rw [hq])

/-! ## Runs of the model -/

namespace Ex
open Ama.Ex
/-- the words the theorem excludes, as a test on one word -/
instance (w : W) : Decidable (Writes w) := inferInstanceAs (Decidable (_ ∨ _))
instance (E : Env σ) (w : W) : Decidable (Imprecise E w) := by unfold Imprecise; infer_instance
/-- the hypotheses of `traps_precise_partial` and the last alternative of its conclusion, on one step from reset -/
def met (E : Env Unit) (s : St Unit) : Option (Bool × Bool × List (W × W × W)) :=
  obs (step E s) fun s' => (s'.trapped, decide (Imprecise E s'.inst), s'.trapLog)
-- ECALL, a word load from address 0, a byte load from 0xfffffffe, an undefined word
example : met env0 (st0 env0 [0x73#32]) = some (true, false, [(11#32, 0x73#32, 0x80000000#32)]) := by decide +kernel
example : met env0 (st0 env0 [0x00002003#32]) = some (true, false, [(5#32, 0#32, 0x80000000#32)]) := by decide +kernel
example : met env0 (st0 env0 [0xffe00003#32]) = some (true, false, [(5#32, 0xfffffffe#32, 0x80000000#32)]) := by decide +kernel
example : met env0 (st0 env0 [0xffffffff#32]) = some (true, false, [(2#32, 0xffffffff#32, 0x80000000#32)]) := by decide +kernel
example : ialigned env0.cfg.rv32c (st0 env0 [0x73#32]).pc := by decide
-- an interrupt: a timer compare register of 0, the timer enabled in mie, interrupts enabled in mstatus
/-- reset state with the timer interrupt enabled and pending -/
def tim : St Unit :=
  let s := st0 env0 [0x13#32]
  { s with csr := upd (upd s.csr A.mie 0x80#32) A.mstatus 8#32
           clint := { s.clint with dev := { s.clint.dev with bytes := fun _ => 0#8 } } }
example : met env0 tim = some (true, false, [(0x80000007#32, 0#32, 0x80000000#32)]) := by decide +kernel

/-- **C10 fails** for a write to a read-only CSR: `csrrw x5, misa, x0` traps as illegal and yet writes x5 (reset value
0x00c0ffee). -/
theorem ro_write_writes_rd :
    Imprecise env0 0x301012f3#32 ∧
    obs (step env0 (st0 env0 [0x301012f3#32])) (fun s => (s.rf 5#5, s.trapLog, s.simInst)) =
      some (0x40801100#32, [(2#32, 0x301012f3#32, 0x80000000#32)], 0#64) := by
  refine ⟨by decide +kernel, by decide +kernel⟩
/-- **C10 fails** for funct3 = 4 of an implemented CSR: the word traps as illegal and yet writes x5. -/
theorem csr_f3_4_writes_rd :
    Imprecise env0 0x301042f3#32 ∧
    obs (step env0 (st0 env0 [0x301042f3#32])) (fun s => (s.rf 5#5, s.trapLog, s.simInst)) =
      some (0x40801100#32, [(2#32, 0x301042f3#32, 0x80000000#32)], 0#64) := by
  refine ⟨by decide +kernel, by decide +kernel⟩
end Ex
end Ama.Precise
