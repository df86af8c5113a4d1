import Verif.Lemmas.Twp
/-!
# One step, reduced to executing the fetched word
-/
namespace Ama
open M Spec
variable {σ : Type}

/-- an instruction word can be fetched at `a` -/
def Fetchable (E : Env σ) (a : W) : Prop :=
  a.toNat % 2 = 0 ∧ (toNorm a).toNat + 4 ≤ memSize ∧
    checkAccess (toNorm a) false false true E.regions = true

/-- the word stored at an instruction address -/
def wordAt (r : Dev) (a : W) : W := BitVec.ofNat 32 (le r.bytes (toNorm a) 4)

theorem toNorm_toNat (a : W) : (toNorm a).toNat = a.toNat % memSize := by
  have : (0x1ffff#32).toNat = 2 ^ 17 - 1 := by decide
  rw [toNorm, BitVec.toNat_and, this, Nat.and_two_pow_sub_one_eq_mod]
  rfl

theorem twp_justInst {ab : Prop} {a : W} {Q : W → St σ → Prop} {s : St σ}
    (hs : s.ram.size = memSize) (ha : (toNorm a).toNat + 4 ≤ memSize)
    (h : Q (wordAt s.ram a) s) : twp ab (justInst a) Q s := by
  unfold justInst
  rw [twp_bind, twp_get, s.ram.rd32_ok (by rw [hs]; exact ha) (by rw [hs]; decide), twp_lift_ok]
  exact h

theorem twp_rdInst {ab : Prop} {E : Env σ} {a : W} {Q : W → St σ → Prop} {s : St σ}
    (hs : s.ram.size = memSize) (ha : Fetchable E a)
    (h : ∀ q, q.core = s.core → q.lastInstBranch = s.lastInstBranch → q.instSpec = s.instSpec →
      Q (wordAt s.ram a) q) :
    twp ab (rdInst E a) Q s := by
  obtain ⟨h1, h2, h3⟩ := ha
  have he : (toNorm a).toNat % 2 = 0 := by
    rw [toNorm_toNat, memSize]; omega
  unfold rdInst
  simp only [he, ne_eq, not_true, if_false]
  unfold mmRdInst
  rw [twp_bind, twp_ok (guard_ok s h3), twp_bind, twp_get,
    s.ram.rd32_ok (by rw [hs]; exact h2) (by rw [hs]; decide), twp_bind, twp_lift_ok, twp_bind]
  unfold hwUpd
  split
  · exact h _ rfl rfl rfl
  · exact h _ rfl rfl rfl

/-- an interrupt is taken in state `c` -/
def intMei (E : Env σ) (c : Core) : Bool :=
  E.cfg.uartIn && (c.csr A.mie &&& 0x800#32) != 0#32 && (c.csr A.mip &&& 0x800#32) != 0#32
/-- pending and enabled timer interrupt -/
def intMti (c : Core) : Bool :=
  (c.csr A.mie &&& 0x80#32) != 0#32 && (c.csr A.mip &&& 0x80#32) != 0#32
/-- mstatus.MIE -/
def gieOf (c : Core) : Bool := (c.csr A.mstatus &&& 0x8#32) != 0#32

/-- the word of WFI -/
def wfiWord : W := 0x10500073#32

/-- the profiling window ends the run at this pc -/
def windowExit (E : Env σ) (s : St σ) : Bool :=
  E.cfg.profilers && (!(s.profPc.shouldStartPc s.pc).1 && (s.profPc.shouldStartPc s.pc).2.shouldStop s.pc
    && (s.profPc.shouldStartPc s.pc).2.shouldExitPc s.pc)

theorem twp_profWindow {ab : Prop} {E : Env σ} {Q : Bool → St σ → Prop} {s : St σ}
    (hx : windowExit E s = false)
    (h : ∀ q, q.core = s.core → q.lastInstBranch = s.lastInstBranch → q.instResolved = s.instResolved →
      Q false q) :
    twp ab (profWindow E) Q s := by
  unfold profWindow
  unfold windowExit at hx
  cases hp : E.cfg.profilers
  · exact h _ rfl rfl rfl
  · rw [hp, Bool.true_and] at hx
    simp only [if_true]
    rw [twp_bind, twp_get, twp_bind, twp_get, twp_bind, twp_mod]
    generalize s.profPc.shouldStartPc s.pc = r at *
    rw [twp_ite]
    split
    · rw [twp_bind]
      exact twp_profState fun q h1 h2 h3 => h q h1 h2 h3
    · rename_i hr
      rw [Bool.not_eq_true] at hr
      rw [hr, Bool.not_false, Bool.true_and] at hx
      rw [twp_ite]
      split
      · rename_i hst
        rw [twp_bind]
        refine twp_profState fun q h1 h2 h3 => ?_
        rw [hst, Bool.true_and] at hx
        rw [hx]
        exact h q h1 h2 h3
      · exact h _ rfl rfl rfl

/-- The state is ready to execute the word `w`: device sizes are right, the hart is awake,
the word at pc is `w` and may be fetched (or is the one the branch logic resolved), the
profiling window and the step limit do not end the run here, no interrupt is taken, and
(with profilers, which look at the following word after `slli`) the next word is in RAM. -/
structure Ready (E : Env σ) (s : St σ) (w : W) : Prop where
  sized : Sized s
  awake : s.wfiActive = false
  pend : s.wfiPend = false
  x0 : s.rf 0#5 = 0#32
  fetch : Fetchable E s.pc
  word : wordAt s.ram s.pc = w
  resolved : E.cfg.hwModels = true → s.lastInstBranch = true → s.instResolved = w
  window : windowExit E s = false
  noInt : w ≠ wfiWord → gieOf (clockCore E s.core) = true →
    intMei E (clockCore E s.core) = false ∧ intMti (clockCore E s.core) = false
  limit : s.simStep + 1#64 ≠ E.cfg.runSteps
  ahead : E.cfg.profilers = true → (toNorm (s.pc + 4#32)).toNat + 4 ≤ memSize

/-- core part when execution of `w` starts: clock events first, except for WFI -/
def startCore (E : Env σ) (s : St σ) (w : W) : Core :=
  { (if w = wfiWord then s.core else clockCore E s.core) with trapped := false, inst := w }

/-- end of step: counting and retirement -/
def finishM (E : Env σ) : M σ Unit := do
  mod fun s => { s with simStep := s.simStep + 1#64 }
  let n ← get (·.simStep)
  if n = E.cfg.runSteps then mod fun s => { s with running := false }
  else stepFinish E

theorem clockCore_frame (E : Env σ) (c : Core) :
    (clockCore E c).pc = c.pc ∧ (clockCore E c).wfiActive = c.wfiActive ∧
    (clockCore E c).rf = c.rf ∧ (clockCore E c).ram = c.ram ∧
    (clockCore E c).simStep = c.simStep ∧ (clockCore E c).simInst = c.simInst ∧
    (clockCore E c).wfiPend = c.wfiPend ∧ (clockCore E c).trapLog = c.trapLog ∧
    (clockCore E c).nextPc = c.nextPc ∧ (clockCore E c).trapped = c.trapped ∧
    (clockCore E c).csrStep = c.csrStep ∧ (clockCore E c).csrInst = c.csrInst ∧
    (clockCore E c).inst = c.inst := by
  unfold clockCore
  cases E.cfg.uartIn <;>
    simp only [if_true, Bool.false_eq_true, if_false] <;> simp only [and_self]

theorem clockCore_sized (E : Env σ) (c : Core) (h : c.Sized) : (clockCore E c).Sized := by
  obtain ⟨h1, h2, h3⟩ := h
  have hz := (rxSt_frame E c.simStep c.uart).2
  unfold clockCore Core.Sized
  cases E.cfg.uartIn
  · simp only [Bool.false_eq_true, if_false]; exact ⟨h1, h2, h3⟩
  · simp only [if_true]; exact ⟨h1, hz.trans h2, h3⟩

/-- the clock does not look at the trap flag -/
theorem clockCore_trapped (E : Env σ) (c : Core) (b : Bool) :
    clockCore E { c with trapped := b } = { clockCore E c with trapped := b } := by
  cases h : E.cfg.uartIn <;>
    simp only [clockCore, h, if_true, Bool.false_eq_true, if_false]

theorem twp_checkInterrupts {ab : Prop} {E : Env σ} {s : St σ} {Q : Bool → St σ → Prop}
    (hs : Sized s) (hn : gieOf (clockCore E s.core) = true →
      intMei E (clockCore E s.core) = false ∧ intMti (clockCore E s.core) = false)
    (h : ∀ b q, q.core = clockCore E s.core → q.lastInstBranch = s.lastInstBranch →
      q.instResolved = s.instResolved → Q b q) :
    twp ab (checkInterrupts E false) Q s := by
  unfold checkInterrupts
  simp only [Bool.false_eq_true, if_false]
  have hc := clock_app E s hs
  unfold clockM at hc
  rw [← clock_core] at hn h
  rw [twp_bind, twp_ok (updateMtime_app _ _ hs)]
  rw [M.bind_ok (updateMtime_app _ _ hs)] at hc
  rw [twp_bind, twp_ok hc, twp_bind, twp_get, twp_bind, twp_get, twp_bind, twp_get, twp_bind]
  have hl : (clockSt E s).lastInstBranch = s.lastInstBranch ∧
      (clockSt E s).instResolved = s.instResolved := by
    unfold clockSt; split <;> exact ⟨rfl, rfl⟩
  have e1 : (clockSt E s).core.csr = (clockSt E s).csr := rfl
  simp only [gieOf, intMei, intMti, e1] at hn
  generalize hq : clockSt E s = q at *
  clear hc hs
  by_cases hg : (q.csr A.mstatus &&& 8#32 != 0#32) = true
  · obtain ⟨h1, h2⟩ := hn hg
    simp only [hg, h1, h2, Bool.and_false, Bool.false_eq_true, if_false]
    exact h _ _ rfl hl.1 hl.2
  · rw [Bool.not_eq_true] at hg
    simp only [hg, Bool.false_and, Bool.false_eq_true, if_false]
    exact h _ _ rfl hl.1 hl.2

/-- **step = clock, then execute the word, then finish** -/
theorem twp_step {ab : Prop} {E : Env σ} {s : St σ} {w : W} (h : Ready E s w)
    {Q : Unit → St σ → Prop}
    (hx : ∀ p, p.core = startCore E s w → p.lastInstBranch = false →
      twp ab (exec E) (fun _ q => twp ab (finishM E) Q q) p) :
    twp ab (step E) Q s := by
  unfold step
  rw [twp_bind, twp_mod, twp_bind]
  refine twp_profWindow (by exact h.window) fun q0 c0 l0 r0 => ?_
  simp only [Bool.false_eq_true, if_false]
  change twp ab (stepExec E >>= fun _ => finishM E) Q q0
  rw [twp_bind]
  have hq0 : q0.core = { s.core with trapped := false } := c0
  have a0 : q0.wfiActive = false := (core_wfiActive hq0).trans h.awake
  have p0 : q0.pc = s.pc := core_pc hq0
  have m0 : q0.ram = s.ram := core_ram hq0
  have sz0 : Sized q0 := by rw [sized_core, hq0]; exact h.sized
  unfold stepExec
  rw [twp_bind, twp_get, twp_bind, twp_ite, a0]
  simp only [Bool.false_eq_true, if_false]
  rw [twp_bind, twp_get, twp_bind, p0]
  refine twp_justInst (by rw [m0]; exact h.sized.1) h.fetch.2.1 ?_
  rw [twp_pure, m0, h.word]
  have key : ∀ b q1, q1.core = { (if w = wfiWord then s.core else clockCore E s.core) with trapped := false } →
      q1.lastInstBranch = q0.lastInstBranch → q1.instResolved = q0.instResolved →
      twp ab (do
        mod fun s => { s with wfiActive := s.wfiActive && !(s.trapped || b) }
        let trp ← get (·.trapped)
        let act ← get (·.wfiActive)
        if !trp && (!act || b) then do
          fetch E
          exec E
        else pure ()) (fun _ q => twp ab (finishM E) Q q) q1 := by
    intro b q1 c1 l1 r1
    have fr := clockCore_frame E s.core
    have a1 : q1.wfiActive = false := by
      rw [core_wfiActive c1]
      split
      · exact h.awake
      · exact fr.2.1.trans h.awake
    have t1 : q1.trapped = false := core_trapped c1
    have p1 : q1.pc = s.pc := by
      rw [core_pc c1]
      split
      · rfl
      · exact fr.1
    have m1 : q1.ram = s.ram := by
      rw [core_ram c1]
      split
      · rfl
      · exact fr.2.2.2.1
    have hw1 : ({ q1 with wfiActive := q1.wfiActive && !(q1.trapped || b) } : St σ) = q1 := by
      have : (q1.wfiActive && !(q1.trapped || b)) = q1.wfiActive := by rw [a1]; rfl
      rw [this]
    rw [twp_bind, twp_mod, hw1, twp_bind, twp_get, twp_bind, twp_get, a1, t1]
    simp only [Bool.not_false, Bool.true_and, Bool.true_or, if_true]
    rw [twp_bind]
    unfold fetch
    rw [twp_bind, twp_get, twp_ite]
    have hcore : ∀ q2 : St σ, q2.core = q1.core →
        ({ q2 with inst := w, lastInstBranch := false } : St σ).core = startCore E s w := by
      intro q2 c2
      have : ({ q2 with inst := w, lastInstBranch := false } : St σ).core =
          { q2.core with inst := w } := rfl
      rw [this, c2, c1]
      rfl
    split
    · rename_i hb
      rw [Bool.and_eq_true] at hb
      rw [twp_mod]
      have hr : q1.instResolved = w := by
        rw [r1, r0]
        exact h.resolved hb.1 (by rw [← hb.2, l1, l0])
      rw [hr]
      exact hx _ (hcore q1 rfl) rfl
    · rw [twp_bind, twp_get, twp_bind, p1]
      refine twp_rdInst (by rw [m1]; exact h.sized.1) h.fetch fun q2 c2 _ _ => ?_
      rw [twp_mod, m1, h.word]
      exact hx _ (hcore q2 c2) rfl
  rw [twp_bind]
  by_cases hwf : w = wfiWord
  · rw [show (w == 0x10500073#32) = true from by rw [hwf]; rfl]
    simp only [checkInterrupts, if_true]
    rw [twp_pure]
    refine key false q0 ?_ rfl rfl
    rw [if_pos hwf]
    exact hq0
  · rw [show (w == 0x10500073#32) = false from by simpa [wfiWord] using hwf]
    have hcc : clockCore E q0.core = { clockCore E s.core with trapped := false } := by
      rw [hq0, clockCore_trapped]
    refine twp_checkInterrupts sz0 ?_ fun b q1 c1 l1 r1 => ?_
    · rw [hcc]; exact h.noInt hwf
    · refine key b q1 ?_ l1 r1
      rw [if_neg hwf, c1, hcc]

/-! ## Finishing -/

theorem twp_finish_retire {ab : Prop} {E : Env σ} {q : St σ} {Q : Unit → St σ → Prop}
    (hl : q.simStep + 1#64 ≠ E.cfg.runSteps) (ht : q.trapped = false) (ha : q.wfiActive = false)
    (h : ∀ q', q'.core = { q.core with simStep := q.simStep + 1#64, simInst := q.simInst + 1#64
                                       pc := q.nextPc, wfiActive := q.wfiPend, wfiPend := false } →
      Q () q') : twp ab (finishM E) Q q := by
  unfold finishM
  rw [twp_bind, twp_mod, twp_bind, twp_get, if_neg (by exact hl)]
  unfold stepFinish
  rw [twp_bind, twp_get, twp_bind, twp_get]
  simp only [ha, ht, Bool.false_and, Bool.false_eq_true, if_false]
  rw [twp_mod]
  apply h
  simp only [St.core, ht, Bool.false_or]

theorem twp_finish_trap {ab : Prop} {E : Env σ} {q : St σ} {Q : Unit → St σ → Prop}
    (hl : q.simStep + 1#64 ≠ E.cfg.runSteps) (ht : q.trapped = true)
    (h : ∀ q', q'.core = { q.core with simStep := q.simStep + 1#64 } → Q () q') :
    twp ab (finishM E) Q q := by
  unfold finishM
  rw [twp_bind, twp_mod, twp_bind, twp_get, if_neg (by exact hl)]
  unfold stepFinish
  rw [twp_bind, twp_get, twp_bind, twp_get]
  simp only [ht, Bool.not_true, Bool.and_false, Bool.false_eq_true, if_false, if_true]
  rw [twp_mod]
  apply h
  simp only [St.core, ht]

/-- executing the current word from `p` always ends with core part `c` -/
def ExecTo (E : Env σ) (p : St σ) (c : Core) : Prop :=
  ∀ (ab : Prop) (Q : Unit → St σ → Prop), (∀ q, q.core = c → Q () q) → twp ab (exec E) Q p

theorem startCore_frame {E : Env σ} {s : St σ} {w : W} :
    (startCore E s w).pc = s.pc ∧ (startCore E s w).wfiActive = s.wfiActive ∧
    (startCore E s w).rf = s.rf ∧ (startCore E s w).ram = s.ram ∧
    (startCore E s w).simStep = s.simStep ∧ (startCore E s w).simInst = s.simInst ∧
    (startCore E s w).wfiPend = s.wfiPend ∧ (startCore E s w).trapLog = s.trapLog ∧
    (startCore E s w).trapped = false ∧ (startCore E s w).inst = w := by
  obtain ⟨h1, h2, h3, h4, h5, h6, h7, h8, -⟩ := clockCore_frame E s.core
  unfold startCore
  split
  · exact ⟨rfl, rfl, rfl, rfl, rfl, rfl, rfl, rfl, rfl, rfl⟩
  · exact ⟨h1, h2, h3, h4, h5, h6, h7, h8, rfl, rfl⟩

theorem startCore_sized {E : Env σ} {s : St σ} {w : W} (h : Sized s) : (startCore E s w).Sized := by
  unfold startCore
  split
  · exact h
  · exact clockCore_sized E s.core h

/-- a step whose instruction completes -/
theorem step_retires {E : Env σ} {s : St σ} {w : W} (h : Ready E s w) (c : Core)
    (hx : ∀ p, p.core = startCore E s w → p.lastInstBranch = false → ExecTo E p c)
    (ht : c.trapped = false) (ha : c.wfiActive = false) (hn : c.simStep = s.simStep) :
    ∃ s', step E s = .ok ((), s') ∧
      s'.core = { c with simStep := s.simStep + 1#64, simInst := c.simInst + 1#64
                         pc := c.nextPc, wfiActive := c.wfiPend, wfiPend := false } := by
  have : twp False (step E) (fun _ s' => s'.core =
      { c with simStep := s.simStep + 1#64, simInst := c.simInst + 1#64
               pc := c.nextPc, wfiActive := c.wfiPend, wfiPend := false }) s := by
    refine twp_step h fun p hp hl => hx p hp hl _ _ fun q hq => ?_
    have e : q.simStep = s.simStep := (core_simStep hq).trans hn
    refine twp_finish_retire (by rw [e]; exact h.limit) ((core_trapped hq).trans ht)
      ((core_wfiActive hq).trans ha) fun q' hq' => ?_
    rw [hq', e, hq, core_simInst hq, core_nextPc hq, core_wfiPend hq]
  obtain ⟨_, s', h1, h2⟩ := twp_ex this
  exact ⟨s', h1, h2⟩

/-- a step whose instruction traps -/
theorem step_traps {E : Env σ} {s : St σ} {w : W} (h : Ready E s w) (c : Core)
    (hx : ∀ p, p.core = startCore E s w → p.lastInstBranch = false → ExecTo E p c)
    (ht : c.trapped = true) (hn : c.simStep = s.simStep) :
    ∃ s', step E s = .ok ((), s') ∧ s'.core = { c with simStep := s.simStep + 1#64 } := by
  have : twp False (step E) (fun _ s' => s'.core = { c with simStep := s.simStep + 1#64 }) s := by
    refine twp_step h fun p hp hl => hx p hp hl _ _ fun q hq => ?_
    have e : q.simStep = s.simStep := (core_simStep hq).trans hn
    refine twp_finish_trap (by rw [e]; exact h.limit) ((core_trapped hq).trans ht) fun q' hq' => ?_
    rw [hq', e, hq]
  obtain ⟨_, s', h1, h2⟩ := twp_ex this
  exact ⟨s', h1, h2⟩

/-- a step whose instruction makes the simulator throw -/
theorem step_throws {E : Env σ} {s : St σ} {w : W} (h : Ready E s w)
    (hx : ∀ p, p.core = startCore E s w → p.lastInstBranch = false →
      twp True (exec E) (fun _ _ => False) p) :
    step E s = .abort :=
  twp_throws (twp_step h fun p hp hl => twp_mono (hx p hp hl) fun _ _ h => h.elim)

end Ama
