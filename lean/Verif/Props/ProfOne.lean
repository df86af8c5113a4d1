import Verif.Lemmas.ProfName
import Verif.Props.X0
/-!
# C63: every retired instruction is profiled once, under its own name
-/
namespace Ama
open M Spec Prof
variable {σ : Type} {E : Env σ} {s s' : St σ}

/-! ## One step -/

/-- **C63.** A step that retires an instruction reports exactly one event to the instruction profiler, with the
instruction word, the pc and the activation of that step. -/
theorem retired_logged (hp : E.cfg.profilers = true) (h : step E s = .ok ((), s')) (hr : s'.simInst ≠ s.simInst) :
    ∃ r, s'.profLog = r :: s.profLog ∧ r.inst = s'.inst ∧ r.pc = s.pc ∧ r.active = s'.profActive ∧
      (callOf r).isSome := by
  rcases step_log hp h with ⟨h1, -⟩ | ⟨-, -, r, h1, h2, h3, h4, h5, -⟩
  · exact absurd h1 hr
  · exact ⟨r, h1, h2, h5, h3, call_some h4⟩

/-- **C63.** A step that retires nothing reports at most one event, and only if it traps or ends the run. -/
theorem unretired_at_most_one (hp : E.cfg.profilers = true) (h : step E s = .ok ((), s')) (hr : s'.simInst = s.simInst) :
    s'.profLog = s.profLog ∨ ∃ r, s'.profLog = r :: s.profLog ∧ r.inst = s'.inst ∧
      (s'.trapped = true ∨ s'.running = false) := by
  rcases step_log hp h with ⟨-, h1 | ⟨r, h1, h2, -, -, h5⟩⟩ | ⟨h1, -⟩
  · exact .inl h1
  · exact .inr ⟨r, h1, h2, h5⟩
  · rw [hr] at h1
    exact absurd h1 (by intro e; have := congrArg BitVec.toNat e; rw [BitVec.toNat_add] at this; simp at this; omega)

/-- a step from the registers `rf` and the pc `pc` to the pc `next` counts one more instruction, on the line `l` -/
def Reported (rv32c : Bool) (s s' : St σ) (l : Line) : Prop :=
  ∃ r, s'.profLog = r :: s.profLog ∧ r.active = s'.profActive ∧ lineOf rv32c r = some l

theorem isBr_of_line {c : Bool} {r : ProfRec} {l : Line} (h : lineOf c r = some l) (hl : l.2.isSome) : r.ev.isBr = true := by
  have g : ∀ w o, ∃ o', Prof.Spec.entry c w (.g o) = .g o' := fun w o => by
    unfold Prof.Spec.entry
    simp only
    split
    · exact ⟨_, rfl⟩
    · split
      · exact ⟨_, rfl⟩
      · split <;> exact ⟨_, rfl⟩
  have k : ∀ {o}, callOf r = some (.g o) → False := fun {o} hc => by
    unfold lineOf at h
    rw [hc] at h
    obtain ⟨o', ho⟩ := g r.inst o
    simp only [Option.map_some, ho] at h
    cases h
    cases hl
  unfold callOf at k
  cases he : r.ev <;> rw [he] at k <;> try rfl
  case simd op =>
    cases ho : simdG op with
    | none =>
      unfold lineOf callOf at h
      rw [he] at h
      simp [ho] at h
    | some o => exact (k (o := o) (by simp [ho])).elim
  case c op =>
    simp only [Option.some.injEq] at k
    cases op <;> first | rfl | exact (k rfl).elim
  all_goals exact (k rfl).elim
theorem line_next (rf : BitVec 5 → W) (pc n1 n2 : W) (i : Instr) :
    line rf pc n1 i = line rf pc n2 i ∨ (line rf pc n1 i).2.isSome := by
  cases i <;> first | exact .inl rfl | exact .inr rfl
theorem lineC_next (rf : BitVec 5 → W) (pc n1 n2 : W) (i : CInstr) :
    lineC rf pc n1 i = lineC rf pc n2 i ∨ (lineC rf pc n1 i).2.isSome := by
  cases i <;> first | exact .inl rfl | exact .inr rfl

/-- **C63.** Each retired instruction of RV32IM, Zbb min/max and the privileged ones is counted on the line that
carries its mnemonic; branches and jumps with their outcome and direction. -/
theorem retired_named (hp : E.cfg.profilers = true) (h : step E s = .ok ((), s')) (hr : s'.simInst ≠ s.simInst)
    (h0 : s.rf 0#5 = 0#32) {i : Instr} (hi : s'.inst = encode i) :
    Reported E.cfg.rv32c s s' (line s.rf s.pc s'.pc i) := by
  rcases step_log hp h with ⟨h1, -⟩ | ⟨-, -, r, h1, h2, h3, h4, h5, h6⟩
  · exact absurd h1 hr
  · refine ⟨r, h1, h3, ?_⟩
    have e := line_named h4 h0 E.cfg.rv32c (h2.trans hi)
    rw [h5] at e
    rw [e]
    rcases line_next s.rf s.pc r.nextPc s'.pc i with e2 | e2
    · rw [e2]
    · rw [h6 (isBr_of_line e e2)]

/-- **C63**, all but two cases.  Each retired compressed instruction is counted on the line that carries its mnemonic.
Missing: a C.BNEZ that is not taken (`bnez_miscounted`), and the hint C.LUI with rd = x0 (`lui_hint_miscounted`). -/
theorem retired_named_c_partial (hp : E.cfg.profilers = true) (h : step E s = .ok ((), s')) (hr : s'.simInst ≠ s.simInst)
    (hc : E.cfg.rv32c = true) {i : CInstr} (hl : i.legal) (hi : s'.inst = encodeC i)
    (hx : ¬ misnamed s.rf i) : Reported E.cfg.rv32c s s' (lineC s.rf s.pc s'.pc i) := by
  rcases step_log hp h with ⟨h1, -⟩ | ⟨-, -, r, h1, h2, h3, h4, h5, h6⟩
  · exact absurd h1 hr
  · refine ⟨r, h1, h3, ?_⟩
    have e := cline_all h4 i hl (h2.trans hi) hx
    rw [h5] at e
    rw [hc, e]
    rcases lineC_next s.rf s.pc r.nextPc s'.pc i with e2 | e2
    · rw [e2]
    · rw [h6 (isBr_of_line e e2)]

/-- **C63 fails for C.BNEZ**: one that is not taken is counted as a C.BEQZ. -/
theorem bnez_miscounted (hp : E.cfg.profilers = true) (h : step E s = .ok ((), s')) (hr : s'.simInst ≠ s.simInst)
    {rs : BitVec 3} {off : BitVec 8} (hi : s'.inst = encodeC (.bnez rs off)) (h0 : s.rf (creg rs) = 0#32) :
    Reported E.cfg.rv32c s s' ("c.beqz", (lineC s.rf s.pc s'.pc (.bnez rs off)).2) := by
  rcases step_log hp h with ⟨h1, -⟩ | ⟨-, -, r, h1, h2, h3, h4, h5, h6⟩
  · exact absurd h1 hr
  · refine ⟨r, h1, h3, ?_⟩
    rw [cline_bnez_not h4 _ (h2.trans hi) h0, h5]
    rfl

/-- **C63 fails for the C.LUI hint** (rd = x0): it is counted as a C.NOP. -/
theorem lui_hint_miscounted (hp : E.cfg.profilers = true) (h : step E s = .ok ((), s')) (hr : s'.simInst ≠ s.simInst)
    {imm : BitVec 6} (hi : s'.inst = encodeC (.lui 0#5 imm)) : Reported E.cfg.rv32c s s' ("c.nop", none) := by
  rcases step_log hp h with ⟨h1, -⟩ | ⟨-, -, r, h1, h2, h3, h4, h5, h6⟩
  · exact absurd h1 hr
  · exact ⟨r, h1, h3, cline_lui_hint h4 _ (h2.trans hi)⟩

/-- **C63.** Each retired CSR instruction is counted on the line that carries its mnemonic. -/
theorem retired_named_csr (hp : E.cfg.profilers = true) (h : step E s = .ok ((), s')) (hr : s'.simInst ≠ s.simInst)
    {a : BitVec 12} {rs1 rd : BitVec 5} {f3 : BitVec 3} (h0 : f3 ≠ 0#3) (hi : s'.inst = encI a rs1 f3 rd 0x73#7) :
    Reported E.cfg.rv32c s s' (csrName f3, none) := by
  rcases step_log hp h with ⟨h1, -⟩ | ⟨-, -, r, h1, h2, h3, h4, h5, h6⟩
  · exact absurd h1 hr
  · exact ⟨r, h1, h3, line_csr h4 _ h0 (h2.trans hi)⟩

/-- **C63.** Each retired SIMD instruction is counted on the line that carries its mnemonic. -/
theorem retired_named_x1 (hp : E.cfg.profilers = true) (h : step E s = .ok ((), s')) (hr : s'.simInst ≠ s.simInst)
    {x : X1} {m : W} (hm : x.match? = some m) {rd rs1 rs2 : BitVec 5} (hi : s'.inst = xWord m rd rs1 rs2) :
    Reported E.cfg.rv32c s s' (x.name, none) := by
  rcases step_log hp h with ⟨h1, -⟩ | ⟨-, -, r, h1, h2, h3, h4, h5, h6⟩
  · exact absurd h1 hr
  · exact ⟨r, h1, h3, line_x1 h4 _ hm (h2.trans hi)⟩
/-- **C63**, SIMD instructions with a pair of results -/
theorem retired_named_x2 (hp : E.cfg.profilers = true) (h : step E s = .ok ((), s')) (hr : s'.simInst ≠ s.simInst)
    {x : X2} {m : W} (hm : x.match? = some m) {rd rs1 rs2 : BitVec 5} (hi : s'.inst = xWord m rd rs1 rs2) :
    Reported E.cfg.rv32c s s' (x.name, none) := by
  rcases step_log hp h with ⟨h1, -⟩ | ⟨-, -, r, h1, h2, h3, h4, h5, h6⟩
  · exact absurd h1 hr
  · exact ⟨r, h1, h3, line_x2 h4 _ hm (h2.trans hi)⟩
/-- **C63**, cache hints -/
theorem retired_named_scp (hp : E.cfg.profilers = true) (h : step E s = .ok ((), s')) (hr : s'.simInst ≠ s.simInst)
    (rel : Bool) {rd rs1 rs2 : BitVec 5} (hi : s'.inst = encR 0x7f#7 rs2 rs1 (if rel then 1#3 else 0#3) rd 0x0b#7) :
    Reported E.cfg.rv32c s s' (if rel then "scp.rel" else "scp.lcl", none) := by
  rcases step_log hp h with ⟨h1, -⟩ | ⟨-, -, r, h1, h2, h3, h4, h5, h6⟩
  · exact absurd h1 hr
  · exact ⟨r, h1, h3, line_scp h4 _ rel (h2.trans hi)⟩

/-! ## Whole runs -/

/-- the entries an active profiler makes for a history (newest first), oldest first -/
def entriesOf (rv32c : Bool) (log : List ProfRec) : List Prof.Spec.Entry :=
  log.reverse.filterMap fun r => if r.active then (callOf r).map (Prof.Spec.entry rv32c r.inst) else none

theorem replay_counts (c : Bool) : ∀ log : List ProfRec, (∀ r ∈ log, (callOf r).isSome) →
    ∃ p, IProf.replay c log = .ok p ∧ Prof.Counts p (entriesOf c log)
  | [], _ => by
    refine ⟨IProf.make, rfl, ?_⟩
    have h := Prof.make_counts true
    exact ⟨h.n, h.g, h.b⟩
  | r :: t, h => by
    obtain ⟨p, h1, h2⟩ := replay_counts c t fun x hx => h x (List.mem_cons_of_mem _ hx)
    obtain ⟨k, hk⟩ := Option.isSome_iff_exists.1 (h r (List.mem_cons_self ..))
    have hp : Prof.Counts ((p.setActive r.active).newInst r.inst) (entriesOf c t) := ⟨h2.n, h2.g, h2.b⟩
    obtain ⟨p', h3, -, -, h4⟩ := Prof.call_counts (rv32c := c) hp (on := r.active) rfl k
    refine ⟨p', ?_, ?_⟩
    · show (IProf.replay c t).bind _ = _
      rw [h1]
      show IProf.feed c p r = _
      unfold IProf.feed
      rw [hk]
      exact h3
    · have : entriesOf c (r :: t) = entriesOf c t ++
          if r.active then [Prof.Spec.entry c r.inst k] else [] := by
        unfold entriesOf
        rw [List.reverse_cons, List.filterMap_append]
        congr 1
        cases ha : r.active <;> simp [ha, hk]
      rw [this]
      exact h4

theorem entries_length (c : Bool) (log : List ProfRec) (h : ∀ r ∈ log, (callOf r).isSome) :
    (entriesOf c log).length = log.countP (·.active) := by
  unfold entriesOf
  rw [← List.countP_reverse]
  have h : ∀ r ∈ log.reverse, (callOf r).isSome := fun r hr => h r (List.mem_reverse.1 hr)
  generalize log.reverse = l at h ⊢
  induction l with
  | nil => rfl
  | cons r t ih =>
    obtain ⟨k, hk⟩ := Option.isSome_iff_exists.1 (h r (List.mem_cons_self ..))
    have := ih fun x hx => h x (List.mem_cons_of_mem _ hx)
    cases ha : r.active <;> simp [ha, hk, this]

/-- a run of the core: the history grew by one record per retired instruction, and at most one for each trap and one
for the end of the run -/
theorem runN_log (hp : E.cfg.profilers = true) : ∀ (n : Nat) {s s' : St σ}, runN E n s = .ok ((), s') →
    ∃ (new : List ProfRec) (k : Nat), s'.profLog = new ++ s.profLog ∧ (∀ r ∈ new, (callOf r).isSome) ∧
      s'.simInst = s.simInst + BitVec.ofNat 64 k ∧ k ≤ new.length ∧ s.trapLog.length ≤ s'.trapLog.length ∧
      new.length ≤ k + (s'.trapLog.length - s.trapLog.length) + (if s'.running then 0 else 1)
  | 0, s, s', h => by
    cases h
    exact ⟨[], 0, rfl, by simp, by simp, Nat.le_refl _, Nat.le_refl _, by simp⟩
  | n + 1, s, s', h => by
    have stop : ∀ {n} {s s' : St σ}, s.running = false → runN E n s = .ok ((), s') → s' = s := fun {n} s s' hs h => by
      cases n with
      | zero => cases h; rfl
      | succ n =>
        have h : (if s.running then (do step E; runN E n) else pure () : M σ Unit) s = .ok ((), s') := h
        rw [hs] at h
        cases h
        rfl
    have h' : (if s.running then (do step E; runN E n) else pure () : M σ Unit) s = .ok ((), s') := h
    cases hs : s.running with
    | false =>
      rw [hs] at h'
      cases h'
      exact ⟨[], 0, rfl, by simp, by simp, Nat.le_refl _, Nat.le_refl _, by simp⟩
    | true =>
      rw [hs, if_pos rfl] at h'
      obtain ⟨⟨⟩, s1, h1, h2⟩ := bind_eq_ok.1 h'
      obtain ⟨new, k, e1, e2, e3, e4, e5, e6⟩ := runN_log hp n h2
      obtain ⟨t1, t2⟩ := step_traps_log h1
      rcases step_log hp h1 with ⟨i1, i2 | ⟨r, i2, -, -, i3, i4⟩⟩ | ⟨i1, -, r, i2, -, -, i3, -⟩
      · exact ⟨new, k, by rw [e1, i2], e2, by rw [e3, i1], e4, by omega, by omega⟩
      · refine ⟨new ++ [r], k, by rw [e1, i2]; simp, ?_, by rw [e3, i1], by simp; omega, by omega, ?_⟩
        · intro x hx
          rcases List.mem_append.1 hx with hx | hx
          · exact e2 x hx
          · rw [List.mem_singleton.1 hx]; exact call_some i3
        · rcases i4 with i4 | i4
          · have := t2 i4
            simp only [List.length_append, List.length_singleton]
            omega
          · have := stop i4 h2
            subst this
            have : new = [] := by simpa using e1
            subst this
            simp [i4]
      · refine ⟨new ++ [r], k + 1, by rw [e1, i2]; simp, ?_, ?_, by simp; omega, by omega, ?_⟩
        · intro x hx
          rcases List.mem_append.1 hx with hx | hx
          · exact e2 x hx
          · rw [List.mem_singleton.1 hx]; exact call_some i3
        · rw [e3, i1, BitVec.add_assoc, BitVec.add_comm 1#64, BitVec.ofNat_add]
        · simp only [List.length_append, List.length_singleton]
          omega

/-- **C63.** Over any run from reset, with `k` instructions retired, the instruction profiler never fails and counts
one instruction per report made while active.  There are at least `k` reports, and at most one more for each trap and
one for an instruction that ended the run. -/
theorem run_profiled (hp : E.cfg.profilers = true) {img : W → BitVec 8} {pp : ProfPc} {hs : σ} {n : Nat}
    (h : runN E n (initSt E img pp hs) = .ok ((), s')) : ∃ p k, IProf.replay E.cfg.rv32c s'.profLog = .ok p ∧
      p.instCnt = s'.profLog.countP (·.active) ∧ s'.simInst = BitVec.ofNat 64 k ∧
      k ≤ s'.profLog.length ∧ s'.profLog.length ≤ k + s'.trapLog.length + (if s'.running then 0 else 1) ∧
      (∀ o, p.cntG o = (entriesOf E.cfg.rv32c s'.profLog).count (.g o)) := by
  obtain ⟨new, k, e1, e2, e3, e4, e5, e6⟩ := runN_log hp n h
  have i1 : (initSt E img pp hs).profLog = [] := rfl
  have i2 : (initSt E img pp hs).simInst = 0#64 := rfl
  have i3 : (initSt E img pp hs).trapLog = [] := rfl
  rw [i1, List.append_nil] at e1
  rw [i2, BitVec.zero_add] at e3
  rw [i3] at e5 e6
  subst e1
  obtain ⟨p, h1, h2⟩ := replay_counts E.cfg.rv32c s'.profLog e2
  refine ⟨p, k, h1, by rw [h2.n, entries_length _ _ e2], e3, e4, by simpa using e6, fun o => ?_⟩
  simp only [IProf.cntG, h2.g]
  rfl


/-! ## Cases -/

namespace Ex
/-- profilers compiled in -/
def envP (c : Bool) : Env Unit := { env0 with cfg := { cfg0 with profilers := true, rv32c := c } }
/-- profile of a run: activation and line of each record, oldest first; retired instructions; traps -/
def prof (c : Bool) (n : Nat) (ws : List W) : Option (List (Bool × Option Line) × Nat × Nat) :=
  obs (runN (envP c) n (initSt (envP c) (image ws) ⟨0x80000004#32, 0x8000000c#32, 1#32, false, 0#32, false, 0#64⟩ ()))
    fun s => (s.profLog.reverse.map (fun r => (r.active, lineOf c r)), s.simInst.toNat, s.trapLog.length)

local instance : DecidableEq (Option Line) := inferInstanceAs (DecidableEq (Option (String × Option (Bool × Bool))))
local instance : DecidableEq (Option (List (Bool × Option Line) × Nat × Nat)) := inferInstance

/-- addi, beq not taken, jal, csrrs: four retired, four reports; `retired_named`, `retired_named_csr` -/
example : prof false 4 [0x00500093#32, 0x00100463#32, 0x0040006f#32, 0x30052073#32] = some
    ([(false, some ("addi", none)), (true, some ("beq", some (false, true))), (true, some ("jal", some (true, true))),
      (false, some ("csrrs", none))], 4, 0) := by decide +kernel
/-- a SIMD word and a cache hint -/
example : prof false 2 [0x0010820b#32, 0xfe00800b#32] = some
    ([(false, some ("add16", none)), (true, some ("scp.lcl", none))], 2, 0) := by decide +kernel
/-- `jal` to a misaligned target: nothing retires, one report for the trap -/
example : prof false 1 [0x0020006f#32] = some ([(false, some ("jal", some (true, true)))], 0, 1) := by decide +kernel
/-- an illegal word makes no report -/
example : prof false 1 [0xffffffff#32] = some ([], 0, 1) := by decide +kernel
/-- C.LI x8, 0; C.BNEZ x8 not taken: counted as C.BEQZ.  C.LUI x0, 1: counted as C.NOP -/
example : prof true 3 [0xe0194401#32, 0x00016005#32] = some
    ([(false, some ("c.li", none)), (false, some ("c.beqz", some (false, true))), (true, some ("c.nop", none))], 3, 0) := by
  decide +kernel
end Ex

end Ama
