import Verif.Lemmas.ProfTraceEv
import Verif.Lemmas.Ex
import Verif.Props.ProfRf
/-!
# C74, C75, C76: the instruction trace, the peak stack usage and the stack access counters
-/
namespace Ama.ProfTrace
open M Spec Prof
variable {σ : Type} {E : Env σ} {p p' p0 : Prf} {s s' s0 : St σ}

/-- **C74**: with the instruction trace the core does what it does without. -/
theorem trace_transparent (n : Nat) (p : Prf) (s s' : St σ) :
    (∃ p', runT E n p s = .ok (p', s')) ↔ runN E n s = .ok ((), s') := by
  have h := runT_same (E := E) n p s
  constructor
  · rintro ⟨p', hr⟩
    rw [hr] at h
    cases hs : runN E n s with
    | ok q => rw [hs] at h; obtain ⟨⟨⟩, q⟩ := q; cases h; rfl
    | _ => rw [hs] at h; cases h
  · intro hr
    rw [hr] at h
    cases hs : runT E n p s with
    | ok q => rw [hs] at h; obtain ⟨p', q⟩ := q; cases h; exact ⟨p', rfl⟩
    | _ => rw [hs] at h; cases h

/-! ## C74: the instruction trace -/

/-- the access an entry shows -/
def TE.access (e : TE) : Option Access := accOf e.dmemSize e.dmem

/-- what an entry says about the instruction retired between `s` and `s'` -/
structure Entry (s s' : St σ) (e : TE) : Prop where
  inst : e.inst = s'.inst
  pc : e.pc = s.pc
  next : e.nextPc = s'.pc
  sp : e.sp = s'.rf 2#5
  count : e.sampleCnt = s'.simInst
  size : e.instSize = instBytes s'.inst
  /-- not for compressed branches to the next instruction -/
  taken : ∀ m, Meaning s'.inst m → ¬ NextBranch s'.inst → e.taken = m.elim false (transfers s.rf)

theorem copcode_mod (w : W) : IP.copcode w = 3#2 ↔ w.toNat % 4 = 3 := by
  rw [copcode_opcode, opcode_low]
  constructor
  · intro h
    have := congrArg BitVec.toNat h
    simp at this
    omega
  · intro h
    apply BitVec.eq_of_toNat_eq
    simp
    omega
theorem exec_trace (p : Prf) (q0 q1 : St σ) : (p.exec E q0 q1).trace = p.trace ∧ (p.exec E q0 q1).minSp = p.minSp ∧
    ((p.exec E q0 q1).dmemSize, (p.exec E q0 q1).dmem) = (dmemCall q1.inst q0.rf).getD (p.dmemSize, p.dmem) ∧
    (p.exec E q0 q1).taken = (newRec q0 q1).elim false takenCall ∧
    (p.exec E q0 q1).instW = if IP.copcode q1.inst = 3#2 then 8 else if E.cfg.rv32c then 4 else p.instW := by
  have hs : ∀ (p : Prf) x, (p.stack x).trace = p.trace ∧ (p.stack x).minSp = p.minSp ∧ (p.stack x).dmemSize = p.dmemSize ∧
      (p.stack x).dmem = p.dmem ∧ (p.stack x).taken = p.taken ∧ (p.stack x).instW = p.instW := fun p x => by
    unfold Prf.stack
    split <;> exact ⟨rfl, rfl, rfl, rfl, rfl, rfl⟩
  unfold Prf.exec
  by_cases h : q1.profActive = true
  · simp only [h, if_true, hs]
    exact ⟨trivial, trivial, trivial, trivial, trivial⟩
  · simp only [h]
    exact ⟨rfl, rfl, rfl, rfl, rfl⟩

/-- **C74.** An instruction retired while profiling is active adds one entry, with its word, its address and that of the
next instruction, the stack pointer, the number of instructions retired, the size and whether control was transferred.
Missing: transfer of compressed branches to the next instruction (`trace_next_branch`). -/
theorem trace_step_partial (hp : E.cfg.profilers = true) (h0 : s.rf 0#5 = 0#32) (h : stepT E p s = .ok (p', s'))
    (hr : s'.simInst ≠ s.simInst) (ha : s'.profActive = true) : ∃ e, p'.trace = e :: p.trace ∧ Entry s s' e := by
  obtain ⟨qc, q1, r, he, h1, h2, h3, h4, h5, h6, h7, h8, h9, h10, h11, -, -, hps⟩ := stepT_retired hp h hr
  obtain ⟨t1, -, -, t4, t5⟩ := exec_trace (E := E) p qc q1
  rw [hps]
  unfold Prf.save
  rw [if_pos (by rw [h7, ha])]
  refine ⟨_, congrArg (List.cons _) t1, ⟨h3, h4, h5, by rw [← h2], h6, ?_, fun m hm hx => ?_⟩⟩
  · simp only [t5]
    unfold instBytes
    rw [h3]
    by_cases hc : IP.copcode s'.inst = 3#2
    · rw [if_pos hc, if_pos ((copcode_mod _).1 hc)]
    · rw [if_neg hc, if_neg (fun e => hc ((copcode_mod _).2 e))]
      rcases Dasm.exec_word he h8 with ⟨hx, _⟩ | ⟨_, hx⟩
      · rw [h3] at hx; exact absurd hx hc
      · rw [if_pos hx]
  · simp only [t4, h9]
    exact taken_ok h11 h0 (h10 ▸ hm) (h10 ▸ hx)
/-- **C74.** Nothing else adds an entry. -/
theorem trace_only (hp : E.cfg.profilers = true) (h : stepT E p s = .ok (p', s'))
    (hr : s'.simInst = s.simInst ∨ s'.profActive = false) : p'.trace = p.trace := by
  by_cases hn : s'.simInst = s.simInst
  · rcases stepT_other h hn with e | ⟨qc, q1, -, -, -, -, -, -, e⟩
    · rw [e]
    · rw [e, (exec_trace p qc q1).1]
  · obtain ⟨qc, q1, r, -, -, -, -, -, -, -, h7, -, -, -, -, -, -, hps⟩ := stepT_retired hp h hn
    rw [hps]
    unfold Prf.save
    rw [if_neg (by rw [h7, hr.resolve_left hn]; decide)]
    exact (exec_trace p qc q1).1
/-- **C74, data accesses.** The entry of an instruction that is not compressed shows its access, if it makes one; of one
that makes none, what was pending (`p.dmemSize`), and nothing is pending after.  Missing: compressed loads and stores
(`trace_comp_access`); accesses pending from instructions that were not traced (`trace_stale_window`, `trace_stale_trap`). -/
theorem trace_access_partial (hp : E.cfg.profilers = true) (h0 : s.rf 0#5 = 0#32) (h : stepT E p s = .ok (p', s'))
    (hr : s'.simInst ≠ s.simInst) (ha : s'.profActive = true) :
    ∃ e, p'.trace = e :: p.trace ∧ p'.dmemSize = .noAccess ∧
      (∀ i, s'.inst = encode i → ∀ a, access s.rf i = some a → e.access = some a) ∧
      (∀ m, Meaning s'.inst m → m.bind (access s.rf) = none → e.access = accOf p.dmemSize p.dmem) := by
  obtain ⟨qc, q1, r, he, h1, h2, h3, h4, h5, h6, h7, h8, h9, h10, h11, -, -, hps⟩ := stepT_retired hp h hr
  obtain ⟨t1, -, t3, -, -⟩ := exec_trace (E := E) p qc q1
  rw [hps]
  unfold Prf.save
  rw [if_pos (by rw [h7, ha])]
  rw [h3, h1] at t3
  refine ⟨_, congrArg (List.cons _) t1, rfl, fun i hi a hai => ?_, fun m hm hn => ?_⟩
  · have hd := (dmem_base h0 i).1
    rw [hai] at hd
    rw [hi] at t3
    cases hc : dmemCall (encode i) s.rf with
    | none => rw [hc] at hd; cases hd
    | some d =>
      rw [hc] at hd t3
      have t3 : (_, _) = d := t3
      have t4 := congrArg Prod.snd t3
      have t3 := congrArg Prod.fst t3
      simp only at t3 t4
      simp only [TE.access, t3, t4]
      exact hd
  · rw [dmem_none h0 hm hn] at t3
    injection t3 with t3 t4
    simp only [TE.access, t3, t4]

/-- a run from `s0` with steps in `R`, and those that retired an instruction (newest first) -/
inductive Run (E : Env σ) (R : St σ → St σ → Prop) (p0 : Prf) (s0 : St σ) : List (St σ × St σ) → Prf → St σ → Prop
  | nil : Run E R p0 s0 [] p0 s0
  | retired {L p p' s s'} : Run E R p0 s0 L p s → stepT E p s = .ok (p', s') → s'.simInst ≠ s.simInst → R s s' →
      Run E R p0 s0 ((s, s') :: L) p' s'
  | other {L p p' s s'} : Run E R p0 s0 L p s → stepT E p s = .ok (p', s') → s'.simInst = s.simInst → R s s' →
      Run E R p0 s0 L p' s'
variable {R : St σ → St σ → Prop}
/-- steps that execute nothing without retiring it, nor retire an instruction that accesses data while profiling is not
active -/
def Quiet (s s' : St σ) : Prop :=
  (s'.simInst = s.simInst → s'.trapped = false ∧ s'.running = true) ∧
  (s'.simInst ≠ s.simInst → s'.profActive = false → ∃ m, Meaning s'.inst m ∧ m.bind (access s.rf) = none)
/-- steps that do not end the run, nor execute a store of undefined width -/
def Proper (_ s' : St σ) : Prop := s'.running = true ∧ ¬ undefStore s'.inst

theorem run_x0 {L : List (St σ × St σ)} (h : Run E R p0 s0 L p s) (h0 : s0.rf 0#5 = 0#32) :
    s.rf 0#5 = 0#32 := by
  induction h with
  | nil => exact h0
  | retired _ hs _ _ ih => exact x0_zero_step E _ _ ih (step_of hs)
  | other _ hs _ _ ih => exact x0_zero_step E _ _ ih (step_of hs)

/-- the instructions retired while profiling was active -/
def active (L : List (St σ × St σ)) : List (St σ × St σ) := L.filter fun x => x.2.profActive
/-- **C74**, whole runs: at every point of every run, the trace has exactly one entry for each instruction retired while
profiling was active, in order, as `Entry` says.  Missing: see `trace_step_partial`. -/
theorem trace_run_partial (hp : E.cfg.profilers = true) {L : List (St σ × St σ)} (h : Run E R p0 s0 L p s)
    (h0 : s0.rf 0#5 = 0#32) (ht : p0.trace = []) :
    List.Forall₂ (fun e x => Entry x.1 x.2 e) p.trace (active L) := by
  induction h with
  | nil => rw [ht]; exact .nil
  | @retired L p p' s s' hr hs hn _ ih =>
    unfold active
    cases ha : s'.profActive with
    | true =>
      obtain ⟨e, e1, e2⟩ := trace_step_partial hp (run_x0 hr h0) hs hn ha
      rw [List.filter_cons_of_pos (by exact ha), e1]
      exact .cons e2 ih
    | false =>
      rw [List.filter_cons_of_neg (by simp [ha]), trace_only hp hs (.inr ha)]
      exact ih
  | @other L p p' s s' hr hs hn _ ih =>
    rw [trace_only hp hs (.inl hn)]
    exact ih
/-- **C74, data accesses**, quiet runs without compressed loads and stores: every entry shows exactly the access its
instruction made.  Missing: see `trace_access_partial`. -/
theorem trace_run_access_partial (hp : E.cfg.profilers = true) {L : List (St σ × St σ)} (h : Run E Quiet p0 s0 L p s)
    (h0 : s0.rf 0#5 = 0#32) (ht : p0.trace = []) (hd : p0.dmemSize = .noAccess)
    (hL : ∀ x ∈ L, (∃ i, x.2.inst = encode i) ∨ ∃ m, Meaning x.2.inst m ∧ m.bind (access x.1.rf) = none) :
    List.Forall₂ (fun e x => (∀ i, x.2.inst = encode i → e.access = access x.1.rf i) ∧
      (∀ m, Meaning x.2.inst m → m.bind (access x.1.rf) = none → e.access = none)) p.trace (active L) := by
  suffices List.Forall₂ (fun e x => (∀ i, x.2.inst = encode i → e.access = access x.1.rf i) ∧
      (∀ m, Meaning x.2.inst m → m.bind (access x.1.rf) = none → e.access = none)) p.trace (active L) ∧
      p.dmemSize = .noAccess from this.1
  induction h with
  | nil => rw [ht]; exact ⟨.nil, hd⟩
  | @retired L p p' s s' hr hs hn hk ih =>
    have hx0 := run_x0 hr h0
    obtain ⟨ih, hpd⟩ := ih (fun x hx => hL x (List.mem_cons_of_mem _ hx))
    unfold active
    cases ha : s'.profActive with
    | true =>
      obtain ⟨e, e1, e2, e3, e4⟩ := trace_access_partial hp hx0 hs hn ha
      rw [List.filter_cons_of_pos (by exact ha), e1]
      rw [hpd] at e4
      refine ⟨.cons ⟨fun i hi => ?_, e4⟩ ih, e2⟩
      cases hc : access s.rf i with
      | some a => exact e3 i hi a hc
      | none => exact e4 (some i) (hi ▸ .base i) hc
    | false =>
      rw [List.filter_cons_of_neg (by simp [ha]), trace_only hp hs (.inr ha)]
      refine ⟨ih, ?_⟩
      obtain ⟨m, hm, hmn⟩ := hk.2 hn ha
      obtain ⟨qc, q1, r, -, h1, -, h3, -, -, -, h7, -, -, -, -, -, -, hps⟩ := stepT_retired hp hs hn
      have t3 := (exec_trace (E := E) p qc q1).2.2.1
      rw [h3, h1, dmem_none hx0 hm hmn] at t3
      injection t3 with t3 t4
      rw [hps]
      unfold Prf.save
      rw [if_neg (by rw [h7, ha]; decide)]
      simp only [t3]
      exact hpd
  | @other L p p' s s' hr hs hn hk ih =>
    obtain ⟨ih, hpd⟩ := ih hL
    rw [trace_only hp hs (.inl hn)]
    refine ⟨ih, ?_⟩
    rcases stepT_other hs hn with e | ⟨qc, q1, -, -, -, -, -, hx, e⟩
    · rw [e]; exact hpd
    · have := hk.1 hn
      rcases hx with hx | hx
      · rw [this.1] at hx; cases hx
      · rw [this.2] at hx; cases hx

/-! ## C75: peak stack usage -/

theorem save_minSp (q : St σ) : (p.save q).minSp = trackSp p.minSp (q.rf 2#5) := by
  unfold Prf.save
  split <;> rfl
theorem step_minSp (hp : E.cfg.profilers = true) (h : stepT E p s = .ok (p', s')) :
    p'.minSp = if s'.simInst = s.simInst then p.minSp else trackSp p.minSp (s'.rf 2#5) := by
  by_cases hn : s'.simInst = s.simInst
  · rw [if_pos hn]
    rcases stepT_other h hn with e | ⟨qc, q1, -, -, -, -, -, -, e⟩
    · rw [e]
    · rw [e]; exact (exec_trace p qc q1).2.1
  · rw [if_neg hn]
    obtain ⟨qc, q1, r, -, -, h2, -, -, -, -, -, -, -, -, -, -, -, hps⟩ := stepT_retired hp h hn
    rw [hps, save_minSp, (exec_trace p qc q1).2.1, h2]
/-- bytes of the stack in use, the stack growing down from the top of main memory -/
def stackUse (sp : W) : Nat := 0x80020000 - sp.toNat
/-- **C75**: at every point of every run from the start, the reported peak is the largest use of the stack after a retired
instruction, over the stack pointers inside main memory, and 0 if there are none.  Missing: the stack pointer at the very
start of main memory (`peak_full`). -/
theorem peak_run_partial (hp : E.cfg.profilers = true) {L : List (St σ × St σ)}
    (h : Run E R Prf.init s0 L p s) :
    (∀ x ∈ L, 0x80000000#32 < x.2.rf 2#5 → stackUse (x.2.rf 2#5) ≤ p.peak.toNat) ∧
    (p.peak.toNat = 0 ∨ ∃ x ∈ L, 0x80000000#32 < x.2.rf 2#5 ∧ x.2.rf 2#5 < 0x80020000#32 ∧
      p.peak.toNat = stackUse (x.2.rf 2#5)) := by
  have key : 0x80000000#32 < p.minSp ∧ p.minSp ≤ 0x80020000#32 ∧
      (∀ x ∈ L, 0x80000000#32 < x.2.rf 2#5 → p.minSp ≤ x.2.rf 2#5) ∧
      (p.minSp = 0x80020000#32 ∨ ∃ x ∈ L, p.minSp = x.2.rf 2#5 ∧ x.2.rf 2#5 < 0x80020000#32) := by
    induction h with
    | nil => exact ⟨by decide, by decide, fun _ h => by simp at h, .inl rfl⟩
    | @retired L p p' s s' hr hs hn _ ih =>
      obtain ⟨k1, k2, k3, k4⟩ := ih
      have e := step_minSp hp hs
      rw [if_neg hn] at e
      unfold trackSp at e
      by_cases hc : 0x80000000#32 < s'.rf 2#5 ∧ s'.rf 2#5 < p.minSp
      · rw [if_pos hc] at e
        rw [e]
        refine ⟨hc.1, by bv_omega, fun x hx hlt => ?_, .inr ⟨(s, s'), List.mem_cons_self .., rfl, by bv_omega⟩⟩
        rcases List.mem_cons.1 hx with rfl | hx
        · exact BitVec.le_refl _
        · have := k3 x hx hlt
          bv_omega
      · rw [if_neg hc] at e
        rw [e]
        refine ⟨k1, k2, fun x hx hlt => ?_, k4.imp_right fun ⟨x, hx, h⟩ => ⟨x, List.mem_cons_of_mem _ hx, h⟩⟩
        rcases List.mem_cons.1 hx with rfl | hx
        · simp only at hlt ⊢
          bv_omega
        · exact k3 x hx hlt
    | @other L p p' s s' hr hs hn _ ih =>
      have e := step_minSp hp hs
      rw [if_pos hn] at e
      rw [e]
      exact ih
  obtain ⟨k1, k2, k3, k4⟩ := key
  have hpk : p.peak.toNat = stackUse p.minSp := by
    unfold Prf.peak stackUse
    bv_omega
  rw [hpk]
  refine ⟨fun x hx hlt => ?_, ?_⟩
  · have := k3 x hx hlt
    unfold stackUse
    bv_omega
  · rcases k4 with e | ⟨x, hx, e, hlt⟩
    · left; rw [e]; rfl
    · right
      exact ⟨x, hx, e ▸ k1, hlt, by rw [e]⟩

/-! ## C76: stack access counters -/

/-- the counters -/
def Prf.cnt (p : Prf) : Bool → Nat
  | false => p.stackLoad
  | true => p.stackStore
theorem stack_cnt (p : Prf) (x : Option (Bool × Bool)) (st : Bool) :
    (p.stack x).cnt st = p.cnt st + if x = some (st, true) then 1 else 0 := by
  rcases x with _ | ⟨_ | _, _ | _⟩ <;> cases st <;> simp [Prf.stack, Prf.cnt]
theorem exec_cnt {q0 q1 : St σ} (hb : badStore q1.inst = false) (st : Bool) : (p.exec E q0 q1).cnt st = p.cnt st +
    if q1.profActive = true ∧ ((newRec q0 q1).bind fun r => stackCall r q0.rf q1.rf) = some (st, true) then 1 else 0 := by
  by_cases h : q1.profActive = true
  · simp only [Prf.exec, hb, h, if_true, true_and, Bool.false_eq_true, if_false]
    rw [stack_cnt]
    cases st <;> rfl
  · simp only [Prf.exec, h, Bool.false_eq_true, if_false, false_and]
    cases st <;> rfl
theorem save_cnt (q : St σ) (st : Bool) : (p.save q).cnt st = p.cnt st := by
  unfold Prf.save
  split <;> cases st <;> rfl

/-- **C76**, retired instructions: a counter goes up by one if profiling is active, the instruction accesses data in its
direction and the address is above the stack pointer after the instruction.  Missing: C.LWSP into the stack pointer; and
see `stack_step_partial`. -/
theorem stack_step_code (hp : E.cfg.profilers = true) (h0 : s.rf 0#5 = 0#32) (h : stepT E p s = .ok (p', s'))
    (hr : s'.simInst ≠ s.simInst) {m : Option Instr} (hm : Meaning s'.inst m) (hx : NoReload s'.inst m) (st : Bool) :
    p'.cnt st = p.cnt st + if s'.profActive = true ∧
      ∃ a, m.bind (access s.rf) = some a ∧ a.store = st ∧ s'.rf 2#5 < a.addr then 1 else 0 := by
  obtain ⟨qc, q1, r, he, h1, h2, h3, h4, h5, h6, h7, h8, h9, h10, h11, -, -, hps⟩ := stepT_retired hp h hr
  rw [hps, save_cnt, exec_cnt (by rw [h3]; exact badStore_no hm), h9, h7]
  have hk := stack_ok he h8 (h1 ▸ h11) (h10.trans h3.symm) (by rw [h1]; exact h0) (h3 ▸ hm) (h3 ▸ hx)
  rw [h1, h2] at hk
  simp only [Option.bind_some, h1, h2, hk]
  congr 1
  cases m.bind (access s.rf) with
  | none => simp
  | some a => simp
/-- **C76**: a load counts as a stack load and a store as a stack store exactly if its address is on the stack: at or above
the stack pointer, within main memory.  Missing: accesses at the stack pointer itself (`stack_at_sp`), above main memory, and
loads into the stack pointer. -/
theorem stack_step_partial (hp : E.cfg.profilers = true) (h0 : s.rf 0#5 = 0#32) (h : stepT E p s = .ok (p', s'))
    (hr : s'.simInst ≠ s.simInst) (ha : s'.profActive = true) {i : Instr} (hm : Meaning s'.inst (some i)) {a : Access}
    (hi : access s.rf i = some a) (hl : ¬ loadsInto 2#5 i) (hne : a.addr ≠ s.rf 2#5) (hmem : a.addr.toNat < 0x80020000)
    (st : Bool) : p'.cnt st = p.cnt st + if a.store = st ∧ onStack (s.rf 2#5) a.addr then 1 else 0 := by
  obtain ⟨qc, q1, r, he, h1, h2, h3, -, -, -, -, h8, -⟩ := stepT_retired hp h hr
  have hsp := sp_keep he h8 (h3 ▸ hm) (h1 ▸ hi) hl
  rw [h1, h2] at hsp
  rw [stack_step_code hp h0 h hr hm (.inr fun _ e => Option.some.inj e ▸ hl) st]
  congr 1
  have : (s'.profActive = true ∧ ∃ b, (some i).bind (access s.rf) = some b ∧ b.store = st ∧ s'.rf 2#5 < b.addr) ↔
      (a.store = st ∧ onStack (s.rf 2#5) a.addr) := by
    rw [hsp]
    simp only [ha, true_and, Option.bind_some, hi, Option.some.injEq]
    constructor
    · rintro ⟨b, rfl, h1, h2⟩
      exact ⟨h1, by bv_omega, hmem⟩
    · rintro ⟨h1, h2, h3⟩
      exact ⟨a, rfl, h1, by bv_omega⟩
  simp only [this]

theorem undef_of {w : W} (h : ¬ undefStore w) : badStore w = false := by
  cases hb : badStore w with
  | false => rfl
  | true =>
    unfold badStore at hb
    simp only [Bool.and_eq_true, beq_iff_eq] at hb
    refine (h ⟨(opcode_low w).symm.trans hb.1.2, ?_⟩).elim
    have hf : IP.funct3 w = w.extractLsb' 12 3 := by fields [IP.funct3]
    rw [← hf]
    have h2 := hb.2
    revert h2
    generalize IP.funct3 w = f
    revert f
    decide
/-- **C76.** A step that retires no instruction changes no counter, unless it executes a store of undefined width
(`stack_undefined`) or ends the run. -/
theorem stack_other_partial (hp : E.cfg.profilers = true) (h : stepT E p s = .ok (p', s'))
    (hr : s'.simInst = s.simInst) (hx : Proper s s') (st : Bool) : p'.cnt st = p.cnt st := by
  rcases stepT_other h hr with e | ⟨qc, q1, he, -, -, h2, h3, ht, e⟩
  · rw [e]
  · rw [e, exec_cnt (by rw [h2]; exact undef_of hx.2)]
    have : ((newRec qc q1).bind fun r => stackCall r qc.rf q1.rf) = none := by
      cases hn : newRec qc q1 with
      | none => rfl
      | some r => exact stack_trap hp he (h3.trans (ht.resolve_right (by simp [hx.1]))) hn _ _
    rw [this]
    simp

/-- the instructions retired while profiling was active that access data on the stack, in the direction `st`; `mean` is the
meaning of words -/
def onStacks (mean : W → Option Instr) (st : Bool) (L : List (St σ × St σ)) : List (St σ × St σ) :=
  (active L).filter fun x => ((mean x.2.inst).bind (access x.1.rf)).any fun a => a.store == st && onStack (x.1.rf 2#5) a.addr
/-- not a load into the stack pointer, and no access at the stack pointer or above main memory -/
def Plain (s : St σ) (i : Instr) : Prop :=
  ¬ loadsInto 2#5 i ∧ ∀ a, access s.rf i = some a → a.addr ≠ s.rf 2#5 ∧ a.addr.toNat < 0x80020000
/-- **C76**, whole runs: the counters are the numbers of loads and stores on the stack retired while profiling was active.
Missing: instructions that are not `Plain`, steps that are not `Proper`. -/
theorem stack_run_partial (hp : E.cfg.profilers = true) {L : List (St σ × St σ)} (h : Run E Proper Prf.init s0 L p s)
    (h0 : s0.rf 0#5 = 0#32) (mean : W → Option Instr)
    (hL : ∀ x ∈ L, Meaning x.2.inst (mean x.2.inst) ∧ ∀ i, mean x.2.inst = some i → Plain x.1 i) (st : Bool) :
    p.cnt st = (onStacks mean st L).length := by
  induction h with
  | nil => cases st <;> rfl
  | @retired L p p' s s' hr hs hn hk ih =>
    have hx0 := run_x0 hr h0
    have ih := ih fun x hx => hL x (List.mem_cons_of_mem _ hx)
    obtain ⟨hm, hpl⟩ := hL _ (List.mem_cons_self ..)
    simp only at hm hpl
    have hadd : p'.cnt st = p.cnt st + if s'.profActive = true ∧ (((mean s'.inst).bind (access s.rf)).any fun a =>
        a.store == st && onStack (s.rf 2#5) a.addr) = true then 1 else 0 := by
      cases ha : s'.profActive with
      | false =>
        obtain ⟨qc, q1, r, -, -, -, h3, -, -, -, h7, -, -, -, -, -, -, hps⟩ := stepT_retired hp hs hn
        rw [hps, save_cnt, exec_cnt (by rw [h3]; exact badStore_no hm), h7, ha]
        simp
      | true =>
        cases hmi : mean s'.inst with
        | none =>
          rw [hmi] at hm
          rw [stack_step_code hp hx0 hs hn hm (.inr fun _ e => by cases e) st]
          simp
        | some i =>
          rw [hmi] at hm
          obtain ⟨hl, hpa⟩ := hpl i hmi
          cases hac : access s.rf i with
          | some a =>
            rw [stack_step_partial hp hx0 hs hn ha hm hac hl (hpa a hac).1 (hpa a hac).2 st]
            simp [hac]
          | none =>
            rw [stack_step_code hp hx0 hs hn hm (.inr fun _ e => Option.some.inj e ▸ hl) st]
            simp [hac]
    rw [hadd, ih]
    unfold onStacks active
    cases ha : s'.profActive with
    | false => rw [List.filter_cons_of_neg (l := L) (by simp [ha])]; simp
    | true =>
      rw [List.filter_cons_of_pos (l := L) (by exact ha)]
      simp only [true_and]
      cases hc : (((mean s'.inst).bind (access s.rf)).any fun a => a.store == st && onStack (s.rf 2#5) a.addr) with
      | true => rw [List.filter_cons_of_pos (by exact hc)]; rfl
      | false => rw [List.filter_cons_of_neg (by simp only [hc]; decide)]; rfl
  | @other L p p' s s' hr hs hn hk ih =>
    rw [stack_other_partial hp hs hn hk]
    exact ih hL


/-! ## Runs of the model, and where the code differs -/

namespace Ex
open Ama.Ex (image)
open ProfRf.Ex (envR stR)
/-- reset state, profiling from the instruction at `pc` -/
def stW (c : Bool) (pc : W) (ws : List W) : St Unit :=
  initSt (envR c) (image ws) ⟨pc, 0xfffffff0#32, 1#32, false, 0#32, false, 0#64⟩ ()
/-- profiler after a run, and number of retired instructions -/
def at' (c : Bool) (n : Nat) (ws : List W) (pc : W := 0x80000000#32) : Option (Prf × Nat) :=
  match runT (envR c) n Prf.init (stW c pc ws) with
  | .ok (p, s) => some (p, s.simInst.toNat)
  | _ => none
/-- two compressed instructions in a word -/
def two (a b : CInstr) : W := encodeC a ||| (encodeC b <<< 16)
/-- trace entries: pc, taken, size, access -/
def entries (c : Bool) (n : Nat) (ws : List W) (pc : W := 0x80000000#32) : Option (List (W × Bool × Nat × Option Access)) :=
  (at' c n ws pc).map fun x => x.1.trace.map fun e => (e.pc, e.taken, e.instSize, e.access)
def stats (c : Bool) (n : Nat) (ws : List W) : Option (W × Nat × Nat × Nat) :=
  (at' c n ws).map fun x => (x.1.peak, x.1.stackLoad, x.1.stackStore, x.2)
/-- `lui r, 0x80010` -/
def base (r : BitVec 5) : W := encode (.lui r 0x80010#20)
/-- LUI, SH, LBU and a backward jump -/
example : entries false 4 [base 1#5, encode (.store .sh 1#5 1#5 6#12), encode (.load .lbu 3#5 1#5 7#12),
    encode (.jal 0#5 0xffffe#20)] = some
    [(0x8000000c#32, true, 4, none), (0x80000008#32, false, 4, some ⟨false, 1, 0x80010007#32⟩),
     (0x80000004#32, false, 4, some ⟨true, 2, 0x80010006#32⟩), (0x80000000#32, false, 4, none)] := by decide +kernel
/-- **C74 fails for compressed loads and stores**: the entry of `c.lw x8, 4(x9)` shows no access. -/
theorem trace_comp_access : entries true 2 [base 9#5, two (.lw 0#3 1#3 1#5) (.addi 1#5 1#6)] =
    some [(0x80000004#32, false, 2, none), (0x80000000#32, false, 4, none)] ∧
    (∀ rf : BitVec 5 → W, rf 9#5 = 0x80010000#32 →
      access rf (expand (.lw 0#3 1#3 1#5)) = some ⟨false, 4, 0x80010004#32⟩) :=
  ⟨by decide +kernel, fun rf h => by
    show some (⟨false, 4, rf 9#5 + 4#32⟩ : Access) = _
    rw [h]; rfl⟩
/-- **C74 fails for compressed branches to the next instruction**: `c.bnez x8, 2` with x8 ≠ 0 is taken, but its entry says
it is not; that of `c.bnez x8, 4` says it is. -/
theorem trace_next_branch : entries true 1 [two (.bnez 0#3 1#8) (.addi 1#5 1#6)] = some [(0x80000000#32, false, 2, none)] ∧
    (stW true 0x80000000#32 []).rf 8#5 ≠ 0#32 ∧
    entries true 1 [two (.bnez 0#3 2#8) (.addi 1#5 1#6)] = some [(0x80000000#32, true, 2, none)] :=
  ⟨by decide +kernel, by decide +kernel, by decide +kernel⟩
/-- **C74 fails at the start of the window**: profiling starts with the third instruction, an ADDI, and its entry shows the
access of the load before it. -/
theorem trace_stale_window : entries false 3 [base 1#5, encode (.load .lw 2#5 1#5 4#12),
    encode (.alui .addi 3#5 0#5 1#12)] 0x80000008#32 =
    some [(0x80000008#32, false, 4, some ⟨false, 4, 0x80010004#32⟩)] := by decide +kernel
/-- **C74 fails after a trap**: mtvec is set, `lw x2, 1(x1)` traps, and the entry of the ADDI in the handler shows the access
that was not made. -/
theorem trace_stale_trap : entries false 5 [0x00000097#32, 0x01408093#32, 0x30509073#32, encode (.load .lw 2#5 1#5 1#12),
    0x13#32, 0x13#32] = some
    [(0x80000014#32, false, 4, some ⟨false, 4, 0x80000015#32⟩), (0x80000008#32, false, 4, none),
     (0x80000004#32, false, 4, none), (0x80000000#32, false, 4, none)] := by decide +kernel

/-- 64 KiB of stack in use -/
example : stats false 1 [base 2#5] = some (65536#32, 0, 0, 1) := by decide +kernel
/-- **C75 fails for a full stack**: the stack pointer is at the start of main memory, all 128 KiB are in use, and the peak
reported is 0; one word less is reported right. -/
theorem peak_full : stats false 1 [encode (.lui 2#5 0x80000#20)] = some (0#32, 0, 0, 1) ∧
    stackUse 0x80000000#32 = 131072 ∧
    stats false 2 [encode (.lui 2#5 0x80000#20), encode (.alui .addi 2#5 2#5 4#12)] = some (131068#32, 0, 0, 2) := by
  decide +kernel

/-- a load and a store above the stack pointer -/
example : stats false 3 [base 2#5, encode (.store .sb 2#5 2#5 4#12), encode (.load .lw 3#5 2#5 4#12)] =
    some (65536#32, 1, 1, 3) := by decide +kernel
/-- **C76 fails at the stack pointer**: `lw x3, 0(sp)` is not counted, though it reads the top of the stack. -/
theorem stack_at_sp : stats false 2 [base 2#5, encode (.load .lw 3#5 2#5 0#12)] = some (65536#32, 0, 0, 2) ∧
    onStack 0x80010000#32 0x80010000#32 := by decide +kernel
/-- **C76 fails for loads into the stack pointer**: `lw sp, 4(sp)` is compared with the value it loads. -/
theorem stack_load_sp : stats false 2 [base 2#5, encode (.load .lw 2#5 2#5 4#12)] = some (65536#32, 0, 0, 2) ∧
    onStack 0x80010000#32 0x80010004#32 := by decide +kernel
/-- **C76 fails for stores of undefined width**: one traps as illegal, and is counted. -/
theorem stack_undefined : stats false 2 [base 1#5, encS 4#12 1#5 1#5 3#3 0x23#7] = some (0#32, 0, 1, 1) ∧
    undefStore (encS 4#12 1#5 1#5 3#3 0x23#7) := by decide +kernel

/-- a step meets the hypotheses of `trace_step_partial`, `trace_access_partial`, `stack_step_code` and `stack_step_partial`:
the state after `lui x2, 0x80010`, before `lw x3, 4(x2)` -/
example : (match stepT (envR false) Prf.init (stR false [base 2#5, encode (.load .lw 3#5 2#5 4#12)]) with
    | .ok (p, s) => match stepT (envR false) p s with
      | .ok (_, s') => decide (s.rf 0#5 = 0#32 ∧ s'.simInst ≠ s.simInst ∧ s'.profActive = true ∧
          s'.inst = encode (.load .lw 3#5 2#5 4#12) ∧ s.rf 2#5 = 0x80010000#32)
      | _ => false
    | _ => false) = true := by decide +kernel
/-- ... and its word means that load, which is `Plain` there -/
example : Meaning (encode (.load .lw 3#5 2#5 4#12)) (some (.load .lw 3#5 2#5 4#12)) ∧
    ∀ rf : BitVec 5 → W, rf 2#5 = 0x80010000#32 → access rf (.load .lw 3#5 2#5 4#12) = some ⟨false, 4, 0x80010004#32⟩ ∧
      (⟨false, 4, 0x80010004#32⟩ : Access).addr ≠ rf 2#5 ∧ ¬ loadsInto 2#5 (.load .lw 3#5 2#5 4#12) :=
  ⟨.base _, fun rf h => ⟨by show some (⟨false, 4, rf 2#5 + 4#32⟩ : Access) = _; rw [h]; rfl, by rw [h]; decide,
    by simp [loadsInto]⟩⟩
/-- a run that is `Quiet` and `Proper` -/
example : ∃ L p s, Run (envR false) (fun s s' => Quiet s s' ∧ Proper s s') Prf.init (stR false [base 2#5]) L p s ∧
    L.length = 1 := by
  have h : (match stepT (envR false) Prf.init (stR false [base 2#5]) with
    | .ok (_, s) => decide (s.simInst ≠ (stR false [base 2#5]).simInst ∧ s.running = true ∧ s.profActive = true ∧
        s.inst = base 2#5) | _ => false) = true := by decide +kernel
  split at h
  · rename_i p s hs
    obtain ⟨h1, h2, h3, h4⟩ := of_decide_eq_true h
    refine ⟨_, _, _, .retired .nil hs h1 ⟨⟨fun e => absurd e h1, fun _ e => ?_⟩, h2, ?_⟩, rfl⟩
    · rw [h3] at e; cases e
    · rw [h4]; decide
  · cases h
end Ex
end Ama.ProfTrace
