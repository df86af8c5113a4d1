import Verif.Lemmas.Sparsity
import Verif.Props.ProfRf
/-!
# C88: the sparsity counters
-/
namespace Ama.Sparsity
open M Prof
open Ama.Spec
open ProfRf (usesOf rfAt)
variable {σ : Type} {E : Env σ} {s s' s0 : St σ} {ld : W} {n n' : Cnt}

/-- instructions whose inputs are counted differently, and the hints that switch profiling on and off -/
def MisSparse (w : W) : Prop :=
  (∃ rd rs1, w = encode (.shift .srai rd rs1 0#5)) ∨ (∃ rd imm, w = encodeC (.addi rd imm)) ∨
  (∃ op rd rs, w = encodeC (.alu op rd rs)) ∨ (∃ rd rs, w = encodeC (.add rd rs)) ∨ isHint w

theorem in_eq {rf rf' : BitVec 5 → W} {r : ProfRec} (h : evNamed rf r) (ld : W) {d : List (Kind × List W)}
    (hd : DataIn rf rf' r.inst d) (hx : ¬ MisSparse r.inst) : inCalls ld r rf rf' = d.map toCall := by
  generalize hw : r.inst = w at hd hx
  cases hd with
  | base i hl => exact in_base h ld i hw hl fun rd rs1 e => hx (.inl ⟨rd, rs1, by rw [e]⟩)
  | comp i hl =>
    exact in_comp h ld i hl hw (fun rd imm e => hx (.inr (.inl ⟨rd, imm, by rw [e]⟩)))
      (fun op rd rs e => hx (.inr (.inr (.inl ⟨op, rd, rs, by rw [e]⟩))))
      (fun rd rs e => hx (.inr (.inr (.inr (.inl ⟨rd, rs, by rw [e]⟩)))))
  | csr a rs1 rd f3 hf => exact in_csr h ld hw
  | x1 x m rd rs1 rs2 hm => exact in_x1 h ld hm hw
  | x2 x m rd rs1 rs2 hm => exact in_x2 h ld hm hw
  | scp rel rd rs1 rs2 => exact in_scp h ld rel hw
theorem out_eq {rf rf' : BitVec 5 → W} {r : ProfRec} (h : evNamed rf r) {l : List Operand} (hl : Operands r.inst l) :
    outCalls r rf' = outs rf' (written l) := by
  rw [← out_shape (shape_of hl), outCalls_eq]
  by_cases hx : ProfRf.MisCounted r.inst
  · generalize hw : r.inst = w at hl hx
    cases hl with
    | base i => rw [(ProfRf.uses_base h i hw).1]
    | comp i hi =>
      by_cases h0 : ∃ imm, i = .lui 0#5 imm
      · obtain ⟨imm, rfl⟩ := h0
        rw [encodeC] at hw
        have d := decode_CI 3#3 imm 0#5 1#2
        rw [(ProfRf.cuse h hw d.1 (by decide) d.2.1 (by decide) (op := .nop) (by
          unfold cOp; rw [d.1, d.2.1, d.2.2.1]; rfl)).1]
        rfl
      · rw [(ProfRf.uses_comp h i hi hw fun imm e => h0 ⟨imm, e⟩).1]
    | csrReg a rs1 rd f3 hf =>
      rw [ProfRf.uses_csr h (by rcases hf with rfl | rfl | rfl <;> decide) hw, if_pos hf]
      rfl
    | csrImm a u rd f3 hf =>
      rw [ProfRf.uses_csr h (by rcases hf with rfl | rfl | rfl <;> decide) hw,
        if_neg (by rcases hf with rfl | rfl | rfl <;> decide)]
      rfl
    | x1 x m rd rs1 rs2 hm =>
      rw [(ProfRf.uses_x1 h hm hw).1]
      cases x <;> rfl
    | x2 x m rd rs1 rs2 hm => rw [(ProfRf.uses_x2 h hm hw).1]
    | scp rel rd rs1 rs2 => rw [ProfRf.uses_scp h rel hw]; rfl
  · rw [ProfRf.uses_eq h hl hx]

theorem foldl_log (L : List Call) (n : Cnt) (c : Cls) : L.foldl log n c =
    ((n c).1 + (L.filter fun x => x.1 = c).length, (n c).2 + (L.filter fun x => x.1 = c ∧ x.2 = true).length) := by
  induction L generalizing n with
  | nil => rfl
  | cons x t ih =>
    rw [List.foldl_cons, ih, List.filter_cons, List.filter_cons]
    obtain ⟨k, b⟩ := x
    unfold log
    by_cases e : k = c
    · subst e
      cases b <;> simp <;> omega
    · have e' : ¬ c = k := fun x => e x.symm
      simp [e, e']

/-- what an operation list adds to a counter: operations of the kind, and those of them with a zero input -/
def opsAdd (d : List (Kind × List W)) (k : Kind) : Nat × Nat :=
  ((d.filter fun x => x.1 = k).length, (d.filter fun x => x.1 = k ∧ 0#32 ∈ x.2).length)
/-- what the results add: registers written, and those of them that are then zero -/
def resAdd (rf' : BitVec 5 → W) (l : List Operand) : Nat × Nat :=
  ((written l).length, ((written l).filter fun k => rf' (BitVec.ofNat 5 k) = 0#32).length)

theorem ins_cnt (d : List (Kind × List W)) (k : Kind) :
    ((d.map toCall).filter fun x => x.1 = cls k).length = (opsAdd d k).1 ∧
    ((d.map toCall).filter fun x => x.1 = cls k ∧ x.2 = true).length = (opsAdd d k).2 := by
  have inj : ∀ a, cls a = cls k ↔ a = k := fun a => by cases a <;> cases k <;> simp [cls]
  induction d with
  | nil => exact ⟨rfl, rfl⟩
  | cons x t ih =>
    obtain ⟨a, vs⟩ := x
    unfold opsAdd at ih ⊢
    have e1 : (toCall (a, vs)).1 = cls k ↔ a = k := inj a
    have e2 : (toCall (a, vs)).2 = true ↔ 0#32 ∈ vs := by simp [toCall]
    simp only [List.map_cons, List.filter_cons, decide_eq_true_eq, e1, e2]
    constructor
    · by_cases h : a = k
      · simp only [h, if_true, List.length_cons, ih.1]
      · simp only [h, if_false, ih.1]
    · by_cases h : a = k ∧ 0#32 ∈ vs
      · simp only [h, and_self, if_true, List.length_cons, ih.2]
      · simp only [h, if_false, ih.2]
theorem ins_any (d : List (Kind × List W)) (P : Call → Prop) [DecidablePred P] :
    ((d.map toCall).filter fun x => x.1 = .any ∧ P x) = [] := by
  rw [List.filter_eq_nil_iff]
  intro x hx
  obtain ⟨y, -, rfl⟩ := List.mem_map.1 hx
  have : (toCall y).1 ≠ .any := by obtain ⟨a, b⟩ := y; cases a <;> simp [toCall, cls]
  simp [this]
theorem outs_cnt (rf' : BitVec 5 → W) (l : List Nat) :
    ((outs rf' l).filter fun x => x.1 = .any).length = l.length ∧
    ((outs rf' l).filter fun x => x.1 = .any ∧ x.2 = true).length =
      (l.filter fun k => rf' (BitVec.ofNat 5 k) = 0#32).length := by
  unfold outs
  induction l with
  | nil => exact ⟨rfl, rfl⟩
  | cons x t ih =>
    simp only [List.map_cons, List.filter_cons, decide_eq_true_eq, beq_iff_eq, true_and, if_true, List.length_cons, ih.1]
    by_cases h : rf' (BitVec.ofNat 5 x) = 0#32
    · simp only [h, if_true, List.length_cons, beq_self_eq_true]; simpa using ih.2
    · simp only [h, if_false]; simpa using ih.2
theorem outs_other (rf' : BitVec 5 → W) (l : List Nat) (k : Kind) (P : Call → Prop) [DecidablePred P] :
    ((outs rf' l).filter fun x => x.1 = cls k ∧ P x) = [] := by
  rw [List.filter_eq_nil_iff]
  intro x hx
  obtain ⟨y, -, rfl⟩ := List.mem_map.1 hx
  cases k <;> simp [cls]

/-- **C88**, one step.  A retired instruction adds to the counters, if profiling is active: to "any" one for each register
it writes, sparse if the register is then zero; to each kind of operation one for each operation of that kind, sparse if
one of its inputs is zero.  Missing: `MisSparse` instructions (see below) and loads to x0. -/
theorem sparsity_step_partial (hp : E.cfg.profilers = true) (h : stepS E ld n s = .ok (n', s'))
    (hr : s'.simInst ≠ s.simInst) {l : List Operand} (hl : Operands s'.inst l) {d : List (Kind × List W)}
    (hd : DataIn s.rf s'.rf s'.inst d) (hx : ¬ MisSparse s'.inst) :
    (s'.profActive = false → n' = n) ∧ (s'.profActive = true →
      n' .any = ((n .any).1 + (resAdd s'.rf l).1, (n .any).2 + (resAdd s'.rf l).2) ∧
      ∀ k, n' (cls k) = ((n (cls k)).1 + (opsAdd d k).1, (n (cls k)).2 + (opsAdd d k).2)) := by
  obtain ⟨r, -, h2, h3, h4⟩ := stepS_retired hp h hr
  have h4 := h4 fun e => hx (.inr (.inr (.inr (.inr e))))
  rw [in_eq h3 ld (h2 ▸ hd) (h2 ▸ hx), out_eq h3 (h2 ▸ hl)] at h4
  refine ⟨fun ha => by rw [h4, ha]; simp, fun ha => ?_⟩
  rw [ha, if_pos rfl] at h4
  rw [h4]
  refine ⟨?_, fun k => ?_⟩
  · rw [foldl_log, List.filter_append, List.filter_append, List.length_append, List.length_append]
    have e1 := ins_any d fun _ => True
    simp only [and_true] at e1
    rw [e1, ins_any, (outs_cnt _ _).1, (outs_cnt _ _).2]
    simp [resAdd]
  · rw [foldl_log, List.filter_append, List.filter_append, List.length_append, List.length_append]
    have e1 := outs_other s'.rf (written l) k fun _ => True
    simp only [and_true] at e1
    rw [e1, outs_other, (ins_cnt _ _).1, (ins_cnt _ _).2]
    simp

/-- a counter never exceeds its total, and never falls -/
theorem sparsity_le (L : List Call) (n : Cnt) (h : ∀ c, (n c).2 ≤ (n c).1) (c : Cls) :
    (L.foldl log n c).2 ≤ (L.foldl log n c).1 ∧ (n c).1 ≤ (L.foldl log n c).1 ∧ (n c).2 ≤ (L.foldl log n c).2 := by
  rw [foldl_log]
  refine ⟨?_, by omega, by omega⟩
  have := h c
  have : (L.filter fun x => x.1 = c ∧ x.2 = true).length ≤ (L.filter fun x => x.1 = c).length := by
    rw [show (L.filter fun x => x.1 = c ∧ x.2 = true) = (L.filter fun x => x.1 = c).filter fun x => x.2 by
      rw [List.filter_filter]; congr 1; funext x; simp [Bool.and_comm]]
    exact List.length_filter_le _ _
  show _ + _ ≤ _ + _
  omega
theorem step_calls (h : stepS E ld n s = .ok (n', s')) : ∃ L : List Call, n' = L.foldl log n := by
  rcases stepS_split h with ⟨_, hx⟩ | ⟨q0, q1, e1, e2, e3⟩
  · exact ⟨[], hx⟩
  · obtain ⟨defer, nt, qa, c1, hx⟩ := stepExecS_split e2
    rcases hx with ⟨_, _, qc, f1, f2, f3⟩ | ⟨-, -, hx⟩
    · rw [f3]
      unfold Cnt.exec
      split
      · exact ⟨_, rfl⟩
      · exact ⟨[], rfl⟩
    · exact ⟨[], hx⟩
/-- **C88.** In every step, whatever it executes: no counter falls, and a class never has more sparse cases than cases. -/
theorem sparsity_step_any (h : stepS E ld n s = .ok (n', s')) (h0 : ∀ c, (n c).2 ≤ (n c).1) (c : Cls) :
    (n' c).2 ≤ (n' c).1 ∧ (n c).1 ≤ (n' c).1 ∧ (n c).2 ≤ (n' c).2 := by
  obtain ⟨L, rfl⟩ := step_calls h
  exact sparsity_le L n h0 c

/-- a run from `s0` with the counters; the list has the results and operations of the instructions retired while profiling
was active.  In a quiet run (`q = true`) no step traps or ends the run without retiring an instruction. -/
inductive SRun (E : Env σ) (ld : W) (q : Bool) (s0 : St σ) : List ((Nat × Nat) × List (Kind × List W)) → Cnt → St σ → Prop
  | nil : SRun E ld q s0 [] (fun _ => (0, 0)) s0
  | retired {L n s s' n' l d} : SRun E ld q s0 L n s → stepS E ld n s = .ok (n', s') → s'.simInst ≠ s.simInst →
      Operands s'.inst l → DataIn s.rf s'.rf s'.inst d → ¬ MisSparse s'.inst →
      SRun E ld q s0 (if s'.profActive then (resAdd s'.rf l, d) :: L else L) n' s'
  | other {L n s s' n'} : SRun E ld q s0 L n s → stepS E ld n s = .ok (n', s') → s'.simInst = s.simInst →
      (q = true → s'.trapped = false ∧ s'.running = true) → SRun E ld q s0 L n' s'
/-- sums over the instructions of a run -/
def resSum (L : List ((Nat × Nat) × List (Kind × List W))) : Nat × Nat :=
  ((L.map fun x => x.1.1).sum, (L.map fun x => x.1.2).sum)
/-- sums over the instructions of a run -/
def opsSum (L : List ((Nat × Nat) × List (Kind × List W))) (k : Kind) : Nat × Nat :=
  ((L.map fun x => (opsAdd x.2 k).1).sum, (L.map fun x => (opsAdd x.2 k).2).sum)

/-- **C88**, whole runs of instructions other than the exceptions: every counter is at least the sum over the instructions
retired while profiling was active, and in a quiet run exactly that sum.  Missing: see `sparsity_step_partial`; stores that
trap (`sparsity_trap`). -/
theorem sparsity_run_partial (hp : E.cfg.profilers = true) {q : Bool} {L : List ((Nat × Nat) × List (Kind × List W))}
    (h : SRun E ld q s0 L n s) :
    ((resSum L).1 ≤ (n .any).1 ∧ (resSum L).2 ≤ (n .any).2 ∧
      ∀ k, (opsSum L k).1 ≤ (n (cls k)).1 ∧ (opsSum L k).2 ≤ (n (cls k)).2) ∧
    (q = true → n .any = resSum L ∧ ∀ k, n (cls k) = opsSum L k) := by
  suffices hh : (∀ c, (n c).2 ≤ (n c).1) ∧ ((resSum L).1 ≤ (n .any).1 ∧ (resSum L).2 ≤ (n .any).2 ∧
      ∀ k, (opsSum L k).1 ≤ (n (cls k)).1 ∧ (opsSum L k).2 ≤ (n (cls k)).2) ∧
      (q = true → n .any = resSum L ∧ ∀ k, n (cls k) = opsSum L k) from hh.2
  induction h with
  | nil => exact ⟨fun _ => Nat.le_refl _, ⟨Nat.le_refl _, Nat.le_refl _, fun _ => ⟨Nat.le_refl _, Nat.le_refl _⟩⟩,
      fun _ => ⟨rfl, fun _ => rfl⟩⟩
  | @retired L n s s' n' l d _ hs hr hl hd hx ih =>
    obtain ⟨i0, ⟨i1, i2, i3⟩, i4⟩ := ih
    obtain ⟨a, b⟩ := sparsity_step_partial hp hs hr hl hd hx
    refine ⟨fun c => (sparsity_step_any hs i0 c).1, ?_⟩
    cases ha : s'.profActive with
    | false => rw [a ha]; exact ⟨⟨i1, i2, i3⟩, i4⟩
    | true =>
      obtain ⟨b1, b2⟩ := b ha
      rw [if_pos rfl]
      have r1 : resSum ((resAdd s'.rf l, d) :: L) = ((resAdd s'.rf l).1 + (resSum L).1, (resAdd s'.rf l).2 + (resSum L).2) := rfl
      have r2 : ∀ k, opsSum ((resAdd s'.rf l, d) :: L) k =
        ((opsAdd d k).1 + (opsSum L k).1, (opsAdd d k).2 + (opsSum L k).2) := fun _ => rfl
      rw [r1, b1]
      refine ⟨⟨by show _ + _ ≤ _ + _; omega, by show _ + _ ≤ _ + _; omega, fun k => ?_⟩, fun hq => ⟨?_, fun k => ?_⟩⟩
      · have := i3 k
        rw [r2, b2]
        exact ⟨by show _ + _ ≤ _ + _; omega, by show _ + _ ≤ _ + _; omega⟩
      · rw [(i4 hq).1, Nat.add_comm, Nat.add_comm (resSum L).2]
      · rw [r2, b2, (i4 hq).2, Nat.add_comm, Nat.add_comm (opsSum L k).2]
  | @other L n s s' n' _ hs hr hq ih =>
    obtain ⟨i0, ⟨i1, i2, i3⟩, i4⟩ := ih
    have m := fun c => sparsity_step_any hs i0 c
    refine ⟨fun c => (m c).1, ⟨Nat.le_trans i1 (m _).2.1, Nat.le_trans i2 (m _).2.2, fun k =>
      ⟨Nat.le_trans (i3 k).1 (m _).2.1, Nat.le_trans (i3 k).2 (m _).2.2⟩⟩, fun hq' => ?_⟩
    rw [stepS_idle hp hs hr (hq hq').1 (hq hq').2]
    exact i4 hq'

/-! ## Where the code differs -/

theorem step_in (hp : E.cfg.profilers = true) (h : stepS E ld n s = .ok (n', s')) (hr : s'.simInst ≠ s.simInst)
    (ha : s'.profActive = true) (hh : ¬ isHint s'.inst) {b : Bool}
    (hi : ∀ r, evNamed s.rf r → r.inst = s'.inst → inCalls ld r s.rf s'.rf = [(.alu, b)])
    {l : List Operand} (hl : Operands s'.inst l) :
    n' .alu = ((n .alu).1 + 1, (n .alu).2 + if b then 1 else 0) := by
  obtain ⟨r, -, h2, h3, h4⟩ := stepS_retired hp h hr
  have h4 := h4 hh
  rw [hi r h3 h2, out_eq h3 (h2 ▸ hl), ha, if_pos rfl] at h4
  rw [h4, foldl_log, List.filter_append, List.filter_append]
  have e1 := outs_other s'.rf (written l) .alu fun _ => True
  simp only [and_true] at e1
  have e2 := outs_other s'.rf (written l) .alu fun x => x.2 = true
  rw [show cls .alu = Cls.alu from rfl] at e1 e2
  rw [e1, e2]
  cases b <;> rfl
theorem hint_op {w : W} (h : isHint w) : IP.copcode w = 3#2 := by rcases h with rfl | rfl <;> decide
/-- **C88 fails for C.ADDI**: it is always counted as sparse, whatever its inputs. -/
theorem sparsity_caddi (hp : E.cfg.profilers = true) (h : stepS E ld n s = .ok (n', s')) (hr : s'.simInst ≠ s.simInst)
    (ha : s'.profActive = true) (h0 : s.rf 0#5 = 0#32) {rd : BitVec 5} {imm : BitVec 6}
    (hi : s'.inst = encodeC (.addi rd imm)) : n' .alu = ((n .alu).1 + 1, (n .alu).2 + 1) := by
  refine step_in hp h hr ha (fun e => ?_) (b := true) (fun r h3 h2 => in_caddi h3 ld h0 (h2.trans hi)) (hi ▸ Operands.comp (.addi rd imm) trivial)
  have := hint_op e
  rw [hi, encodeC, (decode_CI 0#3 imm rd 1#2).1] at this
  exact absurd this (by decide)
/-- **C88 fails for C.AND, C.OR, C.XOR and C.SUB**: a zero second operand is not noticed. -/
theorem sparsity_calu (hp : E.cfg.profilers = true) (h : stepS E ld n s = .ok (n', s')) (hr : s'.simInst ≠ s.simInst)
    (ha : s'.profActive = true) {op : CAlu} {rd rs : BitVec 3} (hi : s'.inst = encodeC (.alu op rd rs)) :
    n' .alu = ((n .alu).1 + 1, (n .alu).2 + if s.rf (creg rd) = 0#32 then 1 else 0) := by
  have := step_in hp h hr ha (fun e => ?_) (fun r h3 h2 => in_calu h3 ld (h2.trans hi)) (hi ▸ Operands.comp (.alu op rd rs) trivial)
  · simpa using this
  · have := hint_op e
    rw [hi, encodeC, (decode_CA 0x23#6 rd (caluF op) rs).1] at this
    exact absurd this (by decide)
/-- **C88 fails for C.ADD**: a zero second operand is not noticed. -/
theorem sparsity_cadd (hp : E.cfg.profilers = true) (h : stepS E ld n s = .ok (n', s')) (hr : s'.simInst ≠ s.simInst)
    (ha : s'.profActive = true) {rd rs : BitVec 5} (hs : rs ≠ 0#5) (hi : s'.inst = encodeC (.add rd rs)) :
    n' .alu = ((n .alu).1 + 1, (n .alu).2 + if s.rf rd = 0#32 then 1 else 0) := by
  have := step_in hp h hr ha (fun e => ?_) (fun r h3 h2 => in_cadd h3 ld hs (h2.trans hi)) (hi ▸ Operands.comp (.add rd rs) hs)
  · simpa using this
  · have := hint_op e
    rw [hi, encodeC, (decode_CR 9#4 rd rs).1] at this
    exact absurd this (by decide)
/-- **C88 fails for SRAI by zero**: the zero shift amount is not noticed. -/
theorem sparsity_srai (hp : E.cfg.profilers = true) (h : stepS E ld n s = .ok (n', s')) (hr : s'.simInst ≠ s.simInst)
    (ha : s'.profActive = true) {rd rs1 sh : BitVec 5} (hi : s'.inst = encode (.shift .srai rd rs1 sh)) :
    n' .alu = ((n .alu).1 + 1, (n .alu).2 + if s.rf rs1 = 0#32 then 1 else 0) := by
  have := step_in hp h hr ha (fun e => ?_) (fun r h3 h2 => in_srai h3 ld (h2.trans hi)) (hi ▸ Operands.base _)
  · simpa using this
  · have d := (decode_R (shF .srai).1 sh rs1 (shF .srai).2 rd 0x13#7).2.2.1
    rw [hi, encode] at e
    rcases e with e | e <;> rw [e] at d <;> exact absurd d (by decide)

/-! ## Runs of the model -/

namespace Ex
open ProfRf.Ex (envR stR)
/-- counters after a run, with the number of retired instructions -/
def countsAt (c : Bool) (k : Nat) (ws : List W) (l : List Cls) : Option (List (Nat × Nat) × Nat) :=
  match runS (envR c) 7#32 k (fun _ => (0, 0)) (stR c ws) with
  | .ok (n, s) => some (l.map n, s.simInst.toNat)
  | _ => none
/-- `add x1, x2, x3` with nonzero operands, `mul x4, x1, x0` with a zero one, `div x5, x0, x1` -/
example : countsAt false 3 [0x003100b3#32, 0x02008233#32, 0x021042b3#32] [.any, .alu, .mul, .divA, .divB] =
    some ([(3, 2), (1, 0), (1, 1), (1, 1), (1, 0)], 3) := by decide +kernel
/-- **C88 fails**: after `c.li x9, 0`, `c.sub x8, x9` has a zero input and is not counted as sparse (the one sparse case is
`c.li`) -/
theorem sparsity_csub_witness : countsAt true 2 [0x8c054481#32] [.alu] = some ([(2, 1)], 2) := by decide +kernel
/-- **C88 fails**: `c.addi x8, 1` with x8 = 0x00c0ffee is counted as sparse -/
theorem sparsity_caddi_witness : countsAt true 1 [0x0405#32] [.alu] = some ([(1, 1)], 1) := by decide +kernel
/-- **C88 fails**: `srai x1, x2, 0` is not counted as sparse, `srli x1, x2, 0` is -/
theorem sparsity_srai_witness : countsAt false 1 [0x40015093#32] [.alu] = some ([(1, 0)], 1) ∧
    countsAt false 1 [0x00015093#32] [.alu] = some ([(1, 1)], 1) := ⟨by decide +kernel, by decide +kernel⟩
/-- **C88 fails**: `sw x0, 1(x0)` traps, and is counted as a (sparse) store although nothing is stored or retired -/
theorem sparsity_trap : countsAt false 1 [0x000020a3#32] [.memS] = some ([(1, 1)], 0) := by decide +kernel
/-- **C88 fails**: a load to x0 is counted by the value read, which no register receives -/
theorem sparsity_load_x0 : countsAt false 2 [0x80000137#32, 0x00012003#32] [.memL] = some ([(1, 0)], 2) := by decide +kernel
/-- the hypotheses of `sparsity_step_partial` -/
example : ¬ MisSparse 0x003100b3#32 ∧ Operands 0x003100b3#32 [(.dest, 1), (.src1, 2), (.src2, 3)] ∧
    DataIn (fun _ => 0xc0ffee#32) (fun _ => 0#32) 0x003100b3#32 [(.alu, [0xc0ffee#32, 0xc0ffee#32])] := by
  refine ⟨?_, Operands.base (.alu .add 1#5 2#5 3#5), DataIn.base (.alu .add 1#5 2#5 3#5) (by simp)⟩
  rintro (⟨rd, rs1, e⟩ | ⟨rd, imm, e⟩ | ⟨op, rd, rs, e⟩ | ⟨rd, rs, e⟩ | e | e)
  · have d := (decode_R (shF .srai).1 0#5 rs1 (shF .srai).2 rd 0x13#7).1
    rw [encode] at e
    rw [← e] at d
    exact absurd d (by decide)
  · have d := (decode_CI 0#3 imm rd 1#2).1
    rw [encodeC] at e
    rw [← e] at d
    exact absurd d (by decide)
  · have d := (decode_CA 0x23#6 rd (caluF op) rs).1
    rw [encodeC] at e
    rw [← e] at d
    exact absurd d (by decide)
  · have d := (decode_CR 9#4 rd rs).1
    rw [encodeC] at e
    rw [← e] at d
    exact absurd d (by decide)
  · exact absurd e (by decide)
  · exact absurd e (by decide)
end Ex
end Ama.Sparsity
