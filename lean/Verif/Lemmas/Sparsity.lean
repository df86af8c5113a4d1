import Verif.Model.Sparsity
import Verif.Spec.Sparse
import Verif.Lemmas.ProfRf
import Verif.Lemmas.ProfTrace
/-!
# Calls of the sparsity counters
-/
set_option linter.unusedSimpArgs false
namespace Ama.Sparsity
open M Spec Prof
open Dasm (Same)
open ProfRf (usesOf rfAt counted1 calls)
open ProfTrace (newRec)
variable {σ : Type} {E : Env σ}

/-! ## The counters leave the core alone -/

theorem stepExecS_same (ld : W) (n : Cnt) : Same (stepExecS E ld n) (stepExec E) :=
  Same.bind fun _ => Same.bind fun _ => Same.bind fun _ => Same.bind fun _ => Same.bind fun _ => Same.bind fun _ =>
    Same.ite (Same.bind fun _ => Same.skip fun _ => Same.last (.refl _) fun _ => Same.skip fun _ => .pure _) (.pure _)
theorem stepS_same (ld : W) (n : Cnt) : Same (stepS E ld n) (step E) :=
  Same.bind fun _ => Same.bind fun _ => Same.ite (.pure _) <| Same.seq (stepExecS_same _ _) fun _ =>
    Same.bind fun _ => Same.bind fun _ => Same.ite (Same.last (.refl _) fun _ => .pure _) <|
    Same.last (.refl _) fun _ => .pure _
theorem step_of {ld : W} {n n' : Cnt} {s s' : St σ} (h : stepS E ld n s = .ok (n', s')) : step E s = .ok ((), s') := by
  have := stepS_same (E := E) ld n s
  rw [h] at this
  exact this
theorem of_step {s s' : St σ} (h : step E s = .ok ((), s')) (ld : W) (n : Cnt) : ∃ n', stepS E ld n s = .ok (n', s') := by
  have := stepS_same (E := E) ld n s
  rw [h] at this
  rcases hh : stepS E ld n s with ⟨p', s1⟩ | _ | _ <;> rw [hh] at this <;> cases this
  exact ⟨p', rfl⟩

/-! ## Taking a step apart -/

theorem stepExecS_split {ld : W} {n n' : Cnt} {q0 q1 : St σ} (h : stepExecS E ld n q0 = .ok (n', q1)) :
    ∃ defer nt qa, checkInterrupts E defer q0 = .ok (nt, qa) ∧
      (((wakeSt nt qa).trapped = false ∧ ((wakeSt nt qa).wfiActive = false ∨ nt = true) ∧
        ∃ qc, fetch E (wakeSt nt qa) = .ok ((), qc) ∧ exec E qc = .ok ((), q1) ∧ n' = n.exec ld qc q1) ∨
      (q1 = wakeSt nt qa ∧ (q1.trapped = true ∨ q1.wfiActive = true) ∧ n' = n)) := by
  obtain ⟨act, s4, e4, e3⟩ := bind_eq_ok.1 h
  rw [M.get_app] at e4
  have e4 : q0.wfiActive = act ∧ q0 = s4 := by
    injection e4 with e4; injection e4 with e5 e6; exact ⟨e5, e6⟩
  obtain ⟨rfl, rfl⟩ := e4
  obtain ⟨wf, s5, e5, r3⟩ := bind_eq_ok.1 e3
  have p5 : s5 = q0 := by
    split at e5
    · injection e5 with e5; injection e5 with e5 e6
      exact e6.symm
    · obtain ⟨a1, b1, f1, e5⟩ := bind_eq_ok.1 e5
      rw [M.get_app] at f1
      injection f1 with f1; injection f1 with f1 f2
      obtain ⟨a2, b2, f3, e5⟩ := bind_eq_ok.1 e5
      injection e5 with e5; injection e5 with e5 e6
      rw [← e6, f2]
      obtain ⟨a3, b3, f4, f3⟩ := bind_eq_ok.1 f3
      rw [M.get_app] at f4
      injection f4 with f4; injection f4 with f4 f5
      rw [f5]
      cases hr : a3.rd32 (toNorm a1) with
      | ok v => rw [hr] at f3; injection f3 with f3; injection f3 with _ f3; exact f3.symm
      | ub k => rw [hr] at f3; cases f3
      | abort => rw [hr] at f3; cases f3
  subst p5
  obtain ⟨nt, qa, e6, r4⟩ := bind_eq_ok.1 r3
  refine ⟨wf, nt, qa, e6, ?_⟩
  obtain ⟨u7, s7, e7, r5⟩ := bind_eq_ok.1 r4
  rw [M.mod_app] at e7
  have e7 : wakeSt nt qa = s7 := by injection e7 with e7; injection e7
  rw [e7]
  rw [M.bind_ok (M.get_app _ _), M.bind_ok (M.get_app _ _)] at r5
  split at r5
  · rename_i hc
    rw [Bool.and_eq_true, Bool.or_eq_true] at hc
    obtain ⟨_, qc, f1, f2⟩ := bind_eq_ok.1 r5
    rw [M.bind_ok (M.get_app _ _)] at f2
    obtain ⟨_, qd, f3, f4⟩ := bind_eq_ok.1 f2
    rw [M.bind_ok (M.get_app _ _)] at f4
    injection f4 with f4; injection f4 with f4 f5
    subst f5
    exact .inl ⟨by simpa using hc.1, by simpa using hc.2, qc, f1, f3, f4.symm⟩
  · rename_i hc
    right
    injection r5 with r5; injection r5 with r5 r6
    refine ⟨r6.symm, ?_, r5.symm⟩
    rw [← r6]
    cases h1 : s7.trapped <;> cases h2 : s7.wfiActive <;> cases nt <;> simp [h1, h2] at hc ⊢

theorem stepS_split {ld : W} {n n' : Cnt} {s s' : St σ} (h : stepS E ld n s = .ok (n', s')) :
    (profWindow E { s with trapped := false } = .ok (true, s') ∧ n' = n) ∨
    ∃ q0 q1, profWindow E { s with trapped := false } = .ok (false, q0) ∧
      stepExecS E ld n q0 = .ok (n', q1) ∧ s' = finishSt E q1 := by
  obtain ⟨u, s1, e1, h⟩ := bind_eq_ok.1 h
  rw [M.mod_app] at e1
  have e1 : ({ s with trapped := false } : St σ) = s1 := by injection e1 with e1; injection e1
  rw [e1]
  obtain ⟨ex, q0, e2, h⟩ := bind_eq_ok.1 h
  cases ex with
  | true =>
    injection h with h; injection h with h h2
    exact .inl ⟨h2 ▸ e2, h.symm⟩
  | false =>
    obtain ⟨p1, q1, e3, h⟩ := bind_eq_ok.1 (show (stepExecS E ld n >>= _) q0 = _ from h)
    rw [M.bind_ok (M.mod_app _ _), M.bind_ok (M.get_app _ _)] at h
    refine .inr ⟨q0, q1, e2, ?_⟩
    unfold finishSt
    generalize hq : ({ q1 with simStep := q1.simStep + 1#64 } : St σ) = q2 at h ⊢
    split at h
    · rename_i hl
      rw [M.bind_ok (M.mod_app _ _)] at h
      injection h with h; injection h with h h2
      unfold finishSt1
      rw [if_pos hl, ← h]
      exact ⟨e3, h2.symm⟩
    · rename_i hl
      obtain ⟨_, q3, f1, f2⟩ := bind_eq_ok.1 h
      have := stepFinish_app f1
      unfold finishSt1
      rw [if_neg hl]
      injection f2 with h; injection h with h h2
      rw [← h, ← h2, this]
      exact ⟨e3, rfl⟩

/-- the two profiling hints -/
def isHint (w : W) : Prop := w = 0x01002013#32 ∨ w = 0x01102013#32

/-- a retired instruction -/
theorem stepS_retired (hp : E.cfg.profilers = true) {ld : W} {n n' : Cnt} {s s' : St σ} (h : stepS E ld n s = .ok (n', s'))
    (hr : s'.simInst ≠ s.simInst) : ∃ r, s'.profLog = r :: s.profLog ∧ r.inst = s'.inst ∧ evNamed s.rf r ∧
      (¬ isHint s'.inst → n' = if s'.profActive then (inCalls ld r s.rf s'.rf ++ outCalls r s'.rf).foldl log n else n) := by
  have h0 : PreStep s.profLog s.rf s.pc s.simInst { s with trapped := false } := ⟨rfl, rfl, fun _ => rfl, rfl⟩
  rcases step_log hp (step_of h) with ⟨h1, -⟩ | ⟨-, hnt, r, hl, ha, hb, hc, hd, he⟩
  · exact absurd h1 hr
  refine ⟨r, hl, ha, hc, fun hh => ?_⟩
  rcases stepS_split h with ⟨hx, _⟩ | ⟨q0, q1, e1, e2, e3⟩
  · exact absurd (pre_window _ _ _ h0 hx).2.2.2 hr
  · have h1 := pre_window _ _ _ h0 e1
    obtain ⟨defer, nt, qa, c1, hx⟩ := stepExecS_split e2
    have h2 : PreStep s.profLog s.rf s.pc s.simInst (wakeSt nt qa) :=
      have := pre_check _ _ _ _ h1 c1
      this
    obtain ⟨g1, g2, g3, -, -⟩ := Dasm.finishSt_frame (E := E) q1
    have g4 := (finish_log (E := E) q1).1
    have hf : (finishSt E q1).profActive = q1.profActive := by
      unfold finishSt finishSt1
      split
      · rfl
      · split
        · rfl
        · split <;> rfl
    rw [← e3] at g1 g2 g3 g4 hf
    rcases hx with ⟨_, _, qc, f1, f2, f3⟩ | ⟨hx, -⟩
    · have h3 := prof_fetch _ _ _ h2 f1
      have hlog : q1.profLog = r :: qc.profLog := by rw [h3.1, ← hl, g4]
      have hi := (exec_ev hp f2).1
      have hact : q1.profActive = qc.profActive := by
        refine exec_win (fun b _ => b = qc.profActive) f2 (fun e => hh ?_) (fun e => hh ?_) rfl
        · left; rw [g2, hi, e]; rfl
        · right; rw [g2, hi, e]; rfl
      rw [f3]
      unfold Cnt.exec execCalls newRec
      rw [hlog, ← hact, hf]
      have ht : q1.trapped = false := by rw [← g1, hnt]
      simp only [ht, Bool.false_eq_true, if_false, List.length_cons, Nat.succ_ne_self, List.head?_cons, Option.elim_some, ← g3, h3.2.1]
    · exfalso
      have : q1.profLog = s.profLog := by rw [hx]; exact h2.1
      rw [← g4, hl] at this
      have := congrArg List.length this
      simp at this

/-- a step that retires nothing, and neither traps nor ends the run, makes no calls -/
theorem stepS_idle (hp : E.cfg.profilers = true) {ld : W} {n n' : Cnt} {s s' : St σ} (h : stepS E ld n s = .ok (n', s'))
    (hr : s'.simInst = s.simInst) (ht : s'.trapped = false) (hn : s'.running = true) : n' = n := by
  have h0 : PreStep s.profLog s.rf s.pc s.simInst { s with trapped := false } := ⟨rfl, rfl, fun _ => rfl, rfl⟩
  have hlog : s'.profLog = s.profLog := by
    rcases step_log hp (step_of h) with ⟨-, h1 | ⟨r, h1, -, -, -, h5⟩⟩ | ⟨hs, -⟩
    · exact h1
    · rcases h5 with h5 | h5 <;> simp_all
    · rw [hr] at hs
      exact absurd hs (by intro e; have := congrArg BitVec.toNat e; rw [BitVec.toNat_add] at this; simp at this; omega)
  rcases stepS_split h with ⟨_, hx⟩ | ⟨q0, q1, e1, e2, e3⟩
  · exact hx
  · have h1 := pre_window _ _ _ h0 e1
    obtain ⟨defer, nt, qa, c1, hx⟩ := stepExecS_split e2
    have h2 : PreStep s.profLog s.rf s.pc s.simInst (wakeSt nt qa) :=
      have := pre_check _ _ _ _ h1 c1
      this
    obtain ⟨g1, g2, g3, -, -⟩ := Dasm.finishSt_frame (E := E) q1
    have g4 := (finish_log (E := E) q1).1
    rw [← e3] at g1 g2 g3 g4
    rcases hx with ⟨_, _, qc, f1, f2, f3⟩ | ⟨-, -, hx⟩
    · have h3 := prof_fetch _ _ _ h2 f1
      have hl : q1.profLog = qc.profLog := by rw [h3.1, ← hlog, g4]
      rw [f3]
      unfold Cnt.exec execCalls newRec
      have ht : q1.trapped = false := by rw [← g1, ht]
      simp [ht, hl]
    · exact hx

/-! ## Inputs -/

/-- the counter of a kind of operation -/
def cls : Kind → Cls
  | .load => .memL | .store => .memS | .alu => .alu | .mul => .mul | .dividend => .divA | .divisor => .divB
  | .dot => .dot | .simdMul => .smul | .simdAlu => .salu
/-- an operation as a call: is an input zero? -/
def toCall (x : Kind × List W) : Call := (cls x.1, x.2.any (· == 0#32))

variable {r : ProfRec} {rf rf' : BitVec 5 → W}

theorem one_ne (a : W) : (a == 0#32 || 1#32 == 0#32) = (a == 0#32) := by simp
theorem ne_one (a : W) : (1#32 == 0#32 || a == 0#32) = (a == 0#32) := by simp
theorem sh_zero (op : ShOp) (sh rs1 rd : BitVec 5) (h : op = .srai → sh ≠ 0#5) :
    (IP.immI (encR (shF op).1 sh rs1 (shF op).2 rd 0x13#7) == 0#32) = ((sh.setWidth 32 : W) == 0#32) := by
  rw [shift_imm, (decode_I _ _ _ _ _).2.2.2.2.1]
  clear rs1 rd
  revert sh
  cases op <;> decide

theorem in_base (h : evNamed rf r) (ld : W) (i : Instr) (hi : r.inst = encode i)
    (hl : ∀ op rs1 imm, i ≠ .load op 0#5 rs1 imm) (hs : ∀ rd rs1, i ≠ .shift .srai rd rs1 0#5) :
    inCalls ld r rf rf' = (dataIn rf rf' i).map toCall := by
  have h' := h
  cases i with
  | alu op rd rs1 rs2 =>
    have d := decode_R (aluF op).1 rs2 rs1 (aluF op).2 rd 0x33#7
    have e := ev_at h hi d.1 rfl
    unfold evNamed at h
    cases he : r.ev <;> rw [he] at e h <;> try (simp [evOpc] at e; done)
    simp only [hi, encode, d] at h
    rw [regSel_enc] at h
    obtain ⟨-, h⟩ := h
    cases h
    simp only [inCalls, he, hi, encode, d.2.2.2.1, d.2.2.2.2.1]
    cases op <;> simp [aluCalls, dataIn, toCall, cls, call]
  | alui op rd rs1 imm =>
    have d := decode_I imm rs1 (iopF op) rd 0x13#7
    have e := ev_at h hi d.1 rfl
    cases he : r.ev <;> rw [he] at e <;> try (simp [evOpc] at e; done)
    simp only [inCalls, he, hi, encode, d.2.2.2.1, d.2.2.2.2.1]
    simp [dataIn, toCall, cls, call]
  | shift op rd rs1 sh =>
    have d := decode_R (shF op).1 sh rs1 (shF op).2 rd 0x13#7
    have e := ev_at h hi d.1 rfl
    cases he : r.ev <;> rw [he] at e <;> try (simp [evOpc] at e; done)
    simp only [inCalls, he, hi, encode, d.2.2.2.1, call]
    simp only [dataIn, toCall, cls, List.map_cons, List.map_nil, List.any_cons, List.any_nil, Bool.or_false]
    rw [sh_zero op sh rs1 rd fun e e' => hs rd rs1 (by rw [e, e'])]
  | load op rd rs1 imm =>
    have d := decode_I imm rs1 (loadF op) rd 0x03#7
    have e := ev_at h hi d.1 rfl
    cases he : r.ev <;> rw [he] at e <;> try (simp [evOpc] at e; done)
    simp only [inCalls, he, hi, encode, d.2.1, call]
    rw [if_neg (fun e => hl op rs1 imm (by rw [e])), one_ne]
    simp [dataIn, toCall, cls]
  | store op rs2 rs1 imm =>
    have d := decode_S imm rs2 rs1 (storeF op) 0x23#7
    have e := ev_at h hi d.1 rfl
    cases he : r.ev <;> rw [he] at e <;> try (simp [evOpc] at e; done)
    simp only [inCalls, he, hi, encode, d.2.2.2.1, call, one_ne]
    simp [dataIn, toCall, cls]
  | jalr rd rs1 imm =>
    have d := decode_I imm rs1 0#3 rd 0x67#7
    have e := ev_at h hi d.1 rfl
    cases he : r.ev <;> rw [he] at e <;> try (simp [evOpc] at e; done)
    simp only [inCalls, he]; rfl
  | lui rd imm =>
    have e := ev_at h hi (decode_U imm rd 0x37#7).1 rfl
    cases he : r.ev <;> rw [he] at e <;> try (simp [evOpc] at e; done)
    simp only [inCalls, he]; rfl
  | auipc rd imm =>
    have e := ev_at h hi (decode_U imm rd 0x17#7).1 rfl
    cases he : r.ev <;> rw [he] at e <;> try (simp [evOpc] at e; done)
    simp only [inCalls, he]; rfl
  | jal rd off =>
    have e := ev_at h hi (decode_J (dbl off) (by simp [dbl]) rd 0x6f#7).1 rfl
    cases he : r.ev <;> rw [he] at e <;> try (simp [evOpc] at e; done)
    simp only [inCalls, he]; rfl
  | branch op rs1 rs2 off =>
    have e := ev_at h hi (decode_B (dbl off) (by simp [dbl]) rs2 rs1 (branchF op) 0x63#7).1 rfl
    cases he : r.ev <;> rw [he] at e <;> try (simp [evOpc] at e; done)
    simp only [inCalls, he]; rfl
  | fence imm rs1 rd =>
    have e := ev_at h hi (decode_I imm rs1 0#3 rd 0x0f#7).1 rfl
    cases he : r.ev <;> rw [he] at e <;> try (simp [evOpc] at e; done)
    all_goals simp only [inCalls, he]; rfl
  | fencei =>
    have e := ev_at (o := 0x0f#7) h hi (by decide) rfl
    cases he : r.ev <;> rw [he] at e <;> try (simp [evOpc] at e; done)
    all_goals simp only [inCalls, he]; rfl
  | mret | wfi | ecall | ebreak =>
    have e := ev_at (o := 0x73#7) h hi (by decide) rfl
    cases he : r.ev <;> rw [he] at e <;> try (simp [evOpc] at e; done)
    all_goals simp only [inCalls, he]; rfl

theorem in_csr (h : evNamed rf r) (ld : W) {a : BitVec 12} {rs1 rd : BitVec 5} {f3 : BitVec 3}
    (hi : r.inst = encI a rs1 f3 rd 0x73#7) : inCalls ld r rf rf' = [] := by
  have e := ev_at h hi (decode_I a rs1 f3 rd 0x73#7).1 rfl
  cases he : r.ev <;> rw [he] at e <;> try (simp [evOpc] at e; done)
  all_goals simp only [inCalls, he]

theorem in_x1 (h : evNamed rf r) (ld : W) {x : X1} {m : W} (hm : x.match? = some m) {rd rs1 rs2 : BitVec 5}
    (hi : r.inst = xWord m rd rs1 rs2) : inCalls ld r rf rf' = (dataIn1 rf x rs1 rs2).map toCall := by
  obtain ⟨t1, t2, -⟩ := table1 hm
  rw [t1, xWord_enc] at hi
  have d := decode_R (IP.funct7 m) rs2 rs1 (IP.funct3 m) rd 0x0b#7
  obtain ⟨op, h1, h2⟩ := ProfRf.ev_simd' h hi d.1
  rw [d.2.2.1, d.2.2.2.2.2, t2] at h1
  cases h1
  simp only [inCalls, h2, hi, d.2.2.2.1, d.2.2.2.2.1]
  cases x <;> simp [opOf1, simdCalls, dataIn1, toCall, cls, call]
theorem in_x2 (h : evNamed rf r) (ld : W) {x : X2} {m : W} (hm : x.match? = some m) {rd rs1 rs2 : BitVec 5}
    (hi : r.inst = xWord m rd rs1 rs2) : inCalls ld r rf rf' = (dataIn2 rf x rs1 rs2).map toCall := by
  obtain ⟨t1, t2, -⟩ := table2 hm
  rw [t1, xWord_enc] at hi
  have d := decode_R (IP.funct7 m) rs2 rs1 (IP.funct3 m) rd 0x0b#7
  obtain ⟨op, h1, h2⟩ := ProfRf.ev_simd' h hi d.1
  rw [d.2.2.1, d.2.2.2.2.2, t2] at h1
  cases h1
  simp only [inCalls, h2, hi, d.2.2.2.1, d.2.2.2.2.1]
  cases x <;> simp [opOf2, simdCalls, dataIn2, toCall, cls, call]
theorem in_scp (h : evNamed rf r) (ld : W) (rel : Bool) {rd rs1 rs2 : BitVec 5}
    (hi : r.inst = encR 0x7f#7 rs2 rs1 (if rel then 1#3 else 0#3) rd 0x0b#7) : inCalls ld r rf rf' = [] := by
  have d := decode_R 0x7f#7 rs2 rs1 (if rel then 1#3 else 0#3) rd 0x0b#7
  obtain ⟨op, h1, h2⟩ := ProfRf.ev_simd' h hi d.1
  rw [d.2.2.1, d.2.2.2.2.2] at h1
  simp only [inCalls, h2]
  cases rel <;> cases h1 <;> rfl

/-! ## Compressed instructions -/

/-- what a load read -/
def loaded (ld : W) (rf' : BitVec 5 → W) : BitVec 5 → W := fun k => if k = 0#5 then ld else rf' k
theorem cin (h : evNamed rf r) (ld : W) {w : W} (hi : r.inst = w) {q : BitVec 2} (hq : IP.copcode w = q) (h3 : q ≠ 3#2)
    {f3 : BitVec 3} (hf : IP.cFunct3 w = f3) (hb : ¬ (q = 1#2 ∧ (f3 = 6#3 ∨ f3 = 7#3)))
    {op : COp} (hop : cOp w = some op) : inCalls ld r rf rf' = compCalls w op rf (loaded ld rf') := by
  obtain ⟨op', e, e'⟩ := ev_c h hi hq h3 hf hb
  rw [hop] at e'
  cases e'
  simp only [inCalls, e, hi]
  rfl
theorem creg_ne (r : BitVec 3) : creg r ≠ 0#5 := by revert r; decide
theorem creg_idx (r : BitVec 3) : (((creg r).setWidth 32 : W) == 0#32) = false := by revert r; decide
theorem ext_zero (sh : BitVec 5) : (((sh.setWidth 6).signExtend 32 : W) == 0#32) = ((sh.setWidth 32 : W) == 0#32) := by
  revert sh; decide
theorem ext_zero' (sh : BitVec 5) : (((sh.setWidth 6).setWidth 32 : W) == 0#32) = ((sh.setWidth 32 : W) == 0#32) := by
  revert sh; decide

/-- the compressed instructions that are counted by their operands -/
theorem in_comp (h : evNamed rf r) (ld : W) (i : CInstr) (hl : i.legal) (hi : r.inst = encodeC i)
    (h1 : ∀ rd imm, i ≠ .addi rd imm) (h2 : ∀ op rd rs, i ≠ .alu op rd rs) (h3 : ∀ rd rs, i ≠ .add rd rs) :
    inCalls ld r rf rf' = (dataInC rf rf' i).map toCall := by
  cases i <;> simp only [encodeC] at hi <;> simp only [CInstr.legal] at hl
  case addi rd imm => exact absurd rfl (h1 _ _)
  case alu op rd rs => exact absurd rfl (h2 _ _ _)
  case add rd rs => exact absurd rfl (h3 _ _)
  case addi4spn rd imm =>
    have d := decode_CADDI4SPN (scale 10 2 imm) (scale_mod4 10 imm) rd
    rw [cin h ld hi d.1 (by decide) d.2.1 (by decide) (op := .addi4spn) (by unfold cOp; rw [d.1, d.2.1]; rfl)]
    have : ((imm.setWidth 32 : W) == 0#32) = false := by simp only [beq_eq_false_iff_ne]; bv_omega
    simp [compCalls, dataInC, toCall, cls, call, this]
  case lw rd rs imm =>
    have d := decode_CLS 2#3 (scale 7 2 imm) (scale_mod4 7 imm) rs rd
    rw [cin h ld hi d.1 (by decide) d.2.1 (by decide) (op := .lw) (by unfold cOp; rw [d.1, d.2.1]; rfl)]
    simp [compCalls, dataInC, toCall, cls, call, d.2.2.2.1, loaded, creg_ne]
  case sw rd rs imm =>
    have d := decode_CLS 6#3 (scale 7 2 imm) (scale_mod4 7 imm) rs rd
    rw [cin h ld hi d.1 (by decide) d.2.1 (by decide) (op := .sw) (by unfold cOp; rw [d.1, d.2.1]; rfl)]
    simp [compCalls, dataInC, toCall, cls, call, d.2.2.2.1]
  case jal off =>
    have d := decode_CJ 1#3 (scale 12 1 off) (scale_even 12 off)
    rw [cin h ld hi d.1 (by decide) d.2.1 (by decide) (op := .jal) (by unfold cOp; rw [d.1, d.2.1]; rfl)]
    rfl
  case j off =>
    have d := decode_CJ 5#3 (scale 12 1 off) (scale_even 12 off)
    rw [cin h ld hi d.1 (by decide) d.2.1 (by decide) (op := .j) (by unfold cOp; rw [d.1, d.2.1]; rfl)]
    rfl
  case li rd imm =>
    have d := decode_CI 2#3 imm rd 1#2
    rw [cin h ld hi d.1 (by decide) d.2.1 (by decide) (op := .li) (by unfold cOp; rw [d.1, d.2.1]; rfl)]
    simp [compCalls, dataInC, toCall, cls, call, d.2.2.2.1]
  case lui rd imm =>
    have d := decode_CI 3#3 imm rd 1#2
    by_cases h0 : rd = 0#5
    · rw [cin h ld hi d.1 (by decide) d.2.1 (by decide) (op := .nop) (by
        unfold cOp; rw [d.1, d.2.1, d.2.2.1, h0]; rfl)]
      rfl
    · rw [cin h ld hi d.1 (by decide) d.2.1 (by decide) (op := .lui) (by
        unfold cOp; rw [d.1, d.2.1, d.2.2.1]
        show (if _ then _ else _) = _
        rw [if_neg h0, if_neg hl.1])]
      rfl
  case addi16sp imm =>
    have d := decode_CADDI16SP (scale 10 4 imm) (scale_mod16 10 imm)
    rw [cin h ld hi d.1 (by decide) d.2.1 (by decide) (op := .addi16sp) (by unfold cOp; rw [d.1, d.2.1, d.2.2.1]; rfl)]
    have : ((imm.signExtend 32 : W) == 0#32) = false := (by decide : ∀ i : BitVec 6, i ≠ 0#6 → ((i.signExtend 32 : W) == 0#32) = false) _ hl
    simp [compCalls, dataInC, toCall, cls, call, this]
  case srli rd sh =>
    have d := decode_CBA 0#2 (sh.setWidth 6) rd
    rw [cin h ld hi d.1 (by decide) d.2.1 (by decide) (op := .srli) (by unfold cOp; rw [d.1, d.2.1, d.2.2.1]; rfl)]
    simp only [compCalls, dataInC, toCall, cls, call, d.2.2.2.1, d.2.2.2.2.1, ext_zero, List.map_cons,
      List.map_nil, List.any_cons, List.any_nil, Bool.or_false]
  case srai rd sh =>
    have d := decode_CBA 1#2 (sh.setWidth 6) rd
    rw [cin h ld hi d.1 (by decide) d.2.1 (by decide) (op := .srai) (by unfold cOp; rw [d.1, d.2.1, d.2.2.1]; rfl)]
    simp only [compCalls, dataInC, toCall, cls, call, d.2.2.2.1, d.2.2.2.2.1, ext_zero, List.map_cons,
      List.map_nil, List.any_cons, List.any_nil, Bool.or_false]
  case andi rd sh =>
    have d := decode_CBA 2#2 sh rd
    rw [cin h ld hi d.1 (by decide) d.2.1 (by decide) (op := .andi) (by unfold cOp; rw [d.1, d.2.1, d.2.2.1]; rfl)]
    simp [compCalls, dataInC, toCall, cls, call, d.2.2.2.1, d.2.2.2.2.1]
  case beqz rs off =>
    have d := decode_CB 6#3 (scale 9 1 off) (scale_even 9 off) rs
    rcases ev_cb h hi d.1 (by rw [d.2.1]; decide) with ⟨t, e⟩ | ⟨t, e⟩ <;> simp only [inCalls, e] <;> rfl
  case bnez rs off =>
    have d := decode_CB 7#3 (scale 9 1 off) (scale_even 9 off) rs
    rcases ev_cb h hi d.1 (by rw [d.2.1]; decide) with ⟨t, e⟩ | ⟨t, e⟩ <;> simp only [inCalls, e] <;> rfl
  case slli rd sh =>
    have d := decode_CI 0#3 (sh.setWidth 6) rd 2#2
    rw [cin h ld hi d.1 (by decide) d.2.1 (by decide) (op := .slli) (by unfold cOp; rw [d.1, d.2.1]; rfl)]
    simp only [compCalls, dataInC, toCall, cls, call, d.2.2.1, d.2.2.2.2.1, ext_zero', List.map_cons,
      List.map_nil, List.any_cons, List.any_nil, Bool.or_false]
  case lwsp rd imm =>
    have d := decode_CLWSP (scale 8 2 imm) (scale_mod4 8 imm) rd
    rw [cin h ld hi d.1 (by decide) d.2.1 (by decide) (op := .lwsp) (by unfold cOp; rw [d.1, d.2.1]; rfl)]
    simp [compCalls, dataInC, toCall, cls, call, d.2.2.1, loaded, hl]
  case swsp rs imm =>
    have d := decode_CSWSP (scale 8 2 imm) (scale_mod4 8 imm) rs
    rw [cin h ld hi d.1 (by decide) d.2.1 (by decide) (op := .swsp) (by unfold cOp; rw [d.1, d.2.1]; rfl)]
    simp [compCalls, dataInC, toCall, cls, call, d.2.2.1]
  case jr rs =>
    have d := decode_CR 8#4 rs 0#5
    rw [cin h ld hi d.1 (by decide) d.2.2.1 (by decide) (op := .jr) (by
      unfold cOp; rw [d.1, d.2.2.1, d.2.1, d.2.2.2.2.1]; rfl)]
    rfl
  case mv rd rs =>
    have d := decode_CR 8#4 rd rs
    rw [cin h ld hi d.1 (by decide) d.2.2.1 (by decide) (op := .mv) (by
      unfold cOp; rw [d.1, d.2.2.1, d.2.1, d.2.2.2.2.1]
      show (if _ then _ else _) = _
      rw [if_neg hl])]
    simp [compCalls, dataInC, toCall, cls, call, d.2.2.2.2.1]
  case ebreak =>
    have d := decode_CR 9#4 0#5 0#5
    rw [cin h ld hi d.1 (by decide) d.2.2.1 (by decide) (op := .ebreak) (by
      unfold cOp; rw [d.1, d.2.2.1, d.2.1, d.2.2.2.2.1, d.2.2.2.1]; rfl)]
    rfl
  case jalr rs =>
    have d := decode_CR 9#4 rs 0#5
    rw [cin h ld hi d.1 (by decide) d.2.2.1 (by decide) (op := .jalr) (by
      unfold cOp; rw [d.1, d.2.2.1, d.2.1, d.2.2.2.2.1, d.2.2.2.1]
      show (if _ then _ else if _ then _ else _) = _
      rw [if_neg (fun e => hl e.2), if_pos rfl])]
    rfl

/-- `c.addi`: the 32-bit rs1 field of a compressed word is x0 -/
theorem in_caddi (h : evNamed rf r) (ld : W) (h0 : rf 0#5 = 0#32) {rd : BitVec 5} {imm : BitVec 6}
    (hi : r.inst = encodeC (.addi rd imm)) : inCalls ld r rf rf' = [(.alu, true)] := by
  rw [encodeC] at hi
  have d := decode_CI 0#3 imm rd 1#2
  rw [cin h ld hi d.1 (by decide) d.2.1 (by decide) (op := .addi) (by unfold cOp; rw [d.1, d.2.1]; rfl)]
  have : IP.rs1 (encCI 0#3 imm rd 1#2) = 0#5 := by fields [IP.rs1, encCI]
  simp [compCalls, call, this, h0]
/-- `c.and`, `c.or`, `c.xor`, `c.sub`: only the first operand counts -/
theorem in_calu (h : evNamed rf r) (ld : W) {op : CAlu} {rd rs : BitVec 3} (hi : r.inst = encodeC (.alu op rd rs)) :
    inCalls ld r rf rf' = [(.alu, rf (creg rd) == 0#32)] := by
  rw [encodeC] at hi
  obtain ⟨d1, d2, d3, d4, d5, d6, d7, -⟩ := decode_CA 0x23#6 rd (caluF op) rs
  cases op
  · rw [cin h ld hi d1 (by decide) d6 (by decide) (op := .sub) (by unfold cOp; rw [d1, d6, d7, d2, d3]; rfl)]
    simp only [compCalls, call, d4, d5, creg_idx, Bool.or_false]
  · rw [cin h ld hi d1 (by decide) d6 (by decide) (op := .xor) (by unfold cOp; rw [d1, d6, d7, d2, d3]; rfl)]
    simp only [compCalls, call, d4, d5, creg_idx, Bool.or_false]
  · rw [cin h ld hi d1 (by decide) d6 (by decide) (op := .or) (by unfold cOp; rw [d1, d6, d7, d2, d3]; rfl)]
    simp only [compCalls, call, d4, d5, creg_idx, Bool.or_false]
  · rw [cin h ld hi d1 (by decide) d6 (by decide) (op := .and) (by unfold cOp; rw [d1, d6, d7, d2, d3]; rfl)]
    simp only [compCalls, call, d4, d5, creg_idx, Bool.or_false]
/-- `c.add`: only the first operand counts -/
theorem in_cadd (h : evNamed rf r) (ld : W) {rd rs : BitVec 5} (hs : rs ≠ 0#5) (hi : r.inst = encodeC (.add rd rs)) :
    inCalls ld r rf rf' = [(.alu, rf rd == 0#32)] := by
  rw [encodeC] at hi
  have d := decode_CR 9#4 rd rs
  rw [cin h ld hi d.1 (by decide) d.2.2.1 (by decide) (op := .add) (by
    unfold cOp; rw [d.1, d.2.2.1, d.2.1, d.2.2.2.2.1, d.2.2.2.1]
    show (if _ then _ else if _ then _ else _) = _
    rw [if_neg (fun e => hs e.1), if_neg hs])]
  have : ((rs.setWidth 32 : W) == 0#32) = false :=
    (by decide : ∀ i : BitVec 5, i ≠ 0#5 → ((i.setWidth 32 : W) == 0#32) = false) _ hs
  simp only [compCalls, call, d.2.2.2.1, d.2.2.2.2.1, this, Bool.or_false]
/-- `srai` by 0: bit 30 of the word counts as part of the amount -/
theorem in_srai (h : evNamed rf r) (ld : W) {rd rs1 sh : BitVec 5} (hi : r.inst = encode (.shift .srai rd rs1 sh)) :
    inCalls ld r rf rf' = [(.alu, rf rs1 == 0#32)] := by
  have d := decode_R (shF .srai).1 sh rs1 (shF .srai).2 rd 0x13#7
  have e := ev_at h hi d.1 rfl
  cases he : r.ev <;> rw [he] at e <;> try (simp [evOpc] at e; done)
  simp only [inCalls, he, hi, encode, d.2.2.2.1, call]
  have : (IP.immI (encR (shF .srai).1 sh rs1 (shF .srai).2 rd 0x13#7) == 0#32) = false := by
    rw [shift_imm, (decode_I _ _ _ _ _).2.2.2.2.1]
    clear * -
    revert sh
    decide
  rw [this, Bool.or_false]

/-! ## Results -/

/-- the registers written, as calls -/
def outs (rf' : BitVec 5 → W) (l : List Nat) : List Call := l.map fun k => (.any, rf' (BitVec.ofNat 5 k) == 0#32)
/-- `outCalls` of a list of register uses -/
def outOf (rf' : BitVec 5 → W) (l : List (ProfRf.Use × ProfRf.Reg)) : List Call :=
  l.filterMap (outCall rf')
theorem outCalls_eq (r : ProfRec) : outCalls r rf' = outOf rf' (usesOf r) := rfl
/-- destinations only -/
def dests (l : List Operand) : List Operand := l.filter fun x => x.1 = .dest ∨ x.1 = .dest2
theorem out_dests (l : List Operand) : outOf rf' (calls l) = outOf rf' (calls (dests l)) := by
  induction l with
  | nil => rfl
  | cons x t ih =>
    obtain ⟨k, n⟩ := x
    have hc : ∀ y (u : List Operand), outOf rf' (calls (y :: u)) = match outCall rf' (ProfRf.use y.1, y.2) with
        | none => outOf rf' (calls u) | some b => b :: outOf rf' (calls u) := fun y u => by
      unfold outOf calls
      rw [List.map_cons, List.filterMap_cons]
      cases outCall rf' (ProfRf.use y.1, y.2) <;> rfl
    cases k
    case dest => rw [show dests ((Role.dest, n) :: t) = (Role.dest, n) :: dests t from rfl, hc, hc, ih]
    case dest2 => rw [show dests ((Role.dest2, n) :: t) = (Role.dest2, n) :: dests t from rfl, hc, hc, ih]
    all_goals exact (hc _ _).trans ih
theorem written_dests (l : List Operand) : written l = written (dests l) := by
  unfold written dests
  rw [List.filter_filter]
  simp
/-- one destination, none, or a pair -/
def Shape (l : List Operand) : Prop :=
  dests l = [] ∨ (∃ d, d < 32 ∧ dests l = [(.dest, d)]) ∨ ∃ d, d < 32 ∧ dests l = [(.dest, d), (.dest2, d + 1)]
theorem out_shape {l : List Operand} (h : Shape l) : outOf rf' (calls l) = outs rf' (written l) := by
  rw [out_dests, written_dests]
  rcases h with h | ⟨d, hd, h⟩ | ⟨d, hd, h⟩ <;> rw [h]
  · rfl
  · cases d <;> simp [outOf, calls, ProfRf.use, outs, written, rfAt, outCall]
  · cases d with
    | zero => rfl
    | succ d =>
      simp [outOf, calls, ProfRf.use, outs, written, rfAt, outCall]
theorem shape_of {w : W} {l : List Operand} (h : Operands w l) : Shape l := by
  have b : ∀ v : BitVec 5, v.toNat < 32 := fun v => v.isLt
  have c : ∀ v : BitVec 3, cnum v < 32 := fun v => by unfold cnum; omega
  cases h with
  | base i =>
    cases i
    case alu | alui | shift | load | jalr | lui | auipc | jal => exact .inr (.inl ⟨_, b _, rfl⟩)
    all_goals exact .inl rfl
  | comp i hl =>
    cases i
    case addi | slli | li | lui | lwsp | mv | add => exact .inr (.inl ⟨_, b _, rfl⟩)
    case addi4spn | lw | srli | srai | andi | alu => exact .inr (.inl ⟨_, c _, rfl⟩)
    case jal | jalr | addi16sp => exact .inr (.inl ⟨_, by decide, rfl⟩)
    all_goals exact .inl rfl
  | csrReg a rs1 rd f3 hf => exact .inr (.inl ⟨_, b _, rfl⟩)
  | csrImm a u rd f3 hf => exact .inr (.inl ⟨_, b _, rfl⟩)
  | x1 x m rd rs1 rs2 hm => cases x <;> exact .inr (.inl ⟨_, b rd, rfl⟩)
  | x2 x m rd rs1 rs2 hm => cases x <;> exact .inr (.inr ⟨_, b rd, rfl⟩)
  | scp rel rd rs1 rs2 => exact .inr (.inl ⟨_, b _, rfl⟩)
end Ama.Sparsity
