import Verif.Spec.Isa
import Verif.Lemmas.Step
import Verif.Props.Alu
import Verif.Props.Decode
/-!
# Executing each 32-bit instruction: effect on the core part
-/
namespace Ama
open M Spec
variable {σ : Type}

theorem exec_32 (E : Env σ) (p : St σ) (h : IP.copcode p.inst = 3#2) :
    exec E p = exec32 E p.inst p := by
  unfold exec
  rw [M.bind_ok (M.get_app _ _)]
  simp [h]

theorem twp_exec32 {ab : Prop} {E : Env σ} {p : St σ} {Q : Unit → St σ → Prop}
    (h : IP.copcode p.inst = 3#2) (hx : twp ab (exec32 E p.inst) Q p) : twp ab (exec E) Q p := by
  unfold twp at *
  rw [exec_32 E p h]
  exact hx

/-- every 32-bit opcode ends in `11` -/
theorem copcode_of (w : W) (op : BitVec 7) (h : IP.opcode w = op) (ho : op.extractLsb' 0 2 = 3#2) :
    IP.copcode w = 3#2 := by
  subst h
  have : IP.copcode w = (IP.opcode w).extractLsb' 0 2 := by
    fields [IP.copcode, IP.opcode]
  rw [this, ho]

theorem twp_writeRf {ab : Prop} {r : BitVec 5} {v : W} {Q : Unit → St σ → Prop} {s : St σ} :
    twp ab (writeRf r v) Q s ↔ Q () { s with rf := wx s.rf r v } := by
  unfold writeRf
  split
  · rename_i h
    rw [twp_pure]
    have : wx s.rf r v = s.rf := by
      funext x; simp [wx, h]
    rw [this]
  · rename_i h
    rw [twp_mod]
    have : wx s.rf r v = upd s.rf r v := by
      funext x; simp [wx, upd, h]
    rw [this]

theorem twp_rg {ab : Prop} {r : BitVec 5} {Q : W → St σ → Prop} {s : St σ} (h0 : s.rf 0#5 = 0#32) :
    twp ab (rg r) Q s ↔ Q (rx s.rf r) s := by
  unfold rg
  rw [twp_get]
  have : rx s.rf r = s.rf r := by
    unfold rx; split
    · rename_i h; rw [h, h0]
    · rfl
  rw [this]

theorem twp_trap {ab : Prop} {cause tval : W} {Q : Unit → St σ → Prop} {s : St σ} :
    twp ab (trapInst cause tval) Q s ↔ Q () (trapTo cause tval s) := twp_ok (trapInst_app _ _ _)

/-- trap entry on the core part -/
def trapCore (cause tval : W) (c : Core) : Core :=
  { c with trapped := true, trapLog := (cause, tval, c.pc) :: c.trapLog
           csr := trapCsr c.csr c.pc cause tval, pc := c.csr A.mtvec }
theorem trapTo_core (cause tval : W) (s : St σ) : (trapTo cause tval s).core = trapCore cause tval s.core := rfl

/-! ## Computational instructions -/

theorem regSel_enc (op : AluOp) : aluRegSel (aluF op).1 (aluF op).2 = some op := by
  cases op <;> rfl

theorem twp_nextSeq {ab : Prop} {q : St σ} {c : Core} {n : W} {Q : Unit → St σ → Prop} (hc : q.core = c)
    (hq : ∀ q, q.core = { c with nextPc := c.pc + n } → Q () q) : twp ab (nextSeq n) Q q := by
  unfold nextSeq
  rw [twp_mod]
  apply hq
  subst hc
  rfl

theorem twp_setNext {ab : Prop} {q : St σ} {c : Core} {n : W} {Q : Unit → St σ → Prop} (hc : q.core = c)
    (hq : ∀ q, q.core = { c with nextPc := n } → Q () q) : twp ab (setNext n) Q q := by
  unfold setNext
  rw [twp_mod]
  apply hq
  subst hc
  rfl

theorem twp_wrRf {ab : Prop} {q : St σ} {c : Core} {rd : BitVec 5} {v : W} {Q : Unit → St σ → Prop}
    (hc : q.core = c) (hq : ∀ q, q.core = { c with rf := wx c.rf rd v } → Q () q) :
    twp ab (writeRf rd v) Q q := by
  rw [twp_writeRf]
  apply hq
  subst hc
  rfl

/-- write the result, log, go on -/
theorem twp_tail {ab : Prop} {E : Env σ} {q : St σ} {c : Core} {rd : BitVec 5} {v n : W} {ev : ProfEv}
    {Q : Unit → St σ → Prop} (hc : q.core = c)
    (hq : ∀ q, q.core = { c with rf := wx c.rf rd v, nextPc := c.pc + n } → Q () q) :
    twp ab (do
      writeRf rd v
      emit E ev
      nextSeq n) Q q := by
  rw [twp_bind]
  refine twp_wrRf hc fun q1 h1 => ?_
  rw [twp_bind]
  refine twp_emit fun q2 h2 _ => ?_
  exact twp_nextSeq (h2.trans h1) hq

/-- the other order of the last two -/
theorem twp_tail' {ab : Prop} {E : Env σ} {q : St σ} {c : Core} {rd : BitVec 5} {v n : W} {ev : ProfEv}
    {Q : Unit → St σ → Prop} (hc : q.core = c)
    (hq : ∀ q, q.core = { c with rf := wx c.rf rd v, nextPc := c.pc + n } → Q () q) :
    twp ab (do
      writeRf rd v
      nextSeq n
      emit E ev) Q q := by
  rw [twp_bind]
  refine twp_wrRf hc fun q1 h1 => ?_
  rw [twp_bind]
  refine twp_nextSeq h1 fun q2 h2 => ?_
  exact twp_emit fun q3 h3 _ => hq q3 (h3.trans h2)

/-- immediate field of a constant shift -/
def shImm (f7 : BitVec 7) (sh : BitVec 5) : BitVec 12 := f7.setWidth 12 <<< 5 ||| sh.setWidth 12

theorem shift_imm (op : ShOp) (sh rs1 rd : BitVec 5) :
    encR (shF op).1 sh rs1 (shF op).2 rd 0x13#7 = encI (shImm (shF op).1 sh) rs1 (shF op).2 rd 0x13#7 := by
  generalize (shF op).1 = f7
  have : fld (shImm f7 sh) 20 = fld f7 25 ||| fld sh 20 := by
    clear * -
    revert f7 sh; decide +kernel
  simp only [encR, encI, this]

/-- what `d_alu_imm` passes to the shifter: the whole sign-extended immediate -/
theorem shift_val (op : ShOp) (a : W) (sh : BitVec 5) :
    aluOp false (match op with | .slli => .sll | .srli => .srl | .srai => .sra) a
      ((shImm (shF op).1 sh).signExtend 32) = .ok (shop op a sh) := by
  have hm : ((shImm (shF op).1 sh).signExtend 32).toNat % 32 = sh.toNat := by
    cases op <;> revert sh <;> decide
  rw [alu_value]
  cases op <;> simp only [alu, shop, hm]

section
variable {E : Env σ} {p : St σ} {c : Core} (hc : p.core = c) (h0 : c.rf 0#5 = 0#32)
include hc h0

theorem exec_alu (hst : E.cfg.strict = false) {op : AluOp} {rd rs1 rs2 : BitVec 5}
    (hi : c.inst = encode (.alu op rd rs1 rs2)) :
    ExecTo E p { c with rf := wx c.rf rd (alu op (rx c.rf rs1) (rx c.rf rs2)), nextPc := c.pc + 4#32 } := by
  intro ab Q hq
  obtain ⟨d1, d2, d3, d4, d5, d6⟩ := decode_R (aluF op).1 rs2 rs1 (aluF op).2 rd 0x33#7
  have hpi : p.inst = encR (aluF op).1 rs2 rs1 (aluF op).2 rd 0x33#7 := (core_inst hc).trans hi
  refine twp_exec32 (copcode_of _ 0x33#7 (by rw [hpi]; exact d1) rfl) ?_
  rw [hpi]
  simp only [exec32, d1, dAluReg, d6, d3, regSel_enc, d2, d4, d5]
  have hp0 : p.rf 0#5 = 0#32 := by rw [core_rf hc]; exact h0
  rw [twp_bind, twp_rg hp0, twp_bind, twp_rg hp0, twp_bind, core_rf hc]
  have rest : ∀ q, q.core = p.core → twp ab (do
      let res ← lift (aluOp E.cfg.strict op (rx c.rf rs1) (rx c.rf rs2))
      writeRf rd res
      emit E (.alu op)
      nextSeq 4#32) Q q := by
    intro q hqc
    rw [hst, alu_value, twp_bind, twp_lift_ok]
    exact twp_tail (hqc.trans hc) hq
  cases op.divUns with
  | none => rw [twp_pure]; exact rest _ rfl
  | some u => exact twp_hwUpd fun q h1 _ => rest q h1

theorem exec_alui (hst : E.cfg.strict = false) {op : IOp} {rd rs1 : BitVec 5} {imm : BitVec 12}
    (hi : c.inst = encode (.alui op rd rs1 imm)) :
    ExecTo E p { c with rf := wx c.rf rd (iop op (rx c.rf rs1) (imm.signExtend 32))
                        nextPc := c.pc + 4#32 } := by
  intro ab Q hq
  obtain ⟨d1, d2, d3, d4, d5, -, -, d6, -⟩ := decode_I imm rs1 (iopF op) rd 0x13#7
  have hpi : p.inst = encI imm rs1 (iopF op) rd 0x13#7 := (core_inst hc).trans hi
  refine twp_exec32 (copcode_of _ 0x13#7 (by rw [hpi]; exact d1) rfl) ?_
  rw [hpi]
  have hp0 : p.rf 0#5 = 0#32 := by rw [core_rf hc]; exact h0
  simp only [exec32, d1, dAluImm, d6, d3]
  cases op <;> simp only [aluImmSel, iopF] at d2 d3 d4 d5 ⊢ <;>
    rw [twp_bind, twp_rg hp0, core_rf hc, d2, d4, d5, twp_bind] <;>
    simp only [aluImm, AluImmOp.toAlu]
  case slti =>
    unfold aluSlti
    rw [twp_ite]
    have tail : ∀ v, (rd = 0#5 ∨ v = iop .slti (rx c.rf rs1) (imm.signExtend 32)) → ∀ q, q.core = c →
        twp ab (do
          writeRf rd v
          emit E (.alui .slti)
          nextSeq 4#32) Q q := by
      intro v hv q hqc
      refine twp_tail hqc fun q2 h2 => hq q2 ?_
      rw [h2]
      congr 1
      rcases hv with hv | hv
      · funext x; simp [wx, hv]
      · rw [hv]
    split
    · rename_i h
      simp only [Bool.and_eq_true, beq_iff_eq] at h
      have hrd : rd = 0#5 := by rw [← d2, h.2]; decide
      rw [twp_bind, twp_get, twp_bind, twp_mod, twp_bind]
      refine twp_profState fun q h1 _ _ => ?_
      rw [twp_pure]
      exact tail _ (Or.inl hrd) q (h1.trans hc)
    · rw [twp_ite]
      split
      · rename_i h
        simp only [Bool.and_eq_true, beq_iff_eq] at h
        have hrd : rd = 0#5 := by rw [← d2, h.2]; decide
        rw [twp_bind]
        refine twp_profState fun q h1 _ _ => ?_
        rw [twp_bind, twp_mod, twp_pure]
        exact tail _ (Or.inl hrd) _ (h1.trans hc)
      · rw [twp_pure]
        refine tail _ (Or.inr ?_) p hc
        have := alu_value .slt (rx c.rf rs1) (imm.signExtend 32)
        simpa [aluOp, iop] using this
  all_goals
    rw [hst, alu_value, twp_lift_ok]
    exact twp_tail hc hq

theorem exec_shift (hst : E.cfg.strict = false) {op : ShOp} {rd rs1 sh : BitVec 5}
    (hsz : c.Sized) (hah : E.cfg.profilers = true → (toNorm (c.pc + 4#32)).toNat + 4 ≤ memSize)
    (hi : c.inst = encode (.shift op rd rs1 sh)) :
    ExecTo E p { c with rf := wx c.rf rd (shop op (rx c.rf rs1) sh), nextPc := c.pc + 4#32 } := by
  intro ab Q hq
  obtain ⟨d1, d2, d3, d4, d5, -, -, d6, -⟩ := decode_I (shImm (shF op).1 sh) rs1 (shF op).2 rd 0x13#7
  have hpi : p.inst = encI (shImm (shF op).1 sh) rs1 (shF op).2 rd 0x13#7 := by
    rw [← shift_imm]; exact (core_inst hc).trans hi
  refine twp_exec32 (copcode_of _ 0x13#7 (by rw [hpi]; exact d1) rfl) ?_
  rw [hpi]
  have hp0 : p.rf 0#5 = 0#32 := by rw [core_rf hc]; exact h0
  simp only [exec32, d1, dAluImm, d6, d3]
  have hv := shift_val op (rx c.rf rs1) sh
  have hb : (shImm (shF op).1 sh).extractLsb' 10 1 = if op = .srai then 1#1 else 0#1 := by
    clear * -
    cases op <;> revert sh <;> decide
  rw [hb]
  cases op <;> simp only [aluImmSel, shF, reduceCtorEq, if_false, if_true,
      show ¬ (1#1 = 0#1) from by decide] at d2 d3 d4 d5 hv ⊢ <;>
    rw [twp_bind, twp_rg hp0, core_rf hc, d2, d4, d5, twp_bind] <;>
    simp only [aluImm, AluImmOp.toAlu]
  case slli =>
    simp only [aluOp] at hv
    rw [twp_bind, twp_ite]
    split
    · rename_i hpr
      rw [twp_bind, twp_get, twp_bind]
      refine twp_justInst (by rw [core_ram hc]; exact hsz.1) (by rw [core_pc hc]; exact hah hpr) ?_
      rw [twp_pure, hst, hv, twp_lift_ok]
      exact twp_tail hc hq
    · rw [twp_pure, hst, hv, twp_lift_ok]
      exact twp_tail hc hq
  all_goals
    rw [hst, hv, twp_lift_ok]
    exact twp_tail hc hq

omit h0 in
theorem exec_lui {rd : BitVec 5} {imm : BitVec 20} (hi : c.inst = encode (.lui rd imm)) :
    ExecTo E p { c with rf := wx c.rf rd (imm.setWidth 32 <<< 12), nextPc := c.pc + 4#32 } := by
  intro ab Q hq
  obtain ⟨d1, d2, d3⟩ := decode_U imm rd 0x37#7
  have hpi : p.inst = encU imm rd 0x37#7 := (core_inst hc).trans hi
  refine twp_exec32 (copcode_of _ 0x37#7 (by rw [hpi]; exact d1) rfl) ?_
  rw [hpi]
  simp only [exec32, d1, dLui, d2, d3]
  exact twp_tail' hc hq

omit h0 in
theorem exec_auipc {rd : BitVec 5} {imm : BitVec 20} (hi : c.inst = encode (.auipc rd imm)) :
    ExecTo E p { c with rf := wx c.rf rd (c.pc + (imm.setWidth 32 <<< 12)), nextPc := c.pc + 4#32 } := by
  intro ab Q hq
  obtain ⟨d1, d2, d3⟩ := decode_U imm rd 0x17#7
  have hpi : p.inst = encU imm rd 0x17#7 := (core_inst hc).trans hi
  refine twp_exec32 (copcode_of _ 0x17#7 (by rw [hpi]; exact d1) rfl) ?_
  rw [hpi]
  simp only [exec32, d1, dAuipc, d2, d3]
  rw [twp_bind, twp_get, core_pc hc, BitVec.add_comm]
  exact twp_tail' hc hq

end
end Ama
