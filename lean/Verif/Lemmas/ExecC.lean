import Verif.Props.Isa
import Verif.Props.DecodeC
import Verif.Spec.Compressed
/-!
# Executing compressed instructions: effect on the core part
-/
namespace Ama
open M Spec
variable {σ : Type} {E : Env σ}

/-- execution of the 16-bit word `e` ends with core part `c` -/
def ExecC (E : Env σ) (e : W) (p : St σ) (c : Core) : Prop :=
  ∀ (ab : Prop) (Q : Unit → St σ → Prop), (∀ q, q.core = c → Q () q) → twp ab (exec16 E e) Q p

theorem copcode_rvc (w : W) : IP.copcode (IP.toRvc w) = IP.copcode w := by
  fields [IP.copcode, IP.toRvc]

theorem twp_exec16 {ab : Prop} {p : St σ} {Q : Unit → St σ → Prop} {e : W} (hr : E.cfg.rv32c = true)
    (he : IP.toRvc p.inst = e) (h : IP.copcode e ≠ 3#2)
    (hx : twp ab (exec16 E e) Q { p with inst := e }) : twp ab (exec E) Q p := by
  subst he
  rw [copcode_rvc] at h
  unfold exec
  rw [twp_bind, twp_get, if_pos h, if_pos hr, twp_bind, twp_mod]
  exact hx

theorem execTo_c {p : St σ} {c : Core} {e : W} (hr : E.cfg.rv32c = true)
    (he : IP.toRvc p.inst = e) (h : IP.copcode e ≠ 3#2)
    (hx : ExecC E e { p with inst := e } c) : ExecTo E p c :=
  fun ab Q hq => twp_exec16 hr he h (hx ab Q hq)

/-! ## Immediates -/

theorem scale_mod4 {n : Nat} (m : Nat) (x : BitVec n) : (scale m 2 x).extractLsb' 0 2 = 0#2 := by
  apply BitVec.eq_of_getLsbD_eq
  intro k hk
  simp only [BitVec.getLsbD_extractLsb', scale, BitVec.getLsbD_shiftLeft]
  have : decide (0 + k < 2) = true := decide_eq_true (by omega)
  simp [hk]
theorem scale_mod16 {n : Nat} (m : Nat) (x : BitVec n) : (scale m 4 x).extractLsb' 0 4 = 0#4 := by
  apply BitVec.eq_of_getLsbD_eq
  intro k hk
  simp only [BitVec.getLsbD_extractLsb', scale, BitVec.getLsbD_shiftLeft]
  simp [hk]
theorem scale_even {n : Nat} (m : Nat) (x : BitVec n) : (scale m 1 x).getLsbD 0 = false := by
  simp [scale]

theorem imm4spn (x : BitVec 8) : (scale 10 2 x).setWidth 32 = (scale 12 2 x).signExtend 32 := by
  revert x; decide +kernel
theorem imm4spn0 (x : BitVec 8) (h : x ≠ 0#8) : (scale 10 2 x).setWidth 32 ≠ 0#32 := by
  revert x; decide +kernel
theorem immLw (x : BitVec 5) : (scale 7 2 x).setWidth 32 = (scale 12 2 x).signExtend 32 := by
  revert x; decide +kernel
theorem immLwsp (x : BitVec 6) : (scale 8 2 x).setWidth 32 = (scale 12 2 x).signExtend 32 := by
  revert x; decide +kernel
theorem imm6 (x : BitVec 6) : x.signExtend 32 = (x.signExtend 12).signExtend 32 := by
  revert x; decide +kernel
theorem imm16sp (x : BitVec 6) : (scale 10 4 x).signExtend 32 = (scale 12 4 (x.signExtend 8)).signExtend 32 := by
  revert x; decide +kernel
theorem imm16sp0 (x : BitVec 6) (h : x ≠ 0#6) : (scale 10 4 x).signExtend 32 ≠ 0#32 := by
  revert x; decide +kernel
theorem immLui (x : BitVec 6) : x.signExtend 32 <<< 12 = (x.signExtend 20).setWidth 32 <<< 12 := by
  revert x; decide +kernel
theorem immLui0 (x : BitVec 6) (h : x ≠ 0#6) : x.signExtend 32 <<< 12 ≠ 0#32 := by
  revert x; decide +kernel
theorem immJ (x : BitVec 11) : (scale 12 1 x).signExtend 32 = (dbl (x.signExtend 20)).signExtend 32 := by
  revert x; decide +kernel
theorem immB (x : BitVec 8) : (scale 9 1 x).signExtend 32 = (dbl (x.signExtend 12)).signExtend 32 := by
  revert x; decide +kernel
theorem sh6 (x : BitVec 5) : ((x.setWidth 6).signExtend 32).toNat % 32 = x.toNat ∧
    ((x.setWidth 6).setWidth 32).toNat % 32 = x.toNat ∧ ((x.setWidth 6).signExtend 32).toNat < 32 ∧
    ((x.setWidth 6).setWidth 32).toNat < 32 := by
  revert x; decide +kernel

/-! ## Instructions -/

section
variable {p : St σ} {c : Core} (hc : p.core = c) (h0 : c.rf 0#5 = 0#32)
include hc

theorem twp_cWrite {ab : Prop} {op : COp} {r : BitVec 5} {v : W} {Q : Unit → St σ → Prop}
    (hq : ∀ q, q.core = { c with rf := wx c.rf r v, nextPc := c.pc + 2#32 } → Q () q) :
    twp ab (cWrite E op r v) Q p := twp_tail hc hq

include h0

theorem c_addi4spn {r : BitVec 3} {imm : BitVec 8} (h : imm ≠ 0#8) :
    ExecC E (encodeC (.addi4spn r imm)) p
      { c with rf := wx c.rf (creg r) (rx c.rf 2#5 + (scale 12 2 imm).signExtend 32), nextPc := c.pc + 2#32 } := by
  intro ab Q hq
  obtain ⟨d1, d2, d3, d4, -⟩ := decode_CADDI4SPN (scale 10 2 imm) (scale_mod4 10 imm) r
  have hp0 : p.rf 0#5 = 0#32 := by rw [core_rf hc]; exact h0
  have hne : encAddi4spn (scale 10 2 imm) r ≠ 0#32 := by
    intro hz
    apply imm4spn0 imm h
    rw [← d4, hz]; rfl
  simp only [encodeC, exec16, d1, dCompressed0, d2, cAddi4spn, d4, imm4spn0 imm h, hne, if_false]
  rw [twp_bind, twp_pure, twp_bind, twp_pure, twp_bind, twp_rg hp0, core_rf hc, d3, imm4spn]
  exact twp_cWrite hc hq

theorem c_addi {rd : BitVec 5} {imm : BitVec 6} :
    ExecC E (encodeC (.addi rd imm)) p
      { c with rf := wx c.rf rd (rx c.rf rd + (imm.signExtend 12).signExtend 32), nextPc := c.pc + 2#32 } := by
  intro ab Q hq
  obtain ⟨d1, d2, d3, d4, -⟩ := decode_CI 0#3 imm rd 1#2
  have hp0 : p.rf 0#5 = 0#32 := by rw [core_rf hc]; exact h0
  simp only [encodeC, exec16, d1, dCompressed1, d2, cAddi, d3, d4]
  rw [twp_bind, twp_rg hp0, core_rf hc, imm6]
  exact twp_cWrite hc hq

omit h0 in
theorem c_li {rd : BitVec 5} {imm : BitVec 6} :
    ExecC E (encodeC (.li rd imm)) p
      { c with rf := wx c.rf rd ((imm.signExtend 12).signExtend 32), nextPc := c.pc + 2#32 } := by
  intro ab Q hq
  obtain ⟨d1, d2, d3, d4, -⟩ := decode_CI 2#3 imm rd 1#2
  simp only [encodeC, exec16, d1, dCompressed1, d2, cLi, d3, d4]
  rw [imm6]
  exact twp_cWrite hc hq

omit h0 in
theorem c_lui {rd : BitVec 5} {imm : BitVec 6} (h : rd ≠ 2#5 ∧ imm ≠ 0#6) :
    ExecC E (encodeC (.lui rd imm)) p
      { c with rf := wx c.rf rd ((imm.signExtend 20).setWidth 32 <<< 12), nextPc := c.pc + 2#32 } := by
  intro ab Q hq
  obtain ⟨d1, d2, d3, -, -, d4, -⟩ := decode_CI 3#3 imm rd 1#2
  simp only [encodeC, exec16, d1, dCompressed1, d2, d3, h.1, if_false]
  rw [twp_ite]
  split
  · rename_i h1
    unfold cNop
    rw [twp_bind]
    refine twp_emit fun q1 e1 _ => twp_nextSeq (e1.trans hc) fun q2 e2 => hq q2 ?_
    rw [e2]
    have : wx c.rf rd ((imm.signExtend 20).setWidth 32 <<< 12) = c.rf := by funext r; simp [wx, h1]
    rw [this]
  · simp only [cLui, d3, d4, immLui0 imm h.2, if_false]
    rw [twp_bind, twp_pure, immLui]
    exact twp_cWrite hc hq

theorem c_addi16sp {imm : BitVec 6} (h : imm ≠ 0#6) :
    ExecC E (encodeC (.addi16sp imm)) p
      { c with rf := wx c.rf 2#5 (rx c.rf 2#5 + (scale 12 4 (imm.signExtend 8)).signExtend 32)
               nextPc := c.pc + 2#32 } := by
  intro ab Q hq
  obtain ⟨d1, d2, d3, d4, -⟩ := decode_CADDI16SP (scale 10 4 imm) (scale_mod16 10 imm)
  have hp0 : p.rf 0#5 = 0#32 := by rw [core_rf hc]; exact h0
  have h20 : (2#5 : BitVec 5) ≠ 0#5 := by decide
  simp only [encodeC, exec16, d1, dCompressed1, d2, d3, h20, if_false, if_true, cAddi16sp, d4, imm16sp0 imm h]
  rw [twp_bind, twp_pure, twp_bind, twp_rg hp0, core_rf hc, imm16sp]
  exact twp_cWrite hc hq

theorem c_andi {r : BitVec 3} {imm : BitVec 6} :
    ExecC E (encodeC (.andi r imm)) p
      { c with rf := wx c.rf (creg r) (rx c.rf (creg r) &&& (imm.signExtend 12).signExtend 32)
               nextPc := c.pc + 2#32 } := by
  intro ab Q hq
  obtain ⟨d1, d2, d3, d4, d5, -⟩ := decode_CBA 2#2 imm r
  have hp0 : p.rf 0#5 = 0#32 := by rw [core_rf hc]; exact h0
  simp only [encodeC, exec16, d1, dCompressed1, d2, d3, cAndi, d4, d5]
  rw [twp_bind, twp_rg hp0, core_rf hc, imm6]
  exact twp_cWrite hc hq

omit hc h0 in
theorem srl_small {b : Bool} {a n : W} {sh : BitVec 5} (hn : n.toNat < 32) (hm : n.toNat % 32 = sh.toNat) :
    aluSrl b a n = .ok (shop .srli a sh) := by
  have := alu_value .srl a n
  simp only [aluOp, alu, aluSrl, cShr, Bool.false_and, Bool.false_eq_true, if_false, hm] at this
  simp only [aluSrl, cShr, hn, decide_true, Bool.not_true, Bool.and_false, Bool.false_eq_true, if_false, shop, hm]
  exact this
omit hc h0 in
theorem sra_small {b : Bool} {a n : W} {sh : BitVec 5} (hn : n.toNat < 32) (hm : n.toNat % 32 = sh.toNat) :
    aluSra b a n = .ok (shop .srai a sh) := by
  have := alu_value .sra a n
  simp only [aluOp, alu, aluSra, cSar, Bool.false_and, Bool.false_eq_true, if_false, hm] at this
  simp only [aluSra, cSar, hn, decide_true, Bool.not_true, Bool.and_false, Bool.false_eq_true, if_false, shop, hm]
  exact this
omit hc h0 in
theorem sll_small {b : Bool} {a n : W} {sh : BitVec 5} (hn : n.toNat < 32) (hm : n.toNat % 32 = sh.toNat) :
    aluSll b a n = .ok (shop .slli a sh) := by
  have := alu_value .sll a n
  simp only [aluOp, alu, aluSll, cShl, Bool.false_and, Bool.false_eq_true, if_false, hm] at this
  simp only [aluSll, cShl, hn, decide_true, Bool.not_true, Bool.and_false, Bool.false_eq_true, if_false, shop, hm]
  exact this

theorem c_srli {r : BitVec 3} {sh : BitVec 5} :
    ExecC E (encodeC (.srli r sh)) p
      { c with rf := wx c.rf (creg r) (shop .srli (rx c.rf (creg r)) sh), nextPc := c.pc + 2#32 } := by
  intro ab Q hq
  have hp0 : p.rf 0#5 = 0#32 := by rw [core_rf hc]; exact h0
  obtain ⟨m1, m2, m3, m4⟩ := sh6 sh
  obtain ⟨d1, d2, d3, d4, d5, -⟩ := decode_CBA 0#2 (sh.setWidth 6) r
  simp only [encodeC, exec16, d1, dCompressed1, d2, d3, cSrli, d4, d5]
  rw [twp_bind, twp_rg hp0, core_rf hc, srl_small m3 m1, twp_bind, twp_lift_ok]
  exact twp_cWrite hc hq

theorem c_srai {r : BitVec 3} {sh : BitVec 5} :
    ExecC E (encodeC (.srai r sh)) p
      { c with rf := wx c.rf (creg r) (shop .srai (rx c.rf (creg r)) sh), nextPc := c.pc + 2#32 } := by
  intro ab Q hq
  have hp0 : p.rf 0#5 = 0#32 := by rw [core_rf hc]; exact h0
  obtain ⟨m1, m2, m3, m4⟩ := sh6 sh
  obtain ⟨d1, d2, d3, d4, d5, -⟩ := decode_CBA 1#2 (sh.setWidth 6) r
  simp only [encodeC, exec16, d1, dCompressed1, d2, d3, cSrai, d4, d5]
  rw [twp_bind, twp_rg hp0, core_rf hc, sra_small m3 m1, twp_bind, twp_lift_ok]
  exact twp_cWrite hc hq

theorem c_slli {rd : BitVec 5} {sh : BitVec 5} (hsz : c.Sized)
    (hah : E.cfg.profilers = true → (toNorm (c.pc + 2#32)).toNat + 4 ≤ memSize) :
    ExecC E (encodeC (.slli rd sh)) p
      { c with rf := wx c.rf rd (shop .slli (rx c.rf rd) sh), nextPc := c.pc + 2#32 } := by
  intro ab Q hq
  have hp0 : p.rf 0#5 = 0#32 := by rw [core_rf hc]; exact h0
  obtain ⟨m1, m2, m3, m4⟩ := sh6 sh
  obtain ⟨d1, d2, d3, -, d4, -⟩ := decode_CI 0#3 (sh.setWidth 6) rd 2#2
  simp only [encodeC, exec16, d1, dCompressed2, d2, cSlli, d3, d4]
  rw [twp_bind, twp_rg hp0, core_rf hc, sll_small m4 m2, twp_bind, twp_lift_ok, twp_bind]
  refine twp_wrRf hc fun q1 e1 => ?_
  rw [twp_bind]
  refine twp_emit fun q2 e2 _ => ?_
  have e2 := e2.trans e1
  rw [twp_bind, twp_ite]
  split
  · rename_i hpr
    rw [twp_bind, twp_get, twp_bind]
    refine twp_justInst (by rw [core_ram e2]; exact hsz.1) (by rw [core_pc e2]; exact hah hpr) ?_
    rw [twp_pure]
    exact twp_nextSeq e2 hq
  · rw [twp_pure]
    exact twp_nextSeq e2 hq

omit hc h0 in
theorem alu_eqs (a b : W) : alu .add a b = a + b ∧ alu .sub a b = a - b ∧ alu .xor a b = a ^^^ b ∧
    alu .or a b = a ||| b ∧ alu .and a b = a &&& b := by
  have h := fun op => (alu_value op a b).symm
  refine ⟨?_, ?_, ?_, ?_, ?_⟩
  · have := h .add; simp only [aluOp, Res.ok.injEq] at this; exact this
  · have := h .sub; simp only [aluOp, Res.ok.injEq] at this; exact this
  · have := h .xor; simp only [aluOp, Res.ok.injEq] at this; exact this
  · have := h .or; simp only [aluOp, Res.ok.injEq] at this; exact this
  · have := h .and; simp only [aluOp, Res.ok.injEq] at this; exact this

theorem c_alu {op : CAlu} {r1 r2 : BitVec 3} :
    ExecC E (encodeC (.alu op r1 r2)) p
      { c with rf := wx c.rf (creg r1) (alu (caluOp op) (rx c.rf (creg r1)) (rx c.rf (creg r2)))
               nextPc := c.pc + 2#32 } := by
  intro ab Q hq
  have hp0 : p.rf 0#5 = 0#32 := by rw [core_rf hc]; exact h0
  obtain ⟨d1, d2, d3, d4, d5, d6, d7, -⟩ := decode_CA 0x23#6 r1 (caluF op) r2
  have d6 : IP.cFunct3 (encCA 0x23#6 r1 (caluF op) r2) = 4#3 := d6
  have d7 : IP.cFunct2h (encCA 0x23#6 r1 (caluF op) r2) = 3#2 := d7
  obtain ⟨a1, a2, a3, a4, a5⟩ := alu_eqs (rx c.rf (creg r1)) (rx c.rf (creg r2))
  have hsel : exec16 E (encCA 0x23#6 r1 (caluF op) r2) = match op with
      | .sub => cAlu E (encCA 0x23#6 r1 (caluF op) r2) .sub (· - ·)
      | .xor => cAlu E (encCA 0x23#6 r1 (caluF op) r2) .xor (· ^^^ ·)
      | .or => cAlu E (encCA 0x23#6 r1 (caluF op) r2) .or (· ||| ·)
      | .and => cAlu E (encCA 0x23#6 r1 (caluF op) r2) .and (· &&& ·) := by
    simp only [exec16, d1, dCompressed1, d6, d7, dCompressed1Alu, d2, d3]
    cases op <;> rfl
  simp only [encodeC, hsel]
  cases op <;> simp only [cAlu, caluOp] at hq ⊢ <;>
    simp only [a2, a3, a4, a5] at hq <;>
    rw [twp_bind, twp_rg hp0, twp_bind, twp_rg hp0, core_rf hc, d4, d5] <;>
    exact twp_cWrite hc hq

theorem c_mv {rd rs2 : BitVec 5} (h : rs2 ≠ 0#5) :
    ExecC E (encodeC (.mv rd rs2)) p
      { c with rf := wx c.rf rd (rx c.rf rs2), nextPc := c.pc + 2#32 } := by
  intro ab Q hq
  have hp0 : p.rf 0#5 = 0#32 := by rw [core_rf hc]; exact h0
  obtain ⟨d1, d2, d3, d4, d5, -⟩ := decode_CR 8#4 rd rs2
  have d3 : IP.cFunct3 (encCR 8#4 rd rs2) = 4#3 := d3
  simp only [encodeC, exec16, d1, dCompressed2, d3, d2, d4, d5, h, if_false, cMv]
  rw [twp_bind, twp_rg hp0, core_rf hc]
  exact twp_cWrite hc hq

theorem c_add {rd rs2 : BitVec 5} (h : rs2 ≠ 0#5) :
    ExecC E (encodeC (.add rd rs2)) p
      { c with rf := wx c.rf rd (rx c.rf rd + rx c.rf rs2), nextPc := c.pc + 2#32 } := by
  intro ab Q hq
  have hp0 : p.rf 0#5 = 0#32 := by rw [core_rf hc]; exact h0
  obtain ⟨d1, d2, d3, d4, d5, -⟩ := decode_CR 9#4 rd rs2
  have d3 : IP.cFunct3 (encCR 9#4 rd rs2) = 4#3 := d3
  simp only [encodeC, exec16, d1, dCompressed2, d3, d2, d4, d5, h, false_and, if_false, cAdd]
  rw [twp_bind, twp_rg hp0, twp_bind, twp_rg hp0, core_rf hc]
  exact twp_cWrite hc hq

/-! ## Jumps and branches -/

omit hc h0 in
theorem not1 : (~~~1#32 : W) = 0xfffffffe#32 := by decide

theorem c_jr {rs1 : BitVec 5} (h : rs1 ≠ 0#5) :
    ExecC E (encodeC (.jr rs1)) p { c with nextPc := rx c.rf rs1 &&& 0xfffffffe#32 } := by
  intro ab Q hq
  have hp0 : p.rf 0#5 = 0#32 := by rw [core_rf hc]; exact h0
  obtain ⟨d1, d2, d3, d4, d5, -⟩ := decode_CR 8#4 rs1 0#5
  have d3 : IP.cFunct3 (encCR 8#4 rs1 0#5) = 4#3 := d3
  simp only [encodeC, exec16, d1, dCompressed2, d3, d2, d4, d5, if_true, cJr, h, if_false, not1]
  rw [twp_bind, twp_pure, twp_bind, twp_rg hp0, core_rf hc, twp_bind]
  refine twp_setNext hc fun q e => twp_emit fun q2 e2 _ => hq q2 (e2.trans e)

theorem c_jalr {rs1 : BitVec 5} (h : rs1 ≠ 0#5) :
    ExecC E (encodeC (.jalr rs1)) p
      { c with rf := wx c.rf 1#5 (c.pc + 2#32), nextPc := rx c.rf rs1 &&& 0xfffffffe#32 } := by
  intro ab Q hq
  have hp0 : p.rf 0#5 = 0#32 := by rw [core_rf hc]; exact h0
  obtain ⟨d1, d2, d3, d4, d5, -⟩ := decode_CR 9#4 rs1 0#5
  have d3 : IP.cFunct3 (encCR 9#4 rs1 0#5) = 4#3 := d3
  simp only [encodeC, exec16, d1, dCompressed2, d3, d2, d4, d5, true_and, if_true, cJalr, h, if_false, not1]
  rw [twp_bind, twp_rg hp0, core_rf hc, twp_bind]
  refine twp_setNext hc fun q e => ?_
  rw [twp_bind, twp_get, twp_bind, core_pc e]
  refine twp_wrRf e fun q2 e2 => twp_emit fun q3 e3 _ => hq q3 (e3.trans e2)

omit h0 in
theorem c_jal {off : BitVec 11} :
    ExecC E (encodeC (.jal off)) p
      { c with rf := wx c.rf 1#5 (c.pc + 2#32), nextPc := c.pc + (dbl (off.signExtend 20)).signExtend 32 } := by
  intro ab Q hq
  obtain ⟨d1, d2, d3, -⟩ := decode_CJ 1#3 (scale 12 1 off) (scale_even 12 off)
  simp only [encodeC, exec16, d1, dCompressed1, d2, cJal, d3]
  rw [twp_bind, twp_get, twp_bind, immJ, core_pc hc]
  refine twp_setNext hc fun q e => ?_
  rw [twp_bind]
  refine twp_wrRf e fun q2 e2 => twp_emit fun q3 e3 _ => hq q3 (e3.trans e2)

omit h0 in
theorem c_j {off : BitVec 11} :
    ExecC E (encodeC (.j off)) p
      { c with nextPc := c.pc + (dbl (off.signExtend 20)).signExtend 32 } := by
  intro ab Q hq
  obtain ⟨d1, d2, d3, -⟩ := decode_CJ 5#3 (scale 12 1 off) (scale_even 12 off)
  simp only [encodeC, exec16, d1, dCompressed1, d2, cJ, d3]
  rw [twp_bind, immJ]
  refine twp_nextSeq hc fun q e => twp_emit fun q3 e3 _ => hq q3 (e3.trans e)

theorem c_beqz {r : BitVec 3} {off : BitVec 8} :
    ExecC E (encodeC (.beqz r off)) p
      { c with nextPc := if rx c.rf (creg r) = 0#32 then c.pc + (dbl (off.signExtend 12)).signExtend 32
                         else c.pc + 2#32 } := by
  intro ab Q hq
  have hp0 : p.rf 0#5 = 0#32 := by rw [core_rf hc]; exact h0
  obtain ⟨d1, d2, d3, d4, -⟩ := decode_CB 6#3 (scale 9 1 off) (scale_even 9 off) r
  simp only [encodeC, exec16, d1, dCompressed1, d2, cBeqz, d3, d4]
  rw [twp_bind, twp_get, twp_bind, twp_rg hp0, core_rf hc, core_pc hc, immB, twp_ite]
  split
  all_goals
    rename_i hz
    simp only [hz, if_true, if_false] at hq
    rw [twp_bind]
    exact twp_setNext hc fun q e => twp_emit fun q3 e3 _ => hq q3 (e3.trans e)

theorem c_bnez {r : BitVec 3} {off : BitVec 8} :
    ExecC E (encodeC (.bnez r off)) p
      { c with nextPc := if rx c.rf (creg r) ≠ 0#32 then c.pc + (dbl (off.signExtend 12)).signExtend 32
                         else c.pc + 2#32 } := by
  intro ab Q hq
  have hp0 : p.rf 0#5 = 0#32 := by rw [core_rf hc]; exact h0
  obtain ⟨d1, d2, d3, d4, -⟩ := decode_CB 7#3 (scale 9 1 off) (scale_even 9 off) r
  have hsel : exec16 E (encCB 7#3 (scale 9 1 off) r) = cBnez E (encCB 7#3 (scale 9 1 off) r) := by
    simp only [exec16, d1, dCompressed1, d2]; rfl
  simp only [encodeC, hsel, cBnez, d3, d4]
  rw [twp_bind, twp_get, twp_bind, twp_rg hp0, core_rf hc, core_pc hc, immB, twp_ite]
  split
  all_goals
    rename_i hz
    simp only [hz, ne_eq, not_false_iff, if_true, if_false] at hq
    rw [twp_bind]
    exact twp_setNext hc fun q e => twp_emit fun q3 e3 _ => hq q3 (e3.trans e)

/-! ## Loads and stores -/

/-- `c_lw`/`c_lwsp` that reach main memory -/
theorem cLoad_ok {op : COp} {base dst : BitVec 5} {off ad : W} (hsz : c.Sized) (ht : c.trapped = false)
    (had : ad = rx c.rf base + off) (h : inRam ad) (ha : ad.toNat % 4 = 0)
    (hr : checkAccess (ad - memBase) true false false E.regions = true)
    {ab : Prop} {Q : Unit → St σ → Prop}
    (hq : ∀ q, q.core = { c with
      rf := wx c.rf dst (BitVec.ofNat 32 (le c.ram.bytes (ad - memBase) 4)), nextPc := c.pc + 2#32 } → Q () q) :
    twp ab (cLoad E op base dst off) Q p := by
  have hp0 : p.rf 0#5 = 0#32 := by rw [core_rf hc]; exact h0
  unfold cLoad
  rw [twp_bind, twp_rg hp0, core_rf hc, ← had, twp_bind]
  refine twp_memRd_ram hc hsz ht h (by simp) ha hr fun q h1 => ?_
  rw [twp_bind, twp_get, core_trapped h1, ht]
  simp only [Bool.false_eq_true, if_false]
  exact twp_cWrite h1 hq

theorem cLoad_trap {op : COp} {base dst : BitVec 5} {off ad : W}
    (had : ad = rx c.rf base + off) {c' : Core} (hc' : c'.trapped = true)
    (hsa : ∀ (ab : Prop) (Q : Option (DevId × W) → St σ → Prop), (∀ q, q.core = c' → Q none q) →
      twp ab (setAddr E ad .read 4) Q p) {ab : Prop} {Q : Unit → St σ → Prop}
    (hq : ∀ q, q.core = c' → Q () q) :
    twp ab (cLoad E op base dst off) Q p := by
  have hp0 : p.rf 0#5 = 0#32 := by rw [core_rf hc]; exact h0
  unfold cLoad memRd
  rw [twp_bind, twp_rg hp0, core_rf hc, ← had, twp_bind, twp_bind]
  refine hsa _ _ fun q h1 => ?_
  rw [twp_bind, twp_get, core_trapped h1, hc']
  simp only
  rw [twp_pure, twp_bind, twp_get, core_trapped h1, hc']
  simp only [if_true]
  rw [twp_pure]
  exact hq q h1

theorem cLoad_denied {op : COp} {base dst : BitVec 5} {off ad : W} (ht : c.trapped = false)
    (had : ad = rx c.rf base + off) (h : inRam ad) (ha : ad.toNat % 4 = 0)
    (hr : checkAccess (ad - memBase) true false false E.regions = false) {Q : Unit → St σ → Prop} :
    twp True (cLoad E op base dst off) Q p := by
  have hp0 : p.rf 0#5 = 0#32 := by rw [core_rf hc]; exact h0
  unfold cLoad
  rw [twp_bind, twp_rg hp0, core_rf hc, ← had, twp_bind]
  exact twp_memRd_denied hc ht h (by simp) ha hr

theorem cStore_ok {op : COp} {base src : BitVec 5} {off ad : W} (hsz : c.Sized) (ht : c.trapped = false)
    (had : ad = rx c.rf base + off) (h : inRam ad) (ha : ad.toNat % 4 = 0)
    (hr : checkAccess (ad - memBase) false true false E.regions = true)
    {ab : Prop} {Q : Unit → St σ → Prop}
    (hq : ∀ q, q.core = { c with
      ram := { c.ram with bytes := put c.ram.bytes (ad - memBase) (rx c.rf src).toNat 4 }
      nextPc := c.pc + 2#32 } → Q () q) :
    twp ab (cStore E op base src off) Q p := by
  have hp0 : p.rf 0#5 = 0#32 := by rw [core_rf hc]; exact h0
  unfold cStore
  rw [twp_bind, twp_rg hp0, twp_bind, twp_rg hp0, core_rf hc, ← had, twp_bind]
  refine twp_memWr_ram hc hsz ht h (by simp) ha hr fun q h1 => ?_
  rw [twp_bind, twp_get, core_trapped h1, ht]
  simp only [Bool.false_eq_true, if_false]
  rw [twp_bind]
  exact twp_emit fun q2 h2 _ => twp_nextSeq (h2.trans h1) hq

theorem cStore_trap {op : COp} {base src : BitVec 5} {off ad : W}
    (had : ad = rx c.rf base + off) {c' : Core} (hc' : c'.trapped = true)
    (hsa : ∀ (ab : Prop) (Q : Option (DevId × W) → St σ → Prop), (∀ q, q.core = c' → Q none q) →
      twp ab (setAddr E ad .write 4) Q p) {ab : Prop} {Q : Unit → St σ → Prop}
    (hq : ∀ q, q.core = c' → Q () q) :
    twp ab (cStore E op base src off) Q p := by
  have hp0 : p.rf 0#5 = 0#32 := by rw [core_rf hc]; exact h0
  unfold cStore memWr
  rw [twp_bind, twp_rg hp0, twp_bind, twp_rg hp0, core_rf hc, ← had, twp_bind, twp_bind]
  refine hsa _ _ fun q h1 => ?_
  rw [twp_bind, twp_get, core_trapped h1, hc']
  simp only
  rw [twp_pure, twp_bind, twp_get, core_trapped h1, hc']
  simp only [if_true]
  rw [twp_pure]
  exact hq q h1

theorem cStore_denied {op : COp} {base src : BitVec 5} {off ad : W} (ht : c.trapped = false)
    (had : ad = rx c.rf base + off) (h : inRam ad) (ha : ad.toNat % 4 = 0)
    (hr : checkAccess (ad - memBase) false true false E.regions = false) {Q : Unit → St σ → Prop} :
    twp True (cStore E op base src off) Q p := by
  have hp0 : p.rf 0#5 = 0#32 := by rw [core_rf hc]; exact h0
  unfold cStore
  rw [twp_bind, twp_rg hp0, twp_bind, twp_rg hp0, core_rf hc, ← had, twp_bind]
  exact twp_memWr_denied hc ht h (by simp) ha hr

end

/-! ## Which handler a load or store encoding reaches -/

theorem sel_lw (rd' rs1' : BitVec 3) (imm : BitVec 5) :
    exec16 E (encodeC (.lw rd' rs1' imm)) = cLoad E .lw (creg rs1') (creg rd') ((scale 12 2 imm).signExtend 32) := by
  obtain ⟨d1, d2, d3, d4, d5, -⟩ := decode_CLS 2#3 (scale 7 2 imm) (scale_mod4 7 imm) rs1' rd'
  simp only [encodeC, exec16, d1, dCompressed0, d2, d3, d4, d5, immLw]
theorem sel_sw (rs2' rs1' : BitVec 3) (imm : BitVec 5) :
    exec16 E (encodeC (.sw rs2' rs1' imm)) = cStore E .sw (creg rs1') (creg rs2') ((scale 12 2 imm).signExtend 32) := by
  obtain ⟨d1, d2, d3, d4, d5, -⟩ := decode_CLS 6#3 (scale 7 2 imm) (scale_mod4 7 imm) rs1' rs2'
  simp only [encodeC, exec16, d1, dCompressed0, d2, d3, d4, d5, immLw]
theorem sel_lwsp (rd : BitVec 5) (imm : BitVec 6) :
    exec16 E (encodeC (.lwsp rd imm)) = cLoad E .lwsp 2#5 rd ((scale 12 2 imm).signExtend 32) := by
  obtain ⟨d1, d2, d3, d4, -⟩ := decode_CLWSP (scale 8 2 imm) (scale_mod4 8 imm) rd
  simp only [encodeC, exec16, d1, dCompressed2, d2, d3, d4, immLwsp]
theorem sel_swsp (rs2 : BitVec 5) (imm : BitVec 6) :
    exec16 E (encodeC (.swsp rs2 imm)) = cStore E .swsp 2#5 rs2 ((scale 12 2 imm).signExtend 32) := by
  obtain ⟨d1, d2, d3, d4, -⟩ := decode_CSWSP (scale 8 2 imm) (scale_mod4 8 imm) rs2
  simp only [encodeC, exec16, d1, dCompressed2, d2, d3, d4, immLwsp]

end Ama
