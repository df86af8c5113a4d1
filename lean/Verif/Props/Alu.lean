import Verif.Spec.Alu
import Mathlib.Tactic.Linarith
/-!
# C02 (value part), C03, C04: arithmetic results
-/
namespace Ama
open Spec

private theorem toInt_eq_wrap (a : W) (z : Int) (h : a.toInt = z) : a = wrap z := by
  subst h; simp [wrap]

private theorem toNat_wrap (n : Nat) : (wrap (n : Int)).toNat = n % 2 ^ 32 := by
  simp [wrap]

private theorem low_half (p : BitVec 64) : (p.sshiftRight 32).setWidth 32 = wrap (p.toInt / 2 ^ 32) := by
  apply BitVec.eq_of_toNat_eq
  have h : (p.sshiftRight 32).toInt = p.toInt / 2 ^ 32 := by
    rw [BitVec.toInt_sshiftRight, Int.shiftRight_eq_div_pow]; rfl
  have h2 : wrap (p.toInt / 2 ^ 32) = BitVec.setWidth 32 (BitVec.ofInt 64 (p.toInt / 2 ^ 32)) := by
    apply BitVec.eq_of_toNat_eq
    simp [wrap, BitVec.toNat_ofInt]
    omega
  rw [h2, ← h, BitVec.ofInt_toInt]

theorem aluMulh_spec (a b : W) : aluMulh a b = wrap (a.toInt * b.toInt / 2 ^ 32) := by
  have ha := BitVec.toInt_lt (x := a)
  have ha' := BitVec.le_toInt a
  have hb := BitVec.toInt_lt (x := b)
  have hb' := BitVec.le_toInt b
  unfold aluMulh
  rw [low_half, BitVec.toInt_mul, BitVec.toInt_signExtend_of_le (by decide),
    BitVec.toInt_signExtend_of_le (by decide)]
  rw [Int.bmod_eq_of_le] 
  · norm_num at *; nlinarith
  · norm_num at *; nlinarith

theorem aluMulhsu_spec (a b : W) : aluMulhsu a b = wrap (a.toInt * b.toNat / 2 ^ 32) := by
  have ha := BitVec.toInt_lt (x := a)
  have ha' := BitVec.le_toInt a
  have hb := b.isLt
  unfold aluMulhsu
  rw [low_half, BitVec.toInt_mul, BitVec.toInt_signExtend_of_le (by decide),
    BitVec.toInt_setWidth]
  have e : ((b.toNat : Int)).bmod (2 ^ 64) = b.toNat := by
    apply Int.bmod_eq_of_le <;> omega
  rw [e, Int.bmod_eq_of_le]
  · norm_num at *; nlinarith
  · norm_num at *; nlinarith

theorem aluMulhu_spec (a b : W) : aluMulhu a b = wrap (a.toNat * b.toNat / 2 ^ 32) := by
  have ha := a.isLt
  have hb := b.isLt
  apply BitVec.eq_of_toNat_eq
  have : a.toNat * b.toNat < 2 ^ 64 := by nlinarith
  have e : ((a.toNat : Int) * b.toNat / 2 ^ 32) = ((a.toNat * b.toNat / 2 ^ 32 : Nat) : Int) := by
    push_cast; rfl
  rw [e, toNat_wrap]
  simp [aluMulhu, Nat.shiftRight_eq_div_pow]
  omega

theorem alu_div_spec (a b : W) : aluDiv a b = alu .div a b := by
  unfold aluDiv alu
  have hz : b = 0#32 ↔ b.toInt = 0 := by
    constructor
    · rintro rfl; rfl
    · intro h; exact BitVec.eq_of_toInt_eq (by simpa using h)
  by_cases h : b = 0#32
  · simp [h, wrap]
  · have h' : ¬ b.toInt = 0 := fun e => h (hz.2 e)
    simp only [h, h', if_false]
    split
    · rename_i hc
      obtain ⟨rfl, rfl⟩ := hc
      decide
    · apply toInt_eq_wrap
      rw [BitVec.toInt_sdiv_of_ne_or_ne]
      rename_i hc
      by_cases h1 : a = 0x80000000#32
      · right; intro hb; apply hc; exact ⟨h1, by rw [hb]; rfl⟩
      · left; intro ha; apply h1; rw [ha]; rfl

theorem alu_rem_spec (a b : W) : aluRem a b = alu .rem a b := by
  unfold aluRem alu
  have hz : b = 0#32 ↔ b.toInt = 0 := by
    constructor
    · rintro rfl; rfl
    · intro h; exact BitVec.eq_of_toInt_eq (by simpa using h)
  by_cases h : b = 0#32
  · simp [h]
  · have h' : ¬ b.toInt = 0 := fun e => h (hz.2 e)
    simp only [h, h', if_false]
    split
    · rename_i hc
      obtain ⟨rfl, rfl⟩ := hc
      decide
    · apply toInt_eq_wrap
      rw [BitVec.toInt_srem]

/-- **C02/C03/C04** On the compiled simulator (g++ on x86, `strict = false`) every
register-register operation computes the ISA result, for all operand values. -/
theorem alu_value (op : AluOp) (a b : W) : aluOp false op a b = .ok (alu op a b) := by
  cases op <;> simp only [aluOp, aluSll, aluSrl, aluSra, aluMul, cShl, cShr, cSar, cMulI,
    Bool.false_and, Bool.false_eq_true, if_false]
  case add => simp [alu, wrap, BitVec.ofInt_add]
  case sub => 
    congr 1
    apply BitVec.eq_of_toInt_eq
    simp [alu, wrap, BitVec.toInt_sub]
  case sll =>
    congr 1; apply BitVec.eq_of_toNat_eq
    have : ((a.toNat : Int) * 2 ^ (b.toNat % 32)) = ((a.toNat * 2 ^ (b.toNat % 32) : Nat) : Int) := by
      push_cast; rfl
    simp only [alu]; rw [this, toNat_wrap]
    simp [Nat.shiftLeft_eq]
  case srl =>
    congr 1; apply BitVec.eq_of_toNat_eq
    have : ((a.toNat : Int) / 2 ^ (b.toNat % 32)) = ((a.toNat / 2 ^ (b.toNat % 32) : Nat) : Int) := by
      push_cast; rfl
    simp only [alu]; rw [this, toNat_wrap]
    have h2 := Nat.div_le_self a.toNat (2 ^ (b.toNat % 32))
    have h3 := a.isLt
    rw [Nat.mod_eq_of_lt (Nat.lt_of_le_of_lt h2 h3)]
    simp [Nat.shiftRight_eq_div_pow]
  case sra =>
    congr 1; apply toInt_eq_wrap
    rw [BitVec.toInt_sshiftRight, Int.shiftRight_eq_div_pow]; norm_cast
  case xor => rfl
  case or => rfl
  case and => rfl
  case slt => simp [alu, aluSlt, b2w, BitVec.slt]
  case sltu => simp [alu, aluSltu, b2w, BitVec.ult]
  case mul => simp [alu, wrap, BitVec.ofInt_mul]
  case mulh => simp [alu, aluMulh_spec]
  case mulhsu => simp [alu, aluMulhsu_spec]
  case mulhu => simp [alu, aluMulhu_spec]
  case div => rw [alu_div_spec]
  case rem => rw [alu_rem_spec]
  case divu =>
    congr 1
    have hz : b = 0#32 ↔ b.toNat = 0 := ⟨by rintro rfl; rfl, fun h => BitVec.eq_of_toNat_eq (by simpa using h)⟩
    simp only [aluDivu, alu, hz]
    split
    · decide
    · have : ((a.toNat : Int) / b.toNat) = ((a.toNat / b.toNat : Nat) : Int) := by push_cast; rfl
      rw [this]
      apply BitVec.eq_of_toNat_eq
      have h2 := Nat.div_le_self a.toNat b.toNat
      have h3 := a.isLt
      rw [toNat_wrap, Nat.mod_eq_of_lt (Nat.lt_of_le_of_lt h2 h3)]; simp
  case remu =>
    congr 1
    have hz : b = 0#32 ↔ b.toNat = 0 := ⟨by rintro rfl; rfl, fun h => BitVec.eq_of_toNat_eq (by simpa using h)⟩
    simp only [aluRemu, alu, hz]
    split
    · rfl
    · have : ((a.toNat : Int) % b.toNat) = ((a.toNat % b.toNat : Nat) : Int) := by push_cast; rfl
      rw [this]
      apply BitVec.eq_of_toNat_eq
      have h2 := Nat.mod_le a.toNat b.toNat
      have h3 := a.isLt
      rw [toNat_wrap, Nat.mod_eq_of_lt (Nat.lt_of_le_of_lt h2 h3)]; simp
  case max =>
    simp only [alu, aluMax, BitVec.slt, decide_eq_true_eq]
    split <;> split <;> first | rfl | (congr 1; apply BitVec.eq_of_toInt_eq; omega)
  case maxu =>
    simp only [alu, aluMaxu, BitVec.ult, decide_eq_true_eq]
    split <;> split <;> first | rfl | (congr 1; apply BitVec.eq_of_toNat_eq; omega)
  case min =>
    simp only [alu, aluMin, BitVec.slt, decide_eq_true_eq]
    split <;> split <;> first | rfl | (congr 1; apply BitVec.eq_of_toInt_eq; omega)
  case minu =>
    simp only [alu, aluMinu, BitVec.ult, decide_eq_true_eq]
    split <;> split <;> first | rfl | (congr 1; apply BitVec.eq_of_toNat_eq; omega)

/-- **C26 (arithmetic)** In ISO C++ the same operations are defined exactly outside
`Spec.aluUb`: shifts by 32 or more and `mul` overflow are undefined, all else agrees. -/
theorem alu_strict (op : AluOp) (a b : W) :
    aluOp true op a b = match aluUb op a b with
      | some k => .ub k
      | none => .ok (alu op a b) := by
  have hv := alu_value op a b
  cases op <;> simp only [aluOp, aluSll, aluSrl, aluSra, aluMul, cShl, cShr, cSar, cMulI, aluUb,
    Bool.true_and, Bool.false_and, Bool.false_eq_true, if_false] at hv ⊢ <;> try exact hv
  case mul =>
    have hf : fitsI32 (a.toInt * b.toInt) =
        decide (-2 ^ 31 ≤ a.toInt * b.toInt ∧ a.toInt * b.toInt < 2 ^ 31) := by
      simp only [fitsI32]; congr 1; apply propext; omega
    rw [hf]
    by_cases h : -2 ^ 31 ≤ a.toInt * b.toInt ∧ a.toInt * b.toInt < 2 ^ 31
    · rw [if_pos h]
      simp only [h, decide_true, Bool.not_true, Bool.false_eq_true, if_false]
      simpa using hv
    · rw [if_neg h]
      simp only [h, decide_false, Bool.not_false, if_true]
  all_goals
    by_cases h : b.toNat < 32
    · simp [h]; simpa [Nat.mod_eq_of_lt h] using hv
    · simp [h]

/-- multiplication of two large numbers: the high half is really used -/
example : aluOp false .mulhsu 0xffffffff#32 0xffffffff#32 = .ok 0xffffffff#32 := by decide
example : aluOp false .div 0x80000000#32 0xffffffff#32 = .ok 0x80000000#32 := by decide
example : alu .rem 0xfffffff9#32 2#32 = 0xffffffff#32 := by decide
/-- the undefined set is inhabited: `sll x, y` with y = 32 -/
example : aluOp true .sll 1#32 32#32 = .ub .shift := by decide

/-- **C03** quotient and remainder recompose the dividend, for every pair of operands
(division by zero included for the unsigned pair with the remainder = dividend). -/
theorem div_rem_recompose (a b q r : W) (hq : aluOp false .div a b = .ok q)
    (hr : aluOp false .rem a b = .ok r) : b * q + r = a ∨ b = 0#32 := by
  by_cases hb : b = 0#32
  · exact Or.inr hb
  left
  rw [alu_value] at hq hr
  have hb' : ¬ b.toInt = 0 := fun h => hb (BitVec.eq_of_toInt_eq (by simpa using h))
  simp only [alu, hb', if_false, Res.ok.injEq] at hq hr
  subst hq hr
  have h := Int.mul_tdiv_add_tmod a.toInt b.toInt
  have h2 := congrArg (BitVec.ofInt 32) h
  rw [BitVec.ofInt_add, BitVec.ofInt_mul, BitVec.ofInt_toInt, BitVec.ofInt_toInt] at h2
  simpa [wrap] using h2

end Ama
