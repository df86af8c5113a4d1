import Verif.Lemmas.Lane
/-!
# C34 - C39: the SIMD operations compute their specified lanes

Each theorem is about one operation of `core_exec_custom_simd_*.cpp` for all operands; widths and
signedness range over all instantiations. `Props/SimdStep.lean` lifts them to instructions.
-/
namespace Ama
open Spec Simd

/-- element widths of the arithmetic operations -/
def wd16 (n : Nat) : Prop := n ∈ [2, 4, 8, 16]

theorem wd16_cases {n : Nat} (h : wd16 n) : n = 2 ∨ n = 4 ∨ n = 8 ∨ n = 16 := by
  simpa [wd16] using h
theorem wd16_pos {n : Nat} (h : wd16 n) : 0 < n := by have := wd16_cases h; omega
theorem wd16_le {n : Nat} (h : wd16 n) : n ≤ 16 := by have := wd16_cases h; omega
theorem wd16_32 {n : Nat} (h : wd16 n) : n ∈ [2, 4, 8, 16, 32] := by
  have := wd16_cases h; simp only [List.mem_cons, List.not_mem_nil, or_false]; omega

/-- bounds of an element as numerals -/
theorem lv_bound {n : Nat} (h : wd16 n) (sg : Bool) (l : BitVec n) :
    -(2 ^ (n - 1)) ≤ lv sg l ∧ lv sg l ≤ 2 ^ n - 1 ∧ (sg = true → lv sg l ≤ 2 ^ (n - 1) - 1) ∧
    (sg = false → 0 ≤ lv sg l) := by
  have := lv_range (wd16_pos h) sg l
  rcases wd16_cases h with rfl | rfl | rfl | rfl <;> cases sg <;>
    simp only [lmin, lmax, if_true, Bool.false_eq_true, if_false] at this ⊢ <;> simp at * <;> omega

theorem lv_small {n : Nat} (h : wd16 n) (sg : Bool) (l : BitVec n) : -32768 ≤ lv sg l ∧ lv sg l ≤ 65535 := by
  have := lv_bound h sg l
  rcases wd16_cases h with rfl | rfl | rfl | rfl <;> simp at this <;> omega

/-- the `int32_t` of an element -/
theorem elem_eq {n : Nat} (h : wd16 n) (sg : Bool) (a : W) (j : Nat) :
    extractVal n sg (a >>> (n * j)) = BitVec.ofInt 32 (lv sg (lane n j a)) := by
  rw [extractVal_lane (wd16_32 h)]
  apply BitVec.eq_of_toInt_eq
  have hs := lv_small h sg (lane n j a)
  have hle := wd16_le h
  rw [extend_toInt (wd16_pos h) (by omega), BitVec.toInt_ofInt, Int.bmod_eq_of_le] <;> omega

theorem toInt_ofInt32 {z : Int} (h1 : -2147483648 ≤ z) (h2 : z ≤ 2147483647) : (BitVec.ofInt 32 z).toInt = z := by
  rw [BitVec.toInt_ofInt, Int.bmod_eq_of_le] <;> omega

theorem fits_of {z : Int} (h1 : -2147483648 ≤ z) (h2 : z ≤ 2147483647) : fitsI32 z = true := by
  simp [fitsI32, h1, h2]

theorem cAddI_ok {st : Bool} {x y : Int} (hx : -2147483648 ≤ x ∧ x ≤ 2147483647) (hy : -2147483648 ≤ y ∧ y ≤ 2147483647)
    (h : st = true → -2147483648 ≤ x + y ∧ x + y ≤ 2147483647) :
    cAddI st (BitVec.ofInt 32 x) (BitVec.ofInt 32 y) = .ok (BitVec.ofInt 32 (x + y)) := by
  unfold cAddI
  rw [toInt_ofInt32 hx.1 hx.2, toInt_ofInt32 hy.1 hy.2, BitVec.ofInt_add]
  cases st
  · simp
  · rw [fits_of (h rfl).1 (h rfl).2]; simp

theorem cSubI_ok {st : Bool} {x y : Int} (hx : -2147483648 ≤ x ∧ x ≤ 2147483647) (hy : -2147483648 ≤ y ∧ y ≤ 2147483647)
    (h : st = true → -2147483648 ≤ x - y ∧ x - y ≤ 2147483647) :
    cSubI st (BitVec.ofInt 32 x) (BitVec.ofInt 32 y) = .ok (BitVec.ofInt 32 (x - y)) := by
  unfold cSubI
  have e : BitVec.ofInt 32 (x - y) = BitVec.ofInt 32 x - BitVec.ofInt 32 y := by
    apply BitVec.eq_of_toInt_eq
    rw [BitVec.toInt_ofInt, BitVec.toInt_sub, BitVec.toInt_ofInt, BitVec.toInt_ofInt]
    simp
  rw [toInt_ofInt32 hx.1 hx.2, toInt_ofInt32 hy.1 hy.2, e]
  cases st
  · simp
  · rw [fits_of (h rfl).1 (h rfl).2]; simp

theorem cMulI_ok {st : Bool} {x y : Int} (hx : -2147483648 ≤ x ∧ x ≤ 2147483647) (hy : -2147483648 ≤ y ∧ y ≤ 2147483647)
    (h : st = true → -2147483648 ≤ x * y ∧ x * y ≤ 2147483647) :
    cMulI st (BitVec.ofInt 32 x) (BitVec.ofInt 32 y) = .ok (BitVec.ofInt 32 (x * y)) := by
  unfold cMulI
  rw [toInt_ofInt32 hx.1 hx.2, toInt_ofInt32 hy.1 hy.2, BitVec.ofInt_mul]
  cases st
  · simp
  · rw [fits_of (h rfl).1 (h rfl).2]; simp

theorem lv_i32 {n : Nat} (h : wd16 n) (sg : Bool) (l : BitVec n) : -2147483648 ≤ lv sg l ∧ lv sg l ≤ 2147483647 := by
  have := lv_small h sg l; omega

/-- products: exact range for each width -/
theorem lv_mul {n : Nat} (h : wd16 n) (sg : Bool) (k l : BitVec n) :
    lmin sg (2 * n) ≤ lv sg k * lv sg l ∧ lv sg k * lv sg l ≤ lmax sg (2 * n) := by
  have hk := lv_bound h sg k
  have hl := lv_bound h sg l
  generalize lv sg k = x at *
  generalize lv sg l = y at *
  cases sg
  · have h1 : 0 ≤ x := hk.2.2.2 rfl
    have h2 : 0 ≤ y := hl.2.2.2 rfl
    have h3 : x * y ≤ (2 ^ n - 1) * (2 ^ n - 1) := Int.mul_le_mul hk.2.1 hl.2.1 h2 (by omega)
    have h4 : 0 ≤ x * y := Int.mul_nonneg h1 h2
    simp only [lmin, lmax, Bool.false_eq_true, if_false]
    refine ⟨h4, Int.le_trans h3 ?_⟩
    rcases wd16_cases h with rfl | rfl | rfl | rfl <;> decide
  · have h1 := hk.2.2.1 rfl
    have h2 := hl.2.2.1 rfl
    have h3 := hk.1
    have h4 := hl.1
    generalize hp : (2 : Int) ^ (n - 1) = p at *
    have ax : x.natAbs ≤ p.natAbs := by omega
    have ay : y.natAbs ≤ p.natAbs := by omega
    have am : (x * y).natAbs ≤ p.natAbs * p.natAbs := by
      rw [Int.natAbs_mul]; exact Nat.mul_le_mul ax ay
    simp only [lmin, lmax, if_true]
    rcases wd16_cases h with rfl | rfl | rfl | rfl <;> simp at hp <;> subst hp <;> simp at am ⊢ <;> omega

/-- products fit an `int32_t` except unsigned 16-bit ones -/
theorem lv_mul_fits {n : Nat} (h : wd16 n) (sg : Bool) (hu : n = 16 → sg = true) (k l : BitVec n) :
    -2147483648 ≤ lv sg k * lv sg l ∧ lv sg k * lv sg l ≤ 2147483647 := by
  have := lv_mul h sg k l
  rcases wd16_cases h with rfl | rfl | rfl | rfl <;> cases sg <;> simp [lmin, lmax] at * <;> omega

/-! ## C34 -/

/-- wrapping addition and subtraction -/
theorem addsub_wrap {n : Nat} (hn : wd16 n) (st sb : Bool) (a b : W) :
    ∃ r, addSub st n true sb false a b = .ok r ∧ ∀ i, i < 32 / n →
      lane n i r = if sb then lane n i a - lane n i b else lane n i a + lane n i b := by
  obtain ⟨r, h1, h2⟩ := laneLoop_lanes hn (f := addSubBody st n true sb false) (a := a) (b := b)
    (g := fun i => BitVec.ofInt 32 (if sb then lv true (lane n i a) - lv true (lane n i b)
      else lv true (lane n i a) + lv true (lane n i b))) (by
    intro j _
    have ha := lv_small hn true (lane n j a)
    have hb := lv_small hn true (lane n j b)
    have ha' := lv_i32 hn true (lane n j a)
    have hb' := lv_i32 hn true (lane n j b)
    unfold addSubBody
    rw [elem_eq hn, elem_eq hn]
    dsimp only
    cases sb
    · simp only [Bool.false_eq_true, if_false]
      rw [cAddI_ok ha' hb' (fun _ => by omega), Res.bind_ok]
    · simp only [if_true]
      rw [cSubI_ok ha' hb' (fun _ => by omega), Res.bind_ok]
      simp)
  refine ⟨r, h1, fun i hi => ?_⟩
  have hle := wd16_le hn
  rw [h2 i hi, setWidth_ofInt (by omega)]
  cases sb
  · simp only [Bool.false_eq_true, if_false]
    rw [BitVec.ofInt_add, ofInt_lv, ofInt_lv]
  · simp only [if_true]
    have e : ∀ x y : Int, BitVec.ofInt n (x - y) = BitVec.ofInt n x - BitVec.ofInt n y := by
      intro x y
      apply BitVec.eq_of_toInt_eq
      rw [BitVec.toInt_ofInt, BitVec.toInt_sub, BitVec.toInt_ofInt, BitVec.toInt_ofInt]
      simp
    rw [e, ofInt_lv, ofInt_lv]

theorem limit_max {n : Nat} (hn : wd16 n) (sg : Bool) : (getLimit n sg true).toInt = lmax sg n := by
  rcases wd16_cases hn with rfl | rfl | rfl | rfl <;> cases sg <;> decide
theorem limit_min {n : Nat} (hn : wd16 n) (sg : Bool) : (getLimit n sg false).toInt = lmin sg n := by
  rcases wd16_cases hn with rfl | rfl | rfl | rfl <;> cases sg <;> decide

theorem limits_order {n : Nat} (hn : wd16 n) (sg : Bool) : lmin sg n ≤ lmax sg n := by
  rcases wd16_cases hn with rfl | rfl | rfl | rfl <;> cases sg <;> decide

/-- saturating addition and subtraction -/
theorem addsub_sat {n : Nat} (hn : wd16 n) (st sg sb : Bool) (a b : W) :
    ∃ r, addSub st n sg sb true a b = .ok r ∧ ∀ i, i < 32 / n →
      lv sg (lane n i r) = clamp sg n (if sb then lv sg (lane n i a) - lv sg (lane n i b)
        else lv sg (lane n i a) + lv sg (lane n i b)) := by
  have horder := limits_order hn sg
  have hmx := limit_max hn sg
  have hmn := limit_min hn sg
  have cl : ∀ z, lmin sg n ≤ clamp sg n z ∧ clamp sg n z ≤ lmax sg n := by
    intro z; unfold clamp; omega
  have body : ∀ z : Int, -2147483648 ≤ z ∧ z ≤ 2147483647 →
      (if (getLimit n sg true).slt (BitVec.ofInt 32 z) then Res.ok (getLimit n sg true)
        else if (BitVec.ofInt 32 z).slt (getLimit n sg false) then .ok (getLimit n sg false)
        else .ok (BitVec.ofInt 32 z)) = Res.ok (BitVec.ofInt 32 (clamp sg n z)) := by
    intro z hz
    rw [BitVec.slt_eq_decide, BitVec.slt_eq_decide, toInt_ofInt32 hz.1 hz.2, hmx, hmn]
    unfold clamp
    by_cases c1 : lmax sg n < z
    · rw [if_pos (decide_eq_true c1)]
      rw [show max (lmin sg n) (min (lmax sg n) z) = lmax sg n by omega, ← hmx, BitVec.ofInt_toInt]
    · rw [if_neg (by simpa using c1)]
      by_cases c2 : z < lmin sg n
      · rw [if_pos (decide_eq_true c2)]
        rw [show max (lmin sg n) (min (lmax sg n) z) = lmin sg n by omega, ← hmn, BitVec.ofInt_toInt]
      · rw [if_neg (by simpa using c2)]
        rw [show max (lmin sg n) (min (lmax sg n) z) = z by omega]
  obtain ⟨r, h1, h2⟩ := laneLoop_lanes hn (f := addSubBody st n sg sb true) (a := a) (b := b)
    (g := fun i => BitVec.ofInt 32 (clamp sg n (if sb then lv sg (lane n i a) - lv sg (lane n i b)
      else lv sg (lane n i a) + lv sg (lane n i b)))) (by
    intro j _
    have ha := lv_small hn sg (lane n j a)
    have hb := lv_small hn sg (lane n j b)
    have ha' := lv_i32 hn sg (lane n j a)
    have hb' := lv_i32 hn sg (lane n j b)
    unfold addSubBody
    rw [elem_eq hn, elem_eq hn]
    dsimp only
    cases sb
    · simp only [Bool.false_eq_true, if_false]
      rw [cAddI_ok ha' hb' (fun _ => by omega), Res.bind_ok]
      simp only [if_true]
      exact body _ (by omega)
    · simp only [if_true]
      rw [cSubI_ok ha' hb' (fun _ => by omega), Res.bind_ok]
      exact body _ (by omega))
  refine ⟨r, h1, fun i hi => ?_⟩
  have hle := wd16_le hn
  rw [h2 i hi, setWidth_ofInt (by omega), lv_ofInt (wd16_pos hn) (by omega) sg _ (cl _).1 (cl _).2]

/-! ## C35 -/

/-- minimum and maximum -/
theorem minmax_lanes {n : Nat} (hn : wd16 n) (sg mx : Bool) (a b : W) :
    ∃ r, minMax n sg mx a b = .ok r ∧ ∀ i, i < 32 / n →
      lv sg (lane n i r) = if mx then max (lv sg (lane n i a)) (lv sg (lane n i b))
        else min (lv sg (lane n i a)) (lv sg (lane n i b)) := by
  obtain ⟨r, h1, h2⟩ := laneLoop_lanes hn (f := minMaxBody n sg mx) (a := a) (b := b)
    (g := fun i => BitVec.ofInt 32 (if mx then max (lv sg (lane n i a)) (lv sg (lane n i b))
        else min (lv sg (lane n i a)) (lv sg (lane n i b)))) (by
    intro j _
    have ha' := lv_i32 hn sg (lane n j a)
    have hb' := lv_i32 hn sg (lane n j b)
    unfold minMaxBody
    rw [elem_eq hn, elem_eq hn]
    dsimp only
    simp only [BitVec.slt_eq_decide, toInt_ofInt32 ha'.1 ha'.2, toInt_ofInt32 hb'.1 hb'.2, decide_eq_true_eq]
    generalize lv sg (lane n j a) = x
    generalize lv sg (lane n j b) = y
    cases mx
    · simp only [Bool.false_eq_true, if_false]
      split
      · rw [show min x y = y by omega]
      · rw [show min x y = x by omega]
    · simp only [if_true]
      split
      · rw [show max x y = y by omega]
      · rw [show max x y = x by omega])
  refine ⟨r, h1, fun i hi => ?_⟩
  have hle := wd16_le hn
  have ra := lv_range (wd16_pos hn) sg (lane n i a)
  have rb := lv_range (wd16_pos hn) sg (lane n i b)
  rw [h2 i hi, setWidth_ofInt (by omega), lv_ofInt (wd16_pos hn) (by omega) sg]
  · split <;> omega
  · split <;> omega

theorem shamt_mod {n : Nat} (hn : wd16 n) (sh : BitVec 5) :
    ((sh.setWidth 32 : W) &&& BitVec.ofNat 32 (n - 1)).toNat = sh.toNat % n := by
  rcases wd16_cases hn with rfl | rfl | rfl | rfl <;> revert sh <;> decide

theorem shl_setWidth {n : Nat} (h : n ≤ 32) (x : W) (k : Nat) : (x <<< k).setWidth n = x.setWidth n <<< k := by
  apply BitVec.eq_of_getLsbD_eq
  intro t ht
  have : t < 32 := by omega
  simp only [BitVec.getLsbD_setWidth, BitVec.getLsbD_shiftLeft, ht, this]
  by_cases c : t < k
  · simp [c]
  · have : t - k < n := by omega
    simp [c, this]

/-- left shift (the undefined shift of a negative `int32_t` does not arise: the lane is
zero-extended and small) -/
theorem slli_lanes {n : Nat} (hn : wd16 n) (st : Bool) (a : W) (sh : BitVec 5) :
    ∃ r, shift st n false true a (sh.setWidth 32) = .ok r ∧ ∀ i, i < 32 / n →
      lane n i r = lane n i a <<< (sh.toNat % n) := by
  have hle := wd16_le hn
  have hm := shamt_mod hn sh
  have hml := Nat.mod_lt sh.toNat (wd16_pos hn)
  obtain ⟨r, h1, h2⟩ := laneLoop_lanes hn (f := shiftBody st n false true ((sh.setWidth 32 : W) &&& BitVec.ofNat 32 (n - 1)))
    (a := a) (b := 0#32) (g := fun i => extend false 32 (lane n i a) <<< (sh.toNat % n)) (by
    intro j _
    unfold shiftBody
    rw [extractVal_lane (wd16_32 hn)]
    simp only [if_true]
    have hl := (lane n j a).isLt
    unfold cShlI
    rw [hm, Nat.mod_eq_of_lt (show sh.toNat % n < 32 by omega)]
    rw [extend_toInt (wd16_pos hn) (by omega)]
    have e : (extend false 32 (lane n j a)).toNat = (lane n j a).toNat := by
      simp only [extend, Bool.false_eq_true, if_false, BitVec.toNat_setWidth]
      apply Nat.mod_eq_of_lt
      exact Nat.lt_of_lt_of_le hl (Nat.pow_le_pow_right (by decide) (by omega))
    rw [e]
    have x1 : sh.toNat % n < 32 := by omega
    have x2 : ¬ (lv false (lane n j a) < 0) := by simp only [lv]; simp
    have x3 : (lane n j a).toNat * 2 ^ (sh.toNat % n) < 2 ^ 32 := by
      have : (lane n j a).toNat * 2 ^ (sh.toNat % n) < 2 ^ n * 2 ^ (sh.toNat % n) :=
        Nat.mul_lt_mul_of_pos_right hl (Nat.two_pow_pos _)
      rw [← Nat.pow_add] at this
      exact Nat.lt_of_lt_of_le this (Nat.pow_le_pow_right (by decide) (by omega))
    have d1 : decide (sh.toNat % n < 32) = true := decide_eq_true x1
    have d2 : decide (lv false (lane n j a) < 0) = false := decide_eq_false x2
    have d3 : decide ((lane n j a).toNat * 2 ^ (sh.toNat % n) < 2 ^ 32) = true := decide_eq_true x3
    rw [d1, d2, d3]
    simp)
  refine ⟨r, h1, fun i hi => ?_⟩
  rw [h2 i hi, shl_setWidth (by omega), setWidth_extend (by omega)]

/-- logical and arithmetic right shift -/
theorem shr_lanes {n : Nat} (hn : wd16 n) (st ar : Bool) (a : W) (sh : BitVec 5) :
    ∃ r, shift st n ar false a (sh.setWidth 32) = .ok r ∧ ∀ i, i < 32 / n →
      lane n i r = if ar then (lane n i a).sshiftRight (sh.toNat % n) else lane n i a >>> (sh.toNat % n) := by
  have hle := wd16_le hn
  have hm := shamt_mod hn sh
  have hml := Nat.mod_lt sh.toNat (wd16_pos hn)
  obtain ⟨r, h1, h2⟩ := laneLoop_lanes hn (f := shiftBody st n ar false ((sh.setWidth 32 : W) &&& BitVec.ofNat 32 (n - 1)))
    (a := a) (b := 0#32) (g := fun i => (extend ar 32 (lane n i a)).sshiftRight (sh.toNat % n)) (by
    intro j _
    unfold shiftBody
    rw [extractVal_lane (wd16_32 hn)]
    simp only [Bool.false_eq_true, if_false]
    unfold cSar
    rw [hm, Nat.mod_eq_of_lt (show sh.toNat % n < 32 by omega)]
    have d1 : decide (sh.toNat % n < 32) = true := decide_eq_true (by omega)
    rw [d1]
    simp)
  refine ⟨r, h1, fun i hi => ?_⟩
  rw [h2 i hi]
  generalize lane n i a = l
  generalize sh.toNat % n = k at *
  apply BitVec.eq_of_getLsbD_eq
  intro t ht
  have ht32 : t < 32 := by omega
  rw [BitVec.getLsbD_setWidth, BitVec.getLsbD_sshiftRight]
  have hnm : ¬ (32 ≤ t) := by omega
  cases ar
  · simp only [extend, Bool.false_eq_true, if_false]
    have hmsb : (l.setWidth 32).msb = false := by
      rw [BitVec.msb_eq_getLsbD_last, BitVec.getLsbD_setWidth]
      simp
      apply BitVec.getLsbD_of_ge; omega
    rw [hmsb, BitVec.getLsbD_ushiftRight, BitVec.getLsbD_setWidth]
    by_cases c : k + t < 32
    · simp [ht, c, hnm]
    · have : l.getLsbD (k + t) = false := BitVec.getLsbD_of_ge _ _ (by omega)
      simp [c, this]
  · simp only [extend, if_true]
    rw [BitVec.getLsbD_sshiftRight, BitVec.getLsbD_signExtend]
    have hmsb : (l.signExtend 32).msb = l.msb := by
      rw [BitVec.msb_eq_getLsbD_last, BitVec.getLsbD_signExtend]
      have : ¬ (32 - 1 < n) := by omega
      simp [this]
    have hnm2 : ¬ (n ≤ t) := by omega
    rw [hmsb]
    by_cases c : k + t < n
    · have c2 : k + t < 32 := by omega
      simp [ht, c, c2, hnm, hnm2]
    · by_cases c2 : k + t < 32
      · simp [ht, c, c2, hnm, hnm2]
      · simp [ht, c, c2, hnm, hnm2]

/-! ## C36 -/

/-- undefined behaviour is excluded: the host multiplies wrap, or no product overflows -/
def mulOk (st : Bool) (n : Nat) (sg : Bool) : Prop := st = true → n = 16 → sg = true

theorem mul_elem {n : Nat} (hn : wd16 n) {st sg : Bool} (hk : mulOk st n sg) (a b : W) (j : Nat) :
    cMulI st (extractVal n sg (a >>> (n * j))) (extractVal n sg (b >>> (n * j))) =
      .ok (BitVec.ofInt 32 (lv sg (lane n j a) * lv sg (lane n j b))) := by
  rw [elem_eq hn, elem_eq hn]
  exact cMulI_ok (lv_i32 hn _ _) (lv_i32 hn _ _) (fun hs => lv_mul_fits hn sg (hk hs) _ _)

theorem and_mask_setWidth {n : Nat} (h : n ≤ 32) (x : W) : (x &&& mask n).setWidth n = x.setWidth n := by
  apply BitVec.eq_of_getLsbD_eq
  intro t ht
  have : t < 32 := by omega
  simp only [BitVec.getLsbD_setWidth, BitVec.getLsbD_and, mask_bit]
  simp [ht, this]

/-- low product halves -/
theorem mul_lanes {n : Nat} (hn : wd16 n) {st sg : Bool} (hk : mulOk st n sg) (a b : W) :
    ∃ r, mul st n sg false a b = .ok r ∧ ∀ i, i < 32 / n → lane n i r = lane n i a * lane n i b := by
  have hle := wd16_le hn
  obtain ⟨r, h1, h2⟩ := laneLoop_lanes hn (f := mulBody st n sg false) (a := a) (b := b)
    (g := fun i => BitVec.ofInt 32 (lv sg (lane n i a) * lv sg (lane n i b)) &&& mask n) (by
    intro j _
    unfold mulBody
    rw [mul_elem hn hk, Res.bind_ok]
    simp)
  refine ⟨r, h1, fun i hi => ?_⟩
  rw [h2 i hi, and_mask_setWidth (by omega), setWidth_ofInt (by omega), BitVec.ofInt_mul, ofInt_lv, ofInt_lv]

/-- high product halves -/
theorem mulh_lanes {n : Nat} (hn : wd16 n) {st sg : Bool} (hk : mulOk st n sg) (a b : W) :
    ∃ r, mul st n sg true a b = .ok r ∧ ∀ i, i < 32 / n →
      lv sg (lane n i r) = lv sg (lane n i a) * lv sg (lane n i b) / 2 ^ n := by
  have hle := wd16_le hn
  obtain ⟨r, h1, h2⟩ := laneLoop_lanes hn (f := mulBody st n sg true) (a := a) (b := b)
    (g := fun i => (BitVec.ofInt 32 (lv sg (lane n i a) * lv sg (lane n i b)) >>> n) &&& mask n) (by
    intro j _
    unfold mulBody
    rw [mul_elem hn hk, Res.bind_ok]
    simp)
  refine ⟨r, h1, fun i hi => ?_⟩
  rw [h2 i hi, and_mask_setWidth (by omega)]
  have hr := lv_mul hn sg (lane n i a) (lane n i b)
  generalize lv sg (lane n i a) * lv sg (lane n i b) = z at *
  have e : (BitVec.ofInt 32 z >>> n).setWidth n = BitVec.ofInt n (z / 2 ^ n) := by
    apply BitVec.eq_of_toNat_eq
    rw [BitVec.toNat_setWidth, BitVec.toNat_ushiftRight, BitVec.toNat_ofInt, BitVec.toNat_ofInt,
      Nat.shiftRight_eq_div_pow]
    rcases wd16_cases hn with rfl | rfl | rfl | rfl <;> simp only [Nat.reducePow, Int.reducePow] <;> omega
  rw [e, lv_ofInt (wd16_pos hn) (by omega) sg]
  · rcases wd16_cases hn with rfl | rfl | rfl | rfl <;> cases sg <;> simp [lmin, lmax] at hr ⊢ <;> omega
  · rcases wd16_cases hn with rfl | rfl | rfl | rfl <;> cases sg <;> simp [lmin, lmax] at hr ⊢ <;> omega

theorem wmulLoop_ok {n : Nat} (hn : wd16 n) {st sg : Bool} (hk : mulOk st n sg) : ∀ (k : Nat) (a b : W),
    ∃ rs, wmulLoop st n sg k a b = .ok rs ∧ rs.length = k ∧ ∀ i, i < k →
      rs.getD i 0#32 = BitVec.ofInt 32 (lv sg (lane n i a) * lv sg (lane n i b)) := by
  intro k
  induction k with
  | zero => intro a b; exact ⟨[], rfl, rfl, fun i hi => absurd hi (by omega)⟩
  | succ k ih =>
    intro a b
    obtain ⟨rs, h1, h2, h3⟩ := ih (a >>> n) (b >>> n)
    have h0 := mul_elem hn hk a b 0
    simp only [Nat.mul_zero, BitVec.ushiftRight_zero] at h0
    refine ⟨BitVec.ofInt 32 (lv sg (lane n 0 a) * lv sg (lane n 0 b)) :: rs, ?_, by simp [h2], ?_⟩
    · unfold wmulLoop
      rw [h0, Res.bind_ok, h1, Res.bind_ok]
    · intro i hi
      have sh : ∀ (x : W) (j : Nat), lane n j (x >>> n) = lane n (j + 1) x := by
        intro x j
        apply BitVec.eq_of_getLsbD_eq
        intro t ht
        rw [lane_bit, lane_bit, BitVec.getLsbD_ushiftRight, Nat.mul_succ]
        congr 2; omega
      cases i with
      | zero => rfl
      | succ i =>
        rw [List.getD_cons_succ, h3 i (by omega), sh, sh]

/-- widening multiply: both registers of the pair -/
theorem wmul_lanes {n : Nat} (hn : wd16 n) {st sg : Bool} (hk : mulOk st n sg) (a b : W) :
    ∃ p, wmul st n sg a b = .ok p ∧ ∀ i, i < 32 / n →
      lv sg (pairLane (2 * n) i p) = lv sg (lane n i a) * lv sg (lane n i b) := by
  have hle := wd16_le hn
  have hpos := wd16_pos hn
  obtain ⟨rs, h1, h2, h3⟩ := wmulLoop_ok hn hk (count n) a b
  refine ⟨packWide (2 * n) rs, ?_, fun i hi => ?_⟩
  · unfold wmul
    rw [h1, Res.bind_ok, Nat.mul_comm]
  · have h64 : 64 / (2 * n) = 32 / n := by rw [← Nat.div_div_eq_div_mul]
    rw [packWide_lanes _ (by rw [h64]; exact h2) (by rw [h64]; exact hi), h3 i hi, setWidth_ofInt (by omega)]
    · exact lv_ofInt (by omega) (by omega) sg _ (lv_mul hn sg _ _).1 (lv_mul hn sg _ _).2
    · rcases wd16_cases hn with rfl | rfl | rfl | rfl <;> decide

/-! ## C37 -/

theorem dotLoop_ok {n : Nat} (hn : wd16 n) {st sg : Bool} (hst : st = true → n ≤ 8) : ∀ (k : Nat), k ≤ 16 →
    ∀ (a b : W) (c : Int), (st = true → -(65025 * (16 - k : Int)) ≤ c ∧ c ≤ 65025 * (16 - k : Int)) →
    dotLoop st n sg k a b (BitVec.ofInt 32 c) = .ok (BitVec.ofInt 32 (c +
      ((List.range k).map fun i => lv sg (lane n i a) * lv sg (lane n i b)).sum)) := by
  intro k
  induction k with
  | zero => intro _ a b c _; simp [dotLoop]
  | succ k ih =>
    intro hk a b c hc
    have h0 := mul_elem hn (st := st) (sg := sg) (fun hs h16 => by have := hst hs; omega) a b 0
    simp only [Nat.mul_zero, BitVec.ushiftRight_zero] at h0
    have sh : ∀ (x : W) (j : Nat), lane n j (x >>> n) = lane n (j + 1) x := by
      intro x j
      apply BitVec.eq_of_getLsbD_eq
      intro t ht
      rw [lane_bit, lane_bit, BitVec.getLsbD_ushiftRight, Nat.mul_succ]
      congr 2; omega
    have hb : st = true → -65025 ≤ lv sg (lane n 0 a) * lv sg (lane n 0 b) ∧
        lv sg (lane n 0 a) * lv sg (lane n 0 b) ≤ 65025 := by
      intro hs
      have ha := lv_bound hn sg (lane n 0 a)
      have hb := lv_bound hn sg (lane n 0 b)
      have h8 := hst hs
      generalize lv sg (lane n 0 a) = x at *
      generalize lv sg (lane n 0 b) = y at *
      have hx : x.natAbs ≤ 255 := by
        rcases wd16_cases hn with rfl | rfl | rfl | rfl <;> simp at ha <;> omega
      have hy : y.natAbs ≤ 255 := by
        rcases wd16_cases hn with rfl | rfl | rfl | rfl <;> simp at hb <;> omega
      have hm : (x * y).natAbs ≤ 255 * 255 := by rw [Int.natAbs_mul]; exact Nat.mul_le_mul hx hy
      omega
    unfold dotLoop
    rw [h0, Res.bind_ok]
    generalize hz : lv sg (lane n 0 a) * lv sg (lane n 0 b) = z at *
    have hadd : cAddI st (BitVec.ofInt 32 c) (BitVec.ofInt 32 z) = .ok (BitVec.ofInt 32 (c + z)) := by
      cases hs : st
      · unfold cAddI
        rw [BitVec.ofInt_add]; simp
      · have h1 := hc hs
        have h2 := hb hs
        exact cAddI_ok (by omega) (by omega) (fun _ => by omega)
    rw [hadd, Res.bind_ok, ih (by omega)]
    · rw [List.range_succ_eq_map, List.map_cons, List.sum_cons, List.map_map, hz]
      congr 2
      simp only [sh]
      rw [Int.add_assoc]
      rfl
    · intro hs
      have h1 := hc hs
      have h2 := hb hs
      omega

/-- **C37**: the accumulating dot product. With overflow undefined (`st = true`) this is
proved for element widths up to 8; `dot16_ub` and `dot16u_ub` show it fails for 16. -/
theorem dot_lanes {n : Nat} (hn : wd16 n) {st sg : Bool} (hst : st = true → n ≤ 8) (a b c : W) :
    dot st n sg a b c = .ok (c + BitVec.ofInt 32 (dotSum sg n a b)) := by
  unfold dot
  have hc : count n ≤ 16 := by rcases wd16_cases hn with rfl | rfl | rfl | rfl <;> decide
  have := dotLoop_ok hn (sg := sg) hst (count n) hc a b 0 (fun _ => by omega)
  rw [show (0#32 : W) = BitVec.ofInt 32 0 from rfl, this, Res.bind_ok, Int.zero_add, BitVec.add_comm]
  rfl

/-! ## C38 -/

theorem ext_setWidth {n m : Nat} (h : n ≤ m) (hm : m ≤ 32) (sg : Bool) (l : BitVec n) :
    (extend sg 32 l).setWidth m = extend sg m l := by
  apply BitVec.eq_of_getLsbD_eq
  intro t ht
  have h32 : t < 32 := by omega
  unfold extend
  rw [BitVec.getLsbD_setWidth]
  cases sg
  · simp only [Bool.false_eq_true, if_false]
    rw [BitVec.getLsbD_setWidth, BitVec.getLsbD_setWidth]
    simp only [ht, h32]
    simp
  · simp only [if_true]
    rw [BitVec.getLsbD_signExtend, BitVec.getLsbD_signExtend]
    simp only [ht, h32]
    simp

/-- when the host shift is defined -/
def shlOk (st : Bool) (n : Nat) (sg : Bool) : Prop := st = true → sg = false ∧ n ≤ 8

theorem widenLoop_ok {n : Nat} (hn : wd16 n) {st sg : Bool} (hk : shlOk st n sg) {sh : W} {s : Nat}
    (hs : sh.toNat = s) (hs2 : s < 2 * n) : ∀ (k : Nat) (a : W),
    ∃ rs, widenLoop st n sg sh k a = .ok rs ∧ rs.length = k ∧ ∀ i, i < k →
      rs.getD i 0#32 = extend sg 32 (lane n i a) <<< s := by
  intro k
  have hle := wd16_le hn
  induction k with
  | zero => intro a; exact ⟨[], rfl, rfl, fun i hi => absurd hi (by omega)⟩
  | succ k ih =>
    intro a
    obtain ⟨rs, h1, h2, h3⟩ := ih (a >>> n)
    have h0 : cShlI st (extractVal n sg a) sh = .ok (extend sg 32 (lane n 0 a) <<< s) := by
      have e0 := extractVal_lane (wd16_32 hn) sg a 0
      simp only [Nat.mul_zero, BitVec.ushiftRight_zero] at e0
      rw [e0]
      unfold cShlI
      rw [hs, Nat.mod_eq_of_lt (show s < 32 by omega)]
      cases hst : st
      · simp
      · obtain ⟨hsg, h8⟩ := hk hst
        subst hsg
        have hl := (lane n 0 a).isLt
        rw [extend_toInt (wd16_pos hn) (by omega)]
        have e : (extend false 32 (lane n 0 a)).toNat = (lane n 0 a).toNat := by
          simp only [extend, Bool.false_eq_true, if_false, BitVec.toNat_setWidth]
          apply Nat.mod_eq_of_lt
          exact Nat.lt_of_lt_of_le hl (Nat.pow_le_pow_right (by decide) (by omega))
        rw [e]
        have d1 : decide (s < 32) = true := decide_eq_true (by omega)
        have d2 : decide (lv false (lane n 0 a) < 0) = false := by
          apply decide_eq_false; simp only [lv]; simp
        have d3 : decide ((lane n 0 a).toNat * 2 ^ s < 2 ^ 32) = true := by
          apply decide_eq_true
          have : (lane n 0 a).toNat * 2 ^ s < 2 ^ n * 2 ^ s :=
            Nat.mul_lt_mul_of_pos_right hl (Nat.two_pow_pos _)
          rw [← Nat.pow_add] at this
          exact Nat.lt_of_lt_of_le this (Nat.pow_le_pow_right (by decide) (by omega))
        rw [d1, d2, d3]
        simp
    refine ⟨(extend sg 32 (lane n 0 a) <<< s) :: rs, ?_, by simp [h2], ?_⟩
    · unfold widenLoop
      rw [h0, Res.bind_ok, h1, Res.bind_ok]
    · intro i hi
      cases i with
      | zero => rfl
      | succ i =>
        rw [List.getD_cons_succ, h3 i (by omega)]
        congr 2
        apply BitVec.eq_of_getLsbD_eq
        intro t ht
        rw [lane_bit, lane_bit, BitVec.getLsbD_ushiftRight, Nat.mul_succ]
        congr 2; omega

/-- widening -/
theorem widen_lanes {n : Nat} (hn : wd16 n) {st sg : Bool} (hk : shlOk st n sg) (a : W) (sh : BitVec 5) :
    ∃ p, widen st n sg a (sh.setWidth 32) = .ok p ∧ ∀ i, i < 32 / n →
      pairLane (2 * n) i p = extend sg (2 * n) (lane n i a) <<< (sh.toNat % (2 * n)) := by
  have hle := wd16_le hn
  have hpos := wd16_pos hn
  have hm : ((sh.setWidth 32 : W) &&& BitVec.ofNat 32 (n * 2 - 1)).toNat = sh.toNat % (2 * n) := by
    rcases wd16_cases hn with rfl | rfl | rfl | rfl <;> revert sh <;> decide
  obtain ⟨rs, h1, h2, h3⟩ := widenLoop_ok hn hk hm (Nat.mod_lt _ (by omega)) (count n) a
  refine ⟨packWide (2 * n) rs, ?_, fun i hi => ?_⟩
  · unfold widen
    rw [h1, Res.bind_ok, Nat.mul_comm]
  · have h64 : 64 / (2 * n) = 32 / n := by rw [← Nat.div_div_eq_div_mul]
    rw [packWide_lanes _ (by rw [h64]; exact h2) (by rw [h64]; exact hi), h3 i hi, shl_setWidth (by omega),
      ext_setWidth (by omega) (by omega)]
    rcases wd16_cases hn with rfl | rfl | rfl | rfl <;> decide

/-- source widths of narrowing -/
def wdN (n : Nat) : Prop := n ∈ [4, 8, 16, 32]
theorem wdN_cases {n : Nat} (h : wdN n) : n = 4 ∨ n = 8 ∨ n = 16 ∨ n = 32 := by
  simpa [wdN] using h

/-- narrowing packs `narrowElem` of all elements of the pair -/
theorem narrow_raw {n : Nat} (hn : wdN n) (vsat sg : Bool) (a b : W) {i : Nat} (hi : i < 64 / n) :
    lane (n / 2) i (narrow n vsat sg a b) =
      (narrowElem n vsat sg (if i < 32 / n then a >>> (n * i) else b >>> (n * (i - 32 / n)))).setWidth (n / 2) := by
  have c := wdN_cases hn
  have hpos : 0 < n / 2 := by omega
  have hmul : 64 / n * (n / 2) = 32 := by rcases c with rfl | rfl | rfl | rfl <;> rfl
  have h64 : 64 / n = 2 * (32 / n) := by rcases c with rfl | rfl | rfl | rfl <;> rfl
  have hk : n < 32 ∨ count n ≤ 1 := by rcases c with rfl | rfl | rfl | rfl <;> decide
  refine lanes_of_bits (k := 64 / n) (g := fun i => narrowElem n vsat sg
    (if i < 32 / n then a >>> (n * i) else b >>> (n * (i - 32 / n)))) hpos hmul (fun t ht => ?_) hi
  have hd : t / (n / 2) < 64 / n := by
    rw [Nat.div_lt_iff_lt_mul hpos, hmul]; exact ht
  unfold narrow
  dsimp only
  rw [narrowLoop_bits vsat sg _ hpos _ _ _ _ hk t ht, narrowLoop_bits vsat sg _ hpos _ _ _ _ hk t ht]
  generalize t / (n / 2) = d at *
  have hc : count n = 32 / n := rfl
  by_cases cc : d < 32 / n
  · have x1 : decide (0 + 0 ≤ d ∧ d < 0 + 0 + count n) = true := by apply decide_eq_true; omega
    have x2 : decide (count n + 0 ≤ d ∧ d < count n + 0 + count n) = false := by apply decide_eq_false; omega
    rw [x1, x2, if_pos cc]
    simp
  · have x1 : decide (0 + 0 ≤ d ∧ d < 0 + 0 + count n) = false := by apply decide_eq_false; omega
    have x2 : decide (count n + 0 ≤ d ∧ d < count n + 0 + count n) = true := by apply decide_eq_true; omega
    rw [x1, x2, if_neg cc, hc]
    simp

theorem wdN_32 {n : Nat} (h : wdN n) : n ∈ [2, 4, 8, 16, 32] := by
  have := wdN_cases h; simp only [List.mem_cons, List.not_mem_nil, or_false]; omega

theorem extract_pair {n : Nat} (hn : wdN n) (sg : Bool) (a b : W) (i : Nat) :
    extractVal n sg (if i < 32 / n then a >>> (n * i) else b >>> (n * (i - 32 / n))) =
      extend sg 32 (pairLane n i (a, b)) := by
  unfold pairLane
  split
  · exact extractVal_lane (wdN_32 hn) sg a i
  · exact extractVal_lane (wdN_32 hn) sg b _

/-- truncating narrow -/
theorem narrow_lanes {n : Nat} (hn : wdN n) (sg : Bool) (a b : W) {i : Nat} (hi : i < 64 / n) :
    lane (n / 2) i (narrow n false sg a b) = (pairLane n i (a, b)).setWidth (n / 2) := by
  have c := wdN_cases hn
  rw [narrow_raw hn false sg a b hi]
  unfold narrowElem
  dsimp only
  simp only [Bool.false_eq_true, if_false]
  rw [extract_pair hn]
  generalize pairLane n i (a, b) = l
  have := setWidth_extend (n := n) (by omega) sg l
  apply BitVec.eq_of_getLsbD_eq
  intro t ht
  have h1 := congrArg (fun x => BitVec.getLsbD x t) this
  simp only [BitVec.getLsbD_setWidth] at h1 ⊢
  have : t < n := by omega
  simp only [this, decide_true, Bool.true_and] at h1
  rw [h1]

/-- saturating narrow -/
theorem qnarrow_lanes {n : Nat} (hn : wdN n) (sg : Bool) (a b : W) {i : Nat} (hi : i < 64 / n) :
    lv sg (lane (n / 2) i (narrow n true sg a b)) = clamp sg (n / 2) (lv sg (pairLane n i (a, b))) := by
  have c := wdN_cases hn
  rw [narrow_raw hn true sg a b hi]
  have h2 : wd16 (n / 2) := by rcases c with rfl | rfl | rfl | rfl <;> simp [wd16]
  have hmx := limit_max h2 sg
  have hmn := limit_min h2 sg
  have horder := limits_order h2 sg
  unfold narrowElem
  dsimp only
  rw [extract_pair hn]
  generalize pairLane n i (a, b) = l
  have hfin : ∀ r : W, r.toInt = clamp sg (n / 2) (lv sg l) → lv sg (r.setWidth (n / 2)) = clamp sg (n / 2) (lv sg l) := by
    intro r hr
    rw [lv_setWidth (wd16_pos h2) (by have := wd16_le h2; omega) sg r, hr]
    · rw [hr]; unfold clamp; omega
    · rw [hr]; unfold clamp; omega
  simp only [if_true]
  cases sg
  · -- unsigned comparison of unsigned numbers
    simp only [Bool.false_eq_true, if_false]
    have hl : (extend false 32 l).toNat = l.toNat := by
      simp only [extend, Bool.false_eq_true, if_false, BitVec.toNat_setWidth]
      apply Nat.mod_eq_of_lt
      exact Nat.lt_of_lt_of_le l.isLt (Nat.pow_le_pow_right (by decide) (by omega))
    have hM : ((getLimit (n / 2) false true).toNat : Int) = lmax false (n / 2) ∧ (getLimit (n / 2) false false).toNat = 0 ∧
        lmin false (n / 2) = 0 := by
      rcases c with rfl | rfl | rfl | rfl <;> decide
    have hlv : lv false l = (l.toNat : Int) := rfl
    simp only [BitVec.ult, hl, hM.2.1, decide_eq_true_eq]
    rw [if_neg (show ¬ (l.toNat < 0) by omega)]
    by_cases cc : (getLimit (n / 2) false true).toNat < l.toNat
    · rw [if_pos cc]
      apply hfin
      rw [hmx]; unfold clamp; omega
    · rw [if_neg cc]
      apply hfin
      have hle : (l.toNat : Int) ≤ lmax false (n / 2) := by omega
      have hb : lmax false (n / 2) ≤ 65535 := by rcases c with rfl | rfl | rfl | rfl <;> decide
      rw [BitVec.toInt_eq_toNat_cond, hl, if_pos (by omega)]
      unfold clamp; omega
  · simp only [if_true]
    have hl : (extend true 32 l).toInt = lv true l := by
      by_cases h32 : n = 32
      · subst h32; simp [extend, lv]
      · exact extend_toInt (by omega) (by omega) true l
    simp only [BitVec.slt_eq_decide, hl, hmx, hmn, decide_eq_true_eq]
    by_cases c1 : lmax true (n / 2) < lv true l
    · rw [if_pos c1]; apply hfin; rw [hmx]; unfold clamp; omega
    · rw [if_neg c1]
      by_cases c2 : lv true l < lmin true (n / 2)
      · rw [if_pos c2]; apply hfin; rw [hmn]; unfold clamp; omega
      · rw [if_neg c2]; apply hfin; rw [hl]; unfold clamp; omega

/-- narrowing a widened vector gives the vector back -/
theorem narrow_widen {n : Nat} (hn : wd16 n) {st sg : Bool} (hk : shlOk st n sg) (sg' : Bool) (a : W) {p : W × W}
    (h : widen st n sg a 0#32 = .ok p) : narrow (2 * n) false sg' p.1 p.2 = a := by
  have hle := wd16_le hn
  have hpos := wd16_pos hn
  obtain ⟨p', h1, h2⟩ := widen_lanes hn hk a 0#5
  rw [show (0#5).setWidth 32 = 0#32 from rfl, h] at h1
  cases h1
  have hN : wdN (2 * n) := by rcases wd16_cases hn with rfl | rfl | rfl | rfl <;> simp [wdN]
  have h64 : 64 / (2 * n) = 32 / n := by rw [← Nat.div_div_eq_div_mul]
  have hd : 2 * n / 2 = n := by omega
  apply lanes_ext (wd16_32 hn)
  intro i hi
  have := narrow_lanes hN sg' p.1 p.2 (i := i) (by omega)
  rw [h2 i hi] at this
  simp only [BitVec.toNat_ofNat, Nat.zero_mod, BitVec.shiftLeft_zero] at this
  have key : (extend sg (2 * n) (lane n i a)).setWidth n = lane n i a := by
    apply BitVec.eq_of_getLsbD_eq
    intro t ht
    unfold extend
    rw [BitVec.getLsbD_setWidth]
    have hdt : decide (t < 2 * n) = true := decide_eq_true (by omega)
    rw [decide_eq_true ht, Bool.true_and]
    cases sg
    · simp only [Bool.false_eq_true, if_false]
      rw [BitVec.getLsbD_setWidth, hdt, Bool.true_and]
    · simp only [if_true]
      rw [BitVec.getLsbD_signExtend, hdt, if_pos ht, Bool.true_and]
  rw [← key]
  revert this
  generalize narrow (2 * n) false sg' p.1 p.2 = r
  generalize extend sg (2 * n) (lane n i a) = l
  clear key
  revert l
  rw [hd]
  exact fun l h => h

/-! ## C39 -/

/-- transpose across the pair -/
theorem txp_lanes {n : Nat} (hn : wd16 n) (a b : W) {i : Nat} (hi : i < 32 / n) :
    lane n i (txp n a b).1 = (if i % 2 = 0 then lane n i a else lane n (i - 1) b) ∧
    lane n i (txp n a b).2 = (if i % 2 = 0 then lane n (i + 1) a else lane n i b) := by
  have hpos := wd16_pos hn
  have hmul : 32 / n * n = 32 := by rcases wd16_cases hn with rfl | rfl | rfl | rfl <;> rfl
  have hev : 2 * (count n / 2) = 32 / n := by rcases wd16_cases hn with rfl | rfl | rfl | rfl <;> rfl
  have key := txpLoop_bits hpos a b (count n / 2) 0 0#32 0#32
  have tail : ∀ (x : W) (f : Nat → Nat × W), (∀ t, t < 32 → x.getLsbD t = (f (t / n)).2.getLsbD ((f (t / n)).1 * n + t % n)) →
      lane n i x = lane n (f i).1 (f i).2 := by
    intro x f hx
    apply BitVec.eq_of_getLsbD_eq
    intro t ht
    have hlt : n * i + t < 32 := by
      have : n * (i + 1) ≤ n * (32 / n) := Nat.mul_le_mul_left n hi
      rw [Nat.mul_succ, Nat.mul_comm n (32 / n), hmul] at this
      omega
    have hd : (n * i + t) / n = i := by
      rw [Nat.mul_add_div hpos, Nat.div_eq_of_lt ht]; omega
    have hm : (n * i + t) % n = t := by
      rw [Nat.mul_add_mod, Nat.mod_eq_of_lt ht]
    rw [lane_bit, lane_bit, hx _ hlt, hd, hm, Nat.mul_comm]
  have hdl : ∀ t, t < 32 → t / n < 32 / n := by
    intro t ht
    rw [Nat.div_lt_iff_lt_mul hpos, hmul]; exact ht
  have hdec : ∀ t, t < 32 → decide (2 * 0 ≤ t / n ∧ t / n < 2 * (0 + count n / 2)) = true := by
    intro t ht
    have := hdl t ht
    generalize t / n = d at *
    apply decide_eq_true; omega
  constructor
  · rw [tail (txp n a b).1 (fun k => if k % 2 = 0 then (k, a) else (k - 1, b))]
    · split <;> rfl
    · intro t ht
      unfold txp
      rw [(key t ht).1, hdec t ht]
      split <;> simp
  · rw [tail (txp n a b).2 (fun k => if k % 2 = 0 then (k + 1, a) else (k, b))]
    · split <;> rfl
    · intro t ht
      unfold txp
      rw [(key t ht).2, hdec t ht]
      split <;> simp

/-- transposing twice is the identity -/
theorem txp_involution {n : Nat} (hn : wd16 n) (a b : W) :
    txp n (txp n a b).1 (txp n a b).2 = (a, b) := by
  have hev : 32 / n % 2 = 0 := by rcases wd16_cases hn with rfl | rfl | rfl | rfl <;> rfl
  apply Prod.ext
  · apply lanes_ext (wd16_32 hn)
    intro i hi
    rw [(txp_lanes hn _ _ hi).1]
    split
    · rename_i h
      rw [(txp_lanes hn _ _ hi).1, if_pos h]
    · rename_i h
      rw [(txp_lanes hn _ _ (show i - 1 < 32 / n by omega)).2, if_pos (by omega)]
      rw [show i - 1 + 1 = i by omega]
  · apply lanes_ext (wd16_32 hn)
    intro i hi
    rw [(txp_lanes hn _ _ hi).2]
    split
    · rename_i h
      rw [(txp_lanes hn _ _ (show i + 1 < 32 / n by omega)).1, if_neg (by omega)]
      rw [show i + 1 - 1 = i by omega]
    · rename_i h
      rw [(txp_lanes hn _ _ hi).2, if_neg h]

/-- duplicate -/
theorem dup_lanes {n : Nat} (hn : wd16 n) (a : W) {i : Nat} (hi : i < 32 / n) : lane n i (dup n a) = a.setWidth n := by
  have hpos := wd16_pos hn
  have hle := wd16_le hn
  have hmul : 32 / n * n = 32 := by rcases wd16_cases hn with rfl | rfl | rfl | rfl <;> rfl
  rw [lanes_of_bits (r := dup n a) (g := fun _ => extractVal n true a) hpos hmul (fun t ht => ?_) hi]
  · have e0 := extractVal_lane (wd16_32 hn) true a 0
    simp only [Nat.mul_zero, BitVec.ushiftRight_zero] at e0
    rw [e0, setWidth_extend (by omega)]
    apply BitVec.eq_of_getLsbD_eq
    intro t ht
    rw [lane_bit, BitVec.getLsbD_setWidth]
    simp
  · unfold dup
    rw [dupLoop_bits hpos _ _ _ _ t ht]
    have hd : t / n < 32 / n := by
      rw [Nat.div_lt_iff_lt_mul hpos, hmul]; exact ht
    have : decide (0 ≤ t / n ∧ t / n < 0 + count n) = true := by
      unfold count
      generalize t / n = d at *
      apply decide_eq_true; omega
    rw [this]; simp

/-- insert -/
theorem vins_lanes {n : Nat} (hn : wd16 n) (c a : W) (idx : Nat) {i : Nat} (hi : i < 32 / n) :
    lane n i (vins n c a idx) = if i = idx % (32 / n) then a.setWidth n else lane n i c := by
  have hpos := wd16_pos hn
  have hmul : 32 / n * n = 32 := by rcases wd16_cases hn with rfl | rfl | rfl | rfl <;> rfl
  apply BitVec.eq_of_getLsbD_eq
  intro t ht
  have hlt : n * i + t < 32 := by
    have : n * (i + 1) ≤ n * (32 / n) := Nat.mul_le_mul_left n hi
    rw [Nat.mul_succ, Nat.mul_comm n (32 / n), hmul] at this
    omega
  have hd : (n * i + t) / n = i := by
    rw [Nat.mul_add_div hpos, Nat.div_eq_of_lt ht]; omega
  have hm : (n * i + t) % n = t := by
    rw [Nat.mul_add_mod, Nat.mod_eq_of_lt ht]
  unfold vins
  dsimp only
  rw [lane_bit, BitVec.getLsbD_or, BitVec.getLsbD_and, BitVec.getLsbD_not, put_lane hpos _ _ _ hlt,
    mask_lane hpos _ _ hlt, hd, hm]
  unfold count
  split
  · rename_i h
    rw [BitVec.getLsbD_setWidth, decide_eq_true h]
    simp [ht]
  · rename_i h
    rw [lane_bit, decide_eq_false h]
    simp [ht, hlt]

/-- extract -/
theorem vext_value {n : Nat} (hn : wd16 n) (sg : Bool) (a : W) (idx : Nat) :
    vext n sg a idx = extend sg 32 (lane n (idx % (32 / n)) a) := by
  unfold vext
  dsimp only
  rw [Nat.mul_comm]
  exact extractVal_lane (wd16_32 hn) sg a _

/-- extracting an inserted element returns it -/
theorem vext_vins {n : Nat} (hn : wd16 n) (sg : Bool) (c a : W) (idx : Nat) :
    vext n sg (vins n c a idx) idx = extend sg 32 (a.setWidth n) := by
  have hlt : idx % (32 / n) < 32 / n := Nat.mod_lt _ (by rcases wd16_cases hn with rfl | rfl | rfl | rfl <;> decide)
  rw [vext_value hn, vins_lanes hn c a idx hlt, if_pos rfl]

/-- and every other element is left alone -/
theorem vext_vins_other {n : Nat} (hn : wd16 n) (sg : Bool) (c a : W) {idx k : Nat} (h : k % (32 / n) ≠ idx % (32 / n)) :
    vext n sg (vins n c a idx) k = vext n sg c k := by
  have hlt : k % (32 / n) < 32 / n := Nat.mod_lt _ (by rcases wd16_cases hn with rfl | rfl | rfl | rfl <;> decide)
  rw [vext_value hn, vins_lanes hn c a idx hlt, if_neg h, vext_value hn]

end Ama
