import Verif.Model.Simd
import Verif.Spec.Simd
/-!
# Lanes: the packing loops of the SIMD model, for any lane width and count
-/
namespace Ama
open Spec Simd

theorem lane_bit (n i : Nat) (x : W) (t : Nat) :
    (lane n i x).getLsbD t = (decide (t < n) && x.getLsbD (n * i + t)) := by
  simp [lane, BitVec.getLsbD_extractLsb']

theorem mask_bit (n t : Nat) : (mask n).getLsbD t = decide (t < 32 ∧ t < n) := by
  simp [mask, BitVec.getLsbD_ofNat, Nat.testBit_two_pow_sub_one]

/-- the loop packs the low bits of the lane results -/
theorem laneLoop_bits {n : Nat} (hn : 0 < n) {f : W → W → Res W} : ∀ (k i : Nat) (a b acc : W) (g : Nat → W),
    (∀ j, j < k → f (a >>> (n * j)) (b >>> (n * j)) = .ok (g j)) →
    ∃ r, laneLoop n f k i a b acc = .ok r ∧ ∀ t, t < 32 → r.getLsbD t =
      (acc.getLsbD t || (decide (i * n ≤ t ∧ t < (i + k) * n) && (g (t / n - i)).getLsbD (t % n))) := by
  intro k
  induction k with
  | zero =>
    intro i a b acc g _
    refine ⟨acc, rfl, fun t _ => ?_⟩
    have : decide (i * n ≤ t ∧ t < (i + 0) * n) = false := by
      apply decide_eq_false
      rw [Nat.add_zero]; omega
    rw [this]; simp
  | succ k ih =>
    intro i a b acc g hf
    have h0 := hf 0 (by omega)
    simp only [Nat.mul_zero, BitVec.ushiftRight_zero] at h0
    unfold laneLoop
    rw [h0, Res.bind_ok]
    obtain ⟨r, hr, hb⟩ := ih (i + 1) (a >>> n) (b >>> n) (acc ||| ((g 0 &&& mask n) <<< (i * n)))
      (fun j => g (j + 1)) (fun j hj => by
        have := hf (j + 1) (by omega)
        rw [← BitVec.shiftRight_add, ← BitVec.shiftRight_add]
        rw [show n + n * j = n * (j + 1) by rw [Nat.mul_succ]; omega]
        exact this)
    refine ⟨r, hr, fun t ht => ?_⟩
    rw [hb t ht]
    simp only [BitVec.getLsbD_or, BitVec.getLsbD_shiftLeft, BitVec.getLsbD_and, mask_bit]
    rw [Bool.or_assoc]
    congr 1
    have e1 : (i + 1 + k) * n = (i + (k + 1)) * n := by congr 1; omega
    have e2 : (i + 1) * n = i * n + n := Nat.succ_mul i n
    have e3 : i * n + n ≤ (i + (k + 1)) * n := by
      rw [← e2]; exact Nat.mul_le_mul_right n (by omega)
    rw [e1, e2]
    by_cases c1 : i * n ≤ t
    · by_cases c2 : t < i * n + n
      · have hd : t / n = i := by
          rw [Nat.div_eq_iff hn]
          have : n * i = i * n := Nat.mul_comm _ _
          omega
        have hm : t % n = t - i * n := by
          have := Nat.div_add_mod t n
          rw [hd, Nat.mul_comm n i] at this
          omega
        have x1 : ¬ (i * n + n ≤ t) := by omega
        have x2 : t < (i + (k + 1)) * n := by omega
        have x3 : ¬ (t < i * n) := by omega
        have x4 : t - i * n < 32 ∧ t - i * n < n := by omega
        simp [x1, x2, x3, x4, c1, hd, hm, ht]
      · have hd : i + 1 ≤ t / n := by
          rw [Nat.le_div_iff_mul_le hn]; omega
        have x1 : i * n + n ≤ t := by omega
        have x4 : ¬ (t - i * n < n) := by omega
        have : t / n - (i + 1) + 1 = t / n - i := by omega
        simp [x1, x4, c1, this]
    · have x1 : ¬ (i * n + n ≤ t) := by omega
      simp [c1, x1]

theorem lanes_of_bits {n k : Nat} (hn : 0 < n) (hk : k * n = 32) {r : W} {g : Nat → W}
    (h : ∀ t, t < 32 → r.getLsbD t = (g (t / n)).getLsbD (t % n)) {i : Nat} (hi : i < k) :
    lane n i r = (g i).setWidth n := by
  apply BitVec.eq_of_getLsbD_eq
  intro t ht
  have hlt : n * i + t < 32 := by
    have : n * (i + 1) ≤ n * k := Nat.mul_le_mul_left n hi
    rw [Nat.mul_succ, Nat.mul_comm n k, hk] at this
    omega
  rw [lane_bit, h _ hlt, BitVec.getLsbD_setWidth]
  have hd : (n * i + t) / n = i := by
    rw [Nat.mul_add_div hn, Nat.div_eq_of_lt ht]; omega
  have hm : (n * i + t) % n = t := by
    rw [Nat.mul_add_mod, Nat.mod_eq_of_lt ht]
  rw [hd, hm]

/-- the lane-wise loop, whole register -/
theorem laneLoop_lanes {n : Nat} (hn : n ∈ [2, 4, 8, 16]) {f : W → W → Res W} {a b : W} {g : Nat → W}
    (hf : ∀ j, j < 32 / n → f (a >>> (n * j)) (b >>> (n * j)) = .ok (g j)) :
    ∃ r, laneLoop n f (count n) 0 a b 0#32 = .ok r ∧ ∀ i, i < 32 / n → lane n i r = (g i).setWidth n := by
  have hn0 : 0 < n := by
    simp only [List.mem_cons, List.not_mem_nil, or_false] at hn; omega
  have hk : 32 / n * n = 32 := by
    simp only [List.mem_cons, List.not_mem_nil, or_false] at hn
    rcases hn with rfl | rfl | rfl | rfl <;> rfl
  obtain ⟨r, h1, h2⟩ := laneLoop_bits hn0 (32 / n) 0 a b 0#32 g hf
  refine ⟨r, h1, fun i hi => lanes_of_bits hn0 hk (fun t ht => ?_) hi⟩
  rw [h2 t ht]
  have : decide (0 * n ≤ t ∧ t < (0 + 32 / n) * n) = true := by
    apply decide_eq_true
    rw [Nat.zero_add, hk]; omega
  rw [this]; simp

/-- `extract_val` of the low lane is the lane, extended -/
theorem extractVal_lane {n : Nat} (hn : n ∈ [2, 4, 8, 16, 32]) (sg : Bool) (a : W) (j : Nat) :
    extractVal n sg (a >>> (n * j)) = extend sg 32 (lane n j a) := by
  have hl : lane n j a = (a >>> (n * j)).setWidth n := by
    apply BitVec.eq_of_getLsbD_eq
    intro t ht
    rw [lane_bit, BitVec.getLsbD_setWidth, BitVec.getLsbD_ushiftRight]
  rw [hl]
  generalize a >>> (n * j) = v
  have small : ∀ n, 0 < n → n < 32 → extractVal n sg v = (let masked := v &&& mask n
      if sg then
        if (masked &&& BitVec.ofNat 32 (2 ^ (n - 1))) ≠ 0#32 then masked ||| ~~~(mask n)
        else masked
      else masked) → extractVal n sg v = extend sg 32 (v.setWidth n) := by
    intro n h0 h32 he
    rw [he]
    have hb : ((v &&& mask n) &&& BitVec.ofNat 32 (2 ^ (n - 1))) ≠ 0#32 ↔ v.getLsbD (n - 1) = true := by
      have hz : ∀ t, t < 32 → ((v &&& mask n) &&& BitVec.ofNat 32 (2 ^ (n - 1))).getLsbD t =
          (decide (t = n - 1) && v.getLsbD (n - 1)) := by
        intro t ht
        rw [BitVec.getLsbD_and, BitVec.getLsbD_and, mask_bit, BitVec.getLsbD_ofNat, Nat.testBit_two_pow]
        by_cases e : t = n - 1
        · subst e
          have : n - 1 < n := by omega
          simp [ht, this]
        · have : ¬ (n - 1 = t) := fun h => e h.symm
          simp [e, this]
      constructor
      · intro h
        refine Classical.byContradiction fun hv => h ?_
        apply BitVec.eq_of_getLsbD_eq
        intro t ht
        rw [hz t ht]
        simp [hv]
      · intro hv h
        have := hz (n - 1) (by omega)
        rw [h, hv] at this
        simp at this
    apply BitVec.eq_of_getLsbD_eq
    intro t ht
    have hm : (mask n).getLsbD t = decide (t < n) := by rw [mask_bit]; simp [ht]
    unfold extend
    cases sg
    · simp only [Bool.false_eq_true, if_false]
      rw [BitVec.getLsbD_and, hm, BitVec.getLsbD_setWidth, BitVec.getLsbD_setWidth, Bool.and_comm]
      simp only [ht, decide_true, Bool.true_and]
    · simp only [if_true]
      rw [BitVec.getLsbD_signExtend, BitVec.msb_eq_getLsbD_last, BitVec.getLsbD_setWidth,
        BitVec.getLsbD_setWidth]
      have h1 : n - 1 < n := by omega
      by_cases hv : v.getLsbD (n - 1) = true
      · rw [if_pos (hb.2 hv), BitVec.getLsbD_or, BitVec.getLsbD_not, BitVec.getLsbD_and, hm, hv]
        by_cases c : t < n
        · simp only [ht, c]; simp
        · simp only [ht, c, h1]; simp
      · rw [if_neg (fun h => hv (hb.1 h)), BitVec.getLsbD_and, hm]
        by_cases c : t < n
        · simp only [ht, c]; simp
        · simp only [ht, c, hv]; simp
  simp only [List.mem_cons, List.not_mem_nil, or_false] at hn
  rcases hn with rfl | rfl | rfl | rfl | rfl
  · exact small 2 (by decide) (by decide) rfl
  · exact small 4 (by decide) (by decide) rfl
  · cases sg <;> rfl
  · cases sg <;> rfl
  · cases sg
    · show v = (v.setWidth 32).setWidth 32
      simp
    · show v = (v.setWidth 32).signExtend 32
      simp

/-- back to the lane -/
theorem setWidth_extend {n : Nat} (h : n ≤ 32) (sg : Bool) (l : BitVec n) : (extend sg 32 l).setWidth n = l := by
  apply BitVec.eq_of_getLsbD_eq
  intro t ht
  unfold extend
  rw [BitVec.getLsbD_setWidth]
  cases sg
  · simp [ht]; omega
  · simp only [if_true, BitVec.getLsbD_signExtend, ht, if_true]
    simp; omega

theorem lv_range {n : Nat} (h : 0 < n) (sg : Bool) (l : BitVec n) : lmin sg n ≤ lv sg l ∧ lv sg l ≤ lmax sg n := by
  cases sg
  · have := l.isLt
    simp only [lmin, lv, lmax, Bool.false_eq_true, if_false]
    have h2 : ((2 ^ n : Nat) : Int) = 2 ^ n := by simp
    omega
  · have h1 := BitVec.le_two_mul_toInt (x := l)
    have h2 := BitVec.two_mul_toInt_lt (x := l)
    simp only [lmin, lv, lmax, if_true]
    have : (2 : Int) ^ n = 2 * 2 ^ (n - 1) := by
      rw [← Int.pow_succ', Nat.sub_add_cancel h]
    omega

theorem extend_toInt {n : Nat} (h0 : 0 < n) (h : n < 32) (sg : Bool) (l : BitVec n) :
    (extend sg 32 l).toInt = lv sg l := by
  cases sg
  · simp only [extend, lv, Bool.false_eq_true, if_false]
    rw [BitVec.toInt_setWidth]
    have := l.isLt
    have h2 : 2 ^ n ≤ 2 ^ 31 := Nat.pow_le_pow_right (by decide) (by omega)
    rw [Int.bmod_eq_of_le] <;> omega
  · simp only [extend, lv, if_true]
    rw [BitVec.toInt_signExtend_of_le (by omega)]

theorem lv_setWidth {n : Nat} (h0 : 0 < n) (h : n ≤ 32) (sg : Bool) (r : W)
    (h1 : lmin sg n ≤ r.toInt) (h2 : r.toInt ≤ lmax sg n) : lv sg (r.setWidth n) = r.toInt := by
  cases sg
  · simp only [lmin, lv, lmax, Bool.false_eq_true, if_false] at *
    rw [BitVec.toNat_setWidth]
    have e : (r.toNat : Int) = r.toInt := by
      rw [BitVec.toInt_eq_toNat_cond] at h1 ⊢
      have := r.isLt
      split at h1 <;> rename_i hh
      · rw [if_pos hh]
      · omega
    have h3 : ((2 ^ n : Nat) : Int) = 2 ^ n := by simp
    rw [Nat.mod_eq_of_lt (by omega), e]
  · simp only [lmin, lv, lmax, if_true] at *
    have hp : (2 : Int) ^ n = 2 * 2 ^ (n - 1) := by
      rw [← Int.pow_succ', Nat.sub_add_cancel h0]
    have h3 : ((2 ^ n : Nat) : Int) = 2 ^ n := by simp
    rw [BitVec.toInt_setWidth]
    have h4 : r.toInt = (r.toNat : Int).bmod (2 ^ 32) := BitVec.toInt_eq_toNat_bmod r
    have h5 : (2 ^ n : Nat) ∣ 2 ^ 32 := Nat.pow_dvd_pow 2 h
    have h6 : (r.toNat : Int).bmod (2 ^ n) = r.toInt.bmod (2 ^ n) := by
      rw [h4]
      exact (Int.bmod_bmod_of_dvd h5).symm
    rw [h6, Int.bmod_eq_of_le] <;> omega
end Ama

namespace Ama
open Spec Simd

/-- a masked value shifted to slot `k` -/
theorem put_lane {n : Nat} (hn : 0 < n) (r : W) (k t : Nat) (ht : t < 32) :
    ((r &&& mask n) <<< (k * n)).getLsbD t = (decide (t / n = k) && r.getLsbD (t % n)) := by
  have hdm := Nat.div_add_mod t n
  have hml := Nat.mod_lt t hn
  rw [BitVec.getLsbD_shiftLeft, BitVec.getLsbD_and, mask_bit]
  by_cases h : t / n = k
  · subst h
    rw [Nat.mul_comm] at hdm
    have h1 : t - t / n * n = t % n := by omega
    have h2 : ¬ (t < t / n * n) := by omega
    have h3 : t % n < 32 ∧ t % n < n := by omega
    rw [h1]
    simp [ht, h2, h3]
  · by_cases h2 : t < k * n
    · simp [h, h2]
    · have h3 : ¬ (t - k * n < n) := by
        intro hc
        apply h
        rw [Nat.div_eq_iff hn]
        have : n * k = k * n := Nat.mul_comm _ _
        omega
      simp [h, h3]

/-- the same without the mask, for a value that is already narrow -/
theorem mask_lane {n : Nat} (hn : 0 < n) (k t : Nat) (ht : t < 32) :
    ((mask n) <<< (k * n)).getLsbD t = decide (t / n = k) := by
  have := put_lane hn (BitVec.allOnes 32) k t ht
  rw [BitVec.allOnes_and] at this
  rw [this, BitVec.getLsbD_allOnes]
  have : t % n < 32 := Nat.lt_of_le_of_lt (Nat.mod_le t n) ht
  simp [this]

theorem packLoop_bits {ob half : Nat} (ho : 0 < ob) (hh : 0 < half) : ∀ (rs : List W) (i : Nat) (w0 w1 : W),
    i + rs.length ≤ 2 * half → ∀ t, t < 32 →
    (packLoop ob half rs i (w0, w1)).1.getLsbD t = (w0.getLsbD t ||
      (decide (i ≤ t / ob ∧ t / ob < i + rs.length ∧ t / ob < half) && (rs.getD (t / ob - i) 0#32).getLsbD (t % ob))) ∧
    (packLoop ob half rs i (w0, w1)).2.getLsbD t = (w1.getLsbD t ||
      (decide (i ≤ t / ob + half ∧ t / ob + half < i + rs.length ∧ t / ob < half) &&
        (rs.getD (t / ob + half - i) 0#32).getLsbD (t % ob))) := by
  intro rs
  induction rs with
  | nil =>
    intro i w0 w1 _ t _
    have h1 : ∀ k, decide (i ≤ k ∧ k < i + ([] : List W).length ∧ t / ob < half) = false := by
      intro k; apply decide_eq_false; simp only [List.length_nil]; omega
    rw [h1, h1]
    simp [packLoop]
  | cons r rs ih =>
    intro i w0 w1 hl t ht
    simp only [List.length_cons] at hl ⊢
    unfold packLoop
    dsimp only
    generalize hd : t / ob = d
    -- which element of the extended list is looked up
    have look : ∀ k, (decide (i + 1 ≤ k ∧ k < i + 1 + rs.length ∧ d < half) && (rs.getD (k - (i + 1)) 0#32).getLsbD (t % ob)
        || (decide (k = i ∧ d < half) && r.getLsbD (t % ob))) =
        (decide (i ≤ k ∧ k < i + (rs.length + 1) ∧ d < half) && ((r :: rs).getD (k - i) 0#32).getLsbD (t % ob)) := by
      intro k
      by_cases c : k = i
      · subst c
        have x1 : ¬ (k + 1 ≤ k) := by omega
        have x2 : k < k + (rs.length + 1) := by omega
        simp [x1]
      · by_cases c2 : i + 1 ≤ k
        · obtain ⟨m, rfl⟩ := Nat.exists_eq_add_of_le c2
          have e1 : i + 1 + m - (i + 1) = m := by omega
          have e2 : i + 1 + m - i = m + 1 := by omega
          rw [e1, e2, List.getD_cons_succ]
          have x1 : ¬ (i + 1 + m = i) := by omega
          have x2 : (i + 1 ≤ i + 1 + m ∧ i + 1 + m < i + 1 + rs.length ∧ d < half) ↔
            (i ≤ i + 1 + m ∧ i + 1 + m < i + (rs.length + 1) ∧ d < half) := by omega
          simp only [x1, x2]
          simp
        · have x1 : ¬ (i ≤ k) := by omega
          simp [c, c2, x1]
    by_cases hi : i / half = 0
    · rw [if_pos hi]
      have hlt : i < half := (Nat.div_eq_zero_iff_lt hh).1 hi
      obtain ⟨a1, a2⟩ := ih (i + 1) (w0 ||| (r &&& mask ob) <<< (i % half * ob)) w1 (by omega) t ht
      rw [a1, a2, BitVec.getLsbD_or, put_lane ho _ _ _ ht, hd, Nat.mod_eq_of_lt hlt]
      constructor
      · rw [← look, Bool.or_assoc]
        congr 1
        rw [Bool.or_comm]
        congr 2
        apply decide_eq_decide.2; omega
      · rw [← look]
        have : decide (d + half = i ∧ d < half) = false := by apply decide_eq_false; omega
        rw [this]; simp
    · rw [if_neg hi]
      have hge : half ≤ i := by
        rw [Nat.div_eq_zero_iff_lt hh] at hi; omega
      have hm : i % half = i - half := by
        rw [Nat.mod_eq_sub_mod hge, Nat.mod_eq_of_lt (by omega)]
      obtain ⟨a1, a2⟩ := ih (i + 1) w0 (w1 ||| (r &&& mask ob) <<< (i % half * ob)) (by omega) t ht
      rw [a1, a2, BitVec.getLsbD_or, put_lane ho _ _ _ ht, hd, hm]
      constructor
      · rw [← look]
        have : decide (d = i ∧ d < half) = false := by apply decide_eq_false; omega
        rw [this]; simp
      · rw [← look, Bool.or_assoc]
        congr 1
        rw [Bool.or_comm]
        congr 2
        apply decide_eq_decide.2; omega

/-- `pack_wide` puts element `i` into slot `i` of the pair -/
theorem packWide_lanes {ob : Nat} (hob : ob ∈ [4, 8, 16, 32]) {rs : List W} (hl : rs.length = 64 / ob)
    {i : Nat} (hi : i < 64 / ob) : pairLane ob i (packWide ob rs) = (rs.getD i 0#32).setWidth ob := by
  have ho : 0 < ob := by
    simp only [List.mem_cons, List.not_mem_nil, or_false] at hob; omega
  have hhalf : rs.length / 2 = 32 / ob := by
    rw [hl]; simp only [List.mem_cons, List.not_mem_nil, or_false] at hob
    rcases hob with rfl | rfl | rfl | rfl <;> rfl
  have h64 : 64 / ob = 2 * (32 / ob) := by
    simp only [List.mem_cons, List.not_mem_nil, or_false] at hob
    rcases hob with rfl | rfl | rfl | rfl <;> rfl
  have hmul : 32 / ob * ob = 32 := by
    simp only [List.mem_cons, List.not_mem_nil, or_false] at hob
    rcases hob with rfl | rfl | rfl | rfl <;> rfl
  have hpos : 0 < 32 / ob := Nat.pos_of_ne_zero (by intro h; rw [h] at hmul; omega)
  have key := packLoop_bits ho hpos rs 0 0#32 0#32 (by omega)
  have hdl : ∀ t, t < 32 → t / ob < 32 / ob := by
    intro t ht
    rw [Nat.div_lt_iff_lt_mul ho, hmul]; exact ht
  unfold packWide pairLane
  rw [hhalf]
  split
  · rename_i hlt
    refine lanes_of_bits (g := fun k => rs.getD k 0#32) ho hmul (fun t ht => ?_) hlt
    rw [(key t ht).1]
    have := hdl t ht
    have : decide (0 ≤ t / ob ∧ t / ob < 0 + rs.length ∧ t / ob < 32 / ob) = true := by
      generalize t / ob = d at *
      apply decide_eq_true; omega
    rw [this]; simp
  · rename_i hge
    have := lanes_of_bits (r := (packLoop ob (32 / ob) rs 0 (0#32, 0#32)).2)
      (g := fun k => rs.getD (k + 32 / ob) 0#32) ho hmul (fun t ht => ?_) (i := i - 32 / ob) (by omega)
    · rw [this]
      congr 2
      omega
    · rw [(key t ht).2]
      have := hdl t ht
      have : decide (0 ≤ t / ob + 32 / ob ∧ t / ob + 32 / ob < 0 + rs.length ∧ t / ob < 32 / ob) = true := by
        generalize t / ob = d at *
        apply decide_eq_true; omega
      rw [this]; simp

/-- a register is determined by its lanes -/
theorem lanes_ext {n : Nat} (hn : n ∈ [2, 4, 8, 16, 32]) {x y : W}
    (h : ∀ i, i < 32 / n → lane n i x = lane n i y) : x = y := by
  have ho : 0 < n := by
    simp only [List.mem_cons, List.not_mem_nil, or_false] at hn; omega
  have hmul : 32 / n * n = 32 := by
    simp only [List.mem_cons, List.not_mem_nil, or_false] at hn
    rcases hn with rfl | rfl | rfl | rfl | rfl <;> rfl
  apply BitVec.eq_of_getLsbD_eq
  intro t ht
  have h1 := congrArg (fun l : BitVec n => l.getLsbD (t % n)) (h (t / n) (by
    rw [Nat.div_lt_iff_lt_mul ho, hmul]; exact ht))
  simp only [lane_bit, Nat.div_add_mod, Nat.mod_lt t ho, decide_true, Bool.true_and] at h1
  exact h1

theorem narrowLoop_bits {n : Nat} (vsat sg : Bool) (off : Nat) (hn : 0 < n / 2) : ∀ (k i : Nat) (val res : W),
    (n < 32 ∨ k ≤ 1) → ∀ t, t < 32 →
    (narrowLoop n vsat sg off k i val res).getLsbD t = (res.getLsbD t ||
      (decide (off + i ≤ t / (n / 2) ∧ t / (n / 2) < off + i + k) &&
        (narrowElem n vsat sg (val >>> (n * (t / (n / 2) - (off + i))))).getLsbD (t % (n / 2)))) := by
  intro k
  induction k with
  | zero =>
    intro i val res _ t _
    have : decide (off + i ≤ t / (n / 2) ∧ t / (n / 2) < off + i + 0) = false := by
      apply decide_eq_false; omega
    rw [this]; simp [narrowLoop]
  | succ k ih =>
    intro i val res hk t ht
    unfold narrowLoop
    rw [ih (i + 1) _ _ (by omega) t ht, BitVec.getLsbD_or, put_lane hn _ _ _ ht, Bool.or_assoc]
    congr 1
    generalize t / (n / 2) = d
    by_cases c : d = off + i
    · subst c
      have x1 : decide (off + (i + 1) ≤ off + i ∧ off + i < off + (i + 1) + k) = false := by
        apply decide_eq_false; omega
      have x2 : decide (off + i ≤ off + i ∧ off + i < off + i + (k + 1)) = true := by
        apply decide_eq_true; omega
      rw [x1, x2]; simp
    · have x1 : decide (off + (i + 1) ≤ d ∧ d < off + (i + 1) + k) =
          decide (off + i ≤ d ∧ d < off + i + (k + 1)) := by
        apply decide_eq_decide.2; omega
      rw [x1]
      by_cases c2 : off + i ≤ d ∧ d < off + i + (k + 1)
      · have h32 : n < 32 := by omega
        rw [if_pos h32, ← BitVec.shiftRight_add]
        have : n + n * (d - (off + (i + 1))) = n * (d - (off + i)) := by
          rw [show d - (off + i) = (d - (off + (i + 1))) + 1 by omega, Nat.mul_succ]; omega
        rw [this]
        simp [c]
      · simp [c, c2]

theorem dupLoop_bits {n : Nat} (hn : 0 < n) (x : W) : ∀ (k i : Nat) (res : W), ∀ t, t < 32 →
    (dupLoop n (x &&& mask n) k i res).getLsbD t = (res.getLsbD t ||
      (decide (i ≤ t / n ∧ t / n < i + k) && x.getLsbD (t % n))) := by
  intro k
  induction k with
  | zero =>
    intro i res t _
    have : decide (i ≤ t / n ∧ t / n < i + 0) = false := by apply decide_eq_false; omega
    rw [this]; simp [dupLoop]
  | succ k ih =>
    intro i res t ht
    unfold dupLoop
    rw [ih (i + 1) _ t ht, BitVec.getLsbD_or, put_lane hn _ _ _ ht, Bool.or_assoc]
    congr 1
    have x1 : decide (i ≤ t / n ∧ t / n < i + (k + 1)) =
        (decide (t / n = i) || decide (i + 1 ≤ t / n ∧ t / n < i + 1 + k)) := by
      rw [← Bool.decide_or]; apply decide_eq_decide.2; omega
    rw [x1, Bool.and_or_distrib_right]

theorem and_shift_lane {n : Nat} (hn : 0 < n) (a : W) (s k t : Nat) (ht : t < 32) :
    (((a >>> (s * n)) &&& mask n) <<< (k * n)).getLsbD t =
      (decide (t / n = k) && a.getLsbD (s * n + t % n)) := by
  rw [put_lane hn _ _ _ ht, BitVec.getLsbD_ushiftRight]

theorem txpLoop_bits {n : Nat} (hn : 0 < n) (a b : W) : ∀ (k j : Nat) (r rp : W), ∀ t, t < 32 →
    (txpLoop n a b k j (r, rp)).1.getLsbD t = (r.getLsbD t ||
      (decide (2 * j ≤ t / n ∧ t / n < 2 * (j + k)) &&
        if t / n % 2 = 0 then a.getLsbD (t / n * n + t % n) else b.getLsbD ((t / n - 1) * n + t % n))) ∧
    (txpLoop n a b k j (r, rp)).2.getLsbD t = (rp.getLsbD t ||
      (decide (2 * j ≤ t / n ∧ t / n < 2 * (j + k)) &&
        if t / n % 2 = 0 then a.getLsbD ((t / n + 1) * n + t % n) else b.getLsbD (t / n * n + t % n))) := by
  intro k
  induction k with
  | zero =>
    intro j r rp t _
    have : decide (2 * j ≤ t / n ∧ t / n < 2 * (j + 0)) = false := by apply decide_eq_false; omega
    rw [this]; simp [txpLoop]
  | succ k ih =>
    intro j r rp t ht
    unfold txpLoop
    dsimp only
    obtain ⟨h1, h2⟩ := ih (j + 1) _ _ t ht
    rw [h1, h2]
    simp only [BitVec.getLsbD_or, and_shift_lane hn _ _ _ _ ht]
    generalize t / n = d
    by_cases c : d = 2 * j
    · subst c
      have x1 : decide (2 * (j + 1) ≤ 2 * j ∧ 2 * j < 2 * (j + 1 + k)) = false := by apply decide_eq_false; omega
      have x2 : decide (2 * j ≤ 2 * j ∧ 2 * j < 2 * (j + (k + 1))) = true := by apply decide_eq_true; omega
      have x3 : ¬ (2 * j = 2 * j + 1) := by omega
      have x4 : 2 * j % 2 = 0 := by omega
      rw [x1, x2]
      simp [x3, x4]
    · by_cases c1 : d = 2 * j + 1
      · subst c1
        have x1 : decide (2 * (j + 1) ≤ 2 * j + 1 ∧ 2 * j + 1 < 2 * (j + 1 + k)) = false := by
          apply decide_eq_false; omega
        have x2 : decide (2 * j ≤ 2 * j + 1 ∧ 2 * j + 1 < 2 * (j + (k + 1))) = true := by
          apply decide_eq_true; omega
        have x4 : ¬ ((2 * j + 1) % 2 = 0) := by omega
        rw [x1, x2]
        simp [x4]
      · have x1 : decide (2 * (j + 1) ≤ d ∧ d < 2 * (j + 1 + k)) = decide (2 * j ≤ d ∧ d < 2 * (j + (k + 1))) := by
          apply decide_eq_decide.2; omega
        rw [x1]
        simp [c, c1]

/-- numbers and their low bits -/
theorem setWidth_ofInt {m : Nat} (h : m ≤ 32) (z : Int) : (BitVec.ofInt 32 z).setWidth m = BitVec.ofInt m z := by
  apply BitVec.eq_of_toInt_eq
  rw [BitVec.toInt_setWidth, BitVec.toNat_ofInt, BitVec.toInt_ofInt]
  have h5 : (2 ^ m : Nat) ∣ 2 ^ 32 := Nat.pow_dvd_pow 2 h
  have e : (((z % ((2 ^ 32 : Nat) : Int)).toNat : Nat) : Int) = z % ((2 ^ 32 : Nat) : Int) :=
    Int.toNat_of_nonneg (Int.emod_nonneg _ (by decide))
  rw [e]
  rw [Int.bmod_def, Int.bmod_def, Int.emod_emod_of_dvd _ (Int.natCast_dvd_natCast.2 h5)]

theorem lv_ofInt {n : Nat} (h0 : 0 < n) (h : n ≤ 32) (sg : Bool) (z : Int)
    (h1 : lmin sg n ≤ z) (h2 : z ≤ lmax sg n) : lv sg (BitVec.ofInt n z) = z := by
  have h3 : ((2 ^ n : Nat) : Int) = 2 ^ n := by simp
  cases sg
  · simp only [lmin, lv, lmax, Bool.false_eq_true, if_false] at *
    rw [BitVec.toNat_ofInt, Int.toNat_of_nonneg (Int.emod_nonneg _ (by rw [h3]; exact Int.ne_of_gt (Int.pow_pos (by decide)))),
      Int.emod_eq_of_lt h1 (by omega)]
  · simp only [lmin, lv, lmax, if_true] at *
    have hp : (2 : Int) ^ n = 2 * 2 ^ (n - 1) := by
      rw [← Int.pow_succ', Nat.sub_add_cancel h0]
    rw [BitVec.toInt_ofInt, Int.bmod_eq_of_le] <;> omega

theorem ofInt_lv {n : Nat} (sg : Bool) (l : BitVec n) : BitVec.ofInt n (lv sg l) = l := by
  cases sg
  · simp [lv]
  · simp [lv]

end Ama
