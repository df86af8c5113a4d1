import Verif.Lemmas.SimdText
/-!
# Lemmas on the elements in the log: the loops
-/
namespace Ama.SimdText
open Dasm Simd Spec Spec.Asm Spec.LaneText Report

/-! ## The streams -/

/-- all four streams are right-adjusted and decimal -/
def SS.Calm (s : SS) : Prop := Report.Calm s.c ∧ Report.Calm s.a ∧ Report.Calm s.b ∧ Report.Calm s.ss
theorem calm_clear {d : DS} (h : Report.Calm d) : Report.Calm (clear d) := h
theorem run_clear {ps : List P} {zs : List Int} (h : Sends ps zs) {d : DS} (hd : Report.Calm d) :
    Report.Calm (run (clear :: ps) d) ∧ Holds (run (clear :: ps) d).text zs := by
  obtain ⟨ws, ⟨t, h1, h2⟩, h3⟩ := h
  obtain ⟨c, e⟩ := h1 (clear d) (calm_clear hd)
  refine ⟨c, ws, ?_, h3⟩
  have : (run (clear :: ps) d).text = t := e
  rw [this]
  exact h2

theorem put_reads {x : Chains × Fin} {zc za zb : List Int} (hc : Sends x.1.c zc) (ha : Sends x.1.a za) (hb : Sends x.1.b zb)
    {s : SS} (hs : s.Calm) (rd : BitVec 5) :
    (put rd x s).Calm ∧
    (rd = 0#5 → (put rd x s).ss = s.ss) ∧
    (rd ≠ 0#5 → s.ss.text = [] → readTable (put rd x s).ss.text = some (tableOf x.2 zc za zb)) := by
  obtain ⟨c1, c2⟩ := run_clear hc hs.1
  obtain ⟨a1, a2⟩ := run_clear ha hs.2.1
  obtain ⟨b1, b2⟩ := run_clear hb hs.2.2.1
  by_cases h0 : rd = 0#5
  · have e : (put rd x s).ss = s.ss := by
      unfold put finish
      simp only [if_pos h0]
      rfl
    refine ⟨⟨c1, a1, b1, ?_⟩, fun _ => e, fun h => absurd h0 h⟩
    rw [e]
    exact hs.2.2.2
  · obtain ⟨ws, ⟨t, t1, t2⟩, t3⟩ := tells_finish h0 x.2 c2 a2 b2
    obtain ⟨k1, k2⟩ := t1 s.ss hs.2.2.2
    refine ⟨⟨c1, a1, b1, k1⟩, fun h => absurd h h0, fun _ ht => ?_⟩
    have e : (put rd x s).ss.text = t := by
      refine k2.trans ?_
      rw [ht, List.nil_append]
    rw [e]
    unfold readTable
    rw [t2.done, t3]
    rfl

/-! ## The loops -/

theorem shr_succ (a : W) (n j : Nat) : (a >>> n) >>> (n * j) = a >>> (n * (j + 1)) := by
  rw [← BitVec.shiftRight_add, Nat.mul_succ, Nat.add_comm]
theorem range_flat {α : Type} (k : Nat) (f : Nat → List α) :
    (List.range (k + 1)).flatMap f = f 0 ++ (List.range k).flatMap fun j => f (j + 1) := by
  rw [List.range_succ_eq_map, List.flatMap_cons, List.flatMap_map]
/-- the operand chains of a register -/
def srcs (n : Nat) (sg : Bool) (k : Nat) (a : W) : List P := (List.range k).flatMap fun j => app (extractVal n sg (a >>> (n * j)))
theorem srcs_succ (n : Nat) (sg : Bool) (k : Nat) (a : W) :
    srcs n sg (k + 1) a = app (extractVal n sg a) ++ srcs n sg k (a >>> n) := by
  unfold srcs
  rw [range_flat, Nat.mul_zero, BitVec.ushiftRight_zero]
  simp only [shr_succ]

theorem cabLoop_eq {n : Nat} {sg : Bool} {f : W → W → Res W} : ∀ (k : Nat) (a b : W) (ch : Chains) (g : Nat → W),
    (∀ j, j < k → f (a >>> (n * j)) (b >>> (n * j)) = .ok (g j)) →
    cabLoop n sg f k a b ch =
      .ok ⟨ch.c ++ (List.range k).flatMap (fun j => app (g j)), ch.a ++ srcs n sg k a, ch.b ++ srcs n sg k b⟩
  | 0, a, b, ch, g, _ => by simp [cabLoop, srcs]
  | k + 1, a, b, ch, g, h => by
    have h0 := h 0 (by omega)
    rw [Nat.mul_zero, BitVec.ushiftRight_zero, BitVec.ushiftRight_zero] at h0
    rw [cabLoop, h0, Res.bind_ok, cabLoop_eq k _ _ _ (fun j => g (j + 1)) fun j hj => by
      rw [shr_succ, shr_succ]; exact h (j + 1) (by omega)]
    simp only [List.append_assoc, ← srcs_succ, ← range_flat k fun j => app (g j)]
theorem shiftLoop_eq {n : Nat} {ar : Bool} {f : W → W → Res W} : ∀ (k : Nat) (a : W) (ch : Chains) (g : Nat → W),
    (∀ j, j < k → f (a >>> (n * j)) 0#32 = .ok (g j)) →
    shiftLoop n ar f k a ch = .ok
      ⟨ch.c ++ (List.range k).flatMap (fun j => appHex (g j &&& mask n) (n / 4)),
        ch.a ++ (List.range k).flatMap (fun j => appHex (extractVal n ar (a >>> (n * j))) (n / 4)), ch.b⟩
  | 0, a, ch, g, _ => by simp [shiftLoop]
  | k + 1, a, ch, g, h => by
    have h0 := h 0 (by omega)
    rw [Nat.mul_zero, BitVec.ushiftRight_zero] at h0
    rw [shiftLoop, h0, Res.bind_ok, shiftLoop_eq k _ _ (fun j => g (j + 1)) fun j hj => by
      rw [shr_succ]; exact h (j + 1) (by omega)]
    simp only [List.append_assoc, shr_succ, ← range_flat k fun j => appHex (g j &&& mask n) (n / 4)]
    have := range_flat k fun j => appHex (extractVal n ar (a >>> (n * j))) (n / 4)
    rw [Nat.mul_zero, BitVec.ushiftRight_zero] at this
    rw [this]
theorem abLoop_eq {n : Nat} {sg : Bool} : ∀ (k : Nat) (a b : W) (ch : Chains),
    abLoop n sg k a b ch = ⟨ch.c, ch.a ++ srcs n sg k a, ch.b ++ srcs n sg k b⟩
  | 0, a, b, ch => by simp [abLoop, srcs]
  | k + 1, a, b, ch => by
    rw [abLoop, abLoop_eq k]
    simp only [List.append_assoc, ← srcs_succ]
theorem aLoop_eq {n : Nat} {sg : Bool} : ∀ (k : Nat) (a : W) (l : List P), aLoop n sg k a l = l ++ srcs n sg k a
  | 0, a, l => by simp [aLoop, srcs]
  | k + 1, a, l => by
    rw [aLoop, aLoop_eq k]
    simp only [List.append_assoc, ← srcs_succ]

/-- every body of a loop that ends well ended well -/
theorem laneLoop_inv {n : Nat} {f : W → W → Res W} : ∀ (k i : Nat) (a b acc : W) {r : W}, laneLoop n f k i a b acc = .ok r →
    ∃ g : Nat → W, ∀ j, j < k → f (a >>> (n * j)) (b >>> (n * j)) = .ok (g j)
  | 0, _, _, _, _, _, _ => ⟨fun _ => 0#32, fun j hj => absurd hj (by omega)⟩
  | k + 1, i, a, b, acc, r, h => by
    rw [laneLoop] at h
    cases e : f a b with
    | ok v =>
      rw [e, Res.bind_ok] at h
      obtain ⟨g, hg⟩ := laneLoop_inv k _ _ _ _ h
      refine ⟨fun j => match j with | 0 => v | j + 1 => g j, fun j hj => ?_⟩
      cases j with
      | zero => rw [Nat.mul_zero, BitVec.ushiftRight_zero, BitVec.ushiftRight_zero]; exact e
      | succ j => rw [← shr_succ, ← shr_succ]; exact hg j (by omega)
    | ub u => rw [e] at h; cases h
    | abort => rw [e] at h; cases h

/-! ## The numbers -/

theorem map_range_congr {α : Type} {k : Nat} {f g : Nat → α} (h : ∀ i, i < k → f i = g i) : (List.range k).map f = (List.range k).map g :=
  List.map_congr_left fun i hi => h i (List.mem_range.1 hi)
theorem sends_range {k : Nat} {f : Nat → List P} {z z' : Nat → Int} (h : ∀ i, i < k → Sends (f i) [z i]) (hz : ∀ i, i < k → z i = z' i) :
    Sends ((List.range k).flatMap f) ((List.range k).map z') := by
  rw [← map_range_congr hz]
  exact Sends.map _ fun i hi => h i (List.mem_range.1 hi)
theorem elem_toInt {n : Nat} (hn : wd16 n) (sg : Bool) (a : W) (j : Nat) :
    (extractVal n sg (a >>> (n * j))).toInt = lv sg (lane n j a) := by
  rw [elem_eq hn, toInt_ofInt32 (lv_i32 hn _ _).1 (lv_i32 hn _ _).2]
theorem sends_srcs {n : Nat} (hn : wd16 n) (sg : Bool) (a : W) : Sends (opening ++ srcs n sg (count n) a) (nums sg n a) :=
  sends_opening.app (sends_range (fun _ _ => sends_app _) fun i _ => elem_toInt hn sg a i)
theorem ofInt_toInt {m : Nat} (h : m ≤ 32) (v : W) : BitVec.ofInt m v.toInt = v.setWidth m := by
  rw [← setWidth_ofInt h, BitVec.ofInt_toInt]
theorem ofInt_toNat {m : Nat} (h : m ≤ 32) (v : W) : BitVec.ofInt m (v.toNat : Int) = v.setWidth m := by
  rw [← setWidth_ofInt h]
  simp
theorem shows_of {n : Nat} {z : Nat → Int} {v : W} (h : ∀ i, i < 32 / n → BitVec.ofInt n (z i) = lane n i v) :
    Shows n ((List.range (32 / n)).map z) v := by
  unfold Shows
  rw [List.map_map]
  exact map_range_congr h
theorem pairShows_of {n : Nat} {z : Nat → Int} {p : W × W} (h : ∀ i, i < 64 / n → BitVec.ofInt n (z i) = pairLane n i p) :
    PairShows n ((List.range (64 / n)).map z) p := by
  unfold PairShows
  rw [List.map_map]
  exact map_range_congr h
theorem shows_nums (sg : Bool) (n : Nat) (x : W) : Shows n (nums sg n x) x := shows_of fun _ _ => ofInt_lv sg _
theorem pairShows_nums (sg : Bool) (n : Nat) (p : W × W) : PairShows n (pairNums sg n p) p := pairShows_of fun _ _ => ofInt_lv sg _

/-- the operations with a result and two operands per element -/
theorem cab_numbers {n : Nat} (hn : wd16 n) {sg : Bool} {f : W → W → Res W} {a b v : W}
    (h : laneLoop n f (count n) 0 a b 0#32 = .ok v) :
    ∃ ch zs, cabLoop n sg f (count n) a b ⟨opening, opening, opening⟩ = .ok ch ∧ Sends ch.c zs ∧ Sends ch.a (nums sg n a) ∧
      Sends ch.b (nums sg n b) ∧ Shows n zs v ∧
      ∀ sg', (∀ j, j < 32 / n → ∀ r, f (a >>> (n * j)) (b >>> (n * j)) = .ok r → lmin sg' n ≤ r.toInt ∧ r.toInt ≤ lmax sg' n) →
        zs = nums sg' n v := by
  obtain ⟨g, hg⟩ := laneLoop_inv _ _ _ _ _ h
  obtain ⟨r, h1, h2⟩ := laneLoop_lanes hn (g := g) hg
  have hle := wd16_le hn
  rw [h] at h1
  cases h1
  refine ⟨_, (List.range (32 / n)).map fun j => (g j).toInt, cabLoop_eq _ a b _ g hg, ?_, sends_srcs hn sg a, sends_srcs hn sg b, ?_, ?_⟩
  · exact sends_opening.app (sends_range (fun i _ => sends_app _) fun i _ => rfl)
  · exact shows_of fun i hi => by rw [h2 i hi, ofInt_toInt (by omega)]
  · intro sg' hr
    refine map_range_congr fun i hi => ?_
    have := hr i hi _ (hg i hi)
    rw [h2 i hi, lv_setWidth (wd16_pos hn) (by omega) sg' _ this.1 this.2]

theorem mask_toNat {n : Nat} (hn : n ≤ 32) (v : W) : (v &&& mask n).toNat = (v.setWidth n).toNat := by
  rw [BitVec.toNat_and, BitVec.toNat_setWidth]
  unfold mask
  have : (2 ^ n - 1) < 2 ^ 32 := by
    have := Nat.pow_le_pow_right (n := 2) (by decide) hn
    have := Nat.two_pow_pos n
    omega
  rw [BitVec.toNat_ofNat, Nat.mod_eq_of_lt this, Nat.and_two_pow_sub_one_eq_mod]
theorem shift_numbers {n : Nat} (hn : wd16 n) {ar : Bool} {f : W → W → Res W} (hf : ∀ x y, f x y = f x 0#32) {a v : W}
    (h : laneLoop n f (count n) 0 a 0#32 0#32 = .ok v) :
    ∃ ch xs, shiftLoop n ar f (count n) a ⟨opening, opening, []⟩ = .ok ch ∧ Sends ch.c (nums false n v) ∧ Sends ch.a xs ∧
      Sends ch.b [] ∧ Shows n xs a ∧ (ar = false → xs = nums false n a) := by
  obtain ⟨g, hg⟩ := laneLoop_inv _ _ _ _ _ h
  obtain ⟨r, h1, h2⟩ := laneLoop_lanes hn (g := g) hg
  have hle := wd16_le hn
  rw [h] at h1
  cases h1
  refine ⟨_, (List.range (32 / n)).map fun j => ((extractVal n ar (a >>> (n * j))).toNat : Int),
    shiftLoop_eq _ a _ g (fun j hj => by rw [← hf]; exact hg j hj), ?_, ?_, Sends.nil, ?_, ?_⟩
  · refine sends_opening.app (sends_range (fun i _ => sends_appHex _ _) fun i hi => ?_)
    rw [h2 i hi, mask_toNat (by omega)]
    rfl
  · exact sends_opening.app (sends_range (fun i _ => sends_appHex _ _) fun i _ => rfl)
  · refine shows_of fun i hi => ?_
    rw [ofInt_toNat (by omega), extractVal_lane (wd16_32 hn), setWidth_extend (by omega)]
  · rintro rfl
    refine map_range_congr fun i hi => ?_
    rw [extractVal_lane (wd16_32 hn)]
    show ((((lane n i a).setWidth 32 : W)).toNat : Int) = _
    rw [BitVec.toNat_setWidth, Nat.mod_eq_of_lt]
    · rfl
    · exact Nat.lt_of_lt_of_le (lane n i a).isLt (Nat.pow_le_pow_right (by decide) (by omega))

theorem sends_wide (half : Nat) : ∀ (i : Nat) (rs : List W), Sends (wide half i rs) (rs.map BitVec.toInt)
  | _, [] => Sends.nil
  | i, r :: rs => by
    rw [wide]
    refine Sends.app (x := [r.toInt]) ?_ (sends_wide half (i + 1) rs)
    by_cases h : i = half - 1
    · rw [if_pos h]; exact sends_i32 r (by decide) (by unfold Sep; decide)
    · rw [if_neg h]; exact sends_i32 r (by decide) (by unfold Sep; decide)
theorem list_range {α : Type} {l : List α} {k : Nat} (hl : l.length = k) (d : α) : l = (List.range k).map fun i => l.getD i d := by
  apply List.ext_getElem
  · simp [hl]
  · intro i h1 h2
    simp [List.getElem_map, List.getElem_range, List.getD_eq_getElem?_getD, h1]
theorem wide_shows {n : Nat} (hn : wd16 n) {rs : List W} (hl : rs.length = count n) :
    PairShows (2 * n) (rs.map BitVec.toInt) (packWide (n * 2) rs) := by
  have hle := wd16_le hn
  have hpos := wd16_pos hn
  have h64 : 64 / (2 * n) = 32 / n := by rw [← Nat.div_div_eq_div_mul]
  have hl' : rs.length = 64 / (2 * n) := by rw [h64]; exact hl
  rw [list_range hl' 0#32, List.map_map, ← list_range hl' 0#32, Nat.mul_comm n 2]
  refine pairShows_of fun i hi => ?_
  rw [packWide_lanes (by rcases wd16_cases hn with rfl | rfl | rfl | rfl <;> decide) hl' hi]
  exact ofInt_toInt (by omega) _

/-! ## Narrowing -/

theorem outVals_eq {n : Nat} {vsat sg : Bool} : ∀ (k : Nat) (x : W), (n < 32 ∨ k ≤ 1) →
    outVals n vsat sg k x = (List.range k).map fun i => outVal (n / 2) vsat sg (narrowElem n vsat sg (x >>> (n * i)))
  | 0, x, _ => rfl
  | k + 1, x, h => by
    rw [outVals, List.range_succ_eq_map, List.map_cons, List.map_map, Nat.mul_zero, BitVec.ushiftRight_zero]
    congr 1
    by_cases hn : n < 32
    · rw [if_pos hn, outVals_eq k _ (.inl hn)]
      refine map_range_congr fun i _ => ?_
      rw [shr_succ]
      rfl
    · have hk : k = 0 := by omega
      subst hk
      rfl
theorem outVal_toInt {ob : Nat} (h : wd16 ob) (vsat sg : Bool) (r : W) :
    (outVal ob vsat sg r).toInt = lv (sg && vsat) (r.setWidth ob) := by
  have hle := wd16_le h
  unfold outVal
  have hm : (r &&& mask ob) = (r.setWidth ob).setWidth 32 := by
    apply BitVec.eq_of_toNat_eq
    rw [mask_toNat (by omega)]
    generalize hl : r.setWidth ob = l
    rw [BitVec.toNat_setWidth, Nat.mod_eq_of_lt]
    rw [← hl]
    exact Nat.lt_of_lt_of_le (r.setWidth ob).isLt (Nat.pow_le_pow_right (by decide) (by omega))
  dsimp only
  rw [hm]
  generalize r.setWidth ob = l
  cases e : sg && vsat
  · simp only [Bool.false_eq_true, if_false]
    have := extend_toInt (wd16_pos h) (by omega) false l
    exact this
  · simp only [if_true]
    have := extend_toInt (wd16_pos h) (by omega) true l
    rw [← this]
    congr 1
    simp only [extend, if_true]
    have hpos := wd16_pos h
    clear this e hm
    apply BitVec.eq_of_getLsbD_eq
    intro t ht
    rw [BitVec.getLsbD_sshiftRight, BitVec.getLsbD_signExtend]
    have h0 : ¬ (32 ≤ t) := by omega
    simp only [BitVec.getLsbD_shiftLeft, BitVec.msb_eq_getLsbD_last, BitVec.getLsbD_setWidth, ht, h0]
    by_cases c : t < ob
    · have c1 : 32 - ob + t < 32 := by omega
      have c2 : ¬ (32 - ob + t < 32 - ob) := by omega
      have c3 : 32 - ob + t - (32 - ob) = t := by omega
      simp [c, c1, ht]
    · have c1 : ¬ (32 - ob + t < 32) := by omega
      have c2 : ¬ (31 < 32 - ob) := by omega
      have c3 : 31 - (32 - ob) = ob - 1 := by omega
      have c4 : ob - 1 < 32 := by omega
      simp [c, c1, c2, c3, c4]
end Ama.SimdText
