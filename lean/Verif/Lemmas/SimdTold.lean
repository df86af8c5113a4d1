import Verif.Lemmas.SimdLanes
/-!
# Lemmas on the elements in the log: what each operation writes
-/
namespace Ama.SimdText
open Dasm Simd Spec Spec.Asm Spec.LaneText Report
variable {σ : Type} {E : Env σ} {s : St σ}

/-- what an instruction wrote: the numbers, and the table they make -/
def Told1 (x : X1) (a b c : W) (imm : BitVec 5) (v : W) (y : Chains × Fin) : Prop :=
  ∃ zc za zb zs xs, Sends y.1.c zc ∧ Sends y.1.a za ∧ Sends y.1.b zb ∧
    tableOf y.2 zc za zb = X1.table x zs xs a b c imm v ∧ Shows (X1.resW x) zs v ∧ Shows (X1.srcW x) xs a ∧
    (∀ sg, X1.exact x = some sg → zs = nums sg (X1.resW x) v) ∧ (∀ n, x = .slli n ∨ x = .srli n → xs = nums false n a)

theorem body_sat {st : Bool} {n : Nat} (hn : wd16 n) {sg sb : Bool} {a b r : W} (h : addSubBody st n sg sb true a b = .ok r) :
    lmin sg n ≤ r.toInt ∧ r.toInt ≤ lmax sg n := by
  have h1 := limit_max hn sg
  have h2 := limit_min hn sg
  have h3 := limits_order hn sg
  unfold addSubBody at h
  dsimp only at h
  have key : ∀ raw : W, (if true = true then
      if (getLimit n sg true).slt raw then Res.ok (getLimit n sg true)
      else if raw.slt (getLimit n sg false) then .ok (getLimit n sg false) else .ok raw
    else .ok raw) = Res.ok r → lmin sg n ≤ r.toInt ∧ r.toInt ≤ lmax sg n := by
    intro raw h
    rw [if_pos rfl] at h
    simp only [BitVec.slt_eq_decide, h1, h2, decide_eq_true_eq] at h
    by_cases c1 : lmax sg n < raw.toInt
    · rw [if_pos c1] at h; cases h; omega
    · rw [if_neg c1] at h
      by_cases c2 : raw.toInt < lmin sg n
      · rw [if_pos c2] at h; cases h; omega
      · rw [if_neg c2] at h; cases h; omega
  cases sb
  · simp only [Bool.false_eq_true, if_false] at h
    cases e : cAddI st (extractVal n sg a) (extractVal n sg b) with
    | ok w => rw [e, Res.bind_ok] at h; exact key w h
    | ub u => rw [e] at h; cases h
    | abort => rw [e] at h; cases h
  · simp only [if_true] at h
    cases e : cSubI st (extractVal n sg a) (extractVal n sg b) with
    | ok w => rw [e, Res.bind_ok] at h; exact key w h
    | ub u => rw [e] at h; cases h
    | abort => rw [e] at h; cases h
theorem body_minmax {n : Nat} (hn : wd16 n) {sg mx : Bool} {a b : W} {j : Nat} {r : W}
    (h : minMaxBody n sg mx (a >>> (n * j)) (b >>> (n * j)) = .ok r) : lmin sg n ≤ r.toInt ∧ r.toInt ≤ lmax sg n := by
  have ha := elem_toInt hn sg a j
  have hb := elem_toInt hn sg b j
  have ra := lv_range (wd16_pos hn) sg (lane n j a)
  have rb := lv_range (wd16_pos hn) sg (lane n j b)
  unfold minMaxBody at h
  dsimp only at h
  generalize extractVal n sg (a >>> (n * j)) = p at *
  generalize extractVal n sg (b >>> (n * j)) = q at *
  have : r = p ∨ r = q := by
    cases mx
    · simp only [Bool.false_eq_true, if_false, Res.ok.injEq] at h
      split at h
      · exact .inr h.symm
      · exact .inl h.symm
    · simp only [if_true, Res.ok.injEq] at h
      split at h
      · exact .inr h.symm
      · exact .inl h.symm
  rcases this with rfl | rfl <;> omega
theorem body_mul {st : Bool} {n : Nat} (hn : wd16 n) {sg up : Bool} {a b r : W} (h : mulBody st n sg up a b = .ok r) :
    lmin false n ≤ r.toInt ∧ r.toInt ≤ lmax false n := by
  have hle := wd16_le hn
  have key : ∀ x : W, lmin false n ≤ (x &&& mask n).toInt ∧ (x &&& mask n).toInt ≤ lmax false n := by
    intro x
    have h1 := mask_toNat (n := n) (by omega) x
    have h2 := (x.setWidth n).isLt
    have h3 : 2 ^ n ≤ 65536 := by rcases wd16_cases hn with rfl | rfl | rfl | rfl <;> decide
    have h4 : ((2 ^ n : Nat) : Int) = 2 ^ n := by simp
    rw [BitVec.toInt_eq_toNat_cond, if_pos (by omega), h1]
    simp only [lmin, lmax, Bool.false_eq_true, if_false]
    omega
  unfold mulBody at h
  cases e : cMulI st (extractVal n sg a) (extractVal n sg b) with
  | ok w =>
    rw [e, Res.bind_ok, Res.ok.injEq] at h
    subst h
    split
    · exact key _
    · exact key _
  | ub u => rw [e] at h; cases h
  | abort => rw [e] at h; cases h

theorem small_toInt {v : W} {k : Nat} (h : v.toNat = k) (hk : k < 2147483648) : v.toInt = (k : Int) := by
  rw [BitVec.toInt_eq_toNat_cond, h, if_pos (by omega)]
theorem sends_narrowSrc {n : Nat} (hn : wdN n) (sg : Bool) (x : W) : Sends (opening ++ narrowSrc n sg x) (nums sg n x) := by
  have c := wdN_cases hn
  refine sends_opening.app ?_
  unfold narrowSrc
  cases sg
  · simp only [Bool.false_eq_true, if_false]
    refine sends_range (fun _ _ => sends_appU _) fun i _ => ?_
    rw [Nat.mul_comm, extractVal_lane (wdN_32 hn)]
    show ((((lane n i x).setWidth 32 : W)).toNat : Int) = _
    rw [BitVec.toNat_setWidth, Nat.mod_eq_of_lt]
    · rfl
    · exact Nat.lt_of_lt_of_le (lane n i x).isLt (Nat.pow_le_pow_right (by decide) (by omega))
  · simp only [if_true]
    refine sends_range (fun _ _ => sends_app _) fun i _ => ?_
    rw [Nat.mul_comm, extractVal_lane (wdN_32 hn)]
    by_cases h32 : n = 32
    · subst h32; simp [extend, lv]
    · exact extend_toInt (by omega) (by omega) true _
theorem sends_out {n : Nat} (hn : wdN n) (vsat sg : Bool) (a b : W) :
    Sends (opening ++ (outVals n vsat sg (count n) a ++ outVals n vsat sg (count n) b).flatMap app)
      (nums (sg && vsat) (n / 2) (narrow n vsat sg a b)) := by
  have c := wdN_cases hn
  obtain ⟨w1, w2⟩ := wdN_half hn
  have hk : n < 32 ∨ count n ≤ 1 := by rcases c with rfl | rfl | rfl | rfl <;> decide
  have h64 : 64 / n = 32 / n + 32 / n := by rcases c with rfl | rfl | rfl | rfl <;> rfl
  have e : nums (sg && vsat) (n / 2) (narrow n vsat sg a b) =
      (outVals n vsat sg (count n) a ++ outVals n vsat sg (count n) b).map BitVec.toInt := by
    rw [outVals_eq _ _ hk, outVals_eq _ _ hk, List.map_append, List.map_map, List.map_map]
    unfold nums
    rw [w2, h64, List.range_add, List.map_append, List.map_map]
    congr 1
    · refine map_range_congr fun i hi => ?_
      rw [narrow_raw hn vsat sg a b (by rw [h64]; exact Nat.lt_add_right _ hi), if_pos hi]
      exact (outVal_toInt w1 vsat sg _).symm
    · refine map_range_congr fun i hi => ?_
      show lv _ (lane (n / 2) (32 / n + i) _) = _
      have hi' : i < 32 / n := hi
      rw [narrow_raw hn vsat sg a b (by omega), if_neg (by omega), show 32 / n + i - 32 / n = i by omega]
      exact (outVal_toInt w1 vsat sg _).symm
  rw [e]
  exact sends_opening.app (Sends.map _ fun v _ => sends_app v)
theorem lane_zero {n : Nat} (a : W) : lane n 0 a = a.setWidth n := by
  apply BitVec.eq_of_getLsbD_eq
  intro t ht
  rw [lane_bit]
  simp [ht]
theorem low_toInt {n : Nat} (hn : wd16 n) (a : W) : (extractVal n true a).toInt = (a.setWidth n).toInt := by
  have := elem_toInt hn true a 0
  rw [Nat.mul_zero, BitVec.ushiftRight_zero, lane_zero] at this
  exact this
theorem idx_toInt {n : Nat} (hn : wd16 n) (k : Nat) : (BitVec.ofNat 32 (k % count n)).toInt = ((k % (32 / n) : Nat) : Int) := by
  have h1 : count n = 32 / n := rfl
  have h2 : k % (32 / n) < 32 / n := Nat.mod_lt _ (by rcases wd16_cases hn with rfl | rfl | rfl | rfl <;> decide)
  have h3 : 32 / n ≤ 32 := Nat.div_le_self _ _
  rw [h1]
  refine small_toInt ?_ (by omega)
  rw [BitVec.toNat_ofNat, Nat.mod_eq_of_lt]
  omega
theorem sh_toInt {n : Nat} (hn : wd16 n) (imm : BitVec 5) :
    ((imm.setWidth 32 : W) &&& BitVec.ofNat 32 (n - 1)).toInt = ((imm.toNat % n : Nat) : Int) := by
  refine small_toInt (shamt_mod hn imm) ?_
  have := imm.isLt
  have := Nat.mod_le imm.toNat n
  omega

/-- what the streams get, for one destination -/
theorem out_told1 {st : Bool} {x : X1} {m : W} (hm : x.match? = some m) (hh : X1.hostOk st x) (a b c : W) (imm : BitVec 5) :
    ∃ v y, x.holds a b c imm v ∧ out st (opOf1 x) a b c imm = .ok y ∧ Told1 x a b c imm v y := by
  have hwd := (table1 hm).2.2
  have nos : ∀ {x : X1} {xs : List Int}, (∀ n, x ≠ .slli n) → (∀ n, x ≠ .srli n) → ∀ n, x = .slli n ∨ x = .srli n → xs = nums false n a :=
    fun h1 h2 n h => h.elim (fun e => absurd e (h1 n)) (fun e => absurd e (h2 n))
  cases x with
  | add n =>
    obtain ⟨v, h1, h2⟩ := addsub_wrap hwd st false a b
    obtain ⟨ch, zs, k1, k2, k3, k4, k5, k6⟩ := cab_numbers (sg := true) hwd h1
    refine ⟨v, (ch, .cab), fun i hi => by have := h2 i hi; simpa using this, ?_, zs, _, _, zs, nums true n a, k2, k3, k4, rfl, k5, shows_nums _ _ _, nofun, nos nofun nofun⟩
    simp only [opOf1, out, k1, Res.bind_ok]
  | sub n =>
    obtain ⟨v, h1, h2⟩ := addsub_wrap hwd st true a b
    obtain ⟨ch, zs, k1, k2, k3, k4, k5, k6⟩ := cab_numbers (sg := true) hwd h1
    refine ⟨v, (ch, .cab), fun i hi => by have := h2 i hi; simpa using this, ?_, zs, _, _, zs, nums true n a, k2, k3, k4, rfl, k5, shows_nums _ _ _, nofun, nos nofun nofun⟩
    simp only [opOf1, out, k1, Res.bind_ok]
  | qadd n sg =>
    obtain ⟨v, h1, h2⟩ := addsub_sat hwd st sg false a b
    obtain ⟨ch, zs, k1, k2, k3, k4, k5, k6⟩ := cab_numbers (sg := sg) hwd h1
    refine ⟨v, (ch, .cab), fun i hi => by have := h2 i hi; simpa using this, ?_, zs, _, _, zs, nums true n a, k2, k3, k4, rfl, k5, shows_nums _ _ _, ?_, nos nofun nofun⟩
    · simp only [opOf1, out, k1, Res.bind_ok]
    · intro sg' e
      obtain rfl : sg = sg' := by simpa [X1.exact] using e
      exact k6 _ fun j _ r hr => body_sat hwd hr
  | qsub n sg =>
    obtain ⟨v, h1, h2⟩ := addsub_sat hwd st sg true a b
    obtain ⟨ch, zs, k1, k2, k3, k4, k5, k6⟩ := cab_numbers (sg := sg) hwd h1
    refine ⟨v, (ch, .cab), fun i hi => by have := h2 i hi; simpa using this, ?_, zs, _, _, zs, nums true n a, k2, k3, k4, rfl, k5, shows_nums _ _ _, ?_, nos nofun nofun⟩
    · simp only [opOf1, out, k1, Res.bind_ok]
    · intro sg' e
      obtain rfl : sg = sg' := by simpa [X1.exact] using e
      exact k6 _ fun j _ r hr => body_sat hwd hr
  | mul n =>
    obtain ⟨v, h1, h2⟩ := mul_lanes hwd (st := st) (sg := true) (fun _ _ => rfl) a b
    obtain ⟨ch, zs, k1, k2, k3, k4, k5, k6⟩ := cab_numbers (sg := true) hwd h1
    refine ⟨v, (ch, .cab), h2, ?_, zs, _, _, zs, nums true n a, k2, k3, k4, rfl, k5, shows_nums _ _ _, ?_, nos nofun nofun⟩
    · simp only [opOf1, out, k1, Res.bind_ok]
    · intro sg e
      obtain rfl : sg = false := by simpa [X1.exact] using e.symm
      exact k6 _ fun j _ r hr => body_mul hwd hr
  | mulh n sg =>
    obtain ⟨v, h1, h2⟩ := mulh_lanes hwd (st := st) (sg := sg) hh a b
    obtain ⟨ch, zs, k1, k2, k3, k4, k5, k6⟩ := cab_numbers (sg := sg) hwd h1
    refine ⟨v, (ch, .cab), h2, ?_, zs, _, _, zs, nums true n a, k2, k3, k4, rfl, k5, shows_nums _ _ _, ?_, nos nofun nofun⟩
    · simp only [opOf1, out, k1, Res.bind_ok]
    · intro sg' e
      obtain rfl : sg' = false := by simpa [X1.exact] using e.symm
      exact k6 _ fun j _ r hr => body_mul hwd hr
  | dot n sg =>
    have h1 := dot_lanes (st := st) (sg := sg) hwd hh a b c
    refine ⟨_, (abLoop n sg (count n) a b ⟨[], opening, opening⟩, .dot _ c), rfl, by simp only [opOf1, out, h1, Res.bind_ok], [], nums sg n a, nums sg n b, nums true n _, nums true n a, ?_, ?_, ?_,
      rfl, shows_nums _ _ _, shows_nums _ _ _, nofun, nos nofun nofun⟩
    · rw [abLoop_eq]; exact Sends.nil
    · rw [abLoop_eq]; exact sends_srcs hwd sg a
    · rw [abLoop_eq]; exact sends_srcs hwd sg b
  | min n sg =>
    obtain ⟨v, h1, h2⟩ := minmax_lanes hwd sg false a b
    obtain ⟨ch, zs, k1, k2, k3, k4, k5, k6⟩ := cab_numbers (sg := sg) hwd h1
    refine ⟨v, (ch, .cab), fun i hi => by have := h2 i hi; simpa using this, ?_, zs, _, _, zs, nums true n a, k2, k3, k4, rfl, k5, shows_nums _ _ _, ?_, nos nofun nofun⟩
    · simp only [opOf1, out, k1, Res.bind_ok]
    · intro sg' e
      obtain rfl : sg = sg' := by simpa [X1.exact] using e
      exact k6 _ fun j _ r hr => body_minmax hwd hr
  | max n sg =>
    obtain ⟨v, h1, h2⟩ := minmax_lanes hwd sg true a b
    obtain ⟨ch, zs, k1, k2, k3, k4, k5, k6⟩ := cab_numbers (sg := sg) hwd h1
    refine ⟨v, (ch, .cab), fun i hi => by have := h2 i hi; simpa using this, ?_, zs, _, _, zs, nums true n a, k2, k3, k4, rfl, k5, shows_nums _ _ _, ?_, nos nofun nofun⟩
    · simp only [opOf1, out, k1, Res.bind_ok]
    · intro sg' e
      obtain rfl : sg = sg' := by simpa [X1.exact] using e
      exact k6 _ fun j _ r hr => body_minmax hwd hr
  | slli n =>
    obtain ⟨v, h1, h2⟩ := slli_lanes hwd st a imm
    obtain ⟨ch, xs, k1, k2, k3, k4, k5, k6⟩ := shift_numbers (ar := false) hwd (fun _ _ => rfl) h1
    refine ⟨v, (ch, .cas (imm.setWidth 32 &&& BitVec.ofNat 32 (n - 1))), h2, ?_, nums false n v, xs, [], nums false n v, xs, k2, k3, k4, ?_, shows_nums _ _ _, k5, fun sg e => ?_, ?_⟩
    rotate_left
    · simp only [tableOf, X1.table, sh_toInt hwd imm]
    · obtain rfl : sg = false := by simpa [X1.exact] using e.symm
      rfl
    · rintro _ (h | h)
      · cases h; exact k6 rfl
      · cases h
    · simp only [opOf1, out, k1, Res.bind_ok]
  | srli n =>
    obtain ⟨v, h1, h2⟩ := shr_lanes hwd st false a imm
    obtain ⟨ch, xs, k1, k2, k3, k4, k5, k6⟩ := shift_numbers (ar := false) hwd (fun _ _ => rfl) h1
    refine ⟨v, (ch, .cas (imm.setWidth 32 &&& BitVec.ofNat 32 (n - 1))), fun i hi => by have := h2 i hi; simpa using this, ?_, nums false n v, xs, [], nums false n v, xs, k2, k3, k4, ?_, shows_nums _ _ _, k5, fun sg e => ?_, ?_⟩
    rotate_left
    · simp only [tableOf, X1.table, sh_toInt hwd imm]
    · obtain rfl : sg = false := by simpa [X1.exact] using e.symm
      rfl
    · rintro _ (h | h)
      · cases h
      · cases h; exact k6 rfl
    · simp only [opOf1, out, k1, Res.bind_ok]
  | srai n =>
    obtain ⟨v, h1, h2⟩ := shr_lanes hwd st true a imm
    obtain ⟨ch, xs, k1, k2, k3, k4, k5, k6⟩ := shift_numbers (ar := true) hwd (fun _ _ => rfl) h1
    refine ⟨v, (ch, .cas (imm.setWidth 32 &&& BitVec.ofNat 32 (n - 1))), fun i hi => by have := h2 i hi; simpa using this, ?_, nums false n v, xs, [], nums false n v, xs, k2, k3, k4, ?_, shows_nums _ _ _, k5, fun sg e => ?_, nos nofun nofun⟩
    rotate_left
    · simp only [tableOf, X1.table, sh_toInt hwd imm]
    · obtain rfl : sg = false := by simpa [X1.exact] using e.symm
      rfl
    · simp only [opOf1, out, k1, Res.bind_ok]
  | narrow n =>
    refine ⟨_, _, fun i hi => narrow_lanes hwd false a b hi, rfl, _, _, _, _, nums true n a, sends_out hwd false false a b,
      sends_narrowSrc hwd false a, sends_narrowSrc hwd false b, rfl, shows_nums _ _ _, shows_nums _ _ _, fun sg e => ?_, nos nofun nofun⟩
    obtain rfl : sg = false := by simpa [X1.exact] using e.symm
    rfl
  | qnarrow n sg =>
    refine ⟨_, _, fun i hi => qnarrow_lanes hwd sg a b hi, rfl, _, _, _, _, nums true n a, sends_out hwd true sg a b,
      sends_narrowSrc hwd sg a, sends_narrowSrc hwd sg b, rfl, shows_nums _ _ _, shows_nums _ _ _, fun sg' e => ?_, nos nofun nofun⟩
    obtain rfl : sg = sg' := by simpa [X1.exact] using e
    rw [Bool.and_true]
    rfl
  | dup n =>
    have hz : ∀ i, i < count n → (extractVal n true a).toInt = lv true (lane n i (dup n a)) := fun i hi => by
      rw [dup_lanes hwd a hi, low_toInt hwd]; rfl
    refine ⟨_, _, fun i hi => dup_lanes hwd a hi, rfl, nums true n (dup n a), [], [], nums true n (dup n a), nums true n a,
      sends_opening.app (sends_range (fun _ _ => sends_app _) hz), Sends.nil, Sends.nil, ?_, shows_nums _ _ _, shows_nums _ _ _, fun sg e => ?_, nos nofun nofun⟩
    · simp only [tableOf, X1.table, low_toInt hwd]
    · obtain rfl : sg = true := by simpa [X1.exact] using e.symm
      rfl
  | vins n =>
    have hv : ∀ i, i < 32 / n → lane n i (vins n c a (imm.toNat % count n)) = if i = imm.toNat % (32 / n) then a.setWidth n else lane n i c := fun i hi => by
      have := vins_lanes hwd c a (imm.toNat % Simd.count n) hi
      rw [show Simd.count n = 32 / n from rfl, Nat.mod_mod] at this
      exact this
    refine ⟨_, _, hv, rfl, nums true n (vins n c a (imm.toNat % count n)), [], [], _, nums true n a,
      sends_opening.app (sends_range (fun _ _ => sends_app _) fun i _ => ?_), Sends.nil, Sends.nil, ?_, shows_nums true _ _, shows_nums _ _ _, fun sg e => ?_, nos nofun nofun⟩
    · rw [Nat.mul_comm, elem_toInt hwd]
    · simp only [tableOf, X1.table, low_toInt hwd, idx_toInt hwd]
      rfl
    · obtain rfl : sg = true := by simpa [X1.exact] using e.symm
      rfl
  | vext n sg =>
    have hle := wd16_le hwd
    have hv : vext n sg a (imm.toNat % count n) = extend sg 32 (lane n (imm.toNat % (32 / n)) a) := by
      have := vext_value hwd sg a (imm.toNat % Simd.count n)
      rw [show Simd.count n = 32 / n from rfl, Nat.mod_mod] at this
      exact this
    refine ⟨_, _, hv, rfl, [], nums true n a, [], nums true n _, nums true n a, Sends.nil,
      sends_opening.app (sends_range (fun _ _ => sends_app _) fun i _ => ?_), Sends.nil, ?_, shows_nums true _ _, shows_nums _ _ _, nofun, nos nofun nofun⟩
    · rw [Nat.mul_comm, elem_toInt hwd]
    · simp only [tableOf, X1.table, idx_toInt hwd]
      rw [hv, extend_toInt (wd16_pos hwd) (by omega)]
      cases sg
      · simp only [Bool.false_eq_true, if_false]
        have : (extend false 32 (lane n (imm.toNat % (32 / n)) a)).toNat = (lane n (imm.toNat % (32 / n)) a).toNat := by
          simp only [extend, Bool.false_eq_true, if_false, BitVec.toNat_setWidth]
          exact Nat.mod_eq_of_lt (Nat.lt_of_lt_of_le (BitVec.isLt _) (Nat.pow_le_pow_right (by decide) (by omega)))
        rw [this]
        rfl
      · simp only [if_true]

/-- what an instruction with a register pair as destination wrote -/
def Told2 (y : X2) (a b : W) (imm : BitVec 5) (v : W × W) (z : Chains × Fin) : Prop :=
  ∃ zc za zb zs, Sends z.1.c zc ∧ Sends z.1.a za ∧ Sends z.1.b zb ∧
    tableOf z.2 zc za zb = X2.table y zs a b imm ∧ PairShows (X2.resW y) zs v ∧
    (∀ sg, X2.exact y = some sg → zs = pairNums sg (X2.resW y) v)

theorem pairShows_32 {rs : List W} {v : W × W} (h : PairShows 32 (rs.map BitVec.toInt) v) :
    rs.map BitVec.toInt = pairNums true 32 v := by
  unfold PairShows at h
  rw [List.map_map] at h
  have : rs.map (BitVec.ofInt 32 ∘ BitVec.toInt) = rs := by
    conv_rhs => rw [← List.map_id rs]
    refine List.map_congr_left fun x _ => ?_
    simp
  rw [this] at h
  rw [h, List.map_map]
  rfl
theorem sh2_toInt {n : Nat} (hn : wd16 n) (imm : BitVec 5) :
    ((imm.setWidth 32 : W) &&& BitVec.ofNat 32 (n * 2 - 1)).toNat = imm.toNat % (2 * n) := by
  rcases wd16_cases hn with rfl | rfl | rfl | rfl <;> revert imm <;> decide
theorem range_two {α : Type} (e : Nat → α) : ∀ h : Nat, (List.range h).flatMap (fun j => [e (2 * j), e (2 * j + 1)]) = (List.range (2 * h)).map e
  | 0 => rfl
  | h + 1 => by
    rw [List.range_succ, List.flatMap_append, range_two e h, show 2 * (h + 1) = 2 * h + 1 + 1 by omega, List.range_succ, List.range_succ]
    simp
theorem mask_lane {n : Nat} (hn : wd16 n) (x : W) (k : Nat) : ((x >>> (k * n)) &&& mask n).toInt = lv false (lane n k x) := by
  have hle := wd16_le hn
  have h0 : (x >>> (k * n)).setWidth n = lane n k x := by
    apply BitVec.eq_of_getLsbD_eq
    intro t ht
    rw [lane_bit, Nat.mul_comm]
    simp [ht]
  have h1 := mask_toNat (n := n) (by omega) (x >>> (k * n))
  rw [h0] at h1
  have h2 := (lane n k x).isLt
  have h3 : 2 ^ n ≤ 65536 := by rcases wd16_cases hn with rfl | rfl | rfl | rfl <;> decide
  rw [small_toInt h1 (by omega)]
  rfl
theorem sends_two {k : Nat} {f g : Nat → W} {e : Nat → Int} (h1 : ∀ j, j < k → (f j).toInt = e (2 * j)) (h2 : ∀ j, j < k → (g j).toInt = e (2 * j + 1)) :
    Sends ((List.range k).flatMap fun j => app (f j) ++ app (g j)) ((List.range (2 * k)).map e) := by
  rw [← range_two]
  refine Sends.flat _ fun j hj => ?_
  have hj := List.mem_range.1 hj
  rw [← h1 j hj, ← h2 j hj]
  exact (sends_app _).app (sends_app _)

/-- what the streams get, for a register pair -/
theorem out_told2 {st : Bool} {y : X2} {m : W} (hm : y.match? = some m) (hh : X2.hostOk st y) (a b c : W) (imm : BitVec 5) :
    ∃ v z, y.holds a b imm v ∧ out st (opOf2 y) a b c imm = .ok z ∧ Told2 y a b imm v z := by
  have hwd := (table2 hm).2.2
  cases y with
  | wmul n sg =>
    have hle := wd16_le hwd
    have hpos := wd16_pos hwd
    have h64 : 64 / (2 * n) = 32 / n := by rw [← Nat.div_div_eq_div_mul]
    obtain ⟨v, h1, h2⟩ := wmul_lanes hwd (st := st) (sg := sg) hh a b
    obtain ⟨rs, k1, k2, k3⟩ := wmulLoop_ok hwd hh (count n) a b
    obtain rfl : packWide (n * 2) rs = v := by
      unfold wmul at h1
      rw [k1, Res.bind_ok] at h1
      exact Res.ok.inj h1
    have hs := wide_shows hwd k2
    refine ⟨_, (⟨(abLoop n sg (count n) a b ⟨opening, opening, opening⟩).c ++ wide (count n / 2) 0 rs, (abLoop n sg (count n) a b ⟨opening, opening, opening⟩).a,
      (abLoop n sg (count n) a b ⟨opening, opening, opening⟩).b⟩, .cab), h2, ?_, rs.map BitVec.toInt, nums sg n a, nums sg n b, rs.map BitVec.toInt, ?_, ?_, ?_, rfl, hs, fun sg' e => ?_⟩
    · simp only [opOf2, out, k1, Res.bind_ok]
    · rw [abLoop_eq]; exact sends_opening.app (sends_wide _ _ _)
    · rw [abLoop_eq]; exact sends_srcs hwd sg a
    · rw [abLoop_eq]; exact sends_srcs hwd sg b
    · obtain rfl : (sg || n == 16) = sg' := by simpa [X2.exact] using e
      by_cases h16 : n = 16
      · subst h16
        rw [beq_self_eq_true, Bool.or_true]
        exact pairShows_32 hs
      · rw [beq_eq_false_iff_ne.2 h16, Bool.or_false]
        have hl : rs.length = 32 / n := k2
        conv_lhs => rw [list_range hl 0#32]
        rw [List.map_map]
        show _ = (List.range (64 / (2 * n))).map _
        rw [h64]
        refine map_range_congr fun i hi => ?_
        have hf := lv_mul_fits hwd sg (fun h => absurd h h16) (lane n i a) (lane n i b)
        refine Eq.trans ?_ (h2 i hi).symm
        rw [Function.comp_apply, k3 i hi, toInt_ofInt32 hf.1 hf.2]
  | widen n sg =>
    have hle := wd16_le hwd
    have hpos := wd16_pos hwd
    obtain ⟨v, h1, h2⟩ := widen_lanes hwd (st := st) (sg := sg) hh a imm
    obtain ⟨rs, k1, k2, k3⟩ := widenLoop_ok hwd hh (sh2_toInt hwd imm) (Nat.mod_lt _ (by omega)) (count n) a
    obtain rfl : packWide (n * 2) rs = v := by
      unfold widen at h1
      rw [k1, Res.bind_ok] at h1
      exact Res.ok.inj h1
    have hs := wide_shows hwd k2
    refine ⟨_, (⟨opening ++ wide (count n / 2) 0 rs, aLoop n sg (count n) a opening, []⟩, .cas (imm.setWidth 32 &&& BitVec.ofNat 32 (n * 2 - 1))), h2, ?_,
      rs.map BitVec.toInt, nums sg n a, [], rs.map BitVec.toInt, sends_opening.app (sends_wide _ _ _), ?_, Sends.nil, ?_, hs, fun sg' e => ?_⟩
    · simp only [opOf2, out, k1, Res.bind_ok]
    · rw [aLoop_eq]; exact sends_srcs hwd sg a
    · have := Nat.mod_le imm.toNat (2 * n)
      have := imm.isLt
      simp only [tableOf, X2.table, small_toInt (sh2_toInt hwd imm) (by omega)]
    · by_cases h16 : n = 16
      · subst h16
        obtain rfl : true = sg' := by simpa [X2.exact] using e
        exact pairShows_32 hs
      · simp [X2.exact, h16] at e
  | txp n =>
    have hev : 2 * (count n / 2) = 32 / n := by rcases wd16_cases hwd with rfl | rfl | rfl | rfl <;> rfl
    have h64 : 64 / n = 32 / n + 32 / n := by rcases wd16_cases hwd with rfl | rfl | rfl | rfl <;> rfl
    have src : ∀ x : W, Sends (opening ++ txpSrc n x) (nums false n x) := fun x => by
      refine sends_opening.app ?_
      show Sends _ ((List.range (32 / n)).map _)
      rw [← hev]
      exact sends_two (fun j _ => mask_lane hwd x _) (fun j _ => mask_lane hwd x _)
    have key : ∀ j, j < count n / 2 →
        lane n (2 * j) (txp n a b).1 = lane n (2 * j) a ∧ lane n (2 * j + 1) (txp n a b).1 = lane n (2 * j) b ∧
        lane n (2 * j) (txp n a b).2 = lane n (2 * j + 1) a ∧ lane n (2 * j + 1) (txp n a b).2 = lane n (2 * j + 1) b := fun j hj => by
      obtain ⟨p1, p2⟩ := txp_lanes hwd a b (i := 2 * j) (by omega)
      obtain ⟨p3, p4⟩ := txp_lanes hwd a b (i := 2 * j + 1) (by omega)
      rw [if_pos (by omega)] at p1 p2
      rw [if_neg (by omega)] at p3 p4
      exact ⟨p1, p3, p2, p4⟩
    have e : pairNums false n (txp n a b) = (List.range (2 * (count n / 2))).map (fun i => lv false (lane n i (txp n a b).1)) ++
        (List.range (2 * (count n / 2))).map (fun i => lv false (lane n i (txp n a b).2)) := by
      unfold pairNums
      rw [h64, hev, List.range_add, List.map_append, List.map_map]
      congr 1
      · refine map_range_congr fun i hi => ?_
        rw [pairLane, if_pos hi]
      · refine map_range_congr fun i hi => ?_
        rw [Function.comp_apply, pairLane, if_neg (by omega), show 32 / n + i - 32 / n = i by omega]
    have snd : Sends (opening ++ txpRes n 0 a b ++ [lit "], [ "] ++ txpRes n 1 a b) (pairNums false n (txp n a b)) := by
      rw [e]
      have r0 : Sends (txpRes n 0 a b) ((List.range (2 * (count n / 2))).map (fun i => lv false (lane n i (txp n a b).1))) :=
        sends_two (fun j hj => by rw [(key j hj).1, mask_lane hwd]; rfl) (fun j hj => by rw [(key j hj).2.1, mask_lane hwd]; rfl)
      have r1 : Sends (txpRes n 1 a b) ((List.range (2 * (count n / 2))).map (fun i => lv false (lane n i (txp n a b).2))) :=
        sends_two (fun j hj => by rw [(key j hj).2.2.1, mask_lane hwd]) (fun j hj => by rw [(key j hj).2.2.2, mask_lane hwd])
      have := ((sends_opening.app r0).app (sends_seps (s := "], [ ") (by unfold Sep; decide))).app r1
      rw [List.nil_append, List.append_nil] at this
      exact this
    refine ⟨_, _, fun i hi => txp_lanes hwd a b hi, rfl, _, _, _, _, snd, src a, src b, rfl, pairShows_nums false _ _, fun sg e => ?_⟩
    obtain rfl : false = sg := by simpa [X2.exact] using e
    rfl

end Ama.SimdText
