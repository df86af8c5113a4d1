import Verif.Lemmas.SimdLanes
import Verif.Props.SimdStep
import Verif.Spec.SimdHost
/-!
# C36, C37, C38 with overflow undefined: exactly when the host arithmetic is defined, and that it is then right
-/
namespace Ama
open Simd Spec SimdText
variable {σ : Type} {E : Env σ} {s : St σ}

/-! ## Loops -/

theorem laneLoop_congr {n : Nat} {f g : W → W → Res W} : ∀ (k i : Nat) (a b acc : W),
    (∀ j, j < k → f (a >>> (n * j)) (b >>> (n * j)) = g (a >>> (n * j)) (b >>> (n * j))) →
    laneLoop n f k i a b acc = laneLoop n g k i a b acc
  | 0, _, _, _, _, _ => rfl
  | k + 1, i, a, b, acc, h => by
    have h0 := h 0 (by omega)
    rw [Nat.mul_zero, BitVec.ushiftRight_zero, BitVec.ushiftRight_zero] at h0
    rw [laneLoop, laneLoop, h0]
    cases g a b with
    | ok v =>
      rw [Res.bind_ok, Res.bind_ok]
      exact laneLoop_congr k _ _ _ _ fun j hj => by rw [shr_succ, shr_succ]; exact h (j + 1) (by omega)
    | ub u => rfl
    | abort => rfl
theorem laneLoop_ub {n : Nat} {f : W → W → Res W} {u : UB} : ∀ (k i : Nat) (a b acc : W),
    (∀ j, j < k → (∃ v, f (a >>> (n * j)) (b >>> (n * j)) = .ok v) ∨ f (a >>> (n * j)) (b >>> (n * j)) = .ub u) →
    (∃ j, j < k ∧ f (a >>> (n * j)) (b >>> (n * j)) = .ub u) → laneLoop n f k i a b acc = .ub u
  | 0, _, _, _, _, _, ⟨j, hj, _⟩ => absurd hj (by omega)
  | k + 1, i, a, b, acc, h, ⟨j, hj, e⟩ => by
    have h0 := h 0 (by omega)
    rw [Nat.mul_zero, BitVec.ushiftRight_zero, BitVec.ushiftRight_zero] at h0
    rw [laneLoop]
    rcases h0 with ⟨v, h0⟩ | h0
    · rw [h0, Res.bind_ok]
      refine laneLoop_ub k _ _ _ _ (fun j hj => by rw [shr_succ, shr_succ]; exact h (j + 1) (by omega)) ?_
      cases j with
      | zero =>
        rw [Nat.mul_zero, BitVec.ushiftRight_zero, BitVec.ushiftRight_zero, h0] at e
        cases e
      | succ j => exact ⟨j, by omega, by rw [shr_succ, shr_succ]; exact e⟩
    · rw [h0]; rfl

theorem fits_iff (z : Int) : fitsI32 z = true ↔ Fits z := by simp [fitsI32, Fits]
/-- one product -/
theorem mul_at {n : Nat} (hn : wd16 n) (sg : Bool) (a b : W) (j : Nat) :
    (Fits (lv sg (lane n j a) * lv sg (lane n j b)) →
      cMulI true (extractVal n sg (a >>> (n * j))) (extractVal n sg (b >>> (n * j))) =
        .ok (BitVec.ofInt 32 (lv sg (lane n j a) * lv sg (lane n j b)))) ∧
    (¬ Fits (lv sg (lane n j a) * lv sg (lane n j b)) →
      cMulI true (extractVal n sg (a >>> (n * j))) (extractVal n sg (b >>> (n * j))) = .ub .signedOverflow) := by
  rw [elem_eq hn, elem_eq hn]
  have ha := lv_i32 hn sg (lane n j a)
  have hb := lv_i32 hn sg (lane n j b)
  refine ⟨fun h => cMulI_ok ha hb fun _ => h, fun h => ?_⟩
  unfold cMulI
  rw [toInt_ofInt32 ha.1 ha.2, toInt_ofInt32 hb.1 hb.2]
  cases e : fitsI32 (lv sg (lane n j a) * lv sg (lane n j b)) with
  | true => exact absurd ((fits_iff _).1 e) h
  | false => rfl

/-! ## C36 -/

/-- **C36**: with overflow undefined, MUL and MULH are undefined exactly if a product overflows an `int`; otherwise they give
what they give with wrapping arithmetic -/
theorem mul_strict {n : Nat} (hn : wd16 n) (sg up : Bool) (a b : W) :
    ((∀ i < 32 / n, Fits (lv sg (lane n i a) * lv sg (lane n i b))) → mul true n sg up a b = mul false n sg up a b) ∧
    (¬ (∀ i < 32 / n, Fits (lv sg (lane n i a) * lv sg (lane n i b))) → mul true n sg up a b = .ub .signedOverflow) := by
  constructor
  · intro h
    refine laneLoop_congr _ _ _ _ _ fun j hj => ?_
    unfold mulBody
    rw [(mul_at hn sg a b j).1 (h j hj), mul_elem hn (st := false) (sg := sg) (fun h => by cases h)]
  · intro h
    have hx : ∃ i, i < 32 / n ∧ ¬ Fits (lv sg (lane n i a) * lv sg (lane n i b)) := by
      by_contra hc
      exact h fun i hi => by
        by_contra hf
        exact hc ⟨i, hi, hf⟩
    obtain ⟨i, hi, hf⟩ := hx
    refine laneLoop_ub _ _ _ _ _ (fun j _ => ?_) ⟨i, hi, ?_⟩
    · by_cases hj : Fits (lv sg (lane n j a) * lv sg (lane n j b))
      · refine .inl ?_
        unfold mulBody
        rw [(mul_at hn sg a b j).1 hj, Res.bind_ok]
        exact ⟨_, rfl⟩
      · refine .inr ?_
        unfold mulBody
        rw [(mul_at hn sg a b j).2 hj]
        rfl
    · unfold mulBody
      rw [(mul_at hn sg a b i).2 hf]
      rfl

theorem wmulLoop_strict {n : Nat} (hn : wd16 n) (sg : Bool) : ∀ (k : Nat) (a b : W),
    ((∀ i < k, Fits (lv sg (lane n i a) * lv sg (lane n i b))) → wmulLoop true n sg k a b = wmulLoop false n sg k a b) ∧
    (¬ (∀ i < k, Fits (lv sg (lane n i a) * lv sg (lane n i b))) → wmulLoop true n sg k a b = .ub .signedOverflow)
  | 0, a, b => ⟨fun _ => rfl, fun h => absurd (fun i hi => absurd hi (by omega)) h⟩
  | k + 1, a, b => by
    have h0 := mul_at hn sg a b 0
    have g0 := mul_elem hn (st := false) (sg := sg) (fun h => by cases h) a b 0
    simp only [Nat.mul_zero, BitVec.ushiftRight_zero] at h0 g0
    obtain ⟨i1, i2⟩ := wmulLoop_strict hn sg k (a >>> n) (b >>> n)
    have sh : ∀ (x : W) (j : Nat), lane n j (x >>> n) = lane n (j + 1) x := fun x j => by
      apply BitVec.eq_of_getLsbD_eq
      intro t ht
      rw [lane_bit, lane_bit, BitVec.getLsbD_ushiftRight]
      congr 2
      rw [Nat.mul_add]; omega
    simp only [sh] at i1 i2
    rw [wmulLoop, wmulLoop]
    by_cases hf : Fits (lv sg (lane n 0 a) * lv sg (lane n 0 b))
    · rw [h0.1 hf, g0, Res.bind_ok, Res.bind_ok]
      refine ⟨fun h => by rw [i1 fun i hi => h (i + 1) (by omega)], fun h => ?_⟩
      rw [i2 fun hc => h fun i hi => ?_]
      · rfl
      · cases i with
        | zero => exact hf
        | succ i => exact hc i (by omega)
    · exact ⟨fun h => absurd (h 0 (by omega)) hf, fun _ => by rw [h0.2 hf]; rfl⟩
/-- **C36**: WMUL likewise -/
theorem wmul_strict {n : Nat} (hn : wd16 n) (sg : Bool) (a b : W) :
    ((∀ i < 32 / n, Fits (lv sg (lane n i a) * lv sg (lane n i b))) → wmul true n sg a b = wmul false n sg a b) ∧
    (¬ (∀ i < 32 / n, Fits (lv sg (lane n i a) * lv sg (lane n i b))) → wmul true n sg a b = .ub .signedOverflow) := by
  obtain ⟨h1, h2⟩ := wmulLoop_strict hn sg (count n) a b
  unfold wmul
  exact ⟨fun h => by rw [h1 h], fun h => by rw [h2 h]; rfl⟩

/-! ## C37 -/

theorem prefixSum_succ (sg : Bool) (n k : Nat) (a b : W) :
    prefixSum sg n (k + 1) a b = lv sg (lane n 0 a) * lv sg (lane n 0 b) + prefixSum sg n k (a >>> n) (b >>> n) := by
  have sh : ∀ (x : W) (j : Nat), lane n j (x >>> n) = lane n (j + 1) x := fun x j => by
    apply BitVec.eq_of_getLsbD_eq
    intro t ht
    rw [lane_bit, lane_bit, BitVec.getLsbD_ushiftRight]
    congr 2
    rw [Nat.mul_add]; omega
  unfold prefixSum
  rw [List.range_succ_eq_map, List.map_cons, List.map_map, List.sum_cons]
  simp only [sh]
  rfl
theorem dotLoop_strict {n : Nat} (hn : wd16 n) (sg : Bool) : ∀ (k : Nat) (a b : W) (c : Int), Fits c →
    ((∀ i < k, Fits (lv sg (lane n i a) * lv sg (lane n i b)) ∧ Fits (c + prefixSum sg n (i + 1) a b)) →
      dotLoop true n sg k a b (BitVec.ofInt 32 c) = dotLoop false n sg k a b (BitVec.ofInt 32 c)) ∧
    (¬ (∀ i < k, Fits (lv sg (lane n i a) * lv sg (lane n i b)) ∧ Fits (c + prefixSum sg n (i + 1) a b)) →
      dotLoop true n sg k a b (BitVec.ofInt 32 c) = .ub .signedOverflow)
  | 0, a, b, c, _ => ⟨fun _ => rfl, fun h => absurd (fun i hi => absurd hi (by omega)) h⟩
  | k + 1, a, b, c, hc => by
    have h0 := mul_at hn sg a b 0
    have g0 := mul_elem hn (st := false) (sg := sg) (fun h => by cases h) a b 0
    simp only [Nat.mul_zero, BitVec.ushiftRight_zero] at h0 g0
    have sh : ∀ (x : W) (j : Nat), lane n j (x >>> n) = lane n (j + 1) x := fun x j => by
      apply BitVec.eq_of_getLsbD_eq
      intro t ht
      rw [lane_bit, lane_bit, BitVec.getLsbD_ushiftRight]
      congr 2
      rw [Nat.mul_add]; omega
    have p1 : prefixSum sg n 1 a b = lv sg (lane n 0 a) * lv sg (lane n 0 b) := by
      rw [prefixSum_succ]; exact Int.add_zero _
    rw [dotLoop, dotLoop]
    by_cases hf : Fits (lv sg (lane n 0 a) * lv sg (lane n 0 b))
    · rw [h0.1 hf, g0, Res.bind_ok, Res.bind_ok]
      have gadd : cAddI false (BitVec.ofInt 32 c) (BitVec.ofInt 32 (lv sg (lane n 0 a) * lv sg (lane n 0 b))) =
          .ok (BitVec.ofInt 32 (c + lv sg (lane n 0 a) * lv sg (lane n 0 b))) := cAddI_ok hc hf (fun h => by cases h)
      by_cases hs : Fits (c + lv sg (lane n 0 a) * lv sg (lane n 0 b))
      · rw [cAddI_ok hc hf fun _ => hs, gadd, Res.bind_ok, Res.bind_ok]
        obtain ⟨i1, i2⟩ := dotLoop_strict hn sg k (a >>> n) (b >>> n) _ hs
        simp only [sh, Int.add_assoc, ← prefixSum_succ] at i1 i2
        refine ⟨fun h => i1 fun i hi => h (i + 1) (by omega), fun h => i2 fun hc' => h fun i hi => ?_⟩
        cases i with
        | zero => rw [p1]; exact ⟨hf, hs⟩
        | succ i => exact hc' i (by omega)
      · refine ⟨fun h => absurd (h 0 (by omega)).2 (by rw [p1]; exact hs), fun _ => ?_⟩
        have : cAddI true (BitVec.ofInt 32 c) (BitVec.ofInt 32 (lv sg (lane n 0 a) * lv sg (lane n 0 b))) = .ub .signedOverflow := by
          unfold cAddI
          rw [toInt_ofInt32 hc.1 hc.2, toInt_ofInt32 hf.1 hf.2]
          cases e : fitsI32 (c + lv sg (lane n 0 a) * lv sg (lane n 0 b)) with
          | true => exact absurd ((fits_iff _).1 e) hs
          | false => rfl
        rw [this]
        rfl
    · exact ⟨fun h => absurd (h 0 (by omega)).1 hf, fun _ => by rw [h0.2 hf]; rfl⟩
/-- **C37**: with overflow undefined, DOT is undefined exactly if a product or a partial sum overflows an `int`; otherwise it
gives what it gives with wrapping arithmetic -/
theorem dot_strict {n : Nat} (hn : wd16 n) (sg : Bool) (a b c : W) :
    (X1.fits (.dot n sg) a b → dot true n sg a b c = dot false n sg a b c) ∧
    (¬ X1.fits (.dot n sg) a b → dot true n sg a b c = .ub .signedOverflow) := by
  obtain ⟨h1, h2⟩ := dotLoop_strict hn sg (count n) a b 0 (by unfold Fits; omega)
  simp only [Int.zero_add] at h1 h2
  unfold dot
  rw [show (0#32 : W) = BitVec.ofInt 32 0 from rfl]
  exact ⟨fun h => by rw [h1 h], fun h => by rw [h2 h]; rfl⟩

/-! ## C38 -/

theorem shl_at {n : Nat} (hn : wd16 n) (sg : Bool) (a : W) {sh : W} {q : Nat} (hq : sh.toNat = q) (hq2 : q < 2 * n) :
    ((0 ≤ lv sg (lane n 0 a) ∧ lv sg (lane n 0 a) * 2 ^ q < 2 ^ 32) → cShlI true (extractVal n sg a) sh = cShlI false (extractVal n sg a) sh) ∧
    (¬ (0 ≤ lv sg (lane n 0 a) ∧ lv sg (lane n 0 a) * 2 ^ q < 2 ^ 32) → cShlI true (extractVal n sg a) sh = .ub .negShift) := by
  have hle := wd16_le hn
  have h0 := elem_eq hn sg a 0
  rw [Nat.mul_zero, BitVec.ushiftRight_zero] at h0
  have hr := lv_i32 hn sg (lane n 0 a)
  have hi : (extractVal n sg a).toInt = lv sg (lane n 0 a) := by rw [h0, toInt_ofInt32 hr.1 hr.2]
  have h32 : decide (sh.toNat < 32) = true := decide_eq_true (by omega)
  unfold cShlI
  rw [h32, hi]
  generalize extractVal n sg a = v at *
  have key : 0 ≤ lv sg (lane n 0 a) → (v.toNat : Int) = lv sg (lane n 0 a) := fun h => by
    rw [BitVec.toInt_eq_toNat_cond] at hi
    split at hi <;> omega
  constructor
  · rintro ⟨c1, c2⟩
    have e := key c1
    have c3 : v.toNat * 2 ^ sh.toNat < 2 ^ 32 := by
      rw [← e, ← hq] at c2
      exact_mod_cast c2
    have c1' : decide (lv sg (lane n 0 a) < 0) = false := decide_eq_false (by omega)
    rw [c1', decide_eq_true c3]
    rfl
  · intro hc
    by_cases c1 : 0 ≤ lv sg (lane n 0 a)
    · have e := key c1
      have c3 : ¬ v.toNat * 2 ^ sh.toNat < 2 ^ 32 := fun h => hc ⟨c1, by
        rw [← e, ← hq]
        exact_mod_cast h⟩
      rw [decide_eq_false c3]
      simp
    · have c1' : decide (lv sg (lane n 0 a) < 0) = true := decide_eq_true (by omega)
      rw [c1']
      simp
theorem widenLoop_strict {n : Nat} (hn : wd16 n) (sg : Bool) {sh : W} {q : Nat} (hq : sh.toNat = q) (hq2 : q < 2 * n) : ∀ (k : Nat) (a : W),
    ((∀ i < k, 0 ≤ lv sg (lane n i a) ∧ lv sg (lane n i a) * 2 ^ q < 2 ^ 32) → widenLoop true n sg sh k a = widenLoop false n sg sh k a) ∧
    (¬ (∀ i < k, 0 ≤ lv sg (lane n i a) ∧ lv sg (lane n i a) * 2 ^ q < 2 ^ 32) → widenLoop true n sg sh k a = .ub .negShift)
  | 0, a => ⟨fun _ => rfl, fun h => absurd (fun i hi => absurd hi (by omega)) h⟩
  | k + 1, a => by
    obtain ⟨h1, h2⟩ := shl_at hn sg a hq hq2
    obtain ⟨i1, i2⟩ := widenLoop_strict hn sg hq hq2 k (a >>> n)
    have sh' : ∀ (x : W) (j : Nat), lane n j (x >>> n) = lane n (j + 1) x := fun x j => by
      apply BitVec.eq_of_getLsbD_eq
      intro t ht
      rw [lane_bit, lane_bit, BitVec.getLsbD_ushiftRight]
      congr 2
      rw [Nat.mul_add]; omega
    simp only [sh'] at i1 i2
    rw [widenLoop, widenLoop]
    by_cases hf : 0 ≤ lv sg (lane n 0 a) ∧ lv sg (lane n 0 a) * 2 ^ q < 2 ^ 32
    · obtain ⟨v, hv⟩ : ∃ v, cShlI false (extractVal n sg a) sh = .ok v := ⟨_, rfl⟩
      rw [h1 hf, hv, Res.bind_ok, Res.bind_ok]
      refine ⟨fun h => by rw [i1 fun i hi => h (i + 1) (by omega)], fun h => ?_⟩
      rw [i2 fun hc => h fun i hi => ?_]
      · rfl
      · cases i with
        | zero => exact hf
        | succ i => exact hc i (by omega)
    · exact ⟨fun h => absurd (h 0 (by omega)) hf, fun _ => by rw [h2 hf]; rfl⟩
/-- **C38**: with such shifts undefined, WIDEN is undefined exactly if an element is negative or a set bit is shifted out of 32
bits; otherwise it gives what it gives on a host that shifts -/
theorem widen_strict {n : Nat} (hn : wd16 n) (sg : Bool) (a b : W) (imm : BitVec 5) :
    (X2.fits (.widen n sg) a b imm → widen true n sg a (imm.setWidth 32) = widen false n sg a (imm.setWidth 32)) ∧
    (¬ X2.fits (.widen n sg) a b imm → widen true n sg a (imm.setWidth 32) = .ub .negShift) := by
  have hpos := wd16_pos hn
  have hq : ((imm.setWidth 32 : W) &&& BitVec.ofNat 32 (n * 2 - 1)).toNat = imm.toNat % (2 * n) := by
    rcases wd16_cases hn with rfl | rfl | rfl | rfl <;> revert imm <;> decide
  obtain ⟨h1, h2⟩ := widenLoop_strict hn sg hq (Nat.mod_lt _ (by omega)) (count n) a
  unfold widen
  exact ⟨fun h => by rw [h1 h], fun h => by rw [h2 h]; rfl⟩

/-! ## Stepping -/

theorem simd1_host {k : Core} {x : X1} {w : W} (h0 : k.rf 0#5 = 0#32) (hwd : X1.wdOk x)
    (hh : E.cfg.strict = true → X1.fits x (rx k.rf (IP.rs1 w)) (rx k.rf (IP.rs2 w))) :
    ∃ v, x.holds (rx k.rf (IP.rs1 w)) (rx k.rf (IP.rs2 w)) (rx k.rf (IP.rd w)) (IP.rs2 w) v ∧
      ∀ p : St σ, p.core = k → ∀ (ab : Prop) (Q : Unit → St σ → Prop),
        (∀ q, q.core = { k with rf := wx k.rf (IP.rd w) v } → Q () q) → twp ab (simdExec E w (opOf1 x)) Q p := by
  cases hst : E.cfg.strict with
  | false => exact simd1_exec h0 hwd (by cases x <;> simp [X1.hostOk, mulOk, hst])
  | true =>
    have hf := hh hst
    have pre : ∀ (v : W) (r : W → W → W → Res W),
        r (rx k.rf (IP.rs1 w)) (rx k.rf (IP.rs2 w)) (rx k.rf (IP.rd w)) = .ok v →
        ∀ p : St σ, p.core = k → ∀ (ab : Prop) (Q : Unit → St σ → Prop), (∀ q, q.core = { k with rf := wx k.rf (IP.rd w) v } → Q () q) →
          twp ab (do
            let a ← rg (IP.rs1 w)
            let b ← rg (IP.rs2 w)
            let c ← rg (IP.rd w)
            let z ← M.lift (r a b c)
            writeRf (IP.rd w) z) Q p := by
      intro v r hr p hc ab Q hq
      have hp0 : p.rf 0#5 = 0#32 := by rw [core_rf hc]; exact h0
      rw [twp_bind, twp_rg hp0, twp_bind, twp_rg hp0, twp_bind, twp_rg hp0, core_rf hc, twp_bind]
      exact twp_lift_res hr (twp_wrRf hc hq)
    cases x with
    | mulh n sg =>
      obtain ⟨v, h1, h2⟩ := mulh_lanes hwd (st := false) (sg := sg) (fun h => by cases h) (rx k.rf (IP.rs1 w)) (rx k.rf (IP.rs2 w))
      rw [← (mul_strict hwd sg true _ _).1 hf] at h1
      refine ⟨v, h2, pre v (fun a b _ => Simd.mul E.cfg.strict n sg true a b) ?_⟩
      rw [hst]; exact h1
    | dot n sg =>
      have h1 := dot_lanes hwd (st := false) (sg := sg) (fun h => by cases h) (rx k.rf (IP.rs1 w)) (rx k.rf (IP.rs2 w)) (rx k.rf (IP.rd w))
      rw [← (dot_strict hwd sg _ _ _).1 hf] at h1
      refine ⟨_, rfl, pre _ (fun a b c => Simd.dot E.cfg.strict n sg a b c) ?_⟩
      rw [hst]; exact h1
    | mul n => exact simd1_exec h0 hwd (by simp [X1.hostOk])
    | _ => exact simd1_exec h0 hwd (by simp [X1.hostOk])

/-- **C36, C37**: stepping any SIMD instruction with one destination, also with overflow undefined, as long as no number
the host computes overflows -/
theorem simd_step_host (hs : E.cfg.simd = true) {x : X1} {m : W} (hm : x.match? = some m)
    {rd rs1 rs2 : BitVec 5} (hf : E.cfg.strict = true → X1.fits x (rx s.rf rs1) (rx s.rf rs2))
    (h : Ready E s (xWord m rd rs1 rs2)) :
    ∃ s' v, step E s = .ok ((), s') ∧ x.holds (rx s.rf rs1) (rx s.rf rs2) (rx s.rf rd) rs2 v ∧
      s'.pc = s.pc + 4#32 ∧ (∀ r, s'.rf r = if r = rd ∧ rd ≠ 0#5 then v else s.rf r) ∧
      s'.ram.bytes = s.ram.bytes ∧ s'.simInst = s.simInst + 1#64 ∧ Frame E s s' := by
  obtain ⟨t1, t2, t3⟩ := table1 hm
  have hw : xWord m rd rs1 rs2 = encR (IP.funct7 m) rs2 rs1 (IP.funct3 m) rd 0x0b#7 := by
    rw [t1, xWord_enc, ← t1]
  rw [hw] at h
  obtain ⟨d1, d2, d3, d4, d5, d6⟩ := decode_R (IP.funct7 m) rs2 rs1 (IP.funct3 m) rd 0x0b#7
  generalize encR (IP.funct7 m) rs2 rs1 (IP.funct3 m) rd 0x0b#7 = w at *
  obtain ⟨f1, f2, f3, f4, f5, f6, f7, f8, f9, f10⟩ := startCore_frame (E := E) (s := s) (w := w)
  obtain ⟨v, hv, hx⟩ := simd1_host (E := E) (x := x) (w := w) (k := startCore E s w) (by rw [f3]; exact h.x0) t3
    (by rw [f3, d4, d5]; exact hf)
  rw [f3, d4, d5, d2] at hv
  rw [f3, d2] at hx
  obtain ⟨s', g1, g2, g3, g4, g5, g6⟩ := retires_word (opcode_ne d1 (by decide)) h (f := wx s.rf rd v) (t := s.pc + 4#32)
    fun p hp _ => by
      have := exec_custom (E := E) hp hs f10 d1 (by rw [d6, d3]; exact t2) (hx p hp)
      rw [show (startCore E s w).pc + 4#32 = s.pc + 4#32 by rw [f1]] at this
      exact this
  exact ⟨s', v, g1, hv, g2, fun r => by rw [g3]; rfl, g4, g5, g6⟩

theorem simd2_host {k : Core} {y : X2} {w : W} (h0 : k.rf 0#5 = 0#32) (hrd : IP.rd w ≠ 31#5) (hwd : X2.wdOk y)
    (hh : E.cfg.strict = true → X2.fits y (rx k.rf (IP.rs1 w)) (rx k.rf (IP.rs2 w)) (IP.rs2 w)) :
    ∃ v, y.holds (rx k.rf (IP.rs1 w)) (rx k.rf (IP.rs2 w)) (IP.rs2 w) v ∧
      ∀ p : St σ, p.core = k → ∀ (ab : Prop) (Q : Unit → St σ → Prop),
        (∀ q, q.core = { k with rf := wx2 k.rf (IP.rd w) v } → Q () q) → twp ab (simdExec E w (opOf2 y)) Q p := by
  cases hst : E.cfg.strict with
  | false => exact simd2_exec h0 hrd hwd (by cases y <;> simp [X2.hostOk, mulOk, shlOk, hst])
  | true =>
    have hf := hh hst
    have pre : ∀ (v : W × W) (r : W → W → W → Res (W × W)),
        r (rx k.rf (IP.rs1 w)) (rx k.rf (IP.rs2 w)) (rx k.rf (IP.rd w)) = .ok v →
        ∀ p : St σ, p.core = k → ∀ (ab : Prop) (Q : Unit → St σ → Prop), (∀ q, q.core = { k with rf := wx2 k.rf (IP.rd w) v } → Q () q) →
          twp ab (do
            let a ← rg (IP.rs1 w)
            let b ← rg (IP.rs2 w)
            let c ← rg (IP.rd w)
            let z ← M.lift (r a b c)
            writeRfPair (IP.rd w) z) Q p := by
      intro v r hr p hc ab Q hq
      have hp0 : p.rf 0#5 = 0#32 := by rw [core_rf hc]; exact h0
      rw [twp_bind, twp_rg hp0, twp_bind, twp_rg hp0, twp_bind, twp_rg hp0, core_rf hc, twp_bind]
      exact twp_lift_res hr (twp_pair hc hrd hq)
    cases y with
    | wmul n sg =>
      obtain ⟨v, h1, h2⟩ := wmul_lanes hwd (st := false) (sg := sg) (fun h => by cases h) (rx k.rf (IP.rs1 w)) (rx k.rf (IP.rs2 w))
      rw [← (wmul_strict hwd sg _ _).1 hf] at h1
      refine ⟨v, h2, pre v (fun a b _ => Simd.wmul E.cfg.strict n sg a b) ?_⟩
      rw [hst]; exact h1
    | widen n sg =>
      obtain ⟨v, h1, h2⟩ := widen_lanes hwd (st := false) (sg := sg) (fun h => by cases h) (rx k.rf (IP.rs1 w)) (IP.rs2 w)
      rw [← (widen_strict hwd sg _ (rx k.rf (IP.rs2 w)) _).1 hf] at h1
      refine ⟨v, h2, pre v (fun a _ _ => Simd.widen E.cfg.strict n sg a ((IP.rs2 w).setWidth 32)) ?_⟩
      rw [hst]; exact h1
    | txp n => exact simd2_exec h0 hrd hwd (by simp [X2.hostOk])

/-- **C36, C38, C40**: stepping any SIMD instruction with a pair of destinations other than x31, likewise -/
theorem simd_pair_step_host (hs : E.cfg.simd = true) {y : X2} {m : W} (hm : y.match? = some m)
    {rd rs1 rs2 : BitVec 5} (hf : E.cfg.strict = true → X2.fits y (rx s.rf rs1) (rx s.rf rs2) rs2) (hrd : rd ≠ 31#5)
    (h : Ready E s (xWord m rd rs1 rs2)) :
    ∃ s' v, step E s = .ok ((), s') ∧ y.holds (rx s.rf rs1) (rx s.rf rs2) rs2 v ∧
      s'.pc = s.pc + 4#32 ∧
      (rd = 0#5 → s'.rf = s.rf) ∧
      (rd ≠ 0#5 → s'.rf rd = v.1 ∧ s'.rf (rd + 1#5) = v.2 ∧
        ∀ r, r ≠ rd → r ≠ rd + 1#5 → s'.rf r = s.rf r) ∧
      s'.ram.bytes = s.ram.bytes ∧ s'.simInst = s.simInst + 1#64 ∧ Frame E s s' := by
  obtain ⟨t1, t2, t3⟩ := table2 hm
  have hw : xWord m rd rs1 rs2 = encR (IP.funct7 m) rs2 rs1 (IP.funct3 m) rd 0x0b#7 := by
    rw [t1, xWord_enc, ← t1]
  rw [hw] at h
  obtain ⟨d1, d2, d3, d4, d5, d6⟩ := decode_R (IP.funct7 m) rs2 rs1 (IP.funct3 m) rd 0x0b#7
  generalize encR (IP.funct7 m) rs2 rs1 (IP.funct3 m) rd 0x0b#7 = w at *
  obtain ⟨f1, f2, f3, f4, f5, f6, f7, f8, f9, f10⟩ := startCore_frame (E := E) (s := s) (w := w)
  obtain ⟨v, hv, hx⟩ := simd2_host (E := E) (y := y) (w := w) (k := startCore E s w) (by rw [f3]; exact h.x0)
    (by rw [d2]; exact hrd) t3 (by rw [f3, d4, d5]; exact hf)
  rw [f3, d4, d5] at hv
  rw [f3, d2] at hx
  obtain ⟨s', g1, g2, g3, g4, g5, g6⟩ := retires_word (opcode_ne d1 (by decide)) h (f := wx2 s.rf rd v) (t := s.pc + 4#32)
    fun p hp _ => by
      have := exec_custom (E := E) hp hs f10 d1 (by rw [d6, d3]; exact t2) (hx p hp)
      rw [show (startCore E s w).pc + 4#32 = s.pc + 4#32 by rw [f1]] at this
      exact this
  have hne : rd + 1#5 ≠ rd := by
    clear * -
    revert rd; decide
  refine ⟨s', v, g1, hv, g2, fun e => ?_, fun e => ⟨?_, ?_, fun r a b => ?_⟩, g4, g5, g6⟩ <;> rw [g3]
  · funext r; simp [wx2, e]
  · simp [wx2, e]
  · simp only [wx2, e, hne, if_false, if_true]
  · simp only [wx2, e, a, b, if_false]

/-! ## Concrete cases -/
section
open Ex
/-- overflow is undefined -/
def envS : Env Unit := { env0 with cfg := { cfg0 with strict := true } }
/-- two elements of 16 bits -/
theorem two {P : Nat → Prop} (h0 : P 0) (h1 : P 1) : ∀ i < 32 / 16, P i := fun i hi => by
  have : i = 0 ∨ i = 1 := by omega
  rcases this with rfl | rfl
  · exact h0
  · exact h1
instance (z : Int) : Decidable (Fits z) := inferInstanceAs (Decidable (_ ∧ _))

-- mulh16u x5, x1, x2 and dot16u x5, x1, x2: 0x8000 * 0x8000 and the sum fit
example : envS.cfg.strict = true ∧ envS.cfg.simd = true ∧ (X1.mulh 16 false).match? = some 0x400500b#32 ∧
    X1.fits (.mulh 16 false) 0x80000100#32 0x80000101#32 ∧
    Ready envS (stI (xWord 0x400500b#32 5#5 1#5 2#5)) (xWord 0x400500b#32 5#5 1#5 2#5) :=
  ⟨rfl, rfl, rfl, two (by decide +kernel) (by decide +kernel), by ready_ex⟩
example : (X1.dot 16 false).match? = some 0x800100b#32 ∧ X1.fits (.dot 16 false) 0x80000100#32 0x80000101#32 ∧
    Ready envS (stI (xWord 0x800100b#32 5#5 1#5 2#5)) (xWord 0x800100b#32 5#5 1#5 2#5) :=
  ⟨rfl, two (by decide +kernel) (by decide +kernel), by ready_ex⟩
example : obs (step envS (stI (xWord 0x800100b#32 5#5 1#5 2#5))) (fun s => s.rf 5#5) = some 0xc0010600#32 := by decide +kernel
-- two products that fit, but not their sum; a product that does not fit
example : ¬ X1.fits (.dot 16 true) 0x80008000#32 0x80008000#32 := fun h => absurd (h 1 (by decide)).2 (by decide +kernel)
example : ¬ X1.fits (.mulh 16 false) 0xffff#32 0xffff#32 := fun h => absurd (h 0 (by decide)) (by decide +kernel)
-- wmul16u x30, x1, x2; widen16u x6, x1, 7
example : (X2.wmul 16 false).match? = some 0x600100b#32 ∧ X2.fits (.wmul 16 false) 0x80000100#32 0x80000101#32 2#5 ∧
    Ready envS (stI (xWord 0x600100b#32 30#5 1#5 2#5)) (xWord 0x600100b#32 30#5 1#5 2#5) :=
  ⟨rfl, two (by decide +kernel) (by decide +kernel), by ready_ex⟩
example : (X2.widen 16 false).match? = some 0x4000700b#32 ∧ X2.fits (.widen 16 false) 0x80000100#32 0#32 7#5 ∧
    Ready envS (stI (xWord 0x4000700b#32 6#5 1#5 7#5)) (xWord 0x4000700b#32 6#5 1#5 7#5) :=
  ⟨rfl, two (by decide +kernel) (by decide +kernel), by ready_ex⟩
-- a negative element; a bit shifted out
example : ¬ X2.fits (.widen 16 true) 0xffff#32 0#32 0#5 := fun h => absurd (h 0 (by decide)).1 (by decide +kernel)
example : ¬ X2.fits (.widen 16 false) 0xffff#32 0#32 31#5 := fun h => absurd (h 0 (by decide)).2 (by decide +kernel)
end

end Ama
