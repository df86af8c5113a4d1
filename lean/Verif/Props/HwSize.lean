import Verif.Model.HwStats
import Verif.Lemmas.CacheInv
/-!
# C91: the sizes reported for the hardware models

The sizes in `hw_stats.json` against the number of different contents the modelled structures can have.
-/
namespace Ama.HwSize
open Ama.HwStats Ama.Bp

/-! ## Predictors -/

/-- how many contents each separately kept part of a predictor can have: every counter takes the values up to its maximum, every
history those under its mask -/
def contents : Pred → List Nat
  | .sttc _ _ => []
  | .ideal _ => []
  | .none _ => []
  | .bimodal _ t _ => [(t.cntMax + 1) ^ t.n]
  | .local _ t _ entries _ histMask _ => [(histMask.toNat + 1) ^ entries * (t.cntMax + 1) ^ t.n]
  | .global _ t ghrMask _ _ => [(t.cntMax + 1) ^ t.n * (ghrMask.toNat + 1)]
  | .gselect _ t _ _ ghrMask _ _ _ => [(t.cntMax + 1) ^ t.n * (ghrMask.toNat + 1)]
  | .gshare _ t _ _ ghrMask _ _ _ => [(t.cntMax + 1) ^ t.n * (ghrMask.toNat + 1)]
  | .combined _ t p0 p1 _ => contents p0 ++ contents p1 ++ [(t.cntMax + 1) ^ t.n]

/-- the number of bytes in whole for so many bits -/
def ceil8 (b : Nat) : Nat := (b + 7) / 8
/-- what the code computes for so many bits -/
def near8 (b : Nat) : Nat := (b + 4) / 8

theorem pht_inv {i c : BitVec 8} {t : Pht} (h : Pht.make i c = .ok t) :
    (t.cntMax + 1) ^ t.n = 2 ^ (2 ^ i.toNat * c.toNat) ∧ i.toNat ≤ 30 ∧ c.toNat ≤ 8 := by
  unfold Pht.make at h
  split at h
  · cases h
  · rename_i hn
    have h' := (Res.ok.inj h).symm
    subst h'
    have h1 : 1 ≤ 2 ^ c.toNat := Nat.one_le_two_pow
    have e : 2 ^ c.toNat - 1 + 1 = 2 ^ c.toNat := by omega
    simp only [not_or] at hn
    refine ⟨?_, by omega, by omega⟩
    show (2 ^ c.toNat - 1 + 1) ^ (2 ^ i.toNat) = _
    rw [e, ← Nat.pow_mul, Nat.mul_comm]

theorem mask_inv {n : Nat} {m : W} (h : intMask n = .ok m) : m.toNat + 1 = 2 ^ n ∧ n ≤ 30 := by
  unfold intMask at h
  split at h
  · cases h
  · split at h
    · cases h
    · have h' := (Res.ok.inj h).symm
      subst h'
      have h0 : 2 ^ n ≤ 2 ^ 30 := Nat.pow_le_pow_right (by omega) (by omega)
      have h1 : 1 ≤ 2 ^ n := Nat.one_le_two_pow
      rw [BitVec.toNat_ofNat, Nat.mod_eq_of_lt (by omega)]
      exact ⟨by omega, by omega⟩

theorem near_val (w : W) (n : Nat) (h : w.toNat = n % 2 ^ 32) (hn : n + 4 < 2 ^ 32) : (toBytes w).toNat = near8 n := by
  have e : w.toNat = n := by omega
  unfold toBytes near8
  rw [BitVec.toNat_ushiftRight, BitVec.toNat_add, e, Nat.shiftRight_eq_div_pow]
  simp only [BitVec.toNat_ofNat]
  omega

theorem pht_bits (i c : BitVec 8) : (phtBits i c).toNat = (2 ^ i.toNat * c.toNat) % 2 ^ 32 := by
  unfold phtBits
  rw [BitVec.toNat_mul, BitVec.toNat_ofNat, BitVec.toNat_setWidth, ← Nat.mul_mod]

/-- the conditions under which 32 bits suffice -/
def Fits (bits : List Nat) : Prop := (∀ b ∈ bits, b + 4 < 2 ^ 32) ∧ (bits.map near8).sum < 2 ^ 32

theorem one_size {low : Nat} {k : Kind} {c : PCfg} {p : Pred} (h : make1 low k c = .ok p) :
    ∃ bits : List Nat, contents p = bits.map (2 ^ ·) ∧ (Fits bits → (bpSize1 k c).toNat = (bits.map near8).sum) := by
  have one : ∀ {N : Nat} {w : W} {q : Pred}, contents q = [2 ^ N] → w.toNat = N % 2 ^ 32 →
      ∃ bits : List Nat, contents q = bits.map (2 ^ ·) ∧ (Fits bits → (toBytes w).toNat = (bits.map near8).sum) := by
    intro N w q hq hw
    refine ⟨[N], by simp [hq], fun hf => ?_⟩
    simpa using near_val w N hw (hf.1 N (by simp))
  have nil : ∀ {q : Pred}, contents q = [] →
      ∃ bits : List Nat, contents q = bits.map (2 ^ ·) ∧ (Fits bits → (0#32).toNat = (bits.map near8).sum) :=
    fun hq => ⟨[], by simp [hq], fun _ => rfl⟩
  unfold make1 at h
  cases hb : Base.make low c with
  | ok b =>
    rw [hb] at h
    cases k with
    | sttc =>
      simp only [bind, Res.bind] at h
      split at h
      · cases h
      · rw [← Res.ok.inj h]; exact nil rfl
    | ideal => simp only [bind, Res.bind] at h; rw [← Res.ok.inj h]; exact nil rfl
    | none => simp only [bind, Res.bind] at h; rw [← Res.ok.inj h]; exact nil rfl
    | bimodal =>
      simp only [bind, Res.bind] at h
      cases ht : Pht.make c.pcBits c.cntBits with
      | ok t =>
        rw [ht] at h
        rw [← Res.ok.inj h]
        refine one (N := 2 ^ c.pcBits.toNat * c.cntBits.toNat) ?_ (pht_bits _ _)
        simp only [contents, (pht_inv ht).1]
      | _ => rw [ht] at h; cases h
    | «local» =>
      simp only [bind, Res.bind] at h
      split at h
      · cases h
      · split at h
        · cases h
        · cases ht : Pht.make c.histBits c.cntBits with
          | ok t =>
            rw [ht] at h
            rw [← Res.ok.inj h]
            refine one (N := 2 ^ c.pcBits.toNat * c.histBits.toNat + 2 ^ c.histBits.toNat * c.cntBits.toNat) ?_ ?_
            · have h30 := (pht_inv ht).2.1
              have h0 : 2 ^ c.histBits.toNat ≤ 2 ^ 30 := Nat.pow_le_pow_right (by omega) h30
              have h1 : 1 ≤ 2 ^ c.histBits.toNat := Nat.one_le_two_pow
              have e : (BitVec.ofNat 32 (2 ^ c.histBits.toNat - 1)).toNat + 1 = 2 ^ c.histBits.toNat := by
                rw [BitVec.toNat_ofNat, Nat.mod_eq_of_lt (by omega)]; omega
              simp only [contents, (pht_inv ht).1, e]
              rw [← Nat.pow_mul, Nat.mul_comm c.histBits.toNat, Nat.pow_add]
            · rw [BitVec.toNat_add, pht_bits, BitVec.toNat_mul, BitVec.toNat_ofNat, BitVec.toNat_setWidth, ← Nat.mul_mod, ← Nat.add_mod]
          | _ => rw [ht] at h; cases h
    | global =>
      simp only [bind, Res.bind] at h
      cases hm : intMask c.ghrBits.toNat with
      | ok m =>
        rw [hm] at h
        cases ht : Pht.make c.ghrBits c.cntBits with
        | ok t =>
          simp only [ht] at h
          rw [← Res.ok.inj h]
          refine one (N := 2 ^ c.ghrBits.toNat * c.cntBits.toNat + c.ghrBits.toNat) ?_ ?_
          · simp only [contents, (pht_inv ht).1, (mask_inv hm).1]; rw [← Nat.pow_add]
          · rw [BitVec.toNat_add, pht_bits, BitVec.toNat_setWidth, ← Nat.add_mod]
        | _ => simp only [ht] at h; cases h
      | _ => rw [hm] at h; cases h
    | gselect =>
      simp only [bind, Res.bind] at h
      cases hi : intMask (c.ghrBits + c.pcBits).toNat with
      | ok im =>
        rw [hi] at h
        cases hm : intMask c.ghrBits.toNat with
        | ok m =>
          simp only [hm] at h
          cases hp : intMask c.pcBits.toNat with
          | ok pm =>
            simp only [hp] at h
            cases ht : Pht.make (c.ghrBits + c.pcBits) c.cntBits with
            | ok t =>
              simp only [ht] at h
              rw [← Res.ok.inj h]
              refine one (N := 2 ^ (c.ghrBits + c.pcBits).toNat * c.cntBits.toNat + c.ghrBits.toNat) ?_ ?_
              · simp only [contents, (pht_inv ht).1, (mask_inv hm).1]; rw [← Nat.pow_add]
              · rw [BitVec.toNat_add, pht_bits, BitVec.toNat_setWidth, ← Nat.add_mod]
            | _ => simp only [ht] at h; cases h
          | _ => simp only [hp] at h; cases h
        | _ => simp only [hm] at h; cases h
      | _ => rw [hi] at h; cases h
    | gshare =>
      simp only [bind, Res.bind] at h
      generalize hx : (if c.ghrBits < c.pcBits then c.pcBits else c.ghrBits) = x at h
      cases hi : intMask x.toNat with
      | ok im =>
        rw [hi] at h
        cases hm : intMask c.ghrBits.toNat with
        | ok m =>
          simp only [hm] at h
          cases hp : intMask c.pcBits.toNat with
          | ok pm =>
            simp only [hp] at h
            cases ht : Pht.make x c.cntBits with
            | ok t =>
              simp only [ht] at h
              rw [← Res.ok.inj h]
              refine one (N := 2 ^ x.toNat * c.cntBits.toNat + c.ghrBits.toNat) ?_ ?_
              · simp only [contents, (pht_inv ht).1, (mask_inv hm).1]; rw [← Nat.pow_add]
              · rw [hx, BitVec.toNat_add, pht_bits, BitVec.toNat_setWidth, ← Nat.add_mod]
            | _ => simp only [ht] at h; cases h
          | _ => simp only [hp] at h; cases h
        | _ => simp only [hm] at h; cases h
      | _ => rw [hi] at h; cases h
  | _ => rw [hb] at h; cases h

/-- **C91**: every predictor that is created keeps, in each of its parts, some number of bits exactly (it can have two to the power of
that many contents), and the reported size is the sum of these numbers in bytes, each to the nearest byte, as long as 32 bits hold the
sums. -/
theorem bp_size {low : Nat} : ∀ {d : Def} {p : Pred}, make low d = .ok p →
    ∃ bits : List Nat, contents p = bits.map (2 ^ ·) ∧ (Fits bits → (bpSize d).toNat = (bits.map near8).sum)
  | .one k c, p, h => one_size h
  | .comb c d0 d1, p, h => by
    unfold make at h
    simp only [bind, Res.bind] at h
    cases h0 : make low d0 with
    | ok p0 =>
      simp only [h0] at h
      cases h1 : make low d1 with
      | ok p1 =>
        simp only [h1] at h
        cases hb : Base.make low c with
        | ok b =>
          simp only [hb] at h
          cases ht : Pht.make c.pcBits c.cntBits with
          | ok t =>
            simp only [ht] at h
            rw [← Res.ok.inj h]
            obtain ⟨b0, e0, f0⟩ := bp_size h0
            obtain ⟨b1, e1, f1⟩ := bp_size h1
            refine ⟨b0 ++ b1 ++ [2 ^ c.pcBits.toNat * c.cntBits.toNat], ?_, fun hf => ?_⟩
            · simp only [contents, e0, e1, (pht_inv ht).1, List.map_append, List.map_cons, List.map_nil]
            · have hs := hf.2
              simp only [List.map_append, List.sum_append, List.map_cons, List.map_nil, List.sum_cons, List.sum_nil] at hs
              have g0 := f0 ⟨fun b m => hf.1 b (by simp [m]), by omega⟩
              have g1 := f1 ⟨fun b m => hf.1 b (by simp [m]), by omega⟩
              have g2 := near_val (phtBits c.pcBits c.cntBits) (2 ^ c.pcBits.toNat * c.cntBits.toNat) (pht_bits _ _) (hf.1 _ (by simp))
              unfold bpSize
              rw [BitVec.toNat_add, BitVec.toNat_add, g0, g1, g2]
              simp only [List.map_append, List.sum_append, List.map_cons, List.map_nil, List.sum_cons, List.sum_nil]
              omega
          | _ => simp only [ht] at h; cases h
        | _ => simp only [hb] at h; cases h
      | _ => simp only [h1] at h; cases h
    | _ => simp only [h0] at h; cases h

theorem near_ceil (b : Nat) : near8 b ≤ ceil8 b ∧ ceil8 b ≤ near8 b + 1 ∧ (near8 b = ceil8 b ↔ ¬ (1 ≤ b % 8 ∧ b % 8 ≤ 3)) := by
  unfold near8 ceil8
  refine ⟨by omega, by omega, ?_⟩
  constructor <;> intro h <;> omega

/-- **C91**, for predictors none of whose parts exceeds a whole number of bytes by one to three bits: the size is rounded up, as the
code says.
Missing: the other predictors — `size_rounded_down`, `size_zero` — and those of 2^32 bits and more — `size_wraps`. -/
theorem bp_size_up_partial {low : Nat} {d : Def} {p : Pred} (h : make low d = .ok p) :
    ∃ bits : List Nat, contents p = bits.map (2 ^ ·) ∧
      (Fits bits → (bpSize d).toNat ≤ (bits.map ceil8).sum ∧
        ((∀ b ∈ bits, ¬ (1 ≤ b % 8 ∧ b % 8 ≤ 3)) → (bpSize d).toNat = (bits.map ceil8).sum)) := by
  obtain ⟨bits, e, f⟩ := bp_size h
  refine ⟨bits, e, fun hf => ?_⟩
  rw [f hf]
  clear hf f e
  induction bits with
  | nil => exact ⟨Nat.le_refl _, fun _ => rfl⟩
  | cons b t ih =>
    simp only [List.map_cons, List.sum_cons]
    have hb := near_ceil b
    refine ⟨by omega, fun hm => ?_⟩
    rw [hb.2.2.mpr (hm b (by simp)), ih.2 (fun x hx => hm x (by simp [hx]))]

/-! ## Caches -/

/-- **C91**: for every cache that is constructed the data size is that of its lines; with tags of `t` bits, just enough to tell apart the lines
of the 128 KiB memory that share a set, and `3 + log2 ways` bits of flags and age per line, the other two sizes are the numbers of
bytes, rounded down, plus one. -/
theorem cache_sizes {g : Cache.Cfg} {c : Cache} (h : Cache.new g = some c) :
    ∃ t, g.sets * 64 * 2 ^ t = 2 ^ 17 ∧
      (cacheSize g).sets.toNat = g.sets ∧ (cacheSize g).ways.toNat = g.ways ∧ (cacheSize g).lineSize.toNat = 64 ∧
      (cacheSize g).data.toNat = g.sets * g.ways * 64 ∧
      (cacheSize g).tags.toNat = g.sets * g.ways * t / 8 + 1 ∧
      (cacheSize g).metadata.toNat = g.sets * g.ways * (3 + Nat.log2 g.ways) / 8 + 1 ∧
      ∀ a : W, a.toNat < 2 ^ 17 → (c.tg a).toNat < 2 ^ t := by
  obtain ⟨hc, b, hg⟩ := Cache.new_geo h
  obtain ⟨hb, hs, _, _, _, hw1, hw2⟩ := id hg
  rw [hc] at hs hw1 hw2
  have hi := Cache.indexGo_pow b (by omega)
  have hs1 : g.sets ≤ 1024 := by rw [hs]; exact Nat.pow_le_pow_right (n := 2) (by omega) hb
  have hl : Nat.log2 g.ways ≤ 7 := by
    have h0 : ¬ 8 ≤ Nat.log2 g.ways := fun h8 => by have := (Nat.le_log2 (by omega)).mp h8; omega
    omega
  have hp : g.sets * g.ways ≤ 1024 * 128 := Nat.mul_le_mul hs1 hw2
  have ht : (17#32 - BitVec.ofNat 32 b - 6#32).toNat = 11 - b := by bv_omega
  have hm : (3#32 + BitVec.ofNat 32 (Nat.log2 g.ways)).toNat = 3 + Nat.log2 g.ways := by
    generalize Nat.log2 g.ways = l at hl
    bv_omega
  have hsw : (BitVec.ofNat 32 g.sets * BitVec.ofNat 32 g.ways).toNat = g.sets * g.ways := by
    rw [BitVec.toNat_mul, BitVec.toNat_ofNat, BitVec.toNat_ofNat, ← Nat.mul_mod, Nat.mod_eq_of_lt (by omega)]
  have part : ∀ w : W, w.toNat ≤ 11 →
      (((BitVec.ofNat 32 g.sets * BitVec.ofNat 32 g.ways * w) >>> 3) + 1#32).toNat = g.sets * g.ways * w.toNat / 8 + 1 := by
    intro w hw
    have hq : g.sets * g.ways * w.toNat ≤ 1024 * 128 * 11 := Nat.mul_le_mul hp hw
    rw [BitVec.toNat_add, BitVec.toNat_ushiftRight, BitVec.toNat_mul, hsw, Nat.shiftRight_eq_div_pow]
    simp only [BitVec.toNat_ofNat]
    omega
  have hpow : 2 ^ b * 2 ^ (11 - b) = 2 ^ 11 := by rw [← Nat.pow_add]; congr 1; omega
  have e64 : g.sets * 64 * 2 ^ (11 - b) = 2 ^ 17 := by
    rw [hs, Nat.mul_right_comm, hpow]
  refine ⟨11 - b, e64, ?_, ?_, rfl, ?_, ?_, ?_, ?_⟩
  · show (BitVec.ofNat 32 g.sets).toNat = _
    rw [BitVec.toNat_ofNat]; omega
  · show (BitVec.ofNat 32 g.ways).toNat = _
    rw [BitVec.toNat_ofNat]; omega
  · show (BitVec.ofNat 32 g.sets * BitVec.ofNat 32 g.ways * 64#32).toNat = _
    rw [BitVec.toNat_mul, hsw]
    simp only [BitVec.toNat_ofNat]
    omega
  · have e := part (17#32 - BitVec.ofNat 32 b - 6#32) (by omega)
    rw [ht] at e
    show (((BitVec.ofNat 32 g.sets * BitVec.ofNat 32 g.ways *
      (17#32 - BitVec.ofNat 32 (Cache.indexGo g.sets 0 0#32).1 - 6#32)) >>> 3) + 1#32).toNat = _
    have hi' : (Cache.indexGo g.sets 0 0#32).1 = b := by rw [hs, hi]
    rw [hi']
    exact e
  · have e := part (3#32 + BitVec.ofNat 32 (Nat.log2 g.ways)) (by omega)
    rw [hm] at e
    exact e
  · intro a ha
    rw [Cache.tg_eq hg, hc]
    unfold Cache.lineNo
    rw [Nat.div_div_eq_div_mul, Nat.div_lt_iff_lt_mul (by rw [hs]; have := Nat.two_pow_pos b; omega)]
    calc a.toNat < 2 ^ 17 := ha
      _ = 2 ^ (11 - b) * (64 * g.sets) := by rw [← e64]; ac_rfl

/-- so the reported numbers of bytes suffice for the tags, and exceed what is needed by one where the bits fill their bytes -/
theorem plus_one (b : Nat) : b / 8 + 1 = if b % 8 = 0 then ceil8 b + 1 else ceil8 b := by
  unfold ceil8
  split <;> omega

/-- **C91**, for numbers of ways that are powers of two: the age bits counted for a line hold every age it starts with.
Missing: the other numbers of ways, which the validation lets through — `age_does_not_fit`. -/
theorem ages_fit_partial {g : Cache.Cfg} {c : Cache} (h : Cache.new g = some c) (e : Nat) (hw : g.ways = 2 ^ e) (i j : Nat)
    (hj : j < g.ways) : (c.arr i j).lru < 2 ^ Nat.log2 g.ways := by
  have hl : (c.arr i j).lru = j := by
    unfold Cache.new at h
    split at h
    · rw [← Option.some.inj h]
    · cases h
  rw [hl, hw, Nat.log2_two_pow, ← hw]
  exact hj

/-! ## Divider -/

/-- **C91**: the size of the divider's result cache is that of its entries of 130 bits, rounded down, as long as 32 bits hold the
product. -/
theorem divider_size (entries : W) (h : entries.toNat * 130 < 2 ^ 32) :
    (divTotal entries).toNat = entries.toNat * 130 / 8 ∧ divEntry.toNat = 130 / 8 := by
  refine ⟨?_, rfl⟩
  unfold divTotal
  rw [BitVec.toNat_ushiftRight, BitVec.toNat_mul, Nat.shiftRight_eq_div_pow]
  simp only [BitVec.toNat_ofNat]
  omega

/-! ## Witnesses -/

namespace Ex

/-- the sizes of the predefined predictors -/
example : archDefs.map (fun d => (bpSize d).toNat) =
    [0, 0, 0, 0, 0, 48, 32, 49, 49, 33, 96, 228, 193, 193, 97, 41, 113, 41] := by decide +kernel

/-- **C91 does not hold as the code says** ("round up"): the predefined global predictor with nine bits of history keeps 2^1545
contents, which is 194 bytes; 193 are reported. -/
theorem size_rounded_down : ∃ p, make 1 (.one .global ⟨0, 3, 0, 9, .none⟩) = .ok p ∧ contents p = [2 ^ 1545] ∧
    (bpSize (.one .global ⟨0, 3, 0, 9, .none⟩)).toNat = 193 ∧ ceil8 1545 = 194 := by
  have hb : ∃ b, Base.make 1 ⟨0, 3, 0, 9, .none⟩ = .ok b := ⟨_, rfl⟩
  have ht : ∃ t, Pht.make 9 3 = .ok t := ⟨_, rfl⟩
  have hm : ∃ m, intMask (9 : BitVec 8).toNat = .ok m := ⟨_, rfl⟩
  obtain ⟨b, hb⟩ := hb
  obtain ⟨t, ht⟩ := ht
  obtain ⟨m, hm⟩ := hm
  refine ⟨.global b t m 0#32 .none, ?_, ?_, by decide +kernel, by decide⟩
  · show make1 1 .global ⟨0, 3, 0, 9, .none⟩ = _
    unfold make1
    simp only [hb, bind, Res.bind, hm, ht]
  · simp only [contents, (pht_inv ht).1, (mask_inv hm).1]
    rw [← Nat.pow_add]
    exact congrArg (fun n => [2 ^ n]) (by decide : 2 ^ (9 : BitVec 8).toNat * (3 : BitVec 8).toNat + (9 : BitVec 8).toNat = 1545)

/-- a predictor with two counters of one bit is reported to take no space -/
theorem size_zero : ∃ p, make 1 (.one .bimodal ⟨1, 1, 0, 0, .none⟩) = .ok p ∧ contents p = [4] ∧
    (bpSize (.one .bimodal ⟨1, 1, 0, 0, .none⟩)).toNat = 0 :=
  ⟨_, rfl, rfl, by decide +kernel⟩

/-- 2^30 counters of eight bits are accepted and reported to take no space: the product is 2^33 -/
theorem size_wraps : (∃ p, make 1 (.one .bimodal ⟨30, 8, 0, 0, .none⟩) = .ok p) ∧
    (bpSize (.one .bimodal ⟨30, 8, 0, 0, .none⟩)).toNat = 0 :=
  ⟨⟨_, rfl⟩, by decide +kernel⟩

/-- three ways: ages run to two, and one bit is counted -/
theorem age_does_not_fit : ∃ c, Cache.new ⟨.inst, 4, 3, .update, .none, false, false⟩ = some c ∧ (c.arr 0 2).lru = 2 ∧ Nat.log2 3 = 1 := by
  refine ⟨_, rfl, rfl, by decide⟩

/-- four sets of two ways: the tags fill nine bytes, and ten are reported -/
theorem tags_exceed : (cacheSize ⟨.inst, 4, 2, .update, .none, false, false⟩).tags.toNat = 10 ∧ ceil8 (4 * 2 * 9) = 9 := by
  decide +kernel

/-- one entry takes seventeen bytes, and is reported as sixteen -/
theorem divider_rounded_down : (divTotal 1#32).toNat = 16 ∧ ceil8 130 = 17 := by decide

/-- 33038210 entries are reported to take no space -/
theorem divider_wraps : (divTotal 33038210#32).toNat = 0 := by decide

end Ex

/-- a combined predictor -/
example : ∃ p, make 1 (.comb ⟨4, 4, 0, 0, .none⟩ (.one .bimodal ⟨2, 2, 0, 0, .none⟩) (.one .gshare ⟨8, 1, 0, 8, .none⟩)) = .ok p ∧
    Fits [8, 264, 64] := ⟨_, rfl, by unfold Fits near8; decide⟩
example : (bpSize (.comb ⟨4, 4, 0, 0, .none⟩ (.one .bimodal ⟨2, 2, 0, 0, .none⟩) (.one .gshare ⟨8, 1, 0, 8, .none⟩))).toNat = 1 + 33 + 8 := by
  decide +kernel
example : ∃ c, Cache.new ⟨.data, 8, 4, .update, .wb, false, false⟩ = some c := ⟨_, rfl⟩
example : (divTotal 16#32).toNat = 260 := by decide

end Ama.HwSize
