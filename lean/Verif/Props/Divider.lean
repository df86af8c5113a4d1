import Verif.Model.Divider
/-!
# C56: the divider model

The specification is over the integers: the operands' values, their magnitudes, and the list of operand pairs
that have gone through as common cases.
-/
namespace Ama.Div

/-! ## Specification -/
namespace Spec

/-- the operand value -/
def val (x : W) (uns : Bool) : Int := if uns then (x.toNat : Int) else x.toInt

/-- bit length: the least `n` with `m < 2^n` -/
def IsLen (m n : Nat) : Prop := m < 2 ^ n ∧ ∀ k, m < 2 ^ k → n ≤ k

/-- the four special cases in order, else common -/
inductive IsClass (o : Op) : Special → Prop
  | zero : val o.b o.uns = 0 → IsClass o .divByZero
  | overflow : o.uns = false → val o.a o.uns = -2 ^ 31 → val o.b o.uns = -1 → IsClass o .overflow
  | absLt : val o.b o.uns ≠ 0 → ¬ (o.uns = false ∧ val o.a o.uns = -2 ^ 31 ∧ val o.b o.uns = -1) →
      (val o.a o.uns).natAbs < (val o.b o.uns).natAbs → IsClass o .absLt
  | pow2 : ¬ (o.uns = false ∧ val o.a o.uns = -2 ^ 31 ∧ val o.b o.uns = -1) →
      (val o.b o.uns).natAbs ≤ (val o.a o.uns).natAbs →
      (∃ k, (val o.b o.uns).natAbs = 2 ^ k) → IsClass o .pow2
  | common : val o.b o.uns ≠ 0 → (val o.b o.uns).natAbs ≤ (val o.a o.uns).natAbs →
      (¬ ∃ k, (val o.b o.uns).natAbs = 2 ^ k) → IsClass o .none

/-- what happens to one division -/
inductive Out where | hit | special (k : Special) | common
  deriving DecidableEq

/-- `seen`: the operand pairs that were common cases, latest first.  A pair hits when it is among the last `E`
of them; otherwise its class decides, and a common case is added. -/
def step (E : Nat) (cls : Op → Special) (seen : List Op) (o : Op) : Out × List Op :=
  if o ∈ seen.take E then (.hit, seen)
  else if cls o = .none then (.common, o :: seen)
  else (.special (cls o), seen)

end Spec

/-- a division, or the profiling switch -/
inductive Ev where | op (o : Op) | prof (on : Bool)

def run : List Ev → Divider → Res Divider
  | [], d => .ok d
  | .op o :: t, d => do let d ← eval d o; run t d
  | .prof on :: t, d => run t (profiling d on)

/-- the profiled divisions with what happens to each, by the specification -/
def Spec.outcomes (E : Nat) (cls : Op → Special) : (on : Bool) → (seen : List Op) → List Ev → List (Op × Spec.Out)
  | _, _, [] => []
  | _, seen, .prof b :: t => Spec.outcomes E cls b seen t
  | on, seen, .op o :: t =>
    let r := Spec.step E cls seen o
    if on then (o, r.1) :: Spec.outcomes E cls on r.2 t else Spec.outcomes E cls on r.2 t

/-! ## Arithmetic -/

theorem abs_toNat (x : W) (uns : Bool) : (absVal x uns).toNat = (Spec.val x uns).natAbs := by
  unfold absVal Spec.val
  cases uns with
  | true => simp
  | false =>
    simp only [Bool.false_or, decide_eq_true_eq, Bool.false_eq_true, if_false]
    have := BitVec.toInt_eq_toNat_cond x
    have hlt := x.isLt
    split
    · split at this <;> omega
    · rename_i h
      rw [BitVec.toNat_add, BitVec.toNat_not]
      have h1 : (1#32).toNat = 1 := rfl
      rw [h1]
      split at this <;> omega

theorem isPow2_iff (x : W) : isPow2 x = true ↔ ∃ k, x.toNat = 2 ^ k := by
  unfold isPow2
  by_cases h0 : x = 0#32
  · subst h0
    simp only [ne_eq, not_true_eq_false, decide_false, Bool.false_and, Bool.false_eq_true, false_iff]
    rintro ⟨k, hk⟩
    have := Nat.two_pow_pos k
    have h0 : (0#32).toNat = 0 := rfl
    omega
  · have hn : x.toNat ≠ 0 := fun h => h0 (BitVec.eq_of_toNat_eq h)
    have hs : (x - 1#32).toNat = x.toNat - 1 := by bv_omega
    have : ((x &&& (x - 1#32)) = 0#32) ↔ x.toNat &&& (x.toNat - 1) = 0 := by
      rw [← BitVec.toNat_inj, BitVec.toNat_and, hs]; rfl
    simp only [ne_eq, h0, not_false_eq_true, decide_true, Bool.true_and, decide_eq_true_eq]
    rw [this, Nat.and_sub_one_eq_zero_iff_isPowerOfTwo hn]
    rfl

theorem clzGo_spec (x : W) : ∀ k, k ≤ 32 → clzGo x k ≤ k ∧ x.toNat % 2 ^ k < 2 ^ (k - clzGo x k) ∧
    (clzGo x k < k → 2 ^ (k - clzGo x k - 1) ≤ x.toNat % 2 ^ k)
  | 0, _ => ⟨Nat.le_refl _, by simp [clzGo, Nat.mod_one], (fun h => by simp [clzGo] at h)⟩
  | k + 1, hk => by
    obtain ⟨h1, h2, h3⟩ := clzGo_spec x k (by omega)
    have hbit : x.getLsbD k = decide (x.toNat / 2 ^ k % 2 = 1) := by
      rw [BitVec.getLsbD, Nat.testBit_eq_decide_div_mod_eq]
    have hmod : x.toNat % 2 ^ (k + 1) = x.toNat % 2 ^ k + 2 ^ k * (x.toNat / 2 ^ k % 2) := by
      rw [Nat.pow_succ, Nat.mod_mul]
    have hb := Nat.mod_lt x.toNat (Nat.two_pow_pos k)
    unfold clzGo
    rw [hbit]
    by_cases hd : x.toNat / 2 ^ k % 2 = 1
    · rw [if_pos (decide_eq_true hd), hmod, hd]
      refine ⟨by omega, ?_, fun _ => ?_⟩
      · rw [Nat.sub_zero, Nat.pow_succ]; omega
      · simp
    · have hd0 : x.toNat / 2 ^ k % 2 = 0 := by omega
      rw [if_neg (by simp [hd]), hmod, hd0]
      simp only [Nat.mul_zero, Nat.add_zero]
      refine ⟨by omega, ?_, fun hlt => ?_⟩
      · rw [show k + 1 - (1 + clzGo x k) = k - clzGo x k by omega]; exact h2
      · rw [show k + 1 - (1 + clzGo x k) = k - clzGo x k by omega]
        exact h3 (by omega)

theorem clz32_len (x : W) : Spec.IsLen x.toNat (32 - clz32 x) ∧ clz32 x ≤ 32 := by
  obtain ⟨h1, h2, h3⟩ := clzGo_spec x 32 (Nat.le_refl _)
  have hx : x.toNat % 2 ^ 32 = x.toNat := Nat.mod_eq_of_lt x.isLt
  rw [hx] at h2 h3
  refine ⟨⟨h2, ?_⟩, h1⟩
  intro k hk
  apply Classical.byContradiction
  intro hc
  have hlt : clzGo x 32 < 32 := by unfold clz32 at hc; omega
  have := h3 hlt
  have : 2 ^ k ≤ 2 ^ (32 - clzGo x 32 - 1) := Nat.pow_le_pow_right (by decide) (by unfold clz32 at hc; omega)
  omega

theorem val_zero (x : W) (uns : Bool) : Spec.val x uns = 0 ↔ x = 0#32 := by
  have h1 : (Spec.val x uns).natAbs = 0 ↔ Spec.val x uns = 0 := Int.natAbs_eq_zero
  have h2 : x.toNat = 0 ↔ x = 0#32 := ⟨fun h => BitVec.eq_of_toNat_eq h, fun h => by rw [h]; rfl⟩
  rw [← h2]
  unfold Spec.val
  have ht := BitVec.toInt_eq_toNat_cond x
  have := x.isLt
  cases uns
  · simp only [Bool.false_eq_true, if_false]
    split at ht <;> omega
  · simp

theorem toInt_eq {x y : W} : x.toInt = y.toInt ↔ x = y := BitVec.toInt_inj

/-- **C56.** The classification is by zero divisor, signed overflow, smaller magnitude, power-of-two magnitude of
the divisor, in that order, over the integer values of the operands. -/
theorem classify_correct (o : Op) : Spec.IsClass o (classify o) := by
  have hA := abs_toNat o.a o.uns
  have hB := abs_toNat o.b o.uns
  have hov : (o.uns = false ∧ Spec.val o.a o.uns = -2 ^ 31 ∧ Spec.val o.b o.uns = -1) ↔
      (!o.uns && o.a = 0x80000000#32 && o.b = 0xFFFFFFFF#32) = true := by
    cases hu : o.uns with
    | true => simp
    | false =>
      simp only [Spec.val, Bool.false_eq_true, if_false, Bool.not_false, Bool.true_and, Bool.and_eq_true,
        decide_eq_true_eq, true_and]
      rw [show (-2 ^ 31 : Int) = (0x80000000#32).toInt by decide, show (-1 : Int) = (0xFFFFFFFF#32).toInt by decide,
        toInt_eq, toInt_eq]
  unfold classify
  by_cases h0 : o.b = 0#32
  · rw [if_pos h0]; exact .zero ((val_zero _ _).2 h0)
  · rw [if_neg h0]
    have h0' : Spec.val o.b o.uns ≠ 0 := fun h => h0 ((val_zero _ _).1 h)
    by_cases hv : (!o.uns && o.a = 0x80000000#32 && o.b = 0xFFFFFFFF#32) = true
    · rw [if_pos hv]
      obtain ⟨a, b, c⟩ := hov.2 hv
      exact .overflow a b c
    · rw [if_neg hv]
      have hv' := fun h => hv (hov.1 h)
      simp only
      by_cases hl : (absVal o.a o.uns = 0#32 || absVal o.a o.uns < absVal o.b o.uns) = true
      · rw [if_pos hl]
        refine .absLt h0' hv' ?_
        rw [← hA, ← hB]
        simp only [Bool.or_eq_true, decide_eq_true_eq, BitVec.lt_def] at hl
        rcases hl with h | h
        · have : (absVal o.a o.uns).toNat = 0 := by rw [h]; rfl
          omega
        · exact h
      · rw [if_neg hl]
        simp only [Bool.or_eq_true, decide_eq_true_eq, BitVec.lt_def, not_or, Nat.not_lt] at hl
        have hle : (Spec.val o.b o.uns).natAbs ≤ (Spec.val o.a o.uns).natAbs := by rw [← hA, ← hB]; exact hl.2
        by_cases hp : isPow2 (absVal o.b o.uns) = true
        · rw [if_pos hp]
          have := (isPow2_iff _).1 hp
          rw [hB] at this
          exact .pow2 hv' hle this
        · rw [if_neg hp]
          refine .common h0' hle (fun h => hp ((isPow2_iff _).2 ?_))
          rw [hB]; exact h

/-- **C56.** The classes exclude each other, so each division has exactly one. -/
theorem class_unique {o : Op} {k k' : Special} (h : Spec.IsClass o k) (h' : Spec.IsClass o k') : k = k' := by
  have hz : ∀ {x : Int}, x = 0 → ∀ k, x.natAbs ≠ 2 ^ k := by
    intro x hx k
    have := Nat.two_pow_pos k
    omega
  have h1 : ∀ {x : Int}, x = -1 → ∃ k, x.natAbs = 2 ^ k := fun h => ⟨0, by rw [h]; rfl⟩
  cases h with
  | zero a =>
    cases h' with
    | zero => rfl
    | overflow _ _ b => omega
    | absLt b => exact absurd a b
    | pow2 _ _ b => exact (b.elim fun k hk => hz a k hk).elim
    | common b => exact absurd a b
  | overflow a b c =>
    cases h' with
    | zero => omega
    | overflow => rfl
    | absLt _ d => exact absurd ⟨a, b, c⟩ d
    | pow2 d => exact absurd ⟨a, b, c⟩ d
    | common _ _ d => exact absurd (h1 c) d
  | absLt a b c =>
    cases h' with
    | zero d => exact absurd d a
    | overflow d e f => exact absurd ⟨d, e, f⟩ b
    | absLt => rfl
    | pow2 _ d => omega
    | common _ d => omega
  | pow2 a b c =>
    cases h' with
    | zero d => exact (c.elim fun k hk => hz d k hk).elim
    | overflow d e f => exact absurd ⟨d, e, f⟩ a
    | absLt _ _ d => omega
    | pow2 => rfl
    | common _ _ d => exact absurd c d
  | common a b c =>
    cases h' with
    | zero d => exact absurd d a
    | overflow _ _ d => exact absurd (h1 d) c
    | absLt _ _ d => omega
    | pow2 _ _ d => exact absurd d c
    | common => rfl

/-- **C56.** In the common case the number of quotient bits counted is the bit length of the dividend's magnitude
minus that of the divisor's, plus one.  It is between 1 and 31. -/
theorem commonBits_correct (o : Op) (h : Spec.IsClass o .none) {la lb : Nat}
    (ha : Spec.IsLen (Spec.val o.a o.uns).natAbs la) (hb : Spec.IsLen (Spec.val o.b o.uns).natAbs lb) :
    (commonBits o).toNat = la - lb + 1 ∧ lb ≤ la ∧ 1 ≤ (commonBits o).toNat ∧ (commonBits o).toNat ≤ 31 := by
  cases h with
  | common h0 hle hp =>
    have hA := clz32_len (absVal o.a o.uns)
    have hB := clz32_len (absVal o.b o.uns)
    rw [abs_toNat] at hA hB
    have huniq : ∀ {m n k}, Spec.IsLen m n → Spec.IsLen m k → n = k := fun a b =>
      Nat.le_antisymm (a.2 _ b.1) (b.2 _ a.1)
    have ea := huniq ha hA.1
    have eb := huniq hb hB.1
    have hll : lb ≤ la := hb.2 _ (Nat.lt_of_le_of_lt hle ha.1)
    have hlb : 2 ≤ lb := by
      apply Classical.byContradiction
      intro hc
      have h1 := hb.1
      have : 2 ^ lb ≤ 2 ^ 1 := Nat.pow_le_pow_right (by decide) (by omega)
      exact hp ⟨0, by omega⟩
    have hval : commonBits o = BitVec.ofInt 8 ((la - lb + 1 : Nat) : Int) := by
      unfold commonBits
      simp only
      congr 1
      omega
    have : (commonBits o).toNat = la - lb + 1 := by
      rw [hval, BitVec.ofInt_natCast, BitVec.toNat_ofNat]
      exact Nat.mod_eq_of_lt (by omega)
    omega

example : Spec.IsClass ⟨100#32, 7#32, true⟩ .none ∧ commonBits ⟨100#32, 7#32, true⟩ = 5#8 ∧
    commonBits ⟨-100#32, 7#32, false⟩ = 5#8 :=
  ⟨by have := classify_correct ⟨100#32, 7#32, true⟩
      rwa [show classify ⟨100#32, 7#32, true⟩ = .none by decide +kernel] at this,
   by decide +kernel, by decide +kernel⟩

/-! ## The remembered pairs -/

/-- the ring of entries holds the last `E` common pairs: slot `i` the one that is `(n + E - 1 - i) mod E` back -/
structure Ring (d : Divider) (seen : List Op) : Prop where
  pos : 0 < d.entries
  wr : d.wr = seen.length % d.entries
  slot : ∀ i, i < d.entries → d.slot i = seen[(seen.length % d.entries + (d.entries - 1 - i)) % d.entries]?

theorem anyHit_iff (d : Divider) (o : Op) : ∀ k, anyHit d o k = true ↔ ∃ i, i < k ∧ d.slot i = some o
  | 0 => by simp [anyHit]
  | k + 1 => by
    unfold anyHit
    rw [Bool.or_eq_true, anyHit_iff d o k, decide_eq_true_eq]
    constructor
    · rintro (h | ⟨i, hi, h⟩)
      · exact ⟨k, by omega, h⟩
      · exact ⟨i, by omega, h⟩
    · rintro ⟨i, hi, h⟩
      by_cases hk : i = k
      · exact .inl (hk ▸ h)
      · exact .inr ⟨i, by omega, h⟩

theorem back_lt {E r i : Nat} (hr : r < E) (hi : i < E) :
    (r + (E - 1 - i)) % E = if i < r then r - 1 - i else r + (E - 1 - i) := by
  split
  · rw [show r + (E - 1 - i) = (r - 1 - i) + E by omega, Nat.add_mod_right, Nat.mod_eq_of_lt (by omega)]
  · exact Nat.mod_eq_of_lt (by omega)

theorem Ring.hit_iff {d : Divider} {seen : List Op} (h : Ring d seen) (o : Op) :
    anyHit d o d.entries = true ↔ o ∈ seen.take d.entries := by
  rw [anyHit_iff, List.mem_iff_getElem?]
  have hr := Nat.mod_lt seen.length h.pos
  constructor
  · rintro ⟨i, hi, hs⟩
    rw [h.slot i hi] at hs
    refine ⟨(seen.length % d.entries + (d.entries - 1 - i)) % d.entries, ?_⟩
    · rw [List.getElem?_take, if_pos (Nat.mod_lt _ h.pos)]; exact hs
  · rintro ⟨j, hj⟩
    rw [List.getElem?_take] at hj
    split at hj
    · rename_i hlt
      refine ⟨(seen.length % d.entries + (d.entries - 1 - j)) % d.entries, Nat.mod_lt _ h.pos, ?_⟩
      rw [h.slot _ (Nat.mod_lt _ h.pos)]
      have := back_lt hr hlt
      have h2 := back_lt hr (Nat.mod_lt (seen.length % d.entries + (d.entries - 1 - j)) h.pos)
      rw [h2]
      rw [this]
      rw [← hj]
      congr 1
      split <;> split <;> omega
    · cases hj

theorem Ring.push {d : Divider} {seen : List Op} (h : Ring d seen) (o : Op) (st : DStats) :
    Ring { d with stats := st, slot := fun i => if i = d.wr then some o else d.slot i
                  wr := (d.wr + 1) % d.entries } (o :: seen) := by
  have hr := Nat.mod_lt seen.length h.pos
  refine ⟨h.pos, ?_, ?_⟩
  · show (d.wr + 1) % d.entries = (seen.length + 1) % d.entries
    rw [h.wr, Nat.mod_add_mod]
  · intro i hi
    show (if i = d.wr then some o else d.slot i) = (o :: seen)[((seen.length + 1) % d.entries + (d.entries - 1 - i)) % d.entries]?
    have hi' : i < d.entries := hi
    have hs : (seen.length + 1) % d.entries =
        if seen.length % d.entries + 1 = d.entries then 0 else seen.length % d.entries + 1 := by
      rw [Nat.add_mod]
      split
      · rename_i he
        by_cases h1 : d.entries = 1
        · rw [h1]; omega
        · rw [Nat.mod_eq_of_lt (show 1 < d.entries by omega), he, Nat.mod_self]
      · rw [Nat.mod_eq_of_lt (show 1 < d.entries by omega), Nat.mod_eq_of_lt (by omega)]
    have hr' : (seen.length + 1) % d.entries < d.entries := Nat.mod_lt _ h.pos
    rw [back_lt hr' hi']
    by_cases he : i = d.wr
    · rw [if_pos he]
      rw [h.wr] at he
      rw [hs]
      have : (if i < (if seen.length % d.entries + 1 = d.entries then 0 else seen.length % d.entries + 1) then
          (if seen.length % d.entries + 1 = d.entries then 0 else seen.length % d.entries + 1) - 1 - i
        else (if seen.length % d.entries + 1 = d.entries then 0 else seen.length % d.entries + 1) +
          (d.entries - 1 - i)) = 0 := by
        split <;> split <;> omega
      rw [this]
      rfl
    · rw [if_neg he, h.slot i hi', back_lt hr hi']
      rw [h.wr] at he
      rw [hs]
      have : (if i < (if seen.length % d.entries + 1 = d.entries then 0 else seen.length % d.entries + 1) then
          (if seen.length % d.entries + 1 = d.entries then 0 else seen.length % d.entries + 1) - 1 - i
        else (if seen.length % d.entries + 1 = d.entries then 0 else seen.length % d.entries + 1) +
          (d.entries - 1 - i)) =
          (if i < seen.length % d.entries then seen.length % d.entries - 1 - i
            else seen.length % d.entries + (d.entries - 1 - i)) + 1 := by
        split <;> split <;> split <;> omega
      rw [this]
      rfl

/-! ## Whole runs -/

open Spec (Out)

/-- the statistics `s'` are `s` plus one count for each of the profiled outcomes `os` -/
structure Adds (qb : Op → Nat) (s : DStats) (os : List (Op × Out)) (s' : DStats) : Prop where
  total : s'.total = s.total + os.length
  hits : s'.hits = s.hits + os.countP (fun x => x.2 = .hit)
  specials : s'.specials = s.specials + os.countP (fun x => x.2 ≠ .hit ∧ x.2 ≠ .common)
  commons : s'.commons = s.commons + os.countP (fun x => x.2 = .common)
  divByZero : s'.divByZero = s.divByZero + os.countP (fun x => x.2 = .special .divByZero)
  overflow : s'.overflow = s.overflow + os.countP (fun x => x.2 = .special .overflow)
  absLt : s'.absLt = s.absLt + os.countP (fun x => x.2 = .special .absLt)
  pow2 : s'.pow2 = s.pow2 + os.countP (fun x => x.2 = .special .pow2)
  bits : s'.bits = s.bits + ((os.filter (fun x => x.2 = .common)).map (fun x => qb x.1)).sum
  min : s'.min.toNat = (os.filter (fun x => x.2 = .common)).foldl (fun m x => Nat.min m (qb x.1)) s.min.toNat
  max : s'.max.toNat = (os.filter (fun x => x.2 = .common)).foldl (fun m x => Nat.max m (qb x.1)) s.max.toNat

/-- the model's own count -/
abbrev mbits (o : Op) : Nat := (commonBits o).toNat

theorem Adds.refl {bits : Op → Nat} (s : DStats) : Adds bits s [] s := by constructor <;> simp

theorem Adds.cons {bits : Op → Nat} {s s₁ s₂ : DStats} {x : Op × Out} {os : List (Op × Out)}
    (h₁ : Adds bits s [x] s₁) (h₂ : Adds bits s₁ os s₂) : Adds bits s (x :: os) s₂ := by
  have hc : ∀ p : Op × Out → Bool, (x :: os).countP p = [x].countP p + os.countP p := fun p => by
    rw [show x :: os = [x] ++ os from rfl, List.countP_append]
  have hf : ∀ p : Op × Out → Bool, (x :: os).filter p = [x].filter p ++ os.filter p := fun p => by
    rw [show x :: os = [x] ++ os from rfl, List.filter_append]
  constructor
  · rw [h₂.total, h₁.total]; simp; omega
  · rw [h₂.hits, h₁.hits, hc]; omega
  · rw [h₂.specials, h₁.specials, hc]; omega
  · rw [h₂.commons, h₁.commons, hc]; omega
  · rw [h₂.divByZero, h₁.divByZero, hc]; omega
  · rw [h₂.overflow, h₁.overflow, hc]; omega
  · rw [h₂.absLt, h₁.absLt, hc]; omega
  · rw [h₂.pow2, h₁.pow2, hc]; omega
  · rw [h₂.bits, h₁.bits, hf, List.map_append, List.sum_append]; omega
  · rw [h₂.min, h₁.min, hf, List.foldl_append]
  · rw [h₂.max, h₁.max, hf, List.foldl_append]

/-- one division -/
theorem eval_step {d : Divider} {seen : List Op} (h : Ring d seen) (o : Op) :
    ∃ d', eval d o = .ok d' ∧ d'.entries = d.entries ∧ d'.stats.prof = d.stats.prof ∧
      Ring d' (Spec.step d.entries classify seen o).2 ∧
      Adds mbits d.stats (if d.stats.prof then [(o, (Spec.step d.entries classify seen o).1)] else []) d'.stats := by
  unfold eval Spec.step
  have hw : d.wr < d.entries := by rw [h.wr]; exact Nat.mod_lt _ h.pos
  by_cases hh : anyHit d o d.entries = true
  · rw [if_pos hh, if_pos ((h.hit_iff o).1 hh)]
    refine ⟨_, rfl, rfl, ?_, ⟨h.pos, h.wr, h.slot⟩, ?_⟩
    · unfold DStats.hit; cases hp : d.stats.prof <;> simp [hp]
    · unfold DStats.hit
      cases hp : d.stats.prof
      · simpa using Adds.refl _
      · constructor <;> simp
  · rw [if_neg hh, if_neg (fun hc => hh ((h.hit_iff o).2 hc))]
    simp only
    by_cases hk : classify o = .none
    · rw [if_neg (by simp [hk]), if_pos hk, if_pos hw]
      refine ⟨_, rfl, rfl, ?_, h.push o _, ?_⟩
      · unfold DStats.common; cases hp : d.stats.prof <;> simp [hp]
      · unfold DStats.common
        cases hp : d.stats.prof
        · simpa using Adds.refl _
        · constructor <;> simp
          · unfold mbits; rw [Nat.min_eq_min]; split <;> rename_i hl <;> rw [BitVec.lt_def] at hl <;> omega
          · unfold mbits; rw [Nat.max_eq_max]; split <;> rename_i hl <;> rw [BitVec.lt_def] at hl <;> omega
    · rw [if_pos (by simpa using hk), if_neg hk]
      refine ⟨_, rfl, rfl, ?_, ⟨h.pos, h.wr, h.slot⟩, ?_⟩
      · unfold DStats.special DStats.collect
        cases hp : d.stats.prof <;> cases classify o <;> simp [hp]
      · unfold DStats.special DStats.collect
        cases hp : d.stats.prof
        · simpa using Adds.refl _
        · cases hc : classify o
          · exact absurd hc hk
          all_goals constructor <;> simp

theorem run_from : ∀ (es : List Ev) {d : Divider} {seen : List Op}, Ring d seen →
    ∃ d', run es d = .ok d' ∧ Adds mbits d.stats (Spec.outcomes d.entries classify d.stats.prof seen es) d'.stats
  | [], d, _, _ => ⟨d, rfl, Adds.refl _⟩
  | .prof on :: t, d, seen, h => by
    obtain ⟨d', h1, h2⟩ := run_from t (d := profiling d on) ⟨h.pos, h.wr, h.slot⟩
    refine ⟨d', h1, ?_⟩
    constructor
    · exact h2.total
    · exact h2.hits
    · exact h2.specials
    · exact h2.commons
    · exact h2.divByZero
    · exact h2.overflow
    · exact h2.absLt
    · exact h2.pow2
    · exact h2.bits
    · exact h2.min
    · exact h2.max
  | .op o :: t, d, seen, h => by
    obtain ⟨d₁, h1, h2, h3, h4, h5⟩ := eval_step h o
    obtain ⟨d', h6, h7⟩ := run_from t h4
    refine ⟨d', ?_, ?_⟩
    · simp only [run, h1]; exact h6
    · rw [h2, h3] at h7
      unfold Spec.outcomes
      simp only
      cases hp : d.stats.prof
      · rw [hp] at h5 h7
        simp only [Bool.false_eq_true, if_false] at h5 ⊢
        have e : ∀ {a b c : DStats} {os}, Adds mbits a [] b → Adds mbits b os c → Adds mbits a os c := by
          intro a b c os x y
          constructor
          · rw [y.total, x.total]; rfl
          · rw [y.hits, x.hits]; rfl
          · rw [y.specials, x.specials]; rfl
          · rw [y.commons, x.commons]; rfl
          · rw [y.divByZero, x.divByZero]; rfl
          · rw [y.overflow, x.overflow]; rfl
          · rw [y.absLt, x.absLt]; rfl
          · rw [y.pow2, x.pow2]; rfl
          · rw [y.bits, x.bits]; rfl
          · rw [y.min, x.min]; rfl
          · rw [y.max, x.max]; rfl
        exact e h5 h7
      · rw [hp] at h5 h7
        simp only [if_true] at h5 ⊢
        exact h5.cons h7

theorem run_model (E : W) (hE : E ≠ 0#32) (es : List Ev) : ∃ d d', make E = .ok d ∧ run es d = .ok d' ∧
    Adds mbits {} (Spec.outcomes E.toNat classify false [] es) d'.stats := by
  have hpos : 0 < E.toNat := Nat.pos_of_ne_zero fun h => hE (BitVec.eq_of_toNat_eq h)
  obtain ⟨d', h1, h2⟩ := run_from es (d := { entries := E.toNat }) (seen := []) ⟨hpos, by simp, fun i _ => rfl⟩
  exact ⟨{ entries := E.toNat }, d', by unfold make; rw [if_neg hE], h1, h2⟩

/-- number of divisions among the events while profiling is on -/
def profiledOps : Bool → List Ev → Nat
  | _, [] => 0
  | _, .prof b :: t => profiledOps b t
  | on, .op _ :: t => (if on then 1 else 0) + profiledOps on t

theorem outcomes_length (E : Nat) (cls : Op → Special) : ∀ (es : List Ev) (on : Bool) (seen : List Op),
    (Spec.outcomes E cls on seen es).length = profiledOps on es
  | [], _, _ => rfl
  | .prof b :: t, _, seen => outcomes_length E cls t b seen
  | .op o :: t, on, seen => by
    unfold Spec.outcomes profiledOps
    cases on
    · simp [outcomes_length E cls t]
    · simp [outcomes_length E cls t]; omega

/-- outcomes the specification produces: a special outcome has a special class -/
theorem outcomes_class (E : Nat) : ∀ (es : List Ev) (on : Bool) (seen : List Op) (x : Op × Out),
    x ∈ Spec.outcomes E classify on seen es →
      x.2 = .hit ∨ (x.2 = .common ∧ Spec.IsClass x.1 .none) ∨
        ∃ k, k ≠ .none ∧ x.2 = .special k ∧ Spec.IsClass x.1 k
  | [], _, _, x, h => by cases h
  | .prof b :: t, _, seen, x, h => outcomes_class E t b seen x h
  | .op o :: t, on, seen, x, h => by
    unfold Spec.outcomes at h
    simp only at h
    split at h
    · rcases List.mem_cons.1 h with h | h
      · subst h
        unfold Spec.step
        split
        · exact .inl rfl
        · split
          · rename_i hk; exact .inr (.inl ⟨rfl, hk ▸ classify_correct o⟩)
          · rename_i hk; exact .inr (.inr ⟨_, hk, rfl, classify_correct o⟩)
      · exact outcomes_class E t on _ x h
    · exact outcomes_class E t on _ x h

/-- a quotient-bit count: in the common case, bit length of the dividend's magnitude minus that of the divisor's,
plus one -/
def Spec.IsBits (bits : Op → Nat) : Prop :=
  ∀ o la lb, Spec.IsClass o .none → Spec.IsLen (Spec.val o.a o.uns).natAbs la →
    Spec.IsLen (Spec.val o.b o.uns).natAbs lb → bits o = la - lb + 1

theorem mbits_isBits : Spec.IsBits mbits := fun o _ _ h ha hb => (commonBits_correct o h ha hb).1

/-- **C56.** For every number of entries from 1 and every sequence of divisions and profiling switches, the divider
never throws, and its statistics are the counts over the profiled divisions of the specification's outcomes: a hit
exactly when the operands are among the last `E` common cases, else special by class, else common with its
quotient bits.  `cls` and `bits` are any functions meeting the specification. -/
theorem stats_refine (E : W) (hE : E ≠ 0#32) (es : List Ev) (cls : Op → Special)
    (hcls : ∀ o, Spec.IsClass o (cls o)) (bits : Op → Nat) (hbits : Spec.IsBits bits) :
    ∃ d d', make E = .ok d ∧ run es d = .ok d' ∧
      Adds bits {} (Spec.outcomes E.toNat cls false [] es) d'.stats := by
  obtain ⟨d, d', h1, h2, h⟩ := run_model E hE es
  have hc : cls = classify := funext fun o => class_unique (hcls o) (classify_correct o)
  subst hc
  refine ⟨d, d', h1, h2, ?_⟩
  have hb : ∀ x ∈ (Spec.outcomes E.toNat classify false [] es).filter (fun x => x.2 = .common), mbits x.1 = bits x.1 := by
    intro x hx
    rw [List.mem_filter, decide_eq_true_eq] at hx
    rcases outcomes_class E.toNat es false [] x hx.1 with h | h | ⟨k, _, h, _⟩
    · rw [hx.2] at h; cases h
    · have ha := (clz32_len (absVal x.1.a x.1.uns)).1
      have hb := (clz32_len (absVal x.1.b x.1.uns)).1
      rw [abs_toNat] at ha hb
      rw [mbits_isBits _ _ _ h.2 ha hb, hbits _ _ _ h.2 ha hb]
    · rw [hx.2] at h; cases h
  have hfold : ∀ (f : Nat → Nat → Nat) (l : List (Op × Out)) (m : Nat), (∀ x ∈ l, mbits x.1 = bits x.1) →
      l.foldl (fun m x => f m (mbits x.1)) m = l.foldl (fun m x => f m (bits x.1)) m := by
    intro f l
    induction l with
    | nil => intro _ _; rfl
    | cons x t ih =>
      intro m hx
      simp only [List.foldl_cons]
      rw [hx x List.mem_cons_self, ih _ fun y hy => hx y (List.mem_cons_of_mem _ hy)]
  exact ⟨h.total, h.hits, h.specials, h.commons, h.divByZero, h.overflow, h.absLt, h.pow2,
    by rw [h.bits, List.map_congr_left hb], by rw [h.min, hfold _ _ _ hb], by rw [h.max, hfold _ _ _ hb]⟩

example : (∀ o, Spec.IsClass o (classify o)) ∧ Spec.IsBits mbits := ⟨classify_correct, mbits_isBits⟩

/-- **C56.** Every profiled division is counted exactly once: as a hit, special or common, and each special one
under exactly one of the four cases. -/
theorem counted_once (E : W) (hE : E ≠ 0#32) (es : List Ev) : ∃ d d', make E = .ok d ∧ run es d = .ok d' ∧
    d'.stats.total = profiledOps false es ∧
    d'.stats.hits + d'.stats.specials + d'.stats.commons = d'.stats.total ∧
    d'.stats.divByZero + d'.stats.overflow + d'.stats.absLt + d'.stats.pow2 = d'.stats.specials := by
  obtain ⟨d, d', h1, h2, h⟩ := run_model E hE es
  refine ⟨d, d', h1, h2, ?_, ?_, ?_⟩
  · rw [h.total, outcomes_length]; simp
  · rw [h.hits, h.specials, h.commons, h.total]
    generalize Spec.outcomes E.toNat classify false [] es = os
    induction os with
    | nil => rfl
    | cons x t ih =>
      simp only [List.countP_cons, List.length_cons]
      rcases x with ⟨o, _ | k | _⟩ <;> simp at ih ⊢ <;> omega
  · rw [h.divByZero, h.overflow, h.absLt, h.pow2, h.specials]
    have := outcomes_class E.toNat es false []
    generalize Spec.outcomes E.toNat classify false [] es = os at this
    induction os with
    | nil => rfl
    | cons x t ih =>
      have iht := ih fun y hy => this y (List.mem_cons_of_mem _ hy)
      have hx := this x List.mem_cons_self
      simp only [List.countP_cons]
      rcases x with ⟨o, _ | k | _⟩
      · simp at iht ⊢; omega
      · cases k
        · rcases hx with hx | ⟨hx, _⟩ | ⟨k, hk, hx, _⟩
          · cases hx
          · cases hx
          · injection hx with hx; exact absurd hx.symm hk
        all_goals (simp at iht ⊢; omega)
      · simp at iht ⊢; omega

/-- the divider refuses to be built with no entries -/
theorem make_zero : make 0#32 = .abort := rfl

/-- three entries: a pair repeats with two common pairs between and hits; with three between it is gone -/
example : (match make 3#32 with
    | .ok d => match run (.prof true :: [(100, 7), (101, 7), (102, 7), (100, 7), (103, 7), (100, 7), (5, 0), (8, 4), (3, 9)].map
        fun p => .op ⟨BitVec.ofNat 32 p.1, BitVec.ofNat 32 p.2, true⟩) d with
      | .ok d => [d.stats.total, d.stats.hits, d.stats.specials, d.stats.commons, d.stats.divByZero, d.stats.pow2, d.stats.absLt]
      | _ => []
    | _ => []) = [9, 1, 3, 5, 1, 1, 1] := by decide +kernel

end Ama.Div
