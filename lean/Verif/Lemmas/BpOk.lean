import Verif.Model.Bp
/-!
# Well-formed predictors stay well-formed
-/
namespace Ama.Bp

theorem mask_lt {n : Nat} (hn : n ≤ 30) (x : W) : (x &&& BitVec.ofNat 32 (2 ^ n - 1)).toNat < 2 ^ n := by
  rw [BitVec.toNat_and, BitVec.toNat_ofNat]
  have h1 : 0 < 2 ^ n := Nat.two_pow_pos n
  have h2 : 2 ^ n ≤ 2 ^ 30 := Nat.pow_le_pow_right (by decide) hn
  rw [Nat.mod_eq_of_lt (by omega), Nat.and_two_pow_sub_one_eq_mod]
  exact Nat.mod_lt _ h1

/-- a table as `Pht.make` builds it, with counters in range; `b` counter bits, `n` index bits -/
structure PhtOk (t : Pht) (n b : Nat) : Prop where
  n1 : 1 ≤ n
  n30 : n ≤ 30
  b1 : 1 ≤ b
  b8 : b ≤ 8
  size : t.n = 2 ^ n
  mask : t.mask = BitVec.ofNat 32 (2 ^ n - 1)
  max : t.cntMax = 2 ^ b - 1
  thr : t.thr = if b = 1 then 1 else (2 ^ b - 1) / 2
  cnt : ∀ i, t.cnt i ≤ t.cntMax

theorem pow_b {b : Nat} (h1 : 1 ≤ b) : 2 ≤ 2 ^ b := by
  calc 2 = 2 ^ 1 := rfl
    _ ≤ 2 ^ b := Nat.pow_le_pow_right (by decide) h1

theorem pow_b2 {b : Nat} (h1 : 2 ≤ b) : 4 ≤ 2 ^ b := by
  calc 4 = 2 ^ 2 := rfl
    _ ≤ 2 ^ b := Nat.pow_le_pow_right (by decide) h1

theorem PhtOk.thr_pos {t : Pht} {n b : Nat} (h : PhtOk t n b) : 1 ≤ t.thr ∧ t.thr ≤ t.cntMax := by
  rw [h.thr, h.max]
  have := pow_b h.b1
  split
  · omega
  · have := pow_b2 (b := b) (by have := h.b1; omega)
    omega

theorem make_pht {i c : BitVec 8} {t : Pht} (h : Pht.make i c = .ok t) : PhtOk t i.toNat c.toNat := by
  unfold Pht.make at h
  split at h
  · cases h
  · rename_i hc
    simp only [not_or, Nat.not_lt] at hc
    obtain ⟨h1, h2, h3, h4⟩ := hc
    have h1' : c.toNat ≠ 0 := fun e => h1 (BitVec.eq_of_toNat_eq e)
    have h2' : i.toNat ≠ 0 := fun e => h2 (BitVec.eq_of_toNat_eq e)
    simp only [Res.ok.injEq] at h
    subst h
    have hb := pow_b (b := c.toNat) (by omega)
    refine ⟨by omega, by omega, by omega, by omega, rfl, rfl, rfl, ?_, ?_⟩
    · by_cases e : c.toNat = 1
      · rw [e]
      · have := pow_b2 (b := c.toNat) (by omega)
        simp only [if_neg e]
        rw [if_neg (by omega)]
    · intro j
      simp only
      split <;> omega

theorem up_ok {t : Pht} {n b : Nat} (h : PhtOk t n b) (i : Nat) : PhtOk (t.up i) n b := by
  unfold Pht.up
  split
  · rename_i hl
    refine ⟨h.1, h.2, h.3, h.4, h.5, h.6, h.7, h.8, ?_⟩
    intro j
    simp only
    split
    · omega
    · exact h.9 j
  · exact h

theorem down_ok {t : Pht} {n b : Nat} (h : PhtOk t n b) (i : Nat) : PhtOk (t.down i) n b := by
  unfold Pht.down
  split
  · refine ⟨h.1, h.2, h.3, h.4, h.5, h.6, h.7, h.8, ?_⟩
    intro j
    simp only
    split
    · have := h.9 i; omega
    · exact h.9 j
  · exact h

theorem update_ok {t : Pht} {n b : Nat} (h : PhtOk t n b) (tk : Bool) {i : W} (hi : i.toNat < t.n) :
    ∃ t', t.update tk i = .ok t' ∧ PhtOk t' n b := by
  unfold Pht.update
  rw [if_pos hi]
  cases tk
  · exact ⟨_, rfl, down_ok h _⟩
  · exact ⟨_, rfl, up_ok h _⟩

theorem update2_ok {t : Pht} {n b : Nat} (h : PhtOk t n b) (x y : Bool) {i : W} (hi : i.toNat < t.n) :
    ∃ t', t.update2 x y i = .ok t' ∧ PhtOk t' n b := by
  unfold Pht.update2
  rw [if_pos hi]
  cases x <;> cases y
  · exact ⟨_, rfl, h⟩
  · exact ⟨_, rfl, down_ok h _⟩
  · exact ⟨_, rfl, up_ok h _⟩
  · exact ⟨_, rfl, h⟩

/-- the shifts of `get_pc` stay in range -/
def BaseOk (b : Base) : Prop := b.low ≤ 2 ∧ b.low + b.pcBits * b.folds < 32

theorem make_base {low : Nat} (hl : low ≤ 2) {c : PCfg} {b : Base} (h : Base.make low c = .ok b) :
    BaseOk b ∧ b.predicted = none ∧ b.stats = {} := by
  unfold Base.make at h
  split at h
  · simp only [Res.ok.injEq] at h; subst h; exact ⟨⟨hl, by simp; omega⟩, rfl, rfl⟩
  · split at h
    · cases h
    · simp only [Res.ok.injEq] at h
      subst h
      refine ⟨⟨hl, ?_⟩, rfl, rfl⟩
      have : c.pcBits.toNat * ((17 - low) / c.pcBits.toNat) ≤ 17 - low := Nat.mul_div_le _ _
      simp only
      omega

theorem getPcGo_ok {b : Base} {n : Nat} (hn : n ≤ 30) (pc : W) : ∀ (k p : Nat) (acc : W),
    (k = 0 ∨ b.low + b.pcBits * (p + k - 1) < 32) → acc.toNat < 2 ^ n →
    ∃ i, b.getPcGo pc (BitVec.ofNat 32 (2 ^ n - 1)) k p acc = .ok i ∧ i.toNat < 2 ^ n
  | 0, p, acc, _, ha => ⟨acc, rfl, ha⟩
  | k + 1, p, acc, h, ha => by
    have hp : b.low + b.pcBits * p < 32 := by
      rcases h with h | h
      · cases h
      · have : b.pcBits * p ≤ b.pcBits * (p + (k + 1) - 1) := Nat.mul_le_mul_left _ (by omega)
        omega
    unfold Base.getPcGo
    rw [if_pos hp]
    apply getPcGo_ok hn pc k (p + 1)
    · cases k with
      | zero => exact .inl rfl
      | succ k =>
        right
        rcases h with h | h
        · cases h
        · have e : p + 1 + (k + 1) - 1 = p + (k + 1 + 1) - 1 := by omega
          rw [e]; exact h
    · rw [BitVec.toNat_xor]
      exact Nat.xor_lt_two_pow ha (mask_lt hn _)

theorem getPc_ok {b : Base} (hb : BaseOk b) {n : Nat} (hn : n ≤ 30) (pc : W) :
    ∃ i, b.getPc pc (BitVec.ofNat 32 (2 ^ n - 1)) = .ok i ∧ i.toNat < 2 ^ n := by
  apply getPcGo_ok hn
  · right
    have e : 0 + (b.folds + 1) - 1 = b.folds := by omega
    rw [e]; exact hb.2
  · exact Nat.two_pow_pos n

/-- the parts of an object that its class keeps consistent -/
def PredOk : Pred → Prop
  | .sttc b _ => BaseOk b
  | .bimodal b t _ => BaseOk b ∧ ∃ n c, PhtOk t n c
  | .local b t pm e _ hm _ => BaseOk b ∧ ∃ n c, PhtOk t n c ∧ hm = t.mask ∧
      ∃ k, k ≤ 30 ∧ e = 2 ^ k ∧ pm = BitVec.ofNat 32 (2 ^ k - 1)
  | .global b t m _ _ => BaseOk b ∧ ∃ n c, PhtOk t n c ∧ m = t.mask
  | .gselect b t gb im _ pm _ _ => BaseOk b ∧ ∃ n c, PhtOk t n c ∧ im = t.mask ∧ gb < 32 ∧
      ∃ k, k ≤ 30 ∧ pm = BitVec.ofNat 32 (2 ^ k - 1)
  | .gshare b t go im _ pm _ _ => BaseOk b ∧ ∃ n c, PhtOk t n c ∧ im = t.mask ∧ go < 32 ∧
      ∃ k, k ≤ 30 ∧ pm = BitVec.ofNat 32 (2 ^ k - 1)
  | .ideal b => BaseOk b
  | .none b => BaseOk b
  | .combined b t p0 p1 _ => BaseOk b ∧ (∃ n c, PhtOk t n c) ∧ PredOk p0 ∧ PredOk p1

theorem intMask_ok {n : Nat} {m : W} (h : intMask n = .ok m) : n ≤ 30 ∧ m = BitVec.ofNat 32 (2 ^ n - 1) := by
  unfold intMask at h
  split at h
  · cases h
  · split at h
    · cases h
    · simp only [Res.ok.injEq] at h; exact ⟨by omega, h.symm⟩

theorem bind_eq_ok {α β : Type} {x : Res α} {f : α → Res β} {v : β} (h : (x >>= f) = .ok v) :
    ∃ a, x = .ok a ∧ f a = .ok v := by
  cases x with
  | ok a => exact ⟨a, rfl, h⟩
  | ub k => cases h
  | abort => cases h

theorem make1_ok {low : Nat} (hl : low ≤ 2) {k : Kind} {c : PCfg} {p : Pred} (h : make1 low k c = .ok p) :
    PredOk p ∧ p.base.stats = {} ∧ p.base.predicted = none := by
  unfold make1 at h
  obtain ⟨b, hb, h⟩ := bind_eq_ok h
  obtain ⟨hb1, hb2, hb3⟩ := make_base hl hb
  cases k with
  | sttc =>
    simp only at h
    split at h
    · cases h
    · simp only [Res.ok.injEq] at h; subst h; exact ⟨hb1, hb3, hb2⟩
  | bimodal =>
    obtain ⟨t, ht, h⟩ := bind_eq_ok h
    simp only [Res.ok.injEq] at h
    subst h
    exact ⟨⟨hb1, _, _, make_pht ht⟩, hb3, hb2⟩
  | «local» =>
    simp only at h
    split at h
    · cases h
    · rename_i hp
      split at h
      · cases h
      · obtain ⟨t, ht, h⟩ := bind_eq_ok h
        simp only [Res.ok.injEq] at h
        subst h
        have := make_pht ht
        exact ⟨⟨hb1, _, _, this, this.mask.symm, c.pcBits.toNat, by omega, rfl, rfl⟩, hb3, hb2⟩
  | global =>
    obtain ⟨m, hm, h⟩ := bind_eq_ok h
    obtain ⟨t, ht, h⟩ := bind_eq_ok h
    simp only [Res.ok.injEq] at h
    subst h
    have := make_pht ht
    exact ⟨⟨hb1, _, _, this, (intMask_ok hm).2.trans this.mask.symm⟩, hb3, hb2⟩
  | gselect =>
    obtain ⟨m, hm, h⟩ := bind_eq_ok h
    obtain ⟨gm, hgm, h⟩ := bind_eq_ok h
    obtain ⟨pm, hpm, h⟩ := bind_eq_ok h
    obtain ⟨t, ht, h⟩ := bind_eq_ok h
    simp only [Res.ok.injEq] at h
    subst h
    have := make_pht ht
    obtain ⟨h1, rfl⟩ := intMask_ok hgm
    obtain ⟨h2, rfl⟩ := intMask_ok hpm
    exact ⟨⟨hb1, _, _, this, (intMask_ok hm).2.trans this.mask.symm, by omega, _, h2, rfl⟩, hb3, hb2⟩
  | gshare =>
    obtain ⟨m, hm, h⟩ := bind_eq_ok h
    obtain ⟨gm, hgm, h⟩ := bind_eq_ok h
    obtain ⟨pm, hpm, h⟩ := bind_eq_ok h
    obtain ⟨t, ht, h⟩ := bind_eq_ok h
    simp only [Res.ok.injEq] at h
    subst h
    have := make_pht ht
    obtain ⟨h1, rfl⟩ := intMask_ok hgm
    obtain ⟨h2, rfl⟩ := intMask_ok hpm
    exact ⟨⟨hb1, _, _, this, (intMask_ok hm).2.trans this.mask.symm, by omega, _, h2, rfl⟩, hb3, hb2⟩
  | ideal => simp only [Res.ok.injEq] at h; subst h; exact ⟨hb1, hb3, hb2⟩
  | none => simp only [Res.ok.injEq] at h; subst h; exact ⟨hb1, hb3, hb2⟩

theorem make_ok {low : Nat} (hl : low ≤ 2) : ∀ {d : Def} {p : Pred}, make low d = .ok p →
    PredOk p ∧ p.base.stats = {} ∧ p.base.predicted = none
  | .one k c, p, h => make1_ok hl h
  | .comb c d0 d1, p, h => by
    unfold make at h
    obtain ⟨p0, h0, h⟩ := bind_eq_ok h
    obtain ⟨p1, h1, h⟩ := bind_eq_ok h
    obtain ⟨b, hb, h⟩ := bind_eq_ok h
    obtain ⟨t, ht, h⟩ := bind_eq_ok h
    simp only [Res.ok.injEq] at h
    subst h
    obtain ⟨hb1, hb2, hb3⟩ := make_base hl hb
    exact ⟨⟨hb1, ⟨_, _, make_pht ht⟩, (make_ok hl h0).1, (make_ok hl h1).1⟩, hb3, hb2⟩

/-- no ideal predictor waiting for its first answer -/
def Live : Pred → Prop
  | .ideal b => b.predicted.isSome = true
  | .combined _ _ p0 p1 _ => Live p0 ∧ Live p1
  | _ => True

/-- after `predict`: an update may follow -/
def Ready : Pred → Prop
  | .sttc b _ => b.predicted.isSome = true
  | .bimodal b t l => b.predicted.isSome = true ∧ ∃ i, l = some i ∧ i.toNat < t.n
  | .local b t _ e _ _ l => b.predicted.isSome = true ∧ ∃ i h, l = some (i, h) ∧ i.toNat < e ∧ h.toNat < t.n
  | .global b t _ _ l => b.predicted.isSome = true ∧ ∃ i, l = some i ∧ i.toNat < t.n
  | .gselect b t _ _ _ _ _ l => b.predicted.isSome = true ∧ ∃ i, l = some i ∧ i.toNat < t.n
  | .gshare b t _ _ _ _ _ l => b.predicted.isSome = true ∧ ∃ i, l = some i ∧ i.toNat < t.n
  | .ideal b => b.predicted.isSome = true
  | .none _ => True
  | .combined b t p0 p1 l => b.predicted.isSome = true ∧ Ready p0 ∧ Ready p1 ∧ ∃ i, l = some i ∧ i.toNat < t.n

theorem thr_ok {t : Pht} {i : W} (h : i.toNat < t.n) : t.thrCheck i = .ok (decide (t.cnt i.toNat ≥ t.thr)) := by
  unfold Pht.thrCheck; rw [if_pos h]

theorem common_ok {b : Base} (hb : BaseOk b) (tg pc : W) (tk : Bool) :
    BaseOk (b.common tg pc tk).2 ∧ (b.common tg pc tk).2.predicted.isSome = true := ⟨hb, rfl⟩

/-- `predict` works or reads an unset prediction, never anything worse -/
theorem predict_ok (tg pc : W) : ∀ {p : Pred}, PredOk p →
    (∃ v p', predict tg pc p = .ok (v, p') ∧ PredOk p' ∧ Ready p' ∧ Live p') ∨
      (¬ Live p ∧ predict tg pc p = .ub .uninit)
  | .sttc b m, h => .inl ⟨_, _, rfl, h, rfl, trivial⟩
  | .bimodal b t l, ⟨hb, n, c, ht⟩ => by
    obtain ⟨i, e, hi⟩ := getPc_ok hb ht.n30 pc
    rw [← ht.mask] at e
    rw [← ht.size] at hi
    left
    simp only [predict, e, Res.bind_ok, thr_ok hi]
    exact ⟨_, _, rfl, ⟨hb, n, c, ht⟩, ⟨rfl, i, rfl, hi⟩, trivial⟩
  | .local b t pm e hs hm l, ⟨hb, n, c, ht, e1, k, hk, e2, e3⟩ => by
    obtain ⟨i, ei, hi⟩ := getPc_ok hb hk pc
    subst e1 e2 e3
    have hh : (hs i.toNat &&& t.mask).toNat < t.n := by rw [ht.mask, ht.size]; exact mask_lt ht.n30 _
    left
    simp only [predict, ei, Res.bind_ok, if_pos hi, thr_ok hh]
    exact ⟨_, _, rfl, ⟨hb, n, c, ht, rfl, k, hk, rfl, rfl⟩, ⟨rfl, i, _, rfl, hi, hh⟩, trivial⟩
  | .global b t m g l, ⟨hb, n, c, ht, e1⟩ => by
    subst e1
    have hh : (g &&& t.mask).toNat < t.n := by rw [ht.mask, ht.size]; exact mask_lt ht.n30 _
    left
    simp only [predict, Res.bind_ok, thr_ok hh]
    exact ⟨_, _, rfl, ⟨hb, n, c, ht, rfl⟩, ⟨rfl, _, rfl, hh⟩, trivial⟩
  | .gselect b t gb im gm pm g l, ⟨hb, n, c, ht, e1, hg, k, hk, e2⟩ => by
    subst e1 e2
    obtain ⟨pp, ep, _⟩ := getPc_ok hb hk pc
    have hh : ((pp <<< gb ||| g &&& gm) &&& t.mask).toNat < t.n := by rw [ht.mask, ht.size]; exact mask_lt ht.n30 _
    left
    simp only [predict, ep, Res.bind_ok, gselIdx, if_pos hg, thr_ok hh]
    exact ⟨_, _, rfl, ⟨hb, n, c, ht, rfl, hg, k, hk, rfl⟩, ⟨rfl, _, rfl, hh⟩, trivial⟩
  | .gshare b t go im gm pm g l, ⟨hb, n, c, ht, e1, hg, k, hk, e2⟩ => by
    subst e1 e2
    obtain ⟨pp, ep, _⟩ := getPc_ok hb hk pc
    have hh : ((pp ^^^ (g &&& gm) <<< go) &&& t.mask).toNat < t.n := by rw [ht.mask, ht.size]; exact mask_lt ht.n30 _
    left
    simp only [predict, ep, Res.bind_ok, gshIdx, if_pos hg, thr_ok hh]
    exact ⟨_, _, rfl, ⟨hb, n, c, ht, rfl, hg, k, hk, rfl⟩, ⟨rfl, _, rfl, hh⟩, trivial⟩
  | .ideal b, h => by
    cases hp : b.predicted with
    | none => right; simp [predict, hp, Live]
    | some v =>
      left
      simp only [predict, hp]
      refine ⟨_, _, rfl, h, ?_, ?_⟩
      · show (b.findDir tg pc).predicted.isSome = true
        unfold Base.findDir; rw [hp]; rfl
      · show (b.findDir tg pc).predicted.isSome = true
        unfold Base.findDir; rw [hp]; rfl
  | .none b, h => .inl ⟨_, _, rfl, h, trivial, trivial⟩
  | .combined b t p0 p1 l, ⟨hb, ⟨n, c, ht⟩, h0, h1⟩ => by
    rcases predict_ok tg pc h0 with ⟨v0, q0, e0, o0, r0, l0⟩ | ⟨hl, e0⟩
    · rcases predict_ok tg pc h1 with ⟨v1, q1, e1, o1, r1, l1⟩ | ⟨hl, e1⟩
      · obtain ⟨i, e, hi⟩ := getPc_ok (b := b.findDir tg pc) hb ht.n30 pc
        rw [← ht.mask] at e
        rw [← ht.size] at hi
        left
        simp only [predict, e0, e1, e, Res.bind_ok, thr_ok hi]
        exact ⟨_, _, rfl, ⟨hb, ⟨n, c, ht⟩, o0, o1⟩, ⟨rfl, r0, r1, i, rfl, hi⟩, ⟨l0, l1⟩⟩
      · right
        simp only [predict, e0, e1, Res.bind_ok, Res.bind_ub]
        exact ⟨fun h => hl h.2, trivial⟩
    · right
      simp only [predict, e0, Res.bind_ub]
      exact ⟨fun h => hl h.1, trivial⟩

theorem right_ok {b : Base} (h : b.predicted.isSome = true) (next : W) : ∃ r, b.right next = .ok r := by
  unfold Base.right
  cases hp : b.predicted with
  | none => rw [hp] at h; cases h
  | some v => exact ⟨_, rfl⟩

theorem eval_ok (tk : Bool) (next : W) : ∀ {p : Pred}, PredOk p → Ready p →
    ∃ r p', evalUpdate tk next p = .ok (r, p') ∧ PredOk p' ∧ p'.base = p.base ∧ (Live p → Live p')
  | .sttc b m, h, hr => by
    obtain ⟨r, e⟩ := right_ok hr next
    simp only [evalUpdate, e, Res.bind_ok]
    exact ⟨_, _, rfl, h, rfl, id⟩
  | .bimodal b t l, ⟨hb, n, c, ht⟩, ⟨hp, i, el, hi⟩ => by
    subst el
    obtain ⟨r, e⟩ := right_ok hp next
    obtain ⟨t', et, ht'⟩ := update_ok ht tk hi
    simp only [evalUpdate, e, et, Res.bind_ok]
    exact ⟨_, _, rfl, ⟨hb, n, c, ht'⟩, rfl, id⟩
  | .local b t pm e hs hm l, ⟨hb, n, c, ht, e1, k, hk, e2, e3⟩, ⟨hp, i, hh, el, hi, hhi⟩ => by
    subst el
    obtain ⟨r, er⟩ := right_ok hp next
    obtain ⟨t', et, ht'⟩ := update_ok ht tk hhi
    simp only [evalUpdate, er, et, if_pos hi, Res.bind_ok]
    exact ⟨_, _, rfl, ⟨hb, n, c, ht', by rw [e1, ht.mask, ht'.mask], k, hk, e2, e3⟩, rfl, id⟩
  | .global b t m g l, ⟨hb, n, c, ht, e1⟩, ⟨hp, i, el, hi⟩ => by
    subst el
    obtain ⟨r, er⟩ := right_ok hp next
    obtain ⟨t', et, ht'⟩ := update_ok ht tk hi
    simp only [evalUpdate, er, et, Res.bind_ok]
    exact ⟨_, _, rfl, ⟨hb, n, c, ht', by rw [e1, ht.mask, ht'.mask]⟩, rfl, id⟩
  | .gselect b t gb im gm pm g l, ⟨hb, n, c, ht, e1, hg, k, hk, e2⟩, ⟨hp, i, el, hi⟩ => by
    subst el
    obtain ⟨r, er⟩ := right_ok hp next
    obtain ⟨t', et, ht'⟩ := update_ok ht tk hi
    simp only [evalUpdate, er, et, Res.bind_ok]
    exact ⟨_, _, rfl, ⟨hb, n, c, ht', by rw [e1, ht.mask, ht'.mask], hg, k, hk, e2⟩, rfl, id⟩
  | .gshare b t go im gm pm g l, ⟨hb, n, c, ht, e1, hg, k, hk, e2⟩, ⟨hp, i, el, hi⟩ => by
    subst el
    obtain ⟨r, er⟩ := right_ok hp next
    obtain ⟨t', et, ht'⟩ := update_ok ht tk hi
    simp only [evalUpdate, er, et, Res.bind_ok]
    exact ⟨_, _, rfl, ⟨hb, n, c, ht', by rw [e1, ht.mask, ht'.mask], hg, k, hk, e2⟩, rfl, id⟩
  | .ideal b, h, hr => by
    obtain ⟨r, e⟩ := right_ok hr next
    simp only [evalUpdate, e, Res.bind_ok]
    exact ⟨_, _, rfl, h, rfl, id⟩
  | .none b, h, hr => ⟨_, _, rfl, h, rfl, id⟩
  | .combined b t p0 p1 l, ⟨hb, ⟨n, c, ht⟩, h0, h1⟩, ⟨hp, r0, r1, i, el, hi⟩ => by
    subst el
    obtain ⟨x0, q0, e0, o0, _, l0⟩ := eval_ok tk next h0 r0
    obtain ⟨x1, q1, e1, o1, _, l1⟩ := eval_ok tk next h1 r1
    obtain ⟨r, er⟩ := right_ok hp next
    obtain ⟨t', et, ht'⟩ := update2_ok ht x0 x1 hi
    simp only [evalUpdate, e0, e1, er, et, Res.bind_ok]
    exact ⟨_, _, rfl, ⟨hb, ⟨n, c, ht'⟩, o0, o1⟩, rfl, fun h => ⟨l0 h.1, l1 h.2⟩⟩

theorem setBase_ok {p : Pred} {f : Base} (hf : BaseOk f) (h : PredOk p) : PredOk (p.setBase f) := by
  cases p <;> simp only [Pred.setBase, PredOk] at * <;> first
    | exact hf
    | exact ⟨hf, h.2⟩

theorem base_ok {p : Pred} (h : PredOk p) : BaseOk p.base := by
  cases p <;> first
    | exact h
    | exact h.1

theorem base_setBase (p : Pred) (f : Base) : (p.setBase f).base = f := by cases p <;> rfl

end Ama.Bp
