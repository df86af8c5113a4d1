import Verif.Spec.Bp
import Verif.Lemmas.BpMove
/-!
# Predictor objects against the list of past branches
-/
namespace Ama.Bp
open Ama.Spec.Bp

theorem newest_mod : ∀ (n m : Nat) (l : List Bool), n ≤ m → newest m l % 2 ^ n = newest n l
  | 0, m, l, _ => by simp [newest, Nat.mod_one]
  | n + 1, 0, l, h => by omega
  | n + 1, m + 1, [], _ => by simp [newest]
  | n + 1, m + 1, b :: l, h => by
    have ih := newest_mod n m l (by omega)
    simp only [newest]
    have e : 2 ^ (n + 1) = 2 * 2 ^ n := by rw [Nat.pow_succ]; omega
    have hb : b.toNat < 2 := by cases b <;> decide
    rw [e, Nat.mod_mul, ← ih]
    have h1 : (b.toNat + 2 * newest m l) % 2 = b.toNat := by omega
    have h2 : (b.toNat + 2 * newest m l) / 2 = newest m l := by omega
    rw [h1, h2]

theorem newest_lt (n : Nat) (l : List Bool) : newest n l < 2 ^ n := by
  rw [← newest_mod n n l (Nat.le_refl _)]
  exact Nat.mod_lt _ (Nat.two_pow_pos n)

theorem newest_cons (n : Nat) (b : Bool) (l : List Bool) :
    newest n (b :: l) = (b.toNat + 2 * newest n l) % 2 ^ n := by
  rw [← newest_mod n (n + 1) (b :: l) (by omega)]
  rfl

theorem and_mask {n : Nat} (hn : n ≤ 30) (x : W) : (x &&& BitVec.ofNat 32 (2 ^ n - 1)).toNat = x.toNat % 2 ^ n := by
  rw [BitVec.toNat_and, BitVec.toNat_ofNat]
  have h1 : 0 < 2 ^ n := Nat.two_pow_pos n
  have h2 : 2 ^ n ≤ 2 ^ 30 := Nat.pow_le_pow_right (by decide) hn
  rw [Nat.mod_eq_of_lt (by omega), Nat.and_two_pow_sub_one_eq_mod]

theorem shiftIn_nat (g : W) (t : Bool) : (shiftIn g t).toNat = (t.toNat + 2 * g.toNat) % 2 ^ 32 := by
  unfold shiftIn
  cases t
  · simp only [Bool.false_eq_true, if_false, BitVec.or_zero, Bool.toNat_false, BitVec.toNat_shiftLeft, Nat.shiftLeft_eq]
    omega
  · have : (g <<< 1 ||| 1#32) = g <<< 1 + 1#32 := by
      rw [BitVec.add_eq_or_of_and_eq_zero]
      ext i hi
      simp only [BitVec.getElem_and, BitVec.getElem_shiftLeft, BitVec.getElem_zero]
      by_cases h : i = 0
      · subst h; simp
      · have : (1#32)[i] = false := by
          rw [BitVec.getElem_one]; simpa using h
        rw [this, Bool.and_false]
    simp only [if_true, this, Bool.toNat_true, BitVec.toNat_add, BitVec.toNat_shiftLeft, Nat.shiftLeft_eq]
    simp
    omega

/-- the history register after one more branch -/
theorem ghr_step {g : W} {l : List Bool} (h : g.toNat = newest 32 l) (t : Bool) :
    (shiftIn g t).toNat = newest 32 (t :: l) := by
  rw [shiftIn_nat, newest_cons, h]

/-- a history entry after one more branch -/
theorem hist_step {n : Nat} (hn : n ≤ 30) {g : W} {l : List Bool} (h : g.toNat = newest n l) (t : Bool) :
    (shiftIn g t &&& BitVec.ofNat 32 (2 ^ n - 1)).toNat = newest n (t :: l) := by
  rw [and_mask hn, shiftIn_nat, newest_cons, h]
  exact Nat.mod_mod_of_dvd _ (Nat.pow_dvd_pow 2 (by omega))

/-! ## The address part -/

/-- what a class keeps of its configuration -/
structure BaseR (low : Nat) (c : PCfg) (b : Base) : Prop where
  hlow : b.low = low
  bits : b.pcBits = c.pcBits.toNat
  hfold : b.folds = folds low c
  ok : BaseOk b

theorem make_baseR {low : Nat} (hl : low ≤ 2) {c : PCfg} {b : Base} (h : Base.make low c = .ok b) : BaseR low c b := by
  have ho := (make_base hl h).1
  unfold Base.make at h
  split at h
  · rename_i hf
    simp only [Res.ok.injEq] at h
    subst h
    exact ⟨rfl, rfl, by simp only [folds, hf], ho⟩
  · rename_i hf
    split at h
    · cases h
    · simp only [Res.ok.injEq] at h
      subst h
      exact ⟨rfl, rfl, by simp only [folds, hf], ho⟩

theorem getPcGo_val {b : Base} (hn : b.pcBits ≤ 30) (pc : W) : ∀ (k p : Nat) (acc : W),
    (k = 0 ∨ b.low + b.pcBits * (p + k - 1) < 32) →
    ∃ i, b.getPcGo pc (BitVec.ofNat 32 (2 ^ b.pcBits - 1)) k p acc = .ok i ∧
      i.toNat = (List.range' p k).foldl (fun a p => a ^^^ slice b.low b.pcBits pc p) acc.toNat
  | 0, p, acc, _ => ⟨acc, rfl, rfl⟩
  | k + 1, p, acc, h => by
    have hp : b.low + b.pcBits * p < 32 := by
      rcases h with h | h
      · cases h
      · have : b.pcBits * p ≤ b.pcBits * (p + (k + 1) - 1) := Nat.mul_le_mul_left _ (by omega)
        omega
    unfold Base.getPcGo
    rw [if_pos hp]
    obtain ⟨i, e, hi⟩ := getPcGo_val hn pc k (p + 1)
      (acc ^^^ (pc >>> (b.low + b.pcBits * p) &&& BitVec.ofNat 32 (2 ^ b.pcBits - 1))) (by
        cases k with
        | zero => exact .inl rfl
        | succ k =>
          right
          rcases h with h | h
          · cases h
          · have e : p + 1 + (k + 1) - 1 = p + (k + 1 + 1) - 1 := by omega
            rw [e]; exact h)
    refine ⟨i, e, ?_⟩
    rw [hi, List.range'_succ, List.foldl_cons, BitVec.toNat_xor, and_mask hn, BitVec.toNat_ushiftRight,
      Nat.shiftRight_eq_div_pow]
    rfl

theorem getPc_val {low : Nat} {c : PCfg} {b : Base} (h : BaseR low c b) (hn : c.pcBits.toNat ≤ 30) (pc : W) :
    ∃ i, b.getPc pc (BitVec.ofNat 32 (2 ^ c.pcBits.toNat - 1)) = .ok i ∧ i.toNat = hash low c pc ∧
      i.toNat < 2 ^ c.pcBits.toNat := by
  obtain ⟨j, ej, hj⟩ := getPc_ok h.ok hn pc
  have hb := h.bits
  obtain ⟨i, e, hi⟩ := getPcGo_val (b := b) (by omega) pc (b.folds + 1) 0 0#32 (by
    right
    have e : 0 + (b.folds + 1) - 1 = b.folds := by omega
    rw [e]; exact h.ok.2)
  refine ⟨j, ej, ?_, hj⟩
  have : b.getPc pc (BitVec.ofNat 32 (2 ^ c.pcBits.toNat - 1)) = .ok i := by rw [← hb]; exact e
  rw [this] at ej
  simp only [Res.ok.injEq] at ej
  subst ej
  rw [hi, h.hlow, h.bits, h.hfold, Spec.Bp.hash, List.range_eq_range']
  rfl

theorem hash_lt {low : Nat} {c : PCfg} {b : Base} (h : BaseR low c b) (hn : c.pcBits.toNat ≤ 30) (pc : W) :
    hash low c pc < 2 ^ c.pcBits.toNat := by
  obtain ⟨i, _, h1, h2⟩ := getPc_val h hn pc
  omega

/-! ## Counter tables -/

/-- a table holds the counters `f` -/
structure TabR (c : PCfg) (n : Nat) (f : Nat → Nat) (t : Pht) : Prop where
  ok : PhtOk t n c.cntBits.toNat
  val : ∀ i, t.cnt i = f i

theorem make_tab {i : BitVec 8} {c : PCfg} {t : Pht} (h : Pht.make i c.cntBits = .ok t)
    (vote : List Br → Br → Option (Nat × Bool)) : TabR c i.toNat (count c vote []) t := by
  have ho := make_pht h
  refine ⟨ho, fun j => ?_⟩
  have h2 := ho.thr
  unfold Pht.make at h
  split at h
  · cases h
  · simp only [Res.ok.injEq] at h
    subst h
    simp only [count, weak, top]
    exact h2

theorem TabR.thr {c : PCfg} {n : Nat} {f : Nat → Nat} {t : Pht} (h : TabR c n f t) {i : W} {j : Nat} (hi : i.toNat = j)
    (hj : j < 2 ^ n) : t.thrCheck i = .ok (decide (weak c ≤ f j)) := by
  subst hi
  rw [thr_ok (by rw [h.ok.size]; exact hj), h.val, h.ok.thr]
  rfl

theorem TabR.update {c : PCfg} {n : Nat} {vote : List Br → Br → Option (Nat × Bool)} {t : Pht} {h : List Br} {e : Br}
    (ht : TabR c n (count c vote h) t) {i : W} {j : Nat} {up : Bool} (hi : i.toNat = j) (hj : j < 2 ^ n)
    (hv : vote h e = some (j, up)) : ∃ t', t.update up i = .ok t' ∧ TabR c n (count c vote (e :: h)) t' := by
  subst hi
  obtain ⟨t', e1, h1⟩ := update_ok ht.ok up (i := i) (by rw [ht.ok.size]; exact hj)
  refine ⟨t', e1, h1, fun j => ?_⟩
  have hle := ht.ok.cnt i.toNat
  have hm := ht.ok.max
  unfold Pht.update at e1
  rw [if_pos (by rw [ht.ok.size]; exact hj)] at e1
  simp only [Res.ok.injEq] at e1
  subst e1
  simp only [count, hv]
  cases up
  · simp only [Bool.false_eq_true, if_false, Pht.down, sat]
    split
    · simp only
      by_cases hji : j = i.toNat
      · subst hji; rw [if_pos rfl, if_pos rfl, ht.val]
      · rw [if_neg hji, if_neg (Ne.symm hji), ht.val]
    · by_cases hji : j = i.toNat
      · subst hji; rw [if_pos rfl, ← ht.val]; omega
      · rw [if_neg (Ne.symm hji), ht.val]
  · simp only [if_true, Pht.up, sat, top, ← hm]
    split
    · simp only
      by_cases hji : j = i.toNat
      · subst hji; rw [if_pos rfl, if_pos rfl, ← ht.val]; omega
      · rw [if_neg hji, if_neg (Ne.symm hji), ht.val]
    · by_cases hji : j = i.toNat
      · subst hji; rw [if_pos rfl, ← ht.val]; omega
      · rw [if_neg (Ne.symm hji), ht.val]

theorem TabR.update2 {c : PCfg} {n low : Nat} {g0 g1 : List Br → W → W → W} {t : Pht} {h : List Br} {e : Br}
    (ht : TabR c n (count c (choose low c g0 g1) h) t) {i : W} (hi : i.toNat = hash low c e.pc) (hj : hash low c e.pc < 2 ^ n) :
    ∃ t', t.update2 (right g0 h e) (right g1 h e) i = .ok t' ∧ TabR c n (count c (choose low c g0 g1) (e :: h)) t' := by
  have hin : i.toNat < t.n := by rw [ht.ok.size, hi]; exact hj
  by_cases hr : right g0 h e = right g1 h e
  · refine ⟨t, ?_, ht.ok, fun j => ?_⟩
    · unfold Pht.update2
      rw [if_pos hin, hr]
      simp
    · simp only [count, choose, if_pos hr]
      exact ht.val j
  · have hv : choose low c g0 g1 h e = some (hash low c e.pc, right g0 h e) := by simp only [choose, if_neg hr]
    obtain ⟨t', e1, h1⟩ := ht.update hi hj hv
    refine ⟨t', ?_, h1⟩
    rw [← e1]
    unfold Pht.update2 Pht.update
    rw [if_pos hin, if_pos hin]
    have : (right g0 h e != right g1 h e) = true := by simpa using hr
    rw [this]
    rfl

/-! ## Whole objects -/

/-- `p` is the object for `d` after the branches `h`, newest first -/
def Ref (low : Nat) : Def → List Br → Pred → Prop
  | .one .sttc c, _, .sttc b m =>
    BaseR low c b ∧ c.cntBits.toNat < 3 ∧ m = (if c.cntBits.toNat = 2 then .btfn else if c.cntBits.toNat = 0 then .at else .ant)
  | .one .bimodal c, h, .bimodal b t _ => BaseR low c b ∧ TabR c c.pcBits.toNat (count c (train low .bimodal c) h) t
  | .one .local c, h, .local b t pm e hist hm _ =>
    BaseR low c b ∧ TabR c c.histBits.toNat (count c (train low .local c) h) t ∧ c.pcBits.toNat ≤ 30 ∧
      pm = BitVec.ofNat 32 (2 ^ c.pcBits.toNat - 1) ∧ e = 2 ^ c.pcBits.toNat ∧
      hm = BitVec.ofNat 32 (2 ^ c.histBits.toNat - 1) ∧
      ∀ i, (hist i).toNat = newest c.histBits.toNat ((h.filter (fun e => hash low c e.pc = i)).map taken)
  | .one .global c, h, .global b t m g _ =>
    BaseR low c b ∧ TabR c c.ghrBits.toNat (count c (train low .global c) h) t ∧
      m = BitVec.ofNat 32 (2 ^ c.ghrBits.toNat - 1) ∧ g.toNat = newest 32 (h.map taken)
  | .one .gselect c, h, .gselect b t gb im gm pm g _ =>
    BaseR low c b ∧ TabR c (c.ghrBits.toNat + c.pcBits.toNat) (count c (train low .gselect c) h) t ∧
      gb = c.ghrBits.toNat ∧ im = BitVec.ofNat 32 (2 ^ (c.ghrBits.toNat + c.pcBits.toNat) - 1) ∧
      gm = BitVec.ofNat 32 (2 ^ c.ghrBits.toNat - 1) ∧ pm = BitVec.ofNat 32 (2 ^ c.pcBits.toNat - 1) ∧
      g.toNat = newest 32 (h.map taken)
  | .one .gshare c, h, .gshare b t go im gm pm g _ =>
    BaseR low c b ∧ TabR c (max c.ghrBits.toNat c.pcBits.toNat) (count c (train low .gshare c) h) t ∧
      go = c.pcBits.toNat - c.ghrBits.toNat ∧ im = BitVec.ofNat 32 (2 ^ (max c.ghrBits.toNat c.pcBits.toNat) - 1) ∧
      gm = BitVec.ofNat 32 (2 ^ c.ghrBits.toNat - 1) ∧ pm = BitVec.ofNat 32 (2 ^ c.pcBits.toNat - 1) ∧
      g.toNat = newest 32 (h.map taken)
  | .comb c d0 d1, h, .combined b t p0 p1 _ =>
    BaseR low c b ∧ TabR c c.pcBits.toNat (count c (choose low c (guess low d0) (guess low d1)) h) t ∧
      Ref low d0 h p0 ∧ Ref low d1 h p1
  | _, _, _ => False

theorem BaseR.common {low : Nat} {c : PCfg} {b : Base} (h : BaseR low c b) (tg pc : W) (tk : Bool) :
    BaseR low c (b.common tg pc tk).2 := ⟨h.1, h.2, h.3, h.4⟩

/-- the answer of a class with one table -/
theorem common_fst {b : Base} (tg pc : W) (P : Prop) [Decidable P] :
    (b.common tg pc (decide P)).1 = if P then tg else pc + 4#32 := by
  simp only [Base.common, decide_eq_true_eq]

theorem common_right {b : Base} (tg pc next : W) (P : Prop) [Decidable P] :
    (b.common tg pc (decide P)).2.right next = .ok (decide ((if P then tg else pc + 4#32) = next)) := by
  simp only [Base.common, Base.right, Res.ok.injEq, decide_eq_true_eq]
  rw [Bool.eq_iff_iff]
  simp only [beq_iff_eq, decide_eq_true_eq]
  exact eq_comm

theorem taken_eq (e : Br) : (e.next != e.pc + 4#32) = taken e := by
  rw [Bool.eq_iff_iff]
  simp only [taken, bne_iff_ne, decide_eq_true_eq]

/-- base members of a class with one table after `predict` -/
def tabBase (low : Nat) (k : Kind) (c : PCfg) (h : List Br) (e : Br) (b : Base) : Base :=
  (b.common (e.pc + e.offset) e.pc (decide (weak c ≤ count c (train low k c) h (index low k c h e.pc)))).2

theorem sttc_answer {c : PCfg} {m : Sttc} (h3 : c.cntBits.toNat < 3) (low : Nat) (h : List Br) (pc tg : W)
    (hm : m = if c.cntBits.toNat = 2 then .btfn else if c.cntBits.toNat = 0 then .at else .ant) :
    (match (generalizing := false) m with
      | .btfn => if tg > pc then pc + 4#32 else tg
      | .at => tg
      | .ant => pc + 4#32) = guess low (.one .sttc c) h pc tg := by
  rw [hm]
  simp only [guess]
  have h4 : c.cntBits.toNat = 0 ∨ c.cntBits.toNat = 1 ∨ c.cntBits.toNat = 2 := by omega
  rcases h4 with h4 | h4 | h4 <;> simp only [h4, if_true, if_false, Nat.reduceEqDiff]
  by_cases hlt : tg > pc
  · rw [if_pos hlt, if_neg]
    have := BitVec.lt_def.mp hlt
    omega
  · rw [if_neg hlt, if_pos]
    have : ¬ (pc.toNat < tg.toNat) := fun k => hlt (BitVec.lt_def.mpr k)
    omega

/-- asking and training an object is asking and extending the list -/
theorem ref_step {low : Nat} (hl : low ≤ 2) (e : Br) : ∀ {d : Def} {h : List Br} {p : Pred}, Ref low d h p →
    ∃ p1 p2, predict (e.pc + e.offset) e.pc p = .ok (guess low d h e.pc (e.pc + e.offset), p1) ∧
      evalUpdate (taken e) e.next p1 = .ok (right (guess low d) h e, p2) ∧ Ref low d (e :: h) p2
  | .one .sttc c, h, .sttc b m, ⟨hb, h3, hm⟩ => by
    have hg := sttc_answer h3 low h e.pc (e.pc + e.offset) hm
    refine ⟨.sttc { b.findDir (e.pc + e.offset) e.pc with
        predicted := some (guess low (.one .sttc c) h e.pc (e.pc + e.offset)) } m,
      .sttc { b.findDir (e.pc + e.offset) e.pc with
        predicted := some (guess low (.one .sttc c) h e.pc (e.pc + e.offset)) } m, ?_, ?_, ?_⟩
    · rw [← hg]
      rfl
    · simp only [evalUpdate, Base.right, Res.bind_ok]
      rw [show (e.next == guess low (.one .sttc c) h e.pc (e.pc + e.offset)) = right (guess low (.one .sttc c)) h e from ?_]
      rw [Bool.eq_iff_iff]
      simp only [beq_iff_eq, right, decide_eq_true_eq]
      exact eq_comm
    · exact ⟨⟨hb.1, hb.2, hb.3, hb.4⟩, h3, hm⟩
  | .one .bimodal c, h, .bimodal b t l, ⟨hb, ht⟩ => by
    obtain ⟨i, ei, hi, hlt⟩ := getPc_val hb ht.ok.n30 e.pc
    rw [← ht.ok.mask] at ei
    have hlt' : hash low c e.pc < 2 ^ c.pcBits.toNat := by omega
    obtain ⟨t', et, ht'⟩ := ht.update (e := e) hi hlt' (by rfl)
    refine ⟨.bimodal (tabBase low .bimodal c h e b) t (some i), .bimodal (tabBase low .bimodal c h e b) t' (some i), ?_, ?_, ⟨hb.1, hb.2, hb.3, hb.4⟩, ht'⟩
    · simp only [predict, ei, Res.bind_ok, ht.thr hi hlt', common_fst]
      rfl
    · simp only [evalUpdate, et, Res.bind_ok, tabBase, common_right]
      rfl
  | .one .local c, h, .local b t pm n hist hm l, ⟨hb, ht, hp, hpm, hn, hhm, hh⟩ => by
    subst hpm hn hhm
    obtain ⟨i, ei, hi, hlt⟩ := getPc_val hb hp e.pc
    have hx : (hist i.toNat &&& BitVec.ofNat 32 (2 ^ c.histBits.toNat - 1)).toNat = index low .local c h e.pc := by
      rw [and_mask ht.ok.n30, hh, hi, newest_mod _ _ _ (Nat.le_refl _)]
      rfl
    have hlt' : index low .local c h e.pc < 2 ^ c.histBits.toNat := newest_lt _ _
    obtain ⟨t', et, ht'⟩ := ht.update (e := e) hx hlt' (by rfl)
    refine ⟨.local (tabBase low .local c h e b) t (BitVec.ofNat 32 (2 ^ c.pcBits.toNat - 1)) (2 ^ c.pcBits.toNat) hist
        (BitVec.ofNat 32 (2 ^ c.histBits.toNat - 1))
        (some (i, hist i.toNat &&& (BitVec.ofNat 32 (2 ^ c.histBits.toNat - 1)))),
      .local (tabBase low .local c h e b) t' (BitVec.ofNat 32 (2 ^ c.pcBits.toNat - 1)) (2 ^ c.pcBits.toNat)
        (fun j => if j = i.toNat then shiftIn (hist i.toNat) (taken e) &&& (BitVec.ofNat 32 (2 ^ c.histBits.toNat - 1)) else hist j)
        (BitVec.ofNat 32 (2 ^ c.histBits.toNat - 1))
        (some (i, hist i.toNat &&& (BitVec.ofNat 32 (2 ^ c.histBits.toNat - 1)))), ?_, ?_,
      ⟨hb.1, hb.2, hb.3, hb.4⟩, ht', hp, rfl, rfl, rfl, ?_⟩
    · simp only [predict, ei, Res.bind_ok, if_pos hlt, ht.thr hx hlt', common_fst]
      rfl
    · simp only [evalUpdate, if_pos hlt, et, Res.bind_ok, tabBase, common_right]
      rfl
    · intro j
      simp only
      by_cases hj : j = i.toNat
      · rw [if_pos hj, hist_step ht.ok.n30 (hh i.toNat)]
        rw [List.filter_cons, if_pos (by simp only [decide_eq_true_eq]; omega), hj]
        rfl
      · rw [if_neg hj, hh j, List.filter_cons, if_neg (by simp only [decide_eq_true_eq]; omega)]
  | .one .global c, h, .global b t m g l, ⟨hb, ht, hm, hg⟩ => by
    subst hm
    have hx : (g &&& BitVec.ofNat 32 (2 ^ c.ghrBits.toNat - 1)).toNat = index low .global c h e.pc := by
      rw [and_mask ht.ok.n30, hg, newest_mod _ _ _ (by have := ht.ok.n30; omega)]
      rfl
    have hlt' : index low .global c h e.pc < 2 ^ c.ghrBits.toNat := newest_lt _ _
    obtain ⟨t', et, ht'⟩ := ht.update (e := e) hx hlt' (by rfl)
    refine ⟨.global (tabBase low .global c h e b) t (BitVec.ofNat 32 (2 ^ c.ghrBits.toNat - 1)) g
        (some (g &&& (BitVec.ofNat 32 (2 ^ c.ghrBits.toNat - 1)))),
      .global (tabBase low .global c h e b) t' (BitVec.ofNat 32 (2 ^ c.ghrBits.toNat - 1)) (shiftIn g (taken e))
        (some (g &&& (BitVec.ofNat 32 (2 ^ c.ghrBits.toNat - 1)))), ?_, ?_,
      ⟨hb.1, hb.2, hb.3, hb.4⟩, ht', rfl, ghr_step hg (taken e)⟩
    · simp only [predict, Res.bind_ok, ht.thr hx hlt', common_fst]
      rfl
    · simp only [evalUpdate, et, Res.bind_ok, tabBase, common_right]
      rfl
  | .one .gselect c, h, .gselect b t gb im gm pm g l, ⟨hb, ht, hgb, him, hgm, hpm, hg⟩ => by
    subst hgb him hgm hpm
    have h30 := ht.ok.n30
    obtain ⟨i, ei, hi, hlt⟩ := getPc_val hb (by omega) e.pc
    have hgn : newest 32 (h.map taken) % 2 ^ c.ghrBits.toNat = newest c.ghrBits.toNat (h.map taken) :=
      newest_mod _ _ _ (by omega)
    have hlt' : index low .gselect c h e.pc < 2 ^ (c.ghrBits.toNat + c.pcBits.toNat) := by
      have h1 := newest_lt c.ghrBits.toNat (h.map taken)
      simp only [index]
      rw [← hi, Nat.pow_add, Nat.mul_comm]
      calc _ < 2 ^ c.ghrBits.toNat * i.toNat + 2 ^ c.ghrBits.toNat := by omega
        _ = 2 ^ c.ghrBits.toNat * (i.toNat + 1) := by rw [Nat.mul_add, Nat.mul_one]
        _ ≤ _ := Nat.mul_le_mul_left _ hlt
    have hx : (((i <<< c.ghrBits.toNat) ||| (g &&& BitVec.ofNat 32 (2 ^ c.ghrBits.toNat - 1))) &&&
        BitVec.ofNat 32 (2 ^ (c.ghrBits.toNat + c.pcBits.toNat) - 1)).toNat = index low .gselect c h e.pc := by
      have h2 : 2 ^ (c.ghrBits.toNat + c.pcBits.toNat) ≤ 2 ^ 30 := Nat.pow_le_pow_right (by decide) h30
      have h3 : index low .gselect c h e.pc = i.toNat * 2 ^ c.ghrBits.toNat + newest c.ghrBits.toNat (h.map taken) := by
        simp only [index, hi]
      rw [and_mask h30, BitVec.toNat_or, and_mask (by omega), hg, hgn, BitVec.toNat_shiftLeft, Nat.shiftLeft_eq,
        Nat.mod_eq_of_lt (a := i.toNat * 2 ^ c.ghrBits.toNat) (by omega),
        ← Nat.shiftLeft_eq, ← Nat.shiftLeft_add_eq_or_of_lt (newest_lt _ _), Nat.shiftLeft_eq, ← h3,
        Nat.mod_eq_of_lt hlt']
    obtain ⟨t', et, ht'⟩ := ht.update (e := e) hx hlt' (by rfl)
    refine ⟨.gselect (tabBase low .gselect c h e b) t c.ghrBits.toNat (BitVec.ofNat 32 (2 ^ (c.ghrBits.toNat + c.pcBits.toNat) - 1))
        (BitVec.ofNat 32 (2 ^ c.ghrBits.toNat - 1)) (BitVec.ofNat 32 (2 ^ c.pcBits.toNat - 1)) g
        (some (((i <<< c.ghrBits.toNat) ||| (g &&& (BitVec.ofNat 32 (2 ^ c.ghrBits.toNat - 1)))) &&&
          (BitVec.ofNat 32 (2 ^ (c.ghrBits.toNat + c.pcBits.toNat) - 1)))),
      .gselect (tabBase low .gselect c h e b) t' c.ghrBits.toNat (BitVec.ofNat 32 (2 ^ (c.ghrBits.toNat + c.pcBits.toNat) - 1))
        (BitVec.ofNat 32 (2 ^ c.ghrBits.toNat - 1)) (BitVec.ofNat 32 (2 ^ c.pcBits.toNat - 1)) (shiftIn g (taken e))
        (some (((i <<< c.ghrBits.toNat) ||| (g &&& (BitVec.ofNat 32 (2 ^ c.ghrBits.toNat - 1)))) &&&
          (BitVec.ofNat 32 (2 ^ (c.ghrBits.toNat + c.pcBits.toNat) - 1)))), ?_, ?_,
      ⟨hb.1, hb.2, hb.3, hb.4⟩, ht', rfl, rfl, rfl, rfl, ghr_step hg (taken e)⟩
    · simp only [predict, ei, gselIdx, if_pos (show c.ghrBits.toNat < 32 by omega), Res.bind_ok, ht.thr hx hlt', common_fst]
      rfl
    · simp only [evalUpdate, et, Res.bind_ok, tabBase, common_right]
      rfl
  | .one .gshare c, h, .gshare b t go im gm pm g l, ⟨hb, ht, hgo, him, hgm, hpm, hg⟩ => by
    subst hgo him hgm hpm
    have h30 := ht.ok.n30
    obtain ⟨i, ei, hi, hlt⟩ := getPc_val hb (by omega) e.pc
    have hgn : newest 32 (h.map taken) % 2 ^ c.ghrBits.toNat = newest c.ghrBits.toNat (h.map taken) :=
      newest_mod _ _ _ (by omega)
    have hs : newest c.ghrBits.toNat (h.map taken) * 2 ^ (c.pcBits.toNat - c.ghrBits.toNat) <
        2 ^ (max c.ghrBits.toNat c.pcBits.toNat) := by
      rw [show max c.ghrBits.toNat c.pcBits.toNat = c.ghrBits.toNat + (c.pcBits.toNat - c.ghrBits.toNat) by omega, Nat.pow_add]
      exact Nat.mul_lt_mul_of_pos_right (newest_lt _ _) (Nat.two_pow_pos _)
    have hi2 : i.toNat < 2 ^ (max c.ghrBits.toNat c.pcBits.toNat) :=
      Nat.lt_of_lt_of_le hlt (Nat.pow_le_pow_right (by decide) (by omega))
    have hlt' : index low .gshare c h e.pc < 2 ^ (max c.ghrBits.toNat c.pcBits.toNat) := by
      simp only [index]
      rw [← hi]
      exact Nat.xor_lt_two_pow hi2 hs
    have hx : ((i ^^^ ((g &&& BitVec.ofNat 32 (2 ^ c.ghrBits.toNat - 1)) <<< (c.pcBits.toNat - c.ghrBits.toNat))) &&&
        BitVec.ofNat 32 (2 ^ (max c.ghrBits.toNat c.pcBits.toNat) - 1)).toNat = index low .gshare c h e.pc := by
      have h2 : 2 ^ (max c.ghrBits.toNat c.pcBits.toNat) ≤ 2 ^ 30 := Nat.pow_le_pow_right (by decide) h30
      rw [and_mask h30, BitVec.toNat_xor, BitVec.toNat_shiftLeft, and_mask (by omega), hg, hgn, Nat.shiftLeft_eq,
        Nat.mod_eq_of_lt (b := 2 ^ 32) (by omega), hi]
      exact Nat.mod_eq_of_lt hlt'
    obtain ⟨t', et, ht'⟩ := ht.update (e := e) hx hlt' (by rfl)
    refine ⟨.gshare (tabBase low .gshare c h e b) t (c.pcBits.toNat - c.ghrBits.toNat) (BitVec.ofNat 32 (2 ^ (max c.ghrBits.toNat c.pcBits.toNat) - 1))
        (BitVec.ofNat 32 (2 ^ c.ghrBits.toNat - 1)) (BitVec.ofNat 32 (2 ^ c.pcBits.toNat - 1)) g
        (some ((i ^^^ ((g &&& (BitVec.ofNat 32 (2 ^ c.ghrBits.toNat - 1))) <<< (c.pcBits.toNat - c.ghrBits.toNat))) &&&
          (BitVec.ofNat 32 (2 ^ (max c.ghrBits.toNat c.pcBits.toNat) - 1)))),
      .gshare (tabBase low .gshare c h e b) t' (c.pcBits.toNat - c.ghrBits.toNat) (BitVec.ofNat 32 (2 ^ (max c.ghrBits.toNat c.pcBits.toNat) - 1))
        (BitVec.ofNat 32 (2 ^ c.ghrBits.toNat - 1)) (BitVec.ofNat 32 (2 ^ c.pcBits.toNat - 1)) (shiftIn g (taken e))
        (some ((i ^^^ ((g &&& (BitVec.ofNat 32 (2 ^ c.ghrBits.toNat - 1))) <<< (c.pcBits.toNat - c.ghrBits.toNat))) &&&
          (BitVec.ofNat 32 (2 ^ (max c.ghrBits.toNat c.pcBits.toNat) - 1)))), ?_, ?_,
      ⟨hb.1, hb.2, hb.3, hb.4⟩, ht', rfl, rfl, rfl, rfl, ghr_step hg (taken e)⟩
    · simp only [predict, ei, gshIdx, if_pos (show c.pcBits.toNat - c.ghrBits.toNat < 32 by omega), Res.bind_ok,
        ht.thr hx hlt', common_fst]
      rfl
    · simp only [evalUpdate, et, Res.bind_ok, tabBase, common_right]
      rfl
  | .comb c d0 d1, h, .combined b t p0 p1 l, ⟨hb, ht, h0, h1⟩ => by
    obtain ⟨q0, r0, k0, m0, n0⟩ := ref_step hl e h0
    obtain ⟨q1, r1, k1, m1, n1⟩ := ref_step hl e h1
    have hb' : BaseR low c (b.findDir (e.pc + e.offset) e.pc) := ⟨hb.1, hb.2, hb.3, hb.4⟩
    obtain ⟨i, ei, hi, hlt⟩ := getPc_val hb' ht.ok.n30 e.pc
    rw [← ht.ok.mask] at ei
    have hlt' : hash low c e.pc < 2 ^ c.pcBits.toNat := by omega
    obtain ⟨t', et, ht'⟩ := ht.update2 (e := e) hi hlt'
    refine ⟨.combined { b.findDir (e.pc + e.offset) e.pc with
        predicted := some (guess low (.comb c d0 d1) h e.pc (e.pc + e.offset)) } t q0 q1 (some i),
      .combined { b.findDir (e.pc + e.offset) e.pc with
        predicted := some (guess low (.comb c d0 d1) h e.pc (e.pc + e.offset)) } t' r0 r1 (some i), ?_, ?_,
      ⟨hb.1, hb.2, hb.3, hb.4⟩, ht', n0, n1⟩
    · simp only [predict, k0, k1, ei, Res.bind_ok, ht.thr hi hlt', decide_eq_true_eq]
      rfl
    · simp only [evalUpdate, m0, m1, et, Res.bind_ok, Base.right, Res.ok.injEq, Prod.mk.injEq, and_true]
      rw [Bool.eq_iff_iff]
      simp only [beq_iff_eq, right, decide_eq_true_eq]
      exact eq_comm

/-- a new object has seen nothing -/
theorem make1_ref {low : Nat} (hl : low ≤ 2) {k : Kind} {c : PCfg} {p : Pred} (hk : k ≠ .none ∧ k ≠ .ideal)
    (h : make1 low k c = .ok p) : Ref low (.one k c) [] p := by
  unfold make1 at h
  obtain ⟨b, hb, h⟩ := bind_eq_ok h
  have hB := make_baseR hl hb
  cases k with
  | sttc =>
    simp only at h
    split at h
    · cases h
    · simp only [Res.ok.injEq] at h
      subst h
      refine ⟨hB, by omega, ?_⟩
      have e2 : (c.cntBits = 2#8) ↔ c.cntBits.toNat = 2 := by
        constructor
        · intro h; rw [h]; rfl
        · intro h; exact BitVec.eq_of_toNat_eq h
      have e0 : (c.cntBits = 0#8) ↔ c.cntBits.toNat = 0 := by
        constructor
        · intro h; rw [h]; rfl
        · intro h; exact BitVec.eq_of_toNat_eq h
      simp only [e2, e0]
  | bimodal =>
    obtain ⟨t, ht, h⟩ := bind_eq_ok h
    simp only [Res.ok.injEq] at h
    subst h
    exact ⟨hB, make_tab ht _⟩
  | «local» =>
    simp only at h
    split at h
    · cases h
    · rename_i hp
      split at h
      · cases h
      · obtain ⟨t, ht, h⟩ := bind_eq_ok h
        simp only [Res.ok.injEq] at h
        subst h
        refine ⟨hB, make_tab ht _, by omega, rfl, rfl, rfl, fun i => ?_⟩
        have : 1 ≤ c.histBits.toNat := (make_pht ht).n1
        obtain ⟨n, hn⟩ := Nat.exists_eq_add_of_le' this
        simp only [hn, List.filter_nil, List.map_nil, newest]
        rfl
  | global =>
    obtain ⟨m, hm, h⟩ := bind_eq_ok h
    obtain ⟨t, ht, h⟩ := bind_eq_ok h
    simp only [Res.ok.injEq] at h
    subst h
    exact ⟨hB, make_tab ht _, (intMask_ok hm).2, rfl⟩
  | gselect =>
    obtain ⟨m, hm, h⟩ := bind_eq_ok h
    obtain ⟨gm, hgm, h⟩ := bind_eq_ok h
    obtain ⟨pm, hpm, h⟩ := bind_eq_ok h
    obtain ⟨t, ht, h⟩ := bind_eq_ok h
    simp only [Res.ok.injEq] at h
    subst h
    obtain ⟨h1, rfl⟩ := intMask_ok hgm
    obtain ⟨h2, rfl⟩ := intMask_ok hpm
    have hs : (c.ghrBits + c.pcBits).toNat = c.ghrBits.toNat + c.pcBits.toNat := by
      rw [BitVec.toNat_add]; omega
    have hT := make_tab ht (train low .gselect c)
    rw [hs] at hT hm
    exact ⟨hB, hT, rfl, (intMask_ok hm).2, rfl, rfl, rfl⟩
  | gshare =>
    obtain ⟨m, hm, h⟩ := bind_eq_ok h
    obtain ⟨gm, hgm, h⟩ := bind_eq_ok h
    obtain ⟨pm, hpm, h⟩ := bind_eq_ok h
    obtain ⟨t, ht, h⟩ := bind_eq_ok h
    simp only [Res.ok.injEq] at h
    subst h
    obtain ⟨h1, rfl⟩ := intMask_ok hgm
    obtain ⟨h2, rfl⟩ := intMask_ok hpm
    have hs : (if c.ghrBits < c.pcBits then c.pcBits else c.ghrBits).toNat = max c.ghrBits.toNat c.pcBits.toNat := by
      split
      · rename_i hlt
        have := BitVec.lt_def.mp hlt
        omega
      · rename_i hlt
        have : ¬ c.ghrBits.toNat < c.pcBits.toNat := fun k => hlt (BitVec.lt_def.mpr k)
        omega
    have hT := make_tab ht (train low .gshare c)
    rw [hs] at hT hm
    exact ⟨hB, hT, rfl, (intMask_ok hm).2, rfl, rfl, rfl⟩
  | ideal => exact absurd rfl hk.2
  | none => exact absurd rfl hk.1

theorem Ref.setBase {low : Nat} {d : Def} {h : List Br} {p : Pred} (hr : Ref low d h p) {b : Base}
    (h1 : b.low = p.base.low) (h2 : b.pcBits = p.base.pcBits) (h3 : b.folds = p.base.folds) :
    Ref low d h (p.setBase b) := by
  have key : ∀ {c : PCfg} {b0 : Base}, b.low = b0.low → b.pcBits = b0.pcBits → b.folds = b0.folds →
      BaseR low c b0 → BaseR low c b := by
    intro c b0 k1 k2 k3 hB
    refine ⟨k1.trans hB.1, k2.trans hB.2, k3.trans hB.3, ?_⟩
    unfold BaseOk
    rw [k1, k2, k3]
    exact hB.4
  cases d with
  | one k c =>
    cases k <;> cases p <;> first
      | exact hr.elim
      | exact ⟨key h1 h2 h3 hr.1, hr.2⟩
  | comb c d0 d1 =>
    cases p <;> first
      | exact hr.elim
      | exact ⟨key h1 h2 h3 hr.1, hr.2⟩

theorem Ref.goto {low : Nat} {d : Def} {h : List Br} {p : Pred} (hr : Ref low d h p) (x : W) : gotoFuture x p = p := by
  cases p with
  | ideal b =>
    cases d with
    | one k c => cases k <;> exact hr.elim
    | comb c d0 d1 => exact hr.elim
  | _ => rfl

/-- one branch -/
theorem ref_drive {low : Nat} (hl : low ≤ 2) {e : Br} {d : Def} {h : List Br} {p p' : Pred} {v : W} (hr : Ref low d h p)
    (hd : drive e p = .ok (v, p')) : v = guess low d h e.pc (e.pc + e.offset) ∧ Ref low d (e :: h) p' := by
  obtain ⟨q, r, q', k1, k2, k3, _⟩ := drive_parts hd
  rw [hr.goto] at k1
  obtain ⟨p1, p2, m1, m2, m3⟩ := ref_step hl e hr
  rw [m1] at k1
  simp only [Res.ok.injEq, Prod.mk.injEq] at k1
  obtain ⟨hv, rfl⟩ := k1
  rw [taken_eq, m2] at k2
  simp only [Res.ok.injEq, Prod.mk.injEq] at k2
  obtain ⟨_, rfl⟩ := k2
  refine ⟨hv.symm, ?_⟩
  split at k3
  · unfold updateStats at k3
    obtain ⟨b, hb, k3⟩ := bind_eq_ok k3
    simp only [Res.ok.injEq] at k3
    subst k3
    unfold Base.updateStats at hb
    split at hb
    · simp only [Res.ok.injEq] at hb
      subst hb
      exact m3.setBase rfl rfl rfl
    · cases hb
  · simp only [Res.ok.injEq] at k3
    subst k3
    exact m3

/-- the branches of a run, in order -/
def branches : List Ev → List Br
  | [] => []
  | .br e :: t => e :: branches t
  | .prof _ :: t => branches t

/-- a whole run -/
theorem ref_run {low : Nat} (hl : low ≤ 2) {d : Def} : ∀ (evs : List Ev) {h : List Br} {p p' : Pred}, Ref low d h p →
    run evs p = .ok p' → Ref low d ((branches evs).reverse ++ h) p'
  | [], h, p, p', hr, e => by
    simp only [run, Res.ok.injEq] at e
    subst e
    exact hr
  | .br x :: t, h, p, p', hr, e => by
    simp only [run] at e
    obtain ⟨⟨v, q⟩, e1, e2⟩ := bind_eq_ok e
    have := ref_run hl t (ref_drive hl hr e1).2 e2
    simpa [branches] using this
  | .prof on :: t, h, p, p', hr, e => by
    simp only [run] at e
    exact ref_run hl t (hr.setBase (b := { p.base with stats := { p.base.stats with prof := on } }) rfl rfl rfl) e

end Ama.Bp
