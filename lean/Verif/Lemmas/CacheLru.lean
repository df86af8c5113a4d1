import Verif.Spec.Cache
import Verif.Lemmas.CacheStep
/-!
# Recency counters represent a recency list
-/
namespace Ama.Cache
open Spec.Lru

/-- `n` ways with counters `lru`, flags `valid` and `scp` and line numbers `key` represent `L` -/
def R (n : Nat) (lru : Nat → Nat) (valid scp : Nat → Bool) (key : Nat → Nat) (L : SetL) : Prop :=
  L.length ≤ n ∧ (∀ i, i < n → lru i < n) ∧ (∀ i j, i < n → j < n → lru i = lru j → i = j) ∧
  (∀ k, k < n → ∃ i, i < n ∧ lru i = k) ∧
  (∀ i, i < n → L[lru i]? = if valid i then some (key i, scp i) else none) ∧
  (L.map (·.1)).Nodup

theorem R_touch {n : Nat} {lru : Nat → Nat} {valid scp valid' scp' : Nat → Bool} {key key' : Nat → Nat}
    {L : SetL} {w : Nat} {p : Nat × Bool} (h : R n lru valid scp key L) (hw : w < n)
    (hp : p.1 ∉ (L.eraseIdx (lru w)).map (·.1))
    (hv : valid' w = true) (hk : key' w = p.1) (hs : scp' w = p.2)
    (ho : ∀ j, j < n → j ≠ w → valid' j = valid j ∧ scp' j = scp j ∧ key' j = key j) :
    R n (lruAfter n lru w) valid' scp' key' (p :: L.eraseIdx (lru w)) := by
  obtain ⟨h1, h2, h3, h4, h5, h6⟩ := h
  have hlt : ∀ i, i < n → i ≠ w → lru i ≠ lru w := fun i hi hne he => hne (h3 i w hi hw he)
  refine ⟨?_, ?_, ?_, ?_, ?_, ?_⟩
  · have := h2 w hw
    rw [List.length_cons, List.length_eraseIdx]
    split <;> omega
  · intro i hi
    have a := h2 i hi
    have b := h2 w hw
    unfold lruAfter
    split
    · omega
    · split <;> omega
  · intro i j hi hj he
    unfold lruAfter at he
    by_cases hiw : i = w <;> by_cases hjw : j = w
    · omega
    · rw [if_pos hiw, if_neg hjw] at he
      have := hlt j hj hjw
      split at he <;> omega
    · rw [if_neg hiw, if_pos hjw] at he
      have := hlt i hi hiw
      split at he <;> omega
    · rw [if_neg hiw, if_neg hjw] at he
      have a := hlt i hi hiw
      have b := hlt j hj hjw
      apply h3 i j hi hj
      split at he <;> split at he <;> omega
  · intro k hk'
    rcases Nat.eq_zero_or_pos k with h0 | h0
    · exact ⟨w, hw, by unfold lruAfter; rw [if_pos rfl, h0]⟩
    · by_cases hkc : k ≤ lru w
      · obtain ⟨i, hi, hik⟩ := h4 (k - 1) (by omega)
        have hne : i ≠ w := by intro he; subst he; omega
        exact ⟨i, hi, by unfold lruAfter; rw [if_neg hne, if_pos ⟨hi, by omega⟩]; omega⟩
      · obtain ⟨i, hi, hik⟩ := h4 k hk'
        have hne : i ≠ w := by intro he; subst he; omega
        exact ⟨i, hi, by unfold lruAfter; rw [if_neg hne, if_neg (by omega)]; exact hik⟩
  · intro i hi
    by_cases hiw : i = w
    · subst hiw
      unfold lruAfter
      rw [if_pos rfl, hv, if_pos rfl, hk, hs]
      rfl
    · obtain ⟨o1, o2, o3⟩ := ho i hi hiw
      have hne := hlt i hi hiw
      rw [o1, o2, o3, ← h5 i hi]
      unfold lruAfter
      rw [if_neg hiw]
      by_cases hc : lru i < lru w
      · rw [if_pos ⟨hi, hc⟩, List.getElem?_cons_succ, List.getElem?_eraseIdx, if_pos hc]
      · rw [if_neg (fun hh => hc hh.2)]
        have hgt : lru w < lru i := by omega
        obtain ⟨q, hq⟩ : ∃ q, lru i = q + 1 := ⟨lru i - 1, by omega⟩
        rw [hq, List.getElem?_cons_succ, List.getElem?_eraseIdx, if_neg (by omega)]
  · rw [List.map_cons, List.nodup_cons]
    refine ⟨hp, ?_⟩
    have : (List.map (·.1) (L.eraseIdx (lru w))).Sublist (List.map (·.1) L) :=
      (List.eraseIdx_sublist L _).map _
    exact this.nodup h6

theorem R_lock {n : Nat} {lru : Nat → Nat} {valid scp scp' : Nat → Bool} {key : Nat → Nat}
    {L : SetL} {w x : Nat} {b : Bool} (h : R n lru valid scp key L) (hw : w < n)
    (hv : valid w = true) (hk : key w = x) (hs : scp' w = b)
    (ho : ∀ j, j < n → j ≠ w → scp' j = scp j) :
    R n lru valid scp' key (setLock L x b) := by
  obtain ⟨h1, h2, h3, h4, h5, h6⟩ := h
  have hmap : (setLock L x b).map (·.1) = L.map (·.1) := by
    unfold setLock
    rw [List.map_map]
    apply List.map_congr_left
    intro p _
    simp only [Function.comp]
    split
    · rename_i e; exact e.symm
    · rfl
  refine ⟨by simpa [setLock] using h1, h2, h3, h4, ?_, by rw [hmap]; exact h6⟩
  intro i hi
  unfold setLock
  rw [List.getElem?_map, h5 i hi]
  by_cases hiw : i = w
  · subst hiw
    simp only [hv, if_true, Option.map_some, hk, hs]
  · rw [ho i hi hiw]
    cases hvi : valid i with
    | false => rfl
    | true =>
      simp only [if_true, Option.map_some]
      have hne : key i ≠ x := by
        intro he
        have e1 := h5 i hi
        have e2 := h5 w hw
        rw [hvi, if_pos rfl] at e1
        rw [hv, if_pos rfl] at e2
        obtain ⟨l1, g1⟩ := List.getElem?_eq_some_iff.1 e1
        obtain ⟨l2, g2⟩ := List.getElem?_eq_some_iff.1 e2
        have l1' : lru i < (L.map (·.1)).length := by simpa using l1
        have l2' : lru w < (L.map (·.1)).length := by simpa using l2
        have := (List.getElem_inj (h₀ := l1') (h₁ := l2') h6).1 (by
          simp only [List.getElem_map, g1, g2]; rw [he, hk])
        exact hiw (h3 i w hi hw this)
      rw [if_neg hne]

theorem R_mem {n : Nat} {lru : Nat → Nat} {valid scp : Nat → Bool} {key : Nat → Nat} {L : SetL}
    (h : R n lru valid scp key L) (p : Nat × Bool) :
    p ∈ L ↔ ∃ i, i < n ∧ valid i = true ∧ key i = p.1 ∧ scp i = p.2 := by
  obtain ⟨h1, h2, h3, h4, h5, h6⟩ := h
  constructor
  · intro hp
    obtain ⟨k, hk, e⟩ := List.getElem_of_mem hp
    obtain ⟨i, hi, hik⟩ := h4 k (by omega)
    have := h5 i hi
    rw [hik, List.getElem?_eq_getElem hk, e] at this
    cases hv : valid i with
    | false => rw [hv] at this; cases this
    | true =>
      rw [hv, if_pos rfl] at this
      have := Option.some.inj this
      exact ⟨i, hi, hv, by rw [this], by rw [this]⟩
  · rintro ⟨i, hi, hv, hk, hs⟩
    have := h5 i hi
    rw [hv, if_pos rfl, hk, hs] at this
    exact List.mem_of_getElem? this

theorem R_has {n : Nat} {lru : Nat → Nat} {valid scp : Nat → Bool} {key : Nat → Nat} {L : SetL}
    (h : R n lru valid scp key L) (x : Nat) :
    has L x = true ↔ ∃ i, i < n ∧ valid i = true ∧ key i = x := by
  unfold has
  rw [List.any_eq_true]
  constructor
  · rintro ⟨p, hp, e⟩
    obtain ⟨i, a, b, c, _⟩ := (R_mem h p).1 hp
    exact ⟨i, a, b, by rw [c]; simpa using e⟩
  · rintro ⟨i, a, b, c⟩
    exact ⟨(key i, scp i), (R_mem h _).2 ⟨i, a, b, rfl, rfl⟩, by simpa using c⟩

/-! ## The list operations, by position -/

theorem find_erase_pos : ∀ {L : SetL} {c x : Nat} {b : Bool}, L[c]? = some (x, b) → (L.map (·.1)).Nodup →
    L.find? (fun p => p.1 == x) = some (x, b) ∧ L.eraseP (fun p => p.1 == x) = L.eraseIdx c
  | [], c, x, b, h, _ => by simp at h
  | q :: L, 0, x, b, h, _ => by
    have : q = (x, b) := by simpa using h
    subst this
    simp
  | q :: L, c + 1, x, b, h, hn => by
    rw [List.map_cons, List.nodup_cons] at hn
    rw [List.getElem?_cons_succ] at h
    have hne : (q.1 == x) = false := by
      have hm : x ∈ L.map (·.1) := List.mem_map.2 ⟨_, List.mem_of_getElem? h, rfl⟩
      simp only [beq_eq_false_iff_ne, ne_eq]
      intro he; exact hn.1 (he ▸ hm)
    obtain ⟨h1, h2⟩ := find_erase_pos h hn.2
    rw [List.find?_cons, hne, List.eraseP_cons, hne]
    exact ⟨h1, by rw [h2]; rfl⟩

theorem find_none {L : SetL} {x : Nat} (h : has L x = false) : L.find? (fun p => p.1 == x) = none := by
  unfold has at h
  rw [List.find?_eq_none]
  intro p hp he
  rw [List.any_eq_false] at h
  exact h p hp he

theorem evict_pos {L : SetL} {c y : Nat} (h : L[c]? = some (y, false))
    (hl : ∀ k p, c < k → L[k]? = some p → p.2 = true) : dropLru L = L.eraseIdx c := by
  obtain ⟨hc, e⟩ := List.getElem?_eq_some_iff.1 h
  have hL : L = L.take c ++ (y, false) :: L.drop (c + 1) := by
    conv => lhs; rw [← List.take_append_drop c L, List.drop_eq_getElem_cons hc, e]
  have hB : ∀ p ∈ (L.drop (c + 1)).reverse, ¬ (!p.2) = true := by
    intro p hp
    rw [List.mem_reverse] at hp
    obtain ⟨k, hk, ek⟩ := List.getElem_of_mem hp
    rw [List.getElem_drop] at ek
    have := hl (c + 1 + k) p (by omega) (by rw [← ek]; exact List.getElem?_eq_getElem _)
    simp [this]
  rw [List.eraseIdx_eq_take_drop_succ]
  conv => lhs; rw [hL]
  unfold dropLru
  rw [List.reverse_append, List.reverse_cons, List.append_assoc, List.eraseP_append_right _ hB]
  simp

/-- counting over ways is counting over positions -/
theorem R_locked {n : Nat} {lru : Nat → Nat} {valid scp : Nat → Bool} {key : Nat → Nat} {L : SetL}
    (h : R n lru valid scp key L) (hv : ∀ i, i < n → scp i = true → valid i = true) :
    (List.range n).countP scp = locked L := by
  obtain ⟨h1, h2, h3, h4, h5, h6⟩ := h
  have e1 : (List.range n).countP scp =
      (List.range n).countP ((fun k => (L[k]?.map (·.2)).getD false) ∘ lru) := by
    apply List.countP_congr
    intro i hi
    have hi : i < n := List.mem_range.1 hi
    simp only [Function.comp, h5 i hi]
    cases hvi : valid i with
    | true => simp
    | false =>
      cases hs : scp i with
      | false => simp
      | true => rw [hv i hi hs] at hvi; cases hvi
  have hperm : ((List.range n).map lru).Perm (List.range n) := by
    apply (List.perm_ext_iff_of_nodup _ List.nodup_range).2
    · intro k
      rw [List.mem_map, List.mem_range]
      constructor
      · rintro ⟨i, hi, rfl⟩; exact h2 i (List.mem_range.1 hi)
      · intro hk
        obtain ⟨i, hi, e⟩ := h4 k hk
        exact ⟨i, List.mem_range.2 hi, e⟩
    · unfold List.Nodup
      rw [List.pairwise_map]
      have hr : (List.range n).Pairwise (fun a b => a ∈ List.range n ∧ b ∈ List.range n ∧ a ≠ b) := by
        have := (List.nodup_range (n := n))
        rw [List.pairwise_iff_getElem]
        intro i j hi hj hij
        refine ⟨List.getElem_mem hi, List.getElem_mem hj, ?_⟩
        simp only [List.getElem_range]; omega
      exact hr.imp (fun {a b} ⟨ha, hb, hne⟩ he =>
        hne (h3 a b (List.mem_range.1 ha) (List.mem_range.1 hb) he))
  have e2 : ∀ (L : SetL) (n : Nat), L.length ≤ n →
      (List.range n).countP (fun k => (L[k]?.map (·.2)).getD false) = L.countP (·.2) := by
    intro L
    induction L with
    | nil => intro n _; simp
    | cons p L ih =>
      intro n hn
      obtain ⟨k, rfl⟩ : ∃ k, n = k + 1 := ⟨n - 1, by simp at hn; omega⟩
      rw [List.range_succ_eq_map, List.countP_cons, List.countP_map, List.countP_cons,
        ← ih k (by simpa using hn)]
      rfl
  rw [e1, ← List.countP_map, hperm.countP_eq, e2 L n h1]
  rfl

theorem scpCount_countP (s : Nat → Line) : ∀ n, scpCount s n = (List.range n).countP (fun i => (s i).scp)
  | 0 => rfl
  | n + 1 => by
    unfold scpCount
    rw [List.range_succ, List.countP_append, scpCount_countP s n]
    simp [List.countP_cons]

end Ama.Cache
