import Verif.Model.ProfPerf
/-! # Symbol lookups and sample bookkeeping of the callstack profiler -/
namespace Ama.Perf

/-! ## Maps -/

/-- increasing keys, distinct indices -/
structure Wf (m : SymMap) : Prop where
  sorted : m.Pairwise fun a b => a.pc.toNat < b.pc.toNat
  inj : m.Pairwise fun a b => a.idx ≠ b.idx

theorem insertKey_mem {pc x : W} : ∀ {l : List W}, x ∈ insertKey pc l ↔ x = pc ∨ x ∈ l
  | [] => by simp [insertKey]
  | a :: t => by
    unfold insertKey
    split
    · simp
    · split
      · next h => simp at h; subst h; simp
      · simp only [List.mem_cons, insertKey_mem (l := t)]
        constructor
        · rintro (h | h | h) <;> simp [h]
        · rintro (h | h | h) <;> simp [h]
theorem insertKey_sorted {pc : W} : ∀ {l : List W}, l.Pairwise (fun a b => a.toNat < b.toNat) →
    (insertKey pc l).Pairwise fun a b => a.toNat < b.toNat
  | [], _ => by simp [insertKey]
  | a :: t, h => by
    obtain ⟨h1, h2⟩ := List.pairwise_cons.1 h
    unfold insertKey
    split
    · next hu =>
      have hu : pc.toNat < a.toNat := by simpa [BitVec.ult] using hu
      refine List.pairwise_cons.2 ⟨fun x hx => ?_, h⟩
      rcases List.mem_cons.1 hx with e | hx
      · rw [e]; exact hu
      · exact Nat.lt_trans hu (h1 _ hx)
    · next hu =>
      have hu : ¬ pc.toNat < a.toNat := by simpa [BitVec.ult] using hu
      split
      · exact h
      · next hn =>
        have hn : pc ≠ a := by simpa using hn
        refine List.pairwise_cons.2 ⟨fun x hx => ?_, insertKey_sorted h2⟩
        rcases insertKey_mem.1 hx with e | hx
        · rw [e]
          rcases Nat.lt_or_eq_of_le (Nat.not_lt.1 hu) with h | h
          · exact h
          · exact absurd (BitVec.eq_of_toNat_eq h.symm) hn
        · exact h1 _ hx
theorem symKeys_sorted : ∀ {l : List ElfSym} {m : List W}, m.Pairwise (fun a b => a.toNat < b.toNat) →
    (symKeys l m).Pairwise fun a b => a.toNat < b.toNat
  | [], _, h => h
  | s :: t, m, h => by
    unfold symKeys
    refine symKeys_sorted ?_
    split
    · exact insertKey_sorted h
    · exact h
theorem reindex_mem : ∀ {l : List W} {i : Idx} {s : Sym}, s ∈ reindex i l →
    s.pc ∈ l ∧ ∃ n, n < l.length ∧ s.idx = i + BitVec.ofNat 16 n
  | [], _, _, h => by cases h
  | a :: t, i, s, h => by
    rcases List.mem_cons.1 h with e | h
    · subst e; exact ⟨List.mem_cons_self, 0, by simp, by simp⟩
    · obtain ⟨h1, n, h2, h3⟩ := reindex_mem h
      refine ⟨List.mem_cons_of_mem _ h1, n + 1, by simpa using h2, ?_⟩
      rw [h3, BitVec.ofNat_add, BitVec.add_assoc, BitVec.add_comm 1#16]
theorem reindex_wf : ∀ {l : List W} {i : Idx}, l.Pairwise (fun a b => a.toNat < b.toNat) → l.length ≤ 65535 →
    Wf (reindex i l)
  | [], _, _, _ => ⟨.nil, .nil⟩
  | a :: t, i, h, hl => by
    obtain ⟨h1, h2⟩ := List.pairwise_cons.1 h
    simp only [List.length_cons] at hl
    have ih := reindex_wf (i := i + 1#16) h2 (by omega)
    refine ⟨List.pairwise_cons.2 ⟨fun x hx => h1 _ (reindex_mem hx).1, ih.1⟩,
      List.pairwise_cons.2 ⟨fun x hx => ?_, ih.2⟩⟩
    obtain ⟨_, n, hn, e⟩ := reindex_mem hx
    show i ≠ x.idx
    rw [e]
    intro hc
    have : 1#16 + BitVec.ofNat 16 n = 0#16 := by
      have h3 : i + (1#16 + BitVec.ofNat 16 n) = i + 0#16 := by
        rw [← BitVec.add_assoc, ← hc]; simp
      exact (BitVec.add_right_inj i).1 h3
    have h4 := congrArg BitVec.toNat this
    simp at h4
    omega
theorem symMap_wf {l : List ElfSym} {m : SymMap} (h : symMap l = some m) : Wf m := by
  unfold symMap at h
  split at h
  · cases h
  · next hl => cases h; exact reindex_wf (symKeys_sorted .nil) (by omega)

theorem find_some {m : SymMap} {pc : W} {y : Sym} (h : find m pc = some y) : y ∈ m ∧ y.pc = pc :=
  ⟨List.mem_of_find?_eq_some h, by simpa using List.find?_some h⟩
theorem find_none {m : SymMap} {pc : W} (h : find m pc = none) : ∀ y ∈ m, y.pc ≠ pc := by
  intro y hy
  simpa using List.find?_eq_none.1 h y hy
theorem Wf.find {m : SymMap} (w : Wf m) {y : Sym} (hy : y ∈ m) : Perf.find m y.pc = some y := by
  cases h : Perf.find m y.pc with
  | none => exact absurd rfl (find_none h y hy)
  | some z =>
    obtain ⟨h1, h2⟩ := find_some h
    have hs := w.sorted
    clear w h
    induction m with
    | nil => cases hy
    | cons a t ih =>
      obtain ⟨p1, p2⟩ := List.pairwise_cons.1 hs
      rcases List.mem_cons.1 hy with e1 | e1 <;> rcases List.mem_cons.1 h1 with e2 | e2
      · rw [e1, e2]
      · have := p1 _ e2; rw [h2, e1] at this; omega
      · have := p1 _ e1; rw [← h2, e2] at this; omega
      · exact ih e1 e2 p2

theorem Wf.tail {a : Sym} {t : SymMap} (w : Wf (a :: t)) : Wf t :=
  ⟨(List.pairwise_cons.1 w.1).2, (List.pairwise_cons.1 w.2).2⟩
/-- the entry whose range holds the pc -/
theorem Wf.inRange {m : SymMap} (w : Wf m) {pc : W} {y : Sym} :
    Perf.inRange m pc = some y ↔ y ∈ m ∧ y.pc.toNat ≤ pc.toNat ∧ ∀ z ∈ m, z.pc.toNat ≤ pc.toNat → z.pc.toNat ≤ y.pc.toNat := by
  induction m with
  | nil => simp [Perf.inRange]
  | cons a t ih =>
    have ih := ih w.tail
    obtain ⟨p1, p2⟩ := List.pairwise_cons.1 w.1
    unfold Perf.inRange at ih ⊢
    rw [List.takeWhile_cons]
    by_cases ha : a.pc.toNat ≤ pc.toNat
    · have ha' : (!(pc.ult a.pc)) = true := by simp [BitVec.ult, ha]
      rw [if_pos ha', List.getLast?_cons]
      cases hr : (t.takeWhile fun s => !(pc.ult s.pc)).getLast? with
      | none =>
        have hnil : t.takeWhile (fun s => !(pc.ult s.pc)) = [] := List.getLast?_eq_none_iff.1 hr
        have hall : ∀ z ∈ t, ¬ z.pc.toNat ≤ pc.toNat := by
          intro z hz
          cases t with
          | nil => cases hz
          | cons b u =>
            rw [List.takeWhile_cons] at hnil
            split at hnil
            · cases hnil
            · next hb =>
              have hb : ¬ b.pc.toNat ≤ pc.toNat := by simpa [BitVec.ult] using hb
              rcases List.mem_cons.1 hz with e | hz
              · rw [e]; exact hb
              · have := (List.pairwise_cons.1 p2).1 _ hz; omega
        simp only [Option.getD_none, Option.some.injEq, List.mem_cons]
        constructor
        · rintro rfl
          refine ⟨.inl rfl, ha, ?_⟩
          rintro z (e | hz) hz'
          · rw [e]; exact Nat.le_refl _
          · exact absurd hz' (hall z hz)
        · rintro ⟨e | hy, h2, h3⟩
          · exact e.symm
          · exact absurd h2 (hall y hy)
      | some x =>
        rw [hr] at ih
        simp only [Option.getD_some]
        rw [ih]
        have hx := ih
        constructor
        · rintro ⟨h1, h2, h3⟩
          refine ⟨List.mem_cons_of_mem _ h1, h2, ?_⟩
          intro z hz hz'
          rcases List.mem_cons.1 hz with e | hz
          · rw [e]; exact Nat.le_of_lt (p1 _ h1)
          · exact h3 z hz hz'
        · rintro ⟨h1, h2, h3⟩
          rcases List.mem_cons.1 h1 with e | h1
          · have hxt : x ∈ t.takeWhile (fun s => !(pc.ult s.pc)) := List.mem_of_getLast? hr
            have hm : x ∈ t := List.takeWhile_subset _ hxt
            have hl : x.pc.toNat ≤ pc.toNat := by
              have := List.all_eq_true.1 (List.all_takeWhile (p := fun s : Sym => !(pc.ult s.pc)) (l := t)) x hxt
              simpa [BitVec.ult] using this
            have := h3 x (List.mem_cons_of_mem _ hm) hl
            have := p1 _ hm
            rw [e] at *
            omega
          · exact ⟨h1, h2, fun z hz => h3 z (List.mem_cons_of_mem _ hz)⟩
    · have ha' : ¬ (!(pc.ult a.pc)) = true := by simpa [BitVec.ult] using Nat.lt_of_not_le ha
      rw [if_neg ha']
      simp only [List.getLast?_nil, reduceCtorEq, false_iff]
      rintro ⟨h1, h2, h3⟩
      rcases List.mem_cons.1 h1 with e | h1
      · rw [e] at h2; exact ha h2
      · have := p1 _ h1; omega
theorem Wf.inRange_start {m : SymMap} (w : Wf m) {y : Sym} (hy : y ∈ m) : Perf.inRange m y.pc = some y :=
  w.inRange.2 ⟨hy, Nat.le_refl _, fun _ _ h => h⟩
theorem Wf.idx_inj {m : SymMap} (w : Wf m) {y z : Sym} (hy : y ∈ m) (hz : z ∈ m) (h : y.idx = z.idx) : y = z := by
  have hs := w.inj
  clear w
  induction m with
  | nil => cases hy
  | cons a t ih =>
    obtain ⟨p1, p2⟩ := List.pairwise_cons.1 hs
    rcases List.mem_cons.1 hy with e1 | e1 <;> rcases List.mem_cons.1 hz with e2 | e2
    · rw [e1, e2]
    · exact absurd (by rw [← h, e1]) (p1 _ e2)
    · exact absurd (by rw [h, e2]) (p1 _ e1)
    · exact ih e1 e2 p2
theorem Wf.following {m : SymMap} (w : Wf m) {pc : W} {z : Sym} (h : Perf.following m pc = some z) :
    z ∈ m ∧ pc.toNat < z.pc.toNat ∧ ∃ y ∈ m, y.pc = pc := by
  induction m with
  | nil => simp [Perf.following] at h
  | cons a t ih =>
    unfold Perf.following at h ih
    rw [List.dropWhile_cons] at h
    by_cases ha : a.pc = pc
    · rw [if_neg (by simpa using ha)] at h
      simp only [List.tail_cons] at h
      have hz : z ∈ t := List.mem_of_head? h
      have := (List.pairwise_cons.1 w.1).1 _ hz
      rw [ha] at this
      exact ⟨List.mem_cons_of_mem _ hz, this, a, List.mem_cons_self, ha⟩
    · rw [if_pos (by simpa using ha)] at h
      obtain ⟨h1, h2, y, h3, h4⟩ := ih w.tail h
      exact ⟨List.mem_cons_of_mem _ h1, h2, y, List.mem_cons_of_mem _ h3, h4⟩

/-! ## Counters -/

theorem drain_foldl : ∀ (l : List Nat) (s : St), l.foldl St.drain s =
    { s with
      cnt := fun i => if i ∈ l then s.cnt i + (s.flags i).toNat else s.cnt i
      flags := fun i => if i ∈ l then 0#16 else s.flags i }
  | [], s => by simp
  | a :: t, s => by
    rw [List.foldl_cons, drain_foldl t]
    unfold St.drain
    simp only [List.mem_cons]
    congr 1
    · funext i
      by_cases h : i = a
      · subst h; simp
      · simp [h]
    · funext i
      by_cases h : i = a
      · subst h; simp
      · simp [h]
theorem inc_eq (s : St) : s.inc =
    { s with
      cnt := fun i => if s.active = true ∧ i ∈ s.events then s.cnt i + (s.flags i).toNat else s.cnt i
      flags := fun i => if s.active = true ∧ i ∉ s.events then s.flags i else 0#16 } := by
  unfold St.inc
  cases h : s.active
  · simp
  · simp only [Bool.not_true, Bool.false_eq_true, if_false, drain_foldl, true_and]
    congr 1
    funext i
    by_cases h : i ∈ s.events <;> simp [h]

theorem total_bump (key : List Idx) (d : Nat → Nat) (e : Nat) :
    ∀ l : List (List Idx × (Nat → Nat)), ((bump key d l).map fun p => p.2 e).sum = (l.map fun p => p.2 e).sum + d e
  | [] => by simp [bump]
  | (k, c) :: t => by
    unfold bump
    split
    · simp only [List.map_cons, List.sum_cons]; omega
    · simp only [List.map_cons, List.sum_cons, total_bump key d e t]; omega

/-- the samples of one key -/
def at_ (l : List (List Idx × (Nat → Nat))) (key : List Idx) (e : Nat) : Nat :=
  match l.find? (·.1 == key) with
  | some p => p.2 e
  | none => 0
theorem at_bump (key : List Idx) (d : Nat → Nat) (k : List Idx) (e : Nat) :
    ∀ l : List (List Idx × (Nat → Nat)), at_ (bump key d l) k e = at_ l k e + if k = key then d e else 0
  | [] => by
    unfold at_ bump
    by_cases h : k = key
    · subst h; simp
    · rw [if_neg h, List.find?_cons_of_neg (by simpa using fun h' => h h'.symm)]; rfl
  | (k', c) :: t => by
    have ih := at_bump key d k e t
    unfold at_ at ih ⊢
    unfold bump
    by_cases h1 : k' = key
    · rw [if_pos h1]
      by_cases h2 : k' = k
      · rw [List.find?_cons_of_pos (by simpa using h2), List.find?_cons_of_pos (by simpa using h2),
          if_pos (h2.symm.trans h1)]
      · rw [List.find?_cons_of_neg (by simpa using h2), List.find?_cons_of_neg (by simpa using h2),
          if_neg (fun h => h2 (h1.trans h.symm))]
        simp
    · rw [if_neg h1]
      by_cases h2 : k' = k
      · rw [List.find?_cons_of_pos (by simpa using h2), List.find?_cons_of_pos (by simpa using h2),
          if_neg (fun h => h1 (h2.trans h))]
        simp
      · rw [List.find?_cons_of_neg (by simpa using h2), List.find?_cons_of_neg (by simpa using h2), ih]

theorem share_eq {s : St} (hn : s.events.Nodup) {e : Nat} (he : e ∈ s.events) : s.share e = s.cnt e := by
  unfold St.share
  have : s.events.countP (· == e) = 1 := by
    have h1 : 0 < s.events.count e := List.count_pos_iff.2 he
    have h2 : s.events.count e ≤ 1 := List.nodup_iff_count.1 hn e
    unfold List.count at h1 h2
    omega
  rw [this, Nat.one_mul]

end Ama.Perf
