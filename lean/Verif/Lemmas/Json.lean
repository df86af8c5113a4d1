import Verif.Spec.Json
/-!
# Reading back laid-out JSON
-/
namespace Ama.Spec.Json

mutual
/-- JSON with its layout -/
inductive T where
  | nul
  | num (l : List Char)
  | str (l : List Char)
  | obj (ms : Ms)
/-- the members of an object: white space, name, white space after the colon, value, white space after it -/
inductive Ms where
  | last (w1 k w2 : List Char) (t : T) (w3 : List Char)
  | more (w1 k w2 : List Char) (t : T) (w3 : List Char) (ms : Ms)
end

mutual
def T.text : T → List Char
  | .nul => ['n', 'u', 'l', 'l']
  | .num l => l
  | .str l => '"' :: (l ++ ['"'])
  | .obj ms => '{' :: (ms.text ++ ['}'])
def Ms.text : Ms → List Char
  | .last w1 k w2 t w3 => w1 ++ ('"' :: (k ++ ('"' :: ':' :: (w2 ++ (t.text ++ w3)))))
  | .more w1 k w2 t w3 ms => w1 ++ ('"' :: (k ++ ('"' :: ':' :: (w2 ++ (t.text ++ (w3 ++ (',' :: ms.text)))))))
end
mutual
def T.val : T → JV
  | .nul => .null
  | .num l => .num l
  | .str l => .str l
  | .obj ms => .obj ms.val
def Ms.val : Ms → List (List Char × JV)
  | .last _ k _ t _ => [(k, t.val)]
  | .more _ k _ t _ ms => (k, t.val) :: ms.val
end
def Blank (w : List Char) : Prop := ∀ c ∈ w, isWs c = true
mutual
def T.Ok : T → Prop
  | .nul => True
  | .num l => Number l
  | .str l => Plain l
  | .obj ms => ms.Ok
def Ms.Ok : Ms → Prop
  | .last w1 k w2 t w3 => Blank w1 ∧ Plain k ∧ Blank w2 ∧ t.Ok ∧ Blank w3
  | .more w1 k w2 t w3 ms => Blank w1 ∧ Plain k ∧ Blank w2 ∧ t.Ok ∧ Blank w3 ∧ ms.Ok
end
mutual
def T.size : T → Nat
  | .obj ms => ms.size + 1
  | _ => 1
def Ms.size : Ms → Nat
  | .last _ _ _ t _ => t.size + 1
  | .more _ _ _ t _ ms => t.size + ms.size + 1
end

theorem skip_blank : ∀ {w : List Char} (_ : Blank w) (s : List Char), skip (w ++ s) = skip s
  | [], _, _ => rfl
  | c :: t, h, s => by
    rw [List.cons_append, skip, if_pos (h c (.head _))]
    exact skip_blank (fun c hc => h c (.tail _ hc)) s
theorem skip_no {c : Char} (h : isWs c = false) (s : List Char) : skip (c :: s) = c :: s := by
  rw [skip, if_neg (by rw [h]; simp)]

theorem string_plain : ∀ {k : List Char} (_ : Plain k) (s : List Char), string (k ++ '"' :: s) = some (k, s)
  | [], _, _ => rfl
  | c :: t, h, s => by
    obtain ⟨h1, h2, h3⟩ := h c (.head _)
    rw [List.cons_append, string]
    · rw [if_neg, string_plain (fun c hc => h c (.tail _ hc)) s]
      · rfl
      · simp [h2, h3]
    · exact h1

/-- what may follow a number -/
def Stops : List Char → Prop
  | [] => True
  | c :: _ => numChar c = false

theorem take_num : ∀ {l : List Char} (_ : ∀ c ∈ l, numChar c = true) {s : List Char} (_ : Stops s),
    (l ++ s).takeWhile numChar = l ∧ (l ++ s).dropWhile numChar = s
  | [], _, [], _ => ⟨rfl, rfl⟩
  | [], _, c :: s, h => by
    simp only [List.nil_append]
    have h : numChar c = false := h
    rw [List.takeWhile_cons_of_neg (by rw [h]; simp), List.dropWhile_cons_of_neg (by rw [h]; simp)]
    exact ⟨rfl, rfl⟩
  | c :: t, h, s, hs => by
    have ih := take_num (l := t) (fun c hc => h c (.tail _ hc)) hs
    rw [List.cons_append, List.takeWhile_cons_of_pos (h c (.head _)), List.dropWhile_cons_of_pos (h c (.head _)), ih.1, ih.2]
    exact ⟨rfl, rfl⟩

theorem number_ok {l : List Char} (h : Number l) {s : List Char} (hs : Stops s) : number (l ++ s) = some (.num l, s) := by
  unfold number
  rw [(take_num h.2 hs).1, (take_num h.2 hs).2]
  exact if_pos h.1

theorem Number.cons {l : List Char} (h : Number l) : ∃ c t, l = c :: t ∧ numChar c = true := by
  cases l with
  | nil => exact absurd h.1 (by decide)
  | cons c t => exact ⟨c, t, rfl, h.2 c (.head _)⟩

theorem blank_stops {w s : List Char} (h : Blank w) (hs : Stops s) : Stops (w ++ s) := by
  cases w with
  | nil => exact hs
  | cons c t =>
    have := h c (.head _)
    show numChar c = false
    unfold isWs at this
    simp only [Bool.or_eq_true, beq_iff_eq] at this
    rcases this with ((rfl | rfl) | rfl) | rfl <;> decide

theorem numChar_facts {c : Char} (h : numChar c = true) : isWs c = false ∧ c ≠ '{' ∧ c ≠ '"' ∧ c ≠ 'n' := by
  refine ⟨?_, ?_, ?_, ?_⟩
  · cases hw : isWs c with
    | false => rfl
    | true =>
      have := blank_stops (w := [c]) (s := []) (by intro x hx; cases List.mem_singleton.1 hx; exact hw) trivial
      have : numChar c = false := this
      rw [this] at h; cases h
  all_goals (rintro rfl; exact absurd h (by decide))

mutual
theorem value_text : ∀ (t : T) (_ : t.Ok) (n : Nat) (_ : t.size ≤ n) {w : List Char} (_ : Blank w) {s : List Char}
    (_ : Stops s), value n (w ++ (t.text ++ s)) = some (t.val, s)
  | .nul, _, n, hn, w, hw, s, hs => by
    cases n with
    | zero => exact absurd hn (by simp [T.size])
    | succ n =>
      rw [value, skip_blank hw]
      simp only [T.text, List.cons_append, List.nil_append]
      rw [skip_no (by decide)]
      rfl
  | .num l, ho, n, hn, w, hw, s, hs => by
    cases n with
    | zero => exact absurd hn (by simp [T.size])
    | succ n =>
      have ho : Number l := ho
      obtain ⟨c, t, hl, hc⟩ := ho.cons
      obtain ⟨h1, h2, h3, h4⟩ := numChar_facts hc
      rw [value, skip_blank hw]
      simp only [T.text, T.val]
      have hk : skip (l ++ s) = l ++ s := by rw [hl, List.cons_append, skip_no h1]
      rw [hk]
      have hnum := number_ok ho hs
      rw [hl, List.cons_append] at hnum ⊢
      split
      · rename_i e; exact absurd (List.cons.inj e).1 h2
      · rename_i e; exact absurd (List.cons.inj e).1 h3
      · rename_i e; exact absurd (List.cons.inj e).1 h4
      · exact hnum
  | .str l, ho, n, hn, w, hw, s, hs => by
    cases n with
    | zero => exact absurd hn (by simp [T.size])
    | succ n =>
      rw [value, skip_blank hw]
      simp only [T.text, List.cons_append, List.append_assoc, List.nil_append]
      rw [skip_no (by decide)]
      simp only [string_plain ho, Option.map_some, T.val]
  | .obj ms, ho, n, hn, w, hw, s, hs => by
    cases n with
    | zero => exact absurd hn (by simp [T.size])
    | succ n =>
      rw [value, skip_blank hw]
      simp only [T.text, List.cons_append, List.append_assoc, List.nil_append]
      rw [skip_no (by decide)]
      have hm := members_text ms ho n (by simp only [T.size] at hn; omega) (s := s)
      obtain ⟨u, hu⟩ := members_head ms ho ('}' :: s)
      simp only [hu, hm, Option.map_some, T.val]
      rfl
theorem members_text : ∀ (ms : Ms) (_ : ms.Ok) (n : Nat) (_ : ms.size ≤ n) {s : List Char},
    members n (ms.text ++ '}' :: s) = some (ms.val, s)
  | .last w1 k w2 t w3, ho, n, hn, s => by
    obtain ⟨h1, hk, h2, ht, h3⟩ := ho
    cases n with
    | zero => exact absurd hn (by simp [Ms.size])
    | succ n =>
      have hv := value_text t ht n (by simp only [Ms.size] at hn; omega) h2 (s := w3 ++ '}' :: s)
        (blank_stops h3 (show numChar _ = false by decide))
      rw [members]
      simp only [Ms.text, List.append_assoc, List.cons_append]
      rw [skip_blank h1, skip_no (by decide)]
      simp only [string_plain hk]
      rw [skip_no (by decide)]
      simp only [hv]
      rw [skip_blank h3, skip_no (by decide)]
      rfl
  | .more w1 k w2 t w3 ms, ho, n, hn, s => by
    obtain ⟨h1, hk, h2, ht, h3, hms⟩ := ho
    cases n with
    | zero => exact absurd hn (by simp [Ms.size])
    | succ n =>
      have hv := value_text t ht n (by simp only [Ms.size] at hn; omega) h2 (s := w3 ++ ',' :: (ms.text ++ '}' :: s))
        (blank_stops h3 (show numChar _ = false by decide))
      have hm := members_text ms hms n (by simp only [Ms.size] at hn; omega) (s := s)
      rw [members]
      simp only [Ms.text, List.append_assoc, List.cons_append]
      rw [skip_blank h1, skip_no (by decide)]
      simp only [string_plain hk]
      rw [skip_no (by decide)]
      simp only [hv]
      rw [skip_blank h3, skip_no (by decide)]
      simp only [hm, Option.map_some, Ms.val]
theorem members_head : ∀ (ms : Ms) (_ : ms.Ok) (s : List Char), ∃ u, skip (ms.text ++ s) = '"' :: u
  | .last w1 k w2 t w3, ho, s => by
    simp only [Ms.text, List.append_assoc, List.cons_append]
    rw [skip_blank ho.1, skip_no (by decide)]
    exact ⟨_, rfl⟩
  | .more w1 k w2 t w3 ms, ho, s => by
    simp only [Ms.text, List.append_assoc, List.cons_append]
    rw [skip_blank ho.1, skip_no (by decide)]
    exact ⟨_, rfl⟩
end

mutual
theorem size_text : ∀ (t : T), t.Ok → t.size ≤ t.text.length
  | .nul, _ => by simp [T.size, T.text]
  | .num l, h => by
    obtain ⟨c, u, rfl, _⟩ := Number.cons h
    simp [T.size, T.text]
  | .str l, _ => by simp [T.size, T.text]
  | .obj ms, h => by
    have := size_members ms h
    simp only [T.size, T.text, List.length_cons, List.length_append, List.length_nil]; omega
theorem size_members : ∀ (ms : Ms), ms.Ok → ms.size ≤ ms.text.length
  | .last w1 k w2 t w3, h => by
    have := size_text t h.2.2.2.1
    simp only [Ms.size, Ms.text, List.length_cons, List.length_append]; omega
  | .more w1 k w2 t w3 ms, h => by
    have h1 := size_text t h.2.2.2.1
    have h2 := size_members ms h.2.2.2.2.2
    simp only [Ms.size, Ms.text, List.length_cons, List.length_append]; omega
end

/-- laid-out JSON reads back -/
theorem read_text (t : T) (h : t.Ok) {w : List Char} (hw : Blank w) : readJson (t.text ++ w) = some t.val := by
  have hs := size_text t h
  have hst : Stops w := by
    have := blank_stops (s := []) hw trivial
    rwa [List.append_nil] at this
  have := value_text t h ((t.text ++ w).length + 1) (by simp only [List.length_append]; omega) (w := []) (by intro c hc; cases hc) hst
  simp only [List.nil_append] at this
  unfold readJson
  rw [this]
  have hk : skip w = [] := by
    have := skip_blank hw []
    rwa [List.append_nil] at this
  simp only [hk, if_true]

theorem digit_isDigit {d : Nat} (h : d < 10) : (Nat.digitChar d).isDigit = true := by
  match d, h with
  | 0, _ | 1, _ | 2, _ | 3, _ | 4, _ | 5, _ | 6, _ | 7, _ | 8, _ | 9, _ => decide

theorem lead_digit (n : Nat) : 0 < n → ∃ d t, Nat.toDigits 10 n = Nat.digitChar d :: t ∧ 1 ≤ d ∧ d < 10 ∧
    ∀ c ∈ t, c.isDigit = true := by
  induction n using Nat.strongRecOn with
  | _ n ih =>
    intro h0
    by_cases h : n < 10
    · exact ⟨n, [], Nat.toDigits_of_lt_base h, h0, h, fun c hc => by cases hc⟩
    · obtain ⟨d, t, e, h1, h2, h3⟩ := ih (n / 10) (Nat.div_lt_self h0 (by decide)) (by omega)
      refine ⟨d, t ++ [Nat.digitChar (n % 10)], ?_, h1, h2, ?_⟩
      · rw [Nat.toDigits_of_base_le (by decide) (by omega), e]; rfl
      · intro c hc
        rcases List.mem_append.1 hc with hc | hc
        · exact h3 c hc
        · rw [List.mem_singleton.1 hc]
          exact digit_isDigit (Nat.mod_lt _ (by decide))

theorem drop_digits : ∀ {t : List Char}, (∀ c ∈ t, c.isDigit = true) → t.dropWhile (·.isDigit) = []
  | [], _ => rfl
  | c :: t, h => by
    rw [List.dropWhile_cons_of_pos (h c (.head _))]
    exact drop_digits (fun c hc => h c (.tail _ hc))

/-- decimal numerals are numbers -/
theorem number_digits (n : Nat) : Number (Nat.toDigits 10 n) := by
  rcases Nat.eq_zero_or_pos n with rfl | h
  · exact ⟨by decide, by decide⟩
  · obtain ⟨d, t, e, h1, h2, h3⟩ := lead_digit n h
    rw [e]
    refine ⟨?_, ?_⟩
    · have hd := drop_digits h3
      match d, h1, h2 with
      | 1, _, _ | 2, _, _ | 3, _, _ | 4, _, _ | 5, _, _ | 6, _, _ | 7, _, _ | 8, _, _ | 9, _, _ =>
        simp [numOk, intOk, hd, fracOk, Nat.digitChar]
    · intro c hc
      have : c.isDigit = true := by
        rcases List.mem_cons.1 hc with rfl | hc
        · exact digit_isDigit h2
        · exact h3 c hc
      unfold numChar
      rw [this]; rfl

end Ama.Spec.Json
