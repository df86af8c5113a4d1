import Verif.Props.BpStats
/-!
# C55: the branch pattern string
-/
namespace Ama.Bp

/-- reading a pattern string: a decimal number followed by `T` or `N` stands for that many outcomes, blanks
separate; `n` is the number read so far -/
def readPattern (n : Nat) : List Char → List Bool
  | [] => []
  | c :: t =>
    if c.isDigit then readPattern (10 * n + (c.toNat - '0'.toNat)) t
    else if c = 'T' then List.replicate n true ++ readPattern 0 t
    else if c = 'N' then List.replicate n false ++ readPattern 0 t
    else readPattern 0 t

/-- one run as text -/
def runText (r : Nat × Bool) : List Char := Nat.toDigits 10 r.1 ++ [if r.2 then 'T' else 'N']
/-- runs as text, separated by single blanks -/
def runsText : List (Nat × Bool) → List Char
  | [] => []
  | [r] => runText r
  | r :: s :: t => runText r ++ ' ' :: runsText (s :: t)
/-- the outcomes that a list of runs stands for -/
def expand (rs : List (Nat × Bool)) : List Bool := rs.flatMap (fun r => List.replicate r.1 r.2)
/-- runs are nonempty and neighbours differ -/
def Maximal : List (Nat × Bool) → Prop
  | [] => True
  | [r] => 0 < r.1
  | r :: s :: t => 0 < r.1 ∧ r.2 ≠ s.2 ∧ Maximal (s :: t)

theorem readPattern_digits : ∀ (ds : List Char) (n : Nat) (rest : List Char), (∀ c ∈ ds, c.isDigit = true) →
    readPattern n (ds ++ rest) = readPattern (Nat.ofDigitChars 10 ds n) rest
  | [], n, rest, _ => rfl
  | c :: t, n, rest, h => by
    rw [List.cons_append, readPattern, if_pos (h c (.head _)),
      readPattern_digits t _ rest (fun x hx => h x (.tail _ hx))]
    rfl

theorem readPattern_num (k : Nat) (rest : List Char) :
    readPattern 0 (Nat.toDigits 10 k ++ rest) = readPattern k rest := by
  rw [readPattern_digits _ _ _ (fun c hc => Nat.isDigit_of_mem_toDigits (by decide) (by decide) hc),
    Nat.ofDigitChars_toDigits (by decide) (by decide)]

theorem readPattern_run (r : Nat × Bool) (rest : List Char) :
    readPattern 0 (runText r ++ rest) = List.replicate r.1 r.2 ++ readPattern 0 rest := by
  obtain ⟨k, b⟩ := r
  unfold runText
  rw [List.append_assoc, readPattern_num]
  cases b
  · rw [show ([if (k, false).2 = true then 'T' else 'N'] : List Char) = ['N'] from rfl]
    rw [List.cons_append, List.nil_append, readPattern, if_neg (by decide), if_neg (by decide), if_pos rfl]
  · rw [show ([if (k, true).2 = true then 'T' else 'N'] : List Char) = ['T'] from rfl]
    rw [List.cons_append, List.nil_append, readPattern, if_neg (by decide), if_pos rfl]

theorem readPattern_runs : ∀ (rs : List (Nat × Bool)), readPattern 0 (runsText rs) = expand rs
  | [] => rfl
  | [r] => by
    have := readPattern_run r []
    rw [List.append_nil] at this
    simp only [runsText, this, expand, List.flatMap_cons, List.flatMap_nil, readPattern]
  | r :: s :: t => by
    have ih := readPattern_runs (s :: t)
    rw [runsText, readPattern_run, readPattern, if_neg (by decide), if_neg (by decide), if_neg (by decide), ih]
    simp only [expand, List.flatMap_cons]

/-- the runs the loop finds -/
def runsOf : (prev : Bool) → (count : Nat) → List Bool → List (Nat × Bool)
  | prev, count, [] => [(count, prev)]
  | prev, count, b :: t => if b = prev then runsOf b (count + 1) t else (count, prev) :: runsOf b 1 t

theorem runsOf_head : ∀ (l : List Bool) (p : Bool) (c : Nat), ∃ k t, runsOf p c l = (k, p) :: t
  | [], p, c => ⟨c, [], rfl⟩
  | b :: l, p, c => by
    simp only [runsOf]
    split
    · rename_i h; subst h; exact runsOf_head l _ _
    · exact ⟨c, _, rfl⟩

theorem runGo_text : ∀ (l : List Bool) (p : Bool) (c : Nat) (acc : List Char),
    runGo p c l acc = acc ++ runsText (runsOf p c l)
  | [], p, c, acc => by simp only [runGo, runsOf, runsText, runText, List.append_assoc]
  | b :: l, p, c, acc => by
    simp only [runGo, runsOf]
    split
    · exact runGo_text l b (c + 1) acc
    · rw [runGo_text l b 1]
      obtain ⟨k, t, e⟩ := runsOf_head l b 1
      rw [e, runsText]
      simp only [runText, List.append_assoc, List.cons_append, List.nil_append]

theorem runsOf_expand : ∀ (l : List Bool) (p : Bool) (c : Nat),
    expand (runsOf p c l) = List.replicate c p ++ l
  | [], p, c => by simp [runsOf, expand]
  | b :: l, p, c => by
    simp only [runsOf]
    split
    · rename_i h
      subst h
      rw [runsOf_expand l b (c + 1), List.replicate_succ', List.append_assoc, List.singleton_append]
    · have := runsOf_expand l b 1
      unfold expand at this ⊢
      rw [List.flatMap_cons, this]
      rfl

theorem runsOf_maximal : ∀ (l : List Bool) (p : Bool) (c : Nat), 0 < c → Maximal (runsOf p c l)
  | [], p, c, h => h
  | b :: l, p, c, h => by
    simp only [runsOf]
    split
    · exact runsOf_maximal l b (c + 1) (by omega)
    · rename_i hb
      have := runsOf_maximal l b 1 (by decide)
      obtain ⟨k, t, e⟩ := runsOf_head l b 1
      rw [e] at this ⊢
      exact ⟨h, fun hp => hb hp.symm, this⟩

/-- **C55.** For every nonempty history (below 2^32 outcomes, where the code's 32-bit index does not wrap) the
pattern string is a sequence of maximal runs separated by blanks, these runs expand to the history, and reading
the string back gives the history. -/
theorem pattern_lossless (h : List Bool) (hne : h ≠ []) (hlen : h.length < 2 ^ 32) :
    ∃ str rs, findRunLength h = .ok str ∧ str = runsText rs ∧ Maximal rs ∧ expand rs = h ∧
      readPattern 0 str = h := by
  cases h with
  | nil => exact absurd rfl hne
  | cons b t =>
    have e : findRunLength (b :: t) = .ok (runGo b 1 t []) := by
      unfold findRunLength
      exact if_pos hlen
    have hx : expand (runsOf b 1 t) = b :: t := runsOf_expand t b 1
    refine ⟨_, runsOf b 1 t, e, ?_, runsOf_maximal t b 1 (by decide), hx, ?_⟩
    · rw [runGo_text, List.nil_append]
    · rw [runGo_text, List.nil_append, readPattern_runs, hx]

/-- **C55.** Hence different histories have different strings. -/
theorem pattern_injective {h h' : List Bool} (hne : h ≠ []) (hne' : h' ≠ []) (hl : h.length < 2 ^ 32)
    (hl' : h'.length < 2 ^ 32) (e : findRunLength h = findRunLength h') : h = h' := by
  obtain ⟨s, _, h1, _, _, _, h2⟩ := pattern_lossless h hne hl
  obtain ⟨s', _, h1', _, _, _, h2'⟩ := pattern_lossless h' hne' hl'
  rw [h1, h1'] at e
  simp only [Res.ok.injEq] at e
  rw [← h2, ← h2', e]

/-- **C55** end to end: with the CSV dump on, the string written for a branch address with at least one profiled
branch reads back as the taken/not-taken history of the profiled branches at that address. -/
theorem written_pattern_reads_back {low : Nat} {arch : List Def} {ra : Bool} {d : Def} {s s' : BpIf}
    (hm : BpIf.make low arch true ra d = .ok s) {evs : List Ev} (hr : s.run evs = .ok s') {pc : W} {a : App}
    (ha : s'.app pc = some a) (hlen : (profiled false evs).length < 2 ^ 32) :
    ∃ str, findRunLength a.pattern = .ok str ∧
      readPattern 0 str = (atPc pc (profiled false evs)).map (fun e => e.next != e.pc + 4#32) := by
  rw [app_records hm hr] at ha
  have hfl : (atPc pc (profiled false evs)).length < 2 ^ 32 :=
    Nat.lt_of_le_of_lt (List.length_filter_le _ _) hlen
  cases hl : atPc pc (profiled false evs) with
  | nil => rw [hl] at ha; cases ha
  | cons e t =>
    rw [hl] at ha hfl
    simp only [recordOf, Option.some.injEq] at ha
    subst ha
    obtain ⟨str, _, h1, _, _, _, h2⟩ := pattern_lossless ((e :: t).map Br.taken) (by simp) (by simpa using hfl)
    exact ⟨str, h1, h2⟩

/-- the comment's own case: `1110011` -/
example : findRunLength [true, true, true, false, false, true, true] = .ok "3T 2N 2T".toList := by rfl
example : readPattern 0 "12N 1T".toList = List.replicate 12 false ++ [true] := by decide +kernel

end Ama.Bp
