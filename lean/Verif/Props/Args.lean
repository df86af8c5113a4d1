import Mathlib.Data.List.TakeWhile
import Verif.Lemmas.Args
import Verif.Props.ProfEvents
/-!
# C80, C81, C82: command line values

C80: numeric options mean the number written.  C81: named options.  C82: the predictor built for the options.
-/
namespace Ama.Args
open Spec

/-! ## C80 -/

theorem numeral_head {b n : Nat} (hb : b ≤ 16) {l : List Char} (h : Numeral b l n) :
    ∃ c t, l = c :: t ∧ (digitIn b c).isSome = true := by
  obtain ⟨hd, hne⟩ := Numeral.digits h
  cases l with
  | nil => exact absurd rfl hne
  | cons c t =>
    obtain ⟨d, hd⟩ := hd c (List.mem_cons_self ..)
    exact ⟨c, t, rfl, by rw [(digitIn_iff hb).2 hd]; rfl⟩

theorem digit_not {c : Char} {d : Nat} (h : digit c = some d) :
    isSpace c = false ∧ c ≠ '-' ∧ c ≠ '+' ∧ c ≠ 'x' ∧ c ≠ 'X' := by
  have e : ∀ x ∈ [' ', '\t', '\n', '\x0b', '\x0c', '\r', '-', '+', 'x', 'X'], digit x = none := by decide
  have ne : ∀ x ∈ [' ', '\t', '\n', '\x0b', '\x0c', '\r', '-', '+', 'x', 'X'], c ≠ x := by
    intro x hx hc
    rw [hc, e x hx] at h
    cases h
  refine ⟨?_, ne _ (by simp), ne _ (by simp), ne _ (by simp), ne _ (by simp)⟩
  unfold isSpace
  rw [List.contains_eq_mem, decide_eq_false_iff_not]
  intro hc
  exact ne c (by simp only [List.mem_cons, List.not_mem_nil, or_false] at hc ⊢; tauto) rfl

theorem digitIn_digit {b : Nat} {c : Char} {d : Nat} (h : digitIn b c = some d) : digit c = some d := by
  unfold digitIn at h
  exact (Option.filter_eq_some_iff.1 h).1

theorem sign_digit {c : Char} {d : Nat} (h : digit c = some d) (t : List Char) : sign (c :: t) = (false, c :: t) := by
  have n := digit_not h
  unfold sign
  split
  · next e => injection e with e; exact absurd e n.2.1
  · next e => injection e with e; exact absurd e n.2.2.1
  · rfl

theorem prefix_digits {b : Nat} (hb : b ≤ 16) {l r : List Char} (h : Digits b l) (h2 : l ≠ [])
    (hr : ∀ c t, r = c :: t → c ≠ 'x' ∧ c ≠ 'X') : prefixOf b (l ++ r) = l ++ r := by
  unfold prefixOf
  split
  · next x c t e =>
    have hx : x ≠ 'x' ∧ x ≠ 'X' := by
      cases l with
      | nil => exact absurd rfl h2
      | cons a l =>
        cases l with
        | nil =>
          injection e with _ e
          exact hr _ _ e
        | cons a' l =>
          injection e with _ e
          injection e with e _
          obtain ⟨d, hd⟩ := h a' (by simp)
          have := digit_not (digitIn_digit ((digitIn_iff hb).2 hd))
          rw [e] at this
          exact ⟨this.2.2.2.1, this.2.2.2.2⟩
    rw [if_neg (fun h => h.2.1.elim hx.1 hx.2), e]
  · rfl

theorem stoul_numeral {b n : Nat} (hb : b ≤ 16) {l : List Char} (h : Numeral b l n) (hn : n < 2 ^ 64) :
    stoul b l = .ok (BitVec.ofNat 64 n) := by
  obtain ⟨c, t, rfl, hc⟩ := numeral_head hb h
  obtain ⟨d, hd⟩ := Option.isSome_iff_exists.1 hc
  have hp := prefix_digits (r := []) hb (Numeral.digits h).1 (by simp) nofun
  rw [List.append_nil] at hp
  have hs : (c :: t).dropWhile isSpace = c :: t := by
    rw [List.dropWhile_cons, (digit_not (digitIn_digit hd)).1]; rfl
  unfold stoul
  simp only [hs, sign_digit (digitIn_digit hd), hp, hd, digits_numeral hb h]
  rw [if_neg (by simp), if_neg (by omega)]
  rfl

theorem stoul_hex {n : Nat} {l : List Char} {x : Char} (hx : x = 'x' ∨ x = 'X') (h : Numeral 16 l n) (hn : n < 2 ^ 64) :
    stoul 16 ('0' :: x :: l) = .ok (BitVec.ofNat 64 n) := by
  obtain ⟨c, t, rfl, hc⟩ := numeral_head (le_refl _) h
  obtain ⟨d, hd⟩ := Option.isSome_iff_exists.1 hc
  have hp : prefixOf 16 ('0' :: x :: c :: t) = c :: t := by
    unfold prefixOf
    exact if_pos ⟨rfl, hx, hc⟩
  have hs : ('0' :: x :: c :: t).dropWhile isSpace = '0' :: x :: c :: t := by
    rw [List.dropWhile_cons, (digit_not (c := '0') (d := 0) (by decide)).1]; rfl
  unfold stoul
  simp only [hs, sign_digit (c := '0') (d := 0) (by decide), hp, hd, digits_numeral (le_refl _) h]
  rw [if_neg (by simp), if_neg (by omega)]
  rfl

/-- **C80** (`_partial`): a decimal numeral that fits the option's type is converted to its value, and so is a hexadecimal one
with or without its prefix.  Missing: numerals that do not fit are wrapped silently instead of being refused
(`wraps_8`, `wraps_32`), or end the simulator by an exception nobody catches (`overflow_uncaught`); text after the digits is
dropped (`trailing_text`); negative numbers are accepted (`negative`). -/
theorem numeric_option_partial {l : List Char} {n : Nat} :
    (Numeral 10 l n →
      (n < 2 ^ 64 → argU64 l = .ok (BitVec.ofNat 64 n)) ∧ (n < 2 ^ 32 → argU32 l = .ok (BitVec.ofNat 32 n)) ∧
      (n < 2 ^ 8 → argI8 l = .ok (BitVec.ofNat 8 n))) ∧
    (Numeral 16 l n → n < 2 ^ 32 →
      argU32H l = .ok (BitVec.ofNat 32 n) ∧ argU32H ('0' :: 'x' :: l) = .ok (BitVec.ofNat 32 n) ∧
      argU32H ('0' :: 'X' :: l) = .ok (BitVec.ofNat 32 n)) := by
  refine ⟨fun h => ⟨fun hn => stoul_numeral (by omega) h hn, fun hn => ?_, fun hn => ?_⟩, fun h hn => ⟨?_, ?_, ?_⟩⟩
  · unfold argU32
    rw [stoul_numeral (by omega) h (by omega)]
    exact congrArg Out.ok (by apply BitVec.eq_of_toNat_eq; simp)
  · unfold argI8
    rw [stoul_numeral (by omega) h (by omega)]
    exact congrArg Out.ok (by apply BitVec.eq_of_toNat_eq; simp)
  · unfold argU32H
    rw [stoul_numeral (by omega) h (by omega)]
    exact congrArg Out.ok (by apply BitVec.eq_of_toNat_eq; simp)
  · unfold argU32H
    rw [stoul_hex (.inl rfl) h (by omega)]
    exact congrArg Out.ok (by apply BitVec.eq_of_toNat_eq; simp)
  · unfold argU32H
    rw [stoul_hex (.inr rfl) h (by omega)]
    exact congrArg Out.ok (by apply BitVec.eq_of_toNat_eq; simp)

example : Numeral 10 "42".toList 42 := .snoc (l := ['4']) (v := 4) (c := '2') (d := 2) (.one ⟨by omega, .inl rfl⟩) ⟨by omega, .inl rfl⟩
example : Numeral 16 "8f".toList 143 := .snoc (l := ['8']) (v := 8) (c := 'f') (d := 15) (.one ⟨by omega, .inl rfl⟩) ⟨by omega, .inl rfl⟩

/-- **C80**: whatever is accepted is a numeral, after spaces, at most one sign and in base 16 a prefix, followed by text that
is ignored; the value is that of the numeral, or its negative, and the numeral is below 2^64. -/
theorem stoul_sound {b : Nat} (hb : b = 10 ∨ b = 16) {s : List Char} {v : BitVec 64} (h : stoul b s = .ok v) :
    ∃ sp sg px ds r n, s = sp ++ sg ++ px ++ ds ++ r ∧ (∀ c ∈ sp, isSpace c = true) ∧ sg ∈ [[], ['+'], ['-']] ∧
      (px = [] ∨ b = 16 ∧ px ∈ [['0', 'x'], ['0', 'X']]) ∧ Numeral b ds n ∧ n < 2 ^ 64 ∧
      v = (if sg = ['-'] then -BitVec.ofNat 64 n else BitVec.ofNat 64 n) := by
  have hb' : b ≤ 16 := by omega
  unfold stoul at h
  have hsp : s = s.takeWhile isSpace ++ s.dropWhile isSpace := (List.takeWhile_append_dropWhile ..).symm
  have hsp' : ∀ c ∈ s.takeWhile isSpace, isSpace c = true := fun c hc => (List.mem_takeWhile_imp hc)
  generalize s.dropWhile isSpace = u at h hsp
  obtain ⟨sg, hsg, hu, hneg⟩ : ∃ sg, sg ∈ [[], ['+'], ['-']] ∧ u = sg ++ (sign u).2 ∧ ((sign u).1 = true ↔ sg = ['-']) := by
    unfold sign
    split
    · exact ⟨['-'], by simp, rfl, by simp⟩
    · exact ⟨['+'], by simp, rfl, by simp⟩
    · exact ⟨[], by simp, rfl, by simp⟩
  generalize sign u = z at h hu hneg
  obtain ⟨neg, l⟩ := z
  simp only at h hu hneg
  obtain ⟨px, hpx, hl⟩ : ∃ px, (px = [] ∨ b = 16 ∧ px ∈ [['0', 'x'], ['0', 'X']]) ∧ l = px ++ prefixOf b l := by
    unfold prefixOf
    split
    · next x c t =>
      split
      · next hc =>
        refine ⟨['0', x], .inr ⟨hc.1, ?_⟩, rfl⟩
        rcases hc.2.1 with rfl | rfl <;> simp
      · exact ⟨[], .inl rfl, rfl⟩
    · exact ⟨[], .inl rfl, rfl⟩
  generalize prefixOf b l = m at h hl
  cases m with
  | nil => cases h
  | cons c t =>
    simp only at h
    cases hd : digitIn b c with
    | none => rw [hd] at h; cases h
    | some d =>
      rw [hd, if_neg (by simp)] at h
      obtain ⟨ds, r, e, hn⟩ := digits_front hb' t [c] d (.one ((digitIn_iff hb').1 hd))
      have hv : digits b 0 (c :: t) = digits b d t := by
        rw [digits, hd]; simp only [Nat.zero_mul, Nat.zero_add]
      rw [hv] at h
      split at h
      · cases h
      · next hlt =>
        injection h with h
        refine ⟨s.takeWhile isSpace, sg, px, c :: ds, r, _, ?_, hsp', hsg, hpx, hn, by omega, ?_⟩
        · rw [List.append_assoc, List.append_assoc, List.append_assoc]
          refine hsp.trans (congrArg _ (hu.trans (congrArg _ (hl.trans (congrArg _ ?_)))))
          rw [e]; rfl
        · rw [← h]
          by_cases hs : sg = ['-']
          · rw [if_pos (hneg.2 hs), if_pos hs]
          · rw [if_neg (fun x => hs (hneg.1 x)), if_neg hs]

example : stoul 10 " 42x".toList = .ok 42#64 := by decide +kernel

/-- **C80**: white space before the number does not matter: blank, tab, line feed, vertical tab, form feed, carriage return. -/
theorem space_skipped (b : Nat) {c : Char} (h : c.toNat = 32 ∨ 9 ≤ c.toNat ∧ c.toNat ≤ 13) (t : List Char) :
    stoul b (c :: t) = stoul b t := by
  have hs : isSpace c = true := by
    have h' : c.toNat = 32 ∨ c.toNat = 9 ∨ c.toNat = 10 ∨ c.toNat = 11 ∨ c.toNat = 12 ∨ c.toNat = 13 := by omega
    have key : ∀ n : Nat, c.toNat = n → c = Char.ofNat n := fun n e => by rw [← e, Char.ofNat_toNat]
    rcases h' with h | h | h | h | h | h <;> rw [key _ h] <;> decide
  unfold stoul
  rw [List.dropWhile_cons, if_pos hs]
example : stoul 10 "\t42".toList = .ok 42#64 := by decide +kernel

/-- **C80**: a value whose first character is neither space, sign nor digit is refused, as is the empty value. -/
theorem no_digit_refused {b : Nat} (hb : b = 10 ∨ b = 16) :
    stoul b [] = .usage ∧ ∀ (c : Char) (t : List Char), isSpace c = false → c ∉ ['+', '-'] → (¬ ∃ d, IsDigit b c d) →
      stoul b (c :: t) = .usage := by
  have hb' : b ≤ 16 := by omega
  refine ⟨by rcases hb with rfl | rfl <;> rfl, fun c t h1 h2 h3 => ?_⟩
  simp only [List.mem_cons, List.not_mem_nil, or_false, not_or] at h2
  have hs : (c :: t).dropWhile isSpace = c :: t := by rw [List.dropWhile_cons, h1]; rfl
  have hg : sign (c :: t) = (false, c :: t) := by
    unfold sign
    split
    · next e => injection e with e; exact absurd e h2.2
    · next e => injection e with e; exact absurd e h2.1
    · rfl
  have hp : prefixOf b (c :: t) = c :: t := by
    unfold prefixOf
    split
    · next e =>
      injection e with e
      exact absurd ⟨0, by omega, .inl (by rw [e]; rfl)⟩ h3
    · rfl
  unfold stoul
  simp only [hs, hg, hp]
  cases hd : digitIn b c with
  | none => rfl
  | some d => exact absurd ⟨d, (digitIn_iff hb').1 hd⟩ h3

example : isSpace 'x' = false ∧ 'x' ∉ ['+', '-'] ∧ ¬ ∃ d, IsDigit 16 'x' d :=
  ⟨by decide, by decide, fun ⟨d, h⟩ => by have := (digitIn_iff (le_refl 16)).2 h; revert this; simp [digitIn, show digit 'x' = none by decide]⟩

/-! ## C81 -/

theorem findArg_mem {α : Type} {m : OMap α} (hm : (m.map (·.1)).Nodup) {a : String} {x : α} :
    findArg m a = some x ↔ (a, x) ∈ m := by
  induction m with
  | nil => simp [findArg]
  | cons p m ih =>
    obtain ⟨k, y⟩ := p
    rw [List.map_cons, List.nodup_cons] at hm
    unfold findArg
    by_cases e : k = a
    · subst e
      rw [if_pos rfl, List.mem_cons]
      constructor
      · intro h; injection h with h; exact .inl (congrArg (Prod.mk k) h.symm)
      · rintro (h | h)
        · injection h with _ h; rw [h]
        · exact absurd (List.mem_map_of_mem h) hm.1
    · rw [if_neg e, ih hm.2, List.mem_cons]
      constructor
      · exact .inr
      · rintro (h | h)
        · injection h with h; exact absurd h.symm e
        · exact h

theorem findArg_none {α : Type} {m : OMap α} {a : String} : findArg m a = none ↔ a ∉ m.map (·.1) := by
  induction m with
  | nil => simp [findArg]
  | cons p m ih =>
    unfold findArg
    by_cases e : p.1 = a
    · rw [if_pos e]; simp [e]
    · rw [if_neg e, ih, List.map_cons, List.mem_cons, not_or]
      exact ⟨fun h => ⟨fun x => e x.symm, h⟩, And.right⟩

/-- **C81**: with distinct names, a name is resolved to the value listed beside it and any other text is refused with the
usage text. -/
theorem resolve_iff {α : Type} {m : OMap α} (hm : (m.map (·.1)).Nodup) (a : String) :
    (∀ x, resolve m a = .ok x ↔ (a, x) ∈ m) ∧ (resolve m a = .usage ↔ a ∉ m.map (·.1)) := by
  unfold resolve
  cases h : findArg m a with
  | none =>
    refine ⟨fun x => ⟨nofun, fun hx => ?_⟩, ⟨fun _ => findArg_none.1 h, fun _ => rfl⟩⟩
    rw [(findArg_mem hm).2 hx] at h
    cases h
  | some y =>
    refine ⟨fun x => ⟨fun hx => ?_, fun hx => ?_⟩, ⟨nofun, fun hx => ?_⟩⟩
    · injection hx with hx; rw [← hx]; exact (findArg_mem hm).1 h
    · rw [(findArg_mem hm).2 hx] at h; injection h with h; rw [h]
    · rw [findArg_none.2 hx] at h; cases h

/-- **C81**: the tables of `main.cpp` have distinct names. -/
theorem names_distinct : ((perfEvents false).map (·.1)).Nodup ∧ ((perfEvents true).map (·.1)).Nodup ∧
    (bpNames.map (·.1)).Nodup ∧ (sttcNames.map (·.1)).Nodup ∧ (foldNames.map (·.1)).Nodup := by decide

theorem insertSet_mem {x y : Nat} {l : List Nat} : y ∈ insertSet x l ↔ y = x ∨ y ∈ l := by
  induction l with
  | nil => simp [insertSet]
  | cons z l ih =>
    unfold insertSet
    split
    · simp
    · split
      · next e => subst e; simp
      · rw [List.mem_cons, ih, List.mem_cons]; tauto

theorem insertSet_sorted {x : Nat} {l : List Nat} (h : l.Pairwise (· < ·)) : (insertSet x l).Pairwise (· < ·) := by
  induction l with
  | nil => simp [insertSet]
  | cons z l ih =>
    have hz := List.pairwise_cons.1 h
    unfold insertSet
    split
    · next hx =>
      refine List.pairwise_cons.2 ⟨fun y hy => ?_, h⟩
      rcases List.mem_cons.1 hy with rfl | hy
      · exact hx
      · exact Nat.lt_trans hx (hz.1 y hy)
    · split
      · exact h
      · next h1 h2 =>
        refine List.pairwise_cons.2 ⟨fun y hy => ?_, ih hz.2⟩
        rcases insertSet_mem.1 hy with rfl | hy
        · omega
        · exact hz.1 y hy

theorem resolveFrom_ok {m : OMap Nat} (hm : (m.map (·.1)).Nodup) : ∀ {l : List String} {seen r : List Nat},
    resolveFrom m seen l = .ok r → seen.Pairwise (· < ·) →
    (∀ a ∈ l, a ∈ m.map (·.1)) ∧ r.Pairwise (· < ·) ∧ ∀ x, x ∈ r ↔ x ∈ seen ∨ ∃ a ∈ l, (a, x) ∈ m
  | [], seen, r, h, hs => by
    injection h with h
    subst h
    exact ⟨by simp, hs, by simp⟩
  | a :: l, seen, r, h, hs => by
    unfold resolveFrom at h
    cases hf : findArg m a with
    | none => rw [hf] at h; cases h
    | some y =>
      rw [hf] at h
      obtain ⟨h1, h2, h3⟩ := resolveFrom_ok hm h (insertSet_sorted hs)
      have hy := (findArg_mem hm).1 hf
      refine ⟨fun b hb => ?_, h2, fun x => ?_⟩
      · rcases List.mem_cons.1 hb with rfl | hb
        · exact List.mem_map.2 ⟨_, hy, rfl⟩
        · exact h1 b hb
      · rw [h3, insertSet_mem]
        constructor
        · rintro ((rfl | h) | ⟨b, hb, h⟩)
          · exact .inr ⟨a, by simp, hy⟩
          · exact .inl h
          · exact .inr ⟨b, by simp [hb], h⟩
        · rintro (h | ⟨b, hb, h⟩)
          · exact .inl (.inr h)
          · rcases List.mem_cons.1 hb with rfl | hb
            · have := (findArg_mem hm).2 h
              rw [hf] at this
              injection this with this
              exact .inl (.inl this.symm)
            · exact .inr ⟨b, hb, h⟩

theorem resolveFrom_total {m : OMap Nat} : ∀ {l : List String} (seen : List Nat), (∀ a ∈ l, a ∈ m.map (·.1)) →
    ∃ r, resolveFrom m seen l = .ok r
  | [], seen, _ => ⟨seen, rfl⟩
  | a :: l, seen, h => by
    unfold resolveFrom
    cases hf : findArg m a with
    | none => exact absurd (h a (by simp)) (findArg_none.1 hf)
    | some y => exact resolveFrom_total _ fun b hb => h b (by simp [hb])

theorem resolveFrom_dich {m : OMap Nat} : ∀ {l : List String} (seen : List Nat), (∃ r, resolveFrom m seen l = .ok r) ∨
    resolveFrom m seen l = .usage
  | [], seen => .inl ⟨seen, rfl⟩
  | a :: l, seen => by
    unfold resolveFrom
    cases findArg m a with
    | none => exact .inr rfl
    | some y => exact resolveFrom_dich _

/-- **C81**: a list of names is accepted exactly when every name is in the table, and is refused with the usage text
otherwise; the result lists, in ascending order and once each, the values of the names. -/
theorem resolveList_iff {m : OMap Nat} (hm : (m.map (·.1)).Nodup) (l : List String) :
    ((∃ r, resolveList m l = .ok r) ↔ ∀ a ∈ l, a ∈ m.map (·.1)) ∧
    (resolveList m l = .usage ↔ ∃ a ∈ l, a ∉ m.map (·.1)) ∧
    ∀ r, resolveList m l = .ok r → r.Pairwise (· < ·) ∧ ∀ x, x ∈ r ↔ ∃ a ∈ l, (a, x) ∈ m := by
  have t : (∃ r, resolveList m l = .ok r) ↔ ∀ a ∈ l, a ∈ m.map (·.1) :=
    ⟨fun ⟨_, h⟩ => (resolveFrom_ok hm h .nil).1, resolveFrom_total []⟩
  refine ⟨t, ⟨fun h => ?_, fun ⟨a, ha, hn⟩ => ?_⟩, fun r h => ?_⟩
  · by_contra hc
    obtain ⟨r, hr⟩ := t.2 fun a ha => by_contra fun hn => hc ⟨a, ha, hn⟩
    rw [hr] at h
    cases h
  · rcases resolveFrom_dich (m := m) (l := l) [] with h | h
    · exact absurd (t.1 h a ha) hn
    · exact h
  · obtain ⟨_, h2, h3⟩ := resolveFrom_ok hm h .nil
    exact ⟨h2, fun x => by rw [h3]; simp⟩

theorem sorted_ext {l l' : List Nat} (h : l.Pairwise (· < ·)) (h' : l'.Pairwise (· < ·)) (e : ∀ x, x ∈ l ↔ x ∈ l') : l = l' := by
  have p : l.Perm l' := (List.perm_ext_iff_of_nodup (h.imp Nat.ne_of_lt) (h'.imp Nat.ne_of_lt)).2 e
  exact p.eq_of_pairwise (fun a b _ _ h1 h2 => absurd h1 (by omega)) h h'

/-- **C81**: the order of the names and their repetition do not matter. -/
theorem resolveList_set {m : OMap Nat} (hm : (m.map (·.1)).Nodup) {l l' : List String} (h : ∀ a, a ∈ l ↔ a ∈ l') :
    resolveList m l = resolveList m l' := by
  have t := resolveList_iff hm l
  have t' := resolveList_iff hm l'
  rcases resolveFrom_dich (m := m) (l := l) [] with ⟨r, hr⟩ | hr
  · obtain ⟨r', hr'⟩ := t'.1.2 fun a ha => t.1.1 ⟨r, hr⟩ a ((h a).2 ha)
    have e : r = r' := sorted_ext (t.2.2 r hr).1 (t'.2.2 r' hr').1 fun x => by
      rw [(t.2.2 r hr).2, (t'.2.2 r' hr').2]
      exact exists_congr fun a => and_congr_left fun _ => h a
    rw [hr', ← e]
    exact hr
  · obtain ⟨a, ha, hn⟩ := t.2.1.1 hr
    rw [show resolveList m l = .usage from hr, t'.2.1.2 ⟨a, (h a).1 ha, hn⟩]

example : (∀ a, a ∈ ["branches", "ret_mem", "branches"] ↔ a ∈ ["ret_mem", "branches"]) ∧
    resolveList (perfEvents false) ["branches", "ret_mem", "branches"] = .ok [3, 4] := ⟨by simp, by decide⟩

/-- **C81** with C77: an accepted list of events is one the profiler counts without repetition, and the retired-instruction
events can all be asked for by name in every build. -/
theorem events_accepted {hw : Bool} {l : List String} {ev : List Nat} (h : resolveList (perfEvents hw) l = .ok ev) :
    ev.Nodup ∧ (∀ x ∈ ev, x < if hw then 21 else 11) ∧
    ∀ e : Event, ∃ a, (a, PerfCore.num e) ∈ perfEvents hw ∧ (a ∈ l → PerfCore.num e ∈ ev) := by
  have hm : ((perfEvents hw).map (·.1)).Nodup := by cases hw; exact names_distinct.1; exact names_distinct.2.1
  obtain ⟨h1, h2⟩ := (resolveList_iff hm l).2.2 ev h
  refine ⟨h1.imp Nat.ne_of_lt, fun x hx => ?_, fun e => ?_⟩
  · obtain ⟨a, _, ha⟩ := (h2 x).1 hx
    have : ∀ p ∈ perfEvents hw, p.2 < if hw then 21 else 11 := by cases hw <;> decide
    exact this _ ha
  · have : ∃ p ∈ perfEvents hw, p.2 = PerfCore.num e := by cases hw <;> cases e <;> decide
    obtain ⟨⟨a, n⟩, hp, rfl⟩ := this
    exact ⟨a, hp, fun ha => (h2 _).2 ⟨a, ha, hp⟩⟩

example : resolveList (perfEvents true) ["bp_miss", "instructions"] = .ok [0, 11] := by decide

theorem helpFrom_names {α : Type} [DecidableEq α] : ∀ (m seen : OMap α), (helpFrom seen m).map (·.1) = m.map (·.1)
  | [], _ => rfl
  | x :: m, seen => by
    show x.1 :: (helpFrom _ m).map (·.1) = _
    rw [helpFrom_names]
    rfl

theorem helpFrom_alias {α : Type} [DecidableEq α] : ∀ (m seen : OMap α) {a : String} {o : Option String}, (a, o) ∈ helpFrom seen m →
    ∃ p x q, m = p ++ (a, x) :: q ∧ (o = none ↔ ∀ y ∈ seen ++ p, y.2 ≠ x) ∧ ∀ b, o = some b → (b, x) ∈ seen ++ p
  | [], _, a, o, h => by cases h
  | z :: m, seen, a, o, h => by
    rcases List.mem_cons.1 h with h | h
    · injection h with h1 h2
      subst h1
      subst h2
      refine ⟨[], z.2, m, rfl, ?_, fun b hb => ?_⟩
      · rw [Option.map_eq_none_iff, List.find?_eq_none, List.append_nil]
        simp
      · rw [Option.map_eq_some_iff] at hb
        obtain ⟨y, hy, rfl⟩ := hb
        rw [List.append_nil]
        have e := List.find?_some hy
        have e : y.2 = z.2 := by simpa using e
        rw [← e]
        exact List.mem_of_find?_eq_some hy
    · obtain ⟨p, x, q, e, h1, h2⟩ := helpFrom_alias m _ h
      rw [List.append_assoc] at h1 h2
      exact ⟨z :: p, x, q, by rw [e]; rfl, h1, h2⟩

/-- **C81**: the help text lists exactly the accepted names, in the order of the table, and marks a name as an alias exactly
when a name before it has the same value; the alias named has that value. -/
theorem help_exact {α : Type} [DecidableEq α] (m : OMap α) : (helpList m).map (·.1) = m.map (·.1) ∧
    ∀ a o, (a, o) ∈ helpList m →
      ∃ p x q, m = p ++ (a, x) :: q ∧ (o = none ↔ ∀ y ∈ p, y.2 ≠ x) ∧ ∀ b, o = some b → (b, x) ∈ p :=
  ⟨helpFrom_names m [], fun _ _ h => helpFrom_alias m [] h⟩

example : ("branches", some "ret_ctrl_flow_br") ∈ helpList (perfEvents false) ∧ ("ret_inst", none) ∈ helpList (perfEvents false) := by
  decide

/-! ## C82 -/

/-- the options name a kind, a static method and a folding, and give numbers that fit 8 bits -/
structure Opts (o : PredOpts) (k : Bp.Kind) (m : Bp.Sttc) (pc cnt lh gh : Nat) (f : Bp.Fold) : Prop where
  kind : (o.kind, k) ∈ bpNames
  sttc : (o.sttc, m) ∈ sttcNames
  pc : Numeral 10 o.pc pc ∧ pc < 256
  cnt : Numeral 10 o.cnt cnt ∧ cnt < 256
  lhist : Numeral 10 o.lhist lh ∧ lh < 256
  ghr : Numeral 10 o.ghr gh ∧ gh < 256
  fold : (o.fold, f) ∈ foldNames

theorem Opts.cfg {o : PredOpts} {k m pc cnt lh gh f} (h : Opts o k m pc cnt lh gh f) :
    predCfg o = .ok ⟨k, m, BitVec.ofNat 8 pc, BitVec.ofNat 8 cnt, BitVec.ofNat 8 lh, BitVec.ofNat 8 gh, f⟩ := by
  have n {l : List Char} {n : Nat} (h : Numeral 10 l n ∧ n < 256) : argI8 l = .ok (BitVec.ofNat 8 n) :=
    (numeric_option_partial.1 h.1).2.2 h.2
  unfold predCfg
  rw [((resolve_iff names_distinct.2.2.1 _).1 k).2 h.kind, ((resolve_iff names_distinct.2.2.2.1 _).1 m).2 h.sttc,
    n h.pc, n h.cnt, n h.lhist, n h.ghr, ((resolve_iff names_distinct.2.2.2.2 _).1 f).2 h.fold]
  rfl

/-- a predictor configuration of kind `k` has the parameters the kind has -/
def Described (k : Bp.Kind) (m : Bp.Sttc) (pc cnt lh gh : Nat) (f : Bp.Fold) (c : Bp.PCfg) : Prop :=
  (hasPc k → c.pcBits.toNat = pc ∧ c.fold = f) ∧ (hasCnt k → c.cntBits.toNat = cnt) ∧ (hasHist k → c.histBits.toNat = lh) ∧
  (hasGhr k → c.ghrBits.toNat = gh) ∧
  (k = .sttc → ∀ low p, Bp.make low (.one k c) = .ok p → ∃ b, p = .sttc b m)

theorem kindCfg_described {k m pc cnt lh gh f} (h1 : pc < 256) (h2 : cnt < 256) (h3 : lh < 256) (h4 : gh < 256) :
    Described k m pc cnt lh gh f (kindCfg ⟨k, m, BitVec.ofNat 8 pc, BitVec.ofNat 8 cnt, BitVec.ofNat 8 lh, BitVec.ofNat 8 gh, f⟩) := by
  have e {n : Nat} (h : n < 256) : (BitVec.ofNat 8 n).toNat = n := by simp; omega
  refine ⟨fun h => ?_, fun h => ?_, fun h => ?_, fun h => ?_, fun h low p hp => ?_⟩
  · cases k <;> first | exact absurd h (by decide) | exact ⟨e h1, rfl⟩
  · cases k <;> first | exact absurd h (by decide) | exact e h2
  · cases k <;> first | exact absurd h (by decide) | exact e h3
  · cases k <;> first | exact absurd h (by decide) | exact e h4
  · subst h
    unfold Bp.make Bp.make1 kindCfg at hp
    cases hb : Bp.Base.make low ⟨0#8, sttcNum m, 0#8, 0#8, .none⟩ with
    | ok b =>
      simp only [hb] at hp
      cases m <;> (injection hp with hp; exact ⟨b, hp.symm⟩)
    | _ => simp only [hb] at hp; cases hp

/-- **C82** (`_partial`): for options that name kinds, methods and foldings and whose numbers fit 8 bits, the predictor built
is the first one alone when the second is `none`, otherwise the combination of the two selected by the meta table described
by the `bp_combined` options, each with the parameters its own options describe.  Missing: numbers of 256 and more build a
different table (`pc_bits_wrap`). -/
theorem predictor_described_partial {o1 o2 : PredOpts} {k1 k2 m1 m2 p1 p2 c1 c2 l1 l2 g1 g2 f1 f2}
    (h1 : Opts o1 k1 m1 p1 c1 l1 g1 f1) (h2 : Opts o2 k2 m2 p2 c2 l2 g2 f2) {cpc ccnt : List Char} {cfold : String}
    {pc cnt : Nat} {f : Bp.Fold} (hp : Numeral 10 cpc pc ∧ pc < 256) (hc : Numeral 10 ccnt cnt ∧ cnt < 256)
    (hf : (cfold, f) ∈ foldNames) :
    (k2 = .none → ∃ c, bpDef o1 o2 cpc ccnt cfold = .ok (.one k1 c) ∧ Described k1 m1 p1 c1 l1 g1 f1 c) ∧
    (k2 ≠ .none → ∃ t a b, bpDef o1 o2 cpc ccnt cfold = .ok (.comb t (.one k1 a) (.one k2 b)) ∧
      t.pcBits.toNat = pc ∧ t.cntBits.toNat = cnt ∧ t.fold = f ∧
      Described k1 m1 p1 c1 l1 g1 f1 a ∧ Described k2 m2 p2 c2 l2 g2 f2 b) := by
  have n {l : List Char} {n : Nat} (h : Numeral 10 l n ∧ n < 256) : argI8 l = .ok (BitVec.ofNat 8 n) :=
    (numeric_option_partial.1 h.1).2.2 h.2
  have e {n : Nat} (h : n < 256) : (BitVec.ofNat 8 n).toNat = n := by simp; omega
  have d1 := kindCfg_described (k := k1) (m := m1) (f := f1) h1.pc.2 h1.cnt.2 h1.lhist.2 h1.ghr.2
  have d2 := kindCfg_described (k := k2) (m := m2) (f := f2) h2.pc.2 h2.cnt.2 h2.lhist.2 h2.ghr.2
  have u : bpDef o1 o2 cpc ccnt cfold = .ok (if k2 ≠ .none then
      .comb ⟨BitVec.ofNat 8 pc, BitVec.ofNat 8 cnt, 0#8, 0#8, f⟩
        (.one k1 (kindCfg ⟨k1, m1, BitVec.ofNat 8 p1, BitVec.ofNat 8 c1, BitVec.ofNat 8 l1, BitVec.ofNat 8 g1, f1⟩))
        (.one k2 (kindCfg ⟨k2, m2, BitVec.ofNat 8 p2, BitVec.ofNat 8 c2, BitVec.ofNat 8 l2, BitVec.ofNat 8 g2, f2⟩))
      else .one k1 (kindCfg ⟨k1, m1, BitVec.ofNat 8 p1, BitVec.ofNat 8 c1, BitVec.ofNat 8 l1, BitVec.ofNat 8 g1, f1⟩)) := by
    unfold bpDef
    rw [h1.cfg, h2.cfg, n hp, n hc, ((resolve_iff names_distinct.2.2.2.2 _).1 f).2 hf]
    rfl
  refine ⟨fun hk => ?_, fun hk => ?_⟩
  · rw [if_neg (not_not.2 hk)] at u
    exact ⟨_, u, d1⟩
  · rw [if_pos hk] at u
    exact ⟨_, _, _, u, e hp.2, e hc.2, rfl, d1, d2⟩

namespace Ex
/-- options of a predictor with every number `n` -/
def opts (kind : String) (n : String) : PredOpts := ⟨kind, "btfn", n.toList, "2".toList, "5".toList, "5".toList, "none"⟩
theorem opts_ok {kind : String} {k : Bp.Kind} (h : (kind, k) ∈ bpNames) : Opts (opts kind "7") k .btfn 7 2 5 5 .none :=
  ⟨h, by simp [opts, sttcNames], ⟨.one ⟨by omega, .inl rfl⟩, by omega⟩, ⟨.one ⟨by omega, .inl rfl⟩, by omega⟩,
    ⟨.one ⟨by omega, .inl rfl⟩, by omega⟩, ⟨.one ⟨by omega, .inl rfl⟩, by omega⟩, by simp [opts, foldNames]⟩
end Ex
example : Opts (Ex.opts "gshare" "7") .gshare .btfn 7 2 5 5 .none := Ex.opts_ok (by decide)
example : Opts (Ex.opts "static" "7") .sttc .btfn 7 2 5 5 .none := Ex.opts_ok (by decide)

/-! ## Runs of the model -/

/-- **C80**, the exception: 263 is read as 7, and 256 as 0. -/
theorem wraps_8 : argI8 "263".toList = .ok 7#8 ∧ argI8 "256".toList = .ok 0#8 := by decide +kernel
/-- **C80**, the exception: 4294967297 is read as 1. -/
theorem wraps_32 : argU32 "4294967297".toList = .ok 1#32 ∧ argU32H "180000000".toList = .ok 0x80000000#32 := by decide +kernel
/-- **C80**, the exception: a number of 2^64 and more is not refused with the usage text. -/
theorem overflow_uncaught : argU64 "18446744073709551616".toList = .terminate ∧
    argI8 "18446744073709551616".toList = .terminate := by decide +kernel
/-- **C80**, the exception: text after the digits is dropped. -/
theorem trailing_text : argU64 "12abc".toList = .ok 12#64 ∧ argU32 "0x10".toList = .ok 0#32 ∧ argU32 "1e6".toList = .ok 1#32 := by
  decide +kernel
/-- **C80**, the exception: negative numbers are accepted and wrap. -/
theorem negative : argU64 "-1".toList = .ok 0xffffffffffffffff#64 ∧ argI8 "-1".toList = .ok 0xff#8 := by decide +kernel

/-- **C82**, the exception: asking for 263 address bits builds the predictor of 7 address bits. -/
theorem pc_bits_wrap : bpDef (Ex.opts "bimodal" "263") (Ex.opts "none" "7") "7".toList "2".toList "none" =
    .ok (.one .bimodal ⟨7#8, 2#8, 0#8, 0#8, .none⟩) := by
  have h : argI8 "263".toList = .ok 7#8 := wraps_8.1
  unfold bpDef predCfg Ex.opts
  simp only [h]
  rfl
end Ama.Args
