import Verif.Model.Args
import Verif.Spec.Args
/-!
# Lemmas on option values
-/
namespace Ama.Args
open Spec

theorem digit_of {c : Char} {d : Nat} (hd : d < 16)
    (h : "0123456789abcdef".toList[d]? = some c ∨ "0123456789ABCDEF".toList[d]? = some c) : digit c = some d := by
  have key : ∀ d : Fin 16, ∀ c, ("0123456789abcdef".toList[d.val]? = some c ∨ "0123456789ABCDEF".toList[d.val]? = some c) →
      digit c = some d.val := by
    intro d c h
    have e : ∀ d : Fin 16, (("0123456789abcdef".toList[d.val]?).bind digit = some d.val) ∧
        (("0123456789ABCDEF".toList[d.val]?).bind digit = some d.val) := by decide
    rcases h with h | h
    · have := (e d).1; rw [h] at this; exact this
    · have := (e d).2; rw [h] at this; exact this
  exact key ⟨d, hd⟩ c h

theorem char_of {c : Char} {n : Nat} (h : c.toNat = n) : c = Char.ofNat n := by rw [← h, Char.ofNat_toNat]

theorem of_digit {c : Char} {d : Nat} (h : digit c = some d) : d < 16 ∧
    ("0123456789abcdef".toList[d]? = some c ∨ "0123456789ABCDEF".toList[d]? = some c) := by
  have le : ∀ {a b : Char}, a ≤ b → a.toNat ≤ b.toNat := fun h => h
  have fin : ∀ k : Fin 16, (k.val < 10 → "0123456789abcdef".toList[k.val]? = some (Char.ofNat (48 + k.val))) ∧
      (10 ≤ k.val → "0123456789abcdef".toList[k.val]? = some (Char.ofNat (87 + k.val)) ∧
        "0123456789ABCDEF".toList[k.val]? = some (Char.ofNat (55 + k.val))) := by decide
  unfold digit at h
  split at h
  · next hc =>
    injection h with h
    have h1 := le hc.1; have h2 := le hc.2
    have e1 : ('0' : Char).toNat = 48 := rfl
    have e2 : ('9' : Char).toNat = 57 := rfl
    have hd : d < 10 := by omega
    have hn : c.toNat = 48 + d := by omega
    refine ⟨by omega, .inl ?_⟩
    rw [char_of hn]
    exact (fin ⟨d, by omega⟩).1 hd
  · split at h
    · next hc =>
      injection h with h
      have h1 := le hc.1; have h2 := le hc.2
      have e1 : ('a' : Char).toNat = 97 := rfl
      have e2 : ('f' : Char).toNat = 102 := rfl
      have hn : c.toNat = 87 + d := by omega
      refine ⟨by omega, .inl ?_⟩
      rw [char_of hn]
      exact ((fin ⟨d, by omega⟩).2 (by show 10 ≤ d; omega)).1
    · split at h
      · next hc =>
        injection h with h
        have h1 := le hc.1; have h2 := le hc.2
        have e1 : ('A' : Char).toNat = 65 := rfl
        have e2 : ('F' : Char).toNat = 70 := rfl
        have hn : c.toNat = 55 + d := by omega
        refine ⟨by omega, .inr ?_⟩
        rw [char_of hn]
        exact ((fin ⟨d, by omega⟩).2 (by show 10 ≤ d; omega)).2
      · cases h

theorem digitIn_iff {b : Nat} (hb : b ≤ 16) {c : Char} {d : Nat} : digitIn b c = some d ↔ IsDigit b c d := by
  unfold digitIn IsDigit
  rw [Option.filter_eq_some_iff]
  constructor
  · rintro ⟨h, hd⟩
    exact ⟨by simpa using hd, (of_digit h).2⟩
  · rintro ⟨hd, h⟩
    exact ⟨digit_of (by omega) h, by simpa using hd⟩

/-- every character is a digit -/
def Digits (b : Nat) (l : List Char) : Prop := ∀ c ∈ l, ∃ d, IsDigit b c d

theorem Numeral.digits {b n : Nat} {l : List Char} (h : Numeral b l n) : Digits b l ∧ l ≠ [] := by
  induction h with
  | one hd => exact ⟨fun c hc => by rw [List.mem_singleton] at hc; subst hc; exact ⟨_, hd⟩, by simp⟩
  | snoc _ hd ih =>
    refine ⟨fun c hc => ?_, by simp⟩
    rcases List.mem_append.1 hc with hc | hc
    · exact ih.1 c hc
    · rw [List.mem_singleton] at hc; subst hc; exact ⟨_, hd⟩

theorem digits_app {b : Nat} (hb : b ≤ 16) {l r : List Char} : ∀ {v : Nat}, Digits b l → digits b v (l ++ r) = digits b (digits b v l) r := by
  induction l with
  | nil => intro v _; rfl
  | cons c l ih =>
    intro v h
    obtain ⟨d, hd⟩ := h c (List.mem_cons_self ..)
    have hd := (digitIn_iff hb).2 hd
    simp only [List.cons_append, digits, hd]
    exact ih fun x hx => h x (List.mem_cons_of_mem _ hx)

theorem digits_numeral {b : Nat} (hb : b ≤ 16) {l : List Char} {n : Nat} (h : Numeral b l n) : digits b 0 l = n := by
  induction h with
  | one hd => simp only [digits, (digitIn_iff hb).2 hd]; omega
  | snoc hl hd ih =>
    rw [digits_app hb (Numeral.digits hl).1, ih]
    simp only [digits, (digitIn_iff hb).2 hd]

/-- the digits at the front, read as a numeral -/
theorem digits_front {b : Nat} (hb : b ≤ 16) : ∀ (l p : List Char) (v : Nat), Numeral b p v →
    ∃ ds r, l = ds ++ r ∧ Numeral b (p ++ ds) (digits b v l)
  | [], p, v, h => ⟨[], [], rfl, by rw [List.append_nil]; exact h⟩
  | c :: l, p, v, h => by
    unfold digits
    cases hd : digitIn b c with
    | none => exact ⟨[], c :: l, rfl, by rw [List.append_nil]; exact h⟩
    | some d =>
      obtain ⟨ds, r, e, hn⟩ := digits_front hb l (p ++ [c]) (v * b + d) (.snoc h ((digitIn_iff hb).1 hd))
      exact ⟨c :: ds, r, by rw [e]; rfl, by rw [List.append_assoc] at hn; exact hn⟩
end Ama.Args
