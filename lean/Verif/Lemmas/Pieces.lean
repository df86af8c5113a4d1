import Verif.Spec.Folded
import Verif.Lemmas.Asm
/-!
# Splitting texts at separators
-/
namespace Ama.Perf
open Spec.Folded

theorem pieces_ne (sep : Char) (l : List Char) : pieces sep l ≠ [] := by
  cases l with
  | nil => nofun
  | cons c l =>
    unfold pieces
    split
    · nofun
    · split <;> nofun

/-- a part without separators, and what follows it -/
theorem pieces_part {sep : Char} : ∀ {a : List Char}, sep ∉ a → ∀ b : List Char, pieces sep (a ++ sep :: b) = a :: pieces sep b
  | [], _, b => by
    show pieces sep (sep :: b) = _
    rw [pieces]
    cases h : pieces sep b with
    | nil => exact absurd h (pieces_ne _ _)
    | cons p ps => simp
  | c :: a, hs, b => by
    rw [List.cons_append, pieces, pieces_part (fun h => hs (by simp [h])) b]
    simp only
    rw [if_neg (by rintro rfl; exact hs (by simp))]

theorem pieces_last {sep : Char} {a : List Char} (h : sep ∉ a) : pieces sep a = [a] := by
  induction a with
  | nil => rfl
  | cons c a ih =>
    rw [pieces, ih (fun hm => h (by simp [hm]))]
    simp only
    rw [if_neg (by rintro rfl; exact h (by simp))]

theorem pieces_flat {sep : Char} {α : Type} (f : α → List Char) (l : List α) (h : ∀ a ∈ l, sep ∉ f a) :
    pieces sep (l.flatMap fun a => f a ++ [sep]) = l.map f ++ [[]] := by
  induction l with
  | nil => rfl
  | cons a l ih =>
    rw [List.flatMap_cons, List.append_assoc, List.singleton_append, pieces_part (h a (by simp)),
      ih fun b hb => h b (by simp [hb])]
    rfl
end Ama.Perf
