import Verif.Model.ProfBin
import Verif.Spec.Bin
/-!
# Lemmas about records of bytes
-/
namespace Ama.ProfBin
open Ama.Spec.Bin (num field records)

theorem le_length : ∀ k n, (le k n).length = k
  | 0, _ => rfl
  | k + 1, n => by rw [le, List.length_cons, le_length k]

theorem num_le : ∀ k n, num (le k n) = n % 256 ^ k
  | 0, n => by simp [le, num, Nat.mod_one]
  | k + 1, n => by
    rw [le, num, num_le k, BitVec.toNat_ofNat, show 256 ^ (k + 1) = 256 * 256 ^ k by rw [Nat.pow_succ, Nat.mul_comm], Nat.mod_mul]

/-- a field after the bytes before it -/
theorem field_skip {a b : List Byte} {off k o : Nat} (ha : a.length = o) (h : o ≤ off) :
    field off k (a ++ b) = field (off - o) k b := by
  unfold field
  rw [List.drop_append, List.drop_eq_nil_of_le (by omega), List.nil_append, ha]
theorem field_here {a b : List Byte} {k : Nat} (ha : a.length = k) : field 0 k (a ++ b) = num a := by
  unfold field
  rw [List.drop_zero, List.take_append_of_le_length (by omega), List.take_of_length_le (by omega)]
theorem field_last {a : List Byte} {k : Nat} (ha : a.length = k) : field 0 k a = num a := by
  unfold field
  rw [List.drop_zero, List.take_of_length_le (by omega)]

theorem flatten_length {n : Nat} : ∀ L : List (List Byte), (∀ x ∈ L, x.length = n) → L.flatten.length = L.length * n
  | [], _ => by simp
  | x :: t, h => by
    rw [List.flatten_cons, List.length_append, flatten_length t fun y hy => h y (List.mem_cons_of_mem _ hy),
      h x (List.mem_cons_self ..), List.length_cons, Nat.succ_mul, Nat.add_comm]

theorem flatten_at {n : Nat} : ∀ (L : List (List Byte)) (i : Nat), (∀ x ∈ L, x.length = n) → (hi : i < L.length) →
    (L.flatten.drop (i * n)).take n = L[i]
  | x :: t, 0, h, hi => by
    have := h x (List.mem_cons_self ..)
    rw [Nat.zero_mul, List.drop_zero, List.flatten_cons, List.take_append_of_le_length (by omega), List.take_of_length_le (by omega)]
    rfl
  | x :: t, i + 1, h, hi => by
    have hx := h x (List.mem_cons_self ..)
    have hi' : i < t.length := by simpa using hi
    have ih := flatten_at t i (fun y hy => h y (List.mem_cons_of_mem _ hy)) hi'
    rw [List.flatten_cons, List.drop_append, List.drop_eq_nil_of_le (by rw [hx, Nat.succ_mul]; omega), List.nil_append, hx,
      show (i + 1) * n - n = i * n by rw [Nat.succ_mul]; omega, ih]
    rfl

/-- records of equal size are found again -/
theorem records_flatten {n : Nat} (hn : 0 < n) {L : List (List Byte)} (h : ∀ x ∈ L, x.length = n) : records n L.flatten = L := by
  unfold records
  rw [flatten_length L h, Nat.mul_div_cancel _ hn]
  apply List.ext_getElem
  · simp
  · intro i h1 h2
    rw [List.getElem_map, List.getElem_range, flatten_at L i h h2]

end Ama.ProfBin
