import Verif.Spec.Mem
import Verif.Model.Mem
import Mathlib.Tactic.IntervalCases
/-!
# Device byte accesses without out-of-bounds
-/
namespace Ama
open Spec

theorem sub_eq_iff (x a k : W) : x = a + k ↔ x - a = k := by
  constructor
  · rintro rfl; rw [BitVec.add_comm, BitVec.add_sub_cancel]
  · rintro rfl; rw [BitVec.add_comm, BitVec.sub_add_cancel]

theorem add_toNat_of_lt {a : W} {k n : Nat} (h : a.toNat + n ≤ 2 ^ 32) (hk : k < n) :
    (a + BitVec.ofNat 32 k).toNat = a.toNat + k := by
  rw [BitVec.toNat_add, BitVec.toNat_ofNat]
  omega

theorem Dev.get_ok (d : Dev) {a : W} (h : a.toNat < d.size) : d.get a = .ok (d.bytes a) := by
  simp [Dev.get, h]

theorem Dev.set_ok (d : Dev) {a : W} (v : BitVec 8) (h : a.toNat < d.size) :
    d.set a v = .ok { d with bytes := upd d.bytes a v } := by
  simp [Dev.set, h]

theorem or_shl_toNat (x y : W) (k : Nat) (hx : x.toNat < 2 ^ k) (hy : y.toNat * 2 ^ k < 2 ^ 32) :
    (x ||| y <<< k).toNat = x.toNat + y.toNat * 2 ^ k := by
  rw [BitVec.toNat_or, BitVec.toNat_shiftLeft, Nat.shiftLeft_eq, Nat.mod_eq_of_lt hy]
  rw [Nat.or_comm, Nat.mul_comm, ← Nat.two_pow_add_eq_or_of_lt hx, Nat.add_comm]

theorem or_shl_toNat64 (x y : BitVec 64) (k : Nat) (hx : x.toNat < 2 ^ k)
    (hy : y.toNat * 2 ^ k < 2 ^ 64) :
    (x ||| y <<< k).toNat = x.toNat + y.toNat * 2 ^ k := by
  rw [BitVec.toNat_or, BitVec.toNat_shiftLeft, Nat.shiftLeft_eq, Nat.mod_eq_of_lt hy]
  rw [Nat.or_comm, Nat.mul_comm, ← Nat.two_pow_add_eq_or_of_lt hx, Nat.add_comm]

theorem le_lt (f : W → BitVec 8) (a : W) (n : Nat) : le f a n < 256 ^ n := by
  induction n generalizing a with
  | zero => simp [le]
  | succ n ih =>
    have h := ih (a + 1#32)
    have hb := (f a).isLt
    simp only [le, Nat.pow_succ]
    omega

theorem add_add1 (a : W) (k : Nat) : a + BitVec.ofNat 32 k + 1#32 = a + BitVec.ofNat 32 (k + 1) := by
  apply BitVec.eq_of_toNat_eq
  simp only [BitVec.toNat_add, BitVec.toNat_ofNat]
  omega

private theorem a2 (a : W) : a + 1#32 + 1#32 = a + 2#32 := add_add1 a 1
private theorem a3 (a : W) : a + 2#32 + 1#32 = a + 3#32 := add_add1 a 2
private theorem a4 (a : W) : a + 3#32 + 1#32 = a + 4#32 := add_add1 a 3
private theorem a5 (a : W) : a + 4#32 + 1#32 = a + 5#32 := add_add1 a 4
private theorem a6 (a : W) : a + 5#32 + 1#32 = a + 6#32 := add_add1 a 5
private theorem a7 (a : W) : a + 6#32 + 1#32 = a + 7#32 := add_add1 a 6

theorem Dev.rd8_ok (d : Dev) {a : W} (h : a.toNat + 1 ≤ d.size) :
    d.rd8 a = .ok (BitVec.ofNat 32 (le d.bytes a 1)) := by
  simp only [Dev.rd8, d.get_ok (show a.toNat < d.size by omega), Res.bind_ok]
  congr 1
  apply BitVec.eq_of_toNat_eq
  simp [le]

theorem Dev.rd16_ok (d : Dev) {a : W} (h : a.toNat + 2 ≤ d.size) (hs : d.size ≤ 2 ^ 32) :
    d.rd16 a = .ok (BitVec.ofNat 32 (le d.bytes a 2)) := by
  have e1 : (a + 1#32).toNat = a.toNat + 1 := add_toNat_of_lt (n := 2) (by omega) (by omega)
  simp only [Dev.rd16, d.get_ok (show a.toNat < d.size by omega),
    d.get_ok (show (a + 1#32).toNat < d.size by omega), Res.bind_ok]
  congr 1
  apply BitVec.eq_of_toNat_eq
  have h0 := (d.bytes a).isLt
  have h1 := (d.bytes (a + 1#32)).isLt
  rw [or_shl_toNat _ _ 8 (by simp; omega) (by simp; omega)]
  simp [le]
  omega

theorem Dev.rd32_ok (d : Dev) {a : W} (h : a.toNat + 4 ≤ d.size) (hs : d.size ≤ 2 ^ 32) :
    d.rd32 a = .ok (BitVec.ofNat 32 (le d.bytes a 4)) := by
  have e1 : (a + 1#32).toNat = a.toNat + 1 := add_toNat_of_lt (n := 4) (by omega) (by omega)
  have e2 : (a + 2#32).toNat = a.toNat + 2 := add_toNat_of_lt (n := 4) (by omega) (by omega)
  have e3 : (a + 3#32).toNat = a.toNat + 3 := add_toNat_of_lt (n := 4) (by omega) (by omega)
  simp only [Dev.rd32, d.get_ok (show a.toNat < d.size by omega),
    d.get_ok (show (a + 1#32).toNat < d.size by omega),
    d.get_ok (show (a + 2#32).toNat < d.size by omega),
    d.get_ok (show (a + 3#32).toNat < d.size by omega), Res.bind_ok]
  congr 1
  apply BitVec.eq_of_toNat_eq
  have h0 := (d.bytes a).isLt
  have h1 := (d.bytes (a + 1#32)).isLt
  have h2 := (d.bytes (a + 2#32)).isLt
  have h3 := (d.bytes (a + 3#32)).isLt
  have k1 : ((d.bytes a).setWidth 32 ||| (d.bytes (a + 1#32)).setWidth 32 <<< 8).toNat =
      (d.bytes a).toNat + (d.bytes (a + 1#32)).toNat * 256 := by
    rw [or_shl_toNat _ _ 8 (by simp; omega) (by simp; omega)]; simp; omega
  have k2 : ((d.bytes a).setWidth 32 ||| (d.bytes (a + 1#32)).setWidth 32 <<< 8 |||
      (d.bytes (a + 2#32)).setWidth 32 <<< 16).toNat =
      (d.bytes a).toNat + (d.bytes (a + 1#32)).toNat * 256 + (d.bytes (a + 2#32)).toNat * 65536 := by
    rw [or_shl_toNat _ _ 16 (by rw [k1]; omega) (by simp; omega), k1]; simp; omega
  rw [or_shl_toNat _ _ 24 (by rw [k2]; omega) (by simp; omega), k2]
  simp [le, a2, a3]
  omega

theorem Dev.rd64_ok (d : Dev) {a : W} (h : a.toNat + 8 ≤ d.size) (hs : d.size ≤ 2 ^ 32) :
    d.rd64 a = .ok (BitVec.ofNat 64 (le d.bytes a 8)) := by
  have e4 : (a + 4#32).toNat = a.toNat + 4 := add_toNat_of_lt (n := 8) (by omega) (by omega)
  have e5 : (a + 5#32).toNat = a.toNat + 5 := add_toNat_of_lt (n := 8) (by omega) (by omega)
  have e6 : (a + 6#32).toNat = a.toNat + 6 := add_toNat_of_lt (n := 8) (by omega) (by omega)
  have e7 : (a + 7#32).toNat = a.toNat + 7 := add_toNat_of_lt (n := 8) (by omega) (by omega)
  simp only [Dev.rd64, d.rd32_ok (show a.toNat + 4 ≤ d.size by omega) hs,
    d.get_ok (show (a + 4#32).toNat < d.size by omega),
    d.get_ok (show (a + 5#32).toNat < d.size by omega),
    d.get_ok (show (a + 6#32).toNat < d.size by omega),
    d.get_ok (show (a + 7#32).toNat < d.size by omega), Res.bind_ok]
  congr 1
  apply BitVec.eq_of_toNat_eq
  have h4 := (d.bytes (a + 4#32)).isLt
  have h5 := (d.bytes (a + 5#32)).isLt
  have h6 := (d.bytes (a + 6#32)).isLt
  have h7 := (d.bytes (a + 7#32)).isLt
  have hl := le_lt d.bytes a 4
  have k0 : ((BitVec.ofNat 32 (le d.bytes a 4)).setWidth 64).toNat = le d.bytes a 4 := by
    simp; omega
  have k1 : ((BitVec.ofNat 32 (le d.bytes a 4)).setWidth 64 |||
      (d.bytes (a + 4#32)).setWidth 64 <<< 32).toNat =
      le d.bytes a 4 + (d.bytes (a + 4#32)).toNat * 2 ^ 32 := by
    rw [or_shl_toNat64 _ _ 32 (by rw [k0]; omega) (by simp; omega), k0]; simp; omega
  have k2 : ((BitVec.ofNat 32 (le d.bytes a 4)).setWidth 64 |||
      (d.bytes (a + 4#32)).setWidth 64 <<< 32 ||| (d.bytes (a + 5#32)).setWidth 64 <<< 40).toNat =
      le d.bytes a 4 + (d.bytes (a + 4#32)).toNat * 2 ^ 32 + (d.bytes (a + 5#32)).toNat * 2 ^ 40 := by
    rw [or_shl_toNat64 _ _ 40 (by rw [k1]; omega) (by simp; omega), k1]; simp; omega
  have k3 : ((BitVec.ofNat 32 (le d.bytes a 4)).setWidth 64 |||
      (d.bytes (a + 4#32)).setWidth 64 <<< 32 ||| (d.bytes (a + 5#32)).setWidth 64 <<< 40 |||
      (d.bytes (a + 6#32)).setWidth 64 <<< 48).toNat =
      le d.bytes a 4 + (d.bytes (a + 4#32)).toNat * 2 ^ 32 + (d.bytes (a + 5#32)).toNat * 2 ^ 40 +
        (d.bytes (a + 6#32)).toNat * 2 ^ 48 := by
    rw [or_shl_toNat64 _ _ 48 (by rw [k2]; omega) (by simp; omega), k2]; simp; omega
  rw [or_shl_toNat64 _ _ 56 (by rw [k3]; omega) (by simp; omega), k3]
  simp only [le, a2, a3, a4, a5, a6, a7] at hl ⊢
  simp
  omega

theorem Dev.rd_ok (d : Dev) {a : W} {n : Nat} (hn : n = 1 ∨ n = 2 ∨ n = 4)
    (h : a.toNat + n ≤ d.size) (hs : d.size ≤ 2 ^ 32) :
    d.rd a n = .ok (BitVec.ofNat 32 (le d.bytes a n)) := by
  rcases hn with rfl | rfl | rfl
  · exact d.rd8_ok h
  · exact d.rd16_ok h hs
  · exact d.rd32_ok h hs

/-! writes -/

theorem byte_of (v : W) (k : Nat) :
    (v >>> (8 * k)).setWidth 8 = BitVec.ofNat 8 (v.toNat / 256 ^ k) := by
  apply BitVec.eq_of_toNat_eq
  simp [Nat.shiftRight_eq_div_pow, Nat.pow_mul]

theorem byte_of64 (v : BitVec 64) (k : Nat) :
    (v >>> (8 * k)).setWidth 8 = BitVec.ofNat 8 (v.toNat / 256 ^ k) := by
  apply BitVec.eq_of_toNat_eq
  simp [Nat.shiftRight_eq_div_pow, Nat.pow_mul]

/-- one more byte -/
theorem put_succ (f : W → BitVec 8) (a : W) (v n : Nat) (hn : n < 2 ^ 32) :
    put f a v (n + 1) = upd (put f a v n) (a + BitVec.ofNat 32 n) (BitVec.ofNat 8 (v / 256 ^ n)) := by
  funext x
  simp only [put, upd, sub_eq_iff]
  by_cases h : x - a = BitVec.ofNat 32 n
  · have : (x - a).toNat = n := by rw [h]; simp; omega
    rw [this, if_pos h, if_pos (by omega)]
  · have : (x - a).toNat ≠ n := fun e => h (by apply BitVec.eq_of_toNat_eq; rw [e]; simp; omega)
    simp only [h, if_false]
    by_cases h2 : (x - a).toNat < n
    · rw [if_pos (by omega), if_pos h2]
    · rw [if_neg (by omega), if_neg h2]

theorem put_zero (f : W → BitVec 8) (a : W) (v : Nat) : put f a v 0 = f := by
  funext x; simp [put]

theorem Dev.wr8_ok (d : Dev) {a : W} (v : W) (h : a.toNat + 1 ≤ d.size) :
    d.wr8 a v = .ok { d with bytes := put d.bytes a v.toNat 1 } := by
  rw [Dev.wr8, d.set_ok _ (by omega), put_succ _ _ _ _ (by decide), put_zero]
  have := byte_of v 0
  simp only [Nat.mul_zero, BitVec.ushiftRight_zero] at this
  rw [this]; simp

theorem Dev.wr16_ok (d : Dev) {a : W} (v : W) (h : a.toNat + 2 ≤ d.size) (hs : d.size ≤ 2 ^ 32) :
    d.wr16 a v = .ok { d with bytes := put d.bytes a v.toNat 2 } := by
  have e1 : (a + 1#32).toNat = a.toNat + 1 := add_toNat_of_lt (n := 2) (by omega) (by omega)
  have b0 := byte_of v 0
  have b1 := byte_of v 1
  simp only [Nat.mul_zero, BitVec.ushiftRight_zero, Nat.mul_one] at b0 b1
  simp only [Dev.wr16, b0, b1]
  rw [d.set_ok _ (by omega), Res.bind_ok, Dev.set_ok _ _ (by simp only; omega)]
  rw [put_succ _ _ _ 1 (by decide), put_succ _ _ _ 0 (by decide), put_zero]
  simp

theorem Dev.wr32_ok (d : Dev) {a : W} (v : W) (h : a.toNat + 4 ≤ d.size) (hs : d.size ≤ 2 ^ 32) :
    d.wr32 a v = .ok { d with bytes := put d.bytes a v.toNat 4 } := by
  have e1 : (a + 1#32).toNat = a.toNat + 1 := add_toNat_of_lt (n := 4) (by omega) (by omega)
  have e2 : (a + 2#32).toNat = a.toNat + 2 := add_toNat_of_lt (n := 4) (by omega) (by omega)
  have e3 : (a + 3#32).toNat = a.toNat + 3 := add_toNat_of_lt (n := 4) (by omega) (by omega)
  have b0 := byte_of v 0
  have b1 := byte_of v 1
  have b2 := byte_of v 2
  have b3 := byte_of v 3
  simp only [Nat.mul_zero, BitVec.ushiftRight_zero, Nat.mul_one, Nat.reduceMul] at b0 b1 b2 b3
  simp only [Dev.wr32, b0, b1, b2, b3]
  rw [d.set_ok _ (by omega), Res.bind_ok, Dev.set_ok _ _ (by simp only; omega), Res.bind_ok,
    Dev.set_ok _ _ (by simp only; omega), Res.bind_ok, Dev.set_ok _ _ (by simp only; omega)]
  rw [put_succ _ _ _ 3 (by decide), put_succ _ _ _ 2 (by decide), put_succ _ _ _ 1 (by decide),
    put_succ _ _ _ 0 (by decide), put_zero]
  simp

theorem Dev.wr64_ok (d : Dev) {a : W} (v : BitVec 64) (h : a.toNat + 8 ≤ d.size)
    (hs : d.size ≤ 2 ^ 32) :
    d.wr64 a v = .ok { d with bytes := put d.bytes a v.toNat 8 } := by
  have e4 : (a + 4#32).toNat = a.toNat + 4 := add_toNat_of_lt (n := 8) (by omega) (by omega)
  have e5 : (a + 5#32).toNat = a.toNat + 5 := add_toNat_of_lt (n := 8) (by omega) (by omega)
  have e6 : (a + 6#32).toNat = a.toNat + 6 := add_toNat_of_lt (n := 8) (by omega) (by omega)
  have e7 : (a + 7#32).toNat = a.toNat + 7 := add_toNat_of_lt (n := 8) (by omega) (by omega)
  have b4 := byte_of64 v 4
  have b5 := byte_of64 v 5
  have b6 := byte_of64 v 6
  have b7 := byte_of64 v 7
  simp only [Nat.reduceMul] at b4 b5 b6 b7
  simp only [Dev.wr64, b4, b5, b6, b7]
  rw [d.wr32_ok _ (by omega) hs, Res.bind_ok, Dev.set_ok _ _ (by simp only; omega), Res.bind_ok,
    Dev.set_ok _ _ (by simp only; omega), Res.bind_ok, Dev.set_ok _ _ (by simp only; omega),
    Res.bind_ok, Dev.set_ok _ _ (by simp only; omega)]
  have e : put d.bytes a (BitVec.toNat (BitVec.setWidth 32 v)) 4 = put d.bytes a v.toNat 4 := by
    funext x
    simp only [put]
    split
    · rename_i hk
      apply BitVec.eq_of_toNat_eq
      generalize (x - a).toNat = k at hk ⊢
      simp only [BitVec.toNat_ofNat, BitVec.toNat_setWidth]
      interval_cases k <;> omega
    · rfl
  rw [put_succ _ _ _ 7 (by decide), put_succ _ _ _ 6 (by decide), put_succ _ _ _ 5 (by decide),
    put_succ _ _ _ 4 (by decide), e]

theorem Dev.wr_ok (d : Dev) {a : W} (v : W) {n : Nat} (hn : n = 1 ∨ n = 2 ∨ n = 4)
    (h : a.toNat + n ≤ d.size) (hs : d.size ≤ 2 ^ 32) :
    d.wr a v n = .ok { d with bytes := put d.bytes a v.toNat n } := by
  rcases hn with rfl | rfl | rfl
  · exact d.wr8_ok v h
  · exact d.wr16_ok v h hs
  · exact d.wr32_ok v h hs

/-- reading back what was written -/
theorem le_put (f : W → BitVec 8) (a : W) (v n : Nat) (hn : n ≤ 2 ^ 32) :
    le (put f a v n) a n = v % 256 ^ n := by
  have key : ∀ m k, k + m ≤ n →
      le (put f a v n) (a + BitVec.ofNat 32 k) m = (v / 256 ^ k) % 256 ^ m := by
    intro m
    induction m with
    | zero => intro k _; simp [le, Nat.mod_one]
    | succ m ih =>
      intro k hk
      have hx : (a + BitVec.ofNat 32 k - a).toNat = k := by
        rw [BitVec.add_comm, BitVec.add_sub_cancel]; simp; omega
      rw [le, add_add1, ih (k + 1) (by omega)]
      simp only [put, hx]
      rw [if_pos (by omega)]
      rw [BitVec.toNat_ofNat, Nat.pow_succ 256 k, Nat.pow_succ 256 m, ← Nat.div_div_eq_div_mul,
        Nat.mul_comm (256 ^ m) 256, Nat.mod_mul]
  have := key n 0 (by omega)
  simpa using this

/-- a read disjoint from the write is unaffected -/
theorem le_congr (f g : W → BitVec 8) (a : W) (n : Nat)
    (h : ∀ k, k < n → f (a + BitVec.ofNat 32 k) = g (a + BitVec.ofNat 32 k)) :
    le f a n = le g a n := by
  have key : ∀ m k, k + m ≤ n →
      le f (a + BitVec.ofNat 32 k) m = le g (a + BitVec.ofNat 32 k) m := by
    intro m
    induction m with
    | zero => intros; rfl
    | succ m ih =>
      intro k hk
      rw [le, le, add_add1, ih (k + 1) (by omega), h k (by omega)]
  have := key n 0 (by omega)
  simpa using this

end Ama
