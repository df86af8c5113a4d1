import Verif.Spec.Simd
/-!
# When the host computes a SIMD instruction without overflow
The arithmetic is done in 32-bit `int`s; these are the operands for which no intermediate number overflows one.
-/
namespace Ama.Spec

/-- a number an `int` can hold -/
def Fits (z : Int) : Prop := -2147483648 ≤ z ∧ z ≤ 2147483647
/-- the sum of the first `k` products -/
def prefixSum (sg : Bool) (n k : Nat) (a b : W) : Int := ((List.range k).map fun i => lv sg (lane n i a) * lv sg (lane n i b)).sum
/-- no product, and no partial sum of products, overflows -/
def X1.fits (x : X1) (a b : W) : Prop :=
  match x with
  | .mulh n sg => ∀ i < 32 / n, Fits (lv sg (lane n i a) * lv sg (lane n i b))
  | .dot n sg => ∀ i < 32 / n, Fits (lv sg (lane n i a) * lv sg (lane n i b)) ∧ Fits (prefixSum sg n (i + 1) a b)
  | _ => True
/-- no product overflows, and no negative number or set bit is shifted out -/
def X2.fits (y : X2) (a b : W) (imm : BitVec 5) : Prop :=
  match y with
  | .wmul n sg => ∀ i < 32 / n, Fits (lv sg (lane n i a) * lv sg (lane n i b))
  | .widen n sg => ∀ i < 32 / n, 0 ≤ lv sg (lane n i a) ∧ lv sg (lane n i a) * 2 ^ (imm.toNat % (2 * n)) < 2 ^ 32
  | .txp _ => True

end Ama.Spec
