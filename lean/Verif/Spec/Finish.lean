import Verif.Spec.Mem
/-!
# What the end of a run should report
-/
namespace Ama.Spec

/-- outcome of a program by its last value of tohost: 1 is a pass, another odd number `2 * n + 1` the failure of test `n`, an
even number no outcome -/
inductive Verdict where | passed | failed (n : Nat) | none
  deriving DecidableEq, Repr
def verdict (t : W) : Verdict :=
  if t.toNat % 2 = 0 then .none else if t.toNat = 1 then .passed else .failed (t.toNat / 2)

/-- the first `n` little-endian words of memory at `a` -/
def words (f : W → BitVec 8) (a : W) : Nat → List W
  | 0 => []
  | n + 1 => BitVec.ofNat 32 (le f a 4) :: words f (a + 4#32) n
end Ama.Spec
