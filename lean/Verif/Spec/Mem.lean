import Verif.Model.Basic
/-!
# Specification of byte-addressed little-endian memory
-/
namespace Ama.Spec

/-- value of the `n` bytes at `a`, least significant first -/
def le (f : W → BitVec 8) (a : W) : Nat → Nat
  | 0 => 0
  | n + 1 => (f a).toNat + 256 * le f (a + 1#32) n

/-- contents after storing the low `n` bytes of the number `v` at `a` -/
def put (f : W → BitVec 8) (a : W) (v : Nat) (n : Nat) : W → BitVec 8 := fun x =>
  let k := (x - a).toNat
  if k < n then BitVec.ofNat 8 (v / 256 ^ k) else f x

end Ama.Spec
