import Verif.Spec.Isa
import Verif.Model.Mem
/-!
# Specification of the memory map
-/
namespace Ama.Spec

/-- base address and size of a device; `none` if the build does not have it -/
def devRange (uart : Bool) : DevId → Option (Nat × Nat)
  | .main => some (0x80000000, 0x20000)
  | .uart => if uart then some (0x10013000, 12) else none
  | .clint => some (0x02000000, 32)

/-- address `a` belongs to device `d` -/
def inDevice (uart : Bool) (d : DevId) (a : W) : Prop :=
  ∃ r, devRange uart d = some r ∧ r.1 ≤ a.toNat ∧ a.toNat < r.1 + r.2

/-- the whole access of `n` bytes at `a` lies in device `d` -/
def accessIn (uart : Bool) (d : DevId) (a : W) (n : Nat) : Prop :=
  ∃ r, devRange uart d = some r ∧ r.1 ≤ a.toNat ∧ a.toNat + n ≤ r.1 + r.2

/-- base address as a word -/
def devBase : DevId → W
  | .main => 0x80000000#32
  | .uart => 0x10013000#32
  | .clint => 0x02000000#32

end Ama.Spec
