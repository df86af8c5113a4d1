import Verif.Model.Bp
/-!
# What option values mean
-/
namespace Ama.Spec

/-- the character is the digit of value `d` in base `b` -/
def IsDigit (b : Nat) (c : Char) (d : Nat) : Prop :=
  d < b ∧ ("0123456789abcdef".toList[d]? = some c ∨ "0123456789ABCDEF".toList[d]? = some c)
/-- the text is a numeral of value `n` in base `b` (leading zeros allowed) -/
inductive Numeral (b : Nat) : List Char → Nat → Prop
  | one {c d} : IsDigit b c d → Numeral b [c] d
  | snoc {l v c d} : Numeral b l v → IsDigit b c d → Numeral b (l ++ [c]) (v * b + d)

/-- parameters that a kind of predictor has: address bits (and folding), counter bits, local history bits, global history bits -/
def hasPc : Bp.Kind → Bool
  | .bimodal | .local | .gselect | .gshare => true
  | _ => false
def hasCnt : Bp.Kind → Bool
  | .bimodal | .local | .global | .gselect | .gshare => true
  | _ => false
def hasHist : Bp.Kind → Bool
  | .local => true
  | _ => false
def hasGhr : Bp.Kind → Bool
  | .global | .gselect | .gshare => true
  | _ => false
end Ama.Spec
