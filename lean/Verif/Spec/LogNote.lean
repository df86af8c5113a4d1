import Verif.Spec.Asm
/-!
# Notes of the execution log

What a line of the log says about the effect of its instruction, after the instruction itself.
-/
namespace Ama.Spec.Log

/-- hexadecimal with exactly `n` digits -/
def hexn : Nat → Nat → List Char
  | 0, _ => []
  | n + 1, v => hexn n (v / 16) ++ [Nat.digitChar (v % 16)]
/-- the name of a register: in the calling convention, or `x` and its number -/
def regName (abi : Bool) (i : BitVec 5) : List Char :=
  if abi then (Asm.abiNames.getD i.toNat "").toList else 'x' :: Nat.toDigits 10 i.toNat
/-- padded on the right with spaces to `n` -/
def field (n : Nat) (t : List Char) : List Char := t ++ List.replicate (n - t.length) ' '
/-- register `i` now holds `v` -/
def regNote (abi : Bool) (i : BitVec 5) (v : W) : List Char :=
  field (if abi then 4 else 3) (regName abi i) ++ ": 0x".toList ++ hexn 8 v.toNat
/-- register `i`, holding `v`, was stored at `addr` -/
def storeNote (abi : Bool) (addr : W) (i : BitVec 5) (v : W) : List Char :=
  "mem[".toList ++ hexn 8 addr.toNat ++ "] <- ".toList ++ regName abi i ++ " (0x".toList ++ hexn 8 v.toNat ++ ")".toList
/-- the value came from `addr` -/
def loadNote (addr : W) : List Char := " <- mem[".toList ++ hexn 8 addr.toNat ++ "]".toList
/-- CSR `a`, called `name`, now holds `v` -/
def csrNote (a : BitVec 16) (name : List Char) (v : W) : List Char :=
  "0x".toList ++ hexn 4 a.toNat ++ " ".toList ++ field 14 name ++ ": 0x".toList ++ hexn 8 v.toNat

end Ama.Spec.Log
