import Verif.Model.Alu
/-!
# Specification of the integer instructions

RISC-V unprivileged manual (RV32I chapter 2, M chapter 13, Zbb min/max) over the integers.
Only the operation names are shared with the model.
-/
namespace Ama.Spec

/-- 32-bit wrap-around of an integer -/
def wrap (z : Int) : W := BitVec.ofInt 32 z

/-- Result of a register-register instruction on source values `a`, `b`. -/
def alu (op : AluOp) (a b : W) : W :=
  match op with
  | .add => wrap (a.toInt + b.toInt)
  | .sub => wrap (a.toInt - b.toInt)
  -- "the shift amount held in the lower 5 bits of register rs2"
  | .sll => wrap (a.toNat * 2 ^ (b.toNat % 32))
  | .srl => wrap (a.toNat / 2 ^ (b.toNat % 32))
  | .sra => wrap (a.toInt / 2 ^ (b.toNat % 32))
  | .slt => if a.toInt < b.toInt then 1#32 else 0#32
  | .sltu => if a.toNat < b.toNat then 1#32 else 0#32
  | .xor => a ^^^ b
  | .or => a ||| b
  | .and => a &&& b
  | .mul => wrap (a.toInt * b.toInt)
  | .mulh => wrap (a.toInt * b.toInt / 2 ^ 32)
  | .mulhsu => wrap (a.toInt * b.toNat / 2 ^ 32)
  | .mulhu => wrap (a.toNat * b.toNat / 2 ^ 32)
  -- division by zero: all ones; overflow: the dividend (by wrap-around)
  | .div => if b.toInt = 0 then wrap (-1) else wrap (a.toInt.tdiv b.toInt)
  | .divu => if b.toNat = 0 then wrap (2 ^ 32 - 1) else wrap (a.toNat / b.toNat)
  | .rem => if b.toInt = 0 then a else wrap (a.toInt.tmod b.toInt)
  | .remu => if b.toNat = 0 then a else wrap (a.toNat % b.toNat)
  | .max => if a.toInt ≥ b.toInt then a else b
  | .maxu => if a.toNat ≥ b.toNat then a else b
  | .min => if a.toInt ≤ b.toInt then a else b
  | .minu => if a.toNat ≤ b.toNat then a else b

/-- Which host expressions behind an operation have undefined cases (C++17
[expr.shift]/1, [expr.pre]/4). -/
def aluUb (op : AluOp) (a b : W) : Option UB :=
  match op with
  | .sll | .srl | .sra => if b.toNat < 32 then none else some .shift
  | .mul =>
    if -2 ^ 31 ≤ a.toInt * b.toInt ∧ a.toInt * b.toInt < 2 ^ 31 then none
    else some .signedOverflow
  | _ => none

end Ama.Spec
