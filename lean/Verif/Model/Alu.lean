import Verif.Model.Basic
/-!
# Integer arithmetic

Model of `/repo/src/core_exec_i_arith.cpp`, `core_exec_m.cpp`, `core_exec_b.cpp` and
of the operation selection in `core::d_alu_reg` / `core::d_alu_imm`.
-/
namespace Ama

/-- Register-register operations, `/repo/src/types.h:115-160`
(`alu_r_op_t`, `alu_r_mul_op_t`, `alu_r_zbb_op_t`). -/
inductive AluOp where
  | add | sub | sll | srl | sra | slt | sltu | xor | or | and
  | mul | mulh | mulhsu | mulhu | div | divu | rem | remu
  | max | maxu | min | minu
  deriving DecidableEq, Repr

/-- C++ `bool` converted to `uint32_t`. -/
def b2w (b : Bool) : W := if b then 1#32 else 0#32

/-- core_exec_i_arith.cpp:7 -/
def aluSll (strict : Bool) (a b : W) : Res W := cShl strict a b
/-- core_exec_i_arith.cpp:8 -/
def aluSrl (strict : Bool) (a b : W) : Res W := cShr strict a b
/-- core_exec_i_arith.cpp:9 -/
def aluSra (strict : Bool) (a b : W) : Res W := cSar strict a b
/-- core_exec_i_arith.cpp:10 -/
def aluSlt (a b : W) : W := b2w (a.slt b)
/-- core_exec_i_arith.cpp:11 -/
def aluSltu (a b : W) : W := b2w (a.ult b)
/-- core_exec_m.cpp:5-7 -/
def aluMul (strict : Bool) (a b : W) : Res W := cMulI strict a b
/-- core_exec_m.cpp:8-11; the product of two sign-extended values fits `int64_t` -/
def aluMulh (a b : W) : W :=
  ((a.signExtend 64 * b.signExtend 64).sshiftRight 32).setWidth 32
/-- core_exec_m.cpp:12-15 -/
def aluMulhsu (a b : W) : W :=
  ((a.signExtend 64 * b.setWidth 64).sshiftRight 32).setWidth 32
/-- core_exec_m.cpp:16-19 -/
def aluMulhu (a b : W) : W :=
  ((a.setWidth 64 * b.setWidth 64) >>> 32).setWidth 32
/-- core_exec_m.cpp:20-26; C++ signed division truncates toward zero -/
def aluDiv (a b : W) : W :=
  if b = 0#32 then 0xffffffff#32
  else if a = 0x80000000#32 ∧ b = 0xffffffff#32 then a
  else a.sdiv b
/-- core_exec_m.cpp:27-30 -/
def aluDivu (a b : W) : W := if b = 0#32 then 0xffffffff#32 else a / b
/-- core_exec_m.cpp:31-35; C++ `%` has the sign of the dividend -/
def aluRem (a b : W) : W :=
  if b = 0#32 then a
  else if a = 0x80000000#32 ∧ b = 0xffffffff#32 then 0#32
  else a.srem b
/-- core_exec_m.cpp:36-39 -/
def aluRemu (a b : W) : W := if b = 0#32 then a else a % b
/-- core_exec_b.cpp:5-7 -/
def aluMax (a b : W) : W := if b.slt a then a else b
/-- core_exec_b.cpp:8-10 -/
def aluMaxu (a b : W) : W := if b.ult a then a else b
/-- core_exec_b.cpp:11-13 -/
def aluMin (a b : W) : W := if a.slt b then a else b
/-- core_exec_b.cpp:14-16 -/
def aluMinu (a b : W) : W := if a.ult b then a else b

/-- core_exec_i_arith.cpp:5-14, core_exec_m.cpp, core_exec_b.cpp: all `alu_*`. -/
def aluOp (strict : Bool) (op : AluOp) (a b : W) : Res W :=
  match op with
  | .add => .ok (a + b)
  | .sub => .ok (a - b)
  | .sll => aluSll strict a b
  | .srl => aluSrl strict a b
  | .sra => aluSra strict a b
  | .slt => .ok (aluSlt a b)
  | .sltu => .ok (aluSltu a b)
  | .xor => .ok (a ^^^ b)
  | .or => .ok (a ||| b)
  | .and => .ok (a &&& b)
  | .mul => aluMul strict a b
  | .mulh => .ok (aluMulh a b)
  | .mulhsu => .ok (aluMulhsu a b)
  | .mulhu => .ok (aluMulhu a b)
  | .div => .ok (aluDiv a b)
  | .divu => .ok (aluDivu a b)
  | .rem => .ok (aluRem a b)
  | .remu => .ok (aluRemu a b)
  | .max => .ok (aluMax a b)
  | .maxu => .ok (aluMaxu a b)
  | .min => .ok (aluMin a b)
  | .minu => .ok (aluMinu a b)

/-- Is the operation preceded by `div.eval` (`DIV_HM_EVAL`, defines.h:134-152), and
with which `uns` argument. -/
def AluOp.divUns : AluOp → Option Bool
  | .div => some false
  | .divu => some true
  | .rem => some false
  | .remu => some true
  | _ => none

/-- core.cpp:467-512: the nested switches of `d_alu_reg`; `none` is a `default:` arm
(all of them trap and return). `alu_op_sel = funct7[5]<<3 | funct3`. -/
def aluRegSel (funct7 : BitVec 7) (funct3 : BitVec 3) : Option AluOp :=
  match funct7 with
  | 0x00#7 =>
    match funct3 with
    | 0#3 => some .add | 1#3 => some .sll | 2#3 => some .slt | 3#3 => some .sltu
    | 4#3 => some .xor | 5#3 => some .srl | 6#3 => some .or | 7#3 => some .and
    | _ => none
  | 0x20#7 =>
    match funct3 with
    | 0#3 => some .sub | 5#3 => some .sra | _ => none
  | 0x01#7 =>
    match funct3 with
    | 0#3 => some .mul | 1#3 => some .mulh | 2#3 => some .mulhsu | 3#3 => some .mulhu
    | 4#3 => some .div | 5#3 => some .divu | 6#3 => some .rem | 7#3 => some .remu
    | _ => none
  | 0x05#7 =>
    match funct3 with
    | 4#3 => some .min | 5#3 => some .minu | 6#3 => some .max | 7#3 => some .maxu
    | _ => none
  | _ => none

/-- Register-immediate operations (`alu_i_op_t`, types.h). -/
inductive AluImmOp where
  | addi | slli | srli | srai | slti | sltiu | xori | ori | andi
  deriving DecidableEq, Repr

/-- core_exec_i_arith.cpp:17-44: each immediate operation calls the register one
(the profiler side effects of `slli`/`slti` are in `Core.lean`). -/
def AluImmOp.toAlu : AluImmOp → AluOp
  | .addi => .add | .slli => .sll | .srli => .srl | .srai => .sra | .slti => .slt
  | .sltiu => .sltu | .xori => .xor | .ori => .or | .andi => .and

/-- core.cpp:520-536: `d_alu_imm` selection; bit 30 matters only when
`funct3 & 3 == 1`. -/
def aluImmSel (funct7b5 : BitVec 1) (funct3 : BitVec 3) : Option AluImmOp :=
  match funct3 with
  | 0#3 => some .addi
  | 1#3 => if funct7b5 = 0#1 then some .slli else none
  | 2#3 => some .slti
  | 3#3 => some .sltiu
  | 4#3 => some .xori
  | 5#3 => if funct7b5 = 0#1 then some .srli else some .srai
  | 6#3 => some .ori
  | 7#3 => some .andi
  | _ => none

end Ama
