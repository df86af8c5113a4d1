import Verif.Spec.Isa
import Verif.Spec.Compressed
import Verif.Spec.Simd
/-!
# Assembler mnemonics

Names of the RISC-V manuals and of `binutils.patch`; FENCE.I is spelled `fence_i`.
-/
namespace Ama.Spec

/-- RV32IM_Zbb(min/max) register-register names -/
def aluName : AluOp → String
  | .add => "add" | .sub => "sub" | .sll => "sll" | .slt => "slt" | .sltu => "sltu" | .xor => "xor" | .srl => "srl"
  | .sra => "sra" | .or => "or" | .and => "and" | .mul => "mul" | .mulh => "mulh" | .mulhsu => "mulhsu"
  | .mulhu => "mulhu" | .div => "div" | .divu => "divu" | .rem => "rem" | .remu => "remu" | .min => "min"
  | .minu => "minu" | .max => "max" | .maxu => "maxu"
def iopName : IOp → String
  | .addi => "addi" | .slti => "slti" | .sltiu => "sltiu" | .xori => "xori" | .ori => "ori" | .andi => "andi"
def shName : ShOp → String
  | .slli => "slli" | .srli => "srli" | .srai => "srai"
def loadName : LoadOp → String
  | .lb => "lb" | .lh => "lh" | .lw => "lw" | .lbu => "lbu" | .lhu => "lhu"
def storeName : StoreOp → String
  | .sb => "sb" | .sh => "sh" | .sw => "sw"
def branchName : BranchOp → String
  | .beq => "beq" | .bne => "bne" | .blt => "blt" | .bge => "bge" | .bltu => "bltu" | .bgeu => "bgeu"
/-- by funct3 -/
def csrName (f3 : BitVec 3) : String :=
  if f3 = 1#3 then "csrrw" else if f3 = 2#3 then "csrrs" else if f3 = 3#3 then "csrrc"
  else if f3 = 5#3 then "csrrwi" else if f3 = 6#3 then "csrrsi" else if f3 = 7#3 then "csrrci" else ""

/-- a line of the instruction profile: its name and, for branches and jumps, whether the jump was taken and whether
it is forward -/
abbrev Line := String × Option (Bool × Bool)

/-- the line of an instruction at `pc` with the registers `rf`, continuing at `next`.  NOP and the two profiling
hints (SLTI x0, x0, 16 and 17) have lines of their own. -/
def line (rf : BitVec 5 → W) (pc next : W) : Instr → Line
  | .alu op _ _ _ => (aluName op, none)
  | .alui op rd rs1 imm =>
    if op = .addi ∧ rd = 0#5 ∧ rs1 = 0#5 ∧ imm = 0#12 then ("nop", none)
    else if op = .slti ∧ rd = 0#5 ∧ rs1 = 0#5 ∧ (imm = 16#12 ∨ imm = 17#12) then ("hint", none)
    else (iopName op, none)
  | .shift op _ _ _ => (shName op, none)
  | .lui .. => ("lui", none)
  | .auipc .. => ("auipc", none)
  | .load op _ _ _ => (loadName op, none)
  | .store op _ _ _ => (storeName op, none)
  | .branch op rs1 rs2 off =>
    (branchName op, some (taken op (rx rf rs1) (rx rf rs2), decide (pc.toNat < (pc + (dbl off).signExtend 32).toNat)))
  | .jal .. => ("jal", some (true, decide (pc.toNat < next.toNat)))
  | .jalr .. => ("jalr", some (true, decide (pc.toNat < next.toNat)))
  | .ecall => ("ecall", none)
  | .ebreak => ("ebreak", none)
  | .mret => ("mret", none)
  | .wfi => ("wfi", none)
  | .fence .. => ("fence", none)
  | .fencei => ("fence_i", none)

def caluName : CAlu → String
  | .sub => "c.sub" | .xor => "c.xor" | .or => "c.or" | .and => "c.and"
/-- the line of a compressed instruction; C.NOP has a line of its own -/
def lineC (rf : BitVec 5 → W) (pc next : W) : CInstr → Line
  | .addi4spn .. => ("c.addi4spn", none)
  | .lw .. => ("c.lw", none)
  | .sw .. => ("c.sw", none)
  | .addi rd imm => (if rd = 0#5 ∧ imm = 0#6 then "c.nop" else "c.addi", none)
  | .jal _ => ("c.jal", some (true, decide (pc.toNat < next.toNat)))
  | .li .. => ("c.li", none)
  | .addi16sp _ => ("c.addi16sp", none)
  | .lui .. => ("c.lui", none)
  | .srli .. => ("c.srli", none)
  | .srai .. => ("c.srai", none)
  | .andi .. => ("c.andi", none)
  | .alu op _ _ => (caluName op, none)
  | .j _ => ("c.j", some (true, decide (pc.toNat < next.toNat)))
  | .beqz r off => ("c.beqz", some (decide (rf (creg r) = 0#32), decide (pc.toNat < (pc + (scale 9 1 off).signExtend 32).toNat)))
  | .bnez r off => ("c.bnez", some (decide (rf (creg r) ≠ 0#32), decide (pc.toNat < (pc + (scale 9 1 off).signExtend 32).toNat)))
  | .slli .. => ("c.slli", none)
  | .lwsp .. => ("c.lwsp", none)
  | .jr _ => ("c.jr", some (true, decide (pc.toNat < next.toNat)))
  | .mv .. => ("c.mv", none)
  | .ebreak => ("c.ebreak", none)
  | .jalr _ => ("c.jalr", some (true, decide (pc.toNat < next.toNat)))
  | .add .. => ("c.add", none)
  | .swsp .. => ("c.swsp", none)

/-- unsigned instructions end in `u` -/
def xName (base : String) (n : Nat) (sg : Bool) : String := base ++ toString n ++ (if sg then "" else "u")
def X1.name : X1 → String
  | .add n => xName "add" n true | .sub n => xName "sub" n true
  | .qadd n sg => xName "qadd" n sg | .qsub n sg => xName "qsub" n sg
  | .mul n => xName "mul" n true | .mulh n sg => xName "mulh" n sg | .dot n sg => xName "dot" n sg
  | .min n sg => xName "min" n sg | .max n sg => xName "max" n sg
  | .slli n => xName "slli" n true | .srli n => xName "srli" n true | .srai n => xName "srai" n true
  | .narrow n => xName "narrow" n true | .qnarrow n sg => xName "qnarrow" n sg
  | .dup n => xName "dup" n true | .vins n => xName "vins" n true | .vext n sg => xName "vext" n sg
def X2.name : X2 → String
  | .wmul n sg => xName "wmul" n sg | .widen n sg => xName "widen" n sg | .txp n => xName "txp" n true

end Ama.Spec
