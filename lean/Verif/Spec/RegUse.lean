import Verif.Spec.Isa
import Verif.Spec.Compressed
import Verif.Spec.Simd
/-!
# Register operands

Which registers an instruction names, and in which role, from the manuals' instruction listings.  A compressed
instruction names the registers of its own syntax and the implied `ra` and `sp`; the `x0` of its expansion is not an
operand.
-/
namespace Ama.Spec

/-- destination, second destination of a pair, first and second source, and a source that is also the destination -/
inductive Role where
  | dest | dest2 | src1 | src2 | acc
  deriving DecidableEq, Repr

/-- role and register number -/
abbrev Operand := Role × Nat

/-- RV32IM, Zbb min/max and the privileged instructions -/
def operands : Instr → List Operand
  | .alu _ rd rs1 rs2 => [(.dest, rd.toNat), (.src1, rs1.toNat), (.src2, rs2.toNat)]
  | .alui _ rd rs1 _ | .shift _ rd rs1 _ | .load _ rd rs1 _ | .jalr rd rs1 _ => [(.dest, rd.toNat), (.src1, rs1.toNat)]
  | .lui rd _ | .auipc rd _ | .jal rd _ => [(.dest, rd.toNat)]
  | .store _ rs2 rs1 _ => [(.src1, rs1.toNat), (.src2, rs2.toNat)]
  | .branch _ rs1 rs2 _ => [(.src1, rs1.toNat), (.src2, rs2.toNat)]
  | .ecall | .ebreak | .mret | .wfi | .fence .. | .fencei => []

/-- `x8` to `x15` -/
def cnum (r : BitVec 3) : Nat := r.toNat + 8
/-- compressed instructions -/
def operandsC : CInstr → List Operand
  | .addi4spn rd _ => [(.dest, cnum rd), (.src1, 2)]
  | .lw rd rs1 _ => [(.dest, cnum rd), (.src1, cnum rs1)]
  | .sw rs2 rs1 _ => [(.src1, cnum rs1), (.src2, cnum rs2)]
  | .addi rd _ | .slli rd _ => [(.dest, rd.toNat), (.src1, rd.toNat)]
  | .jal _ => [(.dest, 1)]
  | .li rd _ | .lui rd _ => [(.dest, rd.toNat)]
  | .addi16sp _ => [(.dest, 2), (.src1, 2)]
  | .srli rd _ | .srai rd _ | .andi rd _ => [(.dest, cnum rd), (.src1, cnum rd)]
  | .alu _ rd rs2 => [(.dest, cnum rd), (.src1, cnum rd), (.src2, cnum rs2)]
  | .j _ | .ebreak => []
  | .beqz rs1 _ | .bnez rs1 _ => [(.src1, cnum rs1)]
  | .lwsp rd _ => [(.dest, rd.toNat), (.src1, 2)]
  | .jr rs1 => [(.src1, rs1.toNat)]
  | .mv rd rs2 => [(.dest, rd.toNat), (.src2, rs2.toNat)]
  | .jalr rs1 => [(.dest, 1), (.src1, rs1.toNat)]
  | .add rd rs2 => [(.dest, rd.toNat), (.src1, rd.toNat), (.src2, rs2.toNat)]
  | .swsp rs2 _ => [(.src1, 2), (.src2, rs2.toNat)]

/-- SIMD instructions with one result: shifts take an immediate, DOT accumulates into rd, VINS changes one lane of
rd, VEXT and VINS take a lane number -/
def operandsX1 (x : X1) (rd rs1 rs2 : BitVec 5) : List Operand :=
  match x with
  | .slli _ | .srli _ | .srai _ | .dup _ | .vext .. => [(.dest, rd.toNat), (.src1, rs1.toNat)]
  | .vins _ => [(.dest, rd.toNat), (.src1, rs1.toNat), (.acc, rd.toNat)]
  | .dot .. => [(.dest, rd.toNat), (.src1, rs1.toNat), (.src2, rs2.toNat), (.acc, rd.toNat)]
  | _ => [(.dest, rd.toNat), (.src1, rs1.toNat), (.src2, rs2.toNat)]
/-- SIMD instructions with a pair of results: WIDEN takes an immediate -/
def operandsX2 (x : X2) (rd rs1 rs2 : BitVec 5) : List Operand :=
  match x with
  | .widen .. => [(.dest, rd.toNat), (.dest2, rd.toNat + 1), (.src1, rs1.toNat)]
  | _ => [(.dest, rd.toNat), (.dest2, rd.toNat + 1), (.src1, rs1.toNat), (.src2, rs2.toNat)]

/-- the operands of an instruction word; CSR instructions by funct3: 1 to 3 with a register, 5 to 7 with an immediate -/
inductive Operands : W → List Operand → Prop
  | base (i : Instr) : Operands (encode i) (operands i)
  | comp (i : CInstr) : i.legal → Operands (encodeC i) (operandsC i)
  | csrReg (a : BitVec 12) (rs1 rd : BitVec 5) (f3 : BitVec 3) : f3 = 1#3 ∨ f3 = 2#3 ∨ f3 = 3#3 →
      Operands (encI a rs1 f3 rd 0x73#7) [(.dest, rd.toNat), (.src1, rs1.toNat)]
  | csrImm (a : BitVec 12) (u rd : BitVec 5) (f3 : BitVec 3) : f3 = 5#3 ∨ f3 = 6#3 ∨ f3 = 7#3 →
      Operands (encI a u f3 rd 0x73#7) [(.dest, rd.toNat)]
  | x1 (x : X1) (m : W) (rd rs1 rs2 : BitVec 5) : x.match? = some m →
      Operands (xWord m rd rs1 rs2) (operandsX1 x rd rs1 rs2)
  | x2 (x : X2) (m : W) (rd rs1 rs2 : BitVec 5) : x.match? = some m →
      Operands (xWord m rd rs1 rs2) (operandsX2 x rd rs1 rs2)
  | scp (rel : Bool) (rd rs1 rs2 : BitVec 5) :
      Operands (encR 0x7f#7 rs2 rs1 (if rel then 1#3 else 0#3) rd 0x0b#7) [(.dest, rd.toNat), (.src1, rs1.toNat)]

end Ama.Spec
