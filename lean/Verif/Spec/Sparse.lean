import Verif.Spec.RegUse
/-!
# Inputs and results of an operation

For the sparsity statistics: the data inputs of an instruction by kind of operation, and the registers it writes.  An
input is a register value or an immediate; `rf`, `rf'` are the registers before and after the instruction.
-/
namespace Ama.Spec

/-- kinds of operation that are counted -/
inductive Kind where
  | load | store | alu | mul | dividend | divisor | dot | simdMul | simdAlu
  deriving DecidableEq, Repr

/-- RV32IM and Zbb: the value stored; the operands of arithmetic; the value loaded (shown by the destination) -/
def dataIn (rf rf' : BitVec 5 → W) : Instr → List (Kind × List W)
  | .alu op _ rs1 rs2 =>
    if op ∈ [.mul, .mulh, .mulhsu, .mulhu] then [(.mul, [rf rs1, rf rs2])]
    else if op ∈ [.div, .divu, .rem, .remu] then [(.dividend, [rf rs1]), (.divisor, [rf rs2])]
    else [(.alu, [rf rs1, rf rs2])]
  | .alui _ _ rs1 imm => [(.alu, [rf rs1, imm.signExtend 32])]
  | .shift _ _ rs1 sh => [(.alu, [rf rs1, sh.setWidth 32])]
  | .load _ rd _ _ => [(.load, [rf' rd])]
  | .store _ rs2 _ _ => [(.store, [rf rs2])]
  | _ => []
/-- compressed instructions, with the operands of their own syntax -/
def dataInC (rf rf' : BitVec 5 → W) : CInstr → List (Kind × List W)
  | .addi4spn _ imm => [(.alu, [rf 2#5, imm.setWidth 32])]
  | .addi rd imm => [(.alu, [rf rd, imm.signExtend 32])]
  | .li _ imm => [(.alu, [imm.signExtend 32])]
  | .addi16sp imm => [(.alu, [rf 2#5, imm.signExtend 32])]
  | .srli r sh | .srai r sh => [(.alu, [rf (creg r), sh.setWidth 32])]
  | .andi r imm => [(.alu, [rf (creg r), imm.signExtend 32])]
  | .alu _ r s => [(.alu, [rf (creg r), rf (creg s)])]
  | .slli rd sh => [(.alu, [rf rd, sh.setWidth 32])]
  | .mv _ rs2 => [(.alu, [rf rs2])]
  | .add rd rs2 => [(.alu, [rf rd, rf rs2])]
  | .lw r _ _ => [(.load, [rf' (creg r)])]
  | .lwsp rd _ => [(.load, [rf' rd])]
  | .sw r _ _ => [(.store, [rf (creg r)])]
  | .swsp rs2 _ => [(.store, [rf rs2])]
  | _ => []
/-- SIMD instructions with one result; conversions, DUP, VINS and VEXT are not counted -/
def dataIn1 (rf : BitVec 5 → W) (x : X1) (rs1 rs2 : BitVec 5) : List (Kind × List W) :=
  match x with
  | .add _ | .sub _ | .qadd .. | .qsub .. | .min .. | .max .. => [(.simdAlu, [rf rs1, rf rs2])]
  | .slli _ | .srli _ | .srai _ => [(.simdAlu, [rf rs1, rs2.setWidth 32])]
  | .mul _ | .mulh .. => [(.simdMul, [rf rs1, rf rs2])]
  | .dot .. => [(.dot, [rf rs1, rf rs2])]
  | _ => []
/-- SIMD instructions with two results -/
def dataIn2 (rf : BitVec 5 → W) (x : X2) (rs1 rs2 : BitVec 5) : List (Kind × List W) :=
  match x with
  | .wmul .. => [(.simdMul, [rf rs1, rf rs2])]
  | _ => []

/-- the data inputs of an instruction word; loads to x0 are left out, their value is not kept -/
inductive DataIn (rf rf' : BitVec 5 → W) : W → List (Kind × List W) → Prop
  | base (i : Instr) : (∀ op rs1 imm, i ≠ .load op 0#5 rs1 imm) → DataIn rf rf' (encode i) (dataIn rf rf' i)
  | comp (i : CInstr) : i.legal → DataIn rf rf' (encodeC i) (dataInC rf rf' i)
  | csr (a : BitVec 12) (rs1 rd : BitVec 5) (f3 : BitVec 3) : f3 ≠ 0#3 → DataIn rf rf' (encI a rs1 f3 rd 0x73#7) []
  | x1 (x : X1) (m : W) (rd rs1 rs2 : BitVec 5) : x.match? = some m →
      DataIn rf rf' (xWord m rd rs1 rs2) (dataIn1 rf x rs1 rs2)
  | x2 (x : X2) (m : W) (rd rs1 rs2 : BitVec 5) : x.match? = some m →
      DataIn rf rf' (xWord m rd rs1 rs2) (dataIn2 rf x rs1 rs2)
  | scp (rel : Bool) (rd rs1 rs2 : BitVec 5) :
      DataIn rf rf' (encR 0x7f#7 rs2 rs1 (if rel then 1#3 else 0#3) rd 0x0b#7) []

/-- the registers an instruction with these operands writes: its destinations, none if the (first) destination is x0 -/
def written (l : List Operand) : List Nat :=
  if (Role.dest, 0) ∈ l then [] else (l.filter fun x => x.1 = .dest ∨ x.1 = .dest2).map (·.2)
end Ama.Spec
