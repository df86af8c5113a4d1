import Verif.Spec.Isa
/-!
# The C extension: 16-bit formats and their expansions

Written from the "C" chapter of the unprivileged manual (RV32C without the floating point
instructions). Immediates are given without the low bits that are always zero.
-/
namespace Ama.Spec

/-- register-register operations of the CA format -/
inductive CAlu where | sub | xor | or | and deriving DecidableEq, Repr

/-- 16-bit instructions; `r'` are three-bit register numbers -/
inductive CInstr where
  | addi4spn (rd' : BitVec 3) (imm : BitVec 8)
  | lw (rd' rs1' : BitVec 3) (imm : BitVec 5)
  | sw (rs2' rs1' : BitVec 3) (imm : BitVec 5)
  | addi (rd : BitVec 5) (imm : BitVec 6)
  | jal (off : BitVec 11)
  | li (rd : BitVec 5) (imm : BitVec 6)
  | addi16sp (imm : BitVec 6)
  | lui (rd : BitVec 5) (imm : BitVec 6)
  | srli (rd' : BitVec 3) (sh : BitVec 5)
  | srai (rd' : BitVec 3) (sh : BitVec 5)
  | andi (rd' : BitVec 3) (imm : BitVec 6)
  | alu (op : CAlu) (rd' rs2' : BitVec 3)
  | j (off : BitVec 11)
  | beqz (rs1' : BitVec 3) (off : BitVec 8)
  | bnez (rs1' : BitVec 3) (off : BitVec 8)
  | slli (rd : BitVec 5) (sh : BitVec 5)
  | lwsp (rd : BitVec 5) (imm : BitVec 6)
  | jr (rs1 : BitVec 5)
  | mv (rd rs2 : BitVec 5)
  | ebreak
  | jalr (rs1 : BitVec 5)
  | add (rd rs2 : BitVec 5)
  | swsp (rs2 : BitVec 5) (imm : BitVec 6)
  deriving DecidableEq, Repr

/-- operand values that are not reserved (HINTs are legal) -/
def CInstr.legal : CInstr → Prop
  | .addi4spn _ imm => imm ≠ 0#8
  | .addi16sp imm => imm ≠ 0#6
  | .lui rd imm => rd ≠ 2#5 ∧ imm ≠ 0#6
  | .lwsp rd _ => rd ≠ 0#5
  | .jr rs1 | .jalr rs1 => rs1 ≠ 0#5
  | .mv _ rs2 | .add _ rs2 => rs2 ≠ 0#5
  | _ => True
instance (i : CInstr) : Decidable i.legal := by cases i <;> unfold CInstr.legal <;> infer_instance

/-- `k` zero bits below a value -/
def scale {n : Nat} (m k : Nat) (x : BitVec n) : BitVec m := x.setWidth m <<< k

/-- funct2 of the CA format -/
def caluF : CAlu → BitVec 2
  | .sub => 0#2 | .xor => 1#2 | .or => 2#2 | .and => 3#2
/-- base operation -/
def caluOp : CAlu → AluOp
  | .sub => .sub | .xor => .xor | .or => .or | .and => .and

/-- 16-bit encodings (in a 32-bit word) -/
def encodeC : CInstr → W
  | .addi4spn rd' imm => encAddi4spn (scale 10 2 imm) rd'
  | .lw rd' rs1' imm => encCLS 2#3 (scale 7 2 imm) rs1' rd'
  | .sw rs2' rs1' imm => encCLS 6#3 (scale 7 2 imm) rs1' rs2'
  | .addi rd imm => encCI 0#3 imm rd 1#2
  | .jal off => encCJ 1#3 (scale 12 1 off)
  | .li rd imm => encCI 2#3 imm rd 1#2
  | .addi16sp imm => encAddi16sp (scale 10 4 imm)
  | .lui rd imm => encCI 3#3 imm rd 1#2
  | .srli rd' sh => encCBA 0#2 (sh.setWidth 6) rd'
  | .srai rd' sh => encCBA 1#2 (sh.setWidth 6) rd'
  | .andi rd' imm => encCBA 2#2 imm rd'
  | .alu op rd' rs2' => encCA 0x23#6 rd' (caluF op) rs2'
  | .j off => encCJ 5#3 (scale 12 1 off)
  | .beqz rs1' off => encCB 6#3 (scale 9 1 off) rs1'
  | .bnez rs1' off => encCB 7#3 (scale 9 1 off) rs1'
  | .slli rd sh => encCI 0#3 (sh.setWidth 6) rd 2#2
  | .lwsp rd imm => encLwsp (scale 8 2 imm) rd
  | .jr rs1 => encCR 8#4 rs1 0#5
  | .mv rd rs2 => encCR 8#4 rd rs2
  | .ebreak => encCR 9#4 0#5 0#5
  | .jalr rs1 => encCR 9#4 rs1 0#5
  | .add rd rs2 => encCR 9#4 rd rs2
  | .swsp rs2 imm => encSwsp (scale 8 2 imm) rs2

/-- the base instruction each one abbreviates -/
def expand : CInstr → Instr
  | .addi4spn rd' imm => .alui .addi (creg rd') 2#5 (scale 12 2 imm)
  | .lw rd' rs1' imm => .load .lw (creg rd') (creg rs1') (scale 12 2 imm)
  | .sw rs2' rs1' imm => .store .sw (creg rs2') (creg rs1') (scale 12 2 imm)
  | .addi rd imm => .alui .addi rd rd (imm.signExtend 12)
  | .jal off => .jal 1#5 (off.signExtend 20)
  | .li rd imm => .alui .addi rd 0#5 (imm.signExtend 12)
  | .addi16sp imm => .alui .addi 2#5 2#5 (scale 12 4 (imm.signExtend 8))
  | .lui rd imm => .lui rd (imm.signExtend 20)
  | .srli rd' sh => .shift .srli (creg rd') (creg rd') sh
  | .srai rd' sh => .shift .srai (creg rd') (creg rd') sh
  | .andi rd' imm => .alui .andi (creg rd') (creg rd') (imm.signExtend 12)
  | .alu op rd' rs2' => .alu (caluOp op) (creg rd') (creg rd') (creg rs2')
  | .j off => .jal 0#5 (off.signExtend 20)
  | .beqz rs1' off => .branch .beq (creg rs1') 0#5 (off.signExtend 12)
  | .bnez rs1' off => .branch .bne (creg rs1') 0#5 (off.signExtend 12)
  | .slli rd sh => .shift .slli rd rd sh
  | .lwsp rd imm => .load .lw rd 2#5 (scale 12 2 imm)
  | .jr rs1 => .jalr 0#5 rs1 0#12
  | .mv rd rs2 => .alu .add rd 0#5 rs2
  | .ebreak => .ebreak
  | .jalr rs1 => .jalr 1#5 rs1 0#12
  | .add rd rs2 => .alu .add rd rd rs2
  | .swsp rs2 imm => .store .sw rs2 2#5 (scale 12 2 imm)

end Ama.Spec
