import Verif.Spec.Encode
import Verif.Model.InstParser
import Mathlib.Tactic.IntervalCases
/-!
# C05: field and immediate extraction inverts encoding
-/
namespace Ama
open Spec

/-- bit-blast an equality of two words given by shifts, masks and ors -/
macro "fields" "[" xs:Lean.Parser.Tactic.simpLemma,* "]" : tactic =>
  `(tactic| (ext i hi; interval_cases i <;>
      simp [fld, BitVec.getElem_sshiftRight, BitVec.getElem_signExtend, BitVec.msb_eq_getLsbD_last,
        BitVec.getLsbD_extractLsb', $xs,*]))

/-- **C05, R format**: every field of an encoded R-type word is read back. -/
theorem decode_R (f7 : BitVec 7) (rs2 rs1 : BitVec 5) (f3 : BitVec 3) (rd : BitVec 5)
    (op : BitVec 7) :
    IP.opcode (encR f7 rs2 rs1 f3 rd op) = op ∧ IP.rd (encR f7 rs2 rs1 f3 rd op) = rd ∧
    IP.funct3 (encR f7 rs2 rs1 f3 rd op) = f3 ∧ IP.rs1 (encR f7 rs2 rs1 f3 rd op) = rs1 ∧
    IP.rs2 (encR f7 rs2 rs1 f3 rd op) = rs2 ∧ IP.funct7 (encR f7 rs2 rs1 f3 rd op) = f7 := by
  refine ⟨?_, ?_, ?_, ?_, ?_, ?_⟩
  · fields [IP.opcode, encR]
  · fields [IP.rd, encR]
  · fields [IP.funct3, encR]
  · fields [IP.rs1, encR]
  · fields [IP.rs2, encR]
  · fields [IP.funct7, encR]

/-- **C05, I format**; the immediate is sign-extended; also the shift amount, the CSR
number, the zero-extended 5-bit CSR immediate and bit 30. -/
theorem decode_I (imm : BitVec 12) (rs1 : BitVec 5) (f3 : BitVec 3) (rd : BitVec 5)
    (op : BitVec 7) :
    IP.opcode (encI imm rs1 f3 rd op) = op ∧ IP.rd (encI imm rs1 f3 rd op) = rd ∧
    IP.funct3 (encI imm rs1 f3 rd op) = f3 ∧ IP.rs1 (encI imm rs1 f3 rd op) = rs1 ∧
    IP.immI (encI imm rs1 f3 rd op) = imm.signExtend 32 ∧
    IP.csrAddr (encI imm rs1 f3 rd op) = imm.setWidth 16 ∧
    IP.uimmCsr (encI imm rs1 f3 rd op) = rs1.setWidth 32 ∧
    IP.funct7b5 (encI imm rs1 f3 rd op) = imm.extractLsb' 10 1 ∧
    IP.immIShamt (encI imm rs1 f3 rd op) = (imm.extractLsb' 0 5).setWidth 32 := by
  refine ⟨?_, ?_, ?_, ?_, ?_, ?_, ?_, ?_, ?_⟩
  · fields [IP.opcode, encI]
  · fields [IP.rd, encI]
  · fields [IP.funct3, encI]
  · fields [IP.rs1, encI]
  · fields [IP.immI, encI]
  · fields [IP.csrAddr, encI]
  · fields [IP.uimmCsr, encI]
  · fields [IP.funct7b5, encI]
  · fields [IP.immIShamt, encI]

/-- **C05, S format** -/
theorem decode_S (imm : BitVec 12) (rs2 rs1 : BitVec 5) (f3 : BitVec 3) (op : BitVec 7) :
    IP.opcode (encS imm rs2 rs1 f3 op) = op ∧ IP.funct3 (encS imm rs2 rs1 f3 op) = f3 ∧
    IP.rs1 (encS imm rs2 rs1 f3 op) = rs1 ∧ IP.rs2 (encS imm rs2 rs1 f3 op) = rs2 ∧
    IP.immS (encS imm rs2 rs1 f3 op) = imm.signExtend 32 := by
  refine ⟨?_, ?_, ?_, ?_, ?_⟩
  · fields [IP.opcode, encS]
  · fields [IP.funct3, encS]
  · fields [IP.rs1, encS]
  · fields [IP.rs2, encS]
  · fields [IP.immS, encS]

/-- **C05, B format**: for every even 13-bit offset. -/
theorem decode_B (imm : BitVec 13) (h0 : imm.getLsbD 0 = false) (rs2 rs1 : BitVec 5)
    (f3 : BitVec 3) (op : BitVec 7) :
    IP.opcode (encB imm rs2 rs1 f3 op) = op ∧ IP.funct3 (encB imm rs2 rs1 f3 op) = f3 ∧
    IP.rs1 (encB imm rs2 rs1 f3 op) = rs1 ∧ IP.rs2 (encB imm rs2 rs1 f3 op) = rs2 ∧
    IP.immB (encB imm rs2 rs1 f3 op) = imm.signExtend 32 := by
  rw [BitVec.getLsbD_eq_getElem (by decide)] at h0
  refine ⟨?_, ?_, ?_, ?_, ?_⟩
  · fields [IP.opcode, encB]
  · fields [IP.funct3, encB]
  · fields [IP.rs1, encB]
  · fields [IP.rs2, encB]
  · fields [IP.immB, encB, h0]

/-- **C05, U format**: the value is `imm << 12`. -/
theorem decode_U (imm : BitVec 20) (rd : BitVec 5) (op : BitVec 7) :
    IP.opcode (encU imm rd op) = op ∧ IP.rd (encU imm rd op) = rd ∧
    IP.immU (encU imm rd op) = imm.setWidth 32 <<< 12 := by
  refine ⟨?_, ?_, ?_⟩
  · fields [IP.opcode, encU]
  · fields [IP.rd, encU]
  · fields [IP.immU, encU]

/-- **C05, J format**: for every even 21-bit offset. -/
theorem decode_J (imm : BitVec 21) (h0 : imm.getLsbD 0 = false) (rd : BitVec 5) (op : BitVec 7) :
    IP.opcode (encJ imm rd op) = op ∧ IP.rd (encJ imm rd op) = rd ∧
    IP.immJ (encJ imm rd op) = imm.signExtend 32 := by
  rw [BitVec.getLsbD_eq_getElem (by decide)] at h0
  refine ⟨?_, ?_, ?_⟩
  · fields [IP.opcode, encJ]
  · fields [IP.rd, encJ]
  · fields [IP.immJ, encJ, h0]

example : IP.immB (encB 0x1ffe#13 2#5 1#5 0#3 0x63#7) = 0xfffffffe#32 := by decide
example : IP.immJ (encJ 0x100800#21 1#5 0x6f#7) = 0xfff00800#32 := by decide

/-- every word carries the formats' fields: two words with the same R-type fields are
equal, so no bit of the instruction is ignored by the R-type fields -/
theorem fields_R_complete (w : W) :
    encR (IP.funct7 w) (IP.rs2 w) (IP.rs1 w) (IP.funct3 w) (IP.rd w) (IP.opcode w) = w := by
  fields [IP.funct7, IP.rs2, IP.rs1, IP.funct3, IP.rd, IP.opcode, encR]

/-- the same for the I-type fields, with the decoded (sign-extended) immediate -/
theorem fields_I_complete (w : W) :
    encI ((IP.immI w).setWidth 12) (IP.rs1 w) (IP.funct3 w) (IP.rd w) (IP.opcode w) = w := by
  fields [IP.immI, IP.rs1, IP.funct3, IP.rd, IP.opcode, encI]

end Ama
