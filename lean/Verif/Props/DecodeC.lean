import Verif.Props.Decode
/-!
# C05, compressed formats
-/
namespace Ama
open Spec

/-- sign extension from bit 12 as the parser does it: shift left 19, arithmetic shift right -/
theorem sar_shl (w : W) (k i : Nat) (hi : i < 32) :
    ((w <<< 19).sshiftRight k)[i] =
      if k + i < 32 then (decide (19 ≤ k + i) && w.getLsbD (k + i - 19)) else w.getLsbD 12 := by
  rw [BitVec.getElem_sshiftRight]
  split
  · rename_i h
    by_cases h2 : 19 ≤ k + i
    · have h3 : ¬ (k + i < 19) := by omega
      have h4 : k + i - 19 < 32 := by omega
      simp [h2, h3, BitVec.getLsbD_eq_getElem h4]
    · simp [h2]
  · simp [BitVec.msb_eq_getLsbD_last]

/-- bit-blast an immediate that starts with a sign extension from bit 12 -/
macro "sfields" "[" ys:Lean.Parser.Tactic.rwRule,* "]" "[" xs:Lean.Parser.Tactic.simpLemma,* "]" : tactic =>
  `(tactic| (ext i hi
             rw [$ys,*]
             simp only [BitVec.getElem_or, BitVec.getElem_and, sar_shl]
             interval_cases i <;>
               simp [fld, BitVec.getElem_signExtend, BitVec.msb_eq_getLsbD_last,
                 BitVec.getLsbD_extractLsb', $xs,*]))

/-- bits of a three-bit register number in x8..x15 -/
theorem creg_eq (r : BitVec 3) : creg r = (8#5 ||| r.setWidth 5) := by
  revert r; decide

/-- **C05, CI** (C.ADDI, C.LI, C.SLLI, C.LUI): sign-extended 6-bit immediate, zero-extended
shift amount, and the C.LUI immediate at bit 12. -/
theorem decode_CI (f3 : BitVec 3) (imm : BitVec 6) (rd : BitVec 5) (op : BitVec 2) :
    IP.copcode (encCI f3 imm rd op) = op ∧ IP.cFunct3 (encCI f3 imm rd op) = f3 ∧
    IP.rd (encCI f3 imm rd op) = rd ∧ IP.cImmArith (encCI f3 imm rd op) = imm.signExtend 32 ∧
    IP.cImmSlli (encCI f3 imm rd op) = imm.setWidth 32 ∧
    IP.cImmLui (encCI f3 imm rd op) = imm.signExtend 32 <<< 12 ∧
    IP.toRvc (encCI f3 imm rd op) = encCI f3 imm rd op := by
  refine ⟨?_, ?_, ?_, ?_, ?_, ?_, ?_⟩
  · fields [IP.copcode, encCI]
  · fields [IP.cFunct3, encCI]
  · fields [IP.rd, encCI]
  · sfields [IP.cImmArith] [encCI]
  · fields [IP.cImmSlli, encCI]
  · sfields [IP.cImmLui] [encCI]
  · fields [IP.toRvc, encCI]

/-- **C05, C.ADDI16SP**: every multiple of 16 in [-512, 496]. -/
theorem decode_CADDI16SP (imm : BitVec 10) (h0 : imm.extractLsb' 0 4 = 0#4) :
    IP.copcode (encAddi16sp imm) = 1#2 ∧ IP.cFunct3 (encAddi16sp imm) = 3#3 ∧
    IP.rd (encAddi16sp imm) = 2#5 ∧ IP.cImm16sp (encAddi16sp imm) = imm.signExtend 32 ∧
    IP.toRvc (encAddi16sp imm) = encAddi16sp imm := by
  have b0 : imm[0] = false := by simpa using congrArg (fun x => x.getLsbD 0) h0
  have b1 : imm[1] = false := by simpa using congrArg (fun x => x.getLsbD 1) h0
  have b2 : imm[2] = false := by simpa using congrArg (fun x => x.getLsbD 2) h0
  have b3 : imm[3] = false := by simpa using congrArg (fun x => x.getLsbD 3) h0
  refine ⟨?_, ?_, ?_, ?_, ?_⟩
  · fields [IP.copcode, encAddi16sp]
  · fields [IP.cFunct3, encAddi16sp]
  · fields [IP.rd, encAddi16sp]
  · sfields [IP.cImm16sp] [encAddi16sp, b0, b1, b2, b3]
  · fields [IP.toRvc, encAddi16sp]

/-- **C05, C.LWSP**: every multiple of 4 in [0, 252]. -/
theorem decode_CLWSP (imm : BitVec 8) (h0 : imm.extractLsb' 0 2 = 0#2) (rd : BitVec 5) :
    IP.copcode (encLwsp imm rd) = 2#2 ∧ IP.cFunct3 (encLwsp imm rd) = 2#3 ∧
    IP.rd (encLwsp imm rd) = rd ∧ IP.cImmLwsp (encLwsp imm rd) = imm.setWidth 32 ∧
    IP.toRvc (encLwsp imm rd) = encLwsp imm rd := by
  have b0 : imm[0] = false := by simpa using congrArg (fun x => x.getLsbD 0) h0
  have b1 : imm[1] = false := by simpa using congrArg (fun x => x.getLsbD 1) h0
  refine ⟨?_, ?_, ?_, ?_, ?_⟩
  · fields [IP.copcode, encLwsp]
  · fields [IP.cFunct3, encLwsp]
  · fields [IP.rd, encLwsp]
  · fields [IP.cImmLwsp, encLwsp, b0, b1]
  · fields [IP.toRvc, encLwsp]

/-- **C05, C.SWSP** -/
theorem decode_CSWSP (imm : BitVec 8) (h0 : imm.extractLsb' 0 2 = 0#2) (rs2 : BitVec 5) :
    IP.copcode (encSwsp imm rs2) = 2#2 ∧ IP.cFunct3 (encSwsp imm rs2) = 6#3 ∧
    IP.cRs2 (encSwsp imm rs2) = rs2 ∧ IP.cImmSwsp (encSwsp imm rs2) = imm.setWidth 32 ∧
    IP.toRvc (encSwsp imm rs2) = encSwsp imm rs2 := by
  have b0 : imm[0] = false := by simpa using congrArg (fun x => x.getLsbD 0) h0
  have b1 : imm[1] = false := by simpa using congrArg (fun x => x.getLsbD 1) h0
  refine ⟨?_, ?_, ?_, ?_, ?_⟩
  · fields [IP.copcode, encSwsp]
  · fields [IP.cFunct3, encSwsp]
  · fields [IP.cRs2, encSwsp]
  · fields [IP.cImmSwsp, encSwsp, b0, b1]
  · fields [IP.toRvc, encSwsp]

/-- **C05, C.ADDI4SPN**: every multiple of 4 in [0, 1020]. -/
theorem decode_CADDI4SPN (imm : BitVec 10) (h0 : imm.extractLsb' 0 2 = 0#2) (r : BitVec 3) :
    IP.copcode (encAddi4spn imm r) = 0#2 ∧ IP.cFunct3 (encAddi4spn imm r) = 0#3 ∧
    IP.cRegl (encAddi4spn imm r) = creg r ∧ IP.cImm4spn (encAddi4spn imm r) = imm.setWidth 32 ∧
    IP.toRvc (encAddi4spn imm r) = encAddi4spn imm r := by
  have b0 : imm[0] = false := by simpa using congrArg (fun x => x.getLsbD 0) h0
  have b1 : imm[1] = false := by simpa using congrArg (fun x => x.getLsbD 1) h0
  rw [creg_eq]
  refine ⟨?_, ?_, ?_, ?_, ?_⟩
  · fields [IP.copcode, encAddi4spn]
  · fields [IP.cFunct3, encAddi4spn]
  · fields [IP.cRegl, encAddi4spn]
  · fields [IP.cImm4spn, encAddi4spn, b0, b1]
  · fields [IP.toRvc, encAddi4spn]

/-- **C05, CL/CS** (C.LW, C.SW) -/
theorem decode_CLS (f3 : BitVec 3) (imm : BitVec 7) (h0 : imm.extractLsb' 0 2 = 0#2)
    (r1 r2 : BitVec 3) :
    IP.copcode (encCLS f3 imm r1 r2) = 0#2 ∧ IP.cFunct3 (encCLS f3 imm r1 r2) = f3 ∧
    IP.cRegh (encCLS f3 imm r1 r2) = creg r1 ∧ IP.cRegl (encCLS f3 imm r1 r2) = creg r2 ∧
    IP.cImmMem (encCLS f3 imm r1 r2) = imm.setWidth 32 ∧
    IP.toRvc (encCLS f3 imm r1 r2) = encCLS f3 imm r1 r2 := by
  have b0 : imm[0] = false := by simpa using congrArg (fun x => x.getLsbD 0) h0
  have b1 : imm[1] = false := by simpa using congrArg (fun x => x.getLsbD 1) h0
  rw [creg_eq, creg_eq]
  refine ⟨?_, ?_, ?_, ?_, ?_, ?_⟩
  · fields [IP.copcode, encCLS]
  · fields [IP.cFunct3, encCLS]
  · fields [IP.cRegh, encCLS]
  · fields [IP.cRegl, encCLS]
  · fields [IP.cImmMem, encCLS, b0, b1]
  · fields [IP.toRvc, encCLS]

/-- **C05, CB branches** -/
theorem decode_CB (f3 : BitVec 3) (off : BitVec 9) (h0 : off.getLsbD 0 = false) (r : BitVec 3) :
    IP.copcode (encCB f3 off r) = 1#2 ∧ IP.cFunct3 (encCB f3 off r) = f3 ∧
    IP.cRegh (encCB f3 off r) = creg r ∧ IP.cImmB (encCB f3 off r) = off.signExtend 32 ∧
    IP.toRvc (encCB f3 off r) = encCB f3 off r := by
  rw [BitVec.getLsbD_eq_getElem (by decide)] at h0
  rw [creg_eq]
  refine ⟨?_, ?_, ?_, ?_, ?_⟩
  · fields [IP.copcode, encCB]
  · fields [IP.cFunct3, encCB]
  · fields [IP.cRegh, encCB]
  · sfields [IP.cImmB] [encCB, h0]
  · fields [IP.toRvc, encCB]

/-- **C05, CB arithmetic** (C.SRLI, C.SRAI, C.ANDI) -/
theorem decode_CBA (f2 : BitVec 2) (imm : BitVec 6) (r : BitVec 3) :
    IP.copcode (encCBA f2 imm r) = 1#2 ∧ IP.cFunct3 (encCBA f2 imm r) = 4#3 ∧
    IP.cFunct2h (encCBA f2 imm r) = f2 ∧ IP.cRegh (encCBA f2 imm r) = creg r ∧
    IP.cImmArith (encCBA f2 imm r) = imm.signExtend 32 ∧
    IP.toRvc (encCBA f2 imm r) = encCBA f2 imm r := by
  rw [creg_eq]
  refine ⟨?_, ?_, ?_, ?_, ?_, ?_⟩
  · fields [IP.copcode, encCBA]
  · fields [IP.cFunct3, encCBA]
  · fields [IP.cFunct2h, encCBA]
  · fields [IP.cRegh, encCBA]
  · sfields [IP.cImmArith] [encCBA]
  · fields [IP.toRvc, encCBA]

/-- **C05, CA** -/
theorem decode_CA (f6 : BitVec 6) (r1 : BitVec 3) (f2 : BitVec 2) (r2 : BitVec 3) :
    IP.copcode (encCA f6 r1 f2 r2) = 1#2 ∧ IP.cFunct6 (encCA f6 r1 f2 r2) = f6 ∧
    IP.cFunct2l (encCA f6 r1 f2 r2) = f2 ∧ IP.cRegh (encCA f6 r1 f2 r2) = creg r1 ∧
    IP.cRegl (encCA f6 r1 f2 r2) = creg r2 ∧
    IP.cFunct3 (encCA f6 r1 f2 r2) = f6.extractLsb' 3 3 ∧
    IP.cFunct2h (encCA f6 r1 f2 r2) = f6.extractLsb' 0 2 ∧
    IP.toRvc (encCA f6 r1 f2 r2) = encCA f6 r1 f2 r2 := by
  rw [creg_eq, creg_eq]
  refine ⟨?_, ?_, ?_, ?_, ?_, ?_, ?_, ?_⟩
  · fields [IP.copcode, encCA]
  · fields [IP.cFunct6, encCA]
  · fields [IP.cFunct2l, encCA]
  · fields [IP.cRegh, encCA]
  · fields [IP.cRegl, encCA]
  · fields [IP.cFunct3, encCA]
  · fields [IP.cFunct2h, encCA]
  · fields [IP.toRvc, encCA]

set_option maxHeartbeats 1000000 in
/-- **C05, CJ** -/
theorem decode_CJ (f3 : BitVec 3) (off : BitVec 12) (h0 : off.getLsbD 0 = false) :
    IP.copcode (encCJ f3 off) = 1#2 ∧ IP.cFunct3 (encCJ f3 off) = f3 ∧
    IP.cImmJ (encCJ f3 off) = off.signExtend 32 ∧ IP.toRvc (encCJ f3 off) = encCJ f3 off := by
  rw [BitVec.getLsbD_eq_getElem (by decide)] at h0
  refine ⟨?_, ?_, ?_, ?_⟩
  · fields [IP.copcode, encCJ]
  · fields [IP.cFunct3, encCJ]
  · sfields [IP.cImmJ] [encCJ, h0]
  · fields [IP.toRvc, encCJ]

/-- **C05, CR** -/
theorem decode_CR (f4 : BitVec 4) (rd rs2 : BitVec 5) :
    IP.copcode (encCR f4 rd rs2) = 2#2 ∧ IP.cFunct4 (encCR f4 rd rs2) = f4 ∧
    IP.cFunct3 (encCR f4 rd rs2) = f4.extractLsb' 1 3 ∧
    IP.rd (encCR f4 rd rs2) = rd ∧ IP.cRs2 (encCR f4 rd rs2) = rs2 ∧
    IP.toRvc (encCR f4 rd rs2) = encCR f4 rd rs2 := by
  refine ⟨?_, ?_, ?_, ?_, ?_, ?_⟩
  · fields [IP.copcode, encCR]
  · fields [IP.cFunct4, encCR]
  · fields [IP.cFunct3, encCR]
  · fields [IP.rd, encCR]
  · fields [IP.cRs2, encCR]
  · fields [IP.toRvc, encCR]

example : IP.cImm16sp (encAddi16sp 0x3f0#10) = 0xfffffff0#32 := by decide
example : IP.cImmJ (encCJ 5#3 0x802#12) = 0xfffff802#32 := by decide

end Ama
