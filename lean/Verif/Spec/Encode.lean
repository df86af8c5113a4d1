import Verif.Model.Alu
/-!
# Instruction formats of the RISC-V unprivileged manual

Encoders written from the format diagrams of the manual (chapters "RV32I" and "C").
Immediates are given as the number that the assembly programmer writes, at its natural
width: 12 bits (I, S), 13 bits with bit 0 = 0 (B), 21 bits with bit 0 = 0 (J), 20 bits (U).
-/
namespace Ama.Spec

/-- place a field at bit position `k` -/
def fld {n : Nat} (x : BitVec n) (k : Nat) : W := x.setWidth 32 <<< k

/-- R-type -/
def encR (f7 : BitVec 7) (rs2 rs1 : BitVec 5) (f3 : BitVec 3) (rd : BitVec 5) (op : BitVec 7) : W :=
  fld f7 25 ||| fld rs2 20 ||| fld rs1 15 ||| fld f3 12 ||| fld rd 7 ||| fld op 0
/-- I-type -/
def encI (imm : BitVec 12) (rs1 : BitVec 5) (f3 : BitVec 3) (rd : BitVec 5) (op : BitVec 7) : W :=
  fld imm 20 ||| fld rs1 15 ||| fld f3 12 ||| fld rd 7 ||| fld op 0
/-- S-type: imm[11:5] | rs2 | rs1 | funct3 | imm[4:0] | opcode -/
def encS (imm : BitVec 12) (rs2 rs1 : BitVec 5) (f3 : BitVec 3) (op : BitVec 7) : W :=
  fld (imm.extractLsb' 5 7) 25 ||| fld rs2 20 ||| fld rs1 15 ||| fld f3 12 |||
  fld (imm.extractLsb' 0 5) 7 ||| fld op 0
/-- B-type: imm[12|10:5] | rs2 | rs1 | funct3 | imm[4:1|11] | opcode -/
def encB (imm : BitVec 13) (rs2 rs1 : BitVec 5) (f3 : BitVec 3) (op : BitVec 7) : W :=
  fld (imm.extractLsb' 12 1) 31 ||| fld (imm.extractLsb' 5 6) 25 ||| fld rs2 20 ||| fld rs1 15 |||
  fld f3 12 ||| fld (imm.extractLsb' 1 4) 8 ||| fld (imm.extractLsb' 11 1) 7 ||| fld op 0
/-- U-type -/
def encU (imm : BitVec 20) (rd : BitVec 5) (op : BitVec 7) : W :=
  fld imm 12 ||| fld rd 7 ||| fld op 0
/-- J-type: imm[20|10:1|11|19:12] | rd | opcode -/
def encJ (imm : BitVec 21) (rd : BitVec 5) (op : BitVec 7) : W :=
  fld (imm.extractLsb' 20 1) 31 ||| fld (imm.extractLsb' 1 10) 21 ||| fld (imm.extractLsb' 11 1) 20 |||
  fld (imm.extractLsb' 12 8) 12 ||| fld rd 7 ||| fld op 0

/-! Compressed formats. `r'` are the three-bit register fields (x8..x15). -/

/-- register named by a three-bit compressed field: "x8 to x15" -/
def creg (r : BitVec 3) : BitVec 5 := r.setWidth 5 + 8#5

/-- CI: funct3 | imm[5] | rd | imm[4:0] | op -/
def encCI (f3 : BitVec 3) (imm : BitVec 6) (rd : BitVec 5) (op : BitVec 2) : W :=
  fld f3 13 ||| fld (imm.extractLsb' 5 1) 12 ||| fld rd 7 ||| fld (imm.extractLsb' 0 5) 2 ||| fld op 0
/-- C.ADDI16SP: 011 | nzimm[9] | 2 | nzimm[4|6|8:7|5] | 01 -/
def encAddi16sp (imm : BitVec 10) : W :=
  fld 3#3 13 ||| fld (imm.extractLsb' 9 1) 12 ||| fld 2#5 7 ||| fld (imm.extractLsb' 4 1) 6 |||
  fld (imm.extractLsb' 6 1) 5 ||| fld (imm.extractLsb' 7 2) 3 ||| fld (imm.extractLsb' 5 1) 2 |||
  fld 1#2 0
/-- C.LWSP: 010 | uimm[5] | rd | uimm[4:2|7:6] | 10 -/
def encLwsp (imm : BitVec 8) (rd : BitVec 5) : W :=
  fld 2#3 13 ||| fld (imm.extractLsb' 5 1) 12 ||| fld rd 7 ||| fld (imm.extractLsb' 2 3) 4 |||
  fld (imm.extractLsb' 6 2) 2 ||| fld 2#2 0
/-- C.SWSP: 110 | uimm[5:2|7:6] | rs2 | 10 -/
def encSwsp (imm : BitVec 8) (rs2 : BitVec 5) : W :=
  fld 6#3 13 ||| fld (imm.extractLsb' 2 4) 9 ||| fld (imm.extractLsb' 6 2) 7 ||| fld rs2 2 |||
  fld 2#2 0
/-- CIW, C.ADDI4SPN: 000 | nzuimm[5:4|9:6|2|3] | rd' | 00 -/
def encAddi4spn (imm : BitVec 10) (rd' : BitVec 3) : W :=
  fld (imm.extractLsb' 4 2) 11 ||| fld (imm.extractLsb' 6 4) 7 ||| fld (imm.extractLsb' 2 1) 6 |||
  fld (imm.extractLsb' 3 1) 5 ||| fld rd' 2
/-- CL/CS for words: funct3 | uimm[5:3] | rs1' | uimm[2|6] | rd'/rs2' | op -/
def encCLS (f3 : BitVec 3) (imm : BitVec 7) (rs1' r' : BitVec 3) : W :=
  fld f3 13 ||| fld (imm.extractLsb' 3 3) 10 ||| fld rs1' 7 ||| fld (imm.extractLsb' 2 1) 6 |||
  fld (imm.extractLsb' 6 1) 5 ||| fld r' 2
/-- CB branches: funct3 | offset[8|4:3] | rs1' | offset[7:6|2:1|5] | 01 -/
def encCB (f3 : BitVec 3) (off : BitVec 9) (rs1' : BitVec 3) : W :=
  fld f3 13 ||| fld (off.extractLsb' 8 1) 12 ||| fld (off.extractLsb' 3 2) 10 ||| fld rs1' 7 |||
  fld (off.extractLsb' 6 2) 5 ||| fld (off.extractLsb' 1 2) 3 ||| fld (off.extractLsb' 5 1) 2 |||
  fld 1#2 0
/-- CB arithmetic: 100 | imm[5] | funct2 | rd' | imm[4:0] | 01 -/
def encCBA (f2 : BitVec 2) (imm : BitVec 6) (rd' : BitVec 3) : W :=
  fld 4#3 13 ||| fld (imm.extractLsb' 5 1) 12 ||| fld f2 10 ||| fld rd' 7 |||
  fld (imm.extractLsb' 0 5) 2 ||| fld 1#2 0
/-- CA: funct6 | rd' | funct2 | rs2' | 01 -/
def encCA (f6 : BitVec 6) (rd' : BitVec 3) (f2 : BitVec 2) (rs2' : BitVec 3) : W :=
  fld f6 10 ||| fld rd' 7 ||| fld f2 5 ||| fld rs2' 2 ||| fld 1#2 0
/-- CJ: funct3 | offset[11|4|9:8|10|6|7|3:1|5] | 01 -/
def encCJ (f3 : BitVec 3) (off : BitVec 12) : W :=
  fld f3 13 ||| fld (off.extractLsb' 11 1) 12 ||| fld (off.extractLsb' 4 1) 11 |||
  fld (off.extractLsb' 8 2) 9 ||| fld (off.extractLsb' 10 1) 8 ||| fld (off.extractLsb' 6 1) 7 |||
  fld (off.extractLsb' 7 1) 6 ||| fld (off.extractLsb' 1 3) 3 ||| fld (off.extractLsb' 5 1) 2 |||
  fld 1#2 0
/-- CR: funct4 | rd/rs1 | rs2 | 10 -/
def encCR (f4 : BitVec 4) (rd rs2 : BitVec 5) : W :=
  fld f4 12 ||| fld rd 7 ||| fld rs2 2 ||| fld 2#2 0

end Ama.Spec
