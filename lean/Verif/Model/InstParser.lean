import Verif.Model.Basic
/-!
# Instruction field extraction

Model of `/repo/src/inst_parser.h` (class `inst_parser`) with the masks of
`/repo/src/defines.h:53-103`.  The C++ functions return `uint32_t`; here a field
of n bits is returned as a `BitVec n` (the mask makes the upper bits zero) so that
register numbers index the register file without a bounds check.
-/
namespace Ama.IP

/-- inst_parser.h:11-14 `to_rvc` -/
def toRvc (i : W) : W := i &&& 0xffff#32
/-- inst_parser.h:16 -/
def copcode (w : W) : BitVec 2 := (w &&& 0x3#32).setWidth 2
/-- inst_parser.h:17 -/
def opcode (w : W) : BitVec 7 := (w &&& 0x7f#32).setWidth 7
/-- inst_parser.h:18 -/
def funct7 (w : W) : BitVec 7 := ((w &&& 0xfe000000#32) >>> 25).setWidth 7
/-- inst_parser.h:19 -/
def funct7b5 (w : W) : BitVec 1 := ((w &&& 0x40000000#32) >>> 30).setWidth 1
/-- inst_parser.h:21 -/
def funct3 (w : W) : BitVec 3 := ((w &&& 0x7000#32) >>> 12).setWidth 3
/-- inst_parser.h:22 -/
def cFunct2h (w : W) : BitVec 2 := ((w &&& 0xc00#32) >>> 10).setWidth 2
/-- inst_parser.h:23 -/
def cFunct2l (w : W) : BitVec 2 := ((w &&& 0x60#32) >>> 5).setWidth 2
/-- inst_parser.h:24; the mask has bits 15:13, the word is 16 bits wide here -/
def cFunct3 (w : W) : BitVec 3 := ((w &&& 0xe000#32) >>> 13).setWidth 3
/-- inst_parser.h:25 -/
def cFunct4 (w : W) : BitVec 4 := ((w &&& 0xf000#32) >>> 12).setWidth 4
/-- inst_parser.h:26 -/
def cFunct6 (w : W) : BitVec 6 := ((w &&& 0xfc00#32) >>> 10).setWidth 6
/-- inst_parser.h:28 -/
def rd (w : W) : BitVec 5 := ((w &&& 0xf80#32) >>> 7).setWidth 5
/-- inst_parser.h:29 -/
def rs1 (w : W) : BitVec 5 := ((w &&& 0xf8000#32) >>> 15).setWidth 5
/-- inst_parser.h:30 -/
def rs2 (w : W) : BitVec 5 := ((w &&& 0x1f00000#32) >>> 20).setWidth 5
/-- inst_parser.h:31 -/
def cRs2 (w : W) : BitVec 5 := ((w &&& 0x7c#32) >>> 2).setWidth 5
/-- inst_parser.h:32 -/
def cRegh (w : W) : BitVec 5 := (0x8#32 ||| ((w &&& 0x380#32) >>> 7)).setWidth 5
/-- inst_parser.h:33 -/
def cRegl (w : W) : BitVec 5 := (0x8#32 ||| ((w &&& 0x1c#32) >>> 2)).setWidth 5
/-- inst_parser.h:35 -/
def immI (w : W) : W := (w &&& 0xfff00000#32).sshiftRight 20
/-- inst_parser.h:36 -/
def immIShamt (w : W) : W := (w &&& 0x1f00000#32) >>> 20
/-- inst_parser.h:37; callers truncate to `uint16_t` -/
def csrAddr (w : W) : BitVec 16 := ((w &&& 0xfff00000#32) >>> 20).setWidth 16
/-- inst_parser.h:38 -/
def uimmCsr (w : W) : W := (w &&& 0xf8000#32) >>> 15
/-- inst_parser.h:39-45 -/
def immS (w : W) : W :=
  (w &&& 0xfe000000#32).sshiftRight 20 ||| ((w &&& 0xf00#32) >>> 7) ||| ((w &&& 0x80#32) >>> 7)
/-- inst_parser.h:47-54 -/
def immB (w : W) : W :=
  (w &&& 0x80000000#32).sshiftRight 19 ||| ((w &&& 0x80#32) <<< 4) |||
  ((w &&& 0x7e000000#32) >>> 20) ||| ((w &&& 0xf00#32) >>> 7)
/-- inst_parser.h:56-64 -/
def immJ (w : W) : W :=
  (w &&& 0x80000000#32).sshiftRight 11 ||| (w &&& 0xff000#32) ||| ((w &&& 0x100000#32) >>> 9) |||
  ((w &&& 0x7e000000#32) >>> 20) ||| ((w &&& 0x1e00000#32) >>> 20)
/-- inst_parser.h:66-68 -/
def immU (w : W) : W := (w &&& 0xfff00000#32) ||| (w &&& 0xff000#32)
/-- inst_parser.h:70-74 -/
def cImmArith (w : W) : W :=
  ((w <<< 19).sshiftRight 26 &&& 0xffffffe0#32) ||| ((w &&& 0x7c#32) >>> 2)
/-- inst_parser.h:76-80 -/
def cImmSlli (w : W) : W := ((w &&& 0x1000#32) >>> 7) ||| ((w &&& 0x7c#32) >>> 2)
/-- inst_parser.h:82-86 -/
def cImmLui (w : W) : W :=
  ((w <<< 19).sshiftRight 14 &&& 0xfffe0000#32) ||| ((w &&& 0x7c#32) <<< 10)
/-- inst_parser.h:88-95 -/
def cImm16sp (w : W) : W :=
  ((w <<< 19).sshiftRight 22 &&& 0xfffffe00#32) ||| ((w &&& 0x18#32) <<< 4) |||
  ((w &&& 0x20#32) <<< 1) ||| ((w &&& 0x4#32) <<< 3) ||| ((w &&& 0x40#32) >>> 2)
/-- inst_parser.h:97-105 -/
def cImmB (w : W) : W :=
  let ic := w &&& 0xffff#32
  ((ic <<< 19).sshiftRight 23 &&& 0xffffff00#32) ||| ((ic &&& 0x60#32) <<< 1) |||
  ((ic &&& 0x4#32) <<< 3) ||| ((ic &&& 0xc00#32) >>> 7) ||| ((ic &&& 0x18#32) >>> 2)
/-- inst_parser.h:107-122 -/
def cImmJ (w : W) : W :=
  ((w <<< 19).sshiftRight 20 &&& 0xfffff800#32) ||| ((w &&& 0x100#32) <<< 2) |||
  ((w &&& 0x600#32) >>> 1) ||| ((w &&& 0x40#32) <<< 1) ||| ((w &&& 0x80#32) >>> 1) |||
  ((w &&& 0x4#32) <<< 3) ||| ((w &&& 0x800#32) >>> 7) ||| ((w &&& 0x38#32) >>> 2)
/-- inst_parser.h:124-130 -/
def cImm4spn (w : W) : W :=
  ((w &&& 0x780#32) >>> 1) ||| ((w &&& 0x1800#32) >>> 7) ||| ((w &&& 0x20#32) >>> 2) |||
  ((w &&& 0x40#32) >>> 4)
/-- inst_parser.h:132-137; the `uint8_t` locals hold bits 6:2 only, nothing is lost -/
def cImmMem (w : W) : W :=
  ((w &&& 0x20#32) <<< 1) ||| ((w &&& 0x1c00#32) >>> 7) ||| ((w &&& 0x40#32) >>> 4)
/-- inst_parser.h:139-144 -/
def cImmLwsp (w : W) : W :=
  ((w &&& 0xc#32) <<< 4) ||| ((w &&& 0x1000#32) >>> 7) ||| ((w &&& 0x70#32) >>> 2)
/-- inst_parser.h:146-150 -/
def cImmSwsp (w : W) : W := ((w &&& 0x180#32) >>> 1) ||| ((w &&& 0x1e00#32) >>> 7)

end Ama.IP
