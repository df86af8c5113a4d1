import Verif.Model.Core
/-!
# The execution log

Model of the disassembly text (`DASM_EN`): the stream `dasm.asm_ss` with its sticky formatting
flags, the `DASM_*` macros of `/repo/src/defines.h`, their uses in `core.cpp` and
`core_exec_c.cpp`, and `core::log_inst`.

Simplified: the wording of a trap (`trap.cpp`) is the parameter `msg`; the lane values that the
SIMD operations add at the end of a record (`dasm_simd.cpp`) are the parameter `simd`
(modelled in `Model/SimdText`); what the hardware models add to a line (`hwmi`, only with `log_hw_models`) is left out.
-/
namespace Ama.Dasm
open M
variable {σ : Type}

/-- types.h:511-527 `dasm_str` and core.h:60 `inst_w`: the text of `asm_ss`, the formatting state of
the stream ([ios.base]: adjustment, base, fill and width persist until set again, except that the width is
reset to 0 by each output), the last operation name -/
structure DS where
  text : List Char
  left : Bool
  hex : Bool
  fill : Char
  width : Nat
  op : List Char
  instW : Nat

/-- a freshly constructed stream; core.h:60 -/
def DS.init : DS := ⟨[], false, false, ' ', 0, [], 8⟩

/-- one `<<` -/
abbrev P := DS → DS
/-- a chain of `<<` -/
def run (ps : List P) (d : DS) : DS := ps.foldl (fun d p => p d) d

/-- formatted output of a sequence of characters: padded to the width on the side away from the adjustment
(not `left` means right); the width is reset -/
def str (t : List Char) : P := fun d =>
  let pad := List.replicate (d.width - t.length) d.fill
  { d with text := d.text ++ (if d.left then t ++ pad else pad ++ t), width := 0 }
/-- a string literal -/
def lit (s : String) : P := str s.toList
/-- `std::setw(n)` (a negative width pads nothing) -/
def setw (n : Int) : P := fun d => { d with width := n.toNat }
/-- `std::setfill(c)`, used by defines.h:406-435 -/
def setfill (c : Char) : P := fun d => { d with fill := c }
/-- `std::hex`, used by defines.h:406-435 -/
def hex : P := fun d => { d with hex := true }
/-- `std::dec`, used by defines.h:406-435 -/
def dec : P := fun d => { d with hex := false }
/-- `std::left`, used by defines.h:419-435 -/
def left : P := fun d => { d with left := true }
/-- `std::right`, used by defines.h:424-435 -/
def right : P := fun d => { d with left := false }
/-- `<< uint32_t` -/
def u32 (v : W) : P := fun d => str (Nat.toDigits (if d.hex then 16 else 10) v.toNat) d
/-- `<< int32_t`; in base 16 the value is printed as an unsigned number -/
def i32 (v : W) : P := fun d =>
  str (if d.hex then Nat.toDigits 16 v.toNat
    else if v.msb then '-' :: Nat.toDigits 10 (2 ^ 32 - v.toNat)
    else Nat.toDigits 10 v.toNat) d
/-- `<< uint16_t` (promoted to an integer) -/
def u16 (v : BitVec 16) : P := u32 (v.setWidth 32)

/-- types.h:524-527 `clear_str`; `str("")` leaves the formatting state alone -/
def clear : P := fun d => { d with text := [] }
/-- defines.h:447 `DASM_OP` -/
def setOp (s : List Char) : P := fun d => { d with op := s }
/-- `<< dasm.op` -/
def putOp : P := fun d => str d.op d
/-- defines.h:536-540 `INST_HEX_W` -/
def setInstW (n : Nat) : P := fun d => { d with instW := n }

/-- core.h:519-552 `rf_names` -/
def rfNames : List (String × String) :=
  [("x0", "zero"), ("x1", "ra"), ("x2", "sp"), ("x3", "gp"), ("x4", "tp"), ("x5", "t0"), ("x6", "t1"),
   ("x7", "t2"), ("x8", "s0"), ("x9", "s1"), ("x10", "a0"), ("x11", "a1"), ("x12", "a2"), ("x13", "a3"),
   ("x14", "a4"), ("x15", "a5"), ("x16", "a6"), ("x17", "a7"), ("x18", "s2"), ("x19", "s3"),
   ("x20", "s4"), ("x21", "s5"), ("x22", "s6"), ("x23", "s7"), ("x24", "s8"), ("x25", "s9"),
   ("x26", "s10"), ("x27", "s11"), ("x28", "t3"), ("x29", "t4"), ("x30", "t5"), ("x31", "t6")]
/-- `rf_names[r][rf_names_idx]`, core.cpp:21 -/
def rfName (abi : Bool) (r : BitVec 5) : List Char :=
  let p := rfNames.getD r.toNat ("", "")
  (if abi then p.2 else p.1).toList
/-- core.cpp:22 `rf_names_w` -/
def rfNamesW (abi : Bool) : Nat := if abi then 4 else 3

/-- names of a block of numbered counters, `base` n … -/
def numbered (base suffix : String) (addr first n : Nat) : List (BitVec 16 × List Char) :=
  (List.range n).map fun i =>
    (BitVec.ofNat 16 (addr + i), base.toList ++ Nat.toDigits 10 (first + i) ++ suffix.toList)
/-- csrs.h:287-297 and 299-489: the `name` of each entry of `supported_csrs`; the numbered blocks are written as
ranges -/
def csrNames : List (BitVec 16 × List Char) :=
  [(0x51E#16, "tohost".toList), (0xF11#16, "mvendorid".toList), (0xF12#16, "marchid".toList),
   (0xF13#16, "mimpid".toList), (0xF14#16, "mhartid".toList), (0xF15#16, "mconfigptr".toList),
   (0x300#16, "mstatus".toList), (0x310#16, "mstatush".toList), (0x301#16, "misa".toList),
   (0x304#16, "mie".toList), (0x305#16, "mtvec".toList), (0x340#16, "mscratch".toList),
   (0x341#16, "mepc".toList), (0x342#16, "mcause".toList), (0x343#16, "mtval".toList),
   (0x344#16, "mip".toList), (0xB00#16, "mcycle".toList), (0xB02#16, "minstret".toList),
   (0xB80#16, "mcycleh".toList), (0xB82#16, "minstreth".toList)]
  ++ numbered "mhpmcounter" "" 0xB03 3 29 ++ numbered "mhpmcounter" "h" 0xB83 3 29
  ++ [(0x320#16, "mcountinhibit".toList)] ++ numbered "mhpmevent" "" 0x323 3 29
  ++ [(0xC00#16, "cycle".toList), (0xC01#16, "time".toList), (0xC02#16, "instret".toList),
      (0xC80#16, "cycleh".toList), (0xC81#16, "timeh".toList), (0xC82#16, "instreth".toList)]
  ++ numbered "hpmcounter" "" 0xC03 3 29 ++ numbered "hpmcounter" "h" 0xC83 3 29
/-- `csr.at(addr).name` (an address without an entry has been rejected before) -/
def csrNm (a : BitVec 16) : List Char :=
  match csrNames.find? fun p => p.1 == a with
  | some p => p.2
  | none => []
/-- core.cpp:78-84 `csr_names_w`: the longest name -/
def csrNamesW : Nat := 14

/-- What the text of one executed instruction is made from: the naming mode, the instruction word (of a
compressed instruction, its low half), its `pc`, the registers before and after, the CSRs after, whether it
trapped and the text of the trap. -/
structure Rec where
  abi : Bool
  w : W
  pc : W
  rf0 : BitVec 5 → W
  rf1 : BitVec 5 → W
  csr1 : BitVec 16 → W
  trapped : Bool
  msg : List Char

/-- trap.cpp:3-5 `DASM_PTR_TRAP` and the rest of the message; trap.cpp leaves the adjustment alone, ends in base 10
with no width pending, and every later padded output sets its own fill -/
def trap (msg : List Char) : P := fun d => { d with text := msg, hex := false, width := 0 }

/-- a register name -/
def nm (r : Rec) (i : BitVec 5) : P := str (rfName r.abi i)

/-- defines.h:471-473 `DASM_ALIGN` -/
def align : P := fun d =>
  run [setw (38 - (d.instW : Int) - (d.text.length : Int)), setfill ' ', lit "  "] d
/-- defines.h:416-417 `FHEXZ` -/
def fhexz (v : W) (n : Int) : List P := [lit "0x", setw n, setfill '0', hex, u32 v, dec]
/-- defines.h:419-421 `FHEXN`; the adjustment stays `left` -/
def fhexn (v : W) (n : Int) : List P := [lit "0x", left, setw n, setfill ' ', hex, u32 v, dec]
/-- defines.h:424-427 `FRF` -/
def frf (r : Rec) (i : BitVec 5) : List P :=
  [left, setw (rfNamesW r.abi), setfill ' ', nm r i, lit ": 0x", right, setw 8, setfill '0', hex,
   u32 (r.rf1 i), dec]
/-- defines.h:430-435 `CSRF` -/
def csrf (r : Rec) (a : BitVec 16) : List P :=
  [hex, lit "0x", setw 4, setfill '0', u16 a, lit " ", left, setw csrNamesW, setfill ' ', str (csrNm a),
   lit ": 0x", right, setw 8, setfill '0', u32 (r.csr1 a), dec, setfill ' ']
/-- defines.h:406-408 `MEM_ADDR_FORMAT` (`mem_addr_bitwidth` = 8, types.h:64) -/
def memAddr (a : W) : List P := [setw 8, setfill '0', hex, u32 a, dec]

/-- defines.h:476-477 `DASM_RD_UPDATE_P` -/
def rdUpdateP (r : Rec) (i : BitVec 5) : List P := if i = 0#5 then [] else align :: frf r i
/-- defines.h:480-483 `DASM_RD_UPDATE` -/
def rdUpdate (r : Rec) : List P := rdUpdateP r (IP.rd r.w)
/-- defines.h:485-491 `DASM_RD_UPDATE_PAIR` (rd = 31 is out of bounds and ended in `write_rf_pair` before) -/
def rdUpdatePair (r : Rec) : List P :=
  if IP.rd r.w = 0#5 then [] else lit ", " :: rdUpdateP r (IP.rd r.w + 1#5)

/-- defines.h:493-505 `dasm_ascii_hint` (uart0 rx and tx data, types.h:37-39) -/
def asciiHint (v addr : W) : List Char :=
  if addr ≠ 0x10013008#32 ∧ addr ≠ 0x10013004#32 then []
  else if 0x20#32 ≤ v ∧ v ≤ 0x7e#32 then " # '".toList ++ [Char.ofNat v.toNat] ++ ['\'']
  else if v = 10#32 then " # '\\n'".toList
  else if v = 13#32 then " # '\\r'".toList
  else if v = 9#32 then " # '\\t'".toList
  else []
/-- defines.h:508-514 `DASM_MEM_UPDATE_P` -/
def memUpdateP (r : Rec) (addr : W) (rs : BitVec 5) : List P :=
  [align, lit "mem["] ++ memAddr addr ++ [lit "] <- ", nm r rs, lit " ("] ++ fhexz (r.rf1 rs) 8
  ++ [lit ")", str (asciiHint (r.rf1 rs) addr)]
/-- defines.h:517-518 `DASM_MEM_UPDATE` -/
def memUpdate (r : Rec) : List P :=
  memUpdateP r (r.rf1 (IP.rs1 r.w) + IP.immS r.w) (IP.rs2 r.w)

/-- defines.h:459-460 `DASM_OP_RD` -/
def opRd (r : Rec) : List P := [putOp, lit " ", nm r (IP.rd r.w)]
/-- defines.h:465-466 `DASM_OP_CREGH` -/
def opCregh (r : Rec) : List P := [putOp, lit " ", nm r (IP.cRegh r.w)]
/-- the message of a trap, if there was one -/
def trapIf (r : Rec) : List P := if r.trapped then [trap r.msg] else []

/-- `DASM_OP(op)` in the `CASE_ALU_REG_*` macros, core.cpp:476-510 -/
def aluText : AluOp → String
  | .add => "add" | .sub => "sub" | .sll => "sll" | .slt => "slt" | .sltu => "sltu" | .xor => "xor"
  | .srl => "srl" | .sra => "sra" | .or => "or" | .and => "and" | .mul => "mul" | .mulh => "mulh"
  | .mulhsu => "mulhsu" | .mulhu => "mulhu" | .div => "div" | .divu => "divu" | .rem => "rem"
  | .remu => "remu" | .min => "min" | .minu => "minu" | .max => "max" | .maxu => "maxu"
/-- `CASE_ALU_IMM_OP`, core.cpp:526-534 -/
def aluImmText : AluImmOp → String
  | .addi => "addi" | .slli => "slli" | .srli => "srli" | .srai => "srai" | .slti => "slti"
  | .sltiu => "sltiu" | .xori => "xori" | .ori => "ori" | .andi => "andi"
/-- `CASE_LOAD`, core.cpp:556-560 -/
def loadText : LoadOp → String
  | .lb => "lb" | .lh => "lh" | .lw => "lw" | .lbu => "lbu" | .lhu => "lhu"
/-- `CASE_STORE`, core.cpp:583-585 -/
def storeText : StoreOp → String
  | .sb => "sb" | .sh => "sh" | .sw => "sw"
/-- `CASE_BRANCH`, core.cpp:605-610 -/
def branchText : BranchOp → String
  | .beq => "beq" | .bne => "bne" | .blt => "blt" | .bge => "bge" | .bltu => "bltu" | .bgeu => "bgeu"
/-- `CASE_CSR`, `CASE_CSR_I`, core.cpp:1073-1078 -/
def csrText : CsrOp → String
  | .rw => "csrrw" | .rs => "csrrs" | .rc => "csrrc" | .rwi => "csrrwi" | .rsi => "csrrsi" | .rci => "csrrci"

/-- core.cpp:514-517, `d_alu_reg` -/
def tAluReg (r : Rec) : List P :=
  match aluRegSel (IP.funct7 r.w) (IP.funct3 r.w) with
  | none => [trap r.msg]
  | some op => setOp (aluText op).toList :: opRd r ++
      [lit ",", nm r (IP.rs1 r.w), lit ",", nm r (IP.rs2 r.w)] ++ rdUpdate r

/-- core.cpp:538-547, `d_alu_imm` -/
def tAluImm (r : Rec) : List P :=
  match aluImmSel (IP.funct7b5 r.w) (IP.funct3 r.w) with
  | none => [trap r.msg]
  | some op => setOp (aluImmText op).toList :: opRd r ++ [lit ",", nm r (IP.rs1 r.w), lit ","] ++
      (if IP.funct3 r.w = 1#3 ∨ IP.funct3 r.w = 5#3 then fhexn (IP.immIShamt r.w) 2
       else [i32 (IP.immI r.w)]) ++ rdUpdate r ++
      (if r.w = 0x13#32 then [clear, lit "nop"] else [])

/-- core.cpp:570-577, `d_load`: a trapped load returns before -/
def tLoad (r : Rec) : List P :=
  match loadSel (IP.funct3 r.w) with
  | none => [trap r.msg]
  | some op =>
    if r.trapped then [trap r.msg]
    else setOp (loadText op).toList :: opRd r ++
      [lit ",", i32 (IP.immI r.w), lit "(", nm r (IP.rs1 r.w), lit ")"] ++ rdUpdate r ++
      (if IP.rd r.w = 0#5 then []
       else lit " <- mem[" :: memAddr (IP.immI r.w + r.rf0 (IP.rs1 r.w)) ++ [lit "]"])

/-- core.cpp:593-597, `d_store`: an unknown width traps and falls through to the text with the operation name of an
earlier instruction -/
def tStore (r : Rec) : List P :=
  let body := [putOp, lit " ", nm r (IP.rs2 r.w), lit ",", i32 (IP.immS r.w), lit "(",
    nm r (IP.rs1 r.w), lit ")"] ++ memUpdate r
  match storeSel (IP.funct3 r.w) with
  | none => trap r.msg :: body
  | some op => if r.trapped then [trap r.msg] else setOp (storeText op).toList :: body

/-- core.cpp:629-632, `d_branch`: a misaligned target returns before; an unknown condition traps and falls through.
Simplified: with the hardware models, the fetch of the predicted target can trap after the text. -/
def tBranch (r : Rec) : List P :=
  let body := [putOp, lit " ", nm r (IP.rs1 r.w), lit ",", nm r (IP.rs2 r.w), lit ",", hex,
    u32 (r.pc + IP.immB r.w), dec]
  match branchSel (IP.funct3 r.w) with
  | none => trap r.msg :: body
  | some op => if r.trapped then [setOp (branchText op).toList, trap r.msg]
      else setOp (branchText op).toList :: body

/-- core.cpp:698-702, `d_jalr`: traps fall through -/
def tJalr (r : Rec) : List P :=
  trapIf r ++ setOp "jalr".toList :: opRd r ++
    [lit ",", i32 (IP.immI r.w), lit "(", nm r (IP.rs1 r.w), lit ")"] ++
    (if r.w = 0x8067#32 ∨ r.w = 0x28067#32 then [lit " # ret"] else []) ++ rdUpdate r

/-- core.cpp:719-722, `d_jal`: traps fall through -/
def tJal (r : Rec) : List P :=
  trapIf r ++ setOp "jal".toList :: opRd r ++ [lit ",", hex, u32 (r.pc + IP.immJ r.w), dec] ++ rdUpdate r

/-- core.cpp:731-734 and 743-746, `d_lui`, `d_auipc` -/
def tUpper (r : Rec) (op : String) : List P :=
  setOp op.toList :: opRd r ++ [lit ", "] ++ fhexn (IP.immU r.w >>> 12) 5 ++ rdUpdate r

/-- core.cpp:1049-1094, `d_csr_access`, with `DASM_CSR_REG`/`DASM_CSR_IMM` (defines.h:449-457) -/
def tCsr (rv32c : Bool) (r : Rec) : List P :=
  match csrInfo rv32c (IP.csrAddr r.w) with
  | none => [trap r.msg]
  | some _ =>
    let imm := 4#3 ≤ IP.funct3 r.w
    trapIf r ++
    (match csrSel (IP.funct3 r.w) with
     | none => []
     | some op => setOp (csrText op).toList :: opRd r ++
        [lit ",", str (csrNm (IP.csrAddr r.w)), lit ",",
         (if imm then u32 (IP.uimmCsr r.w) else nm r (IP.rs1 r.w))]) ++
    rdUpdate r ++
    (if IP.rs1 r.w ≠ 0#5 ∨ imm then
      (if IP.rd r.w ≠ 0#5 then [lit "; "] else []) ++ align :: csrf r (IP.csrAddr r.w)
     else [])

/-- core.cpp:749-782, `d_system`; an unknown word prints the operation name of an earlier instruction -/
def tSystem (rv32c : Bool) (r : Rec) : List P :=
  if IP.funct3 r.w ≠ 0#3 then tCsr rv32c r
  else if r.w = 0x73#32 ∨ r.w = 0x100073#32 then [trap r.msg]
  else if r.w = 0x30200073#32 then [setOp "mret".toList, putOp]
  else if r.w = 0x10500073#32 then [setOp "wfi".toList, putOp]
  else [trap r.msg, putOp]

/-- core.cpp:784-801, `d_misc_mem` -/
def tMiscMem (r : Rec) : List P :=
  if r.w = 0x100f#32 then [setOp "fence.i".toList, putOp]
  else if IP.funct3 r.w = 0#3 then [setOp "fence".toList, putOp]
  else [trap r.msg, putOp]

/-- the operation names of `d_custom_ext`, core.cpp:816-1000 -/
def simdText : Simd.Op → List Char
  | .addSub n sg sb sat => (if sat then ['q'] else []) ++ (if sb then "sub" else "add").toList ++
      Nat.toDigits 10 n ++ (if sg then [] else ['u'])
  | .mul n sg up => (if up then "mulh" else "mul").toList ++ Nat.toDigits 10 n ++ (if sg then [] else ['u'])
  | .wmul n sg => "wmul".toList ++ Nat.toDigits 10 n ++ (if sg then [] else ['u'])
  | .dot n sg => "dot".toList ++ Nat.toDigits 10 n ++ (if sg then [] else ['u'])
  | .minMax n sg mx => (if mx then "max" else "min").toList ++ Nat.toDigits 10 n ++ (if sg then [] else ['u'])
  | .shift n ar l => (if l then "slli" else if ar then "srai" else "srli").toList ++ Nat.toDigits 10 n
  | .widen n sg => "widen".toList ++ Nat.toDigits 10 n ++ (if sg then [] else ['u'])
  | .narrow n sat sg => (if sat then "qnarrow" else "narrow").toList ++ Nat.toDigits 10 n ++
      (if sat && !sg then ['u'] else [])
  | .txp n => "txp".toList ++ Nat.toDigits 10 n
  | .dup n => "dup".toList ++ Nat.toDigits 10 n
  | .vins n => "vins".toList ++ Nat.toDigits 10 n
  | .vext n sg => "vext".toList ++ Nat.toDigits 10 n ++ (if sg then [] else ['u'])
  | .scp .lcl => "scp.lcl".toList
  | .scp .rel => "scp.rel".toList

/-- core.cpp:1018-1021 and 1029-1032 `vins_lane_mask`, `vext_lane_mask` -/
def laneMask (f3 : BitVec 3) : BitVec 5 :=
  match f3 >>> 1 with
  | 0#3 => 1#5 | 1#3 => 3#5 | 2#3 => 7#5 | _ => 15#5

/-- core.cpp:1005-1043: the text by group -/
def tCustomText (r : Rec) : List P :=
  let f3 := IP.funct3 r.w
  let rs2 : W := (IP.rs2 r.w).setWidth 32
  let three := opRd r ++ [lit ",", nm r (IP.rs1 r.w), lit ",", nm r (IP.rs2 r.w)]
  let imm5 := opRd r ++ [lit ",", nm r (IP.rs1 r.w), lit ","] ++ fhexn rs2 2
  let lane : W := (IP.rs2 r.w &&& laneMask f3).setWidth 32
  match IP.funct7 r.w with
  | 0x00#7 | 0x01#7 | 0x02#7 | 0x04#7 | 0x08#7 | 0x22#7 | 0x23#7 => three ++ rdUpdate r
  | 0x09#7 => imm5 ++ rdUpdate r
  | 0x03#7 | 0x30#7 => three ++ rdUpdate r ++ rdUpdatePair r
  | 0x20#7 => imm5 ++ rdUpdate r ++ rdUpdatePair r
  | 0x3c#7 => opRd r ++ [lit ",", nm r (IP.rs1 r.w)] ++
      (if f3 &&& 1#3 ≠ 0#3 then lit "," :: fhexn lane 1 else []) ++ rdUpdate r
  | 0x3d#7 => opRd r ++ [lit ",", nm r (IP.rs1 r.w), lit ","] ++ fhexn lane 1 ++ rdUpdate r
  | 0x7f#7 => opRd r ++ [lit ",", nm r (IP.rs1 r.w)] ++ rdUpdate r
  | _ => []

/-- core.cpp:804-1046, `d_custom_ext`; a `default:` arm that does not return falls through to the text -/
def tCustom (r : Rec) : List P :=
  match Simd.sel (IP.funct7 r.w) (IP.funct3 r.w) with
  | some op => trapIf r ++ setOp (simdText op) :: tCustomText r
  | none => if Simd.selReturns (IP.funct7 r.w) then [trap r.msg] else trap r.msg :: tCustomText r

/-- core.cpp:310-326 -/
def tExec32 (rv32c simd : Bool) (r : Rec) : List P :=
  match IP.opcode r.w with
  | 0x33#7 => tAluReg r
  | 0x13#7 => tAluImm r
  | 0x03#7 => tLoad r
  | 0x23#7 => tStore r
  | 0x63#7 => tBranch r
  | 0x67#7 => tJalr r
  | 0x6f#7 => tJal r
  | 0x37#7 => tUpper r "lui"
  | 0x17#7 => tUpper r "auipc"
  | 0x73#7 => tSystem rv32c r
  | 0x0f#7 => tMiscMem r
  | 0x0b#7 => if simd then tCustom r else [trap r.msg]
  | _ => [trap r.msg]

/-! ## Compressed instructions, `core_exec_c.cpp` -/

/-- core_exec_c.cpp:7-36: `c_addi`, `c_li` -/
def tcArith (r : Rec) (op : String) : List P :=
  setOp op.toList :: opRd r ++ [lit ",", i32 (IP.cImmArith r.w)] ++ rdUpdate r
/-- core_exec_c.cpp:38-50 -/
def tcLui (r : Rec) : List P :=
  trapIf r ++ setOp "c.lui".toList :: opRd r ++ [lit ","] ++ fhexn (IP.cImmLui r.w >>> 12) 5 ++ rdUpdate r
/-- core_exec_c.cpp:52-60 and 493-500: `c_nop`, `c_ebreak` -/
def tcBare (op : String) : List P := [setOp op.toList, putOp]
/-- core_exec_c.cpp:62-77 -/
def tcAddi16sp (r : Rec) : List P :=
  trapIf r ++ setOp "c.addi16sp".toList :: opRd r ++ [lit ",", i32 (IP.cImm16sp r.w)] ++ rdUpdateP r 2#5
/-- core_exec_c.cpp:79-125: `c_srli`, `c_srai`, `c_andi` -/
def tcImmH (r : Rec) (op : String) : List P :=
  setOp op.toList :: opCregh r ++ [lit ",", i32 (IP.cImmArith r.w)] ++ rdUpdateP r (IP.cRegh r.w)
/-- core_exec_c.cpp:127-193: `c_and`, `c_or`, `c_xor`, `c_sub` -/
def tcAlu (r : Rec) (op : String) : List P :=
  setOp op.toList :: opCregh r ++ [lit ",", nm r (IP.cRegl r.w)] ++ rdUpdateP r (IP.cRegh r.w)
/-- core_exec_c.cpp:195-212; the stack pointer is spelled `x2` in both naming modes -/
def tcAddi4spn (r : Rec) : List P :=
  trapIf r ++ [setOp "c.addi4spn".toList, putOp, lit " ", nm r (IP.cRegl r.w), lit ",x2,",
    i32 (IP.cImm4spn r.w)] ++ rdUpdateP r (IP.cRegl r.w)
/-- core_exec_c.cpp:214-231 -/
def tcSlli (r : Rec) : List P :=
  setOp "c.slli".toList :: opRd r ++ [lit ","] ++ fhexn (IP.cImmSlli r.w) 2 ++ rdUpdate r
/-- core_exec_c.cpp:233-264: `c_mv`, `c_add` -/
def tcReg (r : Rec) (op : String) : List P :=
  setOp op.toList :: opRd r ++ [lit ",", nm r (IP.cRs2 r.w)] ++ rdUpdate r
/-- core_exec_c.cpp:267-292; the address is noted if bits 11:7 of the instruction (which are not its destination) are not 0 -/
def tcLw (r : Rec) : List P :=
  if r.trapped then [trap r.msg]
  else [setOp "c.lw".toList, putOp, lit " ", nm r (IP.cRegl r.w), lit ",", i32 (IP.cImmMem r.w), lit "(",
    nm r (IP.cRegh r.w), lit ")"] ++ rdUpdateP r (IP.cRegl r.w) ++
    (if IP.rd r.w = 0#5 then []
     else lit " <- mem[" :: memAddr (IP.cImmMem r.w + r.rf0 (IP.cRegh r.w)) ++ [lit "]"])
/-- core_exec_c.cpp:294-320; the address is computed from the stack pointer after the load -/
def tcLwsp (r : Rec) : List P :=
  if r.trapped then [trap r.msg]
  else setOp "c.lwsp".toList :: opRd r ++
    [lit ",", i32 (IP.cImmLwsp r.w), lit "(", nm r 2#5, lit ")"] ++ rdUpdate r ++
    (if IP.rd r.w = 0#5 then []
     else lit " <- mem[" :: memAddr (IP.cImmLwsp r.w + r.rf1 2#5) ++ [lit "]"])
/-- core_exec_c.cpp:322-344 -/
def tcSw (r : Rec) : List P :=
  if r.trapped then [trap r.msg]
  else [setOp "c.sw".toList, putOp, lit " ", nm r (IP.cRegl r.w), lit ",", i32 (IP.cImmMem r.w), lit "(",
    nm r (IP.cRegh r.w), lit ")"] ++
    memUpdateP r (IP.cImmMem r.w + r.rf1 (IP.cRegh r.w)) (IP.cRegl r.w)
/-- core_exec_c.cpp:346-365 -/
def tcSwsp (r : Rec) : List P :=
  if r.trapped then [trap r.msg]
  else [setOp "c.swsp".toList, putOp, lit " ", nm r (IP.cRs2 r.w), lit ",", i32 (IP.cImmSwsp r.w), lit "(",
    nm r 2#5, lit ")"] ++ memUpdateP r (IP.cImmSwsp r.w + r.rf1 2#5) (IP.cRs2 r.w)
/-- core_exec_c.cpp:367-409: `c_beqz`, `c_bnez` -/
def tcBranch (r : Rec) (op : String) : List P :=
  setOp op.toList :: opCregh r ++ [lit ",", hex, u32 (r.pc + IP.cImmB r.w), dec]
/-- core_exec_c.cpp:411-424 -/
def tcJ (r : Rec) : List P :=
  [setOp "c.j".toList, putOp, lit " ", hex, u32 (r.pc + IP.cImmJ r.w), dec]
/-- core_exec_c.cpp:426-442 -/
def tcJal (r : Rec) : List P :=
  [setOp "c.jal".toList, putOp, lit " ", hex, u32 (r.pc + IP.cImmJ r.w), dec] ++ rdUpdateP r 1#5
/-- core_exec_c.cpp:444-467 -/
def tcJr (r : Rec) : List P :=
  trapIf r ++ setOp "c.jr".toList :: opRd r ++ (if r.w = 0x8082#32 then [lit " # ret"] else [])
/-- core_exec_c.cpp:469-491 -/
def tcJalr (r : Rec) : List P :=
  setOp "c.jalr".toList :: opRd r ++ rdUpdateP r 1#5

/-- core.cpp:1098-1106 -/
def tCompressed0 (r : Rec) : List P :=
  match IP.cFunct3 r.w with
  | 0#3 => tcAddi4spn r
  | 2#3 => tcLw r
  | 6#3 => tcSw r
  | _ => [trap r.msg]
/-- core.cpp:1131-1137 -/
def tCompressed1Alu (r : Rec) : List P :=
  match (IP.cFunct6 r.w ++ IP.cFunct2l r.w : BitVec 8) with
  | 0x8c#8 => tcAlu r "c.sub"
  | 0x8d#8 => tcAlu r "c.xor"
  | 0x8e#8 => tcAlu r "c.or"
  | 0x8f#8 => tcAlu r "c.and"
  | _ => [trap r.msg]
/-- core.cpp:1108-1146 -/
def tCompressed1 (r : Rec) : List P :=
  match IP.cFunct3 r.w with
  | 0#3 => tcArith r "c.addi"
  | 1#3 => tcJal r
  | 2#3 => tcArith r "c.li"
  | 3#3 =>
    if IP.rd r.w = 0#5 then tcBare "c.nop"
    else if IP.rd r.w = 2#5 then tcAddi16sp r
    else tcLui r
  | 4#3 =>
    match IP.cFunct2h r.w with
    | 0#2 => tcImmH r "c.srli"
    | 1#2 => tcImmH r "c.srai"
    | 2#2 => tcImmH r "c.andi"
    | _ => tCompressed1Alu r
  | 5#3 => tcJ r
  | 6#3 => tcBranch r "c.beqz"
  | _ => tcBranch r "c.bnez"
/-- core.cpp:1148-1171 -/
def tCompressed2 (r : Rec) : List P :=
  match IP.cFunct3 r.w with
  | 0#3 => tcSlli r
  | 2#3 => tcLwsp r
  | 6#3 => tcSwsp r
  | 4#3 =>
    match IP.cFunct4 r.w with
    | 8#4 => if IP.cRs2 r.w = 0#5 then tcJr r else tcReg r "c.mv"
    | 9#4 =>
      if IP.cRs2 r.w = 0#5 ∧ IP.rd r.w = 0#5 then tcBare "c.ebreak"
      else if IP.cRs2 r.w = 0#5 then tcJalr r
      else tcReg r "c.add"
    | _ => [trap r.msg]
  | _ => [trap r.msg]
/-- core.cpp:298-303 -/
def tExec16 (r : Rec) : List P :=
  match IP.copcode r.w with
  | 0#2 => tCompressed0 r
  | 1#2 => tCompressed1 r
  | 2#2 => tCompressed2 r
  | _ => [trap r.msg]

/-! ## One step -/

/-- core.cpp:292-331: the text of `exec`; without the C extension `inst_w` keeps its value for a word that is not
32-bit -/
def tExec (cfg : Cfg) (r : Rec) : List P :=
  if IP.copcode r.w ≠ 3#2 then
    if cfg.rv32c then setInstW 4 :: tExec16 r else [trap r.msg]
  else setInstW 8 :: tExec32 cfg.rv32c cfg.simd r

/-- the inputs of the log that are not simulator state -/
structure LogIn where
  /-- `cfg.rf_names == mode_abi` -/
  abi : Bool
  /-- text of the last trap of the step -/
  msg : List Char
  /-- `dasm.simd_ss.str()` -/
  simd : List Char

/-- core.cpp:139-156 with the text: `stepExec` and the text of the instruction it executes -/
def stepExecD (E : Env σ) (L : LogIn) (d : DS) : M σ DS := do
  let act ← get (·.wfiActive)
  let aboutToWfi ←
    (if act then pure false
    else do
      let pc ← get (·.pc)
      let w ← justInst pc
      pure (w == 0x10500073#32))
  let noTrapInt ← checkInterrupts E aboutToWfi
  mod fun s => { s with wfiActive := s.wfiActive && !(s.trapped || noTrapInt) }
  let trp ← get (·.trapped)
  let act ← get (·.wfiActive)
  if !trp && (!act || noTrapInt) then do
    fetch E
    let s0 ← get id
    exec E
    let s1 ← get id
    pure (run (tExec E.cfg ⟨L.abi, s1.inst, s0.pc, s0.rf, s1.rf, s1.csr, s1.trapped, L.msg⟩) d)
  else if trp then pure (trap L.msg d)
  else pure d

/-- core.cpp:112-215 `single_step` with the text: also returns the record, if one is finished
(core.cpp:176-181, types.h:520-523 `finish_inst`) -/
def stepD (E : Env σ) (L : LogIn) (d : DS) : M σ (Option (List Char) × DS) := do
  mod fun s => { s with trapped := false }
  let d := clear d
  let exit ← profWindow E
  if exit then pure (none, d)
  else do
    let d ← stepExecD E L d
    mod fun s => { s with simStep := s.simStep + 1#64 }
    let n ← get (·.simStep)
    if n = E.cfg.runSteps then do
      mod fun s => { s with running := false }
      pure (none, d)
    else do
      let act ← get (·.wfiActive)
      let trp ← get (·.trapped)
      stepFinish E
      if act && !trp then pure (none, d)
      else
        let d := run [align, str L.simd] d
        pure (some d.text, d)

/-- `n` iterations of core.cpp:104 with the records, oldest first -/
def runD (E : Env σ) (L : Nat → LogIn) : Nat → DS → M σ (List (Option (List Char)) × DS)
  | 0, d => pure ([], d)
  | n + 1, d => do
    let r ← get (·.running)
    if r then do
      let x ← stepD E (L n) d
      let y ← runD E L n x.2
      pure (x.1 :: y.1, y.2)
    else pure ([], d)

/-- core.cpp:334-375 `log_inst` of an instruction that did not trap: the line in the log file; `w` and `pc` are those of
the instruction, `cnt` is `sim_cnt.inst + 1`, `shown` is false with profilers outside the profiled part.  The stream of
the file is never switched to `left`.  `print_state` (option `logf.state`) is left out. -/
def logLine (shown : Bool) (cnt : Nat) (pc w : W) (instW : Nat) (asm : List Char) : List Char :=
  let file : DS := ⟨[], false, false, ' ', 0, [], instW⟩
  (run ([lit "    ", setw 6, setfill ' ', (if shown then str (Nat.toDigits 10 cnt) else lit ""), lit ": "] ++
    memAddr pc ++ [lit ": ", setw instW, setfill '0', hex, u32 w, dec, lit " ", str asm, lit "\n"]) file).text

end Ama.Dasm
