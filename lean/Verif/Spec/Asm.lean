import Verif.Spec.Compressed
import Verif.Spec.Csr
import Verif.Spec.Simd
/-!
# A small assembler

Reads one line of assembly in the syntax of the RISC-V tools and gives the instruction word.  It is written from the
assembly manuals and the instruction list of `/repo/README.md`, and shares with the model of the execution log only the
operation types.  Extras of the log that an assembler would skip are skipped: everything from the first double space on,
and comments (`#`).  As in the listings of `objdump`, jump and branch targets are absolute addresses in bare hexadecimal.
-/
namespace Ama.Spec.Asm

/-! ## Splitting a line -/

/-- the part before the first two consecutive spaces -/
def col : List Char → List Char
  | [] => []
  | [c] => [c]
  | c :: d :: r => if c = ' ' ∧ d = ' ' then [] else c :: col (d :: r)
/-- the comma-separated pieces -/
def pieces : List Char → List (List Char)
  | [] => [[]]
  | c :: r => if c = ',' then [] :: pieces r else match pieces r with
    | [] => [[c]]
    | p :: ps => (c :: p) :: ps

/-- the mnemonic and the operands of a line -/
def tokens (line : List Char) : List Char × List (List Char) :=
  let code := (col line).takeWhile (· ≠ '#')
  let name := code.takeWhile (· ≠ ' ')
  let rest := (code.drop name.length).filter (· ≠ ' ')
  (name, if rest = [] then [] else pieces rest)

/-! ## Operands -/

/-- value of a digit -/
def digit? (c : Char) : Option Nat :=
  if '0' ≤ c ∧ c ≤ '9' then some (c.toNat - '0'.toNat)
  else if 'a' ≤ c ∧ c ≤ 'f' then some (c.toNat - 'a'.toNat + 10)
  else none
/-- positional notation, most significant digit first -/
def digits? (b : Nat) : Nat → List Char → Option Nat
  | acc, [] => some acc
  | acc, c :: r => match digit? c with
    | some d => if d < b then digits? b (acc * b + d) r else none
    | none => none
/-- an unsigned numeral in base `b` -/
def nat? (b : Nat) (t : List Char) : Option Nat := if t = [] then none else digits? b 0 t
/-- a number: hexadecimal with `0x`, else decimal with an optional minus sign -/
def int? : List Char → Option Int
  | '0' :: 'x' :: t => (nat? 16 t).map Int.ofNat
  | '-' :: t => (nat? 10 t).map fun (n : Nat) => -(n : Int)
  | t => (nat? 10 t).map Int.ofNat
/-- a number that fits `n` bits, signed -/
def simm (n : Nat) (t : List Char) : Option (BitVec n) :=
  match int? t with
  | some z => if (BitVec.ofInt n z).toInt = z then some (BitVec.ofInt n z) else none
  | none => none
/-- a number that fits `n` bits, unsigned -/
def uimm (n : Nat) (t : List Char) : Option (BitVec n) :=
  match int? t with
  | some z => if ((BitVec.ofInt n z).toNat : Int) = z then some (BitVec.ofInt n z) else none
  | none => none
/-- an unsigned number of `n + k` bits whose low `k` bits are 0, without them -/
def uscaled (n k : Nat) (t : List Char) : Option (BitVec n) :=
  match uimm (n + k) t with
  | some v => if (v.extractLsb' k n).setWidth (n + k) <<< k = v then some (v.extractLsb' k n) else none
  | none => none
/-- the offset from `pc` to an absolute target, in halfwords, if it fits `n` bits -/
def offset (n : Nat) (pc : W) (t : List Char) : Option (BitVec n) :=
  match nat? 16 t with
  | some v =>
    let off := BitVec.ofNat 32 v - pc
    let x : BitVec n := (off >>> 1).setWidth n
    if (x.setWidth (n + 1) <<< 1).signExtend 32 = off then some x else none
  | none => none

/-- calling convention names, by number -/
def abiNames : List String :=
  ["zero", "ra", "sp", "gp", "tp", "t0", "t1", "t2", "s0", "s1", "a0", "a1", "a2", "a3", "a4", "a5", "a6", "a7",
   "s2", "s3", "s4", "s5", "s6", "s7", "s8", "s9", "s10", "s11", "t3", "t4", "t5", "t6"]
/-- a register: `x` and its number, or its name in the calling convention -/
def reg (t : List Char) : Option (BitVec 5) :=
  match abiNames.findIdx? fun s => s.toList = t with
  | some k => some (BitVec.ofNat 5 k)
  | none => match t with
    | 'x' :: ds => match nat? 10 ds with
      | some k => if k < 32 then some (BitVec.ofNat 5 k) else none
      | none => none
    | _ => none
/-- one of x8 … x15 -/
def reg' (t : List Char) : Option (BitVec 3) :=
  match reg t with
  | some r => if creg (r.setWidth 3) = r then some (r.setWidth 3) else none
  | none => none
/-- `offset(register)` -/
def mem (t : List Char) : Option (List Char × List Char) :=
  let o := t.takeWhile (· ≠ '(')
  let r := (t.drop (o.length + 1)).takeWhile (· ≠ ')')
  if t = o ++ '(' :: r ++ [')'] then some (o, r) else none

/-- names of the CSRs that do not come in numbered series -/
def csrPlain : List (String × Nat) :=
  [("mstatus", 0x300), ("misa", 0x301), ("mie", 0x304), ("mtvec", 0x305), ("mstatush", 0x310), ("mcountinhibit", 0x320),
   ("mscratch", 0x340), ("mepc", 0x341), ("mcause", 0x342), ("mtval", 0x343), ("mip", 0x344), ("tohost", 0x51e),
   ("mcycle", 0xb00), ("minstret", 0xb02), ("mcycleh", 0xb80), ("minstreth", 0xb82), ("cycle", 0xc00), ("time", 0xc01),
   ("instret", 0xc02), ("cycleh", 0xc80), ("timeh", 0xc81), ("instreth", 0xc82), ("mvendorid", 0xf11),
   ("marchid", 0xf12), ("mimpid", 0xf13), ("mhartid", 0xf14), ("mconfigptr", 0xf15)]
/-- numbered series (3 … 31): prefix, suffix, address of number 0 -/
def csrSeries : List (String × String × Nat) :=
  [("mhpmevent", "", 0x320), ("mhpmcounter", "", 0xb00), ("mhpmcounter", "h", 0xb80), ("hpmcounter", "", 0xc00),
   ("hpmcounter", "h", 0xc80)]
/-- a CSR by name -/
def csr (t : List Char) : Option (BitVec 12) :=
  match csrPlain.find? fun p => p.1.toList = t with
  | some p => some (BitVec.ofNat 12 p.2)
  | none => csrSeries.findSome? fun p => (List.range 29).findSome? fun k =>
      if p.1.toList ++ (Nat.toDigits 10 (k + 3)) ++ p.2.1.toList = t then some (BitVec.ofNat 12 (p.2.2 + k + 3)) else none

/-! ## Instructions -/

/-- an operand parser applied to the operands of a line -/
abbrev Form := W → List (List Char) → Option W

/-- no operands -/
def bare (w : W) : Form
  | _, [] => some w
  | _, _ => none
/-- `rd,rs1,rs2` -/
def rrr (mk : BitVec 5 → BitVec 5 → BitVec 5 → W) : Form
  | _, [a, b, c] => do some (mk (← reg a) (← reg b) (← reg c))
  | _, _ => none
/-- `rd,rs` -/
def rr (mk : BitVec 5 → BitVec 5 → W) : Form
  | _, [a, b] => do some (mk (← reg a) (← reg b))
  | _, _ => none
/-- `rd,rs1,number` -/
def rri {n : Nat} (num : List Char → Option (BitVec n)) (mk : BitVec 5 → BitVec 5 → BitVec n → W) : Form
  | _, [a, b, c] => do some (mk (← reg a) (← reg b) (← num c))
  | _, _ => none
/-- `rd,number` -/
def ri {n : Nat} (num : List Char → Option (BitVec n)) (mk : BitVec 5 → BitVec n → W) : Form
  | _, [a, b] => do some (mk (← reg a) (← num b))
  | _, _ => none
/-- `r,offset(base)` -/
def rm {n : Nat} (num : List Char → Option (BitVec n)) (mk : BitVec 5 → BitVec 5 → BitVec n → W) : Form
  | _, [a, b] => do
    let (o, r) ← mem b
    some (mk (← reg a) (← reg r) (← num o))
  | _, _ => none
/-- `rs1,rs2,target` -/
def rrt (n : Nat) (mk : BitVec 5 → BitVec 5 → BitVec n → W) : Form
  | pc, [a, b, c] => do some (mk (← reg a) (← reg b) (← offset n pc c))
  | _, _ => none
/-- `rd,target` -/
def rt (n : Nat) (mk : BitVec 5 → BitVec n → W) : Form
  | pc, [a, b] => do some (mk (← reg a) (← offset n pc b))
  | _, _ => none
/-- `target` -/
def tgt (n : Nat) (mk : BitVec n → W) : Form
  | pc, [a] => do some (mk (← offset n pc a))
  | _, _ => none
/-- `rs` -/
def one (mk : BitVec 5 → W) : Form
  | _, [a] => do some (mk (← reg a))
  | _, _ => none
/-- `rd,csr,rs1` and `rd,csr,number` -/
def csrR (f3 : BitVec 3) : Form
  | _, [a, b, c] => do some (encI (← csr b) (← reg c) f3 (← reg a) 0x73#7)
  | _, _ => none
def csrI (f3 : BitVec 3) : Form
  | _, [a, b, c] => do some (encI (← csr b) (← uimm 5 c) f3 (← reg a) 0x73#7)
  | _, _ => none
/-- `rd',rs'` -/
def rr' (mk : BitVec 3 → BitVec 3 → W) : Form
  | _, [a, b] => do some (mk (← reg' a) (← reg' b))
  | _, _ => none
/-- `rd',number` -/
def ri' {n : Nat} (num : List Char → Option (BitVec n)) (mk : BitVec 3 → BitVec n → W) : Form
  | _, [a, b] => do some (mk (← reg' a) (← num b))
  | _, _ => none
/-- `rs1',target` -/
def rt' (n : Nat) (mk : BitVec 3 → BitVec n → W) : Form
  | pc, [a, b] => do some (mk (← reg' a) (← offset n pc b))
  | _, _ => none
/-- `r',offset(base')` -/
def rm' {n : Nat} (num : List Char → Option (BitVec n)) (mk : BitVec 3 → BitVec 3 → BitVec n → W) : Form
  | _, [a, b] => do
    let (o, r) ← mem b
    some (mk (← reg' a) (← reg' r) (← num o))
  | _, _ => none
/-- `r,offset(sp)` -/
def rsp {n : Nat} (num : List Char → Option (BitVec n)) (mk : BitVec 5 → BitVec n → W) : Form
  | _, [a, b] => do
    let (o, r) ← mem b
    let s ← reg r
    if s = 2#5 then some (mk (← reg a) (← num o)) else none
  | _, _ => none
/-- `rd',sp,number` -/
def r'sp {n : Nat} (num : List Char → Option (BitVec n)) (mk : BitVec 3 → BitVec n → W) : Form
  | _, [a, b, c] => do
    let s ← reg b
    if s = 2#5 then some (mk (← reg' a) (← num c)) else none
  | _, _ => none
/-- `sp,number` -/
def sp {n : Nat} (num : List Char → Option (BitVec n)) (mk : BitVec n → W) : Form
  | _, [a, b] => do
    let s ← reg a
    if s = 2#5 then some (mk (← num b)) else none
  | _, _ => none

/-- a multiple of 16 that fits ten bits, signed (C.ADDI16SP) -/
def s16 (t : List Char) : Option (BitVec 6) :=
  match simm 10 t with
  | some v => if (v.extractLsb' 4 6).setWidth 10 <<< 4 = v then some (v.extractLsb' 4 6) else none
  | none => none
/-- a 20-bit number that is the sign extension of six bits (C.LUI) -/
def hi6 (t : List Char) : Option (BitVec 6) :=
  match uimm 20 t with
  | some v => if (v.setWidth 6).signExtend 20 = v then some (v.setWidth 6) else none
  | none => none

/-- RV32IM, Zbb minimum and maximum, Zicsr, privileged -/
def base : List (String × Form) :=
  let alu (op : AluOp) := rrr fun d a b => encode (.alu op d a b)
  let imm (op : IOp) := rri (simm 12) fun d a i => encode (.alui op d a i)
  let sh (op : ShOp) := rri (uimm 5) fun d a i => encode (.shift op d a i)
  let ld (op : LoadOp) := rm (simm 12) fun d a i => encode (.load op d a i)
  let st (op : StoreOp) := rm (simm 12) fun s a i => encode (.store op s a i)
  let br (op : BranchOp) := rrt 12 fun a b o => encode (.branch op a b o)
  [("add", alu .add), ("sub", alu .sub), ("sll", alu .sll), ("slt", alu .slt), ("sltu", alu .sltu), ("xor", alu .xor),
   ("srl", alu .srl), ("sra", alu .sra), ("or", alu .or), ("and", alu .and), ("mul", alu .mul), ("mulh", alu .mulh),
   ("mulhsu", alu .mulhsu), ("mulhu", alu .mulhu), ("div", alu .div), ("divu", alu .divu), ("rem", alu .rem),
   ("remu", alu .remu), ("min", alu .min), ("minu", alu .minu), ("max", alu .max), ("maxu", alu .maxu),
   ("addi", imm .addi), ("slti", imm .slti), ("sltiu", imm .sltiu), ("xori", imm .xori), ("ori", imm .ori),
   ("andi", imm .andi), ("slli", sh .slli), ("srli", sh .srli), ("srai", sh .srai),
   ("lui", ri (uimm 20) fun d i => encode (.lui d i)), ("auipc", ri (uimm 20) fun d i => encode (.auipc d i)),
   ("lb", ld .lb), ("lh", ld .lh), ("lw", ld .lw), ("lbu", ld .lbu), ("lhu", ld .lhu),
   ("sb", st .sb), ("sh", st .sh), ("sw", st .sw),
   ("beq", br .beq), ("bne", br .bne), ("blt", br .blt), ("bge", br .bge), ("bltu", br .bltu), ("bgeu", br .bgeu),
   ("jal", rt 20 fun d o => encode (.jal d o)), ("jalr", rm (simm 12) fun d a i => encode (.jalr d a i)),
   ("nop", bare (encode (.alui .addi 0#5 0#5 0#12))), ("ecall", bare (encode .ecall)), ("ebreak", bare (encode .ebreak)),
   ("mret", bare (encode .mret)), ("wfi", bare (encode .wfi)), ("fence", bare (encode (.fence 0x0ff#12 0#5 0#5))),
   ("fence.i", bare (encode .fencei)), ("csrrw", csrR 1#3), ("csrrs", csrR 2#3), ("csrrc", csrR 3#3),
   ("csrrwi", csrI 5#3), ("csrrsi", csrI 6#3), ("csrrci", csrI 7#3)]
/-- C -/
def compressed : List (String × Form) :=
  [("c.addi4spn", r'sp (uscaled 8 2) fun d i => encodeC (.addi4spn d i)),
   ("c.lw", rm' (uscaled 5 2) fun d a i => encodeC (.lw d a i)), ("c.sw", rm' (uscaled 5 2) fun s a i => encodeC (.sw s a i)),
   ("c.nop", bare (encodeC (.addi 0#5 0#6))), ("c.addi", ri (simm 6) fun d i => encodeC (.addi d i)),
   ("c.jal", tgt 11 fun o => encodeC (.jal o)), ("c.li", ri (simm 6) fun d i => encodeC (.li d i)),
   ("c.addi16sp", sp s16 fun i => encodeC (.addi16sp i)), ("c.lui", ri hi6 fun d i => encodeC (.lui d i)),
   ("c.srli", ri' (uimm 5) fun d i => encodeC (.srli d i)), ("c.srai", ri' (uimm 5) fun d i => encodeC (.srai d i)),
   ("c.andi", ri' (simm 6) fun d i => encodeC (.andi d i)),
   ("c.sub", rr' fun d s => encodeC (.alu .sub d s)), ("c.xor", rr' fun d s => encodeC (.alu .xor d s)),
   ("c.or", rr' fun d s => encodeC (.alu .or d s)), ("c.and", rr' fun d s => encodeC (.alu .and d s)),
   ("c.j", tgt 11 fun o => encodeC (.j o)), ("c.beqz", rt' 8 fun a o => encodeC (.beqz a o)),
   ("c.bnez", rt' 8 fun a o => encodeC (.bnez a o)), ("c.slli", ri (uimm 5) fun d i => encodeC (.slli d i)),
   ("c.lwsp", rsp (uscaled 6 2) fun d i => encodeC (.lwsp d i)), ("c.jr", one fun a => encodeC (.jr a)),
   ("c.mv", rr fun d s => encodeC (.mv d s)), ("c.ebreak", bare (encodeC .ebreak)),
   ("c.jalr", one fun a => encodeC (.jalr a)), ("c.add", rr fun d s => encodeC (.add d s)),
   ("c.swsp", rsp (uscaled 6 2) fun s i => encodeC (.swsp s i))]

/-- `rd,rs1,rs2` of a SIMD instruction -/
def x3 (m : W) : Form := rrr (xWord m)
/-- `rd,rs1,imm5` -/
def xi (m : W) : Form := rri (uimm 5) (xWord m)
/-- `rd,rs1` -/
def x2 (m : W) : Form := rr fun d a => xWord m d a 0#5
/-- SIMD; README.md:1095-1199 for the names and operands, `MATCH_*` for the words -/
def simd : List (String × Form) :=
  [("add16", x3 0xb#32), ("add8", x3 0x200b#32), ("sub16", x3 0x400b#32), ("sub8", x3 0x600b#32),
   ("qadd16", x3 0x200000b#32), ("qadd16u", x3 0x200100b#32), ("qadd8", x3 0x200200b#32), ("qadd8u", x3 0x200300b#32),
   ("qsub16", x3 0x200400b#32), ("qsub16u", x3 0x200500b#32), ("qsub8", x3 0x200600b#32), ("qsub8u", x3 0x200700b#32),
   ("mul16", x3 0x400000b#32), ("mul8", x3 0x400200b#32), ("mulh16", x3 0x400400b#32), ("mulh16u", x3 0x400500b#32),
   ("mulh8", x3 0x400600b#32), ("mulh8u", x3 0x400700b#32),
   ("wmul16", x3 0x600000b#32), ("wmul16u", x3 0x600100b#32), ("wmul8", x3 0x600200b#32), ("wmul8u", x3 0x600300b#32),
   ("dot16", x3 0x800000b#32), ("dot16u", x3 0x800100b#32), ("dot8", x3 0x800200b#32), ("dot8u", x3 0x800300b#32),
   ("dot4", x3 0x800400b#32), ("dot4u", x3 0x800500b#32), ("dot2", x3 0x800600b#32), ("dot2u", x3 0x800700b#32),
   ("min16", x3 0x1000000b#32), ("min16u", x3 0x1000100b#32), ("min8", x3 0x1000200b#32), ("min8u", x3 0x1000300b#32),
   ("max16", x3 0x1000400b#32), ("max16u", x3 0x1000500b#32), ("max8", x3 0x1000600b#32), ("max8u", x3 0x1000700b#32),
   ("slli16", xi 0x1200000b#32), ("slli8", xi 0x1200200b#32), ("srli16", xi 0x1200400b#32), ("srli8", xi 0x1200600b#32),
   ("srai16", xi 0x1200500b#32), ("srai8", xi 0x1200700b#32),
   ("widen16", xi 0x4000600b#32), ("widen16u", xi 0x4000700b#32), ("widen8", xi 0x4000000b#32), ("widen8u", xi 0x4000100b#32),
   ("widen4", xi 0x4000200b#32), ("widen4u", xi 0x4000300b#32), ("widen2", xi 0x4000400b#32), ("widen2u", xi 0x4000500b#32),
   ("narrow32", x3 0x4400000b#32), ("narrow16", x3 0x4400200b#32), ("narrow8", x3 0x4400400b#32), ("narrow4", x3 0x4400600b#32),
   ("qnarrow32", x3 0x4600000b#32), ("qnarrow32u", x3 0x4600100b#32), ("qnarrow16", x3 0x4600200b#32),
   ("qnarrow16u", x3 0x4600300b#32), ("qnarrow8", x3 0x4600400b#32), ("qnarrow8u", x3 0x4600500b#32),
   ("qnarrow4", x3 0x4600600b#32), ("qnarrow4u", x3 0x4600700b#32),
   ("txp16", x3 0x6000000b#32), ("txp8", x3 0x6000200b#32), ("txp4", x3 0x6000400b#32), ("txp2", x3 0x6000600b#32),
   ("dup16", x2 0x7800000b#32), ("dup8", x2 0x7800200b#32), ("dup4", x2 0x7800400b#32), ("dup2", x2 0x7800600b#32),
   ("vins16", xi 0x7800100b#32), ("vins8", xi 0x7800300b#32), ("vins4", xi 0x7800500b#32), ("vins2", xi 0x7800700b#32),
   ("vext16", xi 0x7a00000b#32), ("vext16u", xi 0x7a00100b#32), ("vext8", xi 0x7a00200b#32), ("vext8u", xi 0x7a00300b#32),
   ("vext4", xi 0x7a00400b#32), ("vext4u", xi 0x7a00500b#32), ("vext2", xi 0x7a00600b#32), ("vext2u", xi 0x7a00700b#32),
   ("scp.lcl", x2 0xfe00000b#32), ("scp.rel", x2 0xfe00100b#32)]

/-- all mnemonics -/
def mnemonics : List (String × Form) := base ++ compressed ++ simd
/-- the operand form of a mnemonic -/
def form (name : List Char) : Option Form := (mnemonics.find? fun p => p.1.toList = name).map Prod.snd

/-- assemble a line for the address `pc` -/
def assemble (pc : W) (line : List Char) : Option W :=
  match form (tokens line).1 with
  | some f => f pc (tokens line).2
  | none => none

end Ama.Spec.Asm
