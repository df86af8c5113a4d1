import Verif.Model.Basic
/-!
# Readers of the binary profiles

What a reader of the trace files does, written from the scripts in /repo/script, not from the code that writes them: a file is an array
of records of fixed size, a field is a little-endian number at a fixed place in its record.
-/
namespace Ama.Spec.Bin

abbrev Byte := BitVec 8
/-- the little-endian number of the bytes -/
def num : List Byte → Nat
  | [] => 0
  | b :: t => b.toNat + 256 * num t
/-- the number in the `k` bytes from `off` -/
def field (off k : Nat) (l : List Byte) : Nat := num ((l.drop off).take k)
/-- the whole records of `n` bytes in a file -/
def records (n : Nat) (l : List Byte) : List (List Byte) :=
  (List.range (l.length / n)).map fun i => (l.drop (i * n)).take n

/-- a row of the instruction trace, script/run_analysis.py:1910-1923 -/
structure Row where
  smp : Nat
  inst : Nat
  pc : Nat
  nextPc : Nat
  dmem : Nat
  sp : Nat
  taken : Nat
  isz : Nat
  dsz : Nat
  ic : Nat
  dc : Nat
  bp : Nat
  deriving DecidableEq
/-- packed fields, then padding up to a multiple of the largest (script/run_analysis.py:1936-1942): 40 bytes -/
def row (l : List Byte) : Row :=
  ⟨field 0 8 l, field 8 4 l, field 12 4 l, field 16 4 l, field 20 4 l, field 24 4 l,
    field 28 1 l, field 29 1 l, field 30 1 l, field 31 1 l, field 32 1 l, field 33 1 l⟩
def readTrace (l : List Byte) : List Row := (records 40 l).map row
/-- script/run_analysis.py:1952-1967: direction (`true` for a store) and width in bytes of the access, if any -/
def access (dsz : Nat) : Option (Bool × Nat) :=
  if dsz = 8 then none else some (decide (4 ≤ dsz ∧ dsz ≤ 7), [1, 2, 4, 8].getD (dsz % 4) 0)

/-- script/run_analysis.py:253-332 `OPC_G_NAMES` -/
def opcG : List String := [
  "add", "sub", "sll", "srl", "sra", "slt", "sltu", "xor", "or", "and", "nop", "addi", "slli", "srli", "srai", "slti",
  "sltiu", "xori", "ori", "andi", "lb", "lh", "lw", "lbu", "lhu", "sb", "sh", "sw", "fence_i", "fence", "lui", "auipc",
  "ecall", "ebreak", "hint", "mret", "wfi", "add16", "add8", "sub16", "sub8", "qadd16", "qadd16u", "qadd8", "qadd8u",
  "qsub16", "qsub16u", "qsub8", "qsub8u", "mul16", "mul8", "mulh16", "mulh16u", "mulh8", "mulh8u", "wmul16", "wmul16u",
  "wmul8", "wmul8u", "dot16", "dot16u", "dot8", "dot8u", "dot4", "dot4u", "dot2", "dot2u", "min16", "min16u", "min8",
  "min8u", "max16", "max16u", "max8", "max8u", "slli16", "slli8", "srli16", "srli8", "srai16", "srai8", "widen16",
  "widen16u", "widen8", "widen8u", "widen4", "widen4u", "widen2", "widen2u", "narrow32", "narrow16", "narrow8", "narrow4",
  "qnarrow32", "qnarrow32u", "qnarrow16", "qnarrow16u", "qnarrow8", "qnarrow8u", "qnarrow4", "qnarrow4u", "txp16", "txp8",
  "txp4", "txp2", "dup16", "dup8", "dup4", "dup2", "vins16", "vins8", "vins4", "vins2", "vext16", "vext16u", "vext8",
  "vext8u", "vext4", "vext4u", "vext2", "vext2u", "scp_lcl", "scp_rel", "csrrw", "csrrs", "csrrc", "csrrwi", "csrrsi",
  "csrrci", "mul", "mulh", "mulhsu", "mulhu", "div", "divu", "rem", "remu", "max", "maxu", "min", "minu", "c.add", "c.mv",
  "c.and", "c.or", "c.xor", "c.sub", "c.addi", "c.addi16sp", "c.addi4spn", "c.andi", "c.srli", "c.slli", "c.srai", "c.nop",
  "c.lwsp", "c.swsp", "c.lw", "c.sw", "c.li", "c.lui", "c.ebreak"]
/-- script/run_analysis.py:334-339 `OPC_B_NAMES` -/
def opcB : List String := [
  "beq", "bne", "blt", "bge", "bltu", "bgeu", "jalr", "jal", "c.j", "c.jal", "c.jr", "c.jalr", "c.beqz", "c.bnez"]
/-- script/dep_scan.py:57-60 `decode_mnm`; 255 is `OPC_NONE` -/
def mnemonic (g b : Nat) : Option String := if g ≠ 255 then opcG[g]? else opcB[b]?
/-- 255 is `REG_NONE` -/
def regOf (n : Nat) : Option Nat := if n = 255 then none else some n
/-- a row of the register trace, script/dep_scan.py:20-23 -/
structure RfRow where
  name : Option String
  rd : Option Nat
  rs1 : Option Nat
  rs2 : Option Nat
  rdz : Nat
  rdpz : Nat
  deriving DecidableEq
def rfRow (l : List Byte) : RfRow :=
  ⟨mnemonic (field 0 1 l) (field 1 1 l), regOf (field 2 1 l), regOf (field 3 1 l), regOf (field 4 1 l), field 5 1 l, field 6 1 l⟩
def readRf (l : List Byte) : List RfRow := (records 7 l).map rfRow

/-- script/rf_usage.py:36-43: a row for each register, the columns `rd`, `rdp`, `rs1`, `rs2`, `rs3` -/
def readUsage (l : List Byte) : List (List Nat) := (records 40 l).map fun r => [field 0 8 r, field 8 8 r, field 16 8 r, field 24 8 r, field 32 8 r]

end Ama.Spec.Bin
