import Verif.Spec.Alu
import Verif.Spec.Encode
import Verif.Spec.Mem
import Verif.Model.State
/-!
# A small RV32IM_Zbb(min/max) instruction set specification

Written from the RISC-V unprivileged and privileged manuals. It shares with the model only
the operation names (`AluOp`, `LoadOp`, `StoreOp`, `BranchOp`).
-/
namespace Ama.Spec

/-- register-immediate operations with a 12-bit immediate -/
inductive IOp where | addi | slti | sltiu | xori | ori | andi deriving DecidableEq, Repr
/-- shifts by a constant -/
inductive ShOp where | slli | srli | srai deriving DecidableEq, Repr

/-- assembly-level instructions; branch and jump offsets are in halfwords -/
inductive Instr where
  | alu (op : AluOp) (rd rs1 rs2 : BitVec 5)
  | alui (op : IOp) (rd rs1 : BitVec 5) (imm : BitVec 12)
  | shift (op : ShOp) (rd rs1 : BitVec 5) (shamt : BitVec 5)
  | lui (rd : BitVec 5) (imm : BitVec 20)
  | auipc (rd : BitVec 5) (imm : BitVec 20)
  | load (op : LoadOp) (rd rs1 : BitVec 5) (imm : BitVec 12)
  | store (op : StoreOp) (rs2 rs1 : BitVec 5) (imm : BitVec 12)
  | branch (op : BranchOp) (rs1 rs2 : BitVec 5) (off : BitVec 12)
  | jal (rd : BitVec 5) (off : BitVec 20)
  | jalr (rd rs1 : BitVec 5) (imm : BitVec 12)
  | ecall | ebreak | mret | wfi
  | fence (imm : BitVec 12) (rs1 rd : BitVec 5)
  | fencei
  deriving DecidableEq, Repr

/-- funct7, funct3 -/
def aluF : AluOp → BitVec 7 × BitVec 3
  | .add => (0#7, 0#3) | .sub => (0x20#7, 0#3) | .sll => (0#7, 1#3) | .slt => (0#7, 2#3)
  | .sltu => (0#7, 3#3) | .xor => (0#7, 4#3) | .srl => (0#7, 5#3) | .sra => (0x20#7, 5#3)
  | .or => (0#7, 6#3) | .and => (0#7, 7#3)
  | .mul => (1#7, 0#3) | .mulh => (1#7, 1#3) | .mulhsu => (1#7, 2#3) | .mulhu => (1#7, 3#3)
  | .div => (1#7, 4#3) | .divu => (1#7, 5#3) | .rem => (1#7, 6#3) | .remu => (1#7, 7#3)
  | .min => (5#7, 4#3) | .minu => (5#7, 5#3) | .max => (5#7, 6#3) | .maxu => (5#7, 7#3)
/-- funct3 -/
def iopF : IOp → BitVec 3
  | .addi => 0#3 | .slti => 2#3 | .sltiu => 3#3 | .xori => 4#3 | .ori => 6#3 | .andi => 7#3
/-- funct7, funct3 -/
def shF : ShOp → BitVec 7 × BitVec 3
  | .slli => (0#7, 1#3) | .srli => (0#7, 5#3) | .srai => (0x20#7, 5#3)
/-- funct3 -/
def loadF : LoadOp → BitVec 3
  | .lb => 0#3 | .lh => 1#3 | .lw => 2#3 | .lbu => 4#3 | .lhu => 5#3
/-- funct3 -/
def storeF : StoreOp → BitVec 3
  | .sb => 0#3 | .sh => 1#3 | .sw => 2#3
/-- funct3 -/
def branchF : BranchOp → BitVec 3
  | .beq => 0#3 | .bne => 1#3 | .blt => 4#3 | .bge => 5#3 | .bltu => 6#3 | .bgeu => 7#3

/-- byte offset of a halfword offset -/
def dbl {n : Nat} (off : BitVec n) : BitVec (n + 1) := off.setWidth (n + 1) <<< 1

/-- instruction listing of the manuals -/
def encode : Instr → W
  | .alu op rd rs1 rs2 => encR (aluF op).1 rs2 rs1 (aluF op).2 rd 0x33#7
  | .alui op rd rs1 imm => encI imm rs1 (iopF op) rd 0x13#7
  | .shift op rd rs1 sh => encR (shF op).1 sh rs1 (shF op).2 rd 0x13#7
  | .lui rd imm => encU imm rd 0x37#7
  | .auipc rd imm => encU imm rd 0x17#7
  | .load op rd rs1 imm => encI imm rs1 (loadF op) rd 0x03#7
  | .store op rs2 rs1 imm => encS imm rs2 rs1 (storeF op) 0x23#7
  | .branch op rs1 rs2 off => encB (dbl off) rs2 rs1 (branchF op) 0x63#7
  | .jal rd off => encJ (dbl off) rd 0x6f#7
  | .jalr rd rs1 imm => encI imm rs1 0#3 rd 0x67#7
  | .ecall => encI 0#12 0#5 0#3 0#5 0x73#7
  | .ebreak => encI 1#12 0#5 0#3 0#5 0x73#7
  | .mret => encR 0x18#7 2#5 0#5 0#3 0#5 0x73#7
  | .wfi => encR 0x08#7 5#5 0#5 0#3 0#5 0x73#7
  | .fence imm rs1 rd => encI imm rs1 0#3 rd 0x0f#7
  | .fencei => encI 0#12 0#5 1#3 0#5 0x0f#7

/-- architectural state without the peripherals; memory is addressed by guest addresses -/
structure Arch where
  pc : W
  rf : BitVec 5 → W
  csr : BitVec 16 → W
  mem : W → BitVec 8

/-- what the platform decides -/
structure Plat where
  rv32c : Bool
  uart : Bool
  readable : W → Bool
  writable : W → Bool

/-- what an instruction may do -/
inductive Out where
  /-- completes -/
  | retire (a : Arch)
  /-- raises an exception with this cause and trap value -/
  | trap (cause tval : W)
  /-- misaligned data access in RAM -/
  | misaligned (cause addr : W)
  /-- RAM access against the permissions of the loaded image -/
  | denied
  /-- access to a peripheral -/
  | device

/-- register read: x0 is zero -/
def rx (rf : BitVec 5 → W) (r : BitVec 5) : W := if r = 0#5 then 0#32 else rf r
/-- register write: x0 is not writable -/
def wx (rf : BitVec 5 → W) (r : BitVec 5) (v : W) : BitVec 5 → W := fun x =>
  if x = r ∧ r ≠ 0#5 then v else rf x

/-- value of a register-immediate operation -/
def iop (op : IOp) (a b : W) : W :=
  match op with
  | .addi => alu .add a b | .slti => alu .slt a b | .sltiu => alu .sltu a b
  | .xori => alu .xor a b | .ori => alu .or a b | .andi => alu .and a b
/-- value of a constant shift -/
def shop (op : ShOp) (a : W) (sh : BitVec 5) : W :=
  match op with
  | .slli => wrap (a.toNat * 2 ^ sh.toNat)
  | .srli => wrap (a.toNat / 2 ^ sh.toNat)
  | .srai => wrap (a.toInt / 2 ^ sh.toNat)
/-- branch condition -/
def taken (op : BranchOp) (a b : W) : Bool :=
  match op with
  | .beq => decide (a = b) | .bne => decide (a ≠ b)
  | .blt => decide (a.toInt < b.toInt) | .bge => decide (a.toInt ≥ b.toInt)
  | .bltu => decide (a.toNat < b.toNat) | .bgeu => decide (a.toNat ≥ b.toNat)
/-- access width in bytes -/
def loadN : LoadOp → Nat
  | .lb | .lbu => 1 | .lh | .lhu => 2 | .lw => 4
/-- access width in bytes -/
def storeN : StoreOp → Nat
  | .sb => 1 | .sh => 2 | .sw => 4
/-- register value of a load of the number `v` -/
def loadExt (op : LoadOp) (v : Nat) : W :=
  match op with
  | .lb => (BitVec.ofNat 8 v).signExtend 32
  | .lh => (BitVec.ofNat 16 v).signExtend 32
  | .lw | .lbu | .lhu => BitVec.ofNat 32 v

/-- main memory range -/
def inRam (a : W) : Prop := 0x80000000 ≤ a.toNat ∧ a.toNat < 0x80020000
instance (a : W) : Decidable (inRam a) := inferInstanceAs (Decidable (_ ∧ _))
/-- peripheral ranges -/
def inDev (uart : Bool) (a : W) : Prop :=
  (uart = true ∧ 0x10013000 ≤ a.toNat ∧ a.toNat < 0x1001300c) ∨
  (0x02000000 ≤ a.toNat ∧ a.toNat < 0x02000020)
instance (u : Bool) (a : W) : Decidable (inDev u a) := inferInstanceAs (Decidable (_ ∨ _))
/-- instruction address alignment: IALIGN is 32, or 16 with the C extension -/
def ialigned (rv32c : Bool) (a : W) : Prop := if rv32c then a.toNat % 2 = 0 else a.toNat % 4 = 0
instance (c : Bool) (a : W) : Decidable (ialigned c a) := by unfold ialigned; infer_instance

/-- MRET: MIE takes MPIE, MPIE becomes 1, MPP stays machine mode -/
def mretStatus (m : W) : W :=
  if m.getLsbD 7 then m ||| 0x88#32 else (m ||| 0x80#32) &&& ~~~8#32

/-- trap entry: mepc, mcause, mtval, mstatus (MPIE := MIE, MIE := 0), pc := mtvec -/
def trapEntry (cause tval : W) (a : Arch) : Arch :=
  { a with
    pc := a.csr 0x305#16
    csr := fun x =>
      if x = 0x341#16 then a.pc
      else if x = 0x342#16 then cause
      else if x = 0x343#16 then tval
      else if x = 0x300#16 then
        (if (a.csr 0x300#16).getLsbD 3 then a.csr 0x300#16 ||| 0x80#32
          else a.csr 0x300#16 &&& ~~~0x80#32) &&& ~~~8#32
      else a.csr x }

/-- effect of one instruction of `len` bytes, CSR instructions excepted -/
def execL (len : W) (P : Plat) (i : Instr) (a : Arch) : Out :=
  let seq := a.pc + len
  match i with
  | .alu op rd rs1 rs2 =>
    .retire { a with rf := wx a.rf rd (alu op (rx a.rf rs1) (rx a.rf rs2)), pc := seq }
  | .alui op rd rs1 imm =>
    .retire { a with rf := wx a.rf rd (iop op (rx a.rf rs1) (imm.signExtend 32)), pc := seq }
  | .shift op rd rs1 sh =>
    .retire { a with rf := wx a.rf rd (shop op (rx a.rf rs1) sh), pc := seq }
  | .lui rd imm => .retire { a with rf := wx a.rf rd (imm.setWidth 32 <<< 12), pc := seq }
  | .auipc rd imm => .retire { a with rf := wx a.rf rd (a.pc + (imm.setWidth 32 <<< 12)), pc := seq }
  | .load op rd rs1 imm =>
    let ad := rx a.rf rs1 + imm.signExtend 32
    if inRam ad then
      if ad.toNat % loadN op ≠ 0 then .misaligned 4#32 ad
      else if P.readable ad then
        .retire { a with rf := wx a.rf rd (loadExt op (le a.mem ad (loadN op))), pc := seq }
      else .denied
    else if inDev P.uart ad then .device
    else .trap 5#32 ad
  | .store op rs2 rs1 imm =>
    let ad := rx a.rf rs1 + imm.signExtend 32
    if inRam ad then
      if ad.toNat % storeN op ≠ 0 then .misaligned 6#32 ad
      else if P.writable ad then
        .retire { a with mem := put a.mem ad (rx a.rf rs2).toNat (storeN op), pc := seq }
      else .denied
    else if inDev P.uart ad then .device
    else .trap 7#32 ad
  | .branch op rs1 rs2 off =>
    if taken op (rx a.rf rs1) (rx a.rf rs2) then
      let tgt := a.pc + (dbl off).signExtend 32
      if ialigned P.rv32c tgt then .retire { a with pc := tgt } else .trap 0#32 tgt
    else .retire { a with pc := seq }
  | .jal rd off =>
    let tgt := a.pc + (dbl off).signExtend 32
    if ialigned P.rv32c tgt then .retire { a with pc := tgt, rf := wx a.rf rd seq }
    else .trap 0#32 tgt
  | .jalr rd rs1 imm =>
    -- "setting the least-significant bit of the result to zero"
    let tgt := BitVec.ofNat 32 ((rx a.rf rs1 + imm.signExtend 32).toNat / 2 * 2)
    if ialigned P.rv32c tgt then .retire { a with pc := tgt, rf := wx a.rf rd seq }
    else .trap 0#32 tgt
  | .ecall => .trap 11#32 (encode .ecall)
  | .ebreak => .trap 3#32 (encode .ebreak)
  | .mret =>
    .retire { a with
      pc := a.csr 0x341#16
      csr := fun x => if x = 0x300#16 then mretStatus (a.csr x) else a.csr x }
  | .wfi => .retire { a with pc := seq }
  | .fence .. => .retire { a with pc := seq }
  | .fencei => .retire { a with pc := seq }

/-- effect of a 32-bit instruction -/
abbrev exec (P : Plat) (i : Instr) (a : Arch) : Out := execL 4#32 P i a

end Ama.Spec
