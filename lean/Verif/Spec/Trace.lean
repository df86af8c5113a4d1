import Verif.Spec.Compressed
/-!
# What an instruction trace should say

Control transfers and data accesses of instructions, from the manuals.
-/
namespace Ama.Spec

/-- a jump, or a branch whose condition holds -/
def transfers (rf : BitVec 5 → W) : Instr → Bool
  | .branch op rs1 rs2 _ => taken op (rx rf rs1) (rx rf rs2)
  | .jal .. | .jalr .. => true
  | _ => false

/-- a data access: direction, width in bytes, address -/
structure Access where
  store : Bool
  bytes : Nat
  addr : W
  deriving DecidableEq
/-- the data access of an instruction -/
def access (rf : BitVec 5 → W) : Instr → Option Access
  | .load op _ rs1 imm => some ⟨false, loadN op, rx rf rs1 + imm.signExtend 32⟩
  | .store op _ rs1 imm => some ⟨true, storeN op, rx rf rs1 + imm.signExtend 32⟩
  | _ => none

/-- the instruction a word stands for; `none` for CSR and custom instructions, which neither transfer control nor access
data -/
inductive Meaning : W → Option Instr → Prop
  | base (i : Instr) : Meaning (encode i) (some i)
  | comp (i : CInstr) : i.legal → Meaning (encodeC i) (some (expand i))
  | csr (a : BitVec 12) (rs1 rd : BitVec 5) (f3 : BitVec 3) : f3 ≠ 0#3 → Meaning (encI a rs1 f3 rd 0x73#7) none
  | custom (w : W) : w.setWidth 7 = 0x0b#7 → Meaning w none

/-- bytes of an instruction: 4 if the two low bits are 11, else 2 -/
def instBytes (w : W) : Nat := if w.toNat % 4 = 3 then 4 else 2

/-- main memory above the stack pointer -/
def onStack (sp a : W) : Prop := sp.toNat ≤ a.toNat ∧ a.toNat < 0x80020000
instance (sp a : W) : Decidable (onStack sp a) := inferInstanceAs (Decidable (_ ∧ _))
/-- STORE opcode with a width that RV32 does not define -/
def undefStore (w : W) : Prop := w.setWidth 7 = 0x23#7 ∧ 3 ≤ (w.extractLsb' 12 3).toNat
instance (w : W) : Decidable (undefStore w) := inferInstanceAs (Decidable (_ ∧ _))
end Ama.Spec
