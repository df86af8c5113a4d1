import Verif.Lemmas.Twp
import Verif.Spec.Isa
/-!
# CSRs as a program sees them

The address map with its writable bits, and the value a read returns.  The simulator keeps the
counters lazily (stored value plus what has elapsed since); `minstretOf` and `mcycleOf` are the
numbers that representation stands for.
-/
namespace Ama.Spec

/-- how a CSR address behaves -/
inductive CsrKind where
  /-- not implemented -/
  | absent
  /-- read-only: a write is illegal -/
  | ro
  /-- a write changes exactly the bits of the mask -/
  | wr (mask : W)
  deriving DecidableEq

/-- the address map, by number -/
def csrKind (rv32c : Bool) (a : Nat) : CsrKind :=
  -- tohost
  if a = 0x51e then .wr 0xffffffff#32
  -- mvendorid, marchid, mimpid
  else if a = 0xf11 ∨ a = 0xf12 ∨ a = 0xf13 then .wr 0#32
  -- mhartid, mconfigptr, misa, mip
  else if a = 0xf14 ∨ a = 0xf15 ∨ a = 0x301 ∨ a = 0x344 then .ro
  -- mstatus: MPP is fixed
  else if a = 0x300 then .wr 0xffffe7ff#32
  -- mtvec, mepc: low bits are fixed
  else if a = 0x305 ∨ a = 0x341 then .wr (if rv32c then 0xfffffffe#32 else 0xfffffffc#32)
  -- mstatush, mie, mscratch, mcause, mtval
  else if a = 0x310 ∨ a = 0x304 ∨ a = 0x340 ∨ a = 0x342 ∨ a = 0x343 then .wr 0xffffffff#32
  -- mcycle, mcycleh
  else if a = 0xb00 ∨ a = 0xb80 then .wr 0xffffffff#32
  -- minstret, mhpmcounter3..8 and their high halves, mhpmevent3..8
  else if (0xb02 ≤ a ∧ a ≤ 0xb08) ∨ (0xb82 ≤ a ∧ a ≤ 0xb88) ∨ (0x323 ≤ a ∧ a ≤ 0x328) then .wr 0xffffffff#32
  -- mhpmcounter9..31 and high halves, mhpmevent9..31, mcountinhibit
  else if (0xb09 ≤ a ∧ a ≤ 0xb1f) ∨ (0xb89 ≤ a ∧ a ≤ 0xb9f) ∨ (0x329 ≤ a ∧ a ≤ 0x33f) ∨ a = 0x320 then .wr 0#32
  -- cycle, time, instret, hpmcounter3..31 and high halves
  else if (0xc00 ≤ a ∧ a ≤ 0xc1f) ∨ (0xc80 ≤ a ∧ a ≤ 0xc9f) then .wr 0#32
  else .absent

/-- low and high half of a 64-bit number -/
def lo32 (v : BitVec 64) : W := v.setWidth 32
def hi32 (v : BitVec 64) : W := (v >>> 32).setWidth 32
/-- the number with the given halves -/
def pair (hi lo : W) : BitVec 64 := hi ++ lo

/-- the 64-bit instruction counter -/
def minstretOf (k : Core) : BitVec 64 := pair (k.csr 0xb82#16) (k.csr 0xb02#16) + (k.simInst - k.csrInst)
/-- the 64-bit cycle counter -/
def mcycleOf (k : Core) : BitVec 64 := pair (k.csr 0xb80#16) (k.csr 0xb00#16) + (k.simStep - k.csrStep)

/-- the value a program reads from CSR `a` -/
def csrView (k : Core) (a : BitVec 16) : W :=
  let n := a.toNat
  if n = 0xb02 ∨ n = 0xc02 then lo32 (minstretOf k)
  else if n = 0xb82 ∨ n = 0xc82 then hi32 (minstretOf k)
  else if n = 0xb00 ∨ n = 0xc00 then lo32 (mcycleOf k)
  else if n = 0xb80 ∨ n = 0xc80 then hi32 (mcycleOf k)
  else if n = 0xc01 then lo32 (mtimeOf k.clint.dev)
  else if n = 0xc81 then hi32 (mtimeOf k.clint.dev)
  else if (0xc03 ≤ n ∧ n ≤ 0xc1f) ∨ (0xc83 ≤ n ∧ n ≤ 0xc9f) then k.csr (a - 0x100#16)
  else k.csr a

/-- the operand: a register, or the five-bit immediate zero-extended -/
def csrOperand (f3 : BitVec 3) (rs1 : BitVec 5) (rf : BitVec 5 → W) : W :=
  if f3 = 1#3 ∨ f3 = 2#3 ∨ f3 = 3#3 then rx rf rs1 else rs1.setWidth 32
/-- write, set bits, clear bits -/
def csrNew (f3 : BitVec 3) (old x : W) : W :=
  if f3 = 1#3 ∨ f3 = 5#3 then x else if f3 = 2#3 ∨ f3 = 6#3 then old ||| x else old &&& ~~~x
/-- does the instruction write the CSR at all -/
def csrWrites (f3 : BitVec 3) (rs1 : BitVec 5) : Prop := f3 = 1#3 ∨ f3 = 5#3 ∨ rs1 ≠ 0#5
/-- the six CSR instructions -/
def CsrF3 (f3 : BitVec 3) : Prop := f3 ≠ 0#3 ∧ f3 ≠ 4#3
/-- a write through a mask -/
def masked (mask old new : W) : W := (old &&& ~~~mask) ||| (new &&& mask)

instance (f3 : BitVec 3) (rs1 : BitVec 5) : Decidable (csrWrites f3 rs1) := by unfold csrWrites; infer_instance
instance (f3 : BitVec 3) : Decidable (CsrF3 f3) := by unfold CsrF3; infer_instance

end Ama.Spec
