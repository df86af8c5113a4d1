import Verif.Spec.Isa
import Verif.Spec.Csr
import Verif.Spec.Simd
import Verif.Spec.Compressed
/-!
# Which words are instructions

The union of the instruction listings: RV32IM with min/max, Zifencei, Zicsr, the non-CSR system
instructions, and in builds with the custom extension the packed SIMD instructions and the two
scratchpad hints (`binutils.patch`: `MATCH_SCP_LCL`, `MATCH_SCP_REL` under a mask that includes
the rs2 field).
-/
namespace Ama.Spec

/-- 32-bit words that are instructions -/
inductive Defined (simd : Bool) : W → Prop where
  | base (i : Instr) : Defined simd (encode i)
  | csr (a : BitVec 12) (rs1 : BitVec 5) (f3 : BitVec 3) (rd : BitVec 5) (h : CsrF3 f3) :
      Defined simd (encI a rs1 f3 rd 0x73#7)
  | x1 (x : X1) (m : W) (rd rs1 rs2 : BitVec 5) (hs : simd = true) (h : x.match? = some m) :
      Defined simd (xWord m rd rs1 rs2)
  | x2 (x : X2) (m : W) (rd rs1 rs2 : BitVec 5) (hs : simd = true) (h : x.match? = some m) :
      Defined simd (xWord m rd rs1 rs2)
  | scpLcl (rd rs1 : BitVec 5) (hs : simd = true) : Defined simd (xWord 0xfe00000b#32 rd rs1 0#5)
  | scpRel (rd rs1 : BitVec 5) (hs : simd = true) : Defined simd (xWord 0xfe00100b#32 rd rs1 0#5)

/-- halfwords that are instructions of the C extension -/
def DefinedC (h : W) : Prop := ∃ ci : CInstr, ci.legal ∧ h = encodeC ci

end Ama.Spec
