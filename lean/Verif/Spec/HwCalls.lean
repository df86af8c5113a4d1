import Verif.Spec.Events
import Verif.Spec.Mem
import Verif.Model.State
/-!
# What the hardware models should be told

The caches, the branch predictor and the divider of a build with hardware models are driven by the core through the entry
points of `Hw`.  This file lists those entry points as calls and says which of them an instruction should make, from the
instruction alone.
-/
namespace Ama.Spec
variable {σ : Type}

/-- one call of an entry point of the hardware models -/
inductive HwCall where
  /-- instruction cache read at an offset in main memory -/
  | icRd (a : W)
  /-- data cache read: offset, bytes -/
  | dcRd (a : W) (n : Nat)
  /-- data cache write: offset, value, bytes -/
  | dcWr (a v : W) (n : Nat)
  /-- cache line hint -/
  | scp (a : W) (m : Simd.ScpMode)
  /-- the ideal predictor is told the outcome -/
  | ideal (n : W)
  /-- a prediction is asked for: address, offset, condition field -/
  | predict (pc imm : W) (f3 : BitVec 3)
  /-- the predictor is told the outcome -/
  | update (pc n : W)
  /-- a division: operands, unsigned? -/
  | div (a b : W) (u : Bool)
  /-- statistics on or off -/
  | prof (on : Bool)
  deriving DecidableEq

/-- effect of a call -/
def HwCall.run (h : Hw σ) : HwCall → σ → σ
  | .icRd a => h.icRd a
  | .dcRd a n => h.dcRd a n
  | .dcWr a v n => h.dcWr a v n
  | .scp a m => fun g => (h.scp a m g).2
  | .ideal n => h.bpIdeal n
  | .predict pc imm f3 => fun g => (h.bpPredict pc imm f3 g).2
  | .update pc n => h.bpUpdate pc n
  | .div a b u => h.divEval a b u
  | .prof on => h.profiling on
/-- effect of a sequence of calls, first call first -/
def replay (h : Hw σ) (l : List HwCall) (g : σ) : σ := l.foldl (fun g c => c.run h g) g

/-- an instruction fetch -/
def HwCall.fetch : HwCall → Bool
  | .icRd _ => true
  | _ => false
/-- a switch of the statistics -/
def HwCall.switch : HwCall → Bool
  | .prof _ => true
  | _ => false
/-- all but the instruction fetches -/
def own (l : List HwCall) : List HwCall := l.filter (fun c => !c.fetch)
/-- whether statistics are on after some calls -/
def flagAfter (b : Bool) : List HwCall → Bool
  | [] => b
  | .prof on :: l => flagAfter on l
  | _ :: l => flagAfter b l

/-- offset in main memory, for an address in main memory -/
def mainOff (a : W) : Option W := if 0x80000000 ≤ a.toNat ∧ a.toNat < 0x80020000 then some (a - 0x80000000#32) else none

/-- the data cache sees loads and stores in main memory -/
def dataCalls (rf : BitVec 5 → W) : Instr → List HwCall
  | .load op _ rs1 imm =>
    match mainOff (rx rf rs1 + imm.signExtend 32) with
    | some o => [.dcRd o (loadN op)]
    | none => []
  | .store op rs2 rs1 imm =>
    match mainOff (rx rf rs1 + imm.signExtend 32) with
    | some o => [.dcWr o (rx rf rs2) (storeN op)]
    | none => []
  | _ => []
/-- the divider sees divisions and remainders -/
def divCalls (rf : BitVec 5 → W) : Instr → List HwCall
  | .alu .div _ rs1 rs2 | .alu .rem _ rs1 rs2 => [.div (rx rf rs1) (rx rf rs2) false]
  | .alu .divu _ rs1 rs2 | .alu .remu _ rs1 rs2 => [.div (rx rf rs1) (rx rf rs2) true]
  | _ => []
/-- the predictor sees branches: it is asked, and told where the program went on -/
def bpCalls (pc next : W) : Instr → List HwCall
  | .branch op _ _ off => [.ideal next, .predict pc ((dbl off).signExtend 32) (branchF op), .update pc next]
  | _ => []

/-- the calls of the instruction a word stands for; `next` is where the program goes on.  Compressed branches are not
predicted; reserved forms of compressed loads and stores count as loads and stores. -/
inductive HwCalls (rf : BitVec 5 → W) (pc next : W) : W → List HwCall → Prop
  | base (i : Instr) : HwCalls rf pc next (encode i) (bpCalls pc next i ++ dataCalls rf i ++ divCalls rf i)
  | comp (i : CInstr) : HwCalls rf pc next (encodeC i) (dataCalls rf (expand i))
  | csr (a : BitVec 12) (rs1 rd : BitVec 5) (f3 : BitVec 3) : f3 ≠ 0#3 → HwCalls rf pc next (encI a rs1 f3 rd 0x73#7) []
  | x1 (x : X1) (m : W) (rd rs1 rs2 : BitVec 5) : x.match? = some m → HwCalls rf pc next (xWord m rd rs1 rs2) []
  | x2 (x : X2) (m : W) (rd rs1 rs2 : BitVec 5) : x.match? = some m → HwCalls rf pc next (xWord m rd rs1 rs2) []
  /-- the address of a hint is taken modulo the size of main memory -/
  | lcl (rd rs1 rs2 : BitVec 5) :
    HwCalls rf pc next (xWord 0xfe00000b#32 rd rs1 rs2) [.scp (rx rf rs1 &&& 0x1ffff#32) .lcl]
  | rel (rd rs1 rs2 : BitVec 5) :
    HwCalls rf pc next (xWord 0xfe00100b#32 rd rs1 rs2) [.scp (rx rf rs1 &&& 0x1ffff#32) .rel]
  /-- words that by their opcode are no load, store, division, branch or hint, defined or not -/
  | other (w : W) : (w.extractLsb' 0 2 = 1#2 ∨ (w.extractLsb' 0 2 ≠ 3#2 ∧ w.extractLsb' 13 3 ≠ 2#3 ∧ w.extractLsb' 13 3 ≠ 6#3) ∨
      w.extractLsb' 0 7 ∈ [0x0f#7, 0x13#7, 0x17#7, 0x37#7, 0x67#7, 0x6f#7, 0x73#7]) → HwCalls rf pc next w []
/-- a word with the branch opcode and an undefined condition raises an exception, but the models are told of a branch at the trap
handler `h` that goes to the word after the malformed one -/
inductive BadBranch (pc h : W) : W → List HwCall → Prop
  | mk (off : BitVec 12) (rs1 rs2 : BitVec 5) (f3 : BitVec 3) : f3 = 2#3 ∨ f3 = 3#3 → BadBranch pc h (encB (dbl off) rs2 rs1 f3 0x63#7)
      [.ideal (pc + 4#32), .predict h ((dbl off).signExtend 32) f3, .update h (pc + 4#32)]
/-- contents of main memory after the data cache was told of some stores -/
def memAfter (f : W → BitVec 8) : List HwCall → W → BitVec 8
  | [] => f
  | .dcWr a v n :: l => memAfter (put f a v.toNat n) l
  | _ :: l => memAfter f l
/-- the call is one about main memory (128 KiB): aligned data accesses, even fetch addresses with all four bytes in storage -/
def HwCall.inMain (sz : Nat) : HwCall → Prop
  | .icRd a => a.toNat % 2 = 0 ∧ a.toNat < 0x20000 ∧ a.toNat + 4 ≤ sz
  | .dcRd a n | .dcWr a _ n => (n = 1 ∨ n = 2 ∨ n = 4) ∧ a.toNat % n = 0 ∧ a.toNat + n ≤ 0x20000
  | .scp a _ => a.toNat < 0x20000
  | _ => True

/-- Between `s` and `q` the hardware models were told `m`, after switches of the statistics that agree with the profiler; the
instruction fetches are left out.  All calls are about main memory, and main memory changed by the stores told, only. -/
def Tells (E : Env σ) (s q : St σ) (m : List HwCall) : Prop :=
  ∃ p c, q.hw = replay E.hw c s.hw ∧ own c = p ++ m ∧ (∀ x ∈ p, x.switch = true) ∧
    (E.cfg.profilers = true → flagAfter s.profActive p = q.profActive) ∧ (E.cfg.profilers = false → p = []) ∧
    q.ram.size = s.ram.size ∧ (s.ram.size = 0x20000 → q.ram.bytes = memAfter s.ram.bytes c) ∧ ∀ x ∈ c, x.inMain s.ram.size

/-- the calls of a sequence that are neither fetches nor switches, each with whether statistics are on -/
def seen : Bool → List HwCall → List (Bool × HwCall)
  | _, [] => []
  | _, .prof on :: l => seen on l
  | b, .icRd _ :: l => seen b l
  | b, c :: l => (b, c) :: seen b l
end Ama.Spec
