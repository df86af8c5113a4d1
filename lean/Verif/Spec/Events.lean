import Verif.Spec.Trace
import Verif.Spec.Simd
/-!
# Performance events

Which retired instructions an event counts: from the instruction groups of `/repo/script/run_analysis.py:86-175` and the
sums of `/repo/script/hw_perf_est.py:544-568`, with compressed instructions counted as what they expand to (the script also
lists `c.li`, an immediate load, as a memory load; that is taken as a slip).
-/
namespace Ama.Spec

/-- the retirement events -/
inductive Event where
  | inst | ctrl | jumpReg | branch | mem | memLoad | mul | div | simd | simdArith | simdDot
  deriving DecidableEq, Repr

/-- an instruction of any of the instruction sets -/
inductive Any where
  | base (i : Instr)
  | csr
  | x1 (x : X1)
  | x2 (x : X2)
  /-- cache line hints -/
  | hint

/-- the instruction a word stands for -/
inductive Word : W → Any → Prop
  | base (i : Instr) : Word (encode i) (.base i)
  | comp (i : CInstr) : i.legal → Word (encodeC i) (.base (expand i))
  | csr (a : BitVec 12) (rs1 rd : BitVec 5) (f3 : BitVec 3) : f3 ≠ 0#3 → Word (encI a rs1 f3 rd 0x73#7) .csr
  | x1 (x : X1) (m : W) (rd rs1 rs2 : BitVec 5) : x.match? = some m → Word (xWord m rd rs1 rs2) (.x1 x)
  | x2 (x : X2) (m : W) (rd rs1 rs2 : BitVec 5) : x.match? = some m → Word (xWord m rd rs1 rs2) (.x2 x)
  | lcl (rd rs1 rs2 : BitVec 5) : Word (xWord 0xfe00000b#32 rd rs1 rs2) .hint
  | rel (rd rs1 rs2 : BitVec 5) : Word (xWord 0xfe00100b#32 rd rs1 rs2) .hint

/-- arithmetic, as opposed to data formatting -/
def X1.arith : X1 → Bool
  | .narrow _ | .qnarrow .. | .dup _ | .vins _ | .vext .. => false
  | _ => true
def X2.arith : X2 → Bool
  | .wmul .. => true
  | _ => false

/-- does the event count the instruction? -/
def Event.counts (e : Event) (a : Any) : Bool :=
  match e, a with
  | .inst, _ => true
  | .ctrl, .base (.branch ..) | .ctrl, .base (.jal ..) | .ctrl, .base (.jalr ..) => true
  | .jumpReg, .base (.jalr ..) => true
  | .branch, .base (.branch ..) => true
  | .mem, .base (.load ..) | .mem, .base (.store ..) => true
  | .memLoad, .base (.load ..) => true
  | .mul, .base (.alu op ..) => [AluOp.mul, .mulh, .mulhsu, .mulhu].contains op
  | .div, .base (.alu op ..) => [AluOp.div, .divu, .rem, .remu].contains op
  | .simd, .x1 _ | .simd, .x2 _ => true
  | .simdArith, .x1 x => x.arith
  | .simdArith, .x2 x => x.arith
  | .simdDot, .x1 (.dot ..) => true
  | _, _ => false

/-- does it transfer control? -/
def Any.moves (rf : BitVec 5 → W) : Any → Bool
  | .base .mret => true
  | .base i => transfers rf i
  | _ => false
end Ama.Spec
