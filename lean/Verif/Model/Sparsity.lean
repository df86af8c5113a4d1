import Verif.Model.ProfRf
import Verif.Model.ProfTrace
/-!
# The sparsity counters

Model of `profiler::log_sparsity` (`/repo/src/profilers/profiler.h`) and of its calls (`PROF_SPARSITY`,
`PROF_SPARSITY_ANY` of `defines.h`).

Simplified: counters are natural numbers; of the instructions that trap only stores are modelled (the reserved compressed
encodings that trap and go on also make calls); a value loaded to x0 is a parameter, because the state does not show it;
the calls of one instruction are in another order, which the counters do not tell.
-/
namespace Ama.Sparsity
open M
open ProfRf (usesOf rfAt)
open ProfTrace (newRec)
variable {σ : Type}

/-- profiler.h:276-283 `sparsity_t` -/
inductive Cls where
  | any | memL | memS | alu | mul | divA | divB | dot | smul | salu
  deriving DecidableEq, Repr
/-- a call of `log_sparsity` -/
abbrev Call := Cls × Bool
/-- defines.h:700-701 `PROF_SPARSITY` -/
def call (a b : W) (c : Cls) : Call := (c, a == 0#32 || b == 0#32)

/-- defines.h:111-160, `CASE_ALU_REG_OP`, `CASE_ALU_REG_MUL_OP`, `CASE_ALU_REG_DIV_OP`, `CASE_ALU_REG_ZBB_OP` -/
def aluCalls (op : AluOp) (a b : W) : List Call :=
  match op with
  | .mul | .mulh | .mulhsu | .mulhu => [call a b .mul]
  | .div | .divu | .rem | .remu => [call a 1#32 .divA, call 1#32 b .divB]
  | _ => [call a b .alu]
/-- defines.h:220-381, with the classes given at core.cpp:815-1001; `a`, `b`: rs1 and rs2; `sh`: the rs2 field -/
def simdCalls (op : Simd.Op) (a b sh : W) : List Call :=
  match op with
  | .addSub .. | .minMax .. => [call a b .salu]
  | .shift .. => [call a sh .salu]
  | .mul .. | .wmul .. => [call a b .smul]
  | .dot .. => [call a b .dot]
  | .widen .. | .narrow .. | .txp .. | .dup .. | .vins .. | .vext .. | .scp .. => []
/-- core_exec_c.cpp:7-360; `x`: registers before, `y`: value loaded.  `c_addi` reads the register of the 32-bit rs1 field;
`c_and`, `c_or`, `c_xor`, `c_sub` and `c_add` pass a register number for the second operand. -/
def compCalls (w : W) (op : COp) (x : BitVec 5 → W) (y : BitVec 5 → W) : List Call :=
  match op with
  | .addi => [call (x (IP.rs1 w)) (IP.cImmArith w) .alu]
  | .li => [call 1#32 (IP.cImmArith w) .alu]
  | .addi16sp | .addi4spn => [call (x 2#5) 1#32 .alu]
  | .srli | .srai | .andi => [call (x (IP.cRegh w)) (IP.cImmArith w) .alu]
  | .and | .or | .xor | .sub => [call (x (IP.cRegh w)) ((IP.cRegl w).setWidth 32) .alu]
  | .slli => [call (x (IP.rd w)) (IP.cImmSlli w) .alu]
  | .mv => [call (x (IP.cRs2 w)) 1#32 .alu]
  | .add => [call (x (IP.rd w)) ((IP.cRs2 w).setWidth 32) .alu]
  | .lw => [call (y (IP.cRegl w)) 1#32 .memL]
  | .lwsp => [call (y (IP.rd w)) 1#32 .memL]
  | .sw => [call (x (IP.cRegl w)) 1#32 .memS]
  | .swsp => [call (x (IP.cRs2 w)) 1#32 .memS]
  | .lui | .nop | .ebreak | .j | .jal | .jr | .jalr => []
/-- the calls about the inputs of an instruction; `x`, `x'`: registers before and after, `ld`: what a load to x0 read -/
def inCalls (ld : W) (r : ProfRec) (x x' : BitVec 5 → W) : List Call :=
  let w := r.inst
  let y : BitVec 5 → W := fun k => if k = 0#5 then ld else x' k
  match r.ev with
  | .alu op => aluCalls op (x (IP.rs1 w)) (x (IP.rs2 w))
  | .alui _ => [call (x (IP.rs1 w)) (IP.immI w) .alu]
  | .load _ => [call (y (IP.rd w)) 1#32 .memL]
  | .store _ => [call (x (IP.rs2 w)) 1#32 .memS]
  | .simd op => simdCalls op (x (IP.rs1 w)) (x (IP.rs2 w)) ((IP.rs2 w).setWidth 32)
  | .c op => compCalls w op x y
  | _ => []
/-- core.h:100-115 `write_rf`, `write_rf_pair`, for a use of a register; a pair at x0 is not written -/
def outCall (x' : BitVec 5 → W) : ProfRf.Use × ProfRf.Reg → Option Call
  | (.rd, k) => if k = 0 then none else some (.any, rfAt x' k == 0#32)
  | (.rdp, k) => if k ≤ 1 then none else some (.any, rfAt x' k == 0#32)
  | _ => none
/-- the calls of `write_rf` and `write_rf_pair`: the registers written are taken from the calls of the register profiler
(`ProfRf`), which every instruction that writes one makes -/
def outCalls (r : ProfRec) (x' : BitVec 5 → W) : List Call := (usesOf r).filterMap (outCall x')
/-- does a store that trapped make its call (it comes first)? -/
def trappedStore (w : W) (x : BitVec 5 → W) : List Call :=
  if IP.copcode w = 3#2 then
    if IP.opcode w = 0x23#7 ∧ (storeSel (IP.funct3 w)).isSome then [call (x (IP.rs2 w)) 1#32 .memS] else []
  else if IP.cFunct3 w = 6#3 then
    if IP.copcode w = 0#2 then [call (x (IP.cRegl w)) 1#32 .memS]
    else if IP.copcode w = 2#2 then [call (x (IP.cRs2 w)) 1#32 .memS]
    else []
  else []
/-- the calls of `exec`; `q0`, `q1`: before and after -/
def execCalls (ld : W) (q0 q1 : St σ) : List Call :=
  if q1.trapped then (if (newRec q0 q1).isNone then trappedStore q1.inst q0.rf else [])
  else (newRec q0 q1).elim [] fun r => inCalls ld r q0.rf q1.rf ++ outCalls r q1.rf

/-- profiler.h:267-274, 316: total and sparse, by class -/
abbrev Cnt := Cls → Nat × Nat
/-- profiler.h:329-333 `log_sparsity`, in an active profiler -/
def log (n : Cnt) (x : Call) : Cnt := fun c =>
  if c = x.1 then ((n c).1 + 1, (n c).2 + if x.2 then 1 else 0) else n c
/-- a sequence of calls; they come before an instruction switches profiling on or off (core_exec_i_arith.cpp:28-40) -/
def Cnt.exec (ld : W) (n : Cnt) (q0 q1 : St σ) : Cnt :=
  if q0.profActive then (execCalls ld q0 q1).foldl log n else n

/-- core.cpp:139-156 with the counters -/
def stepExecS (E : Env σ) (ld : W) (n : Cnt) : M σ Cnt := do
  let act ← get (·.wfiActive)
  let aboutToWfi ←
    (if act then pure false
    else do
      let pc ← get (·.pc)
      let w ← justInst pc
      pure (w == 0x10500073#32))
  let noTrapInt ← checkInterrupts E aboutToWfi
  mod fun s => { s with wfiActive := s.wfiActive && !(s.trapped || noTrapInt) }
  let trp ← get (·.trapped)
  let act ← get (·.wfiActive)
  if !trp && (!act || noTrapInt) then do
    fetch E
    let q0 ← get id
    exec E
    let q1 ← get id
    pure (n.exec ld q0 q1)
  else pure n
/-- core.cpp:112-215 `single_step` with the counters -/
def stepS (E : Env σ) (ld : W) (n : Cnt) : M σ Cnt := do
  mod fun s => { s with trapped := false }
  let exit ← profWindow E
  if exit then pure n
  else do
    let n ← stepExecS E ld n
    mod fun s => { s with simStep := s.simStep + 1#64 }
    let k ← get (·.simStep)
    if k = E.cfg.runSteps then do
      mod fun s => { s with running := false }
      pure n
    else do
      stepFinish E
      pure n
/-- `k` iterations of core.cpp:104 with the counters -/
def runS (E : Env σ) (ld : W) : Nat → Cnt → M σ Cnt
  | 0, n => pure n
  | k + 1, n => do
    let r ← get (·.running)
    if r then do
      let n ← stepS E ld n
      runS E ld k n
    else pure n
end Ama.Sparsity
