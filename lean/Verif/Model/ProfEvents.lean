import Verif.Model.ProfPerf
import Verif.Model.ProfTrace
/-!
# The core's calls of the callstack profiler

The calls of `profiler_perf` made by one step of the core, in order, in a build with profilers.  What the profiler does with
them is in `ProfPerf.lean`.

Simplified: the events of the hardware models (`bp_miss` and later members of `perf_event_t`) are left out, and so is
DPI.  `set_active` with the value it has already is left out (it does nothing).
-/
namespace Ama.PerfCore
open M
open Perf (Op)
open ProfTrace (newRec badStore)
variable {σ : Type}

/-- `perf_event_t` (types.h:420-431) -/
def retInst : Nat := 0
def retCtrl : Nat := 1
def retJr : Nat := 2
def retBr : Nat := 3
def retMem : Nat := 4
def retLoad : Nat := 5
def retMul : Nat := 6
def retDiv : Nat := 7
def retSimd : Nat := 8
def retArith : Nat := 9
def retDot : Nat := 10

/-- `PROF_SET_PERF_EVENT_*` (defines.h:664-684) -/
def sets (l : List Nat) : List Op := l.map fun e => .flag e true

/-- defines.h:122-151: the events of a register instruction -/
def aluEvents : AluOp → List Nat
  | .mul | .mulh | .mulhsu | .mulhu => [retMul]
  | .div | .divu | .rem | .remu => [retDiv]
  | _ => []
/-- core.cpp:810-986: the events of a custom instruction are set before `funct3` is looked at -/
def simdEvents (f7 : BitVec 7) : List Nat :=
  match f7 with
  | 0x00#7 | 0x01#7 | 0x02#7 | 0x03#7 | 0x08#7 | 0x09#7 => [retSimd, retArith]
  | 0x04#7 => [retSimd, retArith, retDot]
  | 0x20#7 | 0x22#7 | 0x23#7 | 0x30#7 | 0x3c#7 | 0x3d#7 => [retSimd]
  | _ => []

/-- the calls that follow a call of the instruction profiler: core.cpp:567-568, 590, 623-625, 684-694, 713-715, 767,
core_exec_c.cpp:280-281, 307-308, 334, 355, 378-381, 400-403, 416-417, 433-434, 454-459, 480-482 (types.h:92-94 for returns;
`c.j` and `c.jal` pass `false` as return address) -/
def recCalls (r : ProfRec) : List Op :=
  let w := r.inst
  match r.ev with
  | .alu op => sets (aluEvents op)
  | .load _ => sets [retMem, retLoad]
  | .store _ => sets [retMem]
  | .branch _ t => .branch r.nextPc t :: sets [retBr, retCtrl]
  | .jalr => .jalr r.nextPc (w == 0x8067#32 || w == 0x28067#32) (IP.rd w == 0#5) (r.pc + 4#32) :: sets [retJr, retCtrl]
  | .jal => .jal r.nextPc (IP.rd w == 0#5) (r.pc + 4#32) :: sets [retCtrl]
  | .mret => [.jalr r.nextPc true false 0#32]
  | .c .lw | .c .lwsp => sets [retMem, retLoad]
  | .c .sw | .c .swsp => sets [retMem]
  | .cBeqz _ | .cBnez _ => .branch r.nextPc (r.nextPc != r.pc + 2#32) :: sets [retBr, retCtrl]
  | .c .j => .jal r.nextPc true 0#32 :: sets [retCtrl]
  | .c .jal => .jal r.nextPc false 0#32 :: sets [retCtrl]
  | .c .jr => .jalr r.nextPc (w == 0x8082#32) true (r.pc + 2#32) :: sets [retJr, retCtrl]
  | .c .jalr => .jalr r.nextPc false false (r.pc + 2#32) :: sets [retJr, retCtrl]
  | _ => []

/-- core_exec_trap.cpp:18, for every trap between two states (`pc` is the handler then) -/
def trapCalls (q0 q1 : St σ) : List Op :=
  List.replicate (q1.trapLog.length - q0.trapLog.length) (.jalr q1.pc false false 0#32)
/-- `prof_state` (core.cpp:411) -/
def activeCalls (q0 q1 : St σ) : List Op := if q0.profActive = q1.profActive then [] else [.active q1.profActive]

/-- core.cpp:600-626: a branch of undefined condition traps and is reported as not taken; one with a misaligned target is not
reported; a trap of a speculative fetch comes last -/
def branchCalls (E : Env σ) (q0 q1 : St σ) : List Op :=
  let t := trapCalls q0 q1
  let bad := (branchSel (IP.funct3 q1.inst)).isNone
  if misaligned E q1.nextPc then t
  else t.take (if bad then 1 else 0) ++
    (if bad then .branch q1.nextPc false :: sets [retBr, retCtrl] else (newRec q0 q1).elim [] recCalls) ++
    t.drop (if bad then 1 else 0)
/-- core.cpp:292-331 `exec`, the calls before the last; `q0`, `q1`: before and after.  Other instructions that trap and go on
(`jal`, `jalr`, `c.jr`, stores of undefined width) trap before their other calls. -/
def instCalls (E : Env σ) (q0 q1 : St σ) : List Op :=
  let w := q1.inst
  let o := if IP.copcode w = 3#2 then IP.opcode w else 0#7
  if o = 0x0b#7 then (if E.cfg.simd then sets (simdEvents (IP.funct7 w)) else []) ++ trapCalls q0 q1
  else if o = 0x63#7 then branchCalls E q0 q1
  else if badStore w then trapCalls q0 q1 ++ sets [retMem]
  else trapCalls q0 q1 ++ (newRec q0 q1).elim [] recCalls
/-- core.cpp:292-331 `exec`: profiling hints call `prof_state` and nothing of the above; core.cpp:329 -/
def execCalls (E : Env σ) (q0 q1 : St σ) : List Op := instCalls E q0 q1 ++ activeCalls q0 q1 ++ sets [retInst]

/-- core.cpp:139-156 with the calls; fetching can trap -/
def stepExecP (E : Env σ) : M σ (List Op) := do
  let act ← get (·.wfiActive)
  let aboutToWfi ←
    (if act then pure false
    else do
      let pc ← get (·.pc)
      let w ← justInst pc
      pure (w == 0x10500073#32))
  let i0 ← get id
  let noTrapInt ← checkInterrupts E aboutToWfi
  let i1 ← get id
  mod fun s => { s with wfiActive := s.wfiActive && !(s.trapped || noTrapInt) }
  let trp ← get (·.trapped)
  let act ← get (·.wfiActive)
  if !trp && (!act || noTrapInt) then do
    let f0 ← get id
    fetch E
    let q0 ← get id
    exec E
    let q1 ← get id
    pure (trapCalls i0 i1 ++ trapCalls f0 q0 ++ execCalls E q0 q1)
  else pure (trapCalls i0 i1)

/-- core.cpp:112-215 `single_step` with the calls -/
def stepP (E : Env σ) : M σ (List Op) := do
  mod fun s => { s with trapped := false }
  let w0 ← get id
  let exit ← profWindow E
  let w1 ← get id
  if exit then pure (activeCalls w0 w1)
  else do
    let l ← stepExecP E
    mod fun s => { s with simStep := s.simStep + 1#64 }
    let n ← get (·.simStep)
    if n = E.cfg.runSteps then do
      mod fun s => { s with running := false }
      pure (activeCalls w0 w1 ++ l)
    else do
      let q ← get id
      stepFinish E
      if q.trapped || q.wfiActive then pure (activeCalls w0 w1 ++ l)
      else pure (activeCalls w0 w1 ++ l ++ [.finishInst q.nextPc])

/-- `n` iterations of core.cpp:104 with the calls -/
def runP (E : Env σ) : Nat → M σ (List Op)
  | 0 => pure []
  | n + 1 => do
    let r ← get (·.running)
    if r then do
      let l ← stepP E
      let l' ← runP E n
      pure (l ++ l')
    else pure []
end Ama.PerfCore
