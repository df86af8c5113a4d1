import Verif.Model.Core
/-!
# The instruction trace and the stack statistics

Model of the trace entries of the instruction profiler (`trace_entry`, `profiler::add_te`, `core::save_trace_entry`), of
its peak stack usage (`track_sp`) and of its stack access counters (`stack_access_t`), in a build with profilers and
`prof_trace` set.

Simplified: the counters are natural numbers; the hardware model fields of an entry (`ic_hm`, `dc_hm`, `bp_hm`) are left
out; writing the file is in `Model/ProfBin`.  The calls of the profiler in an instruction's code directly
follow its call of `log_inst`, so those of instructions that do not trap are a function of that call's record
(`ProfRec`).
-/
namespace Ama.ProfTrace
open M
variable {σ : Type}

/-- types.h:378-382 `dmem_size_t` (`ld`, `sd` are never used) -/
inductive DSize where
  | lb | lh | lw | sb | sh | sw | noAccess
  deriving DecidableEq, Repr

/-- profiler.h:147-194 `trace_entry` -/
structure TE where
  sampleCnt : BitVec 64
  inst : W
  pc : W
  nextPc : W
  dmem : W
  sp : W
  taken : Bool
  instSize : Nat
  dmemSize : DSize
  deriving DecidableEq

/-- The state: the fields of `profiler::te` that are not overwritten when an entry is saved (`dmem`, `dmemSize`),
`core::branch_taken`, `core::inst_w`, `profiler::trace` (newest first), `min_sp`, `stack_access`. -/
structure Prf where
  dmem : W
  dmemSize : DSize
  taken : Bool
  instW : Nat
  trace : List TE
  minSp : W
  stackLoad : Nat
  stackStore : Nat
  deriving DecidableEq
/-- profiler.cpp:3-9 (constructor), profiler.h:319; `branch_taken` and `inst_w` are set before use -/
def Prf.init : Prf := ⟨0#32, .noAccess, false, 8, [], 0x80020000#32, 0, 0⟩

/-- core_exec_i_mem.cpp:5-24; unsigned loads are not told apart -/
def loadSize : LoadOp → DSize
  | .lb | .lbu => .lb | .lh | .lhu => .lh | .lw => .lw
/-- core_exec_i_mem.cpp:27-38 -/
def storeSize : StoreOp → DSize
  | .sb => .sb | .sh => .sh | .sw => .sw
/-- `PROF_DMEM` (defines.h:658-660) in core_exec_i_mem.cpp:5-38, called by `CASE_LOAD` and `CASE_STORE` (defines.h:182-206)
before the access, which may trap.  Compressed loads and stores (core_exec_c.cpp:267-359) access memory directly and do not
call it.  `w`, `rf`: instruction and registers before. -/
def dmemCall (w : W) (rf : BitVec 5 → W) : Option (DSize × W) :=
  if IP.copcode w ≠ 3#2 then none
  else if IP.opcode w = 0x03#7 then (loadSel (IP.funct3 w)).map fun op => (loadSize op, rf (IP.rs1 w) + IP.immI w)
  else if IP.opcode w = 0x23#7 then (storeSel (IP.funct3 w)).map fun op => (storeSize op, rf (IP.rs1 w) + IP.immS w)
  else none

/-- the assignment to `branch_taken` that goes with a call of the profiler: core.cpp:626, 695, 716,
core_exec_c.cpp:378, 400, 418, 435, 460, 483 (a branch that traps on its target returns before, but saves no entry) -/
def takenCall (r : ProfRec) : Bool :=
  match r.ev with
  | .branch _ t => t
  | .jal | .jalr | .c .j | .c .jal | .c .jr | .c .jalr => true
  | .cBeqz _ | .cBnez _ => r.nextPc != r.pc + 2#32
  | _ => false

/-- the call of `log_stack_access_load` (`false`) or `log_stack_access_store` (`true`) that goes with a call of the
profiler: core.cpp:557, 588, core_exec_c.cpp:280, 306, 330-331, 351; the stack pointer is read after the register write, and
so is the base in `c.lwsp`.  `rf0`, `rf1`: registers before and after. -/
def stackCall (r : ProfRec) (rf0 rf1 : BitVec 5 → W) : Option (Bool × Bool) :=
  let w := r.inst
  match r.ev with
  | .load _ => some (false, rf1 2#5 < rf0 (IP.rs1 w) + IP.immI w)
  | .store _ => some (true, rf1 2#5 < rf1 (IP.rs1 w) + IP.immS w)
  | .c .lw => some (false, rf1 2#5 < rf0 (IP.cRegh w) + IP.cImmMem w)
  | .c .lwsp => some (false, rf1 2#5 < rf1 2#5 + IP.cImmLwsp w)
  | .c .sw => some (true, rf1 2#5 < rf1 (IP.cRegh w) + IP.cImmMem w)
  | .c .swsp => some (true, rf1 2#5 < rf1 2#5 + IP.cImmSwsp w)
  | _ => none
/-- core.cpp:582-589: a store of undefined width traps but still reports a stack access -/
def badStore (w : W) : Bool :=
  IP.copcode w == 3#2 && IP.opcode w == 0x23#7 && (storeSel (IP.funct3 w)).isNone
/-- profiler.h:334-339, 126-127, in a profiler that is active -/
def Prf.stack (p : Prf) : Option (Bool × Bool) → Prf
  | some (false, true) => { p with stackLoad := p.stackLoad + 1 }
  | some (true, true) => { p with stackStore := p.stackStore + 1 }
  | _ => p

/-- the record made by executing, if any -/
def newRec (q0 q1 : St σ) : Option ProfRec :=
  if q1.profLog.length = q0.profLog.length then none else q1.profLog.head?
/-- the effects of core.cpp:151-154 on the profiler: `branch_taken = false`, `INST_HEX_W` (core.cpp:296, 309), and the calls
above (no instruction that makes a stack call changes the profiler's `active`); `q0`, `q1`: before and after `exec` -/
def Prf.exec (E : Env σ) (p : Prf) (q0 q1 : St σ) : Prf :=
  let w := q1.inst
  let d := (dmemCall w q0.rf).getD (p.dmemSize, p.dmem)
  let p := { p with
    dmemSize := d.1
    dmem := d.2
    taken := (newRec q0 q1).elim false takenCall
    instW := if IP.copcode w = 3#2 then 8 else if E.cfg.rv32c then 4 else p.instW }
  if q1.profActive then
    p.stack (if badStore w then some (true, q1.rf 2#5 < q1.rf (IP.rs1 w) + IP.immS w)
      else (newRec q0 q1).bind fun r => stackCall r q0.rf q1.rf)
  else p

/-- profiler.cpp:286-293 `track_sp` -/
def trackSp (m sp : W) : W := if 0x80000000#32 < sp ∧ sp < m then sp else m
/-- core.cpp:191-196 for a retired instruction, before `pc` and the count advance: `track_sp`, core.cpp:434-454
`save_trace_entry` and profiler.cpp:239-248 `add_te` -/
def Prf.save (p : Prf) (q : St σ) : Prf :=
  let p := { p with minSp := trackSp p.minSp (q.rf 2#5) }
  if q.profActive then
    { p with
      trace := ⟨q.simInst + 1#64, q.inst, q.pc, q.nextPc, p.dmem, q.rf 2#5, p.taken, p.instW / 2, p.dmemSize⟩ :: p.trace
      dmem := 0#32
      dmemSize := .noAccess }
  else p

/-- core.cpp:139-156 with the profiler -/
def stepExecT (E : Env σ) (p : Prf) : M σ Prf := do
  let act ← get (·.wfiActive)
  let aboutToWfi ←
    (if act then pure false
    else do
      let pc ← get (·.pc)
      let w ← justInst pc
      pure (w == 0x10500073#32))
  let noTrapInt ← checkInterrupts E aboutToWfi
  mod fun s => { s with wfiActive := s.wfiActive && !(s.trapped || noTrapInt) }
  let trp ← get (·.trapped)
  let act ← get (·.wfiActive)
  if !trp && (!act || noTrapInt) then do
    fetch E
    let q0 ← get id
    exec E
    let q1 ← get id
    pure (p.exec E q0 q1)
  else pure p

/-- core.cpp:112-215 `single_step` with the profiler -/
def stepT (E : Env σ) (p : Prf) : M σ Prf := do
  mod fun s => { s with trapped := false }
  let exit ← profWindow E
  if exit then pure p
  else do
    let p ← stepExecT E p
    mod fun s => { s with simStep := s.simStep + 1#64 }
    let n ← get (·.simStep)
    if n = E.cfg.runSteps then do
      mod fun s => { s with running := false }
      pure p
    else do
      let q ← get id
      stepFinish E
      if q.trapped || q.wfiActive then pure p else pure (p.save q)

/-- `n` iterations of core.cpp:104 with the profiler -/
def runT (E : Env σ) : Nat → Prf → M σ Prf
  | 0, p => pure p
  | n + 1, p => do
    let r ← get (·.running)
    if r then do
      let p ← stepT E p
      runT E n p
    else pure p
/-- profiler.cpp:328: the peak usage reported -/
def Prf.peak (p : Prf) : W := 0x80000000#32 + 0x20000#32 - p.minSp
end Ama.ProfTrace
