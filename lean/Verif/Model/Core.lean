import Verif.Model.Mem
/-!
# The core: decode, execute, step, run

Model of `/repo/src/core.cpp` (non-DPI, `DASM_EN` off) with the execution bodies in
`core_exec_i_*.cpp`, `core_exec_zicsr.cpp`, `core_exec_c.cpp` and the macros of
`defines.h`.  Profiler calls other than `log_inst` (callstack, register usage, sparsity,
trace entries) have no influence on the core and are omitted here.
-/
namespace Ama
open M
variable {σ : Type}

/-- `rf[i]` -/
def rg (i : BitVec 5) : M σ W := get fun s => s.rf i
/-- `next_pc = v` -/
def setNext (v : W) : M σ Unit := mod fun s => { s with nextPc := v }
/-- `next_pc = pc + n` -/
def nextSeq (n : W) : M σ Unit := mod fun s => { s with nextPc := s.pc + n }

/-- defines.h:553-570 `PROF_G`, `PROF_J`, `PROF_B_T`, `PROF_B_NT`; profiler.cpp:250-284
ignores the call unless active.  What the profiler does with the calls is in `Prof.lean`. -/
def emit (E : Env σ) (ev : ProfEv) : M σ Unit :=
  if E.cfg.profilers then
    mod fun s => { s with profLog := ⟨s.profActive, s.inst, s.pc, s.nextPc, ev⟩ :: s.profLog }
  else pure ()

/-- core.h:100-105 `write_rf` -/
def writeRf (r : BitVec 5) (v : W) : M σ Unit :=
  if r = 0#5 then pure () else mod fun s => { s with rf := upd s.rf r v }

/-- core.h:107-115 `write_rf_pair`; `rf` is `std::array<uint32_t, 32>`, index 32 is
out of bounds. The first half is written before the second index is evaluated. -/
def writeRfPair (r : BitVec 5) (p : W × W) : M σ Unit := do
  (if r = 31#5 then eHardware else pure ())
  if r = 0#5 then pure ()
  else do
    mod fun s => { s with rf := upd s.rf r p.1 }
    if r = 31#5 then (fun _ => .ub .outOfBounds)
    else mod fun s => { s with rf := upd s.rf (r + 1#5) p.2 }

/-- core.cpp:407-432 `prof_state` -/
def profState (E : Env σ) (enable : Bool) : M σ Unit := do
  whenM E.cfg.profilers (mod fun s => { s with profActive := enable })
  hwUpd E (E.hw.profiling enable)

/-- types.h:550-558 `prof_pc_t::should_start()` -/
def ProfPc.shouldStart (p : ProfPc) : Bool × ProfPc :=
  if p.singleMatch = 0#32 then (true, p)
  else
    let p := { p with curMatch := p.curMatch + 1#32 }
    if p.curMatch = p.singleMatch then (true, { p with ranOnce := true }) else (false, p)
/-- types.h:559-562 `should_start(pc)` -/
def ProfPc.shouldStartPc (p : ProfPc) (pc : W) : Bool × ProfPc :=
  if pc ≠ p.start then (false, p) else p.shouldStart
/-- types.h:563-566 `should_stop(pc)` -/
def ProfPc.shouldStop (p : ProfPc) (pc : W) : Bool := pc == p.stop
/-- types.h:567-572 `should_exit()` -/
def ProfPc.shouldExit (p : ProfPc) : Bool :=
  if !p.exitOnStop then false
  else if p.singleMatch = 0#32 then true
  else p.ranOnce
/-- types.h:573-576 `should_exit(pc)` -/
def ProfPc.shouldExitPc (p : ProfPc) (pc : W) : Bool :=
  if pc ≠ p.stop then false else p.shouldExit

/-! ## ALU -/

/-- core.cpp:467-518 `d_alu_reg` with `CASE_ALU_REG_*` (defines.h:111-163) -/
def dAluReg (E : Env σ) (w : W) : M σ Unit :=
  match aluRegSel (IP.funct7 w) (IP.funct3 w) with
  | none => eIllegal
  | some op => do
    let a ← rg (IP.rs1 w)
    let b ← rg (IP.rs2 w)
    (match op.divUns with
      | some uns => hwUpd E (E.hw.divEval a b uns)
      | none => pure ())
    let res ← lift (aluOp E.cfg.strict op a b)
    writeRf (IP.rd w) res
    emit E (.alu op)
    nextSeq 4#32

/-- core_exec_i_arith.cpp:28-40 `alu_slti` with the profiling hints -/
def aluSlti (E : Env σ) (w a b : W) : M σ W :=
  if E.cfg.profilers && w == 0x01002013#32 then do
    let p ← get (·.profPc)
    mod fun s => { s with profPc := p.shouldStart.2 }
    profState E p.shouldStart.1
    pure 0#32
  else if E.cfg.profilers && w == 0x01102013#32 then do
    profState E false
    mod fun s => { s with running := !s.profPc.shouldExit }
    pure 0#32
  else pure (aluSlt a b)

/-- core_exec_i_arith.cpp:17-44: `alu_addi` … `alu_andi`; `alu_slli` looks at the next
instruction for the fusion profiler -/
def aluImm (E : Env σ) (op : AluImmOp) (w a b : W) : M σ W :=
  match op with
  | .slti => aluSlti E w a b
  | .slli => do
    (if E.cfg.profilers then do
      let pc ← get (·.pc)
      let _ ← justInst (pc + 4#32)
      pure ()
    else pure ())
    lift (aluSll E.cfg.strict a b)
  | op => lift (aluOp E.cfg.strict op.toAlu a b)

/-- core.cpp:520-548 `d_alu_imm`, defines.h:165-174 -/
def dAluImm (E : Env σ) (w : W) : M σ Unit :=
  match aluImmSel (IP.funct7b5 w) (IP.funct3 w) with
  | none => eIllegal
  | some op => do
    let a ← rg (IP.rs1 w)
    let res ← aluImm E op w a (IP.immI w)
    writeRf (IP.rd w) res
    emit E (.alui op)
    nextSeq 4#32

/-! ## Loads and stores -/

/-- core.cpp:555-562, `load_op_t` -/
def loadSel (f3 : BitVec 3) : Option LoadOp :=
  match f3 with
  | 0#3 => some .lb | 1#3 => some .lh | 2#3 => some .lw | 4#3 => some .lbu | 5#3 => some .lhu
  | _ => none
/-- core_exec_i_mem.cpp:5-24 `load_*` -/
def loadVal (E : Env σ) (op : LoadOp) (addr : W) : M σ W :=
  match op with
  | .lb => do let v ← memRd E addr 1; pure ((v.setWidth 8).signExtend 32)
  | .lh => do let v ← memRd E addr 2; pure ((v.setWidth 16).signExtend 32)
  | .lw => memRd E addr 4
  | .lbu => memRd E addr 1
  | .lhu => memRd E addr 2
/-- core.cpp:550-578 `d_load`, defines.h:183-195 -/
def dLoad (E : Env σ) (w : W) : M σ Unit :=
  match loadSel (IP.funct3 w) with
  | none => eIllegal
  | some op => do
    let b ← rg (IP.rs1 w)
    let v ← loadVal E op (b + IP.immI w)
    let t ← get (·.trapped)
    if t then pure ()
    else do
      writeRf (IP.rd w) v
      emit E (.load op)
      nextSeq 4#32

/-- core.cpp:582-587, `store_op_t` -/
def storeSel (f3 : BitVec 3) : Option StoreOp :=
  match f3 with
  | 0#3 => some .sb | 1#3 => some .sh | 2#3 => some .sw
  | _ => none
/-- core_exec_i_mem.cpp:27-38 -/
def StoreOp.bytes : StoreOp → Nat
  | .sb => 1 | .sh => 2 | .sw => 4
/-- core.cpp:580-598 `d_store`, defines.h:197-206; the default arm traps and falls
through to `next_pc = pc + 4` -/
def dStore (E : Env σ) (w : W) : M σ Unit :=
  match storeSel (IP.funct3 w) with
  | none => do
    eIllegal
    nextSeq 4#32
  | some op => do
    let b ← rg (IP.rs1 w)
    let d ← rg (IP.rs2 w)
    memWr E (b + IP.immS w) d op.bytes
    let t ← get (·.trapped)
    if t then pure ()
    else do
      emit E (.store op)
      nextSeq 4#32

/-! ## Control transfer -/

/-- core.cpp:604-612, `branch_op_t` -/
def branchSel (f3 : BitVec 3) : Option BranchOp :=
  match f3 with
  | 0#3 => some .beq | 1#3 => some .bne | 4#3 => some .blt | 5#3 => some .bge
  | 6#3 => some .bltu | 7#3 => some .bgeu
  | _ => none
/-- core_exec_i_branch_jump.cpp:4-21 -/
def branchCond (op : BranchOp) (a b : W) : Bool :=
  match op with
  | .beq => a == b
  | .bne => a != b
  | .blt => a.slt b
  | .bge => !a.slt b
  | .bltu => a.ult b
  | .bgeu => !a.ult b

/-- core.cpp:634-675: predictor, speculative fetch and resolution (`HW_MODELS_EN`) -/
def branchHw (E : Env σ) (w : W) : M σ Unit := do
  mod fun s => { s with lastInstBranch := true, hw := E.hw.bpIdeal s.nextPc s.hw }
  let h ← get (·.hw)
  let pc ← get (·.pc)
  let r := E.hw.bpPredict pc (IP.immB w) (IP.funct3 w) h
  mod fun s => { s with hw := r.2 }
  (if E.cfg.noBp then pure ()
  else do
    let i ← rdInst E r.1
    mod fun s => { s with instSpec := some i })
  mod fun s => { s with hw := E.hw.bpUpdate s.pc s.nextPc s.hw }
  let n ← get (·.nextPc)
  if n = r.1 then do
    let sp ← get (·.instSpec)
    match sp with
    | some i => mod fun s => { s with instResolved := i }
    | none => fun _ => .ub .uninit
  else do
    let i ← rdInst E n
    mod fun s => { s with instResolved := i }

/-- core.cpp:614-620 and the jump bodies: with `RV32C` any even target is allowed -/
def misaligned (E : Env σ) (a : W) : Bool := !E.cfg.rv32c && a.toNat % 4 != 0

/-- core.cpp:600-676 `d_branch`, defines.h:208-219; the default arm traps and falls
through -/
def dBranch (E : Env σ) (w : W) : M σ Unit := do
  let pc ← get (·.pc)
  setNext (pc + 4#32)
  (match branchSel (IP.funct3 w) with
  | none => eIllegal
  | some op => do
    let a ← rg (IP.rs1 w)
    let b ← rg (IP.rs2 w)
    if branchCond op a b then do
      setNext (pc + IP.immB w)
      emit E (.branch op true)
    else emit E (.branch op false))
  let n ← get (·.nextPc)
  if misaligned E n then eInstMisaligned n
  else if E.cfg.hwModels then branchHw E w
  else pure ()

/-- core_exec_i_branch_jump.cpp:23-36 `jalr` and core.cpp:678-703 `d_jalr` -/
def dJalr (E : Env σ) (w : W) : M σ Unit := do
  (if IP.funct3 w ≠ 0#3 then eIllegal else pure ())
  let b ← rg (IP.rs1 w)
  let n := (b + IP.immI w) &&& 0xfffffffe#32
  setNext n
  (if misaligned E n then eInstMisaligned n
  else do
    let pc ← get (·.pc)
    writeRf (IP.rd w) (pc + 4#32))
  emit E .jalr

/-- core_exec_i_branch_jump.cpp:38-49 `jal` and core.cpp:705-723 `d_jal` -/
def dJal (E : Env σ) (w : W) : M σ Unit := do
  let pc ← get (·.pc)
  let n := pc + IP.immJ w
  setNext n
  (if misaligned E n then eInstMisaligned n
  else writeRf (IP.rd w) (pc + 4#32))
  emit E .jal

/-- core.cpp:725-735, core_exec_i_arith.cpp:47 -/
def dLui (E : Env σ) (w : W) : M σ Unit := do
  writeRf (IP.rd w) (IP.immU w)
  nextSeq 4#32
  emit E .lui
/-- core.cpp:737-747, core_exec_i_arith.cpp:48 -/
def dAuipc (E : Env σ) (w : W) : M σ Unit := do
  let pc ← get (·.pc)
  writeRf (IP.rd w) (IP.immU w + pc)
  nextSeq 4#32
  emit E .auipc

/-! ## CSR access -/

/-- core_exec_zicsr.cpp:28-64 `csr_cnt_update`; `w` is the word in the parser -/
def csrCntUpdate (E : Env σ) (w : W) (addr : BitVec 16) : M σ Unit := do
  let updated := IP.rs1 w != 0#5 || IP.funct3 w == 1#3 || IP.funct3 w == 5#3
  let skipI := updated && (addr == A.minstret || addr == A.minstreth)
  let skipC := updated && (addr == A.mcycle || addr == A.mcycleh)
  mod fun s =>
    let instElapsed := s.simInst - s.csrInst
    let cycElapsed := s.simStep - s.csrStep
    let c1 := csrWideAdd s.csr A.minstret instElapsed
    let c2 := csrWideAdd c1 A.mcycle cycElapsed
    { s with
      csrInst := s.simInst + (if skipI then 1#64 else 0#64)
      csrStep := s.simStep + (if skipC then 1#64 else 0#64)
      csr := shadowAll E.cfg.rv32c c2 }
  let t ← mtimeShadow
  mod fun s => { s with csr := csrWideAssign s.csr A.time t }

/-- core.h:117-126 `write_csr` -/
def writeCsr (e : CsrEntry) (data : W) : M σ Unit :=
  match e.perm with
  | .ro => eIllegal
  | .war0 => pure ()
  | _ => mod fun s => { s with csr := upd s.csr e.addr (csrMerge e (s.csr e.addr) data) }

/-- core.cpp:1072-1080, `csr_op_t` -/
def csrSel (f3 : BitVec 3) : Option CsrOp :=
  match f3 with
  | 1#3 => some .rw | 2#3 => some .rs | 3#3 => some .rc
  | 5#3 => some .rwi | 6#3 => some .rsi | 7#3 => some .rci
  | _ => none

/-- core_exec_zicsr.cpp:4-26 `csr_rw` … `csr_rci` -/
def csrDo (op : CsrOp) (e : CsrEntry) (w init : W) : M σ Unit := do
  let old ← get fun s => s.csr e.addr
  match op with
  | .rw => writeCsr e init
  | .rs => if IP.rs1 w = 0#5 then pure () else writeCsr e (old ||| init)
  | .rc => if IP.rs1 w = 0#5 then pure () else writeCsr e (old &&& ~~~init)
  | .rwi => writeCsr e (IP.uimmCsr w)
  | .rsi => if IP.rs1 w = 0#5 then pure () else writeCsr e (old ||| IP.uimmCsr w)
  | .rci => if IP.rs1 w = 0#5 then pure () else writeCsr e (old &&& ~~~(IP.uimmCsr w))

/-- core.cpp:1049-1094 `d_csr_access` -/
def dCsr (E : Env σ) (w : W) : M σ Unit :=
  match csrInfo E.cfg.rv32c (IP.csrAddr w) with
  | none => eIllegal
  | some e => do
    csrCntUpdate E w (IP.csrAddr w)
    let init ← rg (IP.rs1 w)
    let old ← get fun s => s.csr e.addr
    writeRf (IP.rd w) old
    (match csrSel (IP.funct3 w) with
    | some op => do
      csrDo op e w init
      emit E (.csr op)
    | none => eIllegal)
    mod fun s => { s with running := s.running && (s.csr A.tohost &&& 1#32 == 0#32) }

/-- core.cpp:749-782 `d_system` -/
def dSystem (E : Env σ) (w : W) : M σ Unit :=
  if IP.funct3 w ≠ 0#3 then do
    dCsr E w
    nextSeq 4#32
  else if w = 0x73#32 then eEnv 11#32
  else if w = 0x100073#32 then eEnv 3#32
  else if w = 0x30200073#32 then do
    mretStateUpdate
    emit E .mret
  else if w = 0x10500073#32 then do
    nextSeq 4#32
    mod fun s => { s with wfiPend := true }
    emit E .wfi
  else eIllegal

/-- core.cpp:784-801 `d_misc_mem` -/
def dMiscMem (E : Env σ) (w : W) : M σ Unit :=
  if w = 0x100f#32 then do
    nextSeq 4#32
    emit E .fenceI
  else if IP.funct3 w = 0#3 then do
    nextSeq 4#32
    emit E .fence
  else eIllegal

/-! ## Custom SIMD -/

/-- defines.h:221-377: run one selected SIMD operation. `shamt` is the rs2 field; lane
indices are masked by `CASE_SV_*` to the lane count. -/
def simdExec (E : Env σ) (w : W) (op : Simd.Op) : M σ Unit := do
  let a ← rg (IP.rs1 w)
  let b ← rg (IP.rs2 w)
  let c ← rg (IP.rd w)
  let shamt : W := (IP.rs2 w).setWidth 32
  let st := E.cfg.strict
  match op with
  | .addSub n sg sb sat => do let r ← lift (Simd.addSub st n sg sb sat a b); writeRf (IP.rd w) r
  | .mul n sg up => do let r ← lift (Simd.mul st n sg up a b); writeRf (IP.rd w) r
  | .wmul n sg => do let p ← lift (Simd.wmul st n sg a b); writeRfPair (IP.rd w) p
  | .dot n sg => do let r ← lift (Simd.dot st n sg a b c); writeRf (IP.rd w) r
  | .minMax n sg mx => do let r ← lift (Simd.minMax n sg mx a b); writeRf (IP.rd w) r
  | .shift n ar l => do let r ← lift (Simd.shift st n ar l a shamt); writeRf (IP.rd w) r
  | .widen n sg => do let p ← lift (Simd.widen st n sg a shamt); writeRfPair (IP.rd w) p
  | .narrow n sat sg => writeRf (IP.rd w) (Simd.narrow n sat sg a b)
  | .txp n => writeRfPair (IP.rd w) (Simd.txp n a b)
  | .dup n => writeRf (IP.rd w) (Simd.dup n a)
  | .vins n => writeRf (IP.rd w) (Simd.vins n c a ((IP.rs2 w).toNat % Simd.count n))
  | .vext n sg => writeRf (IP.rd w) (Simd.vext n sg a ((IP.rs2 w).toNat % Simd.count n))
  | .scp m => do let r ← cacheHint E a m; writeRf (IP.rd w) r

/-- core.cpp:804-1046 `d_custom_ext` -/
def dCustom (E : Env σ) (w : W) : M σ Unit :=
  match Simd.sel (IP.funct7 w) (IP.funct3 w) with
  | some op => do
    simdExec E w op
    emit E (.simd op)
    nextSeq 4#32
  | none => do
    eIllegal
    if Simd.selReturns (IP.funct7 w) then pure () else nextSeq 4#32

/-! ## Compressed instructions: `core_exec_c.cpp` -/

/-- the common shape: write a register, log, `next_pc = pc + 2` -/
def cWrite (E : Env σ) (op : COp) (r : BitVec 5) (v : W) : M σ Unit := do
  writeRf r v
  emit E (.c op)
  nextSeq 2#32

/-- core_exec_c.cpp:7-21 -/
def cAddi (E : Env σ) (w : W) : M σ Unit := do
  let a ← rg (IP.rd w)
  cWrite E .addi (IP.rd w) (a + IP.cImmArith w)
/-- core_exec_c.cpp:23-36 -/
def cLi (E : Env σ) (w : W) : M σ Unit := cWrite E .li (IP.rd w) (IP.cImmArith w)
/-- core_exec_c.cpp:38-50: traps on a zero immediate and continues -/
def cLui (E : Env σ) (w : W) : M σ Unit := do
  (if IP.cImmLui w = 0#32 then eIllegal else pure ())
  cWrite E .lui (IP.rd w) (IP.cImmLui w)
/-- core_exec_c.cpp:52-60 -/
def cNop (E : Env σ) : M σ Unit := do
  emit E (.c .nop)
  nextSeq 2#32
/-- core_exec_c.cpp:62-77 -/
def cAddi16sp (E : Env σ) (w : W) : M σ Unit := do
  (if IP.cImm16sp w = 0#32 then eIllegal else pure ())
  let a ← rg 2#5
  cWrite E .addi16sp 2#5 (a + IP.cImm16sp w)
/-- core_exec_c.cpp:79-93; the sign-extended 6-bit immediate is the shift count -/
def cSrli (E : Env σ) (w : W) : M σ Unit := do
  let a ← rg (IP.cRegh w)
  let r ← lift (aluSrl E.cfg.strict a (IP.cImmArith w))
  cWrite E .srli (IP.cRegh w) r
/-- core_exec_c.cpp:95-109 -/
def cSrai (E : Env σ) (w : W) : M σ Unit := do
  let a ← rg (IP.cRegh w)
  let r ← lift (aluSra E.cfg.strict a (IP.cImmArith w))
  cWrite E .srai (IP.cRegh w) r
/-- core_exec_c.cpp:111-125 -/
def cAndi (E : Env σ) (w : W) : M σ Unit := do
  let a ← rg (IP.cRegh w)
  cWrite E .andi (IP.cRegh w) (a &&& IP.cImmArith w)
/-- core_exec_c.cpp:127-193: `c_and`, `c_or`, `c_xor`, `c_sub` -/
def cAlu (E : Env σ) (w : W) (op : COp) (f : W → W → W) : M σ Unit := do
  let a ← rg (IP.cRegh w)
  let b ← rg (IP.cRegl w)
  cWrite E op (IP.cRegh w) (f a b)
/-- core_exec_c.cpp:195-212: up to two traps, then the write -/
def cAddi4spn (E : Env σ) (w : W) : M σ Unit := do
  (if IP.cImm4spn w = 0#32 then eIllegal else pure ())
  (if w = 0#32 then eIllegal else pure ())
  let a ← rg 2#5
  cWrite E .addi4spn (IP.cRegl w) (a + IP.cImm4spn w)
/-- core_exec_c.cpp:214-231 -/
def cSlli (E : Env σ) (w : W) : M σ Unit := do
  let a ← rg (IP.rd w)
  let r ← lift (aluSll E.cfg.strict a (IP.cImmSlli w))
  writeRf (IP.rd w) r
  emit E (.c .slli)
  (if E.cfg.profilers then do
    let pc ← get (·.pc)
    let _ ← justInst (pc + 2#32)
    pure ()
  else pure ())
  nextSeq 2#32
/-- core_exec_c.cpp:233-247 -/
def cMv (E : Env σ) (w : W) : M σ Unit := do
  let a ← rg (IP.cRs2 w)
  cWrite E .mv (IP.rd w) a
/-- core_exec_c.cpp:249-264 -/
def cAdd (E : Env σ) (w : W) : M σ Unit := do
  let a ← rg (IP.rd w)
  let b ← rg (IP.cRs2 w)
  cWrite E .add (IP.rd w) (a + b)
/-- core_exec_c.cpp:267-320: `c_lw` and `c_lwsp` -/
def cLoad (E : Env σ) (op : COp) (base dst : BitVec 5) (off : W) : M σ Unit := do
  let b ← rg base
  let v ← memRd E (b + off) 4
  let t ← get (·.trapped)
  if t then pure () else cWrite E op dst v
/-- core_exec_c.cpp:322-365: `c_sw` and `c_swsp` -/
def cStore (E : Env σ) (op : COp) (base src : BitVec 5) (off : W) : M σ Unit := do
  let b ← rg base
  let d ← rg src
  memWr E (b + off) d 4
  let t ← get (·.trapped)
  if t then pure ()
  else do
    emit E (.c op)
    nextSeq 2#32
/-- core_exec_c.cpp:367-387 -/
def cBeqz (E : Env σ) (w : W) : M σ Unit := do
  let pc ← get (·.pc)
  let a ← rg (IP.cRegh w)
  if a = 0#32 then do
    setNext (pc + IP.cImmB w)
    emit E (.cBeqz true)
  else do
    setNext (pc + 2#32)
    emit E (.cBeqz false)
/-- core_exec_c.cpp:389-409; the not-taken case is logged as `c_beqz` -/
def cBnez (E : Env σ) (w : W) : M σ Unit := do
  let pc ← get (·.pc)
  let a ← rg (IP.cRegh w)
  if a ≠ 0#32 then do
    setNext (pc + IP.cImmB w)
    emit E (.cBnez true)
  else do
    setNext (pc + 2#32)
    emit E (.cBeqz false)
/-- core_exec_c.cpp:411-424 -/
def cJ (E : Env σ) (w : W) : M σ Unit := do
  nextSeq (IP.cImmJ w)
  emit E (.c .j)
/-- core_exec_c.cpp:426-442 -/
def cJal (E : Env σ) (w : W) : M σ Unit := do
  let pc ← get (·.pc)
  setNext (pc + IP.cImmJ w)
  writeRf 1#5 (pc + 2#32)
  emit E (.c .jal)
/-- core_exec_c.cpp:444-467 -/
def cJr (E : Env σ) (w : W) : M σ Unit := do
  (if IP.rd w = 0#5 then eIllegal else pure ())
  let a ← rg (IP.rd w)
  setNext (a &&& ~~~1#32)
  emit E (.c .jr)
/-- core_exec_c.cpp:469-491 -/
def cJalr (E : Env σ) (w : W) : M σ Unit := do
  let a ← rg (IP.rd w)
  setNext (a &&& ~~~1#32)
  let pc ← get (·.pc)
  writeRf 1#5 (pc + 2#32)
  emit E (.c .jalr)
/-- core_exec_c.cpp:493-500 -/
def cEbreak (E : Env σ) : M σ Unit := do
  mod fun s => { s with running := false }
  emit E (.c .ebreak)

/-- core.cpp:1098-1106 -/
def dCompressed0 (E : Env σ) (w : W) : M σ Unit :=
  match IP.cFunct3 w with
  | 0#3 => cAddi4spn E w
  | 2#3 => cLoad E .lw (IP.cRegh w) (IP.cRegl w) (IP.cImmMem w)
  | 6#3 => cStore E .sw (IP.cRegh w) (IP.cRegl w) (IP.cImmMem w)
  | _ => eIllegal

/-- core.cpp:1131-1137: `(funct6 << 2) | funct2l`, reached with funct3=4, funct2h=3 -/
def dCompressed1Alu (E : Env σ) (w : W) : M σ Unit :=
  match (IP.cFunct6 w ++ IP.cFunct2l w : BitVec 8) with
  | 0x8c#8 => cAlu E w .sub (· - ·)
  | 0x8d#8 => cAlu E w .xor (· ^^^ ·)
  | 0x8e#8 => cAlu E w .or (· ||| ·)
  | 0x8f#8 => cAlu E w .and (· &&& ·)
  | _ => eIllegal

/-- core.cpp:1108-1146 -/
def dCompressed1 (E : Env σ) (w : W) : M σ Unit :=
  match IP.cFunct3 w with
  | 0#3 => cAddi E w
  | 1#3 => cJal E w
  | 2#3 => cLi E w
  | 3#3 =>
    if IP.rd w = 0#5 then cNop E
    else if IP.rd w = 2#5 then cAddi16sp E w
    else cLui E w
  | 4#3 =>
    match IP.cFunct2h w with
    | 0#2 => cSrli E w
    | 1#2 => cSrai E w
    | 2#2 => cAndi E w
    | _ => dCompressed1Alu E w
  | 5#3 => cJ E w
  | 6#3 => cBeqz E w
  | _ => cBnez E w

/-- core.cpp:1148-1171 -/
def dCompressed2 (E : Env σ) (w : W) : M σ Unit :=
  match IP.cFunct3 w with
  | 0#3 => cSlli E w
  | 2#3 => cLoad E .lwsp 2#5 (IP.rd w) (IP.cImmLwsp w)
  | 6#3 => cStore E .swsp 2#5 (IP.cRs2 w) (IP.cImmSwsp w)
  | 4#3 =>
    match IP.cFunct4 w with
    | 8#4 => if IP.cRs2 w = 0#5 then cJr E w else cMv E w
    | 9#4 =>
      if IP.cRs2 w = 0#5 ∧ IP.rd w = 0#5 then cEbreak E
      else if IP.cRs2 w = 0#5 then cJalr E w
      else cAdd E w
    | _ => eIllegal
  | _ => eIllegal

/-! ## Fetch, execute, step -/

/-- core.cpp:274-290 `fetch` -/
def fetch (E : Env σ) : M σ Unit := do
  let lib ← get (·.lastInstBranch)
  if E.cfg.hwModels && lib then
    mod fun s => { s with inst := s.instResolved, lastInstBranch := false }
  else do
    let pc ← get (·.pc)
    let i ← rdInst E pc
    mod fun s => { s with inst := i, lastInstBranch := false }

/-- core.cpp:310-326: the 32-bit opcode switch -/
def exec32 (E : Env σ) (w : W) : M σ Unit :=
  match IP.opcode w with
  | 0x33#7 => dAluReg E w
  | 0x13#7 => dAluImm E w
  | 0x03#7 => dLoad E w
  | 0x23#7 => dStore E w
  | 0x63#7 => dBranch E w
  | 0x67#7 => dJalr E w
  | 0x6f#7 => dJal E w
  | 0x37#7 => dLui E w
  | 0x17#7 => dAuipc E w
  | 0x73#7 => dSystem E w
  | 0x0f#7 => dMiscMem E w
  | 0x0b#7 => if E.cfg.simd then dCustom E w else eIllegal
  | _ => eIllegal

/-- core.cpp:298-303: the compressed quadrant switch -/
def exec16 (E : Env σ) (w : W) : M σ Unit :=
  match IP.copcode w with
  | 0#2 => dCompressed0 E w
  | 1#2 => dCompressed1 E w
  | 2#2 => dCompressed2 E w
  | _ => eIllegal

/-- core.cpp:292-331 `exec` -/
def exec (E : Env σ) : M σ Unit := do
  let w ← get (·.inst)
  if IP.copcode w ≠ 3#2 then
    if E.cfg.rv32c then do
      let c := IP.toRvc w
      mod fun s => { s with inst := c }
      exec16 E c
    else eIllegal
  else exec32 E w

/-- core.cpp:217-272 `check_interrupts`; returns "interrupt pending and enabled but not
globally enabled" -/
def checkInterrupts (E : Env σ) (defer : Bool) : M σ Bool :=
  if defer then pure false
  else do
    updateMtime 1#64
    (if E.cfg.uartIn then do
      let t ← get (·.simStep)
      uartUpdateInput E t
    else pure ())
    let mie ← get fun s => s.csr A.mie
    let mip ← get fun s => s.csr A.mip
    let ms ← get fun s => s.csr A.mstatus
    let gie := (ms &&& 0x8#32) != 0#32
    let mti := (mie &&& 0x80#32) != 0#32 && (mip &&& 0x80#32) != 0#32
    let mei := E.cfg.uartIn && (mie &&& 0x800#32) != 0#32 && (mip &&& 0x800#32) != 0#32
    (if gie && mei then do
      eExternal
      mod fun s => { s with lastInstBranch := false }
    else if gie && mti then do
      eTimer
      mod fun s => { s with lastInstBranch := false }
    else pure ())
    pure ((mti && !gie) || (mei && !gie))

/-- core.cpp:127-137: profiling window by pc; `true` = the step returns early -/
def profWindow (E : Env σ) : M σ Bool :=
  if E.cfg.profilers then do
    let p ← get (·.profPc)
    let pc ← get (·.pc)
    let r := p.shouldStartPc pc
    mod fun s => { s with profPc := r.2 }
    if r.1 then do
      profState E true
      pure false
    else if r.2.shouldStop pc then do
      profState E false
      if r.2.shouldExitPc pc then do
        mod fun s => { s with running := false }
        pure true
      else pure false
    else pure false
  else pure false

/-- core.cpp:139-156: interrupt check, WFI wake-up, fetch and execute -/
def stepExec (E : Env σ) : M σ Unit := do
  let act ← get (·.wfiActive)
  let aboutToWfi ←
    (if act then pure false
    else do
      let pc ← get (·.pc)
      let w ← justInst pc
      pure (w == 0x10500073#32))
  let noTrapInt ← checkInterrupts E aboutToWfi
  mod fun s => { s with wfiActive := s.wfiActive && !(s.trapped || noTrapInt) }
  let trp ← get (·.trapped)
  let act ← get (·.wfiActive)
  if !trp && (!act || noTrapInt) then do
    fetch E
    exec E
  else pure ()

/-- core.cpp:166-214: the end of a step -/
def stepFinish (E : Env σ) : M σ Unit := do
  let act ← get (·.wfiActive)
  let trp ← get (·.trapped)
  if act && !trp then pure ()
  else if trp then mod fun s => { s with running := s.running && !E.cfg.exitOnTrap }
  else mod fun s =>
    { s with
      profPc := if E.cfg.profilers && s.profActive
        then { s.profPc with instCnt := s.profPc.instCnt + 1#64 } else s.profPc
      pc := s.nextPc
      simInst := s.simInst + 1#64
      wfiActive := s.wfiActive || s.wfiPend
      wfiPend := false
      running := s.running && !(s.simInst + 1#64 == E.cfg.runInsts) }

/-- core.cpp:112-215 `single_step` -/
def step (E : Env σ) : M σ Unit := do
  mod fun s => { s with trapped := false }
  let exit ← profWindow E
  if exit then pure ()
  else do
    stepExec E
    mod fun s => { s with simStep := s.simStep + 1#64 }
    let n ← get (·.simStep)
    if n = E.cfg.runSteps then mod fun s => { s with running := false }
    else stepFinish E

/-- core.cpp:106-109: after the loop, `run` brings the counter CSRs up to date (`finish` only
writes report files and is not modelled) -/
def wrapUp (E : Env σ) : M σ Unit := do
  let w ← get (·.inst)
  csrCntUpdate E w 0#16

/-- `n` iterations of core.cpp:104 `while (running) single_step();` -/
def runN (E : Env σ) : Nat → M σ Unit
  | 0 => pure ()
  | n + 1 => do
    let r ← get (·.running)
    if r then do
      step E
      runN E n
    else pure ()

/-- Initial state: core.cpp:3-86 (constructor) and core.cpp:91,103 (`run`), uart.cpp:11-26,
clint.cpp:3-5. The RAM image, the profiling window and the hardware models are inputs. -/
def initSt (E : Env σ) (image : W → BitVec 8) (pp : ProfPc) (h : σ) : St σ :=
  { pc := 0x80000000#32
    nextPc := 0#32
    inst := 0#32
    rf := fun r => if r = 0#5 then 0#32 else 0xc0ffee#32
    csr := csrBoot E.cfg.rv32c
    trapped := false
    running := true
    wfiActive := false
    wfiPend := false
    simStep := 0#64
    simInst := 0#64
    csrStep := 0#64
    csrInst := 0#64
    ram := ⟨memSize, image⟩
    uart := { dev := ⟨12, fun a => if a = 0#32 then 1#8 else 0#8⟩, log := [], rxIdx := 0,
              nextRxTime := 8680#64, polls := 0 }
    clint := { dev := ⟨32, fun _ => 0#8⟩, ticks := 0#64 }
    lastInstBranch := false
    instResolved := 0#32
    instSpec := none
    profActive := false
    profPc := pp
    hw := h
    trapLog := []
    profLog := [] }

end Ama
