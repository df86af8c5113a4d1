import Verif.Model.Csr
/-!
# Traps, memory map and devices

Model of `/repo/src/trap.cpp`, `core_exec_trap.cpp`, `memory.cpp`,
`devices/dev.cpp`, `devices/main_memory.cpp`, `devices/clint.cpp`,
`devices/uart.cpp`.  DASM text and console output are omitted.
-/
namespace Ama
open M

/-! ## Bytes: `devices/dev.cpp` -/
namespace Dev

/-- `mem[addr]` read: `std::vector::operator[]` out of range is undefined -/
def get (d : Dev) (a : W) : Res (BitVec 8) :=
  if a.toNat < d.size then .ok (d.bytes a) else .ub .outOfBounds
/-- `mem[addr] = v` -/
def set (d : Dev) (a : W) (v : BitVec 8) : Res Dev :=
  if a.toNat < d.size then .ok { d with bytes := upd d.bytes a v } else .ub .outOfBounds

/-- dev.cpp:36-38 -/
def rd8 (d : Dev) (a : W) : Res W := do
  let b0 ← d.get a
  .ok (b0.setWidth 32)
/-- dev.cpp:40-45 -/
def rd16 (d : Dev) (a : W) : Res W := do
  let b0 ← d.get a
  let b1 ← d.get (a + 1#32)
  .ok (b0.setWidth 32 ||| b1.setWidth 32 <<< 8)
/-- dev.cpp:47-54 -/
def rd32 (d : Dev) (a : W) : Res W := do
  let b0 ← d.get a
  let b1 ← d.get (a + 1#32)
  let b2 ← d.get (a + 2#32)
  let b3 ← d.get (a + 3#32)
  .ok (b0.setWidth 32 ||| b1.setWidth 32 <<< 8 ||| b2.setWidth 32 <<< 16 ||| b3.setWidth 32 <<< 24)
/-- dev.cpp:56-67; the second word is read at `addr + 4` -/
def rd64 (d : Dev) (a : W) : Res (BitVec 64) := do
  let lo ← d.rd32 a
  let b4 ← d.get (a + 4#32)
  let b5 ← d.get (a + 5#32)
  let b6 ← d.get (a + 6#32)
  let b7 ← d.get (a + 7#32)
  .ok (lo.setWidth 64 ||| b4.setWidth 64 <<< 32 ||| b5.setWidth 64 <<< 40
    ||| b6.setWidth 64 <<< 48 ||| b7.setWidth 64 <<< 56)
/-- dev.cpp:5-18; other sizes are `__builtin_unreachable` -/
def rd (d : Dev) (a : W) (size : Nat) : Res W :=
  match size with
  | 1 => d.rd8 a
  | 2 => d.rd16 a
  | 4 => d.rd32 a
  | _ => .ub .outOfBounds

/-- dev.cpp:70-72 -/
def wr8 (d : Dev) (a : W) (v : W) : Res Dev := d.set a (v.setWidth 8)
/-- dev.cpp:74-77 -/
def wr16 (d : Dev) (a : W) (v : W) : Res Dev := do
  let d ← d.set a (v.setWidth 8)
  d.set (a + 1#32) ((v >>> 8).setWidth 8)
/-- dev.cpp:79-84 -/
def wr32 (d : Dev) (a : W) (v : W) : Res Dev := do
  let d ← d.set a (v.setWidth 8)
  let d ← d.set (a + 1#32) ((v >>> 8).setWidth 8)
  let d ← d.set (a + 2#32) ((v >>> 16).setWidth 8)
  d.set (a + 3#32) ((v >>> 24).setWidth 8)
/-- dev.cpp:86-95 -/
def wr64 (d : Dev) (a : W) (v : BitVec 64) : Res Dev := do
  let d ← d.wr32 a (v.setWidth 32)
  let d ← d.set (a + 4#32) ((v >>> 32).setWidth 8)
  let d ← d.set (a + 5#32) ((v >>> 40).setWidth 8)
  let d ← d.set (a + 6#32) ((v >>> 48).setWidth 8)
  d.set (a + 7#32) ((v >>> 56).setWidth 8)
/-- dev.cpp:20-33 -/
def wr (d : Dev) (a : W) (v : W) (size : Nat) : Res Dev :=
  match size with
  | 1 => d.wr8 a v
  | 2 => d.wr16 a v
  | 4 => d.wr32 a v
  | _ => .ub .outOfBounds
end Dev

/-! ## Traps -/
variable {σ : Type}

/-- core_exec_trap.cpp:4-20 `trap_state_update` (profiler callback omitted) -/
def trapStateUpdate (cause tval : W) : M σ Unit := mod fun s =>
  let c1 := upd (upd (upd s.csr A.mcause cause) A.mtval tval) A.mepc s.pc
  let m := c1 A.mstatus
  let m1 := (m &&& ~~~0x80#32) ||| ((m &&& 0x8#32) <<< 4)
  let c2 := upd c1 A.mstatus m1
  let c3 := upd c2 A.mstatus (c2 A.mstatus &&& ~~~0x8#32)
  { s with csr := c3, pc := c3 A.mtvec }

/-- trap.cpp:20-26 `trap_inst`; the call is recorded in `trapLog` -/
def trapInst (cause tval : W) : M σ Unit := do
  mod fun s => { s with trapped := true, trapLog := (cause, tval, s.pc) :: s.trapLog }
  trapStateUpdate cause tval

/-- trap.cpp:29-34 and 36-43: `e_unsupported_inst`, `e_illegal_inst` -/
def eIllegal : M σ Unit := do
  let i ← get (·.inst)
  trapInst 2#32 i
/-- trap.cpp:45-50 `e_env` -/
def eEnv (code : W) : M σ Unit := do
  let i ← get (·.inst)
  trapInst code i
/-- mem_op_t -/
inductive MemOp where | read | write deriving DecidableEq, Repr
/-- trap.cpp:52-63 `e_dmem_access_fault` -/
def eDmemAccess (addr : W) (op : MemOp) : M σ Unit :=
  trapInst (match op with | .read => 5#32 | .write => 7#32) addr
/-- trap.cpp:65-76 `e_dmem_addr_misaligned` -/
def eDmemMisaligned (addr : W) (op : MemOp) : M σ Unit :=
  trapInst (match op with | .read => 4#32 | .write => 6#32) addr
/-- trap.cpp:87-94 `e_inst_addr_misaligned` -/
def eInstMisaligned (addr : W) : M σ Unit := trapInst 0#32 addr
/-- trap.cpp:96-101 `e_hardware_error` -/
def eHardware : M σ Unit := do
  let i ← get (·.inst)
  trapInst 19#32 i
/-- trap.cpp:104-109 -/
def eTimer : M σ Unit := trapInst 0x80000007#32 0#32
/-- trap.cpp:111-116 -/
def eExternal : M σ Unit := trapInst 0x8000000b#32 0#32

/-- core_exec_trap.cpp:22-34 `mret_state_update` -/
def mretStateUpdate : M σ Unit := mod fun s =>
  let m := s.csr A.mstatus
  let m' := (m &&& ~~~0x8#32) ||| ((m &&& 0x80#32) >>> 4) ||| (m ||| 0x80#32)
  let c := upd s.csr A.mstatus m'
  { s with csr := c, nextPc := c A.mepc }

/-! ## Memory map: `memory.cpp` -/

/-- The three devices of memory.cpp:14-20. -/
inductive DevId where | main | uart | clint deriving DecidableEq, Repr

/-- types.h:30-45 -/
def memBase : W := 0x80000000#32
def memSize : Nat := 131072
def uartBase : W := 0x10013000#32
def clintBase : W := 0x02000000#32

/-- memory.cpp:13-20: the map, scanned in order -/
def memMap (uartEn : Bool) : List (W × W × DevId) :=
  (memBase, 0x20000#32, .main) ::
  ((if uartEn then [(uartBase, 12#32, .uart)] else []) ++ [(clintBase, 32#32, .clint)])

/-- memory.cpp:27-34: the scan; `entry.base + entry.size` in `uint32_t` -/
def mapFind (address : W) : List (W × W × DevId) → Option (W × DevId)
  | [] => none
  | (base, size, d) :: rest =>
    if base ≤ address ∧ address < base + size then some (base, d) else mapFind address rest

/-- memory.cpp:25-49 `set_addr`: returns the device and offset, or `none` after trapping -/
def setAddr (E : Env σ) (address : W) (op : MemOp) (size : Nat) : M σ (Option (DevId × W)) :=
  match mapFind address (memMap E.cfg.uart) with
  | none => do
    eDmemAccess address op
    pure none
  | some (base, d) =>
    let off := address - base
    if off.toNat % size ≠ 0 then do
      eDmemMisaligned off op
      pure none
    else pure (some (d, off))

/-- types.h:73-75 `to_norm` -/
def toNorm (a : W) : W := a &&& 0x1ffff#32

/-- main_memory.cpp:168-186 `check_access`: `false` = throws -/
def checkAccess (a : W) (isR isW isX : Bool) : List Region → Bool
  | [] => true
  | g :: rest =>
    if g.base ≤ a ∧ a < g.base + g.size then
      !((isR && !g.r) || (isW && !g.w) || (isX && !g.x))
    else checkAccess a isR isW isX rest

/-- raise the C++ exception when the check fails -/
def guardAccess (b : Bool) : M σ Unit := if b then pure () else fun _ => .abort

/-- update the hardware models when compiled in -/
def hwUpd (E : Env σ) (f : σ → σ) : M σ Unit :=
  if E.cfg.hwModels then mod fun s => { s with hw := f s.hw } else pure ()

/-- main_memory.cpp:188-208 `rd_inst` (perf-mode cache) -/
def mmRdInst (E : Env σ) (a : W) : M σ W := do
  guardAccess (checkAccess a false false true E.regions)
  let d ← get (·.ram)
  let w ← lift (d.rd32 a)
  hwUpd E (E.hw.icRd a)
  pure w

/-- memory.cpp:65-82 `rd_inst` -/
def rdInst (E : Env σ) (address : W) : M σ W := do
  let a := toNorm address
  if a.toNat % 2 ≠ 0 then do
    eInstMisaligned a
    pure 0#32
  else mmRdInst E a

/-- memory.cpp:84-88, main_memory.h:38 `just_inst` -/
def justInst (address : W) : M σ W := do
  let d ← get (·.ram)
  lift (d.rd32 (toNorm address))

/-- memory.cpp:51-63 `cache_hint`; result 0 = success, 1 = fail -/
def cacheHint (E : Env σ) (address : W) (m : Simd.ScpMode) : M σ W := do
  if E.cfg.hwModels then do
    let h ← get (·.hw)
    let r := E.hw.scp (toNorm address) m h
    mod fun s => { s with hw := r.2 }
    pure (if r.1 then 0#32 else 1#32)
  else pure 1#32

/-! ## UART: `devices/uart.cpp` -/

/-- uart.cpp:62-67 `refresh_meip` (the pointer is set up before the run) -/
def refreshMeip : M σ Unit := do
  let d ← get (·.uart.dev)
  let st ← lift (d.get 0#32)
  mod fun s =>
    let m := s.csr A.mip
    let m' := if st &&& 2#8 ≠ 0#8 then m ||| 0x800#32 else m &&& ~~~0x800#32
    { s with csr := upd s.csr A.mip m' }

/-- uart.cpp:37-46 `uart::wr` -/
def uartWr (a data : W) (size : Nat) : M σ Unit := do
  if a = 8#32 then do
    let d ← get (·.uart.dev)
    let d' ← lift (d.wr a ((data.setWidth 8).setWidth 32) size)
    mod fun s => { s with uart := { s.uart with dev := d', log := s.uart.log ++ [data.setWidth 8] } }
  else pure ()

/-- uart.cpp:50-60 `uart::rd` with `UART_INPUT_EN`; without it `dev::rd` -/
def uartRd (E : Env σ) (a : W) (size : Nat) : M σ W := do
  if E.cfg.uartIn then
    if a < 4#32 then do
      let d ← get (·.uart.dev)
      lift (d.rd a size)
    else if a = 4#32 then do
      let d ← get (·.uart.dev)
      let st ← lift (d.get 0#32)
      let d' ← lift (d.set 0#32 (st &&& ~~~2#8))
      mod fun s => { s with uart := { s.uart with dev := d' } }
      refreshMeip
      let d ← get (·.uart.dev)
      lift (d.rd a size)
    else pure 0#32
  else do
    let d ← get (·.uart.dev)
    lift (d.rd a size)

/-- uart.cpp:69-83 `next_byte` -/
def nextByte (E : Env σ) : M σ (Option (BitVec 8)) := do
  let u ← get (·.uart)
  match E.uartIn with
  | [] => do
    mod fun s => { s with uart := { s.uart with polls := s.uart.polls + 1 } }
    pure (E.stdin u.polls)
  | b :: bs =>
    match (b :: bs)[u.rxIdx]? with
    | some c => do
      mod fun s => { s with uart := { s.uart with rxIdx := s.uart.rxIdx + 1 } }
      pure (some c)
    | none => pure none

/-- uart.cpp:88-98: the byte is put into RX_DATA and RX_VALID is set -/
def uartDeliver (b : BitVec 8) : M σ Unit := do
  let d ← get (·.uart.dev)
  let d1 ← lift (d.set 4#32 b)
  let st ← lift (d1.get 0#32)
  let d2 ← lift (d1.set 0#32 (st ||| 2#8))
  mod fun s => { s with uart := { s.uart with dev := d2 } }

/-- uart.cpp:85-104 `update_input`; `BAUD_STRIDE = 1000000000 / 115200 = 8680` -/
def uartUpdateInput (E : Env σ) (time : BitVec 64) : M σ Unit := do
  let u ← get (·.uart)
  (if u.nextRxTime ≤ time then do
    mod fun s => { s with uart := { s.uart with nextRxTime := s.uart.nextRxTime + 8680#64 } }
    let st ← lift (u.dev.get 0#32)
    if st &&& 2#8 = 0#8 then do
      let b ← nextByte E
      match b with
      | some c => uartDeliver c
      | none => pure ()
    else pure ()
  else pure ())
  refreshMeip

/-! ## CLINT: `devices/clint.cpp` -/

/-- clint.cpp:15-28 `update_mtime(elapsed)` -/
def updateMtime (elapsed : BitVec 64) : M σ Unit := do
  let c ← get (·.clint)
  let prev ← lift (c.dev.rd64 0x10#32)
  let ticks := c.ticks + elapsed
  let d' ← lift (c.dev.wr64 0x10#32 (prev + ticks / 100#64))
  mod fun s => { s with clint := { dev := d', ticks := ticks % 100#64 } }
  let t ← lift (d'.rd64 0x10#32)
  let cmp ← lift (d'.rd64 0x8#32)
  mod fun s =>
    let m := s.csr A.mip
    let m' := if cmp ≤ t then m ||| 0x80#32 else m &&& ~~~0x80#32
    { s with csr := upd s.csr A.mip m' }

/-- clint.cpp:11-13 `get_mtime_shadow` -/
def mtimeShadow : M σ (BitVec 64) := do
  let c ← get (·.clint)
  lift (c.dev.rd64 0x10#32)

/-! ## Data accesses -/

/-- main_memory.cpp:218-239 `main_memory::rd` -/
def mmRd (E : Env σ) (a : W) (size : Nat) : M σ W := do
  guardAccess (checkAccess a true false false E.regions)
  let d ← get (·.ram)
  let w ← lift (d.rd a size)
  hwUpd E (E.hw.dcRd a size)
  pure w

/-- main_memory.cpp:241-251 `main_memory::wr` -/
def mmWr (E : Env σ) (a data : W) (size : Nat) : M σ Unit := do
  guardAccess (checkAccess a false true false E.regions)
  let d ← get (·.ram)
  let d' ← lift (d.wr a data size)
  mod fun s => { s with ram := d' }
  hwUpd E (E.hw.dcWr a data size)

/-- the virtual call `dev_ptr->rd(address, size)`; clint.cpp:34-49 overrides only the
64-bit accessors, which `dev::rd` never calls -/
def devRd (E : Env σ) (d : DevId) (a : W) (size : Nat) : M σ W :=
  match d with
  | .main => mmRd E a size
  | .uart => uartRd E a size
  | .clint => do
    let c ← get (·.clint.dev)
    lift (c.rd a size)

/-- the virtual call `dev_ptr->wr(address, data, size)` -/
def devWr (E : Env σ) (d : DevId) (a data : W) (size : Nat) : M σ Unit :=
  match d with
  | .main => mmWr E a data size
  | .uart => uartWr a data size
  | .clint => do
    let c ← get (·.clint.dev)
    let c' ← lift (c.wr a data size)
    mod fun s => { s with clint := { s.clint with dev := c' } }

/-- memory.cpp:90-94 `rd`; the access is skipped when `tu->is_trapped()` -/
def memRd (E : Env σ) (address : W) (size : Nat) : M σ W := do
  let r ← setAddr E address .read size
  let t ← get (·.trapped)
  match t, r with
  | false, some (d, a) => devRd E d a size
  | _, _ => pure 0#32

/-- memory.cpp:96-100 `wr` -/
def memWr (E : Env σ) (address data : W) (size : Nat) : M σ Unit := do
  let r ← setAddr E address .write size
  let t ← get (·.trapped)
  match t, r with
  | false, some (d, a) => devWr E d a data size
  | _, _ => pure ()

end Ama
