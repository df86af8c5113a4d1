import Verif.Model.Alu
import Verif.Model.Simd
/-!
# Machine state

State of `class core` (`/repo/src/core.h`), `class memory`, the devices, and the
interface of the hardware models, plus the state monad the model is written in.
-/
namespace Ama

/-- A byte device, `/repo/src/devices/dev.h` (`std::vector<uint8_t> mem`). -/
structure Dev where
  size : Nat
  bytes : W → BitVec 8

/-- `class uart`, `/repo/src/devices/uart.h`. `log` is the content of `uart.log`
(oldest byte first); `rxIdx` is `uart_in_idx`; `polls` counts polls of stdin. -/
structure Uart where
  dev : Dev
  log : List (BitVec 8)
  rxIdx : Nat
  nextRxTime : BitVec 64
  polls : Nat

/-- `class clint`, `/repo/src/devices/clint.h`. -/
structure Clint where
  dev : Dev
  ticks : BitVec 64

/-- ELF segment permissions, `/repo/src/devices/main_memory.h:11-15` `mem_region_t` -/
structure Region where
  base : W
  size : W
  r : Bool
  w : Bool
  x : Bool

/-- `prof_pc_t`, `/repo/src/types.h:540-578` -/
structure ProfPc where
  start : W
  stop : W
  singleMatch : W
  exitOnStop : Bool
  curMatch : W
  ranOnce : Bool
  instCnt : BitVec 64

/-- Hardware models seen from the core: an arbitrary state `σ` with the entry points
used by `core.cpp` and `main_memory.cpp`. Cache data is not returned
(`CACHE_MODE_PERF`, the default build). -/
structure Hw (σ : Type) where
  /-- `icache.rd` (main_memory.cpp:204) -/
  icRd : W → σ → σ
  /-- `dcache.rd` (main_memory.cpp:235) -/
  dcRd : W → Nat → σ → σ
  /-- `dcache.wr` (main_memory.cpp:249) -/
  dcWr : W → W → Nat → σ → σ
  /-- `main_memory::scp` (main_memory.cpp:211-215); `true` = success -/
  scp : W → Simd.ScpMode → σ → Bool × σ
  /-- `bp.ideal` (core.cpp:638) -/
  bpIdeal : W → σ → σ
  /-- `bp.predict` (core.cpp:640) -/
  bpPredict : W → W → BitVec 3 → σ → W × σ
  /-- `bp.update` (core.cpp:648) -/
  bpUpdate : W → W → σ → σ
  /-- `div.eval` (defines.h:135) -/
  divEval : W → W → Bool → σ → σ
  /-- `bp.profiling; div.profiling; mem->cache_profiling` (core.cpp:427-429) -/
  profiling : Bool → σ → σ

/-- Everything that does not change during a run. -/
structure Env (σ : Type) where
  cfg : Cfg
  hw : Hw σ
  regions : List Region
  /-- preloaded `cfg.uart_in` -/
  uartIn : List (BitVec 8)
  /-- result of the n-th non-blocking read of stdin (uart.cpp:76-82) -/
  stdin : Nat → Option (BitVec 8)

/-- Load/store/branch/CSR operation names (types.h enums). -/
inductive LoadOp where | lb | lh | lw | lbu | lhu deriving DecidableEq, Repr
inductive StoreOp where | sb | sh | sw deriving DecidableEq, Repr
inductive BranchOp where | beq | bne | blt | bge | bltu | bgeu deriving DecidableEq, Repr
inductive CsrOp where | rw | rs | rc | rwi | rsi | rci deriving DecidableEq, Repr

/-- Compressed mnemonics (`opc_g`/`opc_b`/`opc_j` members with prefix `c_`). -/
inductive COp where
  | addi | li | lui | nop | addi16sp | srli | srai | andi | and | or | xor | sub | addi4spn
  | slli | mv | add | lw | lwsp | sw | swsp | j | jal | jr | jalr | ebreak
  deriving DecidableEq, Repr

/-- What the core tells the instruction profiler (`PROF_G`, `PROF_J`, `PROF_B_T`,
`PROF_B_NT`, defines.h:553-570). -/
inductive ProfEv where
  | alu (op : AluOp) | alui (op : AluImmOp) | load (op : LoadOp) | store (op : StoreOp)
  | branch (op : BranchOp) (taken : Bool)
  | jal | jalr | lui | auipc | mret | wfi | fenceI | fence
  | csr (op : CsrOp) | simd (op : Simd.Op)
  | c (op : COp) | cBeqz (taken : Bool) | cBnez (taken : Bool)
  deriving DecidableEq, Repr

/-- One call of the instruction profiler: its active flag, and the instruction, `pc` and `next_pc` at the
call. -/
structure ProfRec where
  active : Bool
  inst : W
  pc : W
  nextPc : W
  ev : ProfEv

/-- The simulator state. `trapLog` and `profLog` are histories of calls of
`trap::trap_inst` and of the profiler (newest first); nothing reads them. -/
structure St (σ : Type) where
  pc : W
  nextPc : W
  inst : W
  rf : BitVec 5 → W
  csr : BitVec 16 → W
  trapped : Bool
  running : Bool
  wfiActive : Bool
  wfiPend : Bool
  /-- `sim_cnt` -/
  simStep : BitVec 64
  simInst : BitVec 64
  /-- `csr_cnt` -/
  csrStep : BitVec 64
  csrInst : BitVec 64
  ram : Dev
  uart : Uart
  clint : Clint
  lastInstBranch : Bool
  instResolved : W
  /-- `inst_speculative`; `none` = never assigned -/
  instSpec : Option W
  profActive : Bool
  profPc : ProfPc
  hw : σ
  trapLog : List (W × W × W)
  profLog : List ProfRec

/-- State monad over outcomes: the type of the model of a C++ member function. -/
def M (σ α : Type) : Type := St σ → Res (α × St σ)

namespace M
variable {σ α β : Type}
@[inline] def ret (a : α) : M σ α := fun s => .ok (a, s)
@[inline] def bnd (x : M σ α) (f : α → M σ β) : M σ β := fun s =>
  match x s with
  | .ok (a, s') => f a s'
  | .ub k => .ub k
  | .abort => .abort
instance : Monad (M σ) where
  pure := ret
  bind := bnd
/-- read a component of the state -/
@[inline] def get (f : St σ → α) : M σ α := fun s => .ok (f s, s)
/-- update the state -/
@[inline] def mod (f : St σ → St σ) : M σ Unit := fun s => .ok ((), f s)
/-- host computation without state -/
@[inline] def lift (r : Res α) : M σ α := fun s =>
  match r with
  | .ok a => .ok (a, s)
  | .ub k => .ub k
  | .abort => .abort
/-- `x; if (b) y` -/
@[inline] def whenM (b : Bool) (y : M σ Unit) : M σ Unit := if b then y else pure ()

@[simp] theorem pure_app (a : α) (s : St σ) : (pure a : M σ α) s = .ok (a, s) := rfl
@[simp] theorem get_app (f : St σ → α) (s : St σ) : (get f : M σ α) s = .ok (f s, s) := rfl
@[simp] theorem mod_app (f : St σ → St σ) (s : St σ) : (mod f : M σ Unit) s = .ok ((), f s) := rfl
theorem bind_app (x : M σ α) (f : α → M σ β) (s : St σ) :
    (x >>= f) s = match x s with
      | .ok (a, s') => f a s'
      | .ub k => .ub k
      | .abort => .abort := rfl
@[simp] theorem bind_ok {x : M σ α} {f : α → M σ β} {s s' : St σ} {a : α}
    (h : x s = .ok (a, s')) : (x >>= f) s = f a s' := by simp [bind_app, h]
@[simp] theorem lift_ok (a : α) (s : St σ) : (lift (.ok a) : M σ α) s = .ok (a, s) := rfl
@[simp] theorem lift_ub (k : UB) (s : St σ) : (lift (.ub k) : M σ α) s = .ub k := rfl
@[simp] theorem lift_abort (s : St σ) : (lift .abort : M σ α) s = .abort := rfl
end M

/-- point update of a function-represented store -/
def upd {α β : Type} [DecidableEq α] (f : α → β) (a : α) (v : β) : α → β :=
  fun x => if x = a then v else f x

@[simp] theorem upd_same {α β : Type} [DecidableEq α] (f : α → β) (a : α) (v : β) :
    upd f a v a = v := by simp [upd]
theorem upd_other {α β : Type} [DecidableEq α] (f : α → β) {a x : α} (v : β) (h : x ≠ a) :
    upd f a v x = f x := by simp [upd, h]

end Ama
