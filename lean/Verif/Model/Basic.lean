/-!
# Outcomes, host arithmetic and build configuration

Model of the C++ host: outcomes of evaluating an expression (`Res`), 32-bit
integer operations with their undefined cases, and the build/run configuration.
-/
namespace Ama

/-- Kinds of C++ undefined behaviour that the modelled code can reach.
`/repo/src/core_exec_i_arith.cpp:8-13` (shift), `core_exec_m.cpp:5-7` (signed
overflow), `core.h:107-115` (register file index 32), `devices/dev.h` (vector
index), `core.cpp:657-672` (uninitialised speculative instruction). -/
inductive UB where
  | shift
  | signedOverflow
  | negShift
  | outOfBounds
  | uninit
  | divZero
  deriving DecidableEq, Repr

/-- Outcome of a piece of host code: a value, undefined behaviour, or an
uncaught C++ exception (`SIM_ERROR`/`throw`, caught only in `main.cpp:19-23`,
which ends the process). -/
inductive Res (α : Type) where
  | ok (a : α)
  | ub (k : UB)
  | abort
  deriving Repr, DecidableEq

namespace Res
@[inline] def bind {α β} (x : Res α) (f : α → Res β) : Res β :=
  match x with
  | ok a => f a
  | ub k => ub k
  | abort => abort
instance : Monad Res where
  pure := ok
  bind := bind
@[simp] theorem bind_ok {α β} (a : α) (f : α → Res β) : (Res.ok a >>= f) = f a := rfl
@[simp] theorem bind_ub {α β} (k : UB) (f : α → Res β) : ((Res.ub k : Res α) >>= f) = .ub k := rfl
@[simp] theorem bind_abort {α β} (f : α → Res β) : ((Res.abort : Res α) >>= f) = .abort := rfl
@[simp] theorem pure_eq {α} (a : α) : (pure a : Res α) = .ok a := rfl
end Res

abbrev W := BitVec 32

/-- Range test used for `int32_t` overflow (C++17 [expr.pre]/4). -/
def fitsI32 (z : Int) : Bool := decide (-2147483648 ≤ z ∧ z ≤ 2147483647)

/-- `int32_t + int32_t`: signed overflow is undefined in C++; g++ wraps.
Used by `core_exec_custom_simd_*.cpp`. -/
def cAddI (strict : Bool) (a b : W) : Res W :=
  if strict && !fitsI32 (a.toInt + b.toInt) then .ub .signedOverflow else .ok (a + b)

/-- `int32_t - int32_t`. -/
def cSubI (strict : Bool) (a b : W) : Res W :=
  if strict && !fitsI32 (a.toInt - b.toInt) then .ub .signedOverflow else .ok (a - b)

/-- `int32_t * int32_t`. -/
def cMulI (strict : Bool) (a b : W) : Res W :=
  if strict && !fitsI32 (a.toInt * b.toInt) then .ub .signedOverflow else .ok (a * b)

/-- `uint32_t << uint32_t`: a count of 32 or more is undefined; x86 `shl` uses the
count modulo 32. -/
def cShl (strict : Bool) (a b : W) : Res W :=
  if strict && !(b.toNat < 32) then .ub .shift else .ok (a <<< (b.toNat % 32))

/-- `uint32_t >> uint32_t`. -/
def cShr (strict : Bool) (a b : W) : Res W :=
  if strict && !(b.toNat < 32) then .ub .shift else .ok (a >>> (b.toNat % 32))

/-- `int32_t >> uint32_t` (arithmetic on every supported compiler). -/
def cSar (strict : Bool) (a b : W) : Res W :=
  if strict && !(b.toNat < 32) then .ub .shift else .ok (a.sshiftRight (b.toNat % 32))

/-- `int32_t << uint32_t` in C++17 (`-std=gnu++17`): undefined when the count is out
of range, when the value is negative, or when the result is not representable in
`uint32_t`; g++ shifts the bits. -/
def cShlI (strict : Bool) (a b : W) : Res W :=
  if strict && !(b.toNat < 32) then .ub .shift
  else if strict && (a.toInt < 0 || !decide (a.toNat * 2 ^ b.toNat < 2 ^ 32)) then .ub .negShift
  else .ok (a <<< (b.toNat % 32))

/-- Build flags (`/repo/Makefile` and `-D` options) and run configuration
(`/repo/src/types.h:580-` `cfg_t`) that the core consults. -/
structure Cfg where
  /-- treat shift/overflow undefined behaviour as an outcome instead of what g++/x86 does -/
  strict : Bool
  /-- `RV32C` -/
  rv32c : Bool
  /-- `CUSTOM_SIMD`/`SIMD` -/
  simd : Bool
  /-- `HW_MODELS_EN` -/
  hwModels : Bool
  /-- `PROFILERS_EN` -/
  profilers : Bool
  /-- `UART_EN` -/
  uart : Bool
  /-- `UART_INPUT_EN` -/
  uartIn : Bool
  /-- `cfg.exit_on_trap` -/
  exitOnTrap : Bool
  /-- `cfg.run_steps`, 0 = unlimited -/
  runSteps : BitVec 64
  /-- `cfg.run_insts`, 0 = unlimited -/
  runInsts : BitVec 64
  /-- `hw_cfg.bp_active == bp_t::none` (`core.cpp:3-86`) -/
  noBp : Bool

end Ama
