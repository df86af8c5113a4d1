import Verif.Model.Core
/-!
# Specification: the architectural state and what "the same configuration" means

The hardware models (predictors, caches, divider) are meant to observe the core, never to
steer it.  Stated with the state components a program or a user of the simulator can see.
-/
namespace Ama.HwInd
variable {σ τ : Type}

/-- What a program, the UART log and the profiler see of a machine: everything except the
state of the hardware models and the fetch buffer used with them. -/
structure Arch where
  pc : W
  rf : BitVec 5 → W
  csr : BitVec 16 → W
  ram : Dev
  uart : Uart
  clint : Clint
  running : Bool
  trapped : Bool
  steps : BitVec 64
  insts : BitVec 64
  traps : List (W × W × W)
  profiled : List ProfRec

/-- the architectural state of a machine -/
def arch (s : St σ) : Arch :=
  ⟨s.pc, s.rf, s.csr, s.ram, s.uart, s.clint, s.running, s.trapped, s.simStep, s.simInst, s.trapLog, s.profLog⟩

/-- the same simulator options, image permissions and inputs, up to the hardware models -/
def SameSetup (E : Env σ) (F : Env τ) : Prop :=
  { E.cfg with hwModels := false, noBp := false } = { F.cfg with hwModels := false, noBp := false } ∧
  E.regions = F.regions ∧ E.uartIn = F.uartIn ∧ E.stdin = F.stdin

/-- The predictor, having been told the outcome `n` the way the ideal one is, proposes one of the
two places a branch can go to or the outcome itself (the predictors of bp_if.cpp compute exactly
these, see `bp_predicts`), or there is no predictor. -/
def Predicts (E : Env σ) : Prop :=
  E.cfg.noBp = true ∨ ∀ pc imm f3 n h,
    (E.hw.bpPredict pc imm f3 (E.hw.bpIdeal n h)).1 = pc + imm ∨
    (E.hw.bpPredict pc imm f3 (E.hw.bpIdeal n h)).1 = pc + 4#32 ∨
    (E.hw.bpPredict pc imm f3 (E.hw.bpIdeal n h)).1 = n

/-- a scratchpad hint: custom opcode, `funct7 = 0x7f`, `funct3` 0 (`scp.lcl`) or 1 (`scp.rel`) -/
def isScp (w : W) : Prop :=
  w.extractLsb' 0 7 = 0x0b#7 ∧ w.extractLsb' 25 7 = 0x7f#7 ∧ (w.extractLsb' 12 3 = 0#3 ∨ w.extractLsb' 12 3 = 1#3)

/-- the machine has just executed a hint and the hint did not report failure (1) to a register -/
def ScpAnswered (t : St σ) : Prop :=
  isScp t.inst ∧ t.inst.extractLsb' 7 5 ≠ 0#5 ∧ t.rf (t.inst.extractLsb' 7 5) ≠ 1#32

/-- an encoding in the branch opcode that is no branch -/
def isBadBranch (w : W) : Prop :=
  w.extractLsb' 0 7 = 0x63#7 ∧ (w.extractLsb' 12 3 = 2#3 ∨ w.extractLsb' 12 3 = 3#3)

/-- no answered scratchpad hint and no malformed branch in the first `n` steps -/
def Clean (E : Env σ) (s : St σ) (n : Nat) : Prop :=
  ∀ m, m ≤ n → ∀ t, runN E m s = .ok ((), t) → ¬ScpAnswered t ∧ ¬isBadBranch t.inst

end Ama.HwInd
