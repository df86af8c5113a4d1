import Verif.Model.Dasm
/-!
# The file of the execution log

Model of what `core.cpp` writes to `exec.log`.  Simplified: what the hardware models add to a line (`log_hw_models`), the
state after each line (`log_state`) and the lines of the callstack (`LOG_SYMBOL_TO_FILE`) are left out: the file is that of
a run without `log_hw_models` and `log_state` and without the callstack.
-/
namespace Ama.Dasm
open M
variable {σ : Type}

/-- types.h:603-609 `logf`: `en` and `always`, which main.cpp:487-489 sets without profilers -/
structure LogF where
  en : Bool
  always : Bool

/-- types.h:608 `activate`, called by core.cpp:55 and by `prof_state` (core.cpp:420), so that `in` is whether profiling is
on; without profilers `prof_active` does not exist, and `always` is set -/
def LogF.act (o : LogF) (cfg : Cfg) (s : St σ) : Bool := o.en && ((cfg.profilers && s.profActive) || o.always)

/-- core.cpp:112-215 with what core.cpp:176-181 writes to the file; core.cpp:335-340: of a trap, only its text.
`pc` and `sim_cnt.inst` are read before the step: an instruction that retires does not change them before
core.cpp:203-204. -/
def stepL (E : Env σ) (o : LogF) (L : LogIn) (d : DS) : M σ (List Char × DS) := do
  let pc ← get (·.pc)
  let n ← get (·.simInst)
  let x ← stepD E L d
  let s ← get id
  match x.1 with
  | none => pure ([], x.2)
  | some t =>
    if o.act E.cfg s then
      if s.trapped then pure (t ++ ['\n'], x.2)
      else pure (logLine (!E.cfg.profilers || s.profActive) (n + 1#64).toNat pc s.inst x.2.instW t, x.2)
    else pure ([], x.2)

/-- `n` iterations of core.cpp:104 with what they write to the file -/
def runL (E : Env σ) (o : LogF) (L : Nat → LogIn) : Nat → DS → M σ (List Char × DS)
  | 0, d => pure ([], d)
  | n + 1, d => do
    let r ← get (·.running)
    if r then do
      let x ← stepL E o (L n) d
      let y ← runL E o L n x.2
      pure (x.1 ++ y.1, y.2)
    else pure ([], d)

end Ama.Dasm
