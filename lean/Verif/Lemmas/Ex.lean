import Verif.Model.Core
/-!
# Concrete configurations and programs used in the `example`s
-/
namespace Ama.Ex

/-- plain RV32IM build on x86, no optional parts -/
def cfg0 : Cfg :=
  { strict := false, rv32c := false, simd := true, hwModels := false, profilers := false,
    uart := true, uartIn := false, exitOnTrap := false, runSteps := 0#64, runInsts := 0#64,
    noBp := false }
def hw0 : Hw Unit :=
  { icRd := fun _ h => h, dcRd := fun _ _ h => h, dcWr := fun _ _ _ h => h,
    scp := fun _ _ h => (true, h), bpIdeal := fun _ h => h, bpPredict := fun pc _ _ h => (pc + 4#32, h),
    bpUpdate := fun _ _ h => h, divEval := fun _ _ _ h => h, profiling := fun _ h => h }
def env0 : Env Unit :=
  { cfg := cfg0, hw := hw0, regions := [], uartIn := [], stdin := fun _ => none }
def pp0 : ProfPc := ⟨0#32, 0#32, 0#32, false, 0#32, false, 0#64⟩

/-- memory image holding the given words from offset 0 -/
def image (ws : List W) (a : W) : BitVec 8 :=
  ((ws.getD (a.toNat / 4) 0xa5a5a5a5#32) >>> (8 * (a.toNat % 4))).setWidth 8

/-- reset state with a program -/
def st0 (E : Env Unit) (ws : List W) : St Unit := initSt E (image ws) pp0 ()

/-- observe a component of the final state of a run -/
def obs {α : Type} (r : Res (Unit × St Unit)) (f : St Unit → α) : Option α :=
  match r with
  | .ok (_, s) => some (f s)
  | _ => none

end Ama.Ex
