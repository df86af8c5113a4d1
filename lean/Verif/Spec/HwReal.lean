import Verif.Spec.HwCalls
import Verif.Model.HwModels
/-!
# What the statistics should say

Counts over the calls of the hardware models that the retired instructions make.
-/
namespace Ama.Spec
variable {σ : Type}

/-- hardware models that also write down what they are told -/
def logged (h : Hw σ) : Hw (σ × List HwCall) where
  icRd a g := (h.icRd a g.1, g.2 ++ [.icRd a])
  dcRd a n g := (h.dcRd a n g.1, g.2 ++ [.dcRd a n])
  dcWr a v n g := (h.dcWr a v n g.1, g.2 ++ [.dcWr a v n])
  scp a m g := ((h.scp a m g.1).1, (h.scp a m g.1).2, g.2 ++ [.scp a m])
  bpIdeal n g := (h.bpIdeal n g.1, g.2 ++ [.ideal n])
  bpPredict pc imm f3 g := ((h.bpPredict pc imm f3 g.1).1, (h.bpPredict pc imm f3 g.1).2, g.2 ++ [.predict pc imm f3])
  bpUpdate pc n g := (h.bpUpdate pc n g.1, g.2 ++ [.update pc n])
  divEval a b u g := (h.divEval a b u g.1, g.2 ++ [.div a b u])
  profiling on g := (h.profiling on g.1, g.2 ++ [.prof on])

/-- a division -/
def HwCall.divOp : HwCall → Option Div.Op
  | .div a b u => some ⟨a, b, u⟩
  | _ => none
/-- a request to the data cache that it counts: a load, a store or a lock request -/
def HwCall.dataOp : HwCall → Option Cache.Op
  | .dcRd a n => some (.rd a n)
  | .dcWr a v n => some (.wr a v n)
  | .scp a .lcl => some (.lcl a)
  | _ => none
/-- bytes loaded -/
def HwCall.loaded : HwCall → Nat
  | .dcRd _ n => n
  | _ => 0
/-- bytes stored -/
def HwCall.stored : HwCall → Nat
  | .dcWr _ _ n => n
  | _ => 0
/-- a load or a lock request -/
def HwCall.reads : HwCall → Bool
  | .dcRd _ _ => true
  | .scp _ .lcl => true
  | _ => false
/-- a store -/
def HwCall.writes : HwCall → Bool
  | .dcWr _ _ _ => true
  | _ => false
/-- a division or remainder -/
def HwCall.divides : HwCall → Bool
  | .div _ _ _ => true
  | _ => false
/-- the branch among the calls of one instruction -/
def branchOf : List HwCall → List Bp.Br
  | .ideal n :: .predict pc imm f3 :: .update _ _ :: _ => [⟨pc, imm, f3, n⟩]
  | _ => []

end Ama.Spec
