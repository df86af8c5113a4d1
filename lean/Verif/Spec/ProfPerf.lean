/-!
# Callstack profiles

What a callstack profile should contain: which function a pc belongs to, which events are recorded, and how calls,
tail calls and returns move the stack.  Functions are given by their start addresses.
-/
namespace Ama.Spec.Perf

/-- `f` is the start of the function that holds `pc`: the nearest start at or below it -/
def Holds (starts : List (BitVec 32)) (pc f : BitVec 32) : Prop :=
  f ∈ starts ∧ f.toNat ≤ pc.toNat ∧ ∀ g ∈ starts, g.toNat ≤ pc.toNat → g.toNat ≤ f.toNat

/-- what happens between two instruction boundaries, as the profiler's clients see it -/
inductive Move where
  /-- stay in the function -/
  | stay
  | call
  | tail
  | ret
/-- the stack of functions, innermost first; `f` is the target's function -/
def Move.stack (f : BitVec 32) : Move → List (BitVec 32) → List (BitVec 32)
  | .stay, s => s
  | .call, s => f :: s
  | .tail, s => f :: s.tail
  | .ret, s => s.tail

end Ama.Spec.Perf
