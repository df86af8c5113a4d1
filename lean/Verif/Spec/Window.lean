/-!
# Profiling windows

A run passes a history of points: the pc at each step, and the start and stop hints it executes.  Start points are
numbered; the window opens at each of them, or only at the `k`-th.
-/
namespace Ama.Spec.Window

/-- command line options -/
structure Conf where
  start : BitVec 32
  stop : BitVec 32
  /-- 0: every start point -/
  k : Nat
  /-- end the run when the window closes -/
  exit : Bool

/-- a point of a run -/
inductive Pt where
  | at (pc : BitVec 32)
  | hintOn
  | hintOff
  deriving DecidableEq, Repr

def isStart (c : Conf) : Pt → Bool
  | .at pc => pc == c.start
  | .hintOn => true
  | .hintOff => false
def isStop (c : Conf) : Pt → Bool
  | .at pc => pc == c.stop
  | .hintOn => false
  | .hintOff => true
/-- start points of a history (newest first) -/
def starts (c : Conf) (h : List Pt) : Nat := h.countP (isStart c)
/-- the newest point is a start point, with the requested number -/
def opens (c : Conf) (p : Pt) (h : List Pt) : Prop := isStart c p ∧ (c.k = 0 ∨ starts c (p :: h) = c.k)
/-- the newest point is a stop point; a start point wins -/
def closes (c : Conf) (p : Pt) (h : List Pt) : Prop := isStop c p ∧ ¬ opens c p h
instance (c : Conf) (p : Pt) (h : List Pt) : Decidable (opens c p h) := by unfold opens; infer_instance
instance (c : Conf) (p : Pt) (h : List Pt) : Decidable (closes c p h) := by unfold closes; infer_instance
/-- profiling after a history -/
def on (c : Conf) : List Pt → Bool
  | [] => false
  | p :: h => if opens c p h then true else if closes c p h then false else on c h
/-- the newest point ends the run: it closes a window that was to be the last one -/
def ends (c : Conf) : List Pt → Bool
  | [] => false
  | p :: h => c.exit && decide (closes c p h) && (c.k == 0 || decide (c.k ≤ starts c (p :: h)))

end Ama.Spec.Window
