import Verif.Model.Bp
import Verif.Spec.HwCalls
/-!
# Which instruction fetches the instruction cache should see

Every instruction is fetched once.  The instruction after a branch is fetched by the branch: first the one that is predicted, then,
if that was wrong, the right one.
-/
namespace Ama.Spec
variable {σ : Type}

/-- the offset in main memory a fetch address stands for: main memory is repeated all over the address space -/
def fetchOff (a : W) : W := a &&& 0x1ffff#32

/-- an executed instruction: its address, the address of the next one and, for a branch, the predicted address of the next one -/
structure Fetched where
  pc : W
  next : W
  pred : Option W

/-- mispredicted branches -/
def Fetched.missed (r : Fetched) : Bool :=
  match r.pred with
  | some p => r.next != p
  | none => false

/-- the fetches of an instruction; `after` tells that the instruction before it was a branch -/
def fetchesOf (noBp after : Bool) (r : Fetched) : List W :=
  (if after then [] else [fetchOff r.pc]) ++
  match r.pred with
  | none => []
  | some p => (if noBp then [] else [fetchOff p]) ++ (if r.next = p then [] else [fetchOff r.next])

/-- the fetches of a sequence of instructions -/
def runFetches (noBp : Bool) : Bool → List Fetched → List W
  | _, [] => []
  | after, r :: t => fetchesOf noBp after r ++ runFetches noBp r.pred.isSome t

/-- what a step may be -/
inductive Seen
  /-- an instruction is executed -/
  | ran (r : Fetched)
  /-- the instruction at this address ends in an exception -/
  | threw (pc : W)
  /-- an interrupt is taken instead of the next instruction -/
  | int
  /-- the hart waits, or the simulation ends here -/
  | quiet

/-- the fetches of a sequence of steps. An instruction at an odd address is not fetched, and after an interrupt or exception the
next instruction is fetched anew. -/
def flowFetches (noBp : Bool) : Bool → List Seen → List W
  | _, [] => []
  | after, .ran r :: t => fetchesOf noBp after r ++ flowFetches noBp r.pred.isSome t
  | after, .threw pc :: t => (if after || pc.toNat % 2 == 1 then [] else [fetchOff pc]) ++ flowFetches noBp false t
  | _, .int :: t => flowFetches noBp false t
  | after, .quiet :: t => flowFetches noBp after t

/-- is a branch the last thing that happened? -/
def Seen.after (a : Bool) : Seen → Bool
  | .ran r => r.pred.isSome
  | .threw _ => false
  | .int => false
  | .quiet => a

/-- the prediction -/
def Seen.pred : Seen → Option W
  | .ran r => r.pred
  | _ => none

/-- the executed instruction -/
def Seen.ran? : Seen → Option Fetched
  | .ran r => some r
  | _ => none

/-- what else is fetched: the instructions that end in an exception, unless at an odd address, and what a branch has fetched when an
interrupt comes in between -/
def besides : Bool → List Seen → Nat
  | _, [] => 0
  | _, .ran r :: t => besides r.pred.isSome t
  | after, .threw pc :: t => (if !after && pc.toNat % 2 == 1 then 0 else 1) + besides false t
  | after, .int :: t => after.toNat + besides false t
  | after, .quiet :: t => besides after t

/-- the instruction fetches among the calls -/
def fetchesIn : List HwCall → List W
  | [] => []
  | .icRd a :: l => a :: fetchesIn l
  | _ :: l => fetchesIn l

/-- what the predictor answers, call by call -/
def answers (h : Hw σ) : List HwCall → σ → List W
  | [], _ => []
  | .predict pc imm f3 :: l, g => (h.bpPredict pc imm f3 g).1 :: answers h l ((HwCall.predict pc imm f3).run h g)
  | c :: l, g => answers h l (c.run h g)

/-- the calls of the predictor, and the switches of the statistics -/
def toBp : HwCall → Bool
  | .ideal _ => true
  | .predict .. => true
  | .update .. => true
  | .prof _ => true
  | _ => false

/-- the calls of the predictor for a branch -/
def brCalls (e : Bp.Br) : List HwCall := [.ideal e.next, .predict e.pc e.offset e.f3, .update e.pc e.next]

/-- the branch opcode -/
def isBr (w : W) : Bool := w.extractLsb' 0 7 == 0x63#7

end Ama.Spec
