import Verif.Spec.Asm
import Verif.Model.Core
/-!
# Reading the execution log

A reader of the lines of `exec.log`, written without the code that writes them, and what the lines of a run must say,
in terms of what each step did to the simulator.
-/
namespace Ama.Spec.LogText
open Asm
variable {σ : Type}

/-- what is before the first `c`, and what is after it -/
def upto (c : Char) : List Char → Option (List Char × List Char)
  | [] => none
  | a :: l => if a = c then some ([], l) else (upto c l).map fun p => (a :: p.1, p.2)

/-- the number in a field padded with spaces; `some none` for a blank field -/
def number (t : List Char) : Option (Option Nat) :=
  match t.dropWhile (· == ' ') with
  | [] => some none
  | u => (nat? 10 u).map some

/-- what a line says of an instruction: its number, if it has one, its address, its word, the number of digits the word
is written with, and the text after that -/
structure Entry where
  num : Option Nat
  pc : Nat
  word : Nat
  digits : Nat
  text : List Char
deriving DecidableEq

/-- a line `    number: address: word text` -/
def readLine : List Char → Option Entry
  | ' ' :: ' ' :: ' ' :: ' ' :: l => do
    let (n, l) ← upto ':' l
    let n ← number n
    match l with
    | ' ' :: l => do
      let (p, l) ← upto ':' l
      let p ← nat? 16 p
      match l with
      | ' ' :: l => do
        let (w, l) ← upto ' ' l
        let v ← nat? 16 w
        pure ⟨n, p, v, w.length, l⟩
      | _ => none
    | _ => none
  | _ => none

/-- the options of the log: on, also outside the profiled part -/
structure Opts where
  en : Bool
  always : Bool

/-- the steps that are logged: all, or those that end with profiling on -/
def active (o : Opts) (prof : Bool) (s' : St σ) : Bool := o.en && (o.always || (prof && s'.profActive))
/-- the numbers are left out where profiling is off -/
def numbered (prof : Bool) (s' : St σ) : Bool := !prof || s'.profActive

/-- what a step left for the log -/
inductive Kind where
  /-- an instruction retired: what its line says before the text -/
  | inst (num : Option Nat) (pc word digits : Nat)
  /-- an instruction or interrupt trapped -/
  | trap

/-- A step from `s` to `s'`: an instruction retired if the count of instructions moved, else something trapped, if
`trapped` and the step limit was not what ended the step, or there is nothing to log. -/
def leaves (cfg : Cfg) (s s' : St σ) : Option Kind :=
  if s'.simInst ≠ s.simInst then
    some (.inst (if numbered cfg.profilers s' then some (s.simInst + 1#64).toNat else none) s.pc.toNat s'.inst.toNat
      (if s'.inst.extractLsb' 0 2 = 3#2 then 8 else 4))
  else if s'.trapped = true ∧ s'.simStep ≠ cfg.runSteps then some .trap
  else none

/-- what the log of a run must contain: what each logged step left, with the text of that step.  `rs` has the texts of
the steps; a step that should be logged but has no text gives an empty one. -/
def logged (E : Env σ) (o : Opts) : List (Option (List Char)) → St σ → List (Kind × List Char)
  | [], _ => []
  | r :: rs, s => match step E s with
    | .ok (_, s') =>
      (match leaves E.cfg s s' with
        | some k => if active o E.cfg.profilers s' then [(k, r.getD [])] else []
        | none => []) ++ logged E o rs s'
    | _ => []

/-- the line says this -/
def Says (l : List Char) : Kind × List Char → Prop
  | (.inst n p w k, t) => readLine l = some ⟨n, p, w, k, t⟩
  | (.trap, t) => l = t

/-- the number in an entry -/
def numOf : Kind × List Char → Option Nat
  | (.inst n _ _ _, _) => n
  | (.trap, _) => none

end Ama.Spec.LogText
