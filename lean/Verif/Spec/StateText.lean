import Verif.Spec.Folded
/-!
# Reading the report

The words of a line, the architectural state shown at the end, and how the scripts judge a run (`/repo/script/utils.py` 12-13,
`/repo/script/sim_run_utils.py` 71-72).
-/
namespace Ama.Spec.StateText
open Spec.Asm

/-- the words of a line; a colon separates too -/
def words (l : List Char) : List (List Char) :=
  (Folded.pieces ' ' (l.map fun c => if c = ':' then ' ' else c)).filter (· ≠ [])
/-- a number with `0x` -/
def hexWord : List Char → Option Nat
  | '0' :: 'x' :: t => nat? 16 t
  | _ => none
/-- names and values in turn -/
def pairs : List (List Char) → Option (List (List Char × Nat))
  | [] => some []
  | n :: v :: t => match hexWord v, pairs t with
    | some x, some r => some ((n, x) :: r)
    | _, _ => none
  | [_] => none
/-- a CSR: address, name, value -/
def csrLine : List (List Char) → Option (Nat × List Char × Nat)
  | [a, n, v] => match hexWord a, hexWord v with
    | some a, some v => some (a, n, v)
    | _, _ => none
  | _ => none
/-- the state: `pc`, eight rows of registers, CSRs -/
def readState (l : List Char) : Option (Nat × List (List Char × Nat) × List (Nat × List Char × Nat)) :=
  match (Folded.pieces '\n' l).map words with
  | [p, x] :: t =>
    if p = "PC".toList then
      match nat? 16 x, ((t.take 8).mapM pairs), ((t.drop 8).filter (· ≠ [])).mapM csrLine with
      | some pc, some rs, some cs => some (pc, rs.flatten, cs)
      | _, _, _ => none
    else none
  | _ => none
/-- numbers, one to a line: the first decimal, the others with `0x` -/
def readCheck (l : List Char) : Option (Nat × List Nat) :=
  match (Folded.pieces '\n' l).filter (· ≠ []) with
  | n :: t => match nat? 10 n, t.mapM hexWord with
    | some n, some t => some (n, t)
    | _, _ => none
  | [] => none

/-- Python's `p in t` -/
def In (p t : List Char) : Prop := ∃ a b, t = a ++ p ++ b
/-- utils.py:12 -/
def passString : List Char := "    0x051e tohost        : 0x00000001".toList
/-- utils.py:13 -/
def earlyString : List Char := "    0x051e tohost        : 0xf0000000".toList
/-- sim_run_utils.py:71-72 `is_pass` -/
def Passed (stdout : List Char) : Prop := In passString stdout ∨ In earlyString stdout
end Ama.Spec.StateText
