import Verif.Spec.Asm
/-!
# Reading folded callstacks

`parse_folded_line` and `accumulate_samples` of `/repo/script/prof_stats.py` (16-66): a line is frames, each followed by `;`, then
white space and a count.
-/
namespace Ama.Spec.Folded

/-- white space inside a line -/
def ws (c : Char) : Bool := [' ', '\t', '\r', '\x0b', '\x0c'].contains c
/-- the pieces between separators -/
def pieces (sep : Char) : List Char → List (List Char)
  | [] => [[]]
  | c :: l => match pieces sep l with
    | [] => [[]]
    | p :: ps => if c = sep then [] :: p :: ps else (c :: p) :: ps
/-- without the white space around -/
def strip (l : List Char) : List Char := ((l.dropWhile ws).reverse.dropWhile ws).reverse
/-- one line: frames and count; `none`: refused -/
def readLine (l : List Char) : Option (List (List Char) × Nat) :=
  let r := (strip l).reverse
  let stack := ((r.dropWhile (!ws ·)).dropWhile ws).reverse
  match Asm.nat? 10 (r.takeWhile (!ws ·)).reverse with
  | none => none
  | some n =>
    let fs := (pieces ';' stack).filter (· ≠ [])
    if fs = [] then none else some (fs, n)
/-- a file: its lines that are not blank; `none`: one of them is refused -/
def readFile (l : List Char) : Option (List (List (List Char) × Nat)) :=
  ((pieces '\n' l).filter (fun l => strip l ≠ [])).mapM readLine

/-- the samples of a profile -/
def total (r : List (List (List Char) × Nat)) : Nat := (r.map (·.2)).sum
/-- the samples in a function itself: those of the lines whose last frame it is -/
def self (r : List (List (List Char) × Nat)) (f : List Char) : Nat := ((r.filter fun x => x.1.getLast? = some f).map (·.2)).sum
/-- the samples in a function and what it calls, as the script adds them: once for each frame of that name -/
def inclusive (r : List (List (List Char) × Nat)) (f : List Char) : Nat :=
  (r.map fun x => (x.1.filter (· = f)).length * x.2).sum

/-- a symbol name that the format can carry -/
def Clean (n : String) : Prop := n ≠ "" ∧ ∀ c ∈ n.toList, c ≠ ';' ∧ c ≠ '\n' ∧ ws c = false
end Ama.Spec.Folded
