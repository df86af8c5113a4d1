import Verif.Spec.Bp
/-!
# What the branch report must say

In terms of the branches a run presents, each with whether it was profiled, and of the answers `guess` gives.
-/
namespace Ama.Spec.BpCsv
open Ama.Bp (PCfg Kind Def Br)
open Ama.Spec.Bp (guess)

/-- what a predictor answers: the ideal one knows the outcome -/
def says (low : Nat) (d : Def) (h : List Br) (e : Br) : W :=
  match d with
  | .one .ideal _ => e.next
  | d => guess low d h e.pc (e.pc + e.offset)

/-- how many profiled branches at `pc` a predictor answered right; `h` are the branches before, newest first,
profiled or not -/
def hits (low : Nat) (d : Def) (pc : W) : (h : List Br) → List (Br × Bool) → Nat
  | _, [] => 0
  | h, (e, on) :: t =>
    (if on = true ∧ e.pc = pc ∧ says low d h e = e.next then 1 else 0) + hits low d pc (e :: h) t

/-- the profiled branches at one address, in order -/
def here (pc : W) (bs : List (Br × Bool)) : List Br :=
  (bs.filter (fun x => x.2 && x.1.pc == pc)).map (·.1)

/-- RISC-V mnemonics of the conditional branches -/
def branchName (f : BitVec 3) : String :=
  match f.toNat with
  | 0 => "beq" | 1 => "bne" | 4 => "blt" | 5 => "bge" | 6 => "bltu" | 7 => "bgeu" | _ => "na"

/-- the winner among counts: the first with the largest count among those allowed -/
def Winner (ok : Nat → Bool) (v : List Nat) (b : Nat) : Prop :=
  ok b = true ∧ b < v.length ∧ (∀ j < v.length, ok j = true → v.getD j 0 ≤ v.getD b 0) ∧
    ∀ j < b, ok j = true → v.getD j 0 < v.getD b 0

/-- the fields of the line of one address up to the last: the taken/not-taken history is separate -/
def fields (pct : Nat → Nat → List Char) (names : List (List Char)) (l : List Br) (pc : W) (v : List Nat) (b : Nat) :
    List (List Char) :=
  let taken := (l.filter (fun e => e.next != e.pc + 4#32)).length
  let fallen := (l.filter (fun e => e.next == e.pc + 4#32)).length
  let f3 := ((l.head?).map (·.f3)).getD 0#3
  let up := ((l.head?).map (fun e => decide (e.pc.toNat < (e.pc + e.offset).toNat))).getD false
  [Nat.toDigits 16 pc.toNat, [if up then 'F' else 'B'], Nat.toDigits 10 f3.toNat, (branchName f3).toList,
    Nat.toDigits 10 taken, Nat.toDigits 10 fallen, Nat.toDigits 10 (taken + fallen), pct taken (taken + fallen)]
  ++ v.map (Nat.toDigits 10) ++ v.map (fun n => pct n (taken + fallen))
  ++ [names.getD b [], Nat.toDigits 10 (v.getD b 0), pct (v.getD b 0) (taken + fallen)]

/-- one line of comma separated values -/
def line (fs : List (List Char)) : List Char := [','].intercalate fs

/-- the heading for predictors of these names -/
def heading (names : List (List Char)) : List (List Char) :=
  ["PC", "Direction", "Funct3", "Funct3_mn", "Taken", "Not_Taken", "All", "Taken%"].map String.toList
  ++ names.map (fun n => "P_".toList ++ n) ++ names.map (fun n => "P_".toList ++ n ++ "%".toList)
  ++ ["Best", "P_best", "P_best%", "Pattern"].map String.toList

end Ama.Spec.BpCsv
