import Verif.Spec.Asm
import Verif.Spec.Folded
/-!
# Reading the elements in the log

The part `RD = [ … ], RS1 = [ … ], …;` that ends the record of a SIMD instruction: names, each with its numbers.
-/
namespace Ama.Spec.LaneText
open Spec.Asm

/-- names, numbers and equal signs; brackets, commas and semicolons only separate -/
def toks (l : List Char) : List (List Char) :=
  (Folded.pieces ' ' (l.map fun c => if c = '[' ∨ c = ']' ∨ c = ',' ∨ c = ';' then ' ' else c)).filter (· ≠ [])
/-- the numbers before the first name, and each name with the numbers after it -/
def fields : List (List Char) → List Int × List (List Char × List Int)
  | [] => ([], [])
  | w :: t => match int? w with
    | some z => (z :: (fields t).1, (fields t).2)
    | none => if w = "=".toList then fields t else ([], (w, (fields t).1) :: (fields t).2)
/-- the text as a table; nothing may precede the first name -/
def readTable (l : List Char) : Option (List (List Char × List Int)) :=
  if (fields (toks l)).1 = [] then some (fields (toks l)).2 else none

/-- the elements of a register, as numbers -/
def nums (sg : Bool) (n : Nat) (x : W) : List Int := (List.range (32 / n)).map fun i => lv sg (lane n i x)
/-- the elements of a register pair, as numbers -/
def pairNums (sg : Bool) (n : Nat) (p : W × W) : List Int := (List.range (64 / n)).map fun i => lv sg (pairLane n i p)
/-- the numbers are the elements of the register, up to multiples of `2 ^ n` -/
def Shows (n : Nat) (zs : List Int) (x : W) : Prop :=
  zs.map (BitVec.ofInt n) = (List.range (32 / n)).map fun i => lane n i x
/-- the same for a register pair -/
def PairShows (n : Nat) (zs : List Int) (p : W × W) : Prop :=
  zs.map (BitVec.ofInt n) = (List.range (64 / n)).map fun i => pairLane n i p

/-- what the table of an instruction should say, with sources `a` = rs1, `b` = rs2, `c` = old rd, immediate `imm` and
result `v`; the numbers `zs` of the result and `xs` of the first source are constrained separately -/
def X1.table (x : X1) (zs xs : List Int) (a b c : W) (imm : BitVec 5) (v : W) : List (List Char × List Int) :=
  match x with
  | .add n | .sub n | .mul n => [("RD".toList, zs), ("RS1".toList, nums true n a), ("RS2".toList, nums true n b)]
  | .qadd n sg | .qsub n sg | .mulh n sg | .min n sg | .max n sg =>
    [("RD".toList, zs), ("RS1".toList, nums sg n a), ("RS2".toList, nums sg n b)]
  | .dot n sg => [("RD".toList, [v.toInt]), ("RS1".toList, nums sg n a), ("RS2".toList, nums sg n b), ("RS3".toList, [c.toInt])]
  | .slli n | .srli n | .srai n => [("RD".toList, zs), ("RS1".toList, xs), ("SHAMT".toList, [(imm.toNat % n : Nat)])]
  | .narrow n => [("RD".toList, zs), ("RS1".toList, nums false n a), ("RS2".toList, nums false n b)]
  | .qnarrow n sg => [("RD".toList, zs), ("RS1".toList, nums sg n a), ("RS2".toList, nums sg n b)]
  | .dup n => [("RD".toList, zs), ("RS1".toList, [(a.setWidth n).toInt])]
  | .vins n => [("RD".toList, zs), ("RS1".toList, [(a.setWidth n).toInt]), ("IDX".toList, [(imm.toNat % (32 / n) : Nat)])]
  | .vext n sg => [("RD".toList, [if sg then v.toInt else (v.toNat : Int)]), ("RS1".toList, nums true n a),
      ("IDX".toList, [(imm.toNat % (32 / n) : Nat)])]
/-- the width of the elements of the result -/
def X1.resW : X1 → Nat
  | .add n | .sub n | .mul n | .qadd n _ | .qsub n _ | .mulh n _ | .min n _ | .max n _ | .dot n _
  | .slli n | .srli n | .srai n | .dup n | .vins n | .vext n _ => n
  | .narrow n | .qnarrow n _ => n / 2
/-- the width of the elements of the first source -/
def X1.srcW : X1 → Nat
  | .add n | .sub n | .mul n | .qadd n _ | .qsub n _ | .mulh n _ | .min n _ | .max n _ | .dot n _
  | .slli n | .srli n | .srai n | .dup n | .vins n | .vext n _ | .narrow n | .qnarrow n _ => n
/-- whether the numbers of the result are exact, and of which sign -/
def X1.exact : X1 → Option Bool
  | .qadd _ sg | .qsub _ sg | .min _ sg | .max _ sg | .qnarrow _ sg => some sg
  | .slli _ | .srli _ | .srai _ | .narrow _ => some false
  | .mul _ | .mulh _ _ => some false
  | .dup _ | .vins _ => some true
  | _ => none

/-- the table of an instruction with a register pair as destination -/
def X2.table (y : X2) (zs : List Int) (a b : W) (imm : BitVec 5) : List (List Char × List Int) :=
  match y with
  | .wmul n sg => [("RD".toList, zs), ("RS1".toList, nums sg n a), ("RS2".toList, nums sg n b)]
  | .widen n sg => [("RD".toList, zs), ("RS1".toList, nums sg n a), ("SHAMT".toList, [(imm.toNat % (2 * n) : Nat)])]
  | .txp n => [("RD".toList, zs), ("RS1".toList, nums false n a), ("RS2".toList, nums false n b)]
/-- the width of the elements of the result -/
def X2.resW : X2 → Nat
  | .wmul n _ | .widen n _ => 2 * n
  | .txp n => n
/-- whether the numbers of the result are exact, and of which sign -/
def X2.exact : X2 → Option Bool
  | .wmul n sg => some (sg || n == 16)
  | .widen n _ => if n = 16 then some true else none
  | .txp _ => some false

end Ama.Spec.LaneText
