import Verif.Model.Bp
/-!
# What a branch predictor answers, as a function of the branches before

No tables, registers or masks: the answer is computed from the list of past branches, newest first.  Only the
configuration types and the record of one branch come from the model.
-/
namespace Ama.Spec.Bp
open Ama.Bp (PCfg Kind Fold Def Br)

/-- the newest `n` outcomes as a number, newest in bit 0, missing ones 0 -/
def newest : Nat → List Bool → Nat
  | 0, _ => 0
  | _ + 1, [] => 0
  | n + 1, b :: l => b.toNat + 2 * newest n l

/-- the `p`-th group of `bits` bits of `pc` above the alignment bits -/
def slice (low bits : Nat) (pc : W) (p : Nat) : Nat := pc.toNat / 2 ^ (low + bits * p) % 2 ^ bits

/-- how many further groups are folded in; addresses have 17 bits -/
def folds (low : Nat) (c : PCfg) : Nat :=
  match c.fold with
  | .none => 0
  | .all => (17 - low) / c.pcBits.toNat

/-- the part of an address a table is indexed with: the groups, xor-ed -/
def hash (low : Nat) (c : PCfg) (pc : W) : Nat :=
  (List.range (folds low c + 1)).foldl (fun a p => a ^^^ slice low c.pcBits.toNat pc p) 0

/-- a branch is taken when control does not fall through -/
def taken (e : Br) : Bool := decide (e.next ≠ e.pc + 4#32)

/-- which counter a branch at `pc` uses after the branches `h` -/
def index (low : Nat) (k : Kind) (c : PCfg) (h : List Br) (pc : W) : Nat :=
  match k with
  | .bimodal => hash low c pc
  | .local => newest c.histBits.toNat ((h.filter (fun e => hash low c e.pc = hash low c pc)).map taken)
  | .global => newest c.ghrBits.toNat (h.map taken)
  | .gselect => hash low c pc * 2 ^ c.ghrBits.toNat + newest c.ghrBits.toNat (h.map taken)
  | .gshare => hash low c pc ^^^
      (newest c.ghrBits.toNat (h.map taken) * 2 ^ (c.pcBits.toNat - c.ghrBits.toNat))
  | _ => 0

/-- largest counter value -/
def top (c : PCfg) : Nat := 2 ^ c.cntBits.toNat - 1
/-- smallest counter value that means yes; also what counters start at -/
def weak (c : PCfg) : Nat := if c.cntBits.toNat = 1 then 1 else top c / 2

/-- saturating step -/
def sat (m : Nat) (up : Bool) (n : Nat) : Nat := if up then min m (n + 1) else n - 1

/-- counter `i` after the branches `h`; `vote` says which counter a branch moves and where -/
def count (c : PCfg) (vote : List Br → Br → Option (Nat × Bool)) : List Br → Nat → Nat
  | [], _ => weak c
  | e :: h, i =>
    match vote h e with
    | some (j, up) => if j = i then sat (top c) up (count c vote h i) else count c vote h i
    | none => count c vote h i

/-- was an answer right -/
def right (g : List Br → W → W → W) (h : List Br) (e : Br) : Bool :=
  decide (g h e.pc (e.pc + e.offset) = e.next)

/-- a chooser counter moves when exactly one of the two was right, towards that one -/
def choose (low : Nat) (c : PCfg) (g0 g1 : List Br → W → W → W) (h : List Br) (e : Br) : Option (Nat × Bool) :=
  if right g0 h e = right g1 h e then none else some (hash low c e.pc, right g0 h e)

/-- every branch moves its counter towards its outcome -/
def train (low : Nat) (k : Kind) (c : PCfg) (h : List Br) (e : Br) : Option (Nat × Bool) :=
  some (index low k c h e.pc, taken e)

/-- the answer for a branch at `pc` with target `tg` after the branches `h` -/
def guess (low : Nat) : Def → List Br → W → W → W
  | .one .sttc c => fun _ pc tg =>
    if c.cntBits.toNat = 0 then tg
    else if c.cntBits.toNat = 1 then pc + 4#32
    else if tg.toNat ≤ pc.toNat then tg else pc + 4#32
  | .one k c => fun h pc tg =>
    if weak c ≤ count c (train low k c) h (index low k c h pc) then tg else pc + 4#32
  | .comb c d0 d1 => fun h pc tg =>
    if weak c ≤ count c (choose low c (guess low d0) (guess low d1)) h (hash low c pc) then guess low d0 h pc tg
    else guess low d1 h pc tg

end Ama.Spec.Bp
