import Verif.Model.Basic
/-!
# The packed SIMD instruction set

Written from the instruction list of `/repo/README.md:1095-1199` (names and operands), the
encodings of the assembler patch `/repo/binutils.patch:41-146` and the properties C34 - C40. It
shares nothing with the model but the word type.
-/
namespace Ama.Spec

/-- element `i` of a vector of `n`-bit elements -/
def lane (n i : Nat) (x : W) : BitVec n := x.extractLsb' (n * i) n
/-- the number an element stands for -/
def lv (sg : Bool) {n : Nat} (l : BitVec n) : Int := if sg then l.toInt else l.toNat
/-- smallest and largest `n`-bit number -/
def lmin (sg : Bool) (n : Nat) : Int := if sg then -(2 ^ (n - 1)) else 0
def lmax (sg : Bool) (n : Nat) : Int := if sg then 2 ^ (n - 1) - 1 else 2 ^ n - 1
/-- the nearest `n`-bit number -/
def clamp (sg : Bool) (n : Nat) (z : Int) : Int := max (lmin sg n) (min (lmax sg n) z)
/-- element `i` of a register pair (low register first) -/
def pairLane (n i : Nat) (p : W × W) : BitVec n :=
  if i < 32 / n then lane n i p.1 else lane n (i - 32 / n) p.2
/-- an element extended to `m` bits -/
def extend (sg : Bool) (m : Nat) {n : Nat} (l : BitVec n) : BitVec m :=
  if sg then l.signExtend m else l.setWidth m

/-- instructions with one destination register -/
inductive X1 where
  | add (n : Nat) | sub (n : Nat) | qadd (n : Nat) (sg : Bool) | qsub (n : Nat) (sg : Bool)
  | mul (n : Nat) | mulh (n : Nat) (sg : Bool) | dot (n : Nat) (sg : Bool)
  | min (n : Nat) (sg : Bool) | max (n : Nat) (sg : Bool)
  | slli (n : Nat) | srli (n : Nat) | srai (n : Nat)
  | narrow (n : Nat) | qnarrow (n : Nat) (sg : Bool)
  | dup (n : Nat) | vins (n : Nat) | vext (n : Nat) (sg : Bool)
  deriving DecidableEq, Repr
/-- instructions with a register pair as destination -/
inductive X2 where
  | wmul (n : Nat) (sg : Bool) | widen (n : Nat) (sg : Bool) | txp (n : Nat)
  deriving DecidableEq, Repr

/-- `MATCH_*` constants (`sg = false` is the `u` mnemonic); `none`: no such instruction -/
def X1.match? : X1 → Option W
  | .add 16 => some 0xb#32 | .add 8 => some 0x200b#32
  | .sub 16 => some 0x400b#32 | .sub 8 => some 0x600b#32
  | .qadd 16 true => some 0x200000b#32 | .qadd 16 false => some 0x200100b#32
  | .qadd 8 true => some 0x200200b#32 | .qadd 8 false => some 0x200300b#32
  | .qsub 16 true => some 0x200400b#32 | .qsub 16 false => some 0x200500b#32
  | .qsub 8 true => some 0x200600b#32 | .qsub 8 false => some 0x200700b#32
  | .mul 16 => some 0x400000b#32 | .mul 8 => some 0x400200b#32
  | .mulh 16 true => some 0x400400b#32 | .mulh 16 false => some 0x400500b#32
  | .mulh 8 true => some 0x400600b#32 | .mulh 8 false => some 0x400700b#32
  | .dot 16 true => some 0x800000b#32 | .dot 16 false => some 0x800100b#32
  | .dot 8 true => some 0x800200b#32 | .dot 8 false => some 0x800300b#32
  | .dot 4 true => some 0x800400b#32 | .dot 4 false => some 0x800500b#32
  | .dot 2 true => some 0x800600b#32 | .dot 2 false => some 0x800700b#32
  | .min 16 true => some 0x1000000b#32 | .min 16 false => some 0x1000100b#32
  | .min 8 true => some 0x1000200b#32 | .min 8 false => some 0x1000300b#32
  | .max 16 true => some 0x1000400b#32 | .max 16 false => some 0x1000500b#32
  | .max 8 true => some 0x1000600b#32 | .max 8 false => some 0x1000700b#32
  | .slli 16 => some 0x1200000b#32 | .slli 8 => some 0x1200200b#32
  | .srli 16 => some 0x1200400b#32 | .srli 8 => some 0x1200600b#32
  | .srai 16 => some 0x1200500b#32 | .srai 8 => some 0x1200700b#32
  | .narrow 32 => some 0x4400000b#32 | .narrow 16 => some 0x4400200b#32
  | .narrow 8 => some 0x4400400b#32 | .narrow 4 => some 0x4400600b#32
  | .qnarrow 32 true => some 0x4600000b#32 | .qnarrow 32 false => some 0x4600100b#32
  | .qnarrow 16 true => some 0x4600200b#32 | .qnarrow 16 false => some 0x4600300b#32
  | .qnarrow 8 true => some 0x4600400b#32 | .qnarrow 8 false => some 0x4600500b#32
  | .qnarrow 4 true => some 0x4600600b#32 | .qnarrow 4 false => some 0x4600700b#32
  | .dup 16 => some 0x7800000b#32 | .dup 8 => some 0x7800200b#32
  | .dup 4 => some 0x7800400b#32 | .dup 2 => some 0x7800600b#32
  | .vins 16 => some 0x7800100b#32 | .vins 8 => some 0x7800300b#32
  | .vins 4 => some 0x7800500b#32 | .vins 2 => some 0x7800700b#32
  | .vext 16 true => some 0x7a00000b#32 | .vext 16 false => some 0x7a00100b#32
  | .vext 8 true => some 0x7a00200b#32 | .vext 8 false => some 0x7a00300b#32
  | .vext 4 true => some 0x7a00400b#32 | .vext 4 false => some 0x7a00500b#32
  | .vext 2 true => some 0x7a00600b#32 | .vext 2 false => some 0x7a00700b#32
  | _ => none
/-- `MATCH_*` constants of the pair instructions -/
def X2.match? : X2 → Option W
  | .wmul 16 true => some 0x600000b#32 | .wmul 16 false => some 0x600100b#32
  | .wmul 8 true => some 0x600200b#32 | .wmul 8 false => some 0x600300b#32
  | .widen 16 true => some 0x4000600b#32 | .widen 16 false => some 0x4000700b#32
  | .widen 8 true => some 0x4000000b#32 | .widen 8 false => some 0x4000100b#32
  | .widen 4 true => some 0x4000200b#32 | .widen 4 false => some 0x4000300b#32
  | .widen 2 true => some 0x4000400b#32 | .widen 2 false => some 0x4000500b#32
  | .txp 16 => some 0x6000000b#32 | .txp 8 => some 0x6000200b#32
  | .txp 4 => some 0x6000400b#32 | .txp 2 => some 0x6000600b#32
  | _ => none

/-- operand fields placed into a `MATCH_*` constant; `rs2` is also the immediate -/
def xWord (m : W) (rd rs1 rs2 : BitVec 5) : W :=
  m ||| rd.setWidth 32 <<< 7 ||| rs1.setWidth 32 <<< 15 ||| rs2.setWidth 32 <<< 20

/-- exact sum of the products of corresponding elements -/
def dotSum (sg : Bool) (n : Nat) (a b : W) : Int :=
  ((List.range (32 / n)).map fun i => lv sg (lane n i a) * lv sg (lane n i b)).sum

/-- the result `v` of an instruction with sources `a` = rs1, `b` = rs2, old destination `c` and
immediate `imm` -/
def X1.holds (x : X1) (a b c : W) (imm : BitVec 5) (v : W) : Prop :=
  match x with
  | .add n => ∀ i < 32 / n, lane n i v = lane n i a + lane n i b
  | .sub n => ∀ i < 32 / n, lane n i v = lane n i a - lane n i b
  | .qadd n sg => ∀ i < 32 / n, lv sg (lane n i v) = clamp sg n (lv sg (lane n i a) + lv sg (lane n i b))
  | .qsub n sg => ∀ i < 32 / n, lv sg (lane n i v) = clamp sg n (lv sg (lane n i a) - lv sg (lane n i b))
  | .mul n => ∀ i < 32 / n, lane n i v = lane n i a * lane n i b
  | .mulh n sg => ∀ i < 32 / n, lv sg (lane n i v) = lv sg (lane n i a) * lv sg (lane n i b) / 2 ^ n
  | .dot n sg => v = c + BitVec.ofInt 32 (dotSum sg n a b)
  | .min n sg => ∀ i < 32 / n, lv sg (lane n i v) = Min.min (lv sg (lane n i a)) (lv sg (lane n i b))
  | .max n sg => ∀ i < 32 / n, lv sg (lane n i v) = Max.max (lv sg (lane n i a)) (lv sg (lane n i b))
  | .slli n => ∀ i < 32 / n, lane n i v = lane n i a <<< (imm.toNat % n)
  | .srli n => ∀ i < 32 / n, lane n i v = lane n i a >>> (imm.toNat % n)
  | .srai n => ∀ i < 32 / n, lane n i v = (lane n i a).sshiftRight (imm.toNat % n)
  | .narrow n => ∀ i < 64 / n, lane (n / 2) i v = (pairLane n i (a, b)).setWidth (n / 2)
  | .qnarrow n sg => ∀ i < 64 / n, lv sg (lane (n / 2) i v) = clamp sg (n / 2) (lv sg (pairLane n i (a, b)))
  | .dup n => ∀ i < 32 / n, lane n i v = a.setWidth n
  | .vins n => ∀ i < 32 / n, lane n i v = if i = imm.toNat % (32 / n) then a.setWidth n else lane n i c
  | .vext n sg => v = extend sg 32 (lane n (imm.toNat % (32 / n)) a)

/-- the same for the register pair `p` = (rd, rd+1) -/
def X2.holds (x : X2) (a b : W) (imm : BitVec 5) (p : W × W) : Prop :=
  match x with
  | .wmul n sg => ∀ i < 32 / n, lv sg (pairLane (2 * n) i p) = lv sg (lane n i a) * lv sg (lane n i b)
  | .widen n sg => ∀ i < 32 / n,
      pairLane (2 * n) i p = extend sg (2 * n) (lane n i a) <<< (imm.toNat % (2 * n))
  | .txp n => ∀ i < 32 / n,
      lane n i p.1 = (if i % 2 = 0 then lane n i a else lane n (i - 1) b) ∧
      lane n i p.2 = if i % 2 = 0 then lane n (i + 1) a else lane n i b

end Ama.Spec
