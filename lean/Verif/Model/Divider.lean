import Verif.Model.Basic
/-!
# Divider model

Model of `/repo/src/hw_models/divider.h` and `divider_stats.h`.  Omitted: sizes, floating point fractions and
output.  64-bit event counters are natural numbers.
-/
namespace Ama.Div

/-- `div_special_t`, divider_stats.h:20-26 -/
inductive Special where | none | divByZero | overflow | absLt | pow2 deriving DecidableEq, Repr

/-- divider_stats.h:28-33, 51-57, 110-118: the counters; `min` and `max` are 8-bit, 255 and 0 before use -/
structure DStats where
  total : Nat := 0
  hits : Nat := 0
  specials : Nat := 0
  commons : Nat := 0
  divByZero : Nat := 0
  overflow : Nat := 0
  absLt : Nat := 0
  pow2 : Nat := 0
  bits : Nat := 0
  min : BitVec 8 := 255#8
  max : BitVec 8 := 0#8
  prof : Bool := false

/-- divider_stats.h:128-132 `hit` -/
def DStats.hit (s : DStats) : DStats :=
  if !s.prof then s else { s with total := s.total + 1, hits := s.hits + 1 }
/-- divider_stats.h:36-44 `collect` -/
def DStats.collect (s : DStats) : Special → DStats
  | .divByZero => { s with divByZero := s.divByZero + 1 }
  | .overflow => { s with overflow := s.overflow + 1 }
  | .absLt => { s with absLt := s.absLt + 1 }
  | .pow2 => { s with pow2 := s.pow2 + 1 }
  | .none => s
/-- divider_stats.h:134-139 `special` -/
def DStats.special (s : DStats) (k : Special) : DStats :=
  if !s.prof then s else { s with total := s.total + 1, specials := s.specials + 1 }.collect k
/-- divider_stats.h:141-146 `common` and 60-64 `collect` -/
def DStats.common (s : DStats) (b : BitVec 8) : DStats :=
  if !s.prof then s
  else { s with total := s.total + 1, commons := s.commons + 1, bits := s.bits + b.toNat
                min := if b < s.min then b else s.min
                max := if s.max < b then b else s.max }

/-- the operands of one division: the two registers and whether it is unsigned -/
structure Op where
  a : W
  b : W
  uns : Bool
  deriving DecidableEq

/-- divider.h:24-34.  `entries` is a `uint32_t`; `slot i` exists for `i < entries`.  An invalid entry is `none`
(divider.h:6-22); its other members are never looked at. -/
structure Divider where
  entries : Nat
  wr : Nat := 0
  slot : Nat → Option Op := fun _ => .none
  stats : DStats := {}

/-- divider.h:36-47 constructor: 0 entries throws -/
def make (entries : W) : Res Divider :=
  if entries = 0#32 then .abort else .ok { entries := entries.toNat }

/-- divider.h:84-89 `cache_hit`, with 12-14 `hit`: the loop over the entries, `k` of them -/
def anyHit (d : Divider) (o : Op) : Nat → Bool
  | 0 => false
  | k + 1 => d.slot k = some o || anyHit d o k
/-- divider.h:91-94 `abs_val` -/
def absVal (x : W) (uns : Bool) : W := if uns || 0 ≤ x.toInt then x else ~~~x + 1#32
/-- divider.h:96-99 `clz32`: leading zeros, looking at the top `k` bits left -/
def clzGo (x : W) : Nat → Nat
  | 0 => 0
  | k + 1 => if x.getLsbD k then 0 else 1 + clzGo x k
/-- divider.h:96-99 `clz32`; the code's own zero case agrees with the count of 32 zero bits -/
def clz32 (x : W) : Nat := clzGo x 32
/-- divider.h:101-103 `is_pow2` -/
def isPow2 (x : W) : Bool := x ≠ 0#32 && (x &&& (x - 1#32)) = 0#32
/-- divider.h:105-122 `classify_special` -/
def classify (o : Op) : Special :=
  if o.b = 0#32 then .divByZero
  else if !o.uns && o.a = 0x80000000#32 && o.b = 0xFFFFFFFF#32 then .overflow
  else
    let absA := absVal o.a o.uns
    let absB := absVal o.b o.uns
    if absA = 0#32 || absA < absB then .absLt
    else if isPow2 absB then .pow2
    else .none
/-- divider.h:124-128 `count_common_bits`: `int` arithmetic, then a conversion to 8 bits -/
def commonBits (o : Op) : BitVec 8 :=
  let bitsA : Int := 32 - clz32 (absVal o.a o.uns)
  let bitsB : Int := 32 - clz32 (absVal o.b o.uns)
  BitVec.ofInt 8 (bitsA - (bitsB - 1))

/-- divider.h:51-65 `eval`; `at` with an index out of range throws.  `wr + 1` does not wrap: `wr < entries`. -/
def eval (d : Divider) (o : Op) : Res Divider :=
  if anyHit d o d.entries then .ok { d with stats := d.stats.hit }
  else
    let k := classify o
    if k ≠ .none then .ok { d with stats := d.stats.special k }
    else
      let d := { d with stats := d.stats.common (commonBits o) }
      if d.wr < d.entries then
        .ok { d with slot := fun i => if i = d.wr then some o else d.slot i, wr := (d.wr + 1) % d.entries }
      else .abort

/-- divider.h:49, divider_stats.h:126 `profiling` -/
def profiling (d : Divider) (on : Bool) : Divider := { d with stats := { d.stats with prof := on } }

end Ama.Div
