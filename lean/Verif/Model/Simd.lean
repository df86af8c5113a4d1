import Verif.Model.Basic
/-!
# Custom SIMD instructions

Model of `/repo/src/core_exec_custom_simd.h` and
`/repo/src/core_exec_custom_simd_*.cpp`.  The C++ templates become functions of the
template parameters; `int32_t` lane values are `BitVec 32`.  DASM output is omitted.
-/
namespace Ama.Simd

/-- core_exec_custom_simd.h:4-8 `lane<vbits>::count` -/
def count (vbits : Nat) : Nat := 32 / vbits
/-- core_exec_custom_simd.h:7 `lane<vbits>::mask`; also the masks built with `1ULL`. -/
def mask (vbits : Nat) : W := BitVec.ofNat 32 (2 ^ vbits - 1)

/-- core_exec_custom_simd.h:10-17 `get_limit` as an `int32_t` -/
def getLimit (vbits : Nat) (vsigned max : Bool) : W :=
  if vsigned then
    if max then BitVec.ofInt 32 (2 ^ (vbits - 1) - 1) else BitVec.ofInt 32 (-(2 ^ (vbits - 1)))
  else
    if max then BitVec.ofInt 32 (2 ^ vbits - 1) else 0#32

/-- core_exec_custom_simd.h:34-56 `extract_val` -/
def extractVal (vbits : Nat) (vsigned : Bool) (val : W) : W :=
  if vbits = 8 then
    if vsigned then (val.setWidth 8).signExtend 32 else (val.setWidth 8).setWidth 32
  else if vbits = 16 then
    if vsigned then (val.setWidth 16).signExtend 32 else (val.setWidth 16).setWidth 32
  else if vbits = 32 then val
  else
    let masked := val &&& mask vbits
    if vsigned then
      if (masked &&& BitVec.ofNat 32 (2 ^ (vbits - 1))) ≠ 0#32 then masked ||| ~~~(mask vbits)
      else masked
    else masked

/-- The common loop of the lane-wise operations (e.g.
core_exec_custom_simd_arith_add_sub.cpp:18-46): evaluate the body on the low lanes,
pack the masked result at lane `i`, shift the inputs down. -/
def laneLoop (vbits : Nat) (f : W → W → Res W) : Nat → Nat → W → W → W → Res W
  | 0, _, _, _, acc => .ok acc
  | n + 1, i, a, b, acc => do
    let v ← f a b
    laneLoop vbits f n (i + 1) (a >>> vbits) (b >>> vbits)
      (acc ||| ((v &&& mask vbits) <<< (i * vbits)))

/-- arith_add_sub.cpp:19-35: loop body of `alu_c_add_sub_op` -/
def addSubBody (strict : Bool) (vbits : Nat) (vsigned isSub sat : Bool) (a b : W) : Res W := do
  let va := extractVal vbits vsigned a
  let vb := extractVal vbits vsigned b
  let raw ← if isSub then cSubI strict va vb else cAddI strict va vb
  if sat then
    if (getLimit vbits vsigned true).slt raw then .ok (getLimit vbits vsigned true)
    else if raw.slt (getLimit vbits vsigned false) then .ok (getLimit vbits vsigned false)
    else .ok raw
  else .ok raw

/-- arith_add_sub.cpp:6-53 `alu_c_add_sub_op` -/
def addSub (strict : Bool) (vbits : Nat) (vsigned isSub sat : Bool) (a b : W) : Res W :=
  laneLoop vbits (addSubBody strict vbits vsigned isSub sat) (count vbits) 0 a b 0#32

/-- arith_min_max.cpp:17-21 loop body -/
def minMaxBody (vbits : Nat) (vsigned isMax : Bool) (a b : W) : Res W :=
  let va := extractVal vbits vsigned a
  let vb := extractVal vbits vsigned b
  -- std::min(x,y) = y<x ? y : x ; std::max(x,y) = x<y ? y : x
  if isMax then .ok (if va.slt vb then vb else va) else .ok (if vb.slt va then vb else va)

/-- arith_min_max.cpp:6-39 `alu_c_min_max_op` -/
def minMax (vbits : Nat) (vsigned isMax : Bool) (a b : W) : Res W :=
  laneLoop vbits (minMaxBody vbits vsigned isMax) (count vbits) 0 a b 0#32

/-- arith_mul.cpp:19-30 loop body -/
def mulBody (strict : Bool) (vbits : Nat) (vsigned upper : Bool) (a b : W) : Res W := do
  let p ← cMulI strict (extractVal vbits vsigned a) (extractVal vbits vsigned b)
  .ok (if upper then (p >>> vbits) &&& mask vbits else p &&& mask vbits)

/-- arith_mul.cpp:7-48 `alu_c_mul_op` -/
def mul (strict : Bool) (vbits : Nat) (vsigned upper : Bool) (a b : W) : Res W :=
  laneLoop vbits (mulBody strict vbits vsigned upper) (count vbits) 0 a b 0#32

/-- arith_shift.cpp:18-21 loop body (only `a` is shifted down; `b` is unused) -/
def shiftBody (strict : Bool) (vbits : Nat) (varith left : Bool) (shamt : W) (a _b : W) : Res W :=
  let va := extractVal vbits varith a
  if left then cShlI strict va shamt else cSar strict va shamt

/-- arith_shift.cpp:6-38 `alu_c_shift_op` -/
def shift (strict : Bool) (vbits : Nat) (varith left : Bool) (a shamt : W) : Res W :=
  laneLoop vbits
    (shiftBody strict vbits varith left (shamt &&& BitVec.ofNat 32 (vbits - 1)))
    (count vbits) 0 a 0#32 0#32

/-- arith_dot.cpp:13-25: the accumulation loop -/
def dotLoop (strict : Bool) (vbits : Nat) (vsigned : Bool) : Nat → W → W → W → Res W
  | 0, _, _, res => .ok res
  | n + 1, a, b, res => do
    let p ← cMulI strict (extractVal vbits vsigned a) (extractVal vbits vsigned b)
    let r ← cAddI strict res p
    dotLoop strict vbits vsigned n (a >>> vbits) (b >>> vbits) r

/-- arith_dot.cpp:5-33 `alu_c_dot_op`; `res += c` is computed in `uint32_t` -/
def dot (strict : Bool) (vbits : Nat) (vsigned : Bool) (a b c : W) : Res W := do
  let r ← dotLoop strict vbits vsigned (count vbits) a b 0#32
  .ok (r + c)

/-- core_exec_custom_simd.h:24-28: body of `pack_wide`, one result word `w` of two -/
def packLoop (outBits half : Nat) : List W → Nat → W × W → W × W
  | [], _, ws => ws
  | r :: rs, i, (w0, w1) =>
    let v := (r &&& mask outBits) <<< ((i % half) * outBits)
    packLoop outBits half rs (i + 1) (if i / half = 0 then (w0 ||| v, w1) else (w0, w1 ||| v))

/-- core_exec_custom_simd.h:19-30 `pack_wide<out_bits, n>`, `n = results.length` -/
def packWide (outBits : Nat) (results : List W) : W × W :=
  packLoop outBits (results.length / 2) results 0 (0#32, 0#32)

/-- arith_wmul.cpp:20-33: the results array -/
def wmulLoop (strict : Bool) (vbits : Nat) (vsigned : Bool) : Nat → W → W → Res (List W)
  | 0, _, _ => .ok []
  | n + 1, a, b => do
    let p ← cMulI strict (extractVal vbits vsigned a) (extractVal vbits vsigned b)
    let rest ← wmulLoop strict vbits vsigned n (a >>> vbits) (b >>> vbits)
    .ok (p :: rest)

/-- arith_wmul.cpp:5-48 `alu_c_wmul_op` -/
def wmul (strict : Bool) (vbits : Nat) (vsigned : Bool) (a b : W) : Res (W × W) := do
  let rs ← wmulLoop strict vbits vsigned (count vbits) a b
  .ok (packWide (vbits * 2) rs)

/-- data_fmt_widen.cpp:18-25 -/
def widenLoop (strict : Bool) (vbits : Nat) (vsigned : Bool) (shamt : W) :
    Nat → W → Res (List W)
  | 0, _ => .ok []
  | n + 1, a => do
    let v ← cShlI strict (extractVal vbits vsigned a) shamt
    let rest ← widenLoop strict vbits vsigned shamt n (a >>> vbits)
    .ok (v :: rest)

/-- data_fmt_widen.cpp:5-37 `data_fmt_c_widen_t` -/
def widen (strict : Bool) (vbits : Nat) (vsigned : Bool) (a shamt : W) : Res (W × W) := do
  let rs ← widenLoop strict vbits vsigned (shamt &&& BitVec.ofNat 32 (vbits * 2 - 1))
    (count vbits) a
  .ok (packWide (vbits * 2) rs)

/-- data_fmt_narrow.cpp:27-38: extract and saturate one element -/
def narrowElem (vbits : Nat) (vsat vsigned : Bool) (val : W) : W :=
  let raw := extractVal vbits vsigned val
  let mx := getLimit (vbits / 2) vsigned true
  let mn := getLimit (vbits / 2) vsigned false
  if vsat then
    if vsigned then
      if mx.slt raw then mx else if raw.slt mn then mn else raw
    else
      if mx.ult raw then mx else if raw.ult mn then mn else raw
  else raw

/-- data_fmt_narrow.cpp:25-56: `process_reg` (`val >>= vbits` only when `vbits < 32`) -/
def narrowLoop (vbits : Nat) (vsat vsigned : Bool) (offset : Nat) : Nat → Nat → W → W → W
  | 0, _, _, res => res
  | n + 1, i, val, res =>
    narrowLoop vbits vsat vsigned offset n (i + 1) (if vbits < 32 then val >>> vbits else val)
      (res ||| ((narrowElem vbits vsat vsigned val &&& mask (vbits / 2)) <<<
        ((offset + i) * (vbits / 2))))

/-- data_fmt_narrow.cpp:5-85 `data_fmt_c_narrow_t` -/
def narrow (vbits : Nat) (vsat vsigned : Bool) (a b : W) : W :=
  let r1 := narrowLoop vbits vsat vsigned 0 (count vbits) 0 a 0#32
  narrowLoop vbits vsat vsigned (count vbits) (count vbits) 0 b r1

/-- data_fmt_txp.cpp:24-43 -/
def txpLoop (vbits : Nat) (a b : W) : Nat → Nat → W × W → W × W
  | 0, _, ws => ws
  | n + 1, j, (r, rp) =>
    let ie := 2 * j
    let io := 2 * j + 1
    let ae := (a >>> (ie * vbits)) &&& mask vbits
    let be := (b >>> (ie * vbits)) &&& mask vbits
    let ao := (a >>> (io * vbits)) &&& mask vbits
    let bo := (b >>> (io * vbits)) &&& mask vbits
    txpLoop vbits a b n (j + 1)
      (r ||| ((ae <<< (ie * vbits)) ||| (be <<< (io * vbits))),
       rp ||| ((ao <<< (ie * vbits)) ||| (bo <<< (io * vbits))))

/-- data_fmt_txp.cpp:5-64 `data_fmt_c_txp_t` -/
def txp (vbits : Nat) (a b : W) : W × W :=
  txpLoop vbits a b (count vbits / 2) 0 (0#32, 0#32)

/-- data_fmt_dup.cpp:20-25 -/
def dupLoop (vbits : Nat) (v : W) : Nat → Nat → W → W
  | 0, _, res => res
  | n + 1, i, res => dupLoop vbits v n (i + 1) (res ||| (v <<< (i * vbits)))

/-- data_fmt_dup.cpp:5-32 `data_fmt_c_dup_t` -/
def dup (vbits : Nat) (rs1 : W) : W :=
  dupLoop vbits (extractVal vbits true rs1 &&& mask vbits) (count vbits) 0 0#32

/-- data_fmt_vins.cpp:6-26 `data_fmt_c_vins_t` (`idx` is a `uint8_t`, here a number) -/
def vins (vbits : Nat) (rs3 rs1 : W) (idx : Nat) : W :=
  let idx := idx % count vbits
  let clear := ~~~((mask vbits) <<< (idx * vbits))
  let insert := (rs1 &&& mask vbits) <<< (idx * vbits)
  (rs3 &&& clear) ||| insert

/-- data_fmt_vext.cpp:6-23 `data_fmt_c_vext_t`; `idx & (lanes-1)` with `lanes` a power of two -/
def vext (vbits : Nat) (vsigned : Bool) (rs1 : W) (idx : Nat) : W :=
  let idx := idx % count vbits
  extractVal vbits vsigned (rs1 >>> (idx * vbits))

/-- Scratchpad hint modes, `hw_models/hw_model_types.h:12` -/
inductive ScpMode where | lcl | rel
  deriving DecidableEq, Repr

/-- The operations selected by `d_custom_ext` with their template arguments. -/
inductive Op where
  | addSub (vbits : Nat) (vsigned isSub sat : Bool)
  | mul (vbits : Nat) (vsigned upper : Bool)
  | wmul (vbits : Nat) (vsigned : Bool)
  | dot (vbits : Nat) (vsigned : Bool)
  | minMax (vbits : Nat) (vsigned isMax : Bool)
  | shift (vbits : Nat) (varith left : Bool)
  | widen (vbits : Nat) (vsigned : Bool)
  | narrow (vbits : Nat) (vsat vsigned : Bool)
  | txp (vbits : Nat)
  | dup (vbits : Nat)
  | vins (vbits : Nat)
  | vext (vbits : Nat) (vsigned : Bool)
  | scp (m : ScpMode)
  deriving DecidableEq, Repr

/-- core.cpp:804-1003: the two-level switch of `d_custom_ext` (group = funct7, op =
funct3; enum values in types.h:205-355, instantiations in the `.cpp` files).
`none` is a `default:` arm. -/
def sel (funct7 : BitVec 7) (funct3 : BitVec 3) : Option Op :=
  match funct7 with
  | 0x00#7 =>
    match funct3 with
    | 0#3 => some (.addSub 16 true false false) | 2#3 => some (.addSub 8 true false false)
    | 4#3 => some (.addSub 16 true true false) | 6#3 => some (.addSub 8 true true false)
    | _ => none
  | 0x01#7 =>
    match funct3 with
    | 0#3 => some (.addSub 16 true false true) | 1#3 => some (.addSub 16 false false true)
    | 2#3 => some (.addSub 8 true false true) | 3#3 => some (.addSub 8 false false true)
    | 4#3 => some (.addSub 16 true true true) | 5#3 => some (.addSub 16 false true true)
    | 6#3 => some (.addSub 8 true true true) | 7#3 => some (.addSub 8 false true true)
    | _ => none
  | 0x02#7 =>
    match funct3 with
    | 0#3 => some (.mul 16 true false) | 2#3 => some (.mul 8 true false)
    | 4#3 => some (.mul 16 true true) | 5#3 => some (.mul 16 false true)
    | 6#3 => some (.mul 8 true true) | 7#3 => some (.mul 8 false true)
    | _ => none
  | 0x03#7 =>
    match funct3 with
    | 0#3 => some (.wmul 16 true) | 1#3 => some (.wmul 16 false)
    | 2#3 => some (.wmul 8 true) | 3#3 => some (.wmul 8 false)
    | _ => none
  | 0x04#7 =>
    match funct3 with
    | 0#3 => some (.dot 16 true) | 1#3 => some (.dot 16 false)
    | 2#3 => some (.dot 8 true) | 3#3 => some (.dot 8 false)
    | 4#3 => some (.dot 4 true) | 5#3 => some (.dot 4 false)
    | 6#3 => some (.dot 2 true) | 7#3 => some (.dot 2 false)
    | _ => none
  | 0x08#7 =>
    match funct3 with
    | 0#3 => some (.minMax 16 true false) | 1#3 => some (.minMax 16 false false)
    | 2#3 => some (.minMax 8 true false) | 3#3 => some (.minMax 8 false false)
    | 4#3 => some (.minMax 16 true true) | 5#3 => some (.minMax 16 false true)
    | 6#3 => some (.minMax 8 true true) | 7#3 => some (.minMax 8 false true)
    | _ => none
  | 0x09#7 =>
    match funct3 with
    | 0#3 => some (.shift 16 false true) | 2#3 => some (.shift 8 false true)
    | 4#3 => some (.shift 16 false false) | 5#3 => some (.shift 16 true false)
    | 6#3 => some (.shift 8 false false) | 7#3 => some (.shift 8 true false)
    | _ => none
  | 0x20#7 =>
    match funct3 with
    | 0#3 => some (.widen 8 true) | 1#3 => some (.widen 8 false)
    | 2#3 => some (.widen 4 true) | 3#3 => some (.widen 4 false)
    | 4#3 => some (.widen 2 true) | 5#3 => some (.widen 2 false)
    | 6#3 => some (.widen 16 true) | 7#3 => some (.widen 16 false)
    | _ => none
  | 0x22#7 =>
    match funct3 with
    | 0#3 => some (.narrow 32 false false) | 2#3 => some (.narrow 16 false false)
    | 4#3 => some (.narrow 8 false false) | 6#3 => some (.narrow 4 false false)
    | _ => none
  | 0x23#7 =>
    match funct3 with
    | 0#3 => some (.narrow 32 true true) | 1#3 => some (.narrow 32 true false)
    | 2#3 => some (.narrow 16 true true) | 3#3 => some (.narrow 16 true false)
    | 4#3 => some (.narrow 8 true true) | 5#3 => some (.narrow 8 true false)
    | 6#3 => some (.narrow 4 true true) | 7#3 => some (.narrow 4 true false)
    | _ => none
  | 0x30#7 =>
    match funct3 with
    | 0#3 => some (.txp 16) | 2#3 => some (.txp 8) | 4#3 => some (.txp 4) | 6#3 => some (.txp 2)
    | _ => none
  | 0x3c#7 =>
    match funct3 with
    | 0#3 => some (.dup 16) | 2#3 => some (.dup 8) | 4#3 => some (.dup 4) | 6#3 => some (.dup 2)
    | 1#3 => some (.vins 16) | 3#3 => some (.vins 8) | 5#3 => some (.vins 4)
    | 7#3 => some (.vins 2)
    | _ => none
  | 0x3d#7 =>
    match funct3 with
    | 0#3 => some (.vext 16 true) | 1#3 => some (.vext 16 false)
    | 2#3 => some (.vext 8 true) | 3#3 => some (.vext 8 false)
    | 4#3 => some (.vext 4 true) | 5#3 => some (.vext 4 false)
    | 6#3 => some (.vext 2 true) | 7#3 => some (.vext 2 false)
    | _ => none
  | 0x7f#7 =>
    match funct3 with
    | 0#3 => some (.scp .lcl) | 1#3 => some (.scp .rel)
    | _ => none
  | _ => none

/-- core.cpp:804-1003: does the `default:` arm of the group return immediately?
Groups 0x00-0x03, 0x08 and 0x09 do, the others fall through to `next_pc = pc + 4`. -/
def selReturns (funct7 : BitVec 7) : Bool :=
  match funct7 with
  | 0x00#7 | 0x01#7 | 0x02#7 | 0x03#7 | 0x08#7 | 0x09#7 => true
  | _ => false

end Ama.Simd
