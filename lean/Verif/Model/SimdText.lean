import Verif.Model.Dasm
/-!
# The elements in the execution log

Model of `/repo/src/dasm_simd.cpp` and of the `DASM_EN` parts of `/repo/src/core_exec_custom_simd_*.cpp`: what a SIMD
instruction sends to the streams `dasm.simd_c`, `dasm.simd_a`, `dasm.simd_b` and, at its end, to `dasm.simd_ss`.  The
operations themselves are in `Model/Simd`; their loop bodies are used here for the values.
-/
namespace Ama.SimdText
open Dasm Simd

/-- types.h:514-517 `simd_ss`, `simd_c`, `simd_a`, `simd_b` -/
structure SS where
  c : DS
  a : DS
  b : DS
  ss : DS
/-- the streams at construction -/
def SS.init : SS := ⟨DS.init, DS.init, DS.init, DS.init⟩

/-- what one operation sends to `simd_c`, `simd_a` and `simd_b` -/
structure Chains where
  c : List P
  a : List P
  b : List P
/-- which `simd_ss_finish_*` ends an operation, and its arguments -/
inductive Fin where
  | cab
  | cas (shamt : W)
  | dot (res cIn : W)
  | vins (a idx : W)
  | vext (c idx : W)
  | dup (a : W)
  | none

/-- dasm_simd.cpp:11-38 the bracket of `simd_ss_init_*` -/
def opening : List P := [lit "[ "]
/-- dasm_simd.cpp:40-51, 58-62 one element, an `int32_t` -/
def app (v : W) : List P := [i32 v, lit " "]
/-- dasm_simd.cpp:53-56 `simd_ss_append_ab_u`: one element, a `uint32_t` -/
def appU (v : W) : List P := [u32 v, lit " "]
/-- dasm_simd.cpp:64-67 `simd_ss_append_imm`: one element; `FHEXZ` of an `int32_t` (defines.h:416-417) -/
def appHex (v : W) (w : Nat) : List P := [lit "0x", setw w, setfill '0', hex, i32 v, dec, lit " "]

/-- arith_add_sub.cpp:15, 18-46, arith_min_max.cpp:13, 16-32, arith_mul.cpp:15, 18-41: the loop with the result and both
operands of each element -/
def cabLoop (vbits : Nat) (sg : Bool) (f : W → W → Res W) : Nat → W → W → Chains → Res Chains
  | 0, _, _, ch => .ok ch
  | n + 1, a, b, ch => do
    let v ← f a b
    cabLoop vbits sg f n (a >>> vbits) (b >>> vbits)
      ⟨ch.c ++ app v, ch.a ++ app (extractVal vbits sg a), ch.b ++ app (extractVal vbits sg b)⟩

/-- arith_shift.cpp:14, 17-31: result and operand in hexadecimal, `vbits >> 2` digits -/
def shiftLoop (vbits : Nat) (ar : Bool) (f : W → W → Res W) : Nat → W → Chains → Res Chains
  | 0, _, ch => .ok ch
  | n + 1, a, ch => do
    let v ← f a 0#32
    shiftLoop vbits ar f n (a >>> vbits)
      ⟨ch.c ++ appHex (v &&& mask vbits) (vbits / 4), ch.a ++ appHex (extractVal vbits ar a) (vbits / 4), ch.b⟩

/-- arith_dot.cpp:10, 13-25, arith_wmul.cpp:16, 20-33: both operands of each element -/
def abLoop (vbits : Nat) (sg : Bool) : Nat → W → W → Chains → Chains
  | 0, _, _, ch => ch
  | n + 1, a, b, ch =>
    abLoop vbits sg n (a >>> vbits) (b >>> vbits)
      ⟨ch.c, ch.a ++ app (extractVal vbits sg a), ch.b ++ app (extractVal vbits sg b)⟩

/-- data_fmt_widen.cpp:18-25: the operand of each element, before the shift -/
def aLoop (vbits : Nat) (sg : Bool) : Nat → W → List P → List P
  | 0, _, l => l
  | n + 1, a, l => aLoop vbits sg n (a >>> vbits) (l ++ app (extractVal vbits sg a))

/-- arith_wmul.cpp:38-43, data_fmt_widen.cpp:28-32: the results, with the brackets between the two registers -/
def wide (half : Nat) : Nat → List W → List P
  | _, [] => []
  | i, r :: rs => [i32 r, if i = half - 1 then lit " ], [ " else lit " "] ++ wide half (i + 1) rs

/-- data_fmt_narrow.cpp:41-47 `out_vals` of one element (`raw` already saturated) -/
def outVal (outBits : Nat) (vsat vsigned : Bool) (raw : W) : W :=
  let m := raw &&& mask outBits
  if vsigned && vsat then (m <<< (32 - outBits)).sshiftRight (32 - outBits) else m
/-- data_fmt_narrow.cpp:25-56: `out_vals` of one register -/
def outVals (vbits : Nat) (vsat vsigned : Bool) : Nat → W → List W
  | 0, _ => []
  | n + 1, val =>
    outVal (vbits / 2) vsat vsigned (narrowElem vbits vsat vsigned val) ::
      outVals vbits vsat vsigned n (if vbits < 32 then val >>> vbits else val)
/-- data_fmt_narrow.cpp:66-78: one register's elements; `append_ab_u` when unsigned -/
def narrowSrc (vbits : Nat) (vsigned : Bool) (x : W) : List P :=
  (List.range (count vbits)).flatMap fun i =>
    if vsigned then app (extractVal vbits vsigned (x >>> (i * vbits))) else appU (extractVal vbits vsigned (x >>> (i * vbits)))

/-- data_fmt_txp.cpp:39-42: a register's elements, an even and an odd one in turn -/
def txpSrc (vbits : Nat) (x : W) : List P :=
  (List.range (count vbits / 2)).flatMap fun j =>
    app ((x >>> ((2 * j) * vbits)) &&& mask vbits) ++ app ((x >>> ((2 * j + 1) * vbits)) &&& mask vbits)
/-- data_fmt_txp.cpp:47-51, 54-58: one of the two results -/
def txpRes (vbits off : Nat) (a b : W) : List P :=
  (List.range (count vbits / 2)).flatMap fun j =>
    app ((a >>> ((2 * j + off) * vbits)) &&& mask vbits) ++ app ((b >>> ((2 * j + off) * vbits)) &&& mask vbits)

/-- what the operation selected by `d_custom_ext` writes (defines.h:221-377 for the operands): `a`, `b`, `c` are the
registers rs1, rs2, rd, `imm` the rs2 field; arith_*.cpp, data_fmt_*.cpp; scp hints write nothing -/
def out (st : Bool) (op : Op) (a b c : W) (imm : BitVec 5) : Res (Chains × Fin) :=
  match op with
  | .addSub n sg sb sat => do
    let ch ← cabLoop n sg (addSubBody st n sg sb sat) (count n) a b ⟨opening, opening, opening⟩
    .ok (ch, .cab)
  | .minMax n sg mx => do
    let ch ← cabLoop n sg (minMaxBody n sg mx) (count n) a b ⟨opening, opening, opening⟩
    .ok (ch, .cab)
  | .mul n sg up => do
    let ch ← cabLoop n sg (mulBody st n sg up) (count n) a b ⟨opening, opening, opening⟩
    .ok (ch, .cab)
  | .wmul n sg => do
    let rs ← wmulLoop st n sg (count n) a b
    let ch := abLoop n sg (count n) a b ⟨opening, opening, opening⟩
    .ok (⟨ch.c ++ wide (count n / 2) 0 rs, ch.a, ch.b⟩, .cab)
  | .dot n sg => do
    let r ← dot st n sg a b c
    .ok (abLoop n sg (count n) a b ⟨[], opening, opening⟩, .dot r c)
  | .shift n ar l => do
    let sh : W := imm.setWidth 32 &&& BitVec.ofNat 32 (n - 1)
    let ch ← shiftLoop n ar (shiftBody st n ar l sh) (count n) a ⟨opening, opening, []⟩
    .ok (ch, .cas sh)
  | .widen n sg => do
    let sh : W := imm.setWidth 32 &&& BitVec.ofNat 32 (n * 2 - 1)
    let rs ← widenLoop st n sg sh (count n) a
    .ok (⟨opening ++ wide (count n / 2) 0 rs, aLoop n sg (count n) a opening, []⟩, .cas sh)
  | .narrow n sat sg =>
    let vals := outVals n sat sg (count n) a ++ outVals n sat sg (count n) b
    .ok (⟨opening ++ vals.flatMap app, opening ++ narrowSrc n sg a, opening ++ narrowSrc n sg b⟩, .cab)
  | .txp n =>
    .ok (⟨opening ++ txpRes n 0 a b ++ [lit "], [ "] ++ txpRes n 1 a b, opening ++ txpSrc n a, opening ++ txpSrc n b⟩, .cab)
  | .dup n =>
    let v := extractVal n true a
    .ok (⟨opening ++ (List.range (count n)).flatMap fun _ => app v, [], []⟩, .dup v)
  | .vins n =>
    let idx := imm.toNat % count n
    let r := vins n c a idx
    .ok (⟨opening ++ (List.range (count n)).flatMap fun i => app (extractVal n true (r >>> (i * n))), [], []⟩,
      .vins (extractVal n true a) (BitVec.ofNat 32 idx))
  | .vext n sg =>
    let idx := imm.toNat % count n
    .ok (⟨[], opening ++ (List.range (count n)).flatMap fun i => app (extractVal n true (a >>> (i * n))), []⟩,
      .vext (vext n sg a idx) (BitVec.ofNat 32 idx))
  | .scp _ => .ok (⟨[], [], []⟩, .none)

/-- dasm_simd.cpp:75-115 `simd_ss_finish_*`; nothing when rd is x0 -/
def finish (rd : BitVec 5) (f : Fin) (c a b : List Char) : List P :=
  if rd = 0#5 then [] else
  match f with
  | .cas shamt => [lit "RD = ", str c, lit "], ", lit "RS1 = ", str a, lit "], ", lit "SHAMT = ", i32 shamt, lit "; "]
  | .cab => [lit "RD = ", str c, lit "], ", lit "RS1 = ", str a, lit "], ", lit "RS2 = ", str b, lit "]; "]
  | .dot res cIn => [lit "RD = ", i32 res, lit ", ", lit "RS1 = ", str a, lit "], ", lit "RS2 = ", str b, lit "], ",
      lit "RS3 = ", i32 cIn, lit "; "]
  | .vins x idx => [lit "RD = ", str c, lit "], ", lit "RS1 = ", i32 x, lit ", IDX = ", i32 idx, lit "; "]
  | .vext x idx => [lit "RD = ", i32 x, lit ", ", lit "RS1 = ", str a, lit "], ", lit "IDX = ", i32 idx, lit "; "]
  | .dup x => [lit "RD = ", str c, lit "], ", lit "RS1 = ", i32 x, lit "; "]
  | .none => []

/-- one SIMD instruction on the streams; dasm_simd.cpp:5-9 `simd_ss_clear` comes first and leaves the formatting alone -/
def put (rd : BitVec 5) (x : Chains × Fin) (s : SS) : SS :=
  let c := run (clear :: x.1.c) s.c
  let a := run (clear :: x.1.a) s.a
  let b := run (clear :: x.1.b) s.b
  ⟨c, a, b, run (finish rd x.2 c.text a.text b.text) s.ss⟩

/-- types.h:524-527 `clear_str` at the start of a step, then core.cpp:804-1003 with the instruction `w` and the registers
`rf`: the streams at the end of the step; other instructions leave them alone -/
def stepText (cfg : Cfg) (rf : BitVec 5 → W) (w : W) (s : SS) : Res SS :=
  let s := { s with ss := clear s.ss }
  if IP.opcode w = 0x0b#7 ∧ cfg.simd = true then
    match sel (IP.funct7 w) (IP.funct3 w) with
    | some op => do
      let x ← out cfg.strict op (rf (IP.rs1 w)) (rf (IP.rs2 w)) (rf (IP.rd w)) (IP.rs2 w)
      .ok (put (IP.rd w) x s)
    | none => .ok s
  else .ok s

end Ama.SimdText
