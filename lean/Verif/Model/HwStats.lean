import Verif.Model.HwModels
/-!
# The report of the hardware models: `hw_stats.json`

Model of `core::log_hw_stats` (core.cpp:1176-1195) and the `log` functions it calls: the text as it is written, and the sizes it
contains.  The 64-bit event counters are natural numbers.  The digits of a floating point value that is computed are parameters
(`Digits`); those of a floating point constant are written out.
-/
namespace Ama.HwStats

/-- the text, fixed with two digits after the point, of: a count as a percentage of another; events per thousand of another; a sum
divided by a count.  `float_t` arithmetic is not modelled. -/
structure Digits where
  pct : Nat → Nat → List Char
  rate : Nat → Nat → List Char
  avg : Nat → Nat → List Char

/-- `JSON_N`, defines.h:747 -/
def jn : List Char := ['\n', ' ', ' ', ' ', ' ']
/-- the literal `"k": ` -/
def key (k : String) : List Char := '"' :: (k.toList ++ ['"', ':', ' '])
/-- an integer written to a stream -/
def int (n : Nat) : List Char := Nat.toDigits 10 n
/-- `-1.0` and `0`, fixed with two digits -/
def minusOne : List Char := ['-', '1', '.', '0', '0']
def zero : List Char := ['0', '.', '0', '0']

/-! ## Sizes -/

/-- cache_stats.h:36-63 `cache_size_t` -/
structure CacheSize where
  data : W
  tags : W
  metadata : W
  sets : W
  ways : W
  lineSize : W

/-- cache_stats.h:46-56 constructor -/
def CacheSize.make (sets ways lineSize tagBits metaBits : W) : CacheSize :=
  { sets := sets, ways := ways, lineSize := lineSize
    data := sets * ways * lineSize
    tags := ((sets * ways * tagBits) >>> 3) + 1#32
    metadata := ((sets * ways * metaBits) >>> 3) + 1#32 }
/-- cache.cpp:44-53: `mem_map::addr_bits` is 17 (types.h:35), `byte_addr_bits` 6; `log2` of a `double` truncated is `Nat.log2` for
the at most 128 ways -/
def cacheSize (c : Cache.Cfg) : CacheSize :=
  let indexBits := (Cache.indexGo c.sets 0 0#32).1
  .make (BitVec.ofNat 32 c.sets) (BitVec.ofNat 32 c.ways) 64#32 (17#32 - BitVec.ofNat 32 indexBits - 6#32)
    (3#32 + BitVec.ofNat 32 (Nat.log2 c.ways))

/-- divider_stats.h:88-96 `div_size_t`, divider.h:27-28, 40: total, size of an entry -/
def divTotal (entries : W) : W := (entries * 130#32) >>> 3
def divEntry : W := 130#32 >>> 3

/-- bp_pht.h:65, 69: `bit_size` -/
def phtBits (idxBits cntBits : BitVec 8) : W := BitVec.ofNat 32 (2 ^ idxBits.toNat) * cntBits.setWidth 32
/-- `(size + 4) >> 3` -/
def toBytes (bits : W) : W := (bits + 4#32) >>> 3
/-- bp_static.h:11, bp_bimodal.h:25, bp_local.h:58-60, bp_global.h:21-22, bp_gselect.h:20, 29-30, bp_gshare.h:22, 31-32, bp_ideal.h:7,
bp_none.h:8: `size` -/
def bpSize1 (k : Bp.Kind) (c : Bp.PCfg) : W :=
  match k with
  | .sttc => 0#32
  | .bimodal => toBytes (phtBits c.pcBits c.cntBits)
  | .local => toBytes (BitVec.ofNat 32 (2 ^ c.pcBits.toNat) * c.histBits.setWidth 32 + phtBits c.histBits c.cntBits)
  | .global => toBytes (phtBits c.ghrBits c.cntBits + c.ghrBits.setWidth 32)
  | .gselect => toBytes (phtBits (c.ghrBits + c.pcBits) c.cntBits + c.ghrBits.setWidth 32)
  | .gshare => toBytes (phtBits (if c.ghrBits < c.pcBits then c.pcBits else c.ghrBits) c.cntBits + c.ghrBits.setWidth 32)
  | .ideal => 0#32
  | .none => 0#32
/-- bp_combined.h:23-24: the components are rounded each -/
def bpSize : Bp.Def → W
  | .one k c => bpSize1 k c
  | .comb c p0 p1 => bpSize p0 + bpSize p1 + toBytes (phtBits c.pcBits c.cntBits)

/-! ## Text -/

/-- `{"reads": a, "writes": b}` of cache_stats.h:6-24 -/
def pairText (a b : Nat) : List Char := ['{'] ++ key "reads" ++ int a ++ [',', ' '] ++ key "writes" ++ int b ++ ['}']

/-- cache_stats.h:151-160 `summarize`: hit rate -/
def cacheHr (D : Digits) (insts : Nat) (s : Cache.Stats) : List Char :=
  if insts = 0 ∨ s.references = 0 then minusOne else D.pct (s.hitsLd + s.hitsSt) s.references
/-- cache_stats.h:151-160 `summarize`: misses per thousand instructions -/
def cacheMpki (D : Digits) (kind : Cache.Kind) (insts : Nat) (s : Cache.Stats) : List Char :=
  if insts = 0 ∨ s.references = 0 then minusOne
  else
    let misses := if kind = .inst then s.missesLd else s.missesLd + s.missesSt
    if misses = 0 then zero else D.rate misses insts

/-- cache_stats.h:6-24, 178-180 -/
def cacheStatsText (D : Digits) (kind : Cache.Kind) (insts : Nat) (s : Cache.Stats) : List Char :=
  jn ++ key "references" ++ int s.references ++ [','] ++
  jn ++ key "hits" ++ pairText s.hitsLd s.hitsSt ++ [',', ' '] ++
  jn ++ key "misses" ++ pairText s.missesLd s.missesSt ++ [',', ' '] ++
  jn ++ key "replacements" ++ int s.replacements ++ [','] ++
  jn ++ key "writebacks" ++ int s.writebacks ++ [','] ++
  jn ++ key "ct_core" ++ pairText s.coreRd s.coreWr ++ [',', ' '] ++
  jn ++ key "ct_mem" ++ pairText s.memRd s.memWr ++ [','] ++
  jn ++ key "hr" ++ cacheHr D insts s ++ [',', ' '] ++
  jn ++ key "mpki" ++ cacheMpki D kind insts s
/-- cache_stats.h:26-34, 62-64 -/
def cacheSizeText (z : CacheSize) : List Char :=
  jn ++ key "size" ++ ['{'] ++ key "data" ++ int z.data.toNat ++ [',', ' '] ++ key "tags" ++ int z.tags.toNat ++
  [',', ' '] ++ key "metadata" ++ int z.metadata.toNat ++ [',', ' '] ++ key "sets" ++ int z.sets.toNat ++
  [',', ' '] ++ key "ways" ++ int z.ways.toNat ++ [',', ' '] ++ key "line_size" ++ int z.lineSize.toNat ++ ['}']
/-- cache.cpp:536-542 `log_stats` after main_memory.h:57-58 `summarize_stats`; names: main_memory.cpp:10, 19 -/
def cacheText (D : Digits) (name : String) (insts : Nat) (c : Cache) : List Char :=
  key name ++ ['{'] ++ cacheStatsText D c.cfg.kind insts c.stats ++ [',', ' '] ++ cacheSizeText (cacheSize c.cfg) ++
  ['\n', '}', ',', '\n']

/-- bp_stats.h:79-90 `summarize`: accuracy -/
def bpAccuracy (D : Digits) (insts : Nat) (s : Bp.BStats) : List Char :=
  if insts = 0 ∨ s.total = 0 then minusOne else D.pct s.predicted s.total
/-- bp_stats.h:79-90 `summarize`: mispredictions per thousand instructions -/
def bpMpki (D : Digits) (insts : Nat) (s : Bp.BStats) : List Char :=
  if insts = 0 ∨ s.total = 0 then minusOne
  else if s.mispredicted = 0 then zero else D.rate s.mispredicted insts
/-- bp.h:90-94 `log_stats`, bp_stats.h:5-15, after `finish` (core.cpp:391, bp_if.cpp:253) has summarised; `bp_name`: core.cpp:14 -/
def bpText (D : Digits) (type : List Char) (size : W) (insts : Nat) (s : Bp.BStats) : List Char :=
  key "bpred" ++ ['{'] ++
  jn ++ key "type" ++ ['"'] ++ type ++ ['"', ','] ++
  jn ++ key "branches" ++ int s.total ++ [','] ++
  jn ++ key "predicted" ++ int s.predicted ++ [','] ++
  jn ++ key "predicted_fwd" ++ int s.predFwd ++ [','] ++
  jn ++ key "predicted_bwd" ++ int s.predBwd ++ [','] ++
  jn ++ key "mispredicted" ++ int s.mispredicted ++ [','] ++
  jn ++ key "mispredicted_fwd" ++ int s.misFwd ++ [','] ++
  jn ++ key "mispredicted_bwd" ++ int s.misBwd ++ [','] ++
  jn ++ key "accuracy" ++ bpAccuracy D insts s ++ [','] ++
  jn ++ key "mpki" ++ bpMpki D insts s ++ [','] ++
  jn ++ key "size" ++ int size.toNat ++ ['\n', '}', ',']

/-- divider_stats.h:121-124 `fraction` -/
def fraction (D : Digits) (count total : Nat) : List Char := if total = 0 then minusOne else D.pct count total
/-- divider_stats.h:155-165: `{"count": c, "fraction": f}` -/
def countText (D : Digits) (count total : Nat) : List Char :=
  ['{'] ++ key "count" ++ int count ++ [',', ' '] ++ key "fraction" ++ fraction D count total ++ ['}']
/-- divider_stats.h:66-82 `log` of the common cases -/
def commonText (D : Digits) (s : Div.DStats) : List Char :=
  jn ++ key "common_cases_info" ++ ['{'] ++ key "total" ++ int s.bits ++ [',', ' '] ++
  key "min" ++ (if s.min = 255#8 then "null".toList else int s.min.toNat) ++ [',', ' '] ++
  key "max" ++ (if s.max = 0#8 then "null".toList else int s.max.toNat) ++ [',', ' '] ++
  key "avg" ++ (if s.min = 255#8 then "null".toList else if s.commons = 0 then minusOne else D.avg s.bits s.commons) ++ ['}']
/-- divider.h:67-73 `log_stats`, divider_stats.h:5-19, 147-173; `entries` is the number of cache entries -/
def divText (D : Digits) (d : Div.Divider) : List Char :=
  ['\n'] ++ key "divider" ++ ['{'] ++
  jn ++ key "total" ++ int d.stats.total ++ [','] ++
  jn ++ key "cache" ++ countText D d.stats.hits d.stats.total ++ [','] ++
  jn ++ key "special_cases" ++ countText D d.stats.specials d.stats.total ++ [','] ++
  jn ++ key "special_cases_class" ++ ['{'] ++ key "div_by_zero" ++ int d.stats.divByZero ++ [',', ' '] ++
  key "overflow" ++ int d.stats.overflow ++ [',', ' '] ++ key "abs_lt" ++ int d.stats.absLt ++ [',', ' '] ++
  key "divisor_pow2" ++ int d.stats.pow2 ++ ['}', ','] ++
  jn ++ key "common_cases" ++ countText D d.stats.commons d.stats.total ++ [','] ++
  commonText D d.stats ++ [','] ++
  jn ++ key "size" ++ ['{'] ++ key "total" ++ int (divTotal (BitVec.ofNat 32 d.entries)).toNat ++ [',', ' '] ++ key "entries" ++ int d.entries ++
  [',', ' '] ++ key "entry_size" ++ int divEntry.toNat ++ ['}'] ++ ['\n', '}', ',']

/-- core.cpp:1176-1195 `log_hw_stats`; `type` and `bp` are the name and the definition of the active predictor, `insts` is
`prof_pc.inst_cnt`, or `sim_cnt.inst` in a build without profilers -/
def hwStatsText (D : Digits) (type : List Char) (bp : Bp.Def) (insts : BitVec 64) (m : Models) : List Char :=
  ['{', '\n'] ++ cacheText D "icache" insts.toNat m.mmi.ic ++ cacheText D "dcache" insts.toNat m.mmi.mm.dc ++
  bpText D type (bpSize bp) insts.toNat m.bp.active.base.stats ++ divText D m.div ++
  ['\n'] ++ key "profiled_inst" ++ int insts.toNat ++ ['\n', '}', '\n']

end Ama.HwStats
