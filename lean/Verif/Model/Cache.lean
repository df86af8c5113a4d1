import Verif.Model.Mem
/-!
# Cache model

Model of `/repo/src/hw_models/cache.h`, `cache.cpp`, `cache_stats.h` and of the line accessors
of `/repo/src/devices/main_memory.cpp`.  Omitted: console output, JSON logs, `PROFILERS_EN`
event flags, `DASM_EN` logs, the `SCP_BACKDOOR` debugging aid (not defined in any build),
`summarize` (floating point), `cache_size_t`.  The 64-bit event counters are natural numbers
here: the code's values are these modulo 2^64.
-/
namespace Ama.Cache

/-- `cache_type_t`, hw_model_types.h:7 -/
inductive Kind where | inst | data deriving DecidableEq, Repr
/-- `cache_wr_policy_t`, hw_model_types.h:9 -/
inductive WrPol where | none | wb | wt deriving DecidableEq, Repr
/-- `cache_in_policy_t`, hw_model_types.h:10 -/
inductive InPol where | update | noUpdate deriving DecidableEq, Repr
/-- `cache_ref_t`, hw_model_types.h:11 -/
inductive Ref where | hit | miss | ignore deriving DecidableEq, Repr
/-- `scp_mode_t`, hw_model_types.h:12 -/
inductive Scp where | none | lcl | rel deriving DecidableEq, Repr

/-- constructor arguments (cache.h:135-143) and build options: `func` is
`CACHE_MODE == CACHE_MODE_FUNC`, `verify` is `CACHE_VERIFY` (defines.h:43-50) -/
structure Cfg where
  kind : Kind
  sets : Nat
  ways : Nat
  inPol : InPol
  wrPol : WrPol
  func : Bool
  verify : Bool
  deriving DecidableEq

/-- cache.h:19-52 `metadata_t`, `cache_line_t`; only `data i` with `i < 64` exists.
`lru_cnt` is a natural number: an increment is guarded by `<`, so it cannot wrap. -/
structure Line where
  valid : Bool
  dirty : Bool
  scp : Bool
  lru : Nat
  tag : W
  data : Nat → BitVec 8
  refCnt : Nat
  prof : Bool
/-- cache.h:44-50 `referenced` -/
def Line.referenced (l : Line) : Line := if l.prof then { l with refCnt := l.refCnt + 1 } else l

/-- cache_stats.h:101-118 without the two ratios -/
structure Stats where
  references : Nat
  hitsLd : Nat
  hitsSt : Nat
  missesLd : Nat
  missesSt : Nat
  replacements : Nat
  writebacks : Nat
  coreRd : Nat
  coreWr : Nat
  memRd : Nat
  memWr : Nat
  prof : Bool
  deriving DecidableEq, Repr
namespace Stats
/-- cache_stats.h:115-118 -/
def init : Stats := ⟨0, 0, 0, 0, 0, 0, 0, 0, 0, 0, 0, false⟩
/-- cache_stats.h:121-127 -/
def referenced (s : Stats) (op : MemOp) (size : Nat) : Stats :=
  if !s.prof then s
  else match op with
    | .read => { s with references := s.references + 1, coreRd := s.coreRd + size }
    | .write => { s with references := s.references + 1, coreWr := s.coreWr + size }
/-- cache_stats.h:128-132 -/
def hit (s : Stats) (op : MemOp) : Stats :=
  if !s.prof then s
  else match op with
    | .read => { s with hitsLd := s.hitsLd + 1 }
    | .write => { s with hitsSt := s.hitsSt + 1 }
/-- cache_stats.h:133-138 -/
def miss (s : Stats) (op : MemOp) : Stats :=
  if !s.prof then s
  else match op with
    | .read => { s with missesLd := s.missesLd + 1, memRd := s.memRd + 64 }
    | .write => { s with missesSt := s.missesSt + 1, memRd := s.memRd + 64 }
/-- cache_stats.h:144-148 -/
def writeback (s : Stats) : Stats :=
  if !s.prof then s else { s with writebacks := s.writebacks + 1, memWr := s.memWr + 64 }
/-- cache_stats.h:139-143 -/
def replace (s : Stats) (dirty : Bool) : Stats :=
  if !s.prof then s
  else
    let s := { s with replacements := s.replacements + 1 }
    if dirty then s.writeback else s
end Stats

/-- cache_stats.h:182-192 `region_of_interest_t` -/
structure Roi where
  start : W
  stop : W
  stats : Stats
namespace Roi
/-- cache_stats.h:187-190 -/
def set (r : Roi) (start size : W) : Roi := { r with start := start, stop := start + size }
/-- cache_stats.h:191 -/
def has (r : Roi) (a : W) : Bool := r.start.ule a && a.ule r.stop
/-- `if (roi.has(a)) roi.stats.…` -/
def on (r : Roi) (a : W) (f : Stats → Stats) : Roi := if r.has a then { r with stats := f r.stats } else r
end Roi

/-- cache.h:61-66 `current_cache_line_info` with cache.h:54-59 `victim_t` -/
structure Ccl where
  index : Nat
  tag : W
  vWay : Nat
  vLru : Nat
  byteAddr : Nat

end Ama.Cache

namespace Ama
open Cache

/-- cache.h:91-131: the members that matter.  `none` in `scpStatus` and `rdBuf` is an uninitialised
member. -/
structure Cache where
  cfg : Cache.Cfg
  indexBits : Nat
  indexMask : W
  tagOff : Nat
  maxScp : Nat
  arr : Nat → Nat → Line
  stats : Stats
  roi : Roi
  ccl : Ccl
  rdBuf : Option W
  wrBuf : W
  scpStatus : Option Bool
  hws : Option Bool

namespace Cache

/-- types.h:25-27 `is_pow2` on the 32-bit argument -/
def isPow2 (n : Nat) : Bool := decide (0 < n) && (n &&& (n - 1) == 0)

/-- cache.cpp:382-450 `validate_inputs`; the replacement policy has only one value -/
def Cfg.valid (c : Cfg) : Bool :=
  (match c.kind with | .inst => c.wrPol == .none | .data => c.wrPol == .wb || c.wrPol == .wt) &&
  !(c.sets == 0) && decide (c.sets ≤ 1024) && isPow2 c.sets && !(c.ways == 0) && decide (c.ways ≤ 128)

/-- cache.cpp:38-43: the loop `for (i = sets; i > 1; i >>= 1)`; returns (bits, mask) -/
def indexGo : Nat → Nat → W → Nat × W
  | i, bits, mask => if i > 1 then indexGo (i / 2) (bits + 1) (mask <<< 1 ||| 1#32) else (bits, mask)
termination_by i => i

/-- cache.cpp:4-54 constructor: `none` when `validate_inputs` throws -/
def new (c : Cfg) : Option Cache :=
  if c.valid then
    let p := indexGo c.sets 0 0#32
    some {
      cfg := c, indexBits := p.1, indexMask := p.2, tagOff := 6 + p.1, maxScp := c.ways - 1
      arr := fun _ way => ⟨false, false, false, way, 0#32, fun _ => 0xcd#8, 0, false⟩
      stats := .init, roi := ⟨0#32, 0#32, .init⟩, ccl := ⟨0, 0#32, 0, 0, 0⟩
      rdBuf := none, wrBuf := 0#32, scpStatus := none, hws := none }
  else none

/-- cache.h:155-161 `profiling` -/
def profiling (c : Cache) (enable : Bool) : Cache :=
  { c with stats := { c.stats with prof := enable }
           roi := { c.roi with stats := { c.roi.stats with prof := enable } }
           arr := fun i w => { c.arr i w with prof := enable } }

/-- cache.cpp:484-489 `set_roi` -/
def setRoi (c : Cache) (start size : W) : Cache := { c with roi := c.roi.set (toNorm start) size }

/-- cache.h:200-202 `line_base_addr` -/
def lineBase (c : Cache) (tag : W) (index : Nat) : W := tag <<< c.tagOff ||| (BitVec.ofNat 32 index) <<< 6

/-- replace one line -/
def setLine (c : Cache) (index way : Nat) (l : Line) : Cache :=
  { c with arr := fun i w => if i = index ∧ w = way then l else c.arr i w }

/-- outcome of the search loop -/
inductive Scan where
  | hit (way : Nat)
  | none (way lru : Nat)
  deriving DecidableEq, Repr

/-- cache.cpp:128-193: the loop over ways, `n` of them left from `way` on; the pair is the victim -/
def scan (s : Nat → Line) (tag : W) : (n way vWay vLru : Nat) → Scan
  | 0, _, vw, vl => .none vw vl
  | n + 1, way, vw, vl =>
    let line := s way
    if line.valid && line.tag == tag then .hit way
    else if decide (line.lru ≥ vl) && !line.scp then scan s tag n (way + 1) way line.lru
    else scan s tag n (way + 1) vw vl

/-- cache.cpp:335-347 `update_lru`: each iteration changes only its own line, and the counter of
`way` (held by reference) is not below itself, so the iterations are independent -/
def updateLru (ways : Nat) (s : Nat → Line) (way : Nat) : Nat → Line := fun i =>
  if i = way then { s i with lru := 0 }
  else if i < ways ∧ (s i).lru < (s way).lru then { s i with lru := (s i).lru + 1 }
  else s i

/-- cache.cpp:361-364: number of locked lines among the first `n` ways -/
def scpCount (s : Nat → Line) : Nat → Nat
  | 0 => 0
  | n + 1 => scpCount s n + (if (s n).scp then 1 else 0)

/-- cache.cpp:359-371 `convert_to_scp` -/
def convertToScp (c : Cache) (index way : Nat) : Bool × Cache :=
  if scpCount (c.arr index) c.cfg.ways < c.maxScp then
    (true, c.setLine index way { c.arr index way with scp := true })
  else (false, c)
/-- cache.cpp:373-380 `release_scp` -/
def releaseScp (c : Cache) (index way : Nat) : Bool × Cache :=
  if (c.arr index way).scp then (true, c.setLine index way { c.arr index way with scp := false })
  else (false, c)
/-- cache.cpp:349-357 `update_scp` and the assignment to `scp_status` at its two call sites -/
def updateScp (c : Cache) (m : Scp) (index way : Nat) : Cache :=
  let r := match m with
    | .none => (true, c)
    | .lcl => convertToScp c index way
    | .rel => releaseScp c index way
  { r.2 with scpStatus := some r.1 }

/-! ## Data (`CACHE_MODE_FUNC`) -/

/-- main_memory.cpp:257-263: the loop of `rd_line` -/
def rdLineGo (d : Dev) (base : W) : Nat → Res (Nat → BitVec 8)
  | 0 => .ok fun _ => 0#8
  | n + 1 => do
    let f ← rdLineGo d base n
    let v ← d.rd (base + BitVec.ofNat 32 n) 1
    .ok fun i => if i = n then v.setWidth 8 else f i
/-- main_memory.cpp:255-264 `rd_line`, main_memory.h:73 `align_to_cache_line` -/
def rdLine (d : Dev) (a : W) : Res (Nat → BitVec 8) := rdLineGo d (a &&& ~~~63#32) 64

/-- main_memory.cpp:275-287: the comparison loop of `wr_line` -/
def wrLineGo (d : Dev) (base : W) (data : Nat → BitVec 8) : (n i : Nat) → Res Unit
  | 0, _ => .ok ()
  | n + 1, i => do
    let v ← d.rd (base + BitVec.ofNat 32 i) 1
    if v ≠ (data i).setWidth 32 then .abort else wrLineGo d base data n (i + 1)
/-- main_memory.cpp:268-288 `wr_line`: a mismatch throws -/
def wrLine (d : Dev) (a : W) (data : Nat → BitVec 8) : Res Unit := wrLineGo d (a &&& ~~~63#32) data 64 0

/-- cache.cpp:458-461: bytes `i … i+n-1` of the access into `rd_buf` -/
def readGo (data : Nat → BitVec 8) (byteAddr : Nat) : (n i : Nat) → W → Res W
  | 0, _, acc => .ok acc
  | n + 1, i, acc =>
    if byteAddr + i < 64 then
      if i < 4 then readGo data byteAddr n (i + 1) (acc ||| (data (byteAddr + i)).setWidth 32 <<< (8 * i))
      else .ub .shift
    else .ub .outOfBounds
/-- cache.cpp:453-462 `read_from_cache` -/
def readFromCache (c : Cache) (size : Nat) (way : Nat) : Res Cache :=
  if c.cfg.func then do
    let v ← readGo (c.arr c.ccl.index way).data c.ccl.byteAddr size 0 0#32
    .ok { c with rdBuf := some v }
  else .ok c

/-- cache.cpp:469-471 -/
def writeGo (wrBuf : W) (byteAddr : Nat) : (n i : Nat) → (Nat → BitVec 8) → Res (Nat → BitVec 8)
  | 0, _, data => .ok data
  | n + 1, i, data =>
    if byteAddr + i < 64 then
      if i < 4 then
        writeGo wrBuf byteAddr n (i + 1)
          (fun j => if j = byteAddr + i then (wrBuf >>> (8 * i)).setWidth 8 else data j)
      else .ub .shift
    else .ub .outOfBounds
/-- cache.cpp:464-480 `write_to_cache` -/
def writeToCache (c : Cache) (d : Dev) (size : Nat) (way : Nat) : Res Cache :=
  if c.cfg.func then do
    let line := c.arr c.ccl.index way
    let data ← writeGo c.wrBuf c.ccl.byteAddr size 0 line.data
    let c := c.setLine c.ccl.index way { line with data := data }
    if c.cfg.verify && c.cfg.wrPol == .wt then do
      wrLine d (c.lineBase line.tag c.ccl.index) data
      .ok c
    else .ok c
  else .ok c

/-! ## Accesses -/

/-- cache.cpp:161-177 and 282-298: the data phase of an access to a resident line -/
def access (c : Cache) (d : Dev) (size : Nat) (op : MemOp) (way : Nat) : Res Cache :=
  match op with
  | .write => do
    let c ← writeToCache c d size way
    let line := c.arr c.ccl.index way
    if c.cfg.wrPol == .wt then
      .ok { c with stats := c.stats.writeback
                   roi := c.roi.on (c.lineBase line.tag c.ccl.index) Stats.writeback }
    else .ok (c.setLine c.ccl.index way { line with dirty := true })
  | .read => readFromCache c size way

/-- cache.cpp:121 index of an address -/
def idx (c : Cache) (a : W) : Nat := (a >>> 6 &&& c.indexMask).toNat
/-- cache.cpp:122 tag of an address -/
def tg (c : Cache) (a : W) : W := a >>> c.tagOff
/-- cache.cpp:109-118: counting, except for releases -/
def counted (c : Cache) (a : W) (size : Nat) (op : MemOp) (m : Scp) : Cache :=
  if m ≠ .rel then
    { c with stats := c.stats.referenced op size, roi := c.roi.on a (·.referenced op size) }
  else c
/-- cache.cpp:120-125: `ccl_info`, with the victim found by the search -/
def setCcl (c : Cache) (a : W) (vWay vLru : Nat) : Cache :=
  { c with ccl := ⟨c.idx a, c.tg a, vWay, vLru, (a &&& 63#32).toNat⟩ }
/-- cache.cpp:335-347 `update_lru` on the addressed set -/
def touch (c : Cache) (index way : Nat) : Cache :=
  let s := updateLru c.cfg.ways (c.arr index) way
  { c with arr := fun i => if i = index then s else c.arr i }
/-- cache.cpp:156-159: a hit that is not a release, before its data phase -/
def hitPre (c : Cache) (a : W) (op : MemOp) (index way : Nat) : Cache :=
  let c := c.touch index way
  let c := c.setLine index way (c.arr index way).referenced
  { c with stats := c.stats.hit op, roi := c.roi.on a (·.hit op) }

/-- cache.cpp:104-207 `reference` -/
def reference (c : Cache) (d : Dev) (a : W) (size : Nat) (op : MemOp) (m : Scp) : Res (Ref × Cache) :=
  let c := c.counted a size op m
  match scan (c.arr (c.idx a)) (c.tg a) c.cfg.ways 0 0 0 with
  | .hit way =>
    let c := (c.setCcl a 0 0).updateScp m (c.idx a) way
    if m = .rel then .ok (.hit, { c with hws := some true })
    else do
      let c ← (c.hitPre a op (c.idx a) way).access d size op way
      .ok (.hit, { c with hws := some true })
  | .none vWay vLru =>
    let c := c.setCcl a vWay vLru
    if m = .rel then .ok (.ignore, c)
    else .ok (.miss, { c with hws := some false })

/-- cache.cpp:247-267: make room.  The victim of `hit` searches is not used. -/
def evict (c : Cache) (d : Dev) : Res Cache :=
  let index := c.ccl.index
  let line := c.arr index c.ccl.vWay
  if line.valid then
    let base := c.lineBase line.tag index
    let c := { c with stats := c.stats.replace line.dirty, roi := c.roi.on base (·.replace line.dirty) }
    if line.dirty then do
      (if c.cfg.func && c.cfg.verify then wrLine d base line.data else .ok ())
      .ok (c.setLine index c.ccl.vWay { line with dirty := false })
    else .ok c
  else .ok c

/-- cache.cpp:269-277: install the new tag in the victim way -/
def install (c : Cache) (m : Scp) : Cache :=
  let index := c.ccl.index
  let way := c.ccl.vWay
  let line := (c.arr index way).referenced
  let c := c.setLine index way { line with tag := c.ccl.tag, valid := true }
  let c := if c.cfg.inPol = .update then c.touch index way else c
  c.updateScp m index way

/-- cache.cpp:279-281: fetch the line from memory -/
def fill (c : Cache) (d : Dev) (a : W) : Res Cache :=
  if c.cfg.func then do
    let data ← rdLine d a
    .ok (c.setLine c.ccl.index c.ccl.vWay { c.arr c.ccl.index c.ccl.vWay with data := data })
  else .ok c

/-- cache.cpp:209-333 `miss` -/
def miss (c : Cache) (d : Dev) (a : W) (size : Nat) (op : MemOp) (m : Scp) : Res Cache := do
  let c ← { c with stats := c.stats.miss op, roi := c.roi.on a (·.miss op) }.evict d
  let c ← (c.install m).fill d a
  c.access d size op c.ccl.vWay

/-- the common shape of the four entry points: search, then service a miss -/
def serve (c : Cache) (d : Dev) (a : W) (size : Nat) (op : MemOp) (m : Scp) : Res (Ref × Cache) := do
  let r ← c.reference d a size op m
  match r.1 with
  | .miss => do
    let c ← r.2.miss d a size op m
    .ok (.miss, c)
  | _ => .ok r

/-- cache.cpp:56-62 `rd`; the result is `rd_buf`, never assigned without `CACHE_MODE_FUNC` -/
def rd (c : Cache) (d : Dev) (a : W) (size : Nat) : Res (Option W × Cache) := do
  let r ← c.serve d a size .read .none
  .ok (r.2.rdBuf, r.2)
/-- cache.cpp:64-70 `wr` -/
def wr (c : Cache) (d : Dev) (a data : W) (size : Nat) : Res Cache := do
  let r ← { c with wrBuf := data }.serve d a size .write .none
  .ok r.2
/-- cache.cpp:72-83 `scp_lcl`; returning an uninitialised `scp_status` is undefined -/
def scpLcl (c : Cache) (d : Dev) (a : W) : Res (Bool × Cache) := do
  let r ← c.serve d a 0 .read .lcl
  match r.2.scpStatus with
  | some s => .ok (s, r.2)
  | none => .ub .uninit
/-- cache.cpp:85-96 `scp_rel` -/
def scpRel (c : Cache) (d : Dev) (a : W) : Res (Bool × Cache) := do
  let r ← c.serve d a 0 .read .rel
  match r.2.scpStatus with
  | some s => .ok (s, r.2)
  | none => .ub .uninit

/-- everything a cache can be asked to do: the public functions of cache.h:147-184 -/
inductive Op where
  | rd (a : W) (size : Nat)
  | wr (a v : W) (size : Nat)
  | lcl (a : W)
  | rel (a : W)
  | prof (on : Bool)
  | roi (start size : W)
  deriving DecidableEq, Repr

/-- one request; the memory behind the cache is whatever it is at that time -/
def Op.apply (c : Cache) (d : Dev) : Op → Res Cache
  | .rd a size => do let r ← c.rd d a size; .ok r.2
  | .wr a v size => c.wr d a v size
  | .lcl a => do let r ← c.scpLcl d a; .ok r.2
  | .rel a => do let r ← c.scpRel d a; .ok r.2
  | .prof b => .ok (c.profiling b)
  | .roi start size => .ok (c.setRoi start size)

/-- a sequence of requests -/
def runOps (c : Cache) : List (Dev × Op) → Res Cache
  | [] => .ok c
  | (d, o) :: t => do
    let c ← o.apply c d
    c.runOps t

end Cache

/-! ## Main memory with its data cache -/

/-- main_memory.h:18-30: storage and data cache (the instruction cache is a `Cache` of its own) -/
structure MM where
  ram : Dev
  dc : Cache
namespace MM

/-- main_memory.cpp:218-239 `rd`; the region permission check, which throws before anything
happens, is modelled in `mmRd` -/
def rd (m : MM) (a : W) (size : Nat) : Res (W × MM) := do
  let data ← m.ram.rd a size
  let r ← m.dc.rd m.ram a size
  if m.dc.cfg.func && m.dc.cfg.verify then
    match r.1 with
    | none => .ub .uninit
    | some v => if v ≠ data then .abort else .ok (data, { m with dc := r.2 })
  else .ok (data, { m with dc := r.2 })
/-- main_memory.cpp:241-251 `wr` -/
def wr (m : MM) (a data : W) (size : Nat) : Res MM := do
  let ram ← m.ram.wr a data size
  let dc ← m.dc.wr ram a data size
  .ok ⟨ram, dc⟩
/-- main_memory.cpp:211-215 `scp` -/
def scp (m : MM) (a : W) (mode : Simd.ScpMode) : Res (Bool × MM) := do
  let r ← (match mode with | .lcl => m.dc.scpLcl m.ram a | .rel => m.dc.scpRel m.ram a)
  .ok (r.1, { m with dc := r.2 })

/-- one request to main memory -/
def step (m : MM) : Cache.Op → Res MM
  | .rd a size => do let r ← m.rd a size; .ok r.2
  | .wr a v size => m.wr a v size
  | .lcl a => do let r ← m.scp a .lcl; .ok r.2
  | .rel a => do let r ← m.scp a .rel; .ok r.2
  | .prof b => .ok { m with dc := m.dc.profiling b }
  | .roi start size => .ok { m with dc := m.dc.setRoi start size }
/-- a sequence of requests -/
def run (m : MM) : List Cache.Op → Res MM
  | [] => .ok m
  | o :: t => do
    let m ← m.step o
    m.run t

end MM

/-- main_memory.h:18-30 with both caches -/
structure MMI where
  mm : MM
  ic : Cache
namespace MMI

/-- main_memory.cpp:188-208 `rd_inst`, after the permission check -/
def rdInst (m : MMI) (a : W) : Res (W × MMI) := do
  let inst ← m.mm.ram.rd a 4
  let r ← m.ic.rd m.mm.ram a 4
  if m.ic.cfg.func && m.ic.cfg.verify then
    match r.1 with
    | none => .ub .uninit
    | some v => if v ≠ inst then .abort else .ok (inst, { m with ic := r.2 })
  else .ok (inst, { m with ic := r.2 })

/-- what the core asks of main memory -/
inductive Op where
  | data (o : Cache.Op)
  | fetch (a : W)
/-- one request -/
def step (m : MMI) : Op → Res MMI
  | .data o => do let mm ← m.mm.step o; .ok { m with mm := mm }
  | .fetch a => do let r ← m.rdInst a; .ok r.2
/-- a sequence of requests -/
def run (m : MMI) : List Op → Res MMI
  | [] => .ok m
  | o :: t => do
    let m ← m.step o
    m.run t

end MMI
end Ama
