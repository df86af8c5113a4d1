import Verif.Model.Basic
/-!
# Branch predictor models

Model of `/repo/src/hw_models/bp*.h`, `bp_if.cpp`, `bp_if.h`.  Omitted: console output, CSV formatting other
than the pattern string (see BpCsv), JSON logs and sizes (see HwStats), floating point summaries, the `pht_accesses` statistic
(bp_pht.h:60, written and never read back into a decision), the `DPI` build.  The 64-bit event counters are
natural numbers here.  A C++ member that the constructor leaves unset is an `Option`; reading `none` is the
outcome `.ub .uninit`.
-/
namespace Ama.Bp

/-- `bp_pc_folds_t`, hw_model_types.h:47 -/
inductive Fold where | none | all deriving DecidableEq, Repr
/-- `bp_sttc_t`, hw_model_types.h:45 -/
inductive Sttc where | at | ant | btfn deriving DecidableEq, Repr
/-- `bp_t` without `combined`, hw_model_types.h:43-44 -/
inductive Kind where | sttc | bimodal | local | global | gselect | gshare | ideal | none
  deriving DecidableEq, Repr

/-- `bp_cfg_t`, hw_model_types.h:49-58 -/
structure PCfg where
  pcBits : BitVec 8
  cntBits : BitVec 8
  histBits : BitVec 8
  ghrBits : BitVec 8
  fold : Fold

/-! ## Statistics: `bp_stats.h` -/

/-- bp_stats.h:33-51 `bp_stats_t`; `per` is the map `bi_predictor_stats` -/
structure BStats where
  predFwd : Nat := 0
  predBwd : Nat := 0
  misFwd : Nat := 0
  misBwd : Nat := 0
  per : W → Option Nat := fun _ => .none
  prof : Bool := false

/-- bp_stats.h:64-77 `eval` -/
def BStats.eval (s : BStats) (pc : W) (correct fwd : Bool) : BStats :=
  if !s.prof then s
  else
    let s :=
      if correct then
        if fwd then { s with predFwd := s.predFwd + 1 } else { s with predBwd := s.predBwd + 1 }
      else
        if fwd then { s with misFwd := s.misFwd + 1 } else { s with misBwd := s.misBwd + 1 }
    { s with per := fun x => if x = pc then some ((s.per pc).getD 0 + (if correct then 1 else 0)) else s.per x }

/-- bp_stats.h:81 `predicted` -/
def BStats.predicted (s : BStats) : Nat := s.predFwd + s.predBwd
/-- bp_stats.h:82 `mispredicted` -/
def BStats.mispredicted (s : BStats) : Nat := s.misFwd + s.misBwd
/-- bp_stats.h:84 `total_branches` -/
def BStats.total (s : BStats) : Nat := s.predicted + s.mispredicted
/-- bp_stats.h:91-96 `get_predicted` -/
def BStats.getPredicted (s : BStats) (pc : W) : Nat := (s.per pc).getD 0

/-! ## Counter tables: `bp_pht.h` -/

/-- bp_pht.h:51-60: `n` entries; `cnt i` exists for `i < n` only.  Counters are 8-bit in the code; they are
only incremented below `cntMax ≤ 255`, so a natural number does not lose a wrap. -/
structure Pht where
  n : Nat
  mask : W
  cntMax : Nat
  thr : Nat
  cnt : Nat → Nat

/-- bp_pht.h:24-48 and 63-71: validation, then the table -/
def Pht.make (idxBits cntBits : BitVec 8) : Res Pht :=
  if cntBits = 0#8 ∨ idxBits = 0#8 ∨ cntBits.toNat > 8 ∨ idxBits.toNat > 30 then .abort
  else
    let m := 2 ^ cntBits.toNat - 1
    let thr := if m = 1 then m else m / 2
    .ok { n := 2 ^ idxBits.toNat, mask := BitVec.ofNat 32 (2 ^ idxBits.toNat - 1), cntMax := m, thr := thr,
          cnt := fun _ => thr }

/-- bp_pht.h:76 `thr_check` -/
def Pht.thrCheck (t : Pht) (i : W) : Res Bool :=
  if i.toNat < t.n then .ok (decide (t.cnt i.toNat ≥ t.thr)) else .ub .outOfBounds

/-- bp_pht.h:83, 95 -/
def Pht.up (t : Pht) (i : Nat) : Pht :=
  if t.cnt i < t.cntMax then { t with cnt := fun j => if j = i then t.cnt i + 1 else t.cnt j } else t
/-- bp_pht.h:85, 97 -/
def Pht.down (t : Pht) (i : Nat) : Pht :=
  if t.cnt i > 0 then { t with cnt := fun j => if j = i then t.cnt i - 1 else t.cnt j } else t

/-- bp_pht.h:79-87 `update` of a single predictor -/
def Pht.update (t : Pht) (taken : Bool) (i : W) : Res Pht :=
  if i.toNat < t.n then .ok (if taken then t.up i.toNat else t.down i.toNat) else .ub .outOfBounds

/-- bp_pht.h:90-100 `update` of the combined predictor -/
def Pht.update2 (t : Pht) (p0c p1c : Bool) (i : W) : Res Pht :=
  if i.toNat < t.n then
    .ok (if p0c != p1c then (if p0c then t.up i.toNat else t.down i.toNat) else t)
  else .ub .outOfBounds

/-! ## The base class: `bp.h` -/

/-- bp.h:9-20 -/
structure Base where
  /-- `inst::align::pc_low_bits`, types.h:105-108: 1 with `RV32C`, else 2 -/
  low : Nat
  pcBits : Nat
  folds : Nat
  predicted : Option W := .none
  fwd : Option Bool := .none
  stats : BStats := {}

/-- bp.h:23-38 constructor; `mem_map::addr_bits` is 17 (types.h:35) -/
def Base.make (low : Nat) (c : PCfg) : Res Base :=
  match c.fold with
  | .none => .ok { low := low, pcBits := c.pcBits.toNat, folds := 0 }
  | .all =>
    if c.pcBits.toNat = 0 then .ub .divZero
    else .ok { low := low, pcBits := c.pcBits.toNat, folds := (17 - low) / c.pcBits.toNat }

/-- bp.h:50-55: the loop, `k` iterations left, at `p` -/
def Base.getPcGo (b : Base) (pc mask : W) : (k p : Nat) → W → Res W
  | 0, _, acc => .ok acc
  | k + 1, p, acc =>
    if b.low + b.pcBits * p < 32 then
      b.getPcGo pc mask k (p + 1) (acc ^^^ ((pc >>> (b.low + b.pcBits * p)) &&& mask))
    else .ub .shift
/-- bp.h:48-57 `get_pc` -/
def Base.getPc (b : Base) (pc mask : W) : Res W := b.getPcGo pc mask (b.folds + 1) 0 0#32

/-- bp.h:105-108 `find_b_dir` -/
def Base.findDir (b : Base) (target pc : W) : Base := { b with fwd := some (decide (target > pc)) }
/-- bp.h:110-115 `predict_common` -/
def Base.common (b : Base) (target pc : W) (taken : Bool) : W × Base :=
  let p := if taken then target else pc + 4#32
  (p, { b.findDir target pc with predicted := some p })
/-- `next_pc == predicted_pc` -/
def Base.right (b : Base) (next : W) : Res Bool :=
  match b.predicted with
  | some p => .ok (next == p)
  | .none => .ub .uninit
/-- bp.h:61-64 `update_stats` -/
def Base.updateStats (b : Base) (pc next : W) : Res Base :=
  match b.predicted, b.fwd with
  | some p, some d => .ok { b with stats := b.stats.eval pc (next == p) d }
  | _, _ => .ub .uninit

/-! ## Predictors -/

/-- one object of class `bp_static`, ..., `bp_combined` with its members -/
inductive Pred where
  | sttc (b : Base) (m : Sttc)
  | bimodal (b : Base) (t : Pht) (last : Option W)
  | local (b : Base) (t : Pht) (pcMask : W) (entries : Nat) (hist : Nat → W) (histMask : W)
      (last : Option (W × W))
  | global (b : Base) (t : Pht) (idxMask ghr : W) (last : Option W)
  | gselect (b : Base) (t : Pht) (ghrBits : Nat) (idxMask ghrMask pcMask ghr : W) (last : Option W)
  | gshare (b : Base) (t : Pht) (ghrOff : Nat) (idxMask ghrMask pcMask ghr : W) (last : Option W)
  | ideal (b : Base)
  | none (b : Base)
  | combined (b : Base) (t : Pht) (p0 p1 : Pred) (last : Option W)

/-- members of the base class -/
def Pred.base : Pred → Base
  | .sttc b _ => b
  | .bimodal b _ _ => b
  | .local b _ _ _ _ _ _ => b
  | .global b _ _ _ _ => b
  | .gselect b _ _ _ _ _ _ _ => b
  | .gshare b _ _ _ _ _ _ _ => b
  | .ideal b => b
  | .none b => b
  | .combined b _ _ _ _ => b
/-- replace the members of the base class -/
def Pred.setBase (f : Base) : Pred → Pred
  | .sttc _ m => .sttc f m
  | .bimodal _ t l => .bimodal f t l
  | .local _ t a b c d l => .local f t a b c d l
  | .global _ t a b l => .global f t a b l
  | .gselect _ t g a b c d l => .gselect f t g a b c d l
  | .gshare _ t g a b c d l => .gshare f t g a b c d l
  | .ideal _ => .ideal f
  | .none _ => .none f
  | .combined _ t p q l => .combined f t p q l

/-- `(1 << bits) - 1` in `int` (C++17: shifting by 32 or more is undefined; `1 << 31` is `INT_MIN`, from which
subtracting 1 overflows) -/
def intMask (bits : Nat) : Res W :=
  if bits ≥ 32 then .ub .shift
  else if bits = 31 then .ub .signedOverflow
  else .ok (BitVec.ofNat 32 (2 ^ bits - 1))

/-- constructors: bp_static.h:10-23, bp_bimodal.h:21-29, bp_local.h:46-63, bp_global.h:14-25,
bp_gselect.h:18-33, bp_gshare.h:19-37, bp_ideal.h:7, bp_none.h:7-9 -/
def make1 (low : Nat) (k : Kind) (c : PCfg) : Res Pred := do
  let b ← Base.make low c
  match k with
  | .sttc =>
    if c.cntBits.toNat ≥ 3 then .abort
    else .ok (.sttc b (if c.cntBits = 2#8 then .btfn else if c.cntBits = 0#8 then .at else .ant))
  | .bimodal => do
    let t ← Pht.make c.pcBits c.cntBits
    .ok (.bimodal b t .none)
  | .local =>
    if c.pcBits = 0#8 ∨ c.pcBits.toNat > 30 then .abort
    else if c.histBits.toNat ≥ 32 then .ub .shift
    else do
      let t ← Pht.make c.histBits c.cntBits
      .ok (.local b t (BitVec.ofNat 32 (2 ^ c.pcBits.toNat - 1)) (2 ^ c.pcBits.toNat) (fun _ => 0#32)
        (BitVec.ofNat 32 (2 ^ c.histBits.toNat - 1)) .none)
  | .global => do
    let m ← intMask c.ghrBits.toNat
    let t ← Pht.make c.ghrBits c.cntBits
    .ok (.global b t m 0#32 .none)
  | .gselect => do
    let idxBits := c.ghrBits + c.pcBits
    let im ← intMask idxBits.toNat
    let gm ← intMask c.ghrBits.toNat
    let pm ← intMask c.pcBits.toNat
    let t ← Pht.make idxBits c.cntBits
    .ok (.gselect b t c.ghrBits.toNat im gm pm 0#32 .none)
  | .gshare => do
    let idxBits := if c.ghrBits < c.pcBits then c.pcBits else c.ghrBits
    let im ← intMask idxBits.toNat
    let gm ← intMask c.ghrBits.toNat
    let pm ← intMask c.pcBits.toNat
    let t ← Pht.make idxBits c.cntBits
    .ok (.gshare b t (c.pcBits.toNat - c.ghrBits.toNat) im gm pm 0#32 .none)
  | .ideal => .ok (.ideal b)
  | .none => .ok (.none b)

/-- what `create_predictor` (bp_if.cpp:111-216) can be asked for; the code nests `combined` once, the model
allows any depth -/
inductive Def where
  | one (k : Kind) (c : PCfg)
  | comb (c : PCfg) (p0 p1 : Def)

/-- bp_if.cpp:111-216 `create_predictor`, bp_combined.h:15-25 -/
def make (low : Nat) : Def → Res Pred
  | .one k c => make1 low k c
  | .comb c d0 d1 => do
    let p0 ← make low d0
    let p1 ← make low d1
    let b ← Base.make low c
    let t ← Pht.make c.pcBits c.cntBits
    .ok (.combined b t p0 p1 .none)

/-- `get_idx` of gselect (bp_gselect.h:35-40); the shift is below 32 for every object `make1` returns -/
def gselIdx (pcPart ghr ghrMask idxMask : W) (ghrBits : Nat) : Res W :=
  if ghrBits < 32 then .ok (((pcPart <<< ghrBits) ||| (ghr &&& ghrMask)) &&& idxMask) else .ub .shift
/-- `get_idx` of gshare (bp_gshare.h:39-46) -/
def gshIdx (pcPart ghr ghrMask idxMask : W) (off : Nat) : Res W :=
  if off < 32 then .ok ((pcPart ^^^ ((ghr &&& ghrMask) <<< off)) &&& idxMask) else .ub .shift

/-- `predict`: bp_static.h:25-32, bp_bimodal.h:33-36, bp_local.h:67-71, bp_global.h:29-32,
bp_gselect.h:42-45, bp_gshare.h:48-51, bp_ideal.h:13-16, bp_none.h:12-15, bp_combined.h:33-45 -/
def predict (target pc : W) : Pred → Res (W × Pred)
  | .sttc b m =>
    let b := b.findDir target pc
    let p := match m with
      | .btfn => if target > pc then pc + 4#32 else target
      | .at => target
      | .ant => pc + 4#32
    .ok (p, .sttc { b with predicted := some p } m)
  | .bimodal b t _ => do
    let i ← b.getPc pc t.mask
    let tk ← t.thrCheck i
    let r := b.common target pc tk
    .ok (r.1, .bimodal r.2 t (some i))
  | .local b t pm e h hm _ => do
    let i ← b.getPc pc pm
    if i.toNat < e then do
      let hl := h i.toNat &&& hm
      let tk ← t.thrCheck hl
      let r := b.common target pc tk
      .ok (r.1, .local r.2 t pm e h hm (some (i, hl)))
    else .ub .outOfBounds
  | .global b t m g _ => do
    let i := g &&& m
    let tk ← t.thrCheck i
    let r := b.common target pc tk
    .ok (r.1, .global r.2 t m g (some i))
  | .gselect b t gb im gm pm g _ => do
    let pp ← b.getPc pc pm
    let i ← gselIdx pp g gm im gb
    let tk ← t.thrCheck i
    let r := b.common target pc tk
    .ok (r.1, .gselect r.2 t gb im gm pm g (some i))
  | .gshare b t go im gm pm g _ => do
    let pp ← b.getPc pc pm
    let i ← gshIdx pp g gm im go
    let tk ← t.thrCheck i
    let r := b.common target pc tk
    .ok (r.1, .gshare r.2 t go im gm pm g (some i))
  | .ideal b =>
    match b.predicted with
    | some p => .ok (p, .ideal (b.findDir target pc))
    | .none => .ub .uninit
  | .none b => .ok (0#32, .none (b.findDir target pc))
  | .combined b t p0 p1 _ => do
    let b := b.findDir target pc
    let r0 ← predict target pc p0
    let r1 ← predict target pc p1
    let i ← b.getPc pc t.mask
    let s0 ← t.thrCheck i
    let p := if s0 then r0.1 else r1.1
    .ok (p, .combined { b with predicted := some p } t r0.2 r1.2 (some i))

/-- `(ghr << 1) | taken` -/
def shiftIn (g : W) (taken : Bool) : W := (g <<< 1) ||| (if taken then 1#32 else 0#32)

/-- `eval_and_update`: bp_static.h:50-53, bp_bimodal.h:38-41, bp_local.h:73-78, bp_global.h:34-38,
bp_gselect.h:47-51, bp_gshare.h:53-57, bp_ideal.h:18-20, bp_none.h:17-20, bp_combined.h:47-52 -/
def evalUpdate (taken : Bool) (next : W) : Pred → Res (Bool × Pred)
  | .sttc b m => do
    let r ← b.right next
    .ok (r, .sttc b m)
  | .bimodal b t l =>
    match l with
    | .none => .ub .uninit
    | some i => do
      let t ← t.update taken i
      let r ← b.right next
      .ok (r, .bimodal b t l)
  | .local b t pm e h hm l =>
    match l with
    | .none => .ub .uninit
    | some (i, hl) =>
      if i.toNat < e then do
        let v := shiftIn (h i.toNat) taken &&& hm
        let t ← t.update taken hl
        let r ← b.right next
        .ok (r, .local b t pm e (fun j => if j = i.toNat then v else h j) hm l)
      else .ub .outOfBounds
  | .global b t m g l =>
    match l with
    | .none => .ub .uninit
    | some i => do
      let t ← t.update taken i
      let r ← b.right next
      .ok (r, .global b t m (shiftIn g taken) l)
  | .gselect b t gb im gm pm g l =>
    match l with
    | .none => .ub .uninit
    | some i => do
      let t ← t.update taken i
      let r ← b.right next
      .ok (r, .gselect b t gb im gm pm (shiftIn g taken) l)
  | .gshare b t go im gm pm g l =>
    match l with
    | .none => .ub .uninit
    | some i => do
      let t ← t.update taken i
      let r ← b.right next
      .ok (r, .gshare b t go im gm pm (shiftIn g taken) l)
  | .ideal b => do
    let r ← b.right next
    .ok (r, .ideal b)
  | .none b => .ok (false, .none b)
  | .combined b t p0 p1 l => do
    let r0 ← evalUpdate taken next p0
    let r1 ← evalUpdate taken next p1
    match l with
    | .none => .ub .uninit
    | some i => do
      let t ← t.update2 r0.1 r1.1 i
      let r ← b.right next
      .ok (r, .combined b t r0.2 r1.2 l)

/-- bp.h:61-64 on any predictor -/
def updateStats (pc next : W) (p : Pred) : Res Pred := do
  let b ← p.base.updateStats pc next
  .ok (p.setBase b)
/-- bp.h:59 `profiling`; the components of a combined predictor are not told -/
def setProf (on : Bool) (p : Pred) : Pred :=
  p.setBase { p.base with stats := { p.base.stats with prof := on } }
/-- bp_ideal.h:9-11, bp.h:66 `goto_future`: nothing for other predictors, and not forwarded by `combined` -/
def gotoFuture (correct : W) : Pred → Pred
  | .ideal b => .ideal { b with predicted := some correct }
  | p => p

/-! ## The interface used by the core: `bp_if` -/

/-- bp_stats.h:20-26 `bi_app_stats_t` -/
structure App where
  fwd : Bool
  funct3 : BitVec 3
  taken : Nat
  total : Nat
  pattern : List Bool

/-- bp_if.h:20-32 -/
structure BpIf where
  prof : Bool
  dumpCsv : Bool
  active : Pred
  /-- `all_bps`; `bp_ideal_arch` points at the only ideal predictor among them -/
  all : List Pred
  app : W → Option App

/-- `mapM` over `all_bps`, written out -/
def forAll (f : Pred → Res Pred) : List Pred → Res (List Pred)
  | [] => .ok []
  | p :: t => do
    let p ← f p
    let t ← forAll f t
    .ok (p :: t)

/-- bp_if.h:38-42 `profiling` -/
def BpIf.profiling (s : BpIf) (on : Bool) : BpIf :=
  { s with prof := on, active := setProf on s.active, all := s.all.map (setProf on) }
/-- bp_if.h:47-50 `ideal` -/
def BpIf.ideal (s : BpIf) (correct : W) : BpIf :=
  { s with all := s.all.map (gotoFuture correct), active := gotoFuture correct s.active }
/-- bp_if.cpp:218-228 `predict` -/
def BpIf.predict (s : BpIf) (pc offset : W) (f3 : BitVec 3) : Res (W × BpIf) := do
  let target := pc + offset
  let app := if s.prof && (s.app pc).isNone then
      (fun x => if x = pc then some ⟨decide (target > pc), f3, 0, 0, []⟩ else s.app x) else s.app
  let all ← forAll (fun p => do let r ← Bp.predict target pc p; .ok r.2) s.all
  let r ← Bp.predict target pc s.active
  .ok (r.1, { s with app := app, all := all, active := r.2 })
/-- bp_if.cpp:244-249 `update_app_stats`; `operator[]` creates a zeroed entry when there is none -/
def updateApp (m : W → Option App) (pc : W) (taken : Bool) : W → Option App := fun x =>
  if x = pc then
    let a := (m pc).getD ⟨false, 0#3, 0, 0, []⟩
    some { a with taken := a.taken + (if taken then 1 else 0), total := a.total + 1,
                  pattern := a.pattern ++ [taken] }
  else m x
/-- bp_if.cpp:230-242 `update` -/
def BpIf.update (s : BpIf) (pc next : W) : Res BpIf := do
  let taken := next != pc + 4#32
  let r ← evalUpdate taken next s.active
  let all ← forAll (fun p => do let r ← evalUpdate taken next p; .ok r.2) s.all
  let s := { s with active := r.2, all := all }
  if !s.prof then .ok s
  else do
    let a ← updateStats pc next s.active
    let all ← forAll (updateStats pc next) s.all
    .ok { s with active := a, all := all
                 app := if s.dumpCsv then updateApp s.app pc taken else s.app }

/-- bp_if.cpp:84-109: constructor; `arch` is the list of predefined predictors -/
def BpIf.make (low : Nat) (arch : List Def) (dumpCsv runAll : Bool) (active : Def) : Res BpIf := do
  let a ← Bp.make low active
  let all ← (if runAll then go arch else .ok [])
  .ok { prof := false, dumpCsv := dumpCsv, active := a, all := all, app := fun _ => .none }
where
  /-- bp_if.cpp:97-108 -/
  go : List Def → Res (List Pred)
  | [] => .ok []
  | d :: t => do
    let p ← Bp.make low d
    let t ← go t
    .ok (p :: t)

/-- bp_if.h:75-120 `arch_bp_defs`, `arch_bpc_defs` -/
def archDefs : List Def :=
  let one (k : Kind) (a b c d : BitVec 8) : Def := .one k ⟨a, b, c, d, .none⟩
  [ one .sttc 0 0 0 0, one .sttc 0 1 0 0, one .sttc 0 2 0 0, one .none 0 0 0 0, one .ideal 0 0 0 0,
    one .bimodal 7 3 0 0, one .local 5 3 5 0, one .global 0 3 0 7, one .gselect 1 3 0 6, one .gshare 8 1 0 8,
    one .bimodal 8 3 0 0, one .local 5 3 9 0, one .global 0 3 0 9, one .gselect 3 3 0 6, one .gshare 8 3 0 8,
    .comb ⟨4, 4, 0, 0, .none⟩ (one .sttc 0 0 0 0) (one .gshare 8 1 0 8),
    .comb ⟨5, 4, 0, 0, .none⟩ (one .sttc 0 0 0 0) (one .gshare 8 3 0 8),
    .comb ⟨4, 4, 0, 0, .none⟩ (one .sttc 2 0 0 0) (one .gselect 2 1 0 6) ]

/-- one conditional branch as the core presents it (core.cpp:638-648): where the branch is, its offset and
`funct3`, and the next pc -/
structure Br where
  pc : W
  offset : W
  f3 : BitVec 3
  next : W

/-- core.cpp:638-648: `ideal`, `predict`, `update`; also returns the prediction -/
def BpIf.branch (s : BpIf) (e : Br) : Res (W × BpIf) := do
  let r ← (s.ideal e.next).predict e.pc e.offset e.f3
  let s ← r.2.update e.pc e.next
  .ok (r.1, s)

/-! ## The pattern string -/

/-- bp_if.cpp:336-344: the loop over the rest of the pattern; `prev` is `pattern[i - 1]` -/
def runGo : (prev : Bool) → (count : Nat) → List Bool → List Char → List Char
  | prev, count, [], acc => acc ++ Nat.toDigits 10 count ++ [if prev then 'T' else 'N']
  | prev, count, b :: t, acc =>
    if b = prev then runGo b (count + 1) t acc
    else runGo b 1 t (acc ++ Nat.toDigits 10 count ++ [if prev then 'T' else 'N', ' '])
/-- bp_if.cpp:332-348 `find_run_length`.  `pattern.back()` of an empty vector is undefined; with 2^32 or more
elements the 32-bit index wraps and the loop does not end, modelled as `.ub .outOfBounds`. -/
def findRunLength (pattern : List Bool) : Res (List Char) :=
  match pattern with
  | [] => .ub .outOfBounds
  | b :: t => if t.length + 1 < 2 ^ 32 then .ok (runGo b 1 t []) else .ub .outOfBounds

end Ama.Bp
