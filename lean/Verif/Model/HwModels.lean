import Verif.Model.Cache
import Verif.Model.Bp
import Verif.Model.Divider
import Verif.Model.State
/-!
# The hardware models behind the core

The caches, the branch predictor interface and the divider of a build with hardware models, put together as the hardware state
of the core model: `core.cpp` owns `bp` and `div` and reaches the caches through `main_memory`.
-/
namespace Ama

/-- core.h:500-501 `bp`, `div` and, behind `mem`, main_memory.h:25-30 `icache`, `dcache` with the storage they read lines from -/
structure Models where
  mmi : MMI
  bp : Bp.BpIf
  div : Div.Divider

/-- the part of `hw_cfg_t` (hw_model_types.h) and of the build that the three constructors use -/
structure ModelsCfg where
  ic : Cache.Cfg
  dc : Cache.Cfg
  /-- address bits below an instruction address -/
  low : Nat
  csv : Bool
  runAll : Bool
  bp : Bp.Def
  /-- predefined predictors -/
  arch : List Bp.Def
  div : W
  /-- region of interest of the cache statistics -/
  roiStart : W
  roiSize : W

namespace Models

/-- main_memory.cpp:26-36 and core.cpp:14-17 constructors: caches, predictor, divider; a configuration a constructor throws for is
`.abort` -/
def make (c : ModelsCfg) (ram : Dev) : Res Models :=
  match Cache.new c.ic, Cache.new c.dc with
  | some ic, some dc => do
    let bp ← Bp.BpIf.make c.low c.arch c.csv c.runAll c.bp
    let div ← Div.make c.div
    .ok ⟨⟨⟨ram, dc.setRoi c.roiStart c.roiSize⟩, ic.setRoi c.roiStart c.roiSize⟩, bp, div⟩
  | _, _ => .abort

/-- main_memory.cpp:192-206: the instruction cache's part of `rd_inst` -/
def icRd (a : W) (m : Models) : Res Models := do
  let q ← m.mmi.step (.fetch a)
  .ok { m with mmi := q }
/-- main_memory.cpp:222-237: the data cache's part of `rd` -/
def dcRd (a : W) (n : Nat) (m : Models) : Res Models := do
  let q ← m.mmi.step (.data (.rd a n))
  .ok { m with mmi := q }
/-- main_memory.cpp:241-251: `wr`; the storage is written first -/
def dcWr (a v : W) (n : Nat) (m : Models) : Res Models := do
  let q ← m.mmi.step (.data (.wr a v n))
  .ok { m with mmi := q }
/-- main_memory.cpp:211-215 -/
def scp (a : W) (k : Simd.ScpMode) (m : Models) : Res (Bool × Models) := do
  let r ← m.mmi.mm.scp a k
  .ok (r.1, { m with mmi := { m.mmi with mm := r.2 } })
/-- core.cpp:638 -/
def bpIdeal (n : W) (m : Models) : Res Models := .ok { m with bp := m.bp.ideal n }
/-- core.cpp:640 -/
def bpPredict (pc imm : W) (f3 : BitVec 3) (m : Models) : Res (W × Models) := do
  let r ← m.bp.predict pc imm f3
  .ok (r.1, { m with bp := r.2 })
/-- core.cpp:648 -/
def bpUpdate (pc n : W) (m : Models) : Res Models := do
  let b ← m.bp.update pc n
  .ok { m with bp := b }
/-- defines.h:135 -/
def divEval (a b : W) (u : Bool) (m : Models) : Res Models := do
  let d ← Div.eval m.div ⟨a, b, u⟩
  .ok { m with div := d }
/-- core.cpp:427-429 with main_memory.h:48-51 -/
def profiling (on : Bool) (m : Models) : Res Models :=
  .ok { mmi := ⟨{ m.mmi.mm with dc := m.mmi.mm.dc.profiling on }, m.mmi.ic.profiling on⟩
        bp := m.bp.profiling on
        div := Div.profiling m.div on }

end Models

/-- The entry points of `Hw` for these models.  The hardware state is a `Res`: once a model has thrown or done something undefined
the state stays there, which marks the whole run — in the code the run ends at that point; the core model goes on, with the
hints failing and the predictions being 0. -/
def real : Hw (Res Models) where
  icRd a r := r >>= Models.icRd a
  dcRd a n r := r >>= Models.dcRd a n
  dcWr a v n r := r >>= Models.dcWr a v n
  scp a k r := match r >>= Models.scp a k with
    | .ok (b, m) => (b, .ok m)
    | .ub u => (false, .ub u)
    | .abort => (false, .abort)
  bpIdeal n r := r >>= Models.bpIdeal n
  bpPredict pc imm f3 r := match r >>= Models.bpPredict pc imm f3 with
    | .ok (v, m) => (v, .ok m)
    | .ub u => (0#32, .ub u)
    | .abort => (0#32, .abort)
  bpUpdate pc n r := r >>= Models.bpUpdate pc n
  divEval a b u r := r >>= Models.divEval a b u
  profiling on r := r >>= Models.profiling on

end Ama
