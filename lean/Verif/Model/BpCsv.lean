import Verif.Model.Bp
/-!
# The branch report `branches.csv`

Model of bp_if.cpp:251-330.  Simplified: the two divisions of single precision numbers printed with one decimal
are one unknown function `pct` of the two counts; the summaries (bp_stats.h:79-91) and the console output of
`finish` do not enter the file and are left out; the loop index over the predictors is 8 bits in the code and a
natural number here (there are at most 19 predictors).
-/
namespace Ama.Bp

/-- what bp_if.cpp:284-330 reads of one entry of `all_bps` at that point: `type_name` (bp.h:10), whether it is the
object `bp_ideal_arch` points at, `get_predicted_stats` (bp.h:66) -/
structure Col where
  name : List Char
  idealArch : Bool
  pred : W → Nat

/-- bp_if.cpp:285-286 -/
def funct3Mn (f : BitVec 3) : List Char :=
  (["beq", "bne", "na", "na", "blt", "bge", "bltu", "bgeu"].getD f.toNat "").toList

/-- the commas between the fields of one line -/
def commas : List (List Char) → List Char
  | [] => []
  | [a] => a
  | a :: b :: t => a ++ ',' :: commas (b :: t)

/-- bp_if.cpp:287-292: the heading -/
def csvHead (cols : List Col) : List Char :=
  "PC,Direction,Funct3,Funct3_mn,Taken,Not_Taken,All,Taken%".toList
    ++ cols.flatMap (fun c => ",P_".toList ++ c.name)
    ++ cols.flatMap (fun c => ",P_".toList ++ c.name ++ ['%'])
    ++ ",Best,P_best,P_best%,Pattern".toList

/-- bp_if.cpp:299-304: the loop, `i` the index of the head of the rest, `seen` the counts pushed so far -/
def bestGo (pc : W) : (rest : List Col) → (i best : Nat) → (seen : List Nat) → Nat
  | [], _, best, _ => best
  | c :: t, i, best, seen =>
    let pred := seen ++ [c.pred pc]
    if c.idealArch then bestGo pc t (i + 1) best pred
    else bestGo pc t (i + 1) (if pred.getD i 0 > pred.getD best 0 then i else best) pred

/-- bp_if.cpp:294-327: one line -/
def csvRow (pct : Nat → Nat → List Char) (cols : List Col) (pc : W) (a : App) : Res (List Char) := do
  let best := bestGo pc cols 0 0 []
  let pred := cols.map (·.pred pc)
  let pattern ← findRunLength a.pattern
  .ok (commas ([Nat.toDigits 16 pc.toNat, if a.fwd then ['F'] else ['B'], Nat.toDigits 10 a.funct3.toNat,
      funct3Mn a.funct3, Nat.toDigits 10 a.taken, Nat.toDigits 10 (a.total - a.taken), Nat.toDigits 10 a.total,
      pct a.taken a.total]
    ++ pred.map (Nat.toDigits 10) ++ pred.map (fun p => pct p a.total)
    ++ [(cols.map (·.name)).getD best [], Nat.toDigits 10 (pred.getD best 0), pct (pred.getD best 0) a.total,
        pattern]))

/-- bp_if.cpp:294: the keys of the map `bi_app_stats` in the order `std::map` iterates in -/
def appKeys (m : W → Option App) : List W :=
  ((List.range (2 ^ 32)).map (BitVec.ofNat 32)).filter (fun pc => (m pc).isSome)

/-- bp_if.cpp:294-328: the lines -/
def csvRows (pct : Nat → Nat → List Char) (cols : List Col) (m : W → Option App) : List W → Res (List (List Char))
  | [] => .ok []
  | pc :: t => do
    let a ← (match m pc with | some a => .ok a | .none => .ub .outOfBounds)
    let r ← csvRow pct cols pc a
    let rs ← csvRows pct cols m t
    .ok (r :: rs)

/-- is this the object `bp_ideal_arch` points at (bp_if.cpp:100-103), given that it is one of `arch` -/
def Pred.isIdeal : Pred → Bool
  | .ideal _ => true
  | _ => false

/-- bp_if.cpp:255-257: the active predictor put before the others; `names` are their `type_name`s in that order -/
def BpIf.cols (s : BpIf) (names : List (List Char)) : List Col :=
  ⟨names.headD [], false, s.active.base.stats.getPredicted⟩
    :: (s.all.zipIdx.map fun (p, i) => ⟨names.getD (i + 1) [], p.isIdeal, p.base.stats.getPredicted⟩)

/-- bp_if.cpp:251-264 `finish` with 284-330 `dump_csv`: the lines of `branches.csv`, or `none` when it is not
written -/
def BpIf.finishCsv (s : BpIf) (pct : Nat → Nat → List Char) (names : List (List Char)) :
    Res (Option (List (List Char))) :=
  if s.dumpCsv then do
    let cols := s.cols names
    let rows ← csvRows pct cols s.app (appKeys s.app)
    .ok (some (csvHead cols :: rows))
  else .ok none

/-- bp_if.h:75-120: the names of the predefined predictors, in the order of `archDefs` -/
def archNames : List (List Char) :=
  ["d_static_at", "d_static_ant", "d_static_btfn", "d_none", "d_ideal_", "d_bimodal_v1", "d_local_v1", "d_global_v1",
   "d_gselect_v1", "d_gshare_v1", "d_bimodal_v2", "d_local_v2", "d_global_v2", "d_gselect_v2", "d_gshare_v2",
   "d_combined_v1", "d_combined_v2", "d_combined_v3"].map String.toList

end Ama.Bp
