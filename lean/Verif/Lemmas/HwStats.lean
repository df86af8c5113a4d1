import Verif.Lemmas.Json
import Verif.Model.HwStats
/-!
# The report `hw_stats.json` as laid-out JSON
-/
namespace Ama.HwStats
open Ama.Spec.Json

/-- the computed floating point values are written as numbers -/
structure Digits.Good (D : Digits) : Prop where
  pct : ∀ a b, b ≠ 0 → Number (D.pct a b)
  rate : ∀ a b, b ≠ 0 → Number (D.rate a b)
  avg : ∀ a b, b ≠ 0 → Number (D.avg a b)

def sp : List Char := [' ']

def pairT (a b : Nat) : T := .obj (.more [] "reads".toList sp (.num (int a)) [] (.last sp "writes".toList sp (.num (int b)) []))

def cacheT (D : Digits) (insts : Nat) (c : Cache) : T :=
  let s := c.stats
  let z := cacheSize c.cfg
  .obj (.more jn "references".toList sp (.num (int s.references)) []
    (.more jn "hits".toList sp (pairT s.hitsLd s.hitsSt) []
    (.more (sp ++ jn) "misses".toList sp (pairT s.missesLd s.missesSt) []
    (.more (sp ++ jn) "replacements".toList sp (.num (int s.replacements)) []
    (.more jn "writebacks".toList sp (.num (int s.writebacks)) []
    (.more jn "ct_core".toList sp (pairT s.coreRd s.coreWr) []
    (.more (sp ++ jn) "ct_mem".toList sp (pairT s.memRd s.memWr) []
    (.more jn "hr".toList sp (.num (cacheHr D insts s)) []
    (.more (sp ++ jn) "mpki".toList sp (.num (cacheMpki D c.cfg.kind insts s)) []
    (.last (sp ++ jn) "size".toList sp (.obj
      (.more [] "data".toList sp (.num (int z.data.toNat)) []
      (.more sp "tags".toList sp (.num (int z.tags.toNat)) []
      (.more sp "metadata".toList sp (.num (int z.metadata.toNat)) []
      (.more sp "sets".toList sp (.num (int z.sets.toNat)) []
      (.more sp "ways".toList sp (.num (int z.ways.toNat)) []
      (.last sp "line_size".toList sp (.num (int z.lineSize.toNat)) []))))))) ['\n']))))))))))

def bpT (D : Digits) (type : List Char) (size : W) (insts : Nat) (s : Bp.BStats) : T :=
  .obj (.more jn "type".toList sp (.str type) []
    (.more jn "branches".toList sp (.num (int s.total)) []
    (.more jn "predicted".toList sp (.num (int s.predicted)) []
    (.more jn "predicted_fwd".toList sp (.num (int s.predFwd)) []
    (.more jn "predicted_bwd".toList sp (.num (int s.predBwd)) []
    (.more jn "mispredicted".toList sp (.num (int s.mispredicted)) []
    (.more jn "mispredicted_fwd".toList sp (.num (int s.misFwd)) []
    (.more jn "mispredicted_bwd".toList sp (.num (int s.misBwd)) []
    (.more jn "accuracy".toList sp (.num (bpAccuracy D insts s)) []
    (.more jn "mpki".toList sp (.num (bpMpki D insts s)) []
    (.last jn "size".toList sp (.num (int size.toNat)) ['\n'])))))))))))

def countT (D : Digits) (count total : Nat) : T :=
  .obj (.more [] "count".toList sp (.num (int count)) [] (.last sp "fraction".toList sp (.num (fraction D count total)) []))

def orNull (b : Prop) [Decidable b] (l : List Char) : T := if b then .nul else .num l
theorem orNull_text (b : Prop) [Decidable b] (l : List Char) : (orNull b l).text = if b then "null".toList else l := by
  unfold orNull
  split <;> simp [T.text]
theorem orNull_ok {b : Prop} [Decidable b] {l : List Char} (h : ¬ b → Number l) : (orNull b l).Ok := by
  unfold orNull
  split
  · trivial
  · exact h ‹_›

def divT (D : Digits) (d : Div.Divider) : T :=
  let s := d.stats
  .obj (.more jn "total".toList sp (.num (int s.total)) []
    (.more jn "cache".toList sp (countT D s.hits s.total) []
    (.more jn "special_cases".toList sp (countT D s.specials s.total) []
    (.more jn "special_cases_class".toList sp (.obj
      (.more [] "div_by_zero".toList sp (.num (int s.divByZero)) []
      (.more sp "overflow".toList sp (.num (int s.overflow)) []
      (.more sp "abs_lt".toList sp (.num (int s.absLt)) []
      (.last sp "divisor_pow2".toList sp (.num (int s.pow2)) []))))) []
    (.more jn "common_cases".toList sp (countT D s.commons s.total) []
    (.more jn "common_cases_info".toList sp (.obj
      (.more [] "total".toList sp (.num (int s.bits)) []
      (.more sp "min".toList sp (orNull (s.min = 255#8) (int s.min.toNat)) []
      (.more sp "max".toList sp (orNull (s.max = 0#8) (int s.max.toNat)) []
      (.last sp "avg".toList sp (orNull (s.min = 255#8) (if s.commons = 0 then minusOne else D.avg s.bits s.commons)) []))))) []
    (.last jn "size".toList sp (.obj
      (.more [] "total".toList sp (.num (int (divTotal (BitVec.ofNat 32 d.entries)).toNat)) []
      (.more sp "entries".toList sp (.num (int d.entries)) []
      (.last sp "entry_size".toList sp (.num (int divEntry.toNat)) [])))) ['\n'])))))))

def hwStatsT (D : Digits) (type : List Char) (bp : Bp.Def) (insts : BitVec 64) (m : Models) : T :=
  .obj (.more ['\n'] "icache".toList sp (cacheT D insts.toNat m.mmi.ic) []
    (.more ['\n'] "dcache".toList sp (cacheT D insts.toNat m.mmi.mm.dc) []
    (.more ['\n'] "bpred".toList sp (bpT D type (bpSize bp) insts.toNat m.bp.active.base.stats) []
    (.more ['\n'] "divider".toList sp (divT D m.div) []
    (.last ['\n'] "profiled_inst".toList sp (.num (int insts.toNat)) ['\n'])))))

theorem more_text (w : List Char) (k : String) (t : T) (w3 : List Char) (ms : Ms) :
    (Ms.more w k.toList sp t w3 ms).text = w ++ (key k ++ (t.text ++ (w3 ++ ',' :: ms.text))) := by
  simp [Ms.text, key, sp]
theorem last_text (w : List Char) (k : String) (t : T) (w3 : List Char) :
    (Ms.last w k.toList sp t w3).text = w ++ (key k ++ (t.text ++ w3)) := by
  simp [Ms.text, key, sp]
theorem num_text (l : List Char) : (T.num l).text = l := by simp [T.text]
theorem str_text (l : List Char) : (T.str l).text = '"' :: (l ++ ['"']) := by simp [T.text]
theorem obj_text (ms : Ms) : (T.obj ms).text = '{' :: (ms.text ++ ['}']) := by simp [T.text]

theorem pair_text (a b : Nat) : pairText a b = (pairT a b).text := by
  simp only [pairText, pairT, more_text, last_text, num_text, obj_text, List.append_assoc, List.cons_append, List.nil_append]
  rfl
theorem count_text (D : Digits) (a b : Nat) : countText D a b = (countT D a b).text := by
  simp only [countText, countT, more_text, last_text, num_text, obj_text, List.append_assoc, List.cons_append, List.nil_append]
  rfl
theorem cache_text (D : Digits) (name : String) (n : Nat) (c : Cache) :
    cacheText D name n c = key name ++ (cacheT D n c).text ++ [',', '\n'] := by
  unfold cacheText cacheT cacheStatsText cacheSizeText
  simp only [obj_text, more_text, last_text]
  simp only [num_text]
  simp only [pair_text]
  simp only [sp, List.append_assoc, List.cons_append, List.nil_append]
theorem bp_text (D : Digits) (type : List Char) (size : W) (n : Nat) (s : Bp.BStats) :
    bpText D type size n s = key "bpred" ++ (bpT D type size n s).text ++ [','] := by
  unfold bpText bpT
  simp only [obj_text, more_text, last_text]
  simp only [num_text, str_text]
  simp only [List.append_assoc, List.cons_append, List.nil_append]
theorem div_text (D : Digits) (d : Div.Divider) : divText D d = ['\n'] ++ key "divider" ++ (divT D d).text ++ [','] := by
  unfold divText divT commonText
  simp only [obj_text, more_text, last_text]
  simp only [num_text, orNull_text]
  simp only [count_text]
  simp only [sp, List.append_assoc, List.cons_append, List.nil_append]

theorem hwStats_text (D : Digits) (type : List Char) (bp : Bp.Def) (insts : BitVec 64) (m : Models) :
    hwStatsText D type bp insts m = (hwStatsT D type bp insts m).text ++ ['\n'] := by
  unfold hwStatsText hwStatsT
  simp only [obj_text, more_text, last_text]
  simp only [num_text]
  simp only [cache_text, bp_text, div_text]
  simp only [List.append_assoc, List.cons_append, List.nil_append]

theorem minusOne_num : Number minusOne := ⟨by decide, by decide⟩
theorem zero_num : Number HwStats.zero := ⟨by decide, by decide⟩
theorem int_num (n : Nat) : Number (int n) := number_digits n
theorem blank_jn : Blank jn := by unfold Blank jn; decide
theorem blank_sp : Blank sp := by unfold Blank sp; decide
theorem blank_spjn : Blank (sp ++ jn) := by unfold Blank sp jn; decide
theorem blank_nil : Blank [] := by unfold Blank; decide
theorem blank_nl : Blank ['\n'] := by unfold Blank; decide

theorem pair_ok (a b : Nat) : (pairT a b).Ok :=
  ⟨blank_nil, by unfold Plain; decide +kernel, blank_sp, int_num _, blank_nil, blank_sp, by unfold Plain; decide +kernel, blank_sp,
    int_num _, blank_nil⟩

section
variable {D : Digits} (hD : D.Good)
include hD

theorem cacheHr_num (n : Nat) (s : Cache.Stats) : Number (cacheHr D n s) := by
  unfold cacheHr
  split
  · exact minusOne_num
  · exact hD.pct _ _ (fun h => by simp_all)
theorem cacheMpki_num (k : Cache.Kind) (n : Nat) (s : Cache.Stats) : Number (cacheMpki D k n s) := by
  unfold cacheMpki
  split
  · exact minusOne_num
  · simp only
    split <;> split <;> first | exact zero_num | exact hD.rate _ _ (fun h => by simp_all)
theorem bpAccuracy_num (n : Nat) (s : Bp.BStats) : Number (bpAccuracy D n s) := by
  unfold bpAccuracy
  split
  · exact minusOne_num
  · exact hD.pct _ _ (fun h => by simp_all)
theorem bpMpki_num (n : Nat) (s : Bp.BStats) : Number (bpMpki D n s) := by
  unfold bpMpki
  split
  · exact minusOne_num
  · split
    · exact zero_num
    · exact hD.rate _ _ (fun h => by simp_all)
theorem count_ok (a b : Nat) : (countT D a b).Ok := by
  refine ⟨blank_nil, by unfold Plain; decide +kernel, blank_sp, int_num _, blank_nil, blank_sp, by unfold Plain; decide +kernel,
    blank_sp, ?_, blank_nil⟩
  show Number (fraction D a b)
  unfold fraction
  split
  · exact minusOne_num
  · exact hD.pct _ _ ‹_›

theorem cache_ok (n : Nat) (c : Cache) : (cacheT D n c).Ok := by
  unfold cacheT
  simp only [T.Ok, Ms.Ok, blank_jn, blank_sp, blank_nil, blank_nl, blank_spjn, int_num, pair_ok, cacheHr_num hD, cacheMpki_num hD,
    true_and, and_true]
  unfold Plain
  refine ⟨?_, ?_, ?_, ?_, ?_, ?_, ?_, ?_, ?_, ?_, ?_, ?_, ?_, ?_, ?_, ?_⟩ <;> decide +kernel
theorem bp_ok {type : List Char} (ht : Plain type) (size : W) (n : Nat) (s : Bp.BStats) : (bpT D type size n s).Ok := by
  unfold bpT
  simp only [T.Ok, Ms.Ok, blank_jn, blank_sp, blank_nil, blank_nl, int_num, bpAccuracy_num hD, bpMpki_num hD, ht,
    true_and, and_true]
  unfold Plain
  refine ⟨?_, ?_, ?_, ?_, ?_, ?_, ?_, ?_, ?_, ?_, ?_⟩ <;> decide +kernel
theorem div_ok (d : Div.Divider) : (divT D d).Ok := by
  have h1 : (orNull (d.stats.min = 255#8) (int d.stats.min.toNat)).Ok := orNull_ok fun _ => int_num _
  have h2 : (orNull (d.stats.max = 0#8) (int d.stats.max.toNat)).Ok := orNull_ok fun _ => int_num _
  have h3 : (orNull (d.stats.min = 255#8) (if d.stats.commons = 0 then minusOne else D.avg d.stats.bits d.stats.commons)).Ok :=
    orNull_ok fun _ => by
      split
      · exact minusOne_num
      · exact hD.avg _ _ ‹_›
  unfold divT
  simp only [T.Ok, Ms.Ok, blank_jn, blank_sp, blank_nil, blank_nl, int_num, count_ok hD, h1, h2, h3, true_and, and_true, and_assoc]
  unfold Plain
  refine ⟨?_, ?_, ?_, ?_, ?_, ?_, ?_, ?_, ?_, ?_, ?_, ?_, ?_, ?_, ?_, ?_, ?_, ?_⟩ <;> decide +kernel

theorem hwStats_ok {type : List Char} (ht : Plain type) (bp : Bp.Def) (insts : BitVec 64) (m : Models) :
    (hwStatsT D type bp insts m).Ok := by
  unfold hwStatsT
  simp only [T.Ok, Ms.Ok, blank_sp, blank_nil, blank_nl, int_num, cache_ok hD, bp_ok hD ht, div_ok hD, true_and, and_true]
  unfold Plain
  refine ⟨?_, ?_, ?_, ?_, ?_⟩ <;> decide +kernel

theorem hwStats_read {type : List Char} (ht : Plain type) (bp : Bp.Def) (insts : BitVec 64) (m : Models) :
    readJson (hwStatsText D type bp insts m) = some (hwStatsT D type bp insts m).val := by
  rw [hwStats_text]
  exact read_text _ (hwStats_ok hD ht bp insts m) blank_nl
end

end Ama.HwStats
