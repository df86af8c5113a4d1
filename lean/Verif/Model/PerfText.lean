import Verif.Model.ProfPerf
/-!
# The callstack files

The names of the symbols (`main_memory.cpp`, `profiler_perf.cpp`) and the text of `callstack_folded_*.txt`.
-/
namespace Ama.Perf

/-- main_memory.cpp:142 `symbol_map[pc] = {0, name}`: sorted insertion, an existing key gets the new name -/
def insertName (pc : W) (n : String) : List (W × String) → List (W × String)
  | [] => [(pc, n)]
  | a :: t => if pc.ult a.1 then (pc, n) :: a :: t else if pc == a.1 then (pc, n) :: t else a :: insertName pc n t
/-- main_memory.cpp:126-144: the map with its names, by increasing key; the indices are those of `reindex` (lines 156-157) -/
def symNames : List ElfSym → List (W × String) → List (W × String)
  | [], m => m
  | s :: t, m => symNames t (if keepSym s then insertName (s.value.setWidth 32) s.name m else m)
/-- profiler_perf.cpp:14-17 `symbol_lut`, the names: the entry of index 0 is reserved and has none -/
def nameLut (m : List (W × String)) : List String := "" :: m.map (·.2)
/-- profiler_perf.cpp:249-253: the text of one frame -/
def frameText (lut : List String) (i : Idx) : List Char :=
  if i.toNat < lut.length ∧ lut.getD i.toNat "" ≠ "" then (lut.getD i.toNat "").toList ++ [';'] else "<unknown>;".toList
/-- profiler_perf.cpp:243-256 `get_callstack_str`; `stack` from the outermost frame on -/
def stackText (lut : List String) (stack : List Idx) : List Char :=
  if stack = [] then "<unknown>;".toList else stack.flatMap (frameText lut)
/-- profiler_perf.cpp:283-286: one line; keys are kept innermost frame first in the model -/
def foldedLine (lut : List String) (e : Nat) (p : List Idx × (Nat → Nat)) : List Char :=
  stackText lut p.1.reverse ++ [' '] ++ Nat.toDigits 10 (p.2 e) ++ ['\n']
/-- profiler_perf.cpp:275-288: the file of event `e`; the order of the entries is that of the hash map, here any list -/
def foldedFile (lut : List String) (e : Nat) (saved : List (List Idx × (Nat → Nat))) : List Char :=
  saved.flatMap (foldedLine lut e)
end Ama.Perf
