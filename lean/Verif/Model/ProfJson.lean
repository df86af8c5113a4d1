import Verif.Model.Prof
import Verif.Model.HwStats
/-!
# The report of the instruction profiler: `inst_profile.json`

Model of the file part of `profiler::log_to_file_and_print` (profiler.cpp:295-335), for the instruction source (`DPI` builds count
cycles).
-/
namespace Ama.Prof
open HwStats (key int)

/-- `INDENT`, defines.h:744 -/
def indent : List Char := [' ', ' ', ' ', ' ']
/-- profiler.h:9-10 `PROF_JSON_ENTRY` and the newline of profiler.cpp:307 -/
def entryG (o : OpG) (count : Nat) : List Char :=
  indent ++ ['"'] ++ o.name.toList ++ ['"'] ++ [':', ' ', '{'] ++ key "count" ++ int count ++ ['}', ','] ++ ['\n']
/-- profiler.h:12-23 `PROF_JSON_ENTRY_B` and the newline of profiler.cpp:323 -/
def entryB (o : OpB) (r : RepB) : List Char :=
  indent ++ ['"'] ++ o.name.toList ++ ['"'] ++ [':', ' ', '{'] ++ key "count" ++ int r.count ++
  [',', ' '] ++ key "breakdown" ++ ['{'] ++
  key "taken" ++ int r.taken ++ [',', ' '] ++
  key "taken_fwd" ++ int r.takenFwd ++ [',', ' '] ++
  key "taken_bwd" ++ int r.takenBwd ++ [',', ' '] ++
  key "not_taken" ++ int r.notTaken ++ [',', ' '] ++
  key "not_taken_fwd" ++ int r.notTakenFwd ++ [',', ' '] ++
  key "not_taken_bwd" ++ int r.notTakenBwd ++ ['}', '}', ','] ++ ['\n']
/-- profiler.cpp:299-336: the file; `peak` is the `min_sp` of profiler.cpp:328.  Entries without a name are skipped by the code, and
every entry has one (profiler.cpp:17-233). -/
def profileText (rv32c : Bool) (p : IProf) (peak : W) : List Char :=
  ['{', '\n'] ++
  ((allG.filter fun o => rv32c || !dotG o).map fun o => entryG o (p.cntG o)).flatten ++
  ((allB.filter fun o => rv32c || !dotB o).map fun o => entryB o (p.cntB o).rep).flatten ++
  indent ++ key "_max_sp_usage" ++ int peak.toNat ++ [',', '\n'] ++ indent ++
  key "_profiled_instructions" ++ int (p.total rv32c) ++ ['\n', '}', '\n']

end Ama.Prof
