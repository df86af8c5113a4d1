import Verif.Model.Main
/-!
# The output directory

`gen_out_dir` of `utils.h`, and the files that a run writes into the directory.
-/
namespace Ama.OutDir
open Main

/-- `std::filesystem::path::filename` ([fs.path.decompose], POSIX): what follows the last `/` -/
def filename (p : List Char) : List Char := (p.reverse.takeWhile (· ≠ '/')).reverse
/-- `std::filesystem::path::parent_path` (POSIX): what comes before the last name, without the separators between them; the root
directory is kept as `/`.  Simplified: a name of the network kind, `//host`, is read as an ordinary path. -/
def parentPath (p : List Char) : List Char :=
  let d := p.reverse.dropWhile (· ≠ '/')
  let r := d.dropWhile (· = '/')
  if r = [] ∧ d ≠ [] then ['/'] else r.reverse
/-- `std::filesystem::path::stem`: the file name up to its last dot; `.`, `..` and a name whose only dot is its first character are
kept whole -/
def stem (p : List Char) : List Char :=
  let f := filename p
  if f = ['.'] ∨ f = ['.', '.'] then f
  else
    let r := f.reverse.dropWhile (· ≠ '.')
    match r with
    | [] => f
    | [_] => f
    | _ :: r => r.reverse
/-- utils.h:14-19, the name of the directory -/
def name (path tag : List Char) : List Char :=
  filename (parentPath path) ++ ['_'] ++ stem path ++ "_out".toList ++ (if tag ≠ [] then ['_'] ++ tag else []) ++ ['/']

/-- the directories there are, by name, with the files in them (the contents are those of other claims) -/
abbrev Dirs := List Char → Option (List (List Char))
/-- utils.h:20-28: the directory, existing or made; `none`: an exception, which nobody catches (main.cpp:591).  `can`: whether
`create_directory` makes the directory (it does not make the directories above) -/
def gen (D : Dirs) (can : List Char → Bool) (path tag : List Char) : Option (Dirs × List Char) :=
  let n := name path tag
  match D n with
  | some _ => some (D, n)
  | none => if can n then some ((fun m => if m = n then some [] else D m), n) else none

/-- types.h:459-499 `perf_event_names`: the first name listed for the event (main.cpp:53-93 lists the events in the same order
with the same names) -/
def eventName (e : Nat) : String := match (Args.perfEvents true).find? fun p => p.2 = e with
  | some p => p.1
  | none => ""
/-- a flag of the configuration -/
def on (s : Store) (f : Field) : Bool := s f == some (.flag true)
/-- a number of the configuration that is not zero -/
def nz (s : Store) (f : Field) : Bool := match s f with
  | some (.u32 v) => v != 0#32
  | _ => false
def eventsOf (s : Store) : List Nat := match s .perfEvents with
  | some (.events l) => l
  | _ => []
/-- the files that a run to its end opens for writing: uart.cpp:25, core.cpp:56, core.cpp:380-382 and memory.cpp:129,
profiler.cpp:299, 338-339, profiler_perf.cpp:264, 274-279, profiler_rf.cpp:16-25, bp_if.cpp:258, 286, core.cpp:1178 -/
def files (B : Build) (s : Store) : List (List Char) :=
  (when B.uart ["uart.log"] ++
   when (B.dasm && on s .log) ["exec.log"] ++
   when (nz s .memDumpStart && nz s .memDumpSize) ["mem_dump.log"] ++
   when B.prof (["inst_profile.json"] ++ when (on s .profTrace) ["trace.bin"] ++
     when (!on s .noCallstack) ((eventsOf s).map fun e => "callstack_folded_" ++ eventName e ++ ".txt") ++
     when (on s .profTrace) ["rf_trace.bin"] ++ when (on s .rfUsage) ["rf_usage.bin"]) ++
   when B.hw (when (on s .bpDumpCsv) ["branches.csv"] ++ ["hw_stats.json"])).map (·.toList)
/-- the directories after the run: opening a file for writing makes it or empties it, nothing is removed (utils.h:21) -/
def after (B : Build) (s : Store) (D : Dirs) (n : List Char) : Dirs := fun m =>
  if m = n then (D n).map fun l => l ++ (files B s).filter (fun f => !l.contains f) else D m
end Ama.OutDir
