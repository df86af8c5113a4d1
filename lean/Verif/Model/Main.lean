import Verif.Model.Args
import Verif.Model.Cache
/-!
# From the options to the configuration

`main` of `main.cpp`: the options declared, the configuration built from them, and the exit status.  Splitting the command line
into options and values is cxxopts and not modelled: a command line is what it gives for each option.
-/
namespace Ama.Main
open Args

/-- the build switches that `main.cpp` depends on (src/Makefile:23-58); `uartIn` counts only with `uart` -/
structure Build where
  uart : Bool
  uartIn : Bool
  prof : Bool
  dasm : Bool
  hw : Bool
  deriving DecidableEq, Repr
/-- src/Makefile:23-58: the build made when no switch is set -/
def dfltBuild : Build := ⟨true, false, true, false, true⟩

/-- types.h:532 `rf_names_t` -/
inductive RfNames where | x | abi deriving DecidableEq, Repr
/-- hw_model_types.h:8 `cache_re_policy_t` -/
inductive RePol where | lru deriving DecidableEq, Repr
/-- the values of `bp_t` that `hw_cfg.bp_active` can take (hw_model_types.h:37-42): one of the predictors named, or `combined` -/
inductive Active where | one (k : Bp.Kind) | combined deriving DecidableEq, Repr

/-- a value of a field -/
inductive Val where
  | u8 (v : BitVec 8) | u32 (v : W) | u64 (v : BitVec 64) | flag (b : Bool) | text (l : List Char) | events (l : List Nat)
  | rf (x : RfNames) | re (x : RePol) | ins (x : Cache.InPol) | wr (x : Cache.WrPol)
  | bp (x : Bp.Kind) | sttc (x : Bp.Sttc) | fold (x : Bp.Fold) | active (x : Active)
  deriving DecidableEq, Repr

/-- the fields of `cfg_t` (types.h:580-601; `prof_pc_t`: types.h:547-553) and `hw_cfg_t` (hw_model_types.h:110-149), and
main.cpp:217-218 `test_elf`, `out_dir_tag` -/
inductive Field where
  | testElf | outDirTag
  | profStart | profStop | profMatch | profExit
  | rfNames | memDumpStart | memDumpSize | perfEvents | runInsts | runSteps | profTrace | rfUsage | noCallstack | profShow
  | log | logAlways | logState | logHw | showState | exitOnTrap | uartShow | uartIn
  | icSets | icWays | icRe | icIn | dcSets | dcWays | dcRe | dcIn | dcWr | roiStart | roiSize | showCache | divEntries
  | bp | bp2 | bpActive | bpActiveName
  | bpSttc | bpPc | bpCnt | bpLhist | bpGhr | bpFold | bp2Sttc | bp2Pc | bp2Cnt | bp2Lhist | bp2Ghr | bp2Fold
  | combPc | combCnt | combFold | bpRunAll | bpDumpCsv
  deriving DecidableEq, Repr

/-- main.cpp:48-51 `rf_names_map` -/
def rfNamesMap : OMap RfNames := [("abi", .abi), ("x", .x)]
/-- main.cpp:95-98 `cache_re_policy_map` -/
def reNames : OMap RePol := [("lru", .lru)]
/-- main.cpp:100-103 `cache_in_policy_map` -/
def inNames : OMap Cache.InPol := [("update", .update), ("no_update", .noUpdate)]
/-- main.cpp:105-108 `cache_wr_policy_map` -/
def wrNames : OMap Cache.WrPol := [("wt", .wt), ("wb", .wb)]

/-- main.cpp:28-29, 293-295: the type an option is declared with -/
inductive Ty where | str | bool | list deriving DecidableEq, Repr
/-- an option declared; `none`: without a default -/
structure Decl where
  name : String
  ty : Ty
  dflt : Option String
  deriving DecidableEq, Repr
def str (n d : String) : Decl := ⟨n, .str, some d⟩
def bool (n : String) : Decl := ⟨n, .bool, some "false"⟩
def when (b : Bool) {α : Type} (l : List α) : List α := if b then l else []

/-- main.cpp:223-428 with the defaults of main.cpp:138-208 -/
def decls (B : Build) : List Decl :=
  [⟨"path", .str, none⟩, bool "show_state", bool "exit_on_trap", str "mem_dump_start" "0", str "mem_dump_size" "0",
   str "out_dir_tag" "", str "run_insts" "0", str "run_steps" "0"] ++
  when B.uart ([bool "uart_show"] ++ when B.uartIn [str "uart_in" ""]) ++
  when B.prof [str "prof_pc_start" "0", str "prof_pc_stop" "0", str "prof_pc_single_match" "0", bool "exit_on_prof_stop",
    bool "prof_trace", ⟨"perf_event", .list, some "ret_inst"⟩, bool "rf_usage", bool "no_callstack", bool "prof_show"] ++
  when B.dasm ([bool "log"] ++ when B.prof [bool "log_always"] ++ [bool "log_state", str "rf_names" "x"] ++
    when B.hw [bool "log_hw_models"]) ++
  when B.hw
    [str "icache_sets" "32", str "icache_ways" "2", str "icache_re_policy" "lru", str "icache_in_policy" "update",
     str "dcache_sets" "16", str "dcache_ways" "4", str "dcache_re_policy" "lru", str "dcache_in_policy" "update",
     str "dcache_wr_policy" "wb", str "roi_start" "0", str "roi_size" "0", bool "show_cache_state",
     str "bp" "bimodal", str "bp2" "none", str "bp_static_method" "btfn", str "bp_pc_bits" "7", str "bp_cnt_bits" "3",
     str "bp_lhist_bits" "5", str "bp_ghr_bits" "5", str "bp_fold_pc" "none", str "bp2_static_method" "at",
     str "bp2_pc_bits" "5", str "bp2_cnt_bits" "1", str "bp2_lhist_bits" "5", str "bp2_ghr_bits" "8",
     str "bp2_fold_pc" "none", str "bp_combined_pc_bits" "6", str "bp_combined_cnt_bits" "4",
     str "bp_combined_fold_pc" "none", bool "bp_run_all", bool "bp_dump_csv", str "div_cache_entries" "1"]

/-- a command line: what it gives for each option, by the type of the option.  Simplified: an option given more than once counts
once (cxxopts keeps the last value of a text and of a flag, and appends to a list). -/
structure Line where
  text : String → Option (List Char)
  flag : String → Option Bool
  list : String → Option (List String)
/-- `result[n].as<std::string>()`, cxxopts: the text given, or the default; without either it throws `option_has_no_value`
(main.cpp:556-559: usage, exit status 1).  An option that is not declared, or declared with another type, throws too; simplified
to the same outcome (it never happens: `declared`). -/
def getText (B : Build) (L : Line) (n : String) : Out (List Char) :=
  match (decls B).find? fun d => d.name = n ∧ d.ty = .str with
  | none => .usage
  | some d => match L.text n with
    | some t => .ok t
    | none => match d.dflt with
      | some t => .ok t.toList
      | none => .usage
/-- `result[n].as<bool>()` -/
def getFlag (B : Build) (L : Line) (n : String) : Out Bool :=
  match (decls B).find? fun d => d.name = n ∧ d.ty = .bool with
  | none => .usage
  | some d => .ok ((L.flag n).getD (d.dflt = some "true"))
/-- `result[n].as<std::vector<std::string>>()`; simplified: the default is a list of one name -/
def getList (B : Build) (L : Line) (n : String) : Out (List String) :=
  match (decls B).find? fun d => d.name = n ∧ d.ty = .list with
  | none => .usage
  | some d => match L.list n with
    | some l => .ok l
    | none => .ok d.dflt.toList

/-- how an option is converted: main.cpp:31-41 -/
inductive Conv where
  | u32h | u32 | u64 | i8 | flag | text | events | rf | re | ins | wr | bp | sttc | fold
  deriving DecidableEq, Repr
/-- main.cpp:31-35, 38-39, arg_parse.h:45-59: a text converted -/
def convT : Conv → List Char → Out Val
  | .u32h, t => (argU32H t).bind fun v => .ok (.u32 v)
  | .u32, t => (argU32 t).bind fun v => .ok (.u32 v)
  | .u64, t => (argU64 t).bind fun v => .ok (.u64 v)
  | .i8, t => (argI8 t).bind fun v => .ok (.u8 v)
  | .text, t => .ok (.text t)
  | .rf, t => (resolve rfNamesMap (String.ofList t)).bind fun v => .ok (.rf v)
  | .re, t => (resolve reNames (String.ofList t)).bind fun v => .ok (.re v)
  | .ins, t => (resolve inNames (String.ofList t)).bind fun v => .ok (.ins v)
  | .wr, t => (resolve wrNames (String.ofList t)).bind fun v => .ok (.wr v)
  | .bp, t => (resolve bpNames (String.ofList t)).bind fun v => .ok (.bp v)
  | .sttc, t => (resolve sttcNames (String.ofList t)).bind fun v => .ok (.sttc v)
  | .fold, t => (resolve foldNames (String.ofList t)).bind fun v => .ok (.fold v)
  | .flag, _ | .events, _ => .usage
/-- main.cpp:31-41, applied to option `n` -/
def conv (B : Build) (L : Line) (n : String) : Conv → Out Val
  | .flag => (getFlag B L n).bind fun b => .ok (.flag b)
  | .events => (getList B L n).bind fun l => (resolveList (Args.perfEvents B.hw) l).bind fun v => .ok (.events v)
  | c => (getText B L n).bind (convT c)

/-- a statement of main.cpp:456-553: a field is assigned the conversion of an option, or (main.cpp:485) the value `true`, or
(main.cpp:523-530) the active predictor is derived -/
inductive Stm where
  | set (f : Field) (c : Conv) (n : String)
  | logAlways
  | active
  deriving DecidableEq, Repr
/-- main.cpp:456-553, in order -/
def stms (B : Build) : List Stm :=
  [.set .testElf .text "path", .set .showState .flag "show_state", .set .exitOnTrap .flag "exit_on_trap",
   .set .memDumpStart .u32h "mem_dump_start", .set .memDumpSize .u32 "mem_dump_size", .set .runInsts .u64 "run_insts",
   .set .runSteps .u64 "run_steps", .set .outDirTag .text "out_dir_tag"] ++
  when B.uart ([.set .uartShow .flag "uart_show"] ++ when B.uartIn [.set .uartIn .text "uart_in"]) ++
  when B.prof
    [.set .profStart .u32h "prof_pc_start", .set .profStop .u32h "prof_pc_stop", .set .profMatch .u32 "prof_pc_single_match",
     .set .profExit .flag "exit_on_prof_stop", .set .profTrace .flag "prof_trace", .set .perfEvents .events "perf_event",
     .set .rfUsage .flag "rf_usage", .set .noCallstack .flag "no_callstack", .set .profShow .flag "prof_show"] ++
  when B.dasm ([.set .log .flag "log"] ++ (if B.prof then [.set .logAlways .flag "log_always"] else [.logAlways]) ++
    [.set .logState .flag "log_state", .set .rfNames .rf "rf_names"] ++ when B.hw [.set .logHw .flag "log_hw_models"]) ++
  when B.hw
    [.set .icSets .u32 "icache_sets", .set .icWays .u32 "icache_ways", .set .icRe .re "icache_re_policy",
     .set .icIn .ins "icache_in_policy", .set .dcSets .u32 "dcache_sets", .set .dcWays .u32 "dcache_ways",
     .set .dcRe .re "dcache_re_policy", .set .dcIn .ins "dcache_in_policy", .set .dcWr .wr "dcache_wr_policy",
     .set .roiStart .u32h "roi_start", .set .roiSize .u32 "roi_size", .set .showCache .flag "show_cache_state",
     .set .divEntries .u32 "div_cache_entries",
     .set .bp .bp "bp", .set .bp2 .bp "bp2", .active,
     .set .bpSttc .sttc "bp_static_method", .set .bpPc .i8 "bp_pc_bits", .set .bpCnt .i8 "bp_cnt_bits",
     .set .bpLhist .i8 "bp_lhist_bits", .set .bpGhr .i8 "bp_ghr_bits", .set .bpFold .fold "bp_fold_pc",
     .set .bp2Sttc .sttc "bp2_static_method", .set .bp2Pc .i8 "bp2_pc_bits", .set .bp2Cnt .i8 "bp2_cnt_bits",
     .set .bp2Lhist .i8 "bp2_lhist_bits", .set .bp2Ghr .i8 "bp2_ghr_bits", .set .bp2Fold .fold "bp2_fold_pc",
     .set .combPc .i8 "bp_combined_pc_bits", .set .combCnt .i8 "bp_combined_cnt_bits",
     .set .combFold .fold "bp_combined_fold_pc", .set .bpRunAll .flag "bp_run_all", .set .bpDumpCsv .flag "bp_dump_csv"]

/-- the fields of `cfg`, `hw_cfg`; `none`: never assigned.  main.cpp:216, 221 `cfg_t cfg; hw_cfg_t hw_cfg;` leave the fields of
enumeration, number and truth type without a value.  Simplified: the private fields of `prof_pc_t` and its count, which have
initialisers (types.h:551-555), are left out, and the texts and the list of events, which start empty, count as not assigned -/
abbrev Store := Field → Option Val
def Store.init : Store := fun _ => none
def Store.put (s : Store) (f : Field) (v : Val) : Store := fun g => if g = f then some v else s g

/-- one statement of main.cpp:456-553 -/
def run1 (B : Build) (L : Line) (s : Store) : Stm → Out Store
  | .set f c n => (conv B L n c).bind fun v => .ok (s.put f v)
  | .logAlways => .ok (s.put .logAlways (.flag true))
  | .active =>
    match s .bp2, s .bp with
    | some (.bp k2), some (.bp k) =>
      if k2 ≠ .none then .ok ((s.put .bpActive (.active .combined)).put .bpActiveName (.text "combined".toList))
      else (getText B L "bp").bind fun t => .ok ((s.put .bpActive (.active (.one k))).put .bpActiveName (.text t))
    | _, _ => .usage
def runs (B : Build) (L : Line) : Store → List Stm → Out Store
  | s, [] => .ok s
  | s, a :: l => (run1 B L s a).bind fun s => runs B L s l
/-- main.cpp:455-563: the configuration, or the usage text -/
def config (B : Build) (L : Line) : Out Store := runs B L .init (stms B)

/-- the fields whose value the simulator looks at, whatever the program does: core.cpp:7-22, 29-33, 54, 99, 159, 210, 380, 384-397, 1225,
uart.cpp:13-16, main_memory.cpp:3-36, bp_if.cpp:84-92 -/
def looked (B : Build) : List Field :=
  [.rfNames, .memDumpStart, .runSteps, .runInsts, .showState] ++
  when B.uart ([.uartShow] ++ when B.uartIn [.uartIn]) ++
  when B.prof [.profStart, .profStop, .profMatch, .profExit, .perfEvents, .profTrace, .noCallstack, .rfUsage, .profShow] ++
  when B.dasm ([.log, .logAlways, .logState]) ++
  when B.hw [.profShow, .icSets, .icWays, .icRe, .icIn, .dcSets, .dcWays, .dcRe, .dcIn, .dcWr, .roiStart, .roiSize, .showCache,
    .divEntries, .bpActive, .bp, .bp2, .bpRunAll, .bpDumpCsv]

/-- how the part of `main` inside `TRY_CATCH` (main.cpp:594-601) ends: `run` returns, whatever `tohost` holds, or an exception
derived from `std::exception` leaves it -/
inductive End where | returns (tohost : W) | throws deriving DecidableEq, Repr
/-- main.cpp:17-26, 438-453, 556-563, 594-612: the exit status; `none`: `std::terminate`.  `help`, `version`: the options given;
`test`: `TEST_BUILD` -/
def status (test help version : Bool) (cfg : Out Store) (e : End) : Option Nat :=
  if help ∨ version then some 0
  else match cfg with
    | .usage => some 1
    | .terminate => none
    | .ok _ => match e with
      | .returns _ => some 0
      | .throws => if test then some 1 else none
end Ama.Main
