import Verif.Spec.Args
import Verif.Model.Main
/-!
# The options as documented

`examples/ama-riscv-sim.help`: the options, the values they take and their defaults; `README.md` (Usage): every argument but the
path has a default.
-/
namespace Ama.Spec
open Main (Build Field Val Line)

/-- what an option takes -/
inductive Takes where
  | hex32 | dec32 | dec64 | dec8 | flag | text | events
  | oneOf (l : List (String × Val))

/-- an option: its name, the setting it controls, what it takes, its default, and the builds it is in -/
structure OptRow where
  opt : String
  field : Field
  takes : Takes
  dflt : Option String
  on : Build → Bool

/-- a hexadecimal number, with or without `0x` -/
def Hex (t : List Char) (n : Nat) : Prop := Numeral 16 t n ∨ ∃ u, (t = '0' :: 'x' :: u ∨ t = '0' :: 'X' :: u) ∧ Numeral 16 u n
/-- the value that a text stands for -/
def TextMeans : Takes → List Char → Val → Prop
  | .hex32, t, v => ∃ n, n < 2 ^ 32 ∧ Hex t n ∧ v = .u32 (BitVec.ofNat 32 n)
  | .dec32, t, v => ∃ n, n < 2 ^ 32 ∧ Numeral 10 t n ∧ v = .u32 (BitVec.ofNat 32 n)
  | .dec64, t, v => ∃ n, n < 2 ^ 64 ∧ Numeral 10 t n ∧ v = .u64 (BitVec.ofNat 64 n)
  | .dec8, t, v => ∃ n, n < 2 ^ 8 ∧ Numeral 10 t n ∧ v = .u8 (BitVec.ofNat 8 n)
  | .text, t, v => v = .text t
  | .oneOf l, t, v => (String.ofList t, v) ∈ l
  | .flag, _, _ | .events, _, _ => False
/-- the setting that a command line asks for: what it gives for the option, or the default -/
def OptRow.Says (r : OptRow) (B : Build) (L : Line) (v : Val) : Prop :=
  match r.takes with
  | .flag => v = .flag ((L.flag r.opt).getD false)
  | .events => ∃ names es, (L.list r.opt = some names ∨ L.list r.opt = none ∧ names = r.dflt.toList) ∧ v = .events es ∧
      es.Pairwise (· < ·) ∧ (∀ a ∈ names, ∃ e, (a, e) ∈ Args.perfEvents B.hw) ∧
      ∀ e, e ∈ es ↔ ∃ a ∈ names, (a, e) ∈ Args.perfEvents B.hw
  | k => ∃ t, (L.text r.opt = some t ∨ L.text r.opt = none ∧ r.dflt.map (·.toList) = some t) ∧ TextMeans k t v

def reTable : Takes := .oneOf [("lru", .re .lru)]
def inTable : Takes := .oneOf [("no_update", .ins .noUpdate), ("update", .ins .update)]
def predTable : Takes := .oneOf [("none", .bp .none), ("gselect", .bp .gselect), ("ideal", .bp .ideal), ("global", .bp .global),
  ("gshare", .bp .gshare), ("local", .bp .local), ("bimodal", .bp .bimodal), ("static", .bp .sttc)]
def sttcTable : Takes := .oneOf [("btfn", .sttc .btfn), ("ant", .sttc .ant), ("at", .sttc .at)]
def foldTable : Takes := .oneOf [("all", .fold .all), ("none", .fold .none)]

/-- the options -/
def help : List OptRow :=
  [⟨"path", .testElf, .text, none, fun _ => true⟩,
   ⟨"show_state", .showState, .flag, some "false", fun _ => true⟩,
   ⟨"exit_on_trap", .exitOnTrap, .flag, some "false", fun _ => true⟩,
   ⟨"mem_dump_start", .memDumpStart, .hex32, some "0", fun _ => true⟩,
   ⟨"mem_dump_size", .memDumpSize, .dec32, some "0", fun _ => true⟩,
   ⟨"out_dir_tag", .outDirTag, .text, some "", fun _ => true⟩,
   ⟨"run_insts", .runInsts, .dec64, some "0", fun _ => true⟩,
   ⟨"run_steps", .runSteps, .dec64, some "0", fun _ => true⟩,
   ⟨"uart_show", .uartShow, .flag, some "false", (·.uart)⟩,
   ⟨"uart_in", .uartIn, .text, some "", fun B => B.uart && B.uartIn⟩,
   -- Profiler options
   ⟨"prof_pc_start", .profStart, .hex32, some "0", (·.prof)⟩,
   ⟨"prof_pc_stop", .profStop, .hex32, some "0", (·.prof)⟩,
   ⟨"prof_pc_single_match", .profMatch, .dec32, some "0", (·.prof)⟩,
   ⟨"exit_on_prof_stop", .profExit, .flag, some "false", (·.prof)⟩,
   ⟨"prof_trace", .profTrace, .flag, some "false", (·.prof)⟩,
   ⟨"perf_event", .perfEvents, .events, some "ret_inst", (·.prof)⟩,
   ⟨"rf_usage", .rfUsage, .flag, some "false", (·.prof)⟩,
   ⟨"no_callstack", .noCallstack, .flag, some "false", (·.prof)⟩,
   ⟨"prof_show", .profShow, .flag, some "false", (·.prof)⟩,
   -- Logging options
   ⟨"log", .log, .flag, some "false", (·.dasm)⟩,
   ⟨"log_always", .logAlways, .flag, some "false", fun B => B.dasm && B.prof⟩,
   ⟨"log_state", .logState, .flag, some "false", (·.dasm)⟩,
   ⟨"rf_names", .rfNames, .oneOf [("x", .rf .x), ("abi", .rf .abi)], some "x", (·.dasm)⟩,
   ⟨"log_hw_models", .logHw, .flag, some "false", fun B => B.dasm && B.hw⟩,
   -- Caches
   ⟨"icache_sets", .icSets, .dec32, some "32", (·.hw)⟩,
   ⟨"icache_ways", .icWays, .dec32, some "2", (·.hw)⟩,
   ⟨"icache_re_policy", .icRe, reTable, some "lru", (·.hw)⟩,
   ⟨"icache_in_policy", .icIn, inTable, some "update", (·.hw)⟩,
   ⟨"dcache_sets", .dcSets, .dec32, some "16", (·.hw)⟩,
   ⟨"dcache_ways", .dcWays, .dec32, some "4", (·.hw)⟩,
   ⟨"dcache_re_policy", .dcRe, reTable, some "lru", (·.hw)⟩,
   ⟨"dcache_in_policy", .dcIn, inTable, some "update", (·.hw)⟩,
   ⟨"dcache_wr_policy", .dcWr, .oneOf [("wb", .wr .wb), ("wt", .wr .wt)], some "wb", (·.hw)⟩,
   ⟨"roi_start", .roiStart, .hex32, some "0", (·.hw)⟩,
   ⟨"roi_size", .roiSize, .dec32, some "0", (·.hw)⟩,
   ⟨"show_cache_state", .showCache, .flag, some "false", (·.hw)⟩,
   -- Branch predictor
   ⟨"bp", .bp, predTable, some "bimodal", (·.hw)⟩,
   ⟨"bp2", .bp2, predTable, some "none", (·.hw)⟩,
   ⟨"bp_static_method", .bpSttc, sttcTable, some "btfn", (·.hw)⟩,
   ⟨"bp_pc_bits", .bpPc, .dec8, some "7", (·.hw)⟩,
   ⟨"bp_cnt_bits", .bpCnt, .dec8, some "3", (·.hw)⟩,
   ⟨"bp_lhist_bits", .bpLhist, .dec8, some "5", (·.hw)⟩,
   ⟨"bp_ghr_bits", .bpGhr, .dec8, some "5", (·.hw)⟩,
   ⟨"bp_fold_pc", .bpFold, foldTable, some "none", (·.hw)⟩,
   ⟨"bp2_static_method", .bp2Sttc, sttcTable, some "at", (·.hw)⟩,
   ⟨"bp2_pc_bits", .bp2Pc, .dec8, some "5", (·.hw)⟩,
   ⟨"bp2_cnt_bits", .bp2Cnt, .dec8, some "1", (·.hw)⟩,
   ⟨"bp2_lhist_bits", .bp2Lhist, .dec8, some "5", (·.hw)⟩,
   ⟨"bp2_ghr_bits", .bp2Ghr, .dec8, some "8", (·.hw)⟩,
   ⟨"bp2_fold_pc", .bp2Fold, foldTable, some "none", (·.hw)⟩,
   ⟨"bp_combined_pc_bits", .combPc, .dec8, some "6", (·.hw)⟩,
   ⟨"bp_combined_cnt_bits", .combCnt, .dec8, some "4", (·.hw)⟩,
   ⟨"bp_combined_fold_pc", .combFold, foldTable, some "none", (·.hw)⟩,
   ⟨"bp_run_all", .bpRunAll, .flag, some "false", (·.hw)⟩,
   ⟨"bp_dump_csv", .bpDumpCsv, .flag, some "false", (·.hw)⟩,
   -- Divider
   ⟨"div_cache_entries", .divEntries, .dec32, some "1", (·.hw)⟩]
end Ama.Spec
