import Verif.Model.Basic
import Verif.Model.Bp
/-!
# Command line values

`arg_parse.h` and the conversions of `main.cpp`.  Splitting the command line into options and their values is cxxopts and
not modelled; an option's value is a list of characters here.  `bool` options are cxxopts too.
-/
namespace Ama.Args

/-- how a conversion ends: with a value, with `std::invalid_argument` (main.cpp:560-563: usage, exit status 1), or with
`std::out_of_range`, which main.cpp does not catch (`std::terminate`) -/
inductive Out (α : Type) where | ok (a : α) | usage | terminate
  deriving DecidableEq, Repr
def Out.bind {α β : Type} : Out α → (α → Out β) → Out β
  | .ok a, f => f a
  | .usage, _ => .usage
  | .terminate, _ => .terminate
instance : Monad Out where
  pure := .ok
  bind := Out.bind

/-- `isspace` of the C locale (strtoul skips it) -/
def isSpace (c : Char) : Bool := [' ', '\t', '\n', '\x0b', '\x0c', '\r'].contains c
/-- value of a digit in bases up to 16 (strtoul) -/
def digit (c : Char) : Option Nat :=
  if '0' ≤ c ∧ c ≤ '9' then some (c.toNat - 48)
  else if 'a' ≤ c ∧ c ≤ 'f' then some (c.toNat - 87)
  else if 'A' ≤ c ∧ c ≤ 'F' then some (c.toNat - 55)
  else none
def digitIn (b : Nat) (c : Char) : Option Nat := (digit c).filter (· < b)
/-- strtoul: the digits at the front, and their value from `v` on -/
def digits (b : Nat) (v : Nat) : List Char → Nat
  | [] => v
  | c :: l => match digitIn b c with
    | some d => digits b (v * b + d) l
    | none => v
/-- strtoul: the sign -/
def sign : List Char → Bool × List Char
  | '-' :: l => (true, l)
  | '+' :: l => (false, l)
  | l => (false, l)
/-- strtoul with base 16: `0x` before a digit -/
def prefixOf (b : Nat) : List Char → List Char
  | '0' :: x :: c :: l => if b = 16 ∧ (x = 'x' ∨ x = 'X') ∧ (digitIn b c).isSome then c :: l else '0' :: x :: c :: l
  | l => l
/-- `std::stoul(s, nullptr, b)` (C++17 [string.conversions], C17 7.22.1.4; `unsigned long` is 64 bits): spaces, a sign, digits;
what follows is ignored.  A minus sign negates in 64 bits. -/
def stoul (b : Nat) (s : List Char) : Out (BitVec 64) :=
  let (neg, l) := sign (s.dropWhile isSpace)
  let l := prefixOf b l
  match l with
  | [] => .usage
  | c :: _ =>
    if (digitIn b c).isNone then .usage
    else
      let v := digits b 0 l
      if 2 ^ 64 ≤ v then .terminate
      else .ok (if neg then -BitVec.ofNat 64 v else BitVec.ofNat 64 v)

/-- main.cpp:31 `ARG_U32H` -/
def argU32H (s : List Char) : Out W := (stoul 16 s).bind fun v => .ok (v.setWidth 32)
/-- main.cpp:32-33 `ARG_I8` -/
def argI8 (s : List Char) : Out (BitVec 8) := (stoul 10 s).bind fun v => .ok (v.setWidth 8)
/-- main.cpp:34 `ARG_U32` -/
def argU32 (s : List Char) : Out W := (stoul 10 s).bind fun v => .ok (v.setWidth 32)
/-- main.cpp:35 `ARG_U64` -/
def argU64 (s : List Char) : Out (BitVec 64) := stoul 10 s

/-- arg_parse.h:13-14 `ordered_map` -/
abbrev OMap (α : Type) := List (String × α)
/-- arg_parse.h:16-24 `find_arg` -/
def findArg {α : Type} (m : OMap α) (a : String) : Option α :=
  match m with
  | [] => none
  | x :: m => if x.1 = a then some x.2 else findArg m a
/-- arg_parse.h:29-42 `gen_help_list`: the names listed, each with the name it is marked an alias of -/
def helpFrom {α : Type} [DecidableEq α] (seen : OMap α) : OMap α → List (String × Option String)
  | [] => []
  | x :: m => (x.1, (seen.find? fun y => y.2 = x.2).map (·.1)) :: helpFrom (seen ++ [x]) m
def helpList {α : Type} [DecidableEq α] (m : OMap α) : List (String × Option String) := helpFrom [] m
/-- arg_parse.h:45-59 `resolve_arg` -/
def resolve {α : Type} (m : OMap α) (a : String) : Out α :=
  match findArg m a with
  | some x => .ok x
  | none => .usage
/-- `std::set<T>::insert` into the ascending list of the members -/
def insertSet (x : Nat) : List Nat → List Nat
  | [] => [x]
  | y :: l => if x < y then x :: y :: l else if x = y then y :: l else y :: insertSet x l
/-- arg_parse.h:62-80 `resolve_arg_list`, from the members seen so far -/
def resolveFrom (m : OMap Nat) (seen : List Nat) : List String → Out (List Nat)
  | [] => .ok seen
  | a :: l => match findArg m a with
    | some x => resolveFrom m (insertSet x seen) l
    | none => .usage
def resolveList (m : OMap Nat) (l : List String) : Out (List Nat) := resolveFrom m [] l

/-- main.cpp:53-93 `perf_event_map`, events by their number in `perf_event_t` (types.h:420-443); `hw`: `HW_MODELS_EN` -/
def perfEvents (hw : Bool) : OMap Nat :=
  [("ret_inst", 0), ("ret_ctrl_flow", 1), ("ret_ctrl_flow_jr", 2), ("ret_ctrl_flow_br", 3), ("ret_mem", 4), ("ret_mem_load", 5),
   ("ret_mul", 6), ("ret_div", 7), ("ret_simd", 8), ("ret_simd_arith", 9), ("ret_simd_arith_dot", 10)] ++
  (if hw then [("bp_miss", 11), ("l1i_ref", 12), ("l1i_miss", 13), ("l1i_spec_miss", 14), ("l1i_spec_miss_bad", 15),
    ("l1d_ref", 16), ("l1d_ref_r", 17), ("l1d_miss", 18), ("l1d_miss_r", 19), ("l1d_writeback", 20)] else []) ++
  [("instructions", 0), ("branches", 3)] ++
  (if hw then [("l1-icache-load-references", 12), ("l1-icache-load-misses", 13), ("l1-dcache-references", 16),
    ("l1-dcache-misses", 18), ("branch-misses", 11)] else [])
/-- main.cpp:117-127 `bp_names_map` -/
def bpNames : OMap Bp.Kind :=
  [("static", .sttc), ("bimodal", .bimodal), ("local", .local), ("global", .global), ("gselect", .gselect), ("gshare", .gshare),
   ("ideal", .ideal), ("none", .none)]
/-- main.cpp:111-115 `bp_sttc_map` -/
def sttcNames : OMap Bp.Sttc := [("at", .at), ("ant", .ant), ("btfn", .btfn)]
/-- main.cpp:129-132 `bp_pc_folds_map` -/
def foldNames : OMap Bp.Fold := [("none", .none), ("all", .all)]

/-- the options of one predictor: kind, `*_static_method`, `*_pc_bits`, `*_cnt_bits`, `*_lhist_bits`, `*_ghr_bits`, `*_fold_pc` -/
structure PredOpts where
  kind : String
  sttc : String
  pc : List Char
  cnt : List Char
  lhist : List Char
  ghr : List Char
  fold : String
/-- the predictor fields of `hw_cfg_t` for one predictor (hw_model_types.h:126-143) -/
structure PredCfg where
  kind : Bp.Kind
  sttc : Bp.Sttc
  pc : BitVec 8
  cnt : BitVec 8
  lhist : BitVec 8
  ghr : BitVec 8
  fold : Bp.Fold
/-- main.cpp:521-522, 532-545; the order in which the options are read is left out (it decides only which error comes first) -/
def predCfg (o : PredOpts) : Out PredCfg := do
  let k ← resolve bpNames o.kind
  let s ← resolve sttcNames o.sttc
  let pc ← argI8 o.pc
  let cnt ← argI8 o.cnt
  let lhist ← argI8 o.lhist
  let ghr ← argI8 o.ghr
  let f ← resolve foldNames o.fold
  pure ⟨k, s, pc, cnt, lhist, ghr, f⟩
/-- hw_model_types.h:44, the number of a static method -/
def sttcNum : Bp.Sttc → BitVec 8
  | .at => 0#8
  | .ant => 1#8
  | .btfn => 2#8
/-- bp_if.cpp:9-75, the parameters passed to each kind -/
def kindCfg (c : PredCfg) : Bp.PCfg :=
  match c.kind with
  | .sttc => ⟨0#8, sttcNum c.sttc, 0#8, 0#8, .none⟩
  | .bimodal => ⟨c.pc, c.cnt, 0#8, 0#8, c.fold⟩
  | .local => ⟨c.pc, c.cnt, c.lhist, 0#8, c.fold⟩
  | .global => ⟨0#8, c.cnt, 0#8, c.ghr, .none⟩
  | .gselect | .gshare => ⟨c.pc, c.cnt, 0#8, c.ghr, c.fold⟩
  | .ideal | .none => ⟨0#8, 0#8, 0#8, 0#8, .none⟩
/-- main.cpp:521-550, bp_if.cpp:111-163: the predictor built for the options; `cpc`, `ccnt`, `cfold`: `bp_combined_*` -/
def bpDef (o1 o2 : PredOpts) (cpc ccnt : List Char) (cfold : String) : Out Bp.Def := do
  let a ← predCfg o1
  let b ← predCfg o2
  let pc ← argI8 cpc
  let cnt ← argI8 ccnt
  let f ← resolve foldNames cfold
  pure (if b.kind ≠ .none then .comb ⟨pc, cnt, 0#8, 0#8, f⟩ (.one a.kind (kindCfg a)) (.one b.kind (kindCfg b))
    else .one a.kind (kindCfg a))
end Ama.Args
