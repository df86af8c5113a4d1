import Verif.Model.Basic
/-!
# Callstack profiler

Model of `/repo/src/profilers/profiler_perf.{h,cpp}` and of the symbol map it is built from
(`/repo/src/devices/main_memory.cpp:123-157`).  64-bit counters are natural numbers, the 16-bit event flags wrap.
Names, output files and the clock source (`DPI` builds) are left out.
-/
namespace Ama.Perf

/-- types.h:400 `symbol_map_entry_t::idx` -/
abbrev Idx := BitVec 16
/-- types.h:399-402 `symbol_map_entry_t`, with its key -/
structure Sym where
  pc : W
  idx : Idx
  deriving DecidableEq, Repr
/-- `std::map<uint32_t, symbol_map_entry_t>`: entries by increasing key -/
abbrev SymMap := List Sym

/-! ## Building the map -/

/-- what ELFIO's `get_symbol` returns, as far as it is used (main_memory.cpp:127-134) -/
structure ElfSym where
  name : String
  value : BitVec 64
  section_ : BitVec 16
/-- `symbol_map[pc] = …` on the keys: sorted insertion, an existing key stays (main_memory.cpp:142) -/
def insertKey (pc : W) : List W → List W
  | [] => [pc]
  | a :: t => if pc.ult a then pc :: a :: t else if pc == a then a :: t else a :: insertKey pc t
/-- main_memory.cpp:136-140 (negated `continue` conditions) -/
def keepSym (s : ElfSym) : Bool :=
  s.name != "" && !(s.value.ult 0x80000000#64) && s.name.toList.head? != some '$' && s.section_ != 7#16
/-- main_memory.cpp:126-144: the keys of the map -/
def symKeys : List ElfSym → List W → List W
  | [], m => m
  | s :: t, m => symKeys t (if keepSym s then insertKey (s.value.setWidth 32) m else m)
/-- main_memory.cpp:156-157: `idx++` in key order -/
def reindex : Idx → List W → SymMap
  | _, [] => []
  | i, a :: t => ⟨a, i⟩ :: reindex (i + 1#16) t
/-- main_memory.cpp:123-157; `none`: `std::runtime_error`, too many symbols (lines 148-153) -/
def symMap (l : List ElfSym) : Option SymMap :=
  if (symKeys l []).length > 65535 then none else some (reindex 1#16 (symKeys l []))

/-! ## Lookups -/

/-- `symbol_map.find(pc)` -/
def find (m : SymMap) (pc : W) : Option Sym := m.find? (·.pc == pc)
/-- the entry after `symbol_map.find(pc)` (profiler_perf.cpp:216-219) -/
def following (m : SymMap) (pc : W) : Option Sym := (m.dropWhile (·.pc != pc)).tail.head?
/-- profiler_perf.cpp:230-241 `find_symbol_in_range`: `upper_bound`, then one back -/
def inRange (m : SymMap) (pc : W) : Option Sym := (m.takeWhile (fun s => !(pc.ult s.pc))).getLast?

/-! ## Profiler -/

/-- profiler_perf.h:7-26 with types.h:409-415 `symbol_tracking_t` -/
structure St where
  active : Bool
  en : Bool
  map : SymMap
  /-- tracked events, by number (`perf_event_t`) -/
  events : List Nat
  /-- `idx_callstack`, `back()` first -/
  cs : List Idx
  /-- `idx_callstack_prev`, `back()` first -/
  prev : List Idx
  /-- `fallthrough_pc`, if `fallthrough_valid` -/
  ft : Option W
  updated : Bool
  /-- `perf_event_flags` -/
  flags : Nat → BitVec 16
  /-- `callstack_cnt` -/
  cnt : Nat → Nat
  /-- `callstack_cnt_map` -/
  saved : List (List Idx × (Nat → Nat))
  diverged : Nat

/-- profiler_perf.cpp:211-222 `set_fallthrough_symbol` -/
def St.setFallthrough (s : St) (pc : W) : St := { s with ft := (following s.map pc).map (·.pc) }
/-- profiler_perf.cpp:3-26: constructor; `none`: `std::out_of_range`, no symbol at the base address (line 19).
`active` is set by the core right after (core.cpp:41), callstacks are on unless disabled (core.cpp:30). -/
def St.init (m : SymMap) (events : List Nat) (active en : Bool) : Option St :=
  (find m 0x80000000#32).map fun b =>
    ({ active, en, map := m, events, cs := [b.idx], prev := [b.idx], ft := none, updated := false,
       flags := fun _ => 0#16, cnt := fun _ => 0, saved := [], diverged := 0 } : St).setFallthrough 0x80000000#32

/-- profiler_perf.h:52-57 `set_perf_event_flag` -/
def St.flag (s : St) (e : Nat) (set : Bool) : St :=
  { s with flags := fun i => if i = e then s.flags i + (if set then 1#16 else 0#16) else s.flags i }
/-- profiler_perf.h:38 `set_active` -/
def St.setActive (s : St) (b : Bool) : St := { s with active := b }

/-- profiler_perf.cpp:175-182: one pass of the loop -/
def St.drain (s : St) (i : Nat) : St :=
  { s with
    cnt := fun j => if j = i then s.cnt j + (s.flags j).toNat else s.cnt j
    flags := fun j => if j = i then 0#16 else s.flags j }
/-- profiler_perf.cpp:169-183 `inc_callstack_cnt` -/
def St.inc (s : St) : St :=
  if !s.active then { s with flags := fun _ => 0#16 } else s.events.foldl St.drain s
/-- `callstack_cnt_map[key]`, then `dst[i] += …` (profiler_perf.cpp:186-190): a new entry starts at 0 -/
def bump (key : List Idx) (d : Nat → Nat) : List (List Idx × (Nat → Nat)) → List (List Idx × (Nat → Nat))
  | [] => [(key, d)]
  | (k, c) :: t => if k = key then (k, fun i => c i + d i) :: t else (k, c) :: bump key d t
/-- profiler_perf.cpp:187-190: what one `save` adds for each event -/
def St.share (s : St) (i : Nat) : Nat := s.events.countP (· == i) * s.cnt i
/-- profiler_perf.cpp:185-191 `save_callstack_cnt` with `callstack_to_key` (258-261) -/
def St.save (s : St) : St := { s with saved := bump s.cs s.share s.saved }
/-- profiler_perf.cpp:202-209 `update_callstack` -/
def St.update (s : St) (pc : W) : St := { s.inc.save.setFallthrough pc with updated := true }

/-- `idx_callstack.back() = i` -/
def setTop (i : Idx) : List Idx → List Idx
  | [] => []
  | _ :: t => i :: t
/-- profiler_perf.cpp:308-311 `match_symbol` -/
def matchSym (m : SymMap) (pc : W) (i : Idx) : Bool :=
  match inRange m pc with
  | some s => s.idx == i
  | none => false
/-- profiler_perf.cpp:313-316 `match_top` -/
def St.matchTop (s : St) (pc : W) : Bool :=
  match s.cs with
  | [] => false
  | i :: _ => matchSym s.map pc i
/-- profiler_perf.cpp:224-228 `symbol_change_on_jump` -/
def St.changes (s : St) (pc : W) : Bool :=
  match s.cs, inRange s.map pc with
  | i :: _, some y => y.idx != i
  | _, _ => false

/-- profiler_perf.cpp:53-56: pop until the symbol matches -/
def popTo (m : SymMap) (pc : W) : List Idx → List Idx
  | [] => []
  | i :: t => if matchSym m pc i then i :: t else popTo m pc t
/-- profiler_perf.cpp:32-43: falling into the next symbol -/
def St.fallInto (s : St) (pc : W) : St :=
  if s.ft = some pc ∧ s.updated = false then
    match find s.map pc with
    | some y => let s := s.update pc; { s with cs := setTop y.idx s.cs }
    | none => { s with ft := none }
  else s
/-- profiler_perf.cpp:45-76: repair of a diverged callstack -/
def St.repair (s : St) (pc : W) : St :=
  if s.matchTop pc then s
  else
    let s := { s with diverged := s.diverged + 1 }
    match popTo s.map pc s.cs with
    | i :: t => { s with cs := i :: t }
    | [] =>
      match inRange s.map pc with
      | some y => { s with cs := if s.cs = [] then [y.idx] else setTop y.idx s.cs }
      | none => s
/-- profiler_perf.cpp:78-88 -/
def St.close (s : St) : St :=
  let s := if s.updated then { s with cnt := fun _ => 0 } else s.inc
  { s with updated := false, prev := s.cs }
/-- profiler_perf.cpp:28-89 `finish_inst` -/
def St.finishInst (s : St) (pc : W) : St :=
  if !s.en then s else ((s.fallInto pc).repair pc).close
/-- profiler_perf.cpp:84-88: the value `finish_inst` returns -/
def St.finishLogs (s : St) (pc : W) : Bool := s.en && (((s.fallInto pc).repair pc).cs != s.prev)

/-- profiler_perf.cpp:91-103 `update_branch` -/
def St.branch (s : St) (pc : W) (taken : Bool) : St :=
  if !s.en then s
  else if !taken then s
  else
    match inRange s.map pc, s.cs with
    | some y, i :: _ => if y.idx != i then let s := s.update y.pc; { s with cs := setTop y.idx s.cs } else s
    | _, _ => s
/-- profiler_perf.cpp:127-138 and 151-162: a tail or noreturn call replaces the top frame -/
def St.replaceTop (s : St) (i : Idx) : St :=
  match s.cs with
  | _ :: b :: t => { s with cs := i :: b :: t }
  | [] => { s with cs := [i] }
  | [_] => { s with cs := [i] }
/-- profiler_perf.cpp:115: a return pops a frame, but not the last one -/
def St.popFrame (s : St) : St :=
  match s.cs with
  | _ :: b :: t => { s with cs := b :: t }
  | _ => s
/-- profiler_perf.cpp:105-143 `update_jalr` -/
def St.jalr (s : St) (pc : W) (ret tail : Bool) (ra : W) : St :=
  if !s.en then s
  else if ret && s.changes pc then
    let s := (s.update pc).popFrame
    match find s.map pc with
    | some y => { s with cs := if s.cs = [] then [y.idx] else setTop y.idx s.cs }
    | none => s
  else
    match find s.map pc with
    | some y =>
      let s := s.update pc
      if tail || (find s.map ra).isSome then s.replaceTop y.idx else { s with cs := y.idx :: s.cs }
    | none => s
/-- profiler_perf.cpp:145-167 `update_jal` -/
def St.jal (s : St) (pc : W) (tail : Bool) (ra : W) : St :=
  if !s.en then s
  else
    match find s.map pc with
    | some y =>
      let s := s.update pc
      if tail || (find s.map ra).isSome then s.replaceTop y.idx else { s with cs := y.idx :: s.cs }
    | none => s
/-- profiler_perf.cpp:263-289 `log_to_file_and_print`: the last callstack is closed; the folded output is `saved` -/
def St.finish (s : St) : St := if !s.en then s else s.save
/-- profiler_perf.cpp:271-288: the total reported for one event -/
def St.total (s : St) (e : Nat) : Nat := (s.saved.map fun p => p.2 e).sum
/-- profiler_perf.cpp:280-286: the samples of one callstack (`back()` first) -/
def St.folded (s : St) (key : List Idx) (e : Nat) : Nat :=
  match s.saved.find? (·.1 == key) with
  | some p => p.2 e
  | none => 0

/-- the calls of the public interface -/
inductive Op where
  | flag (e : Nat) (set : Bool)
  | active (b : Bool)
  | branch (pc : W) (taken : Bool)
  | jalr (pc : W) (ret tail : Bool) (ra : W)
  | jal (pc : W) (tail : Bool) (ra : W)
  | finishInst (pc : W)
/-- one call -/
def St.op (s : St) : Op → St
  | .flag e b => s.flag e b
  | .active b => s.setActive b
  | .branch pc t => s.branch pc t
  | .jalr pc r t ra => s.jalr pc r t ra
  | .jal pc t ra => s.jal pc t ra
  | .finishInst pc => s.finishInst pc
/-- a sequence of calls -/
def St.ops (s : St) (l : List Op) : St := l.foldl St.op s

end Ama.Perf
