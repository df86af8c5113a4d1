import Verif.Model.Dasm
import Verif.Model.Finish
/-!
# The report at the end of a run

The text of `core::print_state` and `core::dump`, on the streams of `Model/Dasm`.
-/
namespace Ama.Report
open Dasm M
variable {σ : Type}

/-- `std::map`: by increasing key -/
def insertAddr (a : BitVec 16 × List Char) : List (BitVec 16 × List Char) → List (BitVec 16 × List Char)
  | [] => [a]
  | b :: t => if a.1.ult b.1 then a :: b :: t else b :: insertAddr a t
/-- core.h:428 `csr`, filled by core.cpp:79-84 -/
def csrOrder : List (BitVec 16 × List Char) := csrNames.foldr insertAddr []

/-- defines.h:745 `INDENT_3X` -/
def indent3 : List P := [lit "    ", lit "    ", lit "    "]
/-- core.cpp:1242 -/
def pcP (r : Rec) : List P := indent3 ++ [lit "PC: "] ++ memAddr r.pc ++ [lit "\n"]
/-- core.cpp:1243-1249: row `i` of registers -/
def rowP (r : Rec) (i : Nat) : List P :=
  indent3 ++ (List.range 4).flatMap (fun j => frf r (BitVec.ofNat 5 (4 * i + j)) ++ [lit "   "]) ++ [lit "\n"]
/-- core.cpp:1250-1254: one CSR -/
def csrP (r : Rec) (a : BitVec 16) : List P := indent3 ++ csrf r a ++ [lit "\n"]
/-- core.cpp:1240-1257 `print_state`; of the record it uses the naming mode, `pc`, the registers and the CSRs -/
def printState (r : Rec) (dumpCsr : Bool) : List Char :=
  (run (pcP r ++ (List.range 8).flatMap (rowP r) ++ (if dumpCsr then csrOrder.flatMap (fun a => csrP r a.1) else [])) DS.init).text

/-- `<< uint64_t` -/
def u64 (v : BitVec 64) : P := fun d => str (Nat.toDigits (if d.hex then 16 else 10) v.toNat) d

/-- what `dump` depends on besides the state: `cfg.uart_show` (in builds with `UART_EN`), `cfg.show_state`, `rf_names_idx` -/
structure Show where
  uart : Bool
  state : Bool
  abi : Bool

/-- core.cpp:1205-1218: the result -/
def resultP (p : Finish.Report) : List P :=
  if p.early then [lit "Early exit on profiler stop, TOHOST invalid\n"]
  else match p.failed with
    | none => []
    | some (n, trap) => [lit "Failed test ID: ", u32 n, lit " (0x", hex, u32 n, dec, lit ")", lit (if trap then " (trap)" else " (exit)"), lit "\n"]
/-- core.cpp:1219-1224: the counters -/
def countersP (prof : Bool) (p : Finish.Report) : List P :=
  [dec, lit "Instruction Counters: executed: ", u64 p.insts] ++ (if prof then [lit ", profiled: ", u64 p.profiled] else []) ++ [lit "\n"]
/-- core.cpp:1225-1226: the state, or only `tohost` -/
def stateP (showState : Bool) (r : Rec) : List P :=
  if showState then [str (printState r true), lit "\n"] else lit "    " :: csrf r A.tohost ++ [lit "\n"]
/-- core.cpp:1199-1226 `dump`: the chain of `<<` -/
def dumpP (prof : Bool) (c : Show) (p : Finish.Report) (r : Rec) : List P :=
  (if c.uart then [lit "\n=== UART END ===\n"] else []) ++ [lit "SIMULATION FINISHED\n\n"] ++ resultP p ++ countersP prof p
    ++ stateP c.state r
/-- core.cpp:1199-1226 `dump`, on `std::cout` in the state `d` -/
def dump (E : Env σ) (c : Show) (d : DS) : M σ DS := do
  let p ← Finish.report E
  let s ← get id
  pure (run (dumpP E.cfg.profilers c p ⟨c.abi, s.inst, s.pc, s.rf, s.rf, s.csr, s.trapped, []⟩) d)

/-- core.cpp:1228-1237: `sim.check` (builds with `CHECK_LOG`), on a fresh stream -/
def check (p : Finish.Report) : List Char :=
  (run ([dec, u64 p.insts, lit "\n"] ++ (List.range 32).flatMap (fun i => fhexz (p.rf (BitVec.ofNat 5 i)) 8 ++ [lit "\n"])
    ++ [lit "0x"] ++ memAddr p.pc ++ [lit "\n"] ++ fhexz p.tohost 8 ++ [lit "\n"]) DS.init).text
end Ama.Report
