import Verif.Model.ProfTrace
import Verif.Model.ProfRf
/-!
# The binary profiles: `trace.bin`, `rf_trace.bin`, `rf_usage.bin`

Model of the file part of `profiler::log_to_file_and_print` for the trace (profiler.cpp:338-343) and of `profiler_rf::finish`
(profiler_rf.cpp:15-31): the memory of the entries as bytes, on a little-endian machine with the usual alignment (the layout of
`trace_entry` is the compiler's; that of `rf_trace_entry` is asserted, profiler_rf.h:32).
-/
namespace Ama.ProfBin

abbrev Byte := BitVec 8
/-- the bytes of a little-endian number of `k` bytes -/
def le : (k : Nat) → Nat → List Byte
  | 0, _ => []
  | k + 1, n => BitVec.ofNat 8 n :: le k (n / 256)

/-- types.h:378-382 `dmem_size_t`, values -/
def dsizeCode : ProfTrace.DSize → Nat
  | .lb => 0 | .lh => 1 | .lw => 2 | .sb => 4 | .sh => 5 | .sw => 6 | .noAccess => 8
/-- what the model of the trace leaves out of an entry: the status of the hardware models (hw_model_types.h:6 `hw_status_t`), and the
bytes that pad it to a multiple of 8, whose values C++ leaves open -/
structure Extra where
  ic : Byte
  dc : Byte
  bp : Byte
  pad : BitVec 48
/-- profiler.h:147-162 `trace_entry` as laid out in memory -/
def teBytes (x : Extra) (e : ProfTrace.TE) : List Byte :=
  le 8 e.sampleCnt.toNat ++ le 4 e.inst.toNat ++ le 4 e.pc.toNat ++ le 4 e.nextPc.toNat ++ le 4 e.dmem.toNat ++ le 4 e.sp.toNat ++
  le 1 e.taken.toNat ++ le 1 e.instSize ++ le 1 (dsizeCode e.dmemSize) ++ [x.ic] ++ [x.dc] ++ [x.bp] ++ le 6 x.pad.toNat
/-- profiler.cpp:338-343: the entries in the order they were added; `p.trace` is newest first -/
def traceFile (x : Nat → Extra) (p : ProfTrace.Prf) : List Byte :=
  (p.trace.reverse.zipIdx.map fun e => teBytes (x e.2) e.1).flatten

/-- the value of an enumerator of `opc_g` (profiler.h:25-107): its position -/
def codeG (o : Prof.OpG) : Nat := Prof.allG.idxOf o
/-- the value of an enumerator of `opc_b` (profiler.h:110-117): its position -/
def codeB (o : Prof.OpB) : Nat := Prof.allB.idxOf o
/-- profiler_rf.h:11-20 `rf_trace_entry`; `z`: the flags where they are not modelled -/
def rfBytes (z : Bool × Bool) (e : ProfRf.TE) : List Byte :=
  [BitVec.ofNat 8 ((e.opcG.map codeG).getD 0xFF), BitVec.ofNat 8 ((e.opcB.map codeB).getD 0xFF),
    BitVec.ofNat 8 (e.rd.getD 0xFF), BitVec.ofNat 8 (e.rs1.getD 0xFF), BitVec.ofNat 8 (e.rs2.getD 0xFF),
    BitVec.ofNat 8 (e.rdZero.getD z.1).toNat, BitVec.ofNat 8 (e.rdpZero.getD z.2).toNat]
/-- profiler_rf.cpp:16-20 -/
def rfFile (z : Nat → Bool × Bool) (t : ProfRf.Tr) : List Byte :=
  (t.trace.reverse.zipIdx.map fun e => rfBytes (z e.2) e.1).flatten

/-- profiler.h:119 `reg_use_t`, in order -/
def allUses : List ProfRf.Use := [.rd, .rdp, .rs1, .rs2, .rs3]
/-- profiler_rf.cpp:21-30: the array of arrays of 64-bit counters -/
def usageFile (u : ProfRf.Usage) : List Byte :=
  ((List.range 32).map fun r => (allUses.map fun k => le 8 (u r k)).flatten).flatten

end Ama.ProfBin
