import Verif.Model.Prof
/-!
# The register file profiler

Model of `/repo/src/profilers/profiler_rf.{h,cpp}` and of the calls the core makes (`PROF_RD`, `PROF_RS1`, ... of
`defines.h`).  In the code these calls directly follow the call of the instruction profiler (`PROF_G`, `PROF_J`,
`PROF_B_T`, `PROF_B_NT`) of the same instruction, so they are a function of its record.

Simplified: the counters are natural numbers; the two flags that tell whether a result is zero are not modelled for the
destination x0, where the result is not visible in the state; writing the files (`finish`) is in `Model/ProfBin`.
-/
namespace Ama.ProfRf
open Prof
variable {σ : Type}

/-- profiler.h:119 `reg_use_t` -/
inductive Use where
  | rd | rdp | rs1 | rs2 | rs3
  deriving DecidableEq, Repr

/-- a register index, `uint8_t` -/
abbrev Reg := Nat
/-- defines.h:572-574 `PROF_RD` -/
def prd (w : W) : Use × Reg := (.rd, (IP.rd w).toNat)
/-- defines.h:576-577 `PROF_RDP` -/
def prdp (w : W) : Use × Reg := (.rdp, (IP.rd w).toNat + 1)
/-- defines.h:579-581 `PROF_RS1` -/
def prs1 (w : W) : Use × Reg := (.rs1, (IP.rs1 w).toNat)
/-- defines.h:583-585 `PROF_RS2` -/
def prs2 (w : W) : Use × Reg := (.rs2, (IP.rs2 w).toNat)
/-- defines.h:625-626 `PROF_RS3` -/
def prs3 (w : W) : Use × Reg := (.rs3, (IP.rd w).toNat)

/-- the calls of a custom instruction: the `CASE_*_CUSTOM_*` macros, defines.h:220-381 -/
def simdUses (w : W) : Simd.Op → List (Use × Reg)
  | .addSub .. | .mul .. | .minMax .. | .shift .. | .narrow .. => [prd w, prs1 w, prs2 w]
  | .wmul .. | .txp .. => [prd w, prdp w, prs1 w, prs2 w]
  | .dot .. => [prd w, prs1 w, prs2 w, prs3 w]
  | .widen .. => [prd w, prdp w, prs1 w]
  | .dup .. | .vins .. | .vext .. | .scp .. => [prd w, prs1 w]

/-- the calls of a compressed instruction, core_exec_c.cpp:7-500, with the `PROF_C_*` macros of defines.h:593-623 -/
def compUses (w : W) : COp → List (Use × Reg)
  | .addi | .slli => [prd w, (.rs1, (IP.rd w).toNat)]
  | .li | .lui => [prd w]
  | .nop | .ebreak | .j => []
  | .addi16sp => [(.rd, 2), (.rs1, 2)]
  | .srli | .srai | .andi => [(.rd, (IP.cRegh w).toNat), (.rs1, (IP.cRegh w).toNat)]
  | .and | .or | .xor | .sub =>
    [(.rd, (IP.cRegh w).toNat), (.rs1, (IP.cRegh w).toNat), (.rs2, (IP.cRegl w).toNat)]
  | .addi4spn => [(.rd, (IP.cRegl w).toNat), (.rs1, 2)]
  | .mv => [prd w, (.rs2, (IP.cRs2 w).toNat)]
  | .add => [prd w, (.rs1, (IP.rd w).toNat), (.rs2, (IP.cRs2 w).toNat)]
  | .lw => [(.rd, (IP.cRegl w).toNat), (.rs1, (IP.cRegh w).toNat)]
  | .lwsp => [prd w, (.rs1, 2)]
  | .sw => [(.rs1, (IP.cRegh w).toNat), (.rs2, (IP.cRegl w).toNat)]
  | .swsp => [(.rs1, 2), (.rs2, (IP.cRs2 w).toNat)]
  | .jal => [(.rd, 1)]
  | .jr => [(.rs1, (IP.rd w).toNat)]
  | .jalr => [(.rd, 1), (.rs1, (IP.rd w).toNat)]

/-- the register calls that follow a call of the instruction profiler: defines.h:110-216 (ALU, loads, stores, branches),
375-394 (cache hints, CSRs), core.cpp:681-682, 708-709, 729-730, 741-742 (jumps, upper immediates), core_exec_c.cpp:367-409
(compressed branches); `mret`, `wfi` and fences make none -/
def usesOf (r : ProfRec) : List (Use × Reg) :=
  let w := r.inst
  match r.ev with
  | .alu _ => [prd w, prs1 w, prs2 w]
  | .alui _ | .load _ | .jalr => [prd w, prs1 w]
  | .store _ | .branch .. => [prs1 w, prs2 w]
  | .jal | .lui | .auipc => [prd w]
  | .mret | .wfi | .fenceI | .fence => []
  | .csr .rw | .csr .rs | .csr .rc => [prd w, prs1 w]
  | .csr .rwi | .csr .rsi | .csr .rci => [prd w]
  | .simd op => simdUses w op
  | .c op => compUses w op
  | .cBeqz _ | .cBnez _ => [(.rs1, (IP.cRegh w).toNat)]

/-- profiler_rf.h:52-53 `prof_rf_usage` -/
abbrev Usage := Reg → Use → Nat
/-- profiler_rf.cpp:11-13 `log_reg_use`, in an active profiler; a register index above 31 is out of bounds -/
def logUse (u : Usage) (x : Use × Reg) : Res Usage :=
  if x.2 < 32 then .ok fun r k => if r = x.2 ∧ k = x.1 then u r k + 1 else u r k else .ub .outOfBounds
/-- a sequence of calls -/
def logUses (u : Usage) : List (Use × Reg) → Res Usage
  | [] => .ok u
  | x :: t => do let u ← logUse u x; logUses u t
/-- the table after a recorded history (newest first), with `rf_usage` on: profiler_rf.cpp:11-13 ignores the calls of an
inactive profiler -/
def usageOf : List ProfRec → Res Usage
  | [] => .ok fun _ _ => 0
  | r :: t => do let u ← usageOf t; if r.active then logUses u (usesOf r) else pure u

/-- profiler_rf.h:11-31 `rf_trace_entry`; `none` for `OPC_NONE` and `REG_NONE`.  The flags `rd_val_zero` and
`rdp_val_zero`: `none` where they are not modelled (destination x0). -/
structure TE where
  opcG : Option OpG
  opcB : Option OpB
  rd : Option Reg
  rs1 : Option Reg
  rs2 : Option Reg
  rdZero : Option Bool
  rdpZero : Option Bool
  deriving DecidableEq
/-- profiler_rf.h:22-30 `rst` -/
def TE.rst : TE := ⟨none, none, none, none, none, some false, some false⟩

/-- does the instruction set `rd_val_zero` (`PROF_RD_ZERO`, defines.h:110-381, core_exec_c.cpp)?  `lui`, `auipc`, jumps,
CSR instructions, cache hints and `c.lui` do not. -/
def setsZero : ProfEv → Bool
  | .alu _ | .alui _ | .load _ => true
  | .simd (.scp _) => false
  | .simd _ => true
  | .c op => match op with
    | .addi | .li | .addi16sp | .srli | .srai | .andi | .and | .or | .xor | .sub | .addi4spn | .slli | .mv | .add
    | .lw | .lwsp => true
    | _ => false
  | _ => false
/-- the register of the last call with the given use, or what was there before -/
def reg (k : Use) (l : List (Use × Reg)) (old : Option Reg) : Option Reg :=
  match l.find? fun x => x.1 == k with
  | some x => some x.2
  | none => old
/-- value of a register -/
def rfAt (rf : BitVec 5 → W) (r : Reg) : W := rf (BitVec.ofNat 5 r)
/-- the assignments to `prof_rf.te` by one instruction, defines.h:553-626; `rf1`: registers after the instruction -/
def TE.put (te : TE) (r : ProfRec) (rf1 : BitVec 5 → W) : TE :=
  let l := usesOf r
  { opcG := match callOf r with | some (.g o) => some o | _ => te.opcG
    opcB := match callOf r with | some (.b o _ _) => some o | _ => te.opcB
    rd := reg .rd l te.rd
    rs1 := reg .rs1 l te.rs1
    rs2 := reg .rs2 l te.rs2
    rdZero := if setsZero r.ev then
        match reg .rd l none with
        | some 0 => none
        | some x => some (rfAt rf1 x == 0#32)
        | none => te.rdZero
      else te.rdZero
    rdpZero := match reg .rdp l none with
        | some 1 => none
        | some x => some (rfAt rf1 x == 0#32)
        | none => te.rdpZero }

/-- `te` and `trace` of the profiler, newest entry first -/
structure Tr where
  te : TE
  trace : List TE

/-- does `single_step` call `prof_state` before executing (core.cpp:127-137)?  Then profiler_rf.h:46 resets `te`. -/
def windowRst (E : Env σ) (s : St σ) : Bool :=
  E.cfg.profilers && ((s.profPc.shouldStartPc s.pc).1 || (s.profPc.shouldStartPc s.pc).2.shouldStop s.pc)
/-- does the instruction of this record call `prof_state` (core_exec_i_arith.cpp:28-40)? -/
def hintRst (r : ProfRec) : Bool := r.inst == 0x01002013#32 || r.inst == 0x01102013#32
/-- the trace after a step of the core from `s` to `s'`, with `prof_trace` on: the reset by `prof_state`, the calls of the
instruction executed (if any), and `save_trace_entry` (core.cpp:435-455, profiler_rf.cpp:5-9) if it retired -/
def Tr.after (E : Env σ) (t : Tr) (s s' : St σ) : Tr :=
  let te0 := if windowRst E s then TE.rst else t.te
  let te1 := if s'.profLog.length = s.profLog.length then te0
    else match s'.profLog with
      | [] => te0
      | r :: _ => (if hintRst r then TE.rst else te0).put r s'.rf
  if s'.simInst = s.simInst then { t with te := te1 }
  else if s'.profActive then ⟨TE.rst, te1 :: t.trace⟩ else { t with te := te1 }
/-- core.cpp:95 `prof_rf.set_active(false)` before the first step -/
def Tr.init : Tr := ⟨TE.rst, []⟩
/-- the trace of a run of up to `n` steps -/
def Tr.runN (E : Env σ) : Nat → Tr → St σ → Res (Tr × St σ)
  | 0, t, s => .ok (t, s)
  | n + 1, t, s =>
    if s.running then
      match step E s with
      | .ok (_, s') => Tr.runN E n (t.after E s s') s'
      | .ub k => .ub k
      | .abort => .abort
    else .ok (t, s)
end Ama.ProfRf
