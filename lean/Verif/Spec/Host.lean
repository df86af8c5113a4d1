import Verif.Spec.Encode
import Verif.Spec.Simd
import Verif.Spec.Mem
import Verif.Model.State
/-!
# Instructions that may make the simulator execute undefined C++

Written from the encodings; `w` is the word being executed, `pc` its address and `rf` the
register file before it.
-/
namespace Ama.Spec
variable {σ : Type}

/-- a four-byte read at this address runs past the end of the 128 KiB of main memory (the
simulator reduces instruction addresses modulo that size) -/
def pastEnd (a : W) : Prop := 131072 < a.toNat % 131072 + 4

/-- where the simulator may leave the C++ standard -/
inductive Hazard (E : Env σ) (pc : W) (rf : BitVec 5 → W) (w : W) : Prop
  /-- a SIMD instruction with a register-pair destination whose rd is x31: writes `rf[32]` -/
  | pairX31 {y : X2} {m : W} {rs1 rs2 : BitVec 5} : E.cfg.simd = true → y.match? = some m →
      w = xWord m 31#5 rs1 rs2 → Hazard E pc rf w
  /-- SLLI two bytes before the last word of memory: the fusion profiler looks at the next word -/
  | slliPeek {imm : BitVec 12} {rs1 rd : BitVec 5} : E.cfg.profilers = true → imm.getLsbD 10 = false →
      w = encI imm rs1 1#3 rd 0x13#7 → pastEnd (pc + 4#32) → Hazard E pc rf w
  /-- the same for C.SLLI as the last halfword but one -/
  | cSlliPeek {imm : BitVec 6} {rd : BitVec 5} : E.cfg.rv32c = true → E.cfg.profilers = true →
      w &&& 0xffff#32 = encCI 0#3 imm rd 2#2 → pastEnd (pc + 2#32) → Hazard E pc rf w
  /-- a branch whose successor or predicted successor is at the end of memory; after a malformed
  branch has trapped the prediction is made for the trap handler's address -/
  | branchFetch {imm : BitVec 13} {rs2 rs1 : BitVec 5} {f3 : BitVec 3} {p n a : W} :
      E.cfg.hwModels = true → imm.getLsbD 0 = false → w = encB imm rs2 rs1 f3 0x63#7 →
      (p = pc ∨ f3 = 2#3 ∨ f3 = 3#3) → (n = pc + 4#32 ∨ n = pc + imm.signExtend 32) →
      (E.cfg.rv32c = true ∨ n.toNat % 4 = 0) →
      (a = n ∨ E.cfg.noBp = false ∧ ∃ h, a = (E.hw.bpPredict p (imm.signExtend 32) f3 (E.hw.bpIdeal n h)).1) →
      pastEnd a → Hazard E pc rf w
  /-- no predictor configured and the branch goes where the absent predictor "predicts": the
  speculative fetch buffer is read without having been written -/
  | branchUninit {imm : BitVec 13} {rs2 rs1 : BitVec 5} {f3 : BitVec 3} {p n : W} {h : σ} :
      E.cfg.hwModels = true → E.cfg.noBp = true → imm.getLsbD 0 = false →
      w = encB imm rs2 rs1 f3 0x63#7 →
      (p = pc ∨ f3 = 2#3 ∨ f3 = 3#3) → (n = pc + 4#32 ∨ n = pc + imm.signExtend 32) →
      (E.cfg.rv32c = true ∨ n.toNat % 4 = 0) →
      n = (E.hw.bpPredict p (imm.signExtend 32) f3 (E.hw.bpIdeal n h)).1 → Hazard E pc rf w
  /-- SLL, SRL, SRA by 32 or more -/
  | shiftReg {f7 : BitVec 7} {f3 : BitVec 3} {rd rs1 rs2 : BitVec 5} : E.cfg.strict = true →
      w = encR f7 rs2 rs1 f3 rd 0x33#7 → (f7, f3) ∈ [(0x00#7, 1#3), (0x00#7, 5#3), (0x20#7, 5#3)] →
      32 ≤ (rf rs2).toNat → Hazard E pc rf w
  /-- MUL with a product outside `int32_t` -/
  | mulReg {rd rs1 rs2 : BitVec 5} : E.cfg.strict = true → w = encR 1#7 rs2 rs1 0#3 rd 0x33#7 →
      ¬ (-2 ^ 31 ≤ (rf rs1).toInt * (rf rs2).toInt ∧ (rf rs1).toInt * (rf rs2).toInt < 2 ^ 31) →
      Hazard E pc rf w
  /-- SLLI, SRLI, SRAI whose whole 12-bit immediate is 32 or more; every SRAI is one -/
  | shiftImm {imm : BitVec 12} {rs1 rd : BitVec 5} {f3 : BitVec 3} : E.cfg.strict = true →
      w = encI imm rs1 f3 rd 0x13#7 → (f3 = 1#3 ∧ imm.getLsbD 10 = false ∨ f3 = 5#3) → 32 ≤ imm.toNat → Hazard E pc rf w
  /-- C.SRLI, C.SRAI with the sixth immediate bit set (reserved on RV32) -/
  | cShift {f2 : BitVec 2} {imm : BitVec 6} {rd : BitVec 3} : E.cfg.strict = true → E.cfg.rv32c = true →
      w &&& 0xffff#32 = encCBA f2 imm rd → (f2 = 0#2 ∨ f2 = 1#2) → 32 ≤ imm.toNat → Hazard E pc rf w
  /-- C.SLLI with the sixth immediate bit set (reserved on RV32) -/
  | cSlli {imm : BitVec 6} {rd : BitVec 5} : E.cfg.strict = true → E.cfg.rv32c = true →
      w &&& 0xffff#32 = encCI 0#3 imm rd 2#2 → 32 ≤ imm.toNat → Hazard E pc rf w
  /-- MULH16U, DOT16, DOT16U: `int32_t` products and sums -/
  | simd1 {x : X1} {m : W} {rd rs1 rs2 : BitVec 5} : E.cfg.strict = true → E.cfg.simd = true →
      x.match? = some m → w = xWord m rd rs1 rs2 →
      x = .mulh 16 false ∨ x = .dot 16 true ∨ x = .dot 16 false → Hazard E pc rf w
  /-- WMUL16U, the signed WIDEN instructions and WIDEN16U: `int32_t` products and left shifts -/
  | simd2 {y : X2} {m : W} {rd rs1 rs2 : BitVec 5} : E.cfg.strict = true → E.cfg.simd = true →
      y.match? = some m → w = xWord m rd rs1 rs2 →
      y = .wmul 16 false ∨ (∃ n, y = .widen n true) ∨ y = .widen 16 false → Hazard E pc rf w

/-- the word a step executes: what the preceding branch fetched for it, else the word in main
memory at pc -/
def fetched (E : Env σ) (s : St σ) : W :=
  if E.cfg.hwModels = true ∧ s.lastInstBranch = true then s.instResolved
  else BitVec.ofNat 32 (le s.ram.bytes (BitVec.ofNat 32 (s.pc.toNat % 131072)) 4)

/-- where a step may leave the C++ standard: it fetches past the end of memory, or it executes one
of the instructions above -/
def StepHazard (E : Env σ) (s : St σ) : Prop := pastEnd s.pc ∨ Hazard E s.pc s.rf (fetched E s)

end Ama.Spec
