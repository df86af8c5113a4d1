import Verif.Props.Isa
/-!
# C02, C06 - C08, C10 - C13: instruction level properties of a step
-/
namespace Ama
open M Spec
variable {σ : Type}

/-- destination and value of a computational instruction -/
def Spec.computes (i : Instr) (pc : W) (rf : BitVec 5 → W) : Option (BitVec 5 × W) :=
  match i with
  | .alu op rd rs1 rs2 => some (rd, alu op (rx rf rs1) (rx rf rs2))
  | .alui op rd rs1 imm => some (rd, iop op (rx rf rs1) (imm.signExtend 32))
  | .shift op rd rs1 sh => some (rd, shop op (rx rf rs1) sh)
  | .lui rd imm => some (rd, imm.setWidth 32 <<< 12)
  | .auipc rd imm => some (rd, pc + (imm.setWidth 32 <<< 12))
  | _ => none

/-- nothing but `pc`, the registers and the memory bytes changed, apart from the clock events
(timer, serial input and their pending bits) that precede every instruction -/
def Frame (E : Env σ) (s s' : St σ) : Prop :=
  (∀ x, x ≠ 0x344#16 → s'.csr x = s.csr x) ∧ s'.csr = (clockCore E s.core).csr ∧
  s'.clint = (clockCore E s.core).clint ∧ s'.uart = (clockCore E s.core).uart ∧
  s'.uart.log = s.uart.log ∧ s'.trapLog = s.trapLog

theorem clockCore_csr (E : Env σ) (c : Core) {x : BitVec 16} (h : x ≠ 0x344#16) :
    (clockCore E c).csr x = c.csr x := by
  have h' : x ≠ A.mip := h
  unfold clockCore
  cases E.cfg.uartIn
  · simp only [Bool.false_eq_true, if_false, upd, h']
  · simp only [if_true, upd, h', if_false]

theorem clockCore_log (E : Env σ) (c : Core) : (clockCore E c).uart.log = c.uart.log := by
  have := (rxSt_frame E c.simStep c.uart).1
  unfold clockCore
  cases E.cfg.uartIn
  · simp only [Bool.false_eq_true, if_false]
  · simp only [if_true]; exact this

theorem startCore_clock {E : Env σ} {s : St σ} {w : W} (h : w ≠ wfiWord) :
    startCore E s w = { clockCore E s.core with trapped := false, inst := w } := by
  unfold startCore; rw [if_neg h]

theorem mem_bytes {r r' : Dev} (h : (fun a => r.bytes (a - memBase)) = fun a => r'.bytes (a - memBase)) :
    r.bytes = r'.bytes := by
  funext x
  have := congrFun h (x + memBase)
  simp only [BitVec.add_sub_cancel] at this
  exact this

theorem opcode_ne {w : W} {op : BitVec 7} (h : IP.opcode w = op) (h2 : op ≠ 0x73#7) : w ≠ wfiWord := by
  intro he; subst he; exact h2 (h.symm.trans (by decide))

theorem enc_opcode (i : Instr) : IP.opcode (encode i) = match i with
    | .alu .. => 0x33#7 | .alui .. | .shift .. => 0x13#7 | .lui .. => 0x37#7 | .auipc .. => 0x17#7
    | .load .. => 0x03#7 | .store .. => 0x23#7 | .branch .. => 0x63#7 | .jal .. => 0x6f#7 | .jalr .. => 0x67#7
    | .ecall | .ebreak | .mret | .wfi => 0x73#7 | .fence .. | .fencei => 0x0f#7 := by
  cases i with
  | alu op rd rs1 rs2 => exact (decode_R _ _ _ _ _ _).1
  | alui op rd rs1 imm => exact (decode_I _ _ _ _ _).1
  | shift op rd rs1 sh => exact (decode_R _ _ _ _ _ _).1
  | lui rd imm => exact (decode_U _ _ _).1
  | auipc rd imm => exact (decode_U _ _ _).1
  | load op rd rs1 imm => exact (decode_I _ _ _ _ _).1
  | store op rs2 rs1 imm => exact (decode_S _ _ _ _ _).1
  | branch op rs1 rs2 off => exact (decode_B _ (dbl_even off) _ _ _ _).1
  | jal rd off => exact (decode_J _ (dbl_even off) _ _).1
  | jalr rd rs1 imm => exact (decode_I _ _ _ _ _).1
  | fence imm rs1 rd => exact (decode_I _ _ _ _ _).1
  | _ => decide

theorem enc_ne_wfi {i : Instr} (h : i ≠ .wfi) : encode i ≠ wfiWord := by
  have := enc_opcode i
  cases i with
  | wfi => exact absurd rfl h
  | ecall => decide
  | ebreak => decide
  | mret => decide
  | _ => dsimp only at this; exact opcode_ne this (by decide)

section
variable {E : Env σ} {s : St σ}

/-- what "the instruction completed" gives -/
theorem retired {i : Instr} {a : Arch} (hw : i ≠ .wfi)
    (h : Meets E s (startCore E s (encode i)) i (.retire a)) :
    ∃ s', step E s = .ok ((), s') ∧ s'.pc = a.pc ∧ s'.rf = a.rf ∧ s'.csr = a.csr ∧
      (fun x => s'.ram.bytes (x - memBase)) = a.mem ∧
      s'.simInst = s.simInst + 1#64 ∧ s'.clint = (clockCore E s.core).clint ∧
      s'.uart = (clockCore E s.core).uart ∧ s'.trapLog = s.trapLog := by
  obtain ⟨s', h1, h2, h3, h4, h5, ⟨h6, h7, h8, h9, h10, h11⟩, h12⟩ := h
  rw [startCore_clock (enc_ne_wfi hw)] at h6 h7
  exact ⟨s', h1, congrArg Arch.pc h2, congrArg Arch.rf h2, congrArg Arch.csr h2, congrArg Arch.mem h2,
    h4, h7, h6, h12⟩

theorem start_arch {i : Instr} (hw : i ≠ .wfi) : archOf (startCore E s (encode i)) =
    { pc := s.pc, rf := s.rf, csr := (clockCore E s.core).csr, mem := fun a => s.ram.bytes (a - memBase) } := by
  obtain ⟨g1, g2, g3, g4, -⟩ := startCore_frame (E := E) (s := s) (w := encode i)
  unfold archOf
  rw [g1, g3, g4, startCore_clock (enc_ne_wfi hw)]

theorem frame_of {s' : St σ} (h1 : s'.csr = (clockCore E s.core).csr) (h2 : s'.clint = (clockCore E s.core).clint)
    (h3 : s'.uart = (clockCore E s.core).uart) (h4 : s'.trapLog = s.trapLog) : Frame E s s' :=
  ⟨fun x hx => by rw [h1]; exact clockCore_csr E s.core hx, h1, h2, h3,
    by rw [h3]; exact clockCore_log E s.core, h4⟩

/-- **C02** (and the step level of C03, C04): a computational instruction writes its specified
value to rd, moves pc by 4 and changes nothing else. -/
theorem computational_step (hst : E.cfg.strict = false) {i : Instr} {rd : BitVec 5} {v : W}
    (hi : computes i s.pc s.rf = some (rd, v)) (h : Ready E s (encode i)) :
    ∃ s', step E s = .ok ((), s') ∧ s'.pc = s.pc + 4#32 ∧
      (∀ r, s'.rf r = if r = rd ∧ rd ≠ 0#5 then v else s.rf r) ∧
      s'.ram.bytes = s.ram.bytes ∧ s'.simInst = s.simInst + 1#64 ∧ Frame E s s' := by
  have hw : i ≠ .wfi := by intro hh; subst hh; cases hi
  have hr := step_refines hst h (by intro op rs1 rs2 off hh; subst hh; cases hi) (by intro hh; subst hh; cases hi)
  have hs := start_arch (E := E) (s := s) hw
  have key : Spec.exec (platOf E) i (archOf (startCore E s (encode i))) =
      .retire { archOf (startCore E s (encode i)) with rf := wx s.rf rd v, pc := s.pc + 4#32 } := by
    rw [hs]
    cases i <;> simp only [computes, Option.some.injEq, Prod.mk.injEq, reduceCtorEq] at hi <;>
      obtain ⟨rfl, rfl⟩ := hi <;> rfl
  rw [key] at hr
  obtain ⟨s', h1, h2, h3, h4, h5, h6, h7, h8, h9⟩ := retired hw hr
  rw [hs] at h4 h5
  exact ⟨s', h1, h2, fun r => by rw [h3]; rfl, mem_bytes h5, h6, frame_of h4 h7 h8 h9⟩

/-- **C06**, branches: continue at pc+offset iff the comparison holds, else at pc+4; registers,
memory and CSRs are unchanged. -/
theorem branch_step (hst : E.cfg.strict = false) {op : BranchOp} {rs1 rs2 : BitVec 5} {off : BitVec 12}
    (h : Ready E s (encode (.branch op rs1 rs2 off))) (hal : ialigned E.cfg.rv32c s.pc)
    (hb : BrOk E s.pc ((dbl off).signExtend 32))
    (ht : taken op (rx s.rf rs1) (rx s.rf rs2) = true →
      ialigned E.cfg.rv32c (s.pc + (dbl off).signExtend 32)) :
    ∃ s', step E s = .ok ((), s') ∧
      s'.pc = (if taken op (rx s.rf rs1) (rx s.rf rs2) then s.pc + (dbl off).signExtend 32 else s.pc + 4#32) ∧
      s'.rf = s.rf ∧ s'.ram.bytes = s.ram.bytes ∧ s'.simInst = s.simInst + 1#64 ∧ Frame E s s' := by
  have hw : Instr.branch op rs1 rs2 off ≠ .wfi := nofun
  have hr := step_refines hst h (by intro op' rs1' rs2' off' hh; cases hh; exact ⟨hal, hb⟩) nofun
  have hs := start_arch (E := E) (s := s) hw
  simp only [Spec.exec, Spec.execL, hs] at hr
  have hu : (platOf E).rv32c = E.cfg.rv32c := rfl
  rw [hu] at hr
  by_cases htk : taken op (rx s.rf rs1) (rx s.rf rs2) = true
  · rw [if_pos htk, if_pos (ht htk)] at hr
    obtain ⟨s', h1, h2, h3, h4, h5, h6, h7, h8, h9⟩ := retired hw hr
    rw [if_pos htk]
    exact ⟨s', h1, h2, h3, mem_bytes h5, h6, frame_of h4 h7 h8 h9⟩
  · rw [if_neg htk] at hr
    obtain ⟨s', h1, h2, h3, h4, h5, h6, h7, h8, h9⟩ := retired hw hr
    rw [if_neg htk]
    exact ⟨s', h1, h2, h3, mem_bytes h5, h6, frame_of h4 h7 h8 h9⟩

/-- target of a jump and its destination register -/
def Spec.jumpTarget (i : Instr) (pc : W) (rf : BitVec 5 → W) : Option (BitVec 5 × W) :=
  match i with
  | .jal rd off => some (rd, pc + (dbl off).signExtend 32)
  | .jalr rd rs1 imm => some (rd, BitVec.ofNat 32 ((rx rf rs1 + imm.signExtend 32).toNat / 2 * 2))
  | _ => none

/-- **C06**, jumps: JAL/JALR continue at the target computed from the old registers and write
pc+4 to rd. -/
theorem jump_step (hst : E.cfg.strict = false) {i : Instr} {rd : BitVec 5} {t : W}
    (hi : jumpTarget i s.pc s.rf = some (rd, t)) (h : Ready E s (encode i))
    (ht : ialigned E.cfg.rv32c t) :
    ∃ s', step E s = .ok ((), s') ∧ s'.pc = t ∧
      (∀ r, s'.rf r = if r = rd ∧ rd ≠ 0#5 then s.pc + 4#32 else s.rf r) ∧
      s'.ram.bytes = s.ram.bytes ∧ s'.simInst = s.simInst + 1#64 ∧ Frame E s s' := by
  have hw : i ≠ .wfi := by intro hh; subst hh; cases hi
  have hr := step_refines hst h (by intro op rs1 rs2 off hh; subst hh; cases hi) (by intro hh; subst hh; cases hi)
  have hs := start_arch (E := E) (s := s) hw
  have hu : (platOf E).rv32c = E.cfg.rv32c := rfl
  have key : Spec.exec (platOf E) i (archOf (startCore E s (encode i))) =
      .retire { archOf (startCore E s (encode i)) with rf := wx s.rf rd (s.pc + 4#32), pc := t } := by
    rw [hs]
    cases i <;> simp only [jumpTarget, Option.some.injEq, Prod.mk.injEq, reduceCtorEq] at hi <;>
      obtain ⟨rfl, rfl⟩ := hi <;> simp only [Spec.exec, Spec.execL, hu] <;> exact if_pos ht
  rw [key] at hr
  obtain ⟨s', h1, h2, h3, h4, h5, h6, h7, h8, h9⟩ := retired hw hr
  rw [hs] at h4 h5
  exact ⟨s', h1, h2, fun r => by rw [h3]; rfl, mem_bytes h5, h6, frame_of h4 h7 h8 h9⟩

/-- what "the instruction raised an exception" means, field by field -/
def Raises (E : Env σ) (s : St σ) (cause tval : W) : Prop :=
  ∃ s', step E s = .ok ((), s') ∧
    s'.rf = s.rf ∧ s'.ram.bytes = s.ram.bytes ∧ s'.simInst = s.simInst ∧
    s'.uart = (clockCore E s.core).uart ∧ s'.clint = (clockCore E s.core).clint ∧
    s'.pc = s.csr 0x305#16 ∧
    s'.csr 0x341#16 = s.pc ∧ s'.csr 0x342#16 = cause ∧ s'.csr 0x343#16 = tval ∧
    (∀ k, (s'.csr 0x300#16).getLsbD k = if k = 7 then (s.csr 0x300#16).getLsbD 3
      else if k = 3 then false else (s.csr 0x300#16).getLsbD k) ∧
    (∀ x, x ∉ [0x300#16, 0x341#16, 0x342#16, 0x343#16, 0x344#16] → s'.csr x = s.csr x) ∧
    s'.csr 0x344#16 = (clockCore E s.core).csr 0x344#16 ∧
    s'.trapLog = (cause, tval, s.pc) :: s.trapLog

theorem trapEntry_status (m : W) (k : Nat) :
    ((if m.getLsbD 3 then m ||| 0x80#32 else m &&& ~~~0x80#32) &&& ~~~8#32).getLsbD k =
      if k = 7 then m.getLsbD 3 else if k = 3 then false else m.getLsbD k := by
  by_cases hk : k < 32
  · have h0 : (0x80#32).getLsbD k = decide (k = 7) := by revert k; decide
    have h8 : (8#32).getLsbD k = decide (k = 3) := by revert k; decide
    rw [BitVec.getLsbD_and, BitVec.getLsbD_not, h8]
    by_cases h3 : k = 3
    · simp [h3]
    · by_cases h7 : k = 7
      · subst h7
        cases m.getLsbD 3 <;> simp
      · simp only [h3, h7, if_false]
        cases m.getLsbD 3
        · simp only [Bool.false_eq_true, if_false, BitVec.getLsbD_and, BitVec.getLsbD_not, h0, h7]
          simp [hk]
        · simp only [if_true, BitVec.getLsbD_or, h0, h7]
          simp [hk]
  · have h1 : k ≠ 7 := by omega
    have h2 : k ≠ 3 := by omega
    rw [if_neg h1, if_neg h2, BitVec.getLsbD_of_ge _ _ (by omega), BitVec.getLsbD_of_ge _ _ (by omega)]

theorem mretStatus_bits (m : W) (k : Nat) : (mretStatus m).getLsbD k =
    if k = 3 then m.getLsbD 7 else if k = 7 then true else m.getLsbD k := by
  by_cases hk : k < 32
  · have h0 : (0x80#32).getLsbD k = decide (k = 7) := by revert k; decide
    have h8 : (8#32).getLsbD k = decide (k = 3) := by revert k; decide
    have h88 : (0x88#32).getLsbD k = (decide (k = 3) || decide (k = 7)) := by revert k; decide
    unfold mretStatus
    cases h7 : m.getLsbD 7
    · simp only [Bool.false_eq_true, if_false, BitVec.getLsbD_and, BitVec.getLsbD_or, BitVec.getLsbD_not, h0, h8]
      by_cases h3 : k = 3
      · simp [h3]
      · by_cases h7 : k = 7
        · simp [h7]
        · simp [h3, h7, hk]
    · simp only [if_true, BitVec.getLsbD_or, h88]
      by_cases h3 : k = 3
      · simp [h3]
      · by_cases h7 : k = 7
        · simp [h7]
        · simp [h3, h7]
  · have h1 : k ≠ 7 := by omega
    have h2 : k ≠ 3 := by omega
    rw [if_neg h2, if_neg h1, BitVec.getLsbD_of_ge _ _ (by omega), BitVec.getLsbD_of_ge _ _ (by omega)]

theorem put_bit (f : W → BitVec 8) (b v x : W) (n : Nat) : put f b v.toNat n x =
    if (x - b).toNat < n then (v >>> (8 * (x - b).toNat)).setWidth 8 else f x := by
  unfold put
  dsimp only
  generalize (x - b).toNat = k
  split
  · apply BitVec.eq_of_toNat_eq
    simp [Nat.shiftRight_eq_div_pow, Nat.pow_mul]
  · rfl

theorem raises_of {i : Instr} {cause tval : W} (hw : i ≠ .wfi)
    (h : TrapsTo E s (startCore E s (encode i)) cause tval) : Raises E s cause tval := by
  obtain ⟨s', h1, h2, h3, h4, h5, ⟨h6, h7, h8, h9, h10, h11⟩, h12⟩ := h
  rw [startCore_clock (enc_ne_wfi hw)] at h6 h7
  rw [start_arch hw] at h2
  have hp := congrArg Arch.pc h2
  have hc := fun x => congrFun (congrArg Arch.csr h2) x
  have hcs : ∀ x, x ≠ 0x344#16 → (clockCore E s.core).csr x = s.csr x := fun x hx => clockCore_csr E s.core hx
  have hr : s'.rf = s.rf := congrArg Arch.rf h2
  simp only [trapEntry] at hp hc
  refine ⟨s', h1, hr, mem_bytes (congrArg Arch.mem h2), h4, h6, h7, hp.trans (hcs _ (by decide)), hc _, hc _, hc _, ?_, ?_, ?_, h12⟩
  · intro k
    have := hc 0x300#16
    rw [show s'.csr 0x300#16 = _ from this]
    simp only [BitVec.reduceEq, if_false, if_true]
    rw [hcs _ (by decide)]
    exact trapEntry_status _ k
  · intro x hx
    simp only [List.mem_cons, List.not_mem_nil, or_false, not_or] at hx
    obtain ⟨x1, x2, x3, x4, x5⟩ := hx
    have := hc x
    simp only [x1, x2, x3, x4, if_false] at this
    exact this.trans (hcs _ x5)
  · exact hc 0x344#16

/-- **C06**, misaligned targets: a taken branch or a jump to a misaligned target raises
instruction-address-misaligned with the target as mtval and leaves the registers alone. -/
theorem misaligned_target_traps (hst : E.cfg.strict = false) {i : Instr} {t : W}
    (hi : (∃ rd, jumpTarget i s.pc s.rf = some (rd, t)) ∨
      ∃ op rs1 rs2 off, i = .branch op rs1 rs2 off ∧ taken op (rx s.rf rs1) (rx s.rf rs2) = true ∧
        t = s.pc + (dbl off).signExtend 32 ∧ ialigned E.cfg.rv32c s.pc ∧ BrOk E s.pc ((dbl off).signExtend 32))
    (h : Ready E s (encode i)) (ht : ¬ ialigned E.cfg.rv32c t) : Raises E s 0#32 t := by
  have hu : (platOf E).rv32c = E.cfg.rv32c := rfl
  rcases hi with ⟨rd, hi⟩ | ⟨op, rs1, rs2, off, rfl, htk, rfl, hal, hb⟩
  · have hw : i ≠ .wfi := by intro hh; subst hh; cases hi
    have hr := step_refines hst h (by intro op rs1 rs2 off hh; subst hh; cases hi) (by intro hh; subst hh; cases hi)
    have hs := start_arch (E := E) (s := s) hw
    have key : Spec.exec (platOf E) i (archOf (startCore E s (encode i))) = .trap 0#32 t := by
      rw [hs]
      cases i <;> simp only [jumpTarget, Option.some.injEq, Prod.mk.injEq, reduceCtorEq] at hi <;>
        obtain ⟨rfl, rfl⟩ := hi <;> simp only [Spec.exec, Spec.execL, hu] <;> exact if_neg ht
    rw [key] at hr
    exact raises_of hw hr
  · have hw : Instr.branch op rs1 rs2 off ≠ .wfi := nofun
    have hr := step_refines hst h (by intro op' rs1' rs2' off' hh; cases hh; exact ⟨hal, hb⟩) nofun
    have hs := start_arch (E := E) (s := s) hw
    simp only [Spec.exec, Spec.execL, hs, hu] at hr
    rw [if_pos htk, if_neg ht] at hr
    exact raises_of hw hr

/-- **C07**: an aligned load from readable main memory. -/
theorem load_step (hst : E.cfg.strict = false) {op : LoadOp} {rd rs1 : BitVec 5} {imm : BitVec 12} {a : W}
    (h : Ready E s (encode (.load op rd rs1 imm))) (ha : a = rx s.rf rs1 + imm.signExtend 32)
    (hram : inRam a) (hal : a.toNat % loadN op = 0)
    (hp : checkAccess (a - 0x80000000#32) true false false E.regions = true) :
    ∃ s', step E s = .ok ((), s') ∧ s'.pc = s.pc + 4#32 ∧
      (∀ r, s'.rf r = if r = rd ∧ rd ≠ 0#5
        then loadExt op (le s.ram.bytes (a - 0x80000000#32) (loadN op)) else s.rf r) ∧
      s'.ram.bytes = s.ram.bytes ∧ s'.simInst = s.simInst + 1#64 ∧ Frame E s s' := by
  have hw : Instr.load op rd rs1 imm ≠ .wfi := nofun
  have hr := step_refines hst h nofun nofun
  have hs := start_arch (E := E) (s := s) hw
  simp only [Spec.exec, Spec.execL, hs, ← ha] at hr
  rw [if_pos hram, if_neg (by simpa using hal), if_pos (by exact hp)] at hr
  obtain ⟨s', h1, h2, h3, h4, h5, h6, h7, h8, h9⟩ := retired hw hr
  refine ⟨s', h1, h2, fun r => ?_, mem_bytes h5, h6, frame_of h4 h7 h8 h9⟩
  rw [h3]
  simp only [wx, le_shift]
  rfl

/-- **C08**: an aligned store to writable main memory. -/
theorem store_step (hst : E.cfg.strict = false) {op : StoreOp} {rs2 rs1 : BitVec 5} {imm : BitVec 12} {a : W}
    (h : Ready E s (encode (.store op rs2 rs1 imm))) (ha : a = rx s.rf rs1 + imm.signExtend 32)
    (hram : inRam a) (hal : a.toNat % storeN op = 0)
    (hp : checkAccess (a - 0x80000000#32) false true false E.regions = true) :
    ∃ s', step E s = .ok ((), s') ∧ s'.pc = s.pc + 4#32 ∧ s'.rf = s.rf ∧
      (∀ x, s'.ram.bytes x =
        if (x - (a - 0x80000000#32)).toNat < storeN op
        then ((rx s.rf rs2) >>> (8 * (x - (a - 0x80000000#32)).toNat)).setWidth 8
        else s.ram.bytes x) ∧
      s'.simInst = s.simInst + 1#64 ∧ Frame E s s' := by
  have hw : Instr.store op rs2 rs1 imm ≠ .wfi := nofun
  have hr := step_refines hst h nofun nofun
  have hs := start_arch (E := E) (s := s) hw
  simp only [Spec.exec, Spec.execL, hs, ← ha] at hr
  rw [if_pos hram, if_neg (by simpa using hal), if_pos (by exact hp)] at hr
  obtain ⟨s', h1, h2, h3, h4, h5, h6, h7, h8, h9⟩ := retired hw hr
  refine ⟨s', h1, h2, h3, fun x => ?_, h6, frame_of h4 h7 h8 h9⟩
  have := congrFun (h5.trans (put_shift _ _ _ _ _)) (x + memBase)
  simp only [BitVec.add_sub_cancel] at this
  rw [this, put_bit]
  rfl

/-- **C08/C27**: accesses that fault or are misaligned raise the exception and change nothing
else; the trap value of a misaligned access is the offset into main memory (the manual asks
for the address). -/
theorem data_access_traps (hst : E.cfg.strict = false) {i : Instr} {ld : Bool} {a : W} {n : Nat}
    (hi : (∃ op rd rs1 imm, i = .load op rd rs1 imm ∧ a = rx s.rf rs1 + imm.signExtend 32 ∧ n = loadN op ∧ ld = true) ∨
      ∃ op rs2 rs1 imm, i = .store op rs2 rs1 imm ∧ a = rx s.rf rs1 + imm.signExtend 32 ∧ n = storeN op ∧ ld = false)
    (h : Ready E s (encode i)) :
    (¬ inRam a → ¬ inDev E.cfg.uart a → Raises E s (if ld then 5#32 else 7#32) a) ∧
    (inRam a → a.toNat % n ≠ 0 → Raises E s (if ld then 4#32 else 6#32) (a - 0x80000000#32)) := by
  have hu : (platOf E).uart = E.cfg.uart := rfl
  rcases hi with ⟨op, rd, rs1, imm, rfl, ha, rfl, rfl⟩ | ⟨op, rs2, rs1, imm, rfl, ha, rfl, rfl⟩
  · have hw : Instr.load op rd rs1 imm ≠ .wfi := nofun
    have hr := step_refines hst h nofun nofun
    have hs := start_arch (E := E) (s := s) hw
    simp only [Spec.exec, Spec.execL, hs, ← ha, hu] at hr
    refine ⟨fun h1 h2 => ?_, fun h1 h2 => ?_⟩
    · rw [if_neg h1, if_neg h2] at hr; exact raises_of hw hr
    · rw [if_pos h1, if_pos h2] at hr; exact raises_of hw hr
  · have hw : Instr.store op rs2 rs1 imm ≠ .wfi := nofun
    have hr := step_refines hst h nofun nofun
    have hs := start_arch (E := E) (s := s) hw
    simp only [Spec.exec, Spec.execL, hs, ← ha, hu] at hr
    refine ⟨fun h1 h2 => ?_, fun h1 h2 => ?_⟩
    · rw [if_neg h1, if_neg h2] at hr; exact raises_of hw hr
    · rw [if_pos h1, if_pos h2] at hr; exact raises_of hw hr

/-- **C29** (data side): an access without the permission makes the simulator stop with an error. -/
theorem denied_access_aborts (hst : E.cfg.strict = false) {i : Instr} {a : W}
    (hi : (∃ op rd rs1 imm, i = .load op rd rs1 imm ∧ a = rx s.rf rs1 + imm.signExtend 32 ∧
        a.toNat % loadN op = 0 ∧ checkAccess (a - 0x80000000#32) true false false E.regions = false) ∨
      ∃ op rs2 rs1 imm, i = .store op rs2 rs1 imm ∧ a = rx s.rf rs1 + imm.signExtend 32 ∧
        a.toNat % storeN op = 0 ∧ checkAccess (a - 0x80000000#32) false true false E.regions = false)
    (h : Ready E s (encode i)) (hram : inRam a) : step E s = .abort := by
  rcases hi with ⟨op, rd, rs1, imm, rfl, ha, hal, hp⟩ | ⟨op, rs2, rs1, imm, rfl, ha, hal, hp⟩
  · have hr := step_refines hst h nofun nofun
    have hs := start_arch (E := E) (s := s) (i := Instr.load op rd rs1 imm) nofun
    simp only [Spec.exec, Spec.execL, hs, ← ha] at hr
    have hp' : ¬ (platOf E).readable a = true := by intro hh; exact absurd (hh.symm.trans hp) (by decide)
    rw [if_pos hram, if_neg (by simpa using hal), if_neg hp'] at hr
    exact hr
  · have hr := step_refines hst h nofun nofun
    have hs := start_arch (E := E) (s := s) (i := Instr.store op rs2 rs1 imm) nofun
    simp only [Spec.exec, Spec.execL, hs, ← ha] at hr
    have hp' : ¬ (platOf E).writable a = true := by intro hh; exact absurd (hh.symm.trans hp) (by decide)
    rw [if_pos hram, if_neg (by simpa using hal), if_neg hp'] at hr
    exact hr

/-- ECALL and EBREAK trap with causes 11 and 3 -/
theorem env_calls_trap (hst : E.cfg.strict = false) :
    (Ready E s (encode .ecall) → Raises E s 11#32 0x00000073#32) ∧
    (Ready E s (encode .ebreak) → Raises E s 3#32 0x00100073#32) :=
  ⟨fun h => raises_of (i := .ecall) nofun (step_refines hst h nofun nofun),
    fun h => raises_of (i := .ebreak) nofun (step_refines hst h nofun nofun)⟩

/-- **C10**, for every instruction of `Spec.Instr`: either it completes, or it raises exactly one
exception with no other effect (registers, memory, devices, CSRs untouched; mepc is its own pc),
or the simulator stops with an error, or it addresses a peripheral. -/
theorem exceptions_precise_partial (hst : E.cfg.strict = false) {i : Instr} (h : Ready E s (encode i))
    (hbr : ∀ op rs1 rs2 off, i = .branch op rs1 rs2 off →
      ialigned E.cfg.rv32c s.pc ∧ BrOk E s.pc ((dbl off).signExtend 32))
    (hmr : i = .mret → ¬ ((s.csr 0x300#16).getLsbD 3 = true ∧ (s.csr 0x300#16).getLsbD 7 = false))
    (hdev : Spec.exec (platOf E) i (archOf (startCore E s (encode i))) ≠ .device)
    (s' : St σ) (hs : step E s = .ok ((), s')) :
    (s'.trapLog = s.trapLog ∧ s'.simInst = s.simInst + 1#64) ∨
    ∃ cause tval, s'.trapLog = (cause, tval, s.pc) :: s.trapLog ∧ Raises E s cause tval := by
  have hmr' : i = .mret → ¬ (((startCore E s (encode i)).csr A.mstatus).getLsbD 3 = true ∧
      ((startCore E s (encode i)).csr A.mstatus).getLsbD 7 = false) := by
    intro hi
    have e : (startCore E s (encode i)).csr A.mstatus = s.csr 0x300#16 := by
      rw [startCore_clock (enc_ne_wfi (by rw [hi]; nofun))]
      exact clockCore_csr E s.core (by decide)
    rw [e]; exact hmr hi
  have hr := step_refines hst h hbr hmr'
  have hwfi : ∀ c v, (Spec.exec (platOf E) i (archOf (startCore E s (encode i)))) = .trap c v → i ≠ .wfi := by
    intro c v h1 h2; subst h2; cases h1
  have hwfi2 : ∀ c v, (Spec.exec (platOf E) i (archOf (startCore E s (encode i)))) = .misaligned c v → i ≠ .wfi := by
    intro c v h1 h2; subst h2; cases h1
  generalize Spec.exec (platOf E) i (archOf (startCore E s (encode i))) = o at *
  cases o with
  | retire a =>
    obtain ⟨s2, h1, -, -, h4, -, -, h7⟩ := hr
    rw [hs] at h1; cases h1
    exact Or.inl ⟨h7, h4⟩
  | trap c v =>
    have := raises_of (hwfi c v rfl) hr
    have ht := this
    obtain ⟨s2, h1, -, -, -, -, -, -, -, -, -, -, -, -, h9⟩ := ht
    rw [hs] at h1; cases h1
    exact Or.inr ⟨c, v, h9, this⟩
  | misaligned c v =>
    have := raises_of (hwfi2 c v rfl) hr
    have ht := this
    obtain ⟨s2, h1, -, -, -, -, -, -, -, -, -, -, -, -, h9⟩ := ht
    rw [hs] at h1; cases h1
    exact Or.inr ⟨c, v - memBase, h9, this⟩
  | denied => exact absurd (hs.symm.trans hr) nofun
  | device => exact absurd rfl hdev

/-- **C12**, except for MIE=1 with MPIE=0 (the code then keeps MIE, see `mret_keeps_mie`):
MRET continues at mepc, MIE takes MPIE, MPIE becomes 1, nothing else changes. -/
theorem mret_step_partial (hst : E.cfg.strict = false) (h : Ready E s (encode .mret))
    (hm : ¬ ((s.csr 0x300#16).getLsbD 3 = true ∧ (s.csr 0x300#16).getLsbD 7 = false)) :
    ∃ s', step E s = .ok ((), s') ∧ s'.pc = s.csr 0x341#16 ∧ s'.rf = s.rf ∧ s'.ram.bytes = s.ram.bytes ∧
      (∀ k, (s'.csr 0x300#16).getLsbD k = if k = 3 then (s.csr 0x300#16).getLsbD 7
        else if k = 7 then true else (s.csr 0x300#16).getLsbD k) ∧
      (∀ x, x ≠ 0x300#16 → x ≠ 0x344#16 → s'.csr x = s.csr x) ∧
      s'.clint = (clockCore E s.core).clint ∧ s'.uart = (clockCore E s.core).uart ∧
      s'.simInst = s.simInst + 1#64 ∧ s'.trapLog = s.trapLog := by
  have hw : Instr.mret ≠ .wfi := nofun
  have hcs : ∀ x, x ≠ 0x344#16 → (clockCore E s.core).csr x = s.csr x := fun x hx => clockCore_csr E s.core hx
  have hs := start_arch (E := E) (s := s) hw
  have e : (startCore E s (encode .mret)).csr A.mstatus = s.csr 0x300#16 :=
    (congrFun (congrArg Arch.csr hs) A.mstatus).trans (hcs _ (by decide))
  have hr := step_refines hst h nofun (by intro _; rw [e]; exact hm)
  simp only [Spec.exec, Spec.execL, hs] at hr
  obtain ⟨s', h1, h2, h3, h4, h5, h6, h7, h8, h9⟩ := retired hw hr
  refine ⟨s', h1, h2.trans (hcs _ (by decide)), h3, mem_bytes h5, fun k => ?_, fun x hx hx' => ?_, h7, h8, h6, h9⟩
  · rw [h4]
    simp only [if_true]
    rw [hcs _ (by decide)]
    exact mretStatus_bits _ k
  · rw [h4]
    simp only [hx, if_false]
    exact hcs _ hx'

/-- **C12**, what the code does in every state: MIE' = MIE ∨ MPIE. -/
theorem mret_status_code (m : W) (k : Nat) : (mretCode m).getLsbD k =
    if k = 3 then m.getLsbD 3 || m.getLsbD 7 else if k = 7 then true else m.getLsbD k := by
  by_cases hk : k < 32
  · have h0 : (0x80#32).getLsbD k = decide (k = 7) := by revert k; decide
    have h8 : (8#32).getLsbD k = decide (k = 3) := by revert k; decide
    have h04 : (0x80#32).getLsbD (4 + k) = decide (k = 3) := by revert k; decide
    simp only [mretCode, BitVec.getLsbD_or, BitVec.getLsbD_and, BitVec.getLsbD_not, BitVec.getLsbD_ushiftRight, h0, h8, h04, hk,
      decide_true, Bool.true_and]
    by_cases h3 : k = 3
    · subst h3; rw [show 4 + 3 = 7 from rfl]; cases m.getLsbD 3 <;> cases m.getLsbD 7 <;> rfl
    · by_cases h7 : k = 7
      · subst h7; simp
      · simp [h3, h7]
  · have h1 : k ≠ 7 := by omega
    have h2 : k ≠ 3 := by omega
    rw [if_neg h2, if_neg h1, BitVec.getLsbD_of_ge _ _ (by omega), BitVec.getLsbD_of_ge _ _ (by omega)]

/-- **C13**: take a trap in `s1` (any exception of C10/C11), run any handler, and reach MRET in
`s2` with mepc and mstatus as the trap left them: execution resumes at the interrupted pc with the
interrupted MIE, and no other mstatus bit except MPIE changed over the round trip. -/
theorem trap_mret_resumes (hst : E.cfg.strict = false) {cause tval : W} {s1 s1' s2 : St σ}
    (h1 : Raises E s1 cause tval) (hs1 : step E s1 = .ok ((), s1'))
    (hepc : s2.csr 0x341#16 = s1'.csr 0x341#16) (hms : s2.csr 0x300#16 = s1'.csr 0x300#16)
    (h2 : Ready E s2 (encode .mret)) :
    ∃ s3, step E s2 = .ok ((), s3) ∧ s3.pc = s1.pc ∧ s3.rf = s2.rf ∧
      (s3.csr 0x300#16).getLsbD 3 = (s1.csr 0x300#16).getLsbD 3 ∧
      ∀ k, k ≠ 7 → (s3.csr 0x300#16).getLsbD k = (s1.csr 0x300#16).getLsbD k := by
  obtain ⟨t, e, -, -, -, -, -, -, q1, -, -, q2, -⟩ := h1
  rw [hs1] at e; cases e
  have b3 : (s2.csr 0x300#16).getLsbD 3 = false := by rw [hms, q2]; rfl
  obtain ⟨s3, g1, g2, g3, -, g5, -⟩ := mret_step_partial hst h2 (by rw [b3]; simp)
  have hk : ∀ k, k ≠ 7 → (s3.csr 0x300#16).getLsbD k = (s1.csr 0x300#16).getLsbD k := by
    intro k hk
    rw [g5, hms, q2, q2]
    by_cases h3 : k = 3
    · subst h3; rfl
    · simp only [h3, hk, if_false]
  exact ⟨s3, g1, by rw [g2, hepc, q1], g3, hk 3 (by decide), hk⟩

end


/-! ## The hypotheses are satisfiable, and what the code gets wrong -/
namespace Ex
/-- reset state about to execute the given word, with some register contents -/
def stI (w : W) : St Unit :=
  { st0 env0 [w] with rf := fun r => if r = 0#5 then 0#32 else if r = 2#5 then 0x80000101#32 else 0x80000000#32 + r.setWidth 32 <<< 8 }

syntax "ready_ex" : tactic
macro_rules
  | `(tactic| ready_ex) => `(tactic|
      exact ⟨⟨rfl, rfl, rfl⟩, rfl, rfl, rfl, by unfold Fetchable; decide +kernel, by decide +kernel, nofun, rfl,
        fun _ h => absurd h (by decide +kernel), by decide +kernel, nofun⟩)

theorem ready_sub : Ready env0 (stI (encode (.alu .sub 5#5 1#5 2#5))) (encode (.alu .sub 5#5 1#5 2#5)) := by ready_ex
example : computes (.alu .sub 5#5 1#5 2#5) 0x80000000#32 (stI 0#32).rf = some (5#5, 0xffffffff#32) := by decide +kernel
example : Ready env0 (stI (encode (.alui .sltiu 5#5 1#5 0xfff#12))) (encode (.alui .sltiu 5#5 1#5 0xfff#12)) := by ready_ex
example : Ready env0 (stI (encode (.shift .srai 5#5 1#5 7#5))) (encode (.shift .srai 5#5 1#5 7#5)) := by ready_ex
example : Ready env0 (stI (encode (.auipc 5#5 0xfffff#20))) (encode (.auipc 5#5 0xfffff#20)) := by ready_ex

-- branch_step: taken backwards
example : Ready env0 (stI (encode (.branch .bltu 1#5 2#5 0xff0#12))) (encode (.branch .bltu 1#5 2#5 0xff0#12)) ∧
    ialigned false 0x80000000#32 ∧ BrOk env0 0x80000000#32 ((dbl 0xff0#12).signExtend 32) ∧
    taken .bltu (rx (stI 0#32).rf 1#5) (rx (stI 0#32).rf 2#5) = true ∧
    ialigned false (0x80000000#32 + (dbl 0xff0#12).signExtend 32) := by
  refine ⟨by ready_ex, by decide, nofun, by decide +kernel, by decide⟩
-- jump_step with rd = rs1
example : Ready env0 (stI (encode (.jalr 3#5 3#5 0xffd#12))) (encode (.jalr 3#5 3#5 0xffd#12)) ∧
    jumpTarget (.jalr 3#5 3#5 0xffd#12) 0x80000000#32 (stI 0#32).rf = some (3#5, 0x800002fc#32) := by
  refine ⟨by ready_ex, by decide +kernel⟩
-- misaligned_target_traps
example : Ready env0 (stI (encode (.jal 1#5 3#20))) (encode (.jal 1#5 3#20)) ∧
    jumpTarget (.jal 1#5 3#20) 0x80000000#32 (stI 0#32).rf = some (1#5, 0x80000006#32) ∧
    ¬ ialigned false 0x80000006#32 := by
  refine ⟨by ready_ex, by decide +kernel, by decide⟩
-- load_step, store_step
example : Ready env0 (stI (encode (.load .lh 5#5 1#5 0xffe#12))) (encode (.load .lh 5#5 1#5 0xffe#12)) ∧
    inRam 0x800000fe#32 ∧ rx (stI 0#32).rf 1#5 + (0xffe#12).signExtend 32 = 0x800000fe#32 ∧
    checkAccess 0xfe#32 true false false env0.regions = true := by
  refine ⟨by ready_ex, by decide, by decide +kernel, by decide +kernel⟩
example : Ready env0 (stI (encode (.store .sw 5#5 1#5 4#12))) (encode (.store .sw 5#5 1#5 4#12)) ∧
    inRam 0x80000104#32 ∧ rx (stI 0#32).rf 1#5 + (4#12).signExtend 32 = 0x80000104#32 ∧
    checkAccess 0x104#32 false true false env0.regions = true := by
  refine ⟨by ready_ex, by decide, by decide +kernel, by decide +kernel⟩
-- data_access_traps: misaligned and unmapped
example : Ready env0 (stI (encode (.load .lw 5#5 2#5 0#12))) (encode (.load .lw 5#5 2#5 0#12)) ∧
    inRam 0x80000101#32 ∧ rx (stI 0#32).rf 2#5 + (0#12).signExtend 32 = 0x80000101#32 := by
  refine ⟨by ready_ex, by decide, by decide +kernel⟩
example : Ready env0 (stI (encode (.store .sb 5#5 0#5 0#12))) (encode (.store .sb 5#5 0#5 0#12)) ∧
    ¬ inRam 0#32 ∧ ¬ inDev true 0#32 := by
  refine ⟨by ready_ex, by decide, by decide⟩
-- denied_access_aborts: the first page is a read-execute segment
def envRx : Env Unit := { env0 with regions := [{ base := 0#32, size := 0x1000#32, r := true, w := false, x := true }] }
example : Ready envRx { st0 envRx [encode (.store .sw 5#5 1#5 4#12)] with rf := (stI 0#32).rf } (encode (.store .sw 5#5 1#5 4#12)) ∧
    checkAccess 0x104#32 false true false envRx.regions = false := by
  refine ⟨by ready_ex, by decide +kernel⟩
-- exceptions, MRET
example : Ready env0 (stI (encode .ecall)) (encode .ecall) := by ready_ex
example : Ready env0 (stI (encode .mret)) (encode .mret) ∧
    ¬ (((stI 0#32).csr 0x300#16).getLsbD 3 = true ∧ ((stI 0#32).csr 0x300#16).getLsbD 7 = false) := by
  refine ⟨by ready_ex, by decide +kernel⟩
-- exceptions_precise_partial and trap_mret_resumes: ecall, then a handler consisting of MRET only
example : Raises env0 (stI (encode .ecall)) 11#32 0x73#32 :=
  (env_calls_trap rfl).1 (by ready_ex)

/-- **C12 fails** for MIE=1, MPIE=0: `csrsi mstatus, 8; mret` from reset leaves MIE set although
MPIE was 0. -/
theorem mret_keeps_mie :
    obs (runN env0 1 (st0 env0 [0x30046073#32, 0x30200073#32])) (fun s => s.csr 0x300#16) = some 0x1808#32 ∧
    obs (runN env0 2 (st0 env0 [0x30046073#32, 0x30200073#32])) (fun s => s.csr 0x300#16) = some 0x1888#32 ∧
    (mretStatus 0x1808#32).getLsbD 3 = false := by
  refine ⟨by decide +kernel, by decide +kernel, by decide⟩

/-- **C10 fails** for JALR encodings with funct3 ≠ 0: `jalr x1, x0, 64` with funct3 = 1 traps as
illegal and yet writes x1. -/
theorem jalr_illegal_writes_rd :
    obs (step env0 (st0 env0 [0x040010e7#32])) (fun s => (s.rf 1#5, s.trapLog, s.simInst)) =
      some (0x4#32, [(2#32, 0x040010e7#32, 0x80000000#32)], 0#64) := by
  decide +kernel
end Ex

end Ama
