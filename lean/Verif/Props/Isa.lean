import Verif.Lemmas.ExecJump
import Verif.Lemmas.Ex
/-!
# One step of the simulator refines the instruction set specification

`step_refines` relates `core::single_step` to `Spec.exec` for every instruction of RV32IM,
min/max, Zifencei and the non-CSR system instructions, for every state that is about to
execute it. The per-property corollaries (C02, C06, C07, C08, C10 - C13) follow.
-/
namespace Ama
open M Spec
variable {σ : Type}

/-- architectural view of the simulator's core part -/
def archOf (c : Core) : Arch :=
  { pc := c.pc, rf := c.rf, csr := c.csr, mem := fun a => c.ram.bytes (a - memBase) }

/-- platform view of a configuration: what the loaded image permits -/
def platOf (E : Env σ) : Plat :=
  { rv32c := E.cfg.rv32c, uart := E.cfg.uart
    readable := fun a => checkAccess (a - memBase) true false false E.regions
    writable := fun a => checkAccess (a - memBase) false true false E.regions }

/-- the parts of the state no instruction of `Spec.Instr` may touch -/
def Quiet (s' : St σ) (c0 : Core) : Prop :=
  s'.uart = c0.uart ∧ s'.clint = c0.clint ∧ s'.csrStep = c0.csrStep ∧ s'.csrInst = c0.csrInst ∧
    s'.wfiPend = false ∧ s'.ram.size = c0.ram.size

/-- an exception: state is the specified trap entry from `c0`, nothing retired -/
def TrapsTo (E : Env σ) (s : St σ) (c0 : Core) (cause tval : W) : Prop :=
  ∃ s', step E s = .ok ((), s') ∧ archOf s'.core = trapEntry cause tval (archOf c0) ∧
    s'.simStep = s.simStep + 1#64 ∧ s'.simInst = s.simInst ∧ s'.wfiActive = false ∧ Quiet s' c0 ∧
    s'.trapLog = (cause, tval, s.pc) :: s.trapLog

/-- what a step has to do for each specified outcome -/
def Meets (E : Env σ) (s : St σ) (c0 : Core) (i : Instr) : Out → Prop
  | .retire a => ∃ s', step E s = .ok ((), s') ∧ archOf s'.core = a ∧
      s'.simStep = s.simStep + 1#64 ∧ s'.simInst = s.simInst + 1#64 ∧
      s'.wfiActive = decide (i = .wfi) ∧ Quiet s' c0 ∧ s'.trapLog = s.trapLog
  | .trap cause tval => TrapsTo E s c0 cause tval
  -- disagreement with the manual: mtval receives the offset in main memory
  | .misaligned cause addr => TrapsTo E s c0 cause (addr - memBase)
  -- the simulator throws
  | .denied => step E s = .abort
  -- peripherals have their own specifications
  | .device => True

theorem trapEntry_core (cause tval : W) (c : Core) :
    archOf (trapCore cause tval c) = trapEntry cause tval (archOf c) := by
  have hms : ∀ m : W, ((m &&& ~~~0x80#32) ||| ((m &&& 0x8#32) <<< 4)) &&& ~~~0x8#32 =
      (if m.getLsbD 3 then m ||| 0x80#32 else m &&& ~~~0x80#32) &&& ~~~8#32 := by
    intro m
    apply BitVec.eq_of_getLsbD_eq
    intro k hk
    have h0 : (0x80#32).getLsbD k = decide (k = 7) := by revert k; decide
    have h8 : (8#32).getLsbD k = decide (k = 3) := by revert k; decide
    have h8' : 4 ≤ k → (8#32).getLsbD (k - 4) = decide (k = 7) := by revert k; decide
    cases hm : m.getLsbD 3
    · simp only [Bool.false_eq_true, if_false, BitVec.getLsbD_and, BitVec.getLsbD_or,
        BitVec.getLsbD_not, BitVec.getLsbD_shiftLeft, h0, h8, hk, decide_true, Bool.true_and]
      by_cases h4 : k < 4
      · simp [h4]
      · rw [h8' (by omega)]
        by_cases h7 : k = 7
        · subst h7; rw [show 7 - 4 = 3 from rfl, hm]; simp
        · simp [h7]
    · simp only [if_true, BitVec.getLsbD_and, BitVec.getLsbD_or,
        BitVec.getLsbD_not, BitVec.getLsbD_shiftLeft, h0, h8, hk, decide_true, Bool.true_and]
      by_cases h4 : k < 4
      · have : k ≠ 7 := by omega
        simp [h4, this]
      · rw [h8' (by omega)]
        by_cases h7 : k = 7
        · subst h7; simp [hm]
        · simp [h7]
  unfold archOf trapEntry trapCore
  congr 1
  funext x
  simp only [trapCsr, A.mstatus, A.mepc, A.mtval, A.mcause]
  by_cases h1 : x = 0x300#16
  · subst h1
    simp only [hms, if_true]
    rfl
  · simp only [h1, if_false]
    by_cases h2 : x = 0x341#16
    · simp only [h2, if_true]
    · by_cases h3 : x = 0x342#16
      · subst h3; rfl
      · simp only [h2, h3, if_false]

theorem mret_spec (m : W) (h : ¬ (m.getLsbD 3 = true ∧ m.getLsbD 7 = false)) :
    mretCode m = mretStatus m := by
  apply BitVec.eq_of_getLsbD_eq
  intro k hk
  have h0 : (0x80#32).getLsbD k = decide (k = 7) := by revert k; decide
  have h8 : (8#32).getLsbD k = decide (k = 3) := by revert k; decide
  have h88 : (0x88#32).getLsbD k = (decide (k = 3) || decide (k = 7)) := by revert k; decide
  have h04 : (0x80#32).getLsbD (4 + k) = decide (k = 3) := by revert k; decide
  unfold mretCode mretStatus
  cases h7 : m.getLsbD 7
  · have h3 : m.getLsbD 3 = false := by
      cases h3 : m.getLsbD 3
      · rfl
      · exact absurd ⟨h3, h7⟩ h
    simp only [Bool.false_eq_true, if_false, BitVec.getLsbD_and, BitVec.getLsbD_or,
        BitVec.getLsbD_not, BitVec.getLsbD_ushiftRight, h0, h8, h04, hk, decide_true, Bool.true_and]
    by_cases hk3 : k = 3
    · subst hk3; rw [show 4 + 3 = 7 from rfl, h3, h7]; rfl
    · simp [hk3]
  · simp only [if_true, BitVec.getLsbD_and, BitVec.getLsbD_or,
        BitVec.getLsbD_not, BitVec.getLsbD_ushiftRight, h0, h8, h88, h04, hk, decide_true, Bool.true_and]
    by_cases hk3 : k = 3
    · subst hk3; rw [show 4 + 3 = 7 from rfl, h7]; simp
    · simp [hk3]

section
variable {E : Env σ} {s : St σ} {i : Instr} {C : Core}

theorem meets_retire {w : W} (h : Ready E s w) (hC : startCore E s w = C) (c : Core) {a : Arch}
    (hx : ∀ p, p.core = C → p.lastInstBranch = false → ExecTo E p c)
    (hc : archOf { c with pc := c.nextPc } = a)
    (hfr : ∃ rf csr ram n w x, c = { C with rf := rf, csr := csr, ram := ram, nextPc := n, wfiPend := w, inst := x } ∧
      ram.size = C.ram.size ∧ w = decide (i = .wfi)) :
    Meets E s C i (.retire a) := by
  obtain ⟨rf, csr, ram, n, wf, x, rfl, hr, hw⟩ := hfr
  obtain ⟨g1, g2, g3, g4, g5, g6, g7, g8, g9, g10⟩ := startCore_frame (E := E) (s := s) (w := w)
  rw [hC] at g1 g2 g3 g4 g5 g6 g7 g8 g9 g10
  obtain ⟨s', h1, h2⟩ := step_retires h _ (fun p hp hl => hx p (hp.trans hC) hl) g9 (g2.trans h.awake) g5
  refine ⟨s', h1, ?_, core_simStep h2, ?_, ?_, ⟨?_, ?_, ?_, ?_, core_wfiPend h2, ?_⟩, ?_⟩
  · rw [h2, ← hc]; rfl
  · rw [core_simInst h2]; dsimp only; rw [g6]
  · rw [core_wfiActive h2]; exact hw
  · rw [core_uart h2]
  · rw [core_clint h2]
  · rw [core_csrStep h2]
  · rw [core_csrInst h2]
  · rw [core_ram h2]; exact hr
  · rw [core_trapLog h2]; exact g8

theorem meets_trap' {w : W} (h : Ready E s w) (hC : startCore E s w = C) {cause tval n x : W}
    (hx : ∀ p, p.core = C → p.lastInstBranch = false →
      ExecTo E p (trapCore cause tval { C with nextPc := n, inst := x })) :
    TrapsTo E s C cause tval := by
  obtain ⟨g1, g2, g3, g4, g5, g6, g7, g8, g9, g10⟩ := startCore_frame (E := E) (s := s) (w := w)
  rw [hC] at g1 g2 g3 g4 g5 g6 g7 g8 g9 g10
  obtain ⟨s', h1, h2⟩ := step_traps h _ (fun p hp hl => hx p (hp.trans hC) hl) rfl g5
  refine ⟨s', h1, ?_, core_simStep h2, ?_, ?_, ⟨?_, ?_, ?_, ?_, ?_, ?_⟩, ?_⟩
  · rw [h2, show archOf C = archOf { C with nextPc := n, inst := x } from rfl, ← trapEntry_core]; rfl
  · rw [core_simInst h2]; exact g6
  · rw [core_wfiActive h2]; exact g2.trans h.awake
  · rw [core_uart h2]; rfl
  · rw [core_clint h2]; rfl
  · rw [core_csrStep h2]; rfl
  · rw [core_csrInst h2]; rfl
  · rw [core_wfiPend h2]; exact g7.trans h.pend
  · rw [core_ram h2]; rfl
  · rw [core_trapLog h2]
    change (cause, tval, C.pc) :: C.trapLog = _
    rw [g1, g8]

theorem meets_trap {w : W} (h : Ready E s w) (hC : startCore E s w = C) {cause tval n : W}
    (hx : ∀ p, p.core = C → p.lastInstBranch = false → ExecTo E p (trapCore cause tval { C with nextPc := n })) :
    TrapsTo E s C cause tval := meets_trap' (x := C.inst) h hC hx

theorem even_add {a b : W} (ha : a.toNat % 2 = 0) (hb : b.toNat % 2 = 0) : (a + b).toNat % 2 = 0 := by
  rw [BitVec.toNat_add]; omega

theorem even_of_bit {n : Nat} (a : BitVec n) (h : a.getLsbD 0 = false) : a.toNat % 2 = 0 := by
  rw [← BitVec.testBit_toNat, Nat.testBit_zero, decide_eq_false_iff_not] at h
  omega

theorem sext_dbl_even {n : Nat} (off : BitVec n) : ((dbl off).signExtend 32).toNat % 2 = 0 := by
  apply even_of_bit
  rw [BitVec.getLsbD_signExtend, dbl_even]
  simp

theorem clear_bit0 (a : W) : a &&& 0xfffffffe#32 = BitVec.ofNat 32 (a.toNat / 2 * 2) := by
  apply BitVec.eq_of_getLsbD_eq
  intro k hk
  have h1 : (0xfffffffe#32).getLsbD k = decide (k ≠ 0) := by revert k; decide
  rw [BitVec.getLsbD_and, h1, BitVec.getLsbD_ofNat]
  cases k with
  | zero => simp [Nat.testBit_zero]
  | succ k =>
    have : (a.toNat / 2 * 2).testBit (k + 1) = a.toNat.testBit (k + 1) := by
      rw [Nat.testBit_succ, Nat.testBit_succ, Nat.mul_div_cancel _ (by decide)]
    rw [this, BitVec.testBit_toNat]
    simp [hk]

theorem not_misaligned (E : Env σ) {a : W} (h : ialigned E.cfg.rv32c a) : misaligned E a = false := by
  unfold misaligned
  unfold ialigned at h
  cases hc : E.cfg.rv32c
  · rw [hc] at h; simp at h; simp [h]
  · rfl

theorem ialigned_seq {b : Bool} {a : W} (h : ialigned b a) : ialigned b (a + 4#32) := by
  unfold ialigned at *
  cases b
  · simp [BitVec.toNat_add] at *; omega
  · simp [BitVec.toNat_add] at *; omega

/-- **Refinement.** Under the non-strict (x86) reading of shifts and signed overflow, a step
that starts on the encoding of `i` does what the specification says `i` does, in every
awake state without a deliverable interrupt, whose pc is even and executable. A branch must
be aligned (an invariant of runs from reset, `pc_aligned`) and, in builds with hardware
models, the predictor must answer one of the two successors and both
must be fetchable (`BrOk`); MRET with MIE set and MPIE clear is excepted (see
`mret_keeps_mie`). -/
theorem step_refines (hst : E.cfg.strict = false) (h : Ready E s (encode i))
    (hbr : ∀ op rs1 rs2 off, i = .branch op rs1 rs2 off →
      ialigned E.cfg.rv32c s.pc ∧ BrOk E s.pc ((dbl off).signExtend 32))
    (hmr : i = .mret → ¬ (((startCore E s (encode i)).csr A.mstatus).getLsbD 3 = true ∧
      ((startCore E s (encode i)).csr A.mstatus).getLsbD 7 = false)) :
    Meets E s (startCore E s (encode i)) i
      (Spec.exec (platOf E) i (archOf (startCore E s (encode i)))) := by
  obtain ⟨g1, g2, g3, g4, g5, g6, g7, g8, g9, g10⟩ := startCore_frame (E := E) (s := s) (w := encode i)
  have hz := startCore_sized (E := E) (w := encode i) h.sized
  have h0 : (startCore E s (encode i)).rf 0#5 = 0#32 := by rw [g3]; exact h.x0
  have hpe : s.pc.toNat % 2 = 0 := h.fetch.1
  have wp : (startCore E s (encode i)).wfiPend = false := g7.trans h.pend
  generalize hC : startCore E s (encode i) = C at *
  rw [← g1] at hpe hbr
  have fr : ∀ {j : Instr} (rf csr ram n), ram.size = C.ram.size → j ≠ .wfi →
      ∃ rf' csr' ram' n' w' x', { C with rf := rf, csr := csr, ram := ram, nextPc := n } =
        ({ C with rf := rf', csr := csr', ram := ram', nextPc := n', wfiPend := w', inst := x' } : Core) ∧
      ram'.size = C.ram.size ∧ w' = decide (j = .wfi) := by
    intro j rf csr ram n hr hj
    exact ⟨rf, csr, ram, n, _, _, rfl, hr, by rw [wp]; simp [hj]⟩
  cases i with
  | alu op rd rs1 rs2 =>
    exact meets_retire h hC _ (fun p hp _ => exec_alu hp h0 hst g10) rfl (fr _ _ _ _ rfl nofun)
  | alui op rd rs1 imm =>
    exact meets_retire h hC _ (fun p hp _ => exec_alui hp h0 hst g10) rfl (fr _ _ _ _ rfl nofun)
  | shift op rd rs1 sh =>
    exact meets_retire h hC _ (fun p hp _ => exec_shift hp h0 hst hz (by rw [g1]; exact h.ahead) g10) rfl
      (fr _ _ _ _ rfl nofun)
  | lui rd imm =>
    exact meets_retire h hC _ (fun p hp _ => exec_lui hp g10) rfl (fr _ _ _ _ rfl nofun)
  | auipc rd imm =>
    exact meets_retire h hC _ (fun p hp _ => exec_auipc hp g10) rfl (fr _ _ _ _ rfl nofun)
  | load op rd rs1 imm =>
    simp only [Spec.exec, Spec.execL]
    have hrf : (archOf C).rf = C.rf := rfl
    have hu : (platOf E).uart = E.cfg.uart := rfl
    rw [hrf, hu]
    generalize had : rx C.rf rs1 + imm.signExtend 32 = ad
    split
    · rename_i hin
      split
      · rename_i hm
        refine meets_trap h hC (n := C.nextPc) (fun p hp _ => ?_)
        refine exec_load_trap hp h0 g10 had.symm rfl ?_
        intro ab Q hq
        exact twp_setAddr_mis hp hin (loadN_cases op) hm hq
      · rename_i hm
        have hm : ad.toNat % loadN op = 0 := by simpa using hm
        split
        · rename_i hr
          refine meets_retire h hC _ (fun p hp _ => exec_load_ok hp hz g9 h0 g10 had.symm hin hm hr)
            ?_ (fr _ _ _ _ rfl nofun)
          unfold archOf
          simp only [le_shift]
        · rename_i hr
          have hr : checkAccess (ad - memBase) true false false E.regions = false := by simpa [platOf] using hr
          exact step_throws h fun p hp _ => exec_load_denied (hp.trans hC) g9 h0 g10 had.symm hin hm hr
    · rename_i hin
      split
      · trivial
      · rename_i hd
        refine meets_trap h hC (n := C.nextPc) (fun p hp _ => ?_)
        refine exec_load_trap hp h0 g10 had.symm rfl ?_
        intro ab Q hq
        exact twp_setAddr_fault hp hin hd hq
  | store op rs2 rs1 imm =>
    simp only [Spec.exec, Spec.execL]
    have hrf : (archOf C).rf = C.rf := rfl
    have hu : (platOf E).uart = E.cfg.uart := rfl
    rw [hrf, hu]
    generalize had : rx C.rf rs1 + imm.signExtend 32 = ad
    split
    · rename_i hin
      split
      · rename_i hm
        refine meets_trap h hC (n := C.nextPc) (fun p hp _ => ?_)
        refine exec_store_trap hp h0 g10 had.symm rfl ?_
        intro ab Q hq
        exact twp_setAddr_mis hp hin (storeN_cases op) hm hq
      · rename_i hm
        have hm : ad.toNat % storeN op = 0 := by simpa using hm
        split
        · rename_i hr
          refine meets_retire h hC _ (fun p hp _ => exec_store_ok hp hz g9 h0 g10 had.symm hin hm hr)
            ?_ (fr _ _ _ _ rfl nofun)
          unfold archOf
          simp only [put_shift]
        · rename_i hr
          have hr : checkAccess (ad - memBase) false true false E.regions = false := by simpa [platOf] using hr
          exact step_throws h fun p hp _ => exec_store_denied (hp.trans hC) g9 h0 g10 had.symm hin hm hr
    · rename_i hin
      split
      · trivial
      · rename_i hd
        refine meets_trap h hC (n := C.nextPc) (fun p hp _ => ?_)
        refine exec_store_trap hp h0 g10 had.symm rfl ?_
        intro ab Q hq
        exact twp_setAddr_fault hp hin hd hq
  | branch op rs1 rs2 off =>
    simp only [Spec.exec, Spec.execL]
    have hrf : (archOf C).rf = C.rf := rfl
    have hpc : (archOf C).pc = C.pc := rfl
    have hu : (platOf E).rv32c = E.cfg.rv32c := rfl
    rw [hrf, hu, hpc]
    obtain ⟨hpa, hb⟩ := hbr op rs1 rs2 off rfl
    split
    · rename_i htk
      have hn : C.pc + (dbl off).signExtend 32 = if taken op (rx C.rf rs1) (rx C.rf rs2)
          then C.pc + (dbl off).signExtend 32 else C.pc + 4#32 := (if_pos htk).symm
      have hev : (C.pc + (dbl off).signExtend 32).toNat % 2 = 0 := even_add hpe (sext_dbl_even off)
      split
      · rename_i hal
        have hal := not_misaligned E hal
        refine meets_retire h hC { C with nextPc := C.pc + (dbl off).signExtend 32 } (fun p hp _ => ?_) rfl
          (fr _ _ _ _ rfl nofun)
        exact fun ab Q hq => exec_branch_ok hp hz h0 g10 hb hn hal ab Q fun q hq' _ => hq q hq'
      · rename_i hal
        have hal := (misaligned_iff E hev).2 hal
        exact meets_trap h hC (fun p hp _ => exec_branch_mis hp h0 g10 hn hal)
    · rename_i htk
      have hn : C.pc + 4#32 = if taken op (rx C.rf rs1) (rx C.rf rs2)
          then C.pc + (dbl off).signExtend 32 else C.pc + 4#32 := (if_neg htk).symm
      have hal := not_misaligned E (ialigned_seq hpa)
      refine meets_retire h hC { C with nextPc := C.pc + 4#32 } (fun p hp _ => ?_) rfl
          (fr _ _ _ _ rfl nofun)
      exact fun ab Q hq => exec_branch_ok hp hz h0 g10 hb hn hal ab Q fun q hq' _ => hq q hq'
  | jal rd off =>
    simp only [Spec.exec, Spec.execL]
    have hpc : (archOf C).pc = C.pc := rfl
    have hu : (platOf E).rv32c = E.cfg.rv32c := rfl
    rw [hu, hpc]
    have hev : (C.pc + (dbl off).signExtend 32).toNat % 2 = 0 := even_add hpe (sext_dbl_even off)
    split
    · rename_i hal
      have hal := not_misaligned E hal
      refine meets_retire h hC { C with nextPc := C.pc + (dbl off).signExtend 32, rf := wx C.rf rd (C.pc + 4#32) }
        (fun p hp _ => ?_) rfl (fr _ _ _ _ rfl nofun)
      have := exec_jal (E := E) hp g10 rfl
      rw [hal] at this
      exact this
    · rename_i hal
      have hal := (misaligned_iff E hev).2 hal
      refine meets_trap h hC (n := C.pc + (dbl off).signExtend 32) (fun p hp _ => ?_)
      have := exec_jal (E := E) hp g10 rfl
      rw [hal] at this
      exact this
  | jalr rd rs1 imm =>
    simp only [Spec.exec, Spec.execL]
    have hrf : (archOf C).rf = C.rf := rfl
    have hpc : (archOf C).pc = C.pc := rfl
    have hu : (platOf E).rv32c = E.cfg.rv32c := rfl
    rw [hu, hpc, hrf, ← clear_bit0]
    generalize ht : (rx C.rf rs1 + imm.signExtend 32) &&& 0xfffffffe#32 = t
    have hev : t.toNat % 2 = 0 := by
      rw [← ht, clear_bit0, BitVec.toNat_ofNat]; omega
    split
    · rename_i hal
      have hal := not_misaligned E hal
      refine meets_retire h hC { C with nextPc := t, rf := wx C.rf rd (C.pc + 4#32) }
        (fun p hp _ => ?_) rfl (fr _ _ _ _ rfl nofun)
      have := exec_jalr (E := E) hp h0 g10 ht.symm
      rw [hal] at this
      exact this
    · rename_i hal
      have hal := (misaligned_iff E hev).2 hal
      refine meets_trap h hC (n := t) (fun p hp _ => ?_)
      have := exec_jalr (E := E) hp h0 g10 ht.symm
      rw [hal] at this
      exact this
  | ecall => exact meets_trap h hC (n := C.nextPc) fun p hp _ => exec_ecall hp g10
  | ebreak => exact meets_trap h hC (n := C.nextPc) fun p hp _ => exec_ebreak hp g10
  | mret =>
    refine meets_retire h hC _ (fun p hp _ => exec_mret hp g10) ?_ (fr _ _ _ _ rfl nofun)
    unfold archOf
    congr 1
    funext x
    simp only [upd, mret_spec _ (hmr rfl)]
    by_cases hx : x = A.mstatus
    · subst hx; rfl
    · simp only [hx, if_false]
      rw [if_neg (by exact hx)]
  | wfi => exact meets_retire h hC _ (fun p hp _ => exec_wfi hp g10) rfl ⟨_, _, _, _, _, _, rfl, rfl, rfl⟩
  | fence imm rs1 rd =>
    exact meets_retire h hC _ (fun p hp _ => exec_fence hp g10) rfl (fr _ _ _ _ rfl nofun)
  | fencei =>
    exact meets_retire h hC _ (fun p hp _ => exec_fencei hp g10) rfl (fr _ _ _ _ rfl nofun)

end
end Ama
