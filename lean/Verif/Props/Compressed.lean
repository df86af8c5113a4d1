import Verif.Lemmas.ExecC
import Verif.Props.IsaProps
/-!
# C22: compressed instructions behave as their expansions

A step on a 16-bit encoding has the effect the specification gives to the expanded
instruction with an instruction length of two bytes. C.EBREAK is excepted: the code stops
the run instead of raising a breakpoint exception (`c_ebreak_stops`).
-/
namespace Ama
open M Spec
variable {σ : Type} {E : Env σ} {s : St σ}

theorem ci_copcode (ci : CInstr) : IP.copcode (encodeC ci) ≠ 3#2 := by
  intro h
  cases ci <;> simp only [encodeC] at h
  case addi4spn rd' imm => rw [(decode_CADDI4SPN _ (scale_mod4 10 imm) rd').1] at h; revert h; decide
  case lw r r1 imm => rw [(decode_CLS _ _ (scale_mod4 7 imm) r1 r).1] at h; revert h; decide
  case sw r r1 imm => rw [(decode_CLS _ _ (scale_mod4 7 imm) r1 r).1] at h; revert h; decide
  case addi r imm => rw [(decode_CI 0#3 imm r 1#2).1] at h; revert h; decide
  case jal off => rw [(decode_CJ _ _ (scale_even 12 off)).1] at h; revert h; decide
  case li r imm => rw [(decode_CI 2#3 imm r 1#2).1] at h; revert h; decide
  case addi16sp imm => rw [(decode_CADDI16SP _ (scale_mod16 10 imm)).1] at h; revert h; decide
  case lui r imm => rw [(decode_CI 3#3 imm r 1#2).1] at h; revert h; decide
  case srli r sh => rw [(decode_CBA _ _ r).1] at h; revert h; decide
  case srai r sh => rw [(decode_CBA _ _ r).1] at h; revert h; decide
  case andi r sh => rw [(decode_CBA _ _ r).1] at h; revert h; decide
  case alu op r r2 => rw [(decode_CA _ r _ r2).1] at h; revert h; decide
  case j off => rw [(decode_CJ _ _ (scale_even 12 off)).1] at h; revert h; decide
  case beqz r off => rw [(decode_CB _ _ (scale_even 9 off) r).1] at h; revert h; decide
  case bnez r off => rw [(decode_CB _ _ (scale_even 9 off) r).1] at h; revert h; decide
  case slli r imm => rw [(decode_CI 0#3 _ r 2#2).1] at h; revert h; decide
  case lwsp r imm => rw [(decode_CLWSP _ (scale_mod4 8 imm) r).1] at h; revert h; decide
  case swsp r imm => rw [(decode_CSWSP _ (scale_mod4 8 imm) r).1] at h; revert h; decide
  all_goals rw [(decode_CR _ _ _).1] at h; revert h; decide

/-- **C22** In a build with the C extension, a step that starts on a word whose low half is
the encoding of a legal compressed instruction other than C.EBREAK does what the expansion
does, with the sequential successor and the link value two bytes after the instruction:
same registers, memory, CSRs, exceptions and thrown errors, whatever the upper half holds and
also when C++ undefined behaviour of shifts is taken strictly. With profilers, C.SLLI looks
at the word after it, which must be in RAM. Missing for the full property: C.EBREAK
(`c_ebreak_stops`) and accesses to devices. -/
theorem compressed_refines_partial {ci : CInstr} {w : W} (hr : E.cfg.rv32c = true) (h : Ready E s w)
    (hw : IP.toRvc w = encodeC ci) (hl : ci.legal) (hne : ci ≠ .ebreak)
    (hah : E.cfg.profilers = true → (toNorm (s.pc + 2#32)).toNat + 4 ≤ memSize) :
    Meets E s (startCore E s w) (expand ci)
      (Spec.execL 2#32 (platOf E) (expand ci) (archOf (startCore E s w))) := by
  obtain ⟨g1, g2, g3, g4, g5, g6, g7, g8, g9, g10⟩ := startCore_frame (E := E) (s := s) (w := w)
  have hz := startCore_sized (E := E) (w := w) h.sized
  have h0 : (startCore E s w).rf 0#5 = 0#32 := by rw [g3]; exact h.x0
  have hpe : s.pc.toNat % 2 = 0 := h.fetch.1
  have wp : (startCore E s w).wfiPend = false := g7.trans h.pend
  generalize hC : startCore E s w = C at *
  rw [← g1] at hpe hah
  have hcop := ci_copcode ci
  have hal : ∀ {a : W}, a.toNat % 2 = 0 → ialigned E.cfg.rv32c a := by
    intro a ha; unfold ialigned; rw [hr]; exact ha
  have hpi : ∀ {p : St σ}, p.core = C → IP.toRvc p.inst = encodeC ci := by
    intro p hp; rw [core_inst hp, g10]; exact hw
  have hin : ∀ {p : St σ}, p.core = C → ({ p with inst := encodeC ci } : St σ).core = { C with inst := encodeC ci } := by
    intro p hp; rw [← hp]; rfl
  have fr : ∀ {j : Instr} (rf csr ram n x), ram.size = C.ram.size → j ≠ .wfi →
      ∃ rf' csr' ram' n' w' x', { C with rf := rf, csr := csr, ram := ram, nextPc := n, inst := x } =
        ({ C with rf := rf', csr := csr', ram := ram', nextPc := n', wfiPend := w', inst := x' } : Core) ∧
      ram'.size = C.ram.size ∧ w' = decide (j = .wfi) := by
    intro j rf csr ram n x hr hj
    exact ⟨rf, csr, ram, n, _, _, rfl, hr, by rw [wp]; simp [hj]⟩
  have E1 : ∀ {p : St σ} {c : Core}, p.core = C → ExecC E (encodeC ci) { p with inst := encodeC ci } c → ExecTo E p c :=
    fun hp hx => execTo_c hr (hpi hp) hcop hx
  -- loads and stores, whichever handler they reach
  have ld : ∀ {op : COp} {base dst : BitVec 5} {imm : BitVec 12},
      exec16 E (encodeC ci) = cLoad E op base dst (imm.signExtend 32) → expand ci = .load .lw dst base imm →
      Meets E s C (expand ci) (Spec.execL 2#32 (platOf E) (expand ci) (archOf C)) := by
    intro op base dst imm hx he
    rw [he]
    simp only [Spec.execL]
    have hrf : (archOf C).rf = C.rf := rfl
    have hu : (platOf E).uart = E.cfg.uart := rfl
    rw [hrf, hu]
    generalize had : rx C.rf base + imm.signExtend 32 = ad
    split
    · rename_i hin'
      split
      · rename_i hm
        refine meets_trap' h hC (n := C.nextPc) (x := encodeC ci) (fun p hp _ => E1 hp ?_)
        intro ab Q hq
        rw [hx]
        refine cLoad_trap (c := { C with inst := encodeC ci }) (hin hp) h0 had.symm rfl ?_ hq
        intro ab Q hq
        exact twp_setAddr_mis (hin hp) hin' (by simp) hm hq
      · rename_i hm
        have hm : ad.toNat % 4 = 0 := by simpa [loadN] using hm
        split
        · rename_i hrd
          refine meets_retire h hC { C with
              rf := wx C.rf dst (BitVec.ofNat 32 (le C.ram.bytes (ad - memBase) 4)), nextPc := C.pc + 2#32
              inst := encodeC ci } (fun p hp _ => E1 hp fun ab Q hq => ?_) ?_ (fr _ _ _ _ _ rfl nofun)
          · rw [hx]
            exact cLoad_ok (c := { C with inst := encodeC ci }) (hin hp) h0 hz g9 had.symm hin' hm hrd hq
          · unfold archOf
            simp only [le_shift]
            rfl
        · rename_i hrd
          have hrd : checkAccess (ad - memBase) true false false E.regions = false := by simpa [platOf] using hrd
          refine step_throws h fun p hp _ => twp_exec16 hr (hpi (hp.trans hC)) hcop ?_
          rw [hx]
          exact cLoad_denied (c := { C with inst := encodeC ci }) (hin (hp.trans hC)) h0 g9 had.symm hin' hm hrd
    · rename_i hin'
      split
      · trivial
      · rename_i hd
        refine meets_trap' h hC (n := C.nextPc) (x := encodeC ci) (fun p hp _ => E1 hp ?_)
        intro ab Q hq
        rw [hx]
        refine cLoad_trap (c := { C with inst := encodeC ci }) (hin hp) h0 had.symm rfl ?_ hq
        intro ab Q hq
        exact twp_setAddr_fault (hin hp) hin' hd hq
  have sd : ∀ {op : COp} {base src : BitVec 5} {imm : BitVec 12},
      exec16 E (encodeC ci) = cStore E op base src (imm.signExtend 32) → expand ci = .store .sw src base imm →
      Meets E s C (expand ci) (Spec.execL 2#32 (platOf E) (expand ci) (archOf C)) := by
    intro op base src imm hx he
    rw [he]
    simp only [Spec.execL]
    have hrf : (archOf C).rf = C.rf := rfl
    have hu : (platOf E).uart = E.cfg.uart := rfl
    rw [hrf, hu]
    generalize had : rx C.rf base + imm.signExtend 32 = ad
    split
    · rename_i hin'
      split
      · rename_i hm
        refine meets_trap' h hC (n := C.nextPc) (x := encodeC ci) (fun p hp _ => E1 hp ?_)
        intro ab Q hq
        rw [hx]
        refine cStore_trap (c := { C with inst := encodeC ci }) (hin hp) h0 had.symm rfl ?_ hq
        intro ab Q hq
        exact twp_setAddr_mis (hin hp) hin' (by simp) hm hq
      · rename_i hm
        have hm : ad.toNat % 4 = 0 := by simpa [storeN] using hm
        split
        · rename_i hrd
          refine meets_retire h hC { C with
              ram := { C.ram with bytes := put C.ram.bytes (ad - memBase) (rx C.rf src).toNat 4 }
              nextPc := C.pc + 2#32, inst := encodeC ci } (fun p hp _ => E1 hp fun ab Q hq => ?_) ?_
            (fr _ _ _ _ _ rfl nofun)
          · rw [hx]
            exact cStore_ok (c := { C with inst := encodeC ci }) (hin hp) h0 hz g9 had.symm hin' hm hrd hq
          · unfold archOf
            simp only [put_shift]
            rfl
        · rename_i hrd
          have hrd : checkAccess (ad - memBase) false true false E.regions = false := by simpa [platOf] using hrd
          refine step_throws h fun p hp _ => twp_exec16 hr (hpi (hp.trans hC)) hcop ?_
          rw [hx]
          exact cStore_denied (c := { C with inst := encodeC ci }) (hin (hp.trans hC)) h0 g9 had.symm hin' hm hrd
    · rename_i hin'
      split
      · trivial
      · rename_i hd
        refine meets_trap' h hC (n := C.nextPc) (x := encodeC ci) (fun p hp _ => E1 hp ?_)
        intro ab Q hq
        rw [hx]
        refine cStore_trap (c := { C with inst := encodeC ci }) (hin hp) h0 had.symm rfl ?_ hq
        intro ab Q hq
        exact twp_setAddr_fault (hin hp) hin' hd hq
  have rx0 : rx C.rf 0#5 = 0#32 := by simp [rx]
  have z12 : (0#12).signExtend 32 = 0#32 := by decide
  cases ci with
  | addi4spn rd' imm =>
    refine meets_retire h hC _ (fun p hp _ => E1 hp (c_addi4spn (hin hp) h0 hl)) ?_ (fr _ _ _ _ _ rfl nofun)
    simp only [archOf, Spec.iop, (alu_eqs _ _).1]
  | lw rd' rs1' imm => exact ld (sel_lw _ _ _) rfl
  | sw rs2' rs1' imm => exact sd (sel_sw _ _ _) rfl
  | addi rd imm =>
    refine meets_retire h hC _ (fun p hp _ => E1 hp (c_addi (hin hp) h0)) ?_ (fr _ _ _ _ _ rfl nofun)
    simp only [archOf, Spec.iop, (alu_eqs _ _).1]
  | jal off =>
    have ha : ialigned (platOf E).rv32c ((archOf C).pc + (dbl (off.signExtend 20)).signExtend 32) :=
      hal (even_add hpe (sext_dbl_even _))
    simp only [expand, Spec.execL, if_pos ha]
    exact meets_retire h hC _ (fun p hp _ => E1 hp (c_jal (hin hp))) rfl (fr _ _ _ _ _ rfl nofun)
  | li rd imm =>
    refine meets_retire h hC _ (fun p hp _ => E1 hp (c_li (hin hp))) ?_ (fr _ _ _ _ _ rfl nofun)
    simp only [archOf, Spec.iop, (alu_eqs _ _).1, rx0, BitVec.zero_add]
  | addi16sp imm =>
    refine meets_retire h hC _ (fun p hp _ => E1 hp (c_addi16sp (hin hp) h0 hl)) ?_ (fr _ _ _ _ _ rfl nofun)
    simp only [archOf, Spec.iop, (alu_eqs _ _).1]
  | lui rd imm =>
    exact meets_retire h hC _ (fun p hp _ => E1 hp (c_lui (hin hp) hl)) rfl (fr _ _ _ _ _ rfl nofun)
  | srli rd' sh =>
    exact meets_retire h hC _ (fun p hp _ => E1 hp (c_srli (hin hp) h0)) rfl (fr _ _ _ _ _ rfl nofun)
  | srai rd' sh =>
    exact meets_retire h hC _ (fun p hp _ => E1 hp (c_srai (hin hp) h0)) rfl (fr _ _ _ _ _ rfl nofun)
  | andi rd' imm =>
    refine meets_retire h hC _ (fun p hp _ => E1 hp (c_andi (hin hp) h0)) ?_ (fr _ _ _ _ _ rfl nofun)
    simp only [archOf, Spec.iop, (alu_eqs _ _).2.2.2.2]
  | alu op rd' rs2' =>
    exact meets_retire h hC _ (fun p hp _ => E1 hp (c_alu (hin hp) h0)) rfl (fr _ _ _ _ _ rfl nofun)
  | j off =>
    have ha : ialigned (platOf E).rv32c ((archOf C).pc + (dbl (off.signExtend 20)).signExtend 32) :=
      hal (even_add hpe (sext_dbl_even _))
    simp only [expand, Spec.execL, if_pos ha]
    refine meets_retire h hC _ (fun p hp _ => E1 hp (c_j (hin hp))) ?_ (fr _ _ _ _ _ rfl nofun)
    have : wx C.rf 0#5 (C.pc + 2#32) = C.rf := by funext r; simp [wx]
    simp only [archOf, this]
  | beqz rs1' off =>
    have ha : ialigned (platOf E).rv32c ((archOf C).pc + (dbl (off.signExtend 12)).signExtend 32) :=
      hal (even_add hpe (sext_dbl_even _))
    have ht : taken .beq (rx (archOf C).rf (creg rs1')) (rx (archOf C).rf 0#5) =
        decide (rx C.rf (creg rs1') = 0#32) := by
      change decide (rx C.rf (creg rs1') = rx C.rf 0#5) = _; rw [rx0]
    simp only [expand, Spec.execL, if_pos ha, ht]
    have := fun (p : St σ) (hp : p.core = C) => E1 hp (c_beqz (off := off) (r := rs1') (hin hp) h0)
    by_cases hb : rx C.rf (creg rs1') = 0#32
    · simp only [hb, if_true, decide_true] at this ⊢
      exact meets_retire h hC _ (fun p hp _ => this p hp) rfl (fr _ _ _ _ _ rfl nofun)
    · simp only [hb, if_false, decide_false, Bool.false_eq_true] at this ⊢
      exact meets_retire h hC _ (fun p hp _ => this p hp) rfl (fr _ _ _ _ _ rfl nofun)
  | bnez rs1' off =>
    have ha : ialigned (platOf E).rv32c ((archOf C).pc + (dbl (off.signExtend 12)).signExtend 32) :=
      hal (even_add hpe (sext_dbl_even _))
    have ht : taken .bne (rx (archOf C).rf (creg rs1')) (rx (archOf C).rf 0#5) =
        decide (rx C.rf (creg rs1') ≠ 0#32) := by
      change decide (rx C.rf (creg rs1') ≠ rx C.rf 0#5) = _; rw [rx0]
    simp only [expand, Spec.execL, if_pos ha, ht]
    have := fun (p : St σ) (hp : p.core = C) => E1 hp (c_bnez (off := off) (r := rs1') (hin hp) h0)
    by_cases hb : rx C.rf (creg rs1') = 0#32
    · simp only [hb, ne_eq, not_true, if_false, decide_false, Bool.false_eq_true] at this ⊢
      exact meets_retire h hC _ (fun p hp _ => this p hp) rfl (fr _ _ _ _ _ rfl nofun)
    · simp only [hb, ne_eq, not_false_iff, if_true, decide_true] at this ⊢
      exact meets_retire h hC _ (fun p hp _ => this p hp) rfl (fr _ _ _ _ _ rfl nofun)
  | slli rd sh =>
    exact meets_retire h hC _ (fun p hp _ => E1 hp (c_slli (hin hp) h0 hz hah)) rfl (fr _ _ _ _ _ rfl nofun)
  | lwsp rd imm => exact ld (sel_lwsp _ _) rfl
  | jr rs1 =>
    have hev : (BitVec.ofNat 32 (((rx (archOf C).rf rs1 + (0#12).signExtend 32).toNat / 2 * 2)) : W).toNat % 2 = 0 := by
      rw [BitVec.toNat_ofNat]; omega
    have ha : ialigned (platOf E).rv32c _ := hal hev
    simp only [expand, Spec.execL, if_pos ha]
    refine meets_retire h hC _ (fun p hp _ => E1 hp (c_jr (hin hp) h0 hl)) ?_ (fr _ _ _ _ _ rfl nofun)
    have : wx C.rf 0#5 (C.pc + 2#32) = C.rf := by funext r; simp [wx]
    simp only [archOf, this, z12, BitVec.add_zero, clear_bit0]
  | mv rd rs2 =>
    refine meets_retire h hC _ (fun p hp _ => E1 hp (c_mv (hin hp) h0 hl)) ?_ (fr _ _ _ _ _ rfl nofun)
    simp only [archOf, (alu_eqs _ _).1, rx0, BitVec.zero_add]
  | ebreak => exact absurd rfl hne
  | jalr rs1 =>
    have hev : (BitVec.ofNat 32 (((rx (archOf C).rf rs1 + (0#12).signExtend 32).toNat / 2 * 2)) : W).toNat % 2 = 0 := by
      rw [BitVec.toNat_ofNat]; omega
    have ha : ialigned (platOf E).rv32c _ := hal hev
    simp only [expand, Spec.execL, if_pos ha]
    refine meets_retire h hC _ (fun p hp _ => E1 hp (c_jalr (hin hp) h0 hl)) ?_ (fr _ _ _ _ _ rfl nofun)
    simp only [archOf, z12, BitVec.add_zero, clear_bit0]
  | add rd rs2 =>
    refine meets_retire h hC _ (fun p hp _ => E1 hp (c_add (hin hp) h0 hl)) ?_ (fr _ _ _ _ _ rfl nofun)
    simp only [archOf, (alu_eqs _ _).1]
  | swsp rs2 imm => exact sd (sel_swsp _ _) rfl

/-- encodings fit in the low half -/
theorem encodeC_half (ci : CInstr) : IP.toRvc (encodeC ci) = encodeC ci := by
  cases ci <;> simp only [encodeC]
  case addi4spn rd' imm => exact (decode_CADDI4SPN _ (scale_mod4 10 imm) rd').2.2.2.2
  case lw r r1 imm => exact (decode_CLS _ _ (scale_mod4 7 imm) r1 r).2.2.2.2.2
  case sw r r1 imm => exact (decode_CLS _ _ (scale_mod4 7 imm) r1 r).2.2.2.2.2
  case addi r imm => exact (decode_CI 0#3 imm r 1#2).2.2.2.2.2.2
  case jal off => exact (decode_CJ _ _ (scale_even 12 off)).2.2.2
  case li r imm => exact (decode_CI 2#3 imm r 1#2).2.2.2.2.2.2
  case addi16sp imm => exact (decode_CADDI16SP _ (scale_mod16 10 imm)).2.2.2.2
  case lui r imm => exact (decode_CI 3#3 imm r 1#2).2.2.2.2.2.2
  case srli r sh => exact (decode_CBA _ _ r).2.2.2.2.2
  case srai r sh => exact (decode_CBA _ _ r).2.2.2.2.2
  case andi r sh => exact (decode_CBA _ _ r).2.2.2.2.2
  case alu op r r2 => exact (decode_CA _ r _ r2).2.2.2.2.2.2.2
  case j off => exact (decode_CJ _ _ (scale_even 12 off)).2.2.2
  case beqz r off => exact (decode_CB _ _ (scale_even 9 off) r).2.2.2.2
  case bnez r off => exact (decode_CB _ _ (scale_even 9 off) r).2.2.2.2
  case slli r imm => exact (decode_CI 0#3 _ r 2#2).2.2.2.2.2.2
  case lwsp r imm => exact (decode_CLWSP _ (scale_mod4 8 imm) r).2.2.2.2
  case swsp r imm => exact (decode_CSWSP _ (scale_mod4 8 imm) r).2.2.2.2
  all_goals exact (decode_CR _ _ _).2.2.2.2.2

namespace Ex

/-- a build with the C extension -/
def envC : Env Unit := { env0 with cfg := { cfg0 with rv32c := true } }
/-- some register values, a word at the reset address -/
def stC (w : W) : St Unit :=
  { st0 envC [w] with rf := fun r => if r = 0#5 then 0#32 else if r = 2#5 then 0x80000101#32 else 0x80000000#32 + r.setWidth 32 <<< 8 }

-- the hypotheses hold for concrete words with an arbitrary upper half
example : Ready envC (stC 0xbeef0505#32) 0xbeef0505#32 ∧ IP.toRvc 0xbeef0505#32 = encodeC (.addi 10#5 1#6) ∧
    (CInstr.addi 10#5 1#6).legal := by
  refine ⟨by ready_ex, by decide +kernel, by decide⟩
-- c.jalr x9
example : Ready envC (stC 0x00009482#32) 0x00009482#32 ∧ IP.toRvc 0x00009482#32 = encodeC (.jalr 9#5) ∧
    (CInstr.jalr 9#5).legal := by
  refine ⟨by ready_ex, by decide +kernel, by decide⟩
-- c.lwsp x10, 4(sp) with a misaligned stack pointer
example : Ready envC (stC 0x00004512#32) 0x00004512#32 ∧ IP.toRvc 0x00004512#32 = encodeC (.lwsp 10#5 1#6) ∧
    (CInstr.lwsp 10#5 1#6).legal := by
  refine ⟨by ready_ex, by decide +kernel, by decide⟩
-- c.beqz x8, -2 falls through: pc + 2
example : obs (step envC (stC 0x0000dc7d#32)) (fun s => s.pc) = some 0x80000002#32 := by decide +kernel

/-- **C22 fails** for C.EBREAK: its expansion raises a breakpoint exception, the code stops the
run, with no trap and with the next pc left as it was (here 0: the step lands at address 0). -/
theorem c_ebreak_stops :
    obs (step envC (stC 0x00009002#32)) (fun s => (s.running, s.trapLog, s.pc, s.simInst)) =
      some (false, [], 0#32, 1#64) ∧
    IP.toRvc 0x00009002#32 = encodeC .ebreak ∧
    Spec.execL 2#32 (platOf envC) (expand .ebreak) (archOf (startCore envC (stC 0x00009002#32) 0x00009002#32)) =
      .trap 3#32 0x100073#32 := by
  refine ⟨by decide +kernel, by decide +kernel, rfl⟩

end Ex
end Ama
