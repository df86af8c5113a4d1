import Verif.Lemmas.Inverse
import Verif.Lemmas.ExecC
import Verif.Props.SimdStep
import Verif.Lemmas.DefinedB
import Verif.Props.Compressed
/-!
# C17: undefined encodings raise an illegal-instruction exception
-/
namespace Ama
open M Spec
variable {σ : Type} {E : Env σ} {s : St σ}

/-- words outside the listing that the code executes, or rejects with side effects (each with a
witness below): shifts by a constant with other upper bits, JALR with funct3 ≠ 0, funct3 = 4 of an
implemented CSR, branches with funct3 2 and 3 in builds with hardware models, scratchpad hints
with rs2 ≠ 0 -/
def Lax (E : Env σ) (w : W) : Prop :=
  (IP.opcode w = 0x13#7 ∧ (IP.funct3 w = 1#3 ∨ IP.funct3 w = 5#3)) ∨
  IP.opcode w = 0x67#7 ∨
  (IP.opcode w = 0x73#7 ∧ IP.funct3 w = 4#3 ∧ csrKind E.cfg.rv32c (IP.csrAddr w).toNat ≠ .absent) ∨
  (IP.opcode w = 0x63#7 ∧ E.cfg.hwModels = true) ∨
  (IP.opcode w = 0x0b#7 ∧ IP.funct7 w = 0x7f#7 ∧ (IP.funct3 w = 0#3 ∨ IP.funct3 w = 1#3))

theorem alu_total (f7 : BitVec 7) (f3 : BitVec 3) (op : AluOp) (h : aluRegSel f7 f3 = some op) :
    f7 = (aluF op).1 ∧ f3 = (aluF op).2 := by
  revert f7 f3 op; decide +kernel

/-- which instruction an operation of the switch belongs to -/
def invOp : Simd.Op → Option (X1 ⊕ X2)
  | .addSub n _ false false => some (.inl (.add n)) | .addSub n _ true false => some (.inl (.sub n))
  | .addSub n sg false true => some (.inl (.qadd n sg)) | .addSub n sg true true => some (.inl (.qsub n sg))
  | .mul n _ false => some (.inl (.mul n)) | .mul n sg true => some (.inl (.mulh n sg))
  | .dot n sg => some (.inl (.dot n sg))
  | .minMax n sg false => some (.inl (.min n sg)) | .minMax n sg true => some (.inl (.max n sg))
  | .shift n _ true => some (.inl (.slli n)) | .shift n false false => some (.inl (.srli n))
  | .shift n true false => some (.inl (.srai n))
  | .narrow n false _ => some (.inl (.narrow n)) | .narrow n true sg => some (.inl (.qnarrow n sg))
  | .dup n => some (.inl (.dup n)) | .vins n => some (.inl (.vins n)) | .vext n sg => some (.inl (.vext n sg))
  | .wmul n sg => some (.inr (.wmul n sg)) | .widen n sg => some (.inr (.widen n sg)) | .txp n => some (.inr (.txp n))
  | .scp _ => none

theorem sel_table : ∀ (f7 : BitVec 7) (f3 : BitVec 3), (match Simd.sel f7 f3 with
    | none => true
    | some op => match invOp op with
      | some (.inl x) => x.match? == some (encR f7 0#5 0#5 f3 0#5 0x0b#7)
      | some (.inr y) => y.match? == some (encR f7 0#5 0#5 f3 0#5 0x0b#7)
      | none => f7 == 0x7f#7 && (f3 == 0#3 || f3 == 1#3)) = true := by
  decide +kernel

/-- everything the SIMD switch selects is in the listing, or a scratchpad hint -/
theorem sel_total {f7 : BitVec 7} {f3 : BitVec 3} {op : Simd.Op} (h : Simd.sel f7 f3 = some op) :
    (f7 = 0x7f#7 ∧ (f3 = 0#3 ∨ f3 = 1#3)) ∨ (∃ x : X1, x.match? = some (encR f7 0#5 0#5 f3 0#5 0x0b#7)) ∨
    ∃ x : X2, x.match? = some (encR f7 0#5 0#5 f3 0#5 0x0b#7) := by
  have t := sel_table f7 f3
  rw [h] at t
  cases hi : invOp op with
  | none => simp only [hi] at t; simp at t; exact Or.inl t
  | some v =>
    cases v with
    | inl x => simp only [hi] at t; exact Or.inr (Or.inl ⟨x, by simpa using t⟩)
    | inr x => simp only [hi] at t; exact Or.inr (Or.inr ⟨x, by simpa using t⟩)

theorem bind_pure_unit (m : M σ Unit) : (do m; pure ()) = m := by
  funext s
  rw [M.bind_app]
  cases m s <;> rfl

theorem csrInfo_none {c : Bool} {a : BitVec 16} (h : csrKind c a.toNat = .absent) : csrInfo c a = none := by
  have hkind := kind_table c a
  rw [h] at hkind
  cases hi : csrInfo c a with
  | none => rfl
  | some e =>
    rw [hi] at hkind
    unfold kindOf at hkind
    cases hp : e.perm <;> simp only [hp] at hkind <;> cases hkind

theorem immSel_total (f3 : BitVec 3) (h : f3 ≠ 1#3 ∧ f3 ≠ 5#3) : ∃ op : IOp, iopF op = f3 := by
  obtain ⟨h1, h2⟩ := h
  have : ∀ f3 : BitVec 3, f3 ≠ 1#3 → f3 ≠ 5#3 → f3 = 0#3 ∨ f3 = 2#3 ∨ f3 = 3#3 ∨ f3 = 4#3 ∨ f3 = 6#3 ∨ f3 = 7#3 := by decide
  rcases this f3 h1 h2 with h | h | h | h | h | h <;> subst h
  exacts [⟨.addi, rfl⟩, ⟨.slti, rfl⟩, ⟨.sltiu, rfl⟩, ⟨.xori, rfl⟩, ⟨.ori, rfl⟩, ⟨.andi, rfl⟩]

theorem loadSel_total : ∀ (f3 : BitVec 3) (op : LoadOp), loadSel f3 = some op → f3 = loadF op := by decide
theorem storeSel_total : ∀ (f3 : BitVec 3) (op : StoreOp), storeSel f3 = some op → f3 = storeF op := by decide
theorem branchSel_total : ∀ (f3 : BitVec 3) (op : BranchOp), branchSel f3 = some op → f3 = branchF op := by decide

/-- what the decoder does with a word outside the listing -/
theorem undefined_exec {w : W} (hd : ¬ Defined E.cfg.simd w) (hl : ¬ Lax E w) :
    exec32 E w = eIllegal ∨ exec32 E w = (do eIllegal; nextSeq 4#32) ∨
      (IP.opcode w = 0x63#7 ∧ branchSel (IP.funct3 w) = none ∧ E.cfg.hwModels = false) := by
  have wI := inv_I w
  have wR := inv_R w
  have wS := inv_S w
  have wB := inv_B w
  have wU := inv_U w
  have wJ := inv_J w
  unfold Lax at hl
  generalize hop : IP.opcode w = op at *
  unfold exec32
  rw [hop]
  split
  · -- register-register
    refine Or.inl ?_
    unfold dAluReg
    cases hs : aluRegSel (IP.funct7 w) (IP.funct3 w) with
    | none => rfl
    | some op =>
      obtain ⟨h1, h2⟩ := alu_total _ _ _ hs
      rw [h1, h2] at wR
      exact absurd (wR ▸ Defined.base (.alu op (IP.rd w) (IP.rs1 w) (IP.rs2 w))) hd
  · -- register-immediate
    by_cases h3 : IP.funct3 w = 1#3 ∨ IP.funct3 w = 5#3
    · exact absurd (Or.inl ⟨rfl, h3⟩) hl
    · obtain ⟨o, ho⟩ := immSel_total (IP.funct3 w) ⟨fun h => h3 (Or.inl h), fun h => h3 (Or.inr h)⟩
      rw [← ho] at wI
      exact absurd (wI ▸ Defined.base (.alui o _ _ _)) hd
  · -- load
    refine Or.inl ?_
    unfold dLoad
    cases hs : loadSel (IP.funct3 w) with
    | none => rfl
    | some op =>
      rw [loadSel_total _ _ hs] at wI
      exact absurd (wI ▸ Defined.base (.load op _ _ _)) hd
  · -- store
    refine Or.inr (Or.inl ?_)
    unfold dStore
    cases hs : storeSel (IP.funct3 w) with
    | none => rfl
    | some op =>
      rw [storeSel_total _ _ hs] at wS
      exact absurd (wS ▸ Defined.base (.store op _ _ _)) hd
  · -- branch
    refine Or.inr (Or.inr ⟨rfl, ?_, ?_⟩)
    · cases hs : branchSel (IP.funct3 w) with
      | none => rfl
      | some op =>
        rw [branchSel_total _ _ hs] at wB
        exact absurd (wB ▸ Defined.base (.branch op _ _ _)) hd
    · cases hh : E.cfg.hwModels with
      | false => rfl
      | true => exact absurd (Or.inr (Or.inr (Or.inr (Or.inl ⟨rfl, hh⟩)))) hl
  · exact absurd (Or.inr (Or.inl rfl)) hl
  · exact absurd (wJ ▸ Defined.base (.jal _ _)) hd
  · exact absurd (wU ▸ Defined.base (.lui _ _)) hd
  · exact absurd (wU ▸ Defined.base (.auipc _ _)) hd
  · -- system
    unfold dSystem
    by_cases h3 : IP.funct3 w = 0#3
    · refine Or.inl ?_
      rw [if_neg (by simp [h3]), if_neg, if_neg, if_neg, if_neg]
      · exact fun h => hd (h ▸ (show Defined _ 0x10500073#32 from Defined.base .wfi))
      · exact fun h => hd (h ▸ (show Defined _ 0x30200073#32 from Defined.base .mret))
      · exact fun h => hd (h ▸ (show Defined _ 0x100073#32 from Defined.base .ebreak))
      · exact fun h => hd (h ▸ (show Defined _ 0x73#32 from Defined.base .ecall))
    · refine Or.inr (Or.inl ?_)
      rw [if_pos h3]
      have hf : IP.funct3 w = 4#3 := by
        refine Classical.byContradiction fun h4 => ?_
        have : ∀ f : BitVec 3, f ≠ 0#3 → f ≠ 4#3 → CsrF3 f := by unfold CsrF3; decide
        exact hd (wI ▸ Defined.csr _ _ _ _ (this _ h3 h4))
      have ha : csrKind E.cfg.rv32c (IP.csrAddr w).toNat = .absent :=
        Classical.byContradiction fun h => hl (Or.inr (Or.inr (Or.inl ⟨rfl, hf, h⟩)))
      rw [dCsr_none (csrInfo_none ha)]
  · -- fences
    refine Or.inl ?_
    unfold dMiscMem
    rw [if_neg, if_neg]
    · intro h
      rw [h] at wI
      exact hd (wI ▸ Defined.base (.fence _ _ _))
    · exact fun h => hd (h ▸ (show Defined _ 0x100f#32 from Defined.base .fencei))
  · -- custom
    by_cases hs : E.cfg.simd = true
    · rw [if_pos hs]
      unfold dCustom
      cases hsel : Simd.sel (IP.funct7 w) (IP.funct3 w) with
      | some op =>
        exfalso
        rw [← xWord_enc] at wR
        rcases sel_total hsel with ⟨h1, h2⟩ | ⟨x, hx⟩ | ⟨x, hx⟩
        · exact hl (Or.inr (Or.inr (Or.inr (Or.inr ⟨rfl, h1, h2⟩))))
        · exact hd (wR ▸ Defined.x1 x _ _ _ _ hs hx)
        · exact hd (wR ▸ Defined.x2 x _ _ _ _ hs hx)
      | none =>
        show (do eIllegal; if Simd.selReturns (IP.funct7 w) then pure () else nextSeq 4#32) = _ ∨ _
        cases Simd.selReturns (IP.funct7 w)
        · exact Or.inr (Or.inl rfl)
        · exact Or.inl (bind_pure_unit _)
    · rw [if_neg hs]; exact Or.inl rfl
  · exact Or.inl rfl

section
variable {p : St σ} {c : Core}

theorem twp_illegal {ab : Prop} {Q : Unit → St σ → Prop} (hc : p.core = c)
    (hq : ∀ q, q.core = trapCore 2#32 c.inst c → Q () q) : twp ab eIllegal Q p := by
  unfold eIllegal
  rw [twp_bind, twp_get, twp_trap]
  refine hq _ ?_
  rw [trapTo_core, hc, core_inst hc]

theorem execTo_illegal {w : W} (hc : p.core = c) (hi : c.inst = w) (ho : IP.copcode w = 3#2)
    (hx : exec32 E w = eIllegal) : ExecTo E p (trapCore 2#32 w c) := by
  intro ab Q hq
  have hpi : p.inst = w := (core_inst hc).trans hi
  refine twp_exec32 (by rw [hpi]; exact ho) ?_
  rw [hpi, hx]
  exact twp_illegal hc (hi ▸ hq)

theorem execTo_illegal4 {w : W} (hc : p.core = c) (hi : c.inst = w) (ho : IP.copcode w = 3#2)
    (hx : exec32 E w = (do eIllegal; nextSeq 4#32)) :
    ExecTo E p { trapCore 2#32 w c with nextPc := c.csr A.mtvec + 4#32 } := by
  intro ab Q hq
  have hpi : p.inst = w := (core_inst hc).trans hi
  refine twp_exec32 (by rw [hpi]; exact ho) ?_
  rw [hpi, hx, twp_bind]
  subst hi
  exact twp_illegal hc fun q h => twp_nextSeq h hq

theorem execTo_illegalB {w : W} (hc : p.core = c) (hi : c.inst = w) (hop : IP.opcode w = 0x63#7)
    (hb : branchSel (IP.funct3 w) = none) (hh : E.cfg.hwModels = false) (ha : misaligned E (c.pc + 4#32) = false) :
    ExecTo E p { trapCore 2#32 w c with nextPc := c.pc + 4#32 } := by
  intro ab Q hq
  have hpi : p.inst = w := (core_inst hc).trans hi
  refine twp_exec32 (copcode_of _ 0x63#7 (by rw [hpi]; exact hop) rfl) ?_
  rw [hpi]
  have hsel : exec32 E w = dBranch E w := by unfold exec32; rw [hop]; rfl
  rw [hsel]
  unfold dBranch
  rw [twp_bind, twp_get, twp_bind, core_pc hc]
  refine twp_setNext hc fun q hqc => ?_
  rw [hb, twp_bind]
  refine twp_illegal hqc fun q2 h2 => ?_
  have hn : q2.nextPc = c.pc + 4#32 := by rw [core_nextPc h2]; rfl
  rw [twp_bind, twp_get, hn, ha, hh]
  refine hq _ ?_
  rw [h2, ← hi]
  rfl

theorem execTo_short {w : W} (hc : p.core = c) (hi : c.inst = w) (ho : IP.copcode w ≠ 3#2)
    (hr : E.cfg.rv32c = false) : ExecTo E p (trapCore 2#32 w c) := by
  intro ab Q hq
  have hpi : p.inst = w := (core_inst hc).trans hi
  unfold exec
  rw [twp_bind, twp_get, hpi, if_pos ho, hr]
  exact twp_illegal hc (hi ▸ hq)
end

/-- **C17, partial**: a word outside the 32-bit instruction listing raises illegal instruction with
mtval = the word and has no other effect.  What is missing: the words of `Lax`, each of which the
code executes or rejects with side effects (witnesses below), and reserved 16-bit encodings
(`illegal_c_partial`). -/
theorem illegal_raises_partial {w : W} (h : Ready E s w) (ha : ialigned E.cfg.rv32c s.pc)
    (hl : IP.copcode w = 3#2 ∨ E.cfg.rv32c = false) (hd : ¬ Defined E.cfg.simd w) (hx : ¬ Lax E w) :
    Raises E s 2#32 w := by
  have hw : w ≠ wfiWord := fun e => hd (e ▸ (show Defined _ 0x10500073#32 from Defined.base .wfi))
  obtain ⟨f1, f2, f3, f4, f5, f6, f7, f8, f9, f10⟩ := startCore_frame (E := E) (s := s) (w := w)
  by_cases ho : IP.copcode w = 3#2
  · rcases undefined_exec hd hx with hr | hr | ⟨h1, h2, h3⟩
    · exact raises_word (n := (startCore E s w).nextPc) hw h fun p hp _ => execTo_illegal hp f10 ho hr
    · exact raises_word hw h fun p hp _ => execTo_illegal4 hp f10 ho hr
    · refine raises_word hw h fun p hp _ => execTo_illegalB hp f10 h1 h2 h3 ?_
      rw [f1]
      exact not_misaligned E (ialigned_seq ha)
  · refine raises_word (n := (startCore E s w).nextPc) hw h fun p hp _ =>
      execTo_short hp f10 ho (hl.resolve_left ho)

/-! ## 16-bit encodings -/

/-- reserved encodings the code executes, or rejects with side effects: ADDI4SPN / ADDI16SP / LUI
with a zero immediate, shift amounts with bit 5 set, LWSP to x0 -/
def LaxC (e : W) : Prop :=
  (IP.copcode e = 0#2 ∧ IP.cFunct3 e = 0#3) ∨
  (IP.copcode e = 1#2 ∧ IP.cFunct3 e = 3#3) ∨
  (IP.copcode e = 1#2 ∧ IP.cFunct3 e = 4#3 ∧ (IP.cFunct2h e = 0#2 ∨ IP.cFunct2h e = 1#2)) ∨
  (IP.copcode e = 2#2 ∧ IP.cFunct3 e = 0#3) ∨
  (IP.copcode e = 2#2 ∧ IP.cFunct3 e = 2#3)

theorem rvc_rvc (w : W) : IP.toRvc (IP.toRvc w) = IP.toRvc w := by
  fields [IP.toRvc]

theorem f4_of {e : W} (h3 : IP.cFunct3 e = 4#3) : IP.cFunct4 e = 8#4 ∨ IP.cFunct4 e = 9#4 := by
  obtain ⟨c0, c1, c2⟩ := f3_bits h3
  simp at c0 c1 c2
  cases hb : e[12]
  · left; fields [IP.cFunct4, hb, c0, c1, c2]
  · right; fields [IP.cFunct4, hb, c0, c1, c2]
theorem f6_of {e : W} (h3 : IP.cFunct3 e = 4#3) (h2 : IP.cFunct2h e = 3#2) :
    IP.cFunct6 e = 0x23#6 ∨ IP.cFunct6 e = 0x27#6 := by
  obtain ⟨c0, c1, c2⟩ := f3_bits h3
  have d0 : e[10] = true := by simpa [IP.cFunct2h] using congrArg (fun x => x.getLsbD 0) h2
  have d1 : e[11] = true := by simpa [IP.cFunct2h] using congrArg (fun x => x.getLsbD 1) h2
  simp at c0 c1 c2
  cases hb : e[12]
  · left; fields [IP.cFunct6, hb, c0, c1, c2, d0, d1]
  · right; fields [IP.cFunct6, hb, c0, c1, c2, d0, d1]

/-- what the decoder does with a reserved 16-bit encoding -/
theorem undefinedC_exec {e : W} (hz : IP.toRvc e = e) (ho : IP.copcode e ≠ 3#2) (hd : ¬ DefinedC e) (hl : ¬ LaxC e) :
    exec16 E e = eIllegal ∨ (exec16 E e = cJr E e ∧ IP.rd e = 0#5) := by
  have dd : ∀ ci : CInstr, ci.legal → IP.toRvc e = encodeC ci → False := fun ci h1 h2 => hd ⟨ci, h1, hz ▸ h2⟩
  have q4 : ∀ x : BitVec 2, x = 0#2 ∨ x = 1#2 ∨ x = 2#2 ∨ x = 3#2 := by decide
  have q8 : ∀ x : BitVec 3, x = 0#3 ∨ x = 1#3 ∨ x = 2#3 ∨ x = 3#3 ∨ x = 4#3 ∨ x = 5#3 ∨ x = 6#3 ∨ x = 7#3 := by decide
  unfold LaxC at hl
  rcases q4 (IP.copcode e) with h0 | h0 | h0 | h0
  · have sel : exec16 E e = dCompressed0 E e := by unfold exec16; rw [h0]; rfl
    rcases q8 (IP.cFunct3 e) with h3 | h3 | h3 | h3 | h3 | h3 | h3 | h3
    · exact absurd (Or.inl ⟨h0, h3⟩) hl
    · left; rw [sel]; unfold dCompressed0; rw [h3]; rfl
    · have := inv_CLS h0; rw [h3] at this; exact (dd (.lw _ _ _) trivial this).elim
    · left; rw [sel]; unfold dCompressed0; rw [h3]; rfl
    · left; rw [sel]; unfold dCompressed0; rw [h3]; rfl
    · left; rw [sel]; unfold dCompressed0; rw [h3]; rfl
    · have := inv_CLS h0; rw [h3] at this; exact (dd (.sw _ _ _) trivial this).elim
    · left; rw [sel]; unfold dCompressed0; rw [h3]; rfl
  · have sel : exec16 E e = dCompressed1 E e := by unfold exec16; rw [h0]; rfl
    have hCI := inv_CI e
    rw [h0] at hCI
    have hCJ := inv_CJ h0
    have hCB := inv_CB h0
    rcases q8 (IP.cFunct3 e) with h3 | h3 | h3 | h3 | h3 | h3 | h3 | h3
    · rw [h3] at hCI; exact (dd (.addi _ _) trivial hCI).elim
    · rw [h3] at hCJ; exact (dd (.jal _) trivial hCJ).elim
    · rw [h3] at hCI; exact (dd (.li _ _) trivial hCI).elim
    · exact absurd (Or.inr (Or.inl ⟨h0, h3⟩)) hl
    · have hA := inv_CBA h0 h3
      rcases q4 (IP.cFunct2h e) with h2 | h2 | h2 | h2
      · exact absurd (Or.inr (Or.inr (Or.inl ⟨h0, h3, Or.inl h2⟩))) hl
      · exact absurd (Or.inr (Or.inr (Or.inl ⟨h0, h3, Or.inr h2⟩))) hl
      · rw [h2] at hA; exact (dd (.andi _ _) trivial hA).elim
      · have hC := inv_CA h0
        have sel2 : dCompressed1 E e = dCompressed1Alu E e := by unfold dCompressed1; rw [h3, h2]; rfl
        rcases f6_of h3 h2 with h6 | h6
        · rw [h6] at hC
          rcases q4 (IP.cFunct2l e) with h5 | h5 | h5 | h5 <;> rw [h5] at hC
          exacts [(dd (.alu .sub _ _) trivial hC).elim, (dd (.alu .xor _ _) trivial hC).elim,
            (dd (.alu .or _ _) trivial hC).elim, (dd (.alu .and _ _) trivial hC).elim]
        · left
          rw [sel, sel2]; unfold dCompressed1Alu; rw [h6]
          rcases q4 (IP.cFunct2l e) with h5 | h5 | h5 | h5 <;> rw [h5] <;> rfl
    · rw [h3] at hCJ; exact (dd (.j _) trivial hCJ).elim
    · rw [h3] at hCB; exact (dd (.beqz _ _) trivial hCB).elim
    · rw [h3] at hCB; exact (dd (.bnez _ _) trivial hCB).elim
  · have sel : exec16 E e = dCompressed2 E e := by unfold exec16; rw [h0]; rfl
    have hCR := inv_CR h0
    rcases q8 (IP.cFunct3 e) with h3 | h3 | h3 | h3 | h3 | h3 | h3 | h3
    · exact absurd (Or.inr (Or.inr (Or.inr (Or.inl ⟨h0, h3⟩)))) hl
    · left; rw [sel]; unfold dCompressed2; rw [h3]; rfl
    · exact absurd (Or.inr (Or.inr (Or.inr (Or.inr ⟨h0, h3⟩)))) hl
    · left; rw [sel]; unfold dCompressed2; rw [h3]; rfl
    · rcases f4_of h3 with h4 | h4
      · rw [h4] at hCR
        by_cases hr : IP.cRs2 e = 0#5
        · by_cases hrd : IP.rd e = 0#5
          · right; refine ⟨?_, hrd⟩
            rw [sel]; unfold dCompressed2; rw [h3, h4]; exact if_pos hr
          · rw [hr] at hCR; exact (dd (.jr _) hrd hCR).elim
        · exact (dd (.mv _ _) hr hCR).elim
      · rw [h4] at hCR
        by_cases hr : IP.cRs2 e = 0#5
        · rw [hr] at hCR
          by_cases hrd : IP.rd e = 0#5
          · rw [hrd] at hCR; exact (dd .ebreak trivial hCR).elim
          · exact (dd (.jalr _) hrd hCR).elim
        · exact (dd (.add _ _) hr hCR).elim
    · left; rw [sel]; unfold dCompressed2; rw [h3]; rfl
    · exact (dd (.swsp _ _) trivial (inv_swsp h0 h3)).elim
    · left; rw [sel]; unfold dCompressed2; rw [h3]; rfl
  · exact absurd h0 ho

/-- **C17, partial**: with the C extension, a reserved 16-bit encoding outside `LaxC` raises illegal
instruction with mtval = the halfword and has no other effect. -/
theorem illegal_c_partial {w : W} (h : Ready E s w) (hr : E.cfg.rv32c = true) (ho : IP.copcode w ≠ 3#2)
    (hd : ¬ DefinedC (IP.toRvc w)) (hx : ¬ LaxC (IP.toRvc w)) : Raises E s 2#32 (IP.toRvc w) := by
  have hw : w ≠ wfiWord := fun e => ho (e ▸ (by decide : IP.copcode wfiWord = 3#2))
  obtain ⟨f1, f2, f3, f4, f5, f6, f7, f8, f9, f10⟩ := startCore_frame (E := E) (s := s) (w := w)
  have ho2 : IP.copcode (IP.toRvc w) ≠ 3#2 := by rw [copcode_rvc]; exact ho
  have h0 : (startCore E s w).rf 0#5 = 0#32 := by rw [f3]; exact h.x0
  generalize he : IP.toRvc w = e at *
  have hz : IP.toRvc e = e := by rw [← he]; exact rvc_rvc w
  rcases undefinedC_exec (E := E) hz ho2 hd hx with hr2 | ⟨hr2, hr3⟩
  · refine raises_word' (n := (startCore E s w).nextPc) (i := e) hw h fun p hp _ => ?_
    refine execTo_c hr (by rw [core_inst hp, f10, he]) ho2 fun ab Q hq => ?_
    rw [hr2]
    refine twp_illegal (c := { startCore E s w with inst := e }) ?_ hq
    rw [← hp]; rfl
  · refine raises_word' (n := 0#32) (i := e) hw h fun p hp _ => ?_
    refine execTo_c hr (by rw [core_inst hp, f10, he]) ho2 fun ab Q hq => ?_
    rw [hr2]
    unfold cJr
    rw [if_pos hr3, twp_bind]
    refine twp_illegal (c := { startCore E s w with inst := e }) (by rw [← hp]; rfl) fun q hqc => ?_
    have hq0 : q.rf 0#5 = 0#32 := by rw [core_rf hqc]; exact h0
    rw [twp_bind, twp_rg hq0, twp_bind, hr3]
    refine twp_setNext hqc fun q2 h2 => ?_
    refine twp_emit fun q3 h3 _ => hq q3 ((h3.trans h2).trans ?_)
    have hz0 : rx q.rf 0#5 &&& ~~~1#32 = 0#32 := by
      unfold rx; simp
    rw [hz0]
    rfl

/-! ## Non-vacuity and the exceptions -/

namespace Ex
theorem undef (simd : Bool) (w : W) (h : definedB simd w = false) : ¬ Defined simd w :=
  fun hd => by rw [defined_check hd] at h; cases h
theorem undefC (e : W) (h : definedCB e = false) : ¬ DefinedC e :=
  fun hd => by rw [definedC_check hd] at h; cases h

-- illegal_raises_partial: an unused opcode, LD of RV64, an unassigned SIMD slot, the word 0
example : Ready env0 (stI 0xffffffff#32) 0xffffffff#32 ∧ ¬ Defined true 0xffffffff#32 ∧ ¬ Lax env0 0xffffffff#32 :=
  ⟨by ready_ex, undef _ _ (by decide), by unfold Lax; decide⟩
example : Ready env0 (stI 0x0000b083#32) 0x0000b083#32 ∧ ¬ Defined true 0x0000b083#32 ∧ ¬ Lax env0 0x0000b083#32 :=
  ⟨by ready_ex, undef _ _ (by decide), by unfold Lax; decide⟩
example : Ready env0 (stI 0x0a20808b#32) 0x0a20808b#32 ∧ ¬ Defined true 0x0a20808b#32 ∧ ¬ Lax env0 0x0a20808b#32 :=
  ⟨by ready_ex, undef _ _ (by decide), by unfold Lax; decide⟩
example : Ready env0 (stI 0#32) 0#32 ∧ ¬ Defined true 0#32 ∧ ¬ Lax env0 0#32 :=
  ⟨by ready_ex, undef _ _ (by decide), by unfold Lax; decide⟩
-- illegal_c_partial: C.FLD, C.SUBW, C.JR x0
example : Ready envC (stC 0xbeef2000#32) 0xbeef2000#32 ∧ ¬ DefinedC (IP.toRvc 0xbeef2000#32) ∧
    ¬ LaxC (IP.toRvc 0xbeef2000#32) :=
  ⟨by ready_ex, undefC _ (by decide), by unfold LaxC; decide⟩
example : Ready envC (stC 0x9c05#32) 0x9c05#32 ∧ ¬ DefinedC (IP.toRvc 0x9c05#32) ∧ ¬ LaxC (IP.toRvc 0x9c05#32) :=
  ⟨by ready_ex, undefC _ (by decide), by unfold LaxC; decide⟩
example : Ready envC (stC 0x8002#32) 0x8002#32 ∧ ¬ DefinedC (IP.toRvc 0x8002#32) ∧ ¬ LaxC (IP.toRvc 0x8002#32) :=
  ⟨by ready_ex, undefC _ (by decide), by unfold LaxC; decide⟩

/-- **C17 fails** for SLLI with a non-zero upper immediate: the word executes. -/
theorem slli_any_upper : ¬ Defined true 0x04109093#32 ∧
    obs (step env0 (stI 0x04109093#32)) (fun s => (s.trapLog.length, s.rf 1#5, s.simInst)) =
      some (0, 0x00000200#32, 1#64) :=
  ⟨undef _ _ (by decide), by decide +kernel⟩
/-- **C17 fails** for the scratchpad hint with rs2 ≠ 0: the word executes and writes rd. -/
theorem scp_any_rs2 : ¬ Defined true 0xfe10828b#32 ∧
    obs (step env0 (stI 0xfe10828b#32)) (fun s => (s.trapLog.length, s.rf 5#5, s.simInst)) = some (0, 1#32, 1#64) :=
  ⟨undef _ _ (by decide), by decide +kernel⟩

/-- hardware models on, with a predict-not-taken predictor -/
def envHw : Env Unit := { env0 with cfg := { cfg0 with hwModels := true } }
/-- **C17 fails** in builds with hardware models for branches with funct3 = 2: the trap is taken,
but the word after the faulting instruction (`addi x6, x0, 7`) is then executed in place of the
handler's first instruction (`addi x5, x0, 1` at 0x80000014). -/
theorem bad_branch_skips_handler :
    let prog : List W := [0x00000297#32, 0x01428293#32, 0x30529073#32, 0x00002063#32, 0x00700313#32, 0x00100293#32]
    ¬ Defined true 0x00002063#32 ∧
    obs (runN envHw 4 (st0 envHw prog)) (fun s => (s.pc, s.trapLog)) =
      some (0x80000014#32, [(2#32, 0x00002063#32, 0x8000000c#32)]) ∧
    obs (runN envHw 5 (st0 envHw prog)) (fun s => (s.pc, s.rf 5#5, s.rf 6#5)) =
      some (0x80000018#32, 0x80000014#32, 7#32) ∧
    obs (runN env0 5 (st0 env0 prog)) (fun s => (s.pc, s.rf 5#5, s.rf 6#5)) =
      some (0x80000018#32, 1#32, 0xc0ffee#32) :=
  ⟨undef _ _ (by decide), by decide +kernel, by decide +kernel, by decide +kernel⟩

/-- **C17 fails** for C.ADDI4SPN with a zero immediate: the trap is taken and x9 is written. -/
theorem c_addi4spn0_writes : ¬ DefinedC 0x0004#32 ∧
    obs (step envC (stC 0x0004#32)) (fun s => (s.rf 9#5, s.trapLog)) =
      some (0x80000101#32, [(2#32, 0x0004#32, 0x80000000#32)]) :=
  ⟨undefC _ (by decide), by decide +kernel⟩
/-- **C17 fails** for the all-zero halfword: two traps are taken, the second of which overwrites
mepc with the handler address. -/
theorem c_zero_traps_twice : ¬ DefinedC 0#32 ∧
    obs (step envC (stC 0#32)) (fun s => (s.csr 0x341#16, s.trapLog)) =
      some (0#32, [(2#32, 0#32, 0#32), (2#32, 0#32, 0x80000000#32)]) :=
  ⟨undefC _ (by decide), by decide +kernel⟩
/-- **C17 fails** for C.LUI / C.ADDI16SP with a zero immediate: the trap is taken and rd is
written (x5 := 0), and for rd = x0 the word executes as a NOP. -/
theorem c_lui0_writes : ¬ DefinedC 0x6281#32 ∧ ¬ DefinedC 0x6101#32 ∧ ¬ DefinedC 0x6001#32 ∧
    obs (step envC (stC 0x6281#32)) (fun s => (s.rf 5#5, s.trapLog)) = some (0#32, [(2#32, 0x6281#32, 0x80000000#32)]) ∧
    obs (step envC (stC 0x6101#32)) (fun s => s.trapLog) = some [(2#32, 0x6101#32, 0x80000000#32)] ∧
    obs (step envC (stC 0x6001#32)) (fun s => (s.trapLog, s.simInst)) = some ([], 1#64) :=
  ⟨undefC _ (by decide), undefC _ (by decide), undefC _ (by decide), by decide +kernel, by decide +kernel,
    by decide +kernel⟩
/-- **C17 fails** for compressed shifts by 32 and more: they execute (with undefined behaviour of
the host shift in strict mode). -/
theorem c_shift32_executes : ¬ DefinedC 0x1282#32 ∧ ¬ DefinedC 0x9001#32 ∧
    obs (step envC (stC 0x1282#32)) (fun s => (s.trapLog, s.simInst)) = some ([], 1#64) ∧
    obs (step envC (stC 0x9001#32)) (fun s => (s.trapLog, s.simInst)) = some ([], 1#64) ∧
    (match step { envC with cfg := { envC.cfg with strict := true } } (stC 0x1282#32) with
      | .ub .shift => true | _ => false) = true :=
  ⟨undefC _ (by decide), undefC _ (by decide), by decide +kernel, by decide +kernel, by decide +kernel⟩
/-- **C17 fails** for C.LWSP to x0: the load is performed. -/
theorem c_lwsp0_executes : ¬ DefinedC 0x4002#32 ∧
    obs (step envC { stC 0x4002#32 with rf := fun r => if r = 0#5 then 0#32 else 0x80000100#32 }) (fun s => (s.trapLog, s.simInst)) = some ([], 1#64) :=
  ⟨undefC _ (by decide), by decide +kernel⟩
end Ex

end Ama
