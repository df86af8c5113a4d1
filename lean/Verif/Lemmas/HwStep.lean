import Verif.Lemmas.HwInd
import Verif.Lemmas.PrimsOf
import Verif.Props.Decode
/-!
# A step with and without the hardware models
-/
namespace Ama.HwInd
open M
variable {σ : Type} {E : Env σ}

theorem norm_even (a : W) : (toNorm a).toNat % 2 = a.toNat % 2 := by
  have : (toNorm a).toNat = a.toNat % 2 ^ 17 := by
    unfold toNorm
    rw [BitVec.toNat_and]
    exact Nat.and_two_pow_sub_one_eq_mod _ 17
  omega

theorem immB_ev (w : W) : (IP.immB w).toNat % 2 = 0 := by
  have h : (IP.immB w).getLsbD 0 = false := by simp [IP.immB, BitVec.getElem_sshiftRight]
  rw [← BitVec.testBit_toNat, Nat.testBit_zero] at h
  simpa using h

/-- the buffered word is what a fetch from `a` would deliver -/
def Buf (E : Env σ) (a : W) (s : St σ) : Prop :=
  a.toNat % 2 = 0 ∧ checkAccess (toNorm a) false false true E.regions = true ∧
    s.ram.rd32 (toNorm a) = .ok s.instResolved

theorem rdInst_even {a : W} (h : a.toNat % 2 = 0) {s s' : St σ} {i : W} (e : rdInst E a s = .ok (i, s')) :
    checkAccess (toNorm a) false false true E.regions = true ∧ s.ram.rd32 (toNorm a) = .ok i ∧
      ∃ g, s' = { s with hw := g } := by
  unfold rdInst at e
  simp only [norm_even, h, ne_eq, not_true, if_false] at e
  obtain ⟨_, s1, e1, e⟩ := bind_eq_ok.1 e
  cases hc : checkAccess (toNorm a) false false true E.regions with
  | true =>
    rw [hc] at e1
    injection e1 with e1; injection e1 with _ e1; subst e1
    rw [M.bind_ok (M.get_app _ _)] at e
    obtain ⟨w, s2, e2, e⟩ := bind_eq_ok.1 e
    cases hr : s.ram.rd32 (toNorm a) with
    | ub k => rw [hr] at e2; cases e2
    | abort => rw [hr] at e2; cases e2
    | ok v =>
      rw [hr] at e2
      injection e2 with e2; injection e2 with e2 e3; subst e2 e3
      obtain ⟨_, s3, e3, e⟩ := bind_eq_ok.1 e
      injection e with e; injection e with e4 e5; subst e4 e5
      refine ⟨rfl, rfl, ?_⟩
      unfold hwUpd at e3
      split at e3
      · injection e3 with e3; injection e3 with _ e3; exact ⟨_, e3.symm⟩
      · injection e3 with e3; injection e3 with _ e3; exact ⟨_, e3.symm⟩
  | false =>
    rw [hc] at e1
    cases e1

/-- a fetch from a buffered address succeeds without the hardware models -/
theorem rdInst_plain {a : W} {s : St σ} (h : Buf E a s) :
    rdInst (plain E) a (erase s) = .ok (s.instResolved, erase s) := by
  obtain ⟨h1, h2, h3⟩ := h
  unfold rdInst
  simp only [norm_even, h1, ne_eq, not_true, if_false]
  unfold mmRdInst
  rw [h2]
  rw [M.bind_ok (show (guardAccess true : M Unit Unit) (erase s) = .ok ((), erase s) from rfl),
    M.bind_ok (M.get_app _ _)]
  rw [M.bind_ok (show (M.lift ((erase s).ram.rd32 (toNorm a)) : M Unit W) (erase s) = .ok (s.instResolved, erase s) by
    rw [show (erase s).ram.rd32 (toNorm a) = .ok s.instResolved from h3]; rfl)]
  rfl

/-- without a predictor nothing is ever fetched speculatively -/
def NoSpec (E : Env σ) (s : St σ) : Prop := E.cfg.noBp = true → s.instSpec = none

/-- what `branchHw` does to everything else: nothing -/
theorem branchHw_erase (hp : Predicts E) {w : W} {s s' : St σ} (hpc : s.pc.toNat % 2 = 0)
    (hn : s.nextPc.toNat % 2 = 0) (hns : NoSpec E s) (e : branchHw E w s = .ok ((), s')) :
    erase s' = erase s ∧ NoSpec E s' ∧ Buf E s'.nextPc s' := by
  unfold branchHw at e
  rw [M.bind_ok (M.mod_app _ _), M.bind_ok (M.get_app _ _), M.bind_ok (M.get_app _ _)] at e
  generalize hr : E.hw.bpPredict _ (IP.immB w) (IP.funct3 w) _ = r at e
  rw [M.bind_ok (M.mod_app _ _)] at e
  obtain ⟨_, s1, e1, e⟩ := bind_eq_ok.1 e
  -- the speculative fetch
  have h1 : ∃ g sp, s1 = { s with lastInstBranch := true, hw := g, instSpec := sp } ∧
      (E.cfg.noBp = true → sp = s.instSpec) ∧
      (E.cfg.noBp = false → ∃ i, sp = some i ∧ checkAccess (toNorm r.1) false false true E.regions = true ∧
        s.ram.rd32 (toNorm r.1) = .ok i) := by
    split at e1
    · rename_i hb
      injection e1 with e1; injection e1 with _ e1
      exact ⟨_, _, e1.symm, fun _ => rfl, fun h => (by rw [hb] at h; cases h)⟩
    · rename_i hb
      obtain ⟨i, s2, e2, e1⟩ := bind_eq_ok.1 e1
      have hev : r.1.toNat % 2 = 0 := by
        have := immB_ev w
        rcases hp with hp | hp
        · exact absurd hp hb
        · rcases hp s.pc (IP.immB w) (IP.funct3 w) s.nextPc s.hw with h | h | h
          · have h : r.1 = _ := hr ▸ h
            rw [h, BitVec.toNat_add]; omega
          · have h : r.1 = _ := hr ▸ h
            rw [h, BitVec.toNat_add]
            have : (4#32).toNat = 4 := rfl
            omega
          · have h : r.1 = _ := hr ▸ h
            rw [h]; exact hn
      obtain ⟨f1, f2, g, rfl⟩ := rdInst_even hev e2
      injection e1 with e1; injection e1 with _ e1
      exact ⟨_, _, e1.symm, fun h => absurd h hb, fun _ => ⟨i, rfl, f1, f2⟩⟩
  obtain ⟨g, sp, rfl, hsp1, hsp2⟩ := h1
  rw [M.bind_ok (M.mod_app _ _), M.bind_ok (M.get_app _ _)] at e
  dsimp only at e
  have hns' : ∀ (t : St σ), t.instSpec = sp → NoSpec E t := fun t ht hb => by
    rw [ht, hsp1 hb]; exact hns hb
  split at e
  · rename_i hnr
    rw [M.bind_ok (M.get_app _ _)] at e
    dsimp only at e
    cases hs : sp with
    | none => rw [hs] at e; cases e
    | some i =>
      subst hs
      injection e with e; injection e with _ e
      subst e
      refine ⟨rfl, hns' _ rfl, ?_⟩
      have hb : E.cfg.noBp = false := by
        cases hb : E.cfg.noBp with
        | false => rfl
        | true => have := hns hb; rw [← hsp1 hb] at this; cases this
      obtain ⟨j, hj, f1, f2⟩ := hsp2 hb
      injection hj with hj; subst hj
      exact ⟨hn, by rw [hnr]; exact f1, by rw [hnr]; exact f2⟩
  · obtain ⟨i, s2, e2, e⟩ := bind_eq_ok.1 e
    obtain ⟨f1, f2, g, rfl⟩ := rdInst_even hn e2
    injection e with e; injection e with _ e
    subst e
    exact ⟨rfl, hns' _ rfl, hn, f1, f2⟩

/-- what holds right after executing an instruction, if it filled the fetch buffer -/
def Filled (E : Env σ) (s : St σ) : Prop :=
  s.lastInstBranch = true → s.trapped = false ∧ s.wfiActive = false ∧ s.wfiPend = false ∧ Buf E s.nextPc s

/-- a WFI that was executed takes effect at the end of the step -/
def Pends (s : St σ) : Prop := s.wfiPend = true → s.trapped = false ∧ s.wfiActive = false

theorem opcode_bits (w : W) : w.extractLsb' 0 7 = IP.opcode w := by fields [IP.opcode]
theorem funct3_bits (w : W) : w.extractLsb' 12 3 = IP.funct3 w := by fields [IP.funct3]
theorem funct7_bits (w : W) : w.extractLsb' 25 7 = IP.funct7 w := by fields [IP.funct7]
theorem rd_bits (w : W) : w.extractLsb' 7 5 = IP.rd w := by fields [IP.rd]

theorem branchSel_none {w : W} (h : branchSel (IP.funct3 w) = none) (ho : IP.opcode w = 0x63#7) : isBadBranch w := by
  unfold isBadBranch
  rw [opcode_bits, funct3_bits]
  refine ⟨ho, ?_⟩
  have : ∀ f : BitVec 3, branchSel f = none → f = 2#3 ∨ f = 3#3 := by decide
  exact this _ h

theorem dBranch_erase (hp : Predicts E) {w : W} {s s' : St σ} (ho : IP.opcode w = 0x63#7) (hw : ¬isBadBranch w)
    (hpc : s.pc.toNat % 2 = 0) (hl : s.lastInstBranch = false) (ht : s.trapped = false)
    (ha : s.wfiActive = false) (hpe : s.wfiPend = false) (hns : NoSpec E s) (e : dBranch E w s = .ok ((), s')) :
    dBranch (plain E) w (erase s) = .ok ((), erase s') ∧ NoSpec E s' ∧ Filled E s' ∧ Pends s' := by
  unfold dBranch at e ⊢
  rw [M.bind_ok (M.get_app _ _)] at e ⊢
  rw [M.bind_ok (show setNext (s.pc + 4#32) s = .ok ((), { s with nextPc := s.pc + 4#32 }) from rfl)] at e
  rw [M.bind_ok (show setNext (s.pc + 4#32) (erase s) =
    .ok ((), erase { s with nextPc := s.pc + 4#32 }) from rfl)]
  cases hs : branchSel (IP.funct3 w) with
  | none => exact absurd (branchSel_none hs ho) hw
  | some op =>
    rw [hs] at e
    obtain ⟨_, s1, e1, e⟩ := bind_eq_ok.1 e
    -- deciding the branch
    have h1 : Er (do
        let a ← rg (IP.rs1 w)
        let b ← rg (IP.rs2 w)
        if branchCond op a b then do
          setNext (s.pc + IP.immB w)
          emit E (.branch op true)
        else emit E (.branch op false) : M σ Unit) (do
        let a ← rg (IP.rs1 w)
        let b ← rg (IP.rs2 w)
        if branchCond op a b then do
          setNext (s.pc + IP.immB w)
          emit (plain E) (.branch op true)
        else emit (plain E) (.branch op false)) := by er
    obtain ⟨g1, g2⟩ := h1 _ _ _ e1
    have hpe1 : s1.wfiPend = false := g2.pend.trans hpe
    let P : St σ → Prop := fun t => t.pc = s.pc ∧ t.trapped = false ∧ t.wfiActive = false ∧ t.nextPc.toNat % 2 = 0
    have hem : ∀ ev, Pres P (emit E ev) := fun ev => Pres.ite (Pres.mod fun _ h => h) (Pres.pure _)
    have h2 : Pres P (do
        let a ← rg (IP.rs1 w)
        let b ← rg (IP.rs2 w)
        if branchCond op a b then do
          setNext (s.pc + IP.immB w)
          emit E (.branch op true)
        else emit E (.branch op false) : M σ Unit) :=
      Pres.bind (Pres.get _) fun _ => Pres.bind (Pres.get _) fun _ => Pres.ite
        (Pres.bind (Pres.mod fun t h => ⟨h.1, h.2.1, h.2.2.1, by
          have := immB_ev w
          change (s.pc + IP.immB w).toNat % 2 = 0
          rw [BitVec.toNat_add]; omega⟩) fun _ => hem _) (hem _)
    have h3 : P s1 := h2 { s with nextPc := s.pc + 4#32 } _ _ ⟨rfl, ht, ha, by
      change (s.pc + 4#32).toNat % 2 = 0
      rw [BitVec.toNat_add]
      have : (4#32).toNat = 4 := rfl
      omega⟩ e1
    obtain ⟨q1, q2, q3, q4⟩ := h3
    have hl1 : s1.lastInstBranch = false := g2.lib.trans hl
    have hns1 : NoSpec E s1 := fun hb => g2.spec.trans (hns hb)
    rw [M.bind_ok g1]
    rw [M.bind_ok (M.get_app _ _)] at e ⊢
    have hmis : misaligned (plain E) s1.nextPc = misaligned E s1.nextPc := rfl
    simp only [hmis]
    split at e
    · rename_i hm
      rw [if_pos hm]
      obtain ⟨f1, f2⟩ := er_eInstMisaligned (σ := σ) s1.nextPc _ _ _ e
      exact ⟨f1, fun hb => f2.spec.trans (hns1 hb), fun h => (by rw [f2.lib, hl1] at h; cases h),
        fun h => (by rw [f2.pend, hpe1] at h; cases h)⟩
    · rename_i hm
      rw [if_neg hm]
      simp only [Bool.false_eq_true, if_false]
      split at e
      · obtain ⟨f1, f2, f3⟩ := branchHw_erase hp (by rw [q1]; exact hpc) q4 hns1 e
        have h4 : s'.wfiPend = false := (congrArg St.wfiPend f1).trans hpe1
        refine ⟨by rw [f1]; rfl, f2, fun _ => ⟨?_, ?_, h4, f3⟩, fun h => (by rw [h4] at h; cases h)⟩
        · have := congrArg St.trapped f1; exact this.trans q2
        · have := congrArg St.wfiActive f1; exact this.trans q3
      · injection e with e; injection e with _ e
        subst e
        exact ⟨rfl, hns1, fun h => (by rw [hl1] at h; cases h), fun h => (by rw [hpe1] at h; cases h)⟩

theorem scp_sel {w : W} {m : Simd.ScpMode} (h : Simd.sel (IP.funct7 w) (IP.funct3 w) = some (.scp m)) :
    IP.funct7 w = 0x7f#7 ∧ (IP.funct3 w = 0#3 ∨ IP.funct3 w = 1#3) := by
  have : ∀ (f7 : BitVec 7) (f3 : BitVec 3), (∃ m, Simd.sel f7 f3 = some (.scp m)) → f7 = 0x7f#7 ∧ (f3 = 0#3 ∨ f3 = 1#3) := by
    have : ∀ (f7 : BitVec 7) (f3 : BitVec 3),
        (Simd.sel f7 f3 = some (.scp .lcl) ∨ Simd.sel f7 f3 = some (.scp .rel)) → f7 = 0x7f#7 ∧ (f3 = 0#3 ∨ f3 = 1#3) := by
      decide +kernel
    rintro f7 f3 ⟨m, hm⟩
    refine this f7 f3 ?_
    cases m
    · exact .inl hm
    · exact .inr hm
  exact this _ _ ⟨m, h⟩

/-- a hint that does not answer success, or answers to `x0`, is the same without the models -/
theorem dCustom_erase {w : W} {s s' : St σ} (ho : IP.opcode w = 0x0b#7) (hw : s.inst = w) (hb : ¬ScpAnswered s')
    (e : dCustom E w s = .ok ((), s')) :
    dCustom (plain E) w (erase s) = .ok ((), erase s') ∧ Fr s s' := by
  unfold dCustom at e ⊢
  cases hs : Simd.sel (IP.funct7 w) (IP.funct3 w) with
  | none =>
    rw [hs] at e
    simp only at e ⊢
    have : Er (do
      eIllegal
      if Simd.selReturns (IP.funct7 w) = true then pure () else nextSeq 4#32 : M σ Unit) (do
      eIllegal
      if Simd.selReturns (IP.funct7 w) = true then pure () else nextSeq 4#32) := by er
    exact this _ _ _ e
  | some op =>
    rw [hs] at e
    simp only at e ⊢
    by_cases hop : ∀ m, op ≠ .scp m
    · have : Er (do
        simdExec E w op
        emit E (.simd op)
        nextSeq 4#32 : M σ Unit) (do
        simdExec (plain E) w op
        emit (plain E) (.simd op)
        nextSeq 4#32) := Er.bind (er_simdExec _ _ hop) fun _ => by er
      exact this _ _ _ e
    · have : ∃ m, op = .scp m := by
        cases op
        case scp m => exact ⟨m, rfl⟩
        all_goals exact absurd (fun _ => (by simp)) hop
      obtain ⟨m, rfl⟩ := this
      obtain ⟨h1, h2⟩ := scp_sel hs
      unfold ScpAnswered isScp at hb
      rw [opcode_bits, funct3_bits, funct7_bits, rd_bits] at hb
      -- the rest of the instruction
      have key : ∀ v (t t' : St σ), t.inst = w → ((writeRf (IP.rd w) v >>= fun _ => emit E (.simd (.scp m)) >>= fun _ =>
          nextSeq 4#32) t = .ok ((), t')) → t' = s' →
          ((writeRf (IP.rd w) 1#32 >>= fun _ => emit (plain E) (.simd (.scp m)) >>= fun _ => nextSeq 4#32) (erase t) =
            .ok ((), erase t')) ∧ Fr t t' := by
        rintro v t t' hti et rfl
        have her : ∀ v, Er (writeRf (IP.rd w) v >>= fun _ => emit E (.simd (.scp m)) >>= fun _ => nextSeq 4#32 : M σ Unit)
          (writeRf (IP.rd w) v >>= fun _ => emit (plain E) (.simd (.scp m)) >>= fun _ => nextSeq 4#32) := fun v => by er
        obtain ⟨k1, k2⟩ := her v _ _ _ et
        refine ⟨?_, k2⟩
        have hi : t'.inst = w := k2.inst.trans hti
        rw [hi] at hb
        by_cases hrd : IP.rd w = 0#5
        · rw [hrd] at k1 ⊢; exact k1
        · have hv : t'.rf (IP.rd w) = v := by
            obtain ⟨_, t1, x1, x⟩ := bind_eq_ok.1 et
            have hp : Pres (fun q : St σ => q.rf (IP.rd w) = v) (emit E (.simd (.scp m)) >>= fun _ => nextSeq 4#32) :=
              Pres.bind (Pres.ite (Pres.mod fun _ h => h) (Pres.pure _)) fun _ => Pres.mod fun _ h => h
            refine hp _ _ _ ?_ x
            unfold writeRf at x1
            rw [if_neg hrd] at x1
            injection x1 with x1; injection x1 with _ x1
            rw [← x1]; exact upd_same _ _ _
          have : v = 1#32 := by
            by_contra hne
            exact hb ⟨⟨ho, h1, h2⟩, hrd, by rw [hv]; exact hne⟩
          subst this; exact k1
      obtain ⟨_, s1, e1, e2⟩ := bind_eq_ok.1 e
      unfold simdExec at e1
      rw [M.bind_ok (show rg (IP.rs1 w) s = .ok (s.rf (IP.rs1 w), s) from rfl),
        M.bind_ok (show rg (IP.rs2 w) s = .ok (s.rf (IP.rs2 w), s) from rfl),
        M.bind_ok (show rg (IP.rd w) s = .ok (s.rf (IP.rd w), s) from rfl)] at e1
      obtain ⟨v, s2, e3, e4⟩ := bind_eq_ok.1 (show (cacheHint E (s.rf (IP.rs1 w)) m >>= fun r => writeRf (IP.rd w) r) s = _ from e1)
      have hs2 : ∃ g, s2 = { s with hw := g } := by
        unfold cacheHint at e3
        split at e3
        · injection e3 with e3; injection e3 with _ e3; exact ⟨_, e3.symm⟩
        · injection e3 with e3; injection e3 with _ e3; exact ⟨_, e3.symm⟩
      obtain ⟨g, rfl⟩ := hs2
      obtain ⟨k1, k2⟩ := key v { s with hw := g } s' hw (bind_eq_ok.2 ⟨_, s1, e4, e2⟩) rfl
      refine ⟨?_, ⟨k2.lib, k2.spec, k2.inst, k2.pend⟩⟩
      obtain ⟨_, t1, k3, k4⟩ := bind_eq_ok.1 k1
      exact bind_eq_ok.2 ⟨(), t1, k3, k4⟩

theorem exec32_erase (hp : Predicts E) {w : W} {s s' : St σ} (hw : s.inst = w) (hb : ¬ScpAnswered s')
    (hbb : ¬isBadBranch s'.inst) (hpc : w ≠ 0#32 → s.pc.toNat % 2 = 0 ∧ s.trapped = false)
    (hl : s.lastInstBranch = false) (ha : s.wfiActive = false) (hpe : s.wfiPend = false) (hns : NoSpec E s)
    (e : exec32 E w s = .ok ((), s')) :
    exec32 (plain E) w (erase s) = .ok ((), erase s') ∧ NoSpec E s' ∧ Filled E s' ∧ Pends s' := by
  have fin : ∀ {m' : M Unit Unit}, m' (erase s) = .ok ((), erase s') ∧ Fr s s' →
      m' (erase s) = .ok ((), erase s') ∧ NoSpec E s' ∧ Filled E s' ∧ Pends s' := fun ⟨h1, h2⟩ =>
    ⟨h1, fun h => h2.spec.trans (hns h), fun h => (by rw [h2.lib, hl] at h; cases h),
      fun h => (by rw [h2.pend, hpe] at h; cases h)⟩
  by_cases ho : IP.opcode w = 0x63#7
  · have h1 : ∀ {τ : Type} (F : Env τ), exec32 F w = dBranch F w := by
      intro τ F; unfold exec32; rw [ho]; rfl
    rw [h1] at e ⊢
    have hi : s'.inst = w := by
      have hk : Pres (fun q : St σ => q.inst = w) (dBranch E w) := by
        have hM : PrimsN E (fun q : St σ => q.inst = w) :=
          { ramWr := fun a v n h => ramWr_of (fun _ _ h => h) (fun _ _ h => h) a v n h
            uartWr := uartWr_of fun _ _ h => h
            uartRd := uartRd_of (fun _ _ h => h) fun _ _ h => h }
        exact hM.dBranch _
      exact hk _ _ _ hw e
    have hw0 : w ≠ 0#32 := fun h => absurd (h ▸ ho) (by decide)
    exact dBranch_erase hp ho (hi ▸ hbb) (hpc hw0).1 hl (hpc hw0).2 ha hpe hns e
  · by_cases hwf : w = 0x10500073#32
    · have hw0 : w ≠ 0#32 := fun h => absurd (h.symm.trans hwf) (by decide)
      have h1 : ∀ {τ : Type} (F : Env τ), exec32 F w = (do
          nextSeq 4#32
          M.mod fun s => { s with wfiPend := true }
          emit F .wfi) := by
        intro τ F; rw [hwf]; rfl
      rw [h1] at e ⊢
      rw [M.bind_ok (show nextSeq 4#32 s = .ok ((), { s with nextPc := s.pc + 4#32 }) from rfl),
        M.bind_ok (M.mod_app _ _)] at e
      rw [M.bind_ok (show nextSeq 4#32 (erase s) = .ok ((), { (erase s) with nextPc := s.pc + 4#32 }) from rfl),
        M.bind_ok (M.mod_app _ _)]
      obtain ⟨k1, k2⟩ := er_emit (E := E) .wfi _ _ _ e
      have hk : Pres (fun q : St σ => q.trapped = false ∧ q.wfiActive = false) (emit E .wfi) :=
        Pres.ite (Pres.mod fun _ h => h) (Pres.pure _)
      have hk1 := hk _ _ _ (by exact ⟨(hpc hw0).2, ha⟩) e
      exact ⟨k1, fun h => k2.spec.trans (hns h), fun h => (by
        have h : s.lastInstBranch = true := k2.lib.symm.trans h
        rw [hl] at h; cases h), fun _ => hk1⟩
    · by_cases hc : IP.opcode w = 0x0b#7 ∧ E.cfg.simd = true
      · have h1 : ∀ {τ : Type} (F : Env τ), F.cfg.simd = true → exec32 F w = dCustom F w := by
          intro τ F hF; unfold exec32; rw [hc.1]; simp [hF]
        rw [h1 E hc.2] at e
        rw [h1 (plain E) hc.2]
        exact fin (dCustom_erase hc.1 hw hb e)
      · refine fin ?_
        have : Er (exec32 E w) (exec32 (plain E) w) := by
          unfold exec32
          split
          case h_5 => exact absurd ‹_› ho
          case h_10 => exact er_dSystem _ hwf
          case h_12 =>
            rename_i h
            exact Er.iteH (fun h' => absurd ⟨h, h'⟩ hc) fun _ => er_eIllegal
          all_goals er
        exact this _ _ _ e

theorem exec_erase (hp : Predicts E) {s s' : St σ} (hb : ¬ScpAnswered s') (hbb : ¬isBadBranch s'.inst)
    (hpc : s.inst ≠ 0#32 → s.pc.toNat % 2 = 0 ∧ s.trapped = false)
    (hl : s.lastInstBranch = false) (ha : s.wfiActive = false) (hpe : s.wfiPend = false) (hns : NoSpec E s) (e : exec E s = .ok ((), s')) :
    exec (plain E) (erase s) = .ok ((), erase s') ∧ NoSpec E s' ∧ Filled E s' ∧ Pends s' := by
  have fin : ∀ {m' : M Unit Unit} {t : St σ}, t.instSpec = s.instSpec → t.lastInstBranch = s.lastInstBranch → t.wfiPend = s.wfiPend →
      m' (erase t) = .ok ((), erase s') ∧ Fr t s' →
      m' (erase t) = .ok ((), erase s') ∧ NoSpec E s' ∧ Filled E s' ∧ Pends s' := fun a1 a2 a3 ⟨h1, h2⟩ =>
    ⟨h1, fun h => h2.spec.trans (a1.trans (hns h)), fun h => (by rw [h2.lib, a2, hl] at h; cases h),
      fun h => (by rw [h2.pend, a3, hpe] at h; cases h)⟩
  rcases exec_split e with ⟨h1, h2⟩ | ⟨h1, h2, h3⟩ | ⟨h1, h2, h3⟩
  · obtain ⟨k1, k2⟩ := exec32_erase hp rfl hb hbb hpc hl ha hpe hns h2
    refine ⟨?_, k2⟩
    unfold exec
    rw [M.bind_ok (M.get_app _ _)]
    rw [if_neg (show ¬(IP.copcode (erase s).inst ≠ 3#2) from fun h => h h1)]
    exact k1
  · obtain ⟨k1, k2⟩ := fin (t := { s with inst := IP.toRvc s.inst }) rfl rfl rfl
      (er_exec16 (E := E) (IP.toRvc s.inst) _ _ _ h3)
    refine ⟨?_, k2⟩
    unfold exec
    rw [M.bind_ok (M.get_app _ _)]
    rw [if_pos (show IP.copcode (erase s).inst ≠ 3#2 from h1), if_pos (show (plain E).cfg.rv32c = true from h2)]
    rw [M.bind_ok (M.mod_app _ _)]
    exact k1
  · obtain ⟨k1, k2⟩ := fin rfl rfl rfl (er_eIllegal (σ := σ) _ _ _ h3)
    refine ⟨?_, k2⟩
    unfold exec
    rw [M.bind_ok (M.get_app _ _)]
    rw [if_pos (show IP.copcode (erase s).inst ≠ 3#2 from h1),
      if_neg (show ¬(plain E).cfg.rv32c = true by simp [h2])]
    exact k1

theorem fetch_erase {s s' : St σ} (hbuf : s.lastInstBranch = true → Buf E s.pc s) (ht : s.trapped = false)
    (e : fetch E s = .ok ((), s')) :
    fetch (plain E) (erase s) = .ok ((), erase s') ∧ s'.lastInstBranch = false ∧ s'.instSpec = s.instSpec ∧
      s'.wfiActive = s.wfiActive ∧ s'.wfiPend = s.wfiPend ∧
      (s'.inst ≠ 0#32 → s'.pc.toNat % 2 = 0 ∧ s'.trapped = false) := by
  unfold fetch at e ⊢
  rw [M.bind_ok (M.get_app _ _)] at e ⊢
  rw [if_neg (show ¬((plain E).cfg.hwModels && (erase s).lastInstBranch) = true by simp)]
  rw [M.bind_ok (M.get_app _ _)]
  split at e
  · rename_i hh
    rw [Bool.and_eq_true] at hh
    have hb := hbuf hh.2
    injection e with e; injection e with _ e
    subst e
    rw [M.bind_ok (rdInst_plain hb)]
    exact ⟨rfl, rfl, rfl, rfl, rfl, fun _ => ⟨hb.1, ht⟩⟩
  · rw [M.bind_ok (M.get_app _ _)] at e
    obtain ⟨i, s1, e1, e⟩ := bind_eq_ok.1 e
    injection e with e; injection e with _ e
    subst e
    obtain ⟨k1, k2⟩ := er_rdInst (E := E) s.pc _ _ _ e1
    rw [M.bind_ok k1]
    refine ⟨rfl, rfl, k2.spec, ?_, k2.pend, ?_⟩
    · have : Pres (fun q : St σ => q.wfiActive = s.wfiActive) (rdInst E s.pc) :=
        Pres.ite (Pres.bind (Pres.bind (Pres.mod fun _ h => h) fun _ => Pres.mod fun _ h => h) fun _ => Pres.pure _)
          (Pres.bind (Pres.ite (Pres.pure _) Pres.abort) fun _ => Pres.bind (Pres.get _) fun _ =>
          Pres.bind (Pres.lift _) fun _ => Pres.bind (Pres.ite (Pres.mod fun _ h => h) (Pres.pure _))
          fun _ => Pres.pure _)
      exact this _ _ s1 rfl e1
    · intro ho
      by_cases hev : s.pc.toNat % 2 = 0
      · obtain ⟨_, _, g, rfl⟩ := rdInst_even hev e1
        exact ⟨hev, ht⟩
      · exfalso
        unfold rdInst at e1
        rw [if_pos (by rw [norm_even]; exact hev)] at e1
        obtain ⟨_, s2, _, e1⟩ := bind_eq_ok.1 e1
        injection e1 with e1; injection e1 with e1 _
        subst e1
        exact ho rfl

/-- `m'` matches `m`, without the frame -/
def Er0 {α : Type} (m : M σ α) (m' : M Unit α) : Prop :=
  ∀ s a s', m s = .ok (a, s') → m' (erase s) = .ok (a, erase s')

theorem Er.weak {α : Type} {m : M σ α} {m' : M Unit α} (h : Er m m') : Er0 m m' := fun s a s' e => (h s a s' e).1
theorem Er0.bind {α β : Type} {m : M σ α} {m' : M Unit α} {f : α → M σ β} {f' : α → M Unit β} (h1 : Er0 m m')
    (h2 : ∀ a, Er0 (f a) (f' a)) : Er0 (m >>= f) (m' >>= f') := by
  intro s b s' e
  obtain ⟨a, s1, e1, e2⟩ := bind_eq_ok.1 e
  exact bind_eq_ok.2 ⟨a, _, h1 _ _ _ e1, h2 _ _ _ _ e2⟩
theorem Er0.ite {α : Type} {c : Prop} [Decidable c] {x y : M σ α} {x' y' : M Unit α} (h1 : Er0 x x')
    (h2 : Er0 y y') : Er0 (if c then x else y) (if c then x' else y') := by
  split <;> assumption

theorem check_erase (d : Bool) : Er0 (checkInterrupts E d) (checkInterrupts (plain E) d) := by
  have hm : Er0 (M.mod fun s : St σ => { s with lastInstBranch := false })
      (M.mod fun s : St Unit => { s with lastInstBranch := false }) := by
    intro s a s' e
    injection e with e; injection e with _ e
    subst e; rfl
  have hg : ∀ a, Er0 (M.get fun s : St σ => s.csr a) (M.get fun s : St Unit => s.csr a) := fun a =>
    Er.weak (by er)
  refine Er0.ite (Er.pure _).weak (Er0.bind (er_updateMtime _).weak fun _ => Er0.bind ?_ fun _ =>
    Er0.bind (hg _) fun _ => Er0.bind (hg _) fun _ =>
    Er0.bind (hg _) fun _ => Er0.bind (Er0.ite (Er0.bind (er_trapInst _ _).weak fun _ => hm)
      (Er0.ite (Er0.bind (er_trapInst _ _).weak fun _ => hm) (Er.pure _).weak)) fun _ => (Er.pure _).weak)
  exact Er.weak (by er)

/-- the interrupt check either leaves the fetch buffer usable or empties it -/
def Kept (s0 s : St σ) : Prop :=
  s.instSpec = s0.instSpec ∧ s.wfiActive = s0.wfiActive ∧ s.wfiPend = s0.wfiPend ∧
  (s.lastInstBranch = true → s0.lastInstBranch = true ∧ s.pc = s0.pc ∧ s.ram = s0.ram ∧
    s.instResolved = s0.instResolved ∧ s.trapped = s0.trapped)

theorem check_kept (d : Bool) {s s' : St σ} {b : Bool} (e : checkInterrupts E d s = .ok (b, s')) : Kept s s' := by
  have ht : ∀ c v, Pres (Kept s) (trapInst c v >>= fun _ => M.mod fun q : St σ => { q with lastInstBranch := false }) := by
    intro c v q a q' h e
    rw [M.bind_ok (trapInst_app _ _ _)] at e
    injection e with e; injection e with _ e
    subst e
    exact ⟨h.1, h.2.1, h.2.2.1, nofun⟩
  have : Pres (Kept s) (checkInterrupts E d) := by
    refine Pres.ite (Pres.pure _) ?_
    refine Pres.bind (mtime_of (fun _ _ h => h) (fun _ _ h => h) _) fun _ => ?_
    refine Pres.bind (Pres.ite (Pres.bind (Pres.get _) fun _ => uartIn_pres (fun _ _ h => h) (fun _ _ h => h) _)
      (Pres.pure _)) fun _ => ?_
    refine Pres.bind (Pres.get _) fun _ => Pres.bind (Pres.get _) fun _ => Pres.bind (Pres.get _) fun _ => ?_
    exact Pres.bind (Pres.ite (ht _ _) (Pres.ite (ht _ _) (Pres.pure _))) fun _ => Pres.pure _
  exact this _ _ _ ⟨rfl, rfl, rfl, fun h => ⟨h, rfl, rfl, rfl, rfl⟩⟩ e

/-- the fetch buffer at the start of a step -/
def Ready (E : Env σ) (s : St σ) : Prop :=
  NoSpec E s ∧ (s.running = true → s.wfiPend = false ∧ (s.lastInstBranch = true → s.wfiActive = false ∧ Buf E s.pc s))

theorem stepExec_erase (hp : Predicts E) {s s' : St σ} (hns : NoSpec E s)
    (hr : s.lastInstBranch = true → s.wfiActive = false ∧ Buf E s.pc s) (ht : s.trapped = false) (hpe : s.wfiPend = false)
    (hb : ¬ScpAnswered s') (hbb : ¬isBadBranch s'.inst) (e : stepExec E s = .ok ((), s')) :
    stepExec (plain E) (erase s) = .ok ((), erase s') ∧ NoSpec E s' ∧ Filled E s' ∧ Pends s' := by
  unfold stepExec at e ⊢
  rw [M.bind_ok (M.get_app _ _)] at e ⊢
  obtain ⟨wf, s1, e1, e⟩ := bind_eq_ok.1 e
  have hpre : Er (if s.wfiActive = true then pure false else do
      let pc ← M.get (·.pc)
      let w ← justInst pc
      pure (w == 0x10500073#32) : M σ Bool) (if s.wfiActive = true then pure false else do
      let pc ← M.get (·.pc)
      let w ← justInst pc
      pure (w == 0x10500073#32)) := by er
  have hs1 : s1 = s := by
    have : Pres (fun q : St σ => q = s) (if s.wfiActive = true then pure false else do
      let pc ← M.get (·.pc)
      let w ← justInst pc
      pure (w == 0x10500073#32) : M σ Bool) :=
      Pres.ite (Pres.pure _) (Pres.bind (Pres.get _) fun _ => Pres.bind (Pres.bind (Pres.get _) fun _ => Pres.lift _)
        fun _ => Pres.pure _)
    exact this _ _ _ rfl e1
  rw [hs1] at e1 e
  rw [M.bind_ok (hpre _ _ _ e1).1]
  obtain ⟨nt, s2, e2, e⟩ := bind_eq_ok.1 e
  rw [M.bind_ok (check_erase _ _ _ _ e2)]
  obtain ⟨q1, q2, qp, q3⟩ := check_kept _ e2
  rw [M.bind_ok (M.mod_app _ _), M.bind_ok (M.get_app _ _), M.bind_ok (M.get_app _ _)] at e ⊢
  have hns2 : NoSpec E s2 := fun h => q1.trans (hns h)
  dsimp only at e ⊢
  split at e
  · rename_i hc
    rw [if_pos hc]
    rw [Bool.and_eq_true, Bool.or_eq_true] at hc
    obtain ⟨_, s3, e3, e⟩ := bind_eq_ok.1 e
    have ht2 : s2.trapped = false := by simpa using hc.1
    have ha2 : (s2.wfiActive && !(s2.trapped || nt)) = false := by
      rcases hc.2 with h | h
      · exact Bool.not_eq_true' _ ▸ h
      · rw [h]; simp
    obtain ⟨k1, k2, k3, k4, kp, k5⟩ := fetch_erase (s := wakeSt nt s2) (fun h => by
      obtain ⟨l1, l2, l3, l4, l5⟩ := q3 h
      obtain ⟨_, b1, b2, b3⟩ := hr l1
      exact ⟨by change s2.pc.toNat % 2 = 0; rw [l2]; exact b1, by change checkAccess (toNorm s2.pc) _ _ _ _ = _; rw [l2]; exact b2,
        by change s2.ram.rd32 (toNorm s2.pc) = .ok s2.instResolved; rw [l2, l3, l4]; exact b3⟩) ht2 e3
    change (fetch (plain E) >>= fun _ => exec (plain E)) (erase (wakeSt nt s2)) = _ ∧ _
    rw [M.bind_ok k1]
    exact exec_erase hp hb hbb k5 k2 (k4.trans ha2) (kp.trans (qp.trans hpe)) (fun h => k3.trans (hns2 h)) e
  · rename_i hc
    rw [if_neg hc]
    injection e with e; injection e with _ e
    subst e
    refine ⟨rfl, hns2, fun h => ?_, fun h => by
      have h : s2.wfiPend = true := h
      rw [qp, hpe] at h; cases h⟩
    exfalso
    obtain ⟨l1, l2, l3, l4, l5⟩ := q3 h
    obtain ⟨b0, _⟩ := hr l1
    apply hc
    rw [l5, ht, q2, b0]; rfl

theorem step_erase (hp : Predicts E) {s s' : St σ} (hr : Ready E s) (hrun : s.running = true)
    (hb : ¬ScpAnswered s') (hbb : ¬isBadBranch s'.inst) (e : step E s = .ok ((), s')) :
    step (plain E) (erase s) = .ok ((), erase s') ∧ Ready E s' := by
  have e0 := e
  unfold step at e ⊢
  rw [M.bind_ok (M.mod_app _ _)] at e ⊢
  obtain ⟨ex, q0, e1, e⟩ := bind_eq_ok.1 e
  obtain ⟨k1, k2⟩ := er_profWindow (E := E) _ _ _ e1
  have k1' : profWindow (plain E) { (erase s) with trapped := false } = .ok (ex, erase q0) := k1
  rw [M.bind_ok k1']
  obtain ⟨pa, pp, g, hq, hq1, hq2⟩ := profWindow_frame e1
  cases ex with
  | true =>
    injection e with e; injection e with _ e
    subst e
    refine ⟨rfl, fun h => k2.spec.trans (hr.1 h), fun h => ?_⟩
    rw [(hq2 rfl).1] at h; cases h
  | false =>
    obtain ⟨_, q1, e2, e⟩ := bind_eq_ok.1 (show (stepExec E >>= _) q0 = _ from e)
    have hfin : s' = finishSt E q1 := by
      rcases step_split e0 with h | ⟨p0, p1, h1, h2, h3⟩
      · rw [e1] at h; injection h with h; injection h with h; cases h
      · rw [e1] at h1; injection h1 with h1; injection h1 with _ h1; subst h1
        rw [e2] at h2; injection h2 with h2; injection h2 with _ h2; subst h2
        exact h3
    have hfr : s'.rf = q1.rf ∧ s'.inst = q1.inst ∧ s'.lastInstBranch = q1.lastInstBranch ∧
        s'.instSpec = q1.instSpec ∧ s'.ram = q1.ram ∧ s'.instResolved = q1.instResolved := by
      rw [hfin]; unfold finishSt finishSt1
      split
      · exact ⟨rfl, rfl, rfl, rfl, rfl, rfl⟩
      · split
        · exact ⟨rfl, rfl, rfl, rfl, rfl, rfl⟩
        · split <;> exact ⟨rfl, rfl, rfl, rfl, rfl, rfl⟩
    obtain ⟨m1, m2, m3, m4, m5, m6⟩ := hfr
    unfold ScpAnswered at hb
    rw [m1, m2] at hb
    rw [m2] at hbb
    obtain ⟨c1, c2, c3, c4⟩ := stepExec_erase hp (fun h => k2.spec.trans (hr.1 h)) (fun h => by
      rw [hq] at h ⊢
      exact (hr.2 hrun).2 h) (by rw [hq]) (k2.pend.trans (hr.2 hrun).1) hb hbb e2
    have ht : Er0 (do
        M.mod fun s : St σ => { s with simStep := s.simStep + 1#64 }
        let n ← M.get (·.simStep)
        if n = E.cfg.runSteps then M.mod fun s => { s with running := false }
        else stepFinish E : M σ Unit) (do
        M.mod fun s : St Unit => { s with simStep := s.simStep + 1#64 }
        let n ← M.get (·.simStep)
        if n = E.cfg.runSteps then M.mod fun s => { s with running := false }
        else stepFinish (plain E)) :=
      Er0.bind (Er.weak (by er)) fun _ => Er0.bind (Er.weak (by er)) fun _ => Er0.ite (Er.weak (by er)) <|
        Er0.bind (Er.weak (by er)) fun _ => Er0.bind (Er.weak (by er)) fun _ => Er0.ite (Er.weak (by er)) <|
        Er0.ite (Er.weak (by er)) fun s a s' e => by
          injection e with e; injection e with _ e
          subst e; rfl
    refine ⟨?_, fun h => m4.trans (c2 h), fun h1 => ?_⟩
    · change (stepExec (plain E) >>= _) (erase q0) = _
      rw [M.bind_ok c1]
      exact ht _ _ _ e
    · rw [hfin] at h1
      have hx : s'.wfiPend = false ∧ (q1.trapped = false → q1.wfiActive = false →
          s'.pc = q1.nextPc ∧ s'.wfiActive = q1.wfiPend) := by
        rw [hfin]
        unfold finishSt finishSt1 at h1 ⊢
        have c5 : ∀ {b : Bool}, (b = true → q1.trapped = false ∧ q1.wfiActive = false) →
          (q1.trapped = true ∨ q1.wfiActive = true) → b = false := by
          intro b hb hh
          cases b
          · rfl
          · obtain ⟨x1, x2⟩ := hb rfl
            rw [x1, x2] at hh; simp at hh
        split at h1
        · cases h1
        · rename_i hl
          rw [if_neg hl]
          dsimp only at h1 ⊢
          split
          · rename_i hw
            refine ⟨c5 c4 (.inr hw.1), fun _ x2 => ?_⟩
            rw [x2] at hw; cases hw.1
          · split
            · rename_i hw
              refine ⟨c5 c4 (.inl hw), fun x1 _ => ?_⟩
              rw [x1] at hw; cases hw
            · refine ⟨rfl, fun _ x2 => ⟨rfl, ?_⟩⟩
              change (q1.wfiActive || q1.wfiPend) = _
              rw [x2]; rfl
      refine ⟨hx.1, fun h2 => ?_⟩
      obtain ⟨d1, d2, d3, d4⟩ := c3 (m3 ▸ h2)
      obtain ⟨x1, x2⟩ := hx.2 d1 d2
      unfold Buf at d4 ⊢
      rw [x1, x2, m5, m6]
      exact ⟨d3, d4⟩

end Ama.HwInd
