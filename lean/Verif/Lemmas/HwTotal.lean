import Verif.Lemmas.HwCallsEnc
import Verif.Lemmas.Precise
import Verif.Props.Illegal
import Verif.Props.Align
/-!
# Every step of every run tells the hardware models something known
-/
namespace Ama.HwCalls
open M Spec
variable {σ : Type} {E : Env σ} {s s' : St σ}

theorem window_trap {b : Bool} (e : profWindow E s = .ok (b, s')) : s'.trapped = s.trapped := by
  have hp : ∀ on, Pres (fun q : St σ => q.trapped = s.trapped) (profState E on) := fun on => by
    refine Pres.bind ?_ fun _ => ?_
    · unfold M.whenM
      exact Pres.ite (Pres.mod fun _ h => h) (Pres.pure _)
    · unfold hwUpd
      exact Pres.ite (Pres.mod fun _ h => h) (Pres.pure _)
  have : Pres (fun q : St σ => q.trapped = s.trapped) (profWindow E) :=
    Pres.ite (Pres.bind (Pres.get _) fun _ => Pres.bind (Pres.get _) fun _ =>
      Pres.bind (Pres.mod fun _ hs => hs) fun _ =>
      Pres.ite (Pres.bind (hp _) fun _ => Pres.pure _) <|
      Pres.ite (Pres.bind (hp _) fun _ => Pres.ite (Pres.bind (Pres.mod fun _ hs => hs)
        fun _ => Pres.pure _) (Pres.pure _)) (Pres.pure _)) (Pres.pure _)
  exact this _ _ _ rfl e

theorem keep_step {n : BitVec 64} : PrimsE E (fun s : St σ => s.wfiActive = false ∧ s.simStep = n) where
  ramWr := ramWr_of (fun _ _ h => h) (fun _ _ h => h)
  uartWr := uartWr_of (fun _ _ h => h)
  uartRd := uartRd_of (fun _ _ h => h) (fun _ _ h => h)
  wrCsr := fun _ _ _ _ => wrCsr_of (fun _ _ => Pres.bind (Pres.mod fun _ h => h) fun _ => Pres.mod fun _ h => h)
    (fun _ _ _ h => h) _ _
  uartIn := uartIn_of (fun _ _ h => h) (fun _ _ h => h)
  mtime := mtime_of (fun _ _ h => h) (fun _ _ h => h) _
theorem step_keeps {n : BitVec 64} : PrimsE E (fun s : St σ => s.simStep = n) where
  ramWr := ramWr_of (fun _ _ h => h) (fun _ _ h => h)
  uartWr := uartWr_of (fun _ _ h => h)
  uartRd := uartRd_of (fun _ _ h => h) (fun _ _ h => h)
  wrCsr := fun _ _ _ _ => wrCsr_of (fun _ _ => Pres.bind (Pres.mod fun _ h => h) fun _ => Pres.mod fun _ h => h)
    (fun _ _ _ h => h) _ _
  uartIn := uartIn_of (fun _ _ h => h) (fun _ _ h => h)
  mtime := mtime_of (fun _ _ h => h) (fun _ _ h => h) _

/-- how a step ends: before executing, asleep, with an interrupt, or by executing a word -/
theorem step_forms (hm : E.cfg.hwModels = true) (h : step E s = .ok ((), s')) :
    (Tells E s s' [] ∧ s'.trapped = false ∧ s'.simStep = s.simStep ∧ s'.simInst = s.simInst) ∨
    (Tells E s s' [] ∧ s'.trapped = false ∧ s'.wfiActive = true ∧ s'.simInst = s.simInst) ∨
    (Tells E s s' [] ∧ s'.trapped = true ∧ s'.simInst = s.simInst ∧
      ∃ c t p r, s'.trapLog = (c, t, p) :: r ∧ (c = 0x80000007#32 ∨ c = 0x8000000b#32)) ∨
    ∃ qc q1, Tells E s qc [] ∧ exec E qc = .ok ((), q1) ∧ qc.rf = s.rf ∧ (qc.trapped = false → qc.pc = s.pc) ∧
      (qc.trapped = false ∨ qc.inst = 0#32) ∧ (AlPre E s → AlPre E qc) ∧ q1.wfiActive = false ∧ q1.simStep = s.simStep ∧ s' = finishSt E q1 := by
  have h0 : PreStep s.profLog s.rf s.pc s.simInst { s with trapped := false } := ⟨rfl, rfl, fun _ => rfl, rfl⟩
  have k0 : Tells E s { s with trapped := false } [] := .quiet rfl rfl
  rcases step_split h with he | ⟨q0, q1, e1, e2, e3⟩
  · exact .inl ⟨k0.trans (window_tells hm he), window_trap he, (window_simStep he).trans rfl, (pre_window _ _ _ h0 he).2.2.2⟩
  · have h1 := pre_window _ _ _ h0 e1
    have k1 := k0.trans (window_tells hm e1)
    have t1 : q0.trapped = false := window_trap e1
    obtain ⟨defer, nt, qa, c1, _, hx⟩ := stepExec_split e2
    have h2 : PreStep s.profLog s.rf s.pc s.simInst (wakeSt nt qa) :=
      have := pre_check _ _ _ _ h1 c1
      this
    have k2 : Tells E s (wakeSt nt qa) [] := (k1.trans ((qt_int _).tells c1)).trans (.quiet rfl rfl)
    rcases hx with ⟨hw, hw2, qc, g1, g2⟩ | ⟨hq, hw⟩
    · have h3 := prof_fetch _ _ _ h2 g1
      have hks : q0.simStep = s.simStep := (window_simStep e1).trans rfl
      have hks : qa.simStep = s.simStep := step_keeps.checkInterrupts _ _ _ _ hks c1
      have hw2 : (wakeSt nt qa).wfiActive = false := by
        rcases hw2 with h | h
        · exact h
        · simp [wakeSt, h]
      have hkk := keep_step.exec _ _ _ (keep_step.fetch _ _ _ ⟨hw2, (show (wakeSt nt qa).simStep = s.simStep from hks)⟩ g1) g2
      refine .inr (.inr (.inr ⟨qc, q1, k2.trans (fetch_tells hm g1), g2, h3.2.1, h3.2.2.1, ?_, fun ha => ?_, hkk.1, hkk.2, e3⟩))
      swap
      · have a1 : AlPre E q0 := pre_profWindow { s with trapped := false } _ _ ha e1
        have a2 : AlPre E qa := pre_checkInterrupts _ _ _ _ a1 c1
        have a2 : AlPre E (wakeSt nt qa) := a2
        exact pre_fetch _ _ _ a2 g1
      rcases fetch_trap g1 with h | h
      · exact .inl (h.trans hw)
      · exact .inr h.2
    · have hi : q1.simInst = s.simInst := by rw [hq]; exact h2.2.2.2
      have kq : Tells E s s' [] := by rw [e3]; rw [← hq] at k2; exact k2.end_ (finish_hw q1).1 (finish_hw q1).2
      have hf : (finishSt E q1).simInst = q1.simInst := by
        unfold finishSt finishSt1
        split
        · rfl
        · split
          · rfl
          · split
            · rfl
            · rename_i h1 h2
              exfalso
              rcases hw with hw | ⟨hw, _⟩
              · exact h2 hw
              · exact h1 ⟨hw, by simpa using h2⟩
      cases ht : q1.trapped with
      | true =>
        refine .inr (.inr (.inl ⟨kq, by rw [e3, (Dasm.finishSt_frame q1).1]; exact ht, by rw [e3, hf, hi], ?_⟩))
        obtain ⟨q, hq1, hq2⟩ := Precise.check_cases c1
        have kt := Precise.kept_tick hq1
        rw [e3, finish_log]
        rcases hq2 with rfl | ⟨c, hc, rfl⟩
        · rw [hq] at ht
          exact absurd (ht.symm.trans (kt.trapped.trans t1)) (by decide)
        · rw [hq]
          simp only [List.mem_cons, List.not_mem_nil, or_false] at hc
          exact ⟨_, _, _, _, rfl, hc⟩
      | false =>
        have hw : q1.wfiActive = true := by
          rcases hw with hw | hw
          · rw [ht] at hw; cases hw
          · exact hw.1
        refine .inr (.inl ⟨kq, by rw [e3, (Dasm.finishSt_frame q1).1]; exact ht, ?_, by rw [e3, hf, hi]⟩)
        rw [e3]
        unfold finishSt finishSt1
        split
        · exact hw
        · rw [if_pos ⟨hw, ht⟩]; exact hw

theorem opcode_copcode {w : W} (h : IP.opcode w = 0x63#7) : IP.copcode w = 3#2 := by rw [copcode_opcode, h]; decide
/-- the word a step leaves behind, if it is a branch: it was executed as one -/
theorem exec_branch {qc q1 : St σ} (hq : qc.trapped = false ∨ qc.inst = 0#32) (e : exec E qc = .ok ((), q1))
    (ho : IP.opcode q1.inst = 0x63#7) : qc.trapped = false ∧ q1.inst = qc.inst ∧ dBranch E q1.inst qc = .ok ((), q1) := by
  rcases exec_split e with ⟨h1, h2⟩ | ⟨h1, h2, h3⟩ | ⟨h1, h2, h3⟩
  · have hi : q1.inst = qc.inst := (Dasm.inst_primsX qc.inst).exec32_of qc.inst (fun _ => Dasm.inst_dSystem _ _) _ _ _ rfl h2
    refine ⟨?_, hi, ?_⟩
    · rcases hq with hq | hq
      · exact hq
      · rw [hq] at h1; exact absurd h1 (by decide)
    · rw [hi] at ho ⊢
      unfold exec32 at h2
      rw [ho] at h2
      exact h2
  · have hi : q1.inst = IP.toRvc qc.inst := (Dasm.inst_primsX (IP.toRvc qc.inst)).exec16_of _ (fun _ =>
      Pres.bind (Pres.mod fun _ h => h) fun _ => (Dasm.inst_primsX _).emit _) _ _ _ rfl h3
    have := opcode_copcode ho
    rw [hi, Dasm.copcode_toRvc] at this
    exact absurd this h1
  · have hi : q1.inst = qc.inst := by
      unfold eIllegal at h3
      rw [M.bind_ok (M.get_app _ _), trapInst_app] at h3
      injection h3 with h3; injection h3 with _ h3
      rw [← h3]
      rfl
    have := opcode_copcode ho
    rw [hi] at this
    exact absurd this h1

theorem finish_pc {q : St σ} (h : q.trapped = true) : (finishSt E q).pc = q.pc := by
  unfold finishSt finishSt1
  split
  · rfl
  · simp [h]

theorem bad_fields {pc h w : W} {l : List HwCall} (hb : BadBranch pc h w l) :
    IP.opcode w = 0x63#7 ∧ l = [.ideal (pc + 4#32), .predict h (IP.immB w) (IP.funct3 w), .update h (pc + 4#32)] := by
  cases hb with
  | mk off rs1 rs2 f3 _ =>
    have d := decode_B (dbl off) (by simp [dbl]) rs2 rs1 f3 0x63#7
    rw [d.2.2.2.2, d.2.1]
    exact ⟨d.1, rfl⟩
theorem bad_inv {w : W} (pc h : W) (ho : IP.opcode w = 0x63#7) (hf : branchSel (IP.funct3 w) = none) : ∃ l, BadBranch pc h w l := by
  have wB := inv_B w
  rw [ho] at wB
  rw [wB]
  exact ⟨_, .mk _ _ _ _ ((by decide : ∀ f : BitVec 3, branchSel f = none → f = 2#3 ∨ f = 3#3) _ hf)⟩

/-- a branch word that ends in an illegal-instruction exception -/
theorem step_malformed (hm : E.cfg.hwModels = true) (h : step E s = .ok ((), s')) (ht : s'.trapped = true)
    (ho : IP.opcode s'.inst = 0x63#7) {t p : W} {r : List (W × W × W)} (hl : s'.trapLog = (2#32, t, p) :: r) :
    branchSel (IP.funct3 s'.inst) = none ∧
    Tells E s s' [.ideal (s.pc + 4#32), .predict s'.pc (IP.immB s'.inst) (IP.funct3 s'.inst), .update s'.pc (s.pc + 4#32)] := by
  rcases step_forms hm h with ⟨_, h1, _⟩ | ⟨_, h1, _⟩ | ⟨_, _, _, c, _, _, _, h1, h2⟩ | ⟨qc, q1, k, e, _, hpc, hq, _, _, _, hs⟩
  · rw [h1] at ht; cases ht
  · rw [h1] at ht; cases ht
  · rw [h1] at hl
    injection hl with hl; injection hl with hl
    rw [hl] at h2
    exact absurd h2 (by decide)
  · obtain ⟨f1, f2⟩ := finish_hw (E := E) q1
    rw [hs, (Dasm.finishSt_frame q1).1] at ht
    rw [hs, (Dasm.finishSt_frame q1).2.1] at ho
    rw [hs, finish_log] at hl
    rw [hs, (Dasm.finishSt_frame q1).2.1, finish_pc ht]
    obtain ⟨b1, b2, b3⟩ := exec_branch hq e ho
    rcases dBranch_cases hm b1 b3 with ⟨a, _⟩ | ⟨_, ⟨_, _, _, a, _⟩ | ⟨_, _, _, a, _⟩ | ⟨_, _, _, _, ab, a⟩⟩
    · rw [a] at ht; cases ht
    · rw [hl] at a; injection a with a; injection a with a; cases a
    · rw [hl] at a; injection a with a; injection a with a; cases a
    · rw [hpc b1] at a
      exact ⟨ab, (k.trans a).end_ f1 f2⟩
/-- a retired step has not hit the step limit -/
theorem retired_steps (hm : E.cfg.hwModels = true) (h : step E s = .ok ((), s')) (hr : s'.simInst ≠ s.simInst) :
    s'.trapped = false ∧ s'.simStep ≠ E.cfg.runSteps := by
  refine ⟨?_, ?_⟩
  · rcases step_tells hm h with h | h
    · exact h.2.1
    · exact absurd h.1 hr
  · have h0 : PreStep s.profLog s.rf s.pc s.simInst { s with trapped := false } := ⟨rfl, rfl, fun _ => rfl, rfl⟩
    rcases step_split h with he | ⟨q0, q1, e1, e2, e3⟩
    · exact absurd (pre_window _ _ _ h0 he).2.2.2 hr
    · have h1 := pre_window _ _ _ h0 e1
      obtain ⟨defer, nt, qa, c1, _, hx⟩ := stepExec_split e2
      have h2 : PreStep s.profLog s.rf s.pc s.simInst (wakeSt nt qa) :=
        have := pre_check _ _ _ _ h1 c1
        this
      have h3 : q1.simInst = s.simInst := by
        rcases hx with ⟨_, _, qc, g1, g2⟩ | ⟨hq, _⟩
        · have h3 := prof_fetch _ _ _ h2 g1
          exact (exec_keeps.exec _ _ _ ⟨h3.2.2.1, h3.2.2.2⟩ g2).2
        · rw [hq]; exact h2.2.2.2
      rw [e3] at hr ⊢
      intro hc
      apply hr
      unfold finishSt finishSt1 at hc ⊢
      by_cases hx : q1.simStep + 1#64 = E.cfg.runSteps
      · rw [if_pos hx]; exact h3
      · rw [if_neg hx] at hc
        exfalso
        apply hx
        split at hc
        · exact hc
        · split at hc <;> exact hc

/-! ## Every executed word -/

theorem calls_total32 {w : W} {rf : BitVec 5 → W} {pc next : W} {q q' : St σ} (hm : E.cfg.hwModels = true)
    (e : exec32 E w q = .ok ((), q')) (ht : q'.trapped = false) :
    ∃ l, HwCalls rf pc next w l := by
  by_cases hoth : w.extractLsb' 0 7 ∈ [0x0f#7, 0x13#7, 0x17#7, 0x37#7, 0x67#7, 0x6f#7, 0x73#7]
  · exact ⟨_, .other w (.inr (.inr hoth))⟩
  rw [HwInd.opcode_bits] at hoth
  by_cases hd : Defined E.cfg.simd w
  · cases hd with
    | base i => exact ⟨_, .base i⟩
    | csr a rs1 f3 rd h =>
      refine absurd ?_ hoth
      rw [(decode_I a rs1 f3 rd 0x73#7).1]
      decide
    | x1 x m rd rs1 rs2 _ h => exact ⟨_, .x1 x m rd rs1 rs2 h⟩
    | x2 x m rd rs1 rs2 _ h => exact ⟨_, .x2 x m rd rs1 rs2 h⟩
    | scpLcl rd rs1 _ => exact ⟨_, .lcl rd rs1 _⟩
    | scpRel rd rs1 _ => exact ⟨_, .rel rd rs1 _⟩
  · by_cases hl : Lax E w
    · rcases hl with ⟨h, _⟩ | h | ⟨h, _⟩ | ⟨h, _⟩ | ⟨h1, h2, h3⟩
      · exact absurd (by rw [h]; decide) hoth
      · exact absurd (by rw [h]; decide) hoth
      · exact absurd (by rw [h]; decide) hoth
      · exfalso
        have e : dBranch E w q = .ok ((), q') := by unfold exec32 at e; rw [h] at e; exact e
        cases hb : branchSel (IP.funct3 w) with
        | some op =>
          have wB := inv_B w
          rw [h, branchSel_total _ _ hb] at wB
          exact hd (wB ▸ Defined.base (.branch op _ _ _))
        | none =>
          unfold dBranch at e
          rw [M.bind_ok (M.get_app _ _), M.bind_ok (show setNext (q.pc + 4#32) q = .ok ((), { q with nextPc := q.pc + 4#32 }) from rfl), hb] at e
          obtain ⟨_, s1, e1, e⟩ := bind_eq_ok.1 e
          have h1 := ill_trapped e1
          rw [M.bind_ok (M.get_app _ _)] at e
          split at e
          · rw [trapInst_trapped e] at ht; cases ht
          · obtain ⟨_, _, _, ⟨k, _⟩ | ⟨k, _⟩⟩ := branchHw_tells hm e
            · rw [k, h1] at ht; cases ht
            · rw [k] at ht; cases ht
      · have wR := inv_R w
        rw [h1, h2] at wR
        rcases h3 with h3 | h3
        · rw [h3] at wR
          have : w = xWord 0xfe00000b#32 (IP.rd w) (IP.rs1 w) (IP.rs2 w) := by
            rw [show (0xfe00000b#32 : W) = encR 0x7f#7 0#5 0#5 0#3 0#5 0x0b#7 by decide, xWord_enc]; exact wR
          rw [this]
          exact ⟨_, .lcl _ _ _⟩
        · rw [h3] at wR
          have : w = xWord 0xfe00100b#32 (IP.rd w) (IP.rs1 w) (IP.rs2 w) := by
            rw [show (0xfe00100b#32 : W) = encR 0x7f#7 0#5 0#5 1#3 0#5 0x0b#7 by decide, xWord_enc]; exact wR
          rw [this]
          exact ⟨_, .rel _ _ _⟩
    · exfalso
      rcases undefined_exec hd hl with h | h | ⟨_, _, h⟩
      · rw [h] at e; rw [ill_trapped e] at ht; cases ht
      · rw [h] at e
        obtain ⟨_, s1, e1, e⟩ := bind_eq_ok.1 e
        have h1 := ill_trapped e1
        have : q'.trapped = s1.trapped := by
          unfold nextSeq at e
          rw [M.mod_app] at e
          injection e with e; injection e with _ e
          rw [← e]
        rw [this, h1] at ht; cases ht
      · rw [hm] at h; cases h

theorem calls_total16 {w : W} {rf : BitVec 5 → W} {pc next : W} (hz : IP.toRvc w = w) (hc : IP.copcode w ≠ 3#2) :
    ∃ l, HwCalls rf pc next w l := by
  have e2 : w.extractLsb' 0 2 = IP.copcode w := by fields [IP.copcode]
  have e3 : w.extractLsb' 13 3 = IP.cFunct3 w := by fields [IP.cFunct3]
  by_cases h1 : IP.copcode w = 1#2
  · exact ⟨_, .other w (.inl (e2.trans h1))⟩
  by_cases h : IP.cFunct3 w = 2#3 ∨ IP.cFunct3 w = 6#3
  · have hq : IP.copcode w = 0#2 ∨ IP.copcode w = 2#2 := by
      exact (by decide : ∀ c : BitVec 2, c ≠ 3#2 → c ≠ 1#2 → c = 0#2 ∨ c = 2#2) _ hc h1
    rcases hq with hq | hq
    · have := inv_CLS hq
      rw [hz] at this
      rcases h with h | h <;> rw [h] at this <;> rw [this]
      · exact ⟨_, .comp (.lw _ _ _)⟩
      · exact ⟨_, .comp (.sw _ _ _)⟩
    · rcases h with h | h
      · have := inv_lwsp hq h
        rw [hz] at this
        rw [this]
        exact ⟨_, .comp (.lwsp _ _)⟩
      · have := inv_swsp hq h
        rw [hz] at this
        rw [this]
        exact ⟨_, .comp (.swsp _ _)⟩
  · exact ⟨_, .other w (.inr (.inl ⟨by rw [e2]; exact hc, by rw [e3]; exact fun k => h (.inl k), by rw [e3]; exact fun k => h (.inr k)⟩))⟩

/-- every word that is executed without trapping is covered by the specification -/
theorem calls_total {rf : BitVec 5 → W} {pc next : W} {q q' : St σ} (hm : E.cfg.hwModels = true)
    (e : exec E q = .ok ((), q')) (ht : q'.trapped = false) :
    ∃ l, HwCalls rf pc next q'.inst l := by
  rcases exec_split e with ⟨h1, h2⟩ | ⟨h1, h2, h3⟩ | ⟨h1, h2, h3⟩
  · have hi : q'.inst = q.inst := (Dasm.inst_primsX q.inst).exec32_of q.inst (fun _ => Dasm.inst_dSystem _ _) _ _ _ rfl h2
    rw [hi]
    exact calls_total32 hm h2 ht
  · have hi : q'.inst = IP.toRvc q.inst := (Dasm.inst_primsX (IP.toRvc q.inst)).exec16_of _ (fun _ =>
      Pres.bind (Pres.mod fun _ h => h) fun _ => (Dasm.inst_primsX _).emit _) _ _ _ rfl h3
    rw [hi]
    exact calls_total16 (rvc_rvc _) (by rw [Dasm.copcode_toRvc]; exact h1)
  · rw [ill_trapped h3] at ht; cases ht

/-- a step that executes a word without trapping: the word is covered -/
theorem step_calls (hm : E.cfg.hwModels = true) (h : step E s = .ok ((), s'))
    (hx : s'.simInst ≠ s.simInst ∨ (s'.trapped = false ∧ s'.wfiActive = false ∧ s'.simStep ≠ s.simStep)) {rf : BitVec 5 → W} {pc next : W} :
    ∃ l, HwCalls rf pc next s'.inst l := by
  have hst := step_tells hm h
  have ht : s'.trapped = false := by
    rcases hx with hx | hx
    · rcases hst with h | h
      · exact h.2.1
      · exact absurd h.1 hx
    · exact hx.1
  rcases step_forms hm h with ⟨_, h1, h2, h3⟩ | ⟨_, h1, h2, h3⟩ | ⟨_, h1, _⟩ | ⟨qc, q1, k, e, _, hpc, hq, hal, _, _, hs⟩
  · rcases hx with hx | ⟨_, _, hx⟩
    · exact absurd h3 hx
    · exact absurd h2 hx
  · rcases hx with hx | ⟨_, hx, _⟩
    · exact absurd h3 hx
    · rw [h2] at hx; cases hx
  · rw [h1] at ht; cases ht
  · rw [hs, (Dasm.finishSt_frame q1).2.1]
    exact calls_total hm e (by rw [hs, (Dasm.finishSt_frame q1).1] at ht; exact ht)

/-! ## Speculative fetches -/

/-- Told the outcome the way the ideal predictor is, the predictor — in whatever state calls have brought it to — proposes an even
address for a branch between even addresses; or there is no predictor. -/
def EvenFrom (E : Env σ) (h : σ) : Prop :=
  E.cfg.noBp = true ∨ ∀ c pc imm f3 n, pc.toNat % 2 = 0 → imm.toNat % 2 = 0 → n.toNat % 2 = 0 →
    (E.hw.bpPredict pc imm f3 (E.hw.bpIdeal n (replay E.hw c h))).1.toNat % 2 = 0

theorem EvenFrom.tells (h : EvenFrom E s.hw) {l : List HwCall} (ht : Tells E s s' l) : EvenFrom E s'.hw := by
  obtain ⟨_, c, h1, _⟩ := ht
  rcases h with h | h
  · exact .inl h
  · refine .inr fun c' => ?_
    rw [h1, ← replay_append]
    exact h _
theorem predicts_even (h : HwInd.Predicts E) (x : σ) : EvenFrom E x := by
  rcases h with h | h
  · exact .inl h
  · refine .inr fun c pc imm f3 n hp hi hn => ?_
    rcases h pc imm f3 n (replay E.hw c x) with e | e | e <;> rw [e]
    · rw [BitVec.toNat_add]; omega
    · rw [BitVec.toNat_add]; simp; omega
    · exact hn

theorem rdInst_even (hm : E.cfg.hwModels = true) {a i : W} {q q' : St σ} (h : a.toNat % 2 = 0) (e : rdInst E a q = .ok (i, q')) :
    q' = { q with hw := E.hw.icRd (toNorm a) q.hw } := by
  rcases rdInst_cases hm e with ⟨_, _, _, k, _⟩ | k
  · unfold toNorm at k
    have : (a &&& 0x1ffff#32).toNat % 2 = a.toNat % 2 := by
      rw [BitVec.toNat_and]
      exact (Nat.and_mod_two_pow (a := a.toNat) (b := 0x1ffff) (n := 1)).trans (by simp [Nat.and_one_is_mod])
    omega
  · exact k.1

theorem even_of {a : W} (h : Spec.aligned true a) : a.toNat % 2 = 0 := by simpa [Spec.aligned] using h

theorem branchHw_even (hm : E.cfg.hwModels = true) {w : W} {q q' : St σ} (hp : q.pc.toNat % 2 = 0) (hn : q.nextPc.toNat % 2 = 0)
    (hb : EvenFrom E q.hw) (e : branchHw E w q = .ok ((), q')) : q'.trapped = q.trapped ∧ q'.trapLog = q.trapLog := by
  unfold branchHw at e
  rw [M.bind_ok (M.mod_app _ _), M.bind_ok (M.get_app _ _), M.bind_ok (M.get_app _ _)] at e
  simp only at e
  have hr : E.cfg.noBp = true ∨ (E.hw.bpPredict q.pc (IP.immB w) (IP.funct3 w) (E.hw.bpIdeal q.nextPc q.hw)).1.toNat % 2 = 0 := by
    rcases hb with hb | hb
    · exact .inl hb
    · exact .inr (hb [] _ _ _ _ hp (even_of (immB_even w)) hn)
  generalize E.hw.bpPredict q.pc (IP.immB w) (IP.funct3 w) (E.hw.bpIdeal q.nextPc q.hw) = r at e hr
  rw [M.bind_ok (M.mod_app _ _)] at e
  obtain ⟨_, s1, e1, e⟩ := bind_eq_ok.1 e
  have h1 : s1.trapped = q.trapped ∧ s1.trapLog = q.trapLog ∧ s1.nextPc = q.nextPc := by
    split at e1
    · injection e1 with e1; injection e1 with _ e1
      subst e1
      exact ⟨rfl, rfl, rfl⟩
    · rename_i hno
      obtain ⟨i, s2, e2, e1⟩ := bind_eq_ok.1 e1
      rw [M.mod_app] at e1
      injection e1 with e1; injection e1 with _ e1
      subst e1
      rw [rdInst_even hm (hr.resolve_left hno) e2]
      exact ⟨rfl, rfl, rfl⟩
  obtain ⟨a1, a2, a3⟩ := h1
  rw [M.bind_ok (M.mod_app _ _), M.bind_ok (M.get_app _ _)] at e
  simp only at e
  by_cases hx : s1.nextPc = r.1
  · rw [if_pos hx, M.bind_ok (M.get_app _ _)] at e
    simp only at e
    cases hs : s1.instSpec with
    | none => rw [hs] at e; cases e
    | some i =>
      rw [hs] at e
      injection e with e; injection e with _ e
      subst e
      exact ⟨a1, a2⟩
  · rw [if_neg hx] at e
    obtain ⟨i, s2, e2, e⟩ := bind_eq_ok.1 e
    rw [M.mod_app] at e
    injection e with e; injection e with _ e
    subst e
    rw [rdInst_even hm (by rw [a3]; exact hn) e2]
    exact ⟨a1, a2⟩

/-- a branch word that traps: with cause 2, or with cause 0 at an even address -/
theorem dBranch_even (hm : E.cfg.hwModels = true) {w : W} {q q' : St σ} (hs : q.trapped = false) (ha : AlPre E q)
    (hb : EvenFrom E q.hw) (e : dBranch E w q = .ok ((), q')) (ht : q'.trapped = true) :
    ∃ c t p r, q'.trapLog = (c, t, p) :: r ∧ (c = 0#32 → t.toNat % 2 = 0) := by
  have hpc := even_of (aligned_weaken ha.1.1)
  have h4 : (q.pc + 4#32).toNat % 2 = 0 := by rw [BitVec.toNat_add]; simp; omega
  have hi : (q.pc + IP.immB w).toNat % 2 = 0 := by
    have := even_of (immB_even w)
    rw [BitVec.toNat_add]; omega
  unfold dBranch at e
  rw [M.bind_ok (M.get_app _ _), M.bind_ok (show setNext (q.pc + 4#32) q = .ok ((), { q with nextPc := q.pc + 4#32 }) from rfl)] at e
  obtain ⟨_, s1, e1, e⟩ := bind_eq_ok.1 e
  have h1 : s1.hw = q.hw ∧ s1.pc.toNat % 2 = 0 ∧ s1.nextPc.toNat % 2 = 0 ∧
      (s1.trapped = false ∨ ∃ c t p r, s1.trapLog = (c, t, p) :: r ∧ (c = 0#32 → t.toNat % 2 = 0)) := by
    cases hb : branchSel (IP.funct3 w) with
    | none =>
      rw [hb] at e1
      simp only at e1
      unfold eIllegal at e1
      rw [M.bind_ok (M.get_app _ _), trapInst_app] at e1
      injection e1 with e1; injection e1 with _ e1
      subst e1
      exact ⟨rfl, even_of (aligned_weaken ha.1.2.1), h4, .inr ⟨_, _, _, _, rfl, fun h => absurd h (by decide)⟩⟩
    | some op =>
      rw [hb] at e1
      simp only at e1
      rw [M.bind_ok (rg_app _ _), M.bind_ok (rg_app _ _)] at e1
      have hem : ∀ (ev : ProfEv) {t t' : St σ}, emit E ev t = .ok ((), t') →
          t'.hw = t.hw ∧ t'.pc = t.pc ∧ t'.nextPc = t.nextPc ∧ t'.trapped = t.trapped := fun ev t t' e => by
        unfold emit at e
        split at e
        · injection e with e; injection e with _ e; subst e; exact ⟨rfl, rfl, rfl, rfl⟩
        · injection e with e; injection e with _ e; subst e; exact ⟨rfl, rfl, rfl, rfl⟩
      split at e1
      · obtain ⟨_, s2, e2, e1⟩ := bind_eq_ok.1 e1
        unfold setNext at e2
        rw [M.mod_app] at e2
        injection e2 with e2; injection e2 with _ e2
        subst e2
        obtain ⟨k1, k2, k3, k4⟩ := hem _ e1
        exact ⟨k1, by rw [k2]; exact hpc, by rw [k3]; exact hi, .inl (k4.trans hs)⟩
      · obtain ⟨k1, k2, k3, k4⟩ := hem _ e1
        exact ⟨k1, by rw [k2]; exact hpc, by rw [k3]; exact h4, .inl (k4.trans hs)⟩
  obtain ⟨a1, a2, a3, a4⟩ := h1
  rw [M.bind_ok (M.get_app _ _)] at e
  split at e
  · unfold eInstMisaligned at e
    rw [trapInst_app] at e
    injection e with e; injection e with _ e
    subst e
    exact ⟨_, _, _, _, rfl, fun _ => a3⟩
  · obtain ⟨k1, k2⟩ := branchHw_even hm a2 a3 (a1 ▸ hb) e
    rcases a4 with a4 | a4
    · rw [k1, a4] at ht; cases ht
    · rw [k2]; exact a4

/-- a step that traps on a branch, from an aligned state, with a predictor that proposes even addresses -/
theorem step_even (hm : E.cfg.hwModels = true) (h : step E s = .ok ((), s')) (ha : AlPre E s) (hb : EvenFrom E s.hw)
    (ht : s'.trapped = true) (ho : IP.opcode s'.inst = 0x63#7) :
    ∃ c t p r, s'.trapLog = (c, t, p) :: r ∧ (c = 0#32 → t.toNat % 2 = 0) := by
  rcases step_forms hm h with ⟨_, h1, _⟩ | ⟨_, h1, _⟩ | ⟨_, _, _, c, _, _, _, h1, h2⟩ | ⟨qc, q1, k, e, _, hpc, hq, hal, _, _, hs⟩
  · rw [h1] at ht; cases ht
  · rw [h1] at ht; cases ht
  · refine ⟨_, _, _, _, h1, fun hc => ?_⟩
    rw [hc] at h2
    exact absurd h2 (by decide)
  · rw [hs, (Dasm.finishSt_frame q1).1] at ht
    rw [hs, (Dasm.finishSt_frame q1).2.1] at ho
    rw [hs, finish_log]
    obtain ⟨b1, b2, b3⟩ := exec_branch hq e ho
    exact dBranch_even hm b1 (hal ha) (hb.tells k) b3 ht
end Ama.HwCalls
