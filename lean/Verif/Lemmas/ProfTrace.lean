import Verif.Model.ProfTrace
import Verif.Lemmas.DasmStep
import Verif.Lemmas.ProfName
import Verif.Props.Window
/-!
# Steps with the instruction trace
-/
namespace Ama.ProfTrace
open M Spec Prof
open Dasm (Same)
variable {σ : Type} {E : Env σ}

/-! ## The profiler leaves the core alone -/

theorem stepExecT_same (p : Prf) : Same (stepExecT E p) (stepExec E) :=
  Same.bind fun _ => Same.bind fun _ => Same.bind fun _ => Same.bind fun _ => Same.bind fun _ => Same.bind fun _ =>
    Same.ite (Same.bind fun _ => Same.skip fun _ => Same.last (.refl _) fun _ => Same.skip fun _ => .pure _) (.pure _)
theorem stepT_same (p : Prf) : Same (stepT E p) (step E) :=
  Same.bind fun _ => Same.bind fun _ => Same.ite (.pure _) <| Same.seq (stepExecT_same _) fun _ =>
    Same.bind fun _ => Same.bind fun _ => Same.ite (Same.last (.refl _) fun _ => .pure _) <|
    Same.skip fun _ => Same.last (.refl _) fun _ => by split <;> exact .pure _
theorem runT_same : ∀ (n : Nat) (p : Prf), Same (runT E n p) (runN E n)
  | 0, _ => .pure _
  | n + 1, _ => Same.bind fun _ => Same.ite (Same.seq (stepT_same _) fun x => runT_same n x) (.pure _)

theorem step_of {p p' : Prf} {s s' : St σ} (h : stepT E p s = .ok (p', s')) : step E s = .ok ((), s') := by
  have := stepT_same (E := E) p s
  rw [h] at this
  exact this
theorem of_step {s s' : St σ} (h : step E s = .ok ((), s')) (p : Prf) : ∃ p', stepT E p s = .ok (p', s') := by
  have := stepT_same (E := E) p s
  rw [h] at this
  rcases hh : stepT E p s with ⟨p', s1⟩ | _ | _ <;> rw [hh] at this <;> cases this
  exact ⟨p', rfl⟩

/-! ## Taking a step apart -/

theorem stepExecT_split {p p' : Prf} {q0 q1 : St σ} (h : stepExecT E p q0 = .ok (p', q1)) :
    ∃ defer nt qa, checkInterrupts E defer q0 = .ok (nt, qa) ∧
      (((wakeSt nt qa).trapped = false ∧ ((wakeSt nt qa).wfiActive = false ∨ nt = true) ∧
        ∃ qc, fetch E (wakeSt nt qa) = .ok ((), qc) ∧ exec E qc = .ok ((), q1) ∧ p' = p.exec E qc q1) ∨
      (q1 = wakeSt nt qa ∧ (q1.trapped = true ∨ q1.wfiActive = true) ∧ p' = p)) := by
  obtain ⟨act, s4, e4, e3⟩ := bind_eq_ok.1 h
  rw [M.get_app] at e4
  have e4 : q0.wfiActive = act ∧ q0 = s4 := by
    injection e4 with e4; injection e4 with e5 e6; exact ⟨e5, e6⟩
  obtain ⟨rfl, rfl⟩ := e4
  obtain ⟨wf, s5, e5, r3⟩ := bind_eq_ok.1 e3
  have p5 : s5 = q0 := by
    split at e5
    · injection e5 with e5; injection e5 with e5 e6
      exact e6.symm
    · obtain ⟨a1, b1, f1, e5⟩ := bind_eq_ok.1 e5
      rw [M.get_app] at f1
      injection f1 with f1; injection f1 with f1 f2
      obtain ⟨a2, b2, f3, e5⟩ := bind_eq_ok.1 e5
      injection e5 with e5; injection e5 with e5 e6
      rw [← e6, f2]
      obtain ⟨a3, b3, f4, f3⟩ := bind_eq_ok.1 f3
      rw [M.get_app] at f4
      injection f4 with f4; injection f4 with f4 f5
      rw [f5]
      cases hr : a3.rd32 (toNorm a1) with
      | ok v => rw [hr] at f3; injection f3 with f3; injection f3 with _ f3; exact f3.symm
      | ub k => rw [hr] at f3; cases f3
      | abort => rw [hr] at f3; cases f3
  subst p5
  obtain ⟨nt, qa, e6, r4⟩ := bind_eq_ok.1 r3
  refine ⟨wf, nt, qa, e6, ?_⟩
  obtain ⟨u7, s7, e7, r5⟩ := bind_eq_ok.1 r4
  rw [M.mod_app] at e7
  have e7 : wakeSt nt qa = s7 := by injection e7 with e7; injection e7
  rw [e7]
  rw [M.bind_ok (M.get_app _ _), M.bind_ok (M.get_app _ _)] at r5
  split at r5
  · rename_i hc
    rw [Bool.and_eq_true, Bool.or_eq_true] at hc
    obtain ⟨_, qc, f1, f2⟩ := bind_eq_ok.1 r5
    rw [M.bind_ok (M.get_app _ _)] at f2
    obtain ⟨_, qd, f3, f4⟩ := bind_eq_ok.1 f2
    rw [M.bind_ok (M.get_app _ _)] at f4
    injection f4 with f4; injection f4 with f4 f5
    subst f5
    exact .inl ⟨by simpa using hc.1, by simpa using hc.2, qc, f1, f3, f4.symm⟩
  · rename_i hc
    right
    injection r5 with r5; injection r5 with r5 r6
    refine ⟨r6.symm, ?_, r5.symm⟩
    rw [← r6]
    cases h1 : s7.trapped <;> cases h2 : s7.wfiActive <;> cases nt <;> simp [h1, h2] at hc ⊢

theorem stepT_split {p p' : Prf} {s s' : St σ} (h : stepT E p s = .ok (p', s')) :
    (profWindow E { s with trapped := false } = .ok (true, s') ∧ p' = p) ∨
    ∃ q0 q1 p1, profWindow E { s with trapped := false } = .ok (false, q0) ∧
      stepExecT E p q0 = .ok (p1, q1) ∧ s' = finishSt E q1 ∧
      ((q1.simStep + 1#64 = E.cfg.runSteps ∨ q1.trapped = true ∨ q1.wfiActive = true) ∧ p' = p1 ∨
       q1.simStep + 1#64 ≠ E.cfg.runSteps ∧ q1.trapped = false ∧ q1.wfiActive = false ∧ p' = p1.save q1) := by
  obtain ⟨u, s1, e1, h⟩ := bind_eq_ok.1 h
  rw [M.mod_app] at e1
  have e1 : ({ s with trapped := false } : St σ) = s1 := by injection e1 with e1; injection e1
  rw [e1]
  obtain ⟨ex, q0, e2, h⟩ := bind_eq_ok.1 h
  cases ex with
  | true =>
    injection h with h; injection h with h h2
    exact .inl ⟨h2 ▸ e2, h.symm⟩
  | false =>
    obtain ⟨p1, q1, e3, h⟩ := bind_eq_ok.1 (show (stepExecT E p >>= _) q0 = _ from h)
    refine .inr ⟨q0, q1, p1, e2, e3, ?_⟩
    rw [M.bind_ok (M.mod_app _ _), M.bind_ok (M.get_app _ _)] at h
    unfold finishSt
    have hsave : ∀ p : Prf, p.save q1 = p.save { q1 with simStep := q1.simStep + 1#64 } := fun _ => rfl
    rw [hsave]
    generalize hq : ({ q1 with simStep := q1.simStep + 1#64 } : St σ) = q2 at h ⊢
    have g1 : q1.simStep + 1#64 = q2.simStep := by rw [← hq]
    have g2 : q1.wfiActive = q2.wfiActive := by rw [← hq]
    have g3 : q1.trapped = q2.trapped := by rw [← hq]
    rw [g1, g2, g3]
    split at h
    · rename_i hl
      rw [M.bind_ok (M.mod_app _ _)] at h
      injection h with h; injection h with h h2
      unfold finishSt1
      rw [if_pos hl]
      exact ⟨h2.symm, .inl ⟨.inl hl, h.symm⟩⟩
    · rename_i hl
      rw [M.bind_ok (M.get_app _ _)] at h
      obtain ⟨_, q3, f1, f2⟩ := bind_eq_ok.1 h
      have := stepFinish_app f1
      unfold finishSt1
      rw [if_neg hl, this]
      split at f2
      · rename_i hc
        injection f2 with h; injection h with h h2
        exact ⟨h2.symm, .inl ⟨.inr (by simpa using hc), h.symm⟩⟩
      · rename_i hc
        injection f2 with h; injection h with h h2
        have hc : q2.trapped = false ∧ q2.wfiActive = false := by simpa using hc
        exact ⟨h2.symm, .inr ⟨hl, hc.1, hc.2, h.symm⟩⟩

/-- a retired instruction -/
theorem stepT_retired (hp : E.cfg.profilers = true) {p p' : Prf} {s s' : St σ} (h : stepT E p s = .ok (p', s'))
    (hr : s'.simInst ≠ s.simInst) :
    ∃ qc q1 r, exec E qc = .ok ((), q1) ∧ qc.rf = s.rf ∧ q1.rf = s'.rf ∧ q1.inst = s'.inst ∧ q1.pc = s.pc ∧
      q1.nextPc = s'.pc ∧ q1.simInst + 1#64 = s'.simInst ∧ q1.profActive = s'.profActive ∧ q1.trapped = false ∧
      newRec qc q1 = some r ∧ r.inst = s'.inst ∧ evNamed s.rf r ∧ r.pc = s.pc ∧ (r.ev.isBr = true → r.nextPc = s'.pc) ∧
      p' = (p.exec E qc q1).save q1 := by
  have h0 : PreStep s.profLog s.rf s.pc s.simInst { s with trapped := false } := ⟨rfl, rfl, fun _ => rfl, rfl⟩
  rcases step_log hp (step_of h) with ⟨h1, -⟩ | ⟨-, hnt, r, hl, ha, hb, hc, hd, he⟩
  · exact absurd h1 hr
  rcases stepT_split h with ⟨hx, _⟩ | ⟨q0, q1, p1, e1, e2, e3, e4⟩
  · exact absurd (pre_window _ _ _ h0 hx).2.2.2 hr
  · have h1 := pre_window _ _ _ h0 e1
    obtain ⟨defer, nt, qa, c1, hx⟩ := stepExecT_split e2
    have h2 : PreStep s.profLog s.rf s.pc s.simInst (wakeSt nt qa) :=
      have := pre_check _ _ _ _ h1 c1
      this
    rcases e4 with ⟨hq, _⟩ | ⟨hq1, hq2, hq3, hps⟩
    · exfalso
      have hs1 : q1.simInst = s.simInst := by
        rcases hx with ⟨_, _, qc, f1, f2, _⟩ | ⟨hx, _⟩
        · have h3 := prof_fetch _ _ _ h2 f1
          exact (exec_keeps.exec _ _ _ ⟨h3.2.2.1, h3.2.2.2⟩ f2).2
        · rw [hx]; exact h2.2.2.2
      apply hr
      rw [e3]
      unfold finishSt finishSt1
      by_cases g1 : q1.simStep + 1#64 = E.cfg.runSteps
      · rw [if_pos g1]; exact hs1
      · rw [if_neg g1]
        by_cases g2 : q1.wfiActive = true ∧ q1.trapped = false
        · rw [if_pos g2]; exact hs1
        · rw [if_neg g2]
          by_cases g3 : q1.trapped = true
          · rw [if_pos g3]; exact hs1
          · rcases hq with hq | hq | hq
            · exact absurd hq g1
            · exact absurd hq g3
            · exact absurd ⟨hq, by simpa using g3⟩ g2
    · have hf : s' = { q1 with
          simStep := q1.simStep + 1#64
          profPc := s'.profPc, pc := q1.nextPc, simInst := q1.simInst + 1#64, wfiActive := s'.wfiActive,
          wfiPend := s'.wfiPend, running := s'.running } := by
        rw [e3]
        unfold finishSt finishSt1
        rw [if_neg hq1, if_neg (by simp [hq3]), if_neg (by simp [hq2])]
      rcases hx with ⟨_, _, qc, f1, f2, f3⟩ | ⟨hx, hy, _⟩
      · have h3 := prof_fetch _ _ _ h2 f1
        have hk := exec_keeps.exec _ _ _ ⟨h3.2.2.1, h3.2.2.2⟩ f2
        refine ⟨qc, q1, r, f2, h3.2.1, ?_, ?_, hk.1 hq2, ?_, ?_, ?_, hq2, ?_, ha, hc, hd, he, by rw [hps, f3]⟩
        all_goals try (rw [hf])
        unfold newRec
        have hlog : q1.profLog = r :: qc.profLog := by
          rw [h3.1, ← hl, hf]
        rw [hlog]
        simp
      · rcases hy with hy | hy
        · rw [hq2] at hy; cases hy
        · rw [hq3] at hy; cases hy

/-- a step that retires nothing -/
theorem stepT_other {p p' : Prf} {s s' : St σ} (h : stepT E p s = .ok (p', s'))
    (hr : s'.simInst = s.simInst) : p' = p ∨ ∃ qc q1, exec E qc = .ok ((), q1) ∧ qc.rf = s.rf ∧ q1.rf = s'.rf ∧
      q1.inst = s'.inst ∧ q1.trapped = s'.trapped ∧ (s'.trapped = true ∨ s'.running = false) ∧ p' = p.exec E qc q1 := by
  have h0 : PreStep s.profLog s.rf s.pc s.simInst { s with trapped := false } := ⟨rfl, rfl, fun _ => rfl, rfl⟩
  rcases stepT_split h with ⟨_, hx⟩ | ⟨q0, q1, p1, e1, e2, e3, e4⟩
  · exact .inl hx
  · have h1 := pre_window _ _ _ h0 e1
    obtain ⟨defer, nt, qa, c1, hx⟩ := stepExecT_split e2
    have h2 : PreStep s.profLog s.rf s.pc s.simInst (wakeSt nt qa) :=
      have := pre_check _ _ _ _ h1 c1
      this
    obtain ⟨g1, g2, g3, -, -⟩ := Dasm.finishSt_frame (E := E) q1
    rw [← e3] at g1 g2 g3
    rcases e4 with ⟨hq, hps⟩ | ⟨hq1, hq2, hq3, -⟩
    · rcases hx with ⟨_, hw2, qc, f1, f2, f3⟩ | ⟨-, -, hx⟩
      · have h3 := prof_fetch _ _ _ h2 f1
        refine .inr ⟨qc, q1, f2, h3.2.1, g3.symm, g2.symm, g1.symm, ?_, hps.trans f3⟩
        rcases hq with hq | hq | hq
        · right
          rw [e3]
          unfold finishSt finishSt1
          rw [if_pos hq]
        · left; rw [g1]; exact hq
        · exfalso
          have hwf : PrimsE E (fun s : St σ => s.wfiActive = false) := {
            ramWr := ramWr_of (fun _ _ h => h) (fun _ _ h => h)
            uartWr := uartWr_of (fun _ _ h => h)
            uartRd := uartRd_of (fun _ _ h => h) (fun _ _ h => h)
            wrCsr := fun _ _ _ _ => wrCsr_of (fun _ _ => Pres.bind (Pres.mod fun _ h => h) fun _ => Pres.mod fun _ h => h)
              (fun _ _ _ h => h) _ _
            uartIn := uartIn_of (fun _ _ h => h) (fun _ _ h => h)
            mtime := mtime_of (fun _ _ h => h) (fun _ _ h => h) _ }
          have : (wakeSt nt qa).wfiActive = false := by
            rcases hw2 with hw2 | hw2
            · exact hw2
            · simp [wakeSt, hw2]
          have := hwf.exec _ _ _ (hwf.fetch _ _ _ this f1) f2
          rw [hq] at this
          cases this
      · exact .inl (hps.trans hx)
    · exfalso
      have hs1 : q1.simInst = s.simInst := by
        rcases hx with ⟨_, _, qc, f1, f2, _⟩ | ⟨hx, _⟩
        · have h3 := prof_fetch _ _ _ h2 f1
          exact (exec_keeps.exec _ _ _ ⟨h3.2.2.1, h3.2.2.2⟩ f2).2
        · rw [hx]; exact h2.2.2.2
      rw [e3] at hr
      unfold finishSt finishSt1 at hr
      rw [if_neg hq1, if_neg (by simp [hq3]), if_neg (by simp [hq2])] at hr
      rw [← hs1] at hr
      have := congrArg BitVec.toNat (show q1.simInst + 1#64 = q1.simInst from hr)
      rw [BitVec.toNat_add] at this
      simp at this
      omega
end Ama.ProfTrace
