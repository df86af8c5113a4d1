import Verif.Model.ProfEvents
import Verif.Lemmas.ProfTraceEv
import Verif.Props.SimdStep
import Verif.Spec.Events
/-!
# Steps with the calls of the callstack profiler
-/
namespace Ama.PerfCore
open M Spec Prof
open Perf (Op)
open Dasm (Same)
open ProfTrace (newRec badStore)
variable {σ : Type} {E : Env σ}

/-! ## The profiler leaves the core alone -/

theorem stepExecP_same : Same (stepExecP E) (stepExec E) :=
  Same.bind fun _ => Same.bind fun _ => Same.skip fun _ => Same.bind fun _ => Same.skip fun _ => Same.bind fun _ =>
    Same.bind fun _ => Same.bind fun _ =>
    Same.ite (Same.skip fun _ => Same.bind fun _ => Same.skip fun _ => Same.last (.refl _) fun _ => Same.skip fun _ => .pure _)
      (.pure _)
theorem stepP_same : Same (stepP E) (step E) :=
  Same.bind fun _ => Same.skip fun _ => Same.bind fun _ => Same.skip fun _ => Same.ite (.pure _) <|
    Same.seq stepExecP_same fun _ =>
    Same.bind fun _ => Same.bind fun _ => Same.ite (Same.last (.refl _) fun _ => .pure _) <|
    Same.skip fun _ => Same.last (.refl _) fun _ => by split <;> exact .pure _
theorem runP_same : ∀ n : Nat, Same (runP E n) (runN E n)
  | 0 => .pure _
  | n + 1 => Same.bind fun _ => Same.ite (Same.seq stepP_same fun _ => Same.last (runP_same n) fun _ => .pure _) (.pure _)
theorem step_of {l : List Op} {s s' : St σ} (h : stepP E s = .ok (l, s')) : step E s = .ok ((), s') := by
  have := stepP_same (E := E) s
  rw [h] at this
  exact this
theorem of_step {s s' : St σ} (h : step E s = .ok ((), s')) : ∃ l, stepP E s = .ok (l, s') := by
  have := stepP_same (E := E) s
  rw [h] at this
  rcases hh : stepP E s with ⟨p', s1⟩ | _ | _ <;> rw [hh] at this <;> cases this
  exact ⟨p', rfl⟩

/-! ## Taking a step apart -/

theorem stepExecP_split {l : List Op} {q0 q1 : St σ} (h : stepExecP E q0 = .ok (l, q1)) :
    ∃ defer nt qa, checkInterrupts E defer q0 = .ok (nt, qa) ∧
      (((wakeSt nt qa).trapped = false ∧ ((wakeSt nt qa).wfiActive = false ∨ nt = true) ∧
        ∃ qc, fetch E (wakeSt nt qa) = .ok ((), qc) ∧ exec E qc = .ok ((), q1) ∧
          l = trapCalls q0 qa ++ trapCalls (wakeSt nt qa) qc ++ execCalls E qc q1) ∨
      (q1 = wakeSt nt qa ∧ (q1.trapped = true ∨ q1.wfiActive = true) ∧ l = trapCalls q0 qa)) := by
  obtain ⟨act, s4, e4, e3⟩ := bind_eq_ok.1 h
  rw [M.get_app] at e4
  have e4 : q0.wfiActive = act ∧ q0 = s4 := by
    injection e4 with e4; injection e4 with e5 e6; exact ⟨e5, e6⟩
  obtain ⟨rfl, rfl⟩ := e4
  obtain ⟨wf, s5, e5, r3⟩ := bind_eq_ok.1 e3
  have p5 : s5 = q0 := by
    split at e5
    · injection e5 with e5; injection e5 with e5 e6
      exact e6.symm
    · obtain ⟨a1, b1, f1, e5⟩ := bind_eq_ok.1 e5
      rw [M.get_app] at f1
      injection f1 with f1; injection f1 with f1 f2
      obtain ⟨a2, b2, f3, e5⟩ := bind_eq_ok.1 e5
      injection e5 with e5; injection e5 with e5 e6
      rw [← e6, f2]
      obtain ⟨a3, b3, f4, f3⟩ := bind_eq_ok.1 f3
      rw [M.get_app] at f4
      injection f4 with f4; injection f4 with f4 f5
      rw [f5]
      cases hr : a3.rd32 (toNorm a1) with
      | ok v => rw [hr] at f3; injection f3 with f3; injection f3 with _ f3; exact f3.symm
      | ub k => rw [hr] at f3; cases f3
      | abort => rw [hr] at f3; cases f3
  subst p5
  rw [M.bind_ok (M.get_app _ _)] at r3
  obtain ⟨nt, qa, e6, r4⟩ := bind_eq_ok.1 r3
  refine ⟨wf, nt, qa, e6, ?_⟩
  rw [M.bind_ok (M.get_app _ _)] at r4
  obtain ⟨u7, s7, e7, r5⟩ := bind_eq_ok.1 r4
  rw [M.mod_app] at e7
  have e7 : wakeSt nt qa = s7 := by injection e7 with e7; injection e7
  rw [e7]
  rw [M.bind_ok (M.get_app _ _), M.bind_ok (M.get_app _ _)] at r5
  split at r5
  · rename_i hc
    rw [Bool.and_eq_true, Bool.or_eq_true] at hc
    rw [M.bind_ok (M.get_app _ _)] at r5
    obtain ⟨_, qc, f1, f2⟩ := bind_eq_ok.1 r5
    rw [M.bind_ok (M.get_app _ _)] at f2
    obtain ⟨_, qd, f3, f4⟩ := bind_eq_ok.1 f2
    rw [M.bind_ok (M.get_app _ _)] at f4
    injection f4 with f4; injection f4 with f4 f5
    subst f5
    exact .inl ⟨by simpa using hc.1, by simpa using hc.2, qc, f1, f3, f4.symm⟩
  · rename_i hc
    right
    injection r5 with r5; injection r5 with r5 r6
    refine ⟨r6.symm, ?_, r5.symm⟩
    rw [← r6]
    cases h1 : s7.trapped <;> cases h2 : s7.wfiActive <;> cases nt <;> simp [h1, h2] at hc ⊢

theorem stepP_split {l : List Op} {s s' : St σ} (h : stepP E s = .ok (l, s')) :
    (profWindow E { s with trapped := false } = .ok (true, s') ∧ l = activeCalls s s') ∨
    ∃ q0 q1 l1, profWindow E { s with trapped := false } = .ok (false, q0) ∧
      stepExecP E q0 = .ok (l1, q1) ∧ s' = finishSt E q1 ∧
      ((q1.simStep + 1#64 = E.cfg.runSteps ∨ q1.trapped = true ∨ q1.wfiActive = true) ∧ l = activeCalls s q0 ++ l1 ∨
       q1.simStep + 1#64 ≠ E.cfg.runSteps ∧ q1.trapped = false ∧ q1.wfiActive = false ∧
        l = activeCalls s q0 ++ l1 ++ [.finishInst q1.nextPc]) := by
  obtain ⟨u, s1, e1, h⟩ := bind_eq_ok.1 h
  rw [M.mod_app] at e1
  have e1 : ({ s with trapped := false } : St σ) = s1 := by injection e1 with e1; injection e1
  have ea : ∀ q, activeCalls s q = activeCalls s1 q := fun q => by rw [← e1]; rfl
  simp only [ea]
  rw [e1]
  rw [M.bind_ok (M.get_app _ _)] at h
  obtain ⟨ex, q0, e2, h⟩ := bind_eq_ok.1 h
  rw [M.bind_ok (M.get_app _ _)] at h
  cases ex with
  | true =>
    injection (show Res.ok (activeCalls s1 q0, q0) = Res.ok (l, s') from h) with h; injection h with h h2
    rw [← h2]
    exact .inl ⟨e2, h.symm⟩
  | false =>
    obtain ⟨p1, q1, e3, h⟩ := bind_eq_ok.1 (show (stepExecP E >>= _) q0 = _ from h)
    refine .inr ⟨q0, q1, p1, e2, e3, ?_⟩
    rw [M.bind_ok (M.mod_app _ _), M.bind_ok (M.get_app _ _)] at h
    unfold finishSt
    rw [show q1.nextPc = ({ q1 with simStep := q1.simStep + 1#64 } : St σ).nextPc from rfl]
    generalize hq : ({ q1 with simStep := q1.simStep + 1#64 } : St σ) = q2 at h ⊢
    have g1 : q1.simStep + 1#64 = q2.simStep := by rw [← hq]
    have g2 : q1.wfiActive = q2.wfiActive := by rw [← hq]
    have g3 : q1.trapped = q2.trapped := by rw [← hq]
    rw [g1, g2, g3]
    split at h
    · rename_i hl
      rw [M.bind_ok (M.mod_app _ _)] at h
      injection h with h; injection h with h h2
      unfold finishSt1
      rw [if_pos hl]
      exact ⟨h2.symm, .inl ⟨.inl hl, h.symm⟩⟩
    · rename_i hl
      rw [M.bind_ok (M.get_app _ _)] at h
      obtain ⟨_, q3, f1, f2⟩ := bind_eq_ok.1 h
      have := stepFinish_app f1
      unfold finishSt1
      rw [if_neg hl, this]
      split at f2
      · rename_i hc
        injection f2 with h; injection h with h h2
        exact ⟨h2.symm, .inl ⟨.inr (by simpa using hc), h.symm⟩⟩
      · rename_i hc
        injection f2 with h; injection h with h h2
        have hc : q2.trapped = false ∧ q2.wfiActive = false := by simpa using hc
        exact ⟨h2.symm, .inr ⟨hl, hc.1, hc.2, h.symm⟩⟩

/-! ## Without traps, no trap is logged -/

/-- profiling state `a`, and traps `L` unless trapped -/
def Calm (a : Bool) (L : List (W × W × W)) (s : St σ) : Prop := s.profActive = a ∧ (s.trapped = false → s.trapLog = L)
section
variable {a : Bool} {L : List (W × W × W)}
theorem calmM (E : Env σ) : PrimsM E (Calm a L) where
  trap := fun _ _ => pres_trap fun _ h => ⟨h.1, nofun⟩
  ramWr := ramWr_of (fun _ _ h => h) (fun _ _ h => h)
  uartWr := uartWr_of (fun _ _ h => h)
  uartRd := uartRd_of (fun _ _ h => h) (fun _ _ h => h)
theorem calm_fetch : Pres (Calm a L) (fetch E) :=
  Pres.bind (Pres.get _) fun _ => Pres.ite (Pres.mod fun _ hs => hs)
    (Pres.bind (Pres.get _) fun _ => Pres.bind ((calmM E).rdInst _) fun _ => Pres.mod fun _ hs => hs)
theorem calm_check (b : Bool) : Pres (Calm a L) (checkInterrupts E b) :=
  Pres.ite (Pres.pure _) <| Pres.bind (mtime_of (fun _ _ h => h) (fun _ _ h => h) _) fun _ =>
    Pres.bind (Pres.ite (Pres.bind (Pres.get _) fun _ => uartIn_pres (fun _ _ h => h) (fun _ _ h => h) _) (Pres.pure _))
    fun _ => Pres.bind (Pres.get _) fun _ => Pres.bind (Pres.get _) fun _ => Pres.bind (Pres.get _) fun _ =>
    Pres.bind (Pres.ite (Pres.bind ((calmM E).trap _ _) fun _ => Pres.mod fun _ hs => hs)
      (Pres.ite (Pres.bind ((calmM E).trap _ _) fun _ => Pres.mod fun _ hs => hs) (Pres.pure _)))
      fun _ => Pres.pure _
/-- traps `L` unless trapped -/
theorem calm_exec : PrimsE E (fun s : St σ => s.trapped = false → s.trapLog = L) where
  trap := fun _ _ => pres_trap fun _ _ => nofun
  ramWr := ramWr_of (fun _ _ h => h) (fun _ _ h => h)
  uartWr := uartWr_of (fun _ _ h => h)
  uartRd := uartRd_of (fun _ _ h => h) (fun _ _ h => h)
  wrCsr := fun _ _ _ _ => wrCsr_of (fun _ _ => pres_trap fun _ _ => nofun)
    (fun _ _ _ h => h) _ _
  uartIn := uartIn_of (fun _ _ h => h) (fun _ _ h => h)
  mtime := mtime_of (fun _ _ h => h) (fun _ _ h => h) _
/-- a trapped core stays so -/
theorem trap_stays : PrimsE E (fun s : St σ => s.trapped = true) where
  trap := fun _ _ => pres_trap fun _ _ => rfl
  ramWr := ramWr_of (fun _ _ h => h) (fun _ _ h => h)
  uartWr := uartWr_of (fun _ _ h => h)
  uartRd := uartRd_of (fun _ _ h => h) (fun _ _ h => h)
  wrCsr := fun _ _ _ _ => wrCsr_of (fun _ _ => pres_trap fun _ _ => rfl)
    (fun _ _ _ h => h) _ _
  uartIn := uartIn_of (fun _ _ h => h) (fun _ _ h => h)
  mtime := mtime_of (fun _ _ h => h) (fun _ _ h => h) _
theorem wfi_exec : PrimsE E (fun s : St σ => s.wfiActive = false) where
  ramWr := ramWr_of (fun _ _ h => h) (fun _ _ h => h)
  uartWr := uartWr_of (fun _ _ h => h)
  uartRd := uartRd_of (fun _ _ h => h) (fun _ _ h => h)
  wrCsr := fun _ _ _ _ => wrCsr_of (fun _ _ => Pres.bind (Pres.mod fun _ h => h) fun _ => Pres.mod fun _ h => h)
    (fun _ _ _ h => h) _ _
  uartIn := uartIn_of (fun _ _ h => h) (fun _ _ h => h)
  mtime := mtime_of (fun _ _ h => h) (fun _ _ h => h) _
/-- the window does not trap -/
def Unlogged (L : List (W × W × W)) (s : St σ) : Prop := s.trapped = false ∧ s.trapLog = L
theorem win_pstate (b : Bool) : Pres (Unlogged L : St σ → Prop) (profState E b) := by
  refine Pres.bind ?_ fun _ => Pres.ite (Pres.mod fun _ hs => hs) (Pres.pure _)
  unfold M.whenM
  exact Pres.ite (Pres.mod fun _ hs => hs) (Pres.pure _)
theorem win_unlogged : Pres (Unlogged L) (profWindow E) :=
  Pres.ite (Pres.bind (Pres.get _) fun _ => Pres.bind (Pres.get _) fun _ =>
    Pres.bind (Pres.mod fun _ hs => hs) fun _ =>
    Pres.ite (Pres.bind (win_pstate _) fun _ => Pres.pure _) <|
    Pres.ite (Pres.bind (win_pstate _) fun _ => Pres.ite (Pres.bind (Pres.mod fun _ hs => hs)
      fun _ => Pres.pure _) (Pres.pure _)) (Pres.pure _)) (Pres.pure _)
end

theorem trapCalls_nil {q0 q1 : St σ} (h : q1.trapLog = q0.trapLog) : trapCalls q0 q1 = [] := by
  unfold trapCalls
  rw [h, Nat.sub_self]
  rfl

/-- fetching and executing without a trap -/
theorem exec_calm {s0 qa qc q1 : St σ} {defer nt : Bool}
    (c1 : checkInterrupts E defer s0 = .ok (nt, qa)) (hw : (wakeSt nt qa).trapped = false)
    (f1 : fetch E (wakeSt nt qa) = .ok ((), qc)) (f2 : exec E qc = .ok ((), q1)) (h1 : q1.trapped = false) :
    trapCalls s0 qa = [] ∧ trapCalls (wakeSt nt qa) qc = [] ∧ qc.profActive = s0.profActive ∧ q1.trapLog = qc.trapLog := by
  have a1 := calm_check _ _ _ _ (show Calm s0.profActive s0.trapLog s0 from ⟨rfl, fun _ => rfl⟩) c1
  have a2 : Calm s0.profActive s0.trapLog (wakeSt nt qa) := ⟨a1.1, a1.2⟩
  have a3 := calm_fetch _ _ _ a2 f1
  have hc : qc.trapped = false := by
    cases h : qc.trapped
    · rfl
    · rw [trap_stays.exec _ _ _ h f2] at h1; cases h1
  refine ⟨trapCalls_nil (a1.2 hw), trapCalls_nil ((a3.2 hc).trans (a2.2 hw).symm), a3.1, ?_⟩
  exact (calm_exec (L := qc.trapLog)).exec _ _ _ (fun _ => rfl) f2 h1

/-- the calls of a retired instruction -/
theorem stepP_retired (hp : E.cfg.profilers = true) {l : List Op} {s s' : St σ} (h : stepP E s = .ok (l, s'))
    (hr : s'.simInst ≠ s.simInst) :
    ∃ qc q1 r, exec E qc = .ok ((), q1) ∧ q1.inst = s'.inst ∧ q1.nextPc = s'.pc ∧ q1.profActive = s'.profActive ∧
      q1.trapped = false ∧ q1.trapLog = qc.trapLog ∧ newRec qc q1 = some r ∧ r.inst = s'.inst ∧ evNamed s.rf r ∧
      r.pc = s.pc ∧
      l = activeCalls s qc ++ execCalls E qc q1 ++ [.finishInst s'.pc] := by
  have h0 : PreStep s.profLog s.rf s.pc s.simInst { s with trapped := false } := ⟨rfl, rfl, fun _ => rfl, rfl⟩
  rcases step_log hp (step_of h) with ⟨h1, -⟩ | ⟨-, hnt, r, hl, ha, hb, hc, hd, he⟩
  · exact absurd h1 hr
  rcases stepP_split h with ⟨hx, _⟩ | ⟨q0, q1, p1, e1, e2, e3, e4⟩
  · exact absurd (pre_window _ _ _ h0 hx).2.2.2 hr
  · have h1 := pre_window _ _ _ h0 e1
    have hu := win_unlogged _ _ _ (show Unlogged s.trapLog { s with trapped := false } from ⟨rfl, rfl⟩) e1
    obtain ⟨defer, nt, qa, c1, hx⟩ := stepExecP_split e2
    have h2 : PreStep s.profLog s.rf s.pc s.simInst (wakeSt nt qa) :=
      have := pre_check _ _ _ _ h1 c1
      this
    rcases e4 with ⟨hq, _⟩ | ⟨hq1, hq2, hq3, hps⟩
    · exfalso
      have hs1 : q1.simInst = s.simInst := by
        rcases hx with ⟨_, _, qc, f1, f2, _⟩ | ⟨hx, _⟩
        · have h3 := prof_fetch _ _ _ h2 f1
          exact (exec_keeps.exec _ _ _ ⟨h3.2.2.1, h3.2.2.2⟩ f2).2
        · rw [hx]; exact h2.2.2.2
      apply hr
      rw [e3]
      unfold finishSt finishSt1
      by_cases g1 : q1.simStep + 1#64 = E.cfg.runSteps
      · rw [if_pos g1]; exact hs1
      · rw [if_neg g1]
        by_cases g2 : q1.wfiActive = true ∧ q1.trapped = false
        · rw [if_pos g2]; exact hs1
        · rw [if_neg g2]
          by_cases g3 : q1.trapped = true
          · rw [if_pos g3]; exact hs1
          · rcases hq with hq | hq | hq
            · exact absurd hq g1
            · exact absurd hq g3
            · exact absurd ⟨hq, by simpa using g3⟩ g2
    · have hf : s' = { q1 with
          simStep := q1.simStep + 1#64
          profPc := s'.profPc, pc := q1.nextPc, simInst := q1.simInst + 1#64, wfiActive := s'.wfiActive,
          wfiPend := s'.wfiPend, running := s'.running } := by
        rw [e3]
        unfold finishSt finishSt1
        rw [if_neg hq1, if_neg (by simp [hq3]), if_neg (by simp [hq2])]
      rcases hx with ⟨hw, _, qc, f1, f2, f3⟩ | ⟨hx, hy, _⟩
      · have h3 := prof_fetch _ _ _ h2 f1
        obtain ⟨t1, t2, t3, t4⟩ := exec_calm c1 hw f1 f2 hq2
        refine ⟨qc, q1, r, f2, ?_, ?_, ?_, hq2, t4, ?_, ha, hc, hd, ?_⟩
        · rw [hf]
        · rw [hf]
        · rw [hf]
        · unfold newRec
          have hlog : q1.profLog = r :: qc.profLog := by
            rw [h3.1, ← hl, hf]
          rw [hlog]
          simp
        · rw [hps, f3, t1, t2, show activeCalls s qc = activeCalls s q0 by unfold activeCalls; rw [t3],
            show q1.nextPc = s'.pc by rw [hf]]
          simp
      · rcases hy with hy | hy
        · rw [hq2] at hy; cases hy
        · rw [hq3] at hy; cases hy

/-- the calls of a step that retires nothing, does not trap and is not the last by the step limit -/
theorem stepP_idle {l : List Op} {s s' : St σ} (h : stepP E s = .ok (l, s'))
    (hr : s'.simInst = s.simInst) (ht : s'.trapped = false) (hl : s'.simStep ≠ E.cfg.runSteps) : l = activeCalls s s' := by
  have h0 : PreStep s.profLog s.rf s.pc s.simInst { s with trapped := false } := ⟨rfl, rfl, fun _ => rfl, rfl⟩
  rcases stepP_split h with ⟨_, hx⟩ | ⟨q0, q1, p1, e1, e2, e3, e4⟩
  · exact hx
  · have h1 := pre_window _ _ _ h0 e1
    have hu := win_unlogged _ _ _ (show Unlogged s.trapLog { s with trapped := false } from ⟨rfl, rfl⟩) e1
    obtain ⟨defer, nt, qa, c1, hx⟩ := stepExecP_split e2
    have h2 : PreStep s.profLog s.rf s.pc s.simInst (wakeSt nt qa) :=
      have := pre_check _ _ _ _ h1 c1
      this
    obtain ⟨g1, -⟩ := Dasm.finishSt_frame (E := E) q1
    rw [← e3, ht] at g1
    have hl' : q1.simStep + 1#64 ≠ E.cfg.runSteps := by
      intro hq
      apply hl
      rw [e3]
      unfold finishSt finishSt1
      rw [if_pos hq]
      exact hq
    rcases e4 with ⟨hq, hps⟩ | ⟨hq1, hq2, hq3, -⟩
    · rcases hq with hq | hq | hq
      · exact absurd hq hl'
      · rw [hq] at g1; cases g1
      rcases hx with ⟨_, hw2, qc, f1, f2, f3⟩ | ⟨hx, -, hy⟩
      · exfalso
        have : (wakeSt nt qa).wfiActive = false := by
          rcases hw2 with hw2 | hw2
          · exact hw2
          · simp [wakeSt, hw2]
        have := wfi_exec.exec _ _ _ (wfi_exec.fetch _ _ _ this f1) f2
        rw [hq] at this
        cases this
      · have a1 := calm_check _ _ _ _ (show Calm q0.profActive q0.trapLog q0 from ⟨rfl, fun _ => rfl⟩) c1
        have hta : qa.trapped = false := by
          have : q1.trapped = qa.trapped := by rw [hx]; rfl
          rw [← this]; exact g1.symm
        rw [hps, hy, trapCalls_nil (a1.2 hta), List.append_nil]
        have : s'.profActive = q0.profActive := by
          rw [e3]
          unfold finishSt finishSt1
          rw [if_neg hl', if_pos ⟨hq, g1.symm⟩, hx]
          exact a1.1
        unfold activeCalls
        rw [this]
    · exfalso
      have hs1 : q1.simInst = s.simInst := by
        rcases hx with ⟨_, _, qc, f1, f2, _⟩ | ⟨hx, _⟩
        · have h3 := prof_fetch _ _ _ h2 f1
          exact (exec_keeps.exec _ _ _ ⟨h3.2.2.1, h3.2.2.2⟩ f2).2
        · rw [hx]; exact h2.2.2.2
      rw [e3] at hr
      unfold finishSt finishSt1 at hr
      rw [if_neg hq1, if_neg (by simp [hq3]), if_neg (by simp [hq2])] at hr
      rw [← hs1] at hr
      have := congrArg BitVec.toNat (show q1.simInst + 1#64 = q1.simInst from hr)
      rw [BitVec.toNat_add] at this
      simp at this
      omega
end Ama.PerfCore
