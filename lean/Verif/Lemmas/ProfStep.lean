import Verif.Lemmas.ProfOne
import Verif.Lemmas.StepCases
/-!
# Profiler records of a step
-/
namespace Ama
open M
variable {σ : Type} {E : Env σ}

/-- nothing logged, registers unchanged, pc unchanged unless trapped -/
def PreStep (L : List ProfRec) (rf : BitVec 5 → W) (p : W) (n : BitVec 64) (s : St σ) : Prop :=
  s.profLog = L ∧ s.rf = rf ∧ (s.trapped = false → s.pc = p) ∧ s.simInst = n

/-- trapping: the state afterwards is `trapTo` -/
theorem pres_trap {P : St σ → Prop} {c t : W} (h : ∀ s, P s → P (trapTo c t s)) : Pres P (trapInst c t : M σ Unit) := by
  intro s u s' hs e
  rw [trapInst_app] at e
  simp only [Res.ok.injEq, Prod.mk.injEq, true_and] at e
  exact e ▸ h s hs

section
variable {L : List ProfRec} {rf : BitVec 5 → W} {p : W} {n : BitVec 64}

theorem preM (E : Env σ) : PrimsM E (PreStep L rf p n) where
  trap := fun _ _ => pres_trap fun _ h => ⟨h.1, h.2.1, nofun, h.2.2.2⟩
  ramWr := ramWr_of (fun _ _ h => h) (fun _ _ h => h)
  uartWr := uartWr_of (fun _ _ h => h)
  uartRd := uartRd_of (fun _ _ h => h) (fun _ _ h => h)

theorem prof_fetch : Pres (PreStep L rf p n) (fetch E) :=
  Pres.bind (Pres.get _) fun _ => Pres.ite (Pres.mod fun _ hs => hs)
    (Pres.bind (Pres.get _) fun _ => Pres.bind ((preM E).rdInst _) fun _ => Pres.mod fun _ hs => hs)
theorem pre_check (b : Bool) : Pres (PreStep L rf p n) (checkInterrupts E b) :=
  Pres.ite (Pres.pure _) <| Pres.bind (mtime_of (fun _ _ h => h) (fun _ _ h => h) _) fun _ =>
    Pres.bind (Pres.ite (Pres.bind (Pres.get _) fun _ => uartIn_pres (fun _ _ h => h) (fun _ _ h => h) _) (Pres.pure _))
    fun _ => Pres.bind (Pres.get _) fun _ => Pres.bind (Pres.get _) fun _ => Pres.bind (Pres.get _) fun _ =>
    Pres.bind (Pres.ite (Pres.bind ((preM E).trap _ _) fun _ => Pres.mod fun _ hs => hs)
      (Pres.ite (Pres.bind ((preM E).trap _ _) fun _ => Pres.mod fun _ hs => hs) (Pres.pure _)))
      fun _ => Pres.pure _
theorem pre_pstate (b : Bool) : Pres (PreStep L rf p n) (profState E b) := by
  refine Pres.bind ?_ fun _ => (preM E).hwUpd _
  unfold M.whenM
  exact Pres.ite (Pres.mod fun _ hs => hs) (Pres.pure _)
theorem pre_window : Pres (PreStep L rf p n) (profWindow E) :=
  Pres.ite (Pres.bind (Pres.get _) fun _ => Pres.bind (Pres.get _) fun _ =>
    Pres.bind (Pres.mod fun _ hs => hs) fun _ =>
    Pres.ite (Pres.bind (pre_pstate _) fun _ => Pres.pure _) <|
    Pres.ite (Pres.bind (pre_pstate _) fun _ => Pres.ite (Pres.bind (Pres.mod fun _ hs => hs)
      fun _ => Pres.pure _) (Pres.pure _)) (Pres.pure _)) (Pres.pure _)
end

/-- executing keeps the pc unless it traps, and does not count the instruction -/
theorem exec_keeps {p : W} {n : BitVec 64} :
    PrimsE E (fun s => (s.trapped = false → s.pc = p) ∧ s.simInst = n) where
  trap := fun _ _ => pres_trap fun _ h => ⟨nofun, h.2⟩
  ramWr := ramWr_of (fun _ _ h => h) (fun _ _ h => h)
  uartWr := uartWr_of (fun _ _ h => h)
  uartRd := uartRd_of (fun _ _ h => h) (fun _ _ h => h)
  wrCsr := fun _ _ _ _ => wrCsr_of (fun _ _ => pres_trap fun _ h => ⟨nofun, h.2⟩)
    (fun _ _ _ h => h) _ _
  uartIn := uartIn_of (fun _ _ h => h) (fun _ _ h => h)
  mtime := mtime_of (fun _ _ h => h) (fun _ _ h => h) _

/-- what a step logs -/
theorem step_log (hp : E.cfg.profilers = true) {s s' : St σ} (h : step E s = .ok ((), s')) :
    (s'.simInst = s.simInst ∧ (s'.profLog = s.profLog ∨
      ∃ r, s'.profLog = r :: s.profLog ∧ r.inst = s'.inst ∧ r.active = s'.profActive ∧ evNamed s.rf r ∧
        (s'.trapped = true ∨ s'.running = false))) ∨
    (s'.simInst = s.simInst + 1#64 ∧ s'.trapped = false ∧ ∃ r, s'.profLog = r :: s.profLog ∧ r.inst = s'.inst ∧
      r.active = s'.profActive ∧ evNamed s.rf r ∧ r.pc = s.pc ∧ (r.ev.isBr = true → r.nextPc = s'.pc)) := by
  have h0 : PreStep s.profLog s.rf s.pc s.simInst { s with trapped := false } := ⟨rfl, rfl, fun _ => rfl, rfl⟩
  rcases step_split h with he | ⟨q0, q1, e1, e2, e3⟩
  · obtain ⟨a, b, c, d⟩ := pre_window _ _ _ h0 he
    exact .inl ⟨d, .inl a⟩
  · have h1 := pre_window _ _ _ h0 e1
    obtain ⟨defer, nt, qa, c1, _, hx⟩ := stepExec_split e2
    have h2 : PreStep s.profLog s.rf s.pc s.simInst (wakeSt nt qa) :=
      have := pre_check _ _ _ _ h1 c1
      this
    subst e3
    rcases hx with ⟨_, _, qc, f1, f2⟩ | ⟨hq, hw⟩
    · have h3 := prof_fetch _ _ _ h2 f1
      have hk := exec_keeps.exec _ _ _ ⟨h3.2.2.1, h3.2.2.2⟩ f2
      have hv := (exec_ev hp f2).2
      rw [h3.1, h3.2.1] at hv
      unfold finishSt finishSt1
      obtain ⟨_, hv⟩ := hv
      split
      · refine .inl ⟨hk.2, ?_⟩
        rcases hv with hv | ⟨r, hr⟩
        · exact .inl hv.1
        · exact .inr ⟨r, hr.log, hr.inst, hr.act, hr.name, .inr rfl⟩
      · split
        · rename_i hwt
          rcases hv with hv | ⟨r, hr⟩
          · exact .inl ⟨hk.2, .inl hv.1⟩
          · exfalso
            rename_i hw2 _ _
            have hwf : PrimsE E (fun s : St σ => s.wfiActive = false) := {
              ramWr := ramWr_of (fun _ _ h => h) (fun _ _ h => h)
              uartWr := uartWr_of (fun _ _ h => h)
              uartRd := uartRd_of (fun _ _ h => h) (fun _ _ h => h)
              wrCsr := fun _ _ _ _ => wrCsr_of (fun _ _ => Pres.bind (Pres.mod fun _ h => h) fun _ => Pres.mod fun _ h => h)
                (fun _ _ _ h => h) _ _
              uartIn := uartIn_of (fun _ _ h => h) (fun _ _ h => h)
              mtime := mtime_of (fun _ _ h => h) (fun _ _ h => h) _ }
            have : (wakeSt nt qa).wfiActive = false := by
              rcases hw2 with hw2 | hw2
              · exact hw2
              · simp [wakeSt, hw2]
            have := hwf.exec _ _ _ (hwf.fetch _ _ _ this f1) f2
            rw [show q1.wfiActive = true from hwt.1] at this
            cases this
        · split
          · rename_i ht
            refine .inl ⟨hk.2, ?_⟩
            rcases hv with hv | ⟨r, hr⟩
            · exact .inl hv.1
            · exact .inr ⟨r, hr.log, hr.inst, hr.act, hr.name, .inl ht⟩
          · rename_i ht
            have ht : q1.trapped = false := by simpa using ht
            refine .inr ⟨congrArg (· + 1#64) hk.2, ht, ?_⟩
            rcases hv with hv | ⟨r, hr⟩
            · rw [hv.2] at ht; cases ht
            · exact ⟨r, hr.log, hr.inst, hr.act, hr.name, (hr.pcs ht).1.trans (hk.1 ht), (hr.pcs ht).2⟩
    · subst hq
      refine .inl ?_
      obtain ⟨a, b, c, d⟩ := h2
      generalize wakeSt nt qa = q at a d hw
      unfold finishSt finishSt1
      split
      · exact ⟨d, .inl a⟩
      · split
        · exact ⟨d, .inl a⟩
        · split
          · exact ⟨d, .inl a⟩
          · rename_i h1 h2
            exfalso
            rcases hw with hw | hw
            · exact h2 hw
            · exact h1 ⟨hw.1, by simpa using h2⟩

/-- a step that ends trapped has logged a trap -/
theorem step_traps_log {s s' : St σ} (h : step E s = .ok ((), s')) :
    s.trapLog.length ≤ s'.trapLog.length ∧ (s'.trapped = true → s.trapLog.length < s'.trapLog.length) := by
  have hP : Prims E (fun q : St σ => s.trapLog.length ≤ q.trapLog.length ∧
      (q.trapped = true → s.trapLog.length < q.trapLog.length)) := {
    trap := fun _ _ => pres_trap fun _ h =>
      ⟨Nat.le_succ_of_le h.1, fun _ => Nat.lt_succ_of_le h.1⟩
    ramWr := ramWr_of (fun _ _ h => h) (fun _ _ h => h)
    uartWr := uartWr_of (fun _ _ h => h)
    uartRd := uartRd_of (fun _ _ h => h) (fun _ _ h => h)
    wrCsr := fun _ _ _ _ => wrCsr_of (fun _ _ => pres_trap fun _ h =>
      ⟨Nat.le_succ_of_le h.1, fun _ => Nat.lt_succ_of_le h.1⟩) (fun _ _ _ h => h) _ _
    uartIn := uartIn_of (fun _ _ h => h) (fun _ _ h => h)
    mtime := mtime_of (fun _ _ h => h) (fun _ _ h => h) _
    untrap := fun _ h => ⟨h.1, nofun⟩ }
  exact hP.step { s with trapped := false } () s' ⟨Nat.le_refl _, nofun⟩ h

end Ama
