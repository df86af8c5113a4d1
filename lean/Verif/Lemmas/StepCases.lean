import Verif.Lemmas.CsrTable
import Verif.Lemmas.Step
/-!
# Taking a step apart
-/
namespace Ama
open M
variable {σ : Type} {E : Env σ}

/-- core.cpp:160-214 as a function of the state after counting the step -/
def finishSt1 (E : Env σ) (s : St σ) : St σ :=
  if s.simStep = E.cfg.runSteps then { s with running := false }
  else if s.wfiActive = true ∧ s.trapped = false then s
  else if s.trapped = true then { s with running := s.running && !E.cfg.exitOnTrap }
  else
    { s with
      profPc := if E.cfg.profilers && s.profActive
        then { s.profPc with instCnt := s.profPc.instCnt + 1#64 } else s.profPc
      pc := s.nextPc
      simInst := s.simInst + 1#64
      wfiActive := s.wfiActive || s.wfiPend
      wfiPend := false
      running := s.running && !(s.simInst + 1#64 == E.cfg.runInsts) }

/-- core.cpp:159-214 as a function of the state after execution -/
def finishSt (E : Env σ) (q : St σ) : St σ :=
  finishSt1 E { q with simStep := q.simStep + 1#64 }

theorem stepFinish_app {q s' : St σ} (h : stepFinish E q = .ok ((), s')) :
    (if q.wfiActive = true ∧ q.trapped = false then q
     else if q.trapped = true then { q with running := q.running && !E.cfg.exitOnTrap }
     else
      { q with
        profPc := if E.cfg.profilers && q.profActive
          then { q.profPc with instCnt := q.profPc.instCnt + 1#64 } else q.profPc
        pc := q.nextPc
        simInst := q.simInst + 1#64
        wfiActive := q.wfiActive || q.wfiPend
        wfiPend := false
        running := q.running && !(q.simInst + 1#64 == E.cfg.runInsts) }) = s' := by
  unfold stepFinish at h
  rw [M.bind_ok (M.get_app _ _), M.bind_ok (M.get_app _ _)] at h
  by_cases h1 : q.wfiActive = true ∧ q.trapped = false
  · rw [if_pos h1]
    rw [if_pos (by rw [h1.1, h1.2]; rfl)] at h
    injection h with h; injection h
  · rw [if_neg h1]
    rw [if_neg (by simpa using h1)] at h
    by_cases h2 : q.trapped = true
    · rw [if_pos h2] at h ⊢
      rw [M.mod_app] at h
      injection h with h; injection h
    · rw [if_neg h2] at h ⊢
      rw [M.mod_app] at h
      injection h with h; injection h

/-- a step is: profiling window, then execution, then finishing -/
theorem step_split {s s' : St σ} (h : step E s = .ok ((), s')) :
    profWindow E { s with trapped := false } = .ok (true, s') ∨
    ∃ q0 q1, profWindow E { s with trapped := false } = .ok (false, q0) ∧
      stepExec E q0 = .ok ((), q1) ∧ s' = finishSt E q1 := by
  obtain ⟨u, s1, e1, h⟩ := bind_eq_ok.1 h
  rw [M.mod_app] at e1
  have e1 : ({ s with trapped := false } : St σ) = s1 := by injection e1 with e1; injection e1
  rw [e1]
  obtain ⟨ex, q0, e2, h⟩ := bind_eq_ok.1 h
  cases ex with
  | true =>
    have : q0 = s' := by injection h with h; injection h
    exact .inl (this ▸ e2)
  | false =>
    obtain ⟨u, q1, e3, h⟩ := bind_eq_ok.1 (show (stepExec E >>= _) q0 = _ from h)
    refine .inr ⟨q0, q1, e2, e3, ?_⟩
    obtain ⟨u, q2, e4, h⟩ := bind_eq_ok.1 h
    rw [M.mod_app] at e4
    have e4 : ({ q1 with simStep := q1.simStep + 1#64 } : St σ) = q2 := by injection e4 with e4; injection e4
    obtain ⟨n, q3, e5, h⟩ := bind_eq_ok.1 h
    rw [M.get_app] at e5
    have e5 : q2.simStep = n ∧ q2 = q3 := by
      injection e5 with e5; injection e5 with e5 e6; exact ⟨e5, e6⟩
    obtain ⟨rfl, rfl⟩ := e5
    unfold finishSt
    rw [e4]
    unfold finishSt1
    split at h
    · rename_i hl
      rw [if_pos hl]
      rw [M.mod_app] at h
      injection h with h; injection h with _ h; exact h.symm
    · rename_i hl
      rw [if_neg hl]
      exact (stepFinish_app h).symm

/-- the state after the WFI wake-up rule -/
def wakeSt (nt : Bool) (q : St σ) : St σ := { q with wfiActive := q.wfiActive && !(q.trapped || nt) }

/-- execution is: interrupt check, wake-up, then possibly fetch and execute -/
theorem stepExec_split {q0 q1 : St σ} (h : stepExec E q0 = .ok ((), q1)) :
    ∃ defer nt qa, checkInterrupts E defer q0 = .ok (nt, qa) ∧
      (defer = true → q0.wfiActive = false) ∧
      (((wakeSt nt qa).trapped = false ∧ ((wakeSt nt qa).wfiActive = false ∨ nt = true) ∧
        ∃ qc, fetch E (wakeSt nt qa) = .ok ((), qc) ∧ exec E qc = .ok ((), q1)) ∨
      (q1 = wakeSt nt qa ∧ (q1.trapped = true ∨ (q1.wfiActive = true ∧ nt = false)))) := by
  obtain ⟨act, s4, e4, e3⟩ := bind_eq_ok.1 h
  rw [M.get_app] at e4
  have e4 : q0.wfiActive = act ∧ q0 = s4 := by
    injection e4 with e4; injection e4 with e5 e6; exact ⟨e5, e6⟩
  obtain ⟨rfl, rfl⟩ := e4
  obtain ⟨wf, s5, e5, r3⟩ := bind_eq_ok.1 e3
  have p5 : s5 = q0 ∧ (wf = true → q0.wfiActive = false) := by
    split at e5
    · injection e5 with e5; injection e5 with e5 e6
      exact ⟨e6.symm, by rw [← e5]; nofun⟩
    · rename_i ha
      obtain ⟨a1, b1, f1, e5⟩ := bind_eq_ok.1 e5
      rw [M.get_app] at f1
      injection f1 with f1; injection f1 with f1 f2
      obtain ⟨a2, b2, f3, e5⟩ := bind_eq_ok.1 e5
      injection e5 with e5; injection e5 with e5 e6
      refine ⟨?_, fun _ => by simpa using ha⟩
      rw [← e6, f2]
      obtain ⟨a3, b3, f4, f3⟩ := bind_eq_ok.1 f3
      rw [M.get_app] at f4
      injection f4 with f4; injection f4 with f4 f5
      rw [f5]
      cases hr : a3.rd32 (toNorm a1) with
      | ok v => rw [hr] at f3; injection f3 with f3; injection f3 with _ f3; exact f3.symm
      | ub k => rw [hr] at f3; cases f3
      | abort => rw [hr] at f3; cases f3
  obtain ⟨rfl, hwf⟩ := p5
  obtain ⟨nt, qa, e6, r4⟩ := bind_eq_ok.1 r3
  refine ⟨wf, nt, qa, e6, hwf, ?_⟩
  obtain ⟨u7, s7, e7, r5⟩ := bind_eq_ok.1 r4
  rw [M.mod_app] at e7
  have e7 : wakeSt nt qa = s7 := by injection e7 with e7; injection e7
  rw [e7]
  obtain ⟨tr, s8, e8, r6⟩ := bind_eq_ok.1 r5
  rw [M.get_app] at e8
  injection e8 with e8; injection e8 with e8 e9
  subst e8 e9
  obtain ⟨ac, s8, e8, r7⟩ := bind_eq_ok.1 r6
  rw [M.get_app] at e8
  injection e8 with e8; injection e8 with e8 e9
  subst e8 e9
  split at r7
  · rename_i hc
    rw [Bool.and_eq_true, Bool.or_eq_true] at hc
    obtain ⟨_, qc, f1, f2⟩ := bind_eq_ok.1 r7
    exact .inl ⟨by simpa using hc.1, by simpa using hc.2, qc, f1, f2⟩
  · rename_i hc
    injection r7 with r7; injection r7 with _ e3
    refine .inr ⟨e3.symm, ?_⟩
    rw [← e3]
    cases h1 : s7.trapped <;> cases h2 : s7.wfiActive <;> cases nt <;> simp [h1, h2] at hc ⊢

/-- executing is an illegal compressed word, a compressed word, or a 32-bit word -/
theorem exec_split {q q' : St σ} (h : exec E q = .ok ((), q')) :
    (IP.copcode q.inst = 3#2 ∧ exec32 E q.inst q = .ok ((), q')) ∨
    (IP.copcode q.inst ≠ 3#2 ∧ E.cfg.rv32c = true ∧
      exec16 E (IP.toRvc q.inst) { q with inst := IP.toRvc q.inst } = .ok ((), q')) ∨
    (IP.copcode q.inst ≠ 3#2 ∧ E.cfg.rv32c = false ∧ eIllegal q = .ok ((), q')) := by
  unfold exec at h
  rw [M.bind_ok (M.get_app _ _)] at h
  by_cases hc : IP.copcode q.inst = 3#2
  · simp only [hc, ne_eq, not_true, if_false] at h
    exact .inl ⟨hc, h⟩
  · simp only [hc, ne_eq, not_false_iff, if_true] at h
    cases hr : E.cfg.rv32c with
    | true =>
      simp only [hr, if_true] at h
      rw [M.bind_ok (M.mod_app _ _)] at h
      exact .inr (.inl ⟨hc, rfl, h⟩)
    | false =>
      simp only [hr, Bool.false_eq_true, if_false] at h
      exact .inr (.inr ⟨hc, rfl, h⟩)

theorem exec32_system {w : W} (hs : IP.opcode w = 0x73#7) : exec32 E w = dSystem E w := by
  unfold exec32
  rw [hs]
  rfl

theorem dCsr_none {w : W} (h : csrInfo E.cfg.rv32c (IP.csrAddr w) = none) : dCsr E w = eIllegal := by
  unfold dCsr
  rw [h]

theorem dCsr_some {w : W} {e : CsrEntry} (h : csrInfo E.cfg.rv32c (IP.csrAddr w) = some e) :
    dCsr E w = (do
      csrCntUpdate E w (IP.csrAddr w)
      let init ← rg (IP.rs1 w)
      let old ← get fun s => s.csr e.addr
      writeRf (IP.rd w) old
      (match csrSel (IP.funct3 w) with
      | some op => do
        csrDo op e w init
        emit E (.csr op)
      | none => eIllegal)
      mod fun s => { s with running := s.running && (s.csr A.tohost &&& 1#32 == 0#32) }) := by
  unfold dCsr
  rw [h]
  rfl

/-- fetching either leaves the trap flag alone, or traps and delivers the word 0 -/
theorem fetch_trap {q q' : St σ} (h : fetch E q = .ok ((), q')) :
    q'.trapped = q.trapped ∨ (q'.trapped = true ∧ q'.inst = 0#32) := by
  unfold fetch at h
  rw [M.bind_ok (M.get_app _ _)] at h
  split at h
  · rw [M.mod_app] at h
    injection h with h; injection h with _ h
    rw [← h]; exact .inl rfl
  · rw [M.bind_ok (M.get_app _ _)] at h
    obtain ⟨i, q1, h1, h⟩ := bind_eq_ok.1 h
    rw [M.mod_app] at h
    injection h with h; injection h with _ h
    unfold rdInst at h1
    split at h1
    · obtain ⟨_, q2, h2, h1⟩ := bind_eq_ok.1 h1
      unfold eInstMisaligned at h2
      rw [trapInst_app] at h2
      injection h2 with h2; injection h2 with _ h2
      injection h1 with h1; injection h1 with h1 h3
      rw [← h, ← h3, ← h2, ← h1]
      exact .inr ⟨rfl, rfl⟩
    · have : Pres (fun s : St σ => s.trapped = q.trapped) (mmRdInst E (toNorm q.pc)) :=
        Pres.bind (Pres.ite (Pres.pure _) Pres.abort) fun _ => Pres.bind (Pres.get _) fun _ =>
          Pres.bind (Pres.lift _) fun _ => Pres.bind (Pres.ite (Pres.mod fun _ h => h) (Pres.pure _))
          fun _ => Pres.pure _
      have h2 : q1.trapped = q.trapped := this _ _ _ rfl h1
      rw [← h]
      exact .inl h2

/-- what the profiling window can change -/
theorem profWindow_frame {s s' : St σ} {b : Bool} (h : profWindow E s = .ok (b, s')) :
    ∃ pa pp g, s' = { s with profActive := pa, profPc := pp, hw := g, running := s'.running } ∧
      (b = false → s'.running = s.running) ∧ (b = true → s'.running = false ∧ E.cfg.profilers = true) := by
  have hps : ∀ x, Pres (fun q : St σ => ∃ pa pp g, q = { s with profActive := pa, profPc := pp, hw := g })
      (profState E x) := fun x =>
    Pres.bind (by unfold M.whenM; exact Pres.ite (Pres.mod (by rintro _ ⟨pa, pp, g, rfl⟩; exact ⟨_, _, _, rfl⟩)) (Pres.pure _))
      fun _ => Pres.ite (Pres.mod (by rintro _ ⟨pa, pp, g, rfl⟩; exact ⟨_, _, _, rfl⟩)) (Pres.pure _)
  have hok : ∀ q : St σ, (∃ pa pp g, q = { s with profActive := pa, profPc := pp, hw := g }) → ∀ b', b' = false → 
      ∃ pa pp g, q = { s with profActive := pa, profPc := pp, hw := g, running := q.running } ∧
      (b' = false → q.running = s.running) ∧ (b' = true → q.running = false ∧ E.cfg.profilers = true) := by
    rintro _ ⟨pa, pp, g, rfl⟩ b' rfl
    exact ⟨pa, pp, g, rfl, fun _ => rfl, nofun⟩
  unfold profWindow at h
  split at h
  · rename_i hpr
    rw [M.bind_ok (M.get_app _ _), M.bind_ok (M.get_app _ _), M.bind_ok (M.mod_app _ _)] at h
    split at h
    · obtain ⟨_, q, h1, h⟩ := bind_eq_ok.1 h
      injection h with h; injection h with h h2
      rw [← h2, ← h]
      exact hok q (hps _ _ _ _ ⟨_, _, _, rfl⟩ h1) _ rfl
    · split at h
      · obtain ⟨_, q, h1, h⟩ := bind_eq_ok.1 h
        have hq := hps _ _ _ _ ⟨_, _, _, rfl⟩ h1
        split at h
        · rw [M.bind_ok (M.mod_app _ _)] at h
          injection h with h; injection h with h h2
          obtain ⟨pa, pp, g, rfl⟩ := hq
          rw [← h2, ← h]
          exact ⟨pa, pp, g, rfl, nofun, fun _ => ⟨rfl, hpr⟩⟩
        · injection h with h; injection h with h h2
          rw [← h2, ← h]
          exact hok q hq _ rfl
      · injection h with h; injection h with h h2
        rw [← h2, ← h]
        exact ⟨_, _, _, rfl, fun _ => rfl, nofun⟩
  · injection h with h; injection h with h h2
    rw [← h2, ← h]
    exact ⟨_, _, _, rfl, fun _ => rfl, nofun⟩

/-- whether the profiling window ends the run -/
theorem profWindow_exit {s s' : St σ} {b : Bool} (h : profWindow E { s with trapped := false } = .ok (b, s')) :
    b = windowExit E s := by
  unfold profWindow at h
  unfold windowExit
  split at h
  · rename_i hpr
    rw [M.bind_ok (M.get_app _ _), M.bind_ok (M.get_app _ _), M.bind_ok (M.mod_app _ _)] at h
    rw [hpr, Bool.true_and]
    simp only at h
    generalize s.profPc.shouldStartPc s.pc = r at *
    split at h
    · rename_i hr
      obtain ⟨_, q, h1, h⟩ := bind_eq_ok.1 h
      injection h with h; injection h with h h2
      rw [← h, hr]; rfl
    · rename_i hr
      rw [Bool.not_eq_true] at hr
      rw [hr, Bool.not_false, Bool.true_and]
      split at h
      · rename_i hst
        rw [hst, Bool.true_and]
        obtain ⟨_, q, h1, h⟩ := bind_eq_ok.1 h
        split at h
        · rename_i hx
          rw [M.bind_ok (M.mod_app _ _)] at h
          injection h with h; injection h with h h2
          rw [← h, hx]
        · rename_i hx
          injection h with h; injection h with h h2
          rw [← h]
          simpa using hx
      · rename_i hst
        injection h with h; injection h with h h2
        rw [← h]
        simp only [Bool.not_eq_true] at hst
        rw [hst]; rfl
  · rename_i hpr
    injection h with h; injection h with h h2
    rw [← h]
    simp only [Bool.not_eq_true] at hpr
    rw [hpr]; rfl

end Ama
