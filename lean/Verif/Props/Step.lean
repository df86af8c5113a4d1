import Verif.Lemmas.StepCases
import Verif.Lemmas.PrimsOf
import Verif.Lemmas.Cnt
import Verif.Lemmas.Ex
/-!
# C25, C23, C24: what one step does, run limits, and stopping

A step that returns (no thrown access violation, no undefined behaviour) and does not end the run
by the step limit or the profiling window has one of three outcomes, told apart by the retired
instruction count and the ghost log of trap entries.
-/
namespace Ama
open M

namespace Spec
variable {σ : Type}

/-- one instruction retired and nothing trapped -/
def Retired (s s' : St σ) : Prop := s'.simInst = s.simInst + 1#64 ∧ s'.trapLog = s.trapLog
/-- nothing retired, at least one trap was entered, and the next instruction is the handler's -/
def Trapped (s s' : St σ) : Prop :=
  s'.simInst = s.simInst ∧ (∃ new, new ≠ [] ∧ s'.trapLog = new ++ s.trapLog) ∧ s'.pc = s'.csr A.mtvec
/-- asleep before and after: nothing retired, nothing trapped, registers, memory and pc unchanged -/
def Idle (s s' : St σ) : Prop :=
  s'.simInst = s.simInst ∧ s'.trapLog = s.trapLog ∧ s.wfiActive = true ∧ s'.wfiActive = true ∧
  s'.rf = s.rf ∧ s'.ram = s.ram ∧ s'.pc = s.pc

end Spec
open Spec
variable {σ : Type} {E : Env σ}

/-! ## Bookkeeping during execution -/

/-- counters and sleep state are `k`, `j`, `w`; the trap log extends `l` exactly if trapped -/
def Book (l : List (W × W × W)) (k j : BitVec 64) (w : Bool) (s : St σ) : Prop :=
  s.simInst = k ∧ s.simStep = j ∧ s.wfiActive = w ∧ (s.trapped = false → s.trapLog = l) ∧
  (s.trapped = true → ∃ new, new ≠ [] ∧ s.trapLog = new ++ l)

theorem Book.enter {l : List (W × W × W)} {k j : BitVec 64} {w : Bool} (c t : W) :
    Pres (Book l k j w : St σ → Prop) (trapInst c t) := fun s _ s' h e => by
  rw [trapInst_app] at e
  injection e with e; injection e with _ e
  rw [← e]
  obtain ⟨h1, h2, h3, h4, h5⟩ := h
  refine ⟨h1, h2, h3, nofun, fun _ => ?_⟩
  cases ht : s.trapped with
  | false => exact ⟨[(c, t, s.pc)], by simp, by rw [← h4 ht]; rfl⟩
  | true =>
    obtain ⟨new, _, e⟩ := h5 ht
    exact ⟨(c, t, s.pc) :: new, by simp, by change _ :: s.trapLog = _; rw [e]; rfl⟩

theorem book_prims (l : List (W × W × W)) (k j : BitVec 64) (w : Bool) :
    PrimsE E (Book l k j w) where
  trap := Book.enter
  ramWr := ramWr_of (fun _ _ h => h) (fun _ _ h => h)
  uartWr := uartWr_of fun _ _ h => h
  uartRd := uartRd_of (fun _ _ h => h) (fun _ _ h => h)
  wrCsr := fun _ e v _ => wrCsr_of Book.enter (fun _ _ _ h => h) e v
  uartIn := uartIn_of (fun _ _ h => h) (fun _ _ h => h)
  mtime := mtime_of (fun _ _ h => h) (fun _ _ h => h) _

/-! ## A trap leaves pc at the trap vector -/

/-- trapped means: at the trap vector -/
def AtVec (s : St σ) : Prop := s.trapped = true → s.pc = s.csr A.mtvec

theorem AtVec.enter (c t : W) : Pres (AtVec : St σ → Prop) (trapInst c t) := fun s _ s' _ e _ => by
  rw [trapInst_app] at e
  injection e with e; injection e with _ e
  rw [← e]
  simp [trapTo, trapCsr, A.mtvec, A.mstatus, A.mepc, A.mtval, A.mcause]

theorem AtVec.mip (s : St σ) (v : W) (h : AtVec s) : AtVec { s with csr := upd s.csr A.mip v } :=
  fun ht => (h ht).trans (upd_other s.csr v (show A.mtvec ≠ A.mip by decide)).symm

theorem atVec_prims : PrimsX E (AtVec : St σ → Prop) where
  trap := AtVec.enter
  ramWr := ramWr_of (fun _ _ h => h) (fun _ _ h => h)
  uartWr := uartWr_of fun _ _ h => h
  uartRd := uartRd_of (fun _ _ h => h) AtVec.mip

/-- executing a CSR instruction, from a state that has not trapped -/
theorem atVec_dCsr (w : W) {s s' : St σ} (h0 : s.trapped = false) (h : dCsr E w s = .ok ((), s')) : AtVec s' := by
  cases hi : csrInfo E.cfg.rv32c (IP.csrAddr w) with
  | none =>
    rw [dCsr_none hi] at h
    exact (atVec_prims (E := E)).eIllegal _ _ _ (fun h1 => by rw [h0] at h1; cases h1) h
  | some e =>
    rw [dCsr_some hi] at h
    obtain ⟨_, s1, e1, h⟩ := bind_eq_ok.1 h
    obtain ⟨t, e1⟩ := csrCntUpdate_ok e1
    have t1 : s1.trapped = false := by rw [e1]; exact h0
    obtain ⟨_, s2, e2, h⟩ := bind_eq_ok.1 h
    have t2 : s2.trapped = false := (show Pres (fun s : St σ => s.trapped = false) (rg _) from
      Pres.get _) _ _ _ t1 e2
    obtain ⟨_, s3, e3, h⟩ := bind_eq_ok.1 h
    have t3 : s3.trapped = false := (show Pres (fun s : St σ => s.trapped = false) (M.get _) from
      Pres.get _) _ _ _ t2 e3
    obtain ⟨_, s4, e4, h⟩ := bind_eq_ok.1 h
    have t4 : s4.trapped = false := (show Pres (fun s : St σ => s.trapped = false) (writeRf _ _) from
      Pres.ite (Pres.pure _) (Pres.mod fun _ h => h)) _ _ _ t3 e4
    obtain ⟨_, s5, e5, h⟩ := bind_eq_ok.1 h
    rw [M.mod_app] at h
    injection h with h; injection h with _ h
    suffices h5 : AtVec s5 by rw [← h]; exact h5
    have a4 : AtVec s4 := fun h1 => by rw [t4] at h1; cases h1
    have hw : ∀ v (s : St σ) u s', s.trapped = false → writeCsr e v s = .ok (u, s') → AtVec s' := by
      intro v s u s' ht h
      have hm : (M.mod fun s : St σ => { s with csr := upd s.csr e.addr (csrMerge e (s.csr e.addr) v) }) s =
          .ok (u, s') → AtVec s' := fun h => by
        rw [M.mod_app] at h
        injection h with h; injection h with _ h
        rw [← h]; exact fun h1 => by rw [show _ = s.trapped from rfl, ht] at h1; cases h1
      unfold writeCsr at h
      cases hp : e.perm <;> simp only [hp] at h
      case ro => exact (atVec_prims (E := E)).eIllegal _ _ _ (fun h1 => by rw [ht] at h1; cases h1) h
      case war0 =>
        injection h with h; injection h with _ h
        rw [← h]; exact fun h1 => by rw [ht] at h1; cases h1
      all_goals exact hm h
    cases hop : csrSel (IP.funct3 w) with
    | some op =>
      simp only [hop] at e5
      obtain ⟨_, s6, e6, e5⟩ := bind_eq_ok.1 e5
      refine (atVec_prims (E := E)).emit _ _ _ _ ?_ e5
      unfold csrDo at e6
      rw [M.bind_ok (M.get_app _ _)] at e6
      have hp : ∀ u, (pure () : M σ Unit) s4 = .ok (u, s6) → AtVec s6 := fun u e => by
        injection e with e; injection e with _ e; exact e ▸ a4
      cases op <;> simp only at e6
      · exact hw _ _ _ _ t4 e6
      · split at e6
        · exact hp _ e6
        · exact hw _ _ _ _ t4 e6
      · split at e6
        · exact hp _ e6
        · exact hw _ _ _ _ t4 e6
      · exact hw _ _ _ _ t4 e6
      · split at e6
        · exact hp _ e6
        · exact hw _ _ _ _ t4 e6
      · split at e6
        · exact hp _ e6
        · exact hw _ _ _ _ t4 e6
    | none =>
      simp only [hop] at e5
      exact (atVec_prims (E := E)).eIllegal _ _ _ a4 e5

/-- executing any instruction: untrapped before, or the word 0 which only traps again -/
theorem atVec_exec {s s' : St σ} (h0 : s.trapped = false ∨ s.inst = 0#32) (ha : AtVec s)
    (h : exec E s = .ok ((), s')) : AtVec s' := by
  rcases exec_split h with ⟨hc, h⟩ | ⟨_, _, h⟩ | ⟨_, _, h⟩
  · have ht : s.trapped = false := h0.resolve_right fun h1 => by rw [h1] at hc; exact absurd hc (by decide)
    by_cases hs : IP.opcode s.inst = 0x73#7
    · rw [exec32_system hs] at h
      unfold dSystem at h
      by_cases hf : IP.funct3 s.inst ≠ 0#3
      · rw [if_pos hf] at h
        obtain ⟨_, s1, e1, h⟩ := bind_eq_ok.1 h
        exact (atVec_prims (E := E)).nextSeq _ _ _ _ (atVec_dCsr _ ht e1) h
      · rw [if_neg hf] at h
        have hp := (atVec_prims : PrimsX E (AtVec : St σ → Prop))
        by_cases h1 : s.inst = 0x30200073#32
        · rw [h1] at h
          rw [if_neg (by decide), if_neg (by decide), if_pos rfl] at h
          obtain ⟨_, s1, e1, h⟩ := bind_eq_ok.1 h
          refine hp.emit _ _ _ _ ?_ h
          unfold mretStateUpdate at e1
          rw [M.mod_app] at e1
          injection e1 with e1; injection e1 with _ e1
          rw [← e1]
          exact fun h2 => by rw [show _ = s.trapped from rfl, ht] at h2; cases h2
        · rw [if_neg h1] at h
          exact (Pres.ite (hp.eEnv _) <| Pres.ite (hp.eEnv _) <|
            Pres.ite (Pres.bind (hp.nextSeq _) fun _ => Pres.bind (Pres.mod fun s hs => hp.wfiPend s _ hs)
              fun _ => hp.emit _) hp.eIllegal : Pres AtVec _) _ _ _ ha h
    · exact (atVec_prims (E := E)).exec32_of s.inst (fun h1 => absurd h1 hs) _ _ _ ha h
  · exact (atVec_prims (E := E)).exec16_of _ (fun _ =>
      Pres.bind (Pres.mod fun _ h => h) fun _ => (atVec_prims (E := E)).emit _) { s with inst := IP.toRvc s.inst } _ _ ha h
  · exact (atVec_prims (E := E)).eIllegal _ _ _ ha h

/-- nothing has happened yet but clock events: registers, memory and pc as in `s0`, or trapped -/
def Asis (s0 s : St σ) : Prop := s.rf = s0.rf ∧ s.ram = s0.ram ∧ (s.trapped = false → s.pc = s0.pc)

theorem asis_check (s0 : St σ) (b : Bool) : Pres (Asis s0) (checkInterrupts E b) := by
  have ht : ∀ c t, Pres (Asis s0 : St σ → Prop) (trapInst c t) := fun c t s a s' h e => by
    rw [trapInst_app] at e
    injection e with e; injection e with _ e
    rw [← e]
    exact ⟨h.1, h.2.1, nofun⟩
  refine Pres.ite (Pres.pure _) ?_
  refine Pres.bind (mtime_of (fun _ _ h => h) (fun _ _ h => h) _) fun _ => ?_
  refine Pres.bind (Pres.ite (Pres.bind (Pres.get _) fun _ => uartIn_pres (fun _ _ h => h) (fun _ _ h => h) _)
    (Pres.pure _)) fun _ => ?_
  refine Pres.bind (Pres.get _) fun _ => Pres.bind (Pres.get _) fun _ => Pres.bind (Pres.get _) fun _ => ?_
  exact Pres.bind (Pres.ite (Pres.bind (ht _ _) fun _ => Pres.mod fun _ h => h)
    (Pres.ite (Pres.bind (ht _ _) fun _ => Pres.mod fun _ h => h) (Pres.pure _))) fun _ => Pres.pure _

theorem atVec_check (b : Bool) : Pres (AtVec : St σ → Prop) (checkInterrupts E b) := by
  refine Pres.ite (Pres.pure _) ?_
  refine Pres.bind (mtime_of (fun _ _ h => h) AtVec.mip _) fun _ => ?_
  refine Pres.bind (Pres.ite (Pres.bind (Pres.get _) fun _ => uartIn_pres (fun _ _ h => h) AtVec.mip _)
    (Pres.pure _)) fun _ => ?_
  refine Pres.bind (Pres.get _) fun _ => Pres.bind (Pres.get _) fun _ => Pres.bind (Pres.get _) fun _ => ?_
  exact Pres.bind (Pres.ite (Pres.bind (AtVec.enter _ _) fun _ => Pres.mod fun _ h => h)
    (Pres.ite (Pres.bind (AtVec.enter _ _) fun _ => Pres.mod fun _ h => h) (Pres.pure _))) fun _ => Pres.pure _

theorem atVec_fetch : Pres (AtVec : St σ → Prop) (fetch E) := by
  have hp := (atVec_prims : PrimsX E (AtVec : St σ → Prop))
  exact Pres.bind (Pres.get _) fun _ => Pres.ite (Pres.mod fun s hs => hs)
    (Pres.bind (Pres.get _) fun _ => Pres.bind (hp.rdInst _) fun _ => Pres.mod fun s hs => hs)

/-- what the execution phase of a step leaves behind -/
theorem stepExec_outcome {q0 q1 : St σ} (h0 : q0.trapped = false) (h : stepExec E q0 = .ok ((), q1)) :
    q1.simStep = q0.simStep ∧ q1.simInst = q0.simInst ∧ AtVec q1 ∧
    (q1.trapped = true → ∃ new, new ≠ [] ∧ q1.trapLog = new ++ q0.trapLog) ∧
    (q1.trapped = false → q1.trapLog = q0.trapLog) ∧
    (q1.trapped = false → q1.wfiActive = true →
      q0.wfiActive = true ∧ q1.rf = q0.rf ∧ q1.ram = q0.ram ∧ q1.pc = q0.pc) := by
  obtain ⟨d, nt, qa, hc, _, h⟩ := stepExec_split h
  have hb : Book q0.trapLog q0.simInst q0.simStep q0.wfiActive q0 :=
    ⟨rfl, rfl, rfl, fun _ => rfl, fun h1 => by rw [h0] at h1; cases h1⟩
  have hb1 := (book_prims (E := E) _ _ _ _).checkInterrupts d _ _ _ hb hc
  have hb2 : Book q0.trapLog q0.simInst q0.simStep (wakeSt nt qa).wfiActive (wakeSt nt qa) :=
    ⟨hb1.1, hb1.2.1, rfl, hb1.2.2.2.1, hb1.2.2.2.2⟩
  have hv1 : AtVec qa := atVec_check d _ _ _ (fun h1 => by rw [h0] at h1; cases h1) hc
  have hv2 : AtVec (wakeSt nt qa) := hv1
  have hs1 : Asis q0 qa := asis_check q0 d _ _ _ ⟨rfl, rfl, fun _ => rfl⟩ hc
  rcases h with ⟨ht, hw, qc, hf, he⟩ | ⟨rfl, hi⟩
  · have hb3 := (book_prims (E := E) _ _ _ _).fetch _ _ _ hb2 hf
    have hb4 := (book_prims (E := E) _ _ _ _).exec _ _ _ hb3 he
    have hv3 := atVec_fetch _ _ _ hv2 hf
    have hv4 : AtVec q1 := atVec_exec (by
      rcases fetch_trap hf with e | ⟨_, e⟩
      · exact .inl (e.trans ht)
      · exact .inr e) hv3 he
    refine ⟨hb4.2.1, hb4.1, hv4, hb4.2.2.2.2, hb4.2.2.2.1, fun _ ha => ?_⟩
    exfalso
    rw [hb4.2.2.1] at ha
    rcases hw with hw | hw
    · rw [hw] at ha; cases ha
    · unfold wakeSt at ha; rw [hw] at ha; simp at ha
  · refine ⟨hb2.2.1, hb2.1, hv2, hb2.2.2.2.2, hb2.2.2.2.1, fun ht ha => ⟨?_, hs1.1, hs1.2.1, hs1.2.2 ht⟩⟩
    rw [← hb1.2.2.1]
    unfold wakeSt at ha
    simp only [Bool.and_eq_true] at ha
    exact ha.1

/-- **C25** A step that returns, and does not end the run by the step limit or the profiling window,
counts one step and either retires exactly one instruction without a trap, or enters a trap without
retiring anything and continues at the trap vector, or idles in WFI changing no register, memory
byte or pc. -/
theorem step_trichotomy_partial {s s' : St σ} (h : step E s = .ok ((), s')) (hwin : windowExit E s = false)
    (hlim : s.simStep + 1#64 ≠ E.cfg.runSteps) :
    s'.simStep = s.simStep + 1#64 ∧ (Retired s s' ∨ Trapped s s' ∨ Idle s s') := by
  rcases step_split h with hx | ⟨q0, q1, h1, h2, rfl⟩
  · have := profWindow_exit hx
    rw [hwin] at this; cases this
  · obtain ⟨pa, pp, g, hq, hr, _⟩ := profWindow_frame h1
    have hr := hr rfl
    obtain ⟨o1, o2, o3, o4, o5, o6⟩ := stepExec_outcome (by rw [hq]) h2
    have e1 : q0.simStep = s.simStep := by rw [hq]
    have e2 : q0.simInst = s.simInst := by rw [hq]
    have e3 : q0.trapLog = s.trapLog := by rw [hq]
    have e4 : q0.wfiActive = s.wfiActive := by rw [hq]
    have e5 : q0.rf = s.rf := by rw [hq]
    have e6 : q0.ram = s.ram := by rw [hq]
    have e7 : q0.pc = s.pc := by rw [hq]
    rw [e1] at o1; rw [e2] at o2; rw [e3] at o4 o5; rw [e4, e5, e6, e7] at o6
    unfold finishSt finishSt1
    rw [if_neg (by rw [show _ = q1.simStep + 1#64 from rfl, o1]; exact hlim)]
    split
    · rename_i hh
      obtain ⟨a, b, c, d⟩ := o6 hh.2 hh.1
      exact ⟨by rw [← o1], .inr (.inr ⟨o2, o5 hh.2, a, hh.1, b, c, d⟩)⟩
    · split
      · rename_i ht
        exact ⟨by rw [← o1], .inr (.inl ⟨o2, o4 ht, o3 ht⟩)⟩
      · rename_i hi ht
        have ht : q1.trapped = false := by simpa using ht
        exact ⟨by rw [← o1], .inl ⟨by rw [← o2], o5 ht⟩⟩

/-- the three outcomes exclude each other -/
theorem outcomes_exclusive (s s' : St σ) : ¬ (Retired s s' ∧ Trapped s s') ∧
    ¬ (Retired s s' ∧ Idle s s') ∧ ¬ (Trapped s s' ∧ Idle s s') := by
  have hne : ∀ x : BitVec 64, x + 1#64 ≠ x := by intro x h; bv_omega
  refine ⟨?_, ?_, ?_⟩
  · rintro ⟨⟨h1, _⟩, h2, _⟩
    exact hne _ (h1.symm.trans h2)
  · rintro ⟨⟨h1, _⟩, h2, _⟩
    exact hne _ (h1.symm.trans h2)
  · rintro ⟨⟨_, ⟨new, hn, h1⟩, _⟩, _, h2, _⟩
    rw [h2] at h1
    have := congrArg List.length h1
    rw [List.length_append] at this
    exact hn (List.length_eq_zero_iff.1 (by omega))

/-- counters move by at most one, and the run stops where they meet their limits -/
theorem step_counts {s s' : St σ} (h : step E s = .ok ((), s')) :
    (s'.simStep = s.simStep ∧ s'.simInst = s.simInst ∧ s'.running = false) ∨
    (s'.simStep = s.simStep + 1#64 ∧ (s'.simInst = s.simInst ∨
      (s'.simInst = s.simInst + 1#64 ∧ (s'.simInst = E.cfg.runInsts → s'.running = false))) ∧
      (s'.simStep = E.cfg.runSteps → s'.running = false)) := by
  rcases step_split h with hx | ⟨q0, q1, h1, h2, rfl⟩
  · obtain ⟨pa, pp, g, hq, _, hr⟩ := profWindow_frame hx
    have hr := (hr rfl).1
    exact .inl ⟨by rw [hq], by rw [hq], hr⟩
  · obtain ⟨pa, pp, g, hq, _, _⟩ := profWindow_frame h1
    obtain ⟨o1, o2, _⟩ := stepExec_outcome (by rw [hq]) h2
    have e1 : q1.simStep = s.simStep := by rw [o1, hq]
    have e2 : q1.simInst = s.simInst := by rw [o2, hq]
    refine .inr ?_
    unfold finishSt finishSt1
    split
    · exact ⟨by rw [← e1], .inl e2, fun _ => rfl⟩
    · rename_i hl
      have hl : ∀ {X : Prop}, q1.simStep + 1#64 = E.cfg.runSteps → X := fun h => absurd h hl
      split
      · exact ⟨by rw [← e1], .inl e2, fun h => hl h⟩
      · split
        · exact ⟨by rw [← e1], .inl e2, fun h => hl h⟩
        · refine ⟨by rw [← e1], .inr ⟨by rw [← e2], fun h => ?_⟩, fun h => hl h⟩
          have h : q1.simInst + 1#64 = E.cfg.runInsts := h
          change (q1.running && !(q1.simInst + 1#64 == E.cfg.runInsts)) = false
          rw [h]; simp

/-- induction over runs, with the loop's `running` test -/
theorem runN_inv {J : St σ → Prop}
    (hstep : ∀ s s', J s → s.running = true → step E s = .ok ((), s') → J s') :
    ∀ n s s', J s → runN E n s = .ok ((), s') → J s' := by
  intro n
  induction n with
  | zero =>
    intro s s' hJ h
    injection h with h; injection h with _ h
    exact h ▸ hJ
  | succ n ih =>
    intro s s' hJ h
    unfold runN at h
    rw [M.bind_ok (M.get_app _ _)] at h
    split at h
    · rename_i hr
      obtain ⟨_, s1, h1, h⟩ := bind_eq_ok.1 h
      exact ih _ _ (hstep _ _ hJ hr h1) h
    · injection h with h; injection h with _ h
      exact h ▸ hJ

/-- once stopped, nothing more happens -/
theorem run_stopped (n : Nat) {s : St σ} (h : s.running = false) : runN E n s = .ok ((), s) := by
  cases n with
  | zero => rfl
  | succ n =>
    unfold runN
    rw [M.bind_ok (M.get_app _ _), h]
    rfl

/-- **C25** Retired instructions never exceed steps, in runs of fewer than 2^64 loop iterations. -/
theorem retired_le_steps (n : Nat) (hn : n < 2 ^ 64) {s s' : St σ} (hs : s.simStep = 0#64) (hi : s.simInst = 0#64)
    (h : runN E n s = .ok ((), s')) : s'.simInst.toNat ≤ s'.simStep.toNat ∧ s'.simStep.toNat ≤ n := by
  have key : ∀ n s s', s.simInst.toNat ≤ s.simStep.toNat → s.simStep.toNat + n < 2 ^ 64 →
      runN E n s = .ok ((), s') → s'.simInst.toNat ≤ s'.simStep.toNat ∧ s'.simStep.toNat ≤ s.simStep.toNat + n := by
    intro n
    induction n with
    | zero =>
      intro s s' h1 h2 h
      injection h with h; injection h with _ h
      rw [← h]; exact ⟨h1, Nat.le_refl _⟩
    | succ n ih =>
      intro s s' h1 h2 h
      unfold runN at h
      rw [M.bind_ok (M.get_app _ _)] at h
      split at h
      · obtain ⟨_, s1, h3, h⟩ := bind_eq_ok.1 h
        have a1 : (s.simStep + 1#64).toNat = s.simStep.toNat + 1 := by
          rw [BitVec.toNat_add]
          exact Nat.mod_eq_of_lt (by change s.simStep.toNat + 1 < 2 ^ 64; omega)
        have a2 : (s.simInst + 1#64).toNat = s.simInst.toNat + 1 := by
          rw [BitVec.toNat_add]
          exact Nat.mod_eq_of_lt (by change s.simInst.toNat + 1 < 2 ^ 64; omega)
        rcases step_counts h3 with ⟨e1, e2, _⟩ | ⟨e1, e2, _⟩
        · have := ih s1 s' (by rw [e1, e2]; exact h1) (by rw [e1]; omega) h
          rw [e1] at this
          exact ⟨this.1, by omega⟩
        · have := ih s1 s' (by
            rw [e1, a1]
            rcases e2 with e2 | ⟨e2, _⟩
            · rw [e2]; omega
            · rw [e2, a2]; omega) (by rw [e1, a1]; omega) h
          rw [e1, a1] at this
          exact ⟨this.1, by omega⟩
      · injection h with h; injection h with _ h
        rw [← h]; exact ⟨h1, by omega⟩
  have := key n s s' (by rw [hi]; exact Nat.zero_le _) (by rw [hs]; simpa using hn) h
  rw [hs] at this
  simpa using this

/-! ## C23: run limits -/

/-- **C23** With an instruction limit, a run of any length from reset never retires more
instructions than the limit, and is stopped as soon as it has retired that many. -/
theorem inst_limit_partial (n : Nat) {s s' : St σ} (hN : E.cfg.runInsts ≠ 0#64) (hi : s.simInst = 0#64)
    (h : runN E n s = .ok ((), s')) :
    s'.simInst.toNat ≤ E.cfg.runInsts.toNat ∧ (s'.simInst = E.cfg.runInsts → s'.running = false) := by
  refine runN_inv (J := fun s => s.simInst.toNat ≤ E.cfg.runInsts.toNat ∧
    (s.simInst = E.cfg.runInsts → s.running = false)) ?_ n s s' ?_ h
  · rintro s s' ⟨h1, h2⟩ hr hs
    have hne : s.simInst ≠ E.cfg.runInsts := fun e => by rw [h2 e] at hr; cases hr
    have hlt : s.simInst.toNat < E.cfg.runInsts.toNat :=
      Nat.lt_of_le_of_ne h1 fun e => hne (BitVec.eq_of_toNat_eq e)
    rcases step_counts hs with ⟨_, e, _⟩ | ⟨_, e | ⟨e, e2⟩, _⟩
    · rw [e]; exact ⟨h1, fun e => absurd e hne⟩
    · rw [e]; exact ⟨h1, fun e => absurd e hne⟩
    · refine ⟨?_, e2⟩
      rw [e, BitVec.toNat_add]
      exact Nat.le_trans (Nat.mod_le _ _) hlt
  · rw [hi]
    exact ⟨Nat.zero_le _, fun e => absurd e.symm hN⟩

/-- **C23** With a step limit, a run of any length from reset never takes more steps than the limit,
and is stopped as soon as it has taken that many. -/
theorem step_limit_partial (n : Nat) {s s' : St σ} (hN : E.cfg.runSteps ≠ 0#64) (hi : s.simStep = 0#64)
    (h : runN E n s = .ok ((), s')) :
    s'.simStep.toNat ≤ E.cfg.runSteps.toNat ∧ (s'.simStep = E.cfg.runSteps → s'.running = false) := by
  refine runN_inv (J := fun s => s.simStep.toNat ≤ E.cfg.runSteps.toNat ∧
    (s.simStep = E.cfg.runSteps → s.running = false)) ?_ n s s' ?_ h
  · rintro s s' ⟨h1, h2⟩ hr hs
    have hne : s.simStep ≠ E.cfg.runSteps := fun e => by rw [h2 e] at hr; cases hr
    have hlt : s.simStep.toNat < E.cfg.runSteps.toNat :=
      Nat.lt_of_le_of_ne h1 fun e => hne (BitVec.eq_of_toNat_eq e)
    rcases step_counts hs with ⟨e, _, _⟩ | ⟨e, _, e2⟩
    · rw [e]; exact ⟨h1, fun e => absurd e hne⟩
    · refine ⟨?_, e2⟩
      rw [e, BitVec.toNat_add]
      exact Nat.le_trans (Nat.mod_le _ _) hlt
  · rw [hi]
    exact ⟨Nat.zero_le _, fun e => absurd e.symm hN⟩

end Ama
