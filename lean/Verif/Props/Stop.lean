import Verif.Props.Step
/-!
# C24: tohost, and why a run stops
-/
namespace Ama
open M

namespace Spec
/-- bit 0 of the tohost CSR -/
def tohostBit {σ : Type} (s : St σ) : Bool := (s.csr 0x51e#16).getLsbD 0
end Spec
open Spec
variable {σ : Type} {E : Env σ}

theorem tohostBit_and (s : St σ) : (s.csr A.tohost &&& 1#32 == 0#32) = !tohostBit s := by
  have e : A.tohost = 0x51e#16 := rfl
  unfold tohostBit
  rw [e]
  generalize s.csr 0x51e#16 = v
  have : v &&& 1#32 = if v.getLsbD 0 then 1#32 else 0#32 := by
    apply BitVec.eq_of_getLsbD_eq
    intro i hi
    rw [BitVec.getLsbD_and]
    have h1 : (1#32 : BitVec 32).getLsbD i = decide (i = 0) := by
      revert hi; revert i; decide
    rw [h1]
    by_cases h0 : i = 0
    · subst h0
      cases v.getLsbD 0 <;> simp
    · cases v.getLsbD 0 <;> simp [h0]
  rw [this]
  cases v.getLsbD 0 <;> rfl

/-- the tohost register holds `v` -/
def Th (v : W) (s : St σ) : Prop := s.csr A.tohost = v

theorem Th.upd (v : W) {a : BitVec 16} (ha : a ≠ A.tohost) (s : St σ) (x : W) (h : Th v s) :
    Th v { s with csr := upd s.csr a x } := (upd_other s.csr x (Ne.symm ha)).trans h

theorem Th.enter (v c t : W) : Pres (Th v : St σ → Prop) (trapInst c t) := fun s _ s' h e => by
  rw [trapInst_app] at e
  injection e with e; injection e with _ e
  rw [← e]
  unfold Th
  simp only [trapTo, trapCsr]
  rw [if_neg (by decide), if_neg (by decide), if_neg (by decide), if_neg (by decide)]
  exact h

theorem th_prims (v : W) : PrimsX E (Th v : St σ → Prop) where
  trap := Th.enter v
  ramWr := ramWr_of (fun _ _ h => h) (fun _ _ h => h)
  uartWr := uartWr_of fun _ _ h => h
  uartRd := uartRd_of (fun _ _ h => h) (Th.upd v (by decide))

theorem tohost_untouched (c : Bool) : ¬ CntTouched c A.tohost := by
  rintro (h | ⟨e, h1, h2⟩)
  · revert h; decide
  · have : ∀ c, (csrInfo c A.tohost).map CsrEntry.perm = some .rw := by decide +kernel
    have := this c
    rw [h1] at this
    injection this with this
    rw [h2] at this
    cases this

theorem Th.cnt (v w : W) (a : BitVec 16) : Pres (Th v : St σ → Prop) (csrCntUpdate E w a) := fun s _ s' h e => by
  obtain ⟨t, e⟩ := csrCntUpdate_ok e
  have e1 : s'.csr = cntCsr E.cfg.rv32c s.csr (s.simInst - s.csrInst) (s.simStep - s.csrStep) t := by rw [e]; rfl
  have e2 : s'.csr A.tohost = s.csr A.tohost := by rw [e1, cntCsr_other (tohost_untouched _)]
  exact e2.trans h

theorem Th.write (v : W) {e : CsrEntry} (he : e.addr ≠ A.tohost) (x : W) :
    Pres (Th v : St σ → Prop) (writeCsr e x) := by
  unfold writeCsr
  split
  · exact Pres.bind (Pres.get _) fun _ => Th.enter _ _ _
  · exact Pres.pure _
  · exact Pres.mod fun s hs => Th.upd v he s _ hs

theorem Th.mret (v : W) : Pres (Th v : St σ → Prop) mretStateUpdate := by
  unfold mretStateUpdate
  exact Pres.mod fun s hs => Th.upd v (by decide) s _ hs

/-- the word is a CSR instruction addressing tohost -/
def csrTohost (w : W) : Prop := IP.opcode w = 0x73#7 ∧ IP.funct3 w ≠ 0#3 ∧ IP.csrAddr w = A.tohost

/-- a CSR instruction ends with the tohost test -/
theorem dCsr_running {w : W} {q q' : St σ} (hi : csrInfo E.cfg.rv32c (IP.csrAddr w) ≠ none)
    (h : dCsr E w q = .ok ((), q')) : q'.running = true → tohostBit q' = false := by
  obtain ⟨e, hi⟩ := Option.ne_none_iff_exists'.1 hi
  rw [dCsr_some hi] at h
  obtain ⟨_, s1, _, h⟩ := bind_eq_ok.1 h
  obtain ⟨_, s2, _, h⟩ := bind_eq_ok.1 h
  obtain ⟨_, s3, _, h⟩ := bind_eq_ok.1 h
  obtain ⟨_, s4, _, h⟩ := bind_eq_ok.1 h
  obtain ⟨_, s5, _, h⟩ := bind_eq_ok.1 h
  rw [M.mod_app] at h
  injection h with h; injection h with _ h
  rw [← h]
  intro hr
  have hr : (s5.running && (s5.csr A.tohost &&& 1#32 == 0#32)) = true := hr
  rw [Bool.and_eq_true, tohostBit_and] at hr
  exact (by simpa using hr.2 : tohostBit s5 = false)

theorem nextSeq_app (n : W) (s : St σ) : nextSeq n s = .ok ((), { s with nextPc := s.pc + n }) := by
  rfl

theorem tohost_info (c : Bool) : csrInfo c A.tohost ≠ none := by
  cases c <;> decide +kernel

/-- Only a CSR instruction addressing tohost changes it. -/
theorem th_exec {q q' : St σ} (h : exec E q = .ok ((), q')) :
    q'.csr A.tohost = q.csr A.tohost ∨
    (csrTohost q.inst ∧ IP.copcode q.inst = 3#2 ∧ (q'.running = true → tohostBit q' = false)) := by
  have hp := th_prims (E := E) (q.csr A.tohost)
  rcases exec_split h with ⟨hc, h⟩ | ⟨_, _, h⟩ | ⟨_, _, h⟩
  · by_cases hw : csrTohost q.inst
    · refine .inr ⟨hw, hc, ?_⟩
      rw [exec32_system hw.1] at h
      unfold dSystem at h
      rw [if_pos hw.2.1] at h
      obtain ⟨_, q1, h1, h⟩ := bind_eq_ok.1 h
      rw [nextSeq_app] at h
      injection h with h; injection h with _ h
      have := dCsr_running (by rw [hw.2.2]; exact tohost_info _) h1
      rw [← h]
      exact this
    · refine .inl (hp.exec32_of _ (fun hop => hp.dSystem_of _ (Th.mret _) fun hf => ?_) _ _ _ rfl h)
      exact hp.dCsr_of _ (Th.cnt _ _ _) (fun e v he => Th.write _ (by
        rw [csrInfo_addr he]
        exact fun ha => hw ⟨hop, hf, ha⟩) v) (fun _ _ _ h => h)
  · exact .inl (hp.exec16_of _ (fun _ => Pres.bind (Pres.mod fun _ h => h) fun _ => hp.emit _)
      { q with inst := IP.toRvc q.inst } _ _ rfl h)
  · exact .inl (hp.eIllegal _ _ _ rfl h)

/-- the word executed is in the instruction register afterwards -/
theorem inst_exec {q q' : St σ} (h : exec E q = .ok ((), q')) :
    q'.inst = if IP.copcode q.inst ≠ 3#2 ∧ E.cfg.rv32c = true then IP.toRvc q.inst else q.inst := by
  have hp : ∀ w, PrimsX E (fun s : St σ => s.inst = w) := fun w =>
    { trap := fun _ _ => Pres.bind (Pres.mod fun _ h => h) fun _ => Pres.mod fun _ h => h
      ramWr := ramWr_of (fun _ _ h => h) (fun _ _ h => h)
      uartWr := uartWr_of fun _ _ h => h
      uartRd := uartRd_of (fun _ _ h => h) (fun _ _ h => h) }
  rcases exec_split h with ⟨hc, h⟩ | ⟨hc, hr, h⟩ | ⟨hc, hr, h⟩
  · rw [if_neg (fun hh => hh.1 hc)]
    refine (hp q.inst).exec32_of _ (fun _ => (hp q.inst).dSystem_of _ (Pres.mod fun _ h => h) fun _ =>
      (hp q.inst).dCsr_of _ ?_ (fun e v _ => wrCsr_of (hp q.inst).trap (fun _ _ _ h => h) e v) (fun _ _ _ h => h)) _ _ _ rfl h
    exact Pres.bind (Pres.mod fun _ h => h) fun _ =>
      Pres.bind (Pres.bind (Pres.get _) fun _ => Pres.lift _) fun _ => Pres.mod fun _ h => h
  · rw [if_pos ⟨hc, hr⟩]
    exact (hp _).exec16_of _ (fun _ => Pres.bind (Pres.mod fun _ h => h) fun _ => (hp _).emit _)
      { q with inst := IP.toRvc q.inst } _ _ rfl h
  · rw [if_neg (fun hh => by rw [hr] at hh; cases hh.2)]
    exact (hp _).eIllegal _ _ _ rfl h

/-- without profilers, an instruction stops the run only through tohost or C.EBREAK -/
theorem running_exec (hpr : E.cfg.profilers = false) {q q' : St σ} (hr : q.running = true)
    (hz : tohostBit q = false) (h : exec E q = .ok ((), q')) :
    q'.running = true ∨ (csrTohost q'.inst ∧ tohostBit q' = true) ∨
      (E.cfg.rv32c = true ∧ isCEbreak q'.inst) := by
  have hi := inst_exec h
  have hp : PrimsX E (fun s : St σ => s.running = true) :=
    { trap := fun _ _ => Pres.bind (Pres.mod fun _ h => h) fun _ => Pres.mod fun _ h => h
      ramWr := ramWr_of (fun _ _ h => h) (fun _ _ h => h)
      uartWr := uartWr_of fun _ _ h => h
      uartRd := uartRd_of (fun _ _ h => h) (fun _ _ h => h)
      runningHint := fun h1 => by rw [hpr] at h1; cases h1 }
  rcases exec_split h with ⟨hc, h1⟩ | ⟨hc, hrv, h1⟩ | ⟨_, _, h1⟩
  · rw [if_neg (fun hh => hh.1 hc)] at hi
    cases hb : tohostBit q' with
    | true =>
      rcases th_exec h with e | ⟨e, _⟩
      · unfold tohostBit at hb hz
        rw [show (0x51e#16 : BitVec 16) = A.tohost from rfl] at hb hz
        rw [e, hz] at hb; cases hb
      · exact .inr (.inl ⟨hi ▸ e, rfl⟩)
    | false =>
      left
      by_cases hs : IP.opcode q.inst = 0x73#7
      · rw [exec32_system hs] at h1
        by_cases hf : IP.funct3 q.inst ≠ 0#3
        · unfold dSystem at h1
          rw [if_pos hf] at h1
          obtain ⟨_, q1, h2, h1⟩ := bind_eq_ok.1 h1
          rw [nextSeq_app] at h1
          injection h1 with h1; injection h1 with _ h1
          have hb1 : tohostBit q1 = false := by rw [← h1] at hb; exact hb
          rw [← h1]
          change q1.running = true
          cases hi : csrInfo E.cfg.rv32c (IP.csrAddr q.inst) with
          | none =>
            rw [dCsr_none hi] at h2
            exact hp.eIllegal _ _ _ hr h2
          | some e =>
            rw [dCsr_some hi] at h2
            obtain ⟨_, s1, f1, h2⟩ := bind_eq_ok.1 h2
            have r1 : s1.running = true := by
              obtain ⟨t, f1⟩ := csrCntUpdate_ok f1
              rw [f1]; exact hr
            obtain ⟨_, s2, f2, h2⟩ := bind_eq_ok.1 h2
            have r2 := hp.rg _ _ _ _ r1 f2
            obtain ⟨_, s3, f3, h2⟩ := bind_eq_ok.1 h2
            have r3 : s3.running = true := (Pres.get _ : Pres (fun s : St σ => s.running = true) _) _ _ _ r2 f3
            obtain ⟨_, s4, f4, h2⟩ := bind_eq_ok.1 h2
            have r4 := hp.writeRf _ _ _ _ _ r3 f4
            obtain ⟨_, s5, f5, h2⟩ := bind_eq_ok.1 h2
            have r5 : s5.running = true := by
              cases hop : csrSel (IP.funct3 q.inst) with
              | none =>
                simp only [hop] at f5
                exact hp.eIllegal _ _ _ r4 f5
              | some op =>
                simp only [hop] at f5
                exact Pres.bind (hp.csrDo_of op (fun v => wrCsr_of hp.trap (fun _ _ _ h => h) e v) _ _)
                  (fun _ => hp.emit _) _ _ _ r4 f5
            rw [M.mod_app] at h2
            injection h2 with h2; injection h2 with _ h2
            have hb5 : tohostBit s5 = false := by rw [← h2] at hb1; exact hb1
            rw [← h2]
            change (s5.running && (s5.csr A.tohost &&& 1#32 == 0#32)) = true
            rw [tohostBit_and, hb5, r5]; rfl
        · exact hp.dSystem_of _ (Pres.mod fun _ h => h) (fun h => absurd h hf) _ _ _ hr h1
      · exact hp.exec32_of _ (fun h => absurd h hs) _ _ _ hr h1
  · rw [if_pos ⟨hc, hrv⟩] at hi
    by_cases he : isCEbreak (IP.toRvc q.inst)
    · exact .inr (.inr ⟨hrv, hi ▸ he⟩)
    · exact .inl (hp.exec16_of _ (fun h => absurd h he) { q with inst := IP.toRvc q.inst } _ _ hr h1)
  · exact .inl (hp.eIllegal _ _ _ hr h1)

/-- running and tohost as given -/
def RT (v : W) (r : Bool) (s : St σ) : Prop := Th v s ∧ s.running = r

theorem RT.enter (v : W) (r : Bool) (c t : W) : Pres (RT v r : St σ → Prop) (trapInst c t) := fun s a s' h e =>
  ⟨Th.enter v c t s a s' h.1 e, (show Pres (fun s : St σ => s.running = r) (trapInst c t) from
    Pres.bind (Pres.mod fun _ h => h) fun _ => Pres.mod fun _ h => h) s a s' h.2 e⟩

theorem RT.mip (v : W) (r : Bool) (s : St σ) (x : W) (h : RT v r s) : RT v r { s with csr := upd s.csr A.mip x } :=
  ⟨Th.upd v (by decide) s x h.1, h.2⟩

theorem rt_check (v : W) (r : Bool) (b : Bool) : Pres (RT v r : St σ → Prop) (checkInterrupts E b) := by
  refine Pres.ite (Pres.pure _) ?_
  refine Pres.bind (mtime_of (fun _ _ h => h) (RT.mip v r) _) fun _ => ?_
  refine Pres.bind (Pres.ite (Pres.bind (Pres.get _) fun _ => uartIn_pres (fun _ _ h => h) (RT.mip v r) _)
    (Pres.pure _)) fun _ => ?_
  refine Pres.bind (Pres.get _) fun _ => Pres.bind (Pres.get _) fun _ => Pres.bind (Pres.get _) fun _ => ?_
  exact Pres.bind (Pres.ite (Pres.bind (RT.enter v r _ _) fun _ => Pres.mod fun _ h => h)
    (Pres.ite (Pres.bind (RT.enter v r _ _) fun _ => Pres.mod fun _ h => h) (Pres.pure _))) fun _ => Pres.pure _

theorem rt_fetch (v : W) (r : Bool) : Pres (RT v r : St σ → Prop) (fetch E) := by
  have hp : PrimsM E (RT v r : St σ → Prop) :=
    { trap := RT.enter v r
      ramWr := ramWr_of (fun _ _ h => h) (fun _ _ h => h)
      uartWr := uartWr_of fun _ _ h => h
      uartRd := uartRd_of (fun _ _ h => h) (RT.mip v r) }
  exact Pres.bind (Pres.get _) fun _ => Pres.ite (Pres.mod fun s hs => hs)
    (Pres.bind (Pres.get _) fun _ => Pres.bind (hp.rdInst _) fun _ => Pres.mod fun s hs => hs)

/-- tohost and `running` over the execution phase -/
theorem th_stepExec {q0 q1 : St σ} (h : stepExec E q0 = .ok ((), q1)) :
    (RT (q0.csr A.tohost) q0.running q1) ∨
    ∃ qc, RT (q0.csr A.tohost) q0.running qc ∧ exec E qc = .ok ((), q1) := by
  obtain ⟨d, nt, qa, hc, _, h⟩ := stepExec_split h
  have h1 := rt_check (E := E) (q0.csr A.tohost) q0.running d _ _ _ ⟨rfl, rfl⟩ hc
  have h2 : RT (q0.csr A.tohost) q0.running (wakeSt nt qa) := h1
  rcases h with ⟨_, _, qc, hf, he⟩ | ⟨rfl, _⟩
  · exact .inr ⟨qc, rt_fetch _ _ _ _ _ h2 hf, he⟩
  · exact .inl h2

theorem finish_tohost (q : St σ) : (finishSt E q).csr = q.csr ∧ (finishSt E q).inst = q.inst ∧
    ((finishSt E q).running = true → q.running = true) := by
  unfold finishSt finishSt1
  split
  · exact ⟨rfl, rfl, nofun⟩
  · split
    · exact ⟨rfl, rfl, id⟩
    · split
      · exact ⟨rfl, rfl, fun h => (Bool.and_eq_true _ _ ▸ h : _ ∧ _).1⟩
      · exact ⟨rfl, rfl, fun h => (Bool.and_eq_true _ _ ▸ h : _ ∧ _).1⟩

/-- **C24** tohost changes only in a step that executes a CSR instruction addressing it. -/
theorem tohost_only_by_csr {s s' : St σ} (h : step E s = .ok ((), s')) (hne : s'.csr 0x51e#16 ≠ s.csr 0x51e#16) :
    IP.opcode s'.inst = 0x73#7 ∧ IP.funct3 s'.inst ≠ 0#3 ∧ IP.csrAddr s'.inst = 0x51e#16 := by
  have e0 : (0x51e#16 : BitVec 16) = A.tohost := rfl
  rw [e0] at hne ⊢
  rcases step_split h with hx | ⟨q0, q1, h1, h2, rfl⟩
  · obtain ⟨pa, pp, g, hq, _⟩ := profWindow_frame hx
    exact absurd (by rw [hq]) hne
  · obtain ⟨pa, pp, g, hq, _⟩ := profWindow_frame h1
    have e1 : q0.csr = s.csr := by rw [hq]
    obtain ⟨f1, f2, _⟩ := finish_tohost (E := E) q1
    rw [f1] at hne
    rw [f2]
    rcases th_stepExec h2 with h3 | ⟨qc, h3, h4⟩
    · exact absurd (h3.1.trans (by rw [e1])) hne
    · rcases th_exec h4 with h5 | ⟨h5, h6, _⟩
      · exact absurd (h5.trans (h3.1.trans (by rw [e1]))) hne
      · have := inst_exec h4
        rw [if_neg (fun hh => hh.1 h6)] at this
        rw [this]
        exact h5

/-- a step that leaves the simulator running leaves bit 0 of tohost clear -/
theorem tohost_step {s s' : St σ} (hz : tohostBit s = false) (h : step E s = .ok ((), s')) :
    s'.running = true → tohostBit s' = false := by
  intro hr
  rcases step_split h with hx | ⟨q0, q1, h1, h2, rfl⟩
  · obtain ⟨pa, pp, g, hq, _⟩ := profWindow_frame hx
    unfold tohostBit
    rw [hq]
    exact hz
  · obtain ⟨pa, pp, g, hq, _⟩ := profWindow_frame h1
    have e1 : q0.csr = s.csr := by rw [hq]
    obtain ⟨f1, f2, f3⟩ := finish_tohost (E := E) q1
    have hr1 := f3 hr
    unfold tohostBit
    rw [f1]
    have hz0 : ((q0.csr A.tohost).getLsbD 0) = false := by rw [e1]; exact hz
    rcases th_stepExec h2 with h3 | ⟨qc, h3, h4⟩
    · rw [show (0x51e#16 : BitVec 16) = A.tohost from rfl, h3.1]; exact hz0
    · rcases th_exec h4 with h5 | ⟨_, _, h5⟩
      · rw [show (0x51e#16 : BitVec 16) = A.tohost from rfl, h5, h3.1]; exact hz0
      · exact h5 hr1

/-- **C24** In every run from reset, the simulator is stopped in every state in which bit 0 of
tohost is set: the step that sets it is the last one. -/
theorem tohost_stops (n : Nat) {s s' : St σ} (hs : tohostBit s = false) (h : runN E n s = .ok ((), s'))
    (hb : tohostBit s' = true) : s'.running = false ∧ ∀ m, runN E m s' = .ok ((), s') := by
  have : s'.running = true → tohostBit s' = false :=
    runN_inv (J := fun s => s.running = true → tohostBit s = false)
      (fun s s' hJ hr hs => tohost_step (hJ hr) hs) n s s' (fun _ => hs) h
  have hf : s'.running = false := by
    cases hr : s'.running with
    | false => rfl
    | true => rw [this hr] at hb; cases hb
  exact ⟨hf, fun m => run_stopped m hf⟩

/-- **C24** (profilers off) A step that stops the run does so for one of these reasons, and for
tohost only if it executed a CSR instruction that left bit 0 of tohost set. -/
theorem stop_reasons (hpr : E.cfg.profilers = false) {s s' : St σ} (hr : s.running = true)
    (hz : tohostBit s = false) (h : step E s = .ok ((), s')) (hr' : s'.running = false) :
    (tohostBit s' = true ∧ IP.opcode s'.inst = 0x73#7 ∧ IP.funct3 s'.inst ≠ 0#3 ∧ IP.csrAddr s'.inst = 0x51e#16) ∨
    s'.simStep = E.cfg.runSteps ∨
    (s'.simInst = s.simInst + 1#64 ∧ s'.simInst = E.cfg.runInsts) ∨
    (E.cfg.exitOnTrap = true ∧ Trapped s s') ∨
    (E.cfg.rv32c = true ∧ isCEbreak s'.inst) := by
  have hwin : windowExit E s = false := by unfold windowExit; rw [hpr]; rfl
  by_cases hlim : s.simStep + 1#64 = E.cfg.runSteps
  · rcases step_split h with hx | ⟨q0, q1, h1, h2, rfl⟩
    · have := profWindow_exit hx
      rw [hwin] at this; cases this
    · right; left
      obtain ⟨pa, pp, g, hq, _⟩ := profWindow_frame h1
      obtain ⟨o1, _⟩ := stepExec_outcome (by rw [hq]) h2
      have e1 : q1.simStep + 1#64 = E.cfg.runSteps := by rw [o1, hq]; exact hlim
      unfold finishSt finishSt1
      rw [if_pos e1]
      exact e1
  · have htri := step_trichotomy_partial h hwin hlim
    rcases step_split h with hx | ⟨q0, q1, h1, h2, rfl⟩
    · have := profWindow_exit hx
      rw [hwin] at this; cases this
    · obtain ⟨pa, pp, g, hq, hrw, _⟩ := profWindow_frame h1
      have e0 : q0.running = true := by rw [hrw rfl]; exact hr
      have e1 : q0.csr = s.csr := by rw [hq]
      have hz0 : ((q0.csr A.tohost).getLsbD 0) = false := by rw [e1]; exact hz
      obtain ⟨f1, f2, f3⟩ := finish_tohost (E := E) q1
      have hex : q1.running = true ∨ (csrTohost q1.inst ∧ tohostBit q1 = true) ∨
          (E.cfg.rv32c = true ∧ isCEbreak q1.inst) := by
        rcases th_stepExec h2 with h3 | ⟨qc, h3, h4⟩
        · exact .inl (h3.2.trans e0)
        · exact running_exec hpr (h3.2.trans e0) (by
            unfold tohostBit
            rw [show (0x51e#16 : BitVec 16) = A.tohost from rfl, h3.1]; exact hz0) h4
      rcases hex with hex | hex | hex
      · right
        obtain ⟨o1, o2, o3⟩ := stepExec_outcome (by rw [hq]) h2
        have es : q1.simStep = s.simStep := by rw [o1, hq]
        have ei : q1.simInst = s.simInst := by rw [o2, hq]
        have hlim1 : ¬ q1.simStep + 1#64 = E.cfg.runSteps := by rw [es]; exact hlim
        obtain ⟨_, htri⟩ := htri
        unfold finishSt finishSt1 at hr' htri ⊢
        rw [if_neg hlim1] at hr' htri ⊢
        by_cases hw : q1.wfiActive = true ∧ q1.trapped = false
        · rw [if_pos hw] at hr'
          rw [show _ = q1.running from rfl, hex] at hr'; cases hr'
        · rw [if_neg hw] at hr' htri ⊢
          by_cases ht : q1.trapped = true
          · rw [if_pos ht] at hr' htri ⊢
            right; right; left
            have hr' : (q1.running && !E.cfg.exitOnTrap) = false := hr'
            rw [hex] at hr'
            refine ⟨by simpa using hr', ?_⟩
            rcases htri with h | h | h
            · exact absurd (h.1.symm.trans ei) (by intro h; bv_omega)
            · exact h
            · have hl : q1.trapLog = q0.trapLog := h.2.1.trans (by rw [hq])
              obtain ⟨_, o4, _⟩ := o3
              obtain ⟨new, hn, h1⟩ := o4 ht
              rw [hl] at h1
              have := congrArg List.length h1
              rw [List.length_append] at this
              exact absurd (List.length_eq_zero_iff.1 (by omega)) hn
          · rw [if_neg ht] at hr' htri ⊢
            right; left
            have hr' : (q1.running && !(q1.simInst + 1#64 == E.cfg.runInsts)) = false := hr'
            rw [hex] at hr'
            exact ⟨by rw [← ei], by simpa using hr'⟩
      · refine .inl ⟨?_, ?_⟩
        · unfold tohostBit; rw [f1]; exact hex.2
        · rw [f2]; exact hex.1
      · right; right; right; right
        rw [f2]; exact hex

namespace Ex
/-- limits of one step, of two instructions, and stopping at the first trap -/
def envStep1 : Env Unit := { env0 with cfg := { cfg0 with runSteps := 1#64 } }
def envStep2 : Env Unit := { env0 with cfg := { cfg0 with runSteps := 2#64 } }
def envInst2 : Env Unit := { env0 with cfg := { cfg0 with runInsts := 2#64 } }
def envTrap : Env Unit := { env0 with cfg := { cfg0 with exitOnTrap := true } }
def envProf : Env Unit := { env0 with cfg := { cfg0 with profilers := true } }

/-- the three outcomes: addi retires; the illegal word 0 traps to mtvec = 0; wfi then idles -/
example : obs (runN env0 1 (st0 env0 [0x00500093#32])) (fun s => (s.simStep, s.simInst, s.trapLog.length)) =
      some (1#64, 1#64, 0) ∧
    obs (runN env0 1 (st0 env0 [0#32])) (fun s => (s.simStep, s.simInst, s.trapLog.length, s.pc)) =
      some (1#64, 0#64, 1, 0#32) ∧
    obs (runN env0 3 (st0 env0 [0x10500073#32])) (fun s => (s.simStep, s.simInst, s.wfiActive, s.pc)) =
      some (3#64, 1#64, true, 0x80000004#32) := by
  refine ⟨?_, ?_, ?_⟩ <;> decide +kernel
example : windowExit env0 (st0 env0 []) = false ∧ (st0 env0 []).simStep + 1#64 ≠ env0.cfg.runSteps ∧
    (st0 env0 []).simStep = 0#64 ∧ (st0 env0 []).simInst = 0#64 ∧ tohostBit (st0 env0 []) = false := by
  refine ⟨?_, ?_, ?_, ?_, ?_⟩ <;> decide +kernel

/-- an instruction limit of 2 stops an infinite run after two instructions -/
example : obs (runN envInst2 50 (st0 envInst2 [0x00500093#32, 0x00508093#32, 0x00508093#32]))
    (fun s => (s.simInst, s.running, s.rf 1#5, s.pc)) = some (2#64, false, 10#32, 0x80000008#32) := by decide +kernel
/-- a step limit of 2 stops after two steps -/
example : obs (runN envStep2 50 (st0 envStep2 [0x00500093#32, 0x00508093#32, 0x00508093#32]))
    (fun s => (s.simStep, s.running)) = some (2#64, false) := by decide +kernel
/-- `csrwi tohost,1` stops the run at once; the next instruction does not execute -/
example : obs (runN env0 2 (st0 env0 [0x51e0d073#32, 0x00500093#32]))
    (fun s => (s.simInst, s.running, s.rf 1#5, tohostBit s)) = some (1#64, false, 0xc0ffee#32, true) := by decide +kernel
/-- `csrwi tohost,2` does not -/
example : obs (runN env0 2 (st0 env0 [0x51e15073#32, 0x00500093#32]))
    (fun s => (s.simInst, s.running, s.rf 1#5, tohostBit s)) = some (2#64, true, 5#32, false) := by decide +kernel
/-- stopping on a trap -/
example : obs (runN envTrap 50 (st0 envTrap [0#32])) (fun s => (s.simStep, s.running)) = some (1#64, false) := by
  decide +kernel

/-- **C23 and C25 fail** at the step limit: the last instruction takes effect (x1 = 5) but is
not counted as retired and pc still points at it. -/
theorem step_limit_uncounted :
    obs (runN envStep1 1 (st0 envStep1 [0x00500093#32]))
      (fun s => (s.rf 1#5, s.simStep, s.simInst, s.pc, s.trapLog.length)) =
    some (5#32, 1#64, 0#64, 0x80000000#32, 0) := by decide +kernel

/-- **C23 fails** for the counters at the step limit: `csrw minstret, x0` as the last step, and the
reported minstret is 2^64 - 1 (`run` adds the elapsed count of -1). -/
theorem step_limit_minstret :
    obs ((do runN envStep1 1; wrapUp envStep1) (st0 envStep1 [0xb0201073#32]))
      (fun s => (s.csr 0xb02#16, s.csr 0xb82#16)) = some (0xffffffff#32, 0xffffffff#32) := by decide +kernel

/-- **C25 fails** at the end of the profiling window: the step that ends the run there counts no
step and executes nothing. -/
theorem window_exit_uncounted :
    obs (runN envProf 1 (initSt envProf (image [0x00500093#32])
        ⟨0x80000010#32, 0x80000000#32, 0#32, true, 0#32, false, 0#64⟩ ()))
      (fun s => (s.running, s.simStep, s.simInst, s.rf 1#5)) = some (false, 0#64, 0#64, 0xc0ffee#32) := by decide +kernel
end Ex

end Ama
