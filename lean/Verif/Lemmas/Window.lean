import Verif.Spec.Window
import Verif.Lemmas.ProfStep
import Verif.Props.Decode
/-!
# Profiling window of a step
-/
namespace Ama
open M
variable {σ : Type} {E : Env σ}

section
variable (Q : Bool → ProfPc → Prop)

/-- predicates on the window only -/
abbrev OnWin (s : St σ) : Prop := Q s.profActive s.profPc

theorem win_N (E : Env σ) : PrimsN E (OnWin Q) where
  ramWr := ramWr_of (fun _ _ h => h) (fun _ _ h => h)
  uartWr := uartWr_of (fun _ _ h => h)
  uartRd := uartRd_of (fun _ _ h => h) (fun _ _ h => h)

theorem win_trap (c t : W) : Pres (OnWin Q) (trapInst c t : M σ Unit) := pres_trap fun _ h => h
theorem win_csr (w : W) : Pres (OnWin Q) (dCsr E w) :=
  (win_N Q E).dCsr_of w
    (Pres.bind (Pres.mod fun _ h => h) fun _ =>
      Pres.bind (Pres.bind (Pres.get _) fun _ => Pres.lift _) fun _ => Pres.mod fun _ h => h)
    (fun _ _ _ => wrCsr_of (fun _ _ => win_trap Q _ _) (fun _ _ _ h => h) _ _)
    fun _ _ _ h => h
theorem win_sys (w : W) : Pres (OnWin Q) (dSystem E w) :=
  (win_N Q E).dSystem_of w (Pres.mod fun _ h => h) fun _ => win_csr Q w

/-- the profiling hints -/
def hintOn : W := 0x01002013#32
def hintOff : W := 0x01102013#32

theorem slti_plain {w : W} (h1 : w ≠ hintOn) (h2 : w ≠ hintOff) (a b : W) :
    aluSlti E w a b = pure (aluSlt a b) := by
  unfold hintOn at h1
  unfold hintOff at h2
  unfold aluSlti
  simp [h1, h2]

/-- executing anything but a hint leaves the window alone -/
theorem exec_win {q q' : St σ} (h : exec E q = .ok ((), q')) (h1 : q.inst ≠ hintOn) (h2 : q.inst ≠ hintOff)
    (hq : Q q.profActive q.profPc) : Q q'.profActive q'.profPc := by
  have hN := win_N Q E
  rcases exec_split h with ⟨-, h⟩ | ⟨-, -, h⟩ | ⟨-, -, h⟩
  · exact hN.exec32_of2 _ (fun _ _ => by rw [slti_plain h1 h2]; exact Pres.pure _) (fun _ => win_sys Q _) _ _ _ hq h
  · exact hN.exec16_of _ (fun _ => Pres.bind (Pres.mod fun _ h => h) fun _ => hN.emit _)
      { q with inst := IP.toRvc q.inst } _ _ hq h
  · exact hN.eIllegal _ _ _ hq h
theorem win_fetch : Pres (OnWin Q) (fetch E) :=
  Pres.bind (Pres.get _) fun _ => Pres.ite (Pres.mod fun _ hs => hs)
    (Pres.bind (Pres.get _) fun _ => Pres.bind ((win_N Q E).rdInst _) fun _ => Pres.mod fun _ hs => hs)
theorem win_check (b : Bool) : Pres (OnWin Q) (checkInterrupts E b) :=
  Pres.ite (Pres.pure _) <| Pres.bind (mtime_of (fun _ _ h => h) (fun _ _ h => h) _) fun _ =>
    Pres.bind (Pres.ite (Pres.bind (Pres.get _) fun _ => uartIn_pres (fun _ _ h => h) (fun _ _ h => h) _) (Pres.pure _))
    fun _ => Pres.bind (Pres.get _) fun _ => Pres.bind (Pres.get _) fun _ => Pres.bind (Pres.get _) fun _ =>
    Pres.bind (Pres.ite (Pres.bind (win_trap Q _ _) fun _ => Pres.mod fun _ hs => hs)
      (Pres.ite (Pres.bind (win_trap Q _ _) fun _ => Pres.mod fun _ hs => hs) (Pres.pure _)))
      fun _ => Pres.pure _
end

theorem pstate_app (hp : E.cfg.profilers = true) (b : Bool) (s : St σ) :
    ∃ g, profState E b s = .ok ((), { s with profActive := b, hw := g }) := by
  unfold profState M.whenM hwUpd
  rw [if_pos hp, M.bind_ok (M.mod_app _ _)]
  split
  · exact ⟨_, M.mod_app _ _⟩
  · exact ⟨s.hw, rfl⟩

/-- the window at the beginning of a step -/
theorem window_app (hp : E.cfg.profilers = true) {s s' : St σ} {b : Bool} (h : profWindow E s = .ok (b, s')) :
    s'.profPc = (s.profPc.shouldStartPc s.pc).2 ∧
    s'.profActive = (if (s.profPc.shouldStartPc s.pc).1 then true else if s.pc = s.profPc.stop then false else s.profActive) ∧
    b = (!(s.profPc.shouldStartPc s.pc).1 && (s.profPc.shouldStartPc s.pc).2.shouldExitPc s.pc) := by
  have hst : (s.profPc.shouldStartPc s.pc).2.stop = s.profPc.stop := by
    unfold ProfPc.shouldStartPc ProfPc.shouldStart
    split <;> try rfl
    split <;> try rfl
    simp only
    split <;> rfl
  unfold profWindow at h
  rw [if_pos hp, M.bind_ok (M.get_app _ _), M.bind_ok (M.get_app _ _), M.bind_ok (M.mod_app _ _)] at h
  generalize hr : s.profPc.shouldStartPc s.pc = r at h hst ⊢
  obtain ⟨r1, r2⟩ := r
  simp only at h hst ⊢
  cases r1 with
  | true =>
    rw [if_pos rfl] at h
    obtain ⟨g, hg⟩ := pstate_app hp true { s with profPc := r2 }
    rw [M.bind_ok hg] at h
    injection h with h; injection h with h h2
    subst h2 h
    exact ⟨rfl, rfl, rfl⟩
  | false =>
    rw [if_neg (by decide)] at h
    by_cases hs : s.pc = s.profPc.stop
    · rw [if_pos (by simp [ProfPc.shouldStop, hst, hs])] at h
      obtain ⟨g, hg⟩ := pstate_app hp false { s with profPc := r2 }
      rw [M.bind_ok hg] at h
      rw [if_neg (by decide), if_pos hs]
      split at h
      · rename_i hx
        rw [M.bind_ok (M.mod_app _ _)] at h
        injection h with h; injection h with h h2
        subst h2 h
        exact ⟨rfl, rfl, by simp [hx]⟩
      · rename_i hx
        injection h with h; injection h with h h2
        subst h2 h
        exact ⟨rfl, rfl, by simpa using hx⟩
    · rw [if_neg (by simp [ProfPc.shouldStop, hst, hs])] at h
      rw [if_neg (by decide), if_neg hs]
      injection h with h; injection h with h h2
      subst h2 h
      refine ⟨rfl, rfl, ?_⟩
      unfold ProfPc.shouldExitPc
      rw [if_pos (by rw [hst]; exact hs)]
      rfl

theorem exec_hint {q q' : St σ} {w : W} (hw : q.inst = w) (hc : IP.copcode w = 3#2) (ho : IP.opcode w = 0x13#7)
    (hsel : aluImmSel (IP.funct7b5 w) (IP.funct3 w) = some .slti) (h : exec E q = .ok ((), q')) :
    ∃ v q1, aluSlti E w (q.rf (IP.rs1 w)) (IP.immI w) q = .ok (v, q1) ∧
      (writeRf (IP.rd w) v >>= fun _ => emit E (.alui .slti) >>= fun _ => nextSeq 4#32) q1 = .ok ((), q') := by
  rcases exec_split h with ⟨-, h⟩ | ⟨h1, -⟩ | ⟨h1, -⟩
  · rw [hw] at h
    have e : exec32 E w = dAluImm E w := by unfold exec32; rw [ho]; rfl
    rw [e] at h
    unfold dAluImm at h
    rw [hsel] at h
    obtain ⟨a, s1, h1, h⟩ := bind_eq_ok.1 h
    have h1 : (.ok (q.rf (IP.rs1 w), q) : Res (W × St σ)) = .ok (a, s1) := h1
    cases h1
    obtain ⟨v, q1, h1, h⟩ := bind_eq_ok.1 h
    exact ⟨v, q1, h1, h⟩
  · exact absurd (hw ▸ hc) h1
  · exact absurd (hw ▸ hc) h1

/-- the start hint -/
theorem exec_on (hp : E.cfg.profilers = true) {q q' : St σ} (hw : q.inst = hintOn) (h : exec E q = .ok ((), q')) :
    q'.profActive = q.profPc.shouldStart.1 ∧ q'.profPc = q.profPc.shouldStart.2 := by
  obtain ⟨v, q1, h1, h2⟩ := exec_hint hw (by decide) (by decide) (by decide) h
  have hN := win_N (fun a p => a = q.profPc.shouldStart.1 ∧ p = q.profPc.shouldStart.2) E
  refine Pres.bind (hN.writeRf _ _) (fun _ => Pres.bind (hN.emit _) fun _ => hN.nextSeq _) _ _ _ ?_ h2
  unfold aluSlti at h1
  rw [if_pos (by simp [hp, hintOn]), M.bind_ok (M.get_app _ _), M.bind_ok (M.mod_app _ _)] at h1
  obtain ⟨g, hg⟩ := pstate_app hp q.profPc.shouldStart.1 { q with profPc := q.profPc.shouldStart.2 }
  rw [M.bind_ok hg] at h1
  injection h1 with h1; injection h1 with h h1
  subst h1
  exact ⟨rfl, rfl⟩
/-- the stop hint -/
theorem exec_off (hp : E.cfg.profilers = true) {q q' : St σ} (hw : q.inst = hintOff) (h : exec E q = .ok ((), q')) :
    q'.profActive = false ∧ q'.profPc = q.profPc ∧ q'.running = !q.profPc.shouldExit := by
  obtain ⟨v, q1, h1, h2⟩ := exec_hint hw (by decide) (by decide) (by decide) h
  have hN : PrimsN E (fun s : St σ => s.profActive = false ∧ s.profPc = q.profPc ∧ s.running = !q.profPc.shouldExit) := {
    ramWr := ramWr_of (fun _ _ h => h) (fun _ _ h => h)
    uartWr := uartWr_of (fun _ _ h => h)
    uartRd := uartRd_of (fun _ _ h => h) (fun _ _ h => h) }
  refine Pres.bind (hN.writeRf _ _) (fun _ => Pres.bind (hN.emit _) fun _ => hN.nextSeq _) _ _ _ ?_ h2
  unfold aluSlti at h1
  rw [if_neg (by simp [hintOff]), if_pos (by simp [hp, hintOff])] at h1
  obtain ⟨g, hg⟩ := pstate_app hp false q
  rw [M.bind_ok hg, M.bind_ok (M.mod_app _ _)] at h1
  injection h1 with h1; injection h1 with h h1
  subst h1
  exact ⟨rfl, rfl, rfl⟩

/-- a hint is reported -/
theorem hint_log (hp : E.cfg.profilers = true) {q q' : St σ} (hw : q.inst = hintOn ∨ q.inst = hintOff)
    (h : exec E q = .ok ((), q')) : q'.profLog.length = q.profLog.length + 1 ∧ q'.inst = q.inst := by
  have key : ∀ w, q.inst = w → IP.copcode w = 3#2 → IP.opcode w = 0x13#7 →
      aluImmSel (IP.funct7b5 w) (IP.funct3 w) = some .slti →
      q'.profLog.length = q.profLog.length + 1 ∧ q'.inst = q.inst := by
    intro w hw hc ho hsel
    obtain ⟨v, q1, h1, h2⟩ := exec_hint hw hc ho hsel h
    have p1 := pre_slti (L := q.profLog) hp _ _ _ _ _ ⟨rfl, hw⟩ h1
    obtain ⟨_, q2, h3, h2⟩ := bind_eq_ok.1 h2
    have hw2 : Pres (EPre q.profLog w) (writeRf (IP.rd w) v : M σ Unit) :=
      Pres.ite (Pres.pure _) (Pres.mod fun _ h => h)
    have p2 := hw2 _ _ _ p1 h3
    unfold emit at h2
    rw [if_pos hp, M.bind_ok (M.mod_app _ _)] at h2
    injection h2 with h2; injection h2 with _ h2
    subst h2
    exact ⟨by simp [p2.1], by rw [hw]; exact p2.2⟩
  rcases hw with hw | hw
  · exact key _ hw (by decide) (by decide) (by decide)
  · exact key _ hw (by decide) (by decide) (by decide)

theorem toRvc_hint (w : W) (h : IP.copcode w ≠ 3#2) : IP.toRvc w ≠ hintOn ∧ IP.toRvc w ≠ hintOff := by
  have e : IP.copcode (IP.toRvc w) = IP.copcode w := by fields [IP.copcode, IP.toRvc]
  constructor
  · intro h1; rw [h1] at e; exact h (e.symm.trans (by decide))
  · intro h1; rw [h1] at e; exact h (e.symm.trans (by decide))
/-- after executing, `inst` is a hint only if it was -/
theorem inst_hint (hp : E.cfg.profilers = true) {q q' : St σ} (h : exec E q = .ok ((), q'))
    (h1 : q.inst ≠ hintOn) (h2 : q.inst ≠ hintOff) : q'.inst ≠ hintOn ∧ q'.inst ≠ hintOff := by
  have := (exec_ev hp h).1
  rw [this]
  split
  · rename_i hc
    exact toRvc_hint _ hc.1
  · exact ⟨h1, h2⟩

end Ama
