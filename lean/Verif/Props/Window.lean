import Verif.Lemmas.Window
import Verif.Lemmas.Ex
/-!
# C59: profiling windows
-/
namespace Ama
open M Spec.Window
variable {σ : Type} {E : Env σ} {c : Conf}

/-! ## Points of a run -/

/-- the points of a step, newest first: a hint it executed (and so reported), and the pc it began at -/
def ptsOf (s s' : St σ) : List Pt :=
  (if s'.profLog.length = s.profLog.length then []
    else if s'.inst = hintOn then [.hintOn] else if s'.inst = hintOff then [.hintOff] else []) ++ [.at s.pc]

/-- a run of the core from `s` to `s'` that passes the points `h` (newest first) -/
inductive Passes (E : Env σ) : List Pt → St σ → St σ → Prop
  | nil (s : St σ) : Passes E [] s s
  | step {h : List Pt} {s s1 s2 : St σ} : Passes E h s s1 → s1.running = true → step E s1 = .ok ((), s2) →
      Passes E (ptsOf s1 s2 ++ h) s s2

theorem Passes.front {h : List Pt} {s s1 s2 : St σ} (hr : s.running = true) (hs : Ama.step E s = .ok ((), s1))
    (hp : Passes E h s1 s2) : Passes E (h ++ ptsOf s s1) s s2 := by
  induction hp with
  | nil s1 =>
    have := Passes.step (.nil s) hr hs
    simpa using this
  | step h1 h2 h3 ih =>
    rw [List.append_assoc]
    exact .step (ih hs) h2 h3
/-- every run passes some points -/
theorem passes_runN : ∀ (n : Nat) {s s' : St σ}, runN E n s = .ok ((), s') → ∃ h, Passes E h s s'
  | 0, s, s', e => by cases e; exact ⟨[], .nil s⟩
  | n + 1, s, s', e => by
    have e : (if s.running then (do Ama.step E; runN E n) else pure () : M σ Unit) s = .ok ((), s') := e
    cases hs : s.running with
    | false => rw [hs] at e; cases e; exact ⟨[], .nil s⟩
    | true =>
      rw [hs, if_pos rfl] at e
      obtain ⟨⟨⟩, s1, h1, h2⟩ := bind_eq_ok.1 e
      obtain ⟨h, hh⟩ := passes_runN n h2
      exact ⟨_, hh.front hs h1⟩

/-! ## What the code computes -/

/-- profiling as the code switches it: a start hint that is not the requested one switches it off -/
def onC (c : Conf) : List Pt → Bool
  | [] => false
  | p :: h => if opens c p h then true else if closes c p h ∨ p = .hintOn then false else onC c h

/-- the window variables after a history -/
structure Win (c : Conf) (h : List Pt) (a : Bool) (p : ProfPc) : Prop where
  start : p.start = c.start
  stop : p.stop = c.stop
  k : p.singleMatch.toNat = c.k
  exit : p.exitOnStop = c.exit
  act : a = onC c h
  cur : c.k ≠ 0 → p.curMatch.toNat = starts c h
  ran : c.k ≠ 0 → p.ranOnce = decide (c.k ≤ starts c h)

theorem starts_le (p : Pt) (h : List Pt) : starts c h ≤ starts c (p :: h) := by
  unfold starts; rw [List.countP_cons]; omega
theorem starts_start {p : Pt} (h : List Pt) (hp : isStart c p = true) : starts c (p :: h) = starts c h + 1 := by
  unfold starts; rw [List.countP_cons, if_pos hp]
theorem starts_other {p : Pt} (h : List Pt) (hp : isStart c p = false) : starts c (p :: h) = starts c h := by
  unfold starts; rw [List.countP_cons, if_neg (by simp [hp])]; rfl

/-- a start point -/
theorem Win.start_pt {h : List Pt} {a : Bool} {p : ProfPc} (w : Win c h a p) {x : Pt} (hx : isStart c x = true)
    (hn : starts c (x :: h) < 2 ^ 32) : p.shouldStart.1 = decide (opens c x h) ∧
      ∀ a', a' = onC c (x :: h) → Win c (x :: h) a' p.shouldStart.2 := by
  have h1 := starts_start h hx
  unfold ProfPc.shouldStart
  by_cases hk : c.k = 0
  · have : p.singleMatch = 0#32 := BitVec.eq_of_toNat_eq (by rw [w.k, hk]; rfl)
    rw [if_pos this]
    exact ⟨by simp [opens, hx, hk], fun a' ha =>
      ⟨w.start, w.stop, w.k, w.exit, ha, fun h => absurd hk h, fun h => absurd hk h⟩⟩
  · have hk2 : p.singleMatch ≠ 0#32 := fun e => hk (by rw [← w.k, e]; rfl)
    rw [if_neg hk2]
    have hc := w.cur hk
    have hc' : (p.curMatch + 1#32).toNat = starts c (x :: h) := by
      rw [BitVec.toNat_add, hc, h1]
      rw [h1] at hn
      exact Nat.mod_eq_of_lt hn
    have heq : p.curMatch + 1#32 = p.singleMatch ↔ starts c (x :: h) = c.k := by
      rw [← hc', ← w.k]; exact BitVec.toNat_inj.symm
    simp only
    by_cases he : p.curMatch + 1#32 = p.singleMatch
    · rw [if_pos he]
      refine ⟨by simp [opens, hx, heq.1 he], fun a' ha => ⟨w.start, w.stop, w.k, w.exit, ha, fun _ => hc', fun _ => ?_⟩⟩
      simp [heq.1 he]
    · rw [if_neg he]
      refine ⟨by simp [opens, hk, mt heq.2 he], fun a' ha => ⟨w.start, w.stop, w.k, w.exit, ha, fun _ => hc', fun _ => ?_⟩⟩
      show p.ranOnce = _
      rw [w.ran hk]
      have := mt heq.2 he
      by_cases hl : c.k ≤ starts c h
      · rw [decide_eq_true hl, decide_eq_true (by omega)]
      · rw [decide_eq_false hl, decide_eq_false (by omega)]

theorem not_opens {x : Pt} {h : List Pt} (hx : isStart c x = false) : ¬ opens c x h := fun e => by
  have := e.1; rw [hx] at this; exact absurd this (by decide)
theorem ProfPc.exit_eq {h : List Pt} {a : Bool} {p : ProfPc} (w : Win c h a p) :
    p.shouldExit = (c.exit && (c.k == 0 || decide (c.k ≤ starts c h))) := by
  unfold ProfPc.shouldExit
  rw [w.exit]
  cases c.exit
  · rfl
  · by_cases hk : c.k = 0
    · rw [if_neg (by decide), if_pos (BitVec.eq_of_toNat_eq (by rw [w.k, hk]; rfl))]
      simp [hk]
    · have hk2 : p.singleMatch ≠ 0#32 := fun e => hk (by rw [← w.k, e]; rfl)
      rw [if_neg (by decide), if_neg hk2, w.ran hk]
      simp [hk]

/-- the window at the beginning of a step: the point `at pc` -/
theorem Win.at_pt (hp : E.cfg.profilers = true) {h : List Pt} {s s' : St σ} {b : Bool}
    (w : Win c h s.profActive s.profPc) (hn : starts c (.at s.pc :: h) < 2 ^ 32) (e : profWindow E s = .ok (b, s')) :
    Win c (.at s.pc :: h) s'.profActive s'.profPc ∧ b = ends c (.at s.pc :: h) := by
  obtain ⟨e1, e2, e3⟩ := window_app hp e
  have hst : isStop c (.at s.pc) = decide (s.pc = s.profPc.stop) := by rw [w.stop]; rfl
  by_cases hs : s.pc = s.profPc.start
  · have hx : isStart c (.at s.pc) = true := by simp [isStart, hs, w.start]
    obtain ⟨f1, f2⟩ := w.start_pt hx hn
    have hsp : s.profPc.shouldStartPc s.pc = s.profPc.shouldStart := by
      unfold ProfPc.shouldStartPc; rw [if_neg (by simpa using hs)]
    rw [hsp] at e1 e2 e3
    rw [f1] at e2 e3
    have hw : Win c (.at s.pc :: h) s'.profActive s'.profPc := by
      rw [e1]
      refine f2 _ ?_
      rw [e2]
      unfold onC
      by_cases ho : opens c (.at s.pc) h
      · rw [if_pos (by simpa using ho), if_pos ho]
      · rw [if_neg (by simpa using ho), if_neg ho]
        by_cases hq : s.pc = s.profPc.stop
        · rw [if_pos hq, if_pos (.inl ⟨by simpa [hst] using hq, ho⟩)]
        · rw [if_neg hq, if_neg (by simp [closes, hst, hq]), w.act]
    refine ⟨hw, ?_⟩
    rw [e3]
    by_cases ho : opens c (.at s.pc) h
    · simp [ends, closes, ho]
    · have hx2 : (s.profPc.shouldStart).2.stop = c.stop := by have := hw.stop; rw [e1] at this; exact this
      have hx3 := ProfPc.exit_eq hw
      rw [e1] at hx3
      rw [decide_eq_false ho]
      unfold ProfPc.shouldExitPc
      rw [hx2]
      by_cases hq : s.pc = c.stop
      · rw [if_neg (by simpa using hq), hx3]
        rw [ends, decide_eq_true (show closes c (.at s.pc) h from ⟨by simp [isStop, hq], ho⟩)]
        simp
      · rw [if_pos hq]
        simp [ends, closes, isStop, hq]
  · have hx : isStart c (.at s.pc) = false := by
      have : s.pc ≠ c.start := fun e => hs (e.trans w.start.symm)
      simp [isStart, this]
    have hno := not_opens (h := h) hx
    have hsp : s.profPc.shouldStartPc s.pc = (false, s.profPc) := by
      unfold ProfPc.shouldStartPc; rw [if_pos hs]
    rw [hsp] at e1 e2 e3
    simp only [Bool.false_eq_true, if_false] at e2
    have hcnt := starts_other h hx
    have hw : Win c (.at s.pc :: h) s'.profActive s'.profPc := by
      rw [e1]
      refine ⟨w.start, w.stop, w.k, w.exit, ?_, by rw [hcnt]; exact w.cur, by rw [hcnt]; exact w.ran⟩
      rw [e2]
      unfold onC
      rw [if_neg hno]
      by_cases hq : s.pc = s.profPc.stop
      · rw [if_pos hq, if_pos (.inl ⟨by simpa [hst] using hq, hno⟩)]
      · rw [if_neg hq, if_neg (by simp [closes, hst, hq]), w.act]
    refine ⟨hw, ?_⟩
    rw [e3]
    have hx3 := ProfPc.exit_eq hw
    rw [e1] at hx3
    unfold ProfPc.shouldExitPc
    simp only [w.stop, Bool.not_false, Bool.true_and]
    by_cases hq : s.pc = c.stop
    · rw [if_neg (by simpa using hq), hx3]
      rw [ends, decide_eq_true (show closes c (.at s.pc) h from ⟨by simp [isStop, hq], hno⟩)]
      simp
    · rw [if_pos hq]
      simp [ends, closes, isStop, hq]

/-- finishing a step changes only the count of profiled instructions, and never resumes a run -/
theorem finish_win {h : List Pt} {q : St σ} (w : Win c h q.profActive q.profPc) :
    Win c h (finishSt E q).profActive (finishSt E q).profPc := by
  unfold finishSt finishSt1
  split
  · exact w
  · split
    · exact w
    · split
      · exact w
      · simp only
        split
        · exact ⟨w.start, w.stop, w.k, w.exit, w.act, w.cur, w.ran⟩
        · exact w
theorem finish_run {q : St σ} (h : q.running = false) : (finishSt E q).running = false := by
  unfold finishSt finishSt1
  split
  · rfl
  · split
    · exact h
    · split <;> simp [h]
theorem finish_log (q : St σ) : (finishSt E q).profLog = q.profLog ∧ (finishSt E q).inst = q.inst := by
  unfold finishSt finishSt1
  split
  · exact ⟨rfl, rfl⟩
  · split
    · exact ⟨rfl, rfl⟩
    · split <;> exact ⟨rfl, rfl⟩

/-- one step -/
theorem Win.step_pts (hp : E.cfg.profilers = true) {h : List Pt} {s s' : St σ} (w : Win c h s.profActive s.profPc)
    (hn : starts c (ptsOf s s' ++ h) < 2 ^ 32) (e : step E s = .ok ((), s')) :
    Win c (ptsOf s s' ++ h) s'.profActive s'.profPc ∧ (ends c (ptsOf s s' ++ h) = true → s'.running = false) ∧
      (ends c (.at s.pc :: h) = true → s'.running = false ∧ s'.profLog = s.profLog ∧ s'.simInst = s.simInst) := by
  have hn1 : starts c (.at s.pc :: h) < 2 ^ 32 := by
    refine Nat.lt_of_le_of_lt ?_ hn
    unfold ptsOf starts
    rw [List.append_assoc, List.countP_append]
    exact Nat.le_add_left _ _
  have h0 : PreStep s.profLog s.rf s.pc s.simInst { s with trapped := false } := ⟨rfl, rfl, fun _ => rfl, rfl⟩
  rcases step_split e with he | ⟨q0, q1, e1, e2, e3⟩
  · obtain ⟨a, b, d, n⟩ := pre_window _ _ _ h0 he
    obtain ⟨w1, hx⟩ := Win.at_pt (s := { s with trapped := false }) hp w hn1 he
    have hr := (profWindow_frame he).choose_spec.choose_spec.choose_spec.2.2 rfl
    have hpt : ptsOf s s' = [.at s.pc] := by
      unfold ptsOf; rw [if_pos (by rw [a])]; rfl
    rw [hpt]
    exact ⟨w1, fun _ => hr.1, fun _ => ⟨hr.1, a, n⟩⟩
  · have h1 := pre_window _ _ _ h0 e1
    obtain ⟨w1, hx⟩ := Win.at_pt (s := { s with trapped := false }) hp w hn1 e1
    have hx : ends c (.at s.pc :: h) = false := hx.symm
    refine and_assoc.1 ⟨?_, fun h => by rw [hx] at h; cases h⟩
    obtain ⟨defer, nt, qa, c1, _, hx2⟩ := stepExec_split e2
    have w2 : Win c (.at s.pc :: h) (wakeSt nt qa).profActive (wakeSt nt qa).profPc :=
      have := win_check (Win c (.at s.pc :: h)) _ _ _ _ w1 c1
      this
    have h2 : PreStep s.profLog s.rf s.pc s.simInst (wakeSt nt qa) :=
      have := pre_check _ _ _ _ h1 c1
      this
    subst e3
    rcases hx2 with ⟨_, _, qc, f1, f2⟩ | ⟨hq, hw⟩
    · have w3 := win_fetch (Win c (.at s.pc :: h)) _ _ _ w2 f1
      have h3 := prof_fetch _ _ _ h2 f1
      obtain ⟨l1, l2⟩ := finish_log (E := E) q1
      by_cases g1 : qc.inst = hintOn
      · obtain ⟨k1, k2⟩ := hint_log hp (.inl g1) f2
        have hpt : ptsOf s (finishSt E q1) = [.hintOn, .at s.pc] := by
          unfold ptsOf
          rw [l1, l2, k1, k2, h3.1, if_neg (by omega), if_pos g1]
          rfl
        rw [hpt] at hn ⊢
        obtain ⟨a1, a2⟩ := exec_on hp g1 f2
        obtain ⟨b1, b2⟩ := w3.start_pt (x := .hintOn) rfl hn
        refine ⟨finish_win ?_, fun h => by simp [ends, closes, isStop] at h⟩
        rw [a1, a2]
        refine b2 _ ?_
        rw [b1]
        by_cases ho : opens c .hintOn (.at s.pc :: h)
        · exact (decide_eq_true ho).trans (if_pos ho).symm
        · exact (decide_eq_false ho).trans ((if_neg ho).trans (if_pos (.inr rfl))).symm
      · by_cases g2 : qc.inst = hintOff
        · obtain ⟨k1, k2⟩ := hint_log hp (.inr g2) f2
          have hpt : ptsOf s (finishSt E q1) = [.hintOff, .at s.pc] := by
            unfold ptsOf
            rw [l1, l2, k1, k2, h3.1, if_neg (by omega), if_neg (by rw [g2]; decide), if_pos g2]
            rfl
          rw [hpt] at hn ⊢
          obtain ⟨a1, a2, a3⟩ := exec_off hp g2 f2
          have hcnt : starts c (.hintOff :: .at s.pc :: h) = starts c (.at s.pc :: h) := starts_other _ rfl
          have hno : ¬ opens c .hintOff (.at s.pc :: h) := not_opens rfl
          have hcl : closes c .hintOff (.at s.pc :: h) := ⟨rfl, hno⟩
          have w4 : Win c (.hintOff :: .at s.pc :: h) q1.profActive q1.profPc := by
            rw [a1, a2]
            refine ⟨w3.start, w3.stop, w3.k, w3.exit, ?_, by rw [hcnt]; exact w3.cur, by rw [hcnt]; exact w3.ran⟩
            unfold onC
            rw [if_neg hno, if_pos (.inl hcl)]
          refine ⟨finish_win w4, fun he => finish_run ?_⟩
          rw [a3, ← a2, ProfPc.exit_eq w4]
          have he : (c.exit && decide (closes c .hintOff (.at s.pc :: h)) &&
            (c.k == 0 || decide (c.k ≤ starts c (.hintOff :: .at s.pc :: h)))) = true := he
          rw [decide_eq_true hcl] at he
          simp at he ⊢
          exact ⟨he.1, fun h0 => he.2.resolve_left h0⟩
        · have hi := inst_hint hp f2 g1 g2
          have hpt : ptsOf s (finishSt E q1) = [.at s.pc] := by
            unfold ptsOf
            rw [l2, if_neg hi.1, if_neg hi.2]
            simp
          rw [hpt]
          exact ⟨finish_win (exec_win _ f2 g1 g2 w3), fun he => absurd (he.symm.trans hx) Bool.noConfusion⟩
    · subst hq
      have hpt : ptsOf s (finishSt E (wakeSt nt qa)) = [.at s.pc] := by
        unfold ptsOf
        rw [(finish_log _).1, h2.1]
        simp
      rw [hpt]
      exact ⟨finish_win w2, fun he => absurd (he.symm.trans hx) Bool.noConfusion⟩

/-! ## Runs -/

/-- the options given to the simulator, before a run -/
structure Fresh (c : Conf) (pp : ProfPc) : Prop where
  start : pp.start = c.start
  stop : pp.stop = c.stop
  k : pp.singleMatch.toNat = c.k
  exit : pp.exitOnStop = c.exit
  cur : pp.curMatch = 0#32
  ran : pp.ranOnce = false

theorem Win.run (hp : E.cfg.profilers = true) {h : List Pt} {s s' : St σ} (hh : Passes E h s s')
    (w : Win c [] s.profActive s.profPc) (hn : starts c h < 2 ^ 32) : Win c h s'.profActive s'.profPc := by
  induction hh with
  | nil => exact w
  | step h1 h2 h3 ih =>
    refine ((ih w ?_).step_pts hp hn h3).1
    refine Nat.lt_of_le_of_lt ?_ hn
    unfold starts
    rw [List.countP_append]
    exact Nat.le_add_left _ _
theorem Fresh.win {pp : ProfPc} (f : Fresh c pp) (img : W → BitVec 8) (hs : σ) :
    Win c [] (initSt E img pp hs).profActive (initSt E img pp hs).profPc := by
  refine ⟨f.start, f.stop, f.k, f.exit, rfl, fun _ => ?_, fun hk => ?_⟩
  · show pp.curMatch.toNat = 0
    rw [f.cur]; rfl
  · show pp.ranOnce = decide (c.k ≤ 0)
    rw [f.ran, decide_eq_false (by omega)]

/-- no start hint is executed inside an open window that only the requested start point may open -/
def NoRestart (c : Conf) (h : List Pt) : Prop := ∀ t, .hintOn :: t <:+ h → c.k = 0 ∨ opens c .hintOn t ∨ on c t = false

theorem onC_eq : ∀ {h : List Pt}, NoRestart c h → onC c h = on c h
  | [], _ => rfl
  | p :: t, hr => by
    have ih : onC c t = on c t := onC_eq fun u hu => hr u (hu.trans (List.suffix_cons _ _))
    unfold onC on
    by_cases ho : opens c p t
    · rw [if_pos ho, if_pos ho]
    · rw [if_neg ho, if_neg ho]
      by_cases hc : closes c p t
      · rw [if_pos (.inl hc), if_pos hc]
      · rw [if_neg hc]
        by_cases hp : p = .hintOn
        · rw [if_pos (.inr hp)]
          subst hp
          rcases hr t (List.suffix_refl _) with h | h | h
          · exact absurd ⟨rfl, .inl h⟩ ho
          · exact absurd h ho
          · exact h.symm
        · rw [if_neg (by simp [hc, hp]), ih]

/-- **C59**, with two exceptions.  Over any run, profiling is on exactly between the requested start point (a step at the
start pc, or a start hint; each of them, or only the requested one) and the next stop point (a step at the stop pc, or
a stop hint).

Missing: a start hint inside a window opened by a numbered start point (`restart_closes`), and counting executions
rather than steps at the start pc (`stall_counts`).  The numbering wraps after 2^32 start points. -/
theorem window_partial (hp : E.cfg.profilers = true) {pp : ProfPc} (f : Fresh c pp) {img : W → BitVec 8} {hs : σ}
    {h : List Pt} {s' : St σ} (hh : Passes E h (initSt E img pp hs) s') (hn : starts c h < 2 ^ 32)
    (hr : NoRestart c h) : s'.profActive = on c h := by
  rw [← onC_eq hr]
  exact (Win.run hp hh (f.win img hs) hn).act

/-- **C59.** With exit-on-stop, a stop point ends the run there: at once if every window counts, otherwise once the
requested start point has been passed.  A stop pc ends it before its instruction executes. -/
theorem exit_on_stop (hp : E.cfg.profilers = true) {pp : ProfPc} (f : Fresh c pp) {img : W → BitVec 8} {hs : σ}
    {h : List Pt} {s s' : St σ} (hh : Passes E h (initSt E img pp hs) s) (e : step E s = .ok ((), s'))
    (hn : starts c (ptsOf s s' ++ h) < 2 ^ 32) :
    (ends c (ptsOf s s' ++ h) = true → s'.running = false) ∧
    (ends c (.at s.pc :: h) = true → s'.running = false ∧ s'.profLog = s.profLog ∧ s'.simInst = s.simInst) := by
  refine ((Win.run hp hh (f.win img hs) ?_).step_pts hp hn e).2
  refine Nat.lt_of_le_of_lt ?_ hn
  unfold starts
  rw [List.countP_append]
  exact Nat.le_add_left _ _

/-! ## Profiled instructions -/

theorem shouldStart_cnt (p : ProfPc) : p.shouldStart.2.instCnt = p.instCnt := by
  unfold ProfPc.shouldStart
  split
  · rfl
  · simp only
    split <;> rfl

/-- **C59.** The count of profiled instructions grows by one for each instruction retired with profiling on. -/
theorem profiled_count (hp : E.cfg.profilers = true) {s s' : St σ} (h : step E s = .ok ((), s')) :
    s'.profPc.instCnt = s.profPc.instCnt +
      if s'.simInst ≠ s.simInst ∧ s'.profActive = true then 1#64 else 0#64 := by
  have h0 : PreStep s.profLog s.rf s.pc s.simInst { s with trapped := false } := ⟨rfl, rfl, fun _ => rfl, rfl⟩
  have hwin : ∀ {b q}, profWindow E { s with trapped := false } = .ok (b, q) → q.profPc.instCnt = s.profPc.instCnt := by
    intro b q e
    rw [(window_app hp e).1]
    unfold ProfPc.shouldStartPc
    split
    · rfl
    · exact shouldStart_cnt _
  rcases step_split h with he | ⟨q0, q1, e1, e2, e3⟩
  · rw [hwin he, if_neg (fun hx => hx.1 (pre_window _ _ _ h0 he).2.2.2)]
    exact (BitVec.add_zero _).symm
  · have h1 := pre_window _ _ _ h0 e1
    obtain ⟨defer, nt, qa, c1, _, hx2⟩ := stepExec_split e2
    let Q : Bool → ProfPc → Prop := fun _ p => p.instCnt = s.profPc.instCnt
    have w2 : Q (wakeSt nt qa).profActive (wakeSt nt qa).profPc :=
      have := win_check Q _ _ _ _ (hwin e1) c1
      this
    have h2 : PreStep s.profLog s.rf s.pc s.simInst (wakeSt nt qa) :=
      have := pre_check _ _ _ _ h1 c1
      this
    have key : q1.profPc.instCnt = s.profPc.instCnt ∧ q1.simInst = s.simInst := by
      rcases hx2 with ⟨_, _, qc, f1, f2⟩ | ⟨hq, hw⟩
      · have w3 := win_fetch Q _ _ _ w2 f1
        have h3 := prof_fetch _ _ _ h2 f1
        refine ⟨?_, (exec_keeps.exec _ _ _ ⟨h3.2.2.1, h3.2.2.2⟩ f2).2⟩
        by_cases g1 : qc.inst = hintOn
        · rw [(exec_on hp g1 f2).2, shouldStart_cnt]; exact w3
        · by_cases g2 : qc.inst = hintOff
          · rw [(exec_off hp g2 f2).2.1]; exact w3
          · exact exec_win Q f2 g1 g2 w3
      · rw [hq]; exact ⟨w2, h2.2.2.2⟩
    obtain ⟨k1, k2⟩ := key
    have hne : s.simInst + 1#64 ≠ s.simInst := by
      intro e; have := congrArg BitVec.toNat e; rw [BitVec.toNat_add] at this; simp at this; omega
    have z : ∀ x : BitVec 64, x = x + 0#64 := fun x => (BitVec.add_zero x).symm
    subst e3
    unfold finishSt finishSt1
    split
    · simp only [k1, k2]; simp
    · split
      · simp only [k1, k2]; simp
      · split
        · simp only [k1, k2]; simp
        · simp only [k2, hp, Bool.true_and]
          cases ha : q1.profActive
          · simp [k1]
          · simp [k1, hne]

/-! ## Cases -/

namespace Ex
def envW : Env Unit := { env0 with cfg := { cfg0 with profilers := true } }
def ppW (k : W) : ProfPc := ⟨0x80000004#32, 0x8000000c#32, k, true, 0#32, false, 0#64⟩
/-- activation, running, profiled and retired instructions after `n` steps -/
def win (k : W) (n : Nat) (ws : List W) : Option (Bool × Bool × Nat × Nat) :=
  obs (runN envW n (initSt envW (image ws) (ppW k) ())) fun s =>
    (s.profActive, s.running, s.profPc.instCnt.toNat, s.simInst.toNat)
/-- the options of `ppW` -/
example (k : W) : Fresh ⟨0x80000004#32, 0x8000000c#32, k.toNat, true⟩ (ppW k) := ⟨rfl, rfl, rfl, rfl, rfl, rfl⟩

/-- start at the second instruction, stop and exit at the fourth: two profiled instructions -/
example : win 0#32 2 [0x13#32, 0x13#32, 0x13#32, 0x13#32] = some (true, true, 1, 2) := by decide +kernel
example : win 0#32 9 [0x13#32, 0x13#32, 0x13#32, 0x13#32] = some (false, false, 2, 3) := by decide +kernel
/-- the second time round a loop of three instructions -/
example : win 2#32 4 [0x13#32, 0x13#32, 0xff9ff06f#32] = some (false, true, 0, 4) := by decide +kernel
example : win 2#32 5 [0x13#32, 0x13#32, 0xff9ff06f#32] = some (true, true, 1, 5) := by decide +kernel
/-- hints -/
example : win 1#32 2 [0x01002013#32, 0x13#32] = some (true, true, 2, 2) := by decide +kernel
example : win 1#32 9 [0x01002013#32, 0x13#32, 0x01102013#32] = some (false, false, 2, 3) := by decide +kernel
end Ex

/-- **C59 fails for repeated start hints**: with single matching, the second start hint closes the window that the first
one opened. -/
theorem restart_closes : Ex.win 1#32 1 [0x01002013#32, 0x01002013#32] = some (true, true, 1, 1) ∧
    Ex.win 1#32 2 [0x01002013#32, 0x01002013#32] = some (false, true, 1, 2) ∧
    on ⟨0x80000004#32, 0x8000000c#32, 1, true⟩ [.hintOn, .at 0x80000004#32, .hintOn, .at 0x80000000#32] = true := by
  decide +kernel

/-- **C59 fails for occurrences of the start pc**: while the core waits for an interrupt, each idle step counts the pc
it stopped at.  Here the second occurrence is reached although the instruction there has never executed. -/
theorem stall_counts : Ex.win 2#32 2 [0x10500073#32, 0x13#32] = some (false, true, 0, 1) ∧
    Ex.win 2#32 3 [0x10500073#32, 0x13#32] = some (true, true, 0, 1) := by decide +kernel

end Ama
