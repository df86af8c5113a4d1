import Verif.Props.BpTables
/-!
# C49, C50, C52: what the predictors answer
-/
namespace Ama.Bp

/-- no `none` and no ideal predictor anywhere -/
def Real : Shape → Prop
  | .one k => k ≠ .none ∧ k ≠ .ideal
  | .comb a b => Real a ∧ Real b

/-- **C49.** From every state (reachable or not), a predictor built without `none` and ideal answers with the
branch target or pc + 4. -/
theorem predict_successor (tg pc : W) : ∀ {p p' : Pred} {v : W}, Real (shape p) → predict tg pc p = .ok (v, p') →
    v = tg ∨ v = pc + 4#32
  | .sttc b m, p', v, _, h => by
    simp only [predict, Res.ok.injEq, Prod.mk.injEq] at h
    rw [← h.1]
    cases m
    · exact .inl rfl
    · exact .inr rfl
    · simp only
      split
      · exact .inr rfl
      · exact .inl rfl
  | .bimodal b t l, p', v, _, h => by
    obtain ⟨i, hi, h⟩ := bind_eq_ok h
    obtain ⟨k, hk, h⟩ := bind_eq_ok h
    simp only [Res.ok.injEq, Prod.mk.injEq] at h
    rw [← h.1]
    cases k
    · exact .inr rfl
    · exact .inl rfl
  | .local b t pm e hs hm l, p', v, _, h => by
    obtain ⟨i, hi, h⟩ := bind_eq_ok h
    split at h
    · obtain ⟨k, hk, h⟩ := bind_eq_ok h
      simp only [Res.ok.injEq, Prod.mk.injEq] at h
      rw [← h.1]
      cases k
      · exact .inr rfl
      · exact .inl rfl
    · cases h
  | .global b t m g l, p', v, _, h => by
    obtain ⟨k, hk, h⟩ := bind_eq_ok h
    simp only [Res.ok.injEq, Prod.mk.injEq] at h
    rw [← h.1]
    cases k
    · exact .inr rfl
    · exact .inl rfl
  | .gselect b t gb im gm pm g l, p', v, _, h => by
    obtain ⟨i, hi, h⟩ := bind_eq_ok h
    obtain ⟨j, hj, h⟩ := bind_eq_ok h
    obtain ⟨k, hk, h⟩ := bind_eq_ok h
    simp only [Res.ok.injEq, Prod.mk.injEq] at h
    rw [← h.1]
    cases k
    · exact .inr rfl
    · exact .inl rfl
  | .gshare b t go im gm pm g l, p', v, _, h => by
    obtain ⟨i, hi, h⟩ := bind_eq_ok h
    obtain ⟨j, hj, h⟩ := bind_eq_ok h
    obtain ⟨k, hk, h⟩ := bind_eq_ok h
    simp only [Res.ok.injEq, Prod.mk.injEq] at h
    rw [← h.1]
    cases k
    · exact .inr rfl
    · exact .inl rfl
  | .ideal b, p', v, hr, h => absurd rfl hr.2
  | .none b, p', v, hr, h => absurd rfl hr.1
  | .combined b t p0 p1 l, p', v, hr, h => by
    obtain ⟨⟨v0, q0⟩, h0, h⟩ := bind_eq_ok h
    obtain ⟨⟨v1, q1⟩, h1, h⟩ := bind_eq_ok h
    obtain ⟨i, hi, h⟩ := bind_eq_ok h
    obtain ⟨k, hk, h⟩ := bind_eq_ok h
    simp only [Res.ok.injEq, Prod.mk.injEq] at h
    rw [← h.1]
    cases k
    · exact predict_successor tg pc hr.2 h1
    · exact predict_successor tg pc hr.1 h0

theorem Real.sound : ∀ {s : Shape}, Real s → NoIdeal s
  | .one _, h => h.2
  | .comb _ _, h => ⟨Real.sound h.1, Real.sound h.2⟩
theorem Real.plain {s : Shape} (h : Real s) : Sound s ∧ s ≠ .one .none := by
  cases s with
  | one k => exact ⟨trivial, fun e => h.1 (by cases e; rfl)⟩
  | comb a b => exact ⟨⟨Real.sound h.1, Real.sound h.2⟩, (fun e => by cases e)⟩

/-- **C49, partial.** Missing: a combined predictor with a `none` or ideal component (`combined_none_zero`,
`combined_ideal_uninit`).  Over every run of an accepted configuration of this kind the interface goes through every branch,
and what it hands to the core is the branch target or pc + 4. -/
theorem prediction_is_successor_partial {low : Nat} (hl : low = 1 ∨ low = 2) {d : Def} {p : Pred}
    (hm : make low d = .ok p) (hr : Real (shapeD d)) (evs : List Ev) (e : Br) :
    ∃ p1 v p2, run evs p = .ok p1 ∧ drive e p1 = .ok (v, p2) ∧ (v = e.pc + e.offset ∨ v = e.pc + 4#32) := by
  obtain ⟨p2, h2, _⟩ := runs_through hl hm hr.plain (evs ++ [.br e])
  rw [run_append] at h2
  obtain ⟨p1, h1, h2⟩ := bind_eq_ok h2
  obtain ⟨⟨v, p3⟩, h3, h2⟩ := bind_eq_ok h2
  refine ⟨p1, v, p3, h1, h3, ?_⟩
  obtain ⟨q, r, q', k1, _⟩ := drive_parts h3
  obtain ⟨ho, _, _⟩ := make_ok (by omega) hm
  have hs1 : shape p1 = shapeD d := by
    rcases run_ok evs ho with ⟨q, e, _, s⟩ | ⟨e, _⟩
    · rw [h1] at e
      simp only [Res.ok.injEq] at e
      subst e
      rw [s, make_shape hm]
    · rw [h1] at e; cases e
  exact predict_successor _ _ (by rw [shape_goto, hs1]; exact hr) k1

/-! ## C50 -/

theorem run_shape {evs : List Ev} {p p' : Pred} (ho : PredOk p) (h : run evs p = .ok p') :
    shape p' = shape p ∧ PredOk p' := by
  rcases run_ok evs ho with ⟨q, e, o, s⟩ | ⟨e, _⟩
  · rw [h] at e
    simp only [Res.ok.injEq] at e
    subst e
    exact ⟨s, o⟩
  · rw [h] at e; cases e

theorem eval_correct (s : BStats) (pc : W) (f : Bool) :
    (s.eval pc true f).mispredicted = s.mispredicted ∧ (s.prof = true → (s.eval pc true f).predicted = s.predicted + 1) ∧
      (s.eval pc false f).predicted = s.predicted := by
  unfold BStats.eval BStats.mispredicted BStats.predicted
  cases hp : s.prof <;> cases f <;> simp <;> omega

/-- what counting one branch does to the statistics -/
theorem drive_stats {e : Br} {p p' : Pred} {v : W} (hn : shape p ≠ .one .none) (h : drive e p = .ok (v, p')) :
    p'.base.stats = p.base.stats.eval e.pc (e.next == v) (decide (e.pc + e.offset > e.pc)) := by
  obtain ⟨q, r, q', h1, h2, h3, _⟩ := drive_parts h
  have a := asked _ _ h1
  have b := eval_shape _ _ h2
  have hst : q'.base.stats = p.base.stats := by rw [b.2.1, a.stats, goto_stats]
  have hpr : q'.base.predicted = some v := by rw [b.2.1]; exact a.pred (by rw [shape_goto]; exact hn)
  have hfw : q'.base.fwd = some (decide (e.pc + e.offset > e.pc)) := by rw [b.2.1]; exact a.fwd
  cases hp : p.base.stats.prof with
  | false =>
    rw [hst, hp] at h3
    simp only [Bool.false_eq_true, if_false, Res.ok.injEq] at h3
    rw [← h3, hst]
    unfold BStats.eval
    rw [hp]; rfl
  | true =>
    rw [hst, hp] at h3
    simp only [if_true] at h3
    unfold updateStats Base.updateStats at h3
    rw [hpr, hfw] at h3
    simp only [Res.bind_ok, Res.ok.injEq] at h3
    rw [← h3, base_setBase]
    simp only [hst]

/-- **C50.** The ideal predictor answers the actual next pc on every branch of every run, and counts no
misprediction. -/
theorem ideal_always_right {low : Nat} (hl : low = 1 ∨ low = 2) {c : PCfg} {p : Pred}
    (hm : make low (.one .ideal c) = .ok p) (evs : List Ev) : ∃ p1, run evs p = .ok p1 ∧
      p1.base.stats.mispredicted = 0 ∧ ∀ e : Br, ∃ p2, drive e p1 = .ok (e.next, p2) := by
  obtain ⟨ho, hst, _⟩ := make_ok (by omega) hm
  have hs := make_shape hm
  have step : ∀ {p : Pred}, shape p = .one .ideal → PredOk p → ∀ e : Br, ∃ p2, drive e p = .ok (e.next, p2) := by
    intro p hs ho e
    rcases drive_ok e ho with ⟨v, p', e1, _⟩ | ⟨_, hc⟩
    · obtain ⟨q, r, q', k1, _⟩ := drive_parts e1
      cases p <;> first
        | (cases hs; done)
        | (simp only [gotoFuture, predict, Res.ok.injEq, Prod.mk.injEq] at k1
           rw [← k1.1] at e1
           exact ⟨_, e1⟩)
    · rw [hs] at hc
      exact absurd hc (fun h => h.elim (fun h => h trivial) (fun h => by cases h.1))
  have all : ∀ (evs : List Ev) {p : Pred}, shape p = .one .ideal → PredOk p → p.base.stats.mispredicted = 0 →
      ∃ p1, run evs p = .ok p1 ∧ p1.base.stats.mispredicted = 0 ∧ shape p1 = .one .ideal ∧ PredOk p1 := by
    intro evs
    induction evs with
    | nil => intro p hs ho h; exact ⟨p, rfl, h, hs, ho⟩
    | cons ev evs ih =>
      intro p hs ho h
      cases ev with
      | prof on =>
        refine ih (p := setProf on p) (by rw [shape_setProf, hs]) (setBase_ok (base_ok ho) ho) ?_
        unfold setProf; rw [base_setBase]; exact h
      | br e =>
        obtain ⟨q, hq⟩ := step hs ho e
        have hstat := drive_stats (by rw [hs]; intro h; cases h) hq
        have hq' : shape q = .one .ideal := by
          obtain ⟨r1, r2, r3, k1, k2, _, b, rfl⟩ := drive_parts hq
          rw [shape_setBase, (eval_shape _ _ k2).1, (asked _ _ k1).shape, shape_goto, hs]
        obtain ⟨p1, g1, g2⟩ := ih hq' (drive_keeps ho hq) (by
          rw [hstat]
          simp only [BEq.rfl]
          rw [(eval_correct _ _ _).1, h])
        exact ⟨p1, by simp only [run, hq, Res.bind_ok]; exact g1, g2⟩
  obtain ⟨p1, g1, g2, g3, g4⟩ := all evs hs ho (by rw [hst]; rfl)
  exact ⟨p1, g1, g2, step g3 g4⟩

/-- the rule each static predictor is named after -/
def staticRule : Sttc → W → W → W
  | .at, target, _ => target
  | .ant, _, pc => pc + 4#32
  | .btfn, target, pc => if pc.toNat < target.toNat then pc + 4#32 else target

/-- the number that selects each of them on the command line -/
def Sttc.num : Sttc → Nat
  | .at => 0
  | .ant => 1
  | .btfn => 2

/-- **C50.** Each static predictor follows its rule on every branch of every run; 0, 1 and 2 in the counter field
select always-taken, always-not-taken and backward-taken-forward-not-taken. -/
theorem static_follows_rule {low : Nat} (hl : low = 1 ∨ low = 2) {c : PCfg} {p : Pred}
    (hm : make low (.one .sttc c) = .ok p) (evs : List Ev) : ∃ m p1, run evs p = .ok p1 ∧
      c.cntBits.toNat = m.num ∧
      ∀ e : Br, ∃ p2, drive e p1 = .ok (staticRule m (e.pc + e.offset) e.pc, p2) := by
  have hd : Def.plain (.one .sttc c) := ⟨trivial, (fun h => by cases h)⟩
  have hmode : ∃ b m, p = .sttc b m ∧ c.cntBits.toNat = m.num := by
    unfold make make1 at hm
    obtain ⟨b, _, hm⟩ := bind_eq_ok hm
    simp only at hm
    split at hm
    · cases hm
    · rename_i hc
      simp only [Res.ok.injEq] at hm
      refine ⟨b, _, hm.symm, ?_⟩
      by_cases h2 : c.cntBits = 2#8
      · rw [if_pos h2, h2]; decide
      · rw [if_neg h2]
        by_cases h0 : c.cntBits = 0#8
        · rw [if_pos h0, h0]; decide
        · rw [if_neg h0]
          have h2' : c.cntBits.toNat ≠ 2 := fun e => h2 (BitVec.eq_of_toNat_eq e)
          have h0' : c.cntBits.toNat ≠ 0 := fun e => h0 (BitVec.eq_of_toNat_eq e)
          simp only [Sttc.num]; omega
  obtain ⟨b, m, rfl, hcm⟩ := hmode
  have step : ∀ {e : Br} {b : Base} {v : W} {p' : Pred}, drive e (.sttc b m) = .ok (v, p') →
      (∃ b', p' = .sttc b' m) ∧ v = staticRule m (e.pc + e.offset) e.pc := by
    intro e b v p' h
    obtain ⟨q, r, q', k1, k2, _, b3, rfl⟩ := drive_parts h
    simp only [gotoFuture, predict, Res.ok.injEq, Prod.mk.injEq] at k1
    obtain ⟨rfl, rfl⟩ := k1
    obtain ⟨x, hx, k2⟩ := bind_eq_ok k2
    simp only [Res.ok.injEq, Prod.mk.injEq] at k2
    obtain ⟨rfl, rfl⟩ := k2
    refine ⟨⟨_, rfl⟩, ?_⟩
    cases m
    · rfl
    · rfl
    · simp only [staticRule, gt_iff_lt, BitVec.lt_def]
  have keep : ∀ (evs : List Ev) {b : Base} {p1 : Pred}, run evs (.sttc b m) = .ok p1 → ∃ b', p1 = .sttc b' m := by
    intro evs
    induction evs with
    | nil =>
      intro b p1 h
      simp only [run, Res.ok.injEq] at h
      exact ⟨b, h.symm⟩
    | cons ev evs ih =>
      intro b p1 h
      cases ev with
      | prof on => exact ih (b := _) h
      | br e =>
        obtain ⟨⟨v, q⟩, h1, h⟩ := bind_eq_ok h
        obtain ⟨⟨b', rfl⟩, _⟩ := step h1
        exact ih h
  obtain ⟨p1, h1, _⟩ := runs_through hl hm hd evs
  refine ⟨m, p1, h1, hcm, ?_⟩
  intro e
  obtain ⟨p2, h2, _⟩ := runs_through hl hm hd (evs ++ [.br e])
  rw [run_append, h1] at h2
  obtain ⟨⟨v, p3⟩, h3, _⟩ := bind_eq_ok (x := drive e p1) h2
  obtain ⟨b', rfl⟩ := keep evs h1
  rw [(step h3).2] at h3
  exact ⟨p3, h3⟩

/-- **C50, partial.** `none` reports every branch as wrong, and no run that goes through counts a correct
prediction for it.  Missing: while profiling it does not go through (`none_counts_unset`), because the counting
compares the next pc with a prediction that this class never sets. -/
theorem none_never_right_partial {low : Nat} (hl : low = 1 ∨ low = 2) {c : PCfg} {p : Pred}
    (hm : make low (.one .none c) = .ok p) (evs : List Ev) :
    (∀ p1, run evs p = .ok p1 → p1.base.stats.predicted = 0 ∧
      ∀ (tk : Bool) (nx : W), ∃ p2, evalUpdate tk nx p1 = .ok (false, p2)) ∧
    ((∀ ev ∈ evs, ev ≠ .prof true) → ∃ p1, run evs p = .ok p1) := by
  obtain ⟨ho, hst, hpn⟩ := make_ok (by omega) hm
  have hs := make_shape hm
  have step : ∀ {e : Br} {p p' : Pred} {v : W}, shape p = .one .none → p.base.predicted = .none →
      drive e p = .ok (v, p') → p'.base.predicted = .none ∧ p'.base.stats = p.base.stats ∧ shape p' = .one .none := by
    intro e p p' v hs hpn h
    obtain ⟨q, r, q', k1, k2, k3, _⟩ := drive_parts h
    have a := asked _ _ k1
    have b := eval_shape _ _ k2
    have hg : gotoFuture e.next p = p := goto_eq (by rw [hs]; intro h; cases h)
    rw [hg] at a
    have hpp : q'.base.predicted = .none := by rw [b.2.1, a.nonePred hs, hpn]
    have hss : q'.base.stats = p.base.stats := by rw [b.2.1, a.stats]
    have hsh : shape q' = .one .none := by rw [b.1, a.shape, hs]
    split at k3
    · unfold updateStats Base.updateStats at k3
      rw [hpp] at k3
      cases k3
    · simp only [Res.ok.injEq] at k3
      subst k3
      exact ⟨hpp, hss, hsh⟩
  constructor
  · have all : ∀ (evs : List Ev) {p p1 : Pred}, shape p = .one .none → p.base.predicted = .none →
        p.base.stats.predicted = 0 → run evs p = .ok p1 →
        p1.base.stats.predicted = 0 ∧ shape p1 = .one .none := by
      intro evs
      induction evs with
      | nil =>
        intro p p1 hs _ h0 h
        simp only [run, Res.ok.injEq] at h
        subst h; exact ⟨h0, hs⟩
      | cons ev evs ih =>
        intro p p1 hs hpn h0 h
        cases ev with
        | prof on =>
          refine ih (p := setProf on p) (by rw [shape_setProf, hs]) ?_ ?_ h
          · unfold setProf; rw [base_setBase]; exact hpn
          · unfold setProf; rw [base_setBase]; exact h0
        | br e =>
          obtain ⟨⟨v, q⟩, h1, h⟩ := bind_eq_ok h
          obtain ⟨g1, g2, g3⟩ := step hs hpn h1
          exact ih g3 g1 (by rw [g2]; exact h0) h
    intro p1 h1
    obtain ⟨g1, g2⟩ := all evs hs hpn (by rw [hst]; rfl) h1
    refine ⟨g1, fun tk nx => ?_⟩
    cases p1 <;> first
      | (cases g2; done)
      | exact ⟨_, rfl⟩
  · have all : ∀ (evs : List Ev) {p : Pred}, shape p = .one .none → PredOk p → p.base.stats.prof = false →
        (∀ ev ∈ evs, ev ≠ .prof true) → ∃ p1, run evs p = .ok p1 := by
      intro evs
      induction evs with
      | nil => intro p _ _ _ _; exact ⟨p, rfl⟩
      | cons ev evs ih =>
        intro p hs ho hp hev
        cases ev with
        | prof on =>
          have : on = false := by
            cases on with
            | false => rfl
            | true => exact absurd rfl (hev _ (.head _))
          subst this
          exact ih (p := setProf false p) (by rw [shape_setProf, hs]) (setBase_ok (base_ok ho) ho)
            (setProf_prof _ _) (fun x hx => hev x (.tail _ hx))
        | br e =>
          rcases drive_ok e ho with ⟨v, q, e1, o1, s1, p1⟩ | ⟨_, hc⟩
          · simp only [run, e1, Res.bind_ok]
            exact ih (s1.trans hs) o1 (p1.trans hp) (fun x hx => hev x (.tail _ hx))
          · rw [hs, hp] at hc
            exact absurd hc (fun h => h.elim (fun h => h trivial) (fun h => by cases h.2))
    exact all evs hs ho (by rw [hst])

/-! ## C52: the combined predictor -/

theorem drive_quiet {e : Br} {p q q' : Pred} {v : W} {r : Bool} (hp : p.base.stats.prof = false)
    (hs : shape p ≠ .one .ideal) (h1 : predict (e.pc + e.offset) e.pc p = .ok (v, q))
    (h2 : evalUpdate (e.next != e.pc + 4#32) e.next q = .ok (r, q')) : drive e p = .ok (v, q') :=
  drive_of hp (by rw [goto_eq hs]; exact h1) h2 (by rw [if_neg (by simp)])

/-- **C52.** Whatever the components are and whatever state they are in: the combined predictor asks both and
returns the answer of one of them. -/
theorem combined_answer {tg pc : W} {b : Base} {t : Pht} {p0 p1 p' : Pred} {l : Option W} {v : W}
    (h : predict tg pc (.combined b t p0 p1 l) = .ok (v, p')) : ∃ v0 q0 v1 q1,
      predict tg pc p0 = .ok (v0, q0) ∧ predict tg pc p1 = .ok (v1, q1) ∧ (v = v0 ∨ v = v1) := by
  obtain ⟨⟨v0, q0⟩, h0, h⟩ := bind_eq_ok h
  obtain ⟨⟨v1, q1⟩, h1, h⟩ := bind_eq_ok h
  obtain ⟨i, hi, h⟩ := bind_eq_ok h
  obtain ⟨k, hk, h⟩ := bind_eq_ok h
  simp only [Res.ok.injEq, Prod.mk.injEq] at h
  refine ⟨v0, q0, v1, q1, h0, h1, ?_⟩
  rw [← h.1]
  cases k
  · exact .inr rfl
  · exact .inl rfl

/-- components are never told about profiling -/
def QuietC : Pred → Prop
  | .combined _ _ p0 p1 _ => p0.base.stats.prof = false ∧ p1.base.stats.prof = false
  | _ => True

/-- **C52.** One branch at a combined predictor whose components are not ideal: each component makes the same
prediction and the same update as it would alone; the answer is component 0's when the selector counter of this
branch is at or above the threshold and component 1's otherwise; that counter then moves toward 0's side when
only component 0 was right, toward 1's side when only component 1 was right, and not at all otherwise; no other
selector counter moves.  A `none` component is never right. -/
theorem combined_step {b : Base} {t : Pht} {p0 p1 p' : Pred} {l : Option W} {e : Br} {v : W}
    (ho : PredOk (.combined b t p0 p1 l)) (hq : QuietC (.combined b t p0 p1 l))
    (h0 : shape p0 ≠ .one .ideal) (h1 : shape p1 ≠ .one .ideal)
    (h : drive e (.combined b t p0 p1 l) = .ok (v, p')) :
    ∃ b' t' q0 q1 i v0 v1, p' = .combined b' t' q0 q1 (some i) ∧
      drive e p0 = .ok (v0, q0) ∧ drive e p1 = .ok (v1, q1) ∧ QuietC p' ∧
      v = (if t.cnt i.toNat ≥ t.thr then v0 else v1) ∧ One t t' i.toNat ∧
      t'.cnt i.toNat =
        (let right0 := decide (shape p0 ≠ .one .none ∧ e.next = v0)
         let right1 := decide (shape p1 ≠ .one .none ∧ e.next = v1)
         if right0 = true ∧ right1 = false then min (t.cnt i.toNat + 1) t.cntMax
         else if right0 = false ∧ right1 = true then t.cnt i.toNat - 1
         else t.cnt i.toNat) := by
  obtain ⟨q, r, q', k1, k2, k3, bb, rfl⟩ := drive_parts h
  obtain ⟨⟨v0, a0⟩, e0, k1⟩ := bind_eq_ok k1
  obtain ⟨⟨v1, a1⟩, e1, k1⟩ := bind_eq_ok k1
  obtain ⟨i, hi, k1⟩ := bind_eq_ok k1
  obtain ⟨s0, hs0, k1⟩ := bind_eq_ok k1
  simp only [Res.ok.injEq, Prod.mk.injEq] at k1
  obtain ⟨rfl, rfl⟩ := k1
  obtain ⟨⟨r0, q0⟩, f0, k2⟩ := bind_eq_ok k2
  obtain ⟨⟨r1, q1⟩, f1, k2⟩ := bind_eq_ok k2
  obtain ⟨t', ht', k2⟩ := bind_eq_ok k2
  obtain ⟨x, hx, k2⟩ := bind_eq_ok k2
  simp only [Res.ok.injEq, Prod.mk.injEq] at k2
  obtain ⟨rfl, rfl⟩ := k2
  obtain ⟨_, ⟨_, _, hk⟩, o0, o1⟩ := ho
  have hu := update2_sel (hk.cnt _) ht'
  have d0 := drive_quiet hq.1 h0 e0 f0
  have d1 := drive_quiet hq.2 h1 e1 f1
  have rr : ∀ {p a q : Pred} {v : W} {r : Bool}, predict (e.pc + e.offset) e.pc p = .ok (v, a) →
      evalUpdate (e.next != e.pc + 4#32) e.next a = .ok (r, q) →
      r = decide (shape p ≠ .one .none ∧ e.next = v) := by
    intro p a q v r g1 g2
    have ha := asked _ _ g1
    have he := eval_shape _ _ g2
    by_cases hn : shape p = .one .none
    · rw [he.2.2.2 (by rw [ha.shape, hn])]
      symm
      exact decide_eq_false (fun h => h.1 hn)
    · have := he.2.2.1 (by rw [ha.shape]; exact hn)
      unfold Base.right at this
      rw [ha.pred hn] at this
      simp only [Res.ok.injEq] at this
      rw [← this]
      by_cases hv : e.next = v
      · rw [decide_eq_true ⟨hn, hv⟩, hv]; exact BEq.rfl
      · rw [decide_eq_false (fun h => hv h.2)]
        exact beq_eq_false_iff_ne.2 hv
  refine ⟨bb, t', q0, q1, i, v0, v1, rfl, d0, d1, ⟨?_, ?_⟩, ?_, hu.1, ?_⟩
  · rw [drive_prof d0]; exact hq.1
  · rw [drive_prof d1]; exact hq.2
  · rw [thr_val hs0]
    simp only [decide_eq_true_eq]
  · rw [hu.2, rr e0 f0, rr e1 f1]
    unfold selNext
    simp only
    generalize decide (shape p0 ≠ .one .none ∧ e.next = v0) = x
    generalize decide (shape p1 ≠ .one .none ∧ e.next = v1) = y
    cases x <;> cases y <;> rfl

/-- was predictor `p` right about `e`?  Never, for `none`. -/
def rightOn (e : Br) (p : Pred) : Bool :=
  match drive e p with
  | .ok (v, _) => decide (shape p ≠ .one .none ∧ e.next = v)
  | _ => false

/-- a run of a combined predictor with, for each branch, its selector entry and which components were right -/
def runSel : List Ev → Pred → Res (List (Nat × Bool × Bool) × Pred)
  | [], p => .ok ([], p)
  | .br e :: t, p => do
    let r ← drive e p
    let s ← runSel t r.2
    let rs := match p with
      | .combined _ _ p0 p1 _ => (rightOn e p0, rightOn e p1)
      | _ => (false, false)
    .ok (((entry r.2).getD 0, rs) :: s.1, s.2)
  | .prof on :: t, p => runSel t (setProf on p)

/-- what entry `i` saw -/
def seen (i : Nat) (log : List (Nat × Bool × Bool)) : List (Bool × Bool) :=
  (log.filter (fun x => x.1 == i)).map (·.2)

/-- a saturating counter that goes up on `(true, false)`, down on `(false, true)` and otherwise stays -/
def satSel (m : Nat) : Nat → List (Bool × Bool) → Nat
  | c, [] => c
  | c, (true, false) :: t => satSel m (min (c + 1) m) t
  | c, (false, true) :: t => satSel m (c - 1) t
  | c, _ :: t => satSel m c t

/-- a combined predictor whose components are not ideal and have never been told to profile -/
def CombOk : Pred → Prop
  | .combined b t p0 p1 l => PredOk (.combined b t p0 p1 l) ∧ QuietC (.combined b t p0 p1 l) ∧
      NoIdeal (shape p0) ∧ NoIdeal (shape p1)
  | _ => False

theorem NoIdeal.ne {p : Pred} (h : NoIdeal (shape p)) : shape p ≠ .one .ideal := by
  intro e; rw [e] at h; exact h rfl

theorem drive_shape {e : Br} {p q : Pred} {v : W} (h : drive e p = .ok (v, q)) : shape q = shape p := by
  obtain ⟨r1, r2, r3, k1, k2, _, b, rfl⟩ := drive_parts h
  rw [shape_setBase, (eval_shape _ _ k2).1, (asked _ _ k1).shape, shape_goto]

/-- **C52.** Over any run, each selector counter is the saturating counter over which component was right on the
branches that used it. -/
theorem selector_refines : ∀ (evs : List Ev) {b : Base} {t : Pht} {p0 p1 p' : Pred} {l : Option W}
    {log : List (Nat × Bool × Bool)}, CombOk (.combined b t p0 p1 l) →
    runSel evs (.combined b t p0 p1 l) = .ok (log, p') →
    ∃ b' t' q0 q1 l', p' = .combined b' t' q0 q1 l' ∧ CombOk p' ∧ t'.cntMax = t.cntMax ∧ t'.thr = t.thr ∧
      ∀ i, t'.cnt i = satSel t.cntMax (t.cnt i) (seen i log)
  | [], b, t, p0, p1, p', l, log, ho, h => by
    simp only [runSel, Res.ok.injEq, Prod.mk.injEq] at h
    obtain ⟨rfl, rfl⟩ := h
    exact ⟨b, t, p0, p1, l, rfl, ho, rfl, rfl, fun _ => rfl⟩
  | .br e :: evs, b, t, p0, p1, p', l, log, ho, h => by
    obtain ⟨⟨v, q⟩, h1, h⟩ := bind_eq_ok h
    obtain ⟨⟨lg, r⟩, h2, h⟩ := bind_eq_ok h
    simp only [Res.ok.injEq, Prod.mk.injEq] at h
    obtain ⟨rfl, rfl⟩ := h
    obtain ⟨b', t', q0, q1, i, v0, v1, rfl, d0, d1, hqc, _, g3, g4⟩ :=
      combined_step ho.1 ho.2.1 ho.2.2.1.ne ho.2.2.2.ne h1
    have hok : CombOk (.combined b' t' q0 q1 (some i)) :=
      ⟨drive_keeps ho.1 h1, hqc, by rw [drive_shape d0]; exact ho.2.2.1, by rw [drive_shape d1]; exact ho.2.2.2⟩
    obtain ⟨b2, t2, r0, r1, l2, k1, k2, k3, k4, k5⟩ := selector_refines evs hok h2
    refine ⟨b2, t2, r0, r1, l2, k1, k2, k3.trans g3.max, k4.trans g3.thr, ?_⟩
    intro j
    have hent : (entry (.combined b' t' q0 q1 (some i))).getD 0 = i.toNat := rfl
    rw [k5 j, g3.max]
    simp only [seen, hent]
    by_cases hj : j = i.toNat
    · subst hj
      rw [List.filter_cons_of_pos (by simp), g4]
      simp only [List.map, rightOn, d0, d1]
      generalize decide (shape p0 ≠ .one .none ∧ e.next = v0) = x
      generalize decide (shape p1 ≠ .one .none ∧ e.next = v1) = y
      cases x <;> cases y <;> simp [satSel]
    · rw [List.filter_cons_of_neg (by simp only [beq_iff_eq]; exact fun h => hj h.symm), g3.rest j hj]
  | .prof on :: evs, b, t, p0, p1, p', l, log, ho, h =>
    selector_refines evs (b := { b with stats := { b.stats with prof := on } }) (t := t) (p0 := p0) (p1 := p1) (l := l)
      ⟨ho.1, ho.2⟩ h

theorem satSel_up {m : Nat} : ∀ (l : List (Bool × Bool)) (c : Nat), (false, true) ∉ l → c ≤ m →
    satSel m c l = min (c + l.count (true, false)) m
  | [], c, _, hc => by simp only [satSel, List.count_nil]; omega
  | (true, false) :: t, c, h, hc => by
    rw [satSel, satSel_up t _ (fun hh => h (.tail _ hh)) (by omega), List.count_cons_self]; omega
  | (false, true) :: t, c, h, hc => absurd (.head _) h
  | (true, true) :: t, c, h, hc => by
    rw [satSel, satSel_up t _ (fun hh => h (.tail _ hh)) hc, List.count_cons_of_ne (by decide)]
    · intro h; cases h
    · intro h; cases h
  | (false, false) :: t, c, h, hc => by
    rw [satSel, satSel_up t _ (fun hh => h (.tail _ hh)) hc, List.count_cons_of_ne (by decide)]
    · intro h; cases h
    · intro h; cases h
theorem satSel_down {m : Nat} : ∀ (l : List (Bool × Bool)) (c : Nat), (true, false) ∉ l →
    satSel m c l = c - l.count (false, true)
  | [], c, _ => by simp only [satSel, List.count_nil]; omega
  | (true, false) :: t, c, h => absurd (.head _) h
  | (false, true) :: t, c, h => by
    rw [satSel, satSel_down t _ (fun hh => h (.tail _ hh)), List.count_cons_self]; omega
  | (true, true) :: t, c, h => by
    rw [satSel, satSel_down t _ (fun hh => h (.tail _ hh)), List.count_cons_of_ne (by decide)]
    · intro h; cases h
    · intro h; cases h
  | (false, false) :: t, c, h => by
    rw [satSel, satSel_down t _ (fun hh => h (.tail _ hh)), List.count_cons_of_ne (by decide)]
    · intro h; cases h
    · intro h; cases h

/-- a combined predictor as constructed, after any run -/
theorem comb_reach {low : Nat} (hl : low = 1 ∨ low = 2) {c : PCfg} {d0 d1 : Def} {p : Pred}
    (hm : make low (.comb c d0 d1) = .ok p) (h0 : NoIdeal (shapeD d0)) (h1 : NoIdeal (shapeD d1))
    {evs : List Ev} {p' : Pred} (hr : run evs p = .ok p') :
    ∃ b t p0 p1 l n, p' = .combined b t p0 p1 l ∧ CombOk p' ∧ PhtOk t n c.cntBits.toNat := by
  have hfirst : ∃ b t p0 p1 l, p = .combined b t p0 p1 l ∧ CombOk p := by
    have ho := (make_ok (by omega) hm).1
    unfold make at hm
    obtain ⟨q0, g0, hm⟩ := bind_eq_ok hm
    obtain ⟨q1, g1, hm⟩ := bind_eq_ok hm
    obtain ⟨b, hb, hm⟩ := bind_eq_ok hm
    obtain ⟨t, ht, hm⟩ := bind_eq_ok hm
    simp only [Res.ok.injEq] at hm
    subst hm
    refine ⟨b, t, q0, q1, .none, rfl, ho, ⟨?_, ?_⟩, ?_, ?_⟩
    · rw [(make_ok (by omega) g0).2.1]
    · rw [(make_ok (by omega) g1).2.1]
    · rw [make_shape g0]; exact h0
    · rw [make_shape g1]; exact h1
  have keep : ∀ (evs : List Ev) {p p' : Pred}, (∃ b t p0 p1 l, p = .combined b t p0 p1 l ∧ CombOk p) →
      run evs p = .ok p' → ∃ b t p0 p1 l, p' = .combined b t p0 p1 l ∧ CombOk p' := by
    intro evs
    induction evs with
    | nil =>
      intro p p' h hr
      simp only [run, Res.ok.injEq] at hr
      subst hr; exact h
    | cons ev evs ih =>
      intro p p' h hr
      obtain ⟨b, t, p0, p1, l, rfl, ho⟩ := h
      cases ev with
      | br e =>
        obtain ⟨⟨v, q⟩, g1, hr⟩ := bind_eq_ok hr
        obtain ⟨b', t', q0, q1, i, v0, v1, rfl, e0, e1, hqc, _⟩ :=
          combined_step ho.1 ho.2.1 ho.2.2.1.ne ho.2.2.2.ne g1
        exact ih ⟨b', t', q0, q1, _, rfl, drive_keeps ho.1 g1, hqc, by rw [drive_shape e0]; exact ho.2.2.1,
          by rw [drive_shape e1]; exact ho.2.2.2⟩ hr
      | prof on =>
        exact ih (p := setProf on (.combined b t p0 p1 l)) ⟨_, t, p0, p1, l, rfl,
          setBase_ok (p := .combined b t p0 p1 l) (base_ok (p := .combined b t p0 p1 l) ho.1) ho.1, ho.2⟩ hr
  obtain ⟨b, t, p0, p1, l, rfl, ho⟩ := keep evs hfirst hr
  obtain ⟨hb, ⟨n, k, hk⟩, _⟩ := ho.1
  have hd := (run_dims evs (make_ok (by omega) hm).1 hr).2.2
  rw [(make_dims hm).2] at hd
  simp only [selTables, selDims, List.map, List.cons.injEq] at hd
  have hd := hd.1
  rw [dims_eq hk, Prod.mk.injEq] at hd
  have hbk : k = c.cntBits.toNat := by
    have := hd.2
    have h1 := Nat.two_pow_pos k
    have h2 := Nat.two_pow_pos c.cntBits.toNat
    exact (Nat.pow_right_inj (by decide : 1 < 2)).1 (by omega)
  subst hbk
  exact ⟨b, t, p0, p1, l, n, rfl, ho, hk⟩

/-- **C52.** From any reachable state: when entry `i` of the selector has seen at least `2^n - 1` branches on
which only component 0 was right and none on which only component 1 was right, the next branch at that entry is
answered with component 0's prediction. -/
theorem follows_first {low : Nat} (hl : low = 1 ∨ low = 2) {c : PCfg} {d0 d1 : Def} {p p1 p2 p3 : Pred}
    (hm : make low (.comb c d0 d1) = .ok p) (h0 : NoIdeal (shapeD d0)) (h1 : NoIdeal (shapeD d1))
    {evs evs' : List Ev} (hr : run evs p = .ok p1) {log : List (Nat × Bool × Bool)}
    (hr' : runSel evs' p1 = .ok (log, p2)) {i : Nat} (hno : (false, true) ∉ seen i log)
    (hlen : 2 ^ c.cntBits.toNat - 1 ≤ (seen i log).count (true, false))
    {e : Br} {v : W} (hd : drive e p2 = .ok (v, p3)) (he : entry p3 = some i) :
    ∃ b t q0 q1 l r0, p2 = .combined b t q0 q1 l ∧ drive e q0 = .ok (v, r0) := by
  obtain ⟨b, t, x0, x1, l, n, rfl, ho, hk⟩ := comb_reach hl hm h0 h1 hr
  obtain ⟨b2, t2, q0, q1, l2, rfl, ho2, k3, k4, k5⟩ := selector_refines evs' ho hr'
  obtain ⟨b3, t3, r0, r1, j, v0, v1, rfl, e0, e1, _, hv, _⟩ :=
    combined_step ho2.1 ho2.2.1 ho2.2.2.1.ne ho2.2.2.2.ne hd
  refine ⟨b2, t2, q0, q1, l2, r0, rfl, ?_⟩
  have hj : j.toNat = i := by simpa [entry] using he
  rw [hj, if_pos] at hv
  · rw [hv]; exact e0
  · rw [k5, k4, satSel_up _ _ hno (hk.cnt i)]
    have := hk.thr_pos
    have := hk.max
    omega

/-- **C52.** Symmetrically for component 1. -/
theorem follows_second {low : Nat} (hl : low = 1 ∨ low = 2) {c : PCfg} {d0 d1 : Def} {p p1 p2 p3 : Pred}
    (hm : make low (.comb c d0 d1) = .ok p) (h0 : NoIdeal (shapeD d0)) (h1 : NoIdeal (shapeD d1))
    {evs evs' : List Ev} (hr : run evs p = .ok p1) {log : List (Nat × Bool × Bool)}
    (hr' : runSel evs' p1 = .ok (log, p2)) {i : Nat} (hno : (true, false) ∉ seen i log)
    (hlen : 2 ^ c.cntBits.toNat - 1 ≤ (seen i log).count (false, true))
    {e : Br} {v : W} (hd : drive e p2 = .ok (v, p3)) (he : entry p3 = some i) :
    ∃ b t q0 q1 l r1, p2 = .combined b t q0 q1 l ∧ drive e q1 = .ok (v, r1) := by
  obtain ⟨b, t, x0, x1, l, n, rfl, ho, hk⟩ := comb_reach hl hm h0 h1 hr
  obtain ⟨b2, t2, q0, q1, l2, rfl, ho2, k3, k4, k5⟩ := selector_refines evs' ho hr'
  obtain ⟨b3, t3, r0, r1, j, v0, v1, rfl, e0, e1, _, hv, _⟩ :=
    combined_step ho2.1 ho2.2.1 ho2.2.2.1.ne ho2.2.2.2.ne hd
  refine ⟨b2, t2, q0, q1, l2, r1, rfl, ?_⟩
  have hj : j.toNat = i := by simpa [entry] using he
  rw [hj, if_neg] at hv
  · rw [hv]; exact e1
  · rw [k5, k4, satSel_down _ _ hno]
    have := hk.thr_pos
    have := hk.max
    have := hk.cnt i
    omega

/-! ## Concrete cases -/
namespace Ex

/-- gshare, local and gselect answers are a successor on a mixed run -/
example : Real (shapeD (.comb ⟨4, 4, 0, 0, .none⟩ (.one .gshare ⟨8, 1, 0, 8, .none⟩) (bim 2))) :=
  ⟨⟨(fun h => by cases h), (fun h => by cases h)⟩, (fun h => by cases h), (fun h => by cases h)⟩

/-- **C49 fails with a `none` component**: the combined predictor then answers 0. -/
theorem combined_none_zero : lastPred (.comb ⟨4, 2, 0, 0, .none⟩ (.one .none ⟨0, 0, 0, 0, .none⟩) (bim 2)) []
    (back 0x10040#32 true) = some 0#32 := by decide +kernel

/-- **C50 fails for `none`**: counting the first profiled branch compares with a prediction that was never set. -/
theorem none_counts_unset : (match (do
      let p ← make 2 (.one .none ⟨0, 0, 0, 0, .none⟩)
      run [.prof true, .br (back 0x10040#32 true)] p) with
    | .ub .uninit => true | _ => false) = true := by decide +kernel

/-- the three static predictors on a backward and on a forward branch -/
example : lastPred (.one .sttc ⟨0, 2, 0, 0, .none⟩) [] (back 0x10040#32 true) = some 0x10030#32 ∧
    lastPred (.one .sttc ⟨0, 2, 0, 0, .none⟩) [] ⟨0x10040#32, 0x20#32, 0#3, 0x10060#32⟩ = some 0x10044#32 ∧
    lastPred (.one .sttc ⟨0, 0, 0, 0, .none⟩) [] (back 0x10040#32 false) = some 0x10030#32 ∧
    lastPred (.one .sttc ⟨0, 1, 0, 0, .none⟩) [] (back 0x10040#32 true) = some 0x10044#32 := by
  refine ⟨?_, ?_, ?_, ?_⟩ <;> decide +kernel

/-- the ideal predictor on a branch it has never seen -/
example : lastPred (.one .ideal ⟨0, 0, 0, 0, .none⟩) [] (back 0x10040#32 true) = some 0x10030#32 := by
  decide +kernel

/-- always-taken against always-not-taken, one selector bit: the hypotheses of `follows_second` are met and the
third not-taken branch is answered with pc + 4 -/
example : (match (do
      let p ← make 2 (.comb ⟨4, 2, 0, 0, .none⟩ (.one .sttc ⟨0, 0, 0, 0, .none⟩) (.one .sttc ⟨0, 1, 0, 0, .none⟩))
      let r ← runSel (List.replicate 3 (Ev.br (back 0x10040#32 false))) p
      let q ← drive (back 0x10040#32 false) r.2
      .ok (r.1, entry q.2, q.1)) with
    | .ok r => some (seen 0 r.1, r.2)
    | _ => .none) = some ([(false, true), (false, true), (false, true)], some 0, 0x10044#32) := by decide +kernel

end Ex

end Ama.Bp
