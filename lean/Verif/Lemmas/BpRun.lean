import Verif.Lemmas.BpOk
/-!
# A predictor over a whole run, and the predictors of the interface
-/
namespace Ama.Bp

/-- one branch seen by one predictor: told the answer (ideal only), asked, updated, counted while profiling -/
def drive (e : Br) (p : Pred) : Res (W × Pred) := do
  let r ← predict (e.pc + e.offset) e.pc (gotoFuture e.next p)
  let q ← evalUpdate (e.next != e.pc + 4#32) e.next r.2
  let q' ← (if q.2.base.stats.prof then updateStats e.pc e.next q.2 else .ok q.2)
  .ok (r.1, q')

/-- what the core does to the predictors -/
inductive Ev where
  | br (e : Br)
  | prof (on : Bool)

/-- a run seen by one predictor -/
def run : List Ev → Pred → Res Pred
  | [], p => .ok p
  | .br e :: t, p => do let r ← drive e p; run t r.2
  | .prof on :: t, p => run t (setProf on p)

/-- a run of the interface -/
def BpIf.run : List Ev → BpIf → Res BpIf
  | [], s => .ok s
  | .br e :: t, s => do let r ← s.branch e; BpIf.run t r.2
  | .prof on :: t, s => BpIf.run t (s.profiling on)

theorem run_append : ∀ (a b : List Ev) (p : Pred), run (a ++ b) p = (run a p >>= run b)
  | [], b, p => rfl
  | .br e :: t, b, p => by
    simp only [List.cons_append, run]
    cases drive e p with
    | ok r => simp only [Res.bind_ok]; exact run_append t b r.2
    | ub k => rfl
    | abort => rfl
  | .prof on :: t, b, p => by
    simp only [List.cons_append, run]
    exact run_append t b _

/-- which classes the object is built from -/
inductive Shape where
  | one (k : Kind)
  | comb (a b : Shape)
  deriving DecidableEq

def shape : Pred → Shape
  | .sttc _ _ => .one .sttc
  | .bimodal _ _ _ => .one .bimodal
  | .local _ _ _ _ _ _ _ => .one .local
  | .global _ _ _ _ _ => .one .global
  | .gselect _ _ _ _ _ _ _ _ => .one .gselect
  | .gshare _ _ _ _ _ _ _ _ => .one .gshare
  | .ideal _ => .one .ideal
  | .none _ => .one .none
  | .combined _ _ p0 p1 _ => .comb (shape p0) (shape p1)

def shapeD : Def → Shape
  | .one k _ => .one k
  | .comb _ a b => .comb (shapeD a) (shapeD b)

theorem make1_shape {low : Nat} {k : Kind} {c : PCfg} {p : Pred} (h : make1 low k c = .ok p) :
    shape p = .one k := by
  unfold make1 at h
  obtain ⟨b, hb, h⟩ := bind_eq_ok h
  cases k <;> simp only at h
  case sttc =>
    split at h
    · cases h
    · simp only [Res.ok.injEq] at h; subst h; rfl
  case bimodal =>
    obtain ⟨t, ht, h⟩ := bind_eq_ok h
    simp only [Res.ok.injEq] at h; subst h; rfl
  case «local» =>
    split at h
    · cases h
    · split at h
      · cases h
      · obtain ⟨t, ht, h⟩ := bind_eq_ok h
        simp only [Res.ok.injEq] at h; subst h; rfl
  case global =>
    obtain ⟨m, hm, h⟩ := bind_eq_ok h
    obtain ⟨t, ht, h⟩ := bind_eq_ok h
    simp only [Res.ok.injEq] at h; subst h; rfl
  case gselect =>
    obtain ⟨m, hm, h⟩ := bind_eq_ok h
    obtain ⟨gm, hgm, h⟩ := bind_eq_ok h
    obtain ⟨pm, hpm, h⟩ := bind_eq_ok h
    obtain ⟨t, ht, h⟩ := bind_eq_ok h
    simp only [Res.ok.injEq] at h; subst h; rfl
  case gshare =>
    obtain ⟨m, hm, h⟩ := bind_eq_ok h
    obtain ⟨gm, hgm, h⟩ := bind_eq_ok h
    obtain ⟨pm, hpm, h⟩ := bind_eq_ok h
    obtain ⟨t, ht, h⟩ := bind_eq_ok h
    simp only [Res.ok.injEq] at h; subst h; rfl
  case ideal => simp only [Res.ok.injEq] at h; subst h; rfl
  case none => simp only [Res.ok.injEq] at h; subst h; rfl

theorem make_shape {low : Nat} : ∀ {d : Def} {p : Pred}, make low d = .ok p → shape p = shapeD d
  | .one k c, p, h => make1_shape h
  | .comb c d0 d1, p, h => by
    unfold make at h
    obtain ⟨p0, h0, h⟩ := bind_eq_ok h
    obtain ⟨p1, h1, h⟩ := bind_eq_ok h
    obtain ⟨b, hb, h⟩ := bind_eq_ok h
    obtain ⟨t, ht, h⟩ := bind_eq_ok h
    simp only [Res.ok.injEq] at h
    subst h
    simp only [shape, shapeD, make_shape h0, make_shape h1]

/-- what `predict` leaves alone, and what it sets -/
structure Asked (target pc : W) (p p' : Pred) (v : W) : Prop where
  shape : shape p' = shape p
  stats : p'.base.stats = p.base.stats
  fwd : p'.base.fwd = some (decide (target > pc))
  pred : (Bp.shape p ≠ .one .none) → p'.base.predicted = some v
  nonePred : (Bp.shape p = .one .none) → p'.base.predicted = p.base.predicted

theorem asked (tg pc : W) : ∀ {p p' : Pred} {v : W}, predict tg pc p = .ok (v, p') → Asked tg pc p p' v
  | .sttc b m, p', v, h => by
    simp only [predict, Res.ok.injEq, Prod.mk.injEq] at h
    obtain ⟨h1, h2⟩ := h
    subst h1 h2
    exact ⟨rfl, rfl, rfl, fun _ => rfl, (fun h => by cases h)⟩
  | .bimodal b t l, p', v, h => by
    obtain ⟨i, hi, h⟩ := bind_eq_ok h
    obtain ⟨k, hk, h⟩ := bind_eq_ok h
    simp only [Res.ok.injEq, Prod.mk.injEq] at h
    obtain ⟨h1, h2⟩ := h
    subst h1 h2
    exact ⟨rfl, rfl, rfl, fun _ => rfl, (fun h => by cases h)⟩
  | .local b t pm e hs hm l, p', v, h => by
    obtain ⟨i, hi, h⟩ := bind_eq_ok h
    split at h
    · obtain ⟨k, hk, h⟩ := bind_eq_ok h
      simp only [Res.ok.injEq, Prod.mk.injEq] at h
      obtain ⟨h1, h2⟩ := h
      subst h1 h2
      exact ⟨rfl, rfl, rfl, fun _ => rfl, (fun h => by cases h)⟩
    · cases h
  | .global b t m g l, p', v, h => by
    obtain ⟨k, hk, h⟩ := bind_eq_ok h
    simp only [Res.ok.injEq, Prod.mk.injEq] at h
    obtain ⟨h1, h2⟩ := h
    subst h1 h2
    exact ⟨rfl, rfl, rfl, fun _ => rfl, (fun h => by cases h)⟩
  | .gselect b t gb im gm pm g l, p', v, h => by
    obtain ⟨i, hi, h⟩ := bind_eq_ok h
    obtain ⟨j, hj, h⟩ := bind_eq_ok h
    obtain ⟨k, hk, h⟩ := bind_eq_ok h
    simp only [Res.ok.injEq, Prod.mk.injEq] at h
    obtain ⟨h1, h2⟩ := h
    subst h1 h2
    exact ⟨rfl, rfl, rfl, fun _ => rfl, (fun h => by cases h)⟩
  | .gshare b t go im gm pm g l, p', v, h => by
    obtain ⟨i, hi, h⟩ := bind_eq_ok h
    obtain ⟨j, hj, h⟩ := bind_eq_ok h
    obtain ⟨k, hk, h⟩ := bind_eq_ok h
    simp only [Res.ok.injEq, Prod.mk.injEq] at h
    obtain ⟨h1, h2⟩ := h
    subst h1 h2
    exact ⟨rfl, rfl, rfl, fun _ => rfl, (fun h => by cases h)⟩
  | .ideal b, p', v, h => by
    cases hp : b.predicted with
    | none => simp [predict, hp] at h
    | some w =>
      simp only [predict, hp, Res.ok.injEq, Prod.mk.injEq] at h
      obtain ⟨h1, h2⟩ := h
      subst h1 h2
      exact ⟨rfl, rfl, rfl, fun _ => hp, (fun h => by cases h)⟩
  | .none b, p', v, h => by
    simp only [predict, Res.ok.injEq, Prod.mk.injEq] at h
    obtain ⟨h1, h2⟩ := h
    subst h1 h2
    exact ⟨rfl, rfl, rfl, (fun h => absurd rfl h), fun _ => rfl⟩
  | .combined b t p0 p1 l, p', v, h => by
    obtain ⟨⟨v0, q0⟩, h0, h⟩ := bind_eq_ok h
    obtain ⟨⟨v1, q1⟩, h1, h⟩ := bind_eq_ok h
    obtain ⟨i, hi, h⟩ := bind_eq_ok h
    obtain ⟨k, hk, h⟩ := bind_eq_ok h
    simp only [Res.ok.injEq, Prod.mk.injEq] at h
    obtain ⟨e1, e2⟩ := h
    subst e1 e2
    refine ⟨?_, rfl, rfl, fun _ => rfl, (fun h => by cases h)⟩
    simp only [Bp.shape, (asked tg pc h0).shape, (asked tg pc h1).shape]

theorem eval_shape (tk : Bool) (nx : W) : ∀ {p p' : Pred} {r : Bool}, evalUpdate tk nx p = .ok (r, p') →
    shape p' = shape p ∧ p'.base = p.base ∧
      (shape p ≠ .one .none → p.base.right nx = .ok r) ∧ (shape p = .one .none → r = false)
  | .sttc b m, p', r, h => by
    obtain ⟨x, hx, h⟩ := bind_eq_ok h
    simp only [Res.ok.injEq, Prod.mk.injEq] at h
    obtain ⟨h1, h2⟩ := h
    subst h1 h2
    exact ⟨rfl, rfl, fun _ => hx, (fun h => by cases h)⟩
  | .bimodal b t l, p', r, h => by
    cases l with
    | none => cases h
    | some i =>
      obtain ⟨t', ht, h⟩ := bind_eq_ok h
      obtain ⟨x, hx, h⟩ := bind_eq_ok h
      simp only [Res.ok.injEq, Prod.mk.injEq] at h
      obtain ⟨h1, h2⟩ := h
      subst h1 h2
      exact ⟨rfl, rfl, fun _ => hx, (fun h => by cases h)⟩
  | .local b t pm e hs hm l, p', r, h => by
    cases l with
    | none => cases h
    | some i =>
      simp only [evalUpdate] at h
      split at h
      · obtain ⟨t', ht, h⟩ := bind_eq_ok h
        obtain ⟨x, hx, h⟩ := bind_eq_ok h
        simp only [Res.ok.injEq, Prod.mk.injEq] at h
        obtain ⟨h1, h2⟩ := h
        subst h1 h2
        exact ⟨rfl, rfl, fun _ => hx, (fun h => by cases h)⟩
      · cases h
  | .global b t m g l, p', r, h => by
    cases l with
    | none => cases h
    | some i =>
      obtain ⟨t', ht, h⟩ := bind_eq_ok h
      obtain ⟨x, hx, h⟩ := bind_eq_ok h
      simp only [Res.ok.injEq, Prod.mk.injEq] at h
      obtain ⟨h1, h2⟩ := h
      subst h1 h2
      exact ⟨rfl, rfl, fun _ => hx, (fun h => by cases h)⟩
  | .gselect b t gb im gm pm g l, p', r, h => by
    cases l with
    | none => cases h
    | some i =>
      obtain ⟨t', ht, h⟩ := bind_eq_ok h
      obtain ⟨x, hx, h⟩ := bind_eq_ok h
      simp only [Res.ok.injEq, Prod.mk.injEq] at h
      obtain ⟨h1, h2⟩ := h
      subst h1 h2
      exact ⟨rfl, rfl, fun _ => hx, (fun h => by cases h)⟩
  | .gshare b t go im gm pm g l, p', r, h => by
    cases l with
    | none => cases h
    | some i =>
      obtain ⟨t', ht, h⟩ := bind_eq_ok h
      obtain ⟨x, hx, h⟩ := bind_eq_ok h
      simp only [Res.ok.injEq, Prod.mk.injEq] at h
      obtain ⟨h1, h2⟩ := h
      subst h1 h2
      exact ⟨rfl, rfl, fun _ => hx, (fun h => by cases h)⟩
  | .ideal b, p', r, h => by
    obtain ⟨x, hx, h⟩ := bind_eq_ok h
    simp only [Res.ok.injEq, Prod.mk.injEq] at h
    obtain ⟨h1, h2⟩ := h
    subst h1 h2
    exact ⟨rfl, rfl, fun _ => hx, (fun h => by cases h)⟩
  | .none b, p', r, h => by
    simp only [evalUpdate, Res.ok.injEq, Prod.mk.injEq] at h
    obtain ⟨h1, h2⟩ := h
    subst h1 h2
    exact ⟨rfl, rfl, fun h => absurd rfl h, fun _ => rfl⟩
  | .combined b t p0 p1 l, p', r, h => by
    obtain ⟨⟨v0, q0⟩, h0, h⟩ := bind_eq_ok h
    obtain ⟨⟨v1, q1⟩, h1, h⟩ := bind_eq_ok h
    cases l with
    | none => cases h
    | some i =>
      obtain ⟨t', ht, h⟩ := bind_eq_ok h
      obtain ⟨x, hx, h⟩ := bind_eq_ok h
      simp only [Res.ok.injEq, Prod.mk.injEq] at h
      obtain ⟨e1, e2⟩ := h
      subst e1 e2
      refine ⟨?_, rfl, fun _ => hx, (fun h => by cases h)⟩
      simp only [Bp.shape, (eval_shape tk nx h0).1, (eval_shape tk nx h1).1]

theorem shape_setBase (p : Pred) (b : Base) : shape (p.setBase b) = shape p := by cases p <;> rfl
theorem shape_setProf (p : Pred) (on : Bool) : shape (setProf on p) = shape p := shape_setBase _ _
theorem shape_goto (p : Pred) (x : W) : shape (gotoFuture x p) = shape p := by cases p <;> rfl

theorem goto_stats (p : Pred) (x : W) : (gotoFuture x p).base.stats = p.base.stats := by cases p <;> rfl
theorem goto_eq {p : Pred} {x : W} (h : shape p ≠ .one .ideal) : gotoFuture x p = p := by
  cases p <;> first | rfl | exact absurd rfl h
theorem goto_ok {p : Pred} {x : W} (h : PredOk p) : PredOk (gotoFuture x p) := by
  cases p <;> exact h

/-- no ideal predictor -/
def NoIdeal : Shape → Prop
  | .one k => k ≠ .ideal
  | .comb a b => NoIdeal a ∧ NoIdeal b
/-- no ideal predictor as a component -/
def Sound : Shape → Prop
  | .one _ => True
  | .comb a b => NoIdeal a ∧ NoIdeal b

theorem NoIdeal.live : ∀ {p : Pred}, NoIdeal (shape p) → Live p
  | .sttc _ _, _ => trivial
  | .bimodal _ _ _, _ => trivial
  | .local _ _ _ _ _ _ _, _ => trivial
  | .global _ _ _ _ _, _ => trivial
  | .gselect _ _ _ _ _ _ _ _, _ => trivial
  | .gshare _ _ _ _ _ _ _ _, _ => trivial
  | .ideal _, h => absurd rfl h
  | .none _, _ => trivial
  | .combined _ _ _ _ _, h => ⟨NoIdeal.live h.1, NoIdeal.live h.2⟩

theorem Sound.live {p : Pred} (x : W) (h : Sound (shape p)) : Live (gotoFuture x p) := by
  cases p <;> first | trivial | rfl | exact ⟨NoIdeal.live h.1, NoIdeal.live h.2⟩

theorem eval_prof (s : BStats) (pc : W) (c f : Bool) : (s.eval pc c f).prof = s.prof := by
  unfold BStats.eval
  split
  · rfl
  · simp only
    split <;> split <;> rfl

/-- one branch goes through, or an unset prediction is read -/
theorem drive_ok (e : Br) {p : Pred} (h : PredOk p) :
    (∃ v p', drive e p = .ok (v, p') ∧ PredOk p' ∧ shape p' = shape p ∧
        p'.base.stats.prof = p.base.stats.prof) ∨
      (drive e p = .ub .uninit ∧
        (¬ Sound (shape p) ∨ (shape p = .one .none ∧ p.base.stats.prof = true))) := by
  unfold drive
  rcases predict_ok (e.pc + e.offset) e.pc (goto_ok (x := e.next) h) with ⟨v, q, e1, o1, r1, l1⟩ | ⟨hl, e1⟩
  · rw [e1]
    simp only [Res.bind_ok]
    have ha := asked _ _ e1
    obtain ⟨c, q', e2, o2, b2, _⟩ := eval_ok (e.next != e.pc + 4#32) e.next o1 r1
    rw [e2]
    simp only [Res.bind_ok]
    have hs := eval_shape _ _ e2
    have hprof : q'.base.stats = p.base.stats := by rw [b2, ha.stats, goto_stats]
    have hshape : shape q' = shape p := by rw [hs.1, ha.shape, shape_goto]
    rw [hprof]
    by_cases hp : p.base.stats.prof = true
    · rw [if_pos hp]
      by_cases hn : shape p = .one .none
      · unfold updateStats Base.updateStats
        cases hq : q'.base.predicted with
        | none => right; exact ⟨by simp, .inr ⟨hn, hp⟩⟩
        | some w =>
          cases hf : q'.base.fwd with
          | none => right; exact ⟨by simp, .inr ⟨hn, hp⟩⟩
          | some d =>
            left
            simp only [Res.bind_ok]
            refine ⟨_, _, rfl, setBase_ok (base_ok o2) o2, by rw [shape_setBase, hshape], ?_⟩
            rw [base_setBase]
            exact (eval_prof _ _ _ _).trans (by rw [hprof])
      · left
        have hq : q'.base.predicted = some v := by
          rw [b2]; exact ha.pred (by rw [shape_goto]; exact hn)
        have hf : q'.base.fwd = some (decide (e.pc + e.offset > e.pc)) := by rw [b2]; exact ha.fwd
        unfold updateStats Base.updateStats
        rw [hq, hf]
        simp only [Res.bind_ok]
        refine ⟨_, _, rfl, setBase_ok (base_ok o2) o2, by rw [shape_setBase, hshape], ?_⟩
        rw [base_setBase]
        exact (eval_prof _ _ _ _).trans (by rw [hprof])
    · rw [if_neg hp]
      left
      exact ⟨_, _, rfl, o2, hshape, by rw [hprof]⟩
  · right
    rw [e1]
    exact ⟨rfl, .inl fun h => hl (Sound.live e.next h)⟩

/-! ## The interface runs each of its predictors by itself -/

theorem setProf_prof (on : Bool) (p : Pred) : (setProf on p).base.stats.prof = on := by
  unfold setProf; rw [base_setBase]

theorem drive_prof {e : Br} {p p' : Pred} {v : W} (h : drive e p = .ok (v, p')) :
    p'.base.stats.prof = p.base.stats.prof := by
  obtain ⟨⟨v1, q⟩, e1, h⟩ := bind_eq_ok h
  obtain ⟨⟨c, q'⟩, e2, h⟩ := bind_eq_ok h
  obtain ⟨q'', e3, h⟩ := bind_eq_ok h
  simp only [Res.ok.injEq, Prod.mk.injEq] at h
  obtain ⟨rfl, rfl⟩ := h
  have hp : q'.base.stats = p.base.stats := by
    rw [(eval_shape _ _ e2).2.1, (asked _ _ e1).stats, goto_stats]
  simp only at e3
  split at e3
  · unfold updateStats at e3
    obtain ⟨b, hb, e3⟩ := bind_eq_ok e3
    simp only [Res.ok.injEq] at e3
    subst e3
    unfold Base.updateStats at hb
    split at hb
    · simp only [Res.ok.injEq] at hb
      subst hb
      rw [base_setBase, ← hp]
      exact eval_prof _ _ _ _
    · cases hb
  · simp only [Res.ok.injEq] at e3
    rw [← e3, hp]

/-- two lists of the same length, related element by element -/
inductive All2 {α : Type} (R : α → α → Prop) : List α → List α → Prop
  | nil : All2 R [] []
  | cons {a b : α} {x y : List α} : R a b → All2 R x y → All2 R (a :: x) (b :: y)

theorem forAll_spec {f : Pred → Res Pred} : ∀ {l l' : List Pred}, forAll f l = .ok l' →
    All2 (fun p q => f p = .ok q) l l'
  | [], l', h => by simp only [forAll, Res.ok.injEq] at h; subst h; exact .nil
  | p :: t, l', h => by
    obtain ⟨q, hq, h⟩ := bind_eq_ok h
    obtain ⟨t', ht, h⟩ := bind_eq_ok h
    simp only [Res.ok.injEq] at h
    subst h
    exact .cons hq (forAll_spec ht)

theorem forall2_comp {α : Type} {R S T : α → α → Prop} (hRS : ∀ a b c, R a b → S b c → T a c) :
    ∀ {x y z : List α}, All2 R x y → All2 S y z → All2 T x z
  | [], [], z, .nil, h => by cases h; exact .nil
  | a :: x, b :: y, z, .cons h1 h2, h => by
    cases h with
    | cons h3 h4 => exact .cons (hRS _ _ _ h1 h3) (forall2_comp hRS h2 h4)

theorem forall2_map {α : Type} {R : α → α → Prop} (f : α → α) : ∀ {x z : List α},
    All2 R (x.map f) z → All2 (fun a => R (f a)) x z
  | [], z, h => by cases h; exact .nil
  | a :: x, z, h => by
    cases h with
    | cons h1 h2 => exact .cons h1 (forall2_map f h2)

theorem forall2_map' {α : Type} (f : α → α) : ∀ (x : List α), All2 (fun a b => b = f a) x (x.map f)
  | [] => .nil
  | _ :: x => .cons rfl (forall2_map' f x)

/-- the profiling switches agree -/
def Synced (s : BpIf) : Prop := s.active.base.stats.prof = s.prof ∧ ∀ p ∈ s.all, p.base.stats.prof = s.prof

theorem forall2_mem {α : Type} {R : α → α → Prop} {P Q : α → Prop} (hPQ : ∀ a b, P a → R a b → Q b) :
    ∀ {x y : List α}, All2 R x y → (∀ a ∈ x, P a) → ∀ b ∈ y, Q b
  | _, _, .nil, _, b, hb => by cases hb
  | a :: x, c :: y, .cons h1 h2, h, b, hb => by
    rcases List.mem_cons.1 hb with rfl | hb
    · exact hPQ a _ (h a (.head _)) h1
    · exact forall2_mem hPQ h2 (fun a ha => h a (.tail _ ha)) b hb

theorem forall2_imp {α : Type} {R S : α → α → Prop} {P : α → Prop} (hRS : ∀ a b, P a → R a b → S a b) :
    ∀ {x y : List α}, All2 R x y → (∀ a ∈ x, P a) → All2 S x y
  | _, _, .nil, _ => .nil
  | a :: _, _ :: _, .cons h1 h2, h =>
    .cons (hRS _ _ (h a (.head _)) h1) (forall2_imp hRS h2 (fun a ha => h a (.tail _ ha)))

theorem forall2_self {α : Type} {R : α → α → Prop} (h : ∀ a, R a a) : ∀ (x : List α), All2 R x x
  | [] => .nil
  | _ :: x => .cons (h _) (forall2_self h x)

theorem drive_of {e : Br} {p q q' : Pred} {pr : Bool} {v : W} {r : Bool} (hp : p.base.stats.prof = pr)
    (h1 : predict (e.pc + e.offset) e.pc (gotoFuture e.next p) = .ok (v, q))
    (h2 : evalUpdate (e.next != e.pc + 4#32) e.next q = .ok (r, q')) {q'' : Pred}
    (h3 : (if pr then updateStats e.pc e.next q' else .ok q') = .ok q'') :
    drive e p = .ok (v, q'') := by
  have hq : q'.base.stats.prof = pr := by
    rw [(eval_shape _ _ h2).2.1, (asked _ _ h1).stats, goto_stats, hp]
  unfold drive
  rw [h1]; simp only [Res.bind_ok]
  rw [h2]; simp only [Res.bind_ok]
  rw [hq, h3]; rfl

theorem branch_proj {s s' : BpIf} {e : Br} {v : W} (hs : Synced s) (h : s.branch e = .ok (v, s')) :
    drive e s.active = .ok (v, s'.active) ∧
    All2 (fun p q => ∃ w, drive e p = .ok (w, q)) s.all s'.all ∧ s'.prof = s.prof ∧ Synced s' := by
  have key : drive e s.active = .ok (v, s'.active) ∧
      All2 (fun p q => ∃ w, drive e p = .ok (w, q)) s.all s'.all ∧ s'.prof = s.prof := by
    unfold BpIf.branch at h
    obtain ⟨⟨v1, s1⟩, h1, h⟩ := bind_eq_ok h
    obtain ⟨s2, h2, h⟩ := bind_eq_ok h
    simp only [Res.ok.injEq, Prod.mk.injEq] at h
    obtain ⟨rfl, rfl⟩ := h
    unfold BpIf.predict at h1
    simp only at h1
    obtain ⟨all1, ha1, h1⟩ := bind_eq_ok h1
    obtain ⟨⟨w, a1⟩, hw, h1⟩ := bind_eq_ok h1
    simp only [Res.ok.injEq, Prod.mk.injEq] at h1
    obtain ⟨rfl, rfl⟩ := h1
    unfold BpIf.update at h2
    simp only at h2
    obtain ⟨⟨r, a2⟩, hr, h2⟩ := bind_eq_ok h2
    obtain ⟨all2, ha2, h2⟩ := bind_eq_ok h2
    have F1 := forall2_map _ (forAll_spec ha1)
    have F2 := forAll_spec ha2
    by_cases hp : s.prof = true
    · have hp' : (s.ideal e.next).prof = true := hp
      simp only [hp', Bool.not_true, Bool.false_eq_true, if_false] at h2
      obtain ⟨a3, hu, h2⟩ := bind_eq_ok h2
      obtain ⟨all3, hu3, h2⟩ := bind_eq_ok h2
      simp only [Res.ok.injEq] at h2
      subst h2
      refine ⟨drive_of (hs.1.trans hp) hw hr (by rw [if_pos rfl]; exact hu), ?_, hp.symm⟩
      have F3 := forAll_spec hu3
      have F12 := forall2_comp (T := fun p q => ∃ w m r, predict (e.pc + e.offset) e.pc (gotoFuture e.next p) = .ok (w, m) ∧
          evalUpdate (e.next != e.pc + 4#32) e.next m = .ok (r, q)) (by
        intro a b c hab hbc
        obtain ⟨⟨x, y⟩, hx, g1⟩ := bind_eq_ok hab
        simp only [Res.ok.injEq] at g1
        subst g1
        obtain ⟨⟨x', y'⟩, hx', g2⟩ := bind_eq_ok hbc
        simp only [Res.ok.injEq] at g2
        subst g2
        exact ⟨_, _, _, hx, hx'⟩) F1 F2
      have F123 := forall2_comp (T := fun p q => p.base.stats.prof = true → ∃ w, drive e p = .ok (w, q)) (by
        intro a b c hab hbc ha
        obtain ⟨w, m, r, g1, g2⟩ := hab
        exact ⟨w, drive_of ha g1 g2 (by rw [if_pos rfl]; exact hbc)⟩) F12 F3
      exact forall2_imp (P := fun p => p.base.stats.prof = true) (fun a b ha hr => hr ha) F123
        (fun a ha => (hs.2 a ha).trans hp)
    · have hp0 : s.prof = false := by simpa using hp
      have hp' : (s.ideal e.next).prof = false := hp0
      simp only [hp', Bool.not_false, if_true, Res.ok.injEq] at h2
      subst h2
      refine ⟨drive_of (hs.1.trans hp0) hw hr (by rw [if_neg (by simp)]), ?_, hp0.symm⟩
      have F12 := forall2_comp (T := fun p q => p.base.stats.prof = false → ∃ w, drive e p = .ok (w, q)) (by
        intro a b c hab hbc ha
        obtain ⟨⟨x, y⟩, hx, g1⟩ := bind_eq_ok hab
        simp only [Res.ok.injEq] at g1
        subst g1
        obtain ⟨⟨x', y'⟩, hx', g2⟩ := bind_eq_ok hbc
        simp only [Res.ok.injEq] at g2
        subst g2
        exact ⟨_, drive_of ha hx hx' (by rw [if_neg (by simp)])⟩) F1 F2
      exact forall2_imp (P := fun p => p.base.stats.prof = false) (fun a b ha hr => hr ha) F12
        (fun a ha => (hs.2 a ha).trans hp0)
  refine ⟨key.1, key.2.1, key.2.2, (drive_prof key.1).trans (hs.1.trans key.2.2.symm), ?_⟩
  intro q hq
  exact forall2_mem (P := fun p => p.base.stats.prof = s.prof) (Q := fun p => p.base.stats.prof = s'.prof)
    (fun a b ha ⟨w, hw⟩ => by rw [drive_prof hw, ha, key.2.2]) key.2.1 hs.2 q hq

theorem profiling_synced (s : BpIf) (on : Bool) : Synced (s.profiling on) := by
  refine ⟨setProf_prof _ _, ?_⟩
  intro p hp
  obtain ⟨q, _, rfl⟩ := List.mem_map.1 hp
  exact setProf_prof _ _

/-- a run of the interface is a run of each predictor -/
theorem run_proj : ∀ (evs : List Ev) {s s' : BpIf}, Synced s → s.run evs = .ok s' →
    run evs s.active = .ok s'.active ∧ All2 (fun p q => run evs p = .ok q) s.all s'.all
  | [], s, s', hs, h => by
    simp only [BpIf.run, Res.ok.injEq] at h
    subst h
    exact ⟨rfl, forall2_self (R := fun p q => run [] p = .ok q) (fun _ => rfl) _⟩
  | .br e :: t, s, s', hs, h => by
    obtain ⟨⟨v, s1⟩, h1, h⟩ := bind_eq_ok h
    obtain ⟨g1, g2, _, g4⟩ := branch_proj hs h1
    obtain ⟨k1, k2⟩ := run_proj t g4 h
    refine ⟨by simp only [run, g1, Res.bind_ok]; exact k1, ?_⟩
    exact forall2_comp (fun a b c ⟨w, hw⟩ hr => by simp only [run, hw, Res.bind_ok]; exact hr) g2 k2
  | .prof on :: t, s, s', hs, h => by
    obtain ⟨k1, k2⟩ := run_proj t (profiling_synced s on) h
    exact ⟨k1, forall2_map _ k2⟩

theorem make_synced {low : Nat} (hl : low ≤ 2) {arch : List Def} {csv ra : Bool} {d : Def} {s : BpIf}
    (h : BpIf.make low arch csv ra d = .ok s) :
    Synced s ∧ make low d = .ok s.active ∧ (∀ p ∈ s.all, ∃ a ∈ arch, make low a = .ok p) := by
  have hgo : ∀ {l : List Def} {r : List Pred}, BpIf.make.go low l = .ok r → ∀ p ∈ r, ∃ a ∈ l, make low a = .ok p := by
    intro l
    induction l with
    | nil =>
      intro r h p hp
      simp only [BpIf.make.go, Res.ok.injEq] at h
      subst h; cases hp
    | cons a t ih =>
      intro r h p hp
      unfold BpIf.make.go at h
      obtain ⟨q, hq, h⟩ := bind_eq_ok h
      obtain ⟨t', ht, h⟩ := bind_eq_ok h
      simp only [Res.ok.injEq] at h
      subst h
      rcases List.mem_cons.1 hp with rfl | hp
      · exact ⟨a, .head _, hq⟩
      · obtain ⟨b, hb, hm⟩ := ih ht p hp
        exact ⟨b, .tail _ hb, hm⟩
  unfold BpIf.make at h
  obtain ⟨a, ha, h⟩ := bind_eq_ok h
  obtain ⟨all, hall, h⟩ := bind_eq_ok h
  simp only [Res.ok.injEq] at h
  subst h
  have hmem : ∀ p ∈ all, ∃ a ∈ arch, make low a = .ok p := by
    split at hall
    · exact hgo hall
    · simp only [Res.ok.injEq] at hall
      subst hall
      intro p hp; cases hp
  refine ⟨⟨by simp only [(make_ok hl ha).2.1], ?_⟩, ha, hmem⟩
  intro p hp
  obtain ⟨b, _, hb⟩ := hmem p hp
  simp only [(make_ok hl hb).2.1]

end Ama.Bp
