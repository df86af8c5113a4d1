import Verif.Lemmas.BpRun
/-!
# What one branch does to the counter tables
-/
namespace Ama.Bp

/-- tables of the direction predictors, left to right -/
def leafTables : Pred → List Pht
  | .bimodal _ t _ => [t]
  | .local _ t _ _ _ _ _ => [t]
  | .global _ t _ _ _ => [t]
  | .gselect _ t _ _ _ _ _ _ => [t]
  | .gshare _ t _ _ _ _ _ _ => [t]
  | .combined _ _ p0 p1 _ => leafTables p0 ++ leafTables p1
  | _ => []
/-- tables of the selectors of combined predictors -/
def selTables : Pred → List Pht
  | .combined _ t p0 p1 _ => t :: (selTables p0 ++ selTables p1)
  | _ => []

/-- same table except for the counter of one existing entry -/
structure One (t t' : Pht) (i : Nat) : Prop where
  lt : i < t.n
  n : t'.n = t.n
  max : t'.cntMax = t.cntMax
  thr : t'.thr = t.thr
  mask : t'.mask = t.mask
  rest : ∀ j, j ≠ i → t'.cnt j = t.cnt j

/-- one counter moved toward `tk`, saturating -/
def Toward (tk : Bool) (t t' : Pht) : Prop :=
  ∃ i, One t t' i ∧ t'.cnt i = if tk then min (t.cnt i + 1) t.cntMax else t.cnt i - 1
/-- one counter moved by at most one -/
def Near (t t' : Pht) : Prop :=
  ∃ i, One t t' i ∧ t'.cnt i ≤ t.cnt i + 1 ∧ t.cnt i ≤ t'.cnt i + 1

theorem update_toward {t t' : Pht} {tk : Bool} {i : W} (hc : t.cnt i.toNat ≤ t.cntMax)
    (h : t.update tk i = .ok t') :
    One t t' i.toNat ∧ t'.cnt i.toNat = if tk then min (t.cnt i.toNat + 1) t.cntMax else t.cnt i.toNat - 1 := by
  unfold Pht.update at h
  split at h
  · rename_i hi
    simp only [Res.ok.injEq] at h
    subst h
    cases tk
    · simp only [Bool.false_eq_true, if_false]
      unfold Pht.down
      split
      · exact ⟨⟨hi, rfl, rfl, rfl, rfl, fun j hj => if_neg hj⟩, if_pos rfl⟩
      · exact ⟨⟨hi, rfl, rfl, rfl, rfl, fun j hj => rfl⟩, by omega⟩
    · simp only [if_true]
      unfold Pht.up
      split
      · exact ⟨⟨hi, rfl, rfl, rfl, rfl, fun j hj => if_neg hj⟩, by simp only [if_true]; omega⟩
      · exact ⟨⟨hi, rfl, rfl, rfl, rfl, fun j hj => rfl⟩, by omega⟩
  · cases h

/-- the selector's rule: toward 0 when only 0 was right, toward 1 when only 1 was right, else unmoved -/
def selNext (r0 r1 : Bool) (c m : Nat) : Nat :=
  if r0 = r1 then c else if r0 then min (c + 1) m else c - 1

theorem update2_sel {t t' : Pht} {r0 r1 : Bool} {i : W} (hc : t.cnt i.toNat ≤ t.cntMax)
    (h : t.update2 r0 r1 i = .ok t') :
    One t t' i.toNat ∧ t'.cnt i.toNat = selNext r0 r1 (t.cnt i.toNat) t.cntMax := by
  unfold Pht.update2 at h
  split at h
  · rename_i hi
    simp only [Res.ok.injEq] at h
    subst h
    cases r0 <;> cases r1
    · exact ⟨⟨hi, rfl, rfl, rfl, rfl, fun j hj => rfl⟩, rfl⟩
    · show One t (t.down i.toNat) i.toNat ∧ (t.down i.toNat).cnt i.toNat = t.cnt i.toNat - 1
      unfold Pht.down
      split
      · exact ⟨⟨hi, rfl, rfl, rfl, rfl, fun j hj => if_neg hj⟩, if_pos rfl⟩
      · exact ⟨⟨hi, rfl, rfl, rfl, rfl, fun j hj => rfl⟩, by omega⟩
    · show One t (t.up i.toNat) i.toNat ∧ (t.up i.toNat).cnt i.toNat = min (t.cnt i.toNat + 1) t.cntMax
      unfold Pht.up
      split
      · exact ⟨⟨hi, rfl, rfl, rfl, rfl, fun j hj => if_neg hj⟩, by simp only [if_true]; omega⟩
      · exact ⟨⟨hi, rfl, rfl, rfl, rfl, fun j hj => rfl⟩, by omega⟩
    · exact ⟨⟨hi, rfl, rfl, rfl, rfl, fun j hj => rfl⟩, rfl⟩
  · cases h

theorem selNext_near {r0 r1 : Bool} {c m : Nat} (h : c ≤ m) : selNext r0 r1 c m ≤ c + 1 ∧ c ≤ selNext r0 r1 c m + 1 := by
  unfold selNext
  split
  · omega
  · split <;> omega

theorem all2_append {α : Type} {R : α → α → Prop} : ∀ {a a' b b' : List α}, All2 R a a' → All2 R b b' →
    All2 R (a ++ b) (a' ++ b')
  | _, _, _, _, .nil, h => h
  | _, _, _, _, .cons h1 h2, h => .cons h1 (all2_append h2 h)

/-- prediction leaves the tables alone -/
theorem predict_tables (tg pc : W) : ∀ {p p' : Pred} {v : W}, predict tg pc p = .ok (v, p') →
    leafTables p' = leafTables p ∧ selTables p' = selTables p
  | .sttc b m, p', v, h => by
    simp only [predict, Res.ok.injEq, Prod.mk.injEq] at h
    obtain ⟨_, h2⟩ := h
    subst h2
    exact ⟨rfl, rfl⟩
  | .bimodal b t l, p', v, h => by
    obtain ⟨i, hi, h⟩ := bind_eq_ok h
    obtain ⟨k, hk, h⟩ := bind_eq_ok h
    simp only [Res.ok.injEq, Prod.mk.injEq] at h
    obtain ⟨_, h2⟩ := h
    subst h2
    exact ⟨rfl, rfl⟩
  | .local b t pm e hs hm l, p', v, h => by
    obtain ⟨i, hi, h⟩ := bind_eq_ok h
    split at h
    · obtain ⟨k, hk, h⟩ := bind_eq_ok h
      simp only [Res.ok.injEq, Prod.mk.injEq] at h
      obtain ⟨_, h2⟩ := h
      subst h2
      exact ⟨rfl, rfl⟩
    · cases h
  | .global b t m g l, p', v, h => by
    obtain ⟨k, hk, h⟩ := bind_eq_ok h
    simp only [Res.ok.injEq, Prod.mk.injEq] at h
    obtain ⟨_, h2⟩ := h
    subst h2
    exact ⟨rfl, rfl⟩
  | .gselect b t gb im gm pm g l, p', v, h => by
    obtain ⟨i, hi, h⟩ := bind_eq_ok h
    obtain ⟨j, hj, h⟩ := bind_eq_ok h
    obtain ⟨k, hk, h⟩ := bind_eq_ok h
    simp only [Res.ok.injEq, Prod.mk.injEq] at h
    obtain ⟨_, h2⟩ := h
    subst h2
    exact ⟨rfl, rfl⟩
  | .gshare b t go im gm pm g l, p', v, h => by
    obtain ⟨i, hi, h⟩ := bind_eq_ok h
    obtain ⟨j, hj, h⟩ := bind_eq_ok h
    obtain ⟨k, hk, h⟩ := bind_eq_ok h
    simp only [Res.ok.injEq, Prod.mk.injEq] at h
    obtain ⟨_, h2⟩ := h
    subst h2
    exact ⟨rfl, rfl⟩
  | .ideal b, p', v, h => by
    cases hp : b.predicted with
    | none => simp [predict, hp] at h
    | some w =>
      simp only [predict, hp, Res.ok.injEq, Prod.mk.injEq] at h
      obtain ⟨_, h2⟩ := h
      subst h2
      exact ⟨rfl, rfl⟩
  | .none b, p', v, h => by
    simp only [predict, Res.ok.injEq, Prod.mk.injEq] at h
    obtain ⟨_, h2⟩ := h
    subst h2
    exact ⟨rfl, rfl⟩
  | .combined b t p0 p1 l, p', v, h => by
    obtain ⟨⟨v0, q0⟩, h0, h⟩ := bind_eq_ok h
    obtain ⟨⟨v1, q1⟩, h1, h⟩ := bind_eq_ok h
    obtain ⟨i, hi, h⟩ := bind_eq_ok h
    obtain ⟨k, hk, h⟩ := bind_eq_ok h
    simp only [Res.ok.injEq, Prod.mk.injEq] at h
    obtain ⟨_, e2⟩ := h
    subst e2
    have g0 := predict_tables tg pc h0
    have g1 := predict_tables tg pc h1
    simp only [leafTables, selTables, g0, g1, and_self]

/-- an update moves one counter of each table -/
theorem eval_tables (tk : Bool) (nx : W) : ∀ {p p' : Pred} {r : Bool}, PredOk p →
    evalUpdate tk nx p = .ok (r, p') →
    All2 (Toward tk) (leafTables p) (leafTables p') ∧ All2 Near (selTables p) (selTables p')
  | .sttc b m, p', r, ho, h => by
    obtain ⟨x, hx, h⟩ := bind_eq_ok h
    simp only [Res.ok.injEq, Prod.mk.injEq] at h
    obtain ⟨_, h2⟩ := h
    subst h2
    exact ⟨.nil, .nil⟩
  | .bimodal b t l, p', r, ho, h => by
    cases l with
    | none => cases h
    | some i =>
      obtain ⟨t', ht, h⟩ := bind_eq_ok h
      obtain ⟨x, hx, h⟩ := bind_eq_ok h
      simp only [Res.ok.injEq, Prod.mk.injEq] at h
      obtain ⟨_, h2⟩ := h
      subst h2
      obtain ⟨_, _, _, hk⟩ := ho
      exact ⟨.cons ⟨_, update_toward (hk.cnt _) ht⟩ .nil, .nil⟩
  | .local b t pm e hs hm l, p', r, ho, h => by
    cases l with
    | none => cases h
    | some i =>
      simp only [evalUpdate] at h
      split at h
      · obtain ⟨t', ht, h⟩ := bind_eq_ok h
        obtain ⟨x, hx, h⟩ := bind_eq_ok h
        simp only [Res.ok.injEq, Prod.mk.injEq] at h
        obtain ⟨_, h2⟩ := h
        subst h2
        obtain ⟨_, _, _, hk, _⟩ := ho
        exact ⟨.cons ⟨_, update_toward (hk.cnt _) ht⟩ .nil, .nil⟩
      · cases h
  | .global b t m g l, p', r, ho, h => by
    cases l with
    | none => cases h
    | some i =>
      obtain ⟨t', ht, h⟩ := bind_eq_ok h
      obtain ⟨x, hx, h⟩ := bind_eq_ok h
      simp only [Res.ok.injEq, Prod.mk.injEq] at h
      obtain ⟨_, h2⟩ := h
      subst h2
      obtain ⟨_, _, _, hk, _⟩ := ho
      exact ⟨.cons ⟨_, update_toward (hk.cnt _) ht⟩ .nil, .nil⟩
  | .gselect b t gb im gm pm g l, p', r, ho, h => by
    cases l with
    | none => cases h
    | some i =>
      obtain ⟨t', ht, h⟩ := bind_eq_ok h
      obtain ⟨x, hx, h⟩ := bind_eq_ok h
      simp only [Res.ok.injEq, Prod.mk.injEq] at h
      obtain ⟨_, h2⟩ := h
      subst h2
      obtain ⟨_, _, _, hk, _⟩ := ho
      exact ⟨.cons ⟨_, update_toward (hk.cnt _) ht⟩ .nil, .nil⟩
  | .gshare b t go im gm pm g l, p', r, ho, h => by
    cases l with
    | none => cases h
    | some i =>
      obtain ⟨t', ht, h⟩ := bind_eq_ok h
      obtain ⟨x, hx, h⟩ := bind_eq_ok h
      simp only [Res.ok.injEq, Prod.mk.injEq] at h
      obtain ⟨_, h2⟩ := h
      subst h2
      obtain ⟨_, _, _, hk, _⟩ := ho
      exact ⟨.cons ⟨_, update_toward (hk.cnt _) ht⟩ .nil, .nil⟩
  | .ideal b, p', r, ho, h => by
    obtain ⟨x, hx, h⟩ := bind_eq_ok h
    simp only [Res.ok.injEq, Prod.mk.injEq] at h
    obtain ⟨_, h2⟩ := h
    subst h2
    exact ⟨.nil, .nil⟩
  | .none b, p', r, ho, h => by
    simp only [evalUpdate, Res.ok.injEq, Prod.mk.injEq] at h
    obtain ⟨_, h2⟩ := h
    subst h2
    exact ⟨.nil, .nil⟩
  | .combined b t p0 p1 l, p', r, ho, h => by
    obtain ⟨⟨v0, q0⟩, h0, h⟩ := bind_eq_ok h
    obtain ⟨⟨v1, q1⟩, h1, h⟩ := bind_eq_ok h
    cases l with
    | none => cases h
    | some i =>
      obtain ⟨t', ht, h⟩ := bind_eq_ok h
      obtain ⟨x, hx, h⟩ := bind_eq_ok h
      simp only [Res.ok.injEq, Prod.mk.injEq] at h
      obtain ⟨_, e2⟩ := h
      subst e2
      obtain ⟨_, ⟨_, _, hk⟩, o0, o1⟩ := ho
      have g0 := eval_tables tk nx o0 h0
      have g1 := eval_tables tk nx o1 h1
      have gu := update2_sel (hk.cnt _) ht
      refine ⟨all2_append g0.1 g1.1, .cons ⟨_, gu.1, ?_⟩ (all2_append g0.2 g1.2)⟩
      rw [gu.2]
      exact selNext_near (hk.cnt _)

theorem tables_setBase (p : Pred) (b : Base) :
    leafTables (p.setBase b) = leafTables p ∧ selTables (p.setBase b) = selTables p := by
  cases p <;> exact ⟨rfl, rfl⟩
theorem tables_goto (p : Pred) (x : W) :
    leafTables (gotoFuture x p) = leafTables p ∧ selTables (gotoFuture x p) = selTables p := by
  cases p <;> exact ⟨rfl, rfl⟩

theorem drive_parts {e : Br} {p p' : Pred} {v : W} (h : drive e p = .ok (v, p')) :
    ∃ q r q', predict (e.pc + e.offset) e.pc (gotoFuture e.next p) = .ok (v, q) ∧
      evalUpdate (e.next != e.pc + 4#32) e.next q = .ok (r, q') ∧
      (if q'.base.stats.prof then updateStats e.pc e.next q' else .ok q') = .ok p' ∧
      ∃ b, p' = q'.setBase b := by
  obtain ⟨⟨v1, q⟩, e1, h⟩ := bind_eq_ok h
  obtain ⟨⟨c, q'⟩, e2, h⟩ := bind_eq_ok h
  obtain ⟨q'', e3, h⟩ := bind_eq_ok h
  simp only [Res.ok.injEq, Prod.mk.injEq] at h
  obtain ⟨rfl, rfl⟩ := h
  refine ⟨q, c, q', e1, e2, e3, ?_⟩
  simp only at e3
  split at e3
  · unfold updateStats at e3
    obtain ⟨b, _, e3⟩ := bind_eq_ok e3
    simp only [Res.ok.injEq] at e3
    exact ⟨b, e3.symm⟩
  · simp only [Res.ok.injEq] at e3
    refine ⟨q'.base, ?_⟩
    rw [← e3]
    cases q' <;> rfl

theorem drive_tables {e : Br} {p p' : Pred} {v : W} (ho : PredOk p) (h : drive e p = .ok (v, p')) :
    All2 (Toward (e.next != e.pc + 4#32)) (leafTables p) (leafTables p') ∧
      All2 Near (selTables p) (selTables p') := by
  obtain ⟨q, r, q', h1, h2, _, b, rfl⟩ := drive_parts h
  have g1 := predict_tables _ _ h1
  have oq : PredOk q := by
    rcases predict_ok (e.pc + e.offset) e.pc (goto_ok (x := e.next) ho) with ⟨_, _, e1, o1, _⟩ | ⟨_, e1⟩
    · rw [h1] at e1
      simp only [Res.ok.injEq, Prod.mk.injEq] at e1
      rw [e1.2]; exact o1
    · rw [h1] at e1; cases e1
  have g2 := eval_tables _ _ oq h2
  rw [(tables_setBase _ _).1, (tables_setBase _ _).2]
  rw [g1.1, (tables_goto _ _).1, g1.2, (tables_goto _ _).2] at g2
  exact g2

/-- tables of a well-formed predictor -/
theorem ok_tables : ∀ {p : Pred}, PredOk p → ∀ t ∈ leafTables p ++ selTables p, ∃ n c, PhtOk t n c
  | .sttc _ _, _, t, ht => by cases ht
  | .bimodal _ _ _, h, t, ht => by
    obtain rfl := List.mem_singleton.1 ht; exact h.2
  | .local _ _ _ _ _ _ _, ⟨_, n, c, h, _⟩, t, ht => by
    obtain rfl := List.mem_singleton.1 ht; exact ⟨n, c, h⟩
  | .global _ _ _ _ _, ⟨_, n, c, h, _⟩, t, ht => by
    obtain rfl := List.mem_singleton.1 ht; exact ⟨n, c, h⟩
  | .gselect _ _ _ _ _ _ _ _, ⟨_, n, c, h, _⟩, t, ht => by
    obtain rfl := List.mem_singleton.1 ht; exact ⟨n, c, h⟩
  | .gshare _ _ _ _ _ _ _ _, ⟨_, n, c, h, _⟩, t, ht => by
    obtain rfl := List.mem_singleton.1 ht; exact ⟨n, c, h⟩
  | .ideal _, _, t, ht => by cases ht
  | .none _, _, t, ht => by cases ht
  | .combined _ t0 p0 p1 _, ⟨_, h, h0, h1⟩, t, ht => by
    simp only [leafTables, selTables, List.mem_append, List.mem_cons] at ht
    have g0 := ok_tables h0 t
    have g1 := ok_tables h1 t
    simp only [List.mem_append] at g0 g1
    rcases ht with (ht | ht) | rfl | ht | ht
    · exact g0 (.inl ht)
    · exact g1 (.inl ht)
    · exact h
    · exact g0 (.inr ht)
    · exact g1 (.inr ht)

/-- run-wide invariant -/
theorem run_ok : ∀ (evs : List Ev) {p : Pred}, PredOk p →
    (∃ p', run evs p = .ok p' ∧ PredOk p' ∧ shape p' = shape p) ∨
      (run evs p = .ub .uninit ∧ (¬ Sound (shape p) ∨ shape p = .one .none))
  | [], p, h => .inl ⟨p, rfl, h, rfl⟩
  | .br e :: t, p, h => by
    rcases drive_ok e h with ⟨v, q, e1, o1, s1, _⟩ | ⟨e1, hc⟩
    · simp only [run, e1, Res.bind_ok]
      rw [← s1]
      exact run_ok t o1
    · right
      simp only [run, e1, Res.bind_ub]
      exact ⟨trivial, hc.imp id And.left⟩
  | .prof on :: t, p, h => by
    simp only [run]
    rw [← shape_setProf p on]
    exact run_ok t (setBase_ok (base_ok h) h)

end Ama.Bp
