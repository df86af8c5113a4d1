import Verif.Lemmas.HwTotal
import Verif.Lemmas.HwFine
import Verif.Props.BpPredict
/-!
# The predictors propose even addresses for branches between even addresses
-/
namespace Ama.Bp
/-- no ideal predictor in it has been told an outcome -/
def Unset : Pred → Prop
  | .ideal b => b.predicted = .none
  | .combined _ _ p0 p1 _ => Unset p0 ∧ Unset p1
  | _ => True

theorem unset_predict (tg pc : W) : ∀ {p p' : Pred} {v : W}, Unset p → predict tg pc p = .ok (v, p') →
    (tg.toNat % 2 = 0 → pc.toNat % 2 = 0 → v.toNat % 2 = 0) ∧ Unset p' := by
  have h4 : pc.toNat % 2 = 0 → (pc + 4#32).toNat % 2 = 0 := fun h => by rw [BitVec.toNat_add]; simp; omega
  have hc : ∀ (b : Base) tk, tg.toNat % 2 = 0 → pc.toNat % 2 = 0 → (b.common tg pc tk).1.toNat % 2 = 0 := by
    intro b tk h1 h2
    unfold Base.common
    cases tk
    · exact h4 h2
    · exact h1
  intro p
  induction p with
  | sttc b m =>
    intro p' v _ h
    unfold predict at h
    injection h with h; injection h with h1 h2
    subst h1 h2
    refine ⟨fun a b => ?_, trivial⟩
    cases m
    case btfn =>
      simp only
      split
      · exact h4 b
      · exact a
    case «at» => exact a
    case ant => exact h4 b
  | ideal b =>
    intro p' v hu h
    unfold predict at h
    rw [show b.predicted = .none from hu] at h
    cases h
  | none b =>
    intro p' v _ h
    unfold predict at h
    injection h with h; injection h with h1 h2
    subst h1 h2
    exact ⟨fun _ _ => rfl, trivial⟩
  | combined b t p0 p1 l ih0 ih1 =>
    intro p' v hu h
    unfold predict at h
    simp only [HwReal.bind_ok_iff] at h
    obtain ⟨⟨v0, q0⟩, e0, ⟨v1, q1⟩, e1, i, _, s0, _, h⟩ := h
    injection h with h; injection h with h1 h2
    subst h1 h2
    obtain ⟨a0, b0⟩ := ih0 hu.1 e0
    obtain ⟨a1, b1⟩ := ih1 hu.2 e1
    refine ⟨fun x y => ?_, b0, b1⟩
    cases s0
    · exact a1 x y
    · exact a0 x y
  | «local» b t pm e hh hm l =>
    intro p' v _ h
    unfold predict at h
    simp only [HwReal.bind_ok_iff] at h
    obtain ⟨i, _, h⟩ := h
    split at h
    · simp only [HwReal.bind_ok_iff] at h
      obtain ⟨tk, _, h⟩ := h
      injection h with h; injection h with h1 h2
      subst h1 h2
      exact ⟨hc _ _, trivial⟩
    · cases h
  | bimodal b t l =>
    intro p' v _ h
    unfold predict at h
    simp only [HwReal.bind_ok_iff] at h
    obtain ⟨i, _, tk, _, h⟩ := h
    injection h with h; injection h with h1 h2
    subst h1 h2
    exact ⟨hc _ _, trivial⟩
  | global b t m g l =>
    intro p' v _ h
    unfold predict at h
    simp only [HwReal.bind_ok_iff] at h
    obtain ⟨tk, _, h⟩ := h
    injection h with h; injection h with h1 h2
    subst h1 h2
    exact ⟨hc _ _, trivial⟩
  | gselect b t gb im gm pm g l =>
    intro p' v _ h
    unfold predict at h
    simp only [HwReal.bind_ok_iff] at h
    obtain ⟨pp, _, i, _, tk, _, h⟩ := h
    injection h with h; injection h with h1 h2
    subst h1 h2
    exact ⟨hc _ _, trivial⟩
  | gshare b t go im gm pm g l =>
    intro p' v _ h
    unfold predict at h
    simp only [HwReal.bind_ok_iff] at h
    obtain ⟨pp, _, i, _, tk, _, h⟩ := h
    injection h with h; injection h with h1 h2
    subst h1 h2
    exact ⟨hc _ _, trivial⟩

theorem unset_eval (tk : Bool) (nx : W) : ∀ {p p' : Pred} {r : Bool}, Unset p → evalUpdate tk nx p = .ok (r, p') → Unset p' := by
  intro p
  induction p with
  | combined b t p0 p1 l ih0 ih1 =>
    intro p' r hu h
    unfold evalUpdate at h
    simp only [HwReal.bind_ok_iff] at h
    obtain ⟨⟨r0, q0⟩, e0, ⟨r1, q1⟩, e1, h⟩ := h
    cases l with
    | none => cases h
    | some i =>
      simp only [HwReal.bind_ok_iff] at h
      obtain ⟨t', _, r', _, h⟩ := h
      injection h with h; injection h with h1 h2
      subst h2
      exact ⟨ih0 hu.1 e0, ih1 hu.2 e1⟩
  | ideal b =>
    intro p' r hu h
    unfold evalUpdate at h
    simp only [HwReal.bind_ok_iff] at h
    obtain ⟨r', _, h⟩ := h
    injection h with h; injection h with h1 h2
    subst h2
    exact hu
  | _ =>
    intro p' r _ h
    have := (eval_shape tk nx h).1
    cases p' <;> first | trivial | (simp only [shape] at this; cases this)
theorem unset_base {p : Pred} {b : Base} (hb : b.predicted = p.base.predicted) (h : Unset p) : Unset (p.setBase b) := by
  cases p with
  | ideal c => exact hb.trans h
  | combined => exact h
  | _ => trivial
theorem unset_stats {pc nx : W} {p p' : Pred} (h : Unset p) (e : updateStats pc nx p = .ok p') : Unset p' := by
  unfold updateStats at e
  simp only [HwReal.bind_ok_iff] at e
  obtain ⟨b, e1, e⟩ := e
  injection e with e
  subst e
  refine unset_base ?_ h
  unfold Base.updateStats at e1
  split at e1
  · injection e1 with e1
    rw [← e1]
  · cases e1
theorem unset_make {low : Nat} : ∀ {d : Def} {p : Pred}, make low d = .ok p → Unset p
  | .one k c, p, h => by
    have hs := make1_shape h
    cases k
    case ideal =>
      unfold make make1 at h
      simp only [HwReal.bind_ok_iff] at h
      obtain ⟨b, hb, h⟩ := h
      injection h with h
      subst h
      unfold Base.make at hb
      split at hb
      · injection hb with hb; rw [← hb]; rfl
      · split at hb
        · cases hb
        · injection hb with hb; rw [← hb]; rfl
    all_goals (cases p <;> first | trivial | (simp only [shape] at hs; cases hs))
  | .comb c d0 d1, p, h => by
    unfold make at h
    simp only [HwReal.bind_ok_iff] at h
    obtain ⟨p0, e0, p1, e1, b, _, t, _, h⟩ := h
    injection h with h
    subst h
    exact ⟨unset_make e0, unset_make e1⟩

open Ama.Spec (HwCall)
/-- the active predictor is the ideal one, or contains no ideal one that could answer -/
def Tame (b : BpIf) : Prop := shape b.active = .one .ideal ∨ Unset b.active

theorem shape_predict {tg pc : W} {p p' : Pred} {v : W} (h : predict tg pc p = .ok (v, p')) (hs : shape p = .one .ideal) :
    shape p' = .one .ideal := by
  cases p with
  | ideal b =>
    unfold predict at h
    split at h
    · injection h with h; injection h with _ h
      rw [← h]; rfl
    · cases h
  | _ => cases hs

theorem tame_call {x : HwCall} {b b' : BpIf} (h : Tame b) (e : HwReal.bpCall x b = .ok b') : Tame b' := by
  cases x with
  | ideal n =>
    injection e with e
    subst e
    rcases h with h | h
    · exact .inl ((shape_goto _ _).trans h)
    · by_cases hi : shape b.active = .one .ideal
      · exact .inl ((shape_goto _ _).trans hi)
      · refine .inr ?_
        show Unset (gotoFuture n b.active)
        rw [goto_eq hi]
        exact h
  | predict pc imm f3 =>
    unfold HwReal.bpCall BpIf.predict at e
    simp only [HwReal.bind_ok_iff] at e
    obtain ⟨r, ⟨_, _, ⟨v, q⟩, e1, e2⟩, e⟩ := e
    injection e with e
    injection e2 with e2
    subst e2
    subst e
    rcases h with h | h
    · exact .inl (shape_predict e1 h)
    · exact .inr (unset_predict _ _ h e1).2
  | update pc n =>
    unfold HwReal.bpCall BpIf.update at e
    simp only [HwReal.bind_ok_iff] at e
    obtain ⟨⟨r, q⟩, e1, _, _, e⟩ := e
    have ht : shape q = .one .ideal ∨ Unset q := by
      rcases h with h | h
      · exact .inl ((eval_shape _ _ e1).1.trans h)
      · exact .inr (unset_eval _ _ h e1)
    split at e
    · injection e with e
      subst e
      exact ht
    · simp only [HwReal.bind_ok_iff] at e
      obtain ⟨a, e2, _, _, e⟩ := e
      injection e with e
      subst e
      rcases ht with ht | ht
      · refine .inl ?_
        unfold updateStats at e2
        simp only [HwReal.bind_ok_iff] at e2
        obtain ⟨c, _, e2⟩ := e2
        injection e2 with e2
        show shape a = _
        rw [← e2, shape_setBase]
        exact ht
      · exact .inr (unset_stats ht e2)
  | prof on =>
    injection e with e
    subst e
    rcases h with h | h
    · exact .inl ((shape_setProf _ _).trans h)
    · exact .inr (unset_base rfl h)
  | _ =>
    injection e with e
    subst e
    exact h
theorem tame_run : ∀ (c : List HwCall) {b b' : BpIf}, Tame b → HwReal.runWith HwReal.bpCall c b = .ok b' → Tame b'
  | [], _, _, h, e => by injection e with e; exact e ▸ h
  | x :: c, _, _, h, e => by
    unfold HwReal.runWith at e
    simp only [HwReal.bind_ok_iff] at e
    obtain ⟨b1, e1, e⟩ := e
    exact tame_run c (tame_call h e1) e
/-- told the outcome, a predictor answers with an even address -/
theorem tame_even {b b' : BpIf} {pc imm n v : W} {f3 : BitVec 3} (h : Tame b) (hp : pc.toNat % 2 = 0) (hi : imm.toNat % 2 = 0)
    (hn : n.toNat % 2 = 0) (e : (b.ideal n).predict pc imm f3 = .ok (v, b')) : v.toNat % 2 = 0 := by
  unfold BpIf.predict at e
  simp only [HwReal.bind_ok_iff] at e
  obtain ⟨_, _, ⟨w, q⟩, e1, e⟩ := e
  injection e with e; injection e with e _
  subst e
  have ht : (pc + imm).toNat % 2 = 0 := by rw [BitVec.toNat_add]; omega
  by_cases hs : shape b.active = .one .ideal
  · show w.toNat % 2 = 0
    cases ha : b.active with
    | ideal c =>
      simp only [BpIf.ideal, ha, gotoFuture, predict] at e1
      injection e1 with e1; injection e1 with e1 _
      rw [← e1]; exact hn
    | _ => rw [ha] at hs; cases hs
  · have hu := h.resolve_left hs
    simp only [BpIf.ideal] at e1
    rw [goto_eq hs] at e1
    exact (unset_predict _ _ hu e1).1 ht hp
end Ama.Bp

namespace Ama.HwReal
open Ama.Spec Ama.HwCalls

theorem real_predict_even {m0 : Models} (hb : Bp.Tame m0.bp) (c : List HwCall) (pc imm : W) (f3 : BitVec 3) (n : W)
    (hp : pc.toNat % 2 = 0) (hi : imm.toNat % 2 = 0) (hn : n.toNat % 2 = 0) :
    (real.bpPredict pc imm f3 (real.bpIdeal n (replay real c (.ok m0)))).1.toNat % 2 = 0 := by
  rcases hr : replay real c (.ok m0) with m | _ | _
  · obtain ⟨_, h2, _⟩ := replay_real.1 hr
    have ht := Bp.tame_run c hb h2
    show (match Models.bpPredict pc imm f3 { m with bp := m.bp.ideal n } with
      | .ok (v, m) => (v, Res.ok m)
      | .ub u => (0#32, .ub u)
      | .abort => (0#32, .abort)).1.toNat % 2 = 0
    rcases hq : Models.bpPredict pc imm f3 { m with bp := m.bp.ideal n } with ⟨v, m'⟩ | _ | _
    · unfold Models.bpPredict at hq
      simp only [bind_ok_iff] at hq
      obtain ⟨⟨w, q⟩, e, hq⟩ := hq
      injection hq with hq; injection hq with hq _
      subst hq
      exact Bp.tame_even ht hp hi hn e
    · rfl
    · rfl
  · rfl
  · rfl

theorem make_tame {low : Nat} {arch : List Bp.Def} {csv ra : Bool} {d : Bp.Def} {b : Bp.BpIf}
    (h : Bp.BpIf.make low arch csv ra d = .ok b) : Bp.Tame b := by
  unfold Bp.BpIf.make at h
  simp only [bind_ok_iff] at h
  obtain ⟨a, e1, _, _, h⟩ := h
  injection h with h
  subst h
  exact .inr (Bp.unset_make e1)
end Ama.HwReal
