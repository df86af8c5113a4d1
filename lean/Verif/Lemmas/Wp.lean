import Verif.Model.Core
/-!
# Reasoning about model programs

`Pres P m`: the program `m` preserves the state predicate `P` in every execution that
returns (`ub` and `abort` end the process, there is no later state).
`wp m Q s`: if `m` returns from `s`, then `Q` holds of the result and final state.
`Step m s s'`: some execution of `m` from `s` ends in `s'`.
-/
namespace Ama
open M
variable {σ α β : Type}

/-- `m` preserves `P` -/
def Pres (P : St σ → Prop) (m : M σ α) : Prop := ∀ s a s', P s → m s = .ok (a, s') → P s'

/-- partial correctness -/
def wp (m : M σ α) (Q : α → St σ → Prop) (s : St σ) : Prop := ∀ a s', m s = .ok (a, s') → Q a s'

theorem bind_eq_ok {m : M σ α} {f : α → M σ β} {s : St σ} {b : β} {s' : St σ} :
    (m >>= f) s = .ok (b, s') ↔ ∃ a s1, m s = .ok (a, s1) ∧ f a s1 = .ok (b, s') := by
  rw [bind_app]
  cases h : m s with
  | ok r =>
    obtain ⟨a, s1⟩ := r
    constructor
    · intro e; exact ⟨a, s1, rfl, e⟩
    · rintro ⟨a', s1', e1, e2⟩
      simp only [Res.ok.injEq, Prod.mk.injEq] at e1
      obtain ⟨rfl, rfl⟩ := e1
      exact e2
  | ub k => simp
  | abort => simp

theorem wp_bind (m : M σ α) (f : α → M σ β) (Q : β → St σ → Prop) (s : St σ) :
    wp (m >>= f) Q s ↔ wp m (fun a s1 => wp (f a) Q s1) s := by
  simp only [wp, bind_eq_ok]
  constructor
  · intro h a s1 h1 b s' h2; exact h b s' ⟨a, s1, h1, h2⟩
  · rintro h b s' ⟨a, s1, h1, h2⟩; exact h a s1 h1 b s' h2
@[simp] theorem wp_pure (a : α) (Q : α → St σ → Prop) (s : St σ) :
    wp (pure a : M σ α) Q s ↔ Q a s := by
  simp [wp]
@[simp] theorem wp_get (f : St σ → α) (Q : α → St σ → Prop) (s : St σ) :
    wp (M.get f) Q s ↔ Q (f s) s := by
  simp [wp]
@[simp] theorem wp_mod (f : St σ → St σ) (Q : Unit → St σ → Prop) (s : St σ) :
    wp (M.mod f) Q s ↔ Q () (f s) := by
  simp only [wp, mod_app, Res.ok.injEq, Prod.mk.injEq]
  exact ⟨fun h => h () _ ⟨trivial, rfl⟩, by rintro h a s' ⟨-, rfl⟩; exact h⟩
theorem wp_lift (r : Res α) (Q : α → St σ → Prop) (s : St σ) :
    wp (M.lift r) Q s ↔ ∀ a, r = .ok a → Q a s := by
  cases r <;> simp [wp]
theorem wp_mono {m : M σ α} {Q Q' : α → St σ → Prop} {s : St σ} (h : wp m Q s)
    (hq : ∀ a s, Q a s → Q' a s) : wp m Q' s := fun a s' e => hq _ _ (h a s' e)
theorem wp_and {m : M σ α} {Q Q' : α → St σ → Prop} {s : St σ} (h : wp m Q s) (h' : wp m Q' s) :
    wp m (fun a s => Q a s ∧ Q' a s) s := fun a s' e => ⟨h a s' e, h' a s' e⟩
theorem wp_ite (c : Prop) [Decidable c] (x y : M σ α) (Q : α → St σ → Prop) (s : St σ) :
    wp (if c then x else y) Q s ↔ if c then wp x Q s else wp y Q s := by
  split <;> rfl
theorem wp_ub (k : UB) (Q : α → St σ → Prop) (s : St σ) :
    wp (fun _ => (.ub k : Res (α × St σ))) Q s ↔ True := by simp [wp]
theorem wp_abort (Q : α → St σ → Prop) (s : St σ) :
    wp (fun _ => (.abort : Res (α × St σ))) Q s ↔ True := by simp [wp]

theorem Pres.iff_wp {P : St σ → Prop} {m : M σ α} :
    Pres P m ↔ ∀ s, P s → wp m (fun _ s' => P s') s :=
  ⟨fun h s hp a s' e => h s a s' hp e, fun h s a s' hp e => h s hp a s' e⟩

theorem Pres.bind {P : St σ → Prop} {m : M σ α} {f : α → M σ β} (h1 : Pres P m)
    (h2 : ∀ a, Pres P (f a)) : Pres P (m >>= f) := by
  intro s b s' hp e
  obtain ⟨a, s1, e1, e2⟩ := bind_eq_ok.1 e
  exact h2 a s1 b s' (h1 s a s1 hp e1) e2
theorem Pres.pure {P : St σ → Prop} (a : α) : Pres P (pure a : M σ α) := by
  intro s b s' hp e; simp at e; exact e.2 ▸ hp
theorem Pres.get {P : St σ → Prop} (f : St σ → α) : Pres P (M.get f) := by
  intro s b s' hp e; simp at e; exact e.2 ▸ hp
theorem Pres.mod {P : St σ → Prop} {f : St σ → St σ} (h : ∀ s, P s → P (f s)) :
    Pres P (M.mod f) := by
  intro s b s' hp e; simp at e; exact e ▸ h s hp
theorem Pres.lift {P : St σ → Prop} (r : Res α) : Pres P (M.lift r : M σ α) := by
  intro s b s' hp e; cases r <;> simp at e; exact e.2 ▸ hp
theorem Pres.ub {P : St σ → Prop} (k : UB) :
    Pres P (fun _ => (.ub k : Res (α × St σ)) : M σ α) := by
  intro s b s' hp e; simp at e
theorem Pres.abort {P : St σ → Prop} :
    Pres P (fun _ => (.abort : Res (α × St σ)) : M σ α) := by
  intro s b s' hp e; simp at e
theorem Pres.ite {P : St σ → Prop} {c : Prop} [Decidable c] {x y : M σ α} (hx : Pres P x)
    (hy : Pres P y) : Pres P (if c then x else y) := by split <;> assumption
theorem Pres.iteH {P : St σ → Prop} {c : Prop} [Decidable c] {x y : M σ α} (hx : c → Pres P x)
    (hy : ¬ c → Pres P y) : Pres P (if c then x else y) := by
  split
  · exact hx ‹_›
  · exact hy ‹_›
theorem Pres.and {P Q : St σ → Prop} {m : M σ α} (h1 : Pres P m) (h2 : Pres Q m) :
    Pres (fun s => P s ∧ Q s) m := fun s a s' hp e => ⟨h1 s a s' hp.1 e, h2 s a s' hp.2 e⟩
theorem Pres.all {ι : Type} {P : ι → St σ → Prop} {m : M σ α} (h : ∀ i, Pres (P i) m) :
    Pres (fun s => ∀ i, P i s) m := fun s a s' hp e i => h i s a s' (hp i) e

/-- preservation along the run loop -/
theorem Pres.runN {P : St σ → Prop} (E : Env σ) (h : Pres P (step E)) (n : Nat) :
    Pres P (runN E n) := by
  induction n with
  | zero => exact Pres.pure _
  | succ n ih =>
    refine Pres.bind (Pres.get _) fun r => ?_
    exact Pres.ite (Pres.bind h fun _ => ih) (Pres.pure _)

end Ama
