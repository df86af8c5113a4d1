import Verif.Lemmas.CsrTable
import Verif.Lemmas.Dev
/-!
# Device sizes never change
-/
namespace Ama
open M
variable {σ : Type}

theorem bindRes_ok {α β : Type} {x : Res α} {f : α → Res β} {b : β} (h : (x >>= f) = .ok b) :
    ∃ a, x = .ok a ∧ f a = .ok b := by
  cases x with
  | ok a => exact ⟨a, rfl, h⟩
  | ub k => cases h
  | abort => cases h

theorem Dev.set_size {d d' : Dev} {a : W} {v : BitVec 8} (h : d.set a v = .ok d') : d'.size = d.size := by
  unfold Dev.set at h
  split at h
  · simp at h; rw [← h]
  · simp at h
theorem Dev.wr8_size {d d' : Dev} {a v : W} (h : d.wr8 a v = .ok d') : d'.size = d.size := Dev.set_size h
theorem Dev.wr16_size {d d' : Dev} {a v : W} (h : d.wr16 a v = .ok d') : d'.size = d.size := by
  obtain ⟨d1, h1, h⟩ := bindRes_ok h
  rw [Dev.set_size h, Dev.set_size h1]
theorem Dev.wr32_size {d d' : Dev} {a v : W} (h : d.wr32 a v = .ok d') : d'.size = d.size := by
  obtain ⟨d1, h1, h⟩ := bindRes_ok h
  obtain ⟨d2, h2, h⟩ := bindRes_ok h
  obtain ⟨d3, h3, h⟩ := bindRes_ok h
  rw [Dev.set_size h, Dev.set_size h3, Dev.set_size h2, Dev.set_size h1]
theorem Dev.wr64_size {d d' : Dev} {a : W} {v : BitVec 64} (h : d.wr64 a v = .ok d') : d'.size = d.size := by
  obtain ⟨d1, h1, h⟩ := bindRes_ok h
  obtain ⟨d2, h2, h⟩ := bindRes_ok h
  obtain ⟨d3, h3, h⟩ := bindRes_ok h
  obtain ⟨d4, h4, h⟩ := bindRes_ok h
  rw [Dev.set_size h, Dev.set_size h4, Dev.set_size h3, Dev.set_size h2, Dev.wr32_size h1]
theorem Dev.wr_size {d d' : Dev} {a v : W} {n : Nat} (h : d.wr a v n = .ok d') : d'.size = d.size := by
  unfold Dev.wr at h
  split at h
  · exact Dev.wr8_size h
  · exact Dev.wr16_size h
  · exact Dev.wr32_size h
  · simp at h

/-- the sizes given by the constructors (types.h:30-45) -/
def Sized (s : St σ) : Prop :=
  s.ram.size = memSize ∧ s.uart.dev.size = 12 ∧ s.clint.dev.size = 32

theorem sized_prims (E : Env σ) : Prims E (Sized : St σ → Prop) := by
  have meip : Pres (Sized : St σ → Prop) refreshMeip := refreshMeip_of fun _ _ h => h
  have mem : ∀ a v n, Pres (Sized : St σ → Prop) (mmWr E a v n) := by
    intro a v n
    refine Pres.bind (Pres.ite (Pres.pure _) Pres.abort) fun _ => ?_
    rw [Pres.iff_wp]
    intro s hs
    simp only [wp_bind, wp_get, wp_lift, wp_mod]
    intro d hd
    have : Sized ({ s with ram := d } : St σ) := ⟨(Dev.wr_size hd).trans hs.1, hs.2⟩
    have hp : Pres (Sized : St σ → Prop) (hwUpd E (E.hw.dcWr a v n)) :=
      Pres.ite (Pres.mod fun _ h => h) (Pres.pure _)
    exact Pres.iff_wp.1 hp _ this
  have uwr : ∀ a v n, Pres (Sized : St σ → Prop) (uartWr a v n) := by
    intro a v n
    refine Pres.ite ?_ (Pres.pure _)
    rw [Pres.iff_wp]
    intro s hs
    simp only [wp_bind, wp_get, wp_lift, wp_mod]
    intro d hd
    exact ⟨hs.1, (Dev.wr_size hd).trans hs.2.1, hs.2.2⟩
  have urd : ∀ a n, Pres (Sized : St σ → Prop) (uartRd E a n) := by
    intro a n
    refine Pres.ite (Pres.ite (Pres.bind (Pres.get _) fun _ => Pres.lift _) (Pres.ite ?_ (Pres.pure _)))
      (Pres.bind (Pres.get _) fun _ => Pres.lift _)
    rw [Pres.iff_wp]
    intro s hs
    simp only [wp_bind, wp_get, wp_lift, wp_mod]
    intro st _ d hd
    have hs2 : Sized ({ s with uart := { s.uart with dev := d } } : St σ) :=
      ⟨hs.1, (Dev.set_size hd).trans hs.2.1, hs.2.2⟩
    refine wp_mono (Pres.iff_wp.1 meip _ hs2) fun _ s3 hs3 => ?_
    intro b _
    exact hs3
  have udl : ∀ b, Pres (Sized : St σ → Prop) (uartDeliver b) := by
    intro b
    rw [Pres.iff_wp]
    intro s hs
    simp only [uartDeliver, wp_bind, wp_get, wp_lift, wp_mod]
    intro d1 h1 st _ d2 h2
    exact ⟨hs.1, ((Dev.set_size h2).trans (Dev.set_size h1)).trans hs.2.1, hs.2.2⟩
  have unx : Pres (Sized : St σ → Prop) (nextByte E) := by
    refine Pres.bind (Pres.get _) fun u => ?_
    split
    · exact Pres.bind (Pres.mod fun _ h => h) fun _ => Pres.pure _
    · split
      · exact Pres.bind (Pres.mod fun _ h => h) fun _ => Pres.pure _
      · exact Pres.pure _
  have uin : ∀ t, Pres (Sized : St σ → Prop) (uartUpdateInput E t) := by
    intro t
    refine Pres.bind (Pres.get _) fun _ => Pres.bind (Pres.ite (Pres.bind
      (Pres.mod fun _ h => ⟨h.1, h.2.1, h.2.2⟩) fun _ => Pres.bind (Pres.lift _) fun _ => Pres.ite (Pres.bind unx fun b => ?_) (Pres.pure _)) (Pres.pure _))
      fun _ => meip
    split
    · exact udl _
    · exact Pres.pure _
  have mt : Pres (Sized : St σ → Prop) (updateMtime 1#64) := by
    rw [Pres.iff_wp]
    intro s hs
    simp only [updateMtime, wp_bind, wp_get, wp_lift, wp_mod]
    intro v _ d hd t _ c _
    have h1 := Dev.wr64_size hd
    refine ⟨hs.1, hs.2.1, ?_⟩
    show d.size = 32
    rw [h1]; exact hs.2.2
  exact
  { wrCsr := fun _ e v _ => wrCsr_of
      (fun _ _ => Pres.bind (Pres.mod fun _ h => h) fun _ => Pres.mod fun _ h => h) (fun _ _ _ h => h) e v
    ramWr := fun a v n _ => mem a v n
    uartWr := uwr
    uartRd := urd
    uartIn := fun t s a s' _ h e => uin t s a s' h e
    mtime := mt
    clintWr := by
      intro a v n
      rw [Pres.iff_wp]
      intro s hs
      simp only [devWr, wp_bind, wp_get, wp_lift, wp_mod]
      intro d hd
      exact ⟨hs.1, hs.2.1, (Dev.wr_size hd).trans hs.2.2⟩ }

theorem sized_init (E : Env σ) (image : W → BitVec 8) (pp : ProfPc) (h : σ) :
    Sized (initSt E image pp h) := ⟨rfl, rfl, rfl⟩

end Ama
