import Verif.Lemmas.Prims
/-!
# Discharging the device primitives of `Prims`
-/
namespace Ama
open M
variable {σ : Type} {E : Env σ} {P : St σ → Prop}

theorem uartWr_of (hu : ∀ s u, P s → P { s with uart := u }) (a v : W) (n : Nat) :
    Pres P (uartWr a v n) :=
  Pres.ite (Pres.bind (Pres.get _) fun _ => Pres.bind (Pres.lift _) fun _ =>
    Pres.mod fun s hs => hu s _ hs) (Pres.pure _)

theorem refreshMeip_of (hm : ∀ s v, P s → P { s with csr := upd s.csr A.mip v }) :
    Pres P refreshMeip :=
  Pres.bind (Pres.get _) fun _ => Pres.bind (Pres.lift _) fun _ => Pres.mod fun s hs => hm s _ hs

theorem uartRd_of (hu : ∀ s u, P s → P { s with uart := u })
    (hm : ∀ s v, P s → P { s with csr := upd s.csr A.mip v }) (a : W) (n : Nat) :
    Pres P (uartRd E a n) :=
  Pres.ite (Pres.ite (Pres.bind (Pres.get _) fun _ => Pres.lift _)
    (Pres.ite (Pres.bind (Pres.get _) fun _ => Pres.bind (Pres.lift _) fun _ =>
      Pres.bind (Pres.lift _) fun _ => Pres.bind (Pres.mod fun s hs => hu s _ hs) fun _ =>
      Pres.bind (refreshMeip_of hm) fun _ => Pres.bind (Pres.get _) fun _ => Pres.lift _)
      (Pres.pure _))) (Pres.bind (Pres.get _) fun _ => Pres.lift _)

theorem nextByte_of (hu : ∀ s u, P s → P { s with uart := u }) : Pres P (nextByte E) := by
  refine Pres.bind (Pres.get _) fun u => ?_
  split
  · exact Pres.bind (Pres.mod fun s hs => hu s _ hs) fun _ => Pres.pure _
  · split
    · exact Pres.bind (Pres.mod fun s hs => hu s _ hs) fun _ => Pres.pure _
    · exact Pres.pure _

theorem uartDeliver_of (hu : ∀ s u, P s → P { s with uart := u }) (b : BitVec 8) :
    Pres P (uartDeliver b) :=
  Pres.bind (Pres.get _) fun _ => Pres.bind (Pres.lift _) fun _ => Pres.bind (Pres.lift _) fun _ =>
    Pres.bind (Pres.lift _) fun _ => Pres.mod fun s hs => hu s _ hs

theorem uartIn_pres (hu : ∀ s u, P s → P { s with uart := u })
    (hm : ∀ s v, P s → P { s with csr := upd s.csr A.mip v }) (t : BitVec 64) :
    Pres P (uartUpdateInput E t) := by
  refine Pres.bind (Pres.get _) fun _ => Pres.bind ?_ fun _ => refreshMeip_of hm
  refine Pres.ite (Pres.bind (Pres.mod fun s hs => hu s _ hs) fun _ => Pres.bind (Pres.lift _) fun _ =>
    Pres.ite (Pres.bind (nextByte_of hu) fun b => ?_) (Pres.pure _)) (Pres.pure _)
  split
  · exact uartDeliver_of hu _
  · exact Pres.pure _
theorem uartIn_of (hu : ∀ s u, P s → P { s with uart := u })
    (hm : ∀ s v, P s → P { s with csr := upd s.csr A.mip v }) (t : BitVec 64) (s : St σ) (a : Unit) (s' : St σ)
    (_ : s.simStep = t) (hp : P s) (e : uartUpdateInput E t s = .ok (a, s')) : P s' :=
  uartIn_pres hu hm t s a s' hp e

theorem mtime_of (hc : ∀ s c, P s → P { s with clint := c })
    (hm : ∀ s v, P s → P { s with csr := upd s.csr A.mip v }) (n : BitVec 64) :
    Pres P (updateMtime n) :=
  Pres.bind (Pres.get _) fun _ => Pres.bind (Pres.lift _) fun _ => Pres.bind (Pres.lift _) fun _ =>
    Pres.bind (Pres.mod fun s hs => hc s _ hs) fun _ => Pres.bind (Pres.lift _) fun _ =>
    Pres.bind (Pres.lift _) fun _ => Pres.mod fun s hs => hm s _ hs

theorem ramWr_of (hr : ∀ s d, P s → P { s with ram := d }) (hh : ∀ s g, P s → P { s with hw := g })
    (a v : W) (n : Nat) (_ : a.toNat % n = 0) : Pres P (mmWr E a v n) :=
  Pres.bind (Pres.ite (Pres.pure _) Pres.abort) fun _ => Pres.bind (Pres.get _) fun _ =>
    Pres.bind (Pres.lift _) fun _ => Pres.bind (Pres.mod fun s hs => hr s _ hs) fun _ =>
    Pres.ite (Pres.mod fun s hs => hh s _ hs) (Pres.pure _)

theorem wrCsr_of (ht : ∀ c t, Pres P (trapInst c t))
    (hc : ∀ s a v, P s → P { s with csr := upd s.csr a v }) (e : CsrEntry) (v : W) :
    Pres P (writeCsr e v) := by
  unfold writeCsr
  split
  · exact Pres.bind (Pres.get _) fun _ => ht _ _
  · exact Pres.pure _
  · exact Pres.mod fun s hs => hc s _ _ hs

end Ama
