import Verif.Props.CsrRw
/-!
# Steps of an arbitrary instruction word that completes without touching memory or CSRs
-/
namespace Ama
open M Spec
variable {σ : Type} {E : Env σ} {s : St σ}

theorem retires_word {w : W} (hw : w ≠ wfiWord) (h : Ready E s w) {f : BitVec 5 → W} {t : W}
    (hx : ∀ p, p.core = startCore E s w → p.lastInstBranch = false →
      ExecTo E p { startCore E s w with rf := f, nextPc := t }) :
    ∃ s', step E s = .ok ((), s') ∧ s'.pc = t ∧ s'.rf = f ∧
      s'.ram.bytes = s.ram.bytes ∧ s'.simInst = s.simInst + 1#64 ∧ Frame E s s' := by
  obtain ⟨f1, f2, f3, f4, f5, f6, f7, f8, f9, f10⟩ := startCore_frame (E := E) (s := s) (w := w)
  have hs0 := startCore_csr (E := E) (s := s) hw
  have h1 : (startCore E s w).csr = (clockCore E s.core).csr := by rw [hs0]
  have h2 : (startCore E s w).uart = (clockCore E s.core).uart := by rw [hs0]
  have h3 : (startCore E s w).clint = (clockCore E s.core).clint := by rw [hs0]
  obtain ⟨s', g1, g2⟩ := step_retires h _ hx f9 (f2.trans h.awake) f5
  generalize startCore E s w = K at *
  refine ⟨s', g1, core_pc g2, core_rf g2, ?_, ?_, frame_of ?_ ?_ ?_ ?_⟩
  · rw [core_ram g2]; exact congrArg Dev.bytes f4
  · rw [core_simInst g2]; exact congrArg (· + 1#64) f6
  · rw [core_csr g2]; exact h1
  · rw [core_clint g2]; exact h3
  · rw [core_uart g2]; exact h2
  · rw [core_trapLog g2]; exact f8

end Ama
