import Verif.Lemmas.PrimsOf
import Verif.Lemmas.Ex
/-!
# C01: x0 always reads zero
-/
namespace Ama
variable {σ : Type}

theorem x0_prims (E : Env σ) : Prims E (fun s => s.rf 0#5 = 0#32) where
  rf := by
    intro s r v hr h
    simp only [upd]
    rw [if_neg (fun e => hr e.symm)]; exact h
  wrCsr := fun _ e v _ => wrCsr_of
    (fun _ _ => Pres.bind (Pres.mod fun _ h => h) fun _ => Pres.mod fun _ h => h)
    (fun _ _ _ h => h) e v
  ramWr := ramWr_of (fun _ _ h => h) (fun _ _ h => h)
  uartWr := uartWr_of (fun _ _ h => h)
  uartRd := uartRd_of (fun _ _ h => h) (fun _ _ h => h)
  uartIn := uartIn_of (fun _ _ h => h) (fun _ _ h => h)
  mtime := mtime_of (fun _ _ h => h) (fun _ _ h => h) _

/-- **C01** From reset, whatever the program, the configuration, the hardware models and
the number of steps, register x0 reads zero. -/
theorem x0_zero (E : Env σ) (image : W → BitVec 8) (pp : ProfPc) (h : σ) (n : Nat) (s : St σ)
    (hrun : runN E n (initSt E image pp h) = .ok ((), s)) : s.rf 0#5 = 0#32 :=
  (x0_prims E).runN n _ _ _ rfl hrun

/-- **C01**, one step from any state in which it holds. -/
theorem x0_zero_step (E : Env σ) (s s' : St σ) (h0 : s.rf 0#5 = 0#32)
    (hs : step E s = .ok ((), s')) : s'.rf 0#5 = 0#32 := (x0_prims E).step _ _ _ h0 hs

/-- a run that really executes instructions aimed at x0: `addi x0,x0,5; addi x1,x0,7` -/
example : Ex.obs (runN Ex.env0 2 (Ex.st0 Ex.env0 [0x00500013#32, 0x00700093#32]))
    (fun s => (s.rf 0#5, s.rf 1#5, s.simInst)) = some (0#32, 7#32, 2#64) := by decide +kernel

end Ama
