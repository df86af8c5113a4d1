import Verif.Lemmas.Cnt
import Verif.Lemmas.Ex
/-!
# C18: CSR permissions and hardwired fields
-/
namespace Ama
open M
variable {σ : Type}

/-- The CSRs the privileged manual (and this design) makes read-only or hardwired to zero:
misa, mhartid, mconfigptr; mvendorid, marchid, mimpid, mcountinhibit, mhpmcounter9..31 (both
halves) and mhpmevent9..31. -/
def Spec.constCsr : List (BitVec 16 × W) :=
  [(0x301#16, 0x40801100#32), (0xF14#16, 0#32), (0xF15#16, 0#32),
   (0xF11#16, 0#32), (0xF12#16, 0#32), (0xF13#16, 0#32), (0x320#16, 0#32)] ++
  (List.range 23).map (fun i => (BitVec.ofNat 16 (0xB09 + i), 0#32)) ++
  (List.range 23).map (fun i => (BitVec.ofNat 16 (0xB89 + i), 0#32)) ++
  (List.range 23).map (fun i => (BitVec.ofNat 16 (0x329 + i), 0#32))

/-- the constant CSRs are implemented, are `ro` or `war0`, and reset to their constant -/
theorem constCsr_table (c : Bool) : ∀ p ∈ Spec.constCsr, ∃ e, csrInfo c p.1 = some e ∧
    (e.perm = .ro ∨ e.perm = .war0) ∧ e.boot = p.2 ∧ p.1 ≠ A.mip ∧ p.1 ≠ A.mstatus ∧ p.1 ≠ A.mepc ∧
    p.1 ≠ A.mtval ∧ p.1 ≠ A.mcause ∧
    p.1 ∉ [A.minstret, A.minstreth, A.mcycle, A.mcycleh, A.time, A.timeh] := by
  have h : ∀ p ∈ Spec.constCsr, ((csrInfo c p.1).any fun e =>
      ((e.perm == .ro || e.perm == .war0) && e.boot == p.2)) = true ∧ p.1 ≠ A.mip ∧ p.1 ≠ A.mstatus ∧ p.1 ≠ A.mepc ∧
      p.1 ≠ A.mtval ∧ p.1 ≠ A.mcause ∧
      p.1 ∉ [A.minstret, A.minstreth, A.mcycle, A.mcycleh, A.time, A.timeh] := by
    cases c <;> decide +kernel
  intro p hp
  obtain ⟨h1, h2⟩ := h p hp
  rw [Option.any_eq_true] at h1
  obtain ⟨e, he, h1⟩ := h1
  simp only [Bool.and_eq_true, Bool.or_eq_true, beq_iff_eq] at h1
  exact ⟨e, he, h1.1, h1.2, h2⟩

theorem mip_upd_prims {P : St σ → Prop} {a : BitVec 16} {v : W} (ha : a ≠ A.mip)
    (hP : P = fun s => s.csr a = v) :
    ∀ s w, P s → P { s with csr := upd s.csr A.mip w } := by
  subst hP
  intro s w h
  simp only [upd_other _ _ ha]; exact h

theorem const_prims (E : Env σ) (p : BitVec 16 × W) (hp : p ∈ Spec.constCsr) :
    Prims E (fun s => s.csr p.1 = p.2) := by
  obtain ⟨e, he, hperm, hb, n1, n2, n3, n4, n5, n6⟩ := constCsr_table E.cfg.rv32c p hp
  have hm : ∀ s w, (fun s : St σ => s.csr p.1 = p.2) s →
      (fun s : St σ => s.csr p.1 = p.2) { s with csr := upd s.csr A.mip w } := mip_upd_prims n1 rfl
  have ht : ∀ c t, Pres (fun s : St σ => s.csr p.1 = p.2) (trapInst c t) := by
    intro c t s a s' h e
    rw [trapInst_app] at e
    simp only [Res.ok.injEq, Prod.mk.injEq, true_and] at e
    subst e
    simp only [trapTo, trapCsr, n2, n3, n4, n5, if_false]; exact h
  have hnt : ¬ CntTouched E.cfg.rv32c p.1 := by
    rintro (h | ⟨e', he', hs⟩)
    · exact n6 h
    · rw [he] at he'
      simp only [Option.some.injEq] at he'
      subst he'
      rcases hperm with h | h <;> rw [h] at hs <;> cases hs
  exact
  { trap := ht
    mret := by
      intro s a s' h e
      simp only [mretStateUpdate, M.mod_app, Res.ok.injEq, Prod.mk.injEq, true_and] at e
      subst e
      simp only [upd_other _ _ n2]; exact h
    cntUpd := by
      intro w a s u s' h e
      obtain ⟨t, rfl⟩ := csrCntUpdate_ok e
      simp only [cntState, cntCsr_other hnt]; exact h
    wrCsr := by
      intro a e' v he'
      unfold writeCsr
      split
      · exact Pres.bind (Pres.get _) fun _ => ht _ _
      · exact Pres.pure _
      · rename_i h1 h2
        refine Pres.mod fun s hs => ?_
        have : p.1 ≠ e'.addr := by
          intro heq
          rw [csrInfo_addr he'] at heq
          rw [heq, he'] at he
          simp only [Option.some.injEq] at he
          subst he
          rcases hperm with h | h
          · exact h1 h
          · exact h2 h
        simp only [upd_other _ _ this]; exact hs
    ramWr := ramWr_of (fun _ _ h => h) (fun _ _ h => h)
    uartWr := uartWr_of (fun _ _ h => h)
    uartRd := uartRd_of (fun _ _ h => h) hm
    uartIn := uartIn_of (fun _ _ h => h) hm
    mtime := mtime_of (fun _ _ h => h) hm _ }

/-- **C18** (constants) In every history from reset, each read-only or hardwired CSR holds
its reset value. -/
theorem const_csr (E : Env σ) (image : W → BitVec 8) (pp : ProfPc) (h : σ) (n : Nat) (s : St σ)
    (hrun : runN E n (initSt E image pp h) = .ok ((), s)) :
    ∀ p ∈ Spec.constCsr, s.csr p.1 = p.2 := by
  intro p hp
  refine (const_prims E p hp).runN n _ _ _ ?_ hrun
  obtain ⟨e, he, -, hb, -⟩ := constCsr_table E.cfg.rv32c p hp
  simp [initSt, csrBoot, he, hb]

/-! mstatus.MPP -/

theorem mpp_prims (E : Env σ) : Prims E (fun s => s.csr A.mstatus &&& 0x1800#32 = 0x1800#32) := by
  have hm : ∀ (s : St σ) w, s.csr A.mstatus &&& 0x1800#32 = 0x1800#32 →
      (upd s.csr A.mip w) A.mstatus &&& 0x1800#32 = 0x1800#32 := by
    intro s w h
    rw [upd_other _ _ (by decide)]; exact h
  have bits : ∀ m : W, (m &&& 0x1800#32 = 0x1800#32) ↔ (m.getLsbD 11 = true ∧ m.getLsbD 12 = true) := by
    intro m
    constructor
    · intro h
      constructor
      · simpa using congrArg (fun x => x.getLsbD 11) h
      · simpa using congrArg (fun x => x.getLsbD 12) h
    · rintro ⟨h1, h2⟩
      apply BitVec.eq_of_getLsbD_eq
      intro i hi
      have : i = 11 ∨ i = 12 ∨ (0x1800#32).getLsbD i = false := by
        revert i; decide
      rcases this with rfl | rfl | h
      · simp [h1]
      · simp [h2]
      · simp [h]
  have ht : ∀ c t, Pres (fun s : St σ => s.csr A.mstatus &&& 0x1800#32 = 0x1800#32) (trapInst c t) := by
    intro c t s a s' h e
    rw [trapInst_app] at e
    simp only [Res.ok.injEq, Prod.mk.injEq, true_and] at e
    subst e
    rw [bits] at h ⊢
    simp only [trapTo, trapCsr, if_true]
    simp [h.1, h.2]
  have hnt : ¬ CntTouched E.cfg.rv32c A.mstatus := by
    rintro (h | ⟨e', he', hs⟩)
    · revert h; decide
    · revert hs
      have h2 := csrInfo_mem he'
      have h3 := csrInfo_addr he'
      have : ∀ c, ∀ e ∈ csrEntries c, e.addr = A.mstatus → ¬ e.perm = .roUShadow := by
        intro c; cases c <;> decide +kernel
      exact this _ _ h2 h3
  exact
  { trap := ht
    mret := by
      intro s a s' h e
      simp only [mretStateUpdate, M.mod_app, Res.ok.injEq, Prod.mk.injEq, true_and] at e
      subst e
      rw [bits] at h ⊢
      simp [h.1, h.2]
    cntUpd := by
      intro w a s u s' h e
      obtain ⟨t, rfl⟩ := csrCntUpdate_ok e
      simp only [cntState, cntCsr_other hnt]; exact h
    wrCsr := by
      intro a e' v he'
      unfold writeCsr
      split
      · exact Pres.bind (Pres.get _) fun _ => ht _ _
      · exact Pres.pure _
      · refine Pres.mod fun s hs => ?_
        by_cases hea : e'.addr = A.mstatus
        · have hmask : e'.wmask = ~~~0x1800#32 := by
            have : ∀ c, ∀ e ∈ csrEntries c, e.addr = A.mstatus → e.wmask = ~~~0x1800#32 := by
              intro c; cases c <;> decide +kernel
            exact this _ _ (csrInfo_mem he') hea
          simp only [hea, upd_same]
          rw [bits] at hs ⊢
          simp [csrMerge, hmask, hs.1, hs.2]
        · simp only [upd_other _ _ (Ne.symm hea)]; exact hs
    ramWr := ramWr_of (fun _ _ h => h) (fun _ _ h => h)
    uartWr := uartWr_of (fun _ _ h => h)
    uartRd := uartRd_of (fun _ _ h => h) hm
    uartIn := uartIn_of (fun _ _ h => h) hm
    mtime := mtime_of (fun _ _ h => h) hm _ }

/-- **C18** (MPP) mstatus.MPP is machine mode in every history from reset. -/
theorem mpp_machine (E : Env σ) (image : W → BitVec 8) (pp : ProfPc) (h : σ) (n : Nat) (s : St σ)
    (hrun : runN E n (initSt E image pp h) = .ok ((), s)) :
    s.csr A.mstatus &&& 0x1800#32 = 0x1800#32 := by
  refine (mpp_prims E).runN n _ _ _ ?_ hrun
  simp only [initSt]
  cases E.cfg.rv32c <;> decide +kernel

/-- **C18** writing a read-only CSR raises illegal-instruction and changes no CSR value
before trap entry -/
theorem write_ro_traps (e : CsrEntry) (v : W) (s : St σ) (he : e.perm = .ro) :
    writeCsr e v s = .ok ((), trapTo 2#32 s.inst s) := by
  simp only [writeCsr, he, eIllegal, M.bind_ok (M.get_app _ _), trapInst_app]

/-- a program that tries to change mstatus.MPP and misa:
`csrrwi x0, mstatus, 0; csrrwi x0, misa, 0` (the second traps) -/
example : Ex.obs (runN Ex.env0 2 (Ex.st0 Ex.env0 [0x30005073#32, 0x30105073#32]))
    (fun s => (s.csr A.mstatus, s.csr A.misa, s.csr A.mcause, s.simInst))
      = some (0x1800#32, 0x40801100#32, 2#32, 1#64) := by decide +kernel

end Ama
