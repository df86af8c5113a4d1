import Verif.Lemmas.Twp
/-!
# C30, C31: the machine timer
-/
namespace Ama
open M Spec
variable {σ : Type}

/-- the 64-bit little-endian register at `off` of the CLINT -/
def Spec.reg64 (d : Dev) (off : W) : Nat := le d.bytes off 8

theorem mtimeOf_toNat (d : Dev) : (mtimeOf d).toNat = reg64 d 0x10#32 := by
  have := le_lt d.bytes 0x10#32 8
  unfold mtimeOf reg64
  rw [BitVec.toNat_ofNat]; omega
theorem mtimecmpOf_toNat (d : Dev) : (mtimecmpOf d).toNat = reg64 d 0x8#32 := by
  have := le_lt d.bytes 0x8#32 8
  unfold mtimecmpOf reg64
  rw [BitVec.toNat_ofNat]; omega

theorem reg64_put (d : Dev) (t : BitVec 64) :
    reg64 { d with bytes := put d.bytes 0x10#32 t.toNat 8 } 0x10#32 = t.toNat := by
  unfold reg64
  rw [le_put _ _ _ _ (by decide)]
  have := t.isLt
  omega
theorem reg64_put_cmp (d : Dev) (v : Nat) :
    reg64 { d with bytes := put d.bytes 0x10#32 v 8 } 0x8#32 = reg64 d 0x8#32 := le_put_below _ _

/-- bits of `m` with one bit forced -/
theorem set_bit (a m : W) (i : Nat) (hm : ∀ k, k < 32 → m.getLsbD k = decide (k = i)) (hi : i < 32)
    (b : Bool) : (∀ k, k < 32 → k ≠ i → (if b then a ||| m else a &&& ~~~m).getLsbD k = a.getLsbD k) ∧
      (if b then a ||| m else a &&& ~~~m).getLsbD i = b := by
  constructor
  · intro k hk hne
    cases b
    · rw [if_neg (by decide), BitVec.getLsbD_and, BitVec.getLsbD_not, hm k hk]
      simp [hne, hk]
    · rw [if_pos rfl, BitVec.getLsbD_or, hm k hk]
      simp [hne]
  · cases b
    · rw [if_neg (by decide), BitVec.getLsbD_and, BitVec.getLsbD_not, hm i hi]
      simp
    · rw [if_pos rfl, BitVec.getLsbD_or, hm i hi]
      simp

/-- **C31** and the single-update part of **C30**: `update_mtime(e)` adds
(ticks + e) / 100 to mtime (64-bit arithmetic) and keeps the remainder, leaves mtimecmp and every
other CLINT byte alone, sets mip.MTIP iff the new mtime is at least mtimecmp, and changes no other
mip bit, no other CSR and nothing else. -/
theorem mtime_update (e : BitVec 64) (s : St σ) (hs : Sized s) :
    ∃ s', updateMtime e s = .ok ((), s') ∧
      reg64 s'.clint.dev 0x10#32 = (reg64 s.clint.dev 0x10#32 + (s.clint.ticks + e).toNat / 100) % 2 ^ 64 ∧
      s'.clint.ticks.toNat = (s.clint.ticks + e).toNat % 100 ∧
      (∀ x : W, ¬ (16 ≤ x.toNat ∧ x.toNat < 24) → s'.clint.dev.bytes x = s.clint.dev.bytes x) ∧
      (s'.csr 0x344#16).getLsbD 7 = decide (reg64 s'.clint.dev 0x10#32 ≥ reg64 s'.clint.dev 0x8#32) ∧
      (∀ k, k < 32 → k ≠ 7 → (s'.csr 0x344#16).getLsbD k = (s.csr 0x344#16).getLsbD k) ∧
      (∀ a, a ≠ 0x344#16 → s'.csr a = s.csr a) ∧
      s' = { s with clint := s'.clint, csr := s'.csr } := by
  refine ⟨mtimeSt e s, updateMtime_app e s hs, ?_, ?_, ?_, ?_, ?_, ?_, rfl⟩
  · unfold mtimeSt
    rw [reg64_put, BitVec.toNat_add, BitVec.toNat_udiv, mtimeOf_toNat]
    rfl
  · unfold mtimeSt
    simp only
    rw [BitVec.toNat_umod]
    rfl
  · intro x hx
    unfold mtimeSt
    simp only [put]
    rw [if_neg]
    rw [BitVec.toNat_sub]
    have := x.isLt
    have h16 : (0x10#32).toNat = 16 := rfl
    rw [h16]
    omega
  · unfold mtimeSt
    rw [reg64_put, reg64_put_cmp, ← mtimecmpOf_toNat]
    simp only [upd]
    rw [if_pos (show (836#16 : BitVec 16) = A.mip from rfl)]
    have := (set_bit (s.csr A.mip) 0x80#32 7 (by decide) (by decide)
      (decide (mtimecmpOf s.clint.dev ≤ mtimeOf s.clint.dev + (s.clint.ticks + e) / 100#64))).2
    simp only [decide_eq_true_eq] at this
    rw [this]
    exact decide_eq_decide.mpr BitVec.le_def
  · intro k hk hne
    unfold mtimeSt
    simp only [upd]
    rw [if_pos (show (836#16 : BitVec 16) = A.mip from rfl)]
    have := (set_bit (s.csr A.mip) 0x80#32 7 (by decide) (by decide)
      (decide (mtimecmpOf s.clint.dev ≤ mtimeOf s.clint.dev + (s.clint.ticks + e) / 100#64))).1 k hk hne
    simp only [decide_eq_true_eq] at this
    exact this
  · intro a ha
    exact upd_other _ _ ha

/-! ## The clock phase of a step -/

theorem clockCore_clint (E : Env σ) (c : Core) : (clockCore E c).clint =
    { dev := { c.clint.dev with
        bytes := put c.clint.dev.bytes 0x10#32 (mtimeOf c.clint.dev + (c.clint.ticks + 1#64) / 100#64).toNat 8 },
      ticks := (c.clint.ticks + 1#64) % 100#64 } := by
  unfold clockCore
  cases E.cfg.uartIn <;> simp only [if_true, Bool.false_eq_true, if_false]

/-- the clock phase moves mtime like `update_mtime(1)` -/
theorem clockCore_mtime (E : Env σ) (c : Core) :
    reg64 (clockCore E c).clint.dev 0x10#32 =
      (reg64 c.clint.dev 0x10#32 + (c.clint.ticks + 1#64).toNat / 100) % 2 ^ 64 ∧
    reg64 (clockCore E c).clint.dev 0x8#32 = reg64 c.clint.dev 0x8#32 ∧
    (clockCore E c).clint.ticks.toNat = (c.clint.ticks + 1#64).toNat % 100 := by
  rw [clockCore_clint]
  refine ⟨?_, reg64_put_cmp _ _, ?_⟩
  · rw [reg64_put, BitVec.toNat_add, BitVec.toNat_udiv, mtimeOf_toNat]; rfl
  · simp only; rw [BitVec.toNat_umod]; rfl

/-- MTIP after the clock phase -/
theorem clockCore_mtip (E : Env σ) (c : Core) : ((clockCore E c).csr 0x344#16).getLsbD 7 =
    decide (reg64 (clockCore E c).clint.dev 0x10#32 ≥ reg64 (clockCore E c).clint.dev 0x8#32) := by
  have h2 : ∀ (f : BitVec 16 → W) (x : W), (upd f A.mip x) 0x344#16 = x := fun f x => if_pos rfl
  rw [clockCore_clint, reg64_put, reg64_put_cmp, ← mtimecmpOf_toNat]
  have := (set_bit (c.csr A.mip) 0x80#32 7 (by decide) (by decide)
      (decide (mtimecmpOf c.clint.dev ≤ mtimeOf c.clint.dev + (c.clint.ticks + 1#64) / 100#64))).2
  simp only [decide_eq_true_eq] at this
  have hge : ∀ a b : BitVec 64, decide (a.toNat ≥ b.toNat) = decide (b ≤ a) := fun a b =>
    decide_eq_decide.mpr BitVec.le_def.symm
  rw [hge, ← this]
  unfold clockCore
  cases E.cfg.uartIn
  · simp only [Bool.false_eq_true, if_false, h2]
  · simp only [if_true, h2]
    have h3 := fun (m : W) (b : Bool) => (set_bit m 0x800#32 11 (by decide) (by decide) b).1 7 (by decide) (by decide)
    have h4 := h3 (upd c.csr A.mip (if mtimecmpOf c.clint.dev ≤ mtimeOf c.clint.dev + (c.clint.ticks + 1#64) / 100#64
      then c.csr A.mip ||| 0x80#32 else c.csr A.mip &&& ~~~0x80#32) A.mip)
      (decide ((rxSt E c.simStep c.uart).dev.bytes 0#32 &&& 2#8 ≠ 0#8))
    simp only [decide_eq_true_eq] at h4
    rw [h4]
    exact congrArg (fun x => BitVec.getLsbD x 7) (h2 _ _)

end Ama
