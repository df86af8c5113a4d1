import Verif.Model.Finish
import Verif.Spec.Finish
import Verif.Props.Stop
import Verif.Lemmas.Bus
import Verif.Props.ProfRf
/-!
# C78, C79: the report at the end of a run, and the memory dump
-/
namespace Ama.Finish
open M Spec
variable {σ : Type} {E : Env σ} {s s' : St σ}

theorem report_early (h1 : E.cfg.profilers = true) (h2 : s.profPc.exitOnStop = true) :
    report E s = .ok (⟨true, none, 0xf0000000#32, s.simInst, s.profPc.instCnt, s.pc, s.rf⟩,
      { s with csr := upd s.csr A.tohost 0xf0000000#32 }) := by
  unfold report
  rw [M.bind_ok (M.get_app _ _)]
  simp only [h1, h2, Bool.and_self, if_true]
  rw [M.bind_ok (M.mod_app _ _), M.bind_ok (M.get_app _ _)]
  simp only [id, upd_same]
  rfl
theorem report_plain (h : (E.cfg.profilers && s.profPc.exitOnStop) = false) :
    report E s = .ok (⟨false, if !false && s.csr A.tohost != 1#32 then some (s.csr A.tohost >>> 1, decide (1000#32 < s.csr A.tohost))
      else none, s.csr A.tohost, s.simInst, s.profPc.instCnt, s.pc, s.rf⟩, s) := by
  unfold report
  rw [M.bind_ok (M.get_app _ _)]
  simp only [h, Bool.false_eq_true, if_false]
  rw [M.bind_ok (M.pure_app _ _), M.bind_ok (M.get_app _ _)]
  rfl

theorem report_app (E : Env σ) (s : St σ) : ∃ s1 r, report E s = .ok (r, s1) ∧
    (¬ (E.cfg.profilers = true ∧ s.profPc.exitOnStop = true) → s1 = s ∧ r.early = false ∧ r.tohost = s.csr 0x51e#16 ∧
      r.failed = if s.csr 0x51e#16 = 1#32 then none else some (s.csr 0x51e#16 >>> 1, decide (1000#32 < s.csr 0x51e#16))) ∧
    (E.cfg.profilers = true ∧ s.profPc.exitOnStop = true → r.early = true ∧ r.failed = none ∧
      s1 = { s with csr := upd s.csr A.tohost 0xf0000000#32 }) ∧
    r.insts = s.simInst ∧ r.profiled = s.profPc.instCnt ∧ r.pc = s.pc ∧ r.rf = s.rf ∧ s1.ram = s.ram := by
  by_cases h : E.cfg.profilers = true ∧ s.profPc.exitOnStop = true
  · exact ⟨_, _, report_early h.1 h.2, fun hh => absurd h hh, fun _ => ⟨rfl, rfl, rfl⟩, rfl, rfl, rfl, rfl, rfl⟩
  · have e : (E.cfg.profilers && s.profPc.exitOnStop) = false := by
      rw [Bool.eq_false_iff]; simpa using h
    refine ⟨_, _, report_plain e, fun _ => ⟨rfl, rfl, rfl, ?_⟩, fun hh => absurd hh h, rfl, rfl, rfl, rfl, rfl⟩
    show (if (!false && s.csr A.tohost != 1#32) = true then _ else _) = _
    by_cases h1 : s.csr 0x51e#16 = 1#32
    · rw [if_pos h1, if_neg (by rw [show s.csr A.tohost = 1#32 from h1]; decide)]
    · rw [if_neg h1, if_pos (by simpa using (show s.csr A.tohost ≠ 1#32 from h1))]
      rfl

/-- **C78.** The report of a run whose program ended it: nothing is said if the program passed, and the failing test is named
if it failed.  Missing: builds with profilers and "exit on profiling stop" (`early_exit_hides`), and programs that did not end
the run themselves (`limit_reported_failed`). -/
theorem report_verdict_partial {r : Report} (h : report E s = .ok (r, s')) (hx : ¬ (E.cfg.profilers = true ∧ s.profPc.exitOnStop = true))
    (hv : verdict (s.csr 0x51e#16) ≠ .none) :
    r.early = false ∧ r.tohost = s.csr 0x51e#16 ∧ (r.failed = none ↔ verdict (s.csr 0x51e#16) = .passed) ∧
    ∀ n, (∃ b, r.failed = some (n, b)) ↔ verdict (s.csr 0x51e#16) = .failed n.toNat := by
  obtain ⟨s1, r1, h1, h2, -, -⟩ := report_app E s
  rw [h] at h1
  injection h1 with h1
  injection h1 with h1 _
  subst h1
  obtain ⟨-, he, ht, hf⟩ := h2 hx
  refine ⟨he, ht, ?_⟩
  generalize s.csr 0x51e#16 = t at *
  unfold verdict at hv ⊢
  have ho : ¬ t.toNat % 2 = 0 := fun hh => hv (if_pos hh)
  rw [if_neg ho, hf]
  by_cases h1 : t = 1#32
  · subst h1
    simp
  · have h2 : ¬ t.toNat = 1 := fun hh => h1 (BitVec.eq_of_toNat_eq hh)
    rw [if_neg h1, if_neg h2]
    refine ⟨by simp, fun n => ?_⟩
    have e : (t >>> 1).toNat = t.toNat / 2 := by rw [BitVec.toNat_ushiftRight, Nat.shiftRight_eq_div_pow]
    constructor
    · rintro ⟨b, hb⟩
      injection hb with hb; injection hb with hb _
      rw [← hb, e]
    · intro hb
      injection hb with hb
      exact ⟨_, by rw [show t >>> 1 = n from BitVec.eq_of_toNat_eq (e.trans hb)]⟩

/-- **C78**: a program of a build without profilers, from the start: what it wrote to tohost is what is reported. -/
theorem run_verdict {r : Report} (hp : E.cfg.profilers = false) {n : Nat} {s0 : St σ} (h0 : tohostBit s0 = false)
    (h : runN E n s0 = .ok ((), s)) (ht : tohostBit s = true) {d : DevId} {a z : W} {w : Option (List W)}
    (hf : finish E d a z s = .ok ((r, w), s')) :
    s.running = false ∧ r.tohost = s.csr 0x51e#16 ∧ r.insts = s.simInst ∧ r.pc = s.pc ∧ r.rf = s.rf ∧
    (r.failed = none ↔ verdict (s.csr 0x51e#16) = .passed) ∧
    ∀ n, (∃ b, r.failed = some (n, b)) ↔ verdict (s.csr 0x51e#16) = .failed n.toNat := by
  refine ⟨(tohost_stops n h0 h ht).1, ?_⟩
  unfold finish at hf
  obtain ⟨_, s1, h1, hf⟩ := bind_eq_ok.1 hf
  obtain ⟨r', s2, h2, hf⟩ := bind_eq_ok.1 hf
  have hr : r' = r := by
    split at hf
    · obtain ⟨d', s3, _, hf⟩ := bind_eq_ok.1 hf
      injection hf with hf; injection hf with hf _; injection hf
    · injection hf with hf; injection hf with hf _; injection hf
  subst hr
  unfold wrapUp at h1
  obtain ⟨w0, _, hw, h1⟩ := bind_eq_ok.1 h1
  injection hw with hw; injection hw with _ hw
  subst hw
  have hc := (Th.cnt (E := E) (s.csr A.tohost) w0 0#16) s _ s1 rfl h1
  obtain ⟨t, e1⟩ := csrCntUpdate_ok h1
  have hc : s1.csr 0x51e#16 = s.csr 0x51e#16 := hc
  have hv : verdict (s1.csr 0x51e#16) ≠ .none := by
    unfold verdict
    rw [hc]
    have : (s.csr 0x51e#16).toNat % 2 = 1 := by
      have := ht
      unfold tohostBit at this
      rw [BitVec.getLsbD, Nat.testBit_zero] at this
      simpa using this
    rw [if_neg (by omega)]
    split <;> nofun
  obtain ⟨-, ht1, hf1, hf2⟩ := report_verdict_partial h2 (by rw [hp]; simp) hv
  obtain ⟨_, _, h3, -, -, hi, -, hpc, hrf, -⟩ := report_app E s1
  rw [h2] at h3
  injection h3 with h3; injection h3 with h3 _
  subst h3
  rw [hc] at ht1 hf1 hf2
  exact ⟨ht1, hi.trans (by rw [e1]; rfl), hpc.trans (by rw [e1]; rfl), hrf.trans (by rw [e1]; rfl), hf1, hf2⟩

/-! ## The dump -/

/-- byte `k` of a region may be read -/
def Readable (E : Env σ) (a : W) (n : Nat) : Prop :=
  ∀ k, k < n → checkAccess (a - 0x80000000#32 + BitVec.ofNat 32 k) true false false E.regions = true

/-- equal but for the hardware models, and equal in builds without -/
def SameBut (E : Env σ) (s s' : St σ) : Prop := ∃ h, s' = { s with hw := h } ∧ (E.cfg.hwModels = false → h = s.hw)
theorem SameBut.refl (E : Env σ) (s : St σ) : SameBut E s s := ⟨s.hw, rfl, fun _ => rfl⟩
theorem SameBut.trans {s1 s2 s3 : St σ} (a : SameBut E s1 s2) (b : SameBut E s2 s3) : SameBut E s1 s3 := by
  obtain ⟨h1, rfl, e1⟩ := a
  obtain ⟨h2, rfl, e2⟩ := b
  exact ⟨h2, rfl, fun h => (e2 h).trans (e1 h)⟩
theorem SameBut.hwSt (E : Env σ) (f : σ → σ) (s : St σ) : SameBut E s (hwSt E f s) := by
  unfold Ama.hwSt
  split
  · next h => exact ⟨_, rfl, fun hh => by rw [hh] at h; cases h⟩
  · exact .refl E s

theorem dumpByte_app (hs : Sized s) {a : W} (d : DevId) (h1 : 0x80000000 ≤ a.toNat) (h2 : a.toNat < 0x80020000)
    (hr : checkAccess (a - 0x80000000#32) true false false E.regions = true) :
    ∃ s1, dumpByte E d a s = .ok ((s.ram.bytes (a - 0x80000000#32), .main), s1) ∧ SameBut E s s1 := by
  have hd : inDevice E.cfg.uart .main a := ⟨_, rfl, h1, h2⟩
  refine ⟨_, ?_, .hwSt E (E.hw.dcRd (a - 0x80000000#32) 1) s⟩
  unfold dumpByte
  have := dev_fit hd (n := 1) (.inl rfl) (Nat.mod_one _)
  rw [M.bind_ok (setAddr_dev (.inl rfl) hd (Nat.mod_one _) s)]
  simp only [Option.getD_some]
  rw [M.bind_ok (ramRd_app hs (.inl rfl) this hr)]
  show Res.ok _ = _
  congr 3
  apply BitVec.eq_of_toNat_eq
  simp [le]
  rfl

theorem or_words (f : W → BitVec 8) {a : W} (h : a.toNat + 4 ≤ 2 ^ 32) : (f a).setWidth 32 ||| (f (a + 1#32)).setWidth 32 <<< 8 |||
    (f (a + 2#32)).setWidth 32 <<< 16 ||| (f (a + 3#32)).setWidth 32 <<< 24 = BitVec.ofNat 32 (le f a 4) := by
  have h1 := Dev.rd32_ok ⟨2 ^ 32, f⟩ h (Nat.le_refl _)
  have e1 : (a + 1#32).toNat = a.toNat + 1 := add_toNat_of_lt (n := 4) (by omega) (by omega)
  have e2 : (a + 2#32).toNat = a.toNat + 2 := add_toNat_of_lt (n := 4) (by omega) (by omega)
  have e3 : (a + 3#32).toNat = a.toNat + 3 := add_toNat_of_lt (n := 4) (by omega) (by omega)
  simp only [Dev.rd32, Dev.get_ok ⟨2 ^ 32, f⟩ (show a.toNat < 2 ^ 32 by omega), Dev.get_ok ⟨2 ^ 32, f⟩ (show (a + 1#32).toNat < 2 ^ 32 by omega),
    Dev.get_ok ⟨2 ^ 32, f⟩ (show (a + 2#32).toNat < 2 ^ 32 by omega), Dev.get_ok ⟨2 ^ 32, f⟩ (show (a + 3#32).toNat < 2 ^ 32 by omega),
    Res.bind_ok] at h1
  injection h1

theorem dumpWord_app (hs : Sized s) {a : W} (d : DevId) (h1 : 0x80000000 ≤ a.toNat) (h2 : a.toNat + 4 ≤ 0x80020000)
    (hr : Readable E a 4) :
    ∃ s1, dumpWord E d a s = .ok ((BitVec.ofNat 32 (le s.ram.bytes (a - 0x80000000#32) 4), .main), s1) ∧ SameBut E s s1 := by
  have hk : ∀ k, k < 4 → (a + BitVec.ofNat 32 k).toNat = a.toNat + k := fun k hk => by
    rw [BitVec.toNat_add, BitVec.toNat_ofNat]; omega
  have step : ∀ (k : Nat) (_ : k < 4) (d : DevId) (s1 : St σ), SameBut E s s1 → ∃ s2, dumpByte E d (a + BitVec.ofNat 32 k) s1 =
      .ok ((s.ram.bytes (a - 0x80000000#32 + BitVec.ofNat 32 k), .main), s2) ∧ SameBut E s s2 := by
    intro k hk4 d s1 hb
    have ea : a + BitVec.ofNat 32 k - 0x80000000#32 = a - 0x80000000#32 + BitVec.ofNat 32 k := by
      rw [BitVec.sub_eq_add_neg, BitVec.sub_eq_add_neg, BitVec.add_assoc, BitVec.add_assoc, BitVec.add_comm (-_)]
    obtain ⟨h, rfl, _⟩ := id hb
    obtain ⟨s2, e, hb2⟩ := dumpByte_app (E := E) (s := { s with hw := h }) (a := a + BitVec.ofNat 32 k) hs d
      (by rw [hk k hk4]; omega) (by rw [hk k hk4]; omega) (by rw [ea]; exact hr k hk4)
    exact ⟨s2, by rw [e, ea], hb.trans hb2⟩
  obtain ⟨s1, e0, b0⟩ := step 0 (by omega) d s (.refl E s)
  obtain ⟨s2, e1, b1⟩ := step 1 (by omega) .main s1 b0
  obtain ⟨s3, e2, b2⟩ := step 2 (by omega) .main s2 b1
  obtain ⟨s4, e3, b3⟩ := step 3 (by omega) .main s3 b2
  refine ⟨s4, ?_, b3⟩
  unfold dumpWord
  have hb : (a - 0x80000000#32).toNat + 4 ≤ 2 ^ 32 := by
    rw [BitVec.toNat_sub]
    have : (0x80000000#32 : W).toNat = 0x80000000 := rfl
    omega
  have z : ∀ x : W, x + BitVec.ofNat 32 0 = x := fun x => BitVec.add_zero x
  rw [z, z] at e0
  rw [M.bind_ok e0, M.bind_ok e1, M.bind_ok e2, M.bind_ok e3, ← or_words _ hb]
  rfl

theorem dumpLoop_app {stop : W} : ∀ (n f : Nat) (d : DevId) (a : W) (s : St σ), Sized s → n < f → 0x80000000 ≤ a.toNat →
    a.toNat + 4 * n ≤ stop.toNat → stop.toNat < a.toNat + 4 * n + 4 → stop.toNat ≤ 0x80020000 → Readable E a (4 * n) →
    ∃ s1, dumpLoop E stop f d a s = .ok (some (words s.ram.bytes (a - 0x80000000#32) n), s1) ∧ SameBut E s s1
  | n, f + 1, d, a, s, hs, hf, h1, h2, h3, h4, hr => by
    have e4 : (a + 4#32).toNat = a.toNat + 4 := by
      rw [BitVec.toNat_add]
      have : (4#32 : BitVec 32).toNat = 4 := rfl
      have := a.isLt
      omega
    unfold dumpLoop
    cases n with
    | zero =>
      rw [if_neg (by rw [BitVec.le_def, e4]; omega)]
      exact ⟨s, rfl, .refl E s⟩
    | succ n =>
      rw [if_pos (by rw [BitVec.le_def, e4]; omega)]
      obtain ⟨s1, e1, b1⟩ := dumpWord_app (E := E) (s := s) hs d h1 (by omega) fun k hk => hr k (by omega)
      have ea : a + 4#32 - 0x80000000#32 = a - 0x80000000#32 + 4#32 := by
        rw [BitVec.sub_eq_add_neg, BitVec.sub_eq_add_neg, BitVec.add_assoc, BitVec.add_assoc, BitVec.add_comm (-_)]
      obtain ⟨h, rfl, _⟩ := id b1
      obtain ⟨s2, e2, b2⟩ := dumpLoop_app n f .main (a + 4#32) { s with hw := h } hs (by omega) (by omega) (by omega) (by omega) h4
        fun k hk => by
          have := hr (k + 4) (by omega)
          rw [ea, BitVec.add_assoc]
          rwa [show (4#32 : W) + BitVec.ofNat 32 k = BitVec.ofNat 32 (k + 4) by
            apply BitVec.eq_of_toNat_eq; simp [BitVec.toNat_add, Nat.add_comm]]
      refine ⟨s2, ?_, b1.trans b2⟩
      rw [M.bind_ok e1, M.bind_ok e2, ea]
      rfl
  | n, 0, _, _, _, _, hf, _, _, _, _, _ => absurd hf (Nat.not_lt_zero _)

/-- **C79.** The dump of a readable region of main memory is its words, and nothing but the hardware models changes: any state,
region and permissions.  Missing: a last part shorter than a word (`dump_tail`), regions outside main memory
(`dump_nowhere`, `dump_device`, `dump_endless`), unreadable ones (`dump_unreadable`), and the hardware models
(`dump_counted`). -/
theorem dump_exact_partial (hs : Sized s) (dev : DevId) {a z : W} (h1 : 0x80000000 ≤ a.toNat)
    (h2 : a.toNat + z.toNat ≤ 0x80020000) (hr : Readable E a z.toNat) :
    ∃ s', dumpWords E dev a z s = .ok (some (words s.ram.bytes (a - 0x80000000#32) (z.toNat / 4)), s') ∧ SameBut E s s' := by
  have e : (a + z).toNat = a.toNat + z.toNat := by rw [BitVec.toNat_add]; omega
  exact dumpLoop_app _ _ dev a s hs (by omega) h1 (by omega) (by omega) (by omega) fun k hk => hr k (by omega)

/-- **C79**: without a start address or without a size nothing is dumped, and nothing read. -/
theorem no_dump {dev : DevId} {a z : W} (h : a = 0#32 ∨ z = 0#32) {r : Report} {w : Option (List W)} {s' : St σ}
    (hf : finish E dev a z s = .ok ((r, w), s')) :
    w = some [] ∧ ∃ s1, wrapUp E s = .ok ((), s1) ∧ report E s1 = .ok (r, s') := by
  unfold finish at hf
  obtain ⟨_, s1, h1, hf⟩ := bind_eq_ok.1 hf
  obtain ⟨r', s2, h2, hf⟩ := bind_eq_ok.1 hf
  rw [if_neg (by rcases h with rfl | rfl <;> simp)] at hf
  injection hf with hf; injection hf with hf e; injection hf with hf e'
  subst hf e e'
  exact ⟨rfl, s1, h1, h2⟩
/-- **C79**: with both, the report is the one of the run, and the dump is made of the state after it. -/
theorem dump_made {dev : DevId} {a z : W} (h : a ≠ 0#32) (h' : z ≠ 0#32) {r : Report} {w : Option (List W)} {s' : St σ}
    (hf : finish E dev a z s = .ok ((r, w), s')) :
    ∃ s1 s2, wrapUp E s = .ok ((), s1) ∧ report E s1 = .ok (r, s2) ∧ dumpWords E dev a z s2 = .ok (w, s') := by
  unfold finish at hf
  obtain ⟨_, s1, h1, hf⟩ := bind_eq_ok.1 hf
  obtain ⟨r', s2, h2, hf⟩ := bind_eq_ok.1 hf
  rw [if_pos ⟨(BitVec.pos_iff_ne_zero _).2 h, (BitVec.pos_iff_ne_zero _).2 h'⟩] at hf
  obtain ⟨d, s3, h3, hf⟩ := bind_eq_ok.1 hf
  injection hf with hf; injection hf with hf e; injection hf with hf e'
  subst hf e e'
  exact ⟨s1, s2, h1, h2, h3⟩

/-- **C79 fails at the top of the address space**: a dump that ends at the last byte never ends (in no state does it write a
file that is complete). -/
theorem dump_endless : ∀ (f : Nat) (d : DevId) (a : W) (s s' : St σ) (r : Option (List W)),
    dumpLoop E 0xffffffff#32 f d a s = .ok (r, s') → r = none
  | 0, _, _, _, _, _, h => by injection h with h; injection h with h _; exact h.symm
  | f + 1, d, a, s, s', r, h => by
    unfold dumpLoop at h
    rw [if_pos (by rw [BitVec.le_def]; have := (a + 4#32).isLt; show _ ≤ 2 ^ 32 - 1; omega)] at h
    obtain ⟨w, s1, _, h⟩ := bind_eq_ok.1 h
    obtain ⟨r1, s2, h1, h⟩ := bind_eq_ok.1 h
    injection h with h; injection h with h _
    rw [← h, dump_endless f _ _ _ _ _ h1]
    rfl

/-! ## Runs of the model, and where the code differs -/

namespace Ex
open Ama.Ex (image env0 cfg0 hw0 st0)
/-- report of a run: early, failure, tohost, instructions -/
def rep (E : Env Unit) (n : Nat) (s : St Unit) : Option (Bool × Option (W × Bool) × W × BitVec 64) :=
  match (do runN E n; finish E .main 0#32 0#32) s with
  | .ok ((r, _), _) => some (r.early, r.failed, r.tohost, r.insts)
  | _ => none
/-- a pass, the failure of test 3, and the value of a trap handler -/
example : rep env0 5 (st0 env0 [0x51e0d073#32]) = some (false, none, 1#32, 1#64) := by decide +kernel
example : rep env0 5 (st0 env0 [0x51e3d073#32]) = some (false, some (3#32, false), 7#32, 1#64) := by decide +kernel
example : rep env0 5 (st0 env0 [0x7d100093#32, 0x51e09073#32]) = some (false, some (1000#32, true), 2001#32, 2#64) := by decide +kernel
/-- the hypotheses of `run_verdict` and `report_verdict_partial` -/
example : env0.cfg.profilers = false ∧ tohostBit (st0 env0 [0x51e3d073#32]) = false ∧ verdict 7#32 = .failed 3 ∧
    (Ama.Ex.obs (runN env0 5 (st0 env0 [0x51e3d073#32])) tohostBit) = some true :=
  ⟨rfl, by decide +kernel, rfl, by decide +kernel⟩

/-- words dumped, and traps recorded after -/
def dump (E : Env Unit) (d : DevId) (a z : W) (s : St Unit) : Option (Option (List W) × List (W × W × W)) :=
  match dumpWords E d a z s with
  | .ok (w, s') => some (w, s'.trapLog)
  | _ => none
def data : St Unit := st0 env0 [0x11223344#32, 0x55667788#32, 0x99aabbcc#32]
example : dump env0 .clint 0x80000001#32 8#32 data = some (some [0x88112233#32, 0xcc556677#32], []) := by decide +kernel
example : Sized data ∧ Readable env0 0x80000001#32 8 := ⟨⟨rfl, rfl, rfl⟩, fun _ _ => rfl⟩
example : (match finish env0 .main 0x80000000#32 0#32 data with | .ok ((_, w), _) => w | _ => none) = some [] := by decide +kernel
example : (match finish env0 .main 0x80000000#32 4#32 data with | .ok ((_, w), _) => w | _ => none) = some [0x11223344#32] := by
  decide +kernel
/-- execute-only code -/
def envX : Env Unit := { env0 with regions := [⟨0#32, 16#32, false, false, true⟩] }
/-- data cache accesses counted -/
def hwN : Hw Nat :=
  { icRd := fun _ h => h, dcRd := fun _ _ h => h + 1, dcWr := fun _ _ _ h => h + 1,
    scp := fun _ _ h => (true, h), bpIdeal := fun _ h => h, bpPredict := fun pc _ _ h => (pc + 4#32, h),
    bpUpdate := fun _ _ h => h, divEval := fun _ _ _ h => h, profiling := fun _ h => h }
def envN : Env Nat :=
  { cfg := { cfg0 with hwModels := true }, hw := hwN, regions := [], uartIn := [], stdin := fun _ => none }
/-- input received and not read -/
def envU : Env Unit := { env0 with cfg := { cfg0 with uartIn := true } }
def rxd : St Unit := { data with uart := { data.uart with dev := { data.uart.dev with bytes := fun a => if a = 0#32 then 3#8 else 0x41#8 } } }
end Ex
open Ama.Finish.Ex
open Ama.Ex (image env0 cfg0 st0)

/-- **C78 fails with "exit on profiling stop"**: the program passes without reaching the stop address, and an early exit and an
invalid tohost are reported. -/
theorem early_exit_hides : rep (ProfRf.Ex.envR false) 5 (initSt (ProfRf.Ex.envR false) (image [0x51e0d073#32])
    ⟨0x80000000#32, 0x80000100#32, 0#32, true, 0#32, false, 0#64⟩ ()) = some (true, none, 0xf0000000#32, 1#64) := by decide +kernel

/-- **C78 fails at a limit**: a program stopped by the instruction limit wrote nothing to tohost, and is reported as failing
test 0. -/
theorem limit_reported_failed : rep { env0 with cfg := { cfg0 with runInsts := 2#64 } } 5
    (st0 env0 [0x13#32, 0x13#32, 0x13#32]) = some (false, some (0#32, false), 0#32, 2#64) := by decide +kernel

/-- **C79 fails for the last bytes**: a dump of seven bytes shows four. -/
theorem dump_tail : dump env0 .main 0x80000000#32 7#32 data = some (some [0x11223344#32], []) := by decide +kernel

/-- **C79 fails outside memory**: an address without a device is dumped as the first byte of the device used last, four times,
and traps are taken after the run. -/
theorem dump_nowhere : (dump env0 .main 0x70000000#32 4#32 data).map (fun x => (x.1, x.2.map fun t => (t.1, t.2.1))) =
    some (some [0x44444444#32],
      [(5#32, 0x70000003#32), (5#32, 0x70000002#32), (5#32, 0x70000001#32), (5#32, 0x70000000#32)]) := by decide +kernel

/-- **C79 fails for devices**: dumping the UART takes the received byte away. -/
theorem dump_device : (match dumpWords envU .main 0x10013004#32 4#32 rxd with
    | .ok (w, s') => some (w, rxd.uart.dev.bytes 0#32, s'.uart.dev.bytes 0#32)
    | _ => none) = some (some [0x41#32], 3#8, 1#8) := by decide +kernel

/-- **C79 fails for unreadable segments**: dumping execute-only code ends the simulator. -/
theorem dump_unreadable : (match dumpWords envX .main 0x80000000#32 4#32 data with | .abort => true | _ => false) = true := by
  decide +kernel

/-- **C79 fails with caches**: the dump is counted as data cache accesses, before the statistics are reported. -/
theorem dump_counted : (match dumpWords envN .main 0x80000000#32 8#32 (initSt envN (image [0x13#32, 0x13#32]) Ama.Ex.pp0 0) with
    | .ok (w, s') => some (w, s'.hw)
    | _ => none) = some (some [0x13#32, 0x13#32], 8) := by decide +kernel
end Ama.Finish
