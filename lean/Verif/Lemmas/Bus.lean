import Verif.Spec.Bus
import Verif.Lemmas.ExecMem
/-!
# Accesses through the memory map
-/
namespace Ama
open M Spec
variable {σ : Type}

theorem mapFind_device {u : Bool} {d : DevId} {a : W} (h : inDevice u d a) :
    mapFind a (memMap u) = some (devBase d, d) := by
  obtain ⟨r, h1, h2, h3⟩ := h
  cases d with
  | main =>
    simp only [devRange, Option.some.injEq] at h1
    subst h1
    exact mapFind_ram ⟨h2, h3⟩
  | uart =>
    cases u with
    | false => simp [devRange] at h1
    | true =>
      simp only [devRange, if_true, Option.some.injEq] at h1
      subst h1
      exact mapFind_uart h2 h3
  | clint =>
    simp only [devRange, Option.some.injEq] at h1
    subst h1
    exact mapFind_clint h2 h3

theorem mapFind_nowhere {u : Bool} {a : W} (h : ∀ d, ¬ inDevice u d a) :
    mapFind a (memMap u) = none := by
  apply mapFind_none
  · exact fun hr => h .main ⟨_, rfl, hr.1, hr.2⟩
  · rintro (⟨rfl, h1, h2⟩ | ⟨h1, h2⟩)
    · exact h .uart ⟨_, rfl, h1, h2⟩
    · exact h .clint ⟨_, rfl, h1, h2⟩

theorem inDevice_or (u : Bool) (a : W) : (∃ d, inDevice u d a) ∨ ∀ d, ¬ inDevice u d a := by
  by_cases h : ∃ d, inDevice u d a
  · exact Or.inl h
  · exact Or.inr fun d hd => h ⟨d, hd⟩

theorem dev_off {u : Bool} {d : DevId} {a : W} (h : inDevice u d a) :
    (a - devBase d).toNat = a.toNat - (devBase d).toNat ∧ (devBase d).toNat ≤ a.toNat ∧
      (devBase d).toNat % 4 = 0 := by
  obtain ⟨r, h1, h2, h3⟩ := h
  have hb : r.1 = (devBase d).toNat := by
    cases d <;> cases u <;> simp [devRange] at h1 <;> subst h1 <;> rfl
  rw [BitVec.toNat_sub, ← hb]
  have := a.isLt
  refine ⟨by omega, h2, ?_⟩
  rw [hb]
  cases d <;> decide

theorem dev_mod {u : Bool} {d : DevId} {a : W} (h : inDevice u d a) {n : Nat}
    (hn : n = 1 ∨ n = 2 ∨ n = 4) : (a - devBase d).toNat % n = a.toNat % n := by
  obtain ⟨h1, h2, h3⟩ := dev_off h
  rw [h1]
  rcases hn with rfl | rfl | rfl <;> omega

/-- device size -/
def devSize : DevId → Nat
  | .main => memSize
  | .uart => 12
  | .clint => 32

theorem dev_fit {u : Bool} {d : DevId} {a : W} (h : inDevice u d a) {n : Nat}
    (hn : n = 1 ∨ n = 2 ∨ n = 4) (ha : a.toNat % n = 0) :
    (a - devBase d).toNat + n ≤ devSize d := by
  have hm := dev_mod h hn
  obtain ⟨h1, h2, -⟩ := dev_off h
  obtain ⟨r, e, -, h4⟩ := h
  have hb : r.1 = (devBase d).toNat ∧ r.2 = devSize d ∧ devSize d % 4 = 0 := by
    cases d <;> cases u <;> simp [devRange] at e <;> subst e <;> exact ⟨rfl, rfl, rfl⟩
  rcases hn with rfl | rfl | rfl <;> omega

/-- an aligned access starting in a device lies in it entirely -/
theorem access_aligned {u : Bool} {d : DevId} {a : W} {n : Nat} (hn : n = 1 ∨ n = 2 ∨ n = 4)
    (ha : a.toNat % n = 0) : inDevice u d a ↔ accessIn u d a n := by
  constructor
  · intro h
    have hf := dev_fit h hn ha
    obtain ⟨h1, h2, -⟩ := dev_off h
    obtain ⟨r, e, h3, h4⟩ := h
    have hb : r.1 = (devBase d).toNat ∧ r.2 = devSize d := by
      cases d <;> cases u <;> simp [devRange] at e <;> subst e <;> exact ⟨rfl, rfl⟩
    exact ⟨r, e, h3, by omega⟩
  · rintro ⟨r, e, h3, h4⟩
    exact ⟨r, e, h3, by omega⟩

theorem setAddr_dev {E : Env σ} {d : DevId} {a : W} {n : Nat} {op : MemOp}
    (hn : n = 1 ∨ n = 2 ∨ n = 4) (h : inDevice E.cfg.uart d a) (ha : a.toNat % n = 0) (s : St σ) :
    setAddr E a op n s = .ok (some (d, a - devBase d), s) := by
  unfold setAddr
  rw [mapFind_device h]
  simp only [dev_mod h hn, ha, ne_eq, not_true, if_false, M.pure_app]

theorem setAddr_mis {E : Env σ} {d : DevId} {a : W} {n : Nat} {op : MemOp}
    (hn : n = 1 ∨ n = 2 ∨ n = 4) (h : inDevice E.cfg.uart d a) (ha : a.toNat % n ≠ 0) (s : St σ) :
    setAddr E a op n s = .ok (none, trapTo (match op with | .read => 4#32 | .write => 6#32) (a - devBase d) s) := by
  unfold setAddr
  rw [mapFind_device h]
  simp only [dev_mod h hn, ha, ne_eq, not_false_iff, if_true]
  unfold eDmemMisaligned
  rw [M.bind_ok (trapInst_app _ _ _)]
  cases op <;> rfl

theorem setAddr_nowhere {E : Env σ} {a : W} {n : Nat} {op : MemOp}
    (h : ∀ d, ¬ inDevice E.cfg.uart d a) (s : St σ) :
    setAddr E a op n s = .ok (none, trapTo (match op with | .read => 5#32 | .write => 7#32) a s) := by
  unfold setAddr
  rw [mapFind_nowhere h]
  simp only
  unfold eDmemAccess
  rw [M.bind_ok (trapInst_app _ _ _)]
  cases op <;> rfl

section
variable {E : Env σ} {s : St σ} {a v : W} {n : Nat} (hn : n = 1 ∨ n = 2 ∨ n = 4)
include hn

theorem memRd_dev (ht : s.trapped = false) {d : DevId} (h : inDevice E.cfg.uart d a) (ha : a.toNat % n = 0) :
    memRd E a n s = devRd E d (a - devBase d) n s := by
  unfold memRd
  rw [M.bind_ok (setAddr_dev hn h ha s), M.bind_ok (M.get_app _ _), ht]
theorem memWr_dev (ht : s.trapped = false) {d : DevId} (h : inDevice E.cfg.uart d a) (ha : a.toNat % n = 0) :
    memWr E a v n s = devWr E d (a - devBase d) v n s := by
  unfold memWr
  rw [M.bind_ok (setAddr_dev hn h ha s), M.bind_ok (M.get_app _ _), ht]
theorem memRd_mis {d : DevId} (h : inDevice E.cfg.uart d a) (ha : a.toNat % n ≠ 0) :
    memRd E a n s = .ok (0#32, trapTo 4#32 (a - devBase d) s) := by
  unfold memRd
  rw [M.bind_ok (setAddr_mis hn h ha s), M.bind_ok (M.get_app _ _)]
  rfl
theorem memWr_mis {d : DevId} (h : inDevice E.cfg.uart d a) (ha : a.toNat % n ≠ 0) :
    memWr E a v n s = .ok ((), trapTo 6#32 (a - devBase d) s) := by
  unfold memWr
  rw [M.bind_ok (setAddr_mis hn h ha s), M.bind_ok (M.get_app _ _)]
  rfl
omit hn in
theorem memRd_nowhere (h : ∀ d, ¬ inDevice E.cfg.uart d a) :
    memRd E a n s = .ok (0#32, trapTo 5#32 a s) := by
  unfold memRd
  rw [M.bind_ok (setAddr_nowhere h s), M.bind_ok (M.get_app _ _)]
  rfl
omit hn in
theorem memWr_nowhere (h : ∀ d, ¬ inDevice E.cfg.uart d a) :
    memWr E a v n s = .ok ((), trapTo 7#32 a s) := by
  unfold memWr
  rw [M.bind_ok (setAddr_nowhere h s), M.bind_ok (M.get_app _ _)]
  rfl
end

/-! ## Effect of device accesses -/

/-- update of the hardware-model state, if compiled in -/
def hwSt (E : Env σ) (f : σ → σ) (s : St σ) : St σ :=
  if E.cfg.hwModels then { s with hw := f s.hw } else s
theorem hwUpd_app (E : Env σ) (f : σ → σ) (s : St σ) : hwUpd E f s = .ok ((), hwSt E f s) := by
  unfold hwUpd hwSt; split <;> rfl

section
variable {E : Env σ} {s : St σ} {a v : W} {n : Nat} (hs : Sized s) (hn : n = 1 ∨ n = 2 ∨ n = 4)
include hs hn

theorem ramRd_app (hf : a.toNat + n ≤ memSize) (hr : checkAccess a true false false E.regions = true) :
    devRd E .main a n s = .ok (BitVec.ofNat 32 (le s.ram.bytes a n), hwSt E (E.hw.dcRd a n) s) := by
  simp only [devRd, mmRd]
  rw [M.bind_ok (guard_ok _ hr), M.bind_ok (M.get_app _ _),
    s.ram.rd_ok hn (by rw [hs.1]; exact hf) (by rw [hs.1]; decide),
    M.bind_ok (M.lift_ok _ _), M.bind_ok (hwUpd_app _ _ _)]
  rfl
omit hs hn in
theorem ramRd_denied (hr : checkAccess a true false false E.regions = false) :
    devRd E .main a n s = .abort := by
  simp only [devRd, mmRd]
  rw [M.bind_app, guard_abort _ hr]
theorem ramWr_app (hf : a.toNat + n ≤ memSize) (hr : checkAccess a false true false E.regions = true) :
    devWr E .main a v n s = .ok ((), hwSt E (E.hw.dcWr a v n)
      { s with ram := { s.ram with bytes := put s.ram.bytes a v.toNat n } }) := by
  simp only [devWr, mmWr]
  rw [M.bind_ok (guard_ok _ hr), M.bind_ok (M.get_app _ _),
    s.ram.wr_ok v hn (by rw [hs.1]; exact hf) (by rw [hs.1]; decide),
    M.bind_ok (M.lift_ok _ _), M.bind_ok (M.mod_app _ _), hwUpd_app]
omit hs hn in
theorem ramWr_denied (hr : checkAccess a false true false E.regions = false) :
    devWr E .main a v n s = .abort := by
  simp only [devWr, mmWr]
  rw [M.bind_app, guard_abort _ hr]

theorem clintRd_app (hf : a.toNat + n ≤ 32) :
    devRd E .clint a n s = .ok (BitVec.ofNat 32 (le s.clint.dev.bytes a n), s) := by
  simp only [devRd]
  rw [M.bind_ok (M.get_app _ _),
    s.clint.dev.rd_ok hn (by rw [hs.2.2]; exact hf) (by rw [hs.2.2]; decide)]
  rfl
theorem clintWr_app (hf : a.toNat + n ≤ 32) :
    devWr E .clint a v n s = .ok ((), { s with clint := { s.clint with
      dev := { s.clint.dev with bytes := put s.clint.dev.bytes a v.toNat n } } }) := by
  simp only [devWr]
  rw [M.bind_ok (M.get_app _ _),
    s.clint.dev.wr_ok v hn (by rw [hs.2.2]; exact hf) (by rw [hs.2.2]; decide)]
  rfl

/-- UART register contents after a store -/
def uartWrSt (a v : W) (n : Nat) (u : Uart) : Uart :=
  if a = 8#32 then
    { u with dev := { u.dev with bytes := put u.dev.bytes a (v.toNat % 256) n }
             log := u.log ++ [v.setWidth 8] }
  else u

theorem uartWr_app (hf : a.toNat + n ≤ 12) :
    devWr E .uart a v n s = .ok ((), { s with uart := uartWrSt a v n s.uart }) := by
  simp only [devWr, uartWr, uartWrSt]
  split
  · rw [M.bind_ok (M.get_app _ _),
      s.uart.dev.wr_ok _ hn (by rw [hs.2.1]; exact hf) (by rw [hs.2.1]; decide)]
    have : (BitVec.setWidth 32 (BitVec.setWidth 8 v)).toNat = v.toNat % 256 := by
      rw [BitVec.toNat_setWidth, BitVec.toNat_setWidth]; omega
    rw [this]
    rfl
  · rfl

/-- the UART after a load of RX in a build with input -/
def uartPop (u : Uart) : Uart :=
  { u with dev := { u.dev with bytes := upd u.dev.bytes 0#32 (u.dev.bytes 0#32 &&& ~~~2#8) } }

theorem uartRd_app (hf : a.toNat + n ≤ 12) :
    devRd E .uart a n s =
      if E.cfg.uartIn = false ∨ a < 4#32 then .ok (BitVec.ofNat 32 (le s.uart.dev.bytes a n), s)
      else if a = 4#32 then
        .ok (BitVec.ofNat 32 (le s.uart.dev.bytes a n), meipSt { s with uart := uartPop s.uart })
      else .ok (0#32, s) := by
  have hz := hs.2.1
  have hrd : ∀ d : Dev, d.size = 12 → d.rd a n = .ok (BitVec.ofNat 32 (le d.bytes a n)) := fun d hd =>
    d.rd_ok hn (by rw [hd]; exact hf) (by rw [hd]; decide)
  simp only [devRd, uartRd]
  cases hu : E.cfg.uartIn
  · simp only [Bool.false_eq_true, if_false, true_or, if_true]
    rw [M.bind_ok (M.get_app _ _), hrd _ hz]
    rfl
  · simp only [if_true, Bool.true_eq_false, false_or]
    split
    · rw [M.bind_ok (M.get_app _ _), hrd _ hz]
      rfl
    · split
      · rename_i h4
        rw [M.bind_ok (M.get_app _ _), s.uart.dev.get_ok (a := 0#32) (by rw [hz]; decide),
          M.bind_ok (M.lift_ok _ _), s.uart.dev.set_ok (a := 0#32) _ (by rw [hz]; decide),
          M.bind_ok (M.lift_ok _ _), M.bind_ok (M.mod_app _ _)]
        have h2 : Sized ({ s with uart := uartPop s.uart } : St σ) := ⟨hs.1, hz, hs.2.2⟩
        have h3 := refreshMeip_app _ h2
        unfold uartPop at h3
        rw [M.bind_ok h3, M.bind_ok (M.get_app _ _), hrd _ (by exact hz)]
        have h5 : le (upd s.uart.dev.bytes 0#32 (s.uart.dev.bytes 0#32 &&& ~~~2#8)) a n =
            le s.uart.dev.bytes a n := by
          apply le_congr
          intro k hk
          apply upd_other
          rw [h4]
          have : k < 4 := by rcases hn with rfl | rfl | rfl <;> omega
          interval_cases k <;> decide
        simp only [meipSt, M.lift_ok, h5]
        rfl
      · rfl
end
end Ama
