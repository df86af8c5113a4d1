import Verif.Lemmas.CsrTable
import Verif.Lemmas.Clock
/-!
# Total correctness

`twp ab m Q s`: executing `m` from `s` returns and satisfies `Q`, or raises the C++
exception and `ab` holds; it has no undefined behaviour.
`St.core`: the part of the state that instructions may observe or that counts progress.
-/
namespace Ama
open M Spec
variable {σ α β : Type}

/-- total correctness -/
def twp (ab : Prop) (m : M σ α) (Q : α → St σ → Prop) (s : St σ) : Prop :=
  match m s with
  | .ok (a, q) => Q a q
  | .ub _ => False
  | .abort => ab

theorem twp_bind {ab : Prop} {m : M σ α} {f : α → M σ β} {Q : β → St σ → Prop} {s : St σ} :
    twp ab (m >>= f) Q s ↔ twp ab m (fun a q => twp ab (f a) Q q) s := by
  unfold twp
  rw [bind_app]
  cases h : m s with
  | ok r => rfl
  | ub k => rfl
  | abort => rfl
theorem twp_pure {ab : Prop} {a : α} {Q : α → St σ → Prop} {s : St σ} :
    twp ab (pure a : M σ α) Q s ↔ Q a s := Iff.rfl
theorem twp_get {ab : Prop} {f : St σ → α} {Q : α → St σ → Prop} {s : St σ} :
    twp ab (M.get f) Q s ↔ Q (f s) s := Iff.rfl
theorem twp_mod {ab : Prop} {f : St σ → St σ} {Q : Unit → St σ → Prop} {s : St σ} :
    twp ab (M.mod f) Q s ↔ Q () (f s) := Iff.rfl
theorem twp_lift_ok {ab : Prop} {a : α} {Q : α → St σ → Prop} {s : St σ} :
    twp ab (M.lift (.ok a)) Q s ↔ Q a s := Iff.rfl
theorem twp_ok {ab : Prop} {m : M σ α} {Q : α → St σ → Prop} {s q : St σ} {a : α}
    (h : m s = .ok (a, q)) : twp ab m Q s ↔ Q a q := by simp [twp, h]
theorem twp_abort {ab : Prop} {m : M σ α} {Q : α → St σ → Prop} {s : St σ}
    (h : m s = .abort) : twp ab m Q s ↔ ab := by simp [twp, h]
theorem twp_mono {ab : Prop} {m : M σ α} {Q Q' : α → St σ → Prop} {s : St σ} (h : twp ab m Q s)
    (hq : ∀ a s, Q a s → Q' a s) : twp ab m Q' s := by
  unfold twp at *
  split
  · rename_i he; rw [he] at h; exact hq _ _ h
  · rename_i he; rw [he] at h; exact h
  · rename_i he; rw [he] at h; exact h
theorem twp_ite {ab : Prop} {c : Prop} [Decidable c] {x y : M σ α} {Q : α → St σ → Prop} {s : St σ} :
    twp ab (if c then x else y) Q s ↔ if c then twp ab x Q s else twp ab y Q s := by
  split <;> rfl
theorem guard_ok (s : St σ) {b : Bool} (h : b = true) : guardAccess b s = .ok ((), s) := by
  simp [guardAccess, h]
theorem guard_abort (s : St σ) {b : Bool} (h : b = false) : guardAccess b s = .abort := by
  simp [guardAccess, h]
/-- with `ab = False` the call returns -/
theorem twp_ex {m : M σ α} {Q : α → St σ → Prop} {s : St σ} (h : twp False m Q s) :
    ∃ a q, m s = .ok (a, q) ∧ Q a q := by
  unfold twp at h
  split at h
  · rename_i a q he; exact ⟨a, q, he, h⟩
  · exact h.elim
  · exact h.elim
/-- with an impossible postcondition the call throws -/
theorem twp_throws {m : M σ α} {s : St σ} (h : twp True m (fun _ _ => False) s) :
    m s = .abort := by
  unfold twp at h
  split at h
  · exact h.elim
  · exact h.elim
  · assumption

/-- architectural part of the state, with the step bookkeeping -/
structure Core where
  pc : W
  nextPc : W
  inst : W
  rf : BitVec 5 → W
  csr : BitVec 16 → W
  trapped : Bool
  wfiActive : Bool
  wfiPend : Bool
  simStep : BitVec 64
  simInst : BitVec 64
  csrStep : BitVec 64
  csrInst : BitVec 64
  ram : Dev
  uart : Uart
  clint : Clint
  trapLog : List (W × W × W)

/-- projection -/
def St.core (s : St σ) : Core :=
  { pc := s.pc, nextPc := s.nextPc, inst := s.inst, rf := s.rf, csr := s.csr, trapped := s.trapped,
    wfiActive := s.wfiActive, wfiPend := s.wfiPend, simStep := s.simStep, simInst := s.simInst,
    csrStep := s.csrStep, csrInst := s.csrInst, ram := s.ram, uart := s.uart, clint := s.clint,
    trapLog := s.trapLog }

section
variable {s : St σ} {c : Core} (h : s.core = c)
include h
theorem core_pc : s.pc = c.pc := by rw [← h]; rfl
theorem core_nextPc : s.nextPc = c.nextPc := by rw [← h]; rfl
theorem core_inst : s.inst = c.inst := by rw [← h]; rfl
theorem core_rf : s.rf = c.rf := by rw [← h]; rfl
theorem core_csr : s.csr = c.csr := by rw [← h]; rfl
theorem core_trapped : s.trapped = c.trapped := by rw [← h]; rfl
theorem core_wfiActive : s.wfiActive = c.wfiActive := by rw [← h]; rfl
theorem core_wfiPend : s.wfiPend = c.wfiPend := by rw [← h]; rfl
theorem core_simStep : s.simStep = c.simStep := by rw [← h]; rfl
theorem core_simInst : s.simInst = c.simInst := by rw [← h]; rfl
theorem core_ram : s.ram = c.ram := by rw [← h]; rfl
theorem core_uart : s.uart = c.uart := by rw [← h]; rfl
theorem core_clint : s.clint = c.clint := by rw [← h]; rfl
theorem core_csrStep : s.csrStep = c.csrStep := by rw [← h]; rfl
theorem core_csrInst : s.csrInst = c.csrInst := by rw [← h]; rfl
theorem core_trapLog : s.trapLog = c.trapLog := by rw [← h]; rfl
end

/-- device sizes, on the core part -/
def Core.Sized (c : Core) : Prop :=
  c.ram.size = memSize ∧ c.uart.dev.size = 12 ∧ c.clint.dev.size = 32
theorem sized_core {s : St σ} : Ama.Sized s ↔ s.core.Sized := Iff.rfl

/-- the clock phase on the core part -/
def clockCore (E : Env σ) (c : Core) : Core :=
  let ticks := c.clint.ticks + 1#64
  let t := mtimeOf c.clint.dev + ticks / 100#64
  let csr1 := upd c.csr A.mip (if mtimecmpOf c.clint.dev ≤ t then c.csr A.mip ||| 0x80#32
      else c.csr A.mip &&& ~~~0x80#32)
  let c1 := { c with
    clint := { dev := { c.clint.dev with bytes := put c.clint.dev.bytes 0x10#32 t.toNat 8 },
               ticks := ticks % 100#64 }
    csr := csr1 }
  if E.cfg.uartIn then
    let u := rxSt E c.simStep c.uart
    { c1 with
      uart := u
      csr := upd csr1 A.mip (if u.dev.bytes 0#32 &&& 2#8 ≠ 0#8 then csr1 A.mip ||| 0x800#32
        else csr1 A.mip &&& ~~~0x800#32) }
  else c1

theorem clock_core (E : Env σ) (s : St σ) : (clockSt E s).core = clockCore E s.core := by
  have h1 : s.core.clint = s.clint := rfl
  have h2 : s.core.csr = s.csr := rfl
  have h3 : s.core.uart = s.uart := rfl
  have h4 : s.core.simStep = s.simStep := rfl
  unfold clockCore
  rw [h1, h2, h3, h4]
  cases h : E.cfg.uartIn <;>
    simp only [clockSt, h, mtimeSt, meipSt, St.core, if_true, Bool.false_eq_true, if_false]

/-! ## Noise: calls that change nothing in the core part -/

/-- `m` returns `a` and leaves the core part alone -/
theorem twp_emit {ab : Prop} {E : Env σ} {ev : ProfEv} {Q : Unit → St σ → Prop} {s : St σ}
    (h : ∀ q, q.core = s.core → q.lastInstBranch = s.lastInstBranch → Q () q) : twp ab (emit E ev) Q s := by
  unfold emit
  split
  · exact h _ rfl rfl
  · exact h _ rfl rfl
theorem twp_hwUpd {ab : Prop} {E : Env σ} {f : σ → σ} {Q : Unit → St σ → Prop} {s : St σ}
    (h : ∀ q, q.core = s.core → q.lastInstBranch = s.lastInstBranch → Q () q) : twp ab (hwUpd E f) Q s := by
  unfold hwUpd
  split
  · exact h _ rfl rfl
  · exact h _ rfl rfl
theorem twp_profState {ab : Prop} {E : Env σ} {b : Bool} {Q : Unit → St σ → Prop} {s : St σ}
    (h : ∀ q, q.core = s.core → q.lastInstBranch = s.lastInstBranch → q.instResolved = s.instResolved →
      Q () q) : twp ab (profState E b) Q s := by
  unfold profState whenM
  rw [twp_bind, twp_ite]
  split
  · rw [twp_mod]; unfold hwUpd; split
    · exact h _ rfl rfl rfl
    · exact h _ rfl rfl rfl
  · rw [twp_pure]; unfold hwUpd; split
    · exact h _ rfl rfl rfl
    · exact h _ rfl rfl rfl

end Ama
