import Verif.Lemmas.Bus
import Verif.Props.Timer
/-!
# C09, C27, C28, C30, C32, C33: memory map, main memory and devices over access histories
-/
namespace Ama
open M Spec
variable {σ : Type}

/-! ## C27: routing -/

/-- device ranges do not overlap -/
theorem devices_disjoint {u : Bool} {d d' : DevId} {a : W} (h : inDevice u d a) (h' : inDevice u d' a) :
    d = d' := by
  have h1 := mapFind_device h
  rw [mapFind_device h'] at h1
  simp only [Option.some.injEq, Prod.mk.injEq] at h1
  exact h1.2.symm

/-- **C27** A data access of size 1, 2 or 4 at any address: if it is aligned and lies wholly in a
device it is that device's access at the offset from its base; if its address is in a device but
misaligned it raises the misaligned exception (cause 4/6); if its address is in no device it raises
the access fault (cause 5/7) with mtval the address. These cases are exhaustive. -/
theorem memory_map (E : Env σ) (s : St σ) (ht : s.trapped = false) (a v : W) (n : Nat)
    (hn : n = 1 ∨ n = 2 ∨ n = 4) :
    (∀ d, accessIn E.cfg.uart d a n → a.toNat % n = 0 →
      memRd E a n s = devRd E d (a - devBase d) n s ∧
      memWr E a v n s = devWr E d (a - devBase d) v n s) ∧
    (∀ d, inDevice E.cfg.uart d a → a.toNat % n ≠ 0 →
      memRd E a n s = .ok (0#32, trapTo 4#32 (a - devBase d) s) ∧
      memWr E a v n s = .ok ((), trapTo 6#32 (a - devBase d) s)) ∧
    ((∀ d, ¬ inDevice E.cfg.uart d a) →
      memRd E a n s = .ok (0#32, trapTo 5#32 a s) ∧ memWr E a v n s = .ok ((), trapTo 7#32 a s)) ∧
    ((∃ d, accessIn E.cfg.uart d a n ∧ a.toNat % n = 0) ∨ (∃ d, inDevice E.cfg.uart d a ∧ a.toNat % n ≠ 0) ∨
      ∀ d, ¬ inDevice E.cfg.uart d a) := by
  refine ⟨fun d h ha => ?_, fun d h ha => ⟨memRd_mis hn h ha, memWr_mis hn h ha⟩,
    fun h => ⟨memRd_nowhere h, memWr_nowhere h⟩, ?_⟩
  · have h' := (access_aligned hn ha).mpr h
    exact ⟨memRd_dev hn ht h' ha, memWr_dev hn ht h' ha⟩
  · rcases inDevice_or E.cfg.uart a with ⟨d, hd⟩ | h
    · by_cases ha : a.toNat % n = 0
      · exact Or.inl ⟨d, (access_aligned hn ha).mp hd, ha⟩
      · exact Or.inr (Or.inl ⟨d, hd, ha⟩)
    · exact Or.inr (Or.inr h)

/-- the trap of a faulting access: architectural registers it sets -/
theorem trap_registers (cause tval : W) (s : St σ) :
    (trapTo cause tval s).csr 0x342#16 = cause ∧ (trapTo cause tval s).csr 0x343#16 = tval ∧
    (trapTo cause tval s).csr 0x341#16 = s.pc ∧ (trapTo cause tval s).trapped = true ∧
    (trapTo cause tval s).ram = s.ram ∧ (trapTo cause tval s).uart = s.uart ∧
    (trapTo cause tval s).clint = s.clint ∧ (trapTo cause tval s).rf = s.rf :=
  ⟨rfl, rfl, rfl, rfl, rfl, rfl, rfl, rfl⟩

/-! ## Access histories -/

/-- an event on the memory system: a guest load or store, a timer update, a UART input poll -/
inductive BusOp where
  | load (a : W) (n : Nat)
  | store (a v : W) (n : Nat)
  | tick
  | poll (time : BitVec 64)

/-- sizes the instructions use -/
def BusOp.ok : BusOp → Prop
  | .load _ n => n = 1 ∨ n = 2 ∨ n = 4
  | .store _ _ n => n = 1 ∨ n = 2 ∨ n = 4
  | _ => True

/-- perform the event; an access starts with the trap flag clear, as in `single_step` -/
def BusOp.run (E : Env σ) : BusOp → M σ W
  | .load a n => do
    mod fun s => { s with trapped := false }
    memRd E a n
  | .store a v n => do
    mod fun s => { s with trapped := false }
    memWr E a v n
    pure 0#32
  | .tick => do
    updateMtime 1#64
    pure 0#32
  | .poll t => do
    uartUpdateInput E t
    pure 0#32

/-- what is observed of an event: the value returned and RX_VALID before it -/
structure Ev where
  op : BusOp
  val : W
  valid : Bool

/-- RX_VALID, bit 1 of the UART status register -/
def Spec.rxValid (u : Uart) : Bool := (u.dev.bytes 0#32).getLsbD 1

/-- perform a sequence of events, oldest first, and record what is observed -/
def runBus (E : Env σ) : List BusOp → M σ (List Ev)
  | [] => pure []
  | o :: os => do
    let b ← get (fun s => rxValid s.uart)
    let v ← o.run E
    let es ← runBus E os
    pure (⟨o, v, b⟩ :: es)

/-- what one event may do: value returned and state afterwards -/
inductive BusEff (E : Env σ) (s : St σ) : BusOp → W → Core → Prop
  | ramLoad (a : W) (n : Nat) : inDevice E.cfg.uart .main a → a.toNat % n = 0 →
      checkAccess (a - memBase) true false false E.regions = true →
      BusEff E s (.load a n) (BitVec.ofNat 32 (le s.ram.bytes (a - memBase) n)) { s.core with trapped := false }
  | clintLoad (a : W) (n : Nat) : inDevice E.cfg.uart .clint a → a.toNat % n = 0 →
      BusEff E s (.load a n) (BitVec.ofNat 32 (le s.clint.dev.bytes (a - clintBase) n)) { s.core with trapped := false }
  | uartLoad (a : W) (n : Nat) : inDevice E.cfg.uart .uart a → a.toNat % n = 0 →
      E.cfg.uartIn = false ∨ a < 0x10013004#32 →
      BusEff E s (.load a n) (BitVec.ofNat 32 (le s.uart.dev.bytes (a - uartBase) n)) { s.core with trapped := false }
  | uartPop (n : Nat) : E.cfg.uart = true → E.cfg.uartIn = true →
      BusEff E s (.load 0x10013004#32 n) (BitVec.ofNat 32 (le s.uart.dev.bytes 4#32 n))
        (meipSt { s with trapped := false, uart := Ama.uartPop s.uart }).core
  | uartHole (a : W) (n : Nat) : inDevice E.cfg.uart .uart a → a.toNat % n = 0 → E.cfg.uartIn = true →
      0x10013004#32 < a → BusEff E s (.load a n) 0#32 { s.core with trapped := false }
  | ramStore (a v : W) (n : Nat) : inDevice E.cfg.uart .main a → a.toNat % n = 0 →
      checkAccess (a - memBase) false true false E.regions = true →
      BusEff E s (.store a v n) 0#32 { s.core with
        trapped := false, ram := { s.ram with bytes := put s.ram.bytes (a - memBase) v.toNat n } }
  | uartStore (a v : W) (n : Nat) : inDevice E.cfg.uart .uart a → a.toNat % n = 0 →
      BusEff E s (.store a v n) 0#32 { s.core with
        trapped := false, uart := uartWrSt (a - uartBase) v n s.uart }
  | clintStore (a v : W) (n : Nat) : inDevice E.cfg.uart .clint a → a.toNat % n = 0 →
      BusEff E s (.store a v n) 0#32 { s.core with
        trapped := false
        clint := { s.clint with dev := { s.clint.dev with
          bytes := put s.clint.dev.bytes (a - clintBase) v.toNat n } } }
  | loadFault (a : W) (n : Nat) (c v : W) : ¬ ((∃ d, inDevice E.cfg.uart d a) ∧ a.toNat % n = 0) →
      BusEff E s (.load a n) 0#32 (trapCore c v { s.core with trapped := false })
  | storeFault (a w : W) (n : Nat) (c v : W) : ¬ ((∃ d, inDevice E.cfg.uart d a) ∧ a.toNat % n = 0) →
      BusEff E s (.store a w n) 0#32 (trapCore c v { s.core with trapped := false })
  | tick : BusEff E s .tick 0#32 (mtimeSt 1#64 s).core
  | poll (time : BitVec 64) : BusEff E s (.poll time) 0#32 (meipSt { s with uart := rxSt E time s.uart }).core

/-- an access to main memory that the segment permissions forbid -/
def BusOp.denied (E : Env σ) : BusOp → Prop
  | .load a n => inDevice E.cfg.uart .main a ∧ a.toNat % n = 0 ∧
      checkAccess (a - memBase) true false false E.regions = false
  | .store a _ n => inDevice E.cfg.uart .main a ∧ a.toNat % n = 0 ∧
      checkAccess (a - memBase) false true false E.regions = false
  | _ => False

theorem hwSt_core (E : Env σ) (f : σ → σ) (s : St σ) : (hwSt E f s).core = s.core := by
  unfold hwSt; split <;> rfl

/-- every event has one of the listed effects, or throws because of segment permissions -/
theorem busOp_eff (E : Env σ) (o : BusOp) (ho : o.ok) (s : St σ) (hs : Sized s) :
    (o.run E s = .abort ∧ o.denied E) ∨
    ∃ v t, o.run E s = .ok (v, t) ∧ BusEff E s o v t.core ∧ Sized t := by
  have hs0 : Sized ({ s with trapped := false } : St σ) := hs
  have hc0 : ({ s with trapped := false } : St σ).core = { s.core with trapped := false } := rfl
  cases o with
  | load a n =>
    have hn : n = 1 ∨ n = 2 ∨ n = 4 := ho
    have hrun : BusOp.run E (.load a n) s = memRd E a n { s with trapped := false } := by
      simp only [BusOp.run]; rw [M.bind_ok (M.mod_app _ _)]
    rw [hrun]
    rcases inDevice_or E.cfg.uart a with ⟨d, hd⟩ | h
    · by_cases ha : a.toNat % n = 0
      · have hf := dev_fit hd hn ha
        rw [memRd_dev hn rfl hd ha]
        cases d with
        | main =>
          cases hr : checkAccess (a - devBase .main) true false false E.regions
          · left
            exact ⟨ramRd_denied hr, hd, ha, hr⟩
          · right
            refine ⟨_, _, ramRd_app hs0 hn hf hr, ?_, ?_⟩
            · rw [hwSt_core, hc0]; exact .ramLoad a n hd ha hr
            · rw [sized_core, hwSt_core]; exact hs
        | clint => right; exact ⟨_, _, clintRd_app hs0 hn hf, .clintLoad a n hd ha, hs⟩
        | uart =>
          right
          have e := uartRd_app (E := E) hs0 hn hf
          obtain ⟨o1, o2, -⟩ := dev_off hd
          have hb : (devBase .uart).toNat = 0x10013000 := rfl
          by_cases h1 : E.cfg.uartIn = false ∨ a - devBase .uart < 4#32
          · rw [if_pos h1] at e
            refine ⟨_, _, e, .uartLoad a n hd ha (h1.imp id fun h => ?_), hs⟩
            rw [BitVec.lt_def, o1] at h
            rw [BitVec.lt_def]
            have : (4#32).toNat = 4 := rfl
            have : (0x10013004#32).toNat = 0x10013004 := rfl
            omega
          · rw [if_neg h1] at e
            rw [not_or] at h1
            have hui : E.cfg.uartIn = true := by simpa using h1.1
            have h5 : E.cfg.uart = true := by
              obtain ⟨r, hr, -⟩ := hd
              cases hu : E.cfg.uart
              · rw [hu] at hr; simp [devRange] at hr
              · rfl
            by_cases h4 : a - devBase .uart = 4#32
            · have ha4 : a = 0x10013004#32 := by
                apply BitVec.eq_of_toNat_eq
                have := congrArg BitVec.toNat h4
                rw [o1] at this
                have h7 : (4#32).toNat = 4 := rfl
                have h6 : (0x10013004#32).toNat = 0x10013004 := rfl
                omega
              rw [if_pos h4, h4] at e
              rw [h4]
              refine ⟨_, _, e, ?_, hs⟩
              rw [ha4]
              exact .uartPop n h5 hui
            · rw [if_neg h4] at e
              refine ⟨_, _, e, .uartHole a n hd ha hui ?_, hs⟩
              have h1' := h1.2
              rw [BitVec.lt_def, o1] at h1'
              rw [BitVec.lt_def]
              have h7 : (4#32).toNat = 4 := rfl
              have h6 : (0x10013004#32).toNat = 0x10013004 := rfl
              have : (a - devBase .uart).toNat ≠ 4 := fun hh => h4 (BitVec.eq_of_toNat_eq hh)
              omega
      · right
        exact ⟨_, _, memRd_mis hn hd ha, .loadFault a n _ _ fun h => ha h.2, hs⟩
    · right
      exact ⟨_, _, memRd_nowhere h, .loadFault a n _ _ fun hh => h _ hh.1.choose_spec, hs⟩
  | store a v n =>
    have hn : n = 1 ∨ n = 2 ∨ n = 4 := ho
    have hrun : ∀ r, memWr E a v n { s with trapped := false } = r → BusOp.run E (.store a v n) s =
        (match r with | .ok p => .ok (0#32, p.2) | .ub k => .ub k | .abort => .abort) := by
      intro r hr
      simp only [BusOp.run]
      rw [M.bind_ok (M.mod_app _ _), M.bind_app, hr]
      cases r <;> rfl
    rcases inDevice_or E.cfg.uart a with ⟨d, hd⟩ | h
    · by_cases ha : a.toNat % n = 0
      · have hf := dev_fit hd hn ha
        have hrun' := hrun _ (memWr_dev hn rfl hd ha)
        cases d with
        | main =>
          cases hr : checkAccess (a - devBase .main) false true false E.regions
          · left
            rw [ramWr_denied hr] at hrun'
            exact ⟨hrun', hd, ha, hr⟩
          · right
            rw [ramWr_app hs0 hn hf hr] at hrun'
            refine ⟨_, _, hrun', ?_, ?_⟩
            · rw [hwSt_core]; exact .ramStore a v n hd ha hr
            · rw [sized_core, hwSt_core]; exact hs
        | clint =>
          right
          rw [clintWr_app hs0 hn hf] at hrun'
          exact ⟨_, _, hrun', .clintStore a v n hd ha, hs⟩
        | uart =>
          right
          rw [uartWr_app hs0 hn hf] at hrun'
          refine ⟨_, _, hrun', .uartStore a v n hd ha, ?_⟩
          refine ⟨hs.1, ?_, hs.2.2⟩
          simp only [uartWrSt]
          split <;> exact hs.2.1
      · right
        exact ⟨_, _, hrun _ (memWr_mis hn hd ha), .storeFault a v n _ _ fun h => ha h.2, hs⟩
    · right
      exact ⟨_, _, hrun _ (memWr_nowhere h), .storeFault a v n _ _ fun hh => h _ hh.1.choose_spec, hs⟩
  | tick =>
    right
    refine ⟨0#32, mtimeSt 1#64 s, ?_, .tick, hs.1, hs.2.1, hs.2.2⟩
    simp only [BusOp.run]; rw [M.bind_ok (updateMtime_app _ _ hs)]; rfl
  | poll t =>
    right
    refine ⟨0#32, _, ?_, .poll t, hs.1, ?_, hs.2.2⟩
    · simp only [BusOp.run]; rw [M.bind_ok (uartUpdateInput_app _ _ _ hs)]; rfl
    · exact (rxSt_frame E t s.uart).2.trans hs.2.1

/-- induction over histories: a relation between what was observed and the state reached -/
theorem runBus_ind {E : Env σ} {R : List Ev → Core → Prop} {ops : List BusOp} {s t : St σ} {es : List Ev}
    (hops : ∀ o ∈ ops, o.ok) (hs : Sized s) (pre : List Ev) (h0 : R pre s.core)
    (hstep : ∀ es q o v c, Sized q → R es q.core → o ∈ ops → o.ok → BusEff E q o v c →
      R (es ++ [⟨o, v, rxValid q.uart⟩]) c)
    (h : runBus E ops s = .ok (es, t)) :
    R (pre ++ es) t.core ∧ Sized t ∧ es.map Ev.op = ops := by
  induction ops generalizing s pre es with
  | nil =>
    cases h
    rw [List.append_nil]
    exact ⟨h0, hs, rfl⟩
  | cons o os ih =>
    rw [runBus, M.bind_ok (M.get_app _ _)] at h
    have ho := hops o (List.mem_cons_self)
    rcases busOp_eff E o ho s hs with ⟨e, -⟩ | ⟨v, q, e, eff, sz⟩
    · rw [M.bind_app, e] at h; cases h
    · rw [M.bind_ok e, M.bind_app] at h
      cases hr : runBus E os q with
      | ok r =>
        obtain ⟨es', t'⟩ := r
        rw [hr] at h
        cases h
        have hR := hstep pre s o v q.core hs h0 List.mem_cons_self ho eff
        obtain ⟨a1, a2, a3⟩ := ih (fun o' ho' => hops o' (List.mem_cons_of_mem _ ho')) sz _ hR
          (fun es q o v c h1 h2 h3 => hstep es q o v c h1 h2 (List.mem_cons_of_mem _ h3)) hr
        rw [List.append_assoc] at a1
        exact ⟨a1, a2, by rw [List.map_cons, a3]⟩
      | ub k => rw [hr] at h; cases h
      | abort => rw [hr] at h; cases h

/-- no history of accesses has undefined behaviour -/
theorem runBus_no_ub (E : Env σ) (ops : List BusOp) (hops : ∀ o ∈ ops, o.ok) (s : St σ) (hs : Sized s)
    (k : UB) : runBus E ops s ≠ .ub k := by
  induction ops generalizing s k with
  | nil => exact nofun
  | cons o os ih =>
    rw [runBus, M.bind_ok (M.get_app _ _)]
    rcases busOp_eff E o (hops o List.mem_cons_self) s hs with ⟨e, -⟩ | ⟨v, q, e, -, sz⟩
    · rw [M.bind_app, e]; exact nofun
    · rw [M.bind_ok e, M.bind_app]
      have := ih (fun o' ho' => hops o' (List.mem_cons_of_mem _ ho')) q sz
      cases hr : runBus E os q with
      | ok r => exact nofun
      | ub k' => exact absurd hr (this k')
      | abort => exact nofun

/-! ## C09 -/

/-- byte `k` of `v` -/
def Spec.byteOf (v : W) (k : Nat) : BitVec 8 := BitVec.ofNat 8 (v.toNat / 256 ^ k)

/-- contents of guest address `x` after a history (newest first): the byte of the most recent
aligned store to main memory covering `x`, or the initial image -/
def Spec.lastStore (img : W → BitVec 8) : List BusOp → W → BitVec 8
  | [], x => img x
  | .store a v n :: h, x =>
    if inRam a ∧ a.toNat % n = 0 ∧ a.toNat ≤ x.toNat ∧ x.toNat < a.toNat + n
    then byteOf v (x.toNat - a.toNat) else lastStore img h x
  | _ :: h, x => lastStore img h x

theorem inDevice_main {u : Bool} {a : W} : inDevice u .main a ↔ inRam a := by
  constructor
  · rintro ⟨r, h1, h2, h3⟩
    simp only [devRange, Option.some.injEq] at h1
    subst h1
    exact ⟨h2, h3⟩
  · exact fun h => ⟨_, rfl, h.1, h.2⟩

/-- RAM contents as a function of guest addresses -/
def ramAt (c : Core) (x : W) : BitVec 8 := c.ram.bytes (x - memBase)

theorem ram_eff {E : Env σ} {q : St σ} {o : BusOp} {v : W} {c : Core} (ho : o.ok) (h : BusEff E q o v c)
    (hist : List BusOp) (img : W → BitVec 8)
    (hr : ∀ x, inRam x → ramAt q.core x = lastStore img hist x) (x : W) (hx : inRam x) :
    ramAt c x = lastStore img (o :: hist) x := by
  have keep : ∀ o' : BusOp, (∀ a v n, o' = .store a v n → ¬ (inRam a ∧ a.toNat % n = 0 ∧ a.toNat ≤ x.toNat ∧
      x.toNat < a.toNat + n)) → ramAt q.core x = lastStore img (o' :: hist) x := by
    intro o' h'
    cases o' with
    | store a v n => simp only [lastStore]; rw [if_neg (h' a v n rfl)]; exact hr x hx
    | load a n => exact hr x hx
    | tick => exact hr x hx
    | poll t => exact hr x hx
  cases h with
  | ramStore a v n h1 h2 h3 =>
    have ha := inDevice_main.mp h1
    have hn : n = 1 ∨ n = 2 ∨ n = 4 := ho
    have hfit := ram_fit ha hn h2
    have e1 := ram_off ha
    have e2 := ram_off hx
    have a1 := ha.1
    have x1 := hx.1
    have hd : (x - memBase - (a - memBase)).toNat = if a.toNat ≤ x.toNat then x.toNat - a.toNat
        else 2 ^ 32 + x.toNat - a.toNat := by
      rw [BitVec.toNat_sub, e1, e2]
      have := a.isLt; have := x.isLt
      split <;> omega
    simp only [lastStore, ramAt, put]
    rw [hd]
    by_cases hc : a.toNat ≤ x.toNat ∧ x.toNat < a.toNat + n
    · rw [if_pos hc.1, if_pos (by omega), if_pos ⟨ha, h2, hc⟩]
      rfl
    · have : ¬ (if a.toNat ≤ x.toNat then x.toNat - a.toNat else 2 ^ 32 + x.toNat - a.toNat) < n := by
        have := a.isLt
        have := x.isLt
        have : n ≤ 4 := by omega
        have hxr := hx.2
        have har := ha.2
        split <;> omega
      rw [if_neg this, if_neg (fun hh => hc hh.2.2)]
      exact hr x hx
  | uartStore a v n h1 h2 =>
    exact keep _ fun a' v' n' e ⟨hh, _⟩ => by
      cases e; exact absurd (devices_disjoint (inDevice_main.mpr hh) h1) nofun
  | clintStore a v n h1 h2 =>
    exact keep _ fun a' v' n' e ⟨hh, _⟩ => by
      cases e; exact absurd (devices_disjoint (inDevice_main.mpr hh) h1) nofun
  | storeFault a w n c v h1 =>
    exact keep _ fun a' v' n' e ⟨hh, h2, _⟩ => by
      cases e; exact h1 ⟨⟨_, inDevice_main.mpr hh⟩, h2⟩
  | ramLoad => exact keep _ nofun
  | clintLoad => exact keep _ nofun
  | uartLoad => exact keep _ nofun
  | uartPop => exact keep _ nofun
  | uartHole => exact keep _ nofun
  | loadFault => exact keep _ nofun
  | tick => exact keep _ nofun
  | poll => exact keep _ nofun

/-- **C09** After any sequence of loads, stores, timer updates and UART polls (any mixture of
sizes and addresses, aligned or not, mapped or not), main memory holds at every address the byte of
the most recent store covering it, or the initial image. -/
theorem memory_history (E : Env σ) (ops : List BusOp) (hops : ∀ o ∈ ops, o.ok) (s t : St σ) (hs : Sized s)
    (es : List Ev) (h : runBus E ops s = .ok (es, t)) (x : W) (hx : inRam x) :
    ramAt t.core x = lastStore (ramAt s.core) ops.reverse x := by
  obtain ⟨h1, -, h2⟩ := runBus_ind (R := fun es c => ∀ x, inRam x → ramAt c x =
      lastStore (ramAt s.core) (es.map Ev.op).reverse x) hops hs [] (fun _ _ => rfl)
    (fun es q o v c _ hR _ ho heff x hx => by
      rw [List.map_append, List.reverse_append]
      exact ram_eff ho heff _ _ hR x hx) h
  have := h1 x hx
  rwa [List.nil_append, h2] at this

/-- **C09**, loads: after any history, an aligned load from main memory returns, byte by byte in
little-endian order, the most recently stored bytes. -/
theorem load_after_history (E : Env σ) (ops : List BusOp) (hops : ∀ o ∈ ops, o.ok) (s t u : St σ)
    (hs : Sized s) (es : List Ev) (h : runBus E ops s = .ok (es, t)) (a v : W) (n : Nat)
    (hn : n = 1 ∨ n = 2 ∨ n = 4) (ha : inRam a) (hal : a.toNat % n = 0)
    (hl : (BusOp.load a n).run E t = .ok (v, u)) :
    v = BitVec.ofNat 32 (le (lastStore (ramAt s.core) ops.reverse) a n) := by
  have hsz : Sized t := (runBus_ind (R := fun _ _ => True) hops hs [] trivial
    (fun _ _ _ _ _ _ _ _ _ _ => trivial) h).2.1
  have hm := memory_history E ops hops s t hs es h
  have hd : inDevice E.cfg.uart .main a := inDevice_main.mpr ha
  rcases busOp_eff E (.load a n) hn t hsz with ⟨e, -⟩ | ⟨v', q, e, eff, -⟩
  · rw [e] at hl; cases hl
  · rw [e] at hl
    cases hl
    have hsub := le_shift t.ram.bytes memBase a n
    have hc : le (lastStore (ramAt s.core) ops.reverse) a n = le t.ram.bytes (a - memBase) n := by
      rw [← hsub]
      apply le_congr
      intro k hk
      have h1 := ha.1
      have h2 := ha.2
      have hfit := ram_fit ha hn hal
      have ho := ram_off ha
      have hk4 : k < 4 := by omega
      have e1 : (a + BitVec.ofNat 32 k).toNat = a.toNat + k :=
        add_toNat_of_lt (n := 4) (by omega) hk4
      rw [← hm]
      · rfl
      · unfold memSize at hfit
        constructor <;> rw [e1] <;> omega
    rw [hc]
    generalize u.core = c at eff
    cases eff with
    | ramLoad _ _ h1 h2 h3 => rfl
    | clintLoad _ _ h1 h2 => exact absurd (devices_disjoint hd h1) nofun
    | uartLoad _ _ h1 h2 => exact absurd (devices_disjoint hd h1) nofun
    | uartPop => exact absurd ha.1 (by decide)
    | uartHole _ _ h1 h2 => exact absurd (devices_disjoint hd h1) nofun
    | loadFault _ _ c v h1 => exact absurd ⟨⟨_, hd⟩, hal⟩ h1
end Ama
