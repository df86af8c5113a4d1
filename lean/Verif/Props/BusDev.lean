import Verif.Props.Bus
import Verif.Lemmas.Ex
/-!
# C28, C30, C32, C33: devices over access histories
-/
namespace Ama
open M Spec
variable {σ : Type}

/-! ## Concrete histories, used beside the theorems -/
namespace Ex
/-- build with UART input from a file containing "AB" -/
def envUart : Env Unit := { env0 with cfg := { cfg0 with uartIn := true }, uartIn := [65#8, 66#8] }
/-- observe the end of a history from reset -/
def bus {α : Type} (E : Env Unit) (ops : List BusOp) (f : List Ev → St Unit → α) : Option α :=
  match runBus E ops (st0 E [0x11223344#32]) with
  | .ok (es, s) => some (f es s)
  | _ => none
instance (o : BusOp) : Decidable o.ok := by cases o <;> (unfold BusOp.ok; infer_instance)
end Ex

/-- C09: overlapping stores of different sizes, then a load -/
example : Ex.bus Ex.env0 [.store 0x80000000#32 0xaabbccdd#32 4, .store 0x80000001#32 0x1234ee#32 1,
    .store 0x80000002#32 0x99995566#32 2, .tick, .store 0x80000001#32 7#32 2, .load 0x80000000#32 4]
    (fun es _ => es.map Ev.val) = some [0#32, 0#32, 0#32, 0#32, 0#32, 0x5566eedd#32] := by decide +kernel
/-- C27: an access outside the map, a misaligned one and one that is neither -/
example : Ex.bus Ex.env0 [.load 0x70000000#32 4] (fun _ s => (s.csr 0x342#16, s.csr 0x343#16)) =
    some (5#32, 0x70000000#32) ∧
  Ex.bus Ex.env0 [.store 0x80000002#32 0#32 4] (fun _ s => (s.csr 0x342#16, s.csr 0x343#16)) =
    some (6#32, 2#32) ∧
  Ex.bus Ex.env0 [.load 0x80000002#32 2] (fun es s => (es.map Ev.val, s.trapped)) =
    some ([0x1122#32], false) := by decide +kernel

/-! ## C28: isolation -/

/-- the CSRs agree except for MEIP, bit 11 of mip -/
def Spec.csrButMeip (f g : BitVec 16 → W) : Prop :=
  (∀ a, a ≠ 0x344#16 → f a = g a) ∧ ∀ k, k < 32 → k ≠ 11 → (f 0x344#16).getLsbD k = (g 0x344#16).getLsbD k

theorem meip_other (s : St σ) : csrButMeip (meipSt s).csr s.csr ∧
    ((meipSt s).csr 0x344#16).getLsbD 11 = rxValid s.uart := by
  have hb : ∀ b : BitVec 8, decide (b &&& 2#8 ≠ 0#8) = b.getLsbD 1 := by decide
  have h := set_bit (s.csr A.mip) 0x800#32 11 (by decide) (by decide) (decide (s.uart.dev.bytes 0#32 &&& 2#8 ≠ 0#8))
  simp only [decide_eq_true_eq] at h
  refine ⟨⟨fun a ha => upd_other _ _ ha, fun k hk hne => ?_⟩, ?_⟩
  · unfold meipSt
    simp only [upd]
    rw [if_pos (show (836#16 : BitVec 16) = A.mip from rfl)]
    exact h.1 k hk hne
  · unfold meipSt
    simp only [upd]
    rw [if_pos (show (836#16 : BitVec 16) = A.mip from rfl), h.2]
    exact hb _

/-- **C28**, loads: a load, whatever its address and size, changes no memory and no device, except
that reading the UART receive register clears RX_VALID (and nothing else there); it leaves the
general registers alone and every CSR other than those of a trap and mip.MEIP. -/
theorem load_isolation (E : Env σ) (a : W) (n : Nat) (hn : n = 1 ∨ n = 2 ∨ n = 4) (s t : St σ) (hs : Sized s)
    (v : W) (h : (BusOp.load a n).run E s = .ok (v, t)) :
    t.ram = s.ram ∧ t.clint = s.clint ∧ t.rf = s.rf ∧
    (a ≠ 0x10013004#32 ∨ E.cfg.uartIn = false → t.uart = s.uart) ∧
    (a = 0x10013004#32 → E.cfg.uart = true → E.cfg.uartIn = true →
      rxValid t.uart = false ∧ (∀ k, k ≠ 1 → (t.uart.dev.bytes 0#32).getLsbD k = (s.uart.dev.bytes 0#32).getLsbD k) ∧
      (∀ x, x ≠ 0#32 → t.uart.dev.bytes x = s.uart.dev.bytes x) ∧ t.uart.log = s.uart.log ∧
      t.uart.rxIdx = s.uart.rxIdx ∧ t.uart.polls = s.uart.polls) ∧
    (t.trapped = false → csrButMeip t.csr s.csr) := by
  have refl : ∀ f : BitVec 16 → W, csrButMeip f f := fun f => ⟨fun _ _ => rfl, fun _ _ _ => rfl⟩
  have key : ∀ c : Core, BusEff E s (.load a n) v c → c.ram = s.ram ∧ c.clint = s.clint ∧ c.rf = s.rf ∧
      (a ≠ 0x10013004#32 ∨ E.cfg.uartIn = false → c.uart = s.uart) ∧
      (a = 0x10013004#32 → E.cfg.uart = true → E.cfg.uartIn = true → c.uart = uartPop s.uart) ∧
      (c.trapped = false → csrButMeip c.csr s.csr) := by
    intro c eff
    cases eff with
    | ramLoad _ _ h1 h2 =>
      refine ⟨rfl, rfl, rfl, fun _ => rfl, fun e => ?_, fun _ => refl _⟩
      rw [e] at h1
      exact absurd (inDevice_main.mp h1).1 (by decide)
    | clintLoad _ _ h1 h2 =>
      refine ⟨rfl, rfl, rfl, fun _ => rfl, fun e hu _ => ?_, fun _ => refl _⟩
      rw [e] at h1
      exact absurd (devices_disjoint h1 (d' := .uart) ⟨_, by rw [hu]; rfl, by decide, by decide⟩) nofun
    | uartLoad _ _ h1 h2 h3 =>
      refine ⟨rfl, rfl, rfl, fun _ => rfl, fun e hu hi => ?_, fun _ => refl _⟩
      rw [e, hi] at h3
      exact absurd h3 (by decide)
    | uartPop n h1 h2 =>
      refine ⟨rfl, rfl, rfl, fun h => ?_, fun _ _ _ => rfl, fun _ => (meip_other _).1⟩
      rw [h2] at h
      exact absurd h (by decide)
    | uartHole _ _ h1 h2 h3 h4 =>
      refine ⟨rfl, rfl, rfl, fun _ => rfl, fun e hu hi => ?_, fun _ => refl _⟩
      rw [e] at h4
      exact absurd h4 (by decide)
    | loadFault _ _ c v h1 =>
      refine ⟨rfl, rfl, rfl, fun _ => rfl, fun e hu hi => ?_, nofun⟩
      rw [e] at h1
      refine absurd ⟨⟨.uart, ⟨_, by rw [hu]; rfl, by decide, by decide⟩⟩, ?_⟩ h1
      rcases hn with rfl | rfl | rfl <;> rfl
  rcases busOp_eff E (.load a n) hn s hs with ⟨e, -⟩ | ⟨v', q, e, eff, -⟩
  · rw [e] at h; cases h
  · rw [e] at h
    cases h
    obtain ⟨h1, h2, h3, h4, h5, h6⟩ := key _ eff
    refine ⟨h1, h2, h3, h4, fun e1 e2 e3 => ?_, h6⟩
    have e4 : t.uart = uartPop s.uart := h5 e1 e2 e3
    rw [e4]
    have hb : ∀ b : BitVec 8, (b &&& ~~~2#8).getLsbD 1 = false := by decide
    have hk : ∀ b : BitVec 8, ∀ k, k < 8 → k ≠ 1 → (b &&& ~~~2#8).getLsbD k = b.getLsbD k := by decide
    refine ⟨hb _, fun k hne => ?_, fun x hx => upd_other _ _ hx, rfl, rfl, rfl⟩
    by_cases hk8 : k < 8
    · exact hk _ k hk8 hne
    · rw [BitVec.getLsbD_of_ge _ _ (by omega), BitVec.getLsbD_of_ge _ _ (by omega)]

/-- **C28**, stores: a store routed to one device leaves the others, all registers and all CSRs
alone; a store that is not routed changes no device. -/
theorem store_isolation (E : Env σ) (a v : W) (n : Nat) (hn : n = 1 ∨ n = 2 ∨ n = 4) (s t : St σ) (hs : Sized s)
    (w : W) (h : (BusOp.store a v n).run E s = .ok (w, t)) :
    t.rf = s.rf ∧ (t.trapped = false → t.csr = s.csr) ∧
    (¬ inDevice E.cfg.uart .main a ∨ a.toNat % n ≠ 0 → t.ram = s.ram) ∧
    (¬ inDevice E.cfg.uart .uart a ∨ a.toNat % n ≠ 0 → t.uart = s.uart) ∧
    (¬ inDevice E.cfg.uart .clint a ∨ a.toNat % n ≠ 0 → t.clint = s.clint) := by
  have key : ∀ c : Core, BusEff E s (.store a v n) w c → c.rf = s.rf ∧ (c.trapped = false → c.csr = s.csr) ∧
      (¬ inDevice E.cfg.uart .main a ∨ a.toNat % n ≠ 0 → c.ram = s.ram) ∧
      (¬ inDevice E.cfg.uart .uart a ∨ a.toNat % n ≠ 0 → c.uart = s.uart) ∧
      (¬ inDevice E.cfg.uart .clint a ∨ a.toNat % n ≠ 0 → c.clint = s.clint) := by
    intro c eff
    cases eff with
    | ramStore _ _ _ h1 h2 =>
      exact ⟨rfl, fun _ => rfl, fun h => absurd h (by simp [h1, h2]), fun _ => rfl, fun _ => rfl⟩
    | uartStore _ _ _ h1 h2 =>
      exact ⟨rfl, fun _ => rfl, fun _ => rfl, fun h => absurd h (by simp [h1, h2]), fun _ => rfl⟩
    | clintStore _ _ _ h1 h2 =>
      exact ⟨rfl, fun _ => rfl, fun _ => rfl, fun _ => rfl, fun h => absurd h (by simp [h1, h2])⟩
    | storeFault _ _ _ c v h1 => exact ⟨rfl, nofun, fun _ => rfl, fun _ => rfl, fun _ => rfl⟩
  rcases busOp_eff E (.store a v n) hn s hs with ⟨e, -⟩ | ⟨v', q, e, eff, -⟩
  · rw [e] at h; cases h
  · rw [e] at h
    cases h
    exact key _ eff

/-- a store to the UART that leaves the rest alone, and a load that pops the receive register -/
example : Ex.bus Ex.envUart [.poll 8680#64, .load 0x10013004#32 1, .store 0x10013008#32 0x41#32 1]
    (fun es s => (es.map Ev.val, es.map Ev.valid, s.uart.log, rxValid s.uart)) =
    some ([0#32, 65#32, 0#32], [false, true, false], [65#8], false) := by decide +kernel

/-! ## C30: timer rate over histories -/

/-- the event does not write any byte of mtime (0x02000010–0x02000017) -/
def Spec.sparesMtime : BusOp → Prop
  | .store a _ n => ¬ (a.toNat < 0x02000018 ∧ 0x02000010 < a.toNat + n)
  | _ => True

/-- number of timer updates -/
def Spec.ticksIn : List BusOp → Nat
  | [] => 0
  | .tick :: os => ticksIn os + 1
  | _ :: os => ticksIn os

theorem ticksIn_append (l m : List BusOp) : ticksIn (l ++ m) = ticksIn l + ticksIn m := by
  induction l with
  | nil => simp [ticksIn]
  | cons o os ih => cases o <;> (simp only [List.cons_append, ticksIn, ih]; try omega)

/-- **C30** Over any history that does not store to mtime, mtime advances by one per hundred timer
updates (64-bit arithmetic, carrying the sub-tick remainder): it never moves otherwise. -/
theorem mtime_history (E : Env σ) (ops : List BusOp) (hops : ∀ o ∈ ops, o.ok) (hst : ∀ o ∈ ops, sparesMtime o)
    (s t : St σ) (hs : Sized s) (ht : s.clint.ticks.toNat < 100) (es : List Ev)
    (h : runBus E ops s = .ok (es, t)) :
    reg64 t.clint.dev 0x10#32 =
      (reg64 s.clint.dev 0x10#32 + (s.clint.ticks.toNat + ticksIn ops) / 100) % 2 ^ 64 ∧
    t.clint.ticks.toNat = (s.clint.ticks.toNat + ticksIn ops) % 100 := by
  have hlt : reg64 s.clint.dev 0x10#32 < 2 ^ 64 := le_lt s.clint.dev.bytes 0x10#32 8
  obtain ⟨h1, -, h2⟩ := runBus_ind (R := fun es c =>
      reg64 c.clint.dev 0x10#32 = (reg64 s.clint.dev 0x10#32 +
        (s.clint.ticks.toNat + ticksIn (es.map Ev.op)) / 100) % 2 ^ 64 ∧
      c.clint.ticks.toNat = (s.clint.ticks.toNat + ticksIn (es.map Ev.op)) % 100) hops hs []
    (by
      simp only [List.map_nil, ticksIn, Nat.add_zero]
      rw [Nat.div_eq_of_lt ht, Nat.mod_eq_of_lt ht, Nat.add_zero]
      exact ⟨(Nat.mod_eq_of_lt hlt).symm, rfl⟩)
    (fun es q o v c hq hR hmem ho heff => by
      rw [List.map_append, List.map_cons, List.map_nil, ticksIn_append]
      have keep : c.clint = q.clint → ticksIn [o] = 0 →
          reg64 c.clint.dev 0x10#32 = (reg64 s.clint.dev 0x10#32 +
            (s.clint.ticks.toNat + (ticksIn (es.map Ev.op) + ticksIn [o])) / 100) % 2 ^ 64 ∧
          c.clint.ticks.toNat = (s.clint.ticks.toNat + (ticksIn (es.map Ev.op) + ticksIn [o])) % 100 := fun e1 e2 => by
        rw [e1, e2, Nat.add_zero]; exact hR
      cases heff with
      | tick =>
        obtain ⟨s', e, a1, a2, -⟩ := mtime_update 1#64 q hq
        rw [updateMtime_app 1#64 q hq] at e
        cases e
        have e3 : (q.clint.ticks + 1#64).toNat = q.clint.ticks.toNat + 1 := by
          rw [BitVec.toNat_add]
          have := hR.2
          have h5 : (1#64).toNat = 1 := rfl
          have h6 : q.core.clint.ticks = q.clint.ticks := rfl
          rw [h6] at this
          omega
        refine ⟨a1.trans ?_, a2.trans ?_⟩
        · have h7 : reg64 q.clint.dev 0x10#32 = _ := hR.1
          have h8 : q.clint.ticks.toNat = _ := hR.2
          rw [e3, h7, h8]
          simp only [ticksIn]
          generalize reg64 s.clint.dev 0x10#32 = m
          generalize s.clint.ticks.toNat = k
          generalize ticksIn (es.map Ev.op) = j
          rw [Nat.mod_add_mod]
          congr 1
          omega
        · have h8 : q.clint.ticks.toNat = _ := hR.2
          rw [e3, h8]
          simp only [ticksIn]
          omega
      | clintStore a v n h1 h2 =>
        have hsp := hst _ hmem
        simp only [sparesMtime] at hsp
        have hn : n = 1 ∨ n = 2 ∨ n = 4 := ho
        obtain ⟨o1, o2, -⟩ := dev_off h1
        have hf := dev_fit h1 hn h2
        have hb : (devBase .clint).toNat = 0x02000000 := rfl
        refine ⟨Eq.trans ?_ hR.1, hR.2⟩
        unfold reg64
        apply le_congr
        intro k hk
        simp only [put]
        rw [if_neg]
        · rfl
        · have e1 : (0x10#32 + BitVec.ofNat 32 k).toNat = 16 + k := by
            rw [BitVec.toNat_add, BitVec.toNat_ofNat k]
            have : (0x10#32).toNat = 16 := rfl
            omega
          have hcb : clintBase = devBase .clint := rfl
          rw [hcb, BitVec.toNat_sub, e1, o1]
          have : devSize .clint = 32 := rfl
          rw [o1] at hf
          omega
      | ramLoad => exact keep rfl rfl
      | clintLoad => exact keep rfl rfl
      | uartLoad => exact keep rfl rfl
      | uartPop => exact keep rfl rfl
      | uartHole => exact keep rfl rfl
      | ramStore => exact keep rfl rfl
      | uartStore => exact keep rfl rfl
      | loadFault => exact keep rfl rfl
      | storeFault => exact keep rfl rfl
      | poll => exact keep rfl rfl) h
  rw [List.nil_append, h2] at h1
  exact h1

/-- 250 updates from reset: two timer ticks and a remainder of 50 -/
example : Ex.bus Ex.env0 (List.replicate 250 .tick) (fun _ s => (reg64 s.clint.dev 0x10#32, s.clint.ticks)) =
    some (2, 50#64) := by decide +kernel

/-! ## C32: UART transmit -/

/-- the byte an event transmits: the low byte of a store to 0x10013008, if there is a UART -/
def Spec.txByte (uart : Bool) : BusOp → Option (BitVec 8)
  | .store a v _ => if uart = true ∧ a = 0x10013008#32 then some (v.setWidth 8) else none
  | _ => none

/-- **C32** The transmitted output after any history is the earlier output followed by the low
bytes of the stores to the transmit register, in program order, none lost or duplicated, and no
other event adds a byte. -/
theorem uart_tx_history (E : Env σ) (ops : List BusOp) (hops : ∀ o ∈ ops, o.ok) (s t : St σ) (hs : Sized s)
    (es : List Ev) (h : runBus E ops s = .ok (es, t)) :
    t.uart.log = s.uart.log ++ ops.filterMap (txByte E.cfg.uart) := by
  obtain ⟨h1, -, h2⟩ := runBus_ind (R := fun es c =>
      c.uart.log = s.uart.log ++ (es.map Ev.op).filterMap (txByte E.cfg.uart)) hops hs []
    (List.append_nil _).symm
    (fun es q o v c hq hR hmem ho heff => by
      rw [List.map_append, List.map_cons, List.map_nil, List.filterMap_append, ← List.append_assoc, ← hR]
      have keep : c.uart.log = q.uart.log → txByte E.cfg.uart o = none →
          c.uart.log = q.core.uart.log ++ [o].filterMap (txByte E.cfg.uart) := fun e1 e2 => by
        rw [List.filterMap_cons_none e2, List.filterMap_nil, List.append_nil]
        exact e1
      have notx : ∀ d a v n, inDevice E.cfg.uart d a → d ≠ .uart → txByte E.cfg.uart (.store a v n) = none := by
        intro d a v n hd hne
        simp only [txByte]
        rw [if_neg]
        rintro ⟨hu, rfl⟩
        exact hne (devices_disjoint hd ⟨_, by rw [hu]; rfl, by decide, by decide⟩)
      cases heff with
      | uartStore a v n h1 h2 =>
        have hu : E.cfg.uart = true := by
          obtain ⟨r, hr, -⟩ := h1
          cases hu : E.cfg.uart
          · rw [hu] at hr; simp [devRange] at hr
          · rfl
        have ha : a - uartBase = 8#32 ↔ a = 0x10013008#32 := by
          constructor
          · intro h
            have : a = a - uartBase + uartBase := (BitVec.sub_add_cancel _ _).symm
            rw [this, h]; rfl
          · rintro rfl; rfl
        by_cases h8 : a = 0x10013008#32
        · rw [List.filterMap_cons_some (b := v.setWidth 8) (by simp [txByte, hu, h8]), List.filterMap_nil]
          simp only [uartWrSt]
          rw [if_pos (ha.mpr h8)]
          rfl
        · apply keep
          · simp only [uartWrSt]
            rw [if_neg (fun h => h8 (ha.mp h))]
          · simp [txByte, h8]
      | ramStore a v n h1 h2 => exact keep rfl (notx _ _ _ _ h1 nofun)
      | clintStore a v n h1 h2 => exact keep rfl (notx _ _ _ _ h1 nofun)
      | storeFault a w n c v h1 =>
        apply keep rfl
        simp only [txByte]
        rw [if_neg]
        rintro ⟨hu, rfl⟩
        refine h1 ⟨⟨.uart, ⟨_, by rw [hu]; rfl, by decide, by decide⟩⟩, ?_⟩
        have hn : n = 1 ∨ n = 2 ∨ n = 4 := ho
        rcases hn with rfl | rfl | rfl <;> rfl
      | poll time => exact keep (rxSt_frame E time q.uart).1 rfl
      | ramLoad => exact keep rfl rfl
      | clintLoad => exact keep rfl rfl
      | uartLoad => exact keep rfl rfl
      | uartPop => exact keep rfl rfl
      | uartHole => exact keep rfl rfl
      | loadFault => exact keep rfl rfl
      | tick => exact keep rfl rfl) h
  rwa [List.nil_append, h2] at h1

/-- **C32** stores to the UART other than to the transmit register are ignored: nothing changes -/
theorem uart_store_ignored (E : Env σ) (a v : W) (n : Nat) (hn : n = 1 ∨ n = 2 ∨ n = 4) (s t : St σ)
    (hs : Sized s) (hu : E.cfg.uart = true) (ha : 0x10013000 ≤ a.toNat ∧ a.toNat < 0x1001300C)
    (hal : a.toNat % n = 0) (hne : a ≠ 0x10013008#32)
    (w : W) (h : (BusOp.store a v n).run E s = .ok (w, t)) :
    t.core = { s.core with trapped := false } := by
  have hd : inDevice E.cfg.uart .uart a := ⟨(0x10013000, 12), by rw [hu]; rfl, ha.1, ha.2⟩
  rcases busOp_eff E (.store a v n) hn s hs with ⟨e, -⟩ | ⟨v', q, e, eff, -⟩
  · rw [e] at h; cases h
  · rw [e] at h
    cases h
    generalize t.core = c at eff
    cases eff with
    | ramStore _ _ _ h1 h2 => exact absurd (devices_disjoint h1 hd) nofun
    | clintStore _ _ _ h1 h2 => exact absurd (devices_disjoint h1 hd) nofun
    | storeFault _ _ _ c v h1 => exact absurd ⟨⟨_, hd⟩, hal⟩ h1
    | uartStore _ _ _ h1 h2 =>
      simp only [uartWrSt]
      rw [if_neg]
      · rfl
      · intro h
        apply hne
        have : a = a - uartBase + uartBase := (BitVec.sub_add_cancel _ _).symm
        rw [this, h]; rfl

/-- transmit stores of different sizes mixed with ignored ones -/
example : Ex.bus Ex.env0 [.store 0x10013008#32 0x41#32 1, .store 0x10013004#32 0x42#32 4,
    .store 0x10013008#32 0x12343#32 4, .store 0x1001300a#32 0x44#32 2, .store 0x10013000#32 0#32 4]
    (fun _ s => s.uart.log) = some [0x41#8, 0x43#8] := by decide +kernel

/-! ## C33: UART receive -/

/-- the byte an event obtains by reading the receive register while RX_VALID is set -/
def Spec.rxByte : Ev → Option (BitVec 8)
  | ⟨.load a _, v, true⟩ => if a = 0x10013004#32 then some (v.setWidth 8) else none
  | _ => none

/-- the byte waiting in the receive register -/
def Spec.rxPending (u : Uart) : List (BitVec 8) := if rxValid u then [u.dev.bytes 4#32] else []

/-- the part of the input stream taken so far: a prefix of the input file if there is one, else
the bytes the terminal gave at the polls made -/
def Spec.rxConsumed (E : Env σ) (u : Uart) : List (BitVec 8) :=
  if E.uartIn = [] then (List.range u.polls).filterMap E.stdin else E.uartIn.take u.rxIdx

theorem le_low (f : W → BitVec 8) (a : W) {n : Nat} (hn : n ≠ 0) :
    (BitVec.ofNat 32 (le f a n)).setWidth 8 = f a := by
  cases n with
  | zero => exact absurd rfl hn
  | succ n =>
    apply BitVec.eq_of_toNat_eq
    simp only [le, BitVec.toNat_setWidth, BitVec.toNat_ofNat]
    have := (f a).isLt
    omega

theorem rxConsumed_congr (E : Env σ) {u v : Uart} (h1 : u.polls = v.polls) (h2 : u.rxIdx = v.rxIdx) :
    rxConsumed E u = rxConsumed E v := by
  unfold rxConsumed; rw [h1, h2]

theorem mtimeSt_meip (q : St σ) (hq : Sized q) :
    ((mtimeSt 1#64 q).csr 0x344#16).getLsbD 11 = (q.csr 0x344#16).getLsbD 11 := by
  obtain ⟨s', e, -, -, -, -, a5, -⟩ := mtime_update 1#64 q hq
  rw [updateMtime_app 1#64 q hq] at e
  injection e with e
  injection e with _ e
  rw [e]
  exact a5 11 (by decide) (by decide)

theorem rx_poll (E : Env σ) (time : BitVec 64) (u : Uart) :
    rxConsumed E (rxSt E time u) = rxConsumed E u ∧ (rxSt E time u).dev = u.dev ∨
    rxValid u = false ∧ rxValid (rxSt E time u) = true ∧
      rxConsumed E (rxSt E time u) = rxConsumed E u ++ [(rxSt E time u).dev.bytes 4#32] := by
  have hb : ∀ b : BitVec 8, (b &&& 2#8 = 0#8) ↔ b.getLsbD 1 = false := by decide +kernel
  have hb2 : ∀ b : BitVec 8, (b ||| 2#8).getLsbD 1 = true := by decide +kernel
  unfold rxSt
  split
  · split
    · rename_i h1 h2
      dsimp only
      split
      · rename_i hl
        split
        · rename_i b hb'
          right
          refine ⟨(hb (u.dev.bytes 0#32)).mp h2, hb2 (u.dev.bytes 0#32), ?_⟩
          unfold rxConsumed
          rw [if_pos hl, if_pos hl]
          simp only
          rw [List.range_succ, List.filterMap_append, List.filterMap_cons_some hb']
          rfl
        · rename_i hb'
          left
          refine ⟨?_, rfl⟩
          unfold rxConsumed
          rw [if_pos hl, if_pos hl]
          simp only
          rw [List.range_succ, List.filterMap_append, List.filterMap_cons_none hb']
          exact List.append_nil _
      · rename_i hl
        split
        · rename_i b hb'
          right
          refine ⟨(hb (u.dev.bytes 0#32)).mp h2, hb2 (u.dev.bytes 0#32), ?_⟩
          unfold rxConsumed
          rw [if_neg (fun h => hl h), if_neg (fun h => hl h)]
          simp only
          rw [List.take_add_one, hb']
          rfl
        · left; exact ⟨rxConsumed_congr E rfl rfl, rfl⟩
    · left; exact ⟨rxConsumed_congr E rfl rfl, rfl⟩
  · left; exact ⟨rxConsumed_congr E rfl rfl, rfl⟩

/-- **C33** In builds with UART input: starting with no byte received, after any history the
sequence of bytes obtained by reading the receive register while RX_VALID was set, followed by the
byte still waiting (if any), is exactly the part of the input stream taken so far — in order, none
lost, none duplicated — and mip.MEIP equals RX_VALID. -/
theorem uart_rx_history (E : Env σ) (ops : List BusOp) (hops : ∀ o ∈ ops, o.ok) (s t : St σ) (hs : Sized s)
    (hu : E.cfg.uart = true) (hi : E.cfg.uartIn = true)
    (h0 : rxConsumed E s.uart = rxPending s.uart) (hm : (s.csr 0x344#16).getLsbD 11 = rxValid s.uart)
    (es : List Ev) (h : runBus E ops s = .ok (es, t)) :
    es.filterMap rxByte ++ rxPending t.uart = rxConsumed E t.uart ∧
    (t.csr 0x344#16).getLsbD 11 = rxValid t.uart := by
  obtain ⟨h1, -, h2⟩ := runBus_ind (R := fun es c =>
      es.filterMap rxByte ++ rxPending c.uart = rxConsumed E c.uart ∧
      (c.csr 0x344#16).getLsbD 11 = rxValid c.uart) hops hs []
    ⟨h0.symm, hm⟩
    (fun es q o v c hq hR hmem ho heff => by
      rw [List.filterMap_append]
      obtain ⟨r1, r2⟩ := hR
      have keep : c.uart.dev.bytes = q.uart.dev.bytes → rxConsumed E c.uart = rxConsumed E q.uart →
          c.csr 0x344#16 = q.csr 0x344#16 → rxByte ⟨o, v, rxValid q.uart⟩ = none →
          es.filterMap rxByte ++ [(⟨o, v, rxValid q.uart⟩ : Ev)].filterMap rxByte ++ rxPending c.uart =
            rxConsumed E c.uart ∧ (c.csr 0x344#16).getLsbD 11 = rxValid c.uart := fun e1 e2 e3 e4 => by
        rw [List.filterMap_cons_none e4, List.filterMap_nil, List.append_nil]
        rw [e3, e2]
        unfold rxPending rxValid at *
        rw [e1]
        exact ⟨r1, r2⟩
      have noload : ∀ d a n, inDevice E.cfg.uart d a → d ≠ .uart → rxByte ⟨.load a n, v, rxValid q.uart⟩ = none := by
        intro d a n hd hne
        cases rxValid q.uart
        · rfl
        · simp only [rxByte]
          rw [if_neg]
          rintro rfl
          exact hne (devices_disjoint hd ⟨_, by rw [hu]; rfl, by decide, by decide⟩)
      have noload2 : ∀ a n, a ≠ 0x10013004#32 → rxByte ⟨.load a n, v, rxValid q.uart⟩ = none := by
        intro a n hne
        cases rxValid q.uart
        · rfl
        · simp only [rxByte]
          rw [if_neg hne]
      cases heff with
      | ramLoad a n h1 => exact keep rfl rfl rfl (noload _ _ _ h1 nofun)
      | clintLoad a n h1 => exact keep rfl rfl rfl (noload _ _ _ h1 nofun)
      | uartLoad a n h1 h2 h3 =>
        refine keep rfl rfl rfl (noload2 _ _ ?_)
        rintro rfl
        rw [hi] at h3
        exact absurd h3 (by decide)
      | uartHole a n h1 h2 h3 h4 =>
        refine keep rfl rfl rfl (noload2 _ _ ?_)
        rintro rfl
        exact absurd h4 (by decide)
      | loadFault a n c v h1 =>
        refine keep rfl rfl rfl (noload2 _ _ ?_)
        rintro rfl
        refine h1 ⟨⟨.uart, ⟨_, by rw [hu]; rfl, by decide, by decide⟩⟩, ?_⟩
        have hn : n = 1 ∨ n = 2 ∨ n = 4 := ho
        rcases hn with rfl | rfl | rfl <;> rfl
      | uartPop n h1 h2 =>
        refine ⟨?_, (meip_other _).2⟩
        have hb : ∀ b : BitVec 8, (b &&& ~~~2#8).getLsbD 1 = false := by decide
        have hv : rxValid (uartPop q.uart) = false := hb _
        have e1 : rxPending (uartPop q.uart) = [] := by unfold rxPending; rw [hv]; rfl
        show _ ++ _ ++ rxPending (uartPop q.uart) = rxConsumed E q.uart
        have r1' : es.filterMap rxByte ++ rxPending q.uart = rxConsumed E q.uart := r1
        rw [e1, List.append_nil, ← r1']
        congr 1
        have hlow : (BitVec.ofNat 32 (le q.uart.dev.bytes 4#32 n)).setWidth 8 = q.uart.dev.bytes 4#32 :=
          le_low _ _ (by have hn : n = 1 ∨ n = 2 ∨ n = 4 := ho; omega)
        show _ = rxPending q.uart
        unfold rxPending
        cases hvv : rxValid q.uart
        · rfl
        · rw [List.filterMap_cons_some (b := q.uart.dev.bytes 4#32) (by simp [rxByte, hlow])]
          rfl
      | ramStore => exact keep rfl rfl rfl rfl
      | uartStore a v n h1 h2 =>
        by_cases h8 : a - uartBase = 8#32
        · have hn : n = 1 ∨ n = 2 ∨ n = 4 := ho
          have e4 : ∀ x : W, x.toNat < 8 → put q.uart.dev.bytes 8#32 (v.toNat % 256) n x = q.uart.dev.bytes x := by
            intro x hx
            simp only [put]
            rw [if_neg]
            rw [BitVec.toNat_sub]
            have : (8#32).toNat = 8 := rfl
            omega
          have e5 : rxValid (uartWrSt (a - uartBase) v n q.uart) = rxValid q.uart ∧
              rxPending (uartWrSt (a - uartBase) v n q.uart) = rxPending q.uart ∧
              rxConsumed E (uartWrSt (a - uartBase) v n q.uart) = rxConsumed E q.uart := by
            unfold uartWrSt
            rw [if_pos h8, h8]
            unfold rxPending rxValid
            simp only
            rw [e4 _ (by decide), e4 _ (by decide)]
            exact ⟨rfl, rfl, rfl⟩
          rw [List.filterMap_cons_none rfl, List.filterMap_nil, List.append_nil]
          exact ⟨(congrArg (_ ++ ·) e5.2.1).trans (r1.trans e5.2.2.symm), r2.trans e5.1.symm⟩
        · have e5 : uartWrSt (a - uartBase) v n q.uart = q.uart := if_neg h8
          rw [e5] at keep ⊢
          exact keep rfl rfl rfl rfl
      | clintStore => exact keep rfl rfl rfl rfl
      | storeFault => exact keep rfl rfl rfl rfl
      | tick =>
        rw [List.filterMap_cons_none rfl, List.filterMap_nil, List.append_nil]
        have e1 : (mtimeSt 1#64 q).core.uart = q.core.uart := rfl
        have e2 : (mtimeSt 1#64 q).core.csr = (mtimeSt 1#64 q).csr := rfl
        rw [e1, e2, mtimeSt_meip q hq]
        exact ⟨r1, r2⟩
      | poll time =>
        rw [List.filterMap_cons_none rfl, List.filterMap_nil, List.append_nil]
        refine ⟨?_, (meip_other _).2⟩
        show _ ++ rxPending (rxSt E time q.uart) = rxConsumed E (rxSt E time q.uart)
        have r1' : es.filterMap rxByte ++ rxPending q.uart = rxConsumed E q.uart := r1
        rcases rx_poll E time q.uart with ⟨e1, e2⟩ | ⟨e1, e2, e3⟩
        · rw [e1, ← r1']
          unfold rxPending rxValid
          rw [e2]
        · rw [e3, ← r1']
          unfold rxPending
          rw [e1, e2]
          simp) h
  rw [List.nil_append] at h1
  exact h1

/-- **C33** the receive register is never overwritten while RX_VALID is set: only reading it can
clear RX_VALID, and until then its byte stays -/
theorem uart_rx_kept (E : Env σ) (ops : List BusOp) (hops : ∀ o ∈ ops, o.ok) (s t : St σ) (hs : Sized s)
    (hr : ∀ n, .load 0x10013004#32 n ∉ ops) (hv : rxValid s.uart = true)
    (es : List Ev) (h : runBus E ops s = .ok (es, t)) :
    rxValid t.uart = true ∧ t.uart.dev.bytes 4#32 = s.uart.dev.bytes 4#32 := by
  refine (runBus_ind (R := fun _ c => rxValid c.uart = true ∧ c.uart.dev.bytes 4#32 = s.uart.dev.bytes 4#32)
    hops hs [] ⟨hv, rfl⟩ (fun es q o v c hq hR hmem ho heff => ?_) h).1
  cases heff with
  | uartPop n => exact absurd hmem (hr n)
  | uartStore a v n h1 h2 =>
    simp only [uartWrSt]
    split
    · rename_i h8
      have hn : n = 1 ∨ n = 2 ∨ n = 4 := ho
      have e4 : ∀ x : W, x.toNat < 8 → put q.uart.dev.bytes 8#32 (v.toNat % 256) n x = q.uart.dev.bytes x := by
        intro x hx
        simp only [put]
        rw [if_neg]
        rw [BitVec.toNat_sub]
        have : (8#32).toNat = 8 := rfl
        omega
      rw [h8]
      unfold rxValid
      simp only
      rw [e4 _ (by decide), e4 _ (by decide)]
      exact hR
    · exact hR
  | poll time =>
    rcases rx_poll E time q.uart with ⟨e1, e2⟩ | ⟨e1, e2, e3⟩
    · show rxValid (rxSt E time q.uart) = true ∧ (rxSt E time q.uart).dev.bytes 4#32 = _
      unfold rxValid
      rw [e2]; exact hR
    · have : rxValid q.uart = true := hR.1
      rw [e1] at this
      cases this
  | _ => exact hR

/-- two bytes arrive; the second waits until the first is read; a second poll meanwhile loses nothing -/
example : Ex.bus Ex.envUart [.poll 8680#64, .poll 17360#64, .load 0x10013004#32 4, .poll 26040#64,
    .load 0x10013004#32 1, .load 0x10013004#32 1]
    (fun es s => (es.filterMap rxByte, rxPending s.uart, rxConsumed Ex.envUart s.uart)) =
    some ([65#8, 66#8], [], [65#8, 66#8]) := by decide +kernel
/-- the hypotheses of `uart_rx_history` hold at reset -/
example : rxConsumed Ex.envUart (Ex.st0 Ex.envUart []).uart = rxPending (Ex.st0 Ex.envUart []).uart ∧
    ((Ex.st0 Ex.envUart []).csr 0x344#16).getLsbD 11 = rxValid (Ex.st0 Ex.envUart []).uart ∧
    Sized (Ex.st0 Ex.envUart []) := by
  refine ⟨by decide, by decide +kernel, rfl, rfl, rfl⟩

end Ama
