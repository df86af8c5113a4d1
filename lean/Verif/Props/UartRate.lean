import Verif.Props.BusRun
import Verif.Lemmas.StepCases
/-!
# The rate of UART input
-/
namespace Ama
open M Spec
variable {σ : Type} {E : Env σ}

/-- the arrival slots: `k` of them have been used by time `T`, each for at most one byte -/
def Slots (T : Nat) (u : Uart) : Prop :=
  ∃ k, u.nextRxTime.toNat = 8680 * (k + 1) ∧ u.rxIdx ≤ k ∧ u.polls ≤ k ∧ 8680 * k ≤ T

theorem Slots.mono {T T' : Nat} {u : Uart} (h : Slots T u) (hT : T ≤ T') : Slots T' u := by
  obtain ⟨k, a, b, c, d⟩ := h
  exact ⟨k, a, b, c, d.trans hT⟩

theorem Slots.congr {T : Nat} {u v : Uart} (h : Slots T u) (h1 : v.nextRxTime = u.nextRxTime)
    (h2 : v.rxIdx = u.rxIdx) (h3 : v.polls = u.polls) : Slots T v := by
  unfold Slots; rw [h1, h2, h3]; exact h

theorem slots_rx {T : Nat} (hT : T < 2 ^ 63) {time : BitVec 64} (ht : time.toNat = T) {u : Uart}
    (h : Slots T u) : Slots T (rxSt E time u) := by
  obtain ⟨k, a, b, c, d⟩ := h
  unfold rxSt
  split
  · rename_i hle
    rw [BitVec.le_def, a, ht] at hle
    have hn : (u.nextRxTime + 8680#64).toNat = 8680 * (k + 1 + 1) := by
      rw [BitVec.toNat_add, a, show (8680#64).toNat = 8680 from rfl]; omega
    split
    · dsimp only
      split
      · split
        · exact ⟨k + 1, hn, by simp only; omega, by simp only; omega, hle⟩
        · exact ⟨k + 1, hn, by simp only; omega, by simp only; omega, hle⟩
      · split
        · exact ⟨k + 1, hn, by simp only; omega, by simp only; omega, hle⟩
        · exact ⟨k + 1, hn, by simp only; omega, by simp only; omega, hle⟩
    · exact ⟨k + 1, hn, by simp only; omega, by simp only; omega, hle⟩
  · exact ⟨k, a, b, c, d⟩

/-- what holds during the step with number `T` -/
def AtStep (T : Nat) (s : St σ) : Prop := Sized s ∧ s.simStep.toNat = T ∧ Slots T s.uart

theorem slots_prims (E : Env σ) {T : Nat} (hT : T < 2 ^ 63) : PrimsE E (AtStep T : St σ → Prop) := by
  have key : ∀ (s s' : St σ), AtStep T s → Sized s' → s'.simStep = s.simStep → s'.uart = s.uart → AtStep T s' :=
    fun s s' h h1 h2 h3 => ⟨h1, by rw [h2]; exact h.2.1, by rw [h3]; exact h.2.2⟩
  have Z := sized_prims E
  exact
  { ramWr := fun a v n ha s u s' h e => by
      have hk : s'.simStep = s.simStep ∧ s'.uart = s.uart :=
        ramWr_of (P := fun x => x.simStep = s.simStep ∧ x.uart = s.uart) (fun _ _ h => h)
          (fun _ _ h => h) a v n ha s u s' ⟨rfl, rfl⟩ e
      exact key s s' h (Z.ramWr a v n ha s u s' h.1 e) hk.1 hk.2
    uartWr := fun a v n s u s' h e => by
      have hk : s'.simStep = s.simStep ∧ (s'.uart.nextRxTime = s.uart.nextRxTime ∧ s'.uart.rxIdx = s.uart.rxIdx ∧
          s'.uart.polls = s.uart.polls) := by
        have : Pres (fun x : St σ => x.simStep = s.simStep ∧ (x.uart.nextRxTime = s.uart.nextRxTime ∧
          x.uart.rxIdx = s.uart.rxIdx ∧ x.uart.polls = s.uart.polls)) (uartWr a v n) :=
          Pres.ite (Pres.bind (Pres.get _) fun _ => Pres.bind (Pres.lift _) fun _ =>
            Pres.mod fun s hs => hs) (Pres.pure _)
        exact this s u s' ⟨rfl, rfl, rfl, rfl⟩ e
      exact ⟨Z.uartWr a v n s u s' h.1 e, by rw [hk.1]; exact h.2.1, h.2.2.congr hk.2.1 hk.2.2.1 hk.2.2.2⟩
    uartRd := fun a n s u s' h e => by
      have hk : s'.simStep = s.simStep ∧ (s'.uart.nextRxTime = s.uart.nextRxTime ∧ s'.uart.rxIdx = s.uart.rxIdx ∧
          s'.uart.polls = s.uart.polls) := by
        have : Pres (fun x : St σ => x.simStep = s.simStep ∧ (x.uart.nextRxTime = s.uart.nextRxTime ∧
          x.uart.rxIdx = s.uart.rxIdx ∧ x.uart.polls = s.uart.polls)) (uartRd E a n) :=
          Pres.ite (Pres.ite (Pres.bind (Pres.get _) fun _ => Pres.lift _)
            (Pres.ite (Pres.bind (Pres.get _) fun _ => Pres.bind (Pres.lift _) fun _ =>
              Pres.bind (Pres.lift _) fun _ => Pres.bind (Pres.mod fun s hs => hs) fun _ =>
              Pres.bind (refreshMeip_of fun _ _ h => h) fun _ => Pres.bind (Pres.get _) fun _ => Pres.lift _)
              (Pres.pure _))) (Pres.bind (Pres.get _) fun _ => Pres.lift _)
        exact this s u s' ⟨rfl, rfl, rfl, rfl⟩ e
      exact ⟨Z.uartRd a n s u s' h.1 e, by rw [hk.1]; exact h.2.1, h.2.2.congr hk.2.1 hk.2.2.1 hk.2.2.2⟩
    clintWr := fun a v n s u s' h e => by
      have hk : s'.simStep = s.simStep ∧ s'.uart = s.uart := by
        have : Pres (fun x : St σ => x.simStep = s.simStep ∧ x.uart = s.uart) (devWr E .clint a v n) :=
          Pres.bind (Pres.get _) fun _ => Pres.bind (Pres.lift _) fun _ => Pres.mod fun _ h => h
        exact this s u s' ⟨rfl, rfl⟩ e
      exact key s s' h (Z.clintWr a v n s u s' h.1 e) hk.1 hk.2
    wrCsr := fun _ e v _ => wrCsr_of
      (fun _ _ => Pres.bind (Pres.mod fun _ h => h) fun _ => Pres.mod fun _ h => h) (fun _ _ _ h => h) e v
    uartIn := fun t s a s' ht h e => by
      rw [uartUpdateInput_app E t s h.1] at e
      cases e
      obtain ⟨f1, f2⟩ := rxSt_frame E t s.uart
      exact ⟨⟨h.1.1, f2.trans h.1.2.1, h.1.2.2⟩, h.2.1, slots_rx hT (by rw [← ht]; exact h.2.1) h.2.2⟩
    mtime := fun s u s' h e => by
      have hk : s'.simStep = s.simStep ∧ s'.uart = s.uart :=
        mtime_of (P := fun x => x.simStep = s.simStep ∧ x.uart = s.uart) (fun _ _ h => h)
          (fun _ _ h => h) _ s u s' ⟨rfl, rfl⟩ e
      exact key s s' h (Z.mtime s u s' h.1 e) hk.1 hk.2 }

theorem slots_step {T : Nat} (hT : T < 2 ^ 63) {s s' : St σ} (h : AtStep T s) (e : step E s = .ok ((), s')) :
    ∃ T', T' ≤ T + 1 ∧ AtStep T' s' := by
  have P := slots_prims E hT
  have h0 : AtStep T { s with trapped := false } := h
  rcases step_split e with hw | ⟨q0, q1, hw, he, rfl⟩
  · exact ⟨T, by omega, P.profWindow { s with trapped := false } _ _ h0 hw⟩
  · have h1 := P.profWindow { s with trapped := false } _ _ h0 hw
    have h2 : AtStep T q1 := by
      obtain ⟨df, nt, qa, hc, -, hx⟩ := stepExec_split he
      have h3 : AtStep T qa := P.checkInterrupts _ _ _ _ h1 hc
      have h3 : AtStep T (wakeSt nt qa) := h3
      rcases hx with hx | hx
      · obtain ⟨-, -, qc, hf, hx⟩ := hx
        exact P.exec _ _ _ (P.fetch _ _ _ h3 hf) hx
      · rw [hx.1]; exact h3
    have h3 : AtStep (T + 1) { q1 with simStep := q1.simStep + 1#64 } := by
      refine ⟨h2.1, ?_, h2.2.2.mono (by omega)⟩
      show (q1.simStep + 1#64).toNat = T + 1
      rw [BitVec.toNat_add, h2.2.1]
      have : (1#64).toNat = 1 := rfl
      omega
    refine ⟨T + 1, by omega, ?_⟩
    unfold finishSt finishSt1
    split
    · exact h3
    · split
      · exact h3
      · split
        · exact h3
        · exact h3

theorem slots_run (n T : Nat) (hT : T + n < 2 ^ 63) {s s' : St σ} (h : AtStep T s)
    (e : runN E n s = .ok ((), s')) : ∃ T', T' ≤ T + n ∧ AtStep T' s' := by
  induction n generalizing T s with
  | zero =>
    rw [runN] at e
    cases e
    exact ⟨T, by omega, h⟩
  | succ n ih =>
    rw [runN] at e
    obtain ⟨r, s1, e1, e⟩ := bind_eq_ok.1 e
    rw [M.get_app] at e1
    cases e1
    split at e
    · obtain ⟨u, s2, e2, e⟩ := bind_eq_ok.1 e
      obtain ⟨T', hT', h'⟩ := slots_step (by omega) h e2
      obtain ⟨T'', hT'', h''⟩ := ih T' (by omega) h' e
      exact ⟨T'', by omega, h''⟩
    · cases e
      exact ⟨T, by omega, h⟩

/-- **C33** (rate) Input arrives no faster than the line delivers it, one byte per 8680 time units
(the baud rate as the simulator counts it): in any run from reset, by any program, at most `simStep / 8680` bytes
have been taken from the input after `simStep` steps; none before step 8680. -/
theorem uart_rx_rate (E : Env σ) (image : W → BitVec 8) (pp : ProfPc) (h : σ) (n : Nat) (hn : n < 2 ^ 63)
    (s : St σ) (hrun : runN E n (initSt E image pp h) = .ok ((), s)) :
    8680 * (rxConsumed E s.uart).length ≤ s.simStep.toNat ∧ s.simStep.toNat ≤ n := by
  have h0 : AtStep 0 (initSt E image pp h) := ⟨sized_init _ _ _ _, rfl, 0, rfl, Nat.le_refl _, Nat.le_refl _, Nat.le_refl _⟩
  obtain ⟨T, hT, -, h2, k, -, h3, h4, h5⟩ := slots_run n 0 (by omega) h0 hrun
  refine ⟨?_, by omega⟩
  have : (rxConsumed E s.uart).length ≤ k := by
    unfold rxConsumed
    split
    · exact (List.length_filterMap_le _ _).trans (by rw [List.length_range]; exact h4)
    · rw [List.length_take]; omega
  omega
/-- the first poll that may deliver is the one at time 8680, and it does -/
example : Ex.bus Ex.envUart [.poll 8679#64] (fun _ s => rxConsumed Ex.envUart s.uart) = some [] ∧
    Ex.bus Ex.envUart [.poll 8680#64] (fun _ s => rxConsumed Ex.envUart s.uart) = some [65#8] := by decide +kernel
/-- a run with input that the theorem speaks about -/
example : Ex.obs (runN Ex.envUart 3 (Ex.st0 Ex.envUart [0x100130b7#32, 0x04100113#32, 0x00208423#32]))
    (fun s => (s.simStep, rxConsumed Ex.envUart s.uart)) = some (3#64, []) := by decide +kernel

end Ama
