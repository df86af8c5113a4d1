import Verif.Props.BusDev
import Verif.Lemmas.Cnt
import Verif.Lemmas.Ex
/-!
# C30, C32, C33 over whole runs: device invariants that hold whatever program runs
-/
namespace Ama
open M Spec
variable {σ : Type}

/-- Invariant of the devices: `log0` and `rx0` are output and consumed input at some earlier time -/
structure DevInv (E : Env σ) (log0 rx0 : List (BitVec 8)) (s : St σ) : Prop where
  sized : Sized s
  meip : (s.csr 0x344#16).getLsbD 11 = rxValid s.uart
  ticks : s.clint.ticks.toNat < 100
  log : log0 <+: s.uart.log
  rx : rx0 <+: rxConsumed E s.uart
  last : rxValid s.uart = true → ∃ l, rxConsumed E s.uart = l ++ [s.uart.dev.bytes 4#32]

theorem mip_table (c : Bool) : ∀ e ∈ csrEntries c, e.addr = A.mip → e.perm = .ro := by
  cases c <;> decide +kernel
theorem mip_not_counted (c : Bool) : ¬ CntTouched c A.mip := by
  rintro (h | ⟨e, he, hs⟩)
  · revert h; decide
  · have := mip_table c e (csrInfo_mem he) (csrInfo_addr he)
    rw [this] at hs; cases hs

theorem Dev.wr_size_ok {d d' : Dev} {a v : W} {n : Nat} (h : d.wr a v n = .ok d') : n = 1 ∨ n = 2 ∨ n = 4 := by
  unfold Dev.wr at h
  split at h
  · exact .inl rfl
  · exact .inr (.inl rfl)
  · exact .inr (.inr rfl)
  · cases h

theorem rd_size_ok {d : Dev} {a v : W} {n : Nat} (h : d.rd a n = .ok v) : n = 1 ∨ n = 2 ∨ n = 4 := by
  unfold Dev.rd at h
  split at h
  · exact .inl rfl
  · exact .inr (.inl rfl)
  · exact .inr (.inr rfl)
  · cases h

variable {E : Env σ} {l0 r0 : List (BitVec 8)}

theorem DevInv.csrs {s : St σ} (h : DevInv E l0 r0 s) (f : BitVec 16 → W) (hf : f A.mip = s.csr A.mip) (s' : St σ)
    (h1 : s'.csr = f) (h2 : s'.uart = s.uart) (h3 : s'.clint = s.clint) (h4 : s'.ram = s.ram) :
    DevInv E l0 r0 s' := by
  obtain ⟨a1, a2, a3, a4, a5, a6⟩ := h
  have a2' : (s.csr A.mip).getLsbD 11 = rxValid s.uart := a2
  refine ⟨⟨by rw [h4]; exact a1.1, by rw [h2]; exact a1.2.1, by rw [h3]; exact a1.2.2⟩, ?_, by rw [h3]; exact a3,
    by rw [h2]; exact a4, by rw [h2]; exact a5, by rw [h2]; exact a6⟩
  show (s'.csr A.mip).getLsbD 11 = _
  rw [h1, hf, h2]; exact a2'

theorem uartWr_inv (a v : W) (n : Nat) : Pres (DevInv E l0 r0) (uartWr a v n) := by
  intro s u s' h e
  by_cases ha : a = 8#32
  · have hn : n = 1 ∨ n = 2 ∨ n = 4 := by
      have e' := e
      simp only [uartWr, ha, if_true] at e'
      obtain ⟨d, s1, e1, e2⟩ := bind_eq_ok.1 e'
      obtain ⟨d', s2, e3, e4⟩ := bind_eq_ok.1 e2
      cases hd : Dev.wr d 8#32 (BitVec.setWidth 32 (BitVec.setWidth 8 v)) n with
      | ok d2 => exact Dev.wr_size_ok hd
      | ub k => rw [hd] at e3; cases e3
      | abort => rw [hd] at e3; cases e3
    have happ := uartWr_app (E := E) (v := v) h.sized hn (a := a) (by rw [ha]; show 8 + n ≤ 12; omega)
    simp only [devWr] at happ
    rw [happ] at e
    cases e
    have e4 : ∀ x : W, x.toNat < 8 → put s.uart.dev.bytes 8#32 (v.toNat % 256) n x = s.uart.dev.bytes x := by
      intro x hx
      simp only [put]
      rw [if_neg]
      rw [BitVec.toNat_sub]
      have : (8#32).toNat = 8 := rfl
      omega
    have e5 : rxValid (uartWrSt a v n s.uart) = rxValid s.uart ∧
        (uartWrSt a v n s.uart).dev.bytes 4#32 = s.uart.dev.bytes 4#32 ∧
        rxConsumed E (uartWrSt a v n s.uart) = rxConsumed E s.uart ∧
        (uartWrSt a v n s.uart).log = s.uart.log ++ [v.setWidth 8] ∧
        (uartWrSt a v n s.uart).dev.size = s.uart.dev.size := by
      unfold uartWrSt
      rw [if_pos ha, ha]
      unfold rxValid
      simp only
      rw [e4 _ (by decide), e4 _ (by decide)]
      refine ⟨?_, ?_, rxConsumed_congr E rfl rfl, ?_, ?_⟩ <;> trivial
    obtain ⟨b1, b2, b3, b4, b5⟩ := e5
    refine ⟨⟨h.sized.1, b5.trans h.sized.2.1, h.sized.2.2⟩, ?_, h.ticks, ?_, ?_, ?_⟩
    · show (s.csr 0x344#16).getLsbD 11 = _
      rw [h.meip]; exact b1.symm
    · show l0 <+: (uartWrSt a v n s.uart).log
      rw [b4]; exact h.log.trans (List.prefix_append _ _)
    · show r0 <+: rxConsumed E (uartWrSt a v n s.uart)
      rw [b3]; exact h.rx
    · show rxValid (uartWrSt a v n s.uart) = true → _
      rw [b1]
      show _ → ∃ l, rxConsumed E (uartWrSt a v n s.uart) = l ++ [(uartWrSt a v n s.uart).dev.bytes 4#32]
      rw [b2, b3]; exact h.last
  · simp only [uartWr, ha, if_false, M.pure_app] at e
    cases e; exact h

theorem uartRd_inv (a : W) (n : Nat) : Pres (DevInv E l0 r0) (uartRd E a n) := by
  refine Pres.ite (Pres.ite (Pres.bind (Pres.get _) fun _ => Pres.lift _) (Pres.ite ?_ (Pres.pure _)))
    (Pres.bind (Pres.get _) fun _ => Pres.lift _)
  rw [Pres.iff_wp]
  intro s h
  have g0 := s.uart.dev.get_ok (a := 0#32) (by rw [h.sized.2.1]; decide)
  have s0 := s.uart.dev.set_ok (a := 0#32) (s.uart.dev.bytes 0#32 &&& ~~~2#8) (by rw [h.sized.2.1]; decide)
  simp only [wp_bind, wp_get, wp_lift, wp_mod]
  intro st hst d hd
  rw [g0] at hst
  cases hst
  rw [s0] at hd
  cases hd
  have hz : Sized ({ s with uart := uartPop s.uart } : St σ) := h.sized
  intro u s' e
  have e2 : refreshMeip ({ s with uart := uartPop s.uart } : St σ) = .ok (u, s') := e
  rw [refreshMeip_app _ hz] at e2
  cases e2
  intro b _
  have hb : ∀ b : BitVec 8, (b &&& ~~~2#8).getLsbD 1 = false := by decide +kernel
  have hv : rxValid (uartPop s.uart) = false := hb (s.uart.dev.bytes 0#32)
  refine ⟨h.sized, (meip_other ({ s with uart := uartPop s.uart } : St σ)).2, h.ticks, h.log, ?_, ?_⟩
  · show r0 <+: rxConsumed E (uartPop s.uart)
    rw [rxConsumed_congr E (u := uartPop s.uart) (v := s.uart) rfl rfl]; exact h.rx
  · intro hh
    have hh' : rxValid (uartPop s.uart) = true := hh
    rw [hv] at hh'; cases hh'

theorem uartIn_inv (t : BitVec 64) : Pres (DevInv E l0 r0) (uartUpdateInput E t) := by
  intro s u s' h e
  rw [uartUpdateInput_app E t s h.sized] at e
  cases e
  obtain ⟨f1, f2⟩ := rxSt_frame E t s.uart
  refine ⟨⟨h.sized.1, f2.trans h.sized.2.1, h.sized.2.2⟩, (meip_other _).2, h.ticks, ?_, ?_, ?_⟩
  · show l0 <+: (rxSt E t s.uart).log
    rw [f1]; exact h.log
  · show r0 <+: rxConsumed E (rxSt E t s.uart)
    rcases rx_poll E t s.uart with ⟨e1, -⟩ | ⟨-, -, e3⟩
    · rw [e1]; exact h.rx
    · rw [e3]; exact h.rx.trans (List.prefix_append _ _)
  · show rxValid (rxSt E t s.uart) = true → ∃ l, rxConsumed E (rxSt E t s.uart) = l ++ [(rxSt E t s.uart).dev.bytes 4#32]
    rcases rx_poll E t s.uart with ⟨e1, e2⟩ | ⟨-, -, e3⟩
    · unfold rxValid
      rw [e1, e2]; exact h.last
    · exact fun _ => ⟨_, e3⟩

theorem mtime_inv : Pres (DevInv E l0 r0) (updateMtime 1#64) := by
  intro s u s' h e
  rw [updateMtime_app 1#64 s h.sized] at e
  injection e with e
  injection e with _ e
  have hm := mtimeSt_meip s h.sized
  obtain ⟨s1, e1, -, a2, -⟩ := mtime_update 1#64 s h.sized
  rw [updateMtime_app 1#64 s h.sized] at e1
  injection e1 with e1
  injection e1 with _ e1
  have hu : (mtimeSt 1#64 s).uart = s.uart := rfl
  have hr : (mtimeSt 1#64 s).ram = s.ram := rfl
  have hz : (mtimeSt 1#64 s).clint.dev.size = s.clint.dev.size := rfl
  rw [e1] at e
  rw [e1] at hm hu hr hz
  subst e
  refine ⟨⟨by rw [hr]; exact h.sized.1, by rw [hu]; exact h.sized.2.1, hz.trans h.sized.2.2⟩, ?_, ?_, ?_, ?_, ?_⟩
  · rw [hm, hu]; exact h.meip
  · rw [a2]; omega
  · rw [hu]; exact h.log
  · rw [hu]; exact h.rx
  · rw [hu]; exact h.last

theorem dev_prims (E : Env σ) (l0 r0 : List (BitVec 8)) : Prims E (DevInv E l0 r0) := by
  have ht : ∀ c t, Pres (DevInv E l0 r0 : St σ → Prop) (trapInst c t) := by
    intro c t s a s' h e
    rw [trapInst_app] at e
    injection e with e
    injection e with _ e
    subst e
    exact h.csrs _ (by rfl) _ rfl rfl rfl rfl
  exact
  { trap := ht
    hw := fun s g h => ⟨h.1, h.2, h.3, h.4, h.5, h.6⟩
    rf := fun s r v _ h => ⟨h.1, h.2, h.3, h.4, h.5, h.6⟩
    nextPc := fun s v h => ⟨h.1, h.2, h.3, h.4, h.5, h.6⟩
    inst := fun s v b h => ⟨h.1, h.2, h.3, h.4, h.5, h.6⟩
    instC := fun s v h => ⟨h.1, h.2, h.3, h.4, h.5, h.6⟩
    lib := fun s v h => ⟨h.1, h.2, h.3, h.4, h.5, h.6⟩
    libHw := fun s v g h => ⟨h.1, h.2, h.3, h.4, h.5, h.6⟩
    resolved := fun s v h => ⟨h.1, h.2, h.3, h.4, h.5, h.6⟩
    spec := fun s v h => ⟨h.1, h.2, h.3, h.4, h.5, h.6⟩
    profActive := fun s v h => ⟨h.1, h.2, h.3, h.4, h.5, h.6⟩
    profPc := fun s v h => ⟨h.1, h.2, h.3, h.4, h.5, h.6⟩
    profLog := fun s v h => ⟨h.1, h.2, h.3, h.4, h.5, h.6⟩
    stop := fun s v _ h => ⟨h.1, h.2, h.3, h.4, h.5, h.6⟩
    runningHint := fun _ s h => ⟨h.1, h.2, h.3, h.4, h.5, h.6⟩
    wfiPend := fun s v h => ⟨h.1, h.2, h.3, h.4, h.5, h.6⟩
    wfiActive := fun s v h => ⟨h.1, h.2, h.3, h.4, h.5, h.6⟩
    untrap := fun s h => ⟨h.1, h.2, h.3, h.4, h.5, h.6⟩
    simStep := fun s h => ⟨h.1, h.2, h.3, h.4, h.5, h.6⟩
    finish := fun s h _ => ⟨h.1, h.2, h.3, h.4, h.5, h.6⟩
    mret := by
      intro s a s' h e
      simp only [mretStateUpdate, M.mod_app, Res.ok.injEq, Prod.mk.injEq, true_and] at e
      subst e
      exact h.csrs _ (upd_other _ _ (by decide)) _ rfl rfl rfl rfl
    cntUpd := by
      intro w a s u s' h e
      obtain ⟨t, rfl⟩ := csrCntUpdate_ok e
      exact h.csrs _ (cntCsr_other (mip_not_counted _) _ _ _ _) _ rfl rfl rfl rfl
    wrCsr := by
      intro a e' v he'
      unfold writeCsr
      split
      · exact Pres.bind (Pres.get _) fun _ => ht _ _
      · exact Pres.pure _
      · rename_i h1 h2
        refine Pres.mod fun s hs => ?_
        have : A.mip ≠ e'.addr := fun heq => h1 (mip_table _ _ (csrInfo_mem he') heq.symm)
        exact hs.csrs _ (upd_other _ _ this) _ rfl rfl rfl rfl
    ramWr := by
      intro a v n ha s u s' h e
      have hz := (sized_prims E).ramWr a v n ha s u s' h.sized e
      have hk : s'.uart = s.uart ∧ s'.clint = s.clint ∧ s'.csr = s.csr :=
        ramWr_of (P := fun x => x.uart = s.uart ∧ x.clint = s.clint ∧ x.csr = s.csr) (fun _ _ h => h)
          (fun _ _ h => h) a v n ha s u s' ⟨rfl, rfl, rfl⟩ e
      obtain ⟨k1, k2, k3⟩ := hk
      refine ⟨hz, ?_, ?_, ?_, ?_, ?_⟩
      · rw [k3, k1]; exact h.meip
      · rw [k2]; exact h.ticks
      · rw [k1]; exact h.log
      · rw [k1]; exact h.rx
      · rw [k1]; exact h.last
    clintWr := by
      intro a v n
      rw [Pres.iff_wp]
      intro s hs
      simp only [devWr, wp_bind, wp_get, wp_lift, wp_mod]
      intro d hd
      exact ⟨⟨hs.1.1, hs.1.2.1, (Dev.wr_size hd).trans hs.1.2.2⟩, hs.2, hs.3, hs.4, hs.5, hs.6⟩
    uartWr := uartWr_inv
    uartRd := uartRd_inv
    uartIn := fun t s a s' _ h e => uartIn_inv t s a s' h e
    mtime := mtime_inv }

theorem dev_init (E : Env σ) (image : W → BitVec 8) (pp : ProfPc) (h : σ) :
    DevInv E [] [] (initSt E image pp h) := by
  have hv : rxValid (initSt E image pp h).uart = false := by simp [initSt, rxValid]
  refine ⟨sized_init _ _ _ _, ?_, show (0#64).toNat < 100 by decide, List.nil_prefix, List.nil_prefix,
    fun hh => by rw [hv] at hh; cases hh⟩
  rw [hv]
  show (csrBoot E.cfg.rv32c 0x344#16).getLsbD 11 = false
  cases E.cfg.rv32c <;> decide

/-- **C33** (interrupt line) In every state reached from reset by any program, mip.MEIP equals
RX_VALID. -/
theorem meip_is_rxValid (E : Env σ) (image : W → BitVec 8) (pp : ProfPc) (h : σ) (n : Nat) (s : St σ)
    (hrun : runN E n (initSt E image pp h) = .ok ((), s)) :
    (s.csr 0x344#16).getLsbD 11 = rxValid s.uart :=
  ((dev_prims E [] []).runN n _ _ _ (dev_init E image pp h) hrun).meip

/-- **C33** In every state reached from reset by any program, a byte waiting in the receive
register (RX_VALID) is the last byte taken from the input stream. -/
theorem rx_byte_is_last (E : Env σ) (image : W → BitVec 8) (pp : ProfPc) (h : σ) (n : Nat) (s : St σ)
    (hrun : runN E n (initSt E image pp h) = .ok ((), s)) (hv : rxValid s.uart = true) :
    ∃ l, rxConsumed E s.uart = l ++ [s.uart.dev.bytes 4#32] :=
  ((dev_prims E [] []).runN n _ _ _ (dev_init E image pp h) hrun).last hv

/-- **C32**, **C33** over runs: from any state reached from reset, running further never retracts
or alters transmitted output or consumed input. -/
theorem uart_streams_grow (E : Env σ) (image : W → BitVec 8) (pp : ProfPc) (h : σ) (n m : Nat) (s t : St σ)
    (h1 : runN E n (initSt E image pp h) = .ok ((), s)) (h2 : runN E m s = .ok ((), t)) :
    s.uart.log <+: t.uart.log ∧ rxConsumed E s.uart <+: rxConsumed E t.uart := by
  have hd := (dev_prims E [] []).runN n _ _ _ (dev_init E image pp h) h1
  have h3 : DevInv E s.uart.log (rxConsumed E s.uart) s :=
    ⟨hd.1, hd.2, hd.3, List.prefix_refl _, List.prefix_refl _, hd.6⟩
  have := (dev_prims E _ _).runN m _ _ _ h3 h2
  exact ⟨this.log, this.rx⟩

/-- a run that transmits: `lui x1,0x10013; addi x2,x0,65; sb x2,8(x1); addi x2,x2,1; sb x2,8(x1)` -/
example : Ex.obs (runN Ex.env0 5 (Ex.st0 Ex.env0 [0x100130b7#32, 0x04100113#32, 0x00208423#32, 0x00110113#32,
    0x00208423#32])) (fun s => (s.uart.log, s.simInst)) = some ([65#8, 66#8], 5#64) := by decide +kernel
/-- the same run stopped after three steps: a prefix -/
example : Ex.obs (runN Ex.env0 3 (Ex.st0 Ex.env0 [0x100130b7#32, 0x04100113#32, 0x00208423#32, 0x00110113#32,
    0x00208423#32])) (fun s => (s.uart.log, s.clint.ticks)) = some ([65#8], 3#64) := by decide +kernel

/-- **C30** the sub-tick counter of the timer stays below 100 -/
theorem ticks_bounded (E : Env σ) (image : W → BitVec 8) (pp : ProfPc) (h : σ) (n : Nat) (s : St σ)
    (hrun : runN E n (initSt E image pp h) = .ok ((), s)) : s.clint.ticks.toNat < 100 :=
  ((dev_prims E [] []).runN n _ _ _ (dev_init E image pp h) hrun).ticks

end Ama
