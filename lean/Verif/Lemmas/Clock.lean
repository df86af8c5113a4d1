import Verif.Lemmas.Sized
/-!
# The clock phase of a step: timer tick and UART input
-/
namespace Ama
open M Spec
variable {σ : Type}

/-- the CLINT mtime register -/
def mtimeOf (d : Dev) : BitVec 64 := BitVec.ofNat 64 (le d.bytes 0x10#32 8)
/-- the CLINT mtimecmp register -/
def mtimecmpOf (d : Dev) : BitVec 64 := BitVec.ofNat 64 (le d.bytes 0x8#32 8)

/-- state after `update_mtime(e)` -/
def mtimeSt (e : BitVec 64) (s : St σ) : St σ :=
  let ticks := s.clint.ticks + e
  let t := mtimeOf s.clint.dev + ticks / 100#64
  { s with
    clint := { dev := { s.clint.dev with bytes := put s.clint.dev.bytes 0x10#32 t.toNat 8 },
               ticks := ticks % 100#64 }
    csr := upd s.csr A.mip (if mtimecmpOf s.clint.dev ≤ t then s.csr A.mip ||| 0x80#32
      else s.csr A.mip &&& ~~~0x80#32) }

theorem le_put_below (f : W → BitVec 8) (v : Nat) :
    le (put f 0x10#32 v 8) 0x8#32 8 = le f 0x8#32 8 := by
  apply le_congr
  intro k hk
  simp only [put]
  rw [if_neg]
  interval_cases k <;> decide

theorem updateMtime_app (e : BitVec 64) (s : St σ) (hs : Sized s) :
    updateMtime e s = .ok ((), mtimeSt e s) := by
  have hz := hs.2.2
  have r1 : s.clint.dev.rd64 0x10#32 = .ok (mtimeOf s.clint.dev) :=
    Dev.rd64_ok _ (by rw [hz]; decide) (by rw [hz]; decide)
  have w1 := fun v => Dev.wr64_ok s.clint.dev (a := 0x10#32) v (by rw [hz]; decide) (by rw [hz]; decide)
  simp only [updateMtime, M.bind_app, M.get_app, r1, M.lift_ok, w1, M.mod_app]
  rw [Dev.rd64_ok _ (by simp only; rw [hz]; decide) (by simp only; rw [hz]; decide),
    Dev.rd64_ok _ (by simp only; rw [hz]; decide) (by simp only; rw [hz]; decide)]
  simp only [M.lift_ok, le_put_below, le_put _ _ _ 8 (by decide), mtimeSt]
  have : ∀ t : BitVec 64, BitVec.ofNat 64 (t.toNat % 256 ^ 8) = t := by
    intro t
    apply BitVec.eq_of_toNat_eq
    rw [BitVec.toNat_ofNat]
    have := t.isLt
    omega
  rw [this]
  rfl

/-- `t` differs from `s` by timer and UART-input events only -/
def Tick (s t : St σ) : Prop :=
  ∃ c u v, t = { s with clint := c, uart := u, csr := upd s.csr A.mip v } ∧ u.log = s.uart.log ∧ Sized t

theorem Tick.refl {s : St σ} (hs : Sized s) : Tick s s :=
  ⟨s.clint, s.uart, s.csr A.mip, by
    have : upd s.csr A.mip (s.csr A.mip) = s.csr := by
      funext a; simp only [upd]; split <;> simp_all
    rw [this], rfl, hs⟩
theorem Tick.trans {s t u : St σ} (h1 : Tick s t) (h2 : Tick t u) : Tick s u := by
  obtain ⟨c, x, v, rfl, hl, hs⟩ := h1
  obtain ⟨c', x', v', rfl, hl', hs'⟩ := h2
  refine ⟨c', x', v', ?_, hl'.trans hl, hs'⟩
  congr 1
  funext a
  simp only [upd]
  split <;> rfl

theorem mtime_tick (e : BitVec 64) (s : St σ) (hs : Sized s) : Tick s (mtimeSt e s) :=
  ⟨_, s.uart, _, rfl, rfl, hs.1, hs.2.1, hs.2.2⟩

/-- the MEIP bit recomputed from RX_VALID -/
def meipSt (s : St σ) : St σ :=
  { s with csr := upd s.csr A.mip (if s.uart.dev.bytes 0#32 &&& 2#8 ≠ 0#8 then s.csr A.mip ||| 0x800#32
      else s.csr A.mip &&& ~~~0x800#32) }
theorem refreshMeip_app (s : St σ) (hs : Sized s) : refreshMeip s = .ok ((), meipSt s) := by
  have hz := hs.2.1
  simp only [refreshMeip, M.bind_app, M.get_app, s.uart.dev.get_ok (a := 0#32) (by rw [hz]; decide),
    M.lift_ok, M.mod_app, meipSt]

theorem meip_tick (s : St σ) (hs : Sized s) : Tick s (meipSt s) :=
  ⟨s.clint, s.uart, _, rfl, rfl, hs⟩

/-- the input phase: what `update_input(time)` does to the UART -/
def rxSt (E : Env σ) (time : BitVec 64) (u : Uart) : Uart :=
  if u.nextRxTime ≤ time then
    let u1 := { u with nextRxTime := u.nextRxTime + 8680#64 }
    if u.dev.bytes 0#32 &&& 2#8 = 0#8 then
      let deliver (b : BitVec 8) (u : Uart) : Uart :=
        { u with dev := { u.dev with
          bytes := upd (upd u.dev.bytes 4#32 b) 0#32 (u.dev.bytes 0#32 ||| 2#8) } }
      match E.uartIn with
      | [] =>
        match E.stdin u.polls with
        | some b => deliver b { u1 with polls := u.polls + 1 }
        | none => { u1 with polls := u.polls + 1 }
      | l =>
        match l[u.rxIdx]? with
        | some b => deliver b { u1 with rxIdx := u.rxIdx + 1 }
        | none => u1
    else u1
  else u

theorem rxSt_frame (E : Env σ) (time : BitVec 64) (u : Uart) :
    (rxSt E time u).log = u.log ∧ (rxSt E time u).dev.size = u.dev.size := by
  unfold rxSt
  split
  · split
    · dsimp only
      split
      · split <;> exact ⟨rfl, rfl⟩
      · split <;> exact ⟨rfl, rfl⟩
    · exact ⟨rfl, rfl⟩
  · exact ⟨rfl, rfl⟩

theorem uartDeliver_app (b : BitVec 8) (s : St σ) (hs : s.uart.dev.size = 12) :
    uartDeliver b s = .ok ((), { s with uart := { s.uart with dev := { s.uart.dev with
      bytes := upd (upd s.uart.dev.bytes 4#32 b) 0#32 (s.uart.dev.bytes 0#32 ||| 2#8) } } }) := by
  have h4 := s.uart.dev.set_ok (a := 4#32) b (by rw [hs]; decide)
  simp only [uartDeliver, M.bind_app, M.get_app, h4, M.lift_ok]
  rw [Dev.get_ok _ (by simp only; rw [hs]; decide)]
  simp only [M.lift_ok]
  rw [Dev.set_ok _ _ (by simp only; rw [hs]; decide)]
  simp only [M.lift_ok, M.mod_app]
  have : upd s.uart.dev.bytes 4#32 b 0#32 = s.uart.dev.bytes 0#32 := upd_other _ _ (by decide)
  rw [this]

theorem uartUpdateInput_app (E : Env σ) (time : BitVec 64) (s : St σ) (hs : Sized s) :
    uartUpdateInput E time s = .ok ((), meipSt { s with uart := rxSt E time s.uart }) := by
  have hz := hs.2.1
  have g0 := s.uart.dev.get_ok (a := 0#32) (by rw [hz]; decide)
  have hfin : ∀ u, u.dev.size = 12 → refreshMeip ({ s with uart := u } : St σ) =
      .ok ((), meipSt { s with uart := u }) := fun u hu => refreshMeip_app _ ⟨hs.1, hu, hs.2.2⟩
  have hsz : (rxSt E time s.uart).dev.size = 12 := (rxSt_frame E time s.uart).2.trans hz
  rw [uartUpdateInput, M.bind_ok (M.get_app _ _)]
  by_cases hle : s.uart.nextRxTime ≤ time
  · by_cases hv : s.uart.dev.bytes 0#32 &&& 2#8 = 0#8
    · have hnb : ∀ (w : BitVec 64), (do
          let b ← nextByte E
          match b with
          | some c => uartDeliver c
          | none => pure () : M σ Unit) { s with uart := { s.uart with nextRxTime := w } } =
          .ok ((), { s with uart :=
            (let u1 := { s.uart with nextRxTime := w }
             let deliver (b : BitVec 8) (u : Uart) : Uart :=
              { u with dev := { u.dev with
                bytes := upd (upd u.dev.bytes 4#32 b) 0#32 (u.dev.bytes 0#32 ||| 2#8) } }
             match E.uartIn with
              | [] =>
                match E.stdin s.uart.polls with
                | some b => deliver b { u1 with polls := s.uart.polls + 1 }
                | none => { u1 with polls := s.uart.polls + 1 }
              | l =>
                match l[s.uart.rxIdx]? with
                | some b => deliver b { u1 with rxIdx := s.uart.rxIdx + 1 }
                | none => u1) }) := by
        intro w
        simp only [nextByte]
        rw [M.bind_app, M.bind_app, M.get_app]
        simp only
        cases hu : E.uartIn with
        | nil =>
          simp only [M.bind_app, M.mod_app, M.pure_app]
          cases hp : E.stdin s.uart.polls with
          | none => rfl
          | some b =>
            simp only
            rw [uartDeliver_app _ _ (by exact hz)]
        | cons x xs =>
          simp only
          cases hp : (x :: xs)[s.uart.rxIdx]? with
          | none => simp
          | some b =>
            simp only [M.bind_app, M.mod_app, M.pure_app]
            rw [uartDeliver_app _ _ (by exact hz)]
      have := hnb (s.uart.nextRxTime + 8680#64)
      dsimp only at this
      rw [if_pos hle, M.bind_app, M.bind_ok (M.mod_app _ _), M.bind_app]
      simp only [g0, M.lift_ok, hv, if_true]
      erw [this]
      simp only
      rw [hfin]
      · simp only [rxSt, hle, if_true, hv]
      · simpa [rxSt, hle, hv] using hsz
    · rw [if_pos hle, M.bind_app, M.bind_ok (M.mod_app _ _), M.bind_app]
      simp only [g0, M.lift_ok, hv, if_false, M.pure_app]
      rw [hfin _ (by exact hz)]
      simp only [rxSt, hle, if_true, hv, if_false]
  · rw [if_neg hle, M.bind_ok (M.pure_app _ _)]
    have : rxSt E time s.uart = s.uart := by simp [rxSt, hle]
    rw [this]
    exact refreshMeip_app s hs

/-- timer tick and UART input, core.cpp:217-232 -/
def clockM (E : Env σ) : M σ Unit := do
  updateMtime 1#64
  if E.cfg.uartIn then do
    let t ← get (·.simStep)
    uartUpdateInput E t
  else pure ()

/-- state after the clock phase -/
def clockSt (E : Env σ) (s : St σ) : St σ :=
  let s1 := mtimeSt 1#64 s
  if E.cfg.uartIn then meipSt { s1 with uart := rxSt E s.simStep s.uart } else s1

theorem clock_app (E : Env σ) (s : St σ) (hs : Sized s) : clockM E s = .ok ((), clockSt E s) := by
  rw [clockM, M.bind_ok (updateMtime_app _ _ hs)]
  have h1 : Sized (mtimeSt 1#64 s) := by obtain ⟨_, _, _, _, _, h⟩ := mtime_tick 1#64 s hs; exact h
  unfold clockSt
  split
  · rw [M.bind_ok (M.get_app _ _), uartUpdateInput_app _ _ _ h1]
    rfl
  · rfl

theorem clock_tick (E : Env σ) (s : St σ) (hs : Sized s) : Tick s (clockSt E s) := by
  have h0 := mtime_tick 1#64 s hs
  have h1 : Sized (mtimeSt 1#64 s) := by obtain ⟨_, _, _, _, _, h⟩ := h0; exact h
  unfold clockSt
  split
  · refine h0.trans ?_
    obtain ⟨hl, hz⟩ := rxSt_frame E s.simStep s.uart
    exact ⟨(mtimeSt 1#64 s).clint, rxSt E s.simStep s.uart, _, rfl, hl, h1.1, hz.trans hs.2.1, h1.2.2⟩
  · exact h0

end Ama
