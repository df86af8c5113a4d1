import Verif.Props.IsaProps
import Verif.Props.Timer
/-!
# C14, C15: interrupts and WFI
-/
namespace Ama
open M Spec
variable {σ : Type}

/-- The interrupt a hart takes for given mie, mip, mstatus (privileged manual: machine external
before machine timer, both gated by mstatus.MIE); `ext` = the build has an external source. -/
def Spec.irq (ext : Bool) (mie mip mstatus : W) : Option W :=
  if mstatus.getLsbD 3 = false then none
  else if ext ∧ mie.getLsbD 11 ∧ mip.getLsbD 11 then some 0x8000000b#32
  else if mie.getLsbD 7 ∧ mip.getLsbD 7 then some 0x80000007#32
  else none

/-- some interrupt is pending and enabled, whether or not MIE allows it to be taken -/
def Spec.irqPending (ext : Bool) (mie mip : W) : Bool :=
  (ext && mie.getLsbD 11 && mip.getLsbD 11) || (mie.getLsbD 7 && mip.getLsbD 7)

theorem bit_ne_zero (a : W) (i : Nat) (m : W) (hm : ∀ k, k < 32 → m.getLsbD k = decide (k = i)) (hi : i < 32) :
    ((a &&& m) != 0#32) = a.getLsbD i := by
  cases h : a.getLsbD i
  · have : a &&& m = 0#32 := by
      apply BitVec.eq_of_getLsbD_eq
      intro k hk
      rw [BitVec.getLsbD_and, hm k hk]
      by_cases hk' : k = i
      · subst hk'; simp [h]
      · simp [hk']
    simp [this]
  · have : a &&& m ≠ 0#32 := by
      intro h0
      have := congrArg (fun x => BitVec.getLsbD x i) h0
      simp only [BitVec.getLsbD_and, h, hm i hi] at this
      simp at this
    simpa using this

theorem gie_bit (c : Core) : gieOf c = (c.csr 0x300#16).getLsbD 3 :=
  bit_ne_zero _ 3 _ (by decide) (by decide)
theorem mti_bit (c : Core) : intMti c = ((c.csr 0x304#16).getLsbD 7 && (c.csr 0x344#16).getLsbD 7) := by
  unfold intMti
  rw [bit_ne_zero _ 7 _ (by decide) (by decide), bit_ne_zero _ 7 _ (by decide) (by decide)]; rfl
theorem mei_bit (E : Env σ) (c : Core) :
    intMei E c = (E.cfg.uartIn && (c.csr 0x304#16).getLsbD 11 && (c.csr 0x344#16).getLsbD 11) := by
  unfold intMei
  rw [bit_ne_zero _ 11 _ (by decide) (by decide), bit_ne_zero _ 11 _ (by decide) (by decide)]; rfl

/-- the interrupt selected in a core state -/
def irqOf (E : Env σ) (c : Core) : Option W :=
  Spec.irq E.cfg.uartIn (c.csr 0x304#16) (c.csr 0x344#16) (c.csr 0x300#16)
def pendOf (E : Env σ) (c : Core) : Bool :=
  Spec.irqPending E.cfg.uartIn (c.csr 0x304#16) (c.csr 0x344#16)

theorem pendOf_eq (E : Env σ) (c : Core) : pendOf E c = (intMei E c || intMti c) := by
  rw [mei_bit, mti_bit]; rfl

theorem irqOf_eq (E : Env σ) (c : Core) : irqOf E c =
    if gieOf c && intMei E c then some 0x8000000b#32
    else if gieOf c && intMti c then some 0x80000007#32 else none := by
  rw [gie_bit, mti_bit, mei_bit]
  unfold irqOf irq
  cases (c.csr 0x300#16).getLsbD 3
  · simp
  · simp [and_assoc]

/-- the whole effect of the interrupt check, when not deferred -/
theorem checkInterrupts_app (E : Env σ) (s : St σ) (hs : Sized s) :
    ∃ q, checkInterrupts E false s = .ok (pendOf E (clockCore E s.core) && !gieOf (clockCore E s.core), q) ∧
      q.core = (match irqOf E (clockCore E s.core) with
        | some c => trapCore c 0#32 (clockCore E s.core)
        | none => clockCore E s.core) ∧
      (irqOf E (clockCore E s.core) ≠ none → q.lastInstBranch = false) ∧
      (irqOf E (clockCore E s.core) = none → q.lastInstBranch = s.lastInstBranch ∧ q.instResolved = s.instResolved) ∧
      q.running = s.running := by
  have key : twp False (checkInterrupts E false) (fun b q =>
      b = (pendOf E (clockCore E s.core) && !gieOf (clockCore E s.core)) ∧
      q.core = (match irqOf E (clockCore E s.core) with
        | some c => trapCore c 0#32 (clockCore E s.core)
        | none => clockCore E s.core) ∧
      (irqOf E (clockCore E s.core) ≠ none → q.lastInstBranch = false) ∧
      (irqOf E (clockCore E s.core) = none → q.lastInstBranch = s.lastInstBranch ∧ q.instResolved = s.instResolved) ∧
      q.running = s.running) s := by
    unfold checkInterrupts
    simp only [Bool.false_eq_true, if_false]
    have hc := clock_app E s hs
    unfold clockM at hc
    rw [pendOf_eq, irqOf_eq]
    rw [← clock_core]
    rw [twp_bind, twp_ok (updateMtime_app _ _ hs)]
    rw [M.bind_ok (updateMtime_app _ _ hs)] at hc
    rw [twp_bind, twp_ok hc, twp_bind, twp_get, twp_bind, twp_get, twp_bind, twp_get, twp_bind]
    have hl : (clockSt E s).lastInstBranch = s.lastInstBranch ∧
        (clockSt E s).instResolved = s.instResolved ∧ (clockSt E s).running = s.running := by
      unfold clockSt; split <;> exact ⟨rfl, rfl, rfl⟩
    have e1 : (clockSt E s).core.csr = (clockSt E s).csr := rfl
    simp only [gieOf, intMei, intMti, e1]
    generalize hq : clockSt E s = q at *
    clear hc hs hq
    generalize (q.csr A.mstatus &&& 8#32 != 0#32) = g
    generalize ((q.csr A.mie &&& 128#32) != 0#32 && (q.csr A.mip &&& 128#32) != 0#32) = t
    generalize (E.cfg.uartIn && (q.csr A.mie &&& 2048#32) != 0#32 && (q.csr A.mip &&& 2048#32) != 0#32) = e
    cases g
    · simp only [Bool.false_and, Bool.false_eq_true, if_false, twp_pure]
      refine ⟨by cases t <;> cases e <;> rfl, ?_, ?_, ?_, ?_⟩ <;> first | exact hl.2.2 | rfl | trivial | exact fun h => absurd rfl h | exact fun _ => ⟨hl.1, hl.2.1⟩
    · cases e
      · cases t
        · simp only [Bool.and_false, Bool.false_eq_true, if_false, twp_pure]
          refine ⟨?_, ?_, ?_, ?_, ?_⟩ <;> first | exact hl.2.2 | rfl | trivial | exact fun h => absurd rfl h | exact fun _ => ⟨hl.1, hl.2.1⟩
        · simp only [Bool.and_false, Bool.and_true, Bool.false_eq_true, if_false, if_true, eTimer, twp_pure, twp_bind, twp_trap,
            twp_mod]
          refine ⟨?_, ?_, ?_, ?_, ?_⟩ <;> first | exact hl.2.2 | rfl | trivial | exact fun _ => rfl | (intro h; cases h)
      · simp only [Bool.and_true, if_true, eExternal, twp_pure, twp_bind, twp_trap, twp_mod]
        refine ⟨?_, ?_, ?_, ?_, ?_⟩ <;> first | exact hl.2.2 | rfl | trivial | exact fun _ => rfl | (cases t <;> rfl) | (intro h; cases h)
  obtain ⟨a, q, h1, h2, h3⟩ := twp_ex key
  subst h2
  exact ⟨q, h1, h3⟩

/-- the interrupt check runs with this step: asleep, or the word at pc is not WFI -/
structure Checks (E : Env σ) (s : St σ) : Prop where
  sized : Sized s
  window : windowExit E s = false
  notWfi : s.wfiActive = false → (toNorm s.pc).toNat + 4 ≤ memSize ∧ wordAt s.ram s.pc ≠ wfiWord

/-- continuation of a step after the interrupt check -/
def afterCheck (E : Env σ) (b : Bool) : M σ Unit := do
  mod fun s => { s with wfiActive := s.wfiActive && !(s.trapped || b) }
  let trp ← get (·.trapped)
  let act ← get (·.wfiActive)
  if !trp && (!act || b) then do
    fetch E
    exec E
  else pure ()

theorem twp_step_checks {ab : Prop} {E : Env σ} {s : St σ} (h : Checks E s) {Q : Unit → St σ → Prop}
    (hx : ∀ q, q.core = (match irqOf E (clockCore E s.core) with
        | some c => trapCore c 0#32 { clockCore E s.core with trapped := false }
        | none => { clockCore E s.core with trapped := false }) →
      (irqOf E (clockCore E s.core) ≠ none → q.lastInstBranch = false) →
      (irqOf E (clockCore E s.core) = none → q.lastInstBranch = s.lastInstBranch ∧ q.instResolved = s.instResolved) →
      twp ab (afterCheck E (pendOf E (clockCore E s.core) && !gieOf (clockCore E s.core)))
        (fun _ q => twp ab (finishM E) Q q) q) :
    twp ab (step E) Q s := by
  unfold step
  rw [twp_bind, twp_mod, twp_bind]
  refine twp_profWindow (by exact h.window) fun q0 c0 l0 r0 => ?_
  simp only [Bool.false_eq_true, if_false]
  change twp ab (stepExec E >>= fun _ => finishM E) Q q0
  rw [twp_bind]
  have hq0 : q0.core = { s.core with trapped := false } := c0
  have a0 : q0.wfiActive = s.wfiActive := core_wfiActive hq0
  have p0 : q0.pc = s.pc := core_pc hq0
  have m0 : q0.ram = s.ram := core_ram hq0
  have sz0 : Sized q0 := by rw [sized_core, hq0]; exact h.sized
  have hcc : clockCore E q0.core = { clockCore E s.core with trapped := false } := by
    rw [hq0, clockCore_trapped]
  have go : twp ab (checkInterrupts E false >>= afterCheck E) (fun _ q => twp ab (finishM E) Q q) q0 := by
    obtain ⟨q, e1, e2, e3, e4, -⟩ := checkInterrupts_app E q0 sz0
    have i1 : irqOf E (clockCore E q0.core) = irqOf E (clockCore E s.core) := by rw [hcc]; rfl
    have i2 : pendOf E (clockCore E q0.core) = pendOf E (clockCore E s.core) := by rw [hcc]; rfl
    have i3 : gieOf (clockCore E q0.core) = gieOf (clockCore E s.core) := by rw [hcc]; rfl
    rw [i1, hcc] at e2
    rw [i1] at e3 e4
    rw [twp_bind, twp_ok e1, i2, i3]
    exact hx q e2 e3 (fun hn => ⟨(e4 hn).1.trans l0, (e4 hn).2.trans r0⟩)
  unfold stepExec
  rw [twp_bind, twp_get, twp_bind, a0]
  cases ha : s.wfiActive
  · obtain ⟨n1, n2⟩ := h.notWfi ha
    simp only [Bool.false_eq_true, if_false]
    rw [twp_bind, twp_get, twp_bind, p0]
    refine twp_justInst (by rw [m0]; exact h.sized.1) n1 ?_
    rw [twp_pure, m0, show (wordAt s.ram s.pc == 0x10500073#32) = false from by simpa [wfiWord] using n2]
    exact go
  · simp only [if_true]
    rw [twp_pure]
    exact go

theorem twp_finish_trap' {ab : Prop} {E : Env σ} {q : St σ} {Q : Unit → St σ → Prop}
    (ht : q.trapped = true)
    (h : ∀ q', q'.core = { q.core with simStep := q.simStep + 1#64 } → q'.lastInstBranch = q.lastInstBranch → Q () q') :
    twp ab (finishM E) Q q := by
  unfold finishM
  rw [twp_bind, twp_mod, twp_bind, twp_get, twp_ite]
  split
  · rw [twp_mod]; exact h _ rfl rfl
  · unfold stepFinish
    rw [twp_bind, twp_get, twp_bind, twp_get]
    simp only [ht, Bool.not_true, Bool.and_false, Bool.false_eq_true, if_false, if_true]
    rw [twp_mod]
    apply h
    · simp only [St.core, ht]
    · rfl

theorem twp_finish_idle {ab : Prop} {E : Env σ} {q : St σ} {Q : Unit → St σ → Prop}
    (ht : q.trapped = false) (ha : q.wfiActive = true)
    (h : ∀ q', q'.core = { q.core with simStep := q.simStep + 1#64 } → Q () q') :
    twp ab (finishM E) Q q := by
  unfold finishM
  rw [twp_bind, twp_mod, twp_bind, twp_get, twp_ite]
  split
  · rw [twp_mod]; exact h _ rfl
  · unfold stepFinish
    rw [twp_bind, twp_get, twp_bind, twp_get]
    simp only [ht, ha, Bool.not_false, Bool.and_true, if_true]
    rw [twp_pure]
    apply h
    simp only [St.core, ht, ha]

/-- **C14/C11**: when an interrupt is pending, enabled and globally enabled, the step takes it,
external before timer: mepc = the pc that would have executed, mcause with the interrupt bit,
mtval = 0, nothing retires, registers and memory are unchanged. Also wakes a sleeping hart. -/
theorem interrupt_taken {E : Env σ} {s : St σ} {cause : W} (h : Checks E s)
    (hi : irq E.cfg.uartIn ((clockCore E s.core).csr 0x304#16) ((clockCore E s.core).csr 0x344#16)
      ((clockCore E s.core).csr 0x300#16) = some cause) :
    ∃ s', step E s = .ok ((), s') ∧
      archOf s'.core = trapEntry cause 0#32 (archOf (clockCore E s.core)) ∧
      s'.rf = s.rf ∧ s'.ram = s.ram ∧ s'.pc = s.csr 0x305#16 ∧ s'.csr 0x341#16 = s.pc ∧
      s'.simInst = s.simInst ∧ s'.simStep = s.simStep + 1#64 ∧ s'.wfiActive = false ∧
      s'.uart = (clockCore E s.core).uart ∧ s'.clint = (clockCore E s.core).clint ∧
      s'.lastInstBranch = false ∧
      s'.trapLog = (cause, 0#32, s.pc) :: s.trapLog := by
  obtain ⟨f1, f2, f3, f4, f5, f6, f7, f8, f9, f10, f11, f12, f13⟩ := clockCore_frame E s.core
  have key : twp False (step E) (fun _ s' => s'.core =
      { trapCore cause 0#32 { clockCore E s.core with trapped := false } with
        simStep := s.simStep + 1#64, wfiActive := false } ∧ s'.lastInstBranch = false) s := by
    refine twp_step_checks h fun q hq hl _ => ?_
    have hi' : irqOf E (clockCore E s.core) = some cause := hi
    rw [hi'] at hq hl
    dsimp only at hq
    have ht : q.trapped = true := core_trapped hq
    unfold afterCheck
    rw [twp_bind, twp_mod]
    generalize hqq : ({ q with wfiActive := q.wfiActive && !(q.trapped || _) } : St σ) = q1
    have c1 : q1.core = { q.core with wfiActive := false } := by
      rw [← hqq]
      have : (q.wfiActive && !(q.trapped || (pendOf E (clockCore E s.core) && !gieOf (clockCore E s.core)))) = false := by
        rw [ht]; simp
      rw [this]; rfl
    have t1 : q1.trapped = true := (core_trapped c1).trans ht
    have l1 : q1.lastInstBranch = false := by rw [← hqq]; exact hl nofun
    rw [twp_bind, twp_get, twp_bind, twp_get, t1]
    simp only [Bool.not_true, Bool.false_and, Bool.false_eq_true, if_false, twp_pure]
    refine twp_finish_trap' t1 fun q2 c2 l2 => ⟨?_, l2.trans l1⟩
    have e : q1.simStep = s.simStep := by
      rw [core_simStep c1]
      dsimp only
      rw [hq]
      exact f5
    rw [c2, e, c1, hq]
  obtain ⟨_, s', h1, h2, hlib⟩ := twp_ex key
  have hpc : s'.core.pc = s.csr 0x305#16 := by
    rw [h2]; exact clockCore_csr E s.core (by decide)
  have hep : s'.core.csr 0x341#16 = s.pc := by
    rw [h2]; exact f1
  refine ⟨s', h1, ?_, ?_, ?_, hpc, hep, ?_, ?_, ?_, ?_, ?_, hlib, ?_⟩
  · rw [h2, ← trapEntry_core]; rfl
  · rw [core_rf h2]; exact f3
  · rw [core_ram h2]; exact f4
  · rw [core_simInst h2]; exact f6
  · rw [core_simStep h2]
  · rw [core_wfiActive h2]
  · rw [core_uart h2]; rfl
  · rw [core_clint h2]; rfl
  · rw [core_trapLog h2]
    change (cause, 0#32, (clockCore E s.core).pc) :: (clockCore E s.core).trapLog = _
    rw [f1, f8]; rfl

/-- **C14**, converse: when no interrupt qualifies, an awake step (or one woken by a pending but
globally disabled interrupt) is exactly fetch, execute and finish from the clocked state: no
interrupt is taken. -/
theorem no_interrupt_executes {E : Env σ} {s : St σ} (h : Checks E s)
    (hi : irq E.cfg.uartIn ((clockCore E s.core).csr 0x304#16) ((clockCore E s.core).csr 0x344#16)
      ((clockCore E s.core).csr 0x300#16) = none)
    (ha : s.wfiActive = false ∨
      irqPending E.cfg.uartIn ((clockCore E s.core).csr 0x304#16) ((clockCore E s.core).csr 0x344#16) = true) :
    ∃ q, q.core = { clockCore E s.core with trapped := false, wfiActive := false } ∧
      q.lastInstBranch = s.lastInstBranch ∧ q.instResolved = s.instResolved ∧
      step E s = (do fetch E; exec E; finishM E) q := by
  have hi' : irqOf E (clockCore E s.core) = none := hi
  obtain ⟨b, q0, e0, rfl, c0, l0, r0⟩ := twp_ex
    (twp_profWindow (ab := False) (Q := fun b q => b = false ∧ q.core = ({ s with trapped := false } : St σ).core ∧
      q.lastInstBranch = s.lastInstBranch ∧ q.instResolved = s.instResolved)
      (E := E) (s := { s with trapped := false }) h.window fun q h1 h2 h3 => ⟨rfl, h1, h2, h3⟩)
  have hq0 : q0.core = { s.core with trapped := false } := c0
  have a0 : q0.wfiActive = s.wfiActive := core_wfiActive hq0
  have p0 : q0.pc = s.pc := core_pc hq0
  have m0 : q0.ram = s.ram := core_ram hq0
  have sz0 : Sized q0 := by rw [sized_core, hq0]; exact h.sized
  have hcc : clockCore E q0.core = { clockCore E s.core with trapped := false } := by
    rw [hq0, clockCore_trapped]
  obtain ⟨q, e1, e2, e3, e4, -⟩ := checkInterrupts_app E q0 sz0
  have i1 : irqOf E (clockCore E q0.core) = none := by rw [hcc]; exact hi'
  have i2 : pendOf E (clockCore E q0.core) = pendOf E (clockCore E s.core) := by rw [hcc]; rfl
  have i3 : gieOf (clockCore E q0.core) = gieOf (clockCore E s.core) := by rw [hcc]; rfl
  rw [i1, hcc] at e2
  have e2' : q.core = { clockCore E s.core with trapped := false } := e2
  obtain ⟨l1, r1⟩ := e4 i1
  rw [i2, i3] at e1
  have tq : q.trapped = false := core_trapped e2'
  have aq : q.wfiActive = s.wfiActive := (core_wfiActive e2').trans (clockCore_frame E s.core).2.1
  have hb : s.wfiActive = true → (pendOf E (clockCore E s.core) && !gieOf (clockCore E s.core)) = true := by
    intro hact
    rcases ha with ha | ha
    · rw [hact] at ha; cases ha
    · have hp : pendOf E (clockCore E s.core) = true := ha
      rw [pendOf_eq] at hp
      rw [irqOf_eq] at hi'
      rw [pendOf_eq, hp]
      revert hi' hp
      cases gieOf (clockCore E s.core) <;> cases intMei E (clockCore E s.core) <;>
        cases intMti (clockCore E s.core) <;> simp
  have hchk : stepExec E q0 = (checkInterrupts E false >>= afterCheck E) q0 := by
    unfold stepExec
    cases hact : s.wfiActive
    · obtain ⟨n1, n2⟩ := h.notWfi hact
      have hj : justInst s.pc q0 = .ok (wordAt s.ram s.pc, q0) := by
        obtain ⟨a, q', h1, rfl, rfl⟩ := twp_ex (twp_justInst (ab := False) (a := s.pc) (s := q0)
          (Q := fun a q' => a = wordAt q0.ram s.pc ∧ q' = q0) sz0.1 n1 ⟨rfl, rfl⟩)
        rw [h1, m0]
      have h1 : M.get (fun s : St σ => s.wfiActive) q0 = .ok (false, q0) := by
        rw [← hact, ← a0]; rfl
      have h2 : (do let pc ← M.get (fun s : St σ => s.pc)
                    let w ← justInst pc
                    pure (w == 0x10500073#32) : M σ Bool) q0 = .ok (false, q0) := by
        rw [M.bind_ok (show M.get (fun s : St σ => s.pc) q0 = .ok (s.pc, q0) by rw [← p0]; rfl),
          M.bind_ok hj, show (wordAt s.ram s.pc == 0x10500073#32) = false from by simpa [wfiWord] using n2]
        rfl
      rw [M.bind_ok h1]
      simp only [Bool.false_eq_true, if_false]
      rw [M.bind_ok h2]
      rfl
    · have h1 : M.get (fun s : St σ => s.wfiActive) q0 = .ok (true, q0) := by
        rw [← hact, ← a0]; rfl
      rw [M.bind_ok h1]
      rfl
  refine ⟨{ q with wfiActive := false }, ?_, l1.trans l0, r1.trans r0, ?_⟩
  · change ({ q.core with wfiActive := false } : Core) = _
    rw [e2']
  · have hac : afterCheck E (pendOf E (clockCore E s.core) && !gieOf (clockCore E s.core)) q =
        (do fetch E; exec E : M σ Unit) { q with wfiActive := false } := by
      generalize (pendOf E (clockCore E s.core) && !gieOf (clockCore E s.core)) = b at hb
      have hw : (q.wfiActive && !(q.trapped || b)) = false := by
        rw [tq, aq]
        cases hact : s.wfiActive
        · rfl
        · rw [hb hact]; rfl
      unfold afterCheck
      rw [M.bind_ok (show M.mod (fun s : St σ => { s with wfiActive := s.wfiActive && !(s.trapped || b) }) q =
        .ok ((), { q with wfiActive := false }) by rw [← hw]; rfl)]
      rw [M.bind_ok (show M.get (fun s : St σ => s.trapped) { q with wfiActive := false } =
        .ok (false, { q with wfiActive := false }) by rw [← tq]; rfl),
        M.bind_ok (show M.get (fun s : St σ => s.wfiActive) { q with wfiActive := false } =
        .ok (false, { q with wfiActive := false }) from rfl)]
      rfl
    unfold step
    rw [M.bind_ok (show M.mod (fun s : St σ => { s with trapped := false }) s =
      .ok ((), { s with trapped := false }) from rfl), M.bind_ok e0]
    change (stepExec E >>= fun _ => finishM E) q0 = _
    rw [M.bind_app, hchk, M.bind_ok e1, hac]
    rw [M.bind_app, M.bind_app]
    cases fetch E { q with wfiActive := false } with
    | ok r => rfl
    | ub k => rfl
    | abort => rfl

/-! ## C15: WFI -/

/-- `t` is `s` after `k` idle steps: registers, memory, pc, every CSR but mip, the retired
count, the trap log and UART output are those of `s`; only time has passed. -/
structure Stalled (E : Env σ) (s t : St σ) (k : Nat) : Prop where
  asleep : t.wfiActive = true
  pc : t.pc = s.pc
  rf : t.rf = s.rf
  ram : t.ram = s.ram
  csr : ∀ a, a ≠ 0x344#16 → t.csr a = s.csr a
  insts : t.simInst = s.simInst
  steps : t.simStep = s.simStep + BitVec.ofNat 64 k
  traps : t.trapLog = s.trapLog
  uartLog : t.uart.log = s.uart.log

/-- an asleep hart with nothing pending and enabled idles for one step -/
theorem wfi_idle_step {E : Env σ} {s : St σ} (hs : Sized s) (ha : s.wfiActive = true)
    (hw : windowExit E s = false)
    (hp : irqPending E.cfg.uartIn ((clockCore E s.core).csr 0x304#16)
      ((clockCore E s.core).csr 0x344#16) = false) :
    ∃ s', step E s = .ok ((), s') ∧
      s'.core = { clockCore E s.core with trapped := false, simStep := s.simStep + 1#64 } := by
  obtain ⟨f1, f2, f3, f4, f5, f6, f7, f8, f9, f10, f11, f12, f13⟩ := clockCore_frame E s.core
  have hp' : pendOf E (clockCore E s.core) = false := hp
  have hi : irqOf E (clockCore E s.core) = none := by
    rw [pendOf_eq, Bool.or_eq_false_iff] at hp'
    rw [irqOf_eq, hp'.1, hp'.2]; simp
  have hC : Checks E s := ⟨hs, hw, fun h => by rw [ha] at h; cases h⟩
  have key : twp False (step E) (fun _ s' => s'.core =
      { clockCore E s.core with trapped := false, simStep := s.simStep + 1#64 }) s := by
    refine twp_step_checks hC fun q hq _ _ => ?_
    rw [hi] at hq
    dsimp only at hq
    have ht : q.trapped = false := core_trapped hq
    have hqa : q.wfiActive = true := (core_wfiActive hq).trans (f2.trans ha)
    have e : q.simStep = s.simStep := (core_simStep hq).trans f5
    unfold afterCheck
    rw [hp', twp_bind, twp_mod]
    have : (q.wfiActive && !(q.trapped || (false && !gieOf (clockCore E s.core)))) = q.wfiActive := by
      rw [ht]; simp
    rw [this, twp_bind, twp_get, twp_bind, twp_get, ht, hqa]
    simp only [Bool.not_true, Bool.not_false, Bool.true_and, Bool.false_and, Bool.or_false, Bool.false_eq_true,
      if_false, twp_pure]
    refine twp_finish_idle (by rfl) (by rfl) fun q2 c2 => ?_
    rw [c2]
    have : ({ q with trapped := false, wfiActive := true } : St σ).core = q.core := by
      simp only [St.core, ht, hqa]
    change ({ ({ q with trapped := false, wfiActive := true } : St σ).core with
      simStep := q.simStep + 1#64 } : Core) = _
    rw [this, e, hq]
  obtain ⟨_, s', h1, h2⟩ := twp_ex key
  exact ⟨s', h1, h2⟩

/-- `n` consecutive calls of `single_step` -/
def stepN (E : Env σ) : Nat → M σ Unit
  | 0 => pure ()
  | n + 1 => do
    stepN E n
    step E

/-- time in units of one timer update: 100 mtime + sub-tick counter -/
def Spec.timeOf (c : Clint) : Nat := 100 * reg64 c.dev 0x10#32 + c.ticks.toNat

theorem reg64_lt (d : Dev) (a : W) : reg64 d a < 2 ^ 64 := by
  have := le_lt d.bytes a 8
  unfold reg64; omega

/-- **C15** A hart that is asleep idles, for any number of steps, until a step at whose clock an
interrupt is pending and enabled: after `n` steps either it still sleeps and nothing but time has
changed, or some earlier step `k` found the interrupt while everything was still as at the start. -/
theorem wfi_stalls {E : Env σ} (hp : E.cfg.profilers = false) {s : St σ} (hs : Sized s)
    (ha : s.wfiActive = true) (n : Nat) :
    (∃ t, stepN E n s = .ok ((), t) ∧ Stalled E s t n) ∨
    (∃ k t, k < n ∧ stepN E k s = .ok ((), t) ∧ Stalled E s t k ∧ Sized t ∧
      irqPending E.cfg.uartIn ((clockCore E t.core).csr 0x304#16)
        ((clockCore E t.core).csr 0x344#16) = true) := by
  have hw : ∀ t : St σ, windowExit E t = false := fun t => by unfold windowExit; rw [hp]; rfl
  have key : (∃ t, stepN E n s = .ok ((), t) ∧ Stalled E s t n ∧ Sized t) ∨
    (∃ k t, k < n ∧ stepN E k s = .ok ((), t) ∧ Stalled E s t k ∧ Sized t ∧
      irqPending E.cfg.uartIn ((clockCore E t.core).csr 0x304#16)
        ((clockCore E t.core).csr 0x344#16) = true) := by
    induction n with
    | zero => exact Or.inl ⟨s, rfl, ⟨ha, rfl, rfl, rfl, fun _ _ => rfl, rfl, (BitVec.add_zero _).symm, rfl, rfl⟩, hs⟩
    | succ n ih =>
      rcases ih with ⟨t, e, st, sz⟩ | ⟨k, t, hk, r⟩
      · cases hpd : irqPending E.cfg.uartIn ((clockCore E t.core).csr 0x304#16)
          ((clockCore E t.core).csr 0x344#16)
        · obtain ⟨t', e', c'⟩ := wfi_idle_step sz st.asleep (hw t) hpd
          obtain ⟨f1, f2, f3, f4, f5, f6, f7, f8, -⟩ := clockCore_frame E t.core
          refine Or.inl ⟨t', ?_, ?_, ?_⟩
          · rw [stepN, M.bind_ok e]; exact e'
          · exact
              { asleep := by rw [core_wfiActive c']; exact f2.trans st.asleep
                pc := by rw [core_pc c']; exact f1.trans st.pc
                rf := by rw [core_rf c']; exact f3.trans st.rf
                ram := by rw [core_ram c']; exact f4.trans st.ram
                csr := fun a h => by rw [core_csr c']; exact (clockCore_csr E t.core h).trans (st.csr a h)
                insts := by rw [core_simInst c']; exact f6.trans st.insts
                steps := by
                  rw [core_simStep c']; dsimp only; rw [st.steps, BitVec.add_assoc]
                  congr 1
                  apply BitVec.eq_of_toNat_eq
                  simp
                traps := by rw [core_trapLog c']; exact f8.trans st.traps
                uartLog := by rw [core_uart c']; exact (clockCore_log E t.core).trans st.uartLog }
          · rw [sized_core, c']; exact clockCore_sized E t.core sz
        · exact Or.inr ⟨n, t, Nat.lt_succ_self n, e, st, sz, hpd⟩
      · exact Or.inr ⟨k, t, Nat.lt_succ_of_lt hk, r⟩
  rcases key with ⟨t, e, st, -⟩ | h
  · exact Or.inl ⟨t, e, st⟩
  · exact Or.inr h

/-- the timer while asleep: one update per step -/
theorem wfi_time {E : Env σ} (hp : E.cfg.profilers = false) {s : St σ} (hs : Sized s)
    (ha : s.wfiActive = true) (htk : s.clint.ticks.toNat < 100) (n : Nat)
    (hb : timeOf s.clint + n < 100 * 2 ^ 64) :
    (∃ t, stepN E n s = .ok ((), t) ∧ Stalled E s t n ∧ Sized t ∧ timeOf t.clint = timeOf s.clint + n ∧
      t.clint.ticks.toNat < 100 ∧ reg64 t.clint.dev 0x8#32 = reg64 s.clint.dev 0x8#32) ∨
    (∃ k t, k < n ∧ stepN E k s = .ok ((), t) ∧ Stalled E s t k ∧ Sized t ∧
      irqPending E.cfg.uartIn ((clockCore E t.core).csr 0x304#16)
        ((clockCore E t.core).csr 0x344#16) = true) := by
  have hw : ∀ t : St σ, windowExit E t = false := fun t => by unfold windowExit; rw [hp]; rfl
  induction n with
  | zero =>
    exact Or.inl ⟨s, rfl, ⟨ha, rfl, rfl, rfl, fun _ _ => rfl, rfl, (BitVec.add_zero _).symm, rfl, rfl⟩, hs,
      (Nat.add_zero _).symm, htk, rfl⟩
  | succ n ih =>
    rcases ih (by omega) with ⟨t, e, st, sz, tm, tk, cmp⟩ | ⟨k, t, hk, r⟩
    · rcases wfi_stalls hp hs ha (n + 1) with ⟨t', e', st'⟩ | h
      · have e2 := e'
        rw [stepN, M.bind_ok e] at e2
        cases hpd : irqPending E.cfg.uartIn ((clockCore E t.core).csr 0x304#16)
          ((clockCore E t.core).csr 0x344#16)
        · obtain ⟨t2, e3, c'⟩ := wfi_idle_step sz st.asleep (hw t) hpd
          have : t2 = t' := by rw [e2] at e3; cases e3; rfl
          subst this
          have hc2 : t2.clint = (clockCore E t.core).clint := by rw [core_clint c']
          obtain ⟨m1, m2, m3⟩ := clockCore_mtime E t.core
          have hc0 : t.core.clint = t.clint := rfl
          rw [hc0] at m1 m2 m3
          have hlt := reg64_lt t.clint.dev 0x10#32
          have htk1 : (t.clint.ticks + 1#64).toNat = t.clint.ticks.toNat + 1 := by
            rw [BitVec.toNat_add]
            have : (1#64).toNat = 1 := rfl
            rw [this]; omega
          rw [htk1] at m1 m3
          unfold timeOf at tm hb ⊢
          refine Or.inl ⟨t2, e', st', ?_, ?_, ?_, ?_⟩
          · rw [sized_core, c']; exact clockCore_sized E t.core sz
          · rw [hc2, m1, m3]
            by_cases h99 : t.clint.ticks.toNat + 1 < 100
            · rw [Nat.div_eq_of_lt h99, Nat.mod_eq_of_lt h99, Nat.add_zero, Nat.mod_eq_of_lt hlt]
              omega
            · have : t.clint.ticks.toNat + 1 = 100 := by omega
              rw [this]
              have hm : (reg64 t.clint.dev 0x10#32 + 100 / 100) % 2 ^ 64 = reg64 t.clint.dev 0x10#32 + 1 := by
                apply Nat.mod_eq_of_lt
                omega
              rw [hm]
              omega
          · rw [hc2, m3]; exact Nat.mod_lt _ (by decide)
          · rw [hc2, m2, cmp]
        · exact Or.inr ⟨n, t, Nat.lt_succ_self n, e, st, sz, hpd⟩
      · exact Or.inr h
    · exact Or.inr ⟨k, t, Nat.lt_succ_of_lt hk, r⟩

/-- **C15**, wake-up: with the timer interrupt enabled in mie, the hart does wake: at the latest in
the step at whose clock mtime reaches mtimecmp (`hnw`: the 64-bit timer is not about to wrap). -/
theorem wfi_timer_wakes {E : Env σ} (hp : E.cfg.profilers = false) {s : St σ} (hs : Sized s)
    (ha : s.wfiActive = true) (htk : s.clint.ticks.toNat < 100)
    (hnw : timeOf s.clint + 1 < 100 * 2 ^ 64) (hie : (s.csr 0x304#16).getLsbD 7 = true) :
    ∃ k t, k ≤ 100 * reg64 s.clint.dev 0x8#32 - timeOf s.clint ∧ stepN E k s = .ok ((), t) ∧
      Stalled E s t k ∧ Sized t ∧
      irqPending E.cfg.uartIn ((clockCore E t.core).csr 0x304#16)
        ((clockCore E t.core).csr 0x344#16) = true := by
  have hcm := reg64_lt s.clint.dev 0x8#32
  have hmt := reg64_lt s.clint.dev 0x10#32
  generalize hN : 100 * reg64 s.clint.dev 0x8#32 - timeOf s.clint = N
  have hbd : timeOf s.clint < 100 * 2 ^ 64 := by unfold timeOf; omega
  rcases wfi_time hp hs ha htk N (by omega) with ⟨t, e, st, sz, tm, tk, cmp⟩ | ⟨k, t, hk, e, st, sz, pd⟩
  · refine ⟨N, t, Nat.le_refl _, e, st, sz, ?_⟩
    have hc0 : t.core.clint = t.clint := rfl
    obtain ⟨m1, m2, m3⟩ := clockCore_mtime E t.core
    rw [hc0] at m1 m2 m3
    have hlt := reg64_lt t.clint.dev 0x10#32
    have htk1 : (t.clint.ticks + 1#64).toNat = t.clint.ticks.toNat + 1 := by
      rw [BitVec.toNat_add]
      have : (1#64).toNat = 1 := rfl
      rw [this]; omega
    rw [htk1] at m1
    have hge : reg64 t.clint.dev 0x10#32 ≥ reg64 t.clint.dev 0x8#32 := by
      unfold timeOf at tm hN
      rw [cmp]
      omega
    have hge2 : reg64 (clockCore E t.core).clint.dev 0x10#32 ≥ reg64 (clockCore E t.core).clint.dev 0x8#32 ∨
        reg64 t.clint.dev 0x10#32 = 2 ^ 64 - 1 ∧ t.clint.ticks.toNat = 99 := by
      rw [m1, m2]
      by_cases h99 : t.clint.ticks.toNat + 1 < 100
      · left
        rw [Nat.div_eq_of_lt h99, Nat.add_zero, Nat.mod_eq_of_lt hlt]
        exact hge
      · by_cases hmax : reg64 t.clint.dev 0x10#32 = 2 ^ 64 - 1
        · right; omega
        · left
          have : t.clint.ticks.toNat + 1 = 100 := by omega
          rw [this, Nat.mod_eq_of_lt (by omega)]
          omega
    rcases hge2 with hge2 | hmx
    · unfold irqPending
      rw [clockCore_mtip, clockCore_csr E t.core (by decide)]
      have : t.core.csr 0x304#16 = s.csr 0x304#16 := st.csr _ (by decide)
      rw [this, hie, decide_eq_true hge2]
      simp
    · exfalso
      unfold timeOf at tm hN hnw
      omega
  · exact ⟨k, t, by omega, e, st, sz, pd⟩

/-- **C15**, falling asleep: WFI retires, moves pc by 4, puts the hart to sleep and changes no
register, CSR, memory byte or device (not even the timer). -/
theorem wfi_sleeps {E : Env σ} {s : St σ} (hst : E.cfg.strict = false) (h : Ready E s (encode .wfi)) :
    ∃ s', step E s = .ok ((), s') ∧ s'.wfiActive = true ∧ s'.pc = s.pc + 4#32 ∧ s'.rf = s.rf ∧
      s'.csr = s.csr ∧ (∀ x, s'.ram.bytes x = s.ram.bytes x) ∧ s'.uart = s.uart ∧ s'.clint = s.clint ∧
      s'.simInst = s.simInst + 1#64 := by
  have hm := step_refines (i := .wfi) hst h nofun nofun
  have hC : startCore E s (encode .wfi) = { s.core with trapped := false, inst := encode .wfi } := by
    unfold startCore
    rw [if_pos (by decide)]
  obtain ⟨s', h1, h2, h3, h4, h5, ⟨q1, q2, -⟩, -⟩ := hm
  rw [hC] at h2 q1 q2
  refine ⟨s', h1, h5, congrArg Arch.pc h2, congrArg Arch.rf h2, congrArg Arch.csr h2, ?_, q1, q2, h4⟩
  intro x
  have := congrFun (congrArg Arch.mem h2) (x + memBase)
  change s'.ram.bytes (x + memBase - memBase) = s.ram.bytes (x + memBase - memBase) at this
  rwa [BitVec.add_sub_cancel] at this

/-- **C15**, resuming: when the interrupt is found the hart wakes in that step: with MIE set the
handler is entered with mepc = the pc after WFI; with MIE clear no trap is taken and the
instruction at pc is fetched and executed. -/
theorem wfi_resumes {E : Env σ} {s : St σ} (hs : Sized s) (hw : windowExit E s = false)
    (ha : s.wfiActive = true)
    (hp : irqPending E.cfg.uartIn ((clockCore E s.core).csr 0x304#16)
      ((clockCore E s.core).csr 0x344#16) = true) :
    ((s.csr 0x300#16).getLsbD 3 = true → ∃ s', step E s = .ok ((), s') ∧ s'.wfiActive = false ∧
      s'.pc = s.csr 0x305#16 ∧ s'.csr 0x341#16 = s.pc ∧ s'.rf = s.rf ∧ s'.ram = s.ram ∧
      s'.simInst = s.simInst) ∧
    ((s.csr 0x300#16).getLsbD 3 = false →
      ∃ q, q.core = { clockCore E s.core with trapped := false, wfiActive := false } ∧
        step E s = (do fetch E; exec E; finishM E) q) := by
  have hC : Checks E s := ⟨hs, hw, fun h => by rw [ha] at h; cases h⟩
  have hms : (clockCore E s.core).csr 0x300#16 = s.csr 0x300#16 := clockCore_csr E s.core (by decide)
  constructor
  · intro hg
    have : ∃ cause, irq E.cfg.uartIn ((clockCore E s.core).csr 0x304#16) ((clockCore E s.core).csr 0x344#16)
      ((clockCore E s.core).csr 0x300#16) = some cause := by
      unfold irq
      rw [hms, hg]
      simp only [Bool.true_eq_false, if_false]
      unfold irqPending at hp
      split
      · exact ⟨_, rfl⟩
      · rename_i h1
        split
        · exact ⟨_, rfl⟩
        · rename_i h2
          exfalso
          rw [Bool.or_eq_true, Bool.and_eq_true, Bool.and_eq_true, Bool.and_eq_true] at hp
          rcases hp with hp | hp
          · exact h1 ⟨hp.1.1, hp.1.2, hp.2⟩
          · exact h2 hp
    obtain ⟨cause, hi⟩ := this
    obtain ⟨s', a1, -, a3, a4, a5, a6, a7, -, a9, -⟩ := interrupt_taken hC hi
    exact ⟨s', a1, a9, a5, a6, a3, a4, a7⟩
  · intro hg
    have hi : irq E.cfg.uartIn ((clockCore E s.core).csr 0x304#16) ((clockCore E s.core).csr 0x344#16)
      ((clockCore E s.core).csr 0x300#16) = none := by
      unfold irq
      rw [hms, hg]
      simp
    obtain ⟨q, h1, -, -, h4⟩ := no_interrupt_executes hC hi (Or.inr hp)
    exact ⟨q, h1, h4⟩

namespace Ex
/-- `nop` at pc, timer enabled in mie, the given mstatus, mtimecmp and sleep state -/
def stIrq (mstatus : W) (cmp : Nat) (asleep : Bool) : St Unit :=
  let s := stI 0x13#32
  { s with
    csr := upd (upd (upd s.csr 0x304#16 0x80#32) 0x300#16 mstatus) 0x305#16 0x80000040#32
    clint := { s.clint with dev := { s.clint.dev with bytes := put s.clint.dev.bytes 8#32 cmp 8 } }
    wfiActive := asleep }
/-- interrupt taken, awake -/
example : Checks env0 (stIrq 0x1808#32 0 false) ∧
    irq false ((clockCore env0 (stIrq 0x1808#32 0 false).core).csr 0x304#16)
      ((clockCore env0 (stIrq 0x1808#32 0 false).core).csr 0x344#16)
      ((clockCore env0 (stIrq 0x1808#32 0 false).core).csr 0x300#16) = some 0x80000007#32 :=
  ⟨⟨⟨rfl, rfl, rfl⟩, rfl, fun _ => by decide +kernel⟩, by decide +kernel⟩
/-- external before timer -/
example : irq true 0x880#32 0x880#32 0x1808#32 = some 0x8000000b#32 := by decide
/-- not taken: MIE clear -/
example : Checks env0 (stIrq 0x1800#32 0 false) ∧
    irq false ((clockCore env0 (stIrq 0x1800#32 0 false).core).csr 0x304#16)
      ((clockCore env0 (stIrq 0x1800#32 0 false).core).csr 0x344#16)
      ((clockCore env0 (stIrq 0x1800#32 0 false).core).csr 0x300#16) = none :=
  ⟨⟨⟨rfl, rfl, rfl⟩, rfl, fun _ => by decide +kernel⟩, by decide +kernel⟩
/-- asleep with nothing pending, then with the timer pending and MIE set or clear -/
example : Sized (stIrq 0x1808#32 1 true) ∧ windowExit env0 (stIrq 0x1808#32 1 true) = false ∧
    irqPending false ((clockCore env0 (stIrq 0x1808#32 1 true).core).csr 0x304#16)
      ((clockCore env0 (stIrq 0x1808#32 1 true).core).csr 0x344#16) = false ∧
    irqPending false ((clockCore env0 (stIrq 0x1808#32 0 true).core).csr 0x304#16)
      ((clockCore env0 (stIrq 0x1808#32 0 true).core).csr 0x344#16) = true :=
  ⟨⟨rfl, rfl, rfl⟩, rfl, by decide +kernel, by decide +kernel⟩
/-- wfi_timer_wakes: mtimecmp = 1, so the hart sleeps 99 steps and wakes in the hundredth -/
example : (stIrq 0x1808#32 1 true).clint.ticks.toNat < 100 ∧ timeOf (stIrq 0x1808#32 1 true).clint + 1 < 100 * 2 ^ 64 ∧
    ((stIrq 0x1808#32 1 true).csr 0x304#16).getLsbD 7 = true := by decide +kernel
example : obs (stepN env0 99 (stIrq 0x1808#32 1 true)) (fun s => (s.wfiActive, s.pc)) = some (true, 0x80000000#32) ∧
    obs (stepN env0 100 (stIrq 0x1808#32 1 true)) (fun s => (s.wfiActive, s.pc, s.csr 0x341#16)) =
      some (false, 0x80000040#32, 0x80000000#32) := by decide +kernel
example : Ready env0 (stI (encode .wfi)) (encode .wfi) := by ready_ex
end Ex
end Ama
