import Verif.Lemmas.ProfEventsRun
import Verif.Props.ProfTrace
/-!
# C77: the samples of a performance event are the retired instructions of its class
-/
namespace Ama.PerfCore
open M Spec Prof
open Perf (Op Trk Disc recorded)
variable {σ : Type} {E : Env σ} {s s' : St σ} {l : List Op}

/-- **C77.** The callstack profiler leaves the core alone: a run with its calls is a run without. -/
theorem calls_transparent (n : Nat) (s s' : St σ) : (∃ l, runP E n s = .ok (l, s')) ↔ runN E n s = .ok ((), s') := by
  have h := runP_same (E := E) n s
  constructor
  · rintro ⟨l, e⟩
    rw [e] at h
    exact h
  · intro e
    rw [e] at h
    rcases hh : runP E n s with ⟨l, s1⟩ | _ | _ <;> rw [hh] at h <;> cases h
    exact ⟨l, rfl⟩

/-- **C77**, one retired instruction: each event is recorded once if profiling is on and its class holds the instruction, and
not at all otherwise. -/
theorem events_step (hp : E.cfg.profilers = true) (h0 : s.rf 0#5 = 0#32) (h : stepP E s = .ok (l, s'))
    (hr : s'.simInst ≠ s.simInst) {a : Any} (hw : Word s'.inst a) (e : Event) :
    recorded (num e) s.profActive l = if s'.profActive && e.counts a then 1 else 0 := by
  obtain ⟨m, c, rfl, hc, hm⟩ := retired_calls hp h0 h hr hw
  have := retired_records (b := s.profActive) (pc := s'.pc) hc (hm.imp_right And.left) e []
  rw [List.append_nil] at this
  exact this

/-- **C77**, other steps: those that retire nothing, do not trap and do not hit the step limit record nothing. -/
theorem events_other (h : stepP E s = .ok (l, s')) (hr : s'.simInst = s.simInst) (ht : s'.trapped = false)
    (hl : s'.simStep ≠ E.cfg.runSteps) (e : Event) : recorded (num e) s.profActive l = 0 := by
  rw [stepP_idle h hr ht hl]
  unfold activeCalls
  split <;> rfl

/-- A run without traps, and that does not reach the step limit: the retired instructions with the states after them, the
calls made, and whether the last retired instruction transferred control.  Profiling is not switched right after such an
instruction. -/
inductive Run (E : Env σ) (s0 : St σ) : List (St σ × Any) → List Op → Bool → St σ → Prop
  | nil : Run E s0 [] [] false s0
  | retired {L l l' mv s s' a} : Run E s0 L l mv s → stepP E s = .ok (l', s') → s'.simInst ≠ s.simInst → Word s'.inst a →
    (mv = true → ∀ b, .active b ∉ l') → Run E s0 (L ++ [(s', a)]) (l ++ l') (a.moves s.rf) s'
  | other {L l l' mv s s'} : Run E s0 L l mv s → stepP E s = .ok (l', s') → s'.simInst = s.simInst → s'.trapped = false →
    s'.simStep ≠ E.cfg.runSteps → (mv = true → ∀ b, .active b ∉ l') → Run E s0 L (l ++ l') mv s'

theorem run_x0 {s0 : St σ} {L : List (St σ × Any)} {mv : Bool} (h : Run E s0 L l mv s) (h0 : s0.rf 0#5 = 0#32) : s.rf 0#5 = 0#32 := by
  induction h with
  | nil => exact h0
  | retired _ hs _ _ _ ih => exact x0_zero_step E _ _ ih (step_of hs)
  | other _ hs _ _ _ _ ih => exact x0_zero_step E _ _ ih (step_of hs)

/-- retired instructions of a class while profiling is on -/
def classCount (e : Event) (L : List (St σ × Any)) : Nat := L.countP fun x => x.1.profActive && e.counts x.2

theorem run_recorded (hp : E.cfg.profilers = true) {s0 : St σ} {L : List (St σ × Any)} {mv : Bool} (h : Run E s0 L l mv s)
    (h0 : s0.rf 0#5 = 0#32) (e : Event) : ∀ t, recorded (num e) s0.profActive (l ++ t) =
      classCount e L + recorded (num e) s.profActive t := by
  induction h with
  | nil => intro t; simp [classCount]
  | @retired L l l' mv s s' a h1 hs hr hw _ ih =>
    intro t
    obtain ⟨m, c, rfl, hc, hm⟩ := retired_calls hp (run_x0 h1 h0) hs hr hw
    rw [List.append_assoc, ih, retired_records hc (hm.imp_right And.left), classCount, classCount, List.countP_append, ← Nat.add_assoc]
    congr 2
    simp only [List.countP_cons, List.countP_nil, Nat.zero_add]
  | other h1 hs hr ht hl _ ih =>
    intro t
    rw [List.append_assoc, ih, stepP_idle hs hr ht hl]
    exact congrArg _ (rec_sw _ _ _ _)

theorem sw_active {a b : Bool} (h : a ≠ b) : Op.active b ∈ sw a b := by
  unfold sw
  rw [if_neg h]
  exact List.mem_singleton.2 rfl

theorem run_disc (hp : E.cfg.profilers = true) {s0 : St σ} {L : List (St σ × Any)} {mv : Bool} (h : Run E s0 L l mv s)
    (h0 : s0.rf 0#5 = 0#32) : ∀ t, (∀ k, Ready k → (mv = false → k.clean = true) → Disc k t) → Disc .start (l ++ t) := by
  induction h with
  | nil => exact fun t ht => ht .start ⟨rfl, fun _ => Nat.zero_le _, fun _ => rfl⟩ fun _ => rfl
  | @retired L l l' mv s s' a h1 hs hr hw ha ih =>
    intro t ht
    obtain ⟨m, c, rfl, hc, hm⟩ := retired_calls hp (run_x0 h1 h0) hs hr hw
    rw [List.append_assoc]
    refine ih _ fun k hk hkc => retired_disc hk hc hm (fun hx => ?_) ht
    cases mv
    · exact hkc rfl
    · exfalso
      rcases hx with hx | hx
      · exact ha rfl m (by simp [sw_active hx])
      · exact ha rfl s'.profActive (by simp [sw_active hx])
  | @other L l l' mv s s' h1 hs hr ht hl ha ih =>
    intro t hd
    rw [List.append_assoc, stepP_idle hs hr ht hl]
    refine ih _ fun k hk hkc => (disc_sw (a := s.profActive) (b := s'.profActive) fun hx => ?_).2 (hd k hk hkc)
    cases mv
    · exact hkc rfl
    · exact absurd (by rw [stepP_idle hs hr ht hl]; exact sw_active hx) (ha rfl s'.profActive)

/-- the invariant of the profiler with what follows -/
theorem inv_run {ev : List Nat} (hn : ev.Nodup) {e : Nat} (he : e ∈ ev) {t : List Op} : ∀ {l : List Op} {p : Perf.St} {k : Trk} {n : Nat},
    Perf.Inv p k ev e n → Disc k (l ++ t) → ∃ k', Perf.Inv (p.ops l) k' ev e (n + recorded e p.active l) ∧ Disc k' t
  | [], p, k, n, i, d => ⟨k, by simpa [recorded, Perf.St.ops] using i, d⟩
  | o :: l, p, k, n, i, d => by
    obtain ⟨k1, d1, i1, -⟩ := i.step hn he (show Disc k (o :: (l ++ t)) from d)
    obtain ⟨_, _, _, hr⟩ := i.step hn he (show Disc k (o :: l) from Disc.app (l' := t) d)
    obtain ⟨k2, i2, d2⟩ := inv_run hn he i1 d1
    refine ⟨k2, ?_, d2⟩
    rw [hr, ← Nat.add_assoc]
    exact i2

/-- **C77**, whole runs: the samples reported for a tracked event, over all callstacks, plus those not yet attributed, are the
retired instructions of its class while profiling was on; none is left over unless the last retired instruction transferred
control.  For every program, symbol map and set of events.

Missing: runs with traps (`trap_counted`, `undefined_store_counted`, `trap_jump_doubled`), runs that end at the step limit
(`limit_doubled`) and windows that open or close right after a control transfer (`window_call_counted`,
`last_call_dropped`). -/
theorem events_run_partial (hp : E.cfg.profilers = true) {s0 : St σ} {L : List (St σ × Any)} {mv : Bool}
    (h : Run E s0 L l mv s) (h0 : s0.rf 0#5 = 0#32) {m : Perf.SymMap} {ev : List Nat} (hn : ev.Nodup) {p0 : Perf.St}
    (hi : Perf.St.init m ev s0.profActive true = some p0) {e : Event} (he : num e ∈ ev) :
    let p := p0.ops l
    p.finish.total (num e) + (if p.active then (p.flags (num e)).toNat else 0) = classCount e L ∧
    (mv = false → p.finish.total (num e) = classCount e L) := by
  intro p
  obtain ⟨i, ha⟩ := Perf.Fresh.inv hi (num e)
  have d : Disc .start (l ++ if mv then [.jal 0#32 false 0#32] else [.active false, .jal 0#32 false 0#32]) := by
    refine run_disc hp h h0 _ fun k hk hc => ?_
    cases mv
    · exact ⟨hc rfl, hk.1, trivial⟩
    · exact ⟨hk.1, trivial⟩
  obtain ⟨k, i', d'⟩ := inv_run hn he i d
  have hk : k.ctl = false ∧ (mv = false → k.clean = true) := by
    cases mv
    · exact ⟨d'.2.1, fun _ => d'.1⟩
    · exact ⟨d'.1, nofun⟩
  have hrec := run_recorded hp h h0 e []
  rw [List.append_nil] at hrec
  have hh : p.held (num e) = classCount e L := by
    have := i'.held
    rw [ha, hrec, Nat.zero_add] at this
    exact this
  have hu : p.updated = false := by
    cases hu : p.updated
    · rfl
    · rw [i'.ctl hu] at hk; cases hk.1
  have key : p.finish.total (num e) + (if p.active then (p.flags (num e)).toNat else 0) = classCount e L := by
    rw [← hh]
    unfold Perf.St.held Perf.St.finish
    have hen : p.en = true := i'.en
    rw [hu, hen]
    simp only [Bool.not_true, Bool.false_eq_true, if_false]
    congr 1
    show ((Perf.bump _ _ _).map _).sum = _
    rw [Perf.total_bump, Perf.share_eq (by rw [i'.events]; exact hn) (by rw [i'.events]; exact he)]
    rfl
  refine ⟨key, fun hmv => ?_⟩
  have hz : (p.flags (num e)).toNat = 0 := by rw [i'.clean (hk.2 hmv)]; rfl
  rw [hz] at key
  simpa using key

/-! ## Runs of the model, and where the code differs -/

namespace Ex
open ProfRf.Ex (envR)
open ProfTrace.Ex (stW base two)
/-- functions at 0x80000000, 0x80000014 and 0x8000001c -/
def syms : Perf.SymMap := [⟨0x80000000#32, 1#16⟩, ⟨0x80000014#32, 2#16⟩, ⟨0x8000001c#32, 3#16⟩]
/-- events reported at the end of a run (by number), and instructions retired -/
def totals (E : Env Unit) (n : Nat) (st : St Unit) (evs : List Event) : Option (List Nat × Nat) :=
  match runP E n st, Perf.St.init syms [0, 1, 2, 3, 4, 5, 6, 7, 8, 9, 10] st.profActive true with
  | .ok (l, s), some p => some (evs.map fun e => (p.ops l).finish.total (num e), s.simInst.toNat)
  | _, _ => none
/-- with a step limit -/
def envL (n : BitVec 64) : Env Unit := { envR false with cfg := { (envR false).cfg with runSteps := n } }
/-- LUI twice, C.SWSP and C.LW, MULHU, REM and a taken BEQ, and a NOP -/
example : totals (envR true) 8 (stW true 0x80000000#32 [base 2#5, base 8#5, two (.swsp 1#5 1#6) (.lw 1#3 0#3 1#5),
    encode (.alu .mulhu 3#5 1#5 1#5), encode (.alu .rem 3#5 1#5 1#5), encode (.branch .beq 0#5 0#5 4#12), 0x13#32, 0x13#32])
    [.inst, .mem, .memLoad, .mul, .div, .ctrl, .branch, .jumpReg] = some ([8, 2, 1, 1, 1, 1, 1, 0], 8) := by decide +kernel
/-- a run of one instruction, LUI, that satisfies the hypotheses of `events_run_partial` -/
example : ∃ l s, Run (envR false) (stW false 0x80000000#32 [base 2#5]) [(s, .base (.lui 2#5 0x80010#20))] l false s ∧
    classCount .inst [(s, Any.base (.lui 2#5 0x80010#20))] = 1 := by
  have h : (match stepP (envR false) (stW false 0x80000000#32 [base 2#5]) with
      | .ok (_, s) => s.simInst == 1#64 && s.inst == base 2#5 && s.profActive | _ => false) = true := by decide +kernel
  have h0 : (stW false 0x80000000#32 [base 2#5]).simInst = 0#64 := by decide +kernel
  rcases e : stepP (envR false) (stW false 0x80000000#32 [base 2#5]) with ⟨l, s⟩ | _ | _ <;> rw [e] at h
  · simp only [Bool.and_eq_true, beq_iff_eq] at h
    refine ⟨[] ++ l, s, Run.retired .nil e (by rw [h.1.1, h0]; decide) ?_ nofun, ?_⟩
    · rw [h.1.2]; exact .base _
    · simp only [classCount, List.countP_cons, List.countP_nil, h.2]; decide
  all_goals cases h
example : (stW false 0x80000000#32 [base 2#5]).rf 0#5 = 0#32 ∧ [0, 1, 2].Nodup ∧
    (Perf.St.init syms [0, 1, 2] false true).isSome = true := by decide +kernel
end Ex
open Ama.PerfCore.Ex
open ProfRf.Ex (envR)
open ProfTrace.Ex (stW)

/-- **C77 fails for the instruction that traps**: three instructions, an ECALL and a NOP of the handler; four retire, five are
reported as retired. -/
theorem trap_counted : totals (envR false) 5 (stW false 0x80000000#32 [0x00000097#32, 0x01808093#32, 0x30509073#32,
    0x00000073#32, 0x13#32, 0x13#32, 0x13#32]) [.inst, .mem] = some ([5, 0], 4) := by decide +kernel

/-- **C77 fails for a store of undefined width**: it traps, and is reported as a memory instruction. -/
theorem undefined_store_counted : totals (envR false) 5 (stW false 0x80000000#32 [0x00000097#32, 0x01808093#32, 0x30509073#32,
    0x00103023#32, 0x13#32, 0x13#32, 0x13#32]) [.inst, .mem] = some ([5, 1], 4) := by decide +kernel

/-- **C77 fails for a custom instruction of undefined width**: it traps, and is reported as a SIMD instruction (an addition). -/
theorem undefined_simd_counted : totals (envR false) 5 (stW false 0x80000000#32 [0x00000097#32, 0x01808093#32, 0x30509073#32,
    0x0000700b#32, 0x13#32, 0x13#32, 0x13#32]) [.inst, .simd, .simdArith] = some ([5, 1, 1], 4) := by decide +kernel

/-- **C77 fails for a handler that starts with a jump**: three instructions, an ECALL, the jump and a NOP; five retire, nine are
reported. -/
theorem trap_jump_doubled : totals (envR false) 6 (stW false 0x80000000#32 [0x00000097#32, 0x01408093#32, 0x30509073#32,
    0x00000073#32, 0x13#32, encode (.jal 0#5 0x4#20), 0x13#32, 0x13#32]) [.inst] = some ([9], 5) := by decide +kernel

/-- **C77 fails at the start of the window**: profiling starts at the target of a JAL, and the JAL is reported too. -/
theorem window_call_counted : totals (envR false) 2 (stW false 0x80000014#32 [encode (.jal 1#5 0xa#20), 0x13#32, 0x13#32,
    0x13#32, 0x13#32, 0x13#32]) [.inst, .ctrl] = some ([2, 1], 2) := by decide +kernel

/-- **C77 fails at the end of the run**: a JAL is the last instruction, and is not reported. -/
theorem last_call_dropped : totals (envR false) 3 (stW false 0x80000000#32 [0x13#32, 0x13#32, encode (.jal 1#5 0x6#20), 0x13#32,
    0x13#32, 0x13#32]) [.inst, .ctrl] = some ([2, 0], 3) := by decide +kernel

/-- **C77 fails at the step limit**: the same three steps with a limit of three; four are reported. -/
theorem limit_doubled : totals (envL 3#64) 3 (stW false 0x80000000#32 [0x13#32, 0x13#32, encode (.jal 1#5 0x6#20), 0x13#32,
    0x13#32, 0x13#32]) [.inst, .ctrl] = some ([4, 0], 2) := by decide +kernel
end Ama.PerfCore
