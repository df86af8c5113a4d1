import Verif.Lemmas.HwTotal
import Verif.Props.X0
import Verif.Props.HwInd
/-!
# C83: the hardware models are told exactly what the program does
-/
namespace Ama.HwCalls
open M Spec
variable {σ : Type} {E : Env σ} {s s' : St σ} {l : List HwCall}

/-- **C83**, one retired instruction: whatever the hardware models are, besides instruction fetches and switches of their
statistics they are told what the instruction is to tell them, once and in order, with the statistics switched as the
profiler is. -/
theorem hw_step (hm : E.cfg.hwModels = true) (h0 : s.rf 0#5 = 0#32) (h : step E s = .ok ((), s'))
    (hr : s'.simInst ≠ s.simInst) (hc : HwCalls s.rf s.pc s'.pc s'.inst l) : Tells E s s' l := by
  rcases step_tells hm h with ⟨_, _, ht⟩ | ⟨he, _⟩
  · rw [← wCalls_spec h0 hc]; exact ht
  · exact absurd he hr

/-- **C83**, the step that hits the step limit: its instruction is not counted, but told like the others. -/
theorem hw_limit (hm : E.cfg.hwModels = true) (h0 : s.rf 0#5 = 0#32) (h : step E s = .ok ((), s')) (hr : s'.simInst = s.simInst)
    (ht : s'.trapped = false) (hw : s'.wfiActive = false) (hn : s'.simStep ≠ s.simStep)
    (hc : HwCalls s.rf s.pc s'.nextPc s'.inst l) : Tells E s s' l := by
  rcases step_tells hm h with ⟨he, _⟩ | ⟨_, ⟨_, h1 | h1 | h1⟩ | ⟨_, _, _, h1⟩ | ⟨h1, _⟩⟩
  · rw [hr] at he
    exact absurd he (by bv_omega)
  · rw [h1] at ht; cases ht
  · rw [h1] at hw; cases hw
  · exact absurd h1 hn
  · rw [← wCalls_spec h0 hc]; exact h1
  · rw [h1] at ht; cases ht

/-- **C83**, a malformed branch: exactly what it tells the hardware models although it retires nothing. -/
theorem hw_malformed (hm : E.cfg.hwModels = true) (h : step E s = .ok ((), s')) (ht : s'.trapped = true) {t p : W}
    {r : List (W × W × W)} (hl : s'.trapLog = (2#32, t, p) :: r) (hb : BadBranch s.pc s'.pc s'.inst l) : Tells E s s' l := by
  obtain ⟨h1, h2⟩ := bad_fields hb
  rw [h2]
  exact (step_malformed hm h ht h1 hl).2

/-- the step ended in an exception or interrupt that is no illegal branch and no fetch from an odd address -/
def Benign (s' : St σ) : Prop := ∃ c t p r, s'.trapLog = (c, t, p) :: r ∧ c ≠ 2#32 ∧ (c = 0#32 → t.toNat % 2 = 0)

/-- **C83**, other steps: a step that retires nothing tells the hardware models nothing, unless it executes the instruction at the
step limit, or an exception is raised by a malformed branch or a fetch from an odd address. -/
theorem hw_other_partial (hm : E.cfg.hwModels = true) (h : step E s = .ok ((), s')) (hr : s'.simInst = s.simInst)
    (hl : s'.trapped = true ∨ s'.simStep ≠ E.cfg.runSteps ∨ s'.wfiActive = true ∨ s'.simStep = s.simStep)
    (hb : s'.trapped = false ∨ s'.inst.extractLsb' 0 7 ≠ 0x63#7 ∨ Benign s') : Tells E s s' [] := by
  rcases step_forms hm h with ⟨k, _⟩ | ⟨k, _⟩ | ⟨k, _⟩ | ⟨qc, q1, _, _, _, _, _, _, w1, w2, hs⟩
  · exact k
  · exact k
  · exact k
  · rcases step_tells hm h with ⟨he, _⟩ | ⟨_, ⟨ht, _⟩ | ⟨h1, h2, _, _⟩ | ⟨h1, h2, ⟨c, t, p, r, h3, h4⟩, _⟩⟩
    · rw [hr] at he
      exact absurd he (by bv_omega)
    · exact ht
    · exfalso
      have hx : q1.simStep + 1#64 = E.cfg.runSteps := by
        rw [hs] at h2
        unfold finishSt finishSt1 at h2
        by_cases hx : q1.simStep + 1#64 = E.cfg.runSteps
        · exact hx
        · rw [if_neg hx] at h2
          split at h2
          · exact h2
          · split at h2 <;> exact h2
      have hf : s'.wfiActive = false ∧ s'.simStep ≠ s.simStep := by
        rw [hs]
        unfold finishSt finishSt1
        rw [if_pos hx]
        refine ⟨w1, ?_⟩
        show q1.simStep + 1#64 ≠ s.simStep
        rw [w2]
        bv_omega
      rcases hl with hl | hl | hl | hl
      · rw [h1] at hl; cases hl
      · exact hl h2
      · rw [hf.1] at hl; cases hl
      · exact hf.2 hl
    · exfalso
      rcases hb with hb | hb | ⟨c', t', p', r', hb, hb2, hb3⟩
      · rw [h1] at hb; cases hb
      · exact absurd ((HwInd.opcode_bits _).trans h2) hb
      · rw [h3] at hb
        injection hb with hb; injection hb with hb hb'; injection hb' with hb' _
        subst hb hb'
        rcases h4 with h4 | ⟨h4, h5⟩
        · exact hb2 h4
        · have := hb3 h4; omega

/-- A run, as the list of the steps that tell the hardware models something: the retired instructions, the instruction executed at
the step limit and the malformed branches, each as the state after it and what it is to tell.  `hwrun_total`: every run is one. -/
inductive HwRun (E : Env σ) (s0 : St σ) : List (St σ × List HwCall) → St σ → Prop
  | nil : HwRun E s0 [] s0
  | retired {L s s' l} : HwRun E s0 L s → step E s = .ok ((), s') → s'.simInst ≠ s.simInst →
    HwCalls s.rf s.pc s'.pc s'.inst l → HwRun E s0 (L ++ [(s', l)]) s'
  | limit {L s s' l} : HwRun E s0 L s → step E s = .ok ((), s') → s'.simInst = s.simInst → s'.trapped = false →
    s'.simStep = E.cfg.runSteps → s'.wfiActive = false → s'.simStep ≠ s.simStep →
    HwCalls s.rf s.pc s'.nextPc s'.inst l → HwRun E s0 (L ++ [(s', l)]) s'
  | malformed {L s s' l t p r} : HwRun E s0 L s → step E s = .ok ((), s') → s'.simInst = s.simInst → s'.trapped = true →
    s'.trapLog = (2#32, t, p) :: r → BadBranch s.pc s'.pc s'.inst l → HwRun E s0 (L ++ [(s', l)]) s'
  | other {L s s'} : HwRun E s0 L s → step E s = .ok ((), s') → s'.simInst = s.simInst →
    (s'.trapped = true ∨ s'.simStep ≠ E.cfg.runSteps ∨ s'.wfiActive = true ∨ s'.simStep = s.simStep) →
    (s'.trapped = false ∨ s'.inst.extractLsb' 0 7 ≠ 0x63#7 ∨ Benign s') → HwRun E s0 L s'

theorem hwrun_x0 {s0 : St σ} {L : List (St σ × List HwCall)} (h : HwRun E s0 L s) (h0 : s0.rf 0#5 = 0#32) : s.rf 0#5 = 0#32 := by
  induction h with
  | nil => exact h0
  | retired _ hs _ _ ih => exact x0_zero_step E _ _ ih hs
  | limit _ hs _ _ _ _ _ _ ih => exact x0_zero_step E _ _ ih hs
  | malformed _ hs _ _ _ _ ih => exact x0_zero_step E _ _ ih hs
  | other _ hs _ _ _ ih => exact x0_zero_step E _ _ ih hs

/-- the calls of an instruction, or of a malformed branch -/
def Entry (l : List HwCall) : Prop :=
  (∃ rf pc next w, HwCalls rf pc next w l) ∨ ∃ pc h w, BadBranch pc h w l

/-- induction over the calls of a run -/
theorem hwrun_ind (hm : E.cfg.hwModels = true) {s0 : St σ} (h0 : s0.rf 0#5 = 0#32) {P : List (St σ × List HwCall) → St σ → Prop}
    (nil : P [] s0)
    (ret : ∀ L s s' l, P L s → Tells E s s' l → Entry l → P (L ++ [(s', l)]) s')
    (oth : ∀ L s s', P L s → Tells E s s' [] → P L s')
    {L : List (St σ × List HwCall)} (h : HwRun E s0 L s) : P L s := by
  induction h with
  | nil => exact nil
  | retired h1 hs hr hc ih => exact ret _ _ _ _ ih (hw_step hm (hwrun_x0 h1 h0) hs hr hc) (.inl ⟨_, _, _, _, hc⟩)
  | limit h1 hs hr ht _ hw hn hc ih => exact ret _ _ _ _ ih (hw_limit hm (hwrun_x0 h1 h0) hs hr ht hw hn hc) (.inl ⟨_, _, _, _, hc⟩)
  | malformed h1 hs hr ht hl hb ih => exact ret _ _ _ _ ih (hw_malformed hm hs ht hl hb) (.inr ⟨_, _, _, hb⟩)
  | other _ hs hr hl hb ih => exact oth _ _ _ ih (hw_other_partial hm hs hr hl hb)

/-- one more step of a run -/
theorem hwrun_step (hm : E.cfg.hwModels = true) {s0 : St σ} {L : List (St σ × List HwCall)} (k : HwRun E s0 L s) (ha : AlPre E s)
    (hb : EvenFrom E s.hw) (h : step E s = .ok ((), s')) : ∃ L', HwRun E s0 L' s' := by
  by_cases hr : s'.simInst = s.simInst
  · cases ht : s'.trapped with
    | true =>
      by_cases ho : IP.opcode s'.inst = 0x63#7
      · obtain ⟨c, t, p, r, hl, he⟩ := step_even hm h ha hb ht ho
        by_cases hc : c = 2#32
        · subst hc
          obtain ⟨l, hbad⟩ := bad_inv s.pc s'.pc ho (step_malformed hm h ht ho hl).1
          exact ⟨_, .malformed k h hr ht hl hbad⟩
        · exact ⟨_, .other k h hr (.inl ht) (.inr (.inr ⟨c, t, p, r, hl, hc, he⟩))⟩
      · exact ⟨_, .other k h hr (.inl ht) (.inr (.inl (by rw [HwInd.opcode_bits]; exact ho)))⟩
    | false =>
      by_cases h1 : s'.simStep = E.cfg.runSteps
      · cases h2 : s'.wfiActive with
        | true => exact ⟨_, .other k h hr (.inr (.inr (.inl h2))) (.inl ht)⟩
        | false =>
          by_cases h3 : s'.simStep = s.simStep
          · exact ⟨_, .other k h hr (.inr (.inr (.inr h3))) (.inl ht)⟩
          · obtain ⟨l, hc⟩ := step_calls hm h (.inr ⟨ht, h2, h3⟩) (rf := s.rf) (pc := s.pc) (next := s'.nextPc)
            exact ⟨_, .limit k h hr ht h1 h2 h3 hc⟩
      · exact ⟨_, .other k h hr (.inr (.inl h1)) (.inl ht)⟩
  · obtain ⟨l, hc⟩ := step_calls hm h (.inl hr) (rf := s.rf) (pc := s.pc) (next := s'.pc)
    exact ⟨_, .retired k h hr hc⟩

/-- **C83, C84 – C87, all runs.**  Every run, from a state with aligned addresses on and with a predictor that proposes even addresses
for branches between even addresses, is one of those that the theorems about the hardware models are about. -/
theorem hwrun_total (hm : E.cfg.hwModels = true) {s0 : St σ} (ha : AlPre E s0) (hb : EvenFrom E s0.hw) (n : Nat)
    (h : runN E n s0 = .ok ((), s)) : ∃ L, HwRun E s0 L s := by
  have : ∀ n (q : St σ) L, HwRun E s0 L q → AlPre E q → EvenFrom E q.hw → runN E n q = .ok ((), s) → ∃ L, HwRun E s0 L s := by
    intro n
    induction n with
    | zero =>
      intro q L k _ _ h
      injection h with h; injection h with _ h
      exact ⟨L, h ▸ k⟩
    | succ n ih =>
      intro q L k ha hb h
      unfold runN at h
      rw [M.bind_ok (M.get_app _ _)] at h
      split at h
      swap
      · injection h with h; injection h with _ h
        exact ⟨L, h ▸ k⟩
      obtain ⟨_, q', e, h⟩ := bind_eq_ok.1 h
      obtain ⟨L', k'⟩ := hwrun_step hm k ha hb e
      refine ih q' L' k' (al_step _ _ _ ha e) ?_ h
      rcases step_tells hm e with ⟨_, _, t⟩ | ⟨_, ⟨t, _⟩ | ⟨_, _, _, t⟩ | ⟨_, _, _, _, _, _, _, _, _, t⟩⟩
      all_goals exact hb.tells t
  exact this n s0 [] .nil ha hb h
/-- from reset -/
theorem hwrun_reset (hm : E.cfg.hwModels = true) (image : W → BitVec 8) (pp : ProfPc) (h0 : σ) (hb : EvenFrom E h0) (n : Nat)
    (h : runN E n (initSt E image pp h0) = .ok ((), s)) : ∃ L, HwRun E (initSt E image pp h0) L s :=
  hwrun_total hm (al_init image pp h0) hb n h

theorem seen_append (b : Bool) : ∀ l m : List HwCall, seen b (l ++ m) = seen b l ++ seen (flagAfter b l) m
  | [], _ => rfl
  | c :: l, m => by cases c <;> simp only [List.cons_append, seen, flagAfter, seen_append _ l m]
theorem seen_own (b : Bool) : ∀ l : List HwCall, seen b l = seen b (own l)
  | [] => rfl
  | c :: l => by
    have := fun b => seen_own b l
    cases c <;> simp only [own, List.filter_cons, HwCall.fetch, Bool.not_false, Bool.not_true, if_true, seen, this] <;> rfl
theorem flag_own (b : Bool) : ∀ l : List HwCall, flagAfter b l = flagAfter b (own l)
  | [] => rfl
  | c :: l => by
    have := fun b => flag_own b l
    cases c <;> simp only [own, List.filter_cons, HwCall.fetch, Bool.not_false, Bool.not_true, if_true, flagAfter, this] <;> rfl
theorem seen_switches (b : Bool) : ∀ {p : List HwCall}, (∀ x ∈ p, x.switch = true) → seen b p = []
  | [], _ => rfl
  | c :: p, h => by
    have h1 := h c (.head _)
    cases c <;> simp only [HwCall.switch, Bool.false_eq_true] at h1
    exact seen_switches (p := p) _ fun x hx => h x (.tail _ hx)
/-- an instruction's own calls contain neither fetches nor switches -/
theorem calls_plain {rf : BitVec 5 → W} {pc next w : W} (h : HwCalls rf pc next w l) : ∀ x ∈ l, x.fetch = false ∧ x.switch = false := by
  have hd : ∀ i, ∀ x ∈ dataCalls rf i, x.fetch = false ∧ x.switch = false := by
    intro i x hx
    unfold dataCalls at hx
    split at hx
    · split at hx
      · cases List.mem_singleton.1 hx; exact ⟨rfl, rfl⟩
      · cases hx
    · split at hx
      · cases List.mem_singleton.1 hx; exact ⟨rfl, rfl⟩
      · cases hx
    · cases hx
  cases h with
  | base i =>
    intro x hx
    rcases List.mem_append.1 hx with hx | hx
    · rcases List.mem_append.1 hx with hx | hx
      · unfold bpCalls at hx
        split at hx
        · simp only [List.mem_cons, List.not_mem_nil, or_false] at hx
          rcases hx with rfl | rfl | rfl <;> exact ⟨rfl, rfl⟩
        · cases hx
      · exact hd _ _ hx
    · unfold divCalls at hx
      split at hx
      all_goals first
        | (cases List.mem_singleton.1 hx; exact ⟨rfl, rfl⟩)
        | cases hx
  | comp i => exact hd _
  | other => intro x hx; cases hx
  | csr => intro x hx; cases hx
  | x1 => intro x hx; cases hx
  | x2 => intro x hx; cases hx
  | lcl => intro x hx; cases List.mem_singleton.1 hx; exact ⟨rfl, rfl⟩
  | rel => intro x hx; cases List.mem_singleton.1 hx; exact ⟨rfl, rfl⟩
theorem entry_plain (h : Entry l) : ∀ x ∈ l, x.fetch = false ∧ x.switch = false := by
  rcases h with ⟨_, _, _, _, h⟩ | ⟨_, _, _, h⟩
  · exact calls_plain h
  · cases h
    intro x hx
    simp only [List.mem_cons, List.not_mem_nil, or_false] at hx
    rcases hx with rfl | rfl | rfl <;> exact ⟨rfl, rfl⟩
theorem seen_plain (b : Bool) : ∀ {l : List HwCall}, (∀ x ∈ l, x.fetch = false ∧ x.switch = false) →
    seen b l = l.map (b, ·) ∧ flagAfter b l = b
  | [], _ => ⟨rfl, rfl⟩
  | c :: l, h => by
    obtain ⟨h1, h2⟩ := h c (.head _)
    obtain ⟨i1, i2⟩ := seen_plain b fun x hx => h x (.tail _ hx)
    cases c <;> simp only [HwCall.fetch, HwCall.switch, Bool.true_eq_false] at h1 h2 <;>
      simp only [seen, flagAfter, i1, i2, List.map_cons, and_self]

/-- whether statistics are on: as the profiler says, or what they started with in a build without profilers -/
def statsOn (E : Env σ) (b : Bool) (s : St σ) : Bool := if E.cfg.profilers then s.profActive else b

/-- what a sequence of calls `c` did between two states -/
structure Fed (E : Env σ) (b : Bool) (s q : St σ) (c : List HwCall) : Prop where
  hw : q.hw = replay E.hw c s.hw
  flag : flagAfter (statsOn E b s) c = statsOn E b q
  size : q.ram.size = s.ram.size
  mem : s.ram.size = 0x20000 → q.ram.bytes = memAfter s.ram.bytes c
  inMain : ∀ x ∈ c, x.inMain s.ram.size

theorem Fed.trans {b : Bool} {s q r : St σ} {c d : List HwCall} (h : Fed E b s q c) (k : Fed E b q r d) : Fed E b s r (c ++ d) where
  hw := by rw [k.hw, h.hw, replay_append]
  flag := by rw [flag_append, h.flag, k.flag]
  size := k.size.trans h.size
  mem hs := by rw [k.mem (h.size.trans hs), h.mem hs, mem_append]
  inMain x hx := (List.mem_append.1 hx).elim (h.inMain x) (fun hx => h.size ▸ k.inMain x hx)

theorem Tells.fed {b : Bool} (h : Tells E s s' l) (hl : ∀ x ∈ l, x.fetch = false ∧ x.switch = false) :
    ∃ p c, Fed E b s s' c ∧ own c = p ++ l ∧ (∀ x ∈ p, x.switch = true) ∧ flagAfter (statsOn E b s) p = statsOn E b s' ∧
      seen (statsOn E b s) c = l.map (statsOn E b s', ·) := by
  obtain ⟨p, c, h1, h2, h3, h4, h5, h6, h7, h8⟩ := h
  have hf : flagAfter (statsOn E b s) p = statsOn E b s' := by
    unfold statsOn
    cases hp : E.cfg.profilers
    · rw [h5 hp]; rfl
    · exact h4 hp
  have hq := seen_plain (statsOn E b s') hl
  refine ⟨p, c, ⟨h1, ?_, h6, h7, h8⟩, h2, h3, hf, ?_⟩
  · rw [flag_own, h2, flag_append, hf, hq.2]
  · rw [seen_own, h2, seen_append, seen_switches _ h3, hf, hq.1]; rfl

/-- **C83**, whole runs: what caches, predictor and divider are told during a run — besides instruction fetches — is what its
retired instructions are to tell, in program order, with statistics on exactly for those retired while the profiler is on
(always as at the start, in a build without profilers); main memory has changed by the stores told, only; and all calls are
aligned and inside main memory.  For every program and all hardware models; every run is covered (`hwrun_total`).

Partial because the code tells the models more than that: of malformed branches (`malformed_branch_told`) and of the instruction at
the step limit (`limit_told`), which do not retire.  Here they are part of the list `L`, with exactly what they tell. -/
theorem hw_run_partial (hm : E.cfg.hwModels = true) {s0 : St σ} (h0 : s0.rf 0#5 = 0#32) {L : List (St σ × List HwCall)}
    (h : HwRun E s0 L s) (b : Bool) : ∃ c, s.hw = replay E.hw c s0.hw ∧
      seen (statsOn E b s0) c = L.flatMap (fun x => x.2.map (statsOn E b x.1, ·)) ∧
      flagAfter (statsOn E b s0) c = statsOn E b s ∧
      (s0.ram.size = 0x20000 → s.ram.bytes = memAfter s0.ram.bytes c) ∧ ∀ x ∈ c, x.inMain s0.ram.size := by
  have : ∃ c, Fed E b s0 s c ∧ seen (statsOn E b s0) c = L.flatMap (fun x => x.2.map (statsOn E b x.1, ·)) := by
    refine hwrun_ind hm h0 (P := fun L s => ∃ c, Fed E b s0 s c ∧
      seen (statsOn E b s0) c = L.flatMap (fun x => x.2.map (statsOn E b x.1, ·)))
      ⟨[], ⟨rfl, rfl, rfl, fun _ => rfl, by simp⟩, rfl⟩ ?_ ?_ h
    · rintro L s s' l ⟨c, h1, h2⟩ ht hc
      obtain ⟨_, c', k1, _, _, _, k2⟩ := Tells.fed (b := b) ht (entry_plain hc)
      refine ⟨c ++ c', h1.trans k1, ?_⟩
      rw [seen_append, h2, h1.flag, k2, List.flatMap_append]
      simp only [List.flatMap_cons, List.flatMap_nil, List.append_nil]
    · rintro L s s' ⟨c, h1, h2⟩ ht
      obtain ⟨_, c', k1, _, _, _, k2⟩ := Tells.fed (b := b) ht (by simp)
      refine ⟨c ++ c', h1.trans k1, ?_⟩
      rw [seen_append, h2, h1.flag, k2, List.map_nil, List.append_nil]
  obtain ⟨c, h1, h2⟩ := this
  exact ⟨c, h1.hw, h2, h1.flag, h1.mem, h1.inMain⟩

/-! ## Runs of the model -/
namespace Ex
open HwInd (ob)

/-- hardware models that write down what they are told (latest last); branches are predicted not taken -/
def scribe : Hw (List HwCall) where
  icRd a h := h ++ [.icRd a]
  dcRd a n h := h ++ [.dcRd a n]
  dcWr a v n h := h ++ [.dcWr a v n]
  scp a m h := (true, h ++ [.scp a m])
  bpIdeal n h := h ++ [.ideal n]
  bpPredict pc imm f3 h := (pc + 4#32, h ++ [.predict pc imm f3])
  bpUpdate pc n h := h ++ [.update pc n]
  divEval a b u h := h ++ [.div a b u]
  profiling on h := h ++ [.prof on]
/-- hardware models, no profilers; a step limit -/
def envS (lim : BitVec 64) : Env (List HwCall) where
  cfg := { Ama.Ex.cfg0 with hwModels := true, runSteps := lim }
  regions := []
  uartIn := []
  stdin := fun _ => none
  hw := scribe
/-- hardware models and profilers; profiling from 0x80000004 to the end -/
def envP : Env (List HwCall) := { envS 0#64 with cfg := { Ama.Ex.cfg0 with hwModels := true, profilers := true } }
def stS (lim : BitVec 64) (ws : List W) : St (List HwCall) := initSt (envS lim) (Ama.Ex.image ws) Ama.Ex.pp0 []
def stP (ws : List W) : St (List HwCall) :=
  initSt envP (Ama.Ex.image ws) ⟨0x80000004#32, 0#32, 1#32, false, 0#32, false, 0#64⟩ []

theorem one_run {s0 : St σ} (w : W) {n : W} {l : List HwCall}
    (h : (match step E s0 with | .ok (_, s') => decide (s'.simInst ≠ s0.simInst ∧ s'.inst = w ∧ s'.pc = n) | _ => false) = true)
    (hc : HwCalls s0.rf s0.pc n w l) : ∃ s', HwRun E s0 [(s', l)] s' := by
  rcases e : step E s0 with ⟨⟨⟩, s'⟩ | _ | _ <;> rw [e] at h <;> try cases h
  obtain ⟨h1, h2, h3⟩ := of_decide_eq_true h
  subst h2 h3
  exact ⟨s', .retired .nil e h1 hc⟩

/-- the hypotheses are met: a division, a load, a taken branch -/
example : ∃ s', HwRun (envS 0#64) (stS 0#64 [encode (.alu .div 1#5 2#5 3#5)])
    [(s', [.div 0xc0ffee#32 0xc0ffee#32 false])] s' := one_run (encode (.alu .div 1#5 2#5 3#5)) (n := 0x80000004#32) (by decide +kernel) (.base (.alu .div 1#5 2#5 3#5))
example : ∃ s', HwRun (envS 0#64) (stS 0#64 [encode (.branch .beq 2#5 2#5 4#12)])
    [(s', [.ideal 0x80000008#32, .predict 0x80000000#32 8#32 0#3, .update 0x80000000#32 0x80000008#32])] s' :=
  one_run (encode (.branch .beq 2#5 2#5 4#12)) (n := 0x80000008#32) (by decide +kernel) (.base (.branch .beq 2#5 2#5 4#12))
example : (stS 0#64 [encode (.alu .div 1#5 2#5 3#5)]).rf 0#5 = 0#32 := by decide +kernel

/-- a run with a window: the division before it is made with statistics off; the store and the load are seen while on; the
branch's speculative fetch is among the instruction fetches -/
example : ob (runN envP 5 (stP [encode (.alu .divu 1#5 2#5 3#5), encode (.auipc 1#5 0#20), encode (.store .sw 3#5 1#5 0x40#12),
    encode (.load .lbu 4#5 1#5 0x41#12), encode (.branch .beq 0#5 0#5 8#12)])) (·.hw) =
    some [.icRd 0#32, .div 0xc0ffee#32 0xc0ffee#32 true, .prof true, .icRd 4#32, .icRd 8#32, .dcWr 0x44#32 0xc0ffee#32 4, .icRd 12#32,
      .dcRd 0x45#32 1, .icRd 16#32, .ideal 0x80000020#32, .predict 0x80000010#32 16#32 0#3, .icRd 20#32,
      .update 0x80000010#32 0x80000020#32, .icRd 0x20#32] := by decide +kernel

/-- the predictor of these models proposes even addresses -/
example (lim : BitVec 64) (h : List HwCall) : EvenFrom (envS lim) h :=
  predicts_even (.inr fun _ _ _ _ _ => .inr (.inl rfl)) h
/-- a run with a malformed branch is covered -/
example : ∃ s L, HwRun (envS 0#64) (stS 0#64 [0x00002063#32]) L s ∧ s.trapped = true := by
  rcases e : runN (envS 0#64) 1 (stS 0#64 [0x00002063#32]) with ⟨⟨⟩, s⟩ | u | _
  · have ht : (match runN (envS 0#64) 1 (stS 0#64 [0x00002063#32]) with | .ok (_, s) => s.trapped | _ => false) = true := by decide +kernel
    rw [e] at ht
    obtain ⟨L, hL⟩ := hwrun_reset (E := envS 0#64) rfl _ _ _ (predicts_even (.inr fun _ _ _ _ _ => .inr (.inl rfl)) _) 1 e
    exact ⟨s, L, hL, ht⟩
  · have ht : (match runN (envS 0#64) 1 (stS 0#64 [0x00002063#32]) with | .ok (_, s) => s.trapped | _ => false) = true := by decide +kernel
    rw [e] at ht; cases ht
  · have ht : (match runN (envS 0#64) 1 (stS 0#64 [0x00002063#32]) with | .ok (_, s) => s.trapped | _ => false) = true := by decide +kernel
    rw [e] at ht; cases ht

/-- **C83 fails for a branch that traps**: a word with the branch opcode and an undefined condition retires nothing, but the
predictor is asked about it and trained with it, under the address of the trap handler (here 0). -/
theorem malformed_branch_told : ob (runN (envS 0#64) 1 (stS 0#64 [0x00002063#32]))
    (fun s => (s.trapped, s.simInst, own s.hw)) =
    some (true, 0#64, [.ideal 0x80000004#32, .predict 0#32 0#32 2#3, .update 0#32 0x80000004#32]) := by decide +kernel

/-- **C83 fails at the step limit**: the last of three instructions is not counted, but its branch is seen by the predictor. -/
theorem limit_told : ob (runN (envS 3#64) 3 (stS 3#64 [0x13#32, 0x13#32, encode (.branch .beq 2#5 2#5 4#12)]))
    (fun s => (s.simInst, own s.hw)) =
    some (2#64, [.ideal 0x80000010#32, .predict 0x80000008#32 8#32 0#3, .update 0x80000008#32 0x80000010#32]) := by decide +kernel
end Ex
end Ama.HwCalls
