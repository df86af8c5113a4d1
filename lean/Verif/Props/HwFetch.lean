import Verif.Lemmas.HwFetch
import Verif.Spec.HwFetch
import Verif.Props.HwCalls
/-!
# C100: the instruction fetches the instruction cache sees
-/
namespace Ama.HwFetch
open M Spec HwCalls
variable {σ : Type} {E : Env σ} {s s' : St σ}

theorem fetchesIn_append : ∀ c d : List HwCall, fetchesIn (c ++ d) = fetchesIn c ++ fetchesIn d
  | [], _ => rfl
  | x :: c, d => by cases x <;> simp [fetchesIn, fetchesIn_append c d]
theorem answers_append (h : Hw σ) : ∀ (c d : List HwCall) (g : σ), answers h (c ++ d) g = answers h c g ++ answers h d (replay h c g)
  | [], _, _ => rfl
  | x :: c, d, g => by cases x <;> simp [answers, answers_append h c d, replay]
/-- nothing watched: nothing fetched, nothing answered -/
theorem unwatched {b : Bool} : ∀ {c : List HwCall}, c.filter (watch b) = [] → fetchesIn c = [] ∧ ∀ (h : Hw σ) g, answers h c g = []
  | [], _ => ⟨rfl, fun _ _ => rfl⟩
  | x :: c, hc => by
    have ih := unwatched (c := c) (b := b) (by
      rw [List.filter_eq_nil_iff] at hc ⊢
      exact fun y hy => hc y (List.mem_cons_of_mem _ hy))
    have hx := List.filter_eq_nil_iff.1 hc x List.mem_cons_self
    cases x <;> first
      | (exact absurd rfl hx)
      | (exact ⟨ih.1, fun h g => ih.2 h _⟩)
/-- in a build without profilers, neither the predictor nor the switches were called -/
theorem unwatched_bp {c : List HwCall} (hc : (c.filter (watch false)).filter toBp = []) : c.filter toBp = [] := by
  rw [← hc, List.filter_filter]
  congr 1
  funext x
  cases x <;> rfl
theorem quiet_bp {b : Bool} {c : List HwCall} (h : c.filter (watch b) = []) (hb : b = false) : c.filter toBp = [] :=
  unwatched_bp (by rw [← hb, h]; rfl)
theorem one_bp {b : Bool} {c : List HwCall} {a : W} (h : c.filter (watch b) = [.icRd a]) (hb : b = false) : c.filter toBp = [] :=
  unwatched_bp (by rw [← hb, h]; rfl)
theorem watched_one {b : Bool} : ∀ {c : List HwCall} {a : W}, c.filter (watch b) = [.icRd a] → fetchesIn c = [a] ∧ ∀ (h : Hw σ) g, answers h c g = []
  | [], _, hc => by cases hc
  | x :: c, a, hc => by
    have ih := fun h => watched_one (c := c) (a := a) (b := b) h
    cases x with
    | icRd d =>
      simp only [List.filter_cons, watch, if_true] at hc
      injection hc with h1 h2
      injection h1 with h1
      subst h1
      obtain ⟨k1, k2⟩ := unwatched (σ := σ) h2
      exact ⟨by simp [fetchesIn, k1], fun h g => k2 h _⟩
    | predict pc imm f3 =>
      simp only [List.filter_cons, watch, if_true] at hc
      injection hc with h1 h2
      cases h1
    | ideal n =>
      simp only [List.filter_cons, watch, if_true] at hc
      injection hc with h1 h2
      cases h1
    | update pc n =>
      simp only [List.filter_cons, watch, if_true] at hc
      injection hc with h1 h2
      cases h1
    | prof on =>
      cases b with
      | false =>
        simp only [List.filter_cons, watch, Bool.not_false, if_true] at hc
        injection hc with h1 h2
        cases h1
      | true => exact ⟨(ih (by simpa [watch] using hc)).1, fun h g => (ih (by simpa [watch] using hc)).2 h _⟩
    | _ => exact ⟨(ih (by simpa [watch] using hc)).1, fun h g => (ih (by simpa [watch] using hc)).2 h _⟩
theorem finish_retired {q : St σ} (h : (finishSt E q).simInst ≠ q.simInst) : (finishSt E q).pc = q.nextPc ∧ q.trapped = false := by
  unfold finishSt finishSt1 at h ⊢
  split at h
  · exact absurd rfl h
  · split at h
    · exact absurd rfl h
    · split at h
      · exact absurd rfl h
      · rename_i h1 h2 h3
        rw [if_neg h1, if_neg h2, if_neg h3]
        exact ⟨rfl, by simpa using h3⟩

theorem isBr_iff (w : W) : isBr w = true ↔ IP.opcode w = 0x63#7 := by
  have : w.extractLsb' 0 7 = IP.opcode w := by
    unfold IP.opcode
    apply BitVec.eq_of_toNat_eq
    have := Nat.and_two_pow_sub_one_eq_mod (w.toNat % 128) 7
    simp [BitVec.toNat_and] at this ⊢
    omega
  rw [← this]; simp [isBr]

/-- a word that is no branch after its execution was none before -/
theorem not_branch {qc q1 : St σ} (e : exec E qc = .ok ((), q1)) (hb : isBr q1.inst = false) : IP.opcode qc.inst ≠ 0x63#7 := by
  intro ho
  have : q1.inst = qc.inst := by
    rcases exec_split e with ⟨h1, h2⟩ | ⟨h1, h2, h3⟩ | ⟨h1, h2, h3⟩
    · exact (Dasm.inst_primsX qc.inst).exec32_of qc.inst (fun _ => Dasm.inst_dSystem _ _) _ _ _ rfl h2
    · exact absurd (opcode_copcode ho) h1
    · exact absurd (opcode_copcode ho) h1
  rw [this, (isBr_iff _).2 ho] at hb; cases hb

theorem finish_next (q : St σ) : (finishSt E q).nextPc = q.nextPc := by
  unfold finishSt finishSt1
  split
  · rfl
  · split
    · rfl
    · split <;> rfl

/-- one executed instruction, retired or not; in a build without profilers the calls of the predictor are those of a branch, and
nothing switches the statistics -/
theorem ran_fetches (hm : E.cfg.hwModels = true) (h : step E s = .ok ((), s')) (ht : s'.trapped = false)
    (hx : s'.simInst ≠ s.simInst ∨ (s'.wfiActive = false ∧ s'.simStep ≠ s.simStep)) :
    ∃ c pred, s'.hw = replay E.hw c s.hw ∧
      fetchesIn c = fetchesOf E.cfg.noBp s.lastInstBranch ⟨s.pc, s'.nextPc, pred⟩ ∧ answers E.hw c s.hw = pred.toList ∧
      pred.isSome = isBr s'.inst ∧ s'.lastInstBranch = isBr s'.inst ∧
      (E.cfg.profilers = false → ∃ imm f3, c.filter toBp = if isBr s'.inst then brCalls ⟨s.pc, imm, f3, s'.nextPc⟩ else []) := by
  rcases step_fetch_forms hm h with ⟨⟨k, _⟩, k'⟩ | ⟨c, qc, q1, k1, _, k2, _, k3, k4, k5, k6, rfl, k7, _⟩
  · exfalso
    rcases hx with hx | ⟨hx, hy⟩
    · exact hx k
    · rcases k' with ⟨_, _, k' | k'⟩ | ⟨k', _⟩
      · rw [k'] at hx; cases hx
      · exact hy k'
      · rw [k'] at ht; cases ht
  · have f2 : q1.trapped = false := by rw [← (Dasm.finishSt_frame (E := E) q1).1]; exact ht
    have f1 := finish_next (E := E) q1
    have htc : qc.trapped = false := by
      cases hh : qc.trapped with
      | false => rfl
      | true => rw [PerfCore.trap_stays.exec _ _ _ hh k6] at f2; cases f2
    have hfi : (finishSt E q1).inst = q1.inst := (Dasm.finishSt_frame q1).2.1
    rw [(finish_hw q1).1, f1, hfi, finish_lib]
    have hc := k2 htc
    have hc' : fetchesIn c = (if s.lastInstBranch then [] else [fetchOff s.pc]) ∧ ∀ (h : Hw σ) g, answers h c g = [] := by
      cases hl : s.lastInstBranch <;> rw [hl] at hc
      · exact watched_one hc
      · exact unwatched hc
    have hcs : E.cfg.profilers = false → c.filter toBp = [] := by
      intro hp
      rw [hp] at hc
      apply unwatched_bp
      rw [hc]
      cases s.lastInstBranch <;> rfl
    cases hb : isBr q1.inst with
    | true =>
      obtain ⟨b1, b2, b3⟩ := exec_branch k5 k6 ((isBr_iff _).1 hb)
      obtain ⟨r, hr⟩ : ∃ r, r = (E.hw.bpPredict s.pc (IP.immB q1.inst) (IP.funct3 q1.inst) (E.hw.bpIdeal q1.nextPc qc.hw)).1 := ⟨_, rfl⟩
      obtain ⟨d1, d2⟩ := dBranch_calls (r := r) hm b3 f2 (by rw [k4 htc]; exact hr)
      rw [k4 htc] at d1
      refine ⟨_, some r, by rw [d1, k1, ← replay_append], ?_, ?_, rfl, d2, fun hp => ⟨IP.immB q1.inst, IP.funct3 q1.inst, ?_⟩⟩
      · simp only [fetchesIn_append, hc'.1, fetchesOf]
        by_cases hn : q1.nextPc = r <;> cases E.cfg.noBp <;> simp [fetchesIn, toNorm, fetchOff, hn]
      · rw [answers_append, hc'.2, ← k1]
        by_cases hn : q1.nextPc = r <;> cases E.cfg.noBp <;> (first | rw [if_pos hn] | rw [if_neg hn]) <;> simp [answers, HwCall.run, hr]
      · rw [List.filter_append, hcs hp]
        by_cases hn : q1.nextPc = r <;> cases hq : E.cfg.noBp <;> simp [hn, toBp, brCalls, List.filter_cons]
    | false =>
      have ho := not_branch k6 hb
      obtain ⟨⟨d, e1, e2⟩, e3, _⟩ := nf_exec ho rfl k6
      obtain ⟨u1, u2⟩ := unwatched (σ := σ) e2
      refine ⟨c ++ d, none, by rw [e1, k1, ← replay_append], ?_, ?_, rfl, e3.trans k3, fun hp => ⟨0#32, 0#3, ?_⟩⟩
      · simp [fetchesIn_append, hc'.1, u1, fetchesOf]
      · simp [answers_append, hc'.2, u2]
      · rw [hp] at e2
        rw [List.filter_append, hcs hp, unwatched_bp (by rw [e2]; rfl)]
        rfl

/-- one retired instruction -/
theorem step_fetches (hm : E.cfg.hwModels = true) (h : step E s = .ok ((), s')) (hr : s'.simInst ≠ s.simInst) :
    ∃ c pred, s'.hw = replay E.hw c s.hw ∧
      fetchesIn c = fetchesOf E.cfg.noBp s.lastInstBranch ⟨s.pc, s'.pc, pred⟩ ∧ answers E.hw c s.hw = pred.toList ∧
      pred.isSome = isBr s'.inst ∧ s'.lastInstBranch = isBr s'.inst ∧
      (E.cfg.profilers = false → ∃ imm f3, c.filter toBp = if isBr s'.inst then brCalls ⟨s.pc, imm, f3, s'.pc⟩ else []) := by
  have hp : s'.pc = s'.nextPc ∧ s'.trapped = false := by
    rcases step_fetch_forms hm h with ⟨⟨k, _⟩, _⟩ | ⟨c, qc, q1, _, _, _, _, _, _, _, _, rfl, k7, _⟩
    · exact absurd k hr
    · obtain ⟨f1, f2⟩ := finish_retired (fun e => hr (e.trans k7))
      rw [f1, finish_next, (Dasm.finishSt_frame q1).1]
      exact ⟨rfl, f2⟩
  rw [hp.1]
  exact ran_fetches hm h hp.2 (.inl hr)

/-- a step that waits, or ends the simulation before it executes anything -/
theorem quiet_fetches (hm : E.cfg.hwModels = true) (h : step E s = .ok ((), s')) (hi : s'.simInst = s.simInst) (ht : s'.trapped = false)
    (hq : s'.wfiActive = true ∨ s'.simStep = s.simStep) :
    ∃ c, s'.hw = replay E.hw c s.hw ∧ fetchesIn c = [] ∧ answers E.hw c s.hw = [] ∧ s'.lastInstBranch = s.lastInstBranch ∧
      (E.cfg.profilers = false → c.filter toBp = []) := by
  rcases step_fetch_forms hm h with ⟨⟨_, c, k1, k2⟩, ⟨_, k3, _⟩ | ⟨k3, _⟩⟩ | ⟨c, qc, q1, _, _, _, _, _, _, _, _, rfl, k7, k8, k9⟩
  · obtain ⟨u1, u2⟩ := unwatched (σ := σ) k2
    exact ⟨c, k1, u1, u2 _ _, k3, quiet_bp k2⟩
  · rw [k3] at ht; cases ht
  · exfalso
    rw [← k7] at hi
    rw [← k9] at hq
    rw [(Dasm.finishSt_frame q1).1] at ht
    unfold finishSt finishSt1 at hi hq
    split at hi
    · rename_i h1
      rw [if_pos h1] at hq
      rcases hq with hq | hq
      · rw [show _ = q1.wfiActive from rfl, k8] at hq; cases hq
      · exact absurd hq (by show q1.simStep + 1#64 ≠ q1.simStep; bv_omega)
    · split at hi
      · rename_i h1
        rw [show _ = q1.wfiActive from rfl, k8] at h1; exact absurd h1.1 (by decide)
      · split at hi
        · rename_i h1
          rw [show _ = q1.trapped from rfl, ht] at h1; cases h1
        · exact absurd hi (by show q1.simInst + 1#64 ≠ q1.simInst; bv_omega)

/-- a step that takes an interrupt fetches nothing, and what a branch has fetched for the next instruction is dropped -/
theorem int_fetches (hm : E.cfg.hwModels = true) (h : step E s = .ok ((), s')) (ht : s'.trapped = true) {c t p : W} {r : List (W × W × W)}
    (hl : s'.trapLog = (c, t, p) :: r) (hc : c = 0x80000007#32 ∨ c = 0x8000000b#32) :
    ∃ c, s'.hw = replay E.hw c s.hw ∧ fetchesIn c = [] ∧ answers E.hw c s.hw = [] ∧ s'.lastInstBranch = false ∧
      (E.cfg.profilers = false → c.filter toBp = []) := by
  have hx : ∀ {l : List (W × W × W)}, l = (c, t, p) :: r → ¬ ∃ c t p r, l = (c, t, p) :: r ∧ exc c := by
    rintro _ rfl ⟨_, _, _, _, e, k1, k2⟩
    injection e with e; injection e with e; subst e
    rcases hc with hc | hc
    · exact k1 hc
    · exact k2 hc
  rcases step_fetch_forms hm h with ⟨⟨_, c, k1, k2⟩, ⟨k3, _⟩ | ⟨_, k3, _⟩⟩ | ⟨c, qc, q1, _, k1, _, _, _, _, k5, k6, rfl, _⟩
  · rw [k3] at ht; cases ht
  · obtain ⟨u1, u2⟩ := unwatched (σ := σ) k2
    exact ⟨c, k1, u1, u2 _ _, k3, quiet_bp k2⟩
  · exfalso
    rw [(Dasm.finishSt_frame q1).1] at ht
    rw [HwCalls.finish_log] at hl
    cases hb : isBr q1.inst with
    | true =>
      obtain ⟨b1, _, b3⟩ := exec_branch k5 k6 ((isBr_iff _).1 hb)
      obtain ⟨_, _, _, _, d1, d2, _⟩ := dBranch_trap hm b3 b1 ht
      exact hx hl ⟨_, _, _, _, d1, d2⟩
    | false =>
      obtain ⟨_, _, e4⟩ := nf_exec (not_branch k6 hb) rfl k6
      rcases e4 False (fun h => .inr (k1 h).2.2.2) ht with e4 | e4
      · exact e4
      · exact hx hl e4

/-- a step that ends in an exception: its instruction is fetched, unless a branch has done so or its address is odd; nothing is
predicted.  Not for branches, unless their target is misaligned. -/
theorem exc_fetches (hm : E.cfg.hwModels = true) (h : step E s = .ok ((), s')) (ht : s'.trapped = true) {c t p : W} {r : List (W × W × W)}
    (hl : s'.trapLog = (c, t, p) :: r) (hc : c ≠ 0x80000007#32 ∧ c ≠ 0x8000000b#32)
    (hb : isBr s'.inst = false ∨ (c = 0#32 ∧ t.toNat % 2 = 0)) :
    ∃ c, s'.hw = replay E.hw c s.hw ∧ fetchesIn c = (if s.lastInstBranch || s.pc.toNat % 2 == 1 then [] else [fetchOff s.pc]) ∧
      answers E.hw c s.hw = [] ∧ s'.lastInstBranch = false ∧ (E.cfg.profilers = false → c.filter toBp = []) := by
  rcases step_fetch_forms hm h with ⟨_, ⟨k3, _⟩ | ⟨_, _, _, _, _, _, k3, k4⟩⟩ | ⟨d, qc, q1, k0, k1, k2, k2', k3, _, k5, k6, rfl, _⟩
  · rw [k3] at ht; cases ht
  · rw [hl] at k3
    injection k3 with e; injection e with e; subst e
    exact absurd hc k4
  · rw [(Dasm.finishSt_frame q1).1] at ht
    rw [HwCalls.finish_log] at hl
    rw [(Dasm.finishSt_frame q1).2.1] at hb
    rw [(finish_hw q1).1, finish_lib]
    have hodd : (toNorm s.pc).toNat % 2 = s.pc.toNat % 2 := by
      unfold toNorm
      have := Nat.and_two_pow_sub_one_eq_mod s.pc.toNat 17
      simp [BitVec.toNat_and] at this ⊢
      omega
    -- the fetch
    have hf : fetchesIn d = (if s.lastInstBranch || s.pc.toNat % 2 == 1 then [] else [fetchOff s.pc]) ∧
        (∀ (h : Hw σ) g, answers h d g = []) ∧ (E.cfg.profilers = false → d.filter toBp = []) := by
      cases hq : qc.trapped with
      | true =>
        obtain ⟨g1, g2, g3, _⟩ := k1 hq
        rw [hodd] at g3
        rw [g2, g3]
        exact ⟨(unwatched (σ := σ) g1).1, (unwatched g1).2, quiet_bp g1⟩
      | false =>
        have g1 := k2 hq
        have g2 := k2' hq
        rw [hodd] at g2
        cases hlb : s.lastInstBranch <;> rw [hlb] at g1 g2
        · rw [g2 rfl]; exact ⟨(watched_one (σ := σ) g1).1, (watched_one g1).2, one_bp g1⟩
        · exact ⟨(unwatched (σ := σ) g1).1, (unwatched g1).2, quiet_bp g1⟩
    -- the execution
    have he : (∃ c, q1.hw = replay E.hw c qc.hw ∧ c.filter (watch E.cfg.profilers) = []) ∧ q1.lastInstBranch = qc.lastInstBranch := by
      cases hb' : isBr q1.inst with
      | true =>
        obtain ⟨b1, _, b3⟩ := exec_branch k5 k6 ((isBr_iff _).1 hb')
        obtain ⟨_, _, _, _, d1, _, d3⟩ := dBranch_trap hm b3 b1 ht
        rw [hl] at d1
        injection d1 with e; injection e with e1 e; injection e with e2 e; subst e1 e2
        rcases hb with hb | hb
        · rw [hb'] at hb; cases hb
        · exact d3 hb.1 hb.2
      | false =>
        obtain ⟨e1, e2, _⟩ := nf_exec (not_branch k6 hb') rfl k6
        exact ⟨e1, e2⟩
    obtain ⟨⟨x, x1, x2⟩, x3⟩ := he
    obtain ⟨u1, u2⟩ := unwatched (σ := σ) x2
    exact ⟨d ++ x, by rw [x1, k0, ← replay_append], by rw [fetchesIn_append, hf.1, u1, List.append_nil],
      by rw [answers_append, hf.2.1, u2]; rfl, x3.trans k3,
      fun hp => by rw [List.filter_append, hf.2.2 hp, quiet_bp x2 hp]; rfl⟩

/-- the kinds of steps -/
inductive Kind | retired | quiet | int | exc | limit
  deriving DecidableEq

/-- a run of steps of all kinds, with the states after each.  It leaves out branches with an undefined `funct3` and predictions of
odd addresses.  The step at which the limit of steps is reached executes an instruction that is not counted as retired. -/
inductive Flow (E : Env σ) (s0 : St σ) : List (Kind × St σ) → St σ → Prop
  | nil : Flow E s0 [] s0
  | retired {L s s'} : Flow E s0 L s → Ama.step E s = .ok ((), s') → s'.simInst ≠ s.simInst → Flow E s0 (L ++ [(.retired, s')]) s'
  | quiet {L s s'} : Flow E s0 L s → Ama.step E s = .ok ((), s') → s'.simInst = s.simInst → s'.trapped = false →
    (s'.wfiActive = true ∨ s'.simStep = s.simStep) → Flow E s0 (L ++ [(.quiet, s')]) s'
  | int {L s s' c t p r} : Flow E s0 L s → Ama.step E s = .ok ((), s') → s'.trapped = true → s'.trapLog = (c, t, p) :: r →
    (c = 0x80000007#32 ∨ c = 0x8000000b#32) → Flow E s0 (L ++ [(.int, s')]) s'
  | exc {L s s' c t p r} : Flow E s0 L s → Ama.step E s = .ok ((), s') → s'.trapped = true → s'.trapLog = (c, t, p) :: r →
    (c ≠ 0x80000007#32 ∧ c ≠ 0x8000000b#32) → (isBr s'.inst = false ∨ (c = 0#32 ∧ t.toNat % 2 = 0)) →
    Flow E s0 (L ++ [(.exc, s')]) s'
  | limit {L s s'} : Flow E s0 L s → Ama.step E s = .ok ((), s') → s'.trapped = false → s'.simInst = s.simInst →
    s'.wfiActive = false → s'.simStep ≠ s.simStep → Flow E s0 (L ++ [(.limit, s')]) s'

theorem flow_snoc (n : Bool) (r : Seen) : ∀ (a : Bool) (l : List Seen),
    flowFetches n a (l ++ [r]) = flowFetches n a l ++ flowFetches n (l.foldl Seen.after a) [r]
  | _, [] => by cases r <;> simp [flowFetches]
  | a, x :: l => by cases x <;> simp [flowFetches, flow_snoc n r _ l, Seen.after]

/-- what was seen of a step, against the states before and after it -/
def Matches (s : St σ) : Kind × St σ → Seen → Prop
  | (.retired, s'), .ran r => r.pc = s.pc ∧ r.next = s'.pc ∧ r.pred.isSome = isBr s'.inst
  | (.limit, s'), .ran r => r.pc = s.pc ∧ r.next = s'.nextPc ∧ r.pred.isSome = isBr s'.inst
  | (.exc, _), .threw pc => pc = s.pc
  | (.int, _), .int => True
  | (.quiet, _), .quiet => True
  | _, _ => False

/-- step by step -/
def MatchesAll : St σ → List (Kind × St σ) → List Seen → Prop
  | _, [], [] => True
  | s, k :: l, r :: t => Matches s k r ∧ MatchesAll k.2 l t
  | _, _, _ => False
/-- the last state -/
def lastSt (s : St σ) (l : List (Kind × St σ)) : St σ := l.foldl (fun _ k => k.2) s
theorem matches_snoc {k : Kind × St σ} {r : Seen} : ∀ {s : St σ} {l : List (Kind × St σ)} {t : List Seen}, MatchesAll s l t →
    Matches (lastSt s l) k r → MatchesAll s (l ++ [k]) (t ++ [r])
  | _, [], [], _, h => ⟨h, trivial⟩
  | _, _ :: _, _ :: _, ⟨h1, h2⟩, h => ⟨h1, matches_snoc h2 h⟩
  | _, [], _ :: _, h, _ => h.elim
  | _, _ :: _, [], h, _ => h.elim

/-- **C100**: a run of steps of all kinds: what happened is a sequence of records that match the states of the run, whose predictions
are the predictor's answers, and the instruction cache saw exactly the fetches of these records.
The full claim is about every run; missing are the steps that `Flow` leaves out. -/
theorem flow_fetches_partial (hm : E.cfg.hwModels = true) {s0 : St σ} {L : List (Kind × St σ)} (h : Flow E s0 L s) :
    ∃ (c : List HwCall) (R : List Seen), s.hw = replay E.hw c s0.hw ∧ MatchesAll s0 L R ∧
      fetchesIn c = flowFetches E.cfg.noBp s0.lastInstBranch R ∧ answers E.hw c s0.hw = R.filterMap Seen.pred ∧
      s.lastInstBranch = R.foldl Seen.after s0.lastInstBranch ∧ s = lastSt s0 L ∧
      (E.cfg.profilers = false → ∃ es : List Bp.Br, c.filter toBp = es.flatMap brCalls ∧
        es.map (fun e => (e.pc, e.next)) = ((R.filterMap Seen.ran?).filter (·.pred.isSome)).map (fun r => (r.pc, r.next))) := by
  have add : ∀ {s s' : St σ} {L c R} {k : Kind} {r : Seen} {d : List HwCall}, s.hw = replay E.hw c s0.hw → MatchesAll s0 L R →
      fetchesIn c = flowFetches E.cfg.noBp s0.lastInstBranch R → answers E.hw c s0.hw = R.filterMap Seen.pred →
      s.lastInstBranch = R.foldl Seen.after s0.lastInstBranch → s = lastSt s0 L →
      (E.cfg.profilers = false → ∃ es : List Bp.Br, c.filter toBp = es.flatMap brCalls ∧
        es.map (fun e => (e.pc, e.next)) = ((R.filterMap Seen.ran?).filter (·.pred.isSome)).map (fun r => (r.pc, r.next))) →
      s'.hw = replay E.hw d s.hw → Matches s (k, s') r → fetchesIn d = flowFetches E.cfg.noBp s.lastInstBranch [r] →
      answers E.hw d s.hw = r.pred.toList → s'.lastInstBranch = r.after s.lastInstBranch →
      (E.cfg.profilers = false → ∃ es : List Bp.Br, d.filter toBp = es.flatMap brCalls ∧
        es.map (fun e => (e.pc, e.next)) = (r.ran?.toList.filter (·.pred.isSome)).map (fun r => (r.pc, r.next))) →
      ∃ (c : List HwCall) (R : List Seen), s'.hw = replay E.hw c s0.hw ∧ MatchesAll s0 (L ++ [(k, s')]) R ∧
        fetchesIn c = flowFetches E.cfg.noBp s0.lastInstBranch R ∧ answers E.hw c s0.hw = R.filterMap Seen.pred ∧
        s'.lastInstBranch = R.foldl Seen.after s0.lastInstBranch ∧ s' = lastSt s0 (L ++ [(k, s')]) ∧
        (E.cfg.profilers = false → ∃ es : List Bp.Br, c.filter toBp = es.flatMap brCalls ∧
          es.map (fun e => (e.pc, e.next)) = ((R.filterMap Seen.ran?).filter (·.pred.isSome)).map (fun r => (r.pc, r.next))) := by
    intro s s' L c R k r d i1 i2 i3 i4 i5 i6 i7 j1 j2 j3 j4 j5 j6
    refine ⟨c ++ d, R ++ [r], by rw [j1, i1, ← replay_append], matches_snoc i2 (i6 ▸ j2), ?_, ?_, ?_, ?_, fun hp => ?_⟩
    · rw [fetchesIn_append, i3, j3, i5, flow_snoc]
    · rw [answers_append, i4, ← i1, j4, List.filterMap_append]
      cases hp : r.pred <;> simp [hp]
    · rw [j5, i5]; simp
    · simp [lastSt]
    · obtain ⟨es, a1, a2⟩ := i7 hp
      obtain ⟨es', b1, b2⟩ := j6 hp
      refine ⟨es ++ es', by rw [List.filter_append, a1, b1, List.flatMap_append], ?_⟩
      rw [List.map_append, a2, b2, List.filterMap_append, List.filter_append, List.map_append]
      cases hr : r.ran? <;> simp [hr]
  induction h with
  | nil => exact ⟨[], [], rfl, trivial, rfl, rfl, rfl, rfl, fun _ => ⟨[], rfl, rfl⟩⟩
  | @retired L s s' _ h hr ih =>
    obtain ⟨c, R, i1, i2, i3, i4, i5, i6, i7⟩ := ih
    obtain ⟨d, p, j1, j2, j3, j4, j5, j6⟩ := step_fetches hm h hr
    exact add i1 i2 i3 i4 i5 i6 i7 j1 (r := .ran ⟨s.pc, s'.pc, p⟩) ⟨rfl, rfl, j4⟩ (by simp [flowFetches, j2]) j3 (j5.trans j4.symm)
      (fun hp => by
        obtain ⟨imm, f3, a3⟩ := j6 hp
        rw [← j4] at a3
        cases p with
        | none => exact ⟨[], a3, rfl⟩
        | some v => exact ⟨[⟨s.pc, imm, f3, s'.pc⟩], a3, rfl⟩)
  | @limit L s s' _ h h1 _ h3 h4 ih =>
    obtain ⟨c, R, i1, i2, i3, i4, i5, i6, i7⟩ := ih
    obtain ⟨d, p, j1, j2, j3, j4, j5, j6⟩ := ran_fetches hm h h1 (.inr ⟨h3, h4⟩)
    exact add i1 i2 i3 i4 i5 i6 i7 j1 (r := .ran ⟨s.pc, s'.nextPc, p⟩) ⟨rfl, rfl, j4⟩ (by simp [flowFetches, j2]) j3 (j5.trans j4.symm)
      (fun hp => by
        obtain ⟨imm, f3, a3⟩ := j6 hp
        rw [← j4] at a3
        cases p with
        | none => exact ⟨[], a3, rfl⟩
        | some v => exact ⟨[⟨s.pc, imm, f3, s'.nextPc⟩], a3, rfl⟩)
  | @quiet L s s' _ h h1 h2 h3 ih =>
    obtain ⟨c, R, i1, i2, i3, i4, i5, i6, i7⟩ := ih
    obtain ⟨d, j1, j2, j3, j4, j5⟩ := quiet_fetches hm h h1 h2 h3
    exact add i1 i2 i3 i4 i5 i6 i7 j1 (r := .quiet) trivial j2 j3 j4 (fun hp => ⟨[], j5 hp, rfl⟩)
  | @int L s s' c t p r _ h h1 h2 h3 ih =>
    obtain ⟨c, R, i1, i2, i3, i4, i5, i6, i7⟩ := ih
    obtain ⟨d, j1, j2, j3, j4, j5⟩ := int_fetches hm h h1 h2 h3
    exact add i1 i2 i3 i4 i5 i6 i7 j1 (r := .int) trivial j2 j3 j4 (fun hp => ⟨[], j5 hp, rfl⟩)
  | @exc L s s' c t p r _ h h1 h2 h3 h4 ih =>
    obtain ⟨c, R, i1, i2, i3, i4, i5, i6, i7⟩ := ih
    obtain ⟨d, j1, j2, j3, j4, j5⟩ := exc_fetches hm h h1 h2 h3 h4
    exact add i1 i2 i3 i4 i5 i6 i7 j1 (r := .threw s.pc) rfl (by simp [flowFetches, j2]) j3 j4 (fun hp => ⟨[], j5 hp, rfl⟩)

/-- a run in which every step retires an instruction; the states after each -/
inductive Retires (E : Env σ) (s0 : St σ) : List (St σ) → St σ → Prop
  | nil : Retires E s0 [] s0
  | step {L s s'} : Retires E s0 L s → step E s = .ok ((), s') → s'.simInst ≠ s.simInst → Retires E s0 (L ++ [s']) s'

theorem runFetches_snoc (n : Bool) (r : Fetched) : ∀ (a : Bool) (l : List Fetched),
    runFetches n a (l ++ [r]) = runFetches n a l ++ fetchesOf n (l.foldl (fun _ r => r.pred.isSome) a) r
  | _, [] => by simp [runFetches]
  | a, x :: l => by simp [runFetches, runFetches_snoc n r _ l]

/-- **C100**: a run that retires an instruction at every step: the records of its instructions are linked (each begins where the one
before it ended), their predictions are what the predictor answered, and the instruction cache saw exactly their fetches.  In a
build without profilers the calls of the predictor are those of the branches, and nothing switches the statistics of the models. -/
theorem run_fetches (hm : E.cfg.hwModels = true) {s0 : St σ} {L : List (St σ)} (h : Retires E s0 L s) :
    ∃ (c : List HwCall) (R : List Fetched), s.hw = replay E.hw c s0.hw ∧
      fetchesIn c = runFetches E.cfg.noBp s0.lastInstBranch R ∧ answers E.hw c s0.hw = R.filterMap (·.pred) ∧
      R.map (fun r => (r.next, r.pred.isSome)) = L.map (fun t => (t.pc, isBr t.inst)) ∧
      s0.pc :: R.map (·.next) = R.map (·.pc) ++ [s.pc] ∧
      s.lastInstBranch = R.foldl (fun _ r => r.pred.isSome) s0.lastInstBranch ∧
      (E.cfg.profilers = false → ∃ es : List Bp.Br, c.filter toBp = es.flatMap brCalls ∧
        es.map (fun e => (e.pc, e.next)) = (R.filter (·.pred.isSome)).map (fun r => (r.pc, r.next))) := by
  induction h with
  | nil => exact ⟨[], [], rfl, rfl, rfl, rfl, rfl, rfl, fun _ => ⟨[], rfl, rfl⟩⟩
  | @step L s s' _ h hr ih =>
    obtain ⟨c, R, i1, i2, i3, i4, i5, i6, i7⟩ := ih
    obtain ⟨d, p, j1, j2, j3, j4, j5, j6⟩ := step_fetches hm h hr
    refine ⟨c ++ d, R ++ [⟨s.pc, s'.pc, p⟩], by rw [j1, i1, ← replay_append], ?_, ?_, ?_, ?_, ?_, fun hp => ?_⟩
    · rw [fetchesIn_append, i2, j2, i6, runFetches_snoc]
    · rw [answers_append, i3, ← i1, j3, List.filterMap_append]; cases p <;> rfl
    · simp [i4, j4]
    · rw [List.map_append, ← List.cons_append, i5]; simp
    · simp [j5, j4]
    · obtain ⟨es, a1, a2⟩ := i7 hp
      obtain ⟨imm, f3, a3⟩ := j6 hp
      rw [← j4] at a3
      cases p with
      | none => exact ⟨es, by rw [List.filter_append, a1, a3]; simp, by simp [a2]⟩
      | some r => exact ⟨es ++ [⟨s.pc, imm, f3, s'.pc⟩], by rw [List.filter_append, a1, a3]; simp, by simp [a2]⟩

/-- without a predictor the wait for the branch replaces the fetch of the prediction; with one, the number of fetches is the number
of instructions and mispredictions, but for the fetch a branch at the end makes for the next instruction -/
theorem count_fetches (a : Bool) : ∀ R : List Fetched,
    (runFetches false a R).length + a.toNat =
      R.length + (R.filter (·.missed)).length + (R.foldl (fun _ r => r.pred.isSome) a).toNat := by
  intro R
  induction R generalizing a with
  | nil => simp [runFetches]
  | cons r t ih =>
    have := ih r.pred.isSome
    rcases r with ⟨pc, n, _ | p⟩
    · cases a <;> simp [runFetches, fetchesOf, Fetched.missed] at this ⊢ <;> omega
    · by_cases hn : n = p <;> cases a <;> simp [runFetches, fetchesOf, Fetched.missed, hn] at this ⊢ <;> omega

/-- **C100**, counted: fetches and answers along the run of a machine with a predictor -/
theorem run_fetch_count (hm : E.cfg.hwModels = true) (hp : E.cfg.noBp = false) {s0 : St σ} {L : List (St σ)} (h : Retires E s0 L s)
    (hs : s0.lastInstBranch = false) :
    ∃ (c : List HwCall) (R : List Fetched), s.hw = replay E.hw c s0.hw ∧ answers E.hw c s0.hw = R.filterMap (·.pred) ∧
      R.length = L.length ∧
      (fetchesIn c).length = L.length + (R.filter (·.missed)).length + s.lastInstBranch.toNat := by
  obtain ⟨c, R, i1, i2, i3, i4, _, i6, _⟩ := run_fetches hm h
  have hl : R.length = L.length := by simpa using congrArg List.length i4
  refine ⟨c, R, i1, i3, hl, ?_⟩
  have := count_fetches false R
  rw [i2, hp, hs, i6, hs, ← hl]
  simpa using this

namespace Ex
open HwCalls.Ex

theorem three {s0 : St σ} {P : St σ → Prop} [DecidablePred P]
    (h : (match step E s0 with
      | .ok (_, a) => match step E a with
        | .ok (_, b) => match step E b with
          | .ok (_, c) => decide (a.simInst ≠ s0.simInst ∧ b.simInst ≠ a.simInst ∧ c.simInst ≠ b.simInst ∧ P c)
          | _ => false
        | _ => false
      | _ => false) = true) : ∃ L s, Retires E s0 L s ∧ L.length = 3 ∧ P s := by
  rcases e1 : step E s0 with ⟨⟨⟩, a⟩ | _ | _ <;> rw [e1] at h <;> try cases h
  rcases e2 : step E a with ⟨⟨⟩, b⟩ | _ | _ <;> simp only [e2] at h <;> try cases h
  rcases e3 : step E b with ⟨⟨⟩, c⟩ | _ | _ <;> simp only [e3] at h <;> try cases h
  obtain ⟨h1, h2, h3, h4⟩ := of_decide_eq_true h
  exact ⟨_, c, ((Retires.nil.step e1 h1).step e2 h2).step e3 h3, rfl, h4⟩

def prog : List W := [0x00100293#32, encode (.branch .beq 2#5 2#5 4#12), 0#32, 0x00100313#32]

/-- the hypotheses are met: an addition, a taken branch predicted not taken, the addition it jumps to: four fetches, the third of which
is the one of the wrong word after the branch -/
example : ∃ L s, Retires (envS 0#64) (stS 0#64 prog) L s ∧ L.length = 3 ∧
    fetchesIn s.hw = [0#32, 4#32, 8#32, 0xc#32] := three (by decide +kernel)
example : (envS 0#64).cfg.hwModels = true ∧ (envS 0#64).cfg.noBp = false ∧ (stS 0#64 prog).lastInstBranch = false := by decide +kernel
/-- the same in the specification -/
example : runFetches false false [⟨0x80000000#32, 0x80000004#32, none⟩, ⟨0x80000004#32, 0x8000000c#32, some 0x80000008#32⟩,
    ⟨0x8000000c#32, 0x80000010#32, none⟩] = [0#32, 4#32, 8#32, 0xc#32] := by decide
/-- without a predictor -/
example : runFetches true false [⟨0x80000000#32, 0x80000004#32, none⟩, ⟨0x80000004#32, 0x8000000c#32, some 0x80000008#32⟩,
    ⟨0x8000000c#32, 0x80000010#32, none⟩] = [0#32, 4#32, 0xc#32] := by decide
/-- a timer interrupt is due; the last instruction was a branch -/
def stI : St (List HwCall) :=
  { stS 0#64 prog with
    lastInstBranch := true
    csr := fun a => if a = A.mstatus then 8#32 else if a = A.mie then 0x80#32 else if a = A.mip then 0x80#32 else 0#32 }
/-- the hypotheses of `int_fetches` are met: it is taken, the cache sees nothing, and the handler will be fetched -/
example : (match step (envS 0#64) stI with
    | .ok (_, s) => decide (s.trapped = true ∧ s.trapLog = [(0x80000007#32, 0#32, 0x80000000#32)] ∧ s.hw = [] ∧ s.lastInstBranch = false)
    | _ => false) = true := by decide +kernel
/-- those of `exc_fetches`: an illegal instruction is fetched -/
example : (match step (envS 0#64) (stS 0#64 [0#32]) with
    | .ok (_, s) => decide (s.trapped = true ∧ s.trapLog = [(2#32, 0#32, 0x80000000#32)] ∧ s.hw = [.icRd 0#32] ∧
        s.lastInstBranch = false ∧ isBr s.inst = false)
    | _ => false) = true := by decide +kernel
/-- the same as a run -/
example : ∃ s, Flow (envS 0#64) (stS 0#64 [0#32]) [(.exc, s)] s ∧ s.hw = [.icRd 0#32] := by
  have h : (match step (envS 0#64) (stS 0#64 [0#32]) with
    | .ok (_, s) => decide (s.trapped = true ∧ s.trapLog = [(2#32, 0#32, 0x80000000#32)] ∧ isBr s.inst = false ∧ s.hw = [.icRd 0#32])
    | _ => false) = true := by decide +kernel
  rcases e : step (envS 0#64) (stS 0#64 [0#32]) with ⟨⟨⟩, s⟩ | _ | _ <;> rw [e] at h <;> try cases h
  obtain ⟨h1, h2, h3, h4⟩ := of_decide_eq_true h
  exact ⟨s, Flow.nil.exc e h1 h2 (by decide) (.inl h3), h4⟩
/-- the limit of steps: the branch is executed, predicted and not counted -/
example : ∃ s, Flow (envS 1#64) (stS 1#64 [encode (.branch .beq 2#5 2#5 4#12), 0#32, 0x00100313#32]) [(.limit, s)] s ∧
    s.running = false ∧ s.pc = 0x80000000#32 ∧ s.nextPc = 0x80000008#32 ∧ fetchesIn s.hw = [0#32, 4#32, 8#32] := by
  have h : (match step (envS 1#64) (stS 1#64 [encode (.branch .beq 2#5 2#5 4#12), 0#32, 0x00100313#32]) with
    | .ok (_, s) => decide (s.trapped = false ∧
        s.simInst = (stS 1#64 [encode (.branch .beq 2#5 2#5 4#12), 0#32, 0x00100313#32]).simInst ∧ s.wfiActive = false ∧
        s.simStep ≠ (stS 1#64 [encode (.branch .beq 2#5 2#5 4#12), 0#32, 0x00100313#32]).simStep ∧
        s.running = false ∧ s.pc = 0x80000000#32 ∧ s.nextPc = 0x80000008#32 ∧ fetchesIn s.hw = [0#32, 4#32, 8#32])
    | _ => false) = true := by decide +kernel
  rcases e : step (envS 1#64) (stS 1#64 [encode (.branch .beq 2#5 2#5 4#12), 0#32, 0x00100313#32]) with ⟨⟨⟩, s⟩ | _ | _ <;>
    rw [e] at h <;> try cases h
  obtain ⟨h1, h2, h3, h4, h5⟩ := of_decide_eq_true h
  exact ⟨s, Flow.nil.limit e h1 h2 h3 h4, h5⟩
end Ex

end Ama.HwFetch
