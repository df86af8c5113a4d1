import Verif.Props.HwStats
import Verif.Props.HwFetch
/-!
# C102: the references of the instruction cache and the mispredictions along a run

In a build without profilers (`core.cpp:64-67`) the statistics of the hardware models are switched on when the core is built and
never again, so that the figures of the report are about the whole run.
-/
namespace Ama.HwRefs
open Ama.Spec Ama.HwCalls Ama.HwReal Ama.HwStats

/-- the reads of the instruction cache are the fetches -/
theorem tag_fetches : ∀ (c : List HwCall), (∀ x ∈ c, x.switch = false) → ∀ b, dcTag b (icOps c) = (fetchesIn c).map (fun a => (b, Cache.Op.rd a 4))
  | [], _, _ => rfl
  | x :: c, h, b => by
    have ih := tag_fetches c (fun y hy => h y (List.mem_cons_of_mem _ hy)) b
    have hx := h x List.mem_cons_self
    cases x with
    | icRd a => exact congrArg ((b, Cache.Op.rd a 4) :: ·) ih
    | prof on => cases hx
    | _ => exact ih

/-- after the statistics are switched on once, every fetch is a reference -/
theorem refs_fetches {C : ModelsCfg} {r : Dev} {m0 m1 m : Models} {c : List HwCall} (hm : Models.make C r = .ok m0)
    (h1 : (HwCall.prof true).run real (.ok m0) = .ok m1) (h2 : replay real c (.ok m1) = .ok m) (hc : ∀ x ∈ c, x.switch = false) :
    m.mmi.ic.stats.references = (fetchesIn c).length := by
  have h : replay real (.prof true :: c) (.ok m0) = .ok m := by
    show replay real c ((HwCall.prof true).run real (.ok m0)) = _
    rw [h1, h2]
  obtain ⟨a1, _, _⟩ := replay_real.1 h
  obtain ⟨ic, dc, hi, _, hq, _, _⟩ := make_parts hm
  obtain ⟨tr, k1, k2⟩ := ic_run a1
  rw [hq] at k1
  have k1' : ic.runOps ((r, .roi C.roiStart C.roiSize) :: tr) = .ok m.mmi.ic := k1
  have hr := (Cache.cache_accounting hi _ k1').1
  have hT := trace_tag false k1'
  rw [hr]
  have e : Cache.cnt (fun _ => true) (Cache.trace ic false ((r, .roi C.roiStart C.roiSize) :: tr)) =
      ((Cache.trace ic false ((r, .roi C.roiStart C.roiSize) :: tr)).map (fun e => (e.on, e.op))).countP (fun x => x.1) := by
    unfold Cache.cnt
    rw [List.countP_map]
    congr 1
    funext e
    simp
  rw [e, hT, List.map_cons, k2]
  have e2 : dcTag false (Cache.Op.roi C.roiStart C.roiSize :: icOps (.prof true :: c)) = dcTag true (icOps c) := rfl
  rw [e2, tag_fetches c hc, List.countP_map]
  simp

/-! ## The predictor -/

theorem bp_skip {x : HwCall} (h : toBp x = false) (b : Bp.BpIf) : bpCall x b = .ok b := by cases x <;> first | rfl | cases h
theorem bp_filter : ∀ (c : List HwCall) (b : Bp.BpIf), runWith bpCall c b = runWith bpCall (c.filter toBp) b
  | [], _ => rfl
  | x :: c, b => by
    cases hx : toBp x with
    | false =>
      rw [List.filter_cons_of_neg (by simp [hx])]
      simp only [runWith, bp_skip hx, Res.bind_ok]
      exact bp_filter c b
    | true =>
      rw [List.filter_cons_of_pos hx]
      simp only [runWith]
      congr 1
      funext b'
      exact bp_filter c b'

/-- the answers of the interface -/
def bpAnswers : List HwCall → Bp.BpIf → List W
  | [], _ => []
  | .predict pc imm f3 :: c, b => match b.predict pc imm f3 with
    | .ok r => r.1 :: bpAnswers c r.2
    | _ => []
  | x :: c, b => match bpCall x b with
    | .ok b' => bpAnswers c b'
    | _ => []
theorem bpAnswers_filter : ∀ (c : List HwCall) (b : Bp.BpIf), bpAnswers c b = bpAnswers (c.filter toBp) b
  | [], _ => rfl
  | x :: c, b => by
    have ih := bpAnswers_filter c
    cases x with
    | predict pc imm f3 =>
      rw [List.filter_cons_of_pos rfl]
      unfold bpAnswers
      split <;> simp [ih]
    | ideal n => exact ih _
    | update pc n =>
      rw [List.filter_cons_of_pos rfl]
      unfold bpAnswers
      split <;> simp [ih]
    | prof on => exact ih _
    | _ => exact ih _
theorem answers_real : ∀ {c : List HwCall} {m m' : Models}, replay real c (.ok m) = .ok m' → answers real c (.ok m) = bpAnswers c m.bp
  | [], _, _, _ => rfl
  | x :: c, m, m', h => by
    have h' : replay real c (x.run real (.ok m)) = .ok m' := h
    obtain ⟨m1, e⟩ : ∃ m1, x.run real (.ok m) = .ok m1 := by
      cases hx : x.run real (.ok m) with
      | ok m1 => exact ⟨m1, rfl⟩
      | ub k => rw [hx, replay_ub] at h'; cases h'
      | abort => rw [hx, replay_abort] at h'; cases h'
    rw [e] at h'
    have ih := answers_real h'
    have hb : bpCall x m.bp = .ok m1.bp := by
      have := (replay_real (c := [x])).1 (show replay real [x] (.ok m) = .ok m1 from e)
      have := this.2.1
      simp only [runWith, bind_ok_iff] at this
      obtain ⟨b, h1, h2⟩ := this
      cases h2; exact h1
    cases x with
    | predict pc imm f3 =>
      simp only [bpCall, bind_ok_iff] at hb
      obtain ⟨r, h1, h2⟩ := hb
      injection h2 with h2
      simp only [answers, bpAnswers, h1, e, ih, h2]
      congr 1
      show (match Models.bpPredict pc imm f3 m with | .ok (b, m) => (b, Res.ok m) | .ub u => (0#32, .ub u) | .abort => (0#32, .abort)).1 = _
      simp only [Models.bpPredict, h1]
      rfl
    | _ => simp only [answers, bpAnswers, hb, e, ih]

/-- branch after branch, each predictor is told, asked and updated -/
theorem branches_answered : ∀ (es : List Bp.Br) {b b' : Bp.BpIf}, Bp.Synced b → b.prof = true →
    runWith bpCall (es.flatMap brCalls) b = .ok b' →
    ∃ l, Bp.answered true (es.map .br) b.active = .ok (l, b'.active) ∧ l.map (·.1) = es ∧ l.map (·.2) = bpAnswers (es.flatMap brCalls) b
  | [], b, b', _, _, h => by cases h; exact ⟨[], rfl, rfl, rfl⟩
  | e :: es, b, b', hs, hp, h => by
    simp only [List.flatMap_cons, brCalls, List.cons_append, List.nil_append, runWith, bpCall, Res.bind_ok, bind_ok_iff] at h
    obtain ⟨b1, ⟨r, h1, h1'⟩, b2, h2, h3⟩ := h
    injection h1' with h1'
    subst h1'
    have hb : b.branch e = .ok (r.1, b2) := by
      simp only [Bp.BpIf.branch, h1, Res.bind_ok, h2]
    obtain ⟨g1, _, g3, g4⟩ := Bp.branch_proj hs hb
    obtain ⟨l, k1, k2, k3⟩ := branches_answered es g4 (g3.trans hp) h3
    refine ⟨(e, r.1) :: l, ?_, by simp [k2], ?_⟩
    · simp only [List.map_cons, Bp.answered, g1, Res.bind_ok, k1]
      rfl
    · simp only [List.flatMap_cons, brCalls, List.cons_append, List.nil_append, bpAnswers, bpCall, h1, h2, List.map_cons, k3]

/-- the branches of the records, with their answers -/
theorem missed_num : ∀ (R : List Fetched) (l : List (Bp.Br × W)), l.map (·.2) = R.filterMap (·.pred) →
    l.map (fun x => x.1.next) = (R.filter (·.pred.isSome)).map (·.next) →
    Bp.num (fun x => x.1.next != x.2) l = (R.filter (·.missed)).length
  | [], l, h1, _ => by cases l with | nil => rfl | cons x t => cases h1
  | r :: R, l, h1, h2 => by
    rcases r with ⟨pc, n, _ | p⟩
    · have := missed_num R l (by simpa using h1) (by simpa using h2)
      simpa [Fetched.missed] using this
    · cases l with
      | nil => cases h1
      | cons x t =>
        simp only [List.map_cons, List.filterMap_cons, List.filter_cons, Option.isSome_some, if_true, List.cons.injEq] at h1 h2
        have := missed_num R t h1.2 h2.2
        simp only [Bp.num, this, h1.1, h2.1, List.filter_cons, Fetched.missed]
        by_cases hn : n = p <;> (simp [hn]; try omega)

variable {E : Env (Res Models)} {C : ModelsCfg} {s0 s : St (Res Models)} {L : List (St (Res Models))} {m0 m1 m : Models}

/-- the statistics of instruction cache and predictor, from the calls of a run -/
theorem counts {c : List HwCall} {R : List Fetched} {es : List Bp.Br} {r : Dev} (made : Models.make C r = .ok m0)
    (on : (HwCall.prof true).run real (.ok m0) = .ok m1) (i1 : replay real c (.ok m1) = .ok m)
    (i3 : answers real c (.ok m1) = R.filterMap (·.pred)) (x1 : c.filter toBp = es.flatMap brCalls)
    (x2 : es.map (fun e => (e.pc, e.next)) = (R.filter (·.pred.isSome)).map (fun r => (r.pc, r.next)))
    (hl : C.low = 1 ∨ C.low = 2) :
    let t := m.bp.active.base.stats
    m.mmi.ic.stats.references = (fetchesIn c).length ∧ t.mispredicted = (R.filter (·.missed)).length ∧
    t.predicted + t.mispredicted = (R.filter (·.pred.isSome)).length := by
  intro t
  have hno : ∀ x ∈ c, x.switch = false := by
    intro x hx
    cases hs : x.switch with
    | false => rfl
    | true =>
      have hm : x ∈ c.filter toBp := List.mem_filter.2 ⟨hx, by cases x <;> first | rfl | cases hs⟩
      rw [x1, List.mem_flatMap] at hm
      obtain ⟨e, _, he⟩ := hm
      simp only [brCalls, List.mem_cons, List.not_mem_nil, or_false] at he
      rcases he with rfl | rfl | rfl <;> cases hs
  obtain ⟨_, _, _, _, _, hbp, _⟩ := make_parts made
  obtain ⟨hsy, hact, _⟩ := Bp.make_synced (by omega) hbp
  have hm1 : m1.bp = m0.bp.profiling true := by injection on with on; rw [← on]
  have hrun := (replay_real.1 i1).2.1
  rw [bp_filter, x1] at hrun
  obtain ⟨l, k1, k2, k3⟩ := branches_answered es (b := m1.bp) (by rw [hm1]; exact Bp.profiling_synced _ _) (by rw [hm1]; rfl) hrun
  have hans : Bp.answered false (.prof true :: es.map .br) m0.bp.active = .ok (l, m.bp.active) := by
    rw [hm1] at k1; exact k1
  have cc := Bp.counted_any (by omega) hact hans
  have c1 := cc.predFwd
  have c2 := cc.predBwd
  have c3 := cc.misFwd
  have c4 := cc.misBwd
  simp only [Nat.zero_add] at c1 c2 c3 c4
  have hM : t.mispredicted = Bp.num (fun x => x.1.next != x.2) l := by
    have := Bp.num_split (fun x : Bp.Br × W => x.1.next != x.2) (fun x => x.1.forward) l
    have hm' : t.mispredicted = t.misFwd + t.misBwd := rfl
    rw [hm', c3, c4]
    rw [← this]
    simp only [Bool.and_comm]
  have hP : t.predicted = Bp.num (fun x => x.1.next == x.2) l := by
    have := Bp.num_split (fun x : Bp.Br × W => x.1.next == x.2) (fun x => x.1.forward) l
    unfold Bp.BStats.predicted
    rw [c1, c2]
    simp only [Bool.and_comm] at this ⊢
    exact this
  have hl2 : l.map (·.2) = R.filterMap (·.pred) := by rw [k3, ← i3, answers_real i1, bpAnswers_filter c, x1]
  have hl1 : l.map (fun x => x.1.next) = (R.filter (·.pred.isSome)).map (·.next) := by
    have := congrArg (List.map Prod.snd) x2
    rw [← k2] at this
    simpa [Function.comp_def] using this
  refine ⟨refs_fetches made on i1 hno, hM.trans (missed_num R l hl2 hl1), ?_⟩
  rw [hM, hP]
  have h1 := Bp.num_split (fun _ : Bp.Br × W => true) (fun x => x.1.next == x.2) l
  rw [Bp.num_true] at h1
  have h2 : l.length = (R.filter (·.pred.isSome)).length := by simpa using congrArg List.length hl1
  rw [← h2, ← h1]
  simp only [Bool.true_and]
  rfl

/-- **C102**, of a build without profilers and with a branch predictor, from the construction of the core on: after any run of retired
instructions in which no model failed, the references of the instruction cache are the instructions retired, plus the branches whose
next address is not the one predicted, plus one if the last instruction was a branch, whose successor has been fetched already.  The
predictions are those the predictor gave.  The report counts exactly these branches, right or wrong. -/
theorem icache_references (hw : E.hw = real) (hm : E.cfg.hwModels = true) (hp : E.cfg.profilers = false) (hb : E.cfg.noBp = false)
    (made : Models.make C s0.ram = .ok m0) (on : (HwCall.prof true).run real (.ok m0) = .ok m1) (start : s0.hw = .ok m1)
    (fresh : s0.lastInstBranch = false) (h : HwFetch.Retires E s0 L s) (done : s.hw = .ok m)
    (hl : C.low = 1 ∨ C.low = 2) :
    let t := m.bp.active.base.stats
    m.mmi.ic.stats.references = L.length + t.mispredicted + s.lastInstBranch.toNat ∧
    t.predicted + t.mispredicted = L.countP (fun q => isBr q.inst) ∧
    ∃ (c : List HwCall) (R : List Fetched), replay real c (.ok m1) = .ok m ∧ answers real c (.ok m1) = R.filterMap (·.pred) ∧
      s0.pc :: L.map (·.pc) = R.map (·.pc) ++ [s.pc] ∧ R.map (·.next) = L.map (·.pc) ∧
      R.map (·.pred.isSome) = L.map (fun q => isBr q.inst) ∧ t.mispredicted = (R.filter (·.missed)).length := by
  intro t
  obtain ⟨c, R, i1, i2, i3, i4, i5, i6, i7⟩ := HwFetch.run_fetches hm h
  obtain ⟨es, x1, x2⟩ := i7 hp
  have hlen : R.length = L.length := by simpa using congrArg List.length i4
  have e1 : R.map (·.next) = L.map (·.pc) := by simpa [Function.comp_def] using congrArg (List.map Prod.fst) i4
  have e2 : R.map (·.pred.isSome) = L.map (fun q => isBr q.inst) := by
    simpa [Function.comp_def] using congrArg (List.map Prod.snd) i4
  rw [hw, start] at i1 i3
  rw [done] at i1
  obtain ⟨n1, n2, n3⟩ := counts made on i1.symm i3 x1 x2 hl
  have hn := HwFetch.count_fetches false R
  refine ⟨?_, ?_, c, R, i1.symm, i3, by rw [← e1]; exact i5, e1, e2, n2⟩
  · rw [n1, n2, i2, hb, fresh, i6, fresh, ← hlen]
    simpa using hn
  · rw [n3]
    have h3 : L.countP (fun q => isBr q.inst) = (L.map (fun q => isBr q.inst)).countP id := by rw [List.countP_map]; rfl
    rw [h3, ← e2, List.countP_map, List.countP_eq_length_filter]
    rfl

/-- the fetches of steps of all kinds -/
theorem count_flow (a : Bool) : ∀ R : List Seen, (flowFetches false a R).length + a.toNat =
    (R.filterMap Seen.ran?).length + ((R.filterMap Seen.ran?).filter (·.missed)).length + besides a R + (R.foldl Seen.after a).toNat := by
  intro R
  induction R generalizing a with
  | nil => simp [flowFetches, besides]
  | cons r t ih =>
    cases r with
    | ran r =>
      have := ih r.pred.isSome
      rcases r with ⟨pc, n, _ | p⟩
      · cases a <;> simp [flowFetches, fetchesOf, Fetched.missed, besides, Seen.ran?, Seen.after] at this ⊢ <;> omega
      · by_cases hn : n = p <;> cases a <;>
          simp [flowFetches, fetchesOf, Fetched.missed, besides, Seen.ran?, Seen.after, hn] at this ⊢ <;> omega
    | threw pc =>
      have := ih false
      rw [show (Seen.threw pc :: t).filterMap Seen.ran? = t.filterMap Seen.ran? from rfl]
      by_cases ho : pc.toNat % 2 = 1 <;> cases a <;> simp [flowFetches, besides, Seen.after, ho] at this ⊢ <;> omega
    | int =>
      have := ih false
      rw [show (Seen.int :: t).filterMap Seen.ran? = t.filterMap Seen.ran? from rfl]
      cases a <;> simp [flowFetches, besides, Seen.after] at this ⊢ <;> omega
    | quiet =>
      have := ih a
      rw [show (Seen.quiet :: t).filterMap Seen.ran? = t.filterMap Seen.ran? from rfl]
      cases a <;> simp [flowFetches, besides, Seen.after] at this ⊢ <;> omega

/-- an instruction is executed: it retires, or the limit of steps is reached at it -/
def _root_.Ama.HwFetch.Kind.executed : HwFetch.Kind → Bool
  | .retired => true
  | .limit => true
  | _ => false

/-- the instructions that ran are the steps that executed one -/
theorem ran_retired : ∀ {s : St (Res Models)} {l : List (HwFetch.Kind × St (Res Models))} {t : List Seen}, HwFetch.MatchesAll s l t →
    (t.filterMap Seen.ran?).length = l.countP (fun k => k.1.executed) ∧
    ((t.filterMap Seen.ran?).filter (·.pred.isSome)).length = l.countP (fun k => k.1.executed && isBr k.2.inst)
  | _, [], [], _ => ⟨rfl, rfl⟩
  | _, [], _ :: _, h => h.elim
  | _, _ :: _, [], h => h.elim
  | s, (k, q) :: l, r :: t, ⟨h1, h2⟩ => by
    obtain ⟨a1, a2⟩ := ran_retired h2
    cases k with
    | retired =>
      cases r with
      | ran r =>
        obtain ⟨_, _, h1⟩ := h1
        cases hb : isBr q.inst <;> rw [hb] at h1 <;> simp [Seen.ran?, HwFetch.Kind.executed, h1, a1, a2, hb]
      | _ => exact h1.elim
    | limit =>
      cases r with
      | ran r =>
        obtain ⟨_, _, h1⟩ := h1
        cases hb : isBr q.inst <;> rw [hb] at h1 <;> simp [Seen.ran?, HwFetch.Kind.executed, h1, a1, a2, hb]
      | _ => exact h1.elim
    | quiet =>
      cases r with
      | quiet => exact ⟨a1, a2⟩
      | _ => exact h1.elim
    | int =>
      cases r with
      | int => exact ⟨a1, a2⟩
      | _ => exact h1.elim
    | exc =>
      cases r with
      | threw pc => exact ⟨a1, a2⟩
      | _ => exact h1.elim

/-- **C102** with interrupts, exceptions and waiting: the instruction cache is also referenced for each instruction that ends in an
exception, unless its address is odd, and what a branch has fetched is lost when an interrupt is taken before it is executed.
Missing are the steps `Flow` leaves out. -/
theorem icache_references_flow_partial (hw : E.hw = real) (hm : E.cfg.hwModels = true) (hp : E.cfg.profilers = false)
    (hb : E.cfg.noBp = false) (made : Models.make C s0.ram = .ok m0) (on : (HwCall.prof true).run real (.ok m0) = .ok m1)
    (start : s0.hw = .ok m1) (fresh : s0.lastInstBranch = false) {L : List (HwFetch.Kind × St (Res Models))}
    (h : HwFetch.Flow E s0 L s) (done : s.hw = .ok m) (hl : C.low = 1 ∨ C.low = 2) :
    let t := m.bp.active.base.stats
    ∃ R : List Seen, HwFetch.MatchesAll s0 L R ∧
      m.mmi.ic.stats.references = L.countP (fun k => k.1.executed) + t.mispredicted + besides false R + s.lastInstBranch.toNat ∧
      t.predicted + t.mispredicted = L.countP (fun k => k.1.executed && isBr k.2.inst) ∧
      t.mispredicted = ((R.filterMap Seen.ran?).filter (·.missed)).length := by
  intro t
  obtain ⟨c, R, i1, i2, i3, i4, i5, _, i7⟩ := HwFetch.flow_fetches_partial hm h
  obtain ⟨es, x1, x2⟩ := i7 hp
  rw [hw, start] at i1 i4
  rw [done] at i1
  have i4' : answers real c (.ok m1) = (R.filterMap Seen.ran?).filterMap (·.pred) := by
    rw [i4, List.filterMap_filterMap]
    congr 1
    funext x
    cases x <;> rfl
  obtain ⟨n1, n2, n3⟩ := counts made on i1.symm i4' x1 x2 hl
  obtain ⟨r1, r2⟩ := ran_retired i2
  have hn := count_flow false R
  refine ⟨R, i2, ?_, n3.trans r2, n2⟩
  rw [n1, n2, i3, hb, fresh, i5, fresh, ← r1]
  simpa using hn

namespace Ex
/-- a build without profilers -/
def envN : Env (Res Models) where
  cfg := { Ama.Ex.cfg0 with hwModels := true, profilers := false }
  regions := []
  uartIn := []
  stdin := fun _ => none
  hw := real
/-- the models as the constructor of the core leaves them -/
def stN (ws : List W) : St (Res Models) :=
  initSt envN (Ama.Ex.image ws) ⟨0#32, 0#32, 1#32, false, 0#32, false, 0#64⟩
    ((HwCall.prof true).run real (Models.make (HwReal.Ex.mc true) ⟨0x20000, Ama.Ex.image ws⟩))
/-- the counts -/
def refsOf (h : Res Models) : List Nat :=
  match h with
  | .ok m => [m.mmi.ic.stats.references, m.bp.active.base.stats.predicted, m.bp.active.base.stats.mispredicted]
  | _ => []
def prog : List W := [0x00100293#32, encode (.branch .bne 2#5 2#5 4#12), 0x00100313#32, 0#32]
/-- the hypotheses are met: an addition, a branch predicted taken but not taken, another addition: three instructions and four
references -/
example : ∃ L s, HwFetch.Retires envN (stN prog) L s ∧ L.length = 3 ∧ refsOf s.hw = [4, 0, 1] := HwFetch.Ex.three (by decide +kernel)
example : (HwReal.Ex.mc true).low = 2 := by decide
example : envN.cfg.profilers = false ∧ envN.cfg.hwModels = true ∧ envN.cfg.noBp = false ∧
    (stN prog).lastInstBranch = false := by decide +kernel
example : ∃ m0 m1, Models.make (HwReal.Ex.mc true) (stN prog).ram = .ok m0 ∧ (HwCall.prof true).run real (.ok m0) = .ok m1 ∧
    (stN prog).hw = .ok m1 := ⟨_, _, rfl, rfl, rfl⟩
/-- the hypotheses of the last theorem are met: an illegal instruction is one reference -/
example : ∃ s, HwFetch.Flow envN (stN [0#32]) [(.exc, s)] s ∧ refsOf s.hw = [1, 0, 0] := by
  have h : (match step envN (stN [0#32]) with
    | .ok (_, s) => decide (s.trapped = true ∧ s.trapLog = [(2#32, 0#32, 0x80000000#32)] ∧ isBr s.inst = false ∧ refsOf s.hw = [1, 0, 0])
    | _ => false) = true := by decide +kernel
  rcases e : step envN (stN [0#32]) with ⟨⟨⟩, s⟩ | _ | _ <;> rw [e] at h <;> try cases h
  obtain ⟨h1, h2, h3, h4⟩ := of_decide_eq_true h
  exact ⟨s, HwFetch.Flow.nil.exc e h1 h2 (by decide) (.inl h3), h4⟩
end Ex

end Ama.HwRefs
