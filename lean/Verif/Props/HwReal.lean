import Verif.Lemmas.HwReal
import Verif.Lemmas.HwEven
import Verif.Props.HwCalls
/-!
# C84 – C86: the statistics of the hardware models over runs of the core
-/
namespace Ama.HwReal
open Ama.Spec Ama.HwCalls
variable {σ : Type} {E : Env σ} {s s0 : St σ} {L : List (St σ × List HwCall)}

/-- what a run tells the models, whatever they are: the calls, and the events the predictors make of them -/
theorem run_models (hm : E.cfg.hwModels = true) (h0 : s0.rf 0#5 = 0#32) (h : HwRun E s0 L s) (b : Bool) : ∃ c evs,
    Fed E b s0 s c ∧ seen (statsOn E b s0) c = L.flatMap (fun x => x.2.map (statsOn E b x.1, ·)) ∧
    (∀ B, runWith bpCall c B = Bp.BpIf.run evs B) ∧
    bpTag (statsOn E b s0) evs = L.flatMap (fun x => (branchOf x.2).map (statsOn E b x.1, ·)) ∧
    evFlag (statsOn E b s0) evs = statsOn E b s := by
  have step : ∀ {L s s' c evs l}, Fed E b s0 s c → seen (statsOn E b s0) c = L.flatMap (fun x => x.2.map (statsOn E b x.1, ·)) →
      (∀ B, runWith bpCall c B = Bp.BpIf.run evs B) →
      bpTag (statsOn E b s0) evs = L.flatMap (fun x => (branchOf x.2).map (statsOn E b x.1, ·)) →
      evFlag (statsOn E b s0) evs = statsOn E b s → Tells E s s' l → (∀ x ∈ l, x.fetch = false ∧ x.switch = false) →
      (∀ B, runWith bpCall l B = Bp.BpIf.run ((branchOf l).map .br) B) → ∃ c evs, Fed E b s0 s' c ∧
      seen (statsOn E b s0) c = (L ++ [(s', l)]).flatMap (fun x => x.2.map (statsOn E b x.1, ·)) ∧
      (∀ B, runWith bpCall c B = Bp.BpIf.run evs B) ∧
      bpTag (statsOn E b s0) evs = (L ++ [(s', l)]).flatMap (fun x => (branchOf x.2).map (statsOn E b x.1, ·)) ∧
      evFlag (statsOn E b s0) evs = statsOn E b s' := by
    intro L s s' c evs l h1 h2 h3 h4 h5 ht hl hb
    obtain ⟨p, c', k1, k2, k3, k4, k5⟩ := Tells.fed (b := b) ht hl
    refine ⟨c ++ c', evs ++ (switchEvs p ++ (branchOf l).map .br), h1.trans k1, ?_, ?_, ?_, ?_⟩
    · rw [seen_append, h2, h1.flag, k5, List.flatMap_append]
      simp only [List.flatMap_cons, List.flatMap_nil, List.append_nil]
    · intro B
      rw [runWith_append, ifRun_append, h3]
      refine congrArg _ (funext fun B => ?_)
      rw [bp_own, k2, runWith_append, ifRun_append, bp_switch _ k3]
      exact congrArg _ (funext fun B => hb B)
    · rw [bpTag_append, h4, h5, bpTag_switch, k4, bpTag_br, List.flatMap_append]
      simp only [List.flatMap_cons, List.flatMap_nil, List.append_nil]
    · rw [evFlag_append, h5, evFlag_append, evFlag_switch, k4, evFlag_br]
  refine hwrun_ind hm h0 (P := fun L s => ∃ c evs, Fed E b s0 s c ∧
      seen (statsOn E b s0) c = L.flatMap (fun x => x.2.map (statsOn E b x.1, ·)) ∧
      (∀ B, runWith bpCall c B = Bp.BpIf.run evs B) ∧
      bpTag (statsOn E b s0) evs = L.flatMap (fun x => (branchOf x.2).map (statsOn E b x.1, ·)) ∧
      evFlag (statsOn E b s0) evs = statsOn E b s)
    ⟨[], [], ⟨rfl, rfl, rfl, fun _ => rfl, by simp⟩, rfl, fun _ => rfl, rfl, rfl⟩ ?_ ?_ h
  · rintro L s s' l ⟨c, evs, h1, h2, h3, h4, h5⟩ ht hc
    refine step h1 h2 h3 h4 h5 ht (entry_plain hc) ?_
    rcases hc with ⟨_, _, _, _, hc⟩ | ⟨_, _, _, hc⟩
    · exact calls_branch hc
    · exact bad_branch hc
  · rintro L s s' ⟨c, evs, h1, h2, h3, h4, h5⟩ ht
    obtain ⟨c', evs', g1, g2, g3, g4, g5⟩ := step h1 h2 h3 h4 h5 ht (by simp) (fun _ => rfl)
    refine ⟨c', evs', g1, ?_, g3, ?_, g5⟩
    · rw [g2, List.flatMap_append]; simp
    · rw [g4, List.flatMap_append]; simp [branchOf]

/-- what the instructions retired while statistics were on told the models; without profilers they always are (core.cpp:66) -/
def counted (E : Env σ) (L : List (St σ × List HwCall)) : List HwCall :=
  L.flatMap fun x => if statsOn E true x.1 then x.2 else []
/-- the branches among them -/
def branches (E : Env σ) (L : List (St σ × List HwCall)) : List Bp.Br :=
  L.flatMap fun x => if statsOn E true x.1 then branchOf x.2 else []

theorem pick {α : Type} (f : Bool) (l : List α) : (if f then l else []) = ((l.map (f, ·)).filter (·.1)).map (·.2) := by
  induction l with
  | nil => cases f <;> rfl
  | cons a l ih => cases f <;> simp only [List.map_cons, List.filter_cons, Bool.false_eq_true, if_false, if_true] at ih ⊢ <;> rw [← ih]
theorem counted_eq (L : List (St σ × List HwCall)) :
    counted E L = ((L.flatMap (fun x => x.2.map (statsOn E true x.1, ·))).filter (·.1)).map (·.2) := by
  unfold counted
  induction L with
  | nil => rfl
  | cons x t ih =>
    simp only [List.flatMap_cons, List.filter_append, List.map_append, ih]
    congr 1
    exact pick _ _
theorem branches_eq (L : List (St σ × List HwCall)) :
    branches E L = ((L.flatMap (fun x => (branchOf x.2).map (statsOn E true x.1, ·))).filter (·.1)).map (·.2) := by
  unfold branches
  induction L with
  | nil => rfl
  | cons x t ih =>
    simp only [List.flatMap_cons, List.filter_append, List.map_append, ih]
    congr 1
    exact pick _ _

/-- counting the calls of one sort -/
theorem count_tag {α : Type} (g : HwCall → Option α) (p : α → Bool) (X : List (Bool × HwCall)) :
    (X.filterMap (fun x => (g x.2).map (x.1, ·))).countP (fun y => y.1 && p y.2) =
      ((X.filter (·.1)).map (·.2)).countP (fun c => ((g c).map p).getD false) := by
  induction X with
  | nil => rfl
  | cons x t ih =>
    obtain ⟨f, c⟩ := x
    cases f <;> cases hg : g c <;> simp [hg, ih, List.countP_cons]
theorem sum_tag {α : Type} (g : HwCall → Option α) (p : α → Bool) (w : α → Nat) (X : List (Bool × HwCall)) :
    (((X.filterMap (fun x => (g x.2).map (x.1, ·))).filter (fun y => y.1 && p y.2)).map (fun y => w y.2)).sum =
      (((X.filter (·.1)).map (·.2)).map (fun c => ((g c).map (fun a => if p a then w a else 0)).getD 0)).sum := by
  induction X with
  | nil => rfl
  | cons x t ih =>
    obtain ⟨f, c⟩ := x
    cases f
    · cases hg : g c <;> simp [hg, ih]
    · cases hg : g c with
      | none => simp [hg, ih]
      | some a => cases hp : p a <;> simp [hg, ih, hp]

/-- core.cpp:63-70: the models when the core has been built; without profilers their statistics are switched on -/
def started (E : Env (Res Models)) (m0 : Models) : Res Models :=
  if E.cfg.profilers then .ok m0 else (HwCall.prof true).run real (.ok m0)

/-- a run of a build with these hardware models, from the construction of the core on with the profiler off, in which none of them
failed -/
structure Runs (E : Env (Res Models)) (C : ModelsCfg) (s0 : St (Res Models)) (L : List (St (Res Models) × List HwCall))
    (s : St (Res Models)) (m0 m : Models) : Prop where
  hw : E.hw = real
  on : E.cfg.hwModels = true
  x0 : s0.rf 0#5 = 0#32
  off : s0.profActive = false
  made : Models.make C s0.ram = .ok m0
  start : s0.hw = started E m0
  run : HwRun E s0 L s
  done : s.hw = .ok m

variable {E : Env (Res Models)} {C : ModelsCfg} {s0 s : St (Res Models)} {L : List (St (Res Models) × List HwCall)} {m0 m : Models}

theorem Runs.split (h : Runs E C s0 L s m0 m) : ∃ c evs, seen false c = L.flatMap (fun x => x.2.map (statsOn E true x.1, ·)) ∧
    bpTag false evs = L.flatMap (fun x => (branchOf x.2).map (statsOn E true x.1, ·)) ∧
    runWith mmiCall c m0.mmi = .ok m.mmi ∧ Bp.BpIf.run evs m0.bp = .ok m.bp ∧ Div.run (divEvs c) m0.div = .ok m.div := by
  obtain ⟨c, evs, h1, h2, h3, h4, _⟩ := run_models h.on h.x0 h.run true
  have hr := h1.hw
  rw [h.done, h.start, h.hw] at hr
  unfold started at hr
  cases hp : E.cfg.profilers with
  | true =>
    have hf : statsOn E true s0 = false := by
      unfold statsOn
      rw [hp, h.off]
      rfl
    rw [hf] at h2 h4
    rw [hp, if_pos rfl] at hr
    obtain ⟨a1, a2, a3⟩ := replay_real.1 hr.symm
    exact ⟨c, evs, h2, h4, a1, by rw [← h3]; exact a2, by rw [← div_run]; exact a3⟩
  | false =>
    have hf : statsOn E true s0 = true := by
      unfold statsOn
      rw [hp]
      rfl
    rw [hf] at h2 h4
    rw [hp, if_neg Bool.false_ne_true] at hr
    have hr' : replay real (.prof true :: c) (.ok m0) = .ok m := hr.symm
    obtain ⟨a1, a2, a3⟩ := replay_real.1 hr'
    refine ⟨.prof true :: c, .prof true :: evs, h2, h4, a1, ?_, by rw [← div_run]; exact a3⟩
    rw [← a2]
    exact (h3 _).symm

theorem make_parts {ram : Dev} (h : Models.make C ram = .ok m0) : ∃ ic dc, Cache.new C.ic = some ic ∧ Cache.new C.dc = some dc ∧
    m0.mmi = ⟨⟨ram, dc.setRoi C.roiStart C.roiSize⟩, ic.setRoi C.roiStart C.roiSize⟩ ∧
    Bp.BpIf.make C.low C.arch C.csv C.runAll C.bp = .ok m0.bp ∧ Div.make C.div = .ok m0.div := by
  unfold Models.make at h
  cases hi : Cache.new C.ic with
  | none => rw [hi] at h; cases h
  | some ic =>
    cases hd : Cache.new C.dc with
    | none => rw [hi, hd] at h; cases h
    | some dc =>
      rw [hi, hd] at h
      simp only [bind_ok_iff] at h
      obtain ⟨b, hb, d, he, h⟩ := h
      cases h
      exact ⟨ic, dc, rfl, rfl, rfl, hb, he⟩

/-- **C84 – C86, all runs.**  Every run from reset in which no model fails is one of those the theorems below are about. -/
theorem runs_total (hh : E.hw = real) (on : E.cfg.hwModels = true) {image : W → BitVec 8} {pp : ProfPc}
    (hm : Models.make C (initSt E image pp (started E m0)).ram = .ok m0) {n : Nat}
    (h : runN E n (initSt E image pp (started E m0)) = .ok ((), s))
    (hd : s.hw = .ok m) : ∃ L, Runs E C (initSt E image pp (started E m0)) L s m0 m := by
  obtain ⟨_, _, _, _, _, hb, _⟩ := make_parts hm
  obtain ⟨L, k⟩ := hwrun_reset on image pp (started E m0) (.inr fun c pc imm f3 n h1 h2 h3 => by
    rw [hh]
    unfold started
    split
    · exact real_predict_even (make_tame hb) c pc imm f3 n h1 h2 h3
    · exact real_predict_even (make_tame hb) (.prof true :: c) pc imm f3 n h1 h2 h3) n h
  exact ⟨L, hh, on, rfl, rfl, hm, rfl, k, hd⟩

/-- **C84.**  The divider's statistics are those of the divisions and remainders retired while the profiler was on: each is
counted once, as a hit, a special or a common case; and which it is follows from all the divisions and remainders retired
before.  `cls` and `bits` are any functions meeting the specification of C56.

For every run (`runs_total`).  Partial because the instruction at the step limit does not retire, but is counted here (C83). -/
theorem divider_stats_partial (h : Runs E C s0 L s m0 m) (cls : Div.Op → Div.Special) (hcls : ∀ o, Div.Spec.IsClass o (cls o))
    (bits : Div.Op → Nat) (hbits : Div.Spec.IsBits bits) :
    m.div.stats.total = (counted E L).countP HwCall.divides ∧
    m.div.stats.hits + m.div.stats.specials + m.div.stats.commons = m.div.stats.total ∧
    m.div.stats.divByZero + m.div.stats.overflow + m.div.stats.absLt + m.div.stats.pow2 = m.div.stats.specials ∧
    ∃ es, divTag false es = (L.flatMap (fun x => x.2.map (statsOn E true x.1, ·))).filterMap (fun x => x.2.divOp.map (x.1, ·)) ∧
      Div.Adds bits {} (Div.Spec.outcomes C.div.toNat cls false [] es) m.div.stats := by
  obtain ⟨c, _, h1, _, _, _, h2⟩ := h.split
  obtain ⟨_, _, _, _, _, _, hd⟩ := make_parts h.made
  have hE : C.div ≠ 0#32 := by
    intro he
    rw [he] at hd
    cases hd
  obtain ⟨d, d', g1, g2, g3, g4, g5⟩ := Div.counted_once C.div hE (divEvs c)
  obtain ⟨e, e', k1, k2, k3⟩ := Div.stats_refine C.div hE (divEvs c) cls hcls bits hbits
  rw [hd] at g1 k1
  cases g1; cases k1
  rw [h2] at g2 k2
  cases g2; cases k2
  have ht := div_seen c false
  rw [h1] at ht
  refine ⟨?_, g4, g5, divEvs c, ht, k3⟩
  rw [g3, div_prof, ht, counted_eq]
  have := count_tag HwCall.divOp (fun _ => true) (L.flatMap (fun x => x.2.map (statsOn E true x.1, ·)))
  simp only [Bool.and_true] at this
  rw [this]
  congr 1
  funext x
  cases x <;> rfl

/-- **C85.**  The data cache's statistics are those of the loads, stores and lock requests retired while the profiler was on:
each is one reference and one hit or miss; core traffic is their bytes; memory read traffic is 64 bytes per miss.

For every run (`runs_total`).  Partial because the instruction at the step limit does not retire, but is counted here (C83), and so
are memory dumps at the end of a run (`Finish.dump_counted`). -/
theorem dcache_stats_partial (h : Runs E C s0 L s m0 m) :
    let t := m.mmi.mm.dc.stats
    t.hitsLd + t.missesLd = (counted E L).countP HwCall.reads ∧
    t.hitsSt + t.missesSt = (counted E L).countP HwCall.writes ∧
    t.references = (counted E L).countP HwCall.reads + (counted E L).countP HwCall.writes ∧
    t.coreRd = ((counted E L).map HwCall.loaded).sum ∧
    t.coreWr = ((counted E L).map HwCall.stored).sum ∧
    t.memRd = 64 * (t.missesLd + t.missesSt) ∧ t.replacements ≤ t.missesLd + t.missesSt ∧ t.memWr = 64 * t.writebacks := by
  intro t
  obtain ⟨c, _, h1, _, h2, _, _⟩ := h.split
  obtain ⟨ic, dc, _, hd, hq, _, _⟩ := make_parts h.made
  obtain ⟨tr, k1, k2⟩ := dc_run h2
  rw [hq] at k1
  have k1' : dc.runOps ((s0.ram, .roi C.roiStart C.roiSize) :: tr) = .ok m.mmi.mm.dc := k1
  obtain ⟨a1, a2, a3, a4, a5, a6, a7, a8, a9, a10, a11⟩ := Cache.cache_accounting hd _ k1'
  have hT := trace_tag false k1'
  generalize Cache.trace dc false ((s0.ram, .roi C.roiStart C.roiSize) :: tr) = T at *
  have hT' : T.map (fun e => (e.on, e.op)) =
      (L.flatMap (fun x => x.2.map (statsOn E true x.1, ·))).filterMap (fun x => x.2.dataOp.map (x.1, ·)) := by
    rw [hT, ← h1, ← dc_seen, List.map_cons, k2]
    rfl
  have hc : ∀ p : Cache.Op → Bool, Cache.cnt (fun e => p e.op) T = (counted E L).countP (fun c => (c.dataOp.map p).getD false) := by
    intro p
    rw [counted_eq, ← count_tag, ← hT', List.countP_map]
    rfl
  have hs : ∀ p : Cache.Op → Bool, Cache.byt (fun e => p e.op) T =
      ((counted E L).map (fun c => (c.dataOp.map (fun a => if p a then a.bytes else 0)).getD 0)).sum := by
    intro p
    rw [counted_eq, ← sum_tag HwCall.dataOp p Cache.Op.bytes, ← hT', List.filter_map, List.map_map]
    rfl
  have r1 := hc (fun o => !o.store)
  have r2 := hc (fun o => o.store)
  have e1 : (fun c : HwCall => (c.dataOp.map (fun o => !o.store)).getD false) = HwCall.reads := by
    funext x
    cases x with
    | scp a k => cases k <;> rfl
    | _ => rfl
  have e2 : (fun c : HwCall => (c.dataOp.map (fun o => o.store)).getD false) = HwCall.writes := by
    funext x
    cases x with
    | scp a k => cases k <;> rfl
    | _ => rfl
  have e3 : (fun c : HwCall => (c.dataOp.map (fun a => if (!a.store) = true then a.bytes else 0)).getD 0) = HwCall.loaded := by
    funext x
    cases x with
    | scp a k => cases k <;> rfl
    | _ => rfl
  have e4 : (fun c : HwCall => (c.dataOp.map (fun a => if a.store = true then a.bytes else 0)).getD 0) = HwCall.stored := by
    funext x
    cases x with
    | scp a k => cases k <;> rfl
    | _ => rfl
  rw [e1] at r1
  rw [e2] at r2
  have s1 := Cache.cnt_split (p := fun e => !e.op.store) (q := fun e => !e.op.store && e.hit)
      (r := fun e => !e.op.store && !e.hit) T (fun e => by cases e.op.store <;> cases e.hit <;> rfl)
  have s2 := Cache.cnt_split (p := fun e => e.op.store) (q := fun e => e.op.store && e.hit)
      (r := fun e => e.op.store && !e.hit) T (fun e => by cases e.op.store <;> cases e.hit <;> rfl)
  refine ⟨by rw [a2, a4, ← s1, r1], by rw [a3, a5, ← s2, r2], ?_, ?_, ?_, a8, a10, a11⟩
  · rw [a9, a2, a4, ← s1, r1, a3, a5, ← s2, r2]
  · rw [a6, hs (fun o => !o.store), e3]
  · rw [a7, hs (fun o => o.store), e4]

/-- **C86.**  The active predictor's statistics are those of the uncompressed branches retired while the profiler was on:
predictions and mispredictions add up to their number, forward and backward ones separately; the application's record of each
branch address is that of those branches.

For every run (`runs_total`).  Partial because malformed branches and the instruction at the step limit do not retire, but are
counted here (C83). -/
theorem predictor_stats_partial (h : Runs E C s0 L s m0 m) (hl : C.low = 1 ∨ C.low = 2) :
    let t := m.bp.active.base.stats
    t.predicted + t.mispredicted = (branches E L).length ∧
    t.predFwd + t.misFwd = Bp.num Bp.Br.forward (branches E L) ∧
    t.predBwd + t.misBwd = Bp.num (fun e => !e.forward) (branches E L) ∧
    (C.csv = true → ∀ pc, m.bp.app pc = Bp.recordOf (Bp.atPc pc (branches E L))) := by
  intro t
  obtain ⟨_, evs, _, h1, _, h2, _⟩ := h.split
  obtain ⟨_, _, _, _, _, hb, _⟩ := make_parts h.made
  obtain ⟨hsy, hact, _⟩ := Bp.make_synced (by omega) hb
  obtain ⟨hr, _⟩ := Bp.run_proj evs hsy h2
  have hp : Bp.profiled false evs = branches E L := by rw [profiled_tag, h1, branches_eq]
  obtain ⟨a1, a2, a3, _⟩ := Bp.stats_conserved_partial hl hact hr
  rw [hp] at a1 a2 a3
  refine ⟨a1, a2, a3, fun hc pc => ?_⟩
  rw [hc] at hb
  rw [Bp.app_records hb h2 pc, hp]

/-! ## Runs of the model -/
namespace Ex
open HwInd (ob)

/-- two small caches, a bimodal predictor, a divider with two entries -/
def mc (fn : Bool) : ModelsCfg where
  ic := ⟨.inst, 2, 1, .update, .none, fn, fn⟩
  dc := ⟨.data, 2, 2, .update, .wb, fn, fn⟩
  low := 2
  csv := true
  runAll := false
  bp := .one .bimodal ⟨7, 3, 0, 0, .none⟩
  arch := []
  div := 2#32
  roiStart := 0#32
  roiSize := 0#32
def envM : Env (Res Models) where
  cfg := { Ama.Ex.cfg0 with hwModels := true, profilers := true }
  regions := []
  uartIn := []
  stdin := fun _ => none
  hw := real
/-- profiling from `a` to the end -/
def stM (a : W) (C : ModelsCfg) (ws : List W) : St (Res Models) :=
  initSt envM (Ama.Ex.image ws) ⟨a, 0#32, 1#32, false, 0#32, false, 0#64⟩ (Models.make C ⟨0x20000, Ama.Ex.image ws⟩)
theorem made (fn : Bool) (ram : Dev) : ∃ m0, Models.make (mc fn) ram = .ok m0 := by
  cases fn <;> exact ⟨_, rfl⟩

/-- the state after these instructions, if each retires -/
def follow {σ : Type} (E : Env σ) : List Instr → St σ → Option (St σ)
  | [], s => some s
  | i :: t, s => match step E s with
    | .ok (_, s') => if s'.simInst ≠ s.simInst ∧ s'.inst = encode i then follow E t s' else none
    | _ => none
theorem follow_run {σ : Type} {E : Env σ} {s0 s' : St σ} : ∀ (is : List Instr) {s : St σ} {L : List (St σ × List HwCall)},
    follow E is s = some s' → HwRun E s0 L s → ∃ L', HwRun E s0 L' s'
  | [], s, L, h, k => by cases h; exact ⟨L, k⟩
  | i :: t, s, L, h, k => by
    unfold follow at h
    rcases e : step E s with ⟨⟨⟩, q⟩ | _ | _ <;> rw [e] at h <;> simp only at h <;> try cases h
    split at h
    · rename_i hc
      have hh := HwCalls.base (rf := s.rf) (pc := s.pc) (next := q.pc) i
      rw [← hc.2] at hh
      exact follow_run t h (.retired k e hc.1 hh)
    · cases h

theorem runs_follow (a : W) (fn : Bool) (is : List Instr) (f : Models → List Nat) {x : List Nat}
    (h : (match follow envM is (stM a (mc fn) (is.map encode)) with
      | some s => (match s.hw with | .ok m => some (f m) | _ => none)
      | none => none) = some x) :
    ∃ L s m0 m, Runs envM (mc fn) (stM a (mc fn) (is.map encode)) L s m0 m ∧ f m = x := by
  obtain ⟨m0, hm⟩ := made fn ⟨0x20000, Ama.Ex.image (is.map encode)⟩
  cases e : follow envM is (stM a (mc fn) (is.map encode)) with
  | none => rw [e] at h; cases h
  | some s =>
    rw [e] at h
    simp only at h
    obtain ⟨L, hL⟩ := follow_run is e .nil
    cases hw : s.hw with
    | ub u => rw [hw] at h; cases h
    | abort => rw [hw] at h; cases h
    | ok m =>
      rw [hw] at h
      exact ⟨L, s, m0, m, ⟨rfl, rfl, rfl, rfl, hm, hm, hL, hw⟩, Option.some.inj h⟩

/-- two divisions, a store and a load of the same line, a taken branch -/
def prog : List Instr := [.alu .divu 1#5 2#5 3#5, .auipc 1#5 0#20, .store .sw 3#5 1#5 0x40#12, .load .lbu 4#5 1#5 0x41#12,
  .alu .rem 4#5 2#5 3#5, .branch .beq 0#5 0#5 8#12]
/-- the hypotheses are met, with a window that begins at the second instruction: one of the two divisions is counted; the store
misses, the load hits -/
example : ∃ L s m0 m, Runs envM (mc true) (stM 0x80000004#32 (mc true) (prog.map encode)) L s m0 m ∧
    [m.div.stats.total, m.mmi.mm.dc.stats.missesSt, m.mmi.mm.dc.stats.hitsLd, m.mmi.mm.dc.stats.coreWr,
      m.bp.active.base.stats.predicted + m.bp.active.base.stats.mispredicted] = [1, 1, 1, 4, 1] :=
  runs_follow 0x80000004#32 true prog (fun m => [m.div.stats.total, m.mmi.mm.dc.stats.missesSt, m.mmi.mm.dc.stats.hitsLd,
    m.mmi.mm.dc.stats.coreWr, m.bp.active.base.stats.predicted + m.bp.active.base.stats.mispredicted]) (by decide +kernel)
/-- without profilers: both divisions are counted -/
def envN : Env (Res Models) := { envM with cfg := { envM.cfg with profilers := false } }
example : ∃ L s m0 m, Runs envN (mc true) (initSt envN (Ama.Ex.image (prog.map encode)) ⟨0#32, 0#32, 1#32, false, 0#32, false, 0#64⟩
      ((HwCall.prof true).run real (Models.make (mc true) ⟨0x20000, Ama.Ex.image (prog.map encode)⟩))) L s m0 m ∧
    [m.div.stats.total, m.mmi.mm.dc.stats.missesSt, m.mmi.mm.dc.stats.hitsLd, m.bp.active.base.stats.mispredicted] = [2, 1, 1, 0] := by
  obtain ⟨m0, hm⟩ := made true ⟨0x20000, Ama.Ex.image (prog.map encode)⟩
  have h : (match follow envN prog (initSt envN (Ama.Ex.image (prog.map encode)) ⟨0#32, 0#32, 1#32, false, 0#32, false, 0#64⟩
      ((HwCall.prof true).run real (Models.make (mc true) ⟨0x20000, Ama.Ex.image (prog.map encode)⟩))) with
    | some s => (match s.hw with
      | .ok m => some [m.div.stats.total, m.mmi.mm.dc.stats.missesSt, m.mmi.mm.dc.stats.hitsLd, m.bp.active.base.stats.mispredicted]
      | _ => none)
    | none => none) = some [2, 1, 1, 0] := by decide +kernel
  cases e : follow envN prog (initSt envN (Ama.Ex.image (prog.map encode)) ⟨0#32, 0#32, 1#32, false, 0#32, false, 0#64⟩
      ((HwCall.prof true).run real (Models.make (mc true) ⟨0x20000, Ama.Ex.image (prog.map encode)⟩))) with
  | none => rw [e] at h; cases h
  | some s =>
    rw [e] at h
    simp only at h
    obtain ⟨L, hL⟩ := follow_run prog e .nil
    cases hw : s.hw with
    | ub u => rw [hw] at h; cases h
    | abort => rw [hw] at h; cases h
    | ok m =>
      rw [hw] at h
      exact ⟨L, s, m0, m, ⟨rfl, rfl, rfl, rfl, hm, congrArg (fun g => (HwCall.prof true).run real g) hm, hL, hw⟩, Option.some.inj h⟩
end Ex

end Ama.HwReal
