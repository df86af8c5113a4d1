import Verif.Lemmas.HwStats
import Verif.Props.HwReal
import Verif.Props.Window
import Verif.Model.Args
/-!
# C90: the report `hw_stats.json`

The reader is `Verif.Spec.Json`.
-/
namespace Ama.HwStats
open Ama.Spec Ama.Spec.Json

theorem get_cons (k : List Char) (v : JV) (m : List (List Char × JV)) (k' : List Char) :
    (JV.obj ((k, v) :: m)).get k' = if k = k' then some v else (JV.obj m).get k' := by
  simp only [JV.get, List.find?_cons]
  by_cases h : k = k'
  · simp [h]
  · rw [if_neg h, show (k == k') = false by simpa using h]

/-- **C90.** The report can be read back as JSON, whatever the models counted (also when nothing was profiled), and every count in
it is that of the model it is listed under. -/
theorem hw_stats_reads {D : Digits} (hD : D.Good) {type : List Char} (ht : Plain type) (bp : Bp.Def) (insts : BitVec 64)
    (m : Models) : ∃ v, readJson (hwStatsText D type bp insts m) = some v ∧
    v.at ["profiled_inst"] = some (.nat insts.toNat) ∧
    (∀ x ∈ [("icache", m.mmi.ic), ("dcache", m.mmi.mm.dc)],
      v.at [x.1, "references"] = some (.nat x.2.stats.references) ∧
      v.at [x.1, "hits", "reads"] = some (.nat x.2.stats.hitsLd) ∧
      v.at [x.1, "hits", "writes"] = some (.nat x.2.stats.hitsSt) ∧
      v.at [x.1, "misses", "reads"] = some (.nat x.2.stats.missesLd) ∧
      v.at [x.1, "misses", "writes"] = some (.nat x.2.stats.missesSt) ∧
      v.at [x.1, "replacements"] = some (.nat x.2.stats.replacements) ∧
      v.at [x.1, "writebacks"] = some (.nat x.2.stats.writebacks) ∧
      v.at [x.1, "ct_core", "reads"] = some (.nat x.2.stats.coreRd) ∧
      v.at [x.1, "ct_core", "writes"] = some (.nat x.2.stats.coreWr) ∧
      v.at [x.1, "ct_mem", "reads"] = some (.nat x.2.stats.memRd) ∧
      v.at [x.1, "ct_mem", "writes"] = some (.nat x.2.stats.memWr)) ∧
    v.at ["bpred", "type"] = some (.str type) ∧
    v.at ["bpred", "branches"] = some (.nat (m.bp.active.base.stats.predicted + m.bp.active.base.stats.mispredicted)) ∧
    v.at ["bpred", "predicted"] = some (.nat (m.bp.active.base.stats.predFwd + m.bp.active.base.stats.predBwd)) ∧
    v.at ["bpred", "predicted_fwd"] = some (.nat m.bp.active.base.stats.predFwd) ∧
    v.at ["bpred", "predicted_bwd"] = some (.nat m.bp.active.base.stats.predBwd) ∧
    v.at ["bpred", "mispredicted"] = some (.nat (m.bp.active.base.stats.misFwd + m.bp.active.base.stats.misBwd)) ∧
    v.at ["bpred", "mispredicted_fwd"] = some (.nat m.bp.active.base.stats.misFwd) ∧
    v.at ["bpred", "mispredicted_bwd"] = some (.nat m.bp.active.base.stats.misBwd) ∧
    v.at ["divider", "total"] = some (.nat m.div.stats.total) ∧
    v.at ["divider", "cache", "count"] = some (.nat m.div.stats.hits) ∧
    v.at ["divider", "special_cases", "count"] = some (.nat m.div.stats.specials) ∧
    v.at ["divider", "special_cases_class", "div_by_zero"] = some (.nat m.div.stats.divByZero) ∧
    v.at ["divider", "special_cases_class", "overflow"] = some (.nat m.div.stats.overflow) ∧
    v.at ["divider", "special_cases_class", "abs_lt"] = some (.nat m.div.stats.absLt) ∧
    v.at ["divider", "special_cases_class", "divisor_pow2"] = some (.nat m.div.stats.pow2) ∧
    v.at ["divider", "common_cases", "count"] = some (.nat m.div.stats.commons) ∧
    v.at ["divider", "common_cases_info", "total"] = some (.nat m.div.stats.bits) ∧
    v.at ["divider", "common_cases_info", "min"] =
      some (if m.div.stats.min = 255#8 then .null else .nat m.div.stats.min.toNat) ∧
    v.at ["divider", "common_cases_info", "max"] =
      some (if m.div.stats.max = 0#8 then .null else .nat m.div.stats.max.toNat) := by
  have h1 : ∀ (b : Prop) [Decidable b] (l : List Char), (orNull b l).val = if b then .null else .num l := by
    intro b _ l
    unfold orNull
    split <;> rfl
  refine ⟨_, hwStats_read hD ht bp insts m, ?_⟩
  simp [hwStatsT, cacheT, bpT, divT, countT, pairT, T.val, Ms.val, JV.at, get_cons, JV.nat, int, Bp.BStats.total,
    Bp.BStats.predicted, Bp.BStats.mispredicted, h1]

/-- **C90.** The rates: a hit rate is of hits among references, an accuracy of right predictions among branches, a fraction of the
counted divisions; `mpki` counts misses or mispredictions per profiled instruction.  A rate without anything to count is -1, not
a division by zero. -/
theorem hw_stats_rates {D : Digits} (hD : D.Good) {type : List Char} (ht : Plain type) (bp : Bp.Def) (insts : BitVec 64)
    (m : Models) : ∃ v, readJson (hwStatsText D type bp insts m) = some v ∧
    (∀ x ∈ [("icache", m.mmi.ic), ("dcache", m.mmi.mm.dc)],
      v.at [x.1, "hr"] = some (.num (if insts.toNat = 0 ∨ x.2.stats.references = 0 then "-1.00".toList
        else D.pct (x.2.stats.hitsLd + x.2.stats.hitsSt) x.2.stats.references)) ∧
      (x.2.cfg.kind = .data ∨ x.2.stats.missesSt = 0 →
        v.at [x.1, "mpki"] = some (.num (if insts.toNat = 0 ∨ x.2.stats.references = 0 then "-1.00".toList
          else if x.2.stats.missesLd + x.2.stats.missesSt = 0 then "0.00".toList
          else D.rate (x.2.stats.missesLd + x.2.stats.missesSt) insts.toNat)))) ∧
    (let t := m.bp.active.base.stats;
      v.at ["bpred", "accuracy"] = some (.num (if insts.toNat = 0 ∨ t.predicted + t.mispredicted = 0 then "-1.00".toList
        else D.pct t.predicted (t.predicted + t.mispredicted))) ∧
      v.at ["bpred", "mpki"] = some (.num (if insts.toNat = 0 ∨ t.predicted + t.mispredicted = 0 then "-1.00".toList
        else if t.mispredicted = 0 then "0.00".toList else D.rate t.mispredicted insts.toNat))) ∧
    (let t := m.div.stats;
      (∀ x ∈ [("cache", t.hits), ("special_cases", t.specials), ("common_cases", t.commons)],
        v.at ["divider", x.1, "fraction"] = some (.num (if t.total = 0 then "-1.00".toList else D.pct x.2 t.total))) ∧
      v.at ["divider", "common_cases_info", "avg"] = some (if t.min = 255#8 then .null else
        .num (if t.commons = 0 then "-1.00".toList else D.avg t.bits t.commons))) := by
  have h1 : ∀ (b : Prop) [Decidable b] (l : List Char), (orNull b l).val = if b then .null else .num l := by
    intro b _ l
    unfold orNull
    split <;> rfl
  have e1 : minusOne = "-1.00".toList := by decide +kernel
  have e2 : zero = "0.00".toList := by decide +kernel
  have hm : ∀ (k : Cache.Kind) (s : Cache.Stats), k = .data ∨ s.missesSt = 0 →
      cacheMpki D k insts.toNat s = if insts.toNat = 0 ∨ s.references = 0 then "-1.00".toList
          else if s.missesLd + s.missesSt = 0 then "0.00".toList else D.rate (s.missesLd + s.missesSt) insts.toNat := by
    intro k s h
    unfold cacheMpki
    rw [e1, e2]
    rcases h with h | h
    · rw [h]; rfl
    · rw [h]; split <;> simp
  refine ⟨_, hwStats_read hD ht bp insts m, ?_, ?_, ?_⟩
  · intro x hx
    rw [← e1, ← e2]
    refine ⟨?_, fun hk => ?_⟩
    · simp only [List.mem_cons, List.not_mem_nil, or_false] at hx
      rcases hx with rfl | rfl <;>
        simp [hwStatsT, cacheT, T.val, Ms.val, JV.at, get_cons, cacheHr]
    · have := hm _ _ hk
      rw [← e1, ← e2] at this
      rw [← this]
      simp only [List.mem_cons, List.not_mem_nil, or_false] at hx
      rcases hx with rfl | rfl <;>
        simp [hwStatsT, cacheT, T.val, Ms.val, JV.at, get_cons]
  · rw [← e1, ← e2]
    simp [hwStatsT, bpT, T.val, Ms.val, JV.at, get_cons, bpAccuracy, bpMpki, Bp.BStats.total]
  · rw [← e1]
    simp [hwStatsT, divT, countT, T.val, Ms.val, JV.at, get_cons, fraction, h1]

/-- the names the report can give the active predictor (main.cpp:524-530) need no escaping -/
theorem names_plain : ∀ n ∈ "combined" :: Args.bpNames.map (·.1), Plain n.toList := by
  unfold Plain
  decide +kernel

/-! ## Runs -/

/-- what a sequence of calls asks of the instruction cache -/
def icOps : List HwCall → List Cache.Op
  | [] => []
  | .icRd a :: c => .rd a 4 :: icOps c
  | .prof on :: c => .prof on :: icOps c
  | _ :: c => icOps c

theorem fetch_ic {q q' : MMI} {a : W} (h : q.step (.fetch a) = .ok q') : (Cache.Op.rd a 4).apply q.ic q.mm.ram = .ok q'.ic := by
  unfold MMI.step MMI.rdInst at h
  simp only [HwReal.bind_ok_iff] at h
  obtain ⟨r, ⟨w, _, r', h1, h⟩, e⟩ := h
  cases e
  simp only [Cache.Op.apply, h1, Res.bind_ok]
  split at h
  · split at h
    · cases h
    · split at h
      · cases h
      · cases h; rfl
  · cases h; rfl

theorem ic_run : ∀ {c : List HwCall} {q q' : MMI}, HwReal.runWith HwReal.mmiCall c q = .ok q' →
    ∃ tr, q.ic.runOps tr = .ok q'.ic ∧ tr.map (·.2) = icOps c
  | [], q, q', h => by cases h; exact ⟨[], rfl, rfl⟩
  | x :: c, q, q', h => by
    simp only [HwReal.runWith, HwReal.bind_ok_iff] at h
    obtain ⟨q1, h1, h2⟩ := h
    obtain ⟨tr, k1, k2⟩ := ic_run h2
    have data : ∀ o, q.step (.data o) = .ok q1 → q1.ic = q.ic := by
      intro o ho
      simp only [MMI.step, HwReal.bind_ok_iff] at ho
      obtain ⟨mm, hm, e⟩ := ho
      cases e
      rfl
    have none : q1.ic = q.ic → icOps (x :: c) = icOps c →
        ∃ tr, q.ic.runOps tr = .ok q'.ic ∧ tr.map (·.2) = icOps (x :: c) := by
      intro e1 e2
      exact ⟨tr, by rw [← e1]; exact k1, by rw [e2]; exact k2⟩
    have one : ∀ o, (∃ d, o.apply q.ic d = .ok q1.ic) → icOps (x :: c) = o :: icOps c →
        ∃ tr, q.ic.runOps tr = .ok q'.ic ∧ tr.map (·.2) = icOps (x :: c) := by
      rintro o ⟨d, hd⟩ e
      refine ⟨(d, o) :: tr, ?_, by rw [e, ← k2]; rfl⟩
      simp only [Cache.runOps, hd, Res.bind_ok, k1]
    cases x with
    | icRd a => exact one _ ⟨_, fetch_ic h1⟩ rfl
    | dcRd a n => exact none (data _ h1) rfl
    | dcWr a v n => exact none (data _ h1) rfl
    | scp a k =>
      cases k
      · exact none (data _ h1) rfl
      · exact none (data _ h1) rfl
    | ideal n => cases h1; exact none rfl rfl
    | predict pc imm f3 => cases h1; exact none rfl rfl
    | update pc n => cases h1; exact none rfl rfl
    | div a b u => cases h1; exact none rfl rfl
    | prof on => cases h1; exact one (.prof on) ⟨q.mm.ram, rfl⟩ rfl

theorem ic_tag : ∀ (c : List HwCall) (b : Bool), ∀ x ∈ HwReal.dcTag b (icOps c), ∃ a, x.2 = .rd a 4
  | [], _, x, h => by cases h
  | y :: c, b, x, h => by
    have ih := ic_tag c
    cases y with
    | icRd a =>
      rcases List.mem_append.1 (show x ∈ [(b, Cache.Op.rd a 4)] ++ HwReal.dcTag b (icOps c) from h) with h | h
      · cases List.mem_singleton.1 h; exact ⟨a, rfl⟩
      · exact ih b x h
    | prof on => exact ih on x h
    | _ => exact ih b x h

variable {E : Env (Res Models)} {C : ModelsCfg} {s0 s : St (Res Models)} {L : List (St (Res Models) × List HwCall)} {m0 m : Models}

/-- **C90.** The instruction cache: no stores; each reference reads 4 bytes and hits or misses. -/
theorem icache_stats (h : HwReal.Runs E C s0 L s m0 m) :
    let t := m.mmi.ic.stats
    t.hitsSt = 0 ∧ t.missesSt = 0 ∧ t.references = t.hitsLd + t.missesLd ∧ t.coreRd = 4 * t.references ∧ t.coreWr = 0 ∧
    t.memRd = 64 * t.missesLd ∧ t.replacements ≤ t.missesLd := by
  intro t
  obtain ⟨c, _, _, _, h2, _, _⟩ := h.split
  obtain ⟨ic, dc, hi, _, hq, _, _⟩ := HwReal.make_parts h.made
  obtain ⟨tr, k1, k2⟩ := ic_run h2
  rw [hq] at k1
  have k1' : ic.runOps ((s0.ram, .roi C.roiStart C.roiSize) :: tr) = .ok m.mmi.ic := k1
  obtain ⟨a1, a2, a3, a4, a5, a6, a7, a8, a9, a10, a11⟩ := Cache.cache_accounting hi _ k1'
  have hT := HwReal.trace_tag false k1'
  generalize Cache.trace ic false ((s0.ram, .roi C.roiStart C.roiSize) :: tr) = T at *
  have hop : ∀ e ∈ T, ∃ a, e.op = .rd a 4 := by
    intro e he
    have hm : (e.on, e.op) ∈ T.map (fun e => (e.on, e.op)) := List.mem_map.2 ⟨e, he, rfl⟩
    rw [hT, List.map_cons, k2] at hm
    exact ic_tag c _ _ hm
  have hst : ∀ f : Cache.Ev → Bool, Cache.cnt (fun e => e.op.store && f e) T = 0 := by
    intro f
    unfold Cache.cnt
    rw [List.countP_eq_zero]
    intro e he
    obtain ⟨a, ha⟩ := hop e he
    simp [ha, Cache.Op.store]
  have hsb : Cache.byt (fun e => e.op.store) T = 0 := by
    unfold Cache.byt
    rw [List.filter_eq_nil_iff.2]
    · rfl
    · intro e he
      obtain ⟨a, ha⟩ := hop e he
      simp [ha, Cache.Op.store]
  have hrb : ∀ T : List Cache.Ev, (∀ e ∈ T, ∃ a, e.op = .rd a 4) →
      Cache.byt (fun e => !e.op.store) T = 4 * Cache.cnt (fun _ => true) T := by
    intro T hT
    induction T with
    | nil => rfl
    | cons e t ih =>
      obtain ⟨a, ha⟩ := hT e (.head _)
      have ih := ih fun x hx => hT x (.tail _ hx)
      unfold Cache.byt Cache.cnt at ih ⊢
      rw [List.filter_cons, List.countP_cons]
      cases ho : e.on
      · simpa [ho] using ih
      · have e1 : e.op.store = false := by rw [ha]; rfl
        have e2 : e.op.bytes = 4 := by rw [ha]; rfl
        simp only [e1, e2, Bool.not_false, Bool.and_true, if_true, List.map_cons, List.sum_cons]
        simp only [Bool.and_true] at ih
        omega
  have b1 : t.hitsSt = 0 := by rw [show t.hitsSt = _ from a3]; exact hst _
  have b2 : t.missesSt = 0 := by rw [show t.missesSt = _ from a5]; exact hst _
  refine ⟨b1, b2, ?_, ?_, ?_, ?_, ?_⟩
  · have e1 : m.mmi.ic.stats.hitsSt = 0 := b1
    have e2 : m.mmi.ic.stats.missesSt = 0 := b2
    show m.mmi.ic.stats.references = m.mmi.ic.stats.hitsLd + m.mmi.ic.stats.missesLd
    omega
  · rw [show t.coreRd = _ from a6, show t.references = _ from a1]
    exact hrb T hop
  · rw [show t.coreWr = _ from a7]; exact hsb
  · have : t.memRd = _ := a8
    rw [this]
    have : m.mmi.ic.stats.missesSt = 0 := b2
    rw [this]; rfl
  · have : t.replacements ≤ t.missesLd + t.missesSt := a10
    omega

/-- smallest, largest and sum of the bits of the common divisions of a run -/
theorem extremes (D : W) (hD : D ≠ 0#32) (es : List Div.Ev) {d d' : Div.Divider} (h1 : Div.make D = .ok d)
    (h2 : Div.run es d = .ok d') :
    (d'.stats.min = 255#8 ↔ d'.stats.commons = 0) ∧ (d'.stats.max = 0#8 ↔ d'.stats.commons = 0) ∧
    d'.stats.commons * d'.stats.min.toNat ≤ d'.stats.bits + (if d'.stats.commons = 0 then 1 else 0) ∧
    d'.stats.bits ≤ d'.stats.commons * d'.stats.max.toNat ∧ d'.stats.max.toNat ≤ 31 := by
  obtain ⟨e, e', k1, k2, k⟩ := Div.run_model D hD es
  rw [h1] at k1; cases k1
  rw [h2] at k2; cases k2
  have hb : ∀ x ∈ (Div.Spec.outcomes D.toNat Div.classify false [] es).filter (fun x => x.2 = .common),
      1 ≤ Div.mbits x.1 ∧ Div.mbits x.1 ≤ 31 := by
    intro x hx
    rw [List.mem_filter, decide_eq_true_eq] at hx
    rcases Div.outcomes_class D.toNat es false [] x hx.1 with h | h | ⟨k, _, h, _⟩
    · rw [hx.2] at h; cases h
    · have ha := (Div.clz32_len (Div.absVal x.1.a x.1.uns)).1
      have hb := (Div.clz32_len (Div.absVal x.1.b x.1.uns)).1
      rw [Div.abs_toNat] at ha hb
      exact (Div.commonBits_correct _ h.2 ha hb).2.2
    · rw [hx.2] at h; cases h
  have a1 := k.commons
  have a2 := k.bits
  have a3 := k.min
  have a4 := k.max
  rw [List.countP_eq_length_filter] at a1
  generalize (Div.Spec.outcomes D.toNat Div.classify false [] es).filter (fun x => x.2 = .common) = l at *
  have hmin : ∀ (l : List (Div.Op × Div.Spec.Out)) (b : Nat), (∀ x ∈ l, 1 ≤ Div.mbits x.1 ∧ Div.mbits x.1 ≤ 31) →
      (l.foldl (fun m x => Nat.min m (Div.mbits x.1)) b ≤ b) ∧ (l ≠ [] → l.foldl (fun m x => Nat.min m (Div.mbits x.1)) b ≤ 31) ∧
      l.length * l.foldl (fun m x => Nat.min m (Div.mbits x.1)) b ≤ (l.map fun x => Div.mbits x.1).sum := by
    intro l
    induction l with
    | nil => intro b _; simp
    | cons x t ih =>
      intro b hx
      obtain ⟨i1, i2, i3⟩ := ih (Nat.min b (Div.mbits x.1)) fun y hy => hx y (.tail _ hy)
      have := hx x (.head _)
      simp only [List.foldl_cons, List.length_cons, List.map_cons, List.sum_cons]
      generalize t.foldl (fun m x => Nat.min m (Div.mbits x.1)) (Nat.min b (Div.mbits x.1)) = r at *
      have e1 : Nat.min b (Div.mbits x.1) ≤ b := Nat.min_le_left _ _
      have e2 : Nat.min b (Div.mbits x.1) ≤ Div.mbits x.1 := Nat.min_le_right _ _
      refine ⟨by omega, fun _ => by omega, ?_⟩
      rw [Nat.succ_mul]
      omega
  have hmax : ∀ (l : List (Div.Op × Div.Spec.Out)) (b : Nat), (∀ x ∈ l, 1 ≤ Div.mbits x.1 ∧ Div.mbits x.1 ≤ 31) → b ≤ 31 →
      b ≤ l.foldl (fun m x => Nat.max m (Div.mbits x.1)) b ∧ l.foldl (fun m x => Nat.max m (Div.mbits x.1)) b ≤ 31 ∧
      (l ≠ [] → 1 ≤ l.foldl (fun m x => Nat.max m (Div.mbits x.1)) b) ∧
      (l.map fun x => Div.mbits x.1).sum ≤ l.length * l.foldl (fun m x => Nat.max m (Div.mbits x.1)) b := by
    intro l
    induction l with
    | nil => intro b _ hb; simp [hb]
    | cons x t ih =>
      intro b hx hb
      have := hx x (.head _)
      obtain ⟨i1, i2, i3, i4⟩ := ih (Nat.max b (Div.mbits x.1)) (fun y hy => hx y (.tail _ hy)) (Nat.max_le.2 ⟨hb, this.2⟩)
      simp only [List.foldl_cons, List.length_cons, List.map_cons, List.sum_cons]
      generalize t.foldl (fun m x => Nat.max m (Div.mbits x.1)) (Nat.max b (Div.mbits x.1)) = r at *
      have e1 : b ≤ Nat.max b (Div.mbits x.1) := Nat.le_max_left _ _
      have e2 : Div.mbits x.1 ≤ Nat.max b (Div.mbits x.1) := Nat.le_max_right _ _
      refine ⟨by omega, by omega, fun _ => by omega, ?_⟩
      rw [Nat.succ_mul]
      omega
  obtain ⟨_, m2, m3⟩ := hmin l 255 hb
  obtain ⟨_, x2, x3, x4⟩ := hmax l 0 hb (by omega)
  have z1 : d'.stats.min.toNat = l.foldl (fun m x => Nat.min m (Div.mbits x.1)) 255 := a3
  have z2 : d'.stats.max.toNat = l.foldl (fun m x => Nat.max m (Div.mbits x.1)) 0 := a4
  have z3 : d'.stats.commons = l.length := by simpa using a1
  have z4 : d'.stats.bits = (l.map fun x => Div.mbits x.1).sum := by simpa using a2
  rw [← z1] at m2 m3
  rw [← z2] at x2 x3 x4
  rw [← z3] at m3 x4
  rw [← z4] at m3 x4
  have hnil : d'.stats.commons = 0 ↔ l = [] := by rw [z3]; exact List.length_eq_zero_iff
  refine ⟨?_, ?_, by split <;> omega, x4, x2⟩
  · rw [hnil]
    constructor
    · intro hm
      rcases Classical.em (l = []) with hl | hl
      · exact hl
      · have := m2 hl
        rw [hm] at this
        exact absurd this (by decide)
    · intro hl
      subst hl
      exact BitVec.eq_of_toNat_eq z1
  · rw [hnil]
    constructor
    · intro hm
      rcases Classical.em (l = []) with hl | hl
      · exact hl
      · have := x3 hl
        rw [hm] at this
        exact absurd this (by decide)
    · intro hl
      subst hl
      exact BitVec.eq_of_toNat_eq z2

/-- whether an entry of a run is an instruction retired while the profiler is on; the others are malformed branches and the
instruction at the step limit -/
def counts (E : Env (Res Models)) (x : St (Res Models)) : Bool := x.profActive && !x.trapped && x.simStep != E.cfg.runSteps
/-- profiled instructions of a run -/
theorem run_insts (hp : E.cfg.profilers = true) (hm : E.cfg.hwModels = true) (h : HwCalls.HwRun E s0 L s) :
    s.profPc.instCnt = s0.profPc.instCnt + BitVec.ofNat 64 (L.countP (fun x => counts E x.1)) := by
  induction h with
  | nil => simp
  | @retired L s s' l _ hs hr _ ih =>
    rw [profiled_count hp hs, ih, List.countP_append]
    obtain ⟨h1, h2⟩ := HwCalls.retired_steps hm hs hr
    have hc : counts E s' = s'.profActive := by simp [counts, h1, h2]
    cases ha : s'.profActive
    · simp [ha, hc]
    · simp only [hr, ha, hc, not_false_eq_true, and_self, if_true, ne_eq, List.countP_cons, List.countP_nil, BitVec.ofNat_add]
      rw [BitVec.add_assoc]
      rfl
  | @limit L s s' l _ hs hr ht hl _ _ _ ih =>
    rw [profiled_count hp hs, ih, List.countP_append]
    simp [hr, counts, hl]
  | @malformed L s s' l t p r _ hs hr ht _ _ ih =>
    rw [profiled_count hp hs, ih, List.countP_append]
    simp [hr, counts, ht]
  | other _ hs hr _ _ ih =>
    rw [profiled_count hp hs, ih]
    simp [hr]

/-- **C90, whole runs.** The report written after a run can be read back; it gives the number of instructions retired while the
profiler was on, and for those instructions: their loads, stores and lock requests as references of the data cache, each a hit or
a miss, and their bytes; their uncompressed branches; their divisions and remainders, each as one of three kinds.  The extremes of
the common divisions are left out exactly when there is none.

Missing: the digits of the rates; how many references the instruction cache should have seen (C102 without profilers); a
malformed branch and the instruction at the step limit are among those seen by the models (C83); a memory dump before the report (`Finish.dump_counted`); builds
without profilers, where the number of profiled instructions stays 0 (for the rest, C84 – C86 and C102 cover them). -/
theorem hw_stats_run_partial (h : HwReal.Runs E C s0 L s m0 m) (hp : E.cfg.profilers = true) (hi : s0.profPc.instCnt = 0)
    (hl : C.low = 1 ∨ C.low = 2) {D : Digits} (hD : D.Good) {type : List Char}
    (ht : Plain type) : ∃ v, readJson (hwStatsText D type C.bp s.profPc.instCnt m) = some v ∧
    v.at ["profiled_inst"] = some (.nat (L.countP (fun x => counts E x.1) % 2 ^ 64)) ∧
    v.at ["dcache", "references"] =
      some (.nat ((HwReal.counted E L).countP HwCall.reads + (HwReal.counted E L).countP HwCall.writes)) ∧
    (∃ a b, v.at ["dcache", "hits", "reads"] = some (.nat a) ∧ v.at ["dcache", "misses", "reads"] = some (.nat b) ∧
      a + b = (HwReal.counted E L).countP HwCall.reads) ∧
    (∃ a b, v.at ["dcache", "hits", "writes"] = some (.nat a) ∧ v.at ["dcache", "misses", "writes"] = some (.nat b) ∧
      a + b = (HwReal.counted E L).countP HwCall.writes) ∧
    v.at ["dcache", "ct_core", "reads"] = some (.nat ((HwReal.counted E L).map HwCall.loaded).sum) ∧
    v.at ["dcache", "ct_core", "writes"] = some (.nat ((HwReal.counted E L).map HwCall.stored).sum) ∧
    (∃ a b, v.at ["icache", "hits", "reads"] = some (.nat a) ∧ v.at ["icache", "misses", "reads"] = some (.nat b) ∧
      v.at ["icache", "references"] = some (.nat (a + b)) ∧ v.at ["icache", "ct_core", "reads"] = some (.nat (4 * (a + b)))) ∧
    v.at ["icache", "hits", "writes"] = some (.nat 0) ∧ v.at ["icache", "misses", "writes"] = some (.nat 0) ∧
    v.at ["bpred", "branches"] = some (.nat (HwReal.branches E L).length) ∧
    v.at ["divider", "total"] = some (.nat ((HwReal.counted E L).countP HwCall.divides)) ∧
    (∃ a b c, v.at ["divider", "cache", "count"] = some (.nat a) ∧ v.at ["divider", "special_cases", "count"] = some (.nat b) ∧
      v.at ["divider", "common_cases", "count"] = some (.nat c) ∧ a + b + c = (HwReal.counted E L).countP HwCall.divides ∧
      (v.at ["divider", "common_cases_info", "min"] = some .null ↔ c = 0) ∧
      (v.at ["divider", "common_cases_info", "max"] = some .null ↔ c = 0)) := by
  obtain ⟨v, hv, a0, ac, b0, b1, _, _, _, _, _, _, d1, d2, d3, _, _, _, _, d4, _, d5, d6⟩ :=
    hw_stats_reads hD ht C.bp s.profPc.instCnt m
  obtain ⟨i1, i2, _, i4, i5, _⟩ := ac ("icache", m.mmi.ic) (by simp)
  obtain ⟨_, _, _, _, _, _, _, i8, _⟩ := ac ("icache", m.mmi.ic) (by simp)
  obtain ⟨_, _, i3, _⟩ := ac ("icache", m.mmi.ic) (by simp)
  obtain ⟨c1, c2, c3, c4, c5, _, _, c8, c9, _⟩ := ac ("dcache", m.mmi.mm.dc) (by simp)
  obtain ⟨q1, q2, q3, q4, q5, _, _⟩ := icache_stats h
  obtain ⟨e1, e2, e3, e4, e5, _⟩ := HwReal.dcache_stats_partial h
  obtain ⟨p1, _⟩ := HwReal.predictor_stats_partial h hl
  obtain ⟨g1, g2, _⟩ := HwReal.divider_stats_partial h Div.classify Div.classify_correct Div.mbits Div.mbits_isBits
  obtain ⟨_, _, _, _, _, _, hr⟩ := h.split
  obtain ⟨_, _, _, _, _, _, hm⟩ := HwReal.make_parts h.made
  have hE : C.div ≠ 0#32 := by
    intro he
    rw [he] at hm
    cases hm
  obtain ⟨x1, x2, _⟩ := extremes C.div hE _ hm hr
  have hn := run_insts hp h.on h.run
  refine ⟨v, hv, ?_, ?_, ⟨_, _, c2, c4, e1⟩, ⟨_, _, c3, c5, e2⟩, ?_, ?_, ⟨_, _, i2, i4, ?_, ?_⟩, ?_, ?_, ?_, ?_,
    ⟨_, _, _, d2, d3, d4, ?_, ?_, ?_⟩⟩
  · rw [a0, hn, hi]; simp
  · rw [← e3]; exact c1
  · rw [← e4]; exact c8
  · rw [← e5]; exact c9
  · rw [← q3]; exact i1
  · rw [← q3, ← q4]; exact i8
  · rw [← q1]; exact i3
  · rw [← q2]; exact i5
  · rw [← p1]; exact b1
  · rw [← g1]; exact d1
  · rw [← g1]; exact g2
  · rw [d5, ← x1]
    split <;> simp_all [JV.nat]
  · rw [d6, ← x2]
    split <;> simp_all [JV.nat]

/-! ## Cases -/
namespace Ex
/-- a stand-in for the digits of the rates -/
def digits : Digits := ⟨fun _ _ => "50.00".toList, fun _ _ => "3.25".toList, fun _ _ => "7.50".toList⟩
theorem digits_good : digits.Good := by
  have h : ∀ s ∈ ["50.00", "3.25", "7.50"], Number s.toList := by unfold Number; decide +kernel
  exact ⟨fun _ _ _ => h _ (by simp), fun _ _ _ => h _ (by simp), fun _ _ _ => h _ (by simp)⟩
/-- the hypotheses are met by the run of C84 – C86 -/
example : ∃ L s m0 m, HwReal.Runs HwReal.Ex.envM (HwReal.Ex.mc true)
      (HwReal.Ex.stM 0x80000004#32 (HwReal.Ex.mc true) (HwReal.Ex.prog.map encode)) L s m0 m ∧
    HwReal.Ex.envM.cfg.profilers = true ∧ Plain "bimodal".toList :=
  have ⟨L, s, m0, m, h, _⟩ := HwReal.Ex.runs_follow 0x80000004#32 true HwReal.Ex.prog (fun m => [m.div.stats.total]) (x := [1])
    (by decide +kernel)
  ⟨L, s, m0, m, h, rfl, names_plain _ (by simp [Args.bpNames])⟩
example : (HwReal.Ex.stM 0x80000004#32 (HwReal.Ex.mc true) (HwReal.Ex.prog.map encode)).profPc.instCnt = 0 := rfl

/-- part of the report before anything is profiled -/
def report0 : Option (List (Option (List Char))) :=
  match Models.make (HwReal.Ex.mc true) ⟨0x20000, fun _ => 0#8⟩ with
  | .ok m => (readJson (hwStatsText digits "bimodal".toList (HwReal.Ex.mc true).bp 0#64 m)).map fun v =>
      [["profiled_inst"], ["dcache", "references"], ["icache", "hr"], ["dcache", "mpki"], ["bpred", "size"], ["divider", "cache", "fraction"],
        ["dcache", "size", "tags"]].map fun k => match v.at k with | some (.num l) => some l | _ => none
  | _ => none
example : report0 = some [some ['0'], some ['0'], some "-1.00".toList, some "-1.00".toList, some "48".toList,
    some "-1.00".toList, some "6".toList] := by decide +kernel
end Ex

end Ama.HwStats
