import Verif.Props.CacheLock
/-!
# C42, C45: cache statistics
-/
namespace Ama.Cache

/-! ## What happened, seen from outside -/

/-- a request that is counted: a read, a store or a lock request -/
def Op.lookup : Op → Bool
  | .rd _ _ => true
  | .wr _ _ _ => true
  | .lcl _ => true
  | _ => false
/-- is it a store -/
def Op.store : Op → Bool
  | .wr _ _ _ => true
  | _ => false
/-- bytes moved between core and cache -/
def Op.bytes : Op → Nat
  | .rd _ n => n
  | .wr _ _ n => n
  | _ => 0
/-- address -/
def Op.addr : Op → W
  | .rd a _ => a
  | .wr a _ _ => a
  | .lcl a => a
  | .rel a => a
  | _ => 0#32

/-- one counted request: the request, whether it hit, whether profiling was on -/
structure Ev where
  op : Op
  hit : Bool
  on : Bool

/-- profiling after a request -/
def onAfter (on : Bool) : Op → Bool
  | .prof b => b
  | _ => on

/-- the counted requests of a run, oldest first; `on` is the profiling switch, driven by the requests -/
def trace (c : Cache) (on : Bool) : List (Dev × Op) → List Ev
  | [] => []
  | (d, o) :: t =>
    match o.apply c d with
    | .ok c' => (if o.lookup then [⟨o, c'.hws == some true, on⟩] else []) ++ trace c' (onAfter on o) t
    | _ => []

/-! ## One request -/

/-- 1 if the condition holds -/
def ind (b : Bool) : Nat := if b then 1 else 0

theorem ind_false : ind false = 0 := rfl
theorem ind_true : ind true = 1 := rfl

/-- the effect of a request on the statistics -/
def StatStep (s s' : Stats) (o : Op) (hit on : Bool) : Prop :=
  let k := o.lookup && on
  s'.prof = onAfter on o ∧
  s'.references = s.references + ind k ∧
  s'.hitsLd = s.hitsLd + ind (k && !o.store && hit) ∧
  s'.hitsSt = s.hitsSt + ind (k && o.store && hit) ∧
  s'.missesLd = s.missesLd + ind (k && !o.store && !hit) ∧
  s'.missesSt = s.missesSt + ind (k && o.store && !hit) ∧
  s'.coreRd = s.coreRd + ind (k && !o.store) * o.bytes ∧
  s'.coreWr = s.coreWr + ind (k && o.store) * o.bytes ∧
  s'.memRd = s.memRd + 64 * ind (k && !hit) ∧
  (∃ r, r ≤ ind (k && !hit) ∧ s'.replacements = s.replacements + r) ∧
  ∃ n, s'.writebacks = s.writebacks + n ∧ s'.memWr = s.memWr + 64 * n

theorem statStep_same {s : Stats} {o : Op} {hit : Bool} (hl : o.lookup = false) :
    ∀ s', s' = { s with prof := onAfter s.prof o } → StatStep s s' o hit s.prof := by
  intro s' h
  subst h
  simp [StatStep, hl, ind]

/-- hits: counted, maybe written through -/
theorem statStep_hit (s : Stats) (o : Op) (op : MemOp) (hop : op = .write ↔ o.store = true) (hl : o.lookup = true)
    (ho : ∀ b, onAfter b o = b) (t : Bool) :
    StatStep s (if t then ((s.referenced op o.bytes).hit op).writeback else (s.referenced op o.bytes).hit op)
      o true s.prof := by
  unfold StatStep
  rw [hl, ho]
  have hst : o.store = (op == .write) := by
    cases op with
    | read =>
      cases h : o.store with
      | false => rfl
      | true => have := hop.2 h; cases this
    | write => rw [hop.1 rfl]; rfl
  rw [hst]
  cases hp : s.prof <;> cases op <;> cases t <;>
    simp [Stats.referenced, Stats.hit, Stats.writeback, hp, ind]

/-- misses: counted, maybe replacing, maybe written through -/
theorem statStep_miss (s : Stats) (o : Op) (op : MemOp) (hop : op = .write ↔ o.store = true) (hl : o.lookup = true)
    (ho : ∀ b, onAfter b o = b) (t : Bool) (l : Line) :
    StatStep s (if t then (evStats ((s.referenced op o.bytes).miss op) l).writeback
      else evStats ((s.referenced op o.bytes).miss op) l) o false s.prof := by
  unfold StatStep
  rw [hl, ho]
  have hst : o.store = (op == .write) := by
    cases op with
    | read =>
      cases h : o.store with
      | false => rfl
      | true => have := hop.2 h; cases this
    | write => rw [hop.1 rfl]; rfl
  rw [hst]
  have w2 : ∀ x y : Nat, ∃ n, x + 1 + 1 = x + n ∧ y + 64 + 64 = y + 64 * n := fun x y => ⟨2, rfl, rfl⟩
  unfold evStats
  cases hp : s.prof <;> cases op <;> cases t <;> cases l.valid <;> cases l.dirty <;>
    simp [Stats.referenced, Stats.miss, Stats.writeback, Stats.replace, hp, ind, w2]

theorem req_facts {o : Op} {a : W} {n : Nat} {op : MemOp} {m : Scp} (hr : o.req = some (a, n, op, m))
    (hm : m ≠ .rel) : o.lookup = true ∧ (op = .write ↔ o.store = true) ∧ n = o.bytes ∧ a = o.addr ∧
      ∀ b, onAfter b o = b := by
  cases o <;> simp [Op.req] at hr <;> obtain ⟨rfl, rfl, rfl, rfl⟩ := hr <;>
    simp [Op.lookup, Op.store, Op.bytes, Op.addr, onAfter] at hm ⊢

theorem req_none {o : Op} (hr : o.req = none) : (∃ b, o = .prof b) ∨ ∃ s z, o = .roi s z := by
  cases o <;> simp [Op.req] at hr ⊢

theorem req_rel {o : Op} {a : W} {n : Nat} {op : MemOp} (hr : o.req = some (a, n, op, .rel)) : o = .rel a := by
  cases o <;> simp [Op.req] at hr
  rw [hr.1]

theorem stat_step {c c' : Cache} {b : Nat} (hg : Geo c b) (hW : Wf c) {d : Dev} {o : Op}
    (ho : o.apply c d = .ok c') : StatStep c.stats c'.stats o (c'.hws == some true) c.stats.prof := by
  cases hr : o.req with
  | none =>
    rcases req_none hr with ⟨e, rfl⟩ | ⟨s, z, rfl⟩
    · have := Res.ok.inj ho; subst this; exact statStep_same rfl _ rfl
    · have := Res.ok.inj ho; subst this; exact statStep_same rfl _ rfl
  | some q =>
    obtain ⟨a, n, op, m⟩ := q
    rcases apply_cases hg hW ho hr with ⟨w, _, hm, _, e2, e3, _⟩ | ⟨_, hm, v, _, _, e2, e3, _⟩ |
      ⟨w, _, hm, _, _, e3, _⟩ | ⟨_, hm, _, _, e3, _⟩
    · obtain ⟨f1, f2, f3, _, f5⟩ := req_facts hr hm
      rw [e2, e3, f3]
      exact statStep_hit c.stats o op f2 f1 f5 _
    · obtain ⟨f1, f2, f3, _, f5⟩ := req_facts hr hm
      rw [e2, e3, f3]
      exact statStep_miss c.stats o op f2 f1 f5 _ _
    · subst hm
      have := req_rel hr
      subst this
      exact statStep_same rfl _ e3
    · subst hm
      have := req_rel hr
      subst this
      exact statStep_same rfl _ e3

/-! ## C42 -/

/-- requests of a trace that satisfy `p`, counted while profiling -/
def cnt (p : Ev → Bool) (t : List Ev) : Nat := t.countP (fun e => e.on && p e)
/-- bytes of those requests -/
def byt (p : Ev → Bool) (t : List Ev) : Nat := ((t.filter (fun e => e.on && p e)).map (·.op.bytes)).sum

theorem cnt_append (p : Ev → Bool) (t u : List Ev) : cnt p (t ++ u) = cnt p t + cnt p u := by
  simp [cnt, List.countP_append]
theorem byt_append (p : Ev → Bool) (t u : List Ev) : byt p (t ++ u) = byt p t + byt p u := by
  simp [byt, List.filter_append, List.map_append, List.sum_append]
theorem cnt_split {p q r : Ev → Bool} (t : List Ev) (h : ∀ e, ind (p e) = ind (q e) + ind (r e)) :
    cnt p t = cnt q t + cnt r t := by
  induction t with
  | nil => rfl
  | cons e t ih =>
    have h1 : ∀ s : Ev → Bool, cnt s (e :: t) = ind (e.on && s e) + cnt s t := by
      intro s
      simp only [cnt, List.countP_cons, ind]
      omega
    rw [h1, h1, h1, ih]
    have := h e
    cases e.on with
    | false => simp only [Bool.false_and, ind_false]; omega
    | true => simp only [Bool.true_and]; omega
theorem cnt_one (p : Ev → Bool) (o : Op) (hit on : Bool) :
    cnt p (if o.lookup then [⟨o, hit, on⟩] else []) = ind (o.lookup && on && p ⟨o, hit, on⟩) := by
  cases h : o.lookup
  · simp [cnt, ind]
  · cases on <;> cases hp : p ⟨o, hit, _⟩ <;> simp [cnt, ind, hp]
theorem byt_one (p : Ev → Bool) (o : Op) (hit on : Bool) :
    byt p (if o.lookup then [⟨o, hit, on⟩] else []) = ind (o.lookup && on && p ⟨o, hit, on⟩) * o.bytes := by
  cases h : o.lookup
  · simp [byt, ind]
  · cases on <;> cases hp : p ⟨o, hit, _⟩ <;> simp [byt, ind, hp]

/-- the statistics after a run, relative to those before -/
theorem stats_run {b : Nat} : ∀ (tr : List (Dev × Op)) (c c' : Cache), Geo c b → Wf c → c.runOps tr = .ok c' →
    let t := trace c c.stats.prof tr
    c'.stats.references = c.stats.references + cnt (fun _ => true) t ∧
    c'.stats.hitsLd = c.stats.hitsLd + cnt (fun e => !e.op.store && e.hit) t ∧
    c'.stats.hitsSt = c.stats.hitsSt + cnt (fun e => e.op.store && e.hit) t ∧
    c'.stats.missesLd = c.stats.missesLd + cnt (fun e => !e.op.store && !e.hit) t ∧
    c'.stats.missesSt = c.stats.missesSt + cnt (fun e => e.op.store && !e.hit) t ∧
    c'.stats.coreRd = c.stats.coreRd + byt (fun e => !e.op.store) t ∧
    c'.stats.coreWr = c.stats.coreWr + byt (fun e => e.op.store) t ∧
    c'.stats.memRd = c.stats.memRd + 64 * cnt (fun e => !e.hit) t ∧
    (∃ r, r ≤ cnt (fun e => !e.hit) t ∧ c'.stats.replacements = c.stats.replacements + r) ∧
    ∃ n, c'.stats.writebacks = c.stats.writebacks + n ∧ c'.stats.memWr = c.stats.memWr + 64 * n
  | [], c, c', _, _, h => by
    have := Res.ok.inj h
    subst this
    exact ⟨rfl, rfl, rfl, rfl, rfl, rfl, rfl, rfl, ⟨0, Nat.le_refl _, rfl⟩, 0, rfl, rfl⟩
  | (d, o) :: tr, c, c', hg, hW, h => by
    unfold runOps at h
    cases hx : o.apply c d with
    | ub k => rw [hx] at h; cases h
    | abort => rw [hx] at h; cases h
    | ok c1 =>
    rw [hx] at h
    simp only [Res.bind_ok] at h
    obtain ⟨s, w⟩ := apply_wf hg hW hx
    obtain ⟨p0, p1, p2, p3, p4, p5, p6, p7, p8, ⟨r, r1, r2⟩, n, n1, n2⟩ := stat_step hg hW hx
    obtain ⟨q1, q2, q3, q4, q5, q6, q7, q8, ⟨r', r1', r2'⟩, n', n1', n2'⟩ := stats_run tr c1 c' (s.geo hg) w h
    intro t
    have ht : t = (if o.lookup then [⟨o, c1.hws == some true, c.stats.prof⟩] else []) ++
        trace c1 c1.stats.prof tr := by
      show trace c c.stats.prof ((d, o) :: tr) = _
      rw [p0]
      simp only [trace, hx]
    rw [ht]
    simp only [cnt_append, byt_append, cnt_one, byt_one]
    rw [p1] at q1; rw [p2] at q2; rw [p3] at q3; rw [p4] at q4; rw [p5] at q5; rw [p6] at q6; rw [p7] at q7
    rw [p8] at q8; rw [r2] at r2'; rw [n1] at n1'; rw [n2] at n2'
    refine ⟨?_, ?_, ?_, ?_, ?_, ?_, ?_, ?_, ⟨r + r', by omega, by omega⟩, n + n', by omega, by omega⟩
    · rw [q1]; simp only [Bool.and_true]; omega
    · rw [q2]; simp only [Bool.and_assoc]; omega
    · rw [q3]; simp only [Bool.and_assoc]; omega
    · rw [q4]; simp only [Bool.and_assoc]; omega
    · rw [q5]; simp only [Bool.and_assoc]; omega
    · rw [q6]; omega
    · rw [q7]; omega
    · rw [q8]; omega

theorem new_stats {g : Cfg} {c : Cache} (h : new g = some c) : c.stats = .init ∧ c.roi = ⟨0#32, 0#32, .init⟩ ∧
    c.scpStatus = none := by
  unfold new at h
  split at h
  · simp only [Option.some.injEq] at h; rw [← h]; exact ⟨rfl, rfl, rfl⟩
  · cases h

/-- **C42.**  After every sequence of requests, with profiling switched on and off by the sequence at will:
each counter is the number of reads or stores that hit or missed while profiling was on, core traffic is the
sum of their sizes, memory read traffic is 64 bytes per counted miss, and replacements do not exceed misses.
(A lock request counts as a read of no bytes; a release is not counted.) -/
theorem cache_accounting {g : Cfg} {c0 c : Cache} (hn : new g = some c0) (tr : List (Dev × Op))
    (h : c0.runOps tr = .ok c) :
    let t := trace c0 false tr
    c.stats.references = cnt (fun _ => true) t ∧
    c.stats.hitsLd = cnt (fun e => !e.op.store && e.hit) t ∧
    c.stats.hitsSt = cnt (fun e => e.op.store && e.hit) t ∧
    c.stats.missesLd = cnt (fun e => !e.op.store && !e.hit) t ∧
    c.stats.missesSt = cnt (fun e => e.op.store && !e.hit) t ∧
    c.stats.coreRd = byt (fun e => !e.op.store) t ∧
    c.stats.coreWr = byt (fun e => e.op.store) t ∧
    c.stats.memRd = 64 * (c.stats.missesLd + c.stats.missesSt) ∧
    c.stats.references = (c.stats.hitsLd + c.stats.missesLd) + (c.stats.hitsSt + c.stats.missesSt) ∧
    c.stats.replacements ≤ c.stats.missesLd + c.stats.missesSt ∧
    c.stats.memWr = 64 * c.stats.writebacks := by
  obtain ⟨_, b, hg⟩ := new_geo hn
  obtain ⟨q1, q2, q3, q4, q5, q6, q7, q8, ⟨r, r1, r2⟩, n, n1, n2⟩ := stats_run tr c0 c hg (new_wf hn) h
  have hs := (new_stats hn).1
  rw [hs] at q1 q2 q3 q4 q5 q6 q7 q8 r1 r2 n1 n2
  simp only [Stats.init, Nat.zero_add] at q1 q2 q3 q4 q5 q6 q7 q8 r1 r2 n1 n2
  intro t
  have split : ∀ t : List Ev, cnt (fun _ => true) t = cnt (fun e => !e.op.store && e.hit) t +
      cnt (fun e => !e.op.store && !e.hit) t + (cnt (fun e => e.op.store && e.hit) t +
      cnt (fun e => e.op.store && !e.hit) t) ∧
      cnt (fun e => !e.hit) t = cnt (fun e => !e.op.store && !e.hit) t + cnt (fun e => e.op.store && !e.hit) t := by
    intro t
    have h1 := cnt_split (p := fun _ => true) (q := fun e => !e.op.store) (r := fun e => e.op.store) t
      (fun e => by cases e.op.store <;> rfl)
    have h2 := cnt_split (p := fun e => !e.op.store) (q := fun e => !e.op.store && e.hit)
      (r := fun e => !e.op.store && !e.hit) t (fun e => by cases e.op.store <;> cases e.hit <;> rfl)
    have h3 := cnt_split (p := fun e => e.op.store) (q := fun e => e.op.store && e.hit)
      (r := fun e => e.op.store && !e.hit) t (fun e => by cases e.op.store <;> cases e.hit <;> rfl)
    have h4 := cnt_split (p := fun e => !e.hit) (q := fun e => !e.op.store && !e.hit)
      (r := fun e => e.op.store && !e.hit) t (fun e => by cases e.op.store <;> cases e.hit <;> rfl)
    exact ⟨by omega, h4⟩
  obtain ⟨s1, s2⟩ := split t
  refine ⟨q1, q2, q3, q4, q5, q6, q7, ?_, ?_, ?_, by rw [n1, n2]⟩
  · rw [q8, q4, q5]; exact congrArg (64 * ·) s2
  · rw [q1, q2, q3, q4, q5]; exact s1
  · rw [r2, q4, q5]; exact Nat.le_trans r1 (Nat.le_of_eq s2)

/-- nothing is counted while profiling is off -/
theorem nothing_counted_off {b : Nat} {c c' : Cache} (hg : Geo c b) (hW : Wf c) (tr : List (Dev × Op))
    (h : c.runOps tr = .ok c') (hoff : c.stats.prof = false) (hp : ∀ p ∈ tr, p.2 ≠ .prof true) :
    c'.stats = c.stats := by
  induction tr generalizing c with
  | nil => have := Res.ok.inj h; rw [this]
  | cons p t ih =>
    obtain ⟨d, o⟩ := p
    unfold runOps at h
    cases hx : o.apply c d with
    | ub k => rw [hx] at h; cases h
    | abort => rw [hx] at h; cases h
    | ok c1 =>
    rw [hx] at h
    obtain ⟨s, w⟩ := apply_wf hg hW hx
    have hs1 : c1.stats = c.stats := by
      have hne := hp (d, o) (by simp)
      cases hr : o.req with
      | none =>
        rcases req_none hr with ⟨e, rfl⟩ | ⟨s, z, rfl⟩
        · have := Res.ok.inj hx; subst this
          have he : e = false := by cases e with | false => rfl | true => exact absurd rfl hne
          subst he
          show { c.stats with prof := false } = c.stats
          cases hh : c.stats with
          | mk => rw [hh] at hoff; simp only at hoff; rw [hoff]
        · have := Res.ok.inj hx; subst this; rfl
      | some q =>
        obtain ⟨a, n, op, m⟩ := q
        have h0 : ∀ l, (c.stats.referenced op n).hit op = c.stats ∧ c.stats.writeback = c.stats ∧
            evStats ((c.stats.referenced op n).miss op) l = c.stats := by
          intro l
          have hrf : c.stats.referenced op n = c.stats := by simp [Stats.referenced, hoff]
          rw [hrf]
          refine ⟨by simp [Stats.hit, hoff], by simp [Stats.writeback, hoff], ?_⟩
          have : c.stats.miss op = c.stats := by simp [Stats.miss, hoff]
          rw [this]
          unfold evStats
          split
          · simp [Stats.replace, hoff]
          · rfl
        rcases apply_cases hg hW hx hr with ⟨w, _, hm, _, e2, e3, _⟩ | ⟨_, hm, v, _, _, e2, e3, _⟩ |
          ⟨w, _, hm, _, _, e3, _⟩ | ⟨_, hm, _, _, e3, _⟩
        · rw [e3, (h0 (c.arr 0 0)).1, (h0 (c.arr 0 0)).2.1]; split <;> rfl
        · rw [e3, (h0 _).2.2, (h0 (c.arr 0 0)).2.1]; split <;> rfl
        · exact e3
        · exact e3
    rw [← hs1]
    exact ih (s.geo hg) w h (by rw [hs1]; exact hoff) (fun p hp' => hp p (by simp [hp']))

end Ama.Cache
