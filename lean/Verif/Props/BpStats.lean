import Verif.Props.BpPredict
/-!
# C54: branch statistics
-/
namespace Ama.Bp

/-- the branches that a run presents while profiling is on; `on` is the switch at the start -/
def profiled : (on : Bool) → List Ev → List Br
  | _, [] => []
  | _, .prof b :: t => profiled b t
  | on, .br e :: t => if on then e :: profiled on t else profiled on t

/-- the same with the answer given to each -/
def answered : (on : Bool) → List Ev → Pred → Res (List (Br × W) × Pred)
  | _, [], p => .ok ([], p)
  | _, .prof b :: t, p => answered b t (setProf b p)
  | on, .br e :: t, p => do
    let r ← drive e p
    let s ← answered on t r.2
    .ok (if on then (e, r.1) :: s.1 else s.1, s.2)

theorem answered_run : ∀ (evs : List Ev) (on : Bool) {p p' : Pred} {l : List (Br × W)},
    answered on evs p = .ok (l, p') → run evs p = .ok p' ∧ l.map (·.1) = profiled on evs
  | [], on, p, p', l, h => by
    simp only [answered, Res.ok.injEq, Prod.mk.injEq] at h
    obtain ⟨rfl, rfl⟩ := h
    exact ⟨rfl, rfl⟩
  | .prof b :: t, on, p, p', l, h => answered_run t b h
  | .br e :: t, on, p, p', l, h => by
    obtain ⟨⟨v, q⟩, h1, h⟩ := bind_eq_ok h
    obtain ⟨⟨l', q'⟩, h2, h⟩ := bind_eq_ok h
    simp only [Res.ok.injEq, Prod.mk.injEq] at h
    obtain ⟨rfl, rfl⟩ := h
    obtain ⟨g1, g2⟩ := answered_run t on h2
    refine ⟨by simp only [run, h1, Res.bind_ok]; exact g1, ?_⟩
    cases on <;> simp [profiled, g2]

theorem run_answered : ∀ (evs : List Ev) (on : Bool) {p p' : Pred}, run evs p = .ok p' →
    ∃ l, answered on evs p = .ok (l, p')
  | [], on, p, p', h => by
    simp only [run, Res.ok.injEq] at h
    subst h; exact ⟨[], rfl⟩
  | .prof b :: t, on, p, p', h => run_answered t b h
  | .br e :: t, on, p, p', h => by
    obtain ⟨⟨v, q⟩, h1, h⟩ := bind_eq_ok h
    obtain ⟨l, hl⟩ := run_answered t on h
    simp only [answered, h1, Res.bind_ok, hl]
    exact ⟨_, rfl⟩

/-- a forward branch: its target is above it -/
def Br.forward (e : Br) : Bool := decide (e.pc.toNat < (e.pc + e.offset).toNat)

/-- number of elements with a property -/
def num {α : Type} (f : α → Bool) : List α → Nat
  | [] => 0
  | a :: t => (if f a then 1 else 0) + num f t

/-- what the counters must hold, given the profiled branches and the answers -/
structure Counted (l : List (Br × W)) (s0 s : BStats) : Prop where
  predFwd : s.predFwd = s0.predFwd + num (fun x => x.1.forward && x.1.next == x.2) l
  predBwd : s.predBwd = s0.predBwd + num (fun x => !x.1.forward && x.1.next == x.2) l
  misFwd : s.misFwd = s0.misFwd + num (fun x => x.1.forward && x.1.next != x.2) l
  misBwd : s.misBwd = s0.misBwd + num (fun x => !x.1.forward && x.1.next != x.2) l
  per : ∀ pc, s.getPredicted pc = s0.getPredicted pc + num (fun x => x.1.pc == pc && x.1.next == x.2) l

theorem eval_vals (s : BStats) (pc : W) (c f : Bool) (hp : s.prof = true) :
    (s.eval pc c f).predFwd = s.predFwd + (if f && c then 1 else 0) ∧
    (s.eval pc c f).predBwd = s.predBwd + (if !f && c then 1 else 0) ∧
    (s.eval pc c f).misFwd = s.misFwd + (if f && !c then 1 else 0) ∧
    (s.eval pc c f).misBwd = s.misBwd + (if !f && !c then 1 else 0) ∧
    ∀ x, (s.eval pc c f).getPredicted x = s.getPredicted x + (if pc == x && c then 1 else 0) := by
  unfold BStats.eval
  simp only [hp, BStats.getPredicted]
  cases c <;> cases f <;> simp <;> intro x <;> by_cases hx : x = pc <;> simp [hx] <;> intro h <;>
    exact absurd h.symm hx

theorem eval_counted (s : BStats) (e : Br) (v : W) (hp : s.prof = true) :
    Counted [(e, v)] s (s.eval e.pc (e.next == v) (decide (e.pc + e.offset > e.pc))) := by
  have hf : decide (e.pc + e.offset > e.pc) = e.forward := by
    simp only [Br.forward, gt_iff_lt, BitVec.lt_def]
  rw [hf]
  obtain ⟨h1, h2, h3, h4, h5⟩ := eval_vals s e.pc (e.next == v) e.forward hp
  exact ⟨h1, h2, h3, h4, h5⟩

theorem num_append {α : Type} (f : α → Bool) (a b : List α) : num f (a ++ b) = num f a + num f b := by
  induction a with
  | nil => simp [num]
  | cons x t ih => simp only [List.cons_append, num, ih]; omega

theorem Counted.trans {a b : List (Br × W)} {s0 s1 s2 : BStats} (h1 : Counted a s0 s1) (h2 : Counted b s1 s2) :
    Counted (a ++ b) s0 s2 := by
  constructor
  · rw [h2.predFwd, h1.predFwd, num_append]; omega
  · rw [h2.predBwd, h1.predBwd, num_append]; omega
  · rw [h2.misFwd, h1.misFwd, num_append]; omega
  · rw [h2.misBwd, h1.misBwd, num_append]; omega
  · intro pc; rw [h2.per, h1.per, num_append]; omega

theorem Counted.refl {s s' : BStats} (h : s'.predFwd = s.predFwd ∧ s'.predBwd = s.predBwd ∧ s'.misFwd = s.misFwd ∧
    s'.misBwd = s.misBwd ∧ s'.per = s.per) : Counted [] s s' :=
  ⟨h.1, h.2.1, h.2.2.1, h.2.2.2.1, fun pc => by unfold BStats.getPredicted; rw [h.2.2.2.2]; rfl⟩

theorem counted_run : ∀ (evs : List Ev) (on : Bool) {p p' : Pred} {l : List (Br × W)}, shape p ≠ .one .none →
    p.base.stats.prof = on → answered on evs p = .ok (l, p') → Counted l p.base.stats p'.base.stats
  | [], on, p, p', l, hs, hp, h => by
    simp only [answered, Res.ok.injEq, Prod.mk.injEq] at h
    obtain ⟨rfl, rfl⟩ := h
    exact .refl ⟨rfl, rfl, rfl, rfl, rfl⟩
  | .prof b :: t, on, p, p', l, hs, hp, h => by
    have g := counted_run t b (p := setProf b p) (by rw [shape_setProf]; exact hs) (setProf_prof _ _) h
    have k : Counted [] p.base.stats (setProf b p).base.stats := by
      unfold setProf; rw [base_setBase]; exact .refl ⟨rfl, rfl, rfl, rfl, rfl⟩
    exact k.trans g
  | .br e :: t, on, p, p', l, hs, hp, h => by
    obtain ⟨⟨v, q⟩, h1, h⟩ := bind_eq_ok h
    obtain ⟨⟨l', q'⟩, h2, h⟩ := bind_eq_ok h
    simp only [Res.ok.injEq, Prod.mk.injEq] at h
    obtain ⟨rfl, rfl⟩ := h
    have g := counted_run t on (p := q) (by rw [drive_shape h1]; exact hs) ((drive_prof h1).trans hp) h2
    have hst := drive_stats hs h1
    cases on with
    | true =>
      have k := eval_counted p.base.stats e v hp
      rw [← hst] at k
      exact k.trans g
    | false =>
      have : q.base.stats = p.base.stats := by
        rw [hst]; unfold BStats.eval; rw [hp]; rfl
      rw [this] at g
      exact g

theorem num_split {α : Type} (f g : α → Bool) (l : List α) :
    num (fun x => f x && g x) l + num (fun x => f x && !g x) l = num f l := by
  induction l with
  | nil => rfl
  | cons a t ih =>
    simp only [num]
    by_cases hf : f a = true <;> by_cases hg : g a = true <;> simp [hf, hg] <;> omega
theorem num_map {α β : Type} (f : β → Bool) (g : α → β) (l : List α) : num f (l.map g) = num (fun x => f (g x)) l := by
  induction l with
  | nil => rfl
  | cons a t ih => simp only [List.map, num, ih]
theorem num_true {α : Type} (l : List α) : num (fun _ => true) l = l.length := by
  induction l with
  | nil => rfl
  | cons a t ih => simp only [num, ih, List.length_cons, if_true]; omega

/-- the sum over distinct pcs that cover the list -/
theorem sum_by_pc (ok : Br × W → Bool) : ∀ (l : List (Br × W)) (pcs : List W), pcs.Nodup →
    (∀ x ∈ l, x.1.pc ∈ pcs) → (pcs.map (fun pc => num (fun x => x.1.pc == pc && ok x) l)).sum = num ok l
  | [], pcs, _, _ => by
    simp only [num]
    induction pcs with
    | nil => rfl
    | cons a t ih => simp_all
  | a :: l, pcs, hn, hc => by
    have ih := sum_by_pc ok l pcs hn (fun x hx => hc x (.tail _ hx))
    simp only [num]
    rw [← ih]
    have hm := hc a (.head _)
    have hadd : ∀ (ps : List W) (f g : W → Nat), (ps.map (fun p => f p + g p)).sum = (ps.map f).sum + (ps.map g).sum := by
      intro ps f g
      induction ps with
      | nil => rfl
      | cons x t ih => simp only [List.map, List.sum_cons, ih]; omega
    rw [hadd pcs (fun pc => if (a.1.pc == pc && ok a) = true then 1 else 0)]
    congr 1
    have hone : ∀ (ps : List W), ps.Nodup → ((ps.map (fun pc => if (a.1.pc == pc && ok a) = true then 1 else 0)).sum
        = if a.1.pc ∈ ps ∧ ok a = true then 1 else 0) := by
      intro ps
      induction ps with
      | nil => intro _; simp
      | cons x t ih =>
        intro hn
        have hn' := List.nodup_cons.1 hn
        simp only [List.map, List.sum_cons, ih hn'.2]
        by_cases hx : a.1.pc = x
        · subst hx
          cases ok a <;> simp [hn'.1]
        · have hxf : (a.1.pc == x) = false := beq_eq_false_iff_ne.2 hx
          simp [hxf, hx]
    rw [hone pcs hn]
    simp [hm]

/-- `none` never sets a prediction: a run that goes through has no branch while profiling is on, and nothing is counted -/
theorem none_run : ∀ (evs : List Ev) {b : Base} {p' : Pred}, b.predicted = .none → run evs (.none b) = .ok p' →
    profiled b.stats.prof evs = [] ∧ { p'.base.stats with prof := b.stats.prof } = b.stats
  | [], b, p', _, h => by
    injection h with h; subst h
    exact ⟨rfl, rfl⟩
  | .prof on :: t, b, p', hb, h => by
    obtain ⟨h1, h2⟩ := none_run t (b := { b with stats := { b.stats with prof := on } }) hb h
    refine ⟨h1, ?_⟩
    have := congrArg (fun s : BStats => { s with prof := b.stats.prof }) h2
    exact this
  | .br e :: t, b, p', hb, h => by
    obtain ⟨r, h1, h2⟩ := bind_eq_ok h
    unfold drive gotoFuture at h1
    cases hp : b.stats.prof with
    | true =>
      simp [predict, evalUpdate, Pred.base, Base.findDir, hp, updateStats, Base.updateStats, hb] at h1
    | false =>
      simp [predict, evalUpdate, Pred.base, Base.findDir, hp] at h1
      subst h1
      obtain ⟨i1, i2⟩ := none_run t (b := b.findDir (e.pc + e.offset) e.pc) hb h2
      have e1 : (b.findDir (e.pc + e.offset) e.pc).stats = b.stats := rfl
      rw [e1, hp] at i1
      rw [e1, hp] at i2
      exact ⟨i1, i2⟩

/-- the counters, whatever the predictor -/
theorem counted_any {low : Nat} (hl : low ≤ 2) {d : Def} {p p' : Pred} (hm : make low d = .ok p) {evs : List Ev} {l : List (Br × W)}
    (hlog : answered false evs p = .ok (l, p')) : Counted l {} p'.base.stats := by
  obtain ⟨_, hst, hpr⟩ := make_ok hl hm
  have hs := make_shape hm
  by_cases hd : shapeD d = .one .none
  · obtain ⟨hr, hmap⟩ := answered_run evs false hlog
    rw [hd] at hs
    cases p with
    | none b =>
      have hst : b.stats = {} := hst
      obtain ⟨h1, h2⟩ := none_run evs (b := b) hpr hr
      rw [hst] at h1 h2
      have h1 : profiled false evs = [] := h1
      rw [h1] at hmap
      have hl : l = [] := List.map_eq_nil_iff.1 hmap
      subst hl
      exact ⟨congrArg BStats.predFwd h2, congrArg BStats.predBwd h2, congrArg BStats.misFwd h2, congrArg BStats.misBwd h2,
        fun pc => congrArg (fun s : BStats => s.getPredicted pc) h2⟩
    | _ => cases hs
  · have c := counted_run evs false (by rw [hs]; exact hd) (by rw [hst]) hlog
    rw [hst] at c
    exact c

/-- **C54, partial.** For every accepted configuration and every run of branches and profiling switches that goes through:
predictions and mispredictions add up to the branches presented while profiling was on,
separately for the forward and for the backward ones; the predictions counted are exactly those branches whose
answer was the actual next pc, in total, per direction and per branch address; and the per-address counts over
any list of distinct addresses covering them sum to the total.  Missing: runs of `none` with a branch while profiling is on, at
which it compares with an unset prediction (`none_run`, `none_counts_unset`, `run_all_uninit`). -/
theorem stats_conserved_partial {low : Nat} (hl : low = 1 ∨ low = 2) {d : Def} {p p' : Pred} (hm : make low d = .ok p)
    {evs : List Ev} (hr : run evs p = .ok p') :
    let s := p'.base.stats
    s.predicted + s.mispredicted = (profiled false evs).length ∧
    s.predFwd + s.misFwd = num Br.forward (profiled false evs) ∧
    s.predBwd + s.misBwd = num (fun e => !e.forward) (profiled false evs) ∧
    ∃ l, answered false evs p = .ok (l, p') ∧ l.map (·.1) = profiled false evs ∧
      s.predFwd = num (fun x => x.1.forward && x.1.next == x.2) l ∧
      s.predBwd = num (fun x => !x.1.forward && x.1.next == x.2) l ∧
      s.predicted = num (fun x => x.1.next == x.2) l ∧
      (∀ pc, s.getPredicted pc = num (fun x => x.1.pc == pc && x.1.next == x.2) l) ∧
      ∀ pcs : List W, pcs.Nodup → (∀ e ∈ profiled false evs, e.pc ∈ pcs) →
        (pcs.map s.getPredicted).sum = s.predicted := by
  intro s
  obtain ⟨l, hlog⟩ := run_answered evs false hr
  have hmap := (answered_run evs false hlog).2
  have c := counted_any (by omega) hm hlog
  have c1 := c.predFwd
  have c2 := c.predBwd
  have c3 := c.misFwd
  have c4 := c.misBwd
  simp only [Nat.zero_add] at c1 c2 c3 c4
  have hF : s.predFwd + s.misFwd = num Br.forward (profiled false evs) := by
    rw [c1, c3, ← hmap, num_map]
    exact num_split (fun x : Br × W => x.1.forward) (fun x => x.1.next == x.2) l
  have hB : s.predBwd + s.misBwd = num (fun e => !e.forward) (profiled false evs) := by
    rw [c2, c4, ← hmap, num_map]
    exact num_split (fun x : Br × W => !x.1.forward) (fun x => x.1.next == x.2) l
  have hT : num Br.forward (profiled false evs) + num (fun e => !e.forward) (profiled false evs)
      = (profiled false evs).length := by
    rw [← num_true]
    have := num_split (fun _ : Br => true) Br.forward (profiled false evs)
    simpa using this
  have hP : s.predicted = num (fun x => x.1.next == x.2) l := by
    unfold BStats.predicted
    rw [c1, c2]
    have := num_split (fun x : Br × W => x.1.next == x.2) (fun x => x.1.forward) l
    simp only [Bool.and_comm] at this ⊢
    exact this
  have hper : ∀ pc, s.getPredicted pc = num (fun x => x.1.pc == pc && x.1.next == x.2) l := by
    intro pc
    have := c.per pc
    simpa [BStats.getPredicted] using this
  refine ⟨?_, hF, hB, l, hlog, hmap, c1, c2, hP, hper, ?_⟩
  · unfold BStats.predicted BStats.mispredicted; omega
  · intro pcs hn hcov
    rw [hP, ← sum_by_pc (fun x => x.1.next == x.2) l pcs hn]
    · congr 1
      exact List.map_congr_left (fun pc _ => hper pc)
    · intro x hx
      exact hcov _ (by rw [← hmap]; exact List.mem_map.2 ⟨x, hx, rfl⟩)

/-- the hypotheses are met by `none`: a branch while profiling is off -/
example : (match make 2 (.one .none ⟨0, 0, 0, 0, .none⟩) with
    | .ok p => (match run [.br ⟨0#32, 8#32, 0#3, 8#32⟩] p with
      | .ok q => q.base.stats.predicted + q.base.stats.mispredicted == 0
      | _ => false)
    | _ => false) = true := by decide +kernel

/-! ## The application's own branch record -/

/-- the branches of a list at one address -/
def atPc (pc : W) (l : List Br) : List Br := l.filter (fun e => e.pc == pc)
/-- taken, as the interface decides it -/
def Br.taken (e : Br) : Bool := e.next != e.pc + 4#32

/-- what the record of one address must hold after the profiled branches `l` at that address -/
def recordOf (l : List Br) : Option App :=
  match l with
  | [] => .none
  | e :: _ => some ⟨e.forward, e.f3, num Br.taken l, l.length, l.map Br.taken⟩

theorem recordOf_snoc (l : List Br) (e : Br) (hl : ∀ x ∈ l, x.pc = e.pc) :
    recordOf (l ++ [e]) = some (let a := (recordOf l).getD ⟨e.forward, e.f3, 0, 0, []⟩
      { a with taken := a.taken + (if e.taken then 1 else 0), total := a.total + 1, pattern := a.pattern ++ [e.taken] }) := by
  cases l with
  | nil => simp [recordOf, num]
  | cons x t => simp only [recordOf, List.cons_append, Option.getD_some, num_append,
      List.map_append, List.length_append, num, List.map, List.length, Nat.add_assoc, Nat.add_zero,
      Nat.zero_add]

theorem branch_app {s s' : BpIf} {e : Br} {v : W} (h : s.branch e = .ok (v, s')) :
    s'.prof = s.prof ∧ s'.dumpCsv = s.dumpCsv ∧ s'.app =
      (if s.prof then
        let app := if (s.app e.pc).isNone then
          (fun x => if x = e.pc then some ⟨e.forward, e.f3, 0, 0, []⟩ else s.app x) else s.app
        if s.dumpCsv then updateApp app e.pc e.taken else app
       else s.app) := by
  unfold BpIf.branch at h
  obtain ⟨⟨v1, s1⟩, h1, h⟩ := bind_eq_ok h
  obtain ⟨s2, h2, h⟩ := bind_eq_ok h
  simp only [Res.ok.injEq, Prod.mk.injEq] at h
  obtain ⟨rfl, rfl⟩ := h
  unfold BpIf.predict at h1
  simp only at h1
  obtain ⟨all1, ha1, h1⟩ := bind_eq_ok h1
  obtain ⟨⟨w, a1⟩, hw, h1⟩ := bind_eq_ok h1
  simp only [Res.ok.injEq, Prod.mk.injEq] at h1
  obtain ⟨rfl, rfl⟩ := h1
  unfold BpIf.update at h2
  simp only at h2
  obtain ⟨⟨r, a2⟩, hr, h2⟩ := bind_eq_ok h2
  obtain ⟨all2, ha2, h2⟩ := bind_eq_ok h2
  have hf : decide (e.pc + e.offset > e.pc) = e.forward := by
    simp only [Br.forward, gt_iff_lt, BitVec.lt_def]
  cases hp : s.prof with
  | false =>
    have hp' : (s.ideal e.next).prof = false := hp
    simp only [hp', Bool.not_false, if_true, Res.ok.injEq] at h2
    subst h2
    exact ⟨rfl, rfl, rfl⟩
  | true =>
    have hp' : (s.ideal e.next).prof = true := hp
    simp only [hp', Bool.not_true, Bool.false_eq_true, if_false] at h2
    obtain ⟨a3, hu, h2⟩ := bind_eq_ok h2
    obtain ⟨all3, hu3, h2⟩ := bind_eq_ok h2
    simp only [Res.ok.injEq] at h2
    subst h2
    refine ⟨rfl, rfl, ?_⟩
    simp only [hf, Bool.true_and, if_true]
    rfl

/-- **C54, C55.** With the CSV dump requested, the record of each branch address holds exactly the profiled
branches at that address: how many, how many taken, the taken/not-taken history in order, and the direction and
`funct3` of the first; addresses with no profiled branch have no record. -/
theorem app_records {low : Nat} {arch : List Def} {ra : Bool} {d : Def} {s s' : BpIf}
    (hm : BpIf.make low arch true ra d = .ok s) {evs : List Ev} (hr : s.run evs = .ok s') (pc : W) :
    s'.app pc = recordOf (atPc pc (profiled false evs)) := by
  have all : ∀ (evs : List Ev) (on : Bool) (l : List Br) {s s' : BpIf}, s.prof = on → s.dumpCsv = true →
      (∀ pc, s.app pc = recordOf (atPc pc l)) → s.run evs = .ok s' →
      ∀ pc, s'.app pc = recordOf (atPc pc (l ++ profiled on evs)) := by
    intro evs
    induction evs with
    | nil =>
      intro on l s s' hp hd ha hr pc
      simp only [BpIf.run, Res.ok.injEq] at hr
      subst hr
      simp only [profiled, List.append_nil]; exact ha pc
    | cons ev evs ih =>
      intro on l s s' hp hd ha hr
      cases ev with
      | prof b => exact ih b l (s := s.profiling b) rfl hd ha hr
      | br e =>
        obtain ⟨⟨v, q⟩, h1, hr⟩ := bind_eq_ok hr
        obtain ⟨g1, g2, g3⟩ := branch_app h1
        rw [hp] at g1 g3
        cases on with
        | false =>
          simp only [Bool.false_eq_true, if_false] at g3
          simp only [profiled, Bool.false_eq_true, if_false]
          exact ih false l g1 (g2.trans hd) (by rw [g3]; exact ha) hr
        | true =>
          have hstep : ∀ pc, q.app pc = recordOf (atPc pc (l ++ [e])) := by
            intro pc
            rw [g3, hd]
            simp only [if_true, updateApp, atPc, List.filter_append]
            by_cases hpc : pc = e.pc
            · subst hpc
              rw [List.filter_cons_of_pos (by simp), List.filter_nil, recordOf_snoc _ _ (fun x hx => by
                simpa using (List.mem_filter.1 hx).2)]
              rw [if_pos rfl]
              have hae := ha e.pc
              unfold atPc at hae
              rw [hae]
              cases hrec : recordOf (l.filter fun x => x.pc == e.pc) with
              | none => simp
              | some a => simp [hae, hrec]
            · rw [List.filter_cons_of_neg (by simp only [beq_iff_eq]; exact fun h => hpc h.symm), List.filter_nil,
                List.append_nil, if_neg hpc]
              split
              · exact (if_neg hpc).trans (ha pc)
              · exact ha pc
          have := ih true (l ++ [e]) g1 (g2.trans hd) hstep hr
          simpa [profiled] using this
  have h0 : s.prof = false ∧ s.dumpCsv = true ∧ ∀ pc, s.app pc = .none := by
    unfold BpIf.make at hm
    obtain ⟨a, ha, hm⟩ := bind_eq_ok hm
    obtain ⟨al, hal, hm⟩ := bind_eq_ok hm
    simp only [Res.ok.injEq] at hm
    subst hm
    exact ⟨rfl, rfl, fun _ => rfl⟩
  have := all evs false [] h0.1 h0.2.1 (fun pc => h0.2.2 pc) hr pc
  simpa using this

/-! ## Concrete cases -/
namespace Ex

/-- two profiled branches between two unprofiled ones: one predicted, one not, one record -/
example : (match (do
      let s ← BpIf.make 2 archDefs true false (bim 2)
      s.run [.br (back 0x10040#32 true), .prof true, .br (back 0x10040#32 true), .br (back 0x10040#32 false),
        .prof false, .br (back 0x10040#32 false)]) with
    | .ok s => s.active.base.stats.predicted == 1 && s.active.base.stats.mispredicted == 1 &&
        s.active.base.stats.misBwd == 1 &&
        (s.app 0x10040#32).map (fun a => (a.taken, a.total, a.pattern)) == some (1, 2, [true, false])
    | _ => false) = true := by decide +kernel

/-- `--run all` with profiling includes the `none` predictor and so reads its unset prediction -/
theorem run_all_uninit : (match (do
      let s ← BpIf.make 2 archDefs false true (bim 2)
      s.run [.prof true, .br (back 0x10040#32 true)]) with
    | .ub .uninit => true
    | _ => false) = true := by decide +kernel

end Ex

end Ama.Bp
