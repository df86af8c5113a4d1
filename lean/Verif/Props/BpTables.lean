import Verif.Lemmas.BpMove
/-!
# C48, C51: predictor tables

`make low d` is the construction of the predictor `d`; an accepted configuration is one for which it returns
`.ok`.  `run evs p` is a run of branches and profiling switches.  An out-of-range table access or shift is a
`.ub` outcome of `predict`/`evalUpdate`; the theorems exclude it.
-/
namespace Ama.Bp

/-- size and largest counter value -/
def dims (t : Pht) : Nat × Nat := (t.n, t.cntMax)

/-- entries and largest counter value that the configuration asks for -/
def leafDims : Def → List (Nat × Nat)
  | .one .bimodal c => [(2 ^ c.pcBits.toNat, 2 ^ c.cntBits.toNat - 1)]
  | .one .local c => [(2 ^ c.histBits.toNat, 2 ^ c.cntBits.toNat - 1)]
  | .one .global c => [(2 ^ c.ghrBits.toNat, 2 ^ c.cntBits.toNat - 1)]
  | .one .gselect c => [(2 ^ (c.ghrBits.toNat + c.pcBits.toNat), 2 ^ c.cntBits.toNat - 1)]
  | .one .gshare c => [(2 ^ max c.ghrBits.toNat c.pcBits.toNat, 2 ^ c.cntBits.toNat - 1)]
  | .one _ _ => []
  | .comb _ a b => leafDims a ++ leafDims b
def selDims : Def → List (Nat × Nat)
  | .one _ _ => []
  | .comb c a b => (2 ^ c.pcBits.toNat, 2 ^ c.cntBits.toNat - 1) :: (selDims a ++ selDims b)

theorem dims_eq {t : Pht} {n b : Nat} (h : PhtOk t n b) : dims t = (2 ^ n, 2 ^ b - 1) := by
  unfold dims; rw [h.size, h.max]

theorem make1_dims {low : Nat} {k : Kind} {c : PCfg} {p : Pred} (h : make1 low k c = .ok p) :
    (leafTables p).map dims = leafDims (.one k c) ∧ (selTables p).map dims = [] := by
  unfold make1 at h
  obtain ⟨b, hb, h⟩ := bind_eq_ok h
  cases k with
  | sttc =>
    simp only at h
    split at h
    · cases h
    · simp only [Res.ok.injEq] at h; subst h; exact ⟨rfl, rfl⟩
  | bimodal =>
    obtain ⟨t, ht, h⟩ := bind_eq_ok h
    simp only [Res.ok.injEq] at h
    subst h
    refine ⟨?_, rfl⟩
    simp only [leafTables, leafDims, List.map, dims_eq (make_pht ht)]
  | «local» =>
    simp only at h
    split at h
    · cases h
    · split at h
      · cases h
      · obtain ⟨t, ht, h⟩ := bind_eq_ok h
        simp only [Res.ok.injEq] at h
        subst h
        refine ⟨?_, rfl⟩
        simp only [leafTables, leafDims, List.map, dims_eq (make_pht ht)]
  | global =>
    obtain ⟨m, hm, h⟩ := bind_eq_ok h
    obtain ⟨t, ht, h⟩ := bind_eq_ok h
    simp only [Res.ok.injEq] at h
    subst h
    refine ⟨?_, rfl⟩
    simp only [leafTables, leafDims, List.map, dims_eq (make_pht ht)]
  | gselect =>
    obtain ⟨m, hm, h⟩ := bind_eq_ok h
    obtain ⟨gm, hgm, h⟩ := bind_eq_ok h
    obtain ⟨pm, hpm, h⟩ := bind_eq_ok h
    obtain ⟨t, ht, h⟩ := bind_eq_ok h
    simp only [Res.ok.injEq] at h
    subst h
    refine ⟨?_, rfl⟩
    have h1 := (intMask_ok hgm).1
    have h2 := (intMask_ok hpm).1
    simp only [leafTables, leafDims, List.map, dims_eq (make_pht ht), BitVec.toNat_add]
    rw [Nat.mod_eq_of_lt (by omega)]
  | gshare =>
    obtain ⟨m, hm, h⟩ := bind_eq_ok h
    obtain ⟨gm, hgm, h⟩ := bind_eq_ok h
    obtain ⟨pm, hpm, h⟩ := bind_eq_ok h
    obtain ⟨t, ht, h⟩ := bind_eq_ok h
    simp only [Res.ok.injEq] at h
    subst h
    refine ⟨?_, rfl⟩
    simp only [leafTables, leafDims, List.map, dims_eq (make_pht ht)]
    have : (if c.ghrBits < c.pcBits then c.pcBits else c.ghrBits).toNat
        = max c.ghrBits.toNat c.pcBits.toNat := by
      split
      · rename_i hl; have := BitVec.lt_def.1 hl; omega
      · rename_i hl; have := BitVec.le_def.1 (BitVec.not_lt.1 hl); omega
    rw [this]
  | ideal => simp only [Res.ok.injEq] at h; subst h; exact ⟨rfl, rfl⟩
  | none => simp only [Res.ok.injEq] at h; subst h; exact ⟨rfl, rfl⟩

theorem make_dims {low : Nat} : ∀ {d : Def} {p : Pred}, make low d = .ok p →
    (leafTables p).map dims = leafDims d ∧ (selTables p).map dims = selDims d
  | .one k c, p, h => make1_dims h
  | .comb c d0 d1, p, h => by
    unfold make at h
    obtain ⟨p0, h0, h⟩ := bind_eq_ok h
    obtain ⟨p1, h1, h⟩ := bind_eq_ok h
    obtain ⟨b, hb, h⟩ := bind_eq_ok h
    obtain ⟨t, ht, h⟩ := bind_eq_ok h
    simp only [Res.ok.injEq] at h
    subst h
    simp only [leafTables, selTables, leafDims, selDims, List.map, List.map_append, make_dims h0, make_dims h1,
      dims_eq (make_pht ht), and_self]

theorem all2_dims {R : Pht → Pht → Prop} (hR : ∀ t t', R t t' → dims t' = dims t) : ∀ {a b : List Pht},
    All2 R a b → b.map dims = a.map dims
  | _, _, .nil => rfl
  | _, _, .cons h1 h2 => by simp only [List.map, hR _ _ h1, all2_dims hR h2]

theorem drive_dims {e : Br} {p p' : Pred} {v : W} (ho : PredOk p) (h : drive e p = .ok (v, p')) :
    (leafTables p').map dims = (leafTables p).map dims ∧ (selTables p').map dims = (selTables p).map dims := by
  obtain ⟨h1, h2⟩ := drive_tables ho h
  exact ⟨all2_dims (fun t t' ⟨i, hi, _⟩ => by simp only [dims, hi.n, hi.max]) h1,
    all2_dims (fun t t' ⟨i, hi, _⟩ => by simp only [dims, hi.n, hi.max]) h2⟩

theorem drive_keeps {e : Br} {p p' : Pred} {v : W} (ho : PredOk p) (h : drive e p = .ok (v, p')) : PredOk p' := by
  rcases drive_ok e ho with ⟨_, _, e1, o1, _⟩ | ⟨e1, _⟩
  · rw [h] at e1
    simp only [Res.ok.injEq, Prod.mk.injEq] at e1
    rw [e1.2]; exact o1
  · rw [h] at e1; cases e1

theorem run_dims : ∀ (evs : List Ev) {p p' : Pred}, PredOk p → run evs p = .ok p' →
    PredOk p' ∧ (leafTables p').map dims = (leafTables p).map dims ∧
      (selTables p').map dims = (selTables p).map dims
  | [], p, p', ho, h => by
    simp only [run, Res.ok.injEq] at h
    subst h; exact ⟨ho, rfl, rfl⟩
  | .br e :: t, p, p', ho, h => by
    obtain ⟨⟨v, q⟩, h1, h⟩ := bind_eq_ok h
    have g := drive_dims ho h1
    have k := run_dims t (drive_keeps ho h1) h
    exact ⟨k.1, k.2.1.trans g.1, k.2.2.trans g.2⟩
  | .prof on :: t, p, p', ho, h => by
    have k := run_dims t (p := setProf on p) (setBase_ok (base_ok ho) ho) h
    exact ⟨k.1, k.2.1.trans (by rw [setProf, (tables_setBase _ _).1]),
      k.2.2.trans (by rw [setProf, (tables_setBase _ _).2])⟩

/-- the counters of a predictor, as configured and within range -/
def InRange (d : Def) (p : Pred) : Prop :=
  (leafTables p).map dims = leafDims d ∧ (selTables p).map dims = selDims d ∧
    ∀ t ∈ leafTables p ++ selTables p, ∀ i, t.cnt i ≤ t.cntMax

/-- **C48.** For every accepted configuration (combined predictors nested to any depth) and every run: no table
is accessed and no shift made out of range — the run goes through with every table of the configured size and
every counter in `0 .. 2^n - 1`, or it stops at the read of a prediction nobody set (see `runs_through`). -/
theorem tables_in_range {low : Nat} (hl : low = 1 ∨ low = 2) {d : Def} {p : Pred} (hm : make low d = .ok p)
    (evs : List Ev) : (∃ p', run evs p = .ok p' ∧ InRange d p') ∨ run evs p = .ub .uninit := by
  obtain ⟨ho, _, _⟩ := make_ok (by omega) hm
  rcases run_ok evs ho with ⟨p', e, o, _⟩ | ⟨e, _⟩
  · left
    obtain ⟨_, g1, g2⟩ := run_dims evs ho e
    obtain ⟨k1, k2⟩ := make_dims hm
    refine ⟨p', e, g1.trans k1, g2.trans k2, ?_⟩
    intro t ht i
    obtain ⟨n, c, hk⟩ := ok_tables o t ht
    exact hk.cnt i
  · exact .inr e

/-- no ideal predictor inside a combined one, and not the `none` predictor -/
def Def.plain (d : Def) : Prop := Sound (shapeD d) ∧ shapeD d ≠ .one .none

/-- **C48.** The unset prediction is read only by a `none` predictor while profiling or by an ideal predictor
inside a combined one: every other accepted configuration goes through every run. -/
theorem runs_through {low : Nat} (hl : low = 1 ∨ low = 2) {d : Def} {p : Pred} (hm : make low d = .ok p)
    (hd : d.plain) (evs : List Ev) : ∃ p', run evs p = .ok p' ∧ InRange d p' := by
  obtain ⟨ho, _, _⟩ := make_ok (by omega) hm
  have hs := make_shape hm
  rcases tables_in_range hl hm evs with h | h
  · exact h
  · rcases run_ok evs ho with ⟨p', e, _⟩ | ⟨_, hc⟩
    · rw [h] at e; cases e
    · rw [hs] at hc
      exact absurd hd (fun hd => hc.elim (fun h => h hd.1) hd.2)

/-- **C48.** After any run, one more branch moves exactly one entry of each table of a direction predictor, by
one toward the resolved direction and saturating at the ends, and at most one entry of each selector, by at
most one. -/
theorem counters_step {low : Nat} (hl : low = 1 ∨ low = 2) {d : Def} {p p' q : Pred} {v : W}
    (hm : make low d = .ok p) {evs : List Ev} (hr : run evs p = .ok p') {e : Br} (hd : drive e p' = .ok (v, q)) :
    All2 (Toward (e.next != e.pc + 4#32)) (leafTables p') (leafTables q) ∧
      All2 Near (selTables p') (selTables q) := by
  obtain ⟨ho, _, _⟩ := make_ok (by omega) hm
  exact drive_tables (run_dims evs ho hr).1 hd

/-! ## The interface -/

theorem forAll_ok {f : Pred → Res Pred} {P Q : Pred → Prop}
    (hf : ∀ p, P p → (∃ q, f p = .ok q ∧ Q q) ∨ f p = .ub .uninit) : ∀ {l : List Pred}, (∀ p ∈ l, P p) →
    (∃ l', forAll f l = .ok l' ∧ ∀ q ∈ l', Q q) ∨ forAll f l = .ub .uninit
  | [], _ => .inl ⟨[], rfl, (fun q hq => by cases hq)⟩
  | p :: t, h => by
    rcases hf p (h p (.head _)) with ⟨q, e, hq⟩ | e
    · rcases forAll_ok hf (l := t) (fun p hp => h p (.tail _ hp)) with ⟨t', e', ht⟩ | e'
      · left
        refine ⟨q :: t', by simp only [forAll, e, e', Res.bind_ok], ?_⟩
        intro x hx
        rcases List.mem_cons.1 hx with rfl | hx
        · exact hq
        · exact ht x hx
      · right; simp only [forAll, e, e', Res.bind_ok, Res.bind_ub]
    · right; simp only [forAll, e, Res.bind_ub]

def IfOk (s : BpIf) : Prop := PredOk s.active ∧ ∀ p ∈ s.all, PredOk p

theorem updateStats_ok (pc nx : W) {p : Pred} (h : PredOk p) :
    (∃ q, updateStats pc nx p = .ok q ∧ PredOk q) ∨ updateStats pc nx p = .ub .uninit := by
  unfold updateStats Base.updateStats
  cases hq : p.base.predicted with
  | none => exact .inr rfl
  | some w =>
    cases hf : p.base.fwd with
    | none => exact .inr rfl
    | some d => exact .inl ⟨_, rfl, setBase_ok (base_ok h) h⟩

theorem branch_ok (e : Br) {s : BpIf} (h : IfOk s) :
    (∃ v s', s.branch e = .ok (v, s') ∧ IfOk s') ∨ s.branch e = .ub .uninit := by
  unfold BpIf.branch BpIf.predict
  simp only
  have hall : ∀ p ∈ (s.ideal e.next).all, PredOk p := by
    intro p hp
    obtain ⟨q, hq, rfl⟩ := List.mem_map.1 hp
    exact goto_ok (h.2 q hq)
  have hact : PredOk (s.ideal e.next).active := goto_ok h.1
  rcases forAll_ok (f := fun p => do let r ← Bp.predict (e.pc + e.offset) e.pc p; .ok r.2)
      (P := PredOk) (Q := fun q => PredOk q ∧ Ready q) (fun p hp => by
        rcases predict_ok (e.pc + e.offset) e.pc hp with ⟨v, q, e1, o1, r1, _⟩ | ⟨_, e1⟩
        · left; exact ⟨q, by rw [e1]; rfl, o1, r1⟩
        · right; rw [e1]; rfl) hall with ⟨l1, e1, g1⟩ | e1
  · rw [e1]
    simp only [Res.bind_ok]
    rcases predict_ok (e.pc + e.offset) e.pc hact with ⟨v, a1, e2, o2, r2, _⟩ | ⟨_, e2⟩
    · rw [e2]
      simp only [Res.bind_ok]
      unfold BpIf.update
      simp only
      obtain ⟨r, a3, e3, o3, _⟩ := eval_ok (e.next != e.pc + 4#32) e.next o2 r2
      rw [e3]
      simp only [Res.bind_ok]
      rcases forAll_ok (f := fun p => do let r ← evalUpdate (e.next != e.pc + 4#32) e.next p; .ok r.2)
        (P := fun q => PredOk q ∧ Ready q) (Q := PredOk) (fun p hp => by
          obtain ⟨r, q, e1, o1, _⟩ := eval_ok (e.next != e.pc + 4#32) e.next hp.1 hp.2
          left; exact ⟨q, by rw [e1]; rfl, o1⟩) g1 with ⟨l4, e4, g4⟩ | e4
      · rw [e4]
        simp only [Res.bind_ok]
        by_cases hp : (s.ideal e.next).prof = true
        · simp only [hp, Bool.not_true, Bool.false_eq_true, if_false]
          rcases updateStats_ok e.pc e.next o3 with ⟨a5, e5, o5⟩ | e5
          · rw [e5]
            simp only [Res.bind_ok]
            rcases forAll_ok (f := updateStats e.pc e.next) (P := PredOk) (Q := PredOk)
              (fun p hp => updateStats_ok _ _ hp) g4 with ⟨l6, e6, g6⟩ | e6
            · rw [e6]
              exact .inl ⟨_, _, rfl, o5, g6⟩
            · rw [e6]; exact .inr rfl
          · rw [e5]; exact .inr rfl
        · simp only [hp, Bool.not_false, if_true]
          exact .inl ⟨_, _, rfl, o3, g4⟩
      · rw [e4]; exact .inr rfl
    · rw [e2]; exact .inr rfl
  · rw [e1]; exact .inr rfl

theorem if_run_ok : ∀ (evs : List Ev) {s : BpIf}, IfOk s →
    (∃ s', s.run evs = .ok s' ∧ IfOk s') ∨ s.run evs = .ub .uninit
  | [], s, h => .inl ⟨s, rfl, h⟩
  | .br e :: t, s, h => by
    rcases branch_ok e h with ⟨v, s', e1, h1⟩ | e1
    · simp only [BpIf.run, e1, Res.bind_ok]; exact if_run_ok t h1
    · right; simp only [BpIf.run, e1, Res.bind_ub]
  | .prof on :: t, s, h => by
    refine if_run_ok t ⟨setBase_ok (base_ok h.1) h.1, ?_⟩
    intro p hp
    obtain ⟨q, hq, rfl⟩ := List.mem_map.1 hp
    exact setBase_ok (base_ok (h.2 q hq)) (h.2 q hq)

/-- **C48** for the whole interface, with any list of predefined predictors run beside the active one: no access
or shift out of range; when the run goes through, the active predictor is in range and each of the others is
in range for its definition. -/
theorem interface_in_range {low : Nat} (hl : low = 1 ∨ low = 2) {arch : List Def} {csv ra : Bool} {d : Def}
    {s : BpIf} (hm : BpIf.make low arch csv ra d = .ok s) (evs : List Ev) :
    (∃ s', s.run evs = .ok s' ∧ InRange d s'.active ∧ ∀ p ∈ s'.all, ∃ a ∈ arch, InRange a p) ∨
      s.run evs = .ub .uninit := by
  obtain ⟨hsy, hact, hall⟩ := make_synced (by omega) hm
  have hok : IfOk s := ⟨(make_ok (by omega) hact).1, fun p hp => by
    obtain ⟨a, _, h⟩ := hall p hp; exact (make_ok (by omega) h).1⟩
  rcases if_run_ok evs hok with ⟨s', e, _⟩ | e
  · left
    obtain ⟨k1, k2⟩ := run_proj evs hsy e
    have key : ∀ {a : Def} {p q : Pred}, make low a = .ok p → run evs p = .ok q → InRange a q := by
      intro a p q ha hq
      rcases tables_in_range hl ha evs with ⟨q', e', h⟩ | e'
      · rw [hq] at e'
        simp only [Res.ok.injEq] at e'
        subst e'; exact h
      · rw [hq] at e'; cases e'
    refine ⟨s', e, key hact k1, ?_⟩
    exact forall2_mem (P := fun p => ∃ a ∈ arch, make low a = .ok p) (Q := fun p => ∃ a ∈ arch, InRange a p)
      (fun p q ⟨a, ha, h⟩ hq => ⟨a, ha, key h hq⟩) k2 hall
  · exact .inr e

/-! ## C51: learning -/

/-- a saturating counter with largest value `m` over a list of outcomes -/
def sat (m : Nat) : Nat → List Bool → Nat
  | c, [] => c
  | c, b :: t => sat m (if b then min (c + 1) m else c - 1) t

/-- the table of a simple predictor -/
def own : Pred → Option Pht
  | .bimodal _ t _ => some t
  | .local _ t _ _ _ _ _ => some t
  | .global _ t _ _ _ => some t
  | .gselect _ t _ _ _ _ _ _ => some t
  | .gshare _ t _ _ _ _ _ _ => some t
  | _ => .none
/-- the entry that the last prediction used -/
def entry : Pred → Option Nat
  | .bimodal _ _ l => l.map (·.toNat)
  | .local _ _ _ _ _ _ l => l.map (·.2.toNat)
  | .global _ _ _ _ l => l.map (·.toNat)
  | .gselect _ _ _ _ _ _ _ l => l.map (·.toNat)
  | .gshare _ _ _ _ _ _ _ l => l.map (·.toNat)
  | .combined _ _ _ _ l => l.map (·.toNat)
  | _ => .none

/-- a run together with the entry and outcome of each branch -/
def runLog : List Ev → Pred → Res (List (Nat × Bool) × Pred)
  | [], p => .ok ([], p)
  | .br e :: t, p => do
    let r ← drive e p
    let s ← runLog t r.2
    .ok (((entry r.2).getD 0, e.next != e.pc + 4#32) :: s.1, s.2)
  | .prof on :: t, p => runLog t (setProf on p)

theorem own_setBase (p : Pred) (b : Base) : own (p.setBase b) = own p ∧ entry (p.setBase b) = entry p := by
  cases p <;> exact ⟨rfl, rfl⟩
theorem own_goto (p : Pred) (x : W) : own (gotoFuture x p) = own p := by cases p <;> rfl

theorem thr_val {t : Pht} {i : W} {b : Bool} (h : t.thrCheck i = .ok b) : b = decide (t.cnt i.toNat ≥ t.thr) := by
  unfold Pht.thrCheck at h
  split at h
  · simp only [Res.ok.injEq] at h; exact h.symm
  · cases h

/-- what one branch does to a simple predictor -/
theorem drive_own {e : Br} {p p' : Pred} {v : W} {t : Pht} (ho : PredOk p) (ht : own p = some t)
    (h : drive e p = .ok (v, p')) : ∃ i t', own p' = some t' ∧ entry p' = some i ∧ One t t' i ∧
      t'.cnt i = (if e.next != e.pc + 4#32 then min (t.cnt i + 1) t.cntMax else t.cnt i - 1) ∧
      v = if t.cnt i ≥ t.thr then e.pc + e.offset else e.pc + 4#32 := by
  obtain ⟨q, r, q', h1, h2, _, b, rfl⟩ := drive_parts h
  rw [(own_setBase _ _).1, (own_setBase _ _).2]
  cases p with
  | sttc => cases ht
  | ideal => cases ht
  | none => cases ht
  | combined => cases ht
  | bimodal b0 t0 l =>
    cases ht
    obtain ⟨_, _, _, hk⟩ := ho
    obtain ⟨i, hi, h1⟩ := bind_eq_ok h1
    obtain ⟨k, hk1, h1⟩ := bind_eq_ok h1
    simp only [Res.ok.injEq, Prod.mk.injEq] at h1
    obtain ⟨rfl, rfl⟩ := h1
    obtain ⟨t', ht', h2⟩ := bind_eq_ok h2
    obtain ⟨x, hx, h2⟩ := bind_eq_ok h2
    simp only [Res.ok.injEq, Prod.mk.injEq] at h2
    obtain ⟨rfl, rfl⟩ := h2
    have hu := update_toward (hk.cnt _) ht'
    refine ⟨i.toNat, t', rfl, rfl, hu.1, hu.2, ?_⟩
    rw [thr_val hk1]
    simp only [Base.common, decide_eq_true_eq]
  | «local» b0 t0 pm en hs hm l =>
    cases ht
    obtain ⟨_, _, _, hk, _⟩ := ho
    obtain ⟨i, hi, h1⟩ := bind_eq_ok h1
    split at h1
    · rename_i hlt
      obtain ⟨k, hk1, h1⟩ := bind_eq_ok h1
      simp only [Res.ok.injEq, Prod.mk.injEq] at h1
      obtain ⟨rfl, rfl⟩ := h1
      simp only [evalUpdate, if_pos hlt] at h2
      obtain ⟨t', ht', h2⟩ := bind_eq_ok h2
      obtain ⟨x, hx, h2⟩ := bind_eq_ok h2
      simp only [Res.ok.injEq, Prod.mk.injEq] at h2
      obtain ⟨rfl, rfl⟩ := h2
      have hu := update_toward (hk.cnt _) ht'
      refine ⟨_, t', rfl, rfl, hu.1, hu.2, ?_⟩
      rw [thr_val hk1]
      simp only [Base.common, decide_eq_true_eq]
    · cases h1
  | global b0 t0 m g l =>
    cases ht
    obtain ⟨_, _, _, hk, _⟩ := ho
    obtain ⟨k, hk1, h1⟩ := bind_eq_ok h1
    simp only [Res.ok.injEq, Prod.mk.injEq] at h1
    obtain ⟨rfl, rfl⟩ := h1
    obtain ⟨t', ht', h2⟩ := bind_eq_ok h2
    obtain ⟨x, hx, h2⟩ := bind_eq_ok h2
    simp only [Res.ok.injEq, Prod.mk.injEq] at h2
    obtain ⟨rfl, rfl⟩ := h2
    have hu := update_toward (hk.cnt _) ht'
    refine ⟨_, t', rfl, rfl, hu.1, hu.2, ?_⟩
    rw [thr_val hk1]
    simp only [Base.common, decide_eq_true_eq]
  | gselect b0 t0 gb im gm pm g l =>
    cases ht
    obtain ⟨_, _, _, hk, _⟩ := ho
    obtain ⟨i, hi, h1⟩ := bind_eq_ok h1
    obtain ⟨j, hj, h1⟩ := bind_eq_ok h1
    obtain ⟨k, hk1, h1⟩ := bind_eq_ok h1
    simp only [Res.ok.injEq, Prod.mk.injEq] at h1
    obtain ⟨rfl, rfl⟩ := h1
    obtain ⟨t', ht', h2⟩ := bind_eq_ok h2
    obtain ⟨x, hx, h2⟩ := bind_eq_ok h2
    simp only [Res.ok.injEq, Prod.mk.injEq] at h2
    obtain ⟨rfl, rfl⟩ := h2
    have hu := update_toward (hk.cnt _) ht'
    refine ⟨_, t', rfl, rfl, hu.1, hu.2, ?_⟩
    rw [thr_val hk1]
    simp only [Base.common, decide_eq_true_eq]
  | gshare b0 t0 go im gm pm g l =>
    cases ht
    obtain ⟨_, _, _, hk, _⟩ := ho
    obtain ⟨i, hi, h1⟩ := bind_eq_ok h1
    obtain ⟨j, hj, h1⟩ := bind_eq_ok h1
    obtain ⟨k, hk1, h1⟩ := bind_eq_ok h1
    simp only [Res.ok.injEq, Prod.mk.injEq] at h1
    obtain ⟨rfl, rfl⟩ := h1
    obtain ⟨t', ht', h2⟩ := bind_eq_ok h2
    obtain ⟨x, hx, h2⟩ := bind_eq_ok h2
    simp only [Res.ok.injEq, Prod.mk.injEq] at h2
    obtain ⟨rfl, rfl⟩ := h2
    have hu := update_toward (hk.cnt _) ht'
    refine ⟨_, t', rfl, rfl, hu.1, hu.2, ?_⟩
    rw [thr_val hk1]
    simp only [Base.common, decide_eq_true_eq]

/-- the outcomes seen by entry `i` -/
def at_ (i : Nat) (log : List (Nat × Bool)) : List Bool := (log.filter (fun x => x.1 == i)).map (·.2)

/-- **C51.** Over any run from any state of a table-based predictor, each counter is the saturating counter over
the outcomes of the branches that used its entry. -/
theorem counter_refines : ∀ (evs : List Ev) {p p' : Pred} {log : List (Nat × Bool)} {t : Pht}, PredOk p →
    own p = some t → runLog evs p = .ok (log, p') →
    ∃ t', own p' = some t' ∧ PredOk p' ∧ t'.cntMax = t.cntMax ∧ t'.thr = t.thr ∧
      ∀ i, t'.cnt i = sat t.cntMax (t.cnt i) (at_ i log)
  | [], p, p', log, t, ho, ht, h => by
    simp only [runLog, Res.ok.injEq, Prod.mk.injEq] at h
    obtain ⟨rfl, rfl⟩ := h
    exact ⟨t, ht, ho, rfl, rfl, fun _ => rfl⟩
  | .br e :: evs, p, p', log, t, ho, ht, h => by
    obtain ⟨⟨v, q⟩, h1, h⟩ := bind_eq_ok h
    obtain ⟨⟨lg, r⟩, h2, h⟩ := bind_eq_ok h
    simp only [Res.ok.injEq, Prod.mk.injEq] at h
    obtain ⟨rfl, rfl⟩ := h
    obtain ⟨i, t1, g1, g2, g3, g4, _⟩ := drive_own ho ht h1
    obtain ⟨t2, k1, k2, k3, k4, k5⟩ := counter_refines evs (drive_keeps ho h1) g1 h2
    refine ⟨t2, k1, k2, k3.trans g3.max, k4.trans g3.thr, ?_⟩
    intro j
    rw [k5 j, g3.max]
    simp only [at_, g2, Option.getD_some]
    by_cases hj : j = i
    · subst hj
      rw [List.filter_cons_of_pos (by simp), g4]
      rfl
    · rw [List.filter_cons_of_neg (by simp only [beq_iff_eq]; exact fun h => hj h.symm), g3.rest j hj]
  | .prof on :: evs, p, p', log, t, ho, ht, h =>
    counter_refines evs (p := setProf on p) (setBase_ok (base_ok ho) ho)
      (by rw [setProf, (own_setBase _ _).1]; exact ht) h

theorem sat_true {m : Nat} : ∀ (l : List Bool) (c : Nat), (∀ b ∈ l, b = true) → c ≤ m →
    sat m c l = min (c + l.length) m
  | [], c, _, hc => by simp only [sat, List.length_nil]; omega
  | b :: t, c, h, hc => by
    obtain rfl := h b (.head _)
    simp only [sat, if_true, List.length_cons]
    rw [sat_true t _ (fun x hx => h x (.tail _ hx)) (by omega)]
    omega
theorem sat_false {m : Nat} : ∀ (l : List Bool) (c : Nat), (∀ b ∈ l, b = false) →
    sat m c l = c - l.length
  | [], c, _ => by simp only [sat, List.length_nil]; omega
  | b :: t, c, h => by
    obtain rfl := h b (.head _)
    simp only [sat, Bool.false_eq_true, if_false, List.length_cons]
    rw [sat_false t _ (fun x hx => h x (.tail _ hx))]
    omega

/-- which classes have a counter table -/
def Kind.tabled (k : Kind) : Prop :=
  k = .bimodal ∨ k = .local ∨ k = .global ∨ k = .gselect ∨ k = .gshare

theorem own_of_tables {p : Pred} {k : Kind} (hs : shape p = .one k) (hk : k.tabled) :
    ∃ t, own p = some t ∧ leafTables p = [t] := by
  cases p <;> first
    | exact ⟨_, rfl, rfl⟩
    | (simp only [shape, Shape.one.injEq] at hs; subst hs; rcases hk with h | h | h | h | h <;> cases h)
    | (simp only [shape] at hs; cases hs)

theorem leafDims_cnt {k : Kind} (hk : k.tabled) (c : PCfg) :
    ∃ n, leafDims (.one k c) = [(n, 2 ^ c.cntBits.toNat - 1)] := by
  rcases hk with h | h | h | h | h <;> subst h <;> exact ⟨_, rfl⟩

/-- a table-based predictor after any run -/
theorem reach_own {low : Nat} (hl : low = 1 ∨ low = 2) {k : Kind} (hk : k.tabled) {c : PCfg} {p p1 : Pred}
    (hm : make low (.one k c) = .ok p) {evs : List Ev} (hr : run evs p = .ok p1) :
    PredOk p1 ∧ ∃ t n, own p1 = some t ∧ PhtOk t n c.cntBits.toNat := by
  obtain ⟨ho, _, _⟩ := make_ok (by omega) hm
  obtain ⟨o1, g1, _⟩ := run_dims evs ho hr
  have hs1 : shape p1 = .one k := by
    rcases run_ok evs ho with ⟨q, e, _, s⟩ | ⟨e, _⟩
    · rw [hr] at e
      simp only [Res.ok.injEq] at e
      subst e
      rw [s, make_shape hm]; rfl
    · rw [hr] at e; cases e
  obtain ⟨t, ht, hlt⟩ := own_of_tables hs1 hk
  obtain ⟨N, hN⟩ := leafDims_cnt hk c
  rw [(make_dims hm).1, hN, hlt] at g1
  obtain ⟨n, b, hkk⟩ := ok_tables o1 t (by rw [hlt]; simp)
  have hd := dims_eq hkk
  simp only [List.map, List.cons.injEq, and_true] at g1
  rw [hd, Prod.mk.injEq] at g1
  have hb : b = c.cntBits.toNat := by
    have := g1.2
    have h1 := Nat.two_pow_pos b
    have h2 := Nat.two_pow_pos c.cntBits.toNat
    exact (Nat.pow_right_inj (by decide : 1 < 2)).1 (by omega)
  subst hb
  exact ⟨o1, t, n, ht, hkk⟩

/-- **C51.** From any reachable state: if at least `2^n - 1` branches of a run use entry `i` and all of those are
taken, the next branch that uses entry `i` is predicted taken. -/
theorem learns_taken {low : Nat} (hl : low = 1 ∨ low = 2) {k : Kind} (hk : k.tabled) {c : PCfg}
    {p p1 p2 p3 : Pred} (hm : make low (.one k c) = .ok p) {evs evs' : List Ev} (hr : run evs p = .ok p1)
    {log : List (Nat × Bool)} (hr' : runLog evs' p1 = .ok (log, p2)) {i : Nat}
    (hall : ∀ b ∈ at_ i log, b = true) (hlen : 2 ^ c.cntBits.toNat - 1 ≤ (at_ i log).length)
    {e : Br} {v : W} (hd : drive e p2 = .ok (v, p3)) (he : entry p3 = some i) : v = e.pc + e.offset := by
  obtain ⟨o1, t, n, ht, hkk⟩ := reach_own hl hk hm hr
  obtain ⟨t2, h1, o2, h3, h4, h5⟩ := counter_refines evs' o1 ht hr'
  obtain ⟨j, t3, _, k2, _, _, k5⟩ := drive_own o2 h1 hd
  rw [he] at k2
  simp only [Option.some.injEq] at k2
  subst k2
  rw [k5, if_pos]
  rw [h5, h4, sat_true _ _ hall (hkk.cnt i)]
  have := hkk.thr_pos
  have := hkk.max
  omega

/-- **C51.** Symmetrically for not-taken. -/
theorem learns_notTaken {low : Nat} (hl : low = 1 ∨ low = 2) {k : Kind} (hk : k.tabled) {c : PCfg}
    {p p1 p2 p3 : Pred} (hm : make low (.one k c) = .ok p) {evs evs' : List Ev} (hr : run evs p = .ok p1)
    {log : List (Nat × Bool)} (hr' : runLog evs' p1 = .ok (log, p2)) {i : Nat}
    (hall : ∀ b ∈ at_ i log, b = false) (hlen : 2 ^ c.cntBits.toNat - 1 ≤ (at_ i log).length)
    {e : Br} {v : W} (hd : drive e p2 = .ok (v, p3)) (he : entry p3 = some i) : v = e.pc + 4#32 := by
  obtain ⟨o1, t, n, ht, hkk⟩ := reach_own hl hk hm hr
  obtain ⟨t2, h1, o2, h3, h4, h5⟩ := counter_refines evs' o1 ht hr'
  obtain ⟨j, t3, _, k2, _, _, k5⟩ := drive_own o2 h1 hd
  rw [he] at k2
  simp only [Option.some.injEq] at k2
  subst k2
  rw [k5, if_neg]
  rw [h5, h4, sat_false _ _ hall]
  have := hkk.thr_pos
  have := hkk.max
  have := hkk.cnt i
  omega

/-- **C51.** A counter saturated at taken (its entry having seen at least `2^n - 1` taken outcomes in a row) of
`n ≥ 2` bits tolerates one not-taken outcome. -/
theorem tolerates_taken {low : Nat} (hl : low = 1 ∨ low = 2) {k : Kind} (hk : k.tabled) {c : PCfg}
    {p p1 p2 p3 : Pred} (hm : make low (.one k c) = .ok p) {evs evs' : List Ev} (hr : run evs p = .ok p1)
    {log : List (Nat × Bool)} (hr' : runLog evs' p1 = .ok (log, p2)) {i : Nat} (hn : 2 ≤ c.cntBits.toNat)
    {run_ : List Bool} (hlog : at_ i log = run_ ++ [false]) (hall : ∀ b ∈ run_, b = true)
    (hlen : 2 ^ c.cntBits.toNat - 1 ≤ run_.length)
    {e : Br} {v : W} (hd : drive e p2 = .ok (v, p3)) (he : entry p3 = some i) : v = e.pc + e.offset := by
  obtain ⟨o1, t, n, ht, hkk⟩ := reach_own hl hk hm hr
  obtain ⟨t2, h1, o2, h3, h4, h5⟩ := counter_refines evs' o1 ht hr'
  obtain ⟨j, t3, _, k2, _, _, k5⟩ := drive_own o2 h1 hd
  rw [he] at k2
  simp only [Option.some.injEq] at k2
  subst k2
  rw [k5, if_pos]
  have happ : ∀ (m : Nat) (l : List Bool) (c : Nat), sat m c (l ++ [false]) = sat m c l - 1 := by
    intro m l
    induction l with
    | nil => intro c; rfl
    | cons b t ih => intro c; simp only [List.cons_append, sat]; exact ih _
  rw [h5, h4, hlog, happ, sat_true _ _ hall (hkk.cnt i)]
  have e1 := hkk.thr
  rw [if_neg (by omega)] at e1
  have := hkk.max
  have := pow_b2 hn
  omega

/-- **C51, partial.** On the not-taken side this needs `n ≥ 3`; missing is `n = 2`, where it is false
(`two_bit_forgets`): the taken threshold is `(2^n - 1) / 2`, which for two bits is 1. -/
theorem tolerates_notTaken_partial {low : Nat} (hl : low = 1 ∨ low = 2) {k : Kind} (hk : k.tabled) {c : PCfg}
    {p p1 p2 p3 : Pred} (hm : make low (.one k c) = .ok p) {evs evs' : List Ev} (hr : run evs p = .ok p1)
    {log : List (Nat × Bool)} (hr' : runLog evs' p1 = .ok (log, p2)) {i : Nat} (hn : 3 ≤ c.cntBits.toNat)
    {run_ : List Bool} (hlog : at_ i log = run_ ++ [true]) (hall : ∀ b ∈ run_, b = false)
    (hlen : 2 ^ c.cntBits.toNat - 1 ≤ run_.length)
    {e : Br} {v : W} (hd : drive e p2 = .ok (v, p3)) (he : entry p3 = some i) : v = e.pc + 4#32 := by
  obtain ⟨o1, t, n, ht, hkk⟩ := reach_own hl hk hm hr
  obtain ⟨t2, h1, o2, h3, h4, h5⟩ := counter_refines evs' o1 ht hr'
  obtain ⟨j, t3, _, k2, _, _, k5⟩ := drive_own o2 h1 hd
  rw [he] at k2
  simp only [Option.some.injEq] at k2
  subst k2
  rw [k5, if_neg]
  have happ : ∀ (m : Nat) (l : List Bool) (c : Nat), sat m c (l ++ [true]) = min (sat m c l + 1) m := by
    intro m l
    induction l with
    | nil => intro c; rfl
    | cons b t ih => intro c; simp only [List.cons_append, sat]; exact ih _
  rw [h5, h4, hlog, happ, sat_false _ _ hall]
  have e1 := hkk.thr
  rw [if_neg (by omega)] at e1
  have := hkk.max
  have := hkk.cnt i
  have : 8 ≤ 2 ^ c.cntBits.toNat := by
    calc 8 = 2 ^ 3 := rfl
      _ ≤ 2 ^ c.cntBits.toNat := Nat.pow_le_pow_right (by decide) hn
  omega

/-- **C51.** In a bimodal predictor the entry is a function of the pc alone:
branches at the same pc always share an entry. -/
theorem bimodal_entry {e e' : Br} {p p1 p2 p3 : Pred} {v v' : W} {evs : List Ev} (hs : shape p = .one .bimodal)
    (h1 : drive e p = .ok (v, p1)) (hr : run evs p1 = .ok p2) (h2 : drive e' p2 = .ok (v', p3))
    (hpc : e.pc = e'.pc) : entry p1 = entry p3 := by
  have step : ∀ {e : Br} {p p1 : Pred} {v : W} {b : Base} {t : Pht} {l : Option W}, p = .bimodal b t l →
      drive e p = .ok (v, p1) → ∃ b' t' i, p1 = .bimodal b' t' (some i) ∧ b.getPc e.pc t.mask = .ok i ∧
        b'.low = b.low ∧ b'.pcBits = b.pcBits ∧ b'.folds = b.folds ∧ t'.mask = t.mask := by
    intro e p p1 v b t l hp h
    subst hp
    obtain ⟨q, r, q', h1, h2, h3, _⟩ := drive_parts h
    obtain ⟨i, hi, h1⟩ := bind_eq_ok h1
    obtain ⟨k, hk1, h1⟩ := bind_eq_ok h1
    simp only [Res.ok.injEq, Prod.mk.injEq] at h1
    obtain ⟨rfl, rfl⟩ := h1
    obtain ⟨t', ht', h2⟩ := bind_eq_ok h2
    obtain ⟨x, hx, h2⟩ := bind_eq_ok h2
    simp only [Res.ok.injEq, Prod.mk.injEq] at h2
    obtain ⟨rfl, rfl⟩ := h2
    have hm : t'.mask = t.mask := by
      unfold Pht.update at ht'
      split at ht'
      · simp only [Res.ok.injEq] at ht'
        subst ht'
        unfold Pht.up Pht.down
        split <;> split <;> rfl
      · cases ht'
    split at h3
    · unfold updateStats Base.updateStats at h3
      simp only [Pred.base, Base.common, Base.findDir, Res.bind_ok, Res.ok.injEq] at h3
      subst h3
      exact ⟨_, t', i, rfl, hi, rfl, rfl, rfl, hm⟩
    · simp only [Res.ok.injEq] at h3
      subst h3
      exact ⟨_, t', i, rfl, hi, rfl, rfl, rfl, hm⟩
  have hgo : ∀ {b b' : Base} {m : W} (pc : W), b'.low = b.low → b'.pcBits = b.pcBits → b'.folds = b.folds →
      b'.getPc pc m = b.getPc pc m := by
    intro b b' m pc h1 h2 h3
    have : ∀ (k p : Nat) (acc : W), b'.getPcGo pc m k p acc = b.getPcGo pc m k p acc := by
      intro k
      induction k with
      | zero => intro p acc; rfl
      | succ k ih => intro p acc; simp only [Base.getPcGo, h1, h2, ih]
    unfold Base.getPc
    rw [h3, this]
  have hrun : ∀ (evs : List Ev) {p p2 : Pred} {b : Base} {t : Pht} {l : Option W}, p = .bimodal b t l →
      run evs p = .ok p2 → ∃ b' t' l', p2 = .bimodal b' t' l' ∧
        b'.low = b.low ∧ b'.pcBits = b.pcBits ∧ b'.folds = b.folds ∧ t'.mask = t.mask := by
    intro evs
    induction evs with
    | nil =>
      intro p p2 b t l hp h
      simp only [run, Res.ok.injEq] at h
      subst h hp
      exact ⟨b, t, l, rfl, rfl, rfl, rfl, rfl⟩
    | cons ev evs ih =>
      intro p p2 b t l hp h
      cases ev with
      | br e =>
        obtain ⟨⟨v, q⟩, h1, h⟩ := bind_eq_ok h
        obtain ⟨b1, t1, i, e1, _, a1, a2, a3, a4⟩ := step hp h1
        obtain ⟨b2, t2, l2, e2, c1, c2, c3, c4⟩ := ih e1 h
        exact ⟨b2, t2, l2, e2, c1.trans a1, c2.trans a2, c3.trans a3, c4.trans a4⟩
      | prof on =>
        subst hp
        obtain ⟨b2, t2, l2, e2, c1, c2, c3, c4⟩ := ih (p := setProf on (.bimodal b t l)) rfl h
        exact ⟨b2, t2, l2, e2, c1, c2, c3, c4⟩
  cases p with
  | bimodal b t l =>
    obtain ⟨b1, t1, i, rfl, g1, a1, a2, a3, a4⟩ := step rfl h1
    obtain ⟨b2, t2, l2, rfl, c1, c2, c3, c4⟩ := hrun evs rfl hr
    obtain ⟨b3, t3, j, rfl, g2, _⟩ := step rfl h2
    rw [c4, a4, ← hpc, hgo e.pc (c1.trans a1) (c2.trans a2) (c3.trans a3), g1] at g2
    simp only [Res.ok.injEq] at g2
    subst g2
    rfl
  | sttc => cases hs
  | «local» => cases hs
  | global => cases hs
  | gselect => cases hs
  | gshare => cases hs
  | ideal => cases hs
  | none => cases hs
  | combined => cases hs

/-! ## Concrete cases -/
namespace Ex

/-- bimodal, 4 pc bits, `n` counter bits, pc folded -/
def bim (n : BitVec 8) : Def := .one .bimodal ⟨4, n, 0, 0, .all⟩
/-- a branch at `pc` back by 16 -/
def back (pc : W) (taken : Bool) : Br := ⟨pc, 0xFFFFFFF0#32, 1#3, if taken then pc - 16#32 else pc + 4#32⟩

/-- prediction for the last branch of a list -/
def lastPred (d : Def) (evs : List Ev) (e : Br) : Option W :=
  match (do let p ← make 2 d; let p ← run evs p; drive e p) with
  | .ok r => some r.1
  | _ => .none

/-- a gshare predictor goes through a run and its table is in range: `runs_through` is not vacuous -/
example : Def.plain (.comb ⟨4, 4, 0, 0, .none⟩ (.one .gshare ⟨8, 1, 0, 8, .none⟩) (bim 2)) ∧
    (match make 2 (.comb ⟨4, 4, 0, 0, .none⟩ (.one .gshare ⟨8, 1, 0, 8, .none⟩) (bim 2)) with
      | .ok _ => true | _ => false) = true :=
  ⟨⟨⟨(fun h => by cases h), (fun h => by cases h)⟩, (fun h => by cases h)⟩, by decide +kernel⟩

/-- three taken branches at one pc teach a 2-bit counter, and one not-taken does not unteach it -/
example : lastPred (bim 2) [.br (back 0x10040#32 true), .br (back 0x10040#32 true), .br (back 0x10040#32 true),
    .br (back 0x10040#32 false)] (back 0x10040#32 true) = some 0x10030#32 := by decide +kernel

/-- the hypotheses of `learns_taken` are met: three taken outcomes at entry 5, then entry 5 again -/
example : (match (do
      let p ← make 2 (bim 2)
      let r ← runLog (List.replicate 3 (Ev.br (back 0x10040#32 true)) ++ [Ev.br (back 0x10044#32 false)]) p
      let q ← drive (back 0x10040#32 true) r.2
      .ok (r.1, entry q.2)) with
    | .ok r => some (at_ 5 r.1, r.2)
    | _ => .none) = some ([true, true, true], some 5) := by decide +kernel

/-- **C51 fails for n = 2 on the not-taken side**: after any number of not-taken outcomes (here five, the counter
is at 0) one taken outcome makes the next prediction taken. -/
theorem two_bit_forgets : lastPred (bim 2) [.br (back 0x10040#32 false), .br (back 0x10040#32 false),
      .br (back 0x10040#32 false), .br (back 0x10040#32 false), .br (back 0x10040#32 false)]
      (back 0x10040#32 true) = some 0x10044#32 ∧
    lastPred (bim 2) [.br (back 0x10040#32 false), .br (back 0x10040#32 false),
      .br (back 0x10040#32 false), .br (back 0x10040#32 false), .br (back 0x10040#32 false),
      .br (back 0x10040#32 true)] (back 0x10040#32 false) = some 0x10030#32 := by
  constructor <;> decide +kernel

/-- with three bits the same history is tolerated -/
example : lastPred (bim 3) (List.replicate 7 (.br (back 0x10040#32 false)) ++ [.br (back 0x10040#32 true)])
    (back 0x10040#32 false) = some 0x10044#32 := by decide +kernel

/-- a configuration that passes the table check after 8-bit wrap is stopped as a shift out of range, before any
table exists: 130 + 131 bits -/
theorem gselect_wrap_shift : (match make 2 (.one .gselect ⟨131, 2, 0, 130, .none⟩) with
    | .ub .shift => true | _ => false) = true := by decide +kernel

/-- folding a zero-bit pc divides by zero in the constructor, before validation -/
theorem fold_zero_bits : (match make 2 (.one .bimodal ⟨0, 2, 0, 0, .all⟩) with
    | .ub .divZero => true | _ => false) = true := by decide +kernel

/-- an ideal predictor inside a combined one reads an unset prediction on the first branch -/
theorem combined_ideal_uninit : (match (do
      let p ← make 2 (.comb ⟨4, 2, 0, 0, .none⟩ (.one .ideal ⟨0, 0, 0, 0, .none⟩) (bim 2))
      run [.br (back 0x10040#32 true)] p) with
    | .ub .uninit => true | _ => false) = true := by decide +kernel

end Ex

end Ama.Bp
