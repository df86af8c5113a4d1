import Verif.Props.CacheStats
/-!
# C45, C47: write-back traffic, region of interest
-/
namespace Ama.Cache

/-! ## C45: dirty lines -/

/-- has line `x` been written since it was last filled; history most recent first -/
def writtenSince (x : Nat) : List Ev → Bool
  | [] => false
  | e :: t =>
    if e.op.addr.toNat / 64 = x then
      if e.op.store then true else if e.hit then writtenSince x t else false
    else writtenSince x t

theorem key_unique {c : Cache} {b : Nat} (hg : Geo c b) {a : W} {i j : Nat} (hi : i < c.cfg.sets)
    (hj : j < c.cfg.ways) (hv : (c.arr i j).valid = true) (hk : c.key i j = lineNo a) : i = c.idx a ∧ At c a j := by
  have e1 : i = c.idx a := by
    rw [idx_eq hg, ← hk]
    unfold key
    rw [Nat.add_comm, Nat.add_mul_mod_self_right, Nat.mod_eq_of_lt hi]
  subst e1
  exact ⟨rfl, key_at hg hj hv hk⟩

theorem at_unique {c : Cache} (hW : Wf c) {a : W} {w w' : Nat} (h : At c a w) (h' : At c a w') : w' = w := by
  obtain ⟨_, _, w3, _⟩ := hW (c.idx a)
  exact w3 w' w h'.1 h.1 h'.2.1 h.2.1 (h'.2.2.trans h.2.2.symm)

/-- dirty bits agree with the history -/
def DirtyInv (H : List Ev) (c : Cache) : Prop :=
  ∀ i j, i < c.cfg.sets → j < c.cfg.ways → (c.arr i j).valid = true →
    (c.arr i j).dirty = (c.cfg.wrPol != .wt && writtenSince (c.key i j) H)

theorem dirties_eq {o : Op} {c : Cache} {op : MemOp} (hop : op = .write ↔ o.store = true) :
    c.dirties op = (o.store && c.cfg.wrPol != .wt) := by
  unfold dirties
  congr 1
  cases op with
  | read =>
    cases h : o.store with
    | false => rfl
    | true => have := hop.2 h; cases this
  | write => rw [hop.1 rfl]; rfl

theorem dirty_step {c c' : Cache} {b : Nat} (hg : Geo c b) (hW : Wf c) {d : Dev} {o : Op}
    (ho : o.apply c d = .ok c') (on : Bool) {H : List Ev} (h : DirtyInv H c) :
    DirtyInv ((if o.lookup then [⟨o, c'.hws == some true, on⟩] else []) ++ H) c' := by
  cases hr : o.req with
  | none =>
    rcases req_none hr with ⟨e, rfl⟩ | ⟨s, z, rfl⟩
    · have := Res.ok.inj ho; subst this; exact h
    · have := Res.ok.inj ho; subst this; exact h
  | some q =>
    obtain ⟨a, n, op, m⟩ := q
    rcases apply_cases hg hW ho hr with ⟨w, hw, hm, f1, e2, _, _, _, data, fa⟩ |
      ⟨hno, hm, v, hv, f1, e2, _, _, _, data, fa⟩ | ⟨w, _, hm, f1, _, _, _, _, fa⟩ | ⟨_, hm, f1, _, _, _, _, fa⟩
    · obtain ⟨g1, g2, g3, g4, g5⟩ := req_facts hr hm
      rw [g1, e2]
      intro i j hi hj hvd
      rw [f1.1] at hi hj ⊢
      obtain ⟨a1, a2, a3, a4, a5, a6⟩ := fa i j
      rw [a1] at hvd
      have hk : c'.key i j = c.key i j := by unfold key; rw [f1.1, a5]
      rw [hk, a2, h i j hi hj hvd, dirties_eq g2]
      simp only [if_true, List.cons_append, List.nil_append, writtenSince]
      rw [← g4]
      by_cases hka : c.key i j = lineNo a
      · obtain ⟨rfl, hat⟩ := key_unique hg hi hj hvd hka
        have := at_unique hW hw hat
        subst this
        rw [if_pos (by rw [hka]; rfl), decide_eq_true ⟨rfl, rfl⟩]
        cases o.store <;> cases (c.cfg.wrPol != .wt) <;> simp
      · rw [if_neg (fun e => hka e.symm)]
        have : ¬ (i = c.idx a ∧ j = w) := by
          rintro ⟨rfl, rfl⟩; exact hka (at_key hg hw)
        rw [decide_eq_false this]
        simp
    · obtain ⟨g1, g2, g3, g4, g5⟩ := req_facts hr hm
      rw [g1, e2]
      intro i j hi hj hvd
      rw [f1.1] at hi hj ⊢
      obtain ⟨a1, a2, a3, a4, a5, a6⟩ := fa i j
      simp only [if_true, List.cons_append, List.nil_append, writtenSince]
      rw [← g4]
      by_cases hij : i = c.idx a ∧ j = v
      · have hk : c'.key i j = lineNo a := by
          unfold key; rw [f1.1, a5, if_pos hij, hij.1]; exact lineNo_eq hg a
        rw [a2, if_pos hij, dirties_eq g2, hk, if_pos (show a.toNat / 64 = lineNo a from rfl)]
        cases o.store <;> cases (c.cfg.wrPol != .wt) <;> simp
      · have hk : c'.key i j = c.key i j := by unfold key; rw [f1.1, a5, if_neg hij]
        rw [a1, decide_eq_false hij, Bool.or_false] at hvd
        have hka : c.key i j ≠ lineNo a := by
          intro e
          obtain ⟨_, hat⟩ := key_unique hg hi hj hvd e
          exact hno j hat
        rw [a2, if_neg hij, hk, if_neg (fun e => hka e.symm)]
        exact h i j hi hj hvd
    · subst hm
      have := req_rel hr
      subst this
      intro i j hi hj hvd
      rw [f1.1] at hi hj ⊢
      have hv' : (c.arr i j).valid = true := by rw [fa i j] at hvd; split at hvd <;> exact hvd
      have hk : c'.key i j = c.key i j := by unfold key; rw [f1.1, fa i j]; split <;> rfl
      have hd : (c'.arr i j).dirty = (c.arr i j).dirty := by rw [fa i j]; split <;> rfl
      rw [hk, hd]
      exact h i j hi hj hv'
    · subst hm
      have := req_rel hr
      subst this
      intro i j hi hj hvd
      rw [f1.1] at hi hj ⊢
      unfold key
      rw [f1.1, fa]
      rw [fa] at hvd
      exact h i j hi hj hvd

theorem dirty_run {b : Nat} : ∀ (tr : List (Dev × Op)) (c c' : Cache) (on : Bool) (H : List Ev), Geo c b → Wf c →
    DirtyInv H c → c.runOps tr = .ok c' → DirtyInv ((trace c on tr).reverse ++ H) c'
  | [], c, c', on, H, _, _, hd, h => by
    have := Res.ok.inj h
    subst this
    exact hd
  | (d, o) :: tr, c, c', on, H, hg, hW, hd, h => by
    unfold runOps at h
    cases hx : o.apply c d with
    | ub k => rw [hx] at h; cases h
    | abort => rw [hx] at h; cases h
    | ok c1 =>
    rw [hx] at h
    obtain ⟨s, w⟩ := apply_wf hg hW hx
    have := dirty_run tr c1 c' (onAfter on o) _ (s.geo hg) w (dirty_step hg hW hx on hd) h
    simp only [trace, hx, List.reverse_append]
    cases hl : o.lookup <;> rw [hl] at this <;> simpa using this

/-- **C45, dirty bits.**  After every sequence of requests a cached line is dirty exactly when the cache is not
write-through and the line was written since it was filled. -/
theorem dirty_iff_written {g : Cfg} {c0 c : Cache} (hn : new g = some c0) (tr : List (Dev × Op))
    (h : c0.runOps tr = .ok c) {i j : Nat} (hi : i < g.sets) (hj : j < g.ways) (hv : (c.arr i j).valid = true) :
    (c.arr i j).dirty = (g.wrPol != .wt &&
      writtenSince ((c.arr i j).tag.toNat * g.sets + i) (trace c0 false tr).reverse) := by
  obtain ⟨hc, b, hg⟩ := new_geo hn
  obtain ⟨_, _, hcc⟩ := runOps_ind (b := b) (P := fun c => c.cfg = g) (fun c c' d o hg hW hp ho => by
    rw [(apply_wf hg hW ho).1.1]; exact hp) tr c0 c hg (new_wf hn) hc h
  have hd : DirtyInv [] c0 := by
    intro i j _ _ hv
    rw [new_arr hn] at hv
    cases hv
  have := dirty_run tr c0 c false [] hg (new_wf hn) hd h i j (by rw [hcc]; exact hi) (by rw [hcc]; exact hj) hv
  rw [List.append_nil] at this
  rw [this]
  unfold key
  rw [hcc]

/-! ## C45: writebacks -/

/-- line `x` is cached and dirty -/
def DirtyLine (c : Cache) (x : Nat) : Prop :=
  ∃ w, w < c.cfg.ways ∧ (c.arr (x % c.cfg.sets) w).valid = true ∧ (c.arr (x % c.cfg.sets) w).dirty = true ∧
    (c.arr (x % c.cfg.sets) w).tag.toNat * c.cfg.sets + x % c.cfg.sets = x

theorem resident_of {c c' : Cache} (hs : Same c c') {x : Nat}
    (h : ∀ w, (c.arr (x % c.cfg.sets) w).valid = true →
      (c.arr (x % c.cfg.sets) w).tag.toNat * c.cfg.sets + x % c.cfg.sets = x →
      (c'.arr (x % c.cfg.sets) w).valid = true ∧
      (c'.arr (x % c.cfg.sets) w).tag = (c.arr (x % c.cfg.sets) w).tag) (hr : Resident c x) : Resident c' x := by
  obtain ⟨w, h1, h2, h3⟩ := hr
  obtain ⟨e1, e2⟩ := h w h2 h3
  refine ⟨w, by rw [hs.1]; exact h1, ?_, ?_⟩
  · rw [hs.1]; exact e1
  · rw [hs.1, e2]; exact h3

/-- which line leaves, and the writeback counter -/
theorem wb_step {c c' : Cache} {b : Nat} (hg : Geo c b) (hW : Wf c) {d : Dev} {o : Op}
    (ho : o.apply c d = .ok c') (hp : c.cfg.wrPol ≠ .wt) (hon : c.stats.prof = true) :
    (∀ x y, Resident c x → ¬ Resident c' x → Resident c y → ¬ Resident c' y → x = y) ∧
    ((∃ x, Resident c x ∧ ¬ Resident c' x ∧ DirtyLine c x) → c'.stats.writebacks = c.stats.writebacks + 1) ∧
    ((¬ ∃ x, Resident c x ∧ ¬ Resident c' x ∧ DirtyLine c x) → c'.stats.writebacks = c.stats.writebacks) := by
  have keep : (∀ x, Resident c x → Resident c' x) → c'.stats.writebacks = c.stats.writebacks →
      (∀ x y, Resident c x → ¬ Resident c' x → Resident c y → ¬ Resident c' y → x = y) ∧
      ((∃ x, Resident c x ∧ ¬ Resident c' x ∧ DirtyLine c x) → c'.stats.writebacks = c.stats.writebacks + 1) ∧
      ((¬ ∃ x, Resident c x ∧ ¬ Resident c' x ∧ DirtyLine c x) → c'.stats.writebacks = c.stats.writebacks) :=
    fun h1 h2 => ⟨fun x y hx hx' => absurd (h1 x hx) hx', fun ⟨x, hx, hx', _⟩ => absurd (h1 x hx) hx', fun _ => h2⟩
  have ht : ∀ op, c.thru op = false := by
    intro op; unfold thru; simp [hp]
  cases hr : o.req with
  | none =>
    rcases req_none hr with ⟨e, rfl⟩ | ⟨s, z, rfl⟩
    · have := Res.ok.inj ho; subst this; exact keep (fun x hx => hx) rfl
    · have := Res.ok.inj ho; subst this; exact keep (fun x hx => hx) rfl
  | some q =>
    obtain ⟨a, n, op, m⟩ := q
    rcases apply_cases hg hW ho hr with ⟨w, hw, hm, f1, e2, f3, _, _, data, fa⟩ |
      ⟨hno, hm, v, hv, f1, e2, f3, _, _, data, fa⟩ | ⟨w, _, hm, f1, _, f3, _, _, fa⟩ | ⟨_, hm, f1, _, f3, _, _, fa⟩
    · refine keep (fun x => resident_of f1 (fun w h2 h3 => ?_)) ?_
      · obtain ⟨a1, a2, a3, a4, a5, a6⟩ := fa (x % c.cfg.sets) w
        exact ⟨a1.trans h2, a5⟩
      · rw [f3, ht]
        cases op <;> simp [Stats.referenced, Stats.hit, hon]
    · rw [ht] at f3
      simp only [Bool.false_eq_true, if_false] at f3
      have hrp : ((c.stats.referenced op n).miss op).prof = true ∧
          ((c.stats.referenced op n).miss op).writebacks = c.stats.writebacks := by
        cases op <;> simp [Stats.referenced, Stats.miss, hon]
      have hst : c'.stats.writebacks = c.stats.writebacks +
          ind ((c.arr (c.idx a) v).valid && (c.arr (c.idx a) v).dirty) := by
        rw [f3]
        unfold evStats
        cases (c.arr (c.idx a) v).valid <;> cases (c.arr (c.idx a) v).dirty <;>
          simp [Stats.replace, Stats.writeback, hrp, ind]
      have hi0 : c.idx a < c.cfg.sets := by rw [idx_eq hg]; exact Nat.mod_lt _ (sets_pos hg)
      -- only the victim's line can leave
      have hgone : ∀ x, Resident c x → ¬ Resident c' x →
          (c.arr (c.idx a) v).valid = true ∧ x = c.key (c.idx a) v := by
        rintro x ⟨w, h1, h2, h3⟩ hx'
        have hsv : x % c.cfg.sets = c.idx a ∧ w = v := by
          apply Classical.byContradiction
          intro hne
          apply hx'
          obtain ⟨a1, a2, a3, a4, a5, a6⟩ := fa (x % c.cfg.sets) w
          refine ⟨w, by rw [f1.1]; exact h1, ?_, ?_⟩
          · rw [f1.1, a1, h2]; rfl
          · rw [f1.1, a5, if_neg hne]; exact h3
        rw [hsv.1, hsv.2] at h2 h3
        exact ⟨h2, h3.symm⟩
      have hleave : (c.arr (c.idx a) v).valid = true →
          Resident c (c.key (c.idx a) v) ∧ ¬ Resident c' (c.key (c.idx a) v) := by
        intro hvv
        have hks : c.key (c.idx a) v % c.cfg.sets = c.idx a := by
          unfold key
          rw [Nat.add_comm, Nat.add_mul_mod_self_right, Nat.mod_eq_of_lt hi0]
        refine ⟨⟨v, hv.1, by rw [hks]; exact hvv, by rw [hks]; rfl⟩, ?_⟩
        rintro ⟨w, h1, h2, h3⟩
        rw [f1.1] at h1 h2 h3
        rw [hks] at h2 h3
        obtain ⟨a1, a2, a3, a4, a5, a6⟩ := fa (c.idx a) w
        rw [a5] at h3
        rw [a1] at h2
        by_cases e : w = v
        · rw [if_pos ⟨rfl, e⟩, lineNo_eq hg a] at h3
          exact hno v (key_at hg hv.1 hvv h3.symm)
        · rw [if_neg (fun hh => e hh.2)] at h3
          rw [decide_eq_false (fun hh => e hh.2), Bool.or_false] at h2
          obtain ⟨_, _, w3, _⟩ := hW (c.idx a)
          refine e (w3 w v h1 hv.1 h2 hvv ?_)
          apply BitVec.eq_of_toNat_eq
          have := sets_pos hg
          unfold key at h3
          exact Nat.eq_of_mul_eq_mul_right this (by omega)
      refine ⟨fun x y hx hx' hy hy' => (hgone x hx hx').2.trans (hgone y hy hy').2.symm, ?_, ?_⟩
      · rintro ⟨x, hx, hx', w, h1, h2, h4, h3⟩
        obtain ⟨hvv, rfl⟩ := hgone x hx hx'
        have hks : c.key (c.idx a) v % c.cfg.sets = c.idx a := by
          unfold key
          rw [Nat.add_comm, Nat.add_mul_mod_self_right, Nat.mod_eq_of_lt hi0]
        rw [hks] at h2 h3 h4
        have : w = v := by
          obtain ⟨_, _, w3, _⟩ := hW (c.idx a)
          refine w3 w v h1 hv.1 h2 hvv ?_
          apply BitVec.eq_of_toNat_eq
          have := sets_pos hg
          unfold key at h3
          exact Nat.eq_of_mul_eq_mul_right this (by omega)
        subst this
        rw [hst, hvv, h4]; rfl
      · intro hnd
        rw [hst]
        cases hvv : (c.arr (c.idx a) v).valid with
        | false => rfl
        | true =>
          cases hdd : (c.arr (c.idx a) v).dirty with
          | false => rfl
          | true =>
            exfalso
            obtain ⟨l1, l2⟩ := hleave hvv
            have hks : c.key (c.idx a) v % c.cfg.sets = c.idx a := by
              unfold key
              rw [Nat.add_comm, Nat.add_mul_mod_self_right, Nat.mod_eq_of_lt hi0]
            exact hnd ⟨_, l1, l2, v, hv.1, by rw [hks]; exact hvv, by rw [hks]; exact hdd, by rw [hks]; rfl⟩
    · refine keep (fun x => resident_of f1 (fun w' h2 h3 => ?_)) (by rw [f3])
      rw [fa]
      split
      · exact ⟨h2, rfl⟩
      · exact ⟨h2, rfl⟩
    · refine keep (fun x => resident_of f1 (fun w' h2 h3 => ?_)) (by rw [f3])
      rw [fa]
      exact ⟨h2, rfl⟩

/-- **C45, write-back.**  In a write-back cache, while profiling, each request pushes out at most one line, and
counts one writeback (64 bytes, see `cache_accounting`) exactly when the line it pushes out is dirty.  So a dirty
line is written back once, when it leaves. -/
theorem writeback_exact {g : Cfg} {c0 c c' : Cache} (hn : new g = some c0) (hp : g.wrPol = .wb)
    (tr : List (Dev × Op)) (h : c0.runOps tr = .ok c) (hon : c.stats.prof = true) {d : Dev} {o : Op}
    (ho : o.apply c d = .ok c') :
    (∀ x y, Resident c x → ¬ Resident c' x → Resident c y → ¬ Resident c' y → x = y) ∧
    ((∃ x, Resident c x ∧ ¬ Resident c' x ∧ DirtyLine c x) → c'.stats.writebacks = c.stats.writebacks + 1) ∧
    ((¬ ∃ x, Resident c x ∧ ¬ Resident c' x ∧ DirtyLine c x) → c'.stats.writebacks = c.stats.writebacks) := by
  obtain ⟨hc, b, hg⟩ := new_geo hn
  obtain ⟨hg, hW, hcc⟩ := runOps_ind (b := b) (P := fun c => c.cfg = g) (fun c c' d o hg hW hp ho => by
    rw [(apply_wf hg hW ho).1.1]; exact hp) tr c0 c hg (new_wf hn) hc h
  exact wb_step hg hW ho (by rw [hcc, hp]; simp) hon

/-- **C45, write-through.**  A write-through cache counts one writeback for every store made while profiling and
no other, and never has a dirty line. -/
theorem writethrough_exact {g : Cfg} {c0 c : Cache} (hn : new g = some c0) (hp : g.wrPol = .wt)
    (tr : List (Dev × Op)) (h : c0.runOps tr = .ok c) :
    c.stats.writebacks = cnt (fun e => e.op.store) (trace c0 false tr) ∧
    ∀ i j, i < g.sets → j < g.ways → (c.arr i j).valid = true → (c.arr i j).dirty = false := by
  refine ⟨?_, fun i j hi hj hv => by rw [dirty_iff_written hn tr h hi hj hv, hp]; rfl⟩
  obtain ⟨hc, b, hg⟩ := new_geo hn
  have key : ∀ (tr : List (Dev × Op)) (c c' : Cache), Geo c b → Wf c → c.cfg.wrPol = .wt →
      (∀ i j, j < c.cfg.ways → (c.arr i j).dirty = false) → c.runOps tr = .ok c' →
      c'.stats.writebacks = c.stats.writebacks + cnt (fun e => e.op.store) (trace c c.stats.prof tr) := by
    intro tr
    induction tr with
    | nil => intro c c' _ _ _ _ h; have := Res.ok.inj h; subst this; rfl
    | cons q t ih =>
      intro c c' hg hW hwt hcl h
      obtain ⟨d, o⟩ := q
      unfold runOps at h
      cases hx : o.apply c d with
      | ub k => rw [hx] at h; cases h
      | abort => rw [hx] at h; cases h
      | ok c1 =>
      rw [hx] at h
      obtain ⟨s, w⟩ := apply_wf hg hW hx
      have hstep : c1.stats.writebacks = c.stats.writebacks + ind (o.lookup && c.stats.prof && o.store) ∧
          (∀ i j, j < c1.cfg.ways → (c1.arr i j).dirty = false) := by
        cases hr : o.req with
        | none =>
          rcases req_none hr with ⟨e, rfl⟩ | ⟨s, z, rfl⟩
          · have := Res.ok.inj hx; subst this; exact ⟨rfl, hcl⟩
          · have := Res.ok.inj hx; subst this; exact ⟨rfl, hcl⟩
        | some q =>
          obtain ⟨a, n, op, m⟩ := q
          rcases apply_cases hg hW hx hr with ⟨w, hw, hm, f1, e2, f3, _, _, data, fa⟩ |
            ⟨hno, hm, v, hv, f1, e2, f3, _, _, data, fa⟩ | ⟨w, _, hm, f1, _, f3, _, _, fa⟩ |
            ⟨_, hm, f1, _, f3, _, _, fa⟩
          · obtain ⟨g1, g2, g3, g4, g5⟩ := req_facts hr hm
            have hth : c.thru op = o.store := by
              unfold thru
              rw [hwt]
              cases op with
              | read =>
                cases h : o.store with
                | false => rfl
                | true => have := g2.2 h; cases this
              | write => rw [g2.1 rfl]; rfl
            have hds : c.dirties op = false := by unfold dirties; rw [hwt]; simp
            refine ⟨?_, fun i j hj => ?_⟩
            · rw [f3, hth, g1]
              cases op <;> cases o.store <;> cases hpf : c.stats.prof <;>
                simp [Stats.referenced, Stats.hit, Stats.writeback, hpf, ind]
            · rw [(fa i j).2.1, hds, hcl i j (by rw [← f1.1]; exact hj)]; simp
          · obtain ⟨g1, g2, g3, g4, g5⟩ := req_facts hr hm
            have hth : c.thru op = o.store := by
              unfold thru
              rw [hwt]
              cases op with
              | read =>
                cases h : o.store with
                | false => rfl
                | true => have := g2.2 h; cases this
              | write => rw [g2.1 rfl]; rfl
            have hds : c.dirties op = false := by unfold dirties; rw [hwt]; simp
            refine ⟨?_, fun i j hj => ?_⟩
            · rw [f3, hth, g1]
              unfold evStats
              rw [hcl (c.idx a) v hv.1]
              cases op <;> cases o.store <;> cases hpf : c.stats.prof <;> cases (c.arr (c.idx a) v).valid <;>
                simp [Stats.referenced, Stats.miss, Stats.writeback, Stats.replace, hpf, ind]
            · rw [(fa i j).2.1, hds, hcl i j (by rw [← f1.1]; exact hj)]; simp
          · subst hm
            have := req_rel hr
            subst this
            refine ⟨by rw [f3]; rfl, fun i j hj => ?_⟩
            rw [fa]
            split <;> exact hcl i j (by rw [← f1.1]; exact hj)
          · subst hm
            have := req_rel hr
            subst this
            refine ⟨by rw [f3]; rfl, fun i j hj => ?_⟩
            rw [fa]
            exact hcl i j (by rw [← f1.1]; exact hj)
      have := ih c1 c' (s.geo hg) w (by rw [s.1]; exact hwt) hstep.2 h
      have hon := (stat_step hg hW hx).1
      rw [this, hstep.1, hon]
      simp only [trace, hx, cnt_append, cnt_one]
      omega
  have := key tr c0 c hg (new_wf hn) (by rw [hc]; exact hp) (fun i j _ => by rw [new_arr hn]) h
  rw [(new_stats hn).1] at this
  simpa [Stats.init] using this

/-! ### Cases -/

/-- a store, its eviction, and the line's second life -/
def Ex.wbOps : List Op :=
  [.prof true, .wr 0#32 1#32 4, .rd 0x40#32 4, .wr 0#32 2#32 2, .rd 0x80#32 4, .rd 0xc0#32 4, .rd 0#32 4,
   .rd 0x40#32 1, .prof false, .wr 0x100#32 1#32 4, .prof true, .rd 0#32 4]

example : Ex.obs (Ex.cfgP 1 2) Ex.wbOps (fun c => (c.stats.references, c.stats.hitsLd, c.stats.hitsSt,
      c.stats.missesLd, c.stats.missesSt, c.stats.replacements))
    = some (8, 0, 1, 6, 1, 5) := by decide +kernel
example : Ex.obs (Ex.cfgP 1 2) Ex.wbOps (fun c => (c.stats.writebacks, c.stats.coreRd, c.stats.coreWr,
      c.stats.memRd, c.stats.memWr))
    = some (1, 21, 6, 448, 64) := by decide +kernel
/-- the same requests, write-through -/
example : Ex.obs { Ex.cfgP 1 2 with wrPol := .wt } Ex.wbOps (fun c => (c.stats.writebacks, c.stats.memWr))
    = some (2, 128) := by decide +kernel
/-- a line written and still cached is dirty; after write-through it is not -/
example : Ex.obs (Ex.cfgP 1 2) [.rd 0#32 4, .wr 4#32 1#32 4] (fun c => (c.arr 0 1).dirty) = some true := by
  decide +kernel
example : Ex.obs { Ex.cfgP 1 2 with wrPol := .wt } [.rd 0#32 4, .wr 4#32 1#32 4] (fun c => (c.arr 0 1).dirty)
    = some false := by decide +kernel

/-! ## C47: the region of interest -/

/-- the cache with another region of interest -/
def setR (c : Cache) (r : Roi) : Cache := { c with roi := r }

/-- two results that differ in the region of interest only -/
def ResR : Res Cache → Res Cache → Prop
  | .ok c, .ok c' => ∃ r, c' = c.setR r
  | .ub k, .ub k' => k = k'
  | .abort, .abort => True
  | _, _ => False

theorem ResR.of_eq {x x' y y' : Res Cache} (hx : x = x') (hy : y = y') (h : ResR x' y') : ResR x y := by
  rw [hx, hy]; exact h

theorem access_setR (c : Cache) (r : Roi) (d : Dev) (n : Nat) (op : MemOp) (w : Nat) :
    ResR (c.access d n op w) ((c.setR r).access d n op w) := by
  cases op with
  | read =>
    simp only [access, readFromCache]
    by_cases hf : c.cfg.func = true
    · have hf' : (c.setR r).cfg.func = true := hf
      rw [if_pos hf, if_pos hf']
      show ResR (do let v ← readGo (c.arr c.ccl.index w).data c.ccl.byteAddr n 0 0#32; _)
        (do let v ← readGo (c.arr c.ccl.index w).data c.ccl.byteAddr n 0 0#32; _)
      cases readGo (c.arr c.ccl.index w).data c.ccl.byteAddr n 0 0#32 with
      | ok v => exact ⟨r, rfl⟩
      | ub k => exact rfl
      | abort => exact trivial
    · have hf' : ¬ (c.setR r).cfg.func = true := hf
      rw [if_neg hf, if_neg hf']
      exact ⟨r, rfl⟩
  | write =>
    have hw : ResR (c.writeToCache d n w) ((c.setR r).writeToCache d n w) := by
      simp only [writeToCache]
      by_cases hf : c.cfg.func = true
      · have hf' : (c.setR r).cfg.func = true := hf
        rw [if_pos hf, if_pos hf']
        show ResR (do let data ← writeGo c.wrBuf c.ccl.byteAddr n 0 (c.arr c.ccl.index w).data; _)
          (do let data ← writeGo c.wrBuf c.ccl.byteAddr n 0 (c.arr c.ccl.index w).data; _)
        cases writeGo c.wrBuf c.ccl.byteAddr n 0 (c.arr c.ccl.index w).data with
        | ok data =>
          simp only [Res.bind_ok]
          by_cases hv : (c.cfg.verify && c.cfg.wrPol == .wt) = true
          · refine ResR.of_eq (if_pos hv) (if_pos hv) ?_
            show ResR (do wrLine d (c.lineBase (c.arr c.ccl.index w).tag c.ccl.index) data; _)
              (do wrLine d (c.lineBase (c.arr c.ccl.index w).tag c.ccl.index) data; _)
            cases wrLine d (c.lineBase (c.arr c.ccl.index w).tag c.ccl.index) data with
            | ok u => exact ⟨r, rfl⟩
            | ub k => exact rfl
            | abort => exact trivial
          · refine ResR.of_eq (if_neg hv) (if_neg hv) ?_
            exact ⟨r, rfl⟩
        | ub k => exact rfl
        | abort => exact trivial
      · have hf' : ¬ (c.setR r).cfg.func = true := hf
        rw [if_neg hf, if_neg hf']
        exact ⟨r, rfl⟩
    simp only [access]
    cases h1 : c.writeToCache d n w with
    | ok c1 =>
      cases h2 : (c.setR r).writeToCache d n w with
      | ok c2 =>
        rw [h1, h2] at hw
        obtain ⟨r', rfl⟩ := hw
        simp only [Res.bind_ok]
        by_cases ht : (c1.cfg.wrPol == .wt) = true
        · have ht' : ((c1.setR r').cfg.wrPol == .wt) = true := ht
          rw [if_pos ht, if_pos ht']
          exact ⟨_, rfl⟩
        · have ht' : ¬ ((c1.setR r').cfg.wrPol == .wt) = true := ht
          rw [if_neg ht, if_neg ht']
          exact ⟨r', rfl⟩
      | ub k => rw [h1, h2] at hw; exact hw.elim
      | abort => rw [h1, h2] at hw; exact hw.elim
    | ub k =>
      cases h2 : (c.setR r).writeToCache d n w with
      | ok c2 => rw [h1, h2] at hw; exact hw.elim
      | ub k' => rw [h1, h2] at hw; exact hw
      | abort => rw [h1, h2] at hw; exact hw.elim
    | abort =>
      cases h2 : (c.setR r).writeToCache d n w with
      | ok c2 => rw [h1, h2] at hw; exact hw.elim
      | ub k' => rw [h1, h2] at hw; exact hw.elim
      | abort => exact trivial

theorem evict_setR (c : Cache) (r : Roi) (d : Dev) : ResR (c.evict d) ((c.setR r).evict d) := by
  unfold evict
  by_cases hv : (c.arr c.ccl.index c.ccl.vWay).valid = true
  · have hv' : ((c.setR r).arr (c.setR r).ccl.index (c.setR r).ccl.vWay).valid = true := hv
    simp only [if_pos hv, if_pos hv']
    by_cases hd : (c.arr c.ccl.index c.ccl.vWay).dirty = true
    · have hd' : ((c.setR r).arr (c.setR r).ccl.index (c.setR r).ccl.vWay).dirty = true := hd
      simp only [if_pos hd, if_pos hd']
      show ResR (do (if (c.cfg.func && c.cfg.verify) = true then
          wrLine d (c.lineBase (c.arr c.ccl.index c.ccl.vWay).tag c.ccl.index)
            (c.arr c.ccl.index c.ccl.vWay).data else .ok ()); _)
        (do (if (c.cfg.func && c.cfg.verify) = true then
          wrLine d (c.lineBase (c.arr c.ccl.index c.ccl.vWay).tag c.ccl.index)
            (c.arr c.ccl.index c.ccl.vWay).data else .ok ()); _)
      cases (if (c.cfg.func && c.cfg.verify) = true then
          wrLine d (c.lineBase (c.arr c.ccl.index c.ccl.vWay).tag c.ccl.index)
            (c.arr c.ccl.index c.ccl.vWay).data else .ok ()) with
      | ok u => exact ⟨_, rfl⟩
      | ub k => exact rfl
      | abort => exact trivial
    · have hd' : ¬ ((c.setR r).arr (c.setR r).ccl.index (c.setR r).ccl.vWay).dirty = true := hd
      simp only [if_neg hd, if_neg hd']
      exact ⟨_, rfl⟩
  · have hv' : ¬ ((c.setR r).arr (c.setR r).ccl.index (c.setR r).ccl.vWay).valid = true := hv
    simp only [if_neg hv, if_neg hv']
    exact ⟨_, rfl⟩

theorem updateScp_setR (c : Cache) (r : Roi) (m : Scp) (i w : Nat) :
    (c.setR r).updateScp m i w = (c.updateScp m i w).setR r := by
  simp only [updateScp_shape]
  rfl

theorem install_setR (c : Cache) (r : Roi) (m : Scp) : (c.setR r).install m = (c.install m).setR r := by
  have e1 : (c.setR r).setLine c.ccl.index c.ccl.vWay
      { (c.arr c.ccl.index c.ccl.vWay).referenced with tag := c.ccl.tag, valid := true } =
      (c.setLine c.ccl.index c.ccl.vWay
        { (c.arr c.ccl.index c.ccl.vWay).referenced with tag := c.ccl.tag, valid := true }).setR r := rfl
  show updateScp (if c.cfg.inPol = .update then Cache.touch ((c.setR r).setLine c.ccl.index c.ccl.vWay
      { (c.arr c.ccl.index c.ccl.vWay).referenced with tag := c.ccl.tag, valid := true }) c.ccl.index c.ccl.vWay
      else (c.setR r).setLine c.ccl.index c.ccl.vWay
      { (c.arr c.ccl.index c.ccl.vWay).referenced with tag := c.ccl.tag, valid := true }) m c.ccl.index c.ccl.vWay =
    (updateScp (if c.cfg.inPol = .update then Cache.touch (c.setLine c.ccl.index c.ccl.vWay
      { (c.arr c.ccl.index c.ccl.vWay).referenced with tag := c.ccl.tag, valid := true }) c.ccl.index c.ccl.vWay
      else c.setLine c.ccl.index c.ccl.vWay
      { (c.arr c.ccl.index c.ccl.vWay).referenced with tag := c.ccl.tag, valid := true }) m c.ccl.index
        c.ccl.vWay).setR r
  rw [e1]
  generalize c.setLine c.ccl.index c.ccl.vWay
      { (c.arr c.ccl.index c.ccl.vWay).referenced with tag := c.ccl.tag, valid := true } = c1
  rw [← updateScp_setR]
  congr 1
  split <;> rfl

theorem fill_setR (c : Cache) (r : Roi) (d : Dev) (a : W) : ResR (c.fill d a) ((c.setR r).fill d a) := by
  unfold fill
  by_cases hf : c.cfg.func = true
  · have hf' : (c.setR r).cfg.func = true := hf
    rw [if_pos hf, if_pos hf']
    cases rdLine d a with
    | ok data => exact ⟨r, rfl⟩
    | ub k => exact rfl
    | abort => exact trivial
  · have hf' : ¬ (c.setR r).cfg.func = true := hf
    rw [if_neg hf, if_neg hf']
    exact ⟨r, rfl⟩

/-- results of lookups that differ in the region of interest only -/
def ResR2 : Res (Ref × Cache) → Res (Ref × Cache) → Prop
  | .ok p, .ok p' => p.1 = p'.1 ∧ ∃ r, p'.2 = p.2.setR r
  | .ub k, .ub k' => k = k'
  | .abort, .abort => True
  | _, _ => False

theorem ResR.bind2 {x y : Res Cache} (h : ResR x y) {f : Cache → Res (Ref × Cache)}
    (hf : ∀ c r, ResR2 (f c) (f (c.setR r))) : ResR2 (do let c ← x; f c) (do let c ← y; f c) := by
  cases x <;> cases y <;> try exact h.elim
  · obtain ⟨r, rfl⟩ := h; exact hf _ r
  · exact h
  · exact trivial

theorem ResR.bind {x y : Res Cache} (h : ResR x y) {f : Cache → Res Cache}
    (hf : ∀ c r, ResR (f c) (f (c.setR r))) : ResR (do let c ← x; f c) (do let c ← y; f c) := by
  cases x <;> cases y <;> try exact h.elim
  · obtain ⟨r, rfl⟩ := h; exact hf _ r
  · exact h
  · exact trivial

theorem serve_setR (c : Cache) (r : Roi) (d : Dev) (a : W) (n : Nat) (op : MemOp) (m : Scp) :
    ResR2 (c.serve d a n op m) ((c.setR r).serve d a n op m) := by
  cases hs : scan (c.arr (c.idx a)) (c.tg a) c.cfg.ways 0 0 0 with
  | hit w =>
    have hs' : scan ((c.setR r).arr ((c.setR r).idx a)) ((c.setR r).tg a) (c.setR r).cfg.ways 0 0 0 = .hit w := hs
    by_cases hm : m = .rel
    · subst hm
      unfold serve reference counted
      simp only [ne_eq, not_true_eq_false, if_false, hs, hs', if_true, Res.bind_ok]
      refine ⟨rfl, r, ?_⟩
      simp only [updateScp_shape]
      rfl
    · rw [serve_hit_eq d n op hm hs, serve_hit_eq d n op hm hs']
      have hst : ∃ r', (c.setR r).hitSt a n op m w = (c.hitSt a n op m w).setR r' := by
        unfold hitSt counted
        rw [if_pos hm, if_pos hm]
        refine ⟨?_, ?_⟩
        rotate_left
        · simp only [updateScp_shape]
          rfl
      obtain ⟨r', e⟩ := hst
      rw [e]
      exact (access_setR _ r' d n op w).bind2 (fun c r => ⟨rfl, r, rfl⟩)
  | none v l =>
    have hs' : scan ((c.setR r).arr ((c.setR r).idx a)) ((c.setR r).tg a) (c.setR r).cfg.ways 0 0 0 = .none v l := hs
    by_cases hm : m = .rel
    · subst hm
      unfold serve reference counted
      simp only [ne_eq, not_true_eq_false, if_false, hs, hs', if_true, Res.bind_ok]
      exact ⟨rfl, r, rfl⟩
    · rw [serve_miss_eq d n op hm hs, serve_miss_eq d n op hm hs']
      have hst : ∃ r', (c.setR r).missSt a n op m v l = (c.missSt a n op m v l).setR r' := by
        unfold missSt counted
        rw [if_pos hm, if_pos hm]
        exact ⟨_, rfl⟩
      obtain ⟨r', e⟩ := hst
      rw [e]
      refine (evict_setR _ r' d).bind2 (fun c1 r1 => ?_)
      rw [install_setR]
      refine (fill_setR _ r1 d a).bind2 (fun c2 r2 => ?_)
      exact (access_setR c2 r2 d n op c2.ccl.vWay).bind2 (fun c r => ⟨rfl, r, rfl⟩)

theorem apply_setR (c : Cache) (r : Roi) (d : Dev) (o : Op) (ho : ∀ s z, o ≠ .roi s z) :
    ResR (o.apply c d) (o.apply (c.setR r) d) := by
  cases o with
  | rd a n =>
    have h := serve_setR c r d a n .read .none
    simp only [Op.apply, Cache.rd]
    cases h1 : c.serve d a n .read .none <;> cases h2 : (c.setR r).serve d a n .read .none <;> rw [h1, h2] at h <;>
      try exact h.elim
    · exact h.2
    · exact h
    · exact trivial
  | wr a v n =>
    have h := serve_setR { c with wrBuf := v } r d a n .write .none
    have e : ({ (c.setR r) with wrBuf := v } : Cache) = setR { c with wrBuf := v } r := rfl
    simp only [Op.apply, Cache.wr]
    rw [e]
    cases h1 : Cache.serve { c with wrBuf := v } d a n .write .none <;>
      cases h2 : (setR { c with wrBuf := v } r).serve d a n .write .none <;> rw [h1, h2] at h <;>
      try exact h.elim
    · exact h.2
    · exact h
    · exact trivial
  | lcl a =>
    have h := serve_setR c r d a 0 .read .lcl
    simp only [Op.apply, Cache.scpLcl]
    cases h1 : c.serve d a 0 .read .lcl <;> cases h2 : (c.setR r).serve d a 0 .read .lcl <;> rw [h1, h2] at h <;>
      try exact h.elim
    · obtain ⟨_, r', e⟩ := h
      simp only [Res.bind_ok]
      rw [e]
      rename_i p q _
      have e' : (p.2.setR r').scpStatus = p.2.scpStatus := rfl
      rw [e']
      cases p.2.scpStatus with
      | none => exact rfl
      | some s => exact ⟨r', rfl⟩
    · exact h
    · exact trivial
  | rel a =>
    have h := serve_setR c r d a 0 .read .rel
    simp only [Op.apply, Cache.scpRel]
    cases h1 : c.serve d a 0 .read .rel <;> cases h2 : (c.setR r).serve d a 0 .read .rel <;> rw [h1, h2] at h <;>
      try exact h.elim
    · obtain ⟨_, r', e⟩ := h
      simp only [Res.bind_ok]
      rw [e]
      rename_i p q _
      have e' : (p.2.setR r').scpStatus = p.2.scpStatus := rfl
      rw [e']
      cases p.2.scpStatus with
      | none => exact rfl
      | some s => exact ⟨r', rfl⟩
    · exact h
    · exact trivial
  | prof b => exact ⟨_, rfl⟩
  | roi s z => exact absurd rfl (ho s z)

/-- is this a change of the region -/
def Op.isRoi : Op → Bool
  | .roi _ _ => true
  | _ => false

/-- **C47, passive.**  Leaving out every change of the region of interest from a sequence of requests changes
nothing but the region's own statistics: contents, totals, lock status, read values and failures are the same. -/
theorem roi_passive (c : Cache) (tr : List (Dev × Op)) :
    ResR (c.runOps tr) (c.runOps (tr.filter (fun p => !p.2.isRoi))) := by
  have key : ∀ (tr : List (Dev × Op)) (c : Cache) (r : Roi),
      ResR (c.runOps tr) ((c.setR r).runOps (tr.filter (fun p => !p.2.isRoi))) := by
    intro tr
    induction tr with
    | nil => intro c r; exact ⟨r, rfl⟩
    | cons p t ih =>
      intro c r
      obtain ⟨d, o⟩ := p
      by_cases h : ∃ s z, o = .roi s z
      · obtain ⟨s, z, rfl⟩ := h
        have : ((d, Op.roi s z) :: t).filter (fun p => !p.2.isRoi) = t.filter (fun p => !p.2.isRoi) := rfl
        rw [this]
        simp only [runOps, Op.apply, Res.bind_ok]
        have := ih (c.setRoi s z) r
        exact this
      · have h' : ∀ s z, o ≠ .roi s z := fun s z e => h ⟨s, z, e⟩
        have hn : o.isRoi = false := by cases o <;> first | rfl | exact absurd rfl (h' _ _)
        have : ((d, o) :: t).filter (fun p => !p.2.isRoi) = (d, o) :: t.filter (fun p => !p.2.isRoi) := by
          simp [hn]
        rw [this]
        simp only [runOps]
        have ha := apply_setR c r d o h'
        cases h1 : o.apply c d <;> cases h2 : o.apply (c.setR r) d <;> rw [h1, h2] at ha <;> try exact ha.elim
        · obtain ⟨r', rfl⟩ := ha
          exact ih _ r'
        · exact ha
        · exact trivial
  exact key tr c c.roi

/-- lookups made while profiling, to addresses that pass the test of the region of the time -/
def regionCount (inside : W → W → W → Bool) : (on : Bool) → (start size : W) → List Op → Nat
  | _, _, _, [] => 0
  | on, s, z, o :: t =>
    ind (o.lookup && on && inside s z o.addr) +
      (match o with
       | .roi s' z' => regionCount inside on (toNorm s') z' t
       | _ => regionCount inside (onAfter on o) s z t)

/-- `[start, start + size]`, both ends included, not wrapping -/
def closed (s z a : W) : Bool := s.ule a && a.ule (s + z)

theorem roi_ref_step {c c' : Cache} {b : Nat} (hg : Geo c b) (hW : Wf c) {d : Dev} {o : Op}
    (ho : o.apply c d = .ok c') (hp : c.roi.stats.prof = c.stats.prof) :
    c'.roi.stats.prof = c'.stats.prof ∧
    c'.roi.stats.references = c.roi.stats.references + ind (o.lookup && c.stats.prof && c.roi.has o.addr) ∧
    (∀ s z, o = .roi s z → c'.roi.start = toNorm s ∧ c'.roi.stop = toNorm s + z) ∧
    ((∀ s z, o ≠ .roi s z) → c'.roi.start = c.roi.start ∧ c'.roi.stop = c.roi.stop) := by
  have honp := (stat_step hg hW ho).1
  -- a statistics update that keeps the switch and the reference count
  have on_keep : ∀ (r : Roi) (a : W) (f : Stats → Stats), (∀ s, (f s).prof = s.prof ∧ (f s).references = s.references) →
      (r.on a f).stats.prof = r.stats.prof ∧ (r.on a f).stats.references = r.stats.references ∧
      (r.on a f).start = r.start ∧ (r.on a f).stop = r.stop := by
    intro r a f hf
    unfold Roi.on
    split
    · exact ⟨(hf _).1, (hf _).2, rfl, rfl⟩
    · exact ⟨rfl, rfl, rfl, rfl⟩
  have k1 : ∀ op s, (Stats.hit s op).prof = s.prof ∧ (Stats.hit s op).references = s.references := by
    intro op s; cases op <;> unfold Stats.hit <;> split <;> exact ⟨rfl, rfl⟩
  have k2 : ∀ op s, (Stats.miss s op).prof = s.prof ∧ (Stats.miss s op).references = s.references := by
    intro op s; cases op <;> unfold Stats.miss <;> split <;> exact ⟨rfl, rfl⟩
  have k3 : ∀ s, (Stats.writeback s).prof = s.prof ∧ (Stats.writeback s).references = s.references := by
    intro s; unfold Stats.writeback; split <;> exact ⟨rfl, rfl⟩
  have k4 : ∀ b s, (Stats.replace s b).prof = s.prof ∧ (Stats.replace s b).references = s.references := by
    intro b s
    unfold Stats.replace
    split
    · exact ⟨rfl, rfl⟩
    · simp only
      split
      · exact ⟨(k3 _).1, (k3 _).2⟩
      · exact ⟨rfl, rfl⟩
  have hr0 : ∀ (op : MemOp) (a : W) (n : Nat), (c.roi.on a (·.referenced op n)).stats.prof = c.stats.prof ∧
      (c.roi.on a (·.referenced op n)).stats.references =
        c.roi.stats.references + ind (c.stats.prof && c.roi.has a) ∧
      (c.roi.on a (·.referenced op n)).start = c.roi.start ∧
      (c.roi.on a (·.referenced op n)).stop = c.roi.stop := by
    intro op a n
    unfold Roi.on
    cases hh : c.roi.has a with
    | false =>
      simp only [Bool.and_false, ind_false, Bool.false_eq_true, if_false]
      exact ⟨hp, rfl, trivial, trivial⟩
    | true =>
      simp only [Bool.and_true, if_true]
      rw [← hp]
      cases hq : c.roi.stats.prof <;> cases op <;> simp [Stats.referenced, hq, ind]
  cases hr : o.req with
  | none =>
    rcases req_none hr with ⟨e, rfl⟩ | ⟨s, z, rfl⟩
    · have := Res.ok.inj ho; subst this
      exact ⟨rfl, rfl, (fun s z h => by cases h), fun _ => ⟨rfl, rfl⟩⟩
    · have := Res.ok.inj ho; subst this
      exact ⟨hp, rfl, (fun s' z' h => by cases h; exact ⟨rfl, rfl⟩), fun h => absurd rfl (h s z)⟩
  | some q =>
    obtain ⟨a, n, op, m⟩ := q
    have hnr : ∀ s z, o ≠ .roi s z := by intro s z e; subst e; cases hr
    rcases apply_cases hg hW ho hr with ⟨w, hw, hm, f1, e2, f3, f4, _⟩ | ⟨hno, hm, v, hv, f1, e2, f3, f4, _⟩ |
      ⟨w, _, hm, f1, _, f3, f4, _⟩ | ⟨_, hm, f1, _, f3, f4, _⟩
    · obtain ⟨g1, g2, g3, g4, g5⟩ := req_facts hr hm
      obtain ⟨x1, x2, x3, x4⟩ := hr0 op a n
      generalize c.roi.on a (·.referenced op n) = r0 at *
      obtain ⟨y1, y2, y3, y4⟩ := on_keep r0 a (·.hit op) (k1 op)
      generalize r0.on a (·.hit op) = r1 at *
      obtain ⟨z1, z2, z3, z4⟩ := on_keep r1 (c.lineBase (c.arr (c.idx a) w).tag (c.idx a)) Stats.writeback k3
      rw [f4, honp, g5, g1, ← g4, Bool.true_and]
      refine ⟨?_, ?_, fun s z e => absurd e (hnr s z), fun _ => ?_⟩
      · split
        · rw [z1, y1, x1]
        · rw [y1, x1]
      · split
        · rw [z2, y2, x2]
        · rw [y2, x2]
      · split
        · rw [z3, z4, y3, y4, x3, x4]; exact ⟨rfl, rfl⟩
        · rw [y3, y4, x3, x4]; exact ⟨rfl, rfl⟩
    · obtain ⟨g1, g2, g3, g4, g5⟩ := req_facts hr hm
      obtain ⟨x1, x2, x3, x4⟩ := hr0 op a n
      generalize c.roi.on a (·.referenced op n) = r0 at *
      obtain ⟨y1, y2, y3, y4⟩ := on_keep r0 a (·.miss op) (k2 op)
      generalize r0.on a (·.miss op) = r1 at *
      have hev : (evRoi r1 (c.lineBase (c.arr (c.idx a) v).tag (c.idx a)) (c.arr (c.idx a) v)).stats.prof =
          r1.stats.prof ∧
          (evRoi r1 (c.lineBase (c.arr (c.idx a) v).tag (c.idx a)) (c.arr (c.idx a) v)).stats.references =
          r1.stats.references ∧
          (evRoi r1 (c.lineBase (c.arr (c.idx a) v).tag (c.idx a)) (c.arr (c.idx a) v)).start = r1.start ∧
          (evRoi r1 (c.lineBase (c.arr (c.idx a) v).tag (c.idx a)) (c.arr (c.idx a) v)).stop = r1.stop := by
        unfold evRoi
        split
        · exact on_keep r1 _ _ (k4 _)
        · exact ⟨rfl, rfl, rfl, rfl⟩
      generalize evRoi r1 (c.lineBase (c.arr (c.idx a) v).tag (c.idx a)) (c.arr (c.idx a) v) = r2 at *
      obtain ⟨u1, u2, u3, u4⟩ := hev
      obtain ⟨z1, z2, z3, z4⟩ := on_keep r2 (c.lineBase (c.tg a) (c.idx a)) Stats.writeback k3
      rw [f4, honp, g5, g1, ← g4, Bool.true_and]
      refine ⟨?_, ?_, fun s z e => absurd e (hnr s z), fun _ => ?_⟩
      · split
        · rw [z1, u1, y1, x1]
        · rw [u1, y1, x1]
      · split
        · rw [z2, u2, y2, x2]
        · rw [u2, y2, x2]
      · split
        · rw [z3, z4, u3, u4, y3, y4, x3, x4]; exact ⟨rfl, rfl⟩
        · rw [u3, u4, y3, y4, x3, x4]; exact ⟨rfl, rfl⟩
    · subst hm
      have := req_rel hr
      subst this
      rw [f4, f3]
      exact ⟨hp, rfl, (fun s z e => by cases e), fun _ => ⟨rfl, rfl⟩⟩
    · subst hm
      have := req_rel hr
      subst this
      rw [f4, f3]
      exact ⟨hp, rfl, (fun s z e => by cases e), fun _ => ⟨rfl, rfl⟩⟩

/-- **C47, what is counted.**  After every sequence of requests and region changes, the region's reference count
is the number of reads, stores and lock requests made while profiling whose address was in
`[start, start + size]` of the region then set — the end address included. -/
theorem roi_counts_closed {g : Cfg} {c0 c : Cache} (hn : new g = some c0) (tr : List (Dev × Op))
    (h : c0.runOps tr = .ok c) :
    c.roi.stats.references = regionCount closed false 0#32 0#32 (tr.map (·.2)) := by
  obtain ⟨_, b, hg⟩ := new_geo hn
  have key : ∀ (tr : List (Dev × Op)) (c c' : Cache) (s z : W), Geo c b → Wf c →
      c.roi.stats.prof = c.stats.prof → c.roi.start = s → c.roi.stop = s + z → c.runOps tr = .ok c' →
      c'.roi.stats.references = c.roi.stats.references + regionCount closed c.stats.prof s z (tr.map (·.2)) := by
    intro tr
    induction tr with
    | nil => intro c c' s z _ _ _ _ _ h; have := Res.ok.inj h; subst this; rfl
    | cons q t ih =>
      intro c c' s z hg hW hp hs hz h
      obtain ⟨d, o⟩ := q
      unfold runOps at h
      cases hx : o.apply c d with
      | ub k => rw [hx] at h; cases h
      | abort => rw [hx] at h; cases h
      | ok c1 =>
      rw [hx] at h
      obtain ⟨sm, w⟩ := apply_wf hg hW hx
      obtain ⟨p1, p2, p3, p4⟩ := roi_ref_step hg hW hx hp
      have hon := (stat_step hg hW hx).1
      have hhas : c.roi.has o.addr = closed s z o.addr := by
        unfold Roi.has closed; rw [hs, hz]
      rw [hhas] at p2
      by_cases hro : ∃ s' z', o = .roi s' z'
      · obtain ⟨s', z', rfl⟩ := hro
        obtain ⟨e1, e2⟩ := p3 s' z' rfl
        have := ih c1 c' (toNorm s') z' (sm.geo hg) w p1 e1 e2 h
        rw [this, p2, hon]
        simp only [List.map_cons, regionCount, onAfter]
        omega
      · have hro' : ∀ s' z', o ≠ .roi s' z' := fun s' z' e => hro ⟨s', z', e⟩
        obtain ⟨e1, e2⟩ := p4 hro'
        have := ih c1 c' s z (sm.geo hg) w p1 (e1.trans hs) (e2.trans hz) h
        rw [this, p2, hon]
        simp only [List.map_cons]
        cases o with
        | roi s' z' => exact absurd rfl (hro' s' z')
        | rd a n => simp only [regionCount]; omega
        | wr a v n => simp only [regionCount]; omega
        | lcl a => simp only [regionCount]; omega
        | rel a => simp only [regionCount]; omega
        | prof b => simp only [regionCount]; omega
  obtain ⟨e1, e2, _⟩ := new_stats hn
  have := key tr c0 c 0#32 0#32 hg (new_wf hn) (by rw [e1, e2]) (by rw [e2]) (by rw [e2]; rfl) h
  rw [this, e1, e2]
  simp [Stats.init]

/-- `[start, start + size)` as a set of numbers -/
def halfOpen (s z a : W) : Bool := decide (s.toNat ≤ a.toNat ∧ a.toNat < s.toNat + z.toNat)

/-- no region wraps, and no lookup is exactly at the end of the region then set -/
def OffEnd (s z : W) : List Op → Prop
  | [] => True
  | .roi s' z' :: t => (toNorm s').toNat + z'.toNat < 2 ^ 32 ∧ OffEnd (toNorm s') z' t
  | o :: t => (o.lookup = true → o.addr.toNat ≠ s.toNat + z.toNat) ∧ OffEnd s z t

/-- **C47 (partial).**  The count is that of `[start, start + size)` as long as no access is made at
`start + size` itself (before a region is set, at address 0) and regions do not wrap around.  Missing: those
accesses, which the code counts — see `roi_end_counted`. -/
theorem roi_counts_partial {g : Cfg} {c0 c : Cache} (hn : new g = some c0) (tr : List (Dev × Op))
    (h : c0.runOps tr = .ok c) (he : OffEnd 0#32 0#32 (tr.map (·.2))) :
    c.roi.stats.references = regionCount halfOpen false 0#32 0#32 (tr.map (·.2)) := by
  rw [roi_counts_closed hn tr h]
  have key : ∀ (ops : List Op) (on : Bool) (s z : W), s.toNat + z.toNat < 2 ^ 32 → OffEnd s z ops →
      regionCount closed on s z ops = regionCount halfOpen on s z ops := by
    intro ops
    induction ops with
    | nil => intro on s z _ _; rfl
    | cons o t ih =>
      intro on s z hsz ho
      have one : ∀ a : W, a.toNat ≠ s.toNat + z.toNat → closed s z a = halfOpen s z a := by
        intro a ha
        unfold closed halfOpen
        rw [BitVec.ule, BitVec.ule, ← Bool.decide_and]
        apply decide_eq_decide.2
        rw [BitVec.toNat_add, Nat.mod_eq_of_lt hsz]
        omega
      cases o with
      | roi s' z' =>
        simp only [regionCount, Op.lookup, Bool.false_and, ind_false]
        rw [ih on (toNorm s') z' ho.1 ho.2]
      | rd a n => simp only [regionCount, Op.addr]; rw [one a (ho.1 rfl), ih _ s z hsz ho.2]
      | wr a v n => simp only [regionCount, Op.addr]; rw [one a (ho.1 rfl), ih _ s z hsz ho.2]
      | lcl a => simp only [regionCount, Op.addr]; rw [one a (ho.1 rfl), ih _ s z hsz ho.2]
      | rel a => simp only [regionCount, Op.lookup, Bool.false_and, ind_false]; rw [ih _ s z hsz ho.2]
      | prof b => simp only [regionCount, Op.lookup, Bool.false_and, ind_false]; rw [ih _ s z hsz ho.2]
  exact key _ false 0#32 0#32 (by decide) he

/-- **Exception.**  An access at `start + size`, outside the region, is counted. -/
theorem roi_end_counted :
    Ex.obs (Ex.cfgP 1 2) [.prof true, .roi 0x100#32 0x40#32, .rd 0x140#32 4] (fun c => c.roi.stats.references)
      = some 1 ∧
    regionCount halfOpen false 0#32 0#32 [.prof true, .roi 0x100#32 0x40#32, .rd 0x140#32 4] = 0 := by
  decide +kernel

/-- a region with accesses before, in and after it -/
example : Ex.obs (Ex.cfgP 1 2) [.prof true, .rd 0x100#32 4, .roi 0x80000100#32 0x40#32, .rd 0xfc#32 4, .rd 0x100#32 4,
      .wr 0x13c#32 1#32 4, .rd 0x144#32 4, .prof false, .rd 0x104#32 4] (fun c => c.roi.stats.references)
    = some 2 := by decide +kernel
example : OffEnd 0#32 0#32 [.prof true, .rd 0x100#32 4, .roi 0x80000100#32 0x40#32, .rd 0xfc#32 4, .rd 0x100#32 4,
      .wr 0x13c#32 1#32 4, .rd 0x144#32 4, .prof false, .rd 0x104#32 4] := by
  simp [OffEnd, Op.lookup, Op.addr, toNorm]

end Ama.Cache
