import Verif.Lemmas.CacheRefine
/-!
# C41, C43: hits and misses, locked lines
-/
namespace Ama.Cache

/-! ## C41: textbook LRU -/

/-- **C41.**  For every power-of-two number of sets, every number of ways, every sequence of requests and
every memory behind the cache: the next read, store or lock request hits exactly when its line is in the
recency list of its set, where the lists evolve by move-to-front, filling free ways, and dropping the least
recently used unlocked line. -/
theorem cache_is_lru {g : Cfg} {c0 c c' : Cache} (hn : new g = some c0) (hp : g.inPol = .update)
    (tr : List (Dev × Op)) (h : c0.runOps tr = .ok c) {d : Dev} {o : Op} (ho : o.apply c d = .ok c') {a : W}
    (ha : (∃ n, o = .rd a n) ∨ (∃ v n, o = .wr a v n) ∨ o = .lcl a) :
    c'.hws = some (Spec.Lru.has
      (Spec.Lru.run g.sets g.ways (tr.map (·.2.act)) (a.toNat / 64 % g.sets)) (a.toNat / 64)) := by
  obtain ⟨⟨b, hg⟩, hW, hc, hR⟩ := run_refines hn hp tr h
  have hi : c.idx a = a.toNat / 64 % g.sets := by rw [idx_eq hg, hc]; rfl
  have hh := has_iff hg (hR (c.idx a))
  rw [hi] at hh
  have hreq : ∃ n op m, o.req = some (a, n, op, m) ∧ m ≠ .rel := by
    rcases ha with ⟨n, rfl⟩ | ⟨v, n, rfl⟩ | rfl
    · exact ⟨n, .read, .none, rfl, by simp⟩
    · exact ⟨n, .write, .none, rfl, by simp⟩
    · exact ⟨0, .read, .lcl, rfl, by simp⟩
  obtain ⟨n, op, m, hr, hm⟩ := hreq
  rcases apply_cases hg hW ho hr with ⟨w, hw, _, f⟩ | ⟨hno, _, v, _, f⟩ | ⟨w, _, hm', _⟩ | ⟨_, hm', _⟩
  · rw [f.2.1]
    congr 1
    exact (hh.2 ⟨w, hw⟩).symm
  · rw [f.2.1]
    congr 1
    symm
    rw [Bool.eq_false_iff]
    intro hx
    obtain ⟨w, hw⟩ := hh.1 hx
    exact hno w hw
  · exact absurd hm' hm
  · exact absurd hm' hm

/-- the lines a set holds, and which of them are locked, are those of its list -/
theorem cache_contents {g : Cfg} {c0 c : Cache} (hn : new g = some c0) (hp : g.inPol = .update)
    (tr : List (Dev × Op)) (h : c0.runOps tr = .ok c) (i : Nat) (x : Nat) (l : Bool) :
    (x, l) ∈ Spec.Lru.run g.sets g.ways (tr.map (·.2.act)) i ↔
      ∃ w, w < g.ways ∧ (c.arr i w).valid = true ∧ (c.arr i w).tag.toNat * g.sets + i = x ∧
        (c.arr i w).scp = l := by
  obtain ⟨⟨b, hg⟩, hW, hc, hR⟩ := run_refines hn hp tr h
  have := R_mem (hR i) (x, l)
  unfold key at this
  rw [hc] at this
  exact this

/-! ### Every sequence runs without line data -/

theorem serve_perf {c : Cache} (hf : c.cfg.func = false) (d : Dev) (a : W) (n : Nat) (op : MemOp) (m : Scp) :
    ∃ r, c.serve d a n op m = .ok r := by
  have hacc : ∀ (c : Cache) w, c.cfg.func = false → ∃ c', c.access d n op w = .ok c' := by
    intro c w hf
    have hnf : ¬ c.cfg.func = true := by rw [hf]; simp
    cases op with
    | read => exact ⟨c, by simp only [access, readFromCache, if_neg hnf]⟩
    | write =>
      simp only [access, writeToCache, if_neg hnf, Res.bind_ok]
      split <;> exact ⟨_, rfl⟩
  cases hs : scan (c.arr (c.idx a)) (c.tg a) c.cfg.ways 0 0 0 with
  | hit w =>
    by_cases hm : m = .rel
    · subst hm
      unfold serve reference counted
      simp only [ne_eq, not_true_eq_false, if_false, hs, if_true, Res.bind_ok]
      exact ⟨_, rfl⟩
    · rw [serve_hit_eq d n op hm hs]
      obtain ⟨⟨q1, _⟩, _⟩ := hitSt_facts c a n op hm w
      obtain ⟨c', h⟩ := hacc (c.hitSt a n op m w) w (by rw [q1]; exact hf)
      rw [h]
      exact ⟨_, rfl⟩
  | none v l =>
    by_cases hm : m = .rel
    · subst hm
      unfold serve reference counted
      simp only [ne_eq, not_true_eq_false, if_false, hs, if_true, Res.bind_ok]
      exact ⟨_, rfl⟩
    · rw [serve_miss_eq d n op hm hs]
      have hbb : c.counted a n op m =
          { c with stats := c.stats.referenced op n, roi := c.roi.on a (·.referenced op n) } := if_pos hm
      have k0 : (c.missSt a n op m v l).cfg = c.cfg := by unfold missSt; rw [hbb]; rfl
      generalize c.missSt a n op m v l = c0 at *
      have hnf : ¬ ((c0.cfg.func && c0.cfg.verify) = true) := by rw [k0, hf]; simp
      have hev : ∃ c1, c0.evict d = .ok c1 := by
        unfold evict
        simp only
        split
        · split
          · simp only [Res.bind_ok]; exact ⟨_, rfl⟩
          · exact ⟨_, rfl⟩
        · exact ⟨_, rfl⟩
      obtain ⟨c1, h1⟩ := hev
      obtain ⟨⟨⟨a1, _⟩, _⟩, _⟩ := evict_frame h1
      obtain ⟨⟨⟨b1, _⟩, _⟩, _⟩ := install_facts c1 m
      have hfi : ¬ (c1.install m).cfg.func = true := by rw [b1, a1, k0, hf]; simp
      rw [h1]
      simp only [Res.bind_ok, fill, if_neg hfi]
      obtain ⟨c', h⟩ := hacc (c1.install m) (c1.install m).ccl.vWay (by rw [b1, a1, k0]; exact hf)
      rw [h]
      exact ⟨_, rfl⟩

/-- without line data (`CACHE_MODE_PERF`) every sequence of requests runs, whatever the memory; the only
exception is the status of a release that comes before any lookup -/
theorem perf_runs {g : Cfg} {c0 : Cache} (hn : new g = some c0) (hf : g.func = false) :
    ∀ (tr : List (Dev × Op)), (∀ pre d a post, tr = pre ++ (d, .rel a) :: post →
      ∃ p ∈ pre, (∃ x n, p.2 = .rd x n) ∨ (∃ x v n, p.2 = .wr x v n) ∨ ∃ x, p.2 = .lcl x) →
    ∃ c, c0.runOps tr = .ok c := by
  have key : ∀ (tr : List (Dev × Op)) (c : Cache) (b : Nat), Geo c b → Wf c → c.cfg.func = false →
      (c.scpStatus ≠ none ∨ ∀ pre d a post, tr = pre ++ (d, .rel a) :: post →
        ∃ p ∈ pre, (∃ x n, p.2 = .rd x n) ∨ (∃ x v n, p.2 = .wr x v n) ∨ ∃ x, p.2 = .lcl x) →
      ∃ c', c.runOps tr = .ok c' := by
    intro tr
    induction tr with
    | nil => intro c b _ _ _ _; exact ⟨c, rfl⟩
    | cons p t ih =>
      intro c b hg hW hf hs
      obtain ⟨d, o⟩ := p
      have hset : (∀ a, o ≠ .rel a) ∨ c.scpStatus ≠ none := by
        rcases hs with h | h
        · exact .inr h
        · left
          intro a ha
          subst ha
          obtain ⟨_, hh, _⟩ := h [] d a t rfl
          cases hh
      have hst : ∀ {a n op m} {r : Ref × Cache}, c.serve d a n op m = .ok r →
          (m ≠ .rel → r.2.scpStatus ≠ none) ∧ (c.scpStatus ≠ none → r.2.scpStatus ≠ none) := by
        intro a n op m r h
        rcases serve_cases hg hW h with ⟨w, _, _, _, _, _, _, _, e, _⟩ | ⟨_, _, _, v, _, _, _, _, _, e, _⟩ |
          ⟨w, _, hm, _, _, _, _, e, _⟩ | ⟨_, hm, _, _, _, _, e, _⟩
        · rw [e]; simp
        · rw [e]; simp
        · rw [e]; simp
        · rw [e]; exact ⟨fun hh => absurd hm hh, id⟩
      have hstep : ∃ c1, o.apply c d = .ok c1 ∧
          (((∃ x n, o = .rd x n) ∨ (∃ x v n, o = .wr x v n) ∨ ∃ x, o = .lcl x) → c1.scpStatus ≠ none) ∧
          (c.scpStatus ≠ none → c1.scpStatus ≠ none) := by
        cases o with
        | rd a n =>
          obtain ⟨r, hr⟩ := serve_perf hf d a n .read .none
          obtain ⟨t1, t2⟩ := hst hr
          exact ⟨r.2, by simp only [Op.apply, Cache.rd, hr, Res.bind_ok], fun _ => t1 (by simp), t2⟩
        | wr a v n =>
          have hf' : ({ c with wrBuf := v } : Cache).cfg.func = false := hf
          obtain ⟨r, hr⟩ := serve_perf hf' d a n .write .none
          have hap : Op.apply c d (.wr a v n) = .ok r.2 := by simp only [Op.apply, Cache.wr, hr, Res.bind_ok]
          refine ⟨r.2, hap, ?_⟩
          have : r.2.scpStatus ≠ none := by
            rcases serve_cases (c := { c with wrBuf := v }) hg hW hr with ⟨w, _, _, _, _, _, _, _, e, _⟩ |
              ⟨_, _, _, v, _, _, _, _, _, e, _⟩ | ⟨w, _, hm, _⟩ | ⟨_, hm, _⟩
            · rw [e]; simp
            · rw [e]; simp
            · cases hm
            · cases hm
          exact ⟨fun _ => this, fun _ => this⟩
        | lcl a =>
          obtain ⟨r, hr⟩ := serve_perf hf d a 0 .read .lcl
          obtain ⟨t1, t2⟩ := hst hr
          obtain ⟨sb, hsb⟩ := Option.ne_none_iff_exists'.1 (t1 (by simp))
          exact ⟨r.2, by simp only [Op.apply, scpLcl, hr, Res.bind_ok, hsb], fun _ => t1 (by simp), t2⟩
        | rel a =>
          have hnn : c.scpStatus ≠ none := by
            rcases hset with h | h
            · exact absurd rfl (h a)
            · exact h
          obtain ⟨r, hr⟩ := serve_perf hf d a 0 .read .rel
          obtain ⟨t1, t2⟩ := hst hr
          obtain ⟨sb, hsb⟩ := Option.ne_none_iff_exists'.1 (t2 hnn)
          exact ⟨r.2, by simp only [Op.apply, scpRel, hr, Res.bind_ok, hsb], fun _ => t2 hnn, t2⟩
        | prof e => exact ⟨_, rfl, by simp, id⟩
        | roi s z => exact ⟨_, rfl, by simp, id⟩
      obtain ⟨c1, h1, s1, s2⟩ := hstep
      obtain ⟨sm, wf⟩ := apply_wf hg hW h1
      obtain ⟨c2, h2⟩ := ih c1 b (sm.geo hg) wf (by rw [sm.1]; exact hf) (by
        rcases hs with h | h
        · exact .inl (s2 h)
        · by_cases hl : (∃ x n, o = .rd x n) ∨ (∃ x v n, o = .wr x v n) ∨ ∃ x, o = .lcl x
          · exact .inl (s1 hl)
          · right
            intro pre d' a post he
            obtain ⟨x, hx, hlx⟩ := h ((d, o) :: pre) d' a post (by rw [he]; rfl)
            rcases List.mem_cons.1 hx with rfl | hx
            · exact absurd hlx hl
            · exact ⟨x, hx, hlx⟩)
      exact ⟨c2, by simp only [runOps, h1, Res.bind_ok, h2]⟩
  obtain ⟨hc, b, hg⟩ := new_geo hn
  exact fun tr hrel => key tr c0 b hg (new_wf hn) (by rw [hc]; exact hf) (.inr hrel)

/-! ## C43: locked lines -/

/-- line `x` is cached and locked -/
def Locked (c : Cache) (x : Nat) : Prop :=
  ∃ w, w < c.cfg.ways ∧ (c.arr (x % c.cfg.sets) w).valid = true ∧ (c.arr (x % c.cfg.sets) w).scp = true ∧
    (c.arr (x % c.cfg.sets) w).tag.toNat * c.cfg.sets + x % c.cfg.sets = x
/-- line `x` is cached -/
def Resident (c : Cache) (x : Nat) : Prop :=
  ∃ w, w < c.cfg.ways ∧ (c.arr (x % c.cfg.sets) w).valid = true ∧
    (c.arr (x % c.cfg.sets) w).tag.toNat * c.cfg.sets + x % c.cfg.sets = x

theorem resident_at {c : Cache} {b : Nat} (hg : Geo c b) (a : W) : Resident c (lineNo a) ↔ ∃ w, At c a w := by
  unfold Resident
  rw [← idx_eq hg]
  constructor
  · rintro ⟨w, h1, h2, h3⟩; exact ⟨w, key_at hg h1 h2 h3⟩
  · rintro ⟨w, hw⟩; exact ⟨w, hw.1, hw.2.1, at_key hg hw⟩

theorem locked_at {c : Cache} {b : Nat} (hg : Geo c b) (a : W) :
    Locked c (lineNo a) ↔ ∃ w, At c a w ∧ (c.arr (c.idx a) w).scp = true := by
  unfold Locked
  rw [← idx_eq hg]
  constructor
  · rintro ⟨w, h1, h2, h4, h3⟩; exact ⟨w, key_at hg h1 h2 h3, h4⟩
  · rintro ⟨w, hw, h4⟩; exact ⟨w, hw.1, hw.2.1, h4, at_key hg hw⟩

/-- one request that is not a release of the line keeps it locked -/
theorem locked_step {c c' : Cache} {b : Nat} (hg : Geo c b) (hW : Wf c) {d : Dev} {o : Op}
    (ho : o.apply c d = .ok c') {x : Nat} (hx : Locked c x) (hr : ∀ a, o = .rel a → lineNo a ≠ x) :
    Locked c' x := by
  obtain ⟨sm, _⟩ := apply_wf hg hW ho
  obtain ⟨w, h1, h2, h3, h4⟩ := hx
  refine ⟨w, by rw [sm.1]; exact h1, ?_⟩
  rw [sm.1]
  cases hq : o.req with
  | none =>
    cases o with
    | prof e => simp only [Op.apply, Res.ok.injEq] at ho; subst ho; exact ⟨h2, h3, h4⟩
    | roi s z => simp only [Op.apply, Res.ok.injEq] at ho; subst ho; exact ⟨h2, h3, h4⟩
    | rd => cases hq
    | wr => cases hq
    | lcl => cases hq
    | rel => cases hq
  | some q =>
    obtain ⟨a, n, op, m⟩ := q
    rcases apply_cases hg hW ho hq with ⟨w', hw', hm, f1, _, _, _, _, data, fa⟩ |
      ⟨hno, _, v, ⟨q1, q2, _⟩, f1, _, _, _, _, data, fa⟩ | ⟨w', hw', hm, f1, _, _, _, _, fa⟩ |
      ⟨_, _, f1, _, _, _, _, fa⟩
    · obtain ⟨a1, a2, a3, a4, a5, a6⟩ := fa (x % c.cfg.sets) w
      rw [a1, a3, a5]
      refine ⟨h2, ?_, h4⟩
      split
      · rename_i e
        obtain ⟨e1, e2⟩ := e
        rw [← e1, ← e2, h3]
        cases m <;> simp [lockNew] at hm ⊢
      · exact h3
    · obtain ⟨a1, a2, a3, a4, a5, a6⟩ := fa (x % c.cfg.sets) w
      have hne : ¬ (x % c.cfg.sets = c.idx a ∧ w = v) := by
        rintro ⟨e1, e2⟩
        rw [← e1, ← e2, h3] at q2
        cases q2
      rw [a1, a3, a5, if_neg hne, if_neg hne, h2]
      exact ⟨rfl, h3, h4⟩
    · have hne : ¬ (x % c.cfg.sets = c.idx a ∧ w = w') := by
        rintro ⟨e1, e2⟩
        subst hm
        have hor : o = .rel a := by
          cases o <;> simp [Op.req] at hq
          rw [hq.1]
        refine hr a hor ?_
        rw [← at_key hg hw', ← h4, e1, e2]
        rfl
      rw [fa, if_neg hne]
      exact ⟨h2, h3, h4⟩
    · rw [fa]
      exact ⟨h2, h3, h4⟩

/-- **C43, residency.**  Once a line is locked it stays cached and locked through every sequence of
requests that does not release that line, under both insertion policies. -/
theorem locked_stays {g : Cfg} {c0 c1 c2 : Cache} (hn : new g = some c0) (tr1 tr2 : List (Dev × Op))
    (h1 : c0.runOps tr1 = .ok c1) (h2 : c1.runOps tr2 = .ok c2) {a : W} (hl : Locked c1 (a.toNat / 64))
    (hrel : ∀ p ∈ tr2, ∀ x : W, p.2 = .rel x → x.toNat / 64 ≠ a.toNat / 64) : Locked c2 (a.toNat / 64) := by
  obtain ⟨hc, b, hg⟩ := new_geo hn
  obtain ⟨hg1, hW1, _⟩ := runOps_ind (P := fun _ => True) (fun _ _ _ _ _ _ _ _ => trivial) tr1 c0 c1 hg
    (new_wf hn) trivial h1
  have key : ∀ (tr : List (Dev × Op)) (c c' : Cache), Geo c b → Wf c → Locked c (a.toNat / 64) →
      (∀ p ∈ tr, ∀ x : W, p.2 = .rel x → x.toNat / 64 ≠ a.toNat / 64) → c.runOps tr = .ok c' →
      Locked c' (a.toNat / 64) := by
    intro tr
    induction tr with
    | nil => intro c c' _ _ hl _ h; have := Res.ok.inj h; subst this; exact hl
    | cons p t ih =>
      intro c c' hg hW hl hr h
      obtain ⟨d, o⟩ := p
      unfold runOps at h
      cases hx : o.apply c d with
      | ok c1 =>
        rw [hx] at h
        obtain ⟨s, w⟩ := apply_wf hg hW hx
        exact ih c1 c' (s.geo hg) w (locked_step hg hW hx hl (fun x e => hr (d, o) (by simp) x e))
          (fun p hp => hr p (by simp [hp])) h
      | ub k => rw [hx] at h; cases h
      | abort => rw [hx] at h; cases h
  exact key tr2 c1 c2 hg1 hW1 hl hrel h2

/-- **C43, residency as a client sees it.**  A read or store to any address of a locked line hits. -/
theorem locked_hits {g : Cfg} {c0 c c' : Cache} (hn : new g = some c0) (tr : List (Dev × Op))
    (h : c0.runOps tr = .ok c) {a x : W} (hl : Locked c (a.toNat / 64)) (hx : x.toNat / 64 = a.toNat / 64)
    {d : Dev} {o : Op} (ho : o.apply c d = .ok c')
    (hxo : (∃ n, o = .rd x n) ∨ (∃ v n, o = .wr x v n)) : c'.hws = some true := by
  obtain ⟨hc, b, hg⟩ := new_geo hn
  obtain ⟨hg, hW, _⟩ := runOps_ind (P := fun _ => True) (fun _ _ _ _ _ _ _ _ => trivial) tr c0 c hg
    (new_wf hn) trivial h
  have hl' : Locked c (lineNo x) := by
    show Locked c (x.toNat / 64)
    rw [hx]; exact hl
  obtain ⟨w, hw, _⟩ := (locked_at hg x).1 hl'
  have hreq : ∃ n op, o.req = some (x, n, op, .none) := by
    rcases hxo with ⟨n, rfl⟩ | ⟨v, n, rfl⟩
    · exact ⟨n, .read, rfl⟩
    · exact ⟨n, .write, rfl⟩
  obtain ⟨n, op, hr⟩ := hreq
  rcases apply_cases hg hW ho hr with ⟨w, _, _, f⟩ | ⟨hno, _⟩ | ⟨_, _, hm, _⟩ | ⟨_, hm, _⟩
  · exact f.2.1
  · exact absurd hw (hno w)
  · cases hm
  · cases hm

/-- **C43, the limit.**  After any sequence every set has at most `ways - 1` locked lines. -/
theorem locks_bounded {g : Cfg} {c0 c : Cache} (hn : new g = some c0) (tr : List (Dev × Op))
    (h : c0.runOps tr = .ok c) (i : Nat) :
    (List.range g.ways).countP (fun w => (c.arr i w).scp) ≤ g.ways - 1 := by
  obtain ⟨hc, b, hg⟩ := new_geo hn
  obtain ⟨_, hW, hcc⟩ := runOps_ind (b := b) (P := fun c => c.cfg = g) (fun c c' d o hg hW hp ho => by
    rw [(apply_wf hg hW ho).1.1]; exact hp) tr c0 c hg (new_wf hn) hc h
  have := (hW i).2.2.2
  rw [scpCount_countP, hcc] at this
  exact this

/-- **C43, allocation.**  After any sequence of requests, every read, store and lock request leaves its line
cached: there is always a way for it. -/
theorem access_allocates {g : Cfg} {c0 c c' : Cache} (hn : new g = some c0) (tr : List (Dev × Op))
    (h : c0.runOps tr = .ok c) {d : Dev} {o : Op} (ho : o.apply c d = .ok c') {a : W}
    (ha : (∃ n, o = .rd a n) ∨ (∃ v n, o = .wr a v n) ∨ o = .lcl a) : Resident c' (a.toNat / 64) := by
  obtain ⟨hc, b, hg⟩ := new_geo hn
  obtain ⟨hg, hW, _⟩ := runOps_ind (P := fun _ => True) (fun _ _ _ _ _ _ _ _ => trivial) tr c0 c hg
    (new_wf hn) trivial h
  have hreq : ∃ n op m, o.req = some (a, n, op, m) ∧ m ≠ .rel := by
    rcases ha with ⟨n, rfl⟩ | ⟨v, n, rfl⟩ | rfl
    · exact ⟨n, .read, .none, rfl, by simp⟩
    · exact ⟨n, .write, .none, rfl, by simp⟩
    · exact ⟨0, .read, .lcl, rfl, by simp⟩
  obtain ⟨n, op, m, hr, hm⟩ := hreq
  obtain ⟨sm, _⟩ := apply_wf hg hW ho
  have hg' := sm.geo hg
  have hi : c'.idx a = c.idx a := by rw [idx_eq hg', idx_eq hg, sm.1]
  have ht : c'.tg a = c.tg a := by unfold tg; rw [sm.2.2.2.1]
  refine (resident_at hg' a).2 ?_
  rcases apply_cases hg hW ho hr with ⟨w, hw, _, _, _, _, _, _, data, fa⟩ |
    ⟨hno, _, v, hv, _, _, _, _, _, data, fa⟩ | ⟨w, _, hm', _⟩ | ⟨_, hm', _⟩
  · obtain ⟨a1, a2, a3, a4, a5, a6⟩ := fa (c.idx a) w
    refine ⟨w, by rw [sm.1]; exact hw.1, ?_, ?_⟩
    · rw [hi, a1]; exact hw.2.1
    · rw [hi, a5, ht]; exact hw.2.2
  · obtain ⟨a1, a2, a3, a4, a5, a6⟩ := fa (c.idx a) v
    refine ⟨v, by rw [sm.1]; exact hv.1, ?_, ?_⟩
    · rw [hi, a1]; simp
    · rw [hi, a5, ht, if_pos ⟨rfl, rfl⟩]
  · exact absurd hm' hm
  · exact absurd hm' hm

/-- **C43, status of a lock request (partial).**  If the line was not locked before, `scp.lcl` reports success
exactly when the line is locked afterwards.  Missing: a line that is already locked while the set is at its
limit — see `lcl_again_fails`. -/
theorem lcl_status_partial {g : Cfg} {c0 c c' : Cache} (hn : new g = some c0) (tr : List (Dev × Op))
    (h : c0.runOps tr = .ok c) {d : Dev} {a : W} {s : Bool} (ho : c.scpLcl d a = .ok (s, c'))
    (hnl : ¬ Locked c (a.toNat / 64)) : s = true ↔ Locked c' (a.toNat / 64) := by
  obtain ⟨hc, b, hg⟩ := new_geo hn
  obtain ⟨hg, hW, _⟩ := runOps_ind (P := fun _ => True) (fun _ _ _ _ _ _ _ _ => trivial) tr c0 c hg
    (new_wf hn) trivial h
  unfold scpLcl at ho
  cases hs : c.serve d a 0 .read .lcl with
  | ub k => rw [hs] at ho; cases ho
  | abort => rw [hs] at ho; cases ho
  | ok r =>
    rw [hs] at ho
    simp only [Res.bind_ok] at ho
    have hap : Op.apply c d (.lcl a) = .ok r.2 := by
      simp only [Op.apply, scpLcl, hs, Res.bind_ok]
      cases hq : r.2.scpStatus with
      | none => rw [hq] at ho; cases ho
      | some x => rfl
    obtain ⟨sm, hW'⟩ := apply_wf hg hW hap
    have hg' := sm.geo hg
    have hi : r.2.idx a = c.idx a := by rw [idx_eq hg', idx_eq hg, sm.1]
    have ht : r.2.tg a = c.tg a := by unfold tg; rw [sm.2.2.2.1]
    have hfin : ∀ w, w < c.cfg.ways → (r.2.arr (c.idx a) w).valid = true → (r.2.arr (c.idx a) w).tag = c.tg a →
        r.2.scpStatus = some (r.2.arr (c.idx a) w).scp → (s = true ↔ Locked c' (a.toNat / 64)) := by
      intro w h1 h2 h3 h4
      rw [h4] at ho
      simp only [Res.ok.injEq, Prod.mk.injEq] at ho
      obtain ⟨rfl, rfl⟩ := ho
      have hat : At r.2 a w := ⟨by rw [sm.1]; exact h1, by rw [hi]; exact h2, by rw [hi, ht]; exact h3⟩
      rw [show a.toNat / 64 = lineNo a from rfl, locked_at hg' a]
      rw [hi]
      constructor
      · intro hh; exact ⟨w, hat, hh⟩
      · rintro ⟨w', hw', hh⟩
        obtain ⟨_, _, w3, _⟩ := hW' (r.2.idx a)
        have : w' = w := w3 w' w hw'.1 hat.1 hw'.2.1 hat.2.1 (hw'.2.2.trans hat.2.2.symm)
        rw [← this]; exact hh
    rcases serve_cases hg hW hs with ⟨w, hw, _, _, f1, _, _, _, fst, data, fa⟩ |
      ⟨hno, _, _, v, hv, f1, _, _, _, fst, data, fa⟩ | ⟨w, _, hm', _⟩ | ⟨_, hm', _⟩
    · obtain ⟨a1, a2, a3, a4, a5, a6⟩ := fa (c.idx a) w
      have hsc : (c.arr (c.idx a) w).scp = false := by
        rw [Bool.eq_false_iff]
        intro hh
        exact hnl ((locked_at hg a).2 ⟨w, hw, hh⟩)
      refine hfin w hw.1 (a1.trans hw.2.1) (a5.trans hw.2.2) ?_
      rw [fst, a3, if_pos ⟨rfl, rfl⟩, hsc]
      simp [lockNew]
    · obtain ⟨a1, a2, a3, a4, a5, a6⟩ := fa (c.idx a) v
      refine hfin v hv.1 (by rw [a1]; simp) (by rw [a5, if_pos ⟨rfl, rfl⟩]) ?_
      rw [fst, a3, if_pos ⟨rfl, rfl⟩]
      simp [lockNew]
    · cases hm'
    · cases hm'

/-- **C43, status of a release (partial).**  If the line is cached, `scp.rel` reports success exactly when
the line was locked, and it is not locked afterwards.  Missing: a line that is not cached — see
`rel_absent_stale`. -/
theorem rel_status_partial {g : Cfg} {c0 c c' : Cache} (hn : new g = some c0) (tr : List (Dev × Op))
    (h : c0.runOps tr = .ok c) {d : Dev} {a : W} {s : Bool} (ho : c.scpRel d a = .ok (s, c'))
    (hres : Resident c (a.toNat / 64)) :
    (s = true ↔ Locked c (a.toNat / 64)) ∧ ¬ Locked c' (a.toNat / 64) ∧ Resident c' (a.toNat / 64) := by
  obtain ⟨hc, b, hg⟩ := new_geo hn
  obtain ⟨hg, hW, _⟩ := runOps_ind (P := fun _ => True) (fun _ _ _ _ _ _ _ _ => trivial) tr c0 c hg
    (new_wf hn) trivial h
  obtain ⟨w0, hw0⟩ := (resident_at hg a).1 hres
  unfold scpRel at ho
  cases hs : c.serve d a 0 .read .rel with
  | ub k => rw [hs] at ho; cases ho
  | abort => rw [hs] at ho; cases ho
  | ok r =>
    rw [hs] at ho
    simp only [Res.bind_ok] at ho
    rcases serve_cases hg hW hs with ⟨w, _, hm', _⟩ | ⟨_, hm', _⟩ | ⟨w, hw, _, sm, _, _, _, fst, fa⟩ | ⟨hno, _⟩
    · exact absurd rfl hm'
    · exact absurd rfl hm'
    · rw [fst] at ho
      simp only [Res.ok.injEq, Prod.mk.injEq] at ho
      obtain ⟨rfl, rfl⟩ := ho
      have hg' := sm.geo hg
      have hi : r.2.idx a = c.idx a := by rw [idx_eq hg', idx_eq hg, sm.1]
      have ht : r.2.tg a = c.tg a := by unfold tg; rw [sm.2.2.2.1]
      obtain ⟨_, _, w3, _⟩ := hW (c.idx a)
      have huniq : ∀ w', At c a w' → w' = w := fun w' hw' =>
        w3 w' w hw'.1 hw.1 hw'.2.1 hw.2.1 (hw'.2.2.trans hw.2.2.symm)
      have hat : ∀ w', At r.2 a w' → At c a w' := by
        rintro w' ⟨h1, h2, h3⟩
        rw [hi] at h2 h3
        rw [ht] at h3
        rw [fa] at h2 h3
        refine ⟨by rw [← sm.1]; exact h1, ?_, ?_⟩
        · split at h2 <;> exact h2
        · split at h3 <;> exact h3
      refine ⟨?_, ?_, ?_⟩
      · rw [show a.toNat / 64 = lineNo a from rfl, locked_at hg a]
        constructor
        · intro hh; exact ⟨w, hw, hh⟩
        · rintro ⟨w', hw', hh⟩
          rw [← huniq w' hw']; exact hh
      · rw [show a.toNat / 64 = lineNo a from rfl, locked_at hg' a]
        rintro ⟨w', hw', hh⟩
        have := huniq w' (hat w' hw')
        subst this
        rw [hi, fa, if_pos ⟨rfl, rfl⟩] at hh
        cases hh
      · refine (resident_at hg' a).2 ⟨w, by rw [sm.1]; exact hw.1, ?_, ?_⟩
        · rw [hi, fa, if_pos ⟨rfl, rfl⟩]; exact hw.2.1
        · rw [hi, ht, fa, if_pos ⟨rfl, rfl⟩]; exact hw.2.2
    · exact absurd hw0 (hno w0)

/-- what a release of an absent line reports: whatever the previous lookup left behind -/
theorem rel_absent {g : Cfg} {c0 c c' : Cache} (hn : new g = some c0) (tr : List (Dev × Op))
    (h : c0.runOps tr = .ok c) {d : Dev} {a : W} {s : Bool} (ho : c.scpRel d a = .ok (s, c'))
    (hres : ¬ Resident c (a.toNat / 64)) : c.scpStatus = some s ∧ c'.arr = c.arr := by
  obtain ⟨hc, b, hg⟩ := new_geo hn
  obtain ⟨hg, hW, _⟩ := runOps_ind (P := fun _ => True) (fun _ _ _ _ _ _ _ _ => trivial) tr c0 c hg
    (new_wf hn) trivial h
  unfold scpRel at ho
  cases hs : c.serve d a 0 .read .rel with
  | ub k => rw [hs] at ho; cases ho
  | abort => rw [hs] at ho; cases ho
  | ok r =>
    rw [hs] at ho
    simp only [Res.bind_ok] at ho
    rcases serve_cases hg hW hs with ⟨w, _, hm', _⟩ | ⟨_, hm', _⟩ | ⟨w, hw, _⟩ | ⟨hno, _, _, _, _, _, fst, fa⟩
    · exact absurd rfl hm'
    · exact absurd rfl hm'
    · exact absurd ((resident_at hg a).2 ⟨w, hw⟩) hres
    · cases hq : c.scpStatus with
      | none => rw [fst, hq] at ho; cases ho
      | some x =>
        rw [fst, hq] at ho
        simp only [Res.ok.injEq, Prod.mk.injEq] at ho
        obtain ⟨rfl, rfl⟩ := ho
        exact ⟨rfl, fa⟩

/-! ### Cases -/

namespace Ex
/-- a data cache without line data -/
def cfgP (sets ways : Nat) : Cfg := ⟨.data, sets, ways, .update, .wb, false, false⟩
def noMem : Dev := ⟨0, fun _ => 0#8⟩
/-- run requests and look at the result -/
def obs {α : Type} (g : Cfg) (ops : List Op) (f : Cache → α) : Option α :=
  match new g with
  | some c0 => (match c0.runOps (ops.map fun o => (noMem, o)) with | .ok c => some (f c) | _ => none)
  | none => none
/-- what the last of a list of requests reports: lock status, and which ways of set 0 are locked -/
def last (g : Cfg) (ops : List Op) (a : W) (rel : Bool) : Option (Bool × List Bool) :=
  match new g with
  | some c0 => (match c0.runOps (ops.map fun o => (noMem, o)) with
    | .ok c => (match (if rel then c.scpRel noMem a else c.scpLcl noMem a) with
      | .ok (s, c') => some (s, (List.range g.ways).map fun w => (c'.arr 0 w).scp)
      | _ => none)
    | _ => none)
  | none => none
end Ex

/-- three lines in one set of two ways: 0x000, 0x080, 0x100 -/
example : Ex.obs (Ex.cfgP 2 2) [.rd 0#32 4, .rd 0x80#32 4, .rd 0#32 4, .rd 0x100#32 4, .rd 0#32 4] (·.hws)
    = some (some true) := by decide +kernel
example : Ex.obs (Ex.cfgP 2 2) [.rd 0#32 4, .rd 0x80#32 4, .rd 0#32 4, .rd 0x100#32 4, .rd 0x80#32 4] (·.hws)
    = some (some false) := by decide +kernel
/-- a locked line survives being least recently used -/
example : Ex.obs (Ex.cfgP 2 2) [.lcl 0#32, .rd 0x80#32 4, .rd 0x100#32 4, .rd 0x180#32 4, .rd 0#32 4] (·.hws)
    = some (some true) := by decide +kernel
example : Ex.obs (Ex.cfgP 2 2) [.lcl 0#32, .rd 0x80#32 4, .rd 0x100#32 4, .rel 0#32, .rd 0x180#32 4, .rd 0#32 4]
    (·.hws) = some (some false) := by decide +kernel
example : Ex.last (Ex.cfgP 1 2) [.rd 0#32 4] 0#32 false = some (true, [false, true]) := by decide +kernel
example : Ex.last (Ex.cfgP 1 2) [.lcl 0#32] 0#32 true = some (true, [false, false]) := by decide +kernel
example : Ex.last (Ex.cfgP 1 2) [.lcl 0#32] 0x40#32 false = some (false, [false, true]) := by decide +kernel

/-- **Exception.**  Locking a line that is already locked reports failure when the set is at its limit,
although the line is locked afterwards. -/
theorem lcl_again_fails : Ex.last (Ex.cfgP 1 2) [.lcl 0#32] 0#32 false = some (false, [false, true]) := by
  decide +kernel

/-- **Exception.**  Releasing a line that is not cached reports the status left by the last lookup: after any
ordinary read it reports success although nothing was released. -/
theorem rel_absent_stale : Ex.last (Ex.cfgP 1 2) [.rd 0#32 4] 0x40#32 true = some (true, [false, false]) := by
  decide +kernel

/-- a direct-mapped cache has no lock to give -/
example : Ex.last (Ex.cfgP 4 1) [] 0#32 false = some (false, [false]) := by decide +kernel

example : ∃ c0 c1 c2, new (Ex.cfgP 1 2) = some c0 ∧ c0.runOps [(Ex.noMem, .lcl 0x40#32)] = .ok c1 ∧
    c1.runOps [(Ex.noMem, .rd 0#32 4), (Ex.noMem, .rel 0x80#32), (Ex.noMem, .wr 0x100#32 1#32 4)] = .ok c2 ∧
    Locked c2 1 := by
  obtain ⟨c0, h0⟩ : ∃ c0, new (Ex.cfgP 1 2) = some c0 := ⟨_, rfl⟩
  obtain ⟨c1, h1⟩ := perf_runs h0 rfl [(Ex.noMem, .lcl 0x40#32)] (by
    intro pre d a post he
    have : (d, Op.rel a) ∈ [(Ex.noMem, Op.lcl 0x40#32)] := by rw [he]; simp
    simp at this)
  obtain ⟨c2, h2⟩ := perf_runs h0 rfl ([(Ex.noMem, .lcl 0x40#32)] ++
      [(Ex.noMem, .rd 0#32 4), (Ex.noMem, .rel 0x80#32), (Ex.noMem, .wr 0x100#32 1#32 4)]) (by
    intro pre d a post he
    cases pre with
    | nil => simp at he
    | cons p t =>
      have := congrArg List.head? he
      simp at this
      exact ⟨p, by simp, .inr (.inr ⟨0x40#32, by rw [← this]⟩)⟩)
  rw [runOps_append, h1] at h2
  refine ⟨c0, c1, c2, h0, h1, h2, ?_⟩
  refine locked_stays h0 _ _ h1 h2 (a := 0x40#32) ?_ (by
    intro p hp x hx
    simp at hp
    rcases hp with rfl | rfl | rfl <;> simp at hx
    subst hx; decide)
  have hs : ∃ s, c0.scpLcl Ex.noMem 0x40#32 = .ok (s, c1) := by
    simp only [runOps, Op.apply] at h1
    cases hq : c0.scpLcl Ex.noMem 0x40#32 with
    | ok r =>
      rw [hq] at h1
      simp only [Res.bind_ok, Res.ok.injEq] at h1
      exact ⟨r.1, by rw [← h1]⟩
    | ub k => rw [hq] at h1; cases h1
    | abort => rw [hq] at h1; cases h1
  obtain ⟨s, hs⟩ := hs
  refine (lcl_status_partial h0 [] rfl hs ?_).1 ?_
  · rintro ⟨w, _, hv, _⟩
    rw [new_arr h0] at hv
    cases hv
  · have hx : Ex.last (Ex.cfgP 1 2) [] 0x40#32 false = some (true, [false, true]) := by decide +kernel
    unfold Ex.last at hx
    rw [h0] at hx
    simp only [List.map_nil, runOps, hs] at hx
    simpa using congrArg (Option.map Prod.fst) hx

end Ama.Cache
