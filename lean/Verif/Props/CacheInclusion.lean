import Verif.Props.CacheStats
/-!
# C46: more ways never turn a hit into a miss
-/
namespace Ama.Cache
open Spec.Lru (SetL has useLine dropLru setLock step State)

/-! ## The LRU stack -/

/-- move to front, never evict -/
def toFront (K : List Nat) (x : Nat) : List Nat := x :: K.erase x
/-- the `n` most recently used lines, none locked -/
def front (n : Nat) (K : List Nat) : SetL := (K.take n).map (fun y => (y, false))

theorem erase_take (x : Nat) : ∀ (K : List Nat) (n : Nat), x ∈ K.take n → (K.take n).erase x = (K.erase x).take (n - 1)
  | [], n, h => by simp at h
  | y :: K, 0, h => by simp at h
  | y :: K, n + 1, h => by
    by_cases e : y = x
    · subst e; simp
    · have hm : x ∈ K.take n := by
        rw [List.take_succ_cons, List.mem_cons] at h
        rcases h with h | h
        · exact absurd h.symm e
        · exact h
      have ih := erase_take x K n hm
      have hn : n ≠ 0 := by rintro rfl; simp at hm
      obtain ⟨m, rfl⟩ := Nat.exists_eq_succ_of_ne_zero hn
      rw [List.take_succ_cons, List.erase_cons_tail (by simpa using e), ih, List.erase_cons_tail (by simpa using e)]
      rfl

theorem take_erase (x : Nat) : ∀ (K : List Nat) (n : Nat), x ∉ K.take n → (K.erase x).take n = K.take n
  | [], n, h => by simp
  | y :: K, 0, h => by simp
  | y :: K, n + 1, h => by
    rw [List.take_succ_cons, List.mem_cons, not_or] at h
    rw [List.erase_cons_tail (by simpa using fun e => h.1 e.symm), List.take_succ_cons, List.take_succ_cons,
      take_erase x K n h.2]

theorem eraseP_front (x : Nat) : ∀ K : List Nat, (K.map (fun y => (y, false))).eraseP (fun p => p.1 == x) =
    (K.erase x).map (fun y => (y, false))
  | [] => rfl
  | y :: K => by
    by_cases e : y = x
    · subst e; simp
    · rw [List.erase_cons_tail (by simpa using e), List.map_cons, List.eraseP_cons_of_neg (by simpa using e),
        eraseP_front x K, List.map_cons]

theorem find_front (x : Nat) : ∀ K : List Nat, (K.map (fun y => (y, false))).find? (fun p => p.1 == x) =
    if x ∈ K then some (x, false) else none
  | [] => rfl
  | y :: K => by
    by_cases e : y = x
    · subst e; simp
    · rw [List.map_cons, List.find?_cons_of_neg (by simpa using e), find_front x K]
      have : (x = y ∨ x ∈ K) ↔ x ∈ K := ⟨fun h => h.resolve_left (fun h => e h.symm), Or.inr⟩
      simp only [List.mem_cons, this]

theorem dropLru_front (K : List Nat) : dropLru (K.map (fun y => (y, false))) =
    (K.dropLast).map (fun y => (y, false)) := by
  unfold dropLru
  have h : ∀ L : List (Nat × Bool), (∀ p ∈ L, p.2 = false) → L.eraseP (fun p => !p.2) = L.tail := by
    intro L hL
    cases L with
    | nil => rfl
    | cons a t => rw [List.eraseP_cons_of_pos (by rw [hL a (by simp)]; rfl)]; rfl
  rw [h _ (fun p hp => by simp at hp; obtain ⟨_, _, rfl⟩ := hp; rfl)]
  rw [List.tail_reverse, List.reverse_reverse, List.map_dropLast]

theorem use_front {n : Nat} (hn : 1 ≤ n) (K : List Nat) (x : Nat) : useLine n (front n K) x = front n (toFront K x) := by
  unfold useLine front toFront
  rw [find_front]
  obtain ⟨m, rfl⟩ : ∃ m, n = m + 1 := ⟨n - 1, by omega⟩
  by_cases hx : x ∈ K.take (m + 1)
  · rw [if_pos hx]
    simp only
    rw [eraseP_front, erase_take x K _ hx, List.take_succ_cons]
    rfl
  · rw [if_neg hx]
    simp only [List.length_map, List.length_take]
    rw [List.take_succ_cons, List.map_cons]
    congr 1
    by_cases hl : K.length < m + 1
    · have hk : K.take (m + 1) = K := List.take_of_length_le (by omega)
      rw [hk] at hx
      rw [if_pos (by omega), hk, List.erase_of_not_mem hx, List.take_of_length_le (by omega)]
    · rw [if_neg (by omega), dropLru_front]
      congr 1
      have hx' : x ∉ K.take m := fun h => hx (by
        have : K.take m = (K.take (m + 1)).take m := by rw [List.take_take]; congr 1; omega
        rw [this] at h
        exact List.mem_of_mem_take h)
      rw [take_erase x K m hx', List.dropLast_eq_take, List.length_take, List.take_take]
      congr 1
      omega

theorem setLock_front (n : Nat) (K : List Nat) (x : Nat) : setLock (front n K) x false = front n K := by
  unfold setLock front
  rw [List.map_map]
  apply List.map_congr_left
  intro y _
  simp only [Function.comp_apply]
  split
  · rename_i h; rw [h]
  · rfl

theorem has_front (n : Nat) (K : List Nat) (x : Nat) : has (front n K) x = decide (x ∈ K.take n) := by
  unfold has front
  rw [List.any_map, Bool.eq_iff_iff]
  simp

/-- the stacks after one request -/
def stackStep (sets : Nat) (K : Nat → List Nat) (o : Op) : Nat → List Nat :=
  match o with
  | .rd a _ => fun i => if i = lineNo a % sets then toFront (K i) (lineNo a) else K i
  | .wr a _ _ => fun i => if i = lineNo a % sets then toFront (K i) (lineNo a) else K i
  | _ => K

theorem step_front {sets n : Nat} (hn : 1 ≤ n) (K : Nat → List Nat) (o : Op) (ho : ∀ a, o ≠ .lcl a) :
    step sets n (fun i => front n (K i)) o.act = fun i => front n (stackStep sets K o i) := by
  funext i
  cases o with
  | rd a s =>
    simp only [Op.act, step, Spec.Lru.upd, stackStep]
    split
    · rename_i h; subst h; exact use_front hn _ _
    · rfl
  | wr a v s =>
    simp only [Op.act, step, Spec.Lru.upd, stackStep]
    split
    · rename_i h; subst h; exact use_front hn _ _
    · rfl
  | lcl a => exact absurd rfl (ho a)
  | rel a =>
    simp only [Op.act, step, Spec.Lru.upd, stackStep]
    split
    · rename_i h; subst h; exact setLock_front _ _ _
    · rfl
  | prof b => rfl
  | roi s z => rfl

/-! ## Two caches side by side -/

/-- hit or miss, from the stack -/
theorem hit_front {c c' : Cache} {b : Nat} (hg : Geo c b) (hW : Wf c) {K : Nat → List Nat}
    (hR : Rall c (fun i => front c.cfg.ways (K i))) {d : Dev} {o : Op} (ho : o.apply c d = .ok c')
    (hl : o.lookup = true) :
    c'.hws = some (decide (lineNo o.addr ∈ (K (lineNo o.addr % c.cfg.sets)).take c.cfg.ways)) := by
  have hreq : ∃ n op m, o.req = some (o.addr, n, op, m) ∧ m ≠ .rel := by
    cases o with
    | rd a n => exact ⟨n, .read, .none, rfl, by simp⟩
    | wr a v n => exact ⟨n, .write, .none, rfl, by simp⟩
    | lcl a => exact ⟨0, .read, .lcl, rfl, by simp⟩
    | _ => cases hl
  obtain ⟨n, op, m, hr, hm⟩ := hreq
  generalize o.addr = a at *
  have hh := has_iff hg (hR (c.idx a))
  have hi : c.idx a = lineNo a % c.cfg.sets := idx_eq hg a
  rw [has_front, decide_eq_true_eq, hi] at hh
  rcases apply_cases hg hW ho hr with ⟨w, hw, _, f⟩ | ⟨hno, _, v, _, f⟩ | ⟨w, _, hm', _⟩ | ⟨_, hm', _⟩
  · rw [f.2.1]
    congr 1
    exact (decide_eq_true (hh.2 ⟨w, hw⟩)).symm
  · rw [f.2.1]
    congr 1
    exact (decide_eq_false (fun h => by obtain ⟨w, hw⟩ := hh.1 h; exact hno w hw)).symm
  · exact absurd hm' hm
  · exact absurd hm' hm

/-- a small and a large cache holding prefixes of the same stacks -/
structure Twin (c C : Cache) (K : Nat → List Nat) : Prop where
  geo : ∃ b, Geo c b
  geo' : ∃ b, Geo C b
  wf : Wf c
  wf' : Wf C
  pol : c.cfg.inPol = .update
  pol' : C.cfg.inPol = .update
  sets : c.cfg.sets = C.cfg.sets
  ways : c.cfg.ways ≤ C.cfg.ways
  on : c.stats.prof = C.stats.prof
  r : Rall c (fun i => front c.cfg.ways (K i))
  r' : Rall C (fun i => front C.cfg.ways (K i))

/-- fewer misses, more hits -/
def Better (s S : Stats) : Prop :=
  S.references = s.references ∧ S.missesLd ≤ s.missesLd ∧ S.missesSt ≤ s.missesSt ∧
  s.hitsLd ≤ S.hitsLd ∧ s.hitsSt ≤ S.hitsSt ∧ S.memRd ≤ s.memRd

theorem twin_step {c C c' C' : Cache} {K : Nat → List Nat} (t : Twin c C K) {d D : Dev} {o : Op}
    (hn : ∀ a, o ≠ .lcl a) (h : o.apply c d = .ok c') (h' : o.apply C D = .ok C') :
    Twin c' C' (stackStep c.cfg.sets K o) ∧ (o.lookup = true → c'.hws = some true → C'.hws = some true) ∧
    (Better c.stats C.stats → Better c'.stats C'.stats) := by
  obtain ⟨b, hg⟩ := t.geo
  obtain ⟨b', hg'⟩ := t.geo'
  obtain ⟨s, w⟩ := apply_wf hg t.wf h
  obtain ⟨s', w'⟩ := apply_wf hg' t.wf' h'
  have hs := stat_step hg t.wf h
  have hs' := stat_step hg' t.wf' h'
  have hhit : o.lookup = true → c'.hws = some true → C'.hws = some true := by
    intro hl hh
    rw [hit_front hg t.wf t.r h hl] at hh
    rw [hit_front hg' t.wf' t.r' h' hl, ← t.sets]
    simp only [Option.some.injEq, decide_eq_true_eq] at hh ⊢
    generalize K (lineNo o.addr % c.cfg.sets) = L at *
    have : L.take c.cfg.ways = (L.take C.cfg.ways).take c.cfg.ways := by
      rw [List.take_take]; congr 1; have := t.ways; omega
    rw [this] at hh
    exact List.mem_of_mem_take hh
  refine ⟨?_, hhit, ?_⟩
  · refine ⟨⟨b, s.geo hg⟩, ⟨b', s'.geo hg'⟩, w, w', by rw [s.1]; exact t.pol, by rw [s'.1]; exact t.pol',
      by rw [s.1, s'.1]; exact t.sets, by rw [s.1, s'.1]; exact t.ways, by rw [hs.1, hs'.1, t.on], ?_, ?_⟩
    · have := apply_refines hg t.wf t.pol t.r h
      rw [step_front hg.2.2.2.2.2.1 K o hn] at this
      rw [s.1]; exact this
    · have := apply_refines hg' t.wf' t.pol' t.r' h'
      rw [step_front hg'.2.2.2.2.2.1 K o hn, ← t.sets] at this
      rw [s'.1]; exact this
  · rintro ⟨i0, i1, i2, i3, i4, i5⟩
    obtain ⟨_, a0, a1, a2, a3, a4, _, _, a5, _⟩ := hs
    obtain ⟨_, b0, b1, b2, b3, b4, _, _, b5, _⟩ := hs'
    rw [← t.on] at b0 b1 b2 b3 b4 b5
    unfold Better
    cases hl : o.lookup with
    | false =>
      rw [hl] at a0 a1 a2 a3 a4 a5 b0 b1 b2 b3 b4 b5
      simp only [Bool.false_and, ind_false] at a0 a1 a2 a3 a4 a5 b0 b1 b2 b3 b4 b5
      omega
    | true =>
      have hh := hhit hl
      cases hc : c'.hws == some true <;> cases hC : C'.hws == some true <;>
        rw [hl, hc] at a1 a2 a3 a4 a5 <;> rw [hl, hC] at b1 b2 b3 b4 b5 <;> rw [hl] at a0 b0 <;>
        cases c.stats.prof <;> cases o.store <;>
        simp only [Bool.false_and, Bool.true_and, Bool.and_false, Bool.and_true, Bool.not_true, Bool.not_false,
          ind_false, ind_true] at a0 a1 a2 a3 a4 a5 b0 b1 b2 b3 b4 b5 <;>
        first
          | omega
          | (exfalso
             have h1 := hh (by simpa using hc)
             rw [h1] at hC
             simp at hC)

theorem twin_run : ∀ (tr tr' : List (Dev × Op)) (c C c' C' : Cache) (K : Nat → List Nat), Twin c C K →
    tr.map (·.2) = tr'.map (·.2) → (∀ p ∈ tr, ∀ a, p.2 ≠ .lcl a) → c.runOps tr = .ok c' → C.runOps tr' = .ok C' →
    (∃ K', Twin c' C' K') ∧ (Better c.stats C.stats → Better c'.stats C'.stats)
  | [], [], c, C, c', C', K, t, _, _, h, h' => by
    have := Res.ok.inj h; subst this
    have := Res.ok.inj h'; subst this
    exact ⟨⟨K, t⟩, id⟩
  | [], _ :: _, _, _, _, _, _, _, e, _, _, _ => by simp at e
  | _ :: _, [], _, _, _, _, _, _, e, _, _, _ => by simp at e
  | (d, o) :: tr, (D, o') :: tr', c, C, c', C', K, t, e, hn, h, h' => by
    simp only [List.map_cons, List.cons.injEq] at e
    obtain ⟨rfl, e⟩ := e
    unfold runOps at h h'
    cases hx : o.apply c d with
    | ub k => rw [hx] at h; cases h
    | abort => rw [hx] at h; cases h
    | ok c1 =>
    cases hX : o.apply C D with
    | ub k => rw [hX] at h'; cases h'
    | abort => rw [hX] at h'; cases h'
    | ok C1 =>
    rw [hx] at h
    rw [hX] at h'
    obtain ⟨t1, _, b1⟩ := twin_step t (hn (d, o) (by simp)) hx hX
    obtain ⟨t2, b2⟩ := twin_run tr tr' c1 C1 c' C' _ t1 e (fun p hp => hn p (by simp [hp])) h h'
    exact ⟨t2, fun hb => b2 (b1 hb)⟩

theorem twin_new {g G : Cfg} {c0 C0 : Cache} (hn : new g = some c0) (hN : new G = some C0) (hs : g.sets = G.sets)
    (hw : g.ways ≤ G.ways) (hp : g.inPol = .update) (hP : G.inPol = .update) : Twin c0 C0 (fun _ => []) := by
  obtain ⟨e, hg⟩ := new_geo hn
  obtain ⟨e', hg'⟩ := new_geo hN
  exact ⟨hg, hg', new_wf hn, new_wf hN, by rw [e]; exact hp, by rw [e']; exact hP, by rw [e, e']; exact hs,
    by rw [e, e']; exact hw, by rw [(new_stats hn).1, (new_stats hN).1], by
      intro i; simp only [front, List.take_nil, List.map_nil]; exact Rset_new hn i, by
      intro i; simp only [front, List.take_nil, List.map_nil]; exact Rset_new hN i⟩

/-- **C46 (partial), inclusion.**  Two caches with the update-on-insert policy, the same number of sets and
`ways ≤ ways'`, given the same requests (no lock requests; the memories behind them and the write policies may
differ): every request that hits in the first hits in the second.  Missing: the no-update insertion policy, for
which it is false — see `noUpdate_not_monotone`. -/
theorem more_ways_hit_partial {g G : Cfg} {c0 C0 c C c' C' : Cache} (hn : new g = some c0) (hN : new G = some C0)
    (hs : g.sets = G.sets) (hw : g.ways ≤ G.ways) (hp : g.inPol = .update) (hP : G.inPol = .update)
    (tr tr' : List (Dev × Op)) (he : tr.map (·.2) = tr'.map (·.2)) (hl : ∀ p ∈ tr, ∀ a, p.2 ≠ .lcl a)
    (h : c0.runOps tr = .ok c) (h' : C0.runOps tr' = .ok C) {d D : Dev} {o : Op}
    (ho : (∃ a n, o = .rd a n) ∨ ∃ a v n, o = .wr a v n)
    (hc : o.apply c d = .ok c') (hC : o.apply C D = .ok C') : c'.hws = some true → C'.hws = some true := by
  obtain ⟨⟨K, t⟩, _⟩ := twin_run tr tr' c0 C0 c C _ (twin_new hn hN hs hw hp hP) he hl h h'
  have hno : ∀ a, o ≠ .lcl a := by
    intro a e; subst e
    rcases ho with ⟨_, _, h⟩ | ⟨_, _, _, h⟩ <;> cases h
  have hlk : o.lookup = true := by rcases ho with ⟨_, _, rfl⟩ | ⟨_, _, _, rfl⟩ <;> rfl
  exact (twin_step t hno hc hC).2.1 hlk

/-- **C46 (partial), miss counts.**  Hence, for the same requests, the reported misses (loads and stores
separately) and the bytes read from memory do not grow with associativity, and hits do not shrink.  Missing: the
no-update insertion policy. -/
theorem more_ways_misses_partial {g G : Cfg} {c0 C0 c C : Cache} (hn : new g = some c0) (hN : new G = some C0)
    (hs : g.sets = G.sets) (hw : g.ways ≤ G.ways) (hp : g.inPol = .update) (hP : G.inPol = .update)
    (tr tr' : List (Dev × Op)) (he : tr.map (·.2) = tr'.map (·.2)) (hl : ∀ p ∈ tr, ∀ a, p.2 ≠ .lcl a)
    (h : c0.runOps tr = .ok c) (h' : C0.runOps tr' = .ok C) :
    C.stats.references = c.stats.references ∧ C.stats.missesLd ≤ c.stats.missesLd ∧
    C.stats.missesSt ≤ c.stats.missesSt ∧ c.stats.hitsLd ≤ C.stats.hitsLd ∧ c.stats.hitsSt ≤ C.stats.hitsSt ∧
    C.stats.memRd ≤ c.stats.memRd := by
  obtain ⟨_, b⟩ := twin_run tr tr' c0 C0 c C _ (twin_new hn hN hs hw hp hP) he hl h h'
  apply b
  rw [(new_stats hn).1, (new_stats hN).1]
  exact ⟨rfl, Nat.le_refl _, Nat.le_refl _, Nat.le_refl _, Nat.le_refl _, Nat.le_refl _⟩

/-! ### Cases -/

/-- a trace over five lines of one set -/
def Ex.incOps : List Op :=
  [.prof true, .rd 0#32 4, .rd 0x40#32 4, .rd 0x80#32 4, .rd 0#32 4, .wr 0x40#32 1#32 4, .rd 0xc0#32 4, .rd 0#32 4,
   .rd 0x80#32 4, .rd 0x40#32 4]

example : (List.range 4).map (fun w => Ex.obs (Ex.cfgP 1 (w + 1)) Ex.incOps
    (fun c => c.stats.missesLd + c.stats.missesSt)) = [some 9, some 9, some 6, some 4] := by decide +kernel

/-- line `n` -/
def Ex.ln (n : Nat) : Op := .rd (BitVec.ofNat 32 (64 * n)) 4

/-- **Exception.**  With the no-update insertion policy the same trace hits in a 2-way set and misses in a 3-way
set on its last access, so associativity can cost hits. -/
theorem noUpdate_not_monotone :
    Ex.obs { Ex.cfgP 1 2 with inPol := .noUpdate } ([0, 0, 1, 1, 0, 2, 2, 1, 0, 3, 2].map Ex.ln) (fun c => c.hws)
      = some (some true) ∧
    Ex.obs { Ex.cfgP 1 3 with inPol := .noUpdate } ([0, 0, 1, 1, 0, 2, 2, 1, 0, 3, 2].map Ex.ln) (fun c => c.hws)
      = some (some false) := by
  decide +kernel

end Ama.Cache
