import Verif.Lemmas.CacheLru
/-!
# Cache invariants over arbitrary request sequences
-/
namespace Ama.Cache

/-! ## Geometry -/

/-- the derived constants of a validated configuration -/
def Geo (c : Cache) (b : Nat) : Prop :=
  b ≤ 10 ∧ c.cfg.sets = 2 ^ b ∧ c.indexMask = BitVec.ofNat 32 (2 ^ b - 1) ∧ c.tagOff = 6 + b ∧
  c.maxScp = c.cfg.ways - 1 ∧ 1 ≤ c.cfg.ways ∧ c.cfg.ways ≤ 128

theorem pow2_list : ∀ n, n < 1025 → isPow2 n = true → n ∈ (List.range 11).map (2 ^ ·) := by
  decide +kernel

theorem indexGo_pow (b : Nat) (hb : b < 11) : indexGo (2 ^ b) 0 0#32 = (b, BitVec.ofNat 32 (2 ^ b - 1)) := by
  have : b = 0 ∨ b = 1 ∨ b = 2 ∨ b = 3 ∨ b = 4 ∨ b = 5 ∨ b = 6 ∨ b = 7 ∨ b = 8 ∨ b = 9 ∨ b = 10 := by omega
  rcases this with h | h | h | h | h | h | h | h | h | h | h <;> subst h <;> simp [indexGo]

theorem new_geo {g : Cfg} {c : Cache} (h : new g = some c) : c.cfg = g ∧ ∃ b, Geo c b := by
  unfold new at h
  split at h
  · rename_i hv
    simp only [Option.some.injEq] at h
    unfold Cfg.valid at hv
    simp only [Bool.and_eq_true, decide_eq_true_eq, Bool.not_eq_true', beq_eq_false_iff_ne, ne_eq] at hv
    obtain ⟨⟨⟨⟨⟨_, h0⟩, h1⟩, h2⟩, h3⟩, h4⟩ := hv
    obtain ⟨b, hb, e⟩ := List.mem_map.1 (pow2_list g.sets (by omega) h2)
    have hb : b < 11 := List.mem_range.1 hb
    have e : 2 ^ b = g.sets := e
    have hi := indexGo_pow b hb
    rw [e] at hi
    rw [hi] at h
    subst h
    exact ⟨rfl, b, by omega, e.symm, by rw [← e], rfl, rfl, by show 1 ≤ g.ways; omega, h4⟩
  · cases h

/-- line number of an address -/
def lineNo (a : W) : Nat := a.toNat / 64

theorem idx_eq {c : Cache} {b : Nat} (g : Geo c b) (a : W) : c.idx a = lineNo a % c.cfg.sets := by
  obtain ⟨hb, hs, hm, _⟩ := g
  unfold idx lineNo
  have hlt : 2 ^ b ≤ 2 ^ 10 := Nat.pow_le_pow_right (by omega) hb
  rw [hm, hs, BitVec.toNat_and, BitVec.toNat_ushiftRight, BitVec.toNat_ofNat,
    Nat.mod_eq_of_lt (by have : (2:Nat)^10 = 1024 := rfl; omega), Nat.and_two_pow_sub_one_eq_mod,
    Nat.shiftRight_eq_div_pow]

theorem tg_eq {c : Cache} {b : Nat} (g : Geo c b) (a : W) : (c.tg a).toNat = lineNo a / c.cfg.sets := by
  obtain ⟨hb, hs, hm, ht, _⟩ := g
  unfold tg lineNo
  rw [ht, hs, BitVec.toNat_ushiftRight, Nat.shiftRight_eq_div_pow, Nat.pow_add, Nat.div_div_eq_div_mul]

theorem sets_pos {c : Cache} {b : Nat} (g : Geo c b) : 0 < c.cfg.sets := by
  rw [g.2.1]; exact Nat.two_pow_pos b

/-- the line a way of set `i` caches -/
def key (c : Cache) (i j : Nat) : Nat := (c.arr i j).tag.toNat * c.cfg.sets + i

theorem lineNo_eq {c : Cache} {b : Nat} (g : Geo c b) (a : W) :
    (c.tg a).toNat * c.cfg.sets + c.idx a = lineNo a := by
  rw [tg_eq g, idx_eq g, Nat.mul_comm]
  exact Nat.div_add_mod _ _

/-! ## Well-formed sets -/

def WfSet (n : Nat) (s : Nat → Line) : Prop :=
  (∀ j, j < n → (s j).scp = true → (s j).valid = true) ∧
  (∀ j, j < n → (s j).dirty = true → (s j).valid = true) ∧
  (∀ j k, j < n → k < n → (s j).valid = true → (s k).valid = true → (s j).tag = (s k).tag → j = k) ∧
  scpCount s n ≤ n - 1

def Wf (c : Cache) : Prop := ∀ i, WfSet c.cfg.ways (c.arr i)

theorem scpCount_zero (s : Nat → Line) (h : ∀ j, (s j).scp = false) : ∀ n, scpCount s n = 0
  | 0 => rfl
  | n + 1 => by
    unfold scpCount
    rw [scpCount_zero s h n, h n]
    rfl

theorem new_arr {g : Cfg} {c : Cache} (h : new g = some c) :
    c.arr = fun _ w => ⟨false, false, false, w, 0#32, fun _ => 0xcd#8, 0, false⟩ := by
  unfold new at h
  split at h
  · simp only [Option.some.injEq] at h; rw [← h]
  · cases h

theorem new_wf {g : Cfg} {c : Cache} (h : new g = some c) : Wf c := by
  intro i
  rw [new_arr h]
  refine ⟨fun j _ h => absurd h (by simp), fun j _ h => absurd h (by simp),
    fun j k _ _ h => absurd h (by simp), ?_⟩
  rw [scpCount_zero _ (fun j => rfl)]
  omega

/-- the lock count of a set after one flag changed -/
theorem scpCount_set (s s' : Nat → Line) (w : Nat) : ∀ n, (∀ j, j ≠ w → (s' j).scp = (s j).scp) →
    scpCount s' n + (if w < n ∧ (s w).scp then 1 else 0) = scpCount s n + (if w < n ∧ (s' w).scp then 1 else 0)
  | 0, _ => by simp [scpCount]
  | n + 1, h => by
    have ih := scpCount_set s s' w n h
    unfold scpCount
    by_cases hw : w = n
    · subst hw
      have : scpCount s' w = scpCount s w := scpCount_congr _ _ _ (fun j hj => h j (by omega))
      rw [this]
      cases (s w).scp <;> cases (s' w).scp <;> simp
    · rw [h n (fun e => hw e.symm)]
      have e : (w < n + 1) ↔ (w < n) := by omega
      simp only [e]
      omega

/-! ## One request, case by case -/

/-- address, size, direction and lock mode of a request that looks up the cache -/
def Op.req : Op → Option (W × Nat × MemOp × Scp)
  | .rd a s => some (a, s, .read, .none)
  | .wr a _ s => some (a, s, .write, .none)
  | .lcl a => some (a, 0, .read, .lcl)
  | .rel a => some (a, 0, .read, .rel)
  | _ => none

/-- the effect of finding the line in way `w` (not a release) -/
def HitF (c c' : Cache) (a : W) (size : Nat) (op : MemOp) (m : Scp) (w : Nat) : Prop :=
  let i0 := c.idx a
  let st := (c.stats.referenced op size).hit op
  let ro := (c.roi.on a (·.referenced op size)).on a (·.hit op)
  Same c c' ∧ c'.hws = some true ∧
  c'.stats = (if c.thru op then st.writeback else st) ∧
  c'.roi = (if c.thru op then ro.on (c.lineBase (c.arr i0 w).tag i0) Stats.writeback else ro) ∧
  c'.scpStatus = some (lockNew m (c.arr i0 w).scp (c.full i0)).1 ∧
  ∃ data, ∀ i j, LF (c'.arr i j) (c.arr i j).valid
    ((c.arr i j).dirty || (decide (i = i0 ∧ j = w) && c.dirties op))
    (if i = i0 ∧ j = w then (lockNew m (c.arr i0 w).scp (c.full i0)).2 else (c.arr i j).scp)
    (if i = i0 then lruAfter c.cfg.ways (fun k => (c.arr i0 k).lru) w j else (c.arr i j).lru)
    (c.arr i j).tag (if i = i0 ∧ j = w then data else (c.arr i j).data)

/-- the effect of bringing the line into way `v` -/
def MissF (c c' : Cache) (a : W) (size : Nat) (op : MemOp) (m : Scp) (v : Nat) : Prop :=
  let i0 := c.idx a
  let vl := c.arr i0 v
  let st := evStats ((c.stats.referenced op size).miss op) vl
  let ro := evRoi ((c.roi.on a (·.referenced op size)).on a (·.miss op)) (c.lineBase vl.tag i0) vl
  Same c c' ∧ c'.hws = some false ∧
  c'.stats = (if c.thru op then st.writeback else st) ∧
  c'.roi = (if c.thru op then ro.on (c.lineBase (c.tg a) i0) Stats.writeback else ro) ∧
  c'.scpStatus = some (lockNew m false (c.full i0)).1 ∧
  ∃ data, ∀ i j, LF (c'.arr i j) ((c.arr i j).valid || decide (i = i0 ∧ j = v))
    (if i = i0 ∧ j = v then c.dirties op else (c.arr i j).dirty)
    (if i = i0 ∧ j = v then (lockNew m false (c.full i0)).2 else (c.arr i j).scp)
    (if i = i0 ∧ c.cfg.inPol = .update then lruAfter c.cfg.ways (fun k => (c.arr i0 k).lru) v j
      else (c.arr i j).lru)
    (if i = i0 ∧ j = v then c.tg a else (c.arr i j).tag)
    (if i = i0 ∧ j = v then data else (c.arr i j).data)

/-- the effect of releasing the line in way `w` -/
def RelF (c c' : Cache) (a : W) (w : Nat) : Prop :=
  Same c c' ∧ c'.hws = some true ∧ c'.stats = c.stats ∧ c'.roi = c.roi ∧
  c'.scpStatus = some (c.arr (c.idx a) w).scp ∧
  ∀ i j, c'.arr i j = if i = c.idx a ∧ j = w then { c.arr i j with scp := false } else c.arr i j

/-- way `w` of the addressed set holds the line -/
def At (c : Cache) (a : W) (w : Nat) : Prop :=
  w < c.cfg.ways ∧ (c.arr (c.idx a) w).valid = true ∧ (c.arr (c.idx a) w).tag = c.tg a

/-- way `v` is the least recently used unlocked way of the addressed set -/
def Victim (c : Cache) (a : W) (v : Nat) : Prop :=
  v < c.cfg.ways ∧ (c.arr (c.idx a) v).scp = false ∧
  ∀ j, j < c.cfg.ways → (c.arr (c.idx a) j).scp = false → (c.arr (c.idx a) j).lru ≤ (c.arr (c.idx a) v).lru

theorem serve_cases {c : Cache} {b : Nat} (hg : Geo c b) (hW : Wf c) {d : Dev} {a : W} {size : Nat} {op : MemOp}
    {m : Scp} {r : Ref × Cache} (h : c.serve d a size op m = .ok r) :
    (∃ w, At c a w ∧ m ≠ .rel ∧ r.1 = .hit ∧ HitF c r.2 a size op m w) ∨
    ((∀ w, ¬ At c a w) ∧ m ≠ .rel ∧ r.1 = .miss ∧ ∃ v, Victim c a v ∧ MissF c r.2 a size op m v) ∨
    (∃ w, At c a w ∧ m = .rel ∧ RelF c r.2 a w) ∨
    ((∀ w, ¬ At c a w) ∧ m = .rel ∧ Same c r.2 ∧ r.2.hws = c.hws ∧ r.2.stats = c.stats ∧ r.2.roi = c.roi ∧
      r.2.scpStatus = c.scpStatus ∧ r.2.arr = c.arr) := by
  have hways := hg.2.2.2.2.2.1
  obtain ⟨_, w2, _, w4⟩ := hW (c.idx a)
  rcases scan_top (c.arr (c.idx a)) (c.tg a) c.cfg.ways (exists_unlocked _ _ (by omega)) with
    ⟨w, hs, h1, h2, h3⟩ | ⟨v, l, hs, h1, h2, h3, h4, h5⟩
  · by_cases hm : m = .rel
    · subst hm
      obtain ⟨_, f1, f2, f3, f4, _, f5, f6⟩ := serve_rel_hit hs h
      exact .inr (.inr (.inl ⟨w, ⟨h1, h2, h3⟩, rfl, f1, f2, f3, f4, f5, f6⟩))
    · obtain ⟨e, f⟩ := serve_hit hm hs h
      exact .inl ⟨w, ⟨h1, h2, h3⟩, hm, e, f⟩
  · have hno : ∀ w, ¬ At c a w := fun w hw => h1 w hw.1 hw.2
    by_cases hm : m = .rel
    · subst hm
      obtain ⟨_, f1, f2, f3, f4, _, f5, f6⟩ := serve_rel_miss hs h
      exact .inr (.inr (.inr ⟨hno, rfl, f1, f2, f3, f4, f5, f6⟩))
    · obtain ⟨e, f1, f2, f3, f4, f5, data, f6⟩ := serve_miss hm hs h
      refine .inr (.inl ⟨hno, hm, e, v, ⟨h2, h3, by rw [h4]; exact h5⟩, f1, f2, f3, f4, ?_, data, ?_⟩)
      · rw [f5, h3]
      · intro i j
        obtain ⟨g1, g2, g3, g4, g5, g6⟩ := f6 i j
        refine ⟨g1, ?_, by rw [g3, h3], g4, g5, g6⟩
        rw [g2]
        by_cases hij : i = c.idx a ∧ j = v
        · rw [if_pos hij, if_pos hij]
          obtain ⟨e1, e2⟩ := hij
          subst e1 e2
          cases hd : (c.arr (c.idx a) j).dirty with
          | false => simp
          | true => simp [w2 j h2 hd]
        · rw [if_neg hij, if_neg hij]

/-- a request that succeeds ran the lookup (on the cache with its write buffer set) -/
theorem apply_serve {c c' : Cache} {d : Dev} {o : Op} {a : W} {size : Nat} {op : MemOp} {m : Scp}
    (h : o.apply c d = .ok c') (hr : o.req = some (a, size, op, m)) :
    ∃ wb r, Cache.serve { c with wrBuf := wb } d a size op m = .ok r ∧ c' = r.2 ∧
      (m ≠ .none → r.2.scpStatus ≠ none) := by
  cases o with
  | rd a s =>
    simp only [Op.req, Option.some.injEq, Prod.mk.injEq] at hr
    obtain ⟨rfl, rfl, rfl, rfl⟩ := hr
    simp only [Op.apply, rd] at h
    cases hs : c.serve d a s .read .none with
    | ok r =>
      simp only [hs, Res.bind_ok, Res.ok.injEq] at h
      exact ⟨c.wrBuf, r, hs, h.symm, fun hh => absurd rfl hh⟩
    | ub k => simp only [hs, Res.bind_ub] at h; cases h
    | abort => simp only [hs, Res.bind_abort] at h; cases h
  | wr a v s =>
    simp only [Op.req, Option.some.injEq, Prod.mk.injEq] at hr
    obtain ⟨rfl, rfl, rfl, rfl⟩ := hr
    simp only [Op.apply, wr] at h
    cases hs : Cache.serve { c with wrBuf := v } d a s .write .none with
    | ok r =>
      simp only [hs, Res.bind_ok, Res.ok.injEq] at h
      exact ⟨v, r, hs, h.symm, fun hh => absurd rfl hh⟩
    | ub k => simp only [hs, Res.bind_ub] at h; cases h
    | abort => simp only [hs, Res.bind_abort] at h; cases h
  | lcl a =>
    simp only [Op.req, Option.some.injEq, Prod.mk.injEq] at hr
    obtain ⟨rfl, rfl, rfl, rfl⟩ := hr
    simp only [Op.apply, scpLcl] at h
    cases hs : c.serve d a 0 .read .lcl with
    | ok r =>
      simp only [hs, Res.bind_ok] at h
      cases hq : r.2.scpStatus with
      | none => simp only [hq, Res.bind_ub] at h; cases h
      | some s =>
        simp only [hq, Res.bind_ok, Res.ok.injEq] at h
        exact ⟨c.wrBuf, r, hs, h.symm, fun _ => by rw [hq]; simp⟩
    | ub k => simp only [hs, Res.bind_ub] at h; cases h
    | abort => simp only [hs, Res.bind_abort] at h; cases h
  | rel a =>
    simp only [Op.req, Option.some.injEq, Prod.mk.injEq] at hr
    obtain ⟨rfl, rfl, rfl, rfl⟩ := hr
    simp only [Op.apply, scpRel] at h
    cases hs : c.serve d a 0 .read .rel with
    | ok r =>
      simp only [hs, Res.bind_ok] at h
      cases hq : r.2.scpStatus with
      | none => simp only [hq, Res.bind_ub] at h; cases h
      | some s =>
        simp only [hq, Res.bind_ok, Res.ok.injEq] at h
        exact ⟨c.wrBuf, r, hs, h.symm, fun _ => by rw [hq]; simp⟩
    | ub k => simp only [hs, Res.bind_ub] at h; cases h
    | abort => simp only [hs, Res.bind_abort] at h; cases h
  | prof b => simp [Op.req] at hr
  | roi s z => simp [Op.req] at hr

theorem apply_cases {c c' : Cache} {b : Nat} (hg : Geo c b) (hW : Wf c) {d : Dev} {o : Op} {a : W} {size : Nat}
    {op : MemOp} {m : Scp} (h : o.apply c d = .ok c') (hr : o.req = some (a, size, op, m)) :
    (∃ w, At c a w ∧ m ≠ .rel ∧ HitF c c' a size op m w) ∨
    ((∀ w, ¬ At c a w) ∧ m ≠ .rel ∧ ∃ v, Victim c a v ∧ MissF c c' a size op m v) ∨
    (∃ w, At c a w ∧ m = .rel ∧ RelF c c' a w) ∨
    ((∀ w, ¬ At c a w) ∧ m = .rel ∧ Same c c' ∧ c'.hws = c.hws ∧ c'.stats = c.stats ∧ c'.roi = c.roi ∧
      c'.scpStatus = c.scpStatus ∧ c'.arr = c.arr) := by
  obtain ⟨wb, r, hs, rfl, _⟩ := apply_serve h hr
  have hg' : Geo { c with wrBuf := wb } b := hg
  have hW' : Wf { c with wrBuf := wb } := hW
  rcases serve_cases hg' hW' hs with ⟨w, h1, h2, _, h3⟩ | ⟨h1, h2, _, h3⟩ | h | h
  · exact .inl ⟨w, h1, h2, h3⟩
  · exact .inr (.inl ⟨h1, h2, h3⟩)
  · exact .inr (.inr (.inl h))
  · exact .inr (.inr (.inr h))

theorem Same.geo {c c' : Cache} {b : Nat} (h : Same c c') (g : Geo c b) : Geo c' b := by
  obtain ⟨h1, h2, h3, h4, h5⟩ := h
  obtain ⟨g1, g2, g3, g4, g5, g6, g7⟩ := g
  exact ⟨g1, by rw [h1]; exact g2, by rw [h3]; exact g3, by rw [h4]; exact g4, by rw [h5, h1]; exact g5,
    by rw [h1]; exact g6, by rw [h1]; exact g7⟩

/-- at most one more lock, and only below the limit -/
theorem lock_count {c c' : Cache} {b : Nat} (hg : Geo c b) (i0 w : Nat) (old : Bool) (hold : (c.arr i0 w).scp = old)
    (m : Scp) (hW : scpCount (c.arr i0) c.cfg.ways ≤ c.cfg.ways - 1)
    (ho : ∀ j, j ≠ w → (c'.arr i0 j).scp = (c.arr i0 j).scp)
    (hw : (c'.arr i0 w).scp = (lockNew m old (c.full i0)).2) :
    scpCount (c'.arr i0) c.cfg.ways ≤ c.cfg.ways - 1 := by
  have hc := scpCount_set (c.arr i0) (c'.arr i0) w c.cfg.ways ho
  rw [hw, hold] at hc
  have hmax := hg.2.2.2.2.1
  unfold full at hc
  rw [hmax] at hc
  by_cases hlt : scpCount (c.arr i0) c.cfg.ways < c.cfg.ways - 1
  · split at hc <;> split at hc <;> omega
  · rw [decide_eq_false hlt] at hc
    cases m <;> cases old <;> simp [lockNew] at hc <;> omega

theorem apply_wf {c c' : Cache} {b : Nat} (hg : Geo c b) (hW : Wf c) {d : Dev} {o : Op}
    (h : o.apply c d = .ok c') : Same c c' ∧ Wf c' := by
  cases hr : o.req with
  | none =>
    cases o with
    | prof b =>
      simp only [Op.apply, Res.ok.injEq] at h
      subst h
      refine ⟨⟨rfl, rfl, rfl, rfl, rfl⟩, fun i => ?_⟩
      obtain ⟨w1, w2, w3, w4⟩ := hW i
      exact ⟨w1, w2, w3, by
        rw [scpCount_congr ((c.profiling b).arr i) (c.arr i) _ (fun j _ => rfl)]; exact w4⟩
    | roi s z =>
      simp only [Op.apply, Res.ok.injEq] at h
      subst h
      exact ⟨⟨rfl, rfl, rfl, rfl, rfl⟩, hW⟩
    | rd => cases hr
    | wr => cases hr
    | lcl => cases hr
    | rel => cases hr
  | some q =>
    obtain ⟨a, size, op, m⟩ := q
    rcases apply_cases hg hW h hr with ⟨w, ⟨p1, p2, p3⟩, _, f1, _, _, _, _, data, fa⟩ |
      ⟨hno, _, v, ⟨q1, q2, _⟩, f1, _, _, _, _, data, fa⟩ | ⟨w, ⟨p1, p2, p3⟩, _, f1, _, _, _, _, fa⟩ |
      ⟨_, _, f1, _, _, _, _, fa⟩
    · refine ⟨f1, fun i => ?_⟩
      obtain ⟨w1, w2, w3, w4⟩ := hW i
      rw [f1.1]
      refine ⟨fun j hj hs => ?_, fun j hj hs => ?_, fun j k hj hk => ?_, ?_⟩
      · obtain ⟨a1, a2, a3, a4, a5, a6⟩ := fa i j
        rw [a1]
        rw [a3] at hs
        split at hs
        · rename_i e; rw [e.1, e.2]; exact p2
        · exact w1 j hj hs
      · obtain ⟨a1, a2, a3, a4, a5, a6⟩ := fa i j
        rw [a1]
        rw [a2] at hs
        by_cases e : i = c.idx a ∧ j = w
        · rw [e.1, e.2]; exact p2
        · rw [decide_eq_false e] at hs
          exact w2 j hj (by simpa using hs)
      · rw [(fa i j).1, (fa i k).1, (fa i j).2.2.2.2.1, (fa i k).2.2.2.2.1]
        exact w3 j k hj hk
      · by_cases hi : i = c.idx a
        · subst hi
          exact lock_count hg (c.idx a) w _ rfl m w4
            (fun j hj => by rw [(fa _ j).2.2.1, if_neg (fun e => hj e.2)])
            (by rw [(fa _ w).2.2.1, if_pos ⟨rfl, rfl⟩])
        · rw [scpCount_congr _ (c.arr i) _ (fun j _ => by rw [(fa i j).2.2.1, if_neg (fun e => hi e.1)])]
          exact w4
    · refine ⟨f1, fun i => ?_⟩
      obtain ⟨w1, w2, w3, w4⟩ := hW i
      rw [f1.1]
      refine ⟨fun j hj hs => ?_, fun j hj hs => ?_, fun j k hj hk hvj hvk ht => ?_, ?_⟩
      · obtain ⟨a1, a2, a3, a4, a5, a6⟩ := fa i j
        rw [a1]
        rw [a3] at hs
        by_cases e : i = c.idx a ∧ j = v
        · rw [decide_eq_true e, Bool.or_true]
        · rw [if_neg e] at hs
          rw [w1 j hj hs, Bool.true_or]
      · obtain ⟨a1, a2, a3, a4, a5, a6⟩ := fa i j
        rw [a1]
        rw [a2] at hs
        by_cases e : i = c.idx a ∧ j = v
        · rw [decide_eq_true e, Bool.or_true]
        · rw [if_neg e] at hs
          rw [w2 j hj hs, Bool.true_or]
      · rw [(fa i j).1] at hvj
        rw [(fa i k).1] at hvk
        rw [(fa i j).2.2.2.2.1, (fa i k).2.2.2.2.1] at ht
        by_cases ej : i = c.idx a ∧ j = v <;> by_cases ek : i = c.idx a ∧ k = v
        · rw [ej.2, ek.2]
        · rw [if_pos ej, if_neg ek] at ht
          rw [decide_eq_false ek, Bool.or_false] at hvk
          obtain ⟨e1, _⟩ := ej
          subst e1
          exact absurd ⟨hk, hvk, ht.symm⟩ (hno k)
        · rw [if_neg ej, if_pos ek] at ht
          rw [decide_eq_false ej, Bool.or_false] at hvj
          obtain ⟨e1, _⟩ := ek
          subst e1
          exact absurd ⟨hj, hvj, ht⟩ (hno j)
        · rw [if_neg ej, if_neg ek] at ht
          rw [decide_eq_false ej, Bool.or_false] at hvj
          rw [decide_eq_false ek, Bool.or_false] at hvk
          exact w3 j k hj hk hvj hvk ht
      · by_cases hi : i = c.idx a
        · subst hi
          exact lock_count hg (c.idx a) v false q2 m w4
            (fun j hj => by rw [(fa _ j).2.2.1, if_neg (fun e => hj e.2)])
            (by rw [(fa _ v).2.2.1, if_pos ⟨rfl, rfl⟩])
        · rw [scpCount_congr _ (c.arr i) _ (fun j _ => by rw [(fa i j).2.2.1, if_neg (fun e => hi e.1)])]
          exact w4
    · refine ⟨f1, fun i => ?_⟩
      obtain ⟨w1, w2, w3, w4⟩ := hW i
      rw [f1.1]
      have hv : ∀ j, (c'.arr i j).valid = (c.arr i j).valid ∧ (c'.arr i j).dirty = (c.arr i j).dirty ∧
          (c'.arr i j).tag = (c.arr i j).tag := by
        intro j; rw [fa i j]; split <;> exact ⟨rfl, rfl, rfl⟩
      refine ⟨fun j hj hs => ?_, fun j hj hs => ?_, fun j k hj hk => ?_, ?_⟩
      · rw [(hv j).1]
        rw [fa i j] at hs
        split at hs
        · cases hs
        · exact w1 j hj hs
      · rw [(hv j).1]
        rw [(hv j).2.1] at hs
        exact w2 j hj hs
      · rw [(hv j).1, (hv k).1, (hv j).2.2, (hv k).2.2]
        exact w3 j k hj hk
      · by_cases hi : i = c.idx a
        · subst hi
          exact lock_count hg (c.idx a) w _ rfl .rel w4
            (fun j hj => by rw [fa _ j, if_neg (fun e => hj e.2)])
            (by rw [fa _ w, if_pos ⟨rfl, rfl⟩]; rfl)
        · rw [scpCount_congr _ (c.arr i) _ (fun j _ => by rw [fa i j, if_neg (fun e => hi e.1)])]
          exact w4
    · refine ⟨f1, fun i => ?_⟩
      rw [fa, f1.1]
      exact hW i

/-- an invariant kept by every request holds after every sequence -/
theorem runOps_ind {P : Cache → Prop} {b : Nat}
    (hstep : ∀ c c' d o, Geo c b → Wf c → P c → Op.apply c d o = .ok c' → P c') :
    ∀ (tr : List (Dev × Op)) (c c' : Cache), Geo c b → Wf c → P c → c.runOps tr = .ok c' →
      Geo c' b ∧ Wf c' ∧ P c'
  | [], c, c', hg, hW, hp, h => by
    have := Res.ok.inj h
    subst this
    exact ⟨hg, hW, hp⟩
  | (d, o) :: t, c, c', hg, hW, hp, h => by
    unfold runOps at h
    cases hx : o.apply c d with
    | ok c1 =>
      rw [hx] at h
      obtain ⟨s, w⟩ := apply_wf hg hW hx
      exact runOps_ind hstep t c1 c' (s.geo hg) w (hstep c c1 d o hg hW hp hx) h
    | ub k => rw [hx] at h; cases h
    | abort => rw [hx] at h; cases h

theorem runOps_append (c : Cache) (t u : List (Dev × Op)) :
    c.runOps (t ++ u) = (do let c ← c.runOps t; c.runOps u) := by
  induction t generalizing c with
  | nil => rfl
  | cons x t ih =>
    obtain ⟨d, o⟩ := x
    simp only [List.cons_append, runOps]
    cases o.apply c d with
    | ok c1 => simp only [Res.bind_ok]; exact ih c1
    | ub k => rfl
    | abort => rfl

end Ama.Cache
