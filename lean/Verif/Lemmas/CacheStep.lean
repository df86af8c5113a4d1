import Verif.Model.Cache
/-!
# What one cache access does, field by field
-/
namespace Ama.Cache

/-! ## The search loop -/

theorem scan_spec (s : Nat → Line) (t : W) : ∀ (n way vw vl : Nat),
    (∃ w, scan s t n way vw vl = .hit w ∧ way ≤ w ∧ w < way + n ∧ (s w).valid = true ∧ (s w).tag = t)
    ∨ (∃ v l, scan s t n way vw vl = .none v l ∧
        (∀ j, way ≤ j → j < way + n → ¬ ((s j).valid = true ∧ (s j).tag = t)) ∧
        vl ≤ l ∧
        (∀ j, way ≤ j → j < way + n → (s j).scp = false → (s j).lru ≤ l) ∧
        ((v = vw ∧ l = vl ∧ ∀ j, way ≤ j → j < way + n → (s j).scp = false → (s j).lru < vl) ∨
         (way ≤ v ∧ v < way + n ∧ (s v).scp = false ∧ (s v).lru = l)))
  | 0, way, vw, vl => .inr ⟨vw, vl, rfl, fun j h1 h2 => by omega, Nat.le_refl _, fun j h1 h2 => by omega,
      .inl ⟨rfl, rfl, fun j h1 h2 => by omega⟩⟩
  | n + 1, way, vw, vl => by
    unfold scan
    by_cases hm : ((s way).valid && (s way).tag == t) = true
    · left
      refine ⟨way, by simp [hm], Nat.le_refl _, by omega, ?_⟩
      simpa using hm
    · simp only [hm]
      have hm' : ¬ ((s way).valid = true ∧ (s way).tag = t) := by simpa using hm
      by_cases hv : (decide ((s way).lru ≥ vl) && !(s way).scp) = true
      · simp only [hv, if_true]
        have hv' : vl ≤ (s way).lru ∧ (s way).scp = false := by simpa using hv
        rcases scan_spec s t n (way + 1) way (s way).lru with ⟨w, h, h1, h2, h3⟩ | ⟨v, l, h, h1, h2, h3, h4⟩
        · exact .inl ⟨w, by simpa using h, by omega, by omega, h3⟩
        · refine .inr ⟨v, l, by simpa using h, ?_, by omega, ?_, ?_⟩
          · intro j a b
            rcases Nat.lt_or_ge way j with c | c
            · exact h1 j c (by omega)
            · have : j = way := by omega
              subst this; exact hm'
          · intro j a b hs
            rcases Nat.lt_or_ge way j with c | c
            · exact h3 j c (by omega) hs
            · have : j = way := by omega
              subst this; exact h2
          · right
            rcases h4 with ⟨e1, e2, _⟩ | ⟨e1, e2, e3, e4⟩
            · subst e1 e2; exact ⟨Nat.le_refl _, by omega, hv'.2, rfl⟩
            · exact ⟨by omega, by omega, e3, e4⟩
      · simp only [hv]
        have hv' : (s way).scp = false → (s way).lru < vl := by
          intro hs; simpa [hs] using hv
        rcases scan_spec s t n (way + 1) vw vl with ⟨w, h, h1, h2, h3⟩ | ⟨v, l, h, h1, h2, h3, h4⟩
        · exact .inl ⟨w, by simpa using h, by omega, by omega, h3⟩
        · refine .inr ⟨v, l, by simpa using h, ?_, h2, ?_, ?_⟩
          · intro j a b
            rcases Nat.lt_or_ge way j with c | c
            · exact h1 j c (by omega)
            · have : j = way := by omega
              subst this; exact hm'
          · intro j a b hs
            rcases Nat.lt_or_ge way j with c | c
            · exact h3 j c (by omega) hs
            · have : j = way := by omega
              subst this; have := hv' hs; omega
          · rcases h4 with ⟨e1, e2, e3⟩ | ⟨e1, e2, e3, e4⟩
            · left
              refine ⟨e1, e2, fun j a b hs => ?_⟩
              rcases Nat.lt_or_ge way j with c | c
              · exact e3 j c (by omega) hs
              · have : j = way := by omega
                subst this; exact hv' hs
            · exact .inr ⟨by omega, by omega, e3, e4⟩

/-- the search, from the top -/
theorem scan_top (s : Nat → Line) (t : W) (n : Nat) (hu : ∃ j, j < n ∧ (s j).scp = false) :
    (∃ w, scan s t n 0 0 0 = .hit w ∧ w < n ∧ (s w).valid = true ∧ (s w).tag = t)
    ∨ (∃ v l, scan s t n 0 0 0 = .none v l ∧ (∀ j, j < n → ¬ ((s j).valid = true ∧ (s j).tag = t)) ∧
        v < n ∧ (s v).scp = false ∧ (s v).lru = l ∧ ∀ j, j < n → (s j).scp = false → (s j).lru ≤ l) := by
  rcases scan_spec s t n 0 0 0 with ⟨w, h, _, h2, h3⟩ | ⟨v, l, h, h1, h2, h3, h4⟩
  · exact .inl ⟨w, h, by omega, h3⟩
  · right
    refine ⟨v, l, h, fun j hj => h1 j (by omega) (by omega), ?_⟩
    rcases h4 with ⟨_, _, e3⟩ | ⟨_, e2, e3, e4⟩
    · obtain ⟨j, hj, hs⟩ := hu
      exact absurd (e3 j (by omega) (by omega) hs) (by omega)
    · exact ⟨by omega, e3, e4, fun j hj hs => h3 j (by omega) (by omega) hs⟩

theorem scpCount_le (s : Nat → Line) : ∀ n, scpCount s n ≤ n
  | 0 => Nat.le_refl _
  | n + 1 => by
    have := scpCount_le s n
    unfold scpCount; split <;> omega

theorem exists_unlocked (s : Nat → Line) : ∀ n, scpCount s n < n → ∃ j, j < n ∧ (s j).scp = false
  | 0, h => by omega
  | n + 1, h => by
    cases hs : (s n).scp with
    | false => exact ⟨n, by omega, hs⟩
    | true =>
      unfold scpCount at h
      simp only [hs, if_true] at h
      obtain ⟨j, hj, hj'⟩ := exists_unlocked s n (by omega)
      exact ⟨j, by omega, hj'⟩

/-! ## The data phase changes data, the dirty bit of its line, and counters -/

theorem setLine_self (c : Cache) (i w : Nat) : c.setLine i w (c.arr i w) = c := by
  unfold setLine
  have : (fun i' w' => if i' = i ∧ w' = w then c.arr i w else c.arr i' w') = c.arr := by
    funext i' w'; split
    · rename_i h; rw [h.1, h.2]
    · rfl
  rw [this]

theorem writeToCache_frame {c : Cache} {d : Dev} {size way : Nat} {c' : Cache}
    (h : c.writeToCache d size way = .ok c') :
    ∃ data, c' = c.setLine c.ccl.index way { c.arr c.ccl.index way with data := data } := by
  unfold writeToCache at h
  by_cases hf : c.cfg.func = true
  · rw [if_pos hf] at h
    cases hw : writeGo c.wrBuf c.ccl.byteAddr size 0 (c.arr c.ccl.index way).data with
    | ok data =>
      simp only [hw, Res.bind_ok] at h
      split at h
      · cases hl : wrLine d (lineBase (c.setLine c.ccl.index way { c.arr c.ccl.index way with data := data })
            (c.arr c.ccl.index way).tag c.ccl.index) data with
        | ok u =>
          refine ⟨data, ?_⟩
          have h2 := h
          erw [hl] at h2
          simp only [Res.bind_ok] at h2
          exact (Res.ok.inj h2).symm
        | ub k => erw [hl] at h; cases h
        | abort => erw [hl] at h; cases h
      · exact ⟨data, (Res.ok.inj h).symm⟩
    | ub k => simp only [hw, Res.bind_ub] at h; cases h
    | abort => simp only [hw, Res.bind_abort] at h; cases h
  · rw [if_neg hf] at h
    refine ⟨(c.arr c.ccl.index way).data, ?_⟩
    have := Res.ok.inj h
    subst this
    exact (setLine_self c _ _).symm

/-- the state after the data phase, up to the data and the read buffer -/
def accessed (c : Cache) (op : MemOp) (way : Nat) (data : Nat → BitVec 8) (rb : Option W) : Cache :=
  let line := c.arr c.ccl.index way
  let t := op == .write && c.cfg.wrPol == .wt
  { c.setLine c.ccl.index way
      { line with data := data, dirty := line.dirty || (op == .write && c.cfg.wrPol != .wt) } with
           rdBuf := rb
           stats := if t then c.stats.writeback else c.stats
           roi := if t then c.roi.on (c.lineBase line.tag c.ccl.index) Stats.writeback else c.roi }

theorem setLine_twice (c : Cache) (i w : Nat) (l l' : Line) :
    (c.setLine i w l).setLine i w l' = c.setLine i w l' := by
  unfold setLine
  congr 1
  funext i' w'
  simp only
  split <;> rfl

theorem access_frame {c : Cache} {d : Dev} {size : Nat} {op : MemOp} {way : Nat} {c' : Cache}
    (h : c.access d size op way = .ok c') : ∃ data rb, c' = accessed c op way data rb := by
  cases op with
  | read =>
    simp only [access, readFromCache] at h
    by_cases hf : c.cfg.func = true
    · rw [if_pos hf] at h
      cases hr : readGo (c.arr c.ccl.index way).data c.ccl.byteAddr size 0 0#32 with
      | ok v =>
        simp only [hr, Res.bind_ok, Res.ok.injEq] at h
        refine ⟨(c.arr c.ccl.index way).data, some v, ?_⟩
        rw [← h]
        simp only [accessed]
        have : ({ c.arr c.ccl.index way with
            data := (c.arr c.ccl.index way).data, dirty := (c.arr c.ccl.index way).dirty || (MemOp.read == .write && c.cfg.wrPol != .wt) } : Line)
            = c.arr c.ccl.index way := by
          cases c.arr c.ccl.index way; simp
        rw [this, setLine_self]
        rfl
      | ub k => simp only [hr, Res.bind_ub] at h; cases h
      | abort => simp only [hr, Res.bind_abort] at h; cases h
    · rw [if_neg hf] at h
      have := Res.ok.inj h
      subst this
      refine ⟨(c.arr c.ccl.index way).data, c.rdBuf, ?_⟩
      simp only [accessed]
      have : ({ c.arr c.ccl.index way with
            data := (c.arr c.ccl.index way).data, dirty := (c.arr c.ccl.index way).dirty || (MemOp.read == .write && c.cfg.wrPol != .wt) } : Line)
            = c.arr c.ccl.index way := by
          cases c.arr c.ccl.index way; simp
      rw [this, setLine_self]
      rfl
  | write =>
    simp only [access] at h
    cases hw : c.writeToCache d size way with
    | ok c1 =>
      obtain ⟨data, e⟩ := writeToCache_frame hw
      simp only [hw, Res.bind_ok] at h
      refine ⟨data, c.rdBuf, ?_⟩
      have hl : c1.arr c.ccl.index way = { c.arr c.ccl.index way with data := data } := by
        rw [e]; simp [setLine]
      have hcfg : c1.cfg = c.cfg := by rw [e]; rfl
      have hccl : c1.ccl = c.ccl := by rw [e]; rfl
      have hto : c1.tagOff = c.tagOff := by rw [e]; rfl
      by_cases hp : (c.cfg.wrPol == .wt) = true
      · rw [hcfg, if_pos hp] at h
        have := Res.ok.inj h
        rw [← this]
        have hne : (c.cfg.wrPol != .wt) = false := by simpa using hp
        have h1 : (MemOp.write == MemOp.write && c.cfg.wrPol != .wt) = false := by simp [hne]
        have h2 : (MemOp.write == MemOp.write && c.cfg.wrPol == .wt) = true := by
          simp only [hp, Bool.and_true]; rfl
        subst e
        simp only [accessed, setLine, lineBase, h1, h2, Bool.or_false, if_true, and_self]
      · rw [hcfg, if_neg hp] at h
        have := Res.ok.inj h
        rw [← this]
        have hne : (c.cfg.wrPol == .wt) = false := by simpa using hp
        have h1 : (MemOp.write == MemOp.write && c.cfg.wrPol != .wt) = true := by
          rw [bne, hne]; rfl
        have h2 : (MemOp.write == MemOp.write && c.cfg.wrPol == .wt) = false := by simp [hne]
        have h3 : ¬ ((MemOp.write == MemOp.write && c.cfg.wrPol == .wt) = true) := by rw [h2]; decide
        have h4 : ∀ X, c1.setLine c.ccl.index way X = c.setLine c.ccl.index way X := by
          intro X; rw [e, setLine_twice]
        rw [hccl, hl, h4]
        simp only [accessed, h1, Bool.or_true, if_neg h3]
        rfl
    | ub k => simp only [hw, Res.bind_ub] at h; cases h
    | abort => simp only [hw, Res.bind_abort] at h; cases h

/-! ## Whole accesses -/

/-- the recency counters after touching way `w` -/
def lruAfter (n : Nat) (f : Nat → Nat) (w j : Nat) : Nat :=
  if j = w then 0 else if j < n ∧ f j < f w then f j + 1 else f j

/-- status and new lock flag: `old` the flag, `full` the limit reached -/
def lockNew (m : Scp) (old full : Bool) : Bool × Bool :=
  match m with
  | .none => (true, old)
  | .lcl => (!full, old || !full)
  | .rel => (old, false)

/-- nothing but contents, counters and status changes -/
def Same (c c' : Cache) : Prop :=
  c'.cfg = c.cfg ∧ c'.indexBits = c.indexBits ∧ c'.indexMask = c.indexMask ∧ c'.tagOff = c.tagOff ∧
  c'.maxScp = c.maxScp

theorem scpCount_congr (s s' : Nat → Line) : ∀ n, (∀ j, j < n → (s j).scp = (s' j).scp) →
    scpCount s n = scpCount s' n
  | 0, _ => rfl
  | n + 1, h => by
    unfold scpCount
    rw [h n (by omega), scpCount_congr s s' n (fun j hj => h j (by omega))]

theorem updateLru_lru (n : Nat) (s : Nat → Line) (w j : Nat) :
    (updateLru n s w j).lru = lruAfter n (fun k => (s k).lru) w j := by
  unfold updateLru lruAfter
  split
  · rfl
  · split <;> rfl
theorem updateLru_rest (n : Nat) (s : Nat → Line) (w j : Nat) :
    (updateLru n s w j).valid = (s j).valid ∧ (updateLru n s w j).dirty = (s j).dirty ∧
    (updateLru n s w j).scp = (s j).scp ∧ (updateLru n s w j).tag = (s j).tag ∧
    (updateLru n s w j).data = (s j).data := by
  unfold updateLru
  split
  · exact ⟨rfl, rfl, rfl, rfl, rfl⟩
  · split <;> exact ⟨rfl, rfl, rfl, rfl, rfl⟩

theorem referenced_rest (l : Line) : l.referenced.valid = l.valid ∧ l.referenced.dirty = l.dirty ∧
    l.referenced.scp = l.scp ∧ l.referenced.tag = l.tag ∧ l.referenced.data = l.data ∧
    l.referenced.lru = l.lru := by
  unfold Line.referenced
  split <;> exact ⟨rfl, rfl, rfl, rfl, rfl, rfl⟩

theorem setLine_arr (c : Cache) (i w i' w' : Nat) (l : Line) :
    (c.setLine i w l).arr i' w' = if i' = i ∧ w' = w then l else c.arr i' w' := rfl

/-- `update_scp`: the status, the flag of the addressed line, and nothing else -/
theorem updateScp_shape (c : Cache) (m : Scp) (index way : Nat) :
    let full := !decide (scpCount (c.arr index) c.cfg.ways < c.maxScp)
    c.updateScp m index way =
      { c.setLine index way
          { c.arr index way with scp := (lockNew m (c.arr index way).scp full).2 } with
        scpStatus := some (lockNew m (c.arr index way).scp full).1 } := by
  intro full
  have hself : ∀ b, b = (c.arr index way).scp →
      c.setLine index way { c.arr index way with scp := b } = c := by
    intro b hb; subst hb; exact setLine_self c index way
  cases m with
  | none =>
    simp only [updateScp, lockNew]
    rw [hself _ rfl]
  | lcl =>
    simp only [updateScp, convertToScp, lockNew]
    by_cases h : scpCount (c.arr index) c.cfg.ways < c.maxScp
    · have : full = false := by simp [full, h]
      rw [if_pos h, this]
      simp only [Bool.not_false, Bool.or_true]
    · have : full = true := by simp [full, h]
      rw [if_neg h, this]
      simp only [Bool.not_true, Bool.or_false]
      rw [hself _ rfl]
  | rel =>
    simp only [updateScp, releaseScp, lockNew]
    by_cases h : (c.arr index way).scp = true
    · rw [if_pos h, h]
    · rw [if_neg h]
      have h' : (c.arr index way).scp = false := by simpa using h
      rw [hself _ h'.symm, h']

/-- the lock limit is reached in a set -/
def full (c : Cache) (index : Nat) : Bool := !decide (scpCount (c.arr index) c.cfg.ways < c.maxScp)

/-- is this a write-through store -/
def thru (c : Cache) (op : MemOp) : Bool := op == .write && c.cfg.wrPol == .wt
/-- does this access make its line dirty -/
def dirties (c : Cache) (op : MemOp) : Bool := op == .write && c.cfg.wrPol != .wt

/-- release of a resident line -/
theorem serve_rel_hit {c : Cache} {d : Dev} {a : W} {size : Nat} {op : MemOp} {w : Nat} {r : Ref × Cache}
    (hs : scan (c.arr (c.idx a)) (c.tg a) c.cfg.ways 0 0 0 = .hit w)
    (h : c.serve d a size op .rel = .ok r) :
    r.1 = .hit ∧ Same c r.2 ∧ r.2.hws = some true ∧ r.2.stats = c.stats ∧ r.2.roi = c.roi ∧
    r.2.rdBuf = c.rdBuf ∧
    r.2.scpStatus = some (c.arr (c.idx a) w).scp ∧
    ∀ i j, r.2.arr i j = if i = c.idx a ∧ j = w then { c.arr i j with scp := false } else c.arr i j := by
  unfold serve reference counted at h
  simp only [ne_eq, not_true_eq_false, if_false] at h
  rw [hs] at h
  simp only [if_true, updateScp_shape, Res.bind_ok, Res.ok.injEq] at h
  subst h
  refine ⟨rfl, ⟨rfl, rfl, rfl, rfl, rfl⟩, rfl, rfl, rfl, rfl, rfl, fun i j => ?_⟩
  show (if i = c.idx a ∧ j = w then { c.arr (c.idx a) w with scp := false } else c.arr i j) = _
  by_cases hh : i = c.idx a ∧ j = w
  · rw [if_pos hh, if_pos hh, hh.1, hh.2]
  · rw [if_neg hh, if_neg hh]

/-- release of an absent line: nothing happens -/
theorem serve_rel_miss {c : Cache} {d : Dev} {a : W} {size : Nat} {op : MemOp} {v l : Nat} {r : Ref × Cache}
    (hs : scan (c.arr (c.idx a)) (c.tg a) c.cfg.ways 0 0 0 = .none v l)
    (h : c.serve d a size op .rel = .ok r) :
    r.1 = .ignore ∧ Same c r.2 ∧ r.2.hws = c.hws ∧ r.2.stats = c.stats ∧ r.2.roi = c.roi ∧
    r.2.rdBuf = c.rdBuf ∧ r.2.scpStatus = c.scpStatus ∧ r.2.arr = c.arr := by
  unfold serve reference counted at h
  simp only [ne_eq, not_true_eq_false, if_false] at h
  rw [hs] at h
  simp only [if_true, Res.bind_ok, Res.ok.injEq] at h
  subst h
  exact ⟨rfl, ⟨rfl, rfl, rfl, rfl, rfl⟩, rfl, rfl, rfl, rfl, rfl, rfl⟩

/-- the state in which a hit reaches its data phase -/
def hitSt (c : Cache) (a : W) (size : Nat) (op : MemOp) (m : Scp) (w : Nat) : Cache :=
  (((c.counted a size op m).setCcl a 0 0).updateScp m (c.idx a) w).hitPre a op (c.idx a) w

theorem counted_arr (c : Cache) (a : W) (size : Nat) (op : MemOp) (m : Scp) :
    (c.counted a size op m).arr = c.arr ∧ (c.counted a size op m).cfg = c.cfg ∧
    (c.counted a size op m).idx a = c.idx a ∧ (c.counted a size op m).tg a = c.tg a := by
  unfold counted
  split <;> exact ⟨rfl, rfl, rfl, rfl⟩

theorem updateScp_idx (c : Cache) (m : Scp) (i w : Nat) (a : W) : (c.updateScp m i w).idx a = c.idx a := by
  simp only [updateScp_shape]; rfl

theorem serve_hit_eq {c : Cache} (d : Dev) {a : W} (size : Nat) (op : MemOp) {m : Scp} {w : Nat}
    (hm : m ≠ .rel) (hs : scan (c.arr (c.idx a)) (c.tg a) c.cfg.ways 0 0 0 = .hit w) :
    c.serve d a size op m = (do
      let c' ← (c.hitSt a size op m w).access d size op w
      .ok (.hit, { c' with hws := some true })) := by
  obtain ⟨e1, e2, e3, e4⟩ := counted_arr c a size op m
  unfold serve reference
  simp only [e1, e2, e3, e4, hs, if_neg hm, updateScp_idx]
  have e5 : ((c.counted a size op m).setCcl a 0 0).idx a = c.idx a := e3
  rw [e5]
  unfold hitSt
  cases ((((c.counted a size op m).setCcl a 0 0).updateScp m (c.idx a) w).hitPre a op (c.idx a) w).access
    d size op w <;> rfl

/-- the fields of a line, without its reference counter -/
def LF (l : Line) (valid dirty scp : Bool) (lru : Nat) (tag : W) (data : Nat → BitVec 8) : Prop :=
  l.valid = valid ∧ l.dirty = dirty ∧ l.scp = scp ∧ l.lru = lru ∧ l.tag = tag ∧ l.data = data

theorem LF.self (l : Line) : LF l l.valid l.dirty l.scp l.lru l.tag l.data := ⟨rfl, rfl, rfl, rfl, rfl, rfl⟩

/-- everything but lines, counters and lock status -/
def Same' (c c' : Cache) : Prop :=
  Same c c' ∧ c'.ccl = c.ccl ∧ c'.wrBuf = c.wrBuf ∧ c'.rdBuf = c.rdBuf ∧ c'.hws = c.hws

theorem updateScp_facts (c : Cache) (m : Scp) (i0 w : Nat) :
    let e := c.updateScp m i0 w
    Same' c e ∧ e.stats = c.stats ∧ e.roi = c.roi ∧
    e.scpStatus = some (lockNew m (c.arr i0 w).scp (c.full i0)).1 ∧
    ∀ i j, LF (e.arr i j) (c.arr i j).valid (c.arr i j).dirty
      (if i = i0 ∧ j = w then (lockNew m (c.arr i0 w).scp (c.full i0)).2 else (c.arr i j).scp)
      (c.arr i j).lru (c.arr i j).tag (c.arr i j).data := by
  intro e
  have he : e = c.updateScp m i0 w := rfl
  simp only [updateScp_shape] at he
  rw [he]
  refine ⟨⟨⟨rfl, rfl, rfl, rfl, rfl⟩, rfl, rfl, rfl, rfl⟩, rfl, rfl, rfl, fun i j => ?_⟩
  simp only [setLine_arr]
  by_cases h : i = i0 ∧ j = w
  · obtain ⟨h1, h2⟩ := h
    subst h1 h2
    simp only [and_self, if_true]
    exact ⟨rfl, rfl, rfl, rfl, rfl, rfl⟩
  · simp only [h, if_false]
    exact LF.self _

theorem touch_facts (c : Cache) (i0 w : Nat) :
    let e := c.touch i0 w
    Same' c e ∧ e.stats = c.stats ∧ e.roi = c.roi ∧ e.scpStatus = c.scpStatus ∧
    ∀ i j, LF (e.arr i j) (c.arr i j).valid (c.arr i j).dirty (c.arr i j).scp
      (if i = i0 then lruAfter c.cfg.ways (fun k => (c.arr i0 k).lru) w j else (c.arr i j).lru)
      (c.arr i j).tag (c.arr i j).data := by
  refine ⟨⟨⟨rfl, rfl, rfl, rfl, rfl⟩, rfl, rfl, rfl, rfl⟩, rfl, rfl, rfl, fun i j => ?_⟩
  simp only [touch]
  by_cases h : i = i0
  · subst h
    simp only [if_true]
    obtain ⟨r1, r2, r3, r4, r5⟩ := updateLru_rest c.cfg.ways (c.arr i) w j
    exact ⟨r1, r2, r3, updateLru_lru _ _ _ _, r4, r5⟩
  · simp only [h, if_false]
    exact LF.self _

theorem hitPre_facts (c : Cache) (a : W) (op : MemOp) (i0 w : Nat) :
    let e := c.hitPre a op i0 w
    Same' c e ∧ e.stats = c.stats.hit op ∧ e.roi = c.roi.on a (·.hit op) ∧ e.scpStatus = c.scpStatus ∧
    ∀ i j, LF (e.arr i j) (c.arr i j).valid (c.arr i j).dirty (c.arr i j).scp
      (if i = i0 then lruAfter c.cfg.ways (fun k => (c.arr i0 k).lru) w j else (c.arr i j).lru)
      (c.arr i j).tag (c.arr i j).data := by
  refine ⟨⟨⟨rfl, rfl, rfl, rfl, rfl⟩, rfl, rfl, rfl, rfl⟩, rfl, rfl, rfl, fun i j => ?_⟩
  obtain ⟨_, _, _, _, h⟩ := touch_facts c i0 w
  simp only [hitPre, setLine_arr]
  by_cases hij : i = i0 ∧ j = w
  · rw [if_pos hij]
    obtain ⟨h1, h2⟩ := hij
    subst h1 h2
    obtain ⟨r1, r2, r3, r4, r5, r6⟩ := referenced_rest ((c.touch i j).arr i j)
    obtain ⟨t1, t2, t3, t4, t5, t6⟩ := h i j
    exact ⟨r1.trans t1, r2.trans t2, r3.trans t3, r6.trans t4, r4.trans t5, r5.trans t6⟩
  · rw [if_neg hij]
    exact h i j

theorem hitSt_facts (c : Cache) (a : W) (size : Nat) (op : MemOp) {m : Scp} (hm : m ≠ .rel) (w : Nat) :
    let e := c.hitSt a size op m w
    let i0 := c.idx a
    Same c e ∧ e.ccl.index = i0 ∧ e.ccl.byteAddr = (a &&& 63#32).toNat ∧ e.wrBuf = c.wrBuf ∧
    e.rdBuf = c.rdBuf ∧
    e.stats = (c.stats.referenced op size).hit op ∧
    e.roi = (c.roi.on a (·.referenced op size)).on a (·.hit op) ∧
    e.scpStatus = some (lockNew m (c.arr i0 w).scp (c.full i0)).1 ∧
    ∀ i j, LF (e.arr i j) (c.arr i j).valid (c.arr i j).dirty
      (if i = i0 ∧ j = w then (lockNew m (c.arr i0 w).scp (c.full i0)).2 else (c.arr i j).scp)
      (if i = i0 then lruAfter c.cfg.ways (fun k => (c.arr i0 k).lru) w j else (c.arr i j).lru)
      (c.arr i j).tag (c.arr i j).data := by
  intro e i0
  have hb : c.counted a size op m =
      { c with stats := c.stats.referenced op size, roi := c.roi.on a (·.referenced op size) } := if_pos hm
  have he : e = (((c.counted a size op m).setCcl a 0 0).updateScp m i0 w).hitPre a op i0 w := rfl
  rw [hb] at he
  generalize hc1 : setCcl { c with
    stats := c.stats.referenced op size, roi := c.roi.on a (·.referenced op size) } a 0 0 = c1 at he
  obtain ⟨⟨⟨u1, u2, u3, u4, u5⟩, u6, u7, u8, u9⟩, us, ur, ust, ua⟩ := updateScp_facts c1 m i0 w
  generalize hc2 : c1.updateScp m i0 w = c2 at *
  obtain ⟨⟨⟨p1, p2, p3, p4, p5⟩, p6, p7, p8, p9⟩, ps, pr, pst, pa⟩ := hitPre_facts c2 a op i0 w
  rw [← he] at p1 p2 p3 p4 p5 p6 p7 p8 p9 ps pr pst pa
  have hf : c1.full i0 = c.full i0 := by rw [← hc1]; rfl
  have ha : c1.arr = c.arr := by rw [← hc1]; rfl
  rw [ha, hf] at ust ua
  have hcf : c1.cfg = c.cfg := by rw [← hc1]; rfl
  refine ⟨⟨by rw [p1, u1, hcf], by rw [p2, u2, ← hc1]; rfl, by rw [p3, u3, ← hc1]; rfl,
    by rw [p4, u4, ← hc1]; rfl, by rw [p5, u5, ← hc1]; rfl⟩, by rw [p6, u6, ← hc1]; rfl,
    by rw [p6, u6, ← hc1]; rfl, by rw [p7, u7, ← hc1]; rfl, by rw [p8, u8, ← hc1]; rfl,
    by rw [ps, us, ← hc1]; rfl, by rw [pr, ur, ← hc1]; rfl, by rw [pst, ust], fun i j => ?_⟩
  obtain ⟨a1, a2, a3, a4, a5, a6⟩ := pa i j
  obtain ⟨b1, b2, b3, b4, b5, b6⟩ := ua i j
  refine ⟨a1.trans b1, a2.trans b2, a3.trans b3, ?_, a5.trans b5, a6.trans b6⟩
  rw [a4, b4, u1, hcf]
  have : (fun k => (c2.arr i0 k).lru) = fun k => (c.arr i0 k).lru := by
    funext k; exact (ua i0 k).2.2.2.1
  rw [this]

theorem accessed_facts (c : Cache) (op : MemOp) (w : Nat) (data : Nat → BitVec 8) (rb : Option W) :
    let e := accessed c op w data rb
    Same c e ∧ e.scpStatus = c.scpStatus ∧
    e.stats = (if c.thru op then c.stats.writeback else c.stats) ∧
    e.roi = (if c.thru op then c.roi.on (c.lineBase (c.arr c.ccl.index w).tag c.ccl.index) Stats.writeback
      else c.roi) ∧
    ∀ i j, LF (e.arr i j) (c.arr i j).valid
      ((c.arr i j).dirty || (decide (i = c.ccl.index ∧ j = w) && c.dirties op)) (c.arr i j).scp
      (c.arr i j).lru (c.arr i j).tag (if i = c.ccl.index ∧ j = w then data else (c.arr i j).data) := by
  refine ⟨⟨rfl, rfl, rfl, rfl, rfl⟩, rfl, rfl, rfl, fun i j => ?_⟩
  simp only [accessed, setLine_arr]
  by_cases h : i = c.ccl.index ∧ j = w
  · simp only [h, and_self, if_true, decide_true, Bool.true_and]
    exact ⟨rfl, rfl, rfl, rfl, rfl, rfl⟩
  · simp only [h, if_false, decide_false, Bool.false_and, Bool.or_false]
    exact LF.self _

/-- an access or lock request that finds its line -/
theorem serve_hit {c : Cache} {d : Dev} {a : W} {size : Nat} {op : MemOp} {m : Scp} {w : Nat} {r : Ref × Cache}
    (hm : m ≠ .rel) (hs : scan (c.arr (c.idx a)) (c.tg a) c.cfg.ways 0 0 0 = .hit w)
    (h : c.serve d a size op m = .ok r) :
    let i0 := c.idx a
    let st := (c.stats.referenced op size).hit op
    let ro := (c.roi.on a (·.referenced op size)).on a (·.hit op)
    r.1 = .hit ∧ Same c r.2 ∧ r.2.hws = some true ∧
    r.2.stats = (if c.thru op then st.writeback else st) ∧
    r.2.roi = (if c.thru op then ro.on (c.lineBase (c.arr i0 w).tag i0) Stats.writeback else ro) ∧
    r.2.scpStatus = some (lockNew m (c.arr i0 w).scp (c.full i0)).1 ∧
    ∃ data, ∀ i j, LF (r.2.arr i j) (c.arr i j).valid
      ((c.arr i j).dirty || (decide (i = i0 ∧ j = w) && c.dirties op))
      (if i = i0 ∧ j = w then (lockNew m (c.arr i0 w).scp (c.full i0)).2 else (c.arr i j).scp)
      (if i = i0 then lruAfter c.cfg.ways (fun k => (c.arr i0 k).lru) w j else (c.arr i j).lru)
      (c.arr i j).tag (if i = i0 ∧ j = w then data else (c.arr i j).data) := by
  intro i0 st ro
  rw [serve_hit_eq d size op hm hs] at h
  obtain ⟨⟨q1, q2, q3, q4, q5⟩, qi, _, _, _, qs, qr, qst, qa⟩ := hitSt_facts c a size op hm w
  cases hx : (c.hitSt a size op m w).access d size op w with
  | ok c1 =>
    rw [hx] at h
    simp only [Res.bind_ok, Res.ok.injEq] at h
    obtain ⟨data, rb, e⟩ := access_frame hx
    obtain ⟨⟨z1, z2, z3, z4, z5⟩, zst, zs, zr, za⟩ := accessed_facts (c.hitSt a size op m w) op w data rb
    rw [← e] at z1 z2 z3 z4 z5 zst zs zr za
    generalize c.hitSt a size op m w = e2 at *
    subst h
    have ht : e2.thru op = c.thru op := by unfold thru; rw [q1]
    have hd : e2.dirties op = c.dirties op := by unfold dirties; rw [q1]
    have hl : ∀ t i, e2.lineBase t i = c.lineBase t i := by intro t i; unfold lineBase; rw [q4]
    refine ⟨rfl, ⟨z1.trans q1, z2.trans q2, z3.trans q3, z4.trans q4, z5.trans q5⟩, rfl, ?_, ?_, ?_, data, ?_⟩
    · rw [zs, ht, qs]
    · rw [zr, ht, qr, qi, hl, (qa _ _).2.2.2.2.1]
    · exact zst.trans qst
    · intro i j
      obtain ⟨a1, a2, a3, a4, a5, a6⟩ := za i j
      obtain ⟨b1, b2, b3, b4, b5, b6⟩ := qa i j
      refine ⟨a1.trans b1, ?_, a3.trans b3, a4.trans b4, a5.trans b5, ?_⟩
      · rw [a2, b2, qi, hd]
      · rw [a6, b6, qi]
  | ub k => rw [hx] at h; cases h
  | abort => rw [hx] at h; cases h

/-! ## Misses -/

/-- statistics of making room: the victim `l` is replaced -/
def evStats (st : Stats) (l : Line) : Stats := if l.valid then st.replace l.dirty else st
def evRoi (ro : Roi) (base : W) (l : Line) : Roi := if l.valid then ro.on base (·.replace l.dirty) else ro

theorem evict_frame {c : Cache} {d : Dev} {c' : Cache} (h : c.evict d = .ok c') :
    let l := c.arr c.ccl.index c.ccl.vWay
    Same' c c' ∧ c'.stats = evStats c.stats l ∧
    c'.roi = evRoi c.roi (c.lineBase l.tag c.ccl.index) l ∧ c'.scpStatus = c.scpStatus ∧
    ∀ i j, LF (c'.arr i j) (c.arr i j).valid
      (if i = c.ccl.index ∧ j = c.ccl.vWay ∧ l.valid then false else (c.arr i j).dirty) (c.arr i j).scp
      (c.arr i j).lru (c.arr i j).tag (c.arr i j).data := by
  intro l
  unfold evict at h
  by_cases hv : (c.arr c.ccl.index c.ccl.vWay).valid = true
  · simp only [if_pos hv] at h
    by_cases hd : (c.arr c.ccl.index c.ccl.vWay).dirty = true
    · simp only [if_pos hd] at h
      generalize hx : (if (c.cfg.func && c.cfg.verify) = true then
        wrLine d (c.lineBase (c.arr c.ccl.index c.ccl.vWay).tag c.ccl.index) (c.arr c.ccl.index c.ccl.vWay).data
        else Res.ok ()) = x at h
      cases x with
      | ok u =>
        simp only [Res.bind_ok, Res.ok.injEq] at h
        subst h
        refine ⟨⟨⟨rfl, rfl, rfl, rfl, rfl⟩, rfl, rfl, rfl, rfl⟩, ?_, ?_, rfl, fun i j => ?_⟩
        · simp only [evStats, l, hv, if_true]; rfl
        · simp only [evRoi, l, hv, if_true]; rfl
        · simp only [setLine_arr]
          by_cases hij : i = c.ccl.index ∧ j = c.ccl.vWay
          · rw [if_pos hij, if_pos ⟨hij.1, hij.2, hv⟩]
            obtain ⟨h1, h2⟩ := hij
            subst h1 h2
            exact ⟨rfl, rfl, rfl, rfl, rfl, rfl⟩
          · rw [if_neg hij, if_neg (fun hh => hij ⟨hh.1, hh.2.1⟩)]
            exact LF.self _
      | ub k => cases h
      | abort => cases h
    · simp only [if_neg hd, Res.ok.injEq] at h
      subst h
      refine ⟨⟨⟨rfl, rfl, rfl, rfl, rfl⟩, rfl, rfl, rfl, rfl⟩, ?_, ?_, rfl, fun i j => ?_⟩
      · simp only [evStats, l, hv, if_true]
      · simp only [evRoi, l, hv, if_true]
      · refine ⟨rfl, ?_, rfl, rfl, rfl, rfl⟩
        split
        · rename_i hij
          obtain ⟨h1, h2, _⟩ := hij
          subst h1 h2
          simpa using hd
        · rfl
  · simp only [if_neg hv, Res.ok.injEq] at h
    subst h
    refine ⟨⟨⟨rfl, rfl, rfl, rfl, rfl⟩, rfl, rfl, rfl, rfl⟩, ?_, ?_, rfl, fun i j => ?_⟩
    · simp only [evStats, l, hv]; rfl
    · simp only [evRoi, l, hv]; rfl
    · refine ⟨rfl, ?_, rfl, rfl, rfl, rfl⟩
      rw [if_neg (fun hh => hv hh.2.2)]

theorem install_facts (c : Cache) (m : Scp) :
    let e := c.install m
    let i0 := c.ccl.index
    let w := c.ccl.vWay
    Same' c e ∧ e.stats = c.stats ∧ e.roi = c.roi ∧
    e.scpStatus = some (lockNew m (c.arr i0 w).scp (c.full i0)).1 ∧
    ∀ i j, LF (e.arr i j) ((c.arr i j).valid || decide (i = i0 ∧ j = w)) (c.arr i j).dirty
      (if i = i0 ∧ j = w then (lockNew m (c.arr i0 w).scp (c.full i0)).2 else (c.arr i j).scp)
      (if i = i0 ∧ c.cfg.inPol = .update then lruAfter c.cfg.ways (fun k => (c.arr i0 k).lru) w j
        else (c.arr i j).lru)
      (if i = i0 ∧ j = w then c.ccl.tag else (c.arr i j).tag) (c.arr i j).data := by
  intro e i0 w
  -- after writing tag and valid bit
  generalize hc1 : c.setLine i0 w { (c.arr i0 w).referenced with tag := c.ccl.tag, valid := true } = c1
  have s1 : Same' c c1 := by rw [← hc1]; exact ⟨⟨rfl, rfl, rfl, rfl, rfl⟩, rfl, rfl, rfl, rfl⟩
  have s1s : c1.stats = c.stats ∧ c1.roi = c.roi := by rw [← hc1]; exact ⟨rfl, rfl⟩
  have a1 : ∀ i j, LF (c1.arr i j) ((c.arr i j).valid || decide (i = i0 ∧ j = w)) (c.arr i j).dirty
      (c.arr i j).scp (c.arr i j).lru (if i = i0 ∧ j = w then c.ccl.tag else (c.arr i j).tag)
      (c.arr i j).data := by
    intro i j
    rw [← hc1]
    simp only [setLine_arr]
    by_cases hij : i = i0 ∧ j = w
    · rw [if_pos hij, if_pos hij, decide_eq_true hij]
      obtain ⟨h1, h2⟩ := hij
      rw [h1, h2]
      obtain ⟨r1, r2, r3, r4, r5, r6⟩ := referenced_rest (c.arr i0 w)
      exact ⟨by simp, r2, r3, r6, rfl, r5⟩
    · rw [if_neg hij, if_neg hij, decide_eq_false hij, Bool.or_false]
      exact LF.self _
  -- after the insertion policy
  generalize hc2 : (if c1.cfg.inPol = .update then c1.touch i0 w else c1) = c2
  have s2 : Same' c1 c2 := by
    rw [← hc2]; split <;> exact ⟨⟨rfl, rfl, rfl, rfl, rfl⟩, rfl, rfl, rfl, rfl⟩
  have s2s : c2.stats = c1.stats ∧ c2.roi = c1.roi := by
    rw [← hc2]; split <;> exact ⟨rfl, rfl⟩
  have hcfg : c1.cfg = c.cfg := s1.1.1
  have hl1 : (fun k => (c1.arr i0 k).lru) = fun k => (c.arr i0 k).lru := by
    funext k; exact (a1 i0 k).2.2.2.1
  have a2 : ∀ i j, LF (c2.arr i j) (c1.arr i j).valid (c1.arr i j).dirty (c1.arr i j).scp
      (if i = i0 ∧ c.cfg.inPol = .update then lruAfter c.cfg.ways (fun k => (c.arr i0 k).lru) w j
        else (c1.arr i j).lru) (c1.arr i j).tag (c1.arr i j).data := by
    intro i j
    rw [← hc2, hcfg]
    by_cases hp : c.cfg.inPol = .update
    · rw [if_pos hp]
      obtain ⟨_, _, _, _, t⟩ := touch_facts c1 i0 w
      obtain ⟨t1, t2, t3, t4, t5, t6⟩ := t i j
      refine ⟨t1, t2, t3, ?_, t5, t6⟩
      rw [t4, hl1, hcfg]
      simp only [hp, and_true]
    · rw [if_neg hp]
      rw [if_neg (fun hh => hp hh.2)]
      exact LF.self _
  have he : e = c2.updateScp m i0 w := by
    rw [← hc2, ← hc1]; rfl
  obtain ⟨⟨⟨u1, u2, u3, u4, u5⟩, u6, u7, u8, u9⟩, us, ur, ust, ua⟩ := updateScp_facts c2 m i0 w
  rw [← he] at u1 u2 u3 u4 u5 u6 u7 u8 u9 us ur ust ua
  obtain ⟨⟨x1, x2, x3, x4, x5⟩, x6, x7, x8, x9⟩ := s1
  obtain ⟨⟨y1, y2, y3, y4, y5⟩, y6, y7, y8, y9⟩ := s2
  have hscp : ∀ i j, (c2.arr i j).scp = (c.arr i j).scp := fun i j =>
    (a2 i j).2.2.1.trans (a1 i j).2.2.1
  have hf : c2.full i0 = c.full i0 := by
    unfold full
    rw [y1, x1, y5, x5, scpCount_congr (c2.arr i0) (c.arr i0) _ (fun j _ => hscp i0 j)]
  rw [hf, hscp] at ust
  refine ⟨⟨⟨by rw [u1, y1, x1], by rw [u2, y2, x2], by rw [u3, y3, x3], by rw [u4, y4, x4],
    by rw [u5, y5, x5]⟩, by rw [u6, y6, x6], by rw [u7, y7, x7], by rw [u8, y8, x8], by rw [u9, y9, x9]⟩,
    by rw [us, s2s.1, s1s.1], by rw [ur, s2s.2, s1s.2], ust, fun i j => ?_⟩
  obtain ⟨f1, f2, f3, f4, f5, f6⟩ := ua i j
  obtain ⟨g1, g2, g3, g4, g5, g6⟩ := a2 i j
  obtain ⟨h1, h2, h3, h4, h5, h6⟩ := a1 i j
  refine ⟨by rw [f1, g1, h1], by rw [f2, g2, h2], ?_, ?_, by rw [f5, g5, h5], by rw [f6, g6, h6]⟩
  · rw [f3, hf, hscp, hscp]
  · rw [f4, g4, h4]

theorem fill_frame {c : Cache} {d : Dev} {a : W} {c' : Cache} (h : c.fill d a = .ok c') :
    Same' c c' ∧ c'.stats = c.stats ∧ c'.roi = c.roi ∧ c'.scpStatus = c.scpStatus ∧
    ∃ data, ∀ i j, LF (c'.arr i j) (c.arr i j).valid (c.arr i j).dirty (c.arr i j).scp (c.arr i j).lru
      (c.arr i j).tag (if i = c.ccl.index ∧ j = c.ccl.vWay then data else (c.arr i j).data) := by
  unfold fill at h
  by_cases hf : c.cfg.func = true
  · rw [if_pos hf] at h
    cases hr : rdLine d a with
    | ok data =>
      simp only [hr, Res.bind_ok, Res.ok.injEq] at h
      subst h
      refine ⟨⟨⟨rfl, rfl, rfl, rfl, rfl⟩, rfl, rfl, rfl, rfl⟩, rfl, rfl, rfl, data, fun i j => ?_⟩
      simp only [setLine_arr]
      by_cases hij : i = c.ccl.index ∧ j = c.ccl.vWay
      · rw [if_pos hij, if_pos hij]
        obtain ⟨h1, h2⟩ := hij
        subst h1 h2
        exact ⟨rfl, rfl, rfl, rfl, rfl, rfl⟩
      · rw [if_neg hij, if_neg hij]
        exact LF.self _
    | ub k => simp only [hr, Res.bind_ub] at h; cases h
    | abort => simp only [hr, Res.bind_abort] at h; cases h
  · rw [if_neg hf] at h
    have := Res.ok.inj h
    subst this
    refine ⟨⟨⟨rfl, rfl, rfl, rfl, rfl⟩, rfl, rfl, rfl, rfl⟩, rfl, rfl, rfl,
      (c.arr c.ccl.index c.ccl.vWay).data, fun i j => ?_⟩
    refine ⟨rfl, rfl, rfl, rfl, rfl, ?_⟩
    split
    · rename_i hij; rw [hij.1, hij.2]
    · rfl

/-- the state in which a miss starts -/
def missSt (c : Cache) (a : W) (size : Nat) (op : MemOp) (m : Scp) (v l : Nat) : Cache :=
  let c := (c.counted a size op m).setCcl a v l
  { c with hws := some false, stats := c.stats.miss op, roi := c.roi.on a (·.miss op) }

theorem serve_miss_eq {c : Cache} (d : Dev) {a : W} (size : Nat) (op : MemOp) {m : Scp} {v l : Nat}
    (hm : m ≠ .rel) (hs : scan (c.arr (c.idx a)) (c.tg a) c.cfg.ways 0 0 0 = .none v l) :
    c.serve d a size op m = (do
      let c1 ← (c.missSt a size op m v l).evict d
      let c2 ← (c1.install m).fill d a
      let c3 ← c2.access d size op c2.ccl.vWay
      .ok (.miss, c3)) := by
  obtain ⟨e1, e2, e3, e4⟩ := counted_arr c a size op m
  unfold serve reference
  simp only [e1, e2, e3, e4, hs, if_neg hm, Res.bind_ok]
  unfold miss missSt
  simp only
  cases evict { (c.counted a size op m).setCcl a v l with
      hws := some false
      stats := ((c.counted a size op m).setCcl a v l).stats.miss op
      roi := ((c.counted a size op m).setCcl a v l).roi.on a (·.miss op) } d with
  | ok c1 =>
    simp only [Res.bind_ok]
    cases (c1.install m).fill d a with
    | ok c2 => simp only [Res.bind_ok]
    | ub k => rfl
    | abort => rfl
  | ub k => rfl
  | abort => rfl

/-- an access or lock request that does not find its line: `v` is the victim way -/
theorem serve_miss {c : Cache} {d : Dev} {a : W} {size : Nat} {op : MemOp} {m : Scp} {v l : Nat} {r : Ref × Cache}
    (hm : m ≠ .rel) (hs : scan (c.arr (c.idx a)) (c.tg a) c.cfg.ways 0 0 0 = .none v l)
    (h : c.serve d a size op m = .ok r) :
    let i0 := c.idx a
    let vl := c.arr i0 v
    let st := evStats ((c.stats.referenced op size).miss op) vl
    let ro := evRoi ((c.roi.on a (·.referenced op size)).on a (·.miss op)) (c.lineBase vl.tag i0) vl
    r.1 = .miss ∧ Same c r.2 ∧ r.2.hws = some false ∧
    r.2.stats = (if c.thru op then st.writeback else st) ∧
    r.2.roi = (if c.thru op then ro.on (c.lineBase (c.tg a) i0) Stats.writeback else ro) ∧
    r.2.scpStatus = some (lockNew m vl.scp (c.full i0)).1 ∧
    ∃ data, ∀ i j, LF (r.2.arr i j) ((c.arr i j).valid || decide (i = i0 ∧ j = v))
      (if i = i0 ∧ j = v then ((c.arr i j).dirty && !vl.valid) || c.dirties op else (c.arr i j).dirty)
      (if i = i0 ∧ j = v then (lockNew m vl.scp (c.full i0)).2 else (c.arr i j).scp)
      (if i = i0 ∧ c.cfg.inPol = .update then lruAfter c.cfg.ways (fun k => (c.arr i0 k).lru) v j
        else (c.arr i j).lru)
      (if i = i0 ∧ j = v then c.tg a else (c.arr i j).tag)
      (if i = i0 ∧ j = v then data else (c.arr i j).data) := by
  intro i0 vl st ro
  rw [serve_miss_eq d size op hm hs] at h
  have hb : c.counted a size op m =
      { c with stats := c.stats.referenced op size, roi := c.roi.on a (·.referenced op size) } := if_pos hm
  have k0 : Same c (c.missSt a size op m v l) := by
    unfold missSt; rw [hb]; exact ⟨rfl, rfl, rfl, rfl, rfl⟩
  have k1 : (c.missSt a size op m v l).ccl.index = i0 ∧ (c.missSt a size op m v l).ccl.vWay = v ∧
      (c.missSt a size op m v l).ccl.tag = c.tg a := by
    unfold missSt; rw [hb]; exact ⟨rfl, rfl, rfl⟩
  have k2 : (c.missSt a size op m v l).stats = (c.stats.referenced op size).miss op ∧
      (c.missSt a size op m v l).roi = (c.roi.on a (·.referenced op size)).on a (·.miss op) := by
    unfold missSt; rw [hb]; exact ⟨rfl, rfl⟩
  have k3 : (c.missSt a size op m v l).arr = c.arr ∧ (c.missSt a size op m v l).hws = some false := by
    unfold missSt; rw [hb]; exact ⟨rfl, rfl⟩
  generalize c.missSt a size op m v l = c0 at *
  obtain ⟨k01, k02, k03, k04, k05⟩ := k0
  cases h1 : c0.evict d with
  | ub k => rw [h1] at h; cases h
  | abort => rw [h1] at h; cases h
  | ok c1 =>
  rw [h1] at h; simp only [Res.bind_ok] at h
  obtain ⟨⟨⟨a1, a2, a3, a4, a5⟩, a6, a7, a8, a9⟩, as, ar, ast, aa⟩ := evict_frame h1
  obtain ⟨⟨⟨b1, b2, b3, b4, b5⟩, b6, b7, b8, b9⟩, bs, br, bst, ba⟩ := install_facts c1 m
  cases h2 : (c1.install m).fill d a with
  | ub k => rw [h2] at h; cases h
  | abort => rw [h2] at h; cases h
  | ok c2 =>
  rw [h2] at h; simp only [Res.bind_ok] at h
  obtain ⟨⟨⟨d1, d2, d3, d4, d5⟩, d6, d7, d8, d9⟩, ds, dr, dst, data0, da⟩ := fill_frame h2
  cases h3 : c2.access d size op c2.ccl.vWay with
  | ub k => rw [h3] at h; cases h
  | abort => rw [h3] at h; cases h
  | ok c3 =>
  rw [h3] at h
  simp only [Res.bind_ok, Res.ok.injEq] at h
  obtain ⟨data, rb, e⟩ := access_frame h3
  obtain ⟨⟨z1, z2, z3, z4, z5⟩, zst, zs, zr, za⟩ := accessed_facts c2 op c2.ccl.vWay data rb
  have zh : c3.hws = c2.hws := by rw [e]; rfl
  rw [← e] at z1 z2 z3 z4 z5 zst zs zr za
  generalize c1.install m = ci at *
  subst h
  have hi : c2.ccl.index = i0 := by rw [d6, b6, a6, k1.1]
  have hv : c2.ccl.vWay = v := by rw [d6, b6, a6, k1.2.1]
  have hi1 : c1.ccl.index = i0 := by rw [a6, k1.1]
  have hv1 : c1.ccl.vWay = v := by rw [a6, k1.2.1]
  have ht1 : c1.ccl.tag = c.tg a := by rw [a6, k1.2.2]
  have hii : ci.ccl.index = i0 := by rw [b6, hi1]
  have hvi : ci.ccl.vWay = v := by rw [b6, hv1]
  have hcfg2 : c2.cfg = c.cfg := by rw [d1, b1, a1, k01]
  have ht : c2.thru op = c.thru op := by unfold thru; rw [hcfg2]
  have hd : c2.dirties op = c.dirties op := by unfold dirties; rw [hcfg2]
  have hl2 : ∀ t i, c2.lineBase t i = c.lineBase t i := by
    intro t i; unfold lineBase; rw [d4, b4, a4, k04]
  have hl0 : ∀ t i, c0.lineBase t i = c.lineBase t i := by
    intro t i; unfold lineBase; rw [k04]
  have hsc : ∀ i j, (c1.arr i j).scp = (c.arr i j).scp := by
    intro i j; rw [(aa i j).2.2.1, k3.1]
  have hfull : c1.full i0 = c.full i0 := by
    unfold full
    rw [a1, k01, a5, k05, scpCount_congr (c1.arr i0) (c.arr i0) _ (fun j _ => hsc i0 j)]
  rw [k1.1, k1.2.1, k3.1] at as ar aa
  rw [hi1, hv1, hsc, hfull] at bst
  refine ⟨rfl, ⟨by rw [z1, hcfg2], by rw [z2, d2, b2, a2, k02], by rw [z3, d3, b3, a3, k03],
    by rw [z4, d4, b4, a4, k04], by rw [z5, d5, b5, a5, k05]⟩, ?_, ?_, ?_, ?_, data, ?_⟩
  · rw [zh, d9, b9, a9, k3.2]
  · rw [zs, ht, ds, bs, as, k2.1]
  · rw [zr, ht, hl2, dr, br, ar, k2.2, hi, hv, hl0]
    have : (c2.arr i0 v).tag = c.tg a := by
      rw [(da i0 v).2.2.2.2.1, (ba i0 v).2.2.2.2.1, hi1, hv1, if_pos ⟨rfl, rfl⟩, ht1]
    rw [this]
  · rw [zst, dst, bst]
  · intro i j
    obtain ⟨f1, f2, f3, f4, f5, f6⟩ := za i j
    obtain ⟨g1, g2, g3, g4, g5, g6⟩ := da i j
    obtain ⟨n1, n2, n3, n4, n5, n6⟩ := ba i j
    obtain ⟨p1, p2, p3, p4, p5, p6⟩ := aa i j
    rw [hi1, hv1] at n1 n3 n4 n5
    refine ⟨by rw [f1, g1, n1, p1], ?_, ?_, ?_, ?_, ?_⟩
    · rw [f2, g2, n2, p2, hi, hv, hd]
      by_cases hij : i = i0 ∧ j = v
      · rw [if_pos hij, decide_eq_true hij, Bool.true_and]
        obtain ⟨h1, h2⟩ := hij
        subst h1 h2
        show ((if i0 = i0 ∧ j = j ∧ vl.valid = true then false else (c.arr i0 j).dirty) || _) = _
        cases hvv : vl.valid with
        | true => simp
        | false => simp
      · rw [if_neg hij, decide_eq_false hij, Bool.false_and, Bool.or_false,
          if_neg (fun hh => hij ⟨hh.1, hh.2.1⟩)]
    · rw [f3, g3, n3, hsc, hsc, hfull]
    · rw [f4, g4, n4, p4, a1, k01]
      have : (fun k => (c1.arr i0 k).lru) = fun k => (c.arr i0 k).lru := by
        funext k; rw [(aa i0 k).2.2.2.1]
      rw [this]
    · rw [f5, g5, n5, p5, ht1]
    · rw [f6, g6, n6, p6, hi, hv, hii, hvi]
      by_cases hij : i = i0 ∧ j = v
      · rw [if_pos hij, if_pos hij]
      · rw [if_neg hij, if_neg hij, if_neg hij]

end Ama.Cache
