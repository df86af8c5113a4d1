import Verif.Lemmas.CacheInv
/-!
# With promote-on-insert the cache refines the recency-list specification
-/
namespace Ama.Cache
open Spec.Lru

/-- the abstract action of a request -/
def Op.act : Op → Act
  | .rd a _ => .use (lineNo a)
  | .wr a _ _ => .use (lineNo a)
  | .lcl a => .lock (lineNo a)
  | .rel a => .unlock (lineNo a)
  | _ => .other

/-- set `i` of the cache represents `L` -/
def Rset (c : Cache) (i : Nat) (L : SetL) : Prop :=
  R c.cfg.ways (fun j => (c.arr i j).lru) (fun j => (c.arr i j).valid) (fun j => (c.arr i j).scp)
    (fun j => c.key i j) L

theorem Rset_new {g : Cfg} {c : Cache} (h : new g = some c) (i : Nat) : Rset c i [] := by
  unfold Rset
  rw [new_arr h]
  refine ⟨Nat.zero_le _, fun j hj => hj, fun j k _ _ e => e, fun k hk => ⟨k, hk, rfl⟩, fun j hj => ?_, ?_⟩
  · simp
  · simp

/-- a set none of whose lines changed -/
theorem Rset_congr {c c' : Cache} (hs : Same c c') {i : Nat} {L : SetL} (h : Rset c i L)
    (he : ∀ j, (c'.arr i j).lru = (c.arr i j).lru ∧ (c'.arr i j).valid = (c.arr i j).valid ∧
      (c'.arr i j).scp = (c.arr i j).scp ∧ (c'.arr i j).tag = (c.arr i j).tag) : Rset c' i L := by
  unfold Rset key at *
  rw [hs.1]
  have e1 : (fun j => (c'.arr i j).lru) = fun j => (c.arr i j).lru := funext fun j => (he j).1
  have e2 : (fun j => (c'.arr i j).valid) = fun j => (c.arr i j).valid := funext fun j => (he j).2.1
  have e3 : (fun j => (c'.arr i j).scp) = fun j => (c.arr i j).scp := funext fun j => (he j).2.2.1
  have e4 : (fun j => (c'.arr i j).tag.toNat * c.cfg.sets + i) = fun j => (c.arr i j).tag.toNat * c.cfg.sets + i :=
    funext fun j => by rw [(he j).2.2.2]
  rw [e1, e2, e3, e4]
  exact h

theorem not_mem_erase {L : SetL} {k : Nat} {p : Nat × Bool} (h : L[k]? = some p) (hn : (L.map (·.1)).Nodup) :
    p.1 ∉ (L.eraseIdx k).map (·.1) := by
  induction L generalizing k with
  | nil => simp at h
  | cons q L ih =>
    rw [List.map_cons, List.nodup_cons] at hn
    cases k with
    | zero =>
      have : q = p := by simpa using h
      subst this
      exact hn.1
    | succ k =>
      rw [List.getElem?_cons_succ] at h
      rw [List.eraseIdx_cons_succ, List.map_cons, List.mem_cons]
      rintro (e | e)
      · exact hn.1 (e ▸ List.mem_map.2 ⟨p, List.mem_of_getElem? h, rfl⟩)
      · exact ih h hn.2 e

theorem at_key {c : Cache} {b : Nat} (hg : Geo c b) {a : W} {w : Nat} (h : At c a w) :
    c.key (c.idx a) w = lineNo a := by
  unfold key
  rw [h.2.2]
  exact lineNo_eq hg a

theorem key_at {c : Cache} {b : Nat} (hg : Geo c b) {a : W} {w : Nat} (hw : w < c.cfg.ways)
    (hv : (c.arr (c.idx a) w).valid = true) (h : c.key (c.idx a) w = lineNo a) : At c a w := by
  refine ⟨hw, hv, ?_⟩
  unfold key at h
  rw [← lineNo_eq hg a] at h
  have := sets_pos hg
  have h2 : (c.arr (c.idx a) w).tag.toNat * c.cfg.sets = (c.tg a).toNat * c.cfg.sets := by omega
  exact BitVec.eq_of_toNat_eq (Nat.eq_of_mul_eq_mul_right this h2)

/-- residency in the model and in the specification agree -/
theorem has_iff {c : Cache} {b : Nat} (hg : Geo c b) {a : W} {L : SetL} (h : Rset c (c.idx a) L) :
    has L (lineNo a) = true ↔ ∃ w, At c a w := by
  rw [R_has h]
  constructor
  · rintro ⟨w, h1, h2, h3⟩; exact ⟨w, key_at hg h1 h2 h3⟩
  · rintro ⟨w, hw⟩; exact ⟨w, hw.1, hw.2.1, at_key hg hw⟩

/-- after an access the touched line is at the front; `old` is its lock flag -/
theorem use_refines {c : Cache} {b : Nat} (hg : Geo c b) (hW : Wf c) {a : W} {L : SetL}
    (h : Rset c (c.idx a) L) (w : Nat)
    (hw : At c a w ∨ ((∀ w, ¬ At c a w) ∧ Victim c a w)) :
    R c.cfg.ways (lruAfter c.cfg.ways (fun j => (c.arr (c.idx a) j).lru) w)
      (fun j => (c.arr (c.idx a) j).valid || decide (j = w)) (fun j => (c.arr (c.idx a) j).scp)
      (fun j => if j = w then lineNo a else c.key (c.idx a) j) (useLine c.cfg.ways L (lineNo a)) := by
  obtain ⟨h1, h2, h3, h4, h5, h6⟩ := id h
  replace h2 : ∀ i, i < c.cfg.ways → (c.arr (c.idx a) i).lru < c.cfg.ways := h2
  replace h4 : ∀ k, k < c.cfg.ways → ∃ i, i < c.cfg.ways ∧ (c.arr (c.idx a) i).lru = k := h4
  replace h5 : ∀ i, i < c.cfg.ways → L[(c.arr (c.idx a) i).lru]? =
    if (c.arr (c.idx a) i).valid then some (c.key (c.idx a) i, (c.arr (c.idx a) i).scp) else none := h5
  rcases hw with hat | ⟨hno, hv1, hv2, hv3⟩
  · have hp := h5 w hat.1
    simp only [hat.2.1, if_true] at hp
    rw [at_key hg hat] at hp
    obtain ⟨f1, f2⟩ := find_erase_pos hp h6
    unfold useLine
    rw [f1, f2]
    refine R_touch h hat.1 (not_mem_erase hp h6) (by simp) (by simp) rfl (fun j _ hj => ?_)
    simp [hj]
  · have hno' : has L (lineNo a) = false := by
      cases hx : has L (lineNo a) with
      | false => rfl
      | true => obtain ⟨w, hw⟩ := (has_iff hg h).1 hx; exact absurd hw (hno w)
    have herase : (if L.length < c.cfg.ways then L else dropLru L) =
        L.eraseIdx (c.arr (c.idx a) w).lru := by
      by_cases hlen : L.length < c.cfg.ways
      · rw [if_pos hlen]
        obtain ⟨k, hk, ek⟩ := h4 (c.cfg.ways - 1) (by omega)
        have hi := h5 k hk
        rw [ek, List.getElem?_eq_none (by omega)] at hi
        have hiv : (c.arr (c.idx a) k).valid = false := by
          cases hx : (c.arr (c.idx a) k).valid with
          | false => rfl
          | true => rw [hx] at hi; cases hi
        have hsc : (c.arr (c.idx a) k).scp = false := by
          cases hx : (c.arr (c.idx a) k).scp with
          | false => rfl
          | true => rw [(hW (c.idx a)).1 k hk hx] at hiv; cases hiv
        have := hv3 k hk hsc
        have ek' : (c.arr (c.idx a) k).lru = c.cfg.ways - 1 := ek
        exact (List.eraseIdx_of_length_le (by omega)).symm
      · rw [if_neg hlen]
        have hlru := h2 w hv1
        have hsome := h5 w hv1
        have hvv : (c.arr (c.idx a) w).valid = true := by
          cases hx : (c.arr (c.idx a) w).valid with
          | true => rfl
          | false =>
            rw [hx] at hsome
            have := List.getElem?_eq_none_iff.1 hsome
            have h2' : (c.arr (c.idx a) w).lru < c.cfg.ways := hlru
            omega
        simp only [hvv, if_true, hv2] at hsome
        refine evict_pos hsome (fun k p hk hp => ?_)
        have hkn : k < c.cfg.ways := by
          obtain ⟨hk', _⟩ := List.getElem?_eq_some_iff.1 hp
          omega
        obtain ⟨i, hi, ei⟩ := h4 k hkn
        have hpi := h5 i hi
        rw [ei, hp] at hpi
        cases hs : (c.arr (c.idx a) i).scp with
        | true =>
          cases hx : (c.arr (c.idx a) i).valid with
          | true =>
            rw [hx, hs] at hpi
            simp only [if_true, Option.some.injEq] at hpi
            rw [hpi]
          | false => rw [hx] at hpi; simp at hpi
        | false =>
          have := hv3 i hi hs
          have ei' : (c.arr (c.idx a) i).lru = k := ei
          omega
    unfold useLine
    rw [find_none hno']
    show R _ _ _ _ _ ((lineNo a, false) :: (if L.length < c.cfg.ways then L else dropLru L))
    rw [herase]
    refine R_touch h hv1 ?_ (by simp) (by simp) hv2 (fun j _ hj => by simp [hj])
    intro hm
    have hsub : (L.eraseIdx (c.arr (c.idx a) w).lru).map (·.1) ⊆ L.map (·.1) :=
      ((List.eraseIdx_sublist L _).map _).subset
    obtain ⟨p, hp, ep⟩ := List.mem_map.1 (hsub hm)
    unfold has at hno'
    rw [List.any_eq_false] at hno'
    exact hno' p hp (by simpa using ep)

/-- one access or lock request refines one specification action on its set -/
theorem set_refines {c c' : Cache} {b : Nat} (hg : Geo c b) (hW : Wf c) {a : W} {L : SetL} {m : Scp}
    (h : Rset c (c.idx a) L) (w : Nat) (old : Bool)
    (hw : At c a w ∨ ((∀ w, ¬ At c a w) ∧ Victim c a w)) (hold : (c.arr (c.idx a) w).scp = old)
    (hs : Same c c')
    (hf : ∀ j, (c'.arr (c.idx a) j).valid = ((c.arr (c.idx a) j).valid || decide (j = w)) ∧
      (c'.arr (c.idx a) j).scp = (if j = w then (lockNew m old (c.full (c.idx a))).2 else (c.arr (c.idx a) j).scp) ∧
      (c'.arr (c.idx a) j).lru = lruAfter c.cfg.ways (fun k => (c.arr (c.idx a) k).lru) w j ∧
      (c'.arr (c.idx a) j).tag = (if j = w then c.tg a else (c.arr (c.idx a) j).tag)) :
    (m = .none → Rset c' (c.idx a) (useLine c.cfg.ways L (lineNo a))) ∧
    (m = .lcl → Rset c' (c.idx a) (lock c.cfg.ways (useLine c.cfg.ways L (lineNo a)) (lineNo a))) := by
  have h1 := use_refines hg hW h w hw
  have hwn : w < c.cfg.ways := by
    rcases hw with x | ⟨_, x⟩
    · exact x.1
    · exact x.1
  have e1 : (fun j => (c'.arr (c.idx a) j).lru) = lruAfter c.cfg.ways (fun j => (c.arr (c.idx a) j).lru) w :=
    funext fun j => (hf j).2.2.1
  have e2 : (fun j => (c'.arr (c.idx a) j).valid) = fun j => (c.arr (c.idx a) j).valid || decide (j = w) :=
    funext fun j => (hf j).1
  have e3 : (fun j => c'.key (c.idx a) j) = fun j => if j = w then lineNo a else c.key (c.idx a) j := by
    funext j
    unfold key
    rw [(hf j).2.2.2, hs.1]
    split
    · exact lineNo_eq hg a
    · rfl
  unfold Rset
  rw [hs.1, e1, e2, e3]
  have same : ((lockNew m old (c.full (c.idx a))).2 = old) →
      R c.cfg.ways (lruAfter c.cfg.ways (fun j => (c.arr (c.idx a) j).lru) w)
      (fun j => (c.arr (c.idx a) j).valid || decide (j = w)) (fun j => (c'.arr (c.idx a) j).scp)
      (fun j => if j = w then lineNo a else c.key (c.idx a) j) (useLine c.cfg.ways L (lineNo a)) := by
    intro hl
    have e4 : (fun j => (c'.arr (c.idx a) j).scp) = fun j => (c.arr (c.idx a) j).scp := by
      funext j
      rw [(hf j).2.1]
      split
      · rename_i e; subst e; rw [hl, hold]
      · rfl
    rw [e4]
    exact h1
  refine ⟨fun hm => ?_, fun hm => ?_⟩
  · subst hm
    exact same rfl
  · subst hm
    have hcount : scpCount (c.arr (c.idx a)) c.cfg.ways = locked (useLine c.cfg.ways L (lineNo a)) := by
      rw [scpCount_countP]
      refine R_locked h1 (fun i hi hs => ?_)
      rw [(hW (c.idx a)).1 i hi hs, Bool.true_or]
    have hfull : c.full (c.idx a) = !decide (locked (useLine c.cfg.ways L (lineNo a)) < c.cfg.ways - 1) := by
      unfold full
      rw [hcount, hg.2.2.2.2.1]
    unfold lock
    by_cases hlt : locked (useLine c.cfg.ways L (lineNo a)) < c.cfg.ways - 1
    · rw [if_pos hlt]
      rw [decide_eq_true hlt] at hfull
      refine R_lock h1 hwn (by simp) (by simp) ?_ (fun j hj hne => ?_)
      · rw [(hf w).2.1, if_pos rfl, hfull]
        simp [lockNew]
      · rw [(hf j).2.1, if_neg hne]
    · rw [if_neg hlt]
      rw [decide_eq_false hlt] at hfull
      apply same
      rw [hfull]
      simp [lockNew]

/-- the whole cache represents `S` -/
def Rall (c : Cache) (S : State) : Prop := ∀ i, Rset c i (S i)

theorem apply_refines {c c' : Cache} {b : Nat} (hg : Geo c b) (hW : Wf c) (hp : c.cfg.inPol = .update)
    {S : State} (h : Rall c S) {d : Dev} {o : Op} (ho : o.apply c d = .ok c') :
    Rall c' (step c.cfg.sets c.cfg.ways S o.act) := by
  cases hr : o.req with
  | none =>
    cases o with
    | prof b =>
      simp only [Op.apply, Res.ok.injEq] at ho
      subst ho
      exact fun i => Rset_congr ⟨rfl, rfl, rfl, rfl, rfl⟩ (h i) (fun j => ⟨rfl, rfl, rfl, rfl⟩)
    | roi s z =>
      simp only [Op.apply, Res.ok.injEq] at ho
      subst ho
      exact fun i => Rset_congr ⟨rfl, rfl, rfl, rfl, rfl⟩ (h i) (fun j => ⟨rfl, rfl, rfl, rfl⟩)
    | rd => cases hr
    | wr => cases hr
    | lcl => cases hr
    | rel => cases hr
  | some q =>
    obtain ⟨a, size, op, m⟩ := q
    have hact : (m = .none ∧ o.act = .use (lineNo a)) ∨ (m = .lcl ∧ o.act = .lock (lineNo a)) ∨
        (m = .rel ∧ o.act = .unlock (lineNo a)) := by
      cases o <;> simp only [Op.req, Option.some.injEq, Prod.mk.injEq, reduceCtorEq] at hr <;>
        obtain ⟨rfl, _, _, rfl⟩ := hr <;> simp [Op.act]
    have hidx := idx_eq hg a
    -- the sets that are not addressed
    have hother : ∀ i, i ≠ c.idx a → Same c c' →
        (∀ j, (c'.arr i j).lru = (c.arr i j).lru ∧ (c'.arr i j).valid = (c.arr i j).valid ∧
          (c'.arr i j).scp = (c.arr i j).scp ∧ (c'.arr i j).tag = (c.arr i j).tag) →
        Rset c' i (step c.cfg.sets c.cfg.ways S o.act i) := by
      intro i hi hs he
      have : step c.cfg.sets c.cfg.ways S o.act i = S i := by
        rw [hidx] at hi
        rcases hact with ⟨_, e⟩ | ⟨_, e⟩ | ⟨_, e⟩ <;> rw [e] <;> exact if_neg hi
      rw [this]
      exact Rset_congr hs (h i) he
    -- an access or a lock request
    have hmain : ∀ w old, (At c a w ∨ ((∀ w, ¬ At c a w) ∧ Victim c a w)) → (c.arr (c.idx a) w).scp = old →
        Same c c' → m ≠ .rel →
        (∀ j, (c'.arr (c.idx a) j).valid = ((c.arr (c.idx a) j).valid || decide (j = w)) ∧
          (c'.arr (c.idx a) j).scp =
            (if j = w then (lockNew m old (c.full (c.idx a))).2 else (c.arr (c.idx a) j).scp) ∧
          (c'.arr (c.idx a) j).lru = lruAfter c.cfg.ways (fun k => (c.arr (c.idx a) k).lru) w j ∧
          (c'.arr (c.idx a) j).tag = (if j = w then c.tg a else (c.arr (c.idx a) j).tag)) →
        Rset c' (c.idx a) (step c.cfg.sets c.cfg.ways S o.act (c.idx a)) := by
      intro w old hw hold hs hm hf
      obtain ⟨r1, r2⟩ := set_refines hg hW (h (c.idx a)) w old hw hold hs hf
      rcases hact with ⟨e1, e⟩ | ⟨e1, e⟩ | ⟨e1, e⟩
      · rw [e]
        have := r1 e1
        rw [hidx] at this ⊢
        simp only [step, Spec.Lru.upd, if_true]
        exact this
      · rw [e]
        have := r2 e1
        rw [hidx] at this ⊢
        simp only [step, Spec.Lru.upd, if_true]
        exact this
      · exact absurd e1 hm
    rcases apply_cases hg hW ho hr with ⟨w, hat, hm, f1, _, _, _, _, data, fa⟩ |
      ⟨hno, hm, v, hv, f1, _, _, _, _, data, fa⟩ | ⟨w, hat, hm, f1, _, _, _, _, fa⟩ |
      ⟨hno, hm, f1, _, _, _, _, fa⟩
    · intro i
      by_cases hi : i = c.idx a
      · subst hi
        refine hmain w _ (.inl hat) rfl f1 hm (fun j => ?_)
        obtain ⟨a1, a2, a3, a4, a5, a6⟩ := fa (c.idx a) j
        refine ⟨?_, ?_, ?_, ?_⟩
        · rw [a1]
          by_cases hj : j = w
          · subst hj; rw [hat.2.1]; rfl
          · simp [hj]
        · rw [a3]; simp
        · rw [a4]; simp
        · rw [a5]
          by_cases hj : j = w
          · subst hj; rw [hat.2.2]; simp
          · simp [hj]
      · refine hother i hi f1 (fun j => ?_)
        obtain ⟨a1, a2, a3, a4, a5, a6⟩ := fa i j
        exact ⟨by rw [a4, if_neg hi], a1, by rw [a3, if_neg (fun e => hi e.1)], a5⟩
    · intro i
      by_cases hi : i = c.idx a
      · subst hi
        refine hmain v _ (.inr ⟨hno, hv⟩) hv.2.1 f1 hm (fun j => ?_)
        obtain ⟨a1, a2, a3, a4, a5, a6⟩ := fa (c.idx a) j
        refine ⟨?_, ?_, ?_, ?_⟩
        · rw [a1]; simp
        · rw [a3]; simp
        · rw [a4]; simp [hp]
        · rw [a5]; simp
      · refine hother i hi f1 (fun j => ?_)
        obtain ⟨a1, a2, a3, a4, a5, a6⟩ := fa i j
        refine ⟨by rw [a4, if_neg (fun e => hi e.1)], ?_, by rw [a3, if_neg (fun e => hi e.1)],
          by rw [a5, if_neg (fun e => hi e.1)]⟩
        rw [a1, decide_eq_false (fun e => hi e.1), Bool.or_false]
    · intro i
      by_cases hi : i = c.idx a
      · subst hi
        rcases hact with ⟨e1, e⟩ | ⟨e1, e⟩ | ⟨e1, e⟩
        · rw [hm] at e1; cases e1
        · rw [hm] at e1; cases e1
        · rw [e, hidx]
          simp only [step, Spec.Lru.upd, if_true]
          rw [← hidx]
          unfold Rset
          have hl := R_lock (b := false) (scp' := fun j => (c'.arr (c.idx a) j).scp) (h (c.idx a)) hat.1 hat.2.1
            (at_key hg hat) (by rw [fa, if_pos ⟨rfl, rfl⟩]) (fun j _ hj => by
              rw [fa, if_neg (fun e => hj e.2)])
          rw [f1.1]
          have e1 : (fun j => (c'.arr (c.idx a) j).lru) = fun j => (c.arr (c.idx a) j).lru := by
            funext j; rw [fa]; split <;> rfl
          have e2 : (fun j => (c'.arr (c.idx a) j).valid) = fun j => (c.arr (c.idx a) j).valid := by
            funext j; rw [fa]; split <;> rfl
          have e3 : (fun j => c'.key (c.idx a) j) = fun j => c.key (c.idx a) j := by
            funext j; unfold key; rw [fa, f1.1]; split <;> rfl
          rw [e1, e2, e3]
          exact hl
      · refine hother i hi f1 (fun j => ?_)
        rw [fa, if_neg (fun e => hi e.1)]
        exact ⟨rfl, rfl, rfl, rfl⟩
    · intro i
      have hset : step c.cfg.sets c.cfg.ways S o.act i = S i := by
        rcases hact with ⟨e1, e⟩ | ⟨e1, e⟩ | ⟨e1, e⟩
        · rw [hm] at e1; cases e1
        · rw [hm] at e1; cases e1
        · rw [e]
          simp only [step, Spec.Lru.upd]
          split
          · rename_i hi
            have hh : has (S (c.idx a)) (lineNo a) = false := by
              cases hx : has (S (c.idx a)) (lineNo a) with
              | false => rfl
              | true => obtain ⟨w, hw⟩ := (has_iff hg (h (c.idx a))).1 hx; exact absurd hw (hno w)
            rw [hi, ← hidx]
            unfold setLock
            conv => rhs; rw [← List.map_id (S (c.idx a))]
            apply List.map_congr_left
            intro p hp
            unfold has at hh
            rw [List.any_eq_false] at hh
            have : p.1 ≠ lineNo a := fun e => hh p hp (by simpa using e)
            rw [if_neg this]
            rfl
          · rfl
      rw [hset]
      refine Rset_congr f1 (h i) (fun j => ?_)
      rw [fa]
      exact ⟨rfl, rfl, rfl, rfl⟩

/-- the refinement after every request sequence -/
theorem run_refines {g : Cfg} {c0 c : Cache} (hn : new g = some c0) (hp : g.inPol = .update)
    (tr : List (Dev × Op)) (h : c0.runOps tr = .ok c) :
    (∃ b, Geo c b) ∧ Wf c ∧ c.cfg = g ∧ Rall c (Spec.Lru.run g.sets g.ways (tr.map (·.2.act))) := by
  obtain ⟨hc, b, hg⟩ := new_geo hn
  have key : ∀ (tr : List (Dev × Op)) (c0 c : Cache) (S : State), Geo c0 b → Wf c0 → c0.cfg = g → Rall c0 S →
      c0.runOps tr = .ok c →
      Geo c b ∧ Wf c ∧ c.cfg = g ∧ Rall c ((tr.map (·.2.act)).foldl (step g.sets g.ways) S) := by
    intro tr
    induction tr with
    | nil =>
      intro c0 c S hg hW hc hR h
      have := Res.ok.inj h
      subst this
      exact ⟨hg, hW, hc, hR⟩
    | cons x tr ih =>
      intro c0 c S hg hW hc hR h
      obtain ⟨d, o⟩ := x
      unfold runOps at h
      cases hx : o.apply c0 d with
      | ok c1 =>
        rw [hx] at h
        obtain ⟨s, w⟩ := apply_wf hg hW hx
        have hR1 := apply_refines hg hW (by rw [hc]; exact hp) hR hx
        rw [hc] at hR1
        exact ih c1 c _ (s.geo hg) w (s.1.trans hc) hR1 h
      | ub k => rw [hx] at h; cases h
      | abort => rw [hx] at h; cases h
  obtain ⟨h1, h2, h3, h4⟩ := key tr c0 c (fun _ => []) hg (new_wf hn) hc (fun i => Rset_new hn i) h
  exact ⟨⟨b, h1⟩, h2, h3, h4⟩

end Ama.Cache
