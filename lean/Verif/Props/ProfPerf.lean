import Verif.Lemmas.ProfPerf
import Verif.Spec.ProfPerf
/-!
# The callstack profiler keeps a stack, and keeps its samples
-/
namespace Ama.Perf

/-! ## The stack is never empty -/

theorem inc_cs (s : St) : s.inc.cs = s.cs := by rw [inc_eq]
theorem update_cs (s : St) (pc : W) : (s.update pc).cs = s.cs := inc_cs s
theorem setTop_ne {i : Idx} : ∀ {l : List Idx}, l ≠ [] → setTop i l ≠ []
  | [], h => absurd rfl h
  | _ :: _, _ => List.cons_ne_nil _ _
theorem replaceTop_ne (s : St) (i : Idx) : (s.replaceTop i).cs ≠ [] := by
  unfold St.replaceTop
  split <;> exact List.cons_ne_nil _ _
theorem jump_ne (s : St) (pc : W) (t : Bool) (i : Idx) (b : Bool) :
    (if t || b then (s.update pc).replaceTop i else { s.update pc with cs := i :: (s.update pc).cs }).cs ≠ [] := by
  split
  · exact replaceTop_ne _ _
  · exact List.cons_ne_nil _ _

/-- **C58.** No call empties the callstack. -/
theorem callstack_nonempty {s : St} (h : s.cs ≠ []) (o : Op) : (s.op o).cs ≠ [] := by
  cases o with
  | flag e b => exact h
  | active b => exact h
  | branch pc t =>
    show (s.branch pc t).cs ≠ []
    unfold St.branch
    split
    · exact h
    · split
      · exact h
      · split
        · split
          · exact setTop_ne (by rw [update_cs]; exact h)
          · exact h
        · exact h
  | jalr pc r t ra =>
    show (s.jalr pc r t ra).cs ≠ []
    unfold St.jalr
    split
    · exact h
    · split
      · have h1 : (s.update pc).popFrame.cs ≠ [] := by
          unfold St.popFrame
          split
          · exact List.cons_ne_nil _ _
          · rw [update_cs]; exact h
        simp only
        generalize (s.update pc).popFrame = s1 at h1 ⊢
        split
        · simp only [if_neg h1]; exact setTop_ne h1
        · exact h1
      · split
        · exact jump_ne _ _ _ _ _
        · exact h
  | jal pc t ra =>
    show (s.jal pc t ra).cs ≠ []
    unfold St.jal
    split
    · exact h
    · split
      · exact jump_ne _ _ _ _ _
      · exact h
  | finishInst pc =>
    show (s.finishInst pc).cs ≠ []
    unfold St.finishInst
    split
    · exact h
    · have h1 : (s.fallInto pc).cs ≠ [] := by
        unfold St.fallInto
        split
        · split
          · exact setTop_ne (by rw [update_cs]; exact h)
          · exact h
        · exact h
      have h2 : ((s.fallInto pc).repair pc).cs ≠ [] := by
        generalize s.fallInto pc = s1 at h1
        unfold St.repair
        split
        · exact h1
        · simp only
          split
          · exact List.cons_ne_nil _ _
          · split
            · simp only [if_neg h1]; exact setTop_ne h1
            · exact h1
      unfold St.close
      simp only
      split
      · exact h2
      · show (St.inc _).cs ≠ []
        rw [inc_cs]; exact h2

/-- **C58.** The callstack of a running profiler is never empty, whatever the sequence of calls, so no access to its
top is undefined. -/
theorem callstack_never_empty {m : SymMap} {ev : List Nat} {a en : Bool} {s0 : St} (h : St.init m ev a en = some s0)
    (l : List Op) : (s0.ops l).cs ≠ [] := by
  have h0 : s0.cs ≠ [] := by
    unfold St.init at h
    obtain ⟨b, _, e⟩ := Option.map_eq_some_iff.1 h
    subst e
    exact List.cons_ne_nil _ _
  clear h
  induction l generalizing s0 with
  | nil => exact h0
  | cons o t ih => exact ih (callstack_nonempty h0 o)

/-! ## The top of the stack is the current function -/

theorem popTo_head {m : SymMap} {pc : W} : ∀ {l : List Idx} {i : Idx} {t : List Idx}, popTo m pc l = i :: t →
    matchSym m pc i = true
  | [], _, _, h => by cases h
  | a :: u, i, t, h => by
    unfold popTo at h
    split at h
    · next ha => cases h; exact ha
    · exact popTo_head h
theorem fallInto_map (s : St) (pc : W) : (s.fallInto pc).map = s.map := by
  unfold St.fallInto
  split
  · split
    · show (s.inc).map = s.map
      rw [inc_eq]
    · rfl
  · rfl
theorem repair_top {s : St} (hne : s.cs ≠ []) {pc : W} {y : Sym} (hy : inRange s.map pc = some y) :
    (s.repair pc).cs.head? = some y.idx := by
  have hm : ∀ i, matchSym s.map pc i = true → i = y.idx := by
    intro i h
    unfold matchSym at h
    rw [hy] at h
    exact (by simpa using h : y.idx = i).symm
  unfold St.repair
  split
  · next h =>
    unfold St.matchTop at h
    split at h
    · cases h
    · next i t e => rw [e]; simp only [List.head?_cons]; rw [hm i h]
  · simp only
    split
    · next i t e => simp only [List.head?_cons]; rw [hm i (popTo_head e)]
    · rw [hy]
      simp only [if_neg hne]
      cases hc : s.cs with
      | nil => exact absurd hc hne
      | cons a t => rfl
theorem close_cs (s : St) : s.close.cs = s.cs := by
  unfold St.close
  simp only
  split
  · rfl
  · show s.inc.cs = _
    exact inc_cs s

/-- **C64.** At every instruction boundary, the innermost frame is the function that holds the next pc (if any function
does), whatever calls, jumps and traps came before. -/
theorem top_is_current {s : St} (w : Wf s.map) (hen : s.en = true) (hne : s.cs ≠ []) {pc f : W}
    (hf : Spec.Perf.Holds (s.map.map (·.pc)) pc f) :
    ∃ y ∈ s.map, y.pc = f ∧ (s.finishInst pc).cs.head? = some y.idx := by
  obtain ⟨h1, h2, h3⟩ := hf
  obtain ⟨y, hy, e⟩ := List.mem_map.1 h1
  have hr : inRange s.map pc = some y := by
    refine w.inRange.2 ⟨hy, by rw [e]; exact h2, fun z hz hz' => ?_⟩
    rw [e]
    exact h3 _ (List.mem_map.2 ⟨z, hz, rfl⟩) hz'
  refine ⟨y, hy, e, ?_⟩
  unfold St.finishInst
  rw [hen]
  simp only [Bool.not_true, Bool.false_eq_true, if_false]
  rw [close_cs]
  refine repair_top ?_ (by rw [fallInto_map]; exact hr)
  unfold St.fallInto
  split
  · split
    · exact setTop_ne (by rw [update_cs]; exact hne)
    · exact hne
  · exact hne

/-- the profiler after an excursion it could not follow: the top frame is right again -/
example : ∃ s : St, s.cs = [9#16, 7#16] ∧ s.en = true ∧ s.map = [⟨0x80000000#32, 1#16⟩, ⟨0x80000100#32, 2#16⟩] ∧
    (s.finishInst 0x80000104#32).cs = [2#16, 7#16] :=
  ⟨⟨true, true, [⟨0x80000000#32, 1#16⟩, ⟨0x80000100#32, 2#16⟩], [0], [9#16, 7#16], [], none, false, fun _ => 0#16,
    fun _ => 0, [], 0⟩, rfl, rfl, rfl, by decide +kernel⟩

/-! ## Samples -/

/-- events recorded while profiling is on -/
def recorded (e : Nat) : Bool → List Op → Nat
  | _, [] => 0
  | a, .flag e' b :: t => (if a && e' == e && b then 1 else 0) + recorded e a t
  | _, .active b :: t => recorded e b t
  | a, _ :: t => recorded e a t

/-- samples in the folded callstacks, in the open callstack, and not yet attributed -/
def St.held (s : St) (e : Nat) : Nat :=
  s.total e + (if s.updated then 0 else s.cnt e) + if s.active then (s.flags e).toNat else 0

/-- what the clients have done so far -/
structure Trk where
  /-- a control transfer since the last finished instruction -/
  ctl : Bool
  /-- no event since the last finished instruction, which had no control transfer -/
  clean : Bool
  /-- events of the last finished and of the current instruction -/
  p : Nat → Nat
  q : Nat → Nat
def Trk.start : Trk := ⟨false, true, fun _ => 0, fun _ => 0⟩
/-- a well-behaved client: at most one control transfer in each finished instruction, the window opens and closes between
instructions and not right after a control transfer, less than 2^16 events in two consecutive instructions -/
def Disc : Trk → List Op → Prop
  | _, [] => True
  | k, .flag e b :: t =>
    (b = true → k.p e + k.q e + 1 < 2 ^ 16) ∧
      Disc { k with clean := false, q := fun i => if i = e ∧ b = true then k.q i + 1 else k.q i } t
  | k, .active _ :: t => k.clean = true ∧ Disc k t
  | k, .branch _ taken :: t => if taken then k.ctl = false ∧ Disc { k with ctl := true } t else Disc k t
  | k, .jalr .. :: t => k.ctl = false ∧ Disc { k with ctl := true } t
  | k, .jal .. :: t => k.ctl = false ∧ Disc { k with ctl := true } t
  | k, .finishInst _ :: t => Disc ⟨false, !k.ctl, k.q, fun _ => 0⟩ t

structure Inv (s : St) (k : Trk) (ev : List Nat) (e n : Nat) : Prop where
  events : s.events = ev
  en : s.en = true
  held : s.held e = n
  ctl : s.updated = true → k.ctl = true
  le : (s.flags e).toNat ≤ k.p e + k.q e
  leq : s.updated = true → (s.flags e).toNat ≤ k.q e
  clean : k.clean = true → s.flags e = 0#16

theorem update_frame (s : St) (pc : W) : (s.update pc).events = s.events ∧ (s.update pc).en = s.en ∧
    (s.update pc).updated = true ∧ (s.update pc).active = s.active ∧ (s.update pc).map = s.map := by
  unfold St.update
  simp only [inc_eq, St.save, St.setFallthrough]
  exact ⟨trivial, trivial, trivial, trivial, trivial⟩
theorem update_flags {s : St} {e : Nat} (he : e ∈ s.events) (pc : W) : (s.update pc).flags e = 0#16 := by
  show s.inc.flags e = _
  rw [inc_eq]
  simp [he]
theorem held_update {s : St} (hn : s.events.Nodup) {e : Nat} (he : e ∈ s.events) (hu : s.updated = false) (pc : W) :
    (s.update pc).held e = s.held e := by
  have h1 : (s.update pc).total e = s.total e + s.inc.cnt e := by
    show ((bump _ _ _).map _).sum = _
    rw [total_bump, share_eq (by rw [inc_eq]; exact hn) (by rw [inc_eq]; exact he)]
    rw [inc_eq]
    rfl
  unfold St.held
  rw [h1, (update_frame s pc).2.2.1, update_flags he, hu, inc_eq]
  simp only [if_true, Bool.false_eq_true, if_false]
  cases ha : s.active
  · simp
  · simp [he]
    omega

theorem Inv.update_free {s : St} {k : Trk} {ev : List Nat} {e n : Nat} (i : Inv s k ev e n) (hn : ev.Nodup) (he : e ∈ ev)
    (hu : s.updated = false) (pc : W) (cs : List Idx) : Inv { s.update pc with cs } { k with ctl := true } ev e n := by
  obtain ⟨f1, f2, f3, f4, f5⟩ := update_frame s pc
  have hf : (s.update pc).flags e = 0#16 := update_flags (by rw [i.events]; exact he) pc
  have hf' : ((s.update pc).flags e).toNat = 0 := by rw [hf]; rfl
  refine ⟨f1.trans i.events, f2.trans i.en, ?_, fun _ => rfl, ?_, fun _ => ?_, fun _ => hf⟩
  · show (s.update pc).held e = n
    rw [held_update (by rw [i.events]; exact hn) (by rw [i.events]; exact he) hu]
    exact i.held
  · exact Nat.le_trans (Nat.le_of_eq hf') (Nat.zero_le _)
  · exact Nat.le_trans (Nat.le_of_eq hf') (Nat.zero_le _)
theorem Inv.update {s : St} {k : Trk} {ev : List Nat} {e n : Nat} (i : Inv s k ev e n) (hn : ev.Nodup) (he : e ∈ ev)
    (hk : k.ctl = false) (pc : W) (cs : List Idx) : Inv { s.update pc with cs } { k with ctl := true } ev e n := by
  refine i.update_free hn he ?_ pc cs
  cases h : s.updated
  · rfl
  · rw [i.ctl h] at hk; cases hk
/-- only the stack changes -/
theorem Inv.cs {s : St} {k : Trk} {ev : List Nat} {e n : Nat} (i : Inv s k ev e n) (cs prev : List Idx) (d : Nat)
    (ft : Option W) : Inv { s with cs, prev, diverged := d, ft } k ev e n :=
  ⟨i.events, i.en, i.held, i.ctl, i.le, i.leq, i.clean⟩
theorem Inv.ctl' {s : St} {k : Trk} {ev : List Nat} {e n : Nat} (i : Inv s k ev e n) :
    Inv s { k with ctl := true } ev e n := ⟨i.events, i.en, i.held, fun _ => rfl, i.le, i.leq, i.clean⟩

theorem Inv.replaceTop {s : St} {k : Trk} {ev : List Nat} {e n : Nat} (i : Inv s k ev e n) (x : Idx) :
    Inv (s.replaceTop x) k ev e n := by
  unfold St.replaceTop
  split <;> exact i.cs _ _ _ _
theorem Inv.jump {s : St} {k : Trk} {ev : List Nat} {e n : Nat} (i : Inv s k ev e n) (hn : ev.Nodup) (he : e ∈ ev)
    (hk : k.ctl = false) (pc : W) (t : Bool) (x : Idx) (b : Bool) :
    Inv (if t || b then (s.update pc).replaceTop x else { s.update pc with cs := x :: (s.update pc).cs })
      { k with ctl := true } ev e n := by
  split
  · exact Inv.replaceTop (i.update hn he hk pc (s.update pc).cs) x
  · exact i.update hn he hk pc _

theorem Inv.close {s : St} {k : Trk} {ev : List Nat} {e n : Nat} (i : Inv s k ev e n) (he : e ∈ ev) :
    Inv s.close ⟨false, !k.ctl, k.q, fun _ => 0⟩ ev e n := by
  unfold St.close
  simp only
  cases hu : s.updated
  · simp only [Bool.false_eq_true, if_false]
    have hf : s.inc.flags e = 0#16 := by rw [inc_eq]; simp [i.events, he]
    have hf' : (s.inc.flags e).toNat = 0 := by rw [hf]; rfl
    refine ⟨?_, ?_, ?_, fun h => (by cases h), Nat.le_trans (Nat.le_of_eq hf') (Nat.zero_le _), fun h => (by cases h),
      fun _ => hf⟩
    · show s.inc.events = ev; rw [inc_eq]; exact i.events
    · show s.inc.en = true; rw [inc_eq]; exact i.en
    · refine Eq.trans ?_ i.held
      show (s.inc.saved.map _).sum + (if false = true then 0 else s.inc.cnt e) +
        (if s.inc.active = true then (s.inc.flags e).toNat else 0) = s.held e
      unfold St.held
      rw [hu, hf, inc_eq]
      simp only [Bool.false_eq_true, if_false]
      cases ha : s.active
      · simp [St.total]
      · simp [St.total, i.events, he]
        omega
  · simp only [if_true]
    refine ⟨i.events, i.en, ?_, fun h => (by cases h), ?_, fun h => (by cases h), ?_⟩
    · refine Eq.trans ?_ i.held
      show s.total e + (if false = true then 0 else 0) + _ = s.held e
      unfold St.held
      rw [hu]
      simp
    · exact Nat.le_trans (i.leq hu) (Nat.le_add_right _ _)
    · intro h
      rw [i.ctl hu] at h
      cases h

theorem repair_eq (s : St) (pc : W) : ∃ cs d, s.repair pc = { s with cs, diverged := d } := by
  unfold St.repair
  split
  · exact ⟨s.cs, s.diverged, rfl⟩
  · simp only
    split
    · exact ⟨_, _, rfl⟩
    · split
      · exact ⟨_, _, rfl⟩
      · exact ⟨s.cs, _, rfl⟩
theorem fallInto_eq (s : St) (pc : W) : (∃ ft, s.fallInto pc = { s with ft }) ∨
    (s.updated = false ∧ ∃ cs, s.fallInto pc = { s.update pc with cs }) := by
  unfold St.fallInto
  split
  · next hc =>
    split
    · exact .inr ⟨hc.2, _, rfl⟩
    · exact .inl ⟨_, rfl⟩
  · exact .inl ⟨s.ft, rfl⟩

theorem Inv.step {s : St} {k : Trk} {ev : List Nat} {e n : Nat} (i : Inv s k ev e n) (hn : ev.Nodup) (he : e ∈ ev)
    {o : Op} {t : List Op} (d : Disc k (o :: t)) :
    ∃ k', Disc k' t ∧ Inv (s.op o) k' ev e (n + recorded e s.active [o]) ∧
      recorded e s.active (o :: t) = recorded e s.active [o] + recorded e (s.op o).active t := by
  have hen := i.en
  cases o with
  | flag e' b =>
    obtain ⟨d1, d2⟩ := d
    refine ⟨_, d2, ?_, by simp [recorded]; rfl⟩
    have hle := i.le
    by_cases hb : b = true ∧ e' = e
    · obtain ⟨hb, rfl⟩ := hb
      subst hb
      have d1 := d1 rfl
      have hf : ((s.op (.flag e' true)).flags e').toNat = (s.flags e').toNat + 1 := by
        show ((if e' = e' then s.flags e' + 1#16 else s.flags e')).toNat = _
        rw [if_pos rfl, BitVec.toNat_add]
        exact Nat.mod_eq_of_lt (by simp; omega)
      refine ⟨i.events, i.en, ?_, i.ctl, ?_, fun hu => ?_, fun h => by cases h⟩
      · have : (s.op (.flag e' true)).held e' = s.held e' + if s.active then 1 else 0 := by
          unfold St.held
          rw [hf]
          show s.total e' + (if s.updated = true then 0 else s.cnt e') +
            (if s.active = true then (s.flags e').toNat + 1 else 0) = _
          cases s.active <;> simp <;> omega
        rw [this, i.held]
        simp [recorded]
      · rw [hf]; simp; omega
      · have := i.leq hu
        rw [hf]; simp; omega
    · have hf : (s.op (.flag e' b)).flags e = s.flags e := by
        show (if e = e' then s.flags e + (if b then 1#16 else 0#16) else s.flags e) = _
        split
        · next h =>
          have : b = false := by
            cases b
            · rfl
            · exact absurd ⟨rfl, h.symm⟩ hb
          rw [this]; simp
        · rfl
      have hq : ∀ x, k.q x ≤ if x = e' ∧ b = true then k.q x + 1 else k.q x := by
        intro x; split <;> omega
      refine ⟨i.events, i.en, ?_, i.ctl, ?_, fun hu => ?_, fun h => by cases h⟩
      · have : (s.op (.flag e' b)).held e = s.held e := by
          unfold St.held
          rw [hf]
          rfl
        rw [this, i.held]
        have : ¬ (e' = e ∧ b = true) := fun h => hb ⟨h.2, h.1⟩
        simp only [recorded, Bool.and_eq_true, beq_iff_eq]
        rw [if_neg (fun h => hb ⟨h.2, h.1.2⟩)]
        rfl
      · rw [hf]; exact Nat.le_trans i.le (Nat.add_le_add_left (hq e) _)
      · rw [hf]; exact Nat.le_trans (i.leq hu) (hq e)
  | active b =>
    obtain ⟨d1, d2⟩ := d
    refine ⟨k, d2, ?_, by simp [recorded]; rfl⟩
    have hz := i.clean d1
    refine ⟨i.events, i.en, ?_, i.ctl, i.le, i.leq, i.clean⟩
    have : (s.op (.active b)).held e = s.held e := by
      have hz' : (s.flags e).toNat = 0 := by rw [hz]; rfl
      unfold St.held
      show s.total e + (if s.updated = true then 0 else s.cnt e) + (if b = true then (s.flags e).toNat else 0) = _
      rw [hz']
      simp
    rw [this, i.held]
    rfl
  | branch pc taken =>
    cases taken with
    | false =>
      refine ⟨k, d, ?_, ?_⟩
      · show Inv (s.branch pc false) k ev e n
        unfold St.branch
        simp only [hen, Bool.not_true, Bool.false_eq_true, if_false, Bool.not_false, if_true]
        exact i
      · show _ = _ + recorded e (s.branch pc false).active t
        unfold St.branch
        simp only [hen, Bool.not_true, Bool.false_eq_true, if_false, Bool.not_false, if_true]
        simp [recorded]
    | true =>
      obtain ⟨d1, d2⟩ := d
      have key : Inv (s.branch pc true) { k with ctl := true } ev e n ∧ (s.branch pc true).active = s.active := by
        unfold St.branch
        simp only [hen, Bool.not_true, Bool.false_eq_true, if_false]
        split
        · next y _ _ _ _ =>
          split
          · exact ⟨i.update hn he d1 _ _, (update_frame s y.pc).2.2.2.1⟩
          · exact ⟨i.ctl', rfl⟩
        · exact ⟨i.ctl', rfl⟩
      refine ⟨_, d2, key.1, ?_⟩
      show _ = _ + recorded e (s.branch pc true).active t
      rw [key.2]
      simp [recorded]
  | jalr pc r tl ra =>
    obtain ⟨d1, d2⟩ := d
    have key : Inv (s.jalr pc r tl ra) { k with ctl := true } ev e n ∧ (s.jalr pc r tl ra).active = s.active := by
      unfold St.jalr
      simp only [hen, Bool.not_true, Bool.false_eq_true, if_false]
      split
      · have h1 : ∃ cs, (s.update pc).popFrame = { s.update pc with cs } := by
          unfold St.popFrame
          split
          · exact ⟨_, rfl⟩
          · exact ⟨(s.update pc).cs, rfl⟩
        obtain ⟨cs, h1⟩ := h1
        rw [h1]
        have h2 := i.update hn he d1 pc cs
        split
        · exact ⟨h2.cs _ _ _ _, (update_frame s pc).2.2.2.1⟩
        · exact ⟨h2, (update_frame s pc).2.2.2.1⟩
      · split
        · next y _ =>
          refine ⟨i.jump hn he d1 pc tl y.idx _, ?_⟩
          split
          · unfold St.replaceTop; split <;> exact (update_frame s pc).2.2.2.1
          · exact (update_frame s pc).2.2.2.1
        · exact ⟨i.ctl', rfl⟩
    refine ⟨_, d2, key.1, ?_⟩
    show _ = _ + recorded e (s.jalr pc r tl ra).active t
    rw [key.2]
    simp [recorded]
  | jal pc tl ra =>
    obtain ⟨d1, d2⟩ := d
    have key : Inv (s.jal pc tl ra) { k with ctl := true } ev e n ∧ (s.jal pc tl ra).active = s.active := by
      unfold St.jal
      simp only [hen, Bool.not_true, Bool.false_eq_true, if_false]
      split
      · next y _ =>
        refine ⟨i.jump hn he d1 pc tl y.idx _, ?_⟩
        split
        · unfold St.replaceTop; split <;> exact (update_frame s pc).2.2.2.1
        · exact (update_frame s pc).2.2.2.1
      · exact ⟨i.ctl', rfl⟩
    refine ⟨_, d2, key.1, ?_⟩
    show _ = _ + recorded e (s.jal pc tl ra).active t
    rw [key.2]
    simp [recorded]
  | finishInst pc =>
    have key : Inv (s.finishInst pc) ⟨false, !k.ctl, k.q, fun _ => 0⟩ ev e n ∧ (s.finishInst pc).active = s.active := by
      unfold St.finishInst
      simp only [hen, Bool.not_true, Bool.false_eq_true, if_false]
      obtain ⟨cs, dv, hr⟩ := repair_eq (s.fallInto pc) pc
      rw [hr]
      have hact : ∀ x : St, x.close.active = x.active := by
        intro x
        unfold St.close
        split
        · rfl
        · show x.inc.active = _
          rw [inc_eq]
      rcases fallInto_eq s pc with ⟨ft, h⟩ | ⟨hu, cs', h⟩
      · rw [h, hact]
        exact ⟨Inv.close (i.cs cs s.prev dv ft) he, rfl⟩
      · rw [h, hact]
        refine ⟨?_, (update_frame s pc).2.2.2.1⟩
        have h1 := Inv.close ((i.update_free hn he hu pc cs').cs cs (s.update pc).prev dv (s.update pc).ft) he
        refine ⟨h1.events, h1.en, h1.held, h1.ctl, h1.le, h1.leq, fun _ => ?_⟩
        unfold St.close
        simp only [(update_frame s pc).2.2.1, if_true]
        exact update_flags (by rw [i.events]; exact he) pc
    refine ⟨_, d, key.1, ?_⟩
    show _ = _ + recorded e (s.finishInst pc).active t
    rw [key.2]
    simp [recorded]

theorem Inv.run (hn : ev.Nodup) {e : Nat} (he : e ∈ ev) : ∀ {l : List Op} {s : St} {k : Trk} {n : Nat}, Inv s k ev e n →
    Disc k l → ∃ k', Inv (s.ops l) k' ev e (n + recorded e s.active l)
  | [], s, k, n, i, _ => ⟨k, by simpa [recorded, St.ops] using i⟩
  | o :: t, s, k, n, i, d => by
    obtain ⟨k', d', i', hr⟩ := i.step hn he d
    obtain ⟨k2, i2⟩ := Inv.run hn he i' d'
    refine ⟨k2, ?_⟩
    rw [hr, ← Nat.add_assoc]
    exact i2

/-- the same, ending with a finished instruction -/
theorem Disc.app : ∀ {k : Trk} {l l' : List Op}, Disc k (l ++ l') → Disc k l
  | _, [], _, _ => trivial
  | _, .flag .. :: _, _, d => ⟨d.1, Disc.app d.2⟩
  | _, .active _ :: _, _, d => ⟨d.1, Disc.app d.2⟩
  | _, .branch _ true :: _, _, d => ⟨d.1, Disc.app d.2⟩
  | k, .branch _ false :: t, l', d => Disc.app (k := k) (l := t) (l' := l') d
  | _, .jalr .. :: _, _, d => ⟨d.1, Disc.app d.2⟩
  | _, .jal .. :: _, _, d => ⟨d.1, Disc.app d.2⟩
  | k, .finishInst _ :: t, l', d => Disc.app (k := ⟨false, !k.ctl, k.q, fun _ => 0⟩) (l := t) (l' := l') d

theorem Fresh.inv {m : SymMap} {ev : List Nat} {a : Bool} {s0 : St} (h : St.init m ev a true = some s0) (e : Nat) :
    Inv s0 .start ev e 0 ∧ s0.active = a := by
  unfold St.init at h
  obtain ⟨b, _, e⟩ := Option.map_eq_some_iff.1 h
  subst e
  exact ⟨⟨rfl, rfl, by simp [St.held, St.total, St.setFallthrough], fun h => (by cases h), Nat.zero_le _,
    fun h => (by cases h),
    fun _ => rfl⟩, rfl⟩

/-- **C58**, for well-behaved clients.  The samples of a tracked event over all folded callstacks, plus those of the open
callstack, plus those recorded but not yet attributed, are exactly the events recorded while active: for every symbol
map and every sequence of calls, returns, tail calls, branches, fallthroughs, repairs and windows.

Missing: clients that transfer control twice before an instruction finishes (`trap_then_jump_doubles`), and windows that
open or close right after a control transfer (`call_leaks_in`, `call_leaks_out`). -/
theorem samples_conserved_partial {m : SymMap} {ev : List Nat} (hn : ev.Nodup) {a : Bool} {s0 : St}
    (h : St.init m ev a true = some s0) {l : List Op} (d : Disc .start l) {e : Nat} (he : e ∈ ev) :
    (s0.ops l).held e = recorded e a l := by
  obtain ⟨i, ha⟩ := Fresh.inv h e
  obtain ⟨k, i'⟩ := Inv.run hn he i d
  have := i'.held
  rw [ha, Nat.zero_add] at this
  exact this

theorem close_updated (s : St) : s.close.updated = false := rfl
theorem finishInst_updated {s : St} (hen : s.en = true) (pc : W) : (s.finishInst pc).updated = false := by
  unfold St.finishInst
  simp only [hen, Bool.not_true, Bool.false_eq_true, if_false]
  rfl

/-- **C58.** The totals reported at the end of a run that stops between instructions: what is missing is at most what was
recorded since the last control transfer. -/
theorem reported_total_partial {m : SymMap} {ev : List Nat} (hn : ev.Nodup) {a : Bool} {s0 : St}
    (h : St.init m ev a true = some s0) {l : List Op} {pc : W} (d : Disc .start (l ++ [.finishInst pc])) {e : Nat}
    (he : e ∈ ev) :
    let s := s0.ops (l ++ [.finishInst pc])
    s.finish.total e + (if s.active then (s.flags e).toNat else 0) = recorded e a (l ++ [.finishInst pc]) := by
  intro s
  obtain ⟨i, ha⟩ := Fresh.inv h e
  obtain ⟨k, i'⟩ := Inv.run hn he i d
  obtain ⟨k1, i1⟩ := Inv.run hn he i d.app
  have hs : s = (s0.ops l).finishInst pc := by
    show List.foldl _ _ _ = _
    rw [List.foldl_append]
    rfl
  have hu : s.updated = false := by rw [hs]; exact finishInst_updated i1.en pc
  have hh := i'.held
  rw [ha, Nat.zero_add] at hh
  rw [← hh]
  show s.finish.total e + _ = s.held e
  unfold St.held St.finish
  have hen : s.en = true := i'.en
  rw [hu, hen]
  simp only [Bool.not_true, Bool.false_eq_true, if_false]
  congr 1
  show ((bump _ _ _).map _).sum = _
  rw [total_bump, share_eq (by rw [i'.events]; exact hn) (by rw [i'.events]; exact he)]
  rfl

/-! ## Cases -/

namespace Ex
def syms : List ElfSym := [⟨"main", 0x80000100#64, 1#16⟩, ⟨"_start", 0x80000000#64, 1#16⟩, ⟨"$x", 0x80000010#64, 1#16⟩,
  ⟨"f", 0x80000200#64, 1#16⟩, ⟨"", 0x80000300#64, 1#16⟩, ⟨"low", 0x1000#64, 1#16⟩]
def m3 : SymMap := [⟨0x80000000#32, 1#16⟩, ⟨0x80000100#32, 2#16⟩, ⟨0x80000200#32, 3#16⟩]
theorem m3_eq : symMap syms = some m3 := by decide +kernel
def s0 (a : Bool) : St := (St.init m3 [0] a true).getD ⟨false, false, [], [], [], [], none, false, fun _ => 0#16, fun _ => 0, [], 0⟩
theorem s0_init (a : Bool) : St.init m3 [0] a true = some (s0 a) := by cases a <;> rfl
/-- one instruction -/
def ins (c : List Op) (pc : W) : List Op := c ++ [.flag 0 true, .finishInst pc]
/-- callstack, folded samples, open and pending ones -/
def obs (s : St) : List Idx × List (List Idx × Nat) × Nat × Nat :=
  (s.cs, s.saved.map (fun p => (p.1, p.2 0)), s.cnt 0, (s.flags 0).toNat)
/-- `_start` calls `main`, which calls `f` and gets back -/
def demo : List Op := ins [] 0x80000004#32 ++ ins [.jal 0x80000100#32 false 0x80000008#32] 0x80000100#32 ++
  ins [] 0x80000104#32 ++ ins [.jal 0x80000200#32 false 0x80000108#32] 0x80000200#32 ++ ins [] 0x80000204#32 ++
  ins [.jalr 0x80000108#32 true false 0x80000208#32] 0x80000108#32 ++ ins [] 0x8000010c#32
example : obs ((s0 true).ops demo) = ([2#16, 1#16], [([1#16], 1), ([2#16, 1#16], 2), ([3#16, 2#16, 1#16], 2)], 2, 0) := by
  decide +kernel
example : ((s0 true).ops demo).finish.total 0 = 7 ∧ recorded 0 true demo = 7 := by decide +kernel
example : Disc .start demo := by simp [demo, ins, Disc, Trk.start]
/-- a window around two instructions -/
example : Disc .start (ins [] 0x80000004#32 ++ [.active true] ++ ins [] 0x80000008#32 ++ ins [] 0x8000000c#32 ++
    [.active false] ++ ins [] 0x80000010#32) := by simp [ins, Disc, Trk.start]
example : ((s0 false).ops (ins [] 0x80000004#32 ++ [.active true] ++ ins [] 0x80000008#32 ++ ins [] 0x8000000c#32 ++
    [.active false] ++ ins [] 0x80000010#32)).finish.total 0 = 2 := by decide +kernel
end Ex

/-- **C58 fails** when a trap is taken into a handler whose first instruction jumps to a function: neither call finishes an
instruction in between, and the open callstack is counted twice.  Three events are recorded, four are counted. -/
theorem trap_then_jump_doubles :
    let l := Ex.ins [] 0x80000004#32 ++ [.jalr 0x80000100#32 false false 0#32, .flag 0 true] ++
      Ex.ins [.jal 0x80000200#32 true 0x80000104#32] 0x80000200#32
    recorded 0 true l = 3 ∧ ((Ex.s0 true).ops l).held 0 = 4 := by decide +kernel

/-- **C58 fails** at the start of a window: profiling from the entry of `main` also counts the call to it. -/
theorem call_leaks_in :
    let l := Ex.ins [.jal 0x80000100#32 false 0x80000004#32] 0x80000100#32 ++ [.active true] ++ Ex.ins [] 0x80000104#32
    recorded 0 false l = 1 ∧ ((Ex.s0 false).ops l).finish.total 0 = 2 := by decide +kernel

/-- **C58 fails** at the end of a window, or of the run: a last instruction that calls is not reported. -/
theorem call_leaks_out :
    let l := Ex.ins [] 0x80000004#32 ++ Ex.ins [.jal 0x80000100#32 false 0x80000008#32] 0x80000100#32
    recorded 0 true l = 2 ∧ ((Ex.s0 true).ops l).finish.total 0 = 1 ∧
    ((Ex.s0 true).ops (l ++ [.active false] ++ Ex.ins [] 0x80000104#32)).finish.total 0 = 1 := by decide +kernel

/-- **C58 fails** when the step limit ends the run at a call, before the instruction finishes: the open callstack is saved
again under the callee. -/
theorem limit_at_call_doubles :
    let l := Ex.ins [] 0x80000004#32 ++ Ex.ins [] 0x80000008#32 ++ [.jal 0x80000100#32 false 0x8000000c#32, .flag 0 true]
    recorded 0 true l = 3 ∧ ((Ex.s0 true).ops l).finish.total 0 = 4 ∧
    Ex.obs ((Ex.s0 true).ops l).finish = ([2#16, 1#16], [([1#16], 2), ([2#16, 1#16], 2)], 2, 1) := by decide +kernel

end Ama.Perf
