import Verif.Props.ProfPerf
/-!
# On nested calls, the callstack profiler's stacks and samples are those of the program
-/
namespace Ama.Perf
open Spec.Perf

/-- function starts -/
def starts (m : SymMap) : List W := m.map (·.pc)
/-- the number of a function -/
def idxOf (m : SymMap) (f : W) : Idx :=
  match find m f with
  | some y => y.idx
  | none => 0#16

theorem Wf.holds {m : SymMap} (w : Wf m) {pc f : W} (h : Holds (starts m) pc f) :
    ∃ y ∈ m, y.pc = f ∧ Perf.inRange m pc = some y ∧ y.idx = idxOf m f ∧ Perf.find m f = some y := by
  obtain ⟨h1, h2, h3⟩ := h
  obtain ⟨y, hy, e⟩ := List.mem_map.1 h1
  have hf := w.find hy
  rw [e] at hf
  refine ⟨y, hy, e, ?_, ?_, hf⟩
  · refine w.inRange.2 ⟨hy, by rw [e]; exact h2, fun z hz hz' => ?_⟩
    rw [e]
    exact h3 _ (List.mem_map.2 ⟨z, hz, rfl⟩) hz'
  · unfold idxOf; rw [hf]
theorem idxOf_inj {m : SymMap} (w : Wf m) {f g : W} (hf : f ∈ starts m) (hg : g ∈ starts m) (h : idxOf m f = idxOf m g) :
    f = g := by
  obtain ⟨y, hy, e1⟩ := List.mem_map.1 hf
  obtain ⟨z, hz, e2⟩ := List.mem_map.1 hg
  subst e1 e2
  unfold idxOf at h
  rw [w.find hy, w.find hz] at h
  rw [w.idx_inj hy hz h]
theorem key_inj {m : SymMap} (w : Wf m) : ∀ {a b : List W}, (∀ f ∈ a, f ∈ starts m) → (∀ f ∈ b, f ∈ starts m) →
    (a.map (idxOf m) = b.map (idxOf m) ↔ a = b)
  | [], [], _, _ => by simp
  | [], _ :: _, _, _ => by simp
  | _ :: _, [], _, _ => by simp
  | x :: a, y :: b, ha, hb => by
    have ih := key_inj w (a := a) (b := b) (fun f hf => ha f (List.mem_cons_of_mem _ hf))
      (fun f hf => hb f (List.mem_cons_of_mem _ hf))
    simp only [List.map_cons, List.cons.injEq, ih]
    constructor
    · rintro ⟨h1, h2⟩
      exact ⟨idxOf_inj w (ha _ List.mem_cons_self) (hb _ List.mem_cons_self) h1, h2⟩
    · rintro ⟨h1, h2⟩
      exact ⟨by rw [h1], h2⟩
theorem find_starts {m : SymMap} {pc : W} (h : pc ∉ starts m) : find m pc = none := by
  cases hf : find m pc with
  | none => rfl
  | some y => exact absurd (List.mem_map.2 ⟨y, (find_some hf).1, (find_some hf).2⟩) h
theorem starts_find {m : SymMap} {pc : W} (h : pc ∈ starts m) : (find m pc).isSome = true := by
  cases hf : find m pc with
  | none =>
    obtain ⟨y, hy, e⟩ := List.mem_map.1 h
    exact absurd e (find_none hf y hy)
  | some y => rfl

/-! ## Programs -/

/-- an instruction of the profiled program: how it moves between functions, the profiler call it makes (if any), the
function and the address it continues at, and the events recorded before and after that call -/
structure Ins where
  mv : Move
  how : List Op
  fn : W
  pc : W
  pre : List Nat
  post : List Nat
/-- the calls the core makes for it (`core.cpp:150-173`) -/
def Ins.ops (i : Ins) : List Op := i.pre.map (.flag · true) ++ i.how ++ i.post.map (.flag · true) ++ [.finishInst i.pc]
def Ins.next (i : Ins) (st : List W) : List W := i.mv.stack i.fn st

/-- the instruction makes sense where it stands.  Calls leave a return address inside the caller, returns go back into
the caller, which is another function. -/
def Ins.Ok (fs : List W) (st : List W) (i : Ins) : Prop :=
  Holds fs i.pc i.fn ∧ i.pre.length + i.post.length < 2 ^ 15 ∧
  match i.mv with
  | .stay => st.head? = some i.fn ∧ (i.how = [] ∨ (∃ t, i.how = [.branch i.pc t]) ∨
      (i.pc ∉ fs ∧ ((∃ t ra, i.how = [.jal i.pc t ra]) ∨ ∃ r t ra, i.how = [.jalr i.pc r t ra])))
  | .call => i.pc = i.fn ∧ ∃ ra, ra ∉ fs ∧ (i.how = [.jal i.pc false ra] ∨ i.how = [.jalr i.pc false false ra])
  | .tail => (i.pc = i.fn ∧ ∃ t ra, (t = true ∨ ra ∈ fs) ∧ (i.how = [.jal i.pc t ra] ∨ i.how = [.jalr i.pc false t ra])) ∨
      (st.head? ≠ some i.fn ∧ i.how = [.branch i.pc true])
  | .ret => i.pc ∉ fs ∧ (∃ g t, st = g :: i.fn :: t ∧ g ≠ i.fn) ∧ ∃ t ra, i.how = [.jalr i.pc true t ra]
/-- a sensible program run from a stack -/
def Nested (fs : List W) : List W → List Ins → Prop
  | _, [] => True
  | st, i :: t => i.Ok fs st ∧ Nested fs (i.next st) t
/-- the stack it ends with -/
def final : List W → List Ins → List W
  | st, [] => st
  | st, i :: t => final (i.next st) t
/-- the events of each stack: those before the transfer belong to the old stack, the others to the new one -/
def spent (e : Nat) (key : List W) : List W → List Ins → Nat
  | _, [] => 0
  | st, i :: t => (if st = key then i.pre.count e else 0) + (if i.next st = key then i.post.count e else 0) +
      spent e key (i.next st) t

/-! ## Proof -/

/-- the fallthrough target is not in the current function -/
def FtOk (m : SymMap) (st : List W) (ft : Option W) : Prop :=
  ∀ p, ft = some p → ∀ f, st.head? = some f → ¬ Holds (starts m) p f

structure Nest (m : SymMap) (ev : List Nat) (st : List W) (s : St) : Prop where
  map : s.map = m
  events : s.events = ev
  en : s.en = true
  act : s.active = true
  upd : s.updated = false
  cs : s.cs = st.map (idxOf m)
  ne : st ≠ []
  sub : ∀ f ∈ st, f ∈ starts m
  ft : FtOk m st s.ft

/-- samples of a callstack, folded or not -/
def sofar (m : SymMap) (st : List W) (s : St) (key : List W) (e : Nat) : Nat :=
  at_ s.saved (key.map (idxOf m)) e + if st = key then s.cnt e + (s.flags e).toNat else 0

theorem flags_ops : ∀ (l : List Nat) (s : St), s.ops (l.map (.flag · true)) =
    { s with flags := fun i => s.flags i + BitVec.ofNat 16 (l.count i) }
  | [], s => by simp [St.ops]
  | a :: t, s => by
    show (s.flag a true).ops (t.map _) = _
    rw [flags_ops t]
    unfold St.flag
    simp only [if_true]
    congr 1
    funext i
    by_cases h : i = a
    · subst h
      rw [if_pos rfl, List.count_cons_self, BitVec.ofNat_add, BitVec.add_assoc, BitVec.add_comm 1#16]
    · rw [if_neg h, List.count_cons_of_ne (fun h' => h h'.symm)]
theorem flags_toNat (f : BitVec 16) (n : Nat) (h : f.toNat + n < 2 ^ 16) : (f + BitVec.ofNat 16 n).toNat = f.toNat + n := by
  rw [BitVec.toNat_add, BitVec.toNat_ofNat, Nat.add_mod_mod, Nat.mod_eq_of_lt h]

theorem following_holds {m : SymMap} (w : Wf m) {f p : W} (h : (following m f).map (·.pc) = some p) :
    ¬ Holds (starts m) p f := by
  obtain ⟨z, hz, e⟩ := Option.map_eq_some_iff.1 h
  obtain ⟨h1, h2, _⟩ := w.following hz
  rintro ⟨_, _, h3⟩
  have := h3 z.pc (List.mem_map.2 ⟨z, h1, rfl⟩) (by rw [e]; exact Nat.le_refl _)
  omega
theorem following_none {m : SymMap} (w : Wf m) {pc : W} (h : pc ∉ starts m) : following m pc = none := by
  cases hf : following m pc with
  | none => rfl
  | some z =>
    obtain ⟨_, _, y, h1, h2⟩ := w.following hf
    exact absurd (List.mem_map.2 ⟨y, h1, h2⟩) h

/-- what the control transfer does to the profiler -/
theorem how_eq {m : SymMap} (w : Wf m) {ev : List Nat} {st : List W} {s : St} {i : Ins} (n : Nest m ev st s)
    (ok : i.Ok (starts m) st) :
    (i.next st = st ∧ st.head? = some i.fn ∧ s.ops i.how = s) ∨
    ∃ p, FtOk m (i.next st) ((following m p).map (·.pc)) ∧ (i.next st).head? = some i.fn ∧
      s.ops i.how = { s.update p with cs := (i.next st).map (idxOf m) } := by
  obtain ⟨hh, -, ok⟩ := ok
  obtain ⟨y, hy, hpc, hr, hi, hf⟩ := w.holds hh
  obtain ⟨top, rest, hst⟩ : ∃ a b, st = a :: b := by
    cases st with
    | nil => exact absurd rfl n.ne
    | cons a b => exact ⟨a, b, rfl⟩
  have hcs : s.cs = idxOf m top :: rest.map (idxOf m) := by rw [n.cs, hst]; rfl
  have htop : top ∈ starts m := n.sub _ (by rw [hst]; exact List.mem_cons_self)
  have hfn : i.fn ∈ starts m := hh.1
  have ftok : ∀ t, FtOk m (i.fn :: t) ((following m i.fn).map (·.pc)) := by
    intro t p hp f hfe
    cases hfe
    exact following_holds w hp
  have hum : ∀ p, (s.update p).map = m := fun p => (update_frame s p).2.2.2.2.trans n.map
  have huc : ∀ p, (s.update p).cs = idxOf m top :: rest.map (idxOf m) := fun p => (update_cs s p).trans hcs
  revert ok
  cases hmv : i.mv with
  | stay =>
    rintro ⟨h1, h2⟩
    have hn : i.next st = st := by unfold Ins.next; rw [hmv]; rfl
    refine .inl ⟨hn, h1, ?_⟩
    have htf : top = i.fn := by rw [hst] at h1; exact Option.some.inj h1
    rcases h2 with h | ⟨t, h⟩ | ⟨hns, h⟩
    · rw [h]; rfl
    · rw [h]
      show s.branch i.pc t = s
      unfold St.branch
      simp only [n.en, Bool.not_true, Bool.false_eq_true, if_false, n.map, hr, hcs, hi, htf]
      cases t <;> simp
    · have hfn := find_starts hns
      rcases h with ⟨t, ra, h⟩ | ⟨r, t, ra, h⟩
      · rw [h]
        show s.jal i.pc t ra = s
        unfold St.jal
        simp only [n.en, Bool.not_true, Bool.false_eq_true, if_false, n.map, hfn]
      · rw [h]
        show s.jalr i.pc r t ra = s
        have hc : s.changes i.pc = false := by
          unfold St.changes
          simp only [hcs, n.map, hr, hi, htf]
          simp
        unfold St.jalr
        simp only [n.en, Bool.not_true, Bool.false_eq_true, if_false, n.map, hfn, hc, Bool.and_false]
  | call =>
    rintro ⟨h1, ra, h2, h3⟩
    have hn : i.next st = i.fn :: st := by unfold Ins.next; rw [hmv]; rfl
    have hra := find_starts h2
    refine .inr ⟨i.fn, by rw [hn]; exact ftok _, by rw [hn]; rfl, ?_⟩
    rw [hn]
    rcases h3 with h | h
    · rw [h, h1]
      show s.jal i.fn false ra = _
      unfold St.jal
      simp only [n.en, Bool.not_true, Bool.false_eq_true, if_false, n.map, hf, Bool.false_or, hum, hra,
        Option.isSome_none, huc, hi, hst, List.map_cons]
    · rw [h, h1]
      show s.jalr i.fn false false ra = _
      unfold St.jalr
      simp only [n.en, Bool.not_true, Bool.false_eq_true, if_false, n.map, hf, Bool.false_or, hum, hra,
        Option.isSome_none, huc, hi, hst, List.map_cons, Bool.false_and]
  | tail =>
    intro h
    have hn : i.next st = i.fn :: rest := by unfold Ins.next; rw [hmv, hst]; rfl
    refine .inr ⟨i.fn, by rw [hn]; exact ftok _, by rw [hn]; rfl, ?_⟩
    rw [hn]
    have hrep : ∀ p, (s.update p).replaceTop (idxOf m i.fn) = { s.update p with cs := (i.fn :: rest).map (idxOf m) } := by
      intro p
      unfold St.replaceTop
      rw [huc]
      cases rest <;> rfl
    rcases h with ⟨h1, t, ra, h2, h3⟩ | ⟨h1, h⟩
    · have hb : (t || (find m ra).isSome) = true := by
        rcases h2 with h | h
        · rw [h]; rfl
        · rw [starts_find h]; simp
      rcases h3 with h | h
      · rw [h, h1]
        show s.jal i.fn t ra = _
        unfold St.jal
        simp only [n.en, Bool.not_true, Bool.false_eq_true, if_false, n.map, hf, hum, hb, if_true, hi, hrep]
      · rw [h, h1]
        show s.jalr i.fn false t ra = _
        unfold St.jalr
        simp only [n.en, Bool.not_true, Bool.false_eq_true, if_false, n.map, hf, hum, hb, if_true, hi, hrep,
          Bool.false_and]
    · rw [h]
      show s.branch i.pc true = _
      have hne : (idxOf m i.fn != idxOf m top) = true := by
        rw [bne_iff_ne]
        intro e
        have := idxOf_inj w hfn htop e
        rw [hst] at h1
        exact h1 (by rw [this]; rfl)
      unfold St.branch
      simp only [n.en, Bool.not_true, Bool.false_eq_true, if_false, n.map, hr, hcs, hi, hne, if_true, huc, setTop, hpc,
        List.map_cons]
  | ret =>
    rintro ⟨h1, ⟨g, t', h2, h3⟩, t, ra, h⟩
    have hn : i.next st = i.fn :: t' := by unfold Ins.next; rw [hmv, h2]; rfl
    rw [hst] at h2
    injection h2 with h2 h2'
    refine .inr ⟨i.pc, by rw [hn, following_none w h1]; exact fun p hp => (by cases hp),
      by rw [hn]; rfl, ?_⟩
    rw [h, hn]
    show s.jalr i.pc true t ra = _
    have hc : s.changes i.pc = true := by
      unfold St.changes
      simp only [hcs, n.map, hr, hi]
      rw [bne_iff_ne]
      intro e
      exact h3 (by rw [← h2]; exact (idxOf_inj w hfn htop e).symm)
    unfold St.jalr
    simp only [n.en, Bool.not_true, Bool.false_eq_true, if_false, hc, Bool.and_self, if_true]
    have hp : (s.update i.pc).popFrame = { s.update i.pc with cs := (i.fn :: t').map (idxOf m) } := by
      unfold St.popFrame
      rw [huc, h2']
      rfl
    rw [hp]
    simp only [hum, find_starts h1]

theorem Nest.flags {m : SymMap} {ev : List Nat} {st : List W} {s : St} (n : Nest m ev st s) (f : Nat → BitVec 16) :
    Nest m ev st { s with flags := f } :=
  ⟨n.map, n.events, n.en, n.act, n.upd, n.cs, n.ne, n.sub, n.ft⟩

theorem settled {m : SymMap} (w : Wf m) {st : List W} {s : St} {pc f : W} (hm : s.map = m) (hen : s.en = true)
    (hcs : s.cs = st.map (idxOf m)) (hh : Holds (starts m) pc f) (ht : st.head? = some f)
    (hf : s.updated = false → s.ft ≠ some pc) : s.finishInst pc = s.close := by
  obtain ⟨y, hy, hpc, hr, hi, _⟩ := w.holds hh
  have h1 : s.fallInto pc = s := by
    unfold St.fallInto
    rw [if_neg]
    exact fun h => hf h.2 h.1
  have h2 : s.repair pc = s := by
    unfold St.repair
    rw [if_pos]
    unfold St.matchTop
    rw [hcs, hm]
    cases st with
    | nil => cases ht
    | cons a t =>
      cases ht
      simp only [List.map_cons]
      unfold matchSym
      rw [hr]
      simp [hi]
  unfold St.finishInst
  rw [h1, h2, hen]
  rfl

theorem Nest.step {m : SymMap} (w : Wf m) {ev : List Nat} (hn : ev.Nodup) {st : List W} {s : St} {i : Ins}
    (n : Nest m ev st s) (hle : ∀ e ∈ ev, (s.flags e).toNat < 2 ^ 15) (ok : i.Ok (starts m) st) :
    Nest m ev (i.next st) (s.ops i.ops) ∧ (∀ e ∈ ev, ((s.ops i.ops).flags e).toNat < 2 ^ 15) ∧
    ∀ e ∈ ev, ∀ key, (∀ f ∈ key, f ∈ starts m) → sofar m (i.next st) (s.ops i.ops) key e =
      sofar m st s key e + (if st = key then i.pre.count e else 0) + if i.next st = key then i.post.count e else 0 := by
  have hlen := ok.2.1
  have hh := ok.1
  have hpre : ∀ e, i.pre.count e ≤ i.pre.length := fun e => List.count_le_length
  have hpost : ∀ e, i.post.count e ≤ i.post.length := fun e => List.count_le_length
  have n1 := n.flags fun e => s.flags e + BitVec.ofNat 16 (i.pre.count e)
  have hops : s.ops i.ops = St.finishInst ((St.ops { s with flags := fun e => s.flags e + BitVec.ofNat 16 (i.pre.count e) }
      i.how).ops (i.post.map (.flag · true))) i.pc := by
    rw [← flags_ops]
    unfold Ins.ops St.ops
    rw [List.foldl_append, List.foldl_append, List.foldl_append]
    rfl
  rw [hops, flags_ops]
  have f1 : ∀ e ∈ ev, (s.flags e + BitVec.ofNat 16 (i.pre.count e)).toNat = (s.flags e).toNat + i.pre.count e := by
    intro e he
    have := hle e he; have := hpre e
    exact flags_toNat _ _ (by omega)
  rcases how_eq w n1 ok with ⟨hs, ht, he⟩ | ⟨p, hft, ht, he⟩
  · rw [he, hs]
    have f2 : ∀ e ∈ ev, (s.flags e + BitVec.ofNat 16 (i.pre.count e) + BitVec.ofNat 16 (i.post.count e)).toNat =
        (s.flags e).toNat + i.pre.count e + i.post.count e := by
      intro e he
      have := hle e he; have := hpre e; have := hpost e
      rw [flags_toNat _ _ (by rw [f1 e he]; omega), f1 e he]
    dsimp only
    rw [settled
      (s := { s with
        flags := fun e => s.flags e + BitVec.ofNat 16 (i.pre.count e) + BitVec.ofNat 16 (i.post.count e) }) w n.map n.en n.cs hh ht fun _ h => n.ft _ h _ ht hh]
    unfold St.close
    simp only [n.upd, Bool.false_eq_true, if_false]
    rw [inc_eq]
    refine ⟨⟨n.map, n.events, n.en, n.act, rfl, n.cs, n.ne, n.sub, n.ft⟩, ?_, ?_⟩
    · intro e he
      simp [n.events, he]
    · intro e he key hkey
      unfold sofar
      simp only [n.act, n.events, he, and_self, if_true, not_true_eq_false, and_false, if_false, f2 e he]
      split <;> simp <;> omega
  · rw [he]
    have hev : ∀ e ∈ ev, e ∈ s.events := fun e he => by rw [n.events]; exact he
    obtain ⟨u1, u2, u3, u4, u5⟩ :=
      update_frame { s with flags := fun e => s.flags e + BitVec.ofNat 16 (i.pre.count e) } p
    have u6 : ∀ e ∈ ev, (St.update { s with flags := fun e => s.flags e + BitVec.ofNat 16 (i.pre.count e) } p).flags e = 0#16 :=
      fun e he =>
      update_flags (s := { s with flags := fun e => s.flags e + BitVec.ofNat 16 (i.pre.count e) }) (hev e he) p
    have u7 : ∀ e ∈ ev, ∀ key, at_ (St.update { s with flags := fun e => s.flags e + BitVec.ofNat 16 (i.pre.count e) } p).saved
        key e = at_ s.saved key e + if key = s.cs then s.cnt e + ((s.flags e).toNat + i.pre.count e) else 0 := by
      intro e he key
      have h1 := at_bump s.cs (St.inc { s with flags := fun e => s.flags e + BitVec.ofNat 16 (i.pre.count e) }).share key e s.saved
      rw [share_eq (by rw [inc_eq]; exact (by rw [n.events]; exact hn : s.events.Nodup)) (by rw [inc_eq]; exact hev e he)] at h1
      refine Eq.trans ?_ (h1.trans ?_)
      · unfold St.update St.save St.setFallthrough
        simp only [inc_eq]
      · rw [inc_eq]
        simp only [n.act, hev e he, and_self, if_true, f1 e he]
    have u8 : (St.update { s with flags := fun e => s.flags e + BitVec.ofNat 16 (i.pre.count e) } p).ft =
        (following m p).map (·.pc) := by
      unfold St.update St.save St.setFallthrough
      simp only [inc_eq, n.map]
    generalize St.update { s with flags := fun e => s.flags e + BitVec.ofNat 16 (i.pre.count e) } p = s2 at u1 u2 u3 u4 u5 u6 u7 u8
    have hsub : ∀ f ∈ i.next st, f ∈ starts m := by
      intro f hf
      unfold Ins.next at hf
      cases hmv : i.mv with
      | stay => rw [hmv] at hf; exact n.sub _ hf
      | call =>
        rw [hmv] at hf
        rcases List.mem_cons.1 hf with h | h
        · rw [h]; exact hh.1
        · exact n.sub _ h
      | tail =>
        rw [hmv] at hf
        rcases List.mem_cons.1 hf with h | h
        · rw [h]; exact hh.1
        · exact n.sub _ (List.mem_of_mem_tail h)
      | ret => rw [hmv] at hf; exact n.sub _ (List.mem_of_mem_tail hf)
    dsimp only
    rw [settled
      (s := { s2 with
        cs := (i.next st).map (idxOf m)
        flags := fun e => s2.flags e + BitVec.ofNat 16 (i.post.count e) }) (st := i.next st) (f := i.fn) w (u5.trans n.map) (u2.trans n.en) rfl hh ht
      fun h => by rw [show _ = true from u3] at h; cases h]
    unfold St.close
    simp only [u3, if_true]
    have f2 : ∀ e ∈ ev, (s2.flags e + BitVec.ofNat 16 (i.post.count e)).toNat = i.post.count e := by
      intro e he
      have := hpost e
      rw [u6 e he, flags_toNat _ _ (by simp; omega)]
      simp
    refine ⟨⟨u5.trans n.map, u1.trans n.events, u2.trans n.en, u4.trans n.act, rfl, rfl, ?_, hsub, ?_⟩, ?_, ?_⟩
    · intro h; rw [h] at ht; cases ht
    · show FtOk m (i.next st) s2.ft
      rw [u8]; exact hft
    · intro e he
      have := hpost e
      show (s2.flags e + BitVec.ofNat 16 (i.post.count e)).toNat < _
      rw [f2 e he]
      omega
    · intro e he key hkey
      unfold sofar
      have k1 : (key.map (idxOf m) = s.cs) ↔ st = key := by
        rw [n.cs, key_inj w hkey n.sub]
        exact eq_comm
      show at_ s2.saved _ e + (if i.next st = key then 0 + (s2.flags e + BitVec.ofNat 16 (i.post.count e)).toNat else 0) = _
      rw [u7 e he, f2 e he]
      simp only [k1]
      split <;> simp <;> omega

theorem Nest.run {m : SymMap} (w : Wf m) {ev : List Nat} (hn : ev.Nodup) : ∀ {l : List Ins} {st : List W} {s : St},
    Nest m ev st s → (∀ e ∈ ev, (s.flags e).toNat < 2 ^ 15) → Nested (starts m) st l →
    Nest m ev (final st l) (s.ops (l.flatMap Ins.ops)) ∧
    ∀ e ∈ ev, ∀ key, (∀ f ∈ key, f ∈ starts m) →
      sofar m (final st l) (s.ops (l.flatMap Ins.ops)) key e = sofar m st s key e + spent e key st l
  | [], _, _, n, _, _ => ⟨n, fun _ _ _ _ => rfl⟩
  | i :: t, st, s, n, hle, ok => by
    obtain ⟨n1, h1, k1⟩ := n.step w hn hle ok.1
    obtain ⟨n2, k2⟩ := Nest.run w hn n1 h1 ok.2
    have e : s.ops ((i :: t).flatMap Ins.ops) = (s.ops i.ops).ops (t.flatMap Ins.ops) := by
      unfold St.ops
      rw [List.flatMap_cons, List.foldl_append]
    rw [e]
    refine ⟨n2, fun e he key hkey => ?_⟩
    show sofar m (final (i.next st) t) _ key e = _
    rw [k2 e he key hkey, k1 e he key hkey]
    rw [show spent e key st (i :: t) = (if st = key then i.pre.count e else 0) +
      (if i.next st = key then i.post.count e else 0) + spent e key (i.next st) t from rfl]
    omega

theorem init_nest {m : SymMap} (w : Wf m) {ev : List Nat} {s0 : St} (h : St.init m ev true true = some s0) :
    Nest m ev [0x80000000#32] s0 ∧ (∀ e, s0.flags e = 0#16) ∧ ∀ key e, sofar m [0x80000000#32] s0 key e = 0 := by
  unfold St.init at h
  obtain ⟨b, hb, e⟩ := Option.map_eq_some_iff.1 h
  subst e
  obtain ⟨h1, h2⟩ := find_some hb
  have hi : idxOf m 0x80000000#32 = b.idx := by unfold idxOf; rw [hb]
  refine ⟨⟨rfl, rfl, rfl, rfl, rfl, by rw [List.map_cons, hi]; rfl, List.cons_ne_nil _ _, ?_, ?_⟩, fun _ => rfl, ?_⟩
  · intro f hf
    rw [List.mem_singleton.1 hf]
    exact List.mem_map.2 ⟨b, h1, h2⟩
  · intro p hp f hf
    cases hf
    exact following_holds w hp
  · intro key e
    unfold sofar
    split <;> rfl

/-- **C65**, without direct recursion.  While the program calls, tail-calls, branches between and returns from functions
in a nested way, the profiler's callstack is the program's stack of functions, for every symbol table and every such
program.

Missing: a function returning into itself (`recursion_kept`), returns to a symbol, falling through into the next
function. -/
theorem callstack_nested_partial {l : List ElfSym} {m : SymMap} (hm : symMap l = some m) {ev : List Nat} (hn : ev.Nodup)
    {s0 : St} (h : St.init m ev true true = some s0) {prog : List Ins} (ok : Nested (starts m) [0x80000000#32] prog) :
    (s0.ops (prog.flatMap Ins.ops)).cs = (final [0x80000000#32] prog).map (idxOf m) := by
  have w := symMap_wf hm
  obtain ⟨n, hf, _⟩ := init_nest w h
  exact (n.run w hn (fun e _ => by rw [hf]; decide) ok).1.cs

/-- **C65.** The folded profile of such a program: the samples of each callstack are the events that happened with
exactly that stack, those after the transfer of a call, return or tail call counting for the new stack.  At the end of
the run the events after a last transfer are missing. -/
theorem folded_nested_partial {l : List ElfSym} {m : SymMap} (hm : symMap l = some m) {ev : List Nat} (hn : ev.Nodup)
    {s0 : St} (h : St.init m ev true true = some s0) {prog : List Ins} (ok : Nested (starts m) [0x80000000#32] prog)
    {e : Nat} (he : e ∈ ev) {key : List W} (hkey : ∀ f ∈ key, f ∈ starts m) :
    let s := s0.ops (prog.flatMap Ins.ops)
    s.finish.folded (key.map (idxOf m)) e + (if final [0x80000000#32] prog = key then (s.flags e).toNat else 0) =
      spent e key [0x80000000#32] prog := by
  intro s
  have w := symMap_wf hm
  obtain ⟨n, hf, h0⟩ := init_nest w h
  obtain ⟨n', k⟩ := n.run w hn (fun e _ => by rw [hf]; decide) ok
  have k := k e he key hkey
  rw [h0, Nat.zero_add] at k
  rw [← k]
  have hfin : s.finish = s.save := by
    unfold St.finish
    rw [show s.en = true from n'.en]
    rfl
  rw [hfin]
  show at_ (bump s.cs s.share s.saved) _ e + _ = _
  rw [at_bump, share_eq (by rw [show s.events = ev from n'.events]; exact hn)
    (by rw [show s.events = ev from n'.events]; exact he)]
  have k1 : (key.map (idxOf m) = s.cs) ↔ final [0x80000000#32] prog = key := by
    rw [show s.cs = _ from n'.cs, key_inj w hkey n'.sub]
    exact eq_comm
  show _ = sofar m _ s key e
  unfold sofar
  simp only [k1]
  by_cases hk : final [0x80000000#32] prog = key
  · simp only [if_pos hk]; omega
  · simp only [if_neg hk]

/-! ## Cases -/

namespace Ex
def stay (pc f : W) : Ins := ⟨.stay, [], f, pc, [], [0]⟩
/-- `_start` runs, calls `main`, which calls `f`; `f` returns, `main` tail-calls `f`, `f` returns to `_start` -/
def prog : List Ins := [stay 0x80000004#32 0x80000000#32,
  ⟨.call, [.jal 0x80000100#32 false 0x80000008#32], 0x80000100#32, 0x80000100#32, [], [0]⟩,
  stay 0x80000104#32 0x80000100#32,
  ⟨.call, [.jalr 0x80000200#32 false false 0x80000108#32], 0x80000200#32, 0x80000200#32, [], [0]⟩,
  stay 0x80000204#32 0x80000200#32,
  ⟨.ret, [.jalr 0x80000108#32 true true 0x80000208#32], 0x80000100#32, 0x80000108#32, [], [0]⟩,
  ⟨.tail, [.jal 0x80000200#32 true 0x8000010c#32], 0x80000200#32, 0x80000200#32, [], [0]⟩,
  stay 0x80000204#32 0x80000200#32,
  ⟨.ret, [.jalr 0x80000008#32 true true 0x80000208#32], 0x80000000#32, 0x80000008#32, [], [0]⟩]
example : Nested (starts m3) [0x80000000#32] prog := by
  simp [prog, Nested, Ins.Ok, Ins.next, Move.stack, stay, Holds, starts, m3]
example : final [0x80000000#32] prog = [0x80000000#32] ∧ spent 0 [0x80000100#32, 0x80000000#32] [0x80000000#32] prog = 3 ∧
    spent 0 [0x80000200#32, 0x80000000#32] [0x80000000#32] prog = 2 := by decide +kernel
end Ex

/-- **C65 fails for recursion**: `main` calls itself and returns; its second frame stays on the profiler's stack. -/
theorem recursion_kept :
    let l := Ex.ins [.jal 0x80000100#32 false 0x80000004#32] 0x80000100#32 ++
      Ex.ins [.jal 0x80000100#32 false 0x80000104#32] 0x80000100#32 ++
      Ex.ins [.jalr 0x80000104#32 true true 0x8000010c#32] 0x80000104#32
    ((Ex.s0 true).ops l).cs = [2#16, 2#16, 1#16] := by decide +kernel

/-- **C65 fails for repairs**: a jump into the middle of a caller does not close the open callstack, and the samples of
the function it leaves are counted for the caller. -/
theorem repair_misattributes :
    let l := Ex.ins [.jal 0x80000100#32 false 0x80000004#32] 0x80000100#32 ++ Ex.ins [] 0x80000104#32 ++
      Ex.ins [] 0x80000108#32 ++ Ex.ins [.jalr 0x80000004#32 false true 0x8000010c#32] 0x80000004#32
    Ex.obs ((Ex.s0 true).ops l).finish = ([1#16], [([1#16], 4)], 4, 0) ∧
    ((Ex.s0 true).ops l).diverged = 1 := by decide +kernel

end Ama.Perf
