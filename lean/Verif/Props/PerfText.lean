import Verif.Model.PerfText
import Verif.Spec.Folded
import Verif.Lemmas.Pieces
import Verif.Props.ProfPerf
/-!
# C96: the callstack files read back as the callstacks
-/
namespace Ama.Perf
open Spec.Folded

/-- the name of the symbol of an index -/
def symName (lut : List String) (i : Idx) : List Char :=
  if lut.getD i.toNat "" ≠ "" then (lut.getD i.toNat "").toList else "<unknown>".toList

theorem frame_name (lut : List String) (i : Idx) : frameText lut i = symName lut i ++ [';'] := by
  unfold frameText symName
  by_cases h : lut.getD i.toNat "" ≠ ""
  · have : i.toNat < lut.length := by
      by_contra hc
      exact h (by rw [List.getD_eq_getElem?_getD, List.getElem?_eq_none (by omega)]; rfl)
    rw [if_pos ⟨this, h⟩, if_pos h]
  · rw [if_neg (fun x => h x.2), if_neg h]
    rfl

/-- names that are there can be carried by the format -/
def CleanLut (lut : List String) : Prop := ∀ n ∈ lut, n = "" ∨ Clean n

theorem symName_clean {lut : List String} (h : CleanLut lut) (i : Idx) :
    symName lut i ≠ [] ∧ ∀ c ∈ symName lut i, c ≠ ';' ∧ c ≠ '\n' ∧ ws c = false := by
  unfold symName
  by_cases hn : lut.getD i.toNat "" ≠ ""
  · rw [if_pos hn]
    have hm : lut.getD i.toNat "" ∈ lut := by
      have hlt : i.toNat < lut.length := by
        by_contra hc
        exact hn (by rw [List.getD_eq_getElem?_getD, List.getElem?_eq_none (by omega)]; rfl)
      rw [List.getD_eq_getElem?_getD, List.getElem?_eq_getElem hlt]
      exact List.getElem_mem hlt
    rcases h _ hm with h | ⟨_, h⟩
    · exact absurd h hn
    · refine ⟨fun e => hn (String.toList_inj.1 (by rw [e]; rfl)), h⟩
  · rw [if_neg hn]
    decide

theorem digit_ws (n : Nat) : ∀ c ∈ Nat.toDigits 10 n, ws c = false ∧ c ≠ '\n' := by
  intro c hc
  obtain ⟨d, hd, rfl⟩ := Dasm.mem_toDigits (by omega) n hc
  interval_cases d <;> decide

theorem dropWhile_none {p : Char → Bool} {l : List Char} (h : ∀ c, l.head? = some c → p c = false) : l.dropWhile p = l := by
  cases l with
  | nil => rfl
  | cons c l => rw [List.dropWhile_cons_of_neg (by simp [h c rfl])]

/-- one line, read -/
theorem readLine_text {fs : List (List Char)} (hne : fs ≠ []) (h : ∀ f ∈ fs, f ≠ [] ∧ ∀ c ∈ f, c ≠ ';' ∧ c ≠ '\n' ∧ ws c = false)
    (n : Nat) : let l := (fs.flatMap fun f => f ++ [';']) ++ [' '] ++ Nat.toDigits 10 n
      readLine l = some (fs, n) ∧ strip l ≠ [] ∧ '\n' ∉ l := by
  intro l
  have hst : strip l = l := by
    unfold strip
    have h1 : l.dropWhile ws = l := by
      refine dropWhile_none fun c hc => ?_
      cases fs with
      | nil => exact absurd rfl hne
      | cons f fs =>
        obtain ⟨hf, hc'⟩ := h f (by simp)
        cases f with
        | nil => exact absurd rfl hf
        | cons x f =>
          simp only [l, List.flatMap_cons, List.cons_append, List.head?_cons, Option.some.injEq] at hc
          rw [← hc]
          exact (hc' x (by simp)).2.2
    rw [h1]
    have h2 : l.reverse.dropWhile ws = l.reverse := by
      refine dropWhile_none fun c hc => ?_
      simp only [l, List.reverse_append, List.head?_append, List.head?_reverse] at hc
      cases hl : (Nat.toDigits 10 n).getLast? with
      | none => exact absurd (List.getLast?_eq_none_iff.1 hl) Nat.toDigits_ne_nil
      | some x =>
        rw [hl] at hc
        simp only [Option.some_or, Option.some.injEq] at hc
        rw [← hc]
        exact (digit_ws n x (List.mem_of_getLast? hl)).1
    rw [h2, List.reverse_reverse]
  have hrev : l.reverse = (Nat.toDigits 10 n).reverse ++ ' ' :: (fs.flatMap fun f => f ++ [';']).reverse := by
    simp [l]
  have hdig : ∀ x ∈ (Nat.toDigits 10 n).reverse, (!ws x) = true := by
    intro x hx
    rw [(digit_ws n x (List.mem_reverse.1 hx)).1]
    rfl
  have ht : l.reverse.takeWhile (!ws ·) = (Nat.toDigits 10 n).reverse := by
    rw [hrev, List.takeWhile_append_of_pos hdig, List.takeWhile_cons_of_neg (by decide), List.append_nil]
  have hd : l.reverse.dropWhile (!ws ·) = ' ' :: (fs.flatMap fun f => f ++ [';']).reverse := by
    rw [hrev, List.dropWhile_append_of_pos hdig, List.dropWhile_cons_of_neg (by decide)]
  have hd2 : (' ' :: (fs.flatMap fun f => f ++ [';']).reverse).dropWhile ws = (fs.flatMap fun f => f ++ [';']).reverse := by
    rw [List.dropWhile_cons_of_pos (by decide)]
    refine dropWhile_none fun c hc => ?_
    obtain ⟨g, f, hg⟩ : ∃ g f, fs = g ++ [f] := by
      rcases List.eq_nil_or_concat fs with e | ⟨g, f, e⟩
      · exact absurd e hne
      · exact ⟨g, f, by simpa using e⟩
    rw [hg] at hc
    simp only [List.flatMap_append, List.flatMap_singleton, List.reverse_append, List.reverse_singleton, List.singleton_append,
      List.cons_append, List.nil_append, List.head?_cons, Option.some.injEq] at hc
    rw [← hc]
    decide
  refine ⟨?_, ?_, ?_⟩
  · unfold readLine
    simp only [hst, ht, hd, hd2, List.reverse_reverse, Dasm.nat_toDigits (b := 10) (by omega) (by omega) n]
    have ep := pieces_flat id fs fun f hf hc => ((h f hf).2 _ hc).1 rfl
    simp only [id] at ep
    rw [ep]
    have e : (List.map id fs ++ [[]]).filter (fun x => decide (x ≠ ([] : List Char))) = fs := by
      rw [List.map_id, List.filter_append]
      have : fs.filter (fun x => decide (x ≠ ([] : List Char))) = fs :=
        List.filter_eq_self.2 fun f hf => by simpa using (h f hf).1
      rw [this]
      simp
    rw [e, if_neg hne]
  · rw [hst]
    simp [l]
  · simp only [l, List.mem_append, List.mem_flatMap, not_or]
    refine ⟨⟨?_, by decide⟩, fun hm => (digit_ws n _ hm).2 rfl⟩
    rintro ⟨f, hf, hm⟩
    simp only [List.mem_append, List.mem_singleton] at hm
    rcases hm with hm | hm
    · exact ((h f hf).2 _ hm).2.1 rfl
    · exact absurd hm (by decide)

/-- **C96**: a callstack file reads back, line by line, as the callstacks with their samples: the names of their functions from the
outermost to the innermost, `<unknown>` for one without a symbol.  Names must be such that the format can carry them. -/
theorem folded_reads {lut : List String} (h : CleanLut lut) (e : Nat) (saved : List (List Idx × (Nat → Nat))) :
    readFile (foldedFile lut e saved) =
      some (saved.map fun p => (if p.1 = [] then ["<unknown>".toList] else p.1.reverse.map (symName lut), p.2 e)) := by
  have hline : ∀ p : List Idx × (Nat → Nat), ∃ fs l, fs = (if p.1 = [] then ["<unknown>".toList] else p.1.reverse.map (symName lut)) ∧
      foldedLine lut e p = l ++ ['\n'] ∧ readLine l = some (fs, p.2 e) ∧ strip l ≠ [] ∧ '\n' ∉ l := by
    intro p
    refine ⟨_, stackText lut p.1.reverse ++ [' '] ++ Nat.toDigits 10 (p.2 e), rfl, rfl, ?_⟩
    have hst : stackText lut p.1.reverse =
        (if p.1 = [] then ["<unknown>".toList] else p.1.reverse.map (symName lut)).flatMap fun f => f ++ [';'] := by
      unfold stackText
      by_cases hp : p.1 = []
      · rw [if_pos (by simpa using hp), if_pos hp]; rfl
      · rw [if_neg (by simpa using hp), if_neg hp, List.flatMap_map]
        exact congrArg (fun f => List.flatMap f p.1.reverse) (funext fun i => frame_name lut i)
    rw [hst]
    refine readLine_text ?_ ?_ _
    · by_cases hp : p.1 = []
      · rw [if_pos hp]; nofun
      · rw [if_neg hp]; simpa using hp
    · intro f hf
      by_cases hp : p.1 = []
      · rw [if_pos hp] at hf
        rw [List.mem_singleton] at hf
        subst hf
        decide
      · rw [if_neg hp] at hf
        obtain ⟨i, _, rfl⟩ := List.mem_map.1 hf
        exact symName_clean h i
  choose fs l h1 h2 h3 h4 h5 using hline
  unfold readFile foldedFile
  have e1 : saved.flatMap (foldedLine lut e) = saved.flatMap fun p => l p ++ ['\n'] :=
    congrArg (fun f => List.flatMap f saved) (funext h2)
  rw [e1, pieces_flat l saved fun p _ => h5 p]
  have e2 : (saved.map l ++ [[]]).filter (fun l => decide (strip l ≠ [])) = saved.map l := by
    rw [List.filter_append]
    have : (saved.map l).filter (fun l => decide (strip l ≠ [])) = saved.map l :=
      List.filter_eq_self.2 fun x hx => by
        obtain ⟨p, _, rfl⟩ := List.mem_map.1 hx
        simpa using h4 p
    rw [this]
    simp [strip]
  rw [e2]
  have e3 : ∀ sv : List (List Idx × (Nat → Nat)), (sv.map l).mapM readLine = some (sv.map fun p => (fs p, p.2 e)) := by
    intro sv
    induction sv with
    | nil => rfl
    | cons p sv ih =>
      rw [List.map_cons, List.mapM_cons, h3, ih]
      rfl
  rw [e3]
  exact congrArg some (List.map_congr_left fun p _ => by rw [h1 p])

example : CleanLut ["", "_start", "main", "f"] := by
  unfold CleanLut Clean
  decide

/-! ## The callstacks of a run -/

theorem foldl_drain_saved : ∀ (l : List Nat) (s : St), (l.foldl St.drain s).saved = s.saved
  | [], _ => rfl
  | _ :: l, s => foldl_drain_saved l (s.drain _)
theorem inc_saved' (s : St) : s.inc.saved = s.saved := by
  unfold St.inc
  split
  · rfl
  · exact foldl_drain_saved _ _
theorem update_saved' (s : St) (pc : W) : ∃ f, (s.update pc).saved = bump s.cs f s.saved := by
  refine ⟨s.inc.share, ?_⟩
  show bump s.inc.cs _ s.inc.saved = _
  rw [inc_saved', inc_cs]
/-- every call leaves the counts of the callstacks alone or adds to that of the current one -/
theorem op_saved (s : St) (o : Op) : (s.op o).saved = s.saved ∨ ∃ f, (s.op o).saved = bump s.cs f s.saved := by
  have hrep : ∀ (s : St) i, (s.replaceTop i).saved = s.saved := by
    intro s i
    unfold St.replaceTop
    split <;> rfl
  cases o with
  | flag e b => exact .inl rfl
  | active b => exact .inl rfl
  | branch pc t =>
    show (s.branch pc t).saved = _ ∨ ∃ f, (s.branch pc t).saved = _
    unfold St.branch
    split
    · exact .inl rfl
    · split
      · exact .inl rfl
      · split
        · split
          · exact .inr (update_saved' s (Sym.pc ‹Sym›))
          · exact .inl rfl
        · exact .inl rfl
  | jalr pc r t ra =>
    show (s.jalr pc r t ra).saved = _ ∨ ∃ f, (s.jalr pc r t ra).saved = _
    unfold St.jalr
    split
    · exact .inl rfl
    · split
      · have h1 : (s.update pc).popFrame.saved = (s.update pc).saved := by
          unfold St.popFrame
          split <;> rfl
        right
        obtain ⟨f, hf⟩ := update_saved' s pc
        refine ⟨f, ?_⟩
        rw [← hf, ← h1]
        simp only
        split <;> rfl
      · split
        · right
          obtain ⟨f, hf⟩ := update_saved' s pc
          refine ⟨f, ?_⟩
          rw [← hf]
          simp only
          split
          · exact hrep _ _
          · rfl
        · exact .inl rfl
  | jal pc t ra =>
    show (s.jal pc t ra).saved = _ ∨ ∃ f, (s.jal pc t ra).saved = _
    unfold St.jal
    split
    · exact .inl rfl
    · split
      · right
        obtain ⟨f, hf⟩ := update_saved' s pc
        refine ⟨f, ?_⟩
        rw [← hf]
        simp only
        split
        · exact hrep _ _
        · rfl
      · exact .inl rfl
  | finishInst pc =>
    show (s.finishInst pc).saved = _ ∨ ∃ f, (s.finishInst pc).saved = _
    unfold St.finishInst
    split
    · exact .inl rfl
    · have h2 : ∀ s : St, (s.repair pc).close.saved = s.saved := by
        intro s
        have hr : (s.repair pc).saved = s.saved := by
          unfold St.repair
          split
          · rfl
          · simp only
            split
            · rfl
            · split <;> rfl
        rw [← hr]
        unfold St.close
        simp only
        split
        · rfl
        · exact inc_saved' _
      rw [h2]
      unfold St.fallInto
      split
      · split
        · exact .inr (update_saved' s pc)
        · exact .inl rfl
      · exact .inl rfl

theorem bump_mem {key : List Idx} {f : Nat → Nat} : ∀ {l : List (List Idx × (Nat → Nat))} {k : List Idx},
    k ∈ (bump key f l).map (·.1) ↔ k = key ∨ k ∈ l.map (·.1)
  | [], k => by simp [bump]
  | (a, c) :: t, k => by
    unfold bump
    split
    · rename_i h
      subst h
      simp
    · rw [List.map_cons, List.mem_cons, bump_mem, List.map_cons, List.mem_cons]
      exact or_left_comm
theorem bump_nodup {key : List Idx} {f : Nat → Nat} : ∀ {l : List (List Idx × (Nat → Nat))}, (l.map (·.1)).Nodup →
    ((bump key f l).map (·.1)).Nodup
  | [], _ => by simp [bump]
  | (a, c) :: t, h => by
    rw [List.map_cons, List.nodup_cons] at h
    unfold bump
    split
    · rw [List.map_cons, List.nodup_cons]
      exact h
    · rename_i hne
      rw [List.map_cons, List.nodup_cons]
      refine ⟨fun hm => ?_, bump_nodup h.2⟩
      rcases bump_mem.1 hm with e | hm
      · exact hne e
      · exact h.1 hm

/-- **C96**: the callstacks a run of the profiler ends up with are not empty and none is listed twice, whatever the sequence of
calls. -/
theorem saved_stacks {m : SymMap} {ev : List Nat} {a en : Bool} {s0 : St} (h : St.init m ev a en = some s0) (l : List Op) :
    (∀ p ∈ (s0.ops l).finish.saved, p.1 ≠ []) ∧ ((s0.ops l).finish.saved.map (·.1)).Nodup := by
  have hall : ∀ (l : List Op) (s0 : St), s0.cs ≠ [] → [] ∉ s0.saved.map (·.1) → (s0.saved.map (·.1)).Nodup →
      ([] ∉ (s0.ops l).saved.map (·.1)) ∧ ((s0.ops l).saved.map (·.1)).Nodup := by
    intro l
    induction l with
    | nil => exact fun s0 _ h1 h2 => ⟨h1, h2⟩
    | cons o l ih =>
      intro s0 h0 h1 h2
      refine ih (s0.op o) (callstack_nonempty h0 o) ?_ ?_
      · rcases op_saved s0 o with e | ⟨f, e⟩
        · rw [e]; exact h1
        · rw [e]
          intro hm
          rcases bump_mem.1 hm with e | hm
          · exact h0 e.symm
          · exact h1 hm
      · rcases op_saved s0 o with e | ⟨f, e⟩
        · rw [e]; exact h2
        · rw [e]; exact bump_nodup h2
  have hsv : s0.saved = [] := by
    unfold St.init at h
    obtain ⟨b, _, e⟩ := Option.map_eq_some_iff.1 h
    subst e
    rfl
  have key : ∀ l : List Op, ([] ∉ (s0.ops l).saved.map (·.1)) ∧ ((s0.ops l).saved.map (·.1)).Nodup := fun l =>
    hall l s0 (callstack_never_empty h []) (by rw [hsv]; simp) (by rw [hsv]; simp)
  have fin : ([] ∉ (s0.ops l).finish.saved.map (·.1)) ∧ ((s0.ops l).finish.saved.map (·.1)).Nodup := by
    unfold St.finish
    split
    · exact key l
    · refine ⟨fun hm => ?_, bump_nodup (key l).2⟩
      rcases bump_mem.1 hm with e | hm
      · exact callstack_never_empty h l e.symm
      · exact (key l).1 hm
  exact ⟨fun p hp e => fin.1 (e ▸ List.mem_map_of_mem hp), fin.2⟩

/-- **C96**: the files of a run.  Each line is a callstack of its own; added up they are the total the profiler reports, and per
innermost function its own samples. -/
theorem folded_totals {lut : List String} (h : CleanLut lut) {m : SymMap} {ev : List Nat} {a en : Bool} {s0 : St}
    (hi : St.init m ev a en = some s0) (l : List Op) (e : Nat) : let s := (s0.ops l).finish
    ∃ r, readFile (foldedFile lut e s.saved) = some r ∧ r = s.saved.map (fun p => (p.1.reverse.map (symName lut), p.2 e)) ∧
      total r = s.total e ∧
      ∀ f, self r f = ((s.saved.filter fun p => p.1.head?.map (symName lut) = some f).map fun p => p.2 e).sum := by
  intro s
  have hne : ∀ p ∈ s.saved, p.1 ≠ [] := (saved_stacks hi l).1
  have hr := folded_reads h e s.saved
  rw [List.map_congr_left (g := fun p => (p.1.reverse.map (symName lut), p.2 e)) fun p hp => by rw [if_neg (hne p hp)]] at hr
  refine ⟨_, hr, rfl, ?_, fun f => ?_⟩
  · unfold total St.total
    rw [List.map_map]
    rfl
  · unfold self
    rw [List.filter_map, List.map_map]
    show ((s.saved.filter _).map fun p => p.2 e).sum = _
    congr 2
    refine List.filter_congr fun p _ => ?_
    simp only [Function.comp_apply, List.getLast?_map, List.getLast?_reverse]

/-! ## The names are those of the program -/

theorem insertName_keys (pc : W) (n : String) (m : List (W × String)) : (insertName pc n m).map (·.1) = insertKey pc (m.map (·.1)) := by
  induction m with
  | nil => rfl
  | cons a t ih =>
    unfold insertName insertKey
    simp only [List.map_cons]
    split
    · rfl
    · split
      · rename_i h
        have := eq_of_beq h
        rw [List.map_cons, this]
      · rw [List.map_cons, ih]
theorem symNames_keys (l : List ElfSym) (m : List (W × String)) : (symNames l m).map (·.1) = symKeys l (m.map (·.1)) := by
  induction l generalizing m with
  | nil => rfl
  | cons s t ih =>
    unfold symNames symKeys
    rw [ih]
    split
    · rw [insertName_keys]
    · rfl

/-- the last symbol kept at an address names it -/
def lastAt (l : List ElfSym) (pc : W) : Option String :=
  ((l.filter fun s => keepSym s && s.value.setWidth 32 == pc).getLast?).map (·.name)

theorem insertName_mem {pc : W} {n : String} {m : List (W × String)} (hs : (m.map (·.1)).Pairwise (fun a b => a.toNat < b.toNat))
    {q : W} {k : String} : (q, k) ∈ insertName pc n m ↔ q = pc ∧ k = n ∨ q ≠ pc ∧ (q, k) ∈ m := by
  induction m with
  | nil => simp [insertName]
  | cons a t ih =>
    rw [List.map_cons, List.pairwise_cons] at hs
    have ih := ih hs.2
    have hgt : ∀ k', (pc, k') ∈ t → a.1.toNat < pc.toNat := fun k' hm => hs.1 pc (List.mem_map.2 ⟨_, hm, rfl⟩)
    unfold insertName
    split
    · rename_i h
      have hlt : pc.toNat < a.1.toNat := BitVec.ult_iff_lt.1 h
      clear h
      simp only [List.mem_cons, Prod.mk.injEq]
      constructor
      · rintro (h | h | h)
        · exact .inl h
        · refine .inr ⟨?_, .inl h⟩
          rintro rfl
          have : q = a.1 := congrArg Prod.fst h
          rw [← this] at hlt
          omega
        · refine .inr ⟨?_, .inr h⟩
          rintro rfl
          have := hgt k h
          omega
      · rintro (h | ⟨_, h⟩)
        · exact .inl h
        · exact .inr h
    · split
      · rename_i h
        have h := eq_of_beq h
        simp only [List.mem_cons, Prod.mk.injEq]
        constructor
        · rintro (h' | h')
          · exact .inl h'
          · refine .inr ⟨?_, .inr h'⟩
            rintro rfl
            have := hgt k h'
            rw [h] at this
            omega
        · rintro (h' | ⟨hq, h' | h'⟩)
          · exact .inl h'
          · exact absurd (by rw [h]; exact congrArg Prod.fst h') hq
          · exact .inr h'
      · rename_i h
        have hne : pc ≠ a.1 := fun e => h (by rw [e]; simp)
        simp only [List.mem_cons, ih]
        constructor
        · rintro (h' | h' | ⟨h', h''⟩)
          · exact .inr ⟨fun e => hne (by rw [← e]; exact congrArg Prod.fst h'), .inl h'⟩
          · exact .inl h'
          · exact .inr ⟨h', .inr h''⟩
        · rintro (h' | ⟨h', h'' | h''⟩)
          · exact .inr (.inl h')
          · exact .inl h''
          · exact .inr (.inr ⟨h', h''⟩)

theorem symNames_mem : ∀ (l : List ElfSym) {m : List (W × String)}, (m.map (·.1)).Pairwise (fun a b => a.toNat < b.toNat) →
    ∀ {q : W} {k : String}, (q, k) ∈ symNames l m ↔ lastAt l q = some k ∨ lastAt l q = none ∧ (q, k) ∈ m
  | [], m, _, q, k => by simp [symNames, lastAt]
  | s :: t, m, hs, q, k => by
    unfold symNames
    have hs' : ((if keepSym s = true then insertName (s.value.setWidth 32) s.name m else m).map (·.1)).Pairwise
        (fun a b => a.toNat < b.toNat) := by
      split
      · rw [insertName_keys]
        have := symKeys_sorted (l := [s]) hs
        unfold symKeys at this
        rw [if_pos (by assumption)] at this
        exact this
      · exact hs
    rw [symNames_mem t hs']
    have hl : lastAt (s :: t) q = (lastAt t q).or (if keepSym s && s.value.setWidth 32 == q then some s.name else none) := by
      unfold lastAt
      rw [List.filter_cons]
      split
      · rename_i h
        rw [List.getLast?_cons]
        cases ((t.filter fun s => keepSym s && s.value.setWidth 32 == q).getLast?) <;> simp
      · rename_i h
        simp
    rw [hl]
    cases ht : lastAt t q with
    | some x => simp
    | none =>
      simp only [reduceCtorEq, false_or, true_and, Option.none_or]
      cases hk : keepSym s with
      | false => simp
      | true =>
        simp only [if_true, Bool.true_and]
        rw [insertName_mem hs]
        by_cases hq : s.value.setWidth 32 = q
        · rw [if_pos (by rw [hq]; simp)]
          simp only [Option.some.injEq, reduceCtorEq, false_and, or_false]
          constructor
          · rintro (⟨_, h⟩ | ⟨h, _⟩)
            · exact h.symm
            · exact absurd hq.symm h
          · exact fun h => .inl ⟨hq.symm, h.symm⟩
        · rw [if_neg (by simpa using hq)]
          simp only [reduceCtorEq, false_or, true_and]
          constructor
          · rintro (⟨h, _⟩ | ⟨_, h⟩)
            · exact absurd h.symm hq
            · exact h
          · exact fun h => .inr ⟨fun e => hq e.symm, h⟩

theorem reindex_get : ∀ (l : List W) (i : Idx) (n : Nat), i.toNat + l.length ≤ 65536 → ∀ s, (reindex i l)[n]? = some s →
    l[n]? = some s.pc ∧ s.idx.toNat = i.toNat + n
  | [], i, n, _, s, h => by simp [reindex] at h
  | a :: l, i, 0, hl, s, h => by
    simp only [reindex, List.getElem?_cons_zero, Option.some.injEq] at h
    rw [← h]
    simp
  | a :: l, i, n + 1, hl, s, h => by
    simp only [List.length_cons] at hl
    simp only [reindex, List.getElem?_cons_succ] at h
    have hlen : ∀ (l : List W) (i : Idx), (reindex i l).length = l.length := by
      intro l
      induction l with
      | nil => exact fun _ => rfl
      | cons a l ih => exact fun i => congrArg (· + 1) (ih _)
    have hpos : n < l.length := by
      have := (List.getElem?_eq_some_iff.1 h).1
      rwa [hlen] at this
    have hi : (i + 1#16).toNat = i.toNat + 1 := by
      rw [BitVec.toNat_add]
      have : (1#16).toNat = 1 := rfl
      rw [this]
      omega
    obtain ⟨h1, h2⟩ := reindex_get l (i + 1#16) n (by omega) s h
    exact ⟨by simpa using h1, by omega⟩

/-- **C96**: the frame of a symbol shows its name: that of the last symbol the program lists at its address (of those kept: with a
name, not below the base of memory, not a mapping symbol, not of section 7). -/
theorem frame_is_symbol {l : List ElfSym} {m : SymMap} (h : symMap l = some m) {s : Sym} (hs : s ∈ m) :
    ∃ n, lastAt l s.pc = some n ∧ n ≠ "" ∧ symName (nameLut (symNames l [])) s.idx = n.toList := by
  unfold symMap at h
  split at h
  · cases h
  rename_i hlen
  cases h
  obtain ⟨n, hn⟩ := List.getElem?_of_mem hs
  obtain ⟨h1, h2⟩ := reindex_get _ 1#16 n (by have : (1#16).toNat = 1 := rfl; omega) s hn
  have hk : (symNames l []).map (·.1) = symKeys l [] := symNames_keys l []
  rw [← hk, List.getElem?_map] at h1
  cases hx : (symNames l [])[n]? with
  | none => rw [hx] at h1; cases h1
  | some x =>
    rw [hx] at h1
    simp only [Option.map_some, Option.some.injEq] at h1
    have hm : (s.pc, x.2) ∈ symNames l [] := by
      rw [← h1]
      exact List.mem_of_getElem? hx
    have hl : lastAt l s.pc = some x.2 := by
      rcases (symNames_mem l (m := []) (by simp)).1 hm with h | ⟨_, h⟩
      · exact h
      · cases h
    have hne : x.2 ≠ "" := by
      unfold lastAt at hl
      obtain ⟨y, hy, e⟩ := Option.map_eq_some_iff.1 hl
      have := (List.mem_filter.1 (List.mem_of_getLast? hy)).2
      rw [← e]
      unfold keepSym at this
      simp only [Bool.and_eq_true, bne_iff_ne] at this
      exact this.1.1.1.1
    refine ⟨x.2, hl, hne, ?_⟩
    have e : (nameLut (symNames l [])).getD s.idx.toNat "" = x.2 := by
      rw [h2, show (1#16).toNat + n = n + 1 by have : (1#16).toNat = 1 := rfl; omega]
      unfold nameLut
      rw [List.getD_cons_succ, List.getD_eq_getElem?_getD, List.getElem?_map, hx]
      rfl
    unfold symName
    rw [e, if_pos hne]

/-- two functions of the same name, as two files of a program may each have -/
def twins : List ElfSym := [⟨"_start", 0x80000000#64, 1#16⟩, ⟨"init", 0x80000100#64, 1#16⟩, ⟨"init", 0x80000200#64, 1#16⟩]
/-- **C96**: functions of the same name at different addresses cannot be told apart in the file: their samples add up under one
name. -/
theorem twins_merge : symMap twins = some [⟨0x80000000#32, 1#16⟩, ⟨0x80000100#32, 2#16⟩, ⟨0x80000200#32, 3#16⟩] ∧
    (readFile (foldedFile (nameLut (symNames twins [])) 0 [([2#16, 1#16], fun _ => 5), ([3#16, 1#16], fun _ => 7)])).map
      (fun r => (r, self r "init".toList)) =
    some ([(["_start".toList, "init".toList], 5), (["_start".toList, "init".toList], 7)], 12) := by
  refine ⟨?_, ?_⟩ <;> decide +kernel
/-- **C96**: a function that calls itself is credited with its samples once for each of its frames: more than there are. -/
theorem recursion_exceeds : (readFile (foldedFile ["", "_start", "f"] 0 [([2#16, 2#16, 1#16], fun _ => 5)])).map
    (fun r => (inclusive r "f".toList, total r)) = some (10, 5) := by decide +kernel
example : (readFile "call_main;main;Func_1; 100\n".toList) = some [(["call_main".toList, "main".toList, "Func_1".toList], 100)] := by
  decide +kernel
/-- the hypotheses of `saved_stacks`, `folded_totals` and `frame_is_symbol`: a run of that program -/
example : (St.init [⟨0x80000000#32, 1#16⟩, ⟨0x80000100#32, 2#16⟩, ⟨0x80000200#32, 3#16⟩] [0] true true).isSome ∧
    CleanLut (nameLut (symNames twins [])) ∧ (⟨0x80000200#32, 3#16⟩ : Sym) ∈ (symMap twins).getD [] := by
  refine ⟨by decide +kernel, ?_, by decide +kernel⟩
  unfold CleanLut Clean
  decide +kernel
example : lastAt twins 0x80000200#32 = some "init" := by decide +kernel
end Ama.Perf
