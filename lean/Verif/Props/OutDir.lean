import Verif.Model.OutDir
import Verif.Lemmas.Main
/-!
# C95: the output directory
-/
namespace Ama.OutDir
open Main

theorem takeWhile_stop {p : Char → Bool} {l r : List Char} {c : Char} (h : ∀ x ∈ l, p x = true) (hc : p c = false) :
    (l ++ c :: r).takeWhile p = l := by
  rw [List.takeWhile_append_of_pos h, List.takeWhile_cons_of_neg (by simp [hc]), List.append_nil]
theorem dropWhile_stop {p : Char → Bool} {l r : List Char} {c : Char} (h : ∀ x ∈ l, p x = true) (hc : p c = false) :
    (l ++ c :: r).dropWhile p = c :: r := by
  rw [List.dropWhile_append_of_pos h, List.dropWhile_cons_of_neg (by simp [hc])]
theorem takeWhile_whole {p : Char → Bool} {l : List Char} (h : ∀ x ∈ l, p x = true) : l.takeWhile p = l := by
  have := List.takeWhile_append_of_pos (l₂ := []) h
  simpa using this
theorem dropWhile_whole {p : Char → Bool} {l : List Char} (h : ∀ x ∈ l, p x = true) : l.dropWhile p = [] := by
  have := List.dropWhile_append_of_pos (l₂ := []) h
  simpa using this

theorem no_slash {l : List Char} (h : '/' ∉ l) : ∀ x ∈ l.reverse, (decide (x ≠ '/')) = true := by
  intro x hx
  simp only [ne_eq, decide_not, Bool.not_eq_true', decide_eq_false_iff_not]
  rintro rfl
  exact h (List.mem_reverse.1 hx)

theorem filename_slash {a f : List Char} (h : '/' ∉ f) : filename (a ++ '/' :: f) = f := by
  unfold filename
  rw [List.reverse_append, List.reverse_cons, List.append_assoc, List.singleton_append, takeWhile_stop (no_slash h) (by simp),
    List.reverse_reverse]
theorem filename_bare {f : List Char} (h : '/' ∉ f) : filename f = f := by
  unfold filename
  rw [takeWhile_whole (no_slash h), List.reverse_reverse]

theorem parent_slash {a f : List Char} {c : Char} (hc : c ≠ '/') (h : '/' ∉ f) : parentPath (a ++ c :: '/' :: f) = a ++ [c] := by
  unfold parentPath
  have e : (a ++ c :: '/' :: f).reverse = f.reverse ++ '/' :: c :: a.reverse := by simp
  rw [e, dropWhile_stop (no_slash h) (by simp)]
  have e2 : ('/' :: c :: a.reverse).dropWhile (fun x => decide (x = '/')) = c :: a.reverse := by
    rw [List.dropWhile_cons_of_pos (by simp), List.dropWhile_cons_of_neg (by simpa using hc)]
  simp only [e2]
  rw [if_neg (by simp)]
  simp
theorem parent_bare {f : List Char} (h : '/' ∉ f) : parentPath f = [] := by
  unfold parentPath
  rw [dropWhile_whole (no_slash h)]
  simp

theorem stem_dot {p base ext : List Char} (hf : filename p = base ++ '.' :: ext) (hb : base ≠ []) (he : '.' ∉ ext)
    (hn : ext ≠ [] ∨ base ≠ ['.']) : stem p = base := by
  unfold stem
  rw [hf]
  have h1 : ¬ (base ++ '.' :: ext = ['.'] ∨ base ++ '.' :: ext = ['.', '.']) := by
    rintro (e | e)
    · cases base with
      | nil => exact hb rfl
      | cons c l => simp at e
    · cases base with
      | nil => exact hb rfl
      | cons c l =>
        cases l with
        | nil =>
          simp only [List.singleton_append, List.cons.injEq] at e
          rcases hn with h | h
          · exact h e.2.2
          · exact h (by rw [e.1])
        | cons c2 l => simp at e
  rw [if_neg h1]
  have hx : ∀ x ∈ ext.reverse, (decide (x ≠ '.')) = true := by
    intro x hx
    simp only [ne_eq, decide_not, Bool.not_eq_true', decide_eq_false_iff_not]
    rintro rfl
    exact he (List.mem_reverse.1 hx)
  have e : (base ++ '.' :: ext).reverse = ext.reverse ++ '.' :: base.reverse := by simp
  simp only [e]
  rw [dropWhile_stop hx (by simp)]
  cases hr : base.reverse with
  | nil => exact absurd (List.reverse_eq_nil_iff.1 hr) hb
  | cons c l =>
    show (c :: l).reverse = base
    rw [← hr, List.reverse_reverse]

/-- the path of a program: a directory `dir` in `pre` (empty, or ending in `/`), a base name and an extension -/
structure Prog where
  pre : List Char
  dir : List Char
  base : List Char
  ext : List Char
/-- the parts are parts: nothing in them separates names, and there is a directory and a base name -/
structure Prog.Ok (p : Prog) : Prop where
  pre : p.pre = [] ∨ ∃ q, p.pre = q ++ ['/']
  dir : '/' ∉ p.dir ∧ p.dir ≠ []
  base : '/' ∉ p.base ∧ p.base ≠ []
  ext : '/' ∉ p.ext ∧ '.' ∉ p.ext ∧ p.ext ≠ []
def Prog.path (p : Prog) : List Char := p.pre ++ p.dir ++ '/' :: (p.base ++ '.' :: p.ext)

/-- **C95**: the outputs of `…/dir/base.ext` go to `dir_base_out/`, or `dir_base_out_tag/` with a tag. -/
theorem out_dir_name {p : Prog} (h : p.Ok) (tag : List Char) :
    (tag = [] → name p.path tag = p.dir ++ "_".toList ++ p.base ++ "_out/".toList) ∧
    (tag ≠ [] → name p.path tag = p.dir ++ "_".toList ++ p.base ++ "_out_".toList ++ tag ++ "/".toList) := by
  obtain ⟨hp, ⟨hd, hd'⟩, ⟨hb, hb'⟩, he, he', he''⟩ := h
  have hf : '/' ∉ p.base ++ '.' :: p.ext := by
    simp only [List.mem_append, List.mem_cons, not_or]
    exact ⟨hb, by decide, he⟩
  have e1 : filename p.path = p.base ++ '.' :: p.ext := filename_slash hf
  have e2 : stem p.path = p.base := stem_dot e1 hb' he' (.inl he'')
  have e3 : parentPath p.path = p.pre ++ p.dir := by
    obtain ⟨l, c, hl⟩ : ∃ l c, p.dir = l ++ [c] := by
      rcases List.eq_nil_or_concat p.dir with h | ⟨l, c, h⟩
      · exact absurd h hd'
      · exact ⟨l, c, by simpa using h⟩
    have hc : c ≠ '/' := by
      rintro rfl
      exact hd (by rw [hl]; simp)
    have : p.path = (p.pre ++ l) ++ c :: '/' :: (p.base ++ '.' :: p.ext) := by
      unfold Prog.path
      rw [hl]
      simp
    rw [this, parent_slash hc hf, hl]
    simp
  have e4 : filename (p.pre ++ p.dir) = p.dir := by
    rcases hp with hp | ⟨q, hp⟩
    · rw [hp, List.nil_append, filename_bare hd]
    · rw [hp, List.append_assoc, List.singleton_append, filename_slash hd]
  unfold name
  rw [e2, e3, e4]
  refine ⟨fun ht => ?_, fun ht => ?_⟩
  · rw [if_neg (by simpa using ht)]
    simp
  · rw [if_pos ht]
    simp

example : (⟨"../sw/baremetal/".toList, "dhrystone".toList, "dhrystone".toList, "elf".toList⟩ : Prog).Ok :=
  ⟨.inr ⟨"../sw/baremetal".toList, by decide⟩, by decide, by decide, by decide⟩
example : name "../sw/baremetal/dhrystone/dhrystone.elf".toList [] = "dhrystone_dhrystone_out/".toList := by decide +kernel
example : name "../sw/baremetal/mlp/w8a8.elf".toList "t1".toList = "mlp_w8a8_out_t1/".toList := by decide +kernel

/-- the part before the first underscore, and the rest -/
theorem split_first {a a' b b' : List Char} (h : '_' ∉ a) (h' : '_' ∉ a') (e : a ++ '_' :: b = a' ++ '_' :: b') :
    a = a' ∧ b = b' := by
  induction a generalizing a' with
  | nil =>
    cases a' with
    | nil => simpa using e
    | cons c l =>
      simp only [List.nil_append, List.cons_append, List.cons.injEq] at e
      exact absurd (by rw [← e.1]; simp) h'
  | cons c l ih =>
    cases a' with
    | nil =>
      simp only [List.nil_append, List.cons_append, List.cons.injEq] at e
      exact absurd (by rw [e.1]; simp) h
    | cons c' l' =>
      simp only [List.cons_append, List.cons.injEq] at e
      obtain ⟨i, j⟩ := ih (a' := l') (fun hm => h (by simp [hm])) (fun hm => h' (by simp [hm])) e.2
      exact ⟨by rw [e.1, i], j⟩

/-- **C95** (`_partial`): programs with different directory names, base names or tags have different output directories, when the
directory and base names have no underscore.  Missing: names with underscores, programs that differ in the directories above or in
the extension (`same_out_dir`). -/
theorem out_dir_distinct_partial {p q : Prog} (hp : p.Ok) (hq : q.Ok) {t u : List Char} (p1 : '_' ∉ p.dir) (p2 : '_' ∉ p.base)
    (q1 : '_' ∉ q.dir) (q2 : '_' ∉ q.base) (h : name p.path t = name q.path u) : p.dir = q.dir ∧ p.base = q.base ∧ t = u := by
  have key : ∀ {p : Prog}, p.Ok → ∀ t, name p.path t = p.dir ++ '_' :: (p.base ++ '_' :: ("out".toList ++ (if t = [] then ['/'] else
      '_' :: (t ++ ['/'])))) := by
    intro p hp t
    obtain ⟨h1, h2⟩ := out_dir_name hp t
    by_cases ht : t = []
    · rw [h1 ht, if_pos ht]; simp
    · rw [h2 ht, if_neg ht]; simp
  rw [key hp, key hq] at h
  obtain ⟨e1, h⟩ := split_first p1 q1 h
  obtain ⟨e2, h⟩ := split_first p2 q2 h
  have h := List.append_cancel_left h
  refine ⟨e1, e2, ?_⟩
  by_cases ht : t = [] <;> by_cases hu : u = []
  · rw [ht, hu]
  · rw [if_pos ht, if_neg hu] at h; cases h
  · rw [if_neg ht, if_pos hu] at h; cases h
  · rw [if_neg ht, if_neg hu] at h
    injection h with _ h
    exact List.append_cancel_right h

/-- **C95**: programs that share an output directory: in different places, with another extension, with underscores in their names,
and one with a tag that is part of the other's name. -/
theorem same_out_dir : (name "a/t/x.elf".toList [] = name "b/t/x.elf".toList []) ∧
    (name "t/x.elf".toList [] = name "t/x.o".toList []) ∧ (name "a_b/c.elf".toList [] = name "a/b_c.elf".toList []) ∧
    (name "a/b_out_c.elf".toList [] = "a_b_out_c_out/".toList) ∧
    (name "a/b.elf".toList "c_out".toList = name "a/b_out_c.elf".toList []) := by
  refine ⟨?_, ?_, ?_, ?_, ?_⟩ <;> decide +kernel

/-- **C95**: the directory is there afterwards; it has the files it had before, none if it is new; no other directory changes. -/
theorem gen_spec {D D' : Dirs} {can : List Char → Bool} {path tag n : List Char} (h : gen D can path tag = some (D', n)) :
    n = name path tag ∧ D' n = some ((D n).getD []) ∧ ∀ m, m ≠ n → D' m = D m := by
  unfold gen at h
  simp only at h
  cases hd : D (name path tag) with
  | some l =>
    rw [hd] at h
    cases h
    exact ⟨rfl, by rw [hd]; rfl, fun _ _ => rfl⟩
  | none =>
    rw [hd] at h
    simp only at h
    split at h
    · cases h
      refine ⟨rfl, by simp [hd], fun m hm => if_neg hm⟩
    · cases h
example : gen (fun _ => none) (fun _ => true) "t/x.elf".toList [] ≠ none := by decide +kernel

/-- when each output file is asked for (`examples/ama-riscv-sim.help`, "Saved as"; `README.md`, Outputs); `ev`: the events asked for -/
def Asked (B : Build) (flag : Field → Bool) (dump : Bool) (ev : List Nat) (f : String) : Prop :=
  f = "uart.log" ∧ B.uart = true ∨ f = "exec.log" ∧ B.dasm = true ∧ flag .log = true ∨ f = "mem_dump.log" ∧ dump = true ∨
  f = "inst_profile.json" ∧ B.prof = true ∨ (f = "trace.bin" ∨ f = "rf_trace.bin") ∧ B.prof = true ∧ flag .profTrace = true ∨
  f = "rf_usage.bin" ∧ B.prof = true ∧ flag .rfUsage = true ∨ f = "branches.csv" ∧ B.hw = true ∧ flag .bpDumpCsv = true ∨
  f = "hw_stats.json" ∧ B.hw = true ∨
  B.prof = true ∧ flag .noCallstack = false ∧ ∃ a e, e ∈ ev ∧ (Args.perfEvents true)[e]? = some (a, e) ∧
    f = "callstack_folded_" ++ a ++ ".txt"

/-- the events are named by their place in the table -/
theorem eventName_at : ∀ e < 21, (Args.perfEvents true)[e]? = some (eventName e, e) := by decide +kernel
theorem events_lt {hw : Bool} {l : List String} {ev : List Nat} (h : Args.resolveList (Args.perfEvents hw) l = .ok ev) :
    ∀ e ∈ ev, e < 21 := by
  have hnd : ((Args.perfEvents hw).map (·.1)).Nodup := by
    cases hw
    · exact Args.names_distinct.1
    · exact Args.names_distinct.2.1
  intro e he
  obtain ⟨a, _, ha⟩ := (((Args.resolveList_iff hnd l).2.2 ev h).2 e).1 he
  have : ∀ p ∈ Args.perfEvents hw, p.2 < 21 := by cases hw <;> decide +kernel
  exact this _ ha

/-- **C95**: a run to its end writes exactly the files asked for. -/
theorem files_asked {B : Build} {s : Store} (he : ∀ e ∈ eventsOf s, e < 21) (f : String) :
    f.toList ∈ files B s ↔ Asked B (on s) (nz s .memDumpStart && nz s .memDumpSize) (eventsOf s) f := by
  have hinj : ∀ {l : List String}, f.toList ∈ l.map (·.toList) ↔ f ∈ l := by
    intro l
    constructor
    · intro h
      obtain ⟨g, hg, e⟩ := List.mem_map.1 h
      rw [← String.toList_inj.1 e]
      exact hg
    · exact fun h => List.mem_map_of_mem h
  have hw : ∀ {b : Bool} {l : List String}, f ∈ when b l ↔ b = true ∧ f ∈ l := by
    intro b l
    unfold when
    cases b <;> simp
  unfold files Asked
  rw [hinj]
  simp only [List.mem_append, hw, List.mem_singleton, List.mem_map, Bool.and_eq_true, Bool.not_eq_true']
  have hev : (∃ a, a ∈ eventsOf s ∧ "callstack_folded_" ++ eventName a ++ ".txt" = f) ↔
      ∃ a e, e ∈ eventsOf s ∧ (Args.perfEvents true)[e]? = some (a, e) ∧ f = "callstack_folded_" ++ a ++ ".txt" := by
    constructor
    · rintro ⟨e, h, rfl⟩
      exact ⟨_, e, h, eventName_at e (he e h), rfl⟩
    · rintro ⟨a, e, h, h2, rfl⟩
      rw [eventName_at e (he e h)] at h2
      injection h2 with h2
      injection h2 with h2 _
      exact ⟨e, h, by rw [h2]⟩
  rw [hev]
  constructor
  · rintro ((((h | h) | h) | ⟨hp, (((h | h) | h) | h) | h⟩) | ⟨hh, h | h⟩)
    · exact .inl ⟨h.2, h.1⟩
    · exact .inr (.inl ⟨h.2, h.1⟩)
    · exact .inr (.inr (.inl ⟨h.2, h.1⟩))
    · exact .inr (.inr (.inr (.inl ⟨h, hp⟩)))
    · exact .inr (.inr (.inr (.inr (.inl ⟨.inl h.2, hp, h.1⟩))))
    · exact .inr (.inr (.inr (.inr (.inr (.inr (.inr (.inr ⟨hp, h.1, h.2⟩)))))))
    · exact .inr (.inr (.inr (.inr (.inl ⟨.inr h.2, hp, h.1⟩))))
    · exact .inr (.inr (.inr (.inr (.inr (.inl ⟨h.2, hp, h.1⟩)))))
    · exact .inr (.inr (.inr (.inr (.inr (.inr (.inl ⟨h.2, hh, h.1⟩))))))
    · exact .inr (.inr (.inr (.inr (.inr (.inr (.inr (.inl ⟨h, hh⟩)))))))
  · rintro (h | h | h | h | ⟨h | h, hp, ht⟩ | h | h | h | h)
    · exact .inl (.inl (.inl (.inl ⟨h.2, h.1⟩)))
    · exact .inl (.inl (.inl (.inr ⟨h.2, h.1⟩)))
    · exact .inl (.inl (.inr ⟨h.2, h.1⟩))
    · exact .inl (.inr ⟨h.2, .inl (.inl (.inl (.inl h.1)))⟩)
    · exact .inl (.inr ⟨hp, .inl (.inl (.inl (.inr ⟨ht, h⟩)))⟩)
    · exact .inl (.inr ⟨hp, .inl (.inr ⟨ht, h⟩)⟩)
    · exact .inl (.inr ⟨h.2.1, .inr ⟨h.2.2, h.1⟩⟩)
    · exact .inr ⟨h.2.1, .inl ⟨h.2.2, h.1⟩⟩
    · exact .inr ⟨h.2, .inr h.1⟩
    · exact .inl (.inr ⟨h.1, .inl (.inl (.inr ⟨h.2.1, h.2.2⟩))⟩)

/-- **C95**: from an accepted command line the events are events. -/
theorem config_events {B : Build} {L : Line} {s : Store} (h : config B L = .ok s) : ∀ e ∈ eventsOf s, e < 21 := by
  by_cases hp : B.prof = true
  · obtain ⟨v, h1, h2⟩ := runs_set h (stms_nodup B)
      (row_stm B ⟨"perf_event", .perfEvents, .events, some "ret_inst", (·.prof)⟩ (by simp [Spec.help]) hp)
    obtain ⟨l, _, h1⟩ := outBind_ok.1 h1
    obtain ⟨ev, h3, h1⟩ := outBind_ok.1 h1
    cases h1
    unfold eventsOf
    simp only at h2
    rw [h2]
    exact events_lt h3
  · have : s .perfEvents = none := by
      refine (runs_frame h ?_).trans rfl
      obtain ⟨a, b, c, d, e⟩ := B
      simp only [Bool.not_eq_true] at hp
      cases hp
      cases a <;> cases b <;> cases d <;> cases e <;> decide +kernel
    unfold eventsOf
    rw [this]
    simp

/-- **C95** (`_partial`): after a run its directory holds the files it wrote and those that were there before, and nothing else; if it
was new, exactly the files the run wrote.  Missing: nothing is removed, so a directory used before keeps files that this run did not
write (`stale_trace`). -/
theorem after_run_partial {B : Build} {s : Store} {D D' : Dirs} {can : List Char → Bool} {path tag n : List Char}
    (h : gen D can path tag = some (D', n)) :
    (∃ l, after B s D' n n = some l ∧ ∀ f, f ∈ l ↔ f ∈ files B s ∨ f ∈ (D n).getD []) ∧ ∀ m, m ≠ n → after B s D' n m = D m := by
  obtain ⟨_, h1, h2⟩ := gen_spec h
  refine ⟨⟨_, by unfold after; rw [if_pos rfl, h1]; rfl, fun f => ?_⟩, fun m hm => ?_⟩
  · simp only [List.mem_append, List.mem_filter, Bool.not_eq_true', List.contains_eq_mem, decide_eq_false_iff_not]
    by_cases hf : f ∈ (D n).getD [] <;> simp [hf]
  · unfold after
    rw [if_neg hm]
    exact h2 m hm

namespace Ex
def B : Build := ⟨true, false, true, false, true⟩
def line (t : Bool) : Line :=
  ⟨fun n => if n = "path" then some "t/x.elf".toList else none, fun n => if n = "prof_trace" then some t else none, fun _ => none⟩
def dirsAfter (D : Dirs) (t : Bool) : Option Dirs := match config B (line t) with
  | .ok s => (gen D (fun _ => true) "t/x.elf".toList []).map fun r => after B s r.1 r.2
  | _ => none
def has (D : Option Dirs) (f : String) : Option Bool :=
  D.bind fun D => (D "t_x_out/".toList).map fun l => l.contains f.toList
/-- **C95**: a run without traces leaves the trace of an earlier run beside its own outputs. -/
theorem stale_trace : has (dirsAfter (fun _ => none) false) "trace.bin" = some false ∧
    has ((dirsAfter (fun _ => none) true).bind fun D => dirsAfter D false) "trace.bin" = some true ∧
    has ((dirsAfter (fun _ => none) true).bind fun D => dirsAfter D false) "hw_stats.json" = some true := by
  refine ⟨?_, ?_, ?_⟩ <;> decide +kernel
example : has (dirsAfter (fun _ => none) false) "callstack_folded_ret_inst.txt" = some true := by decide +kernel
end Ex
end Ama.OutDir
