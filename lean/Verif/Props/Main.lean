import Verif.Lemmas.Main
/-!
# C94: the options reach their settings
-/
namespace Ama.Main
open Args Spec

/-- **C94**: when a command line is accepted, every option of the build has put the value it was given (or, when it was not
given, its documented default) into its own setting. -/
theorem options_reach {B : Build} {L : Line} {s : Store} (h : config B L = .ok s) {r : OptRow} (hr : r ∈ help)
    (ho : r.on B = true) {v : Val} (hv : r.Says B L v) : s r.field = some v := by
  obtain ⟨v', h1, h2⟩ := runs_set h (stms_nodup B) (row_stm B r hr ho)
  rw [says_conv hr ho hv] at h1
  cases h1
  exact h2

/-- **C94**: a command line is accepted when every option of the build is given a value of its kind, or left at its default. -/
theorem options_accepted {B : Build} {L : Line} (h : ∀ r ∈ help, r.on B = true → ∃ v, r.Says B L v) :
    ∃ s, config B L = .ok s := by
  refine accepted_of_conv fun a ha hna => ?_
  rcases stm_row B a ha with rfl | rfl | ⟨r, hr, ho, rfl⟩
  · exact absurd rfl hna
  · exact .inl rfl
  · obtain ⟨v, hv⟩ := h r hr ho
    exact .inr ⟨_, _, _, v, rfl, says_conv hr ho hv⟩

/-- **C94**: an option affects its own setting only: two accepted command lines that agree on an option give its setting the same
value, whatever else they say, and whatever text the option is given. -/
theorem option_alone {B : Build} {L L' : Line} {s s' : Store} (h : config B L = .ok s) (h' : config B L' = .ok s')
    {r : OptRow} (hr : r ∈ help) (ho : r.on B = true) (ht : L.text r.opt = L'.text r.opt) (hf : L.flag r.opt = L'.flag r.opt)
    (hl : L.list r.opt = L'.list r.opt) : s r.field = s' r.field := by
  obtain ⟨v, h1, h2⟩ := runs_set h (stms_nodup B) (row_stm B r hr ho)
  obtain ⟨v', h1', h2'⟩ := runs_set h' (stms_nodup B) (row_stm B r hr ho)
  have : conv B L r.opt (convOf r.takes r.field) = conv B L' r.opt (convOf r.takes r.field) := by
    have e1 : getText B L r.opt = getText B L' r.opt := by unfold getText; rw [ht]
    have e2 : getFlag B L r.opt = getFlag B L' r.opt := by unfold getFlag; rw [hf]
    have e3 : getList B L r.opt = getList B L' r.opt := by unfold getList; rw [hl]
    unfold conv
    rw [e1, e2, e3]
  rw [h1, h1'] at this
  cases this
  rw [h2, h2']

/-- **C94**: the options of a build are exactly those documented for it, with the documented defaults, each named once. -/
theorem options_documented (B : Build) :
    (∀ d ∈ decls B, ∃ r ∈ help, r.on B = true ∧ r.opt = d.name ∧ r.dflt = d.dflt) ∧
    (∀ r ∈ help, r.on B = true → ∃ d ∈ decls B, d.name = r.opt ∧ d.dflt = r.dflt) ∧ ((decls B).map (·.name)).Nodup := by
  exact ⟨decls_rows B, rows_decls B, decls_nodup B⟩

/-- **C94**: the active predictor is the combined one when a second predictor is asked for, and the first one otherwise; it is
called `combined`, or as it was asked for. -/
theorem active_predictor {B : Build} {L : Line} {s : Store} (h : config B L = .ok s) (hw : B.hw = true) :
    ∃ k1 k2, s .bp = some (.bp k1) ∧ s .bp2 = some (.bp k2) ∧
      (k2 ≠ .none → s .bpActive = some (.active .combined) ∧ s .bpActiveName = some (.text "combined".toList)) ∧
      (k2 = .none → s .bpActive = some (.active (.one k1)) ∧
        s .bpActiveName = some (.text ((L.text "bp").getD "bimodal".toList))) := by
  have ha : Stm.active ∈ stms B := by
    obtain ⟨a, b, c, d, e⟩ := B
    cases hw
    cases a <;> cases b <;> cases c <;> cases d <;> decide +kernel
  obtain ⟨l1, l2, e⟩ := List.append_of_mem ha
  have hn := stms_nodup B
  have h' := h
  unfold config at h'
  rw [e] at h' hn
  obtain ⟨t, t', h1, h2, h3⟩ := runs_at h' hn
  have e2 : ∀ g, g = .bp ∨ g = .bp2 → t g ≠ none → s g = t g := by
    intro g hg hne
    rw [List.flatMap_append] at hn
    rw [runs_append] at h'
    obtain ⟨t1, q1, q2⟩ := outBind_ok.1 h'
    rw [h1] at q1
    cases q1
    refine runs_frame q2 fun hm => ?_
    by_cases hg1 : g ∈ l1.flatMap targets
    · exact (List.nodup_append.1 hn).2.2 g hg1 g hm rfl
    · exact hne (runs_frame h1 hg1)
  simp only [run1] at h2
  split at h2
  · rename_i k2 k1 f2 f1
    refine ⟨k1, k2, by rw [e2 .bp (.inl rfl) (by simp [f1]), f1], by rw [e2 .bp2 (.inr rfl) (by simp [f2]), f2], ?_, ?_⟩
    · intro hk
      rw [if_pos hk] at h2
      cases h2
      refine ⟨?_, ?_⟩
      · rw [h3 _ (by simp [targets]), put_ne (by decide), put_eq]
      · rw [h3 _ (by simp [targets]), put_eq]
    · intro hk
      rw [if_neg (by simpa using hk)] at h2
      obtain ⟨u, hu, h2⟩ := outBind_ok.1 h2
      cases h2
      refine ⟨?_, ?_⟩
      · rw [h3 _ (by simp [targets]), put_ne (by decide), put_eq]
      · rw [h3 _ (by simp [targets]), put_eq]
        have hb := row_decl B ⟨"bp", .bp, predTable, some "bimodal", (·.hw)⟩ (by simp [help]) hw
        unfold getText at hu
        rw [show tyOf predTable = .str from rfl] at hb
        rw [hb] at hu
        simp only at hu
        cases hl : L.text "bp" with
        | none => rw [hl] at hu; cases hu; rfl
        | some w => rw [hl] at hu; cases hu; rfl
  · cases h2

/-- **C94**: a command line that gives no number, no name and no path where one is needed does not start the simulation:
without a path the usage text is shown. -/
theorem path_needed {B : Build} {L : Line} (h : L.text "path" = none) : config B L = .usage := by
  have : getText B L "path" = .usage := by
    have hb := row_decl B ⟨"path", .testElf, .text, none, fun _ => true⟩ (by simp [help]) rfl
    unfold getText
    rw [show tyOf .text = .str from rfl] at hb
    rw [hb, h]
  show (Out.bind (run1 B L .init (.set .testElf .text "path")) _) = _
  simp only [run1, conv, this, Out.bind]

/-- **C94** (`_partial`): in builds with logging, and with the profilers if they have the hardware models, every setting that the
simulator looks at has been assigned.  Missing: other builds, in which it has not (`rf_names_unset`, `prof_show_unset`). -/
theorem looked_assigned_partial {B : Build} {L : Line} {s : Store} (h : config B L = .ok s) (hd : B.dasm = true)
    (hp : B.hw = true → B.prof = true) : ∀ f ∈ looked B, s f ≠ none := by
  intro f hf
  have : f ∈ (stms B).flatMap targets := by
    revert f
    obtain ⟨a, b, c, d, e⟩ := B
    cases hd
    cases a <;> cases b <;> cases c <;> cases e <;> first | (exact absurd (hp rfl) (by decide)) | decide +kernel
  obtain ⟨a, ha, hft⟩ := List.mem_flatMap.1 this
  obtain ⟨l1, l2, e⟩ := List.append_of_mem ha
  have hn := stms_nodup B
  unfold config at h
  rw [e] at h hn
  obtain ⟨t, t', _, h2, h3⟩ := runs_at h hn
  rw [h3 f hft]
  cases a with
  | set g c n =>
    obtain ⟨v, _, h2⟩ := outBind_ok.1 h2
    cases h2
    simp only [targets, List.mem_singleton] at hft
    rw [hft, put_eq]
    nofun
  | logAlways =>
    cases h2
    simp only [targets, List.mem_singleton] at hft
    rw [hft, put_eq]
    nofun
  | active =>
    simp only [run1] at h2
    simp only [targets, List.mem_cons, List.not_mem_nil, or_false] at hft
    have key : ∀ v w, ((t.put .bpActive v).put .bpActiveName w) f ≠ none := by
      intro v w
      rcases hft with rfl | rfl
      · rw [put_ne (by decide), put_eq]; nofun
      · rw [put_eq]; nofun
    split at h2
    · split at h2
      · cases h2; exact key _ _
      · obtain ⟨v, _, h2⟩ := outBind_ok.1 h2
        cases h2
        exact key _ _
    · cases h2

/-- **C94**: in a build without logging the kind of register names is never assigned, and the simulator looks at it all the same;
the default build is such a build. -/
theorem rf_names_unset {B : Build} {L : Line} {s : Store} (h : config B L = .ok s) (hd : B.dasm = false) :
    s .rfNames = none ∧ .rfNames ∈ looked B ∧ dfltBuild.dasm = false := by
  refine ⟨?_, by simp [looked], rfl⟩
  refine (runs_frame h ?_).trans rfl
  obtain ⟨a, b, c, d, e⟩ := B
  cases hd
  cases a <;> cases b <;> cases c <;> cases e <;> decide +kernel
/-- **C94**: in a build with the hardware models and without the profilers `prof_show` is never assigned, and the simulator looks at
it all the same. -/
theorem prof_show_unset {B : Build} {L : Line} {s : Store} (h : config B L = .ok s) (hp : B.prof = false) (hw : B.hw = true) :
    s .profShow = none ∧ .profShow ∈ looked B := by
  refine ⟨(runs_frame h ?_).trans rfl, by simp [looked, when, hw]⟩
  obtain ⟨a, b, c, d, e⟩ := B
  cases hp
  cases a <;> cases b <;> cases d <;> cases e <;> decide +kernel

/-- **C94**: the exit status: 0 after help, after the version and after a simulation, 1 for a command line refused; nothing that the
program does changes it. -/
theorem status_run (test : Bool) {s : Store} (w w' : W) : status test false false (.ok s) (.returns w) = some 0 ∧
    status test false false (.ok s) (.returns w) = status test false false (.ok s) (.returns w') ∧
    status test false false .usage (.returns w) = some 1 := ⟨rfl, rfl, rfl⟩

namespace Ex
/-- a command line with a path only -/
def plain : Line := ⟨fun n => if n = "path" then some "a/b.elf".toList else none, fun _ => none, fun _ => none⟩
/-- all switches on -/
def full : Build := ⟨true, true, true, true, true⟩

/-- a command line with several options -/
def some' : Line :=
  ⟨fun n => [("path", "a/b.elf"), ("dcache_ways", "08"), ("roi_start", "0x80007ec0"), ("bp2", "gshare"), ("run_insts", "500")].lookup n
      |>.map String.toList,
    fun n => if n = "log" then some true else none, fun n => if n = "perf_event" then some ["branches", "bp_miss", "ret_ctrl_flow_br"] else none⟩
def show' (o : Out Store) (l : List Field) : Option (List (Option Val)) := match o with
  | .ok s => some (l.map s)
  | _ => none
example : show' (config full some') [.dcWays, .roiStart, .bpActive, .runInsts, .log, .perfEvents, .dcSets] =
    some [some (.u32 8#32), some (.u32 0x80007ec0#32), some (.active .combined), some (.u64 500#64), some (.flag true),
      some (.events [3, 11]), some (.u32 16#32)] := by decide +kernel
/-- the default build leaves the register names without a value -/
example : show' (config dfltBuild plain) [.rfNames, .icSets, .bpActive, .bpActiveName, .profShow] =
    some [none, some (.u32 32#32), some (.active (.one .bimodal)), some (.text "bimodal".toList), some (.flag false)] := by decide +kernel
example : show' (config ⟨true, false, false, true, true⟩ plain) [.rfNames, .logAlways, .profShow] =
    some [some (.rf .x), some (.flag true), none] := by decide +kernel
example : (config full ⟨plain.text, plain.flag, fun _ => some ["ret_inst", "cycles"]⟩) matches .usage := by decide +kernel

/-- **C94**: the events that `README.md` (Notes on profiling) and `examples/ama-riscv-sim.help` name are refused. -/
theorem documented_events_refused : ∀ e ∈ ["bp_mispredict", "dcache_reference", "dcache_miss", "icache_reference", "icache_miss",
    "simd", "mem", "branch", "inst"], ∀ hw, resolveList (perfEvents hw) [e] = .usage := by decide +kernel
/-- the hypothesis of `options_accepted` and of `options_reach`: a row, and what a command line says for it -/
example : (⟨"dcache_ways", .dcWays, .dec32, some "4", (·.hw)⟩ : OptRow).Says full some' (.u32 8#32) :=
  ⟨"08".toList, .inl (by decide), 8, by decide, .snoc (l := ['0']) (v := 0) (c := '8') (d := 8) (.one ⟨by omega, .inl rfl⟩) ⟨by omega, .inl rfl⟩, rfl⟩
example : (⟨"dcache_ways", .dcWays, .dec32, some "4", (·.hw)⟩ : OptRow).Says full plain (.u32 4#32) :=
  ⟨"4".toList, .inr ⟨by decide, rfl⟩, 4, by decide, .one ⟨by omega, .inl rfl⟩, rfl⟩
end Ex

/-- **C94**: with a path, every build accepts a command line that leaves all other texts and lists to their defaults. -/
theorem path_suffices (B : Build) {L : Line} {p : List Char} (hp : L.text "path" = some p)
    (ht : ∀ n, n ≠ "path" → L.text n = none) (hl : ∀ n, L.list n = none) : ∃ s, config B L = .ok s := by
  refine accepted_of_conv fun a ha hna => ?_
  rcases stm_row B a ha with rfl | rfl | ⟨r, hr, ho, rfl⟩
  · exact absurd rfl hna
  · exact .inl rfl
  suffices h : ∃ v, conv B L r.opt (convOf r.takes r.field) = .ok v by
    obtain ⟨v, hv⟩ := h
    exact .inr ⟨_, _, _, v, rfl, hv⟩
  have hd := row_decl B r hr ho
  have h1 := row_dflts r hr
  have h2 := row_list r hr
  have h3 := row_ty r hr
  cases hty : tyOf r.takes with
  | bool =>
    have : convOf r.takes r.field = .flag := by
      revert hty
      cases r.takes <;> first | (intro h; cases h; done) | (intro _; rfl)
    rw [this]
    rw [hty] at hd
    simp only [conv, getFlag, hd, Out.bind]
    exact ⟨_, rfl⟩
  | list =>
    have : convOf r.takes r.field = .events := by
      revert hty
      cases r.takes <;> first | (intro h; cases h; done) | (intro _; rfl)
    rw [this]
    rw [hty, h2 hty] at hd
    have e : resolveList (perfEvents B.hw) ["ret_inst"] = .ok [0] := by cases B.hw <;> decide +kernel
    simp only [conv, getList, hd, hl, Out.bind, Option.toList, e]
    exact ⟨_, rfl⟩
  | str =>
    rw [conv_textual (h3 hty).1 (h3 hty).2]
    rw [hty] at hd
    rcases h1 hty with ⟨h1, h4⟩ | h1
    · have e : convOf r.takes r.field = .text := by
        revert h4
        cases r.takes <;> first | (intro h; cases h; done) | (intro _; rfl)
      rw [e]
      rw [h1] at hd ⊢
      simp only [getText, hd, hp, Out.bind]
      exact ⟨_, rfl⟩
    · unfold dfltOk at h1
      cases hq : r.dflt with
      | none => rw [hq] at h1; cases h1
      | some q =>
        rw [hq] at h1 hd
        simp only at h1
        by_cases hn : r.opt = "path"
        · have e : r.dflt = none := row_path r hr hn
          rw [e] at hq
          cases hq
        · simp only [getText, hd, ht _ hn, Out.bind]
          cases hc : convT (convOf r.takes r.field) q.toList with
          | ok v => exact ⟨v, rfl⟩
          | usage => rw [hc] at h1; cases h1
          | terminate => rw [hc] at h1; cases h1

example : Ex.plain.text "path" = some "a/b.elf".toList ∧ Ex.plain.text "bp" = none := by decide
end Ama.Main
