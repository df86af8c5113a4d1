import Verif.Lemmas.LogFile
import Verif.Lemmas.Ex
/-!
# The file of the execution log (C101)
-/
namespace Ama.Dasm
open M Spec Spec.LogText Spec.Asm Spec.Folded Report
variable {σ : Type} {E : Env σ}

/-! ## A line can be read back -/

/-- **C101.** The line of an instruction, whatever its number, address, word and text, reads back as these, and the word
is written with as many digits as the instruction has, if it fits them. -/
theorem line_reads (b : Bool) (n : Nat) (pc w : W) (k : Nat) (t : List Char) (hw : w.toNat < 16 ^ (k + 1)) :
    ∃ l, logLine b n pc w (k + 1) t = l ++ ['\n'] ∧
      LogText.readLine l = some ⟨if b then some n else none, pc.toNat, w.toNat, k + 1, t⟩ :=
  ⟨_, logLine_body .., by rw [readBody, padl_len k _ hw]⟩

example : logLine true 1234567 0x80000004#32 0x93#32 8 "addi x1,x0,0".toList =
    "    1234567: 80000004: 00000093 addi x1,x0,0\n".toList := by decide +kernel
example : logLine false 12 0x80000004#32 0x93#32 4 "t: 1".toList = "          : 80000004: 0093 t: 1\n".toList := by
  decide +kernel
example : LogText.readLine "        12: 80000004: 0093 t: 1".toList = some ⟨some 12, 0x80000004, 0x93, 4, "t: 1".toList⟩ := by
  decide +kernel

/-! ## The file of a run -/

theorem stepL_split {o : LogF} {L : LogIn} {d d' : DS} {t : List Char} {s s' : St σ}
    (h : stepL E o L d s = .ok ((t, d'), s')) : ∃ r, stepD E L d s = .ok ((r, d'), s') ∧
      t = (match r with
        | none => []
        | some u => if o.act E.cfg s' then
            if s'.trapped then u ++ ['\n']
            else logLine (!E.cfg.profilers || s'.profActive) (s.simInst + 1#64).toNat s.pc s'.inst d'.instW u
          else []) := by
  unfold stepL at h
  rw [M.bind_ok (M.get_app _ _), M.bind_ok (M.get_app _ _)] at h
  obtain ⟨⟨r, e⟩, s1, e1, h⟩ := bind_eq_ok.1 h
  rw [M.bind_ok (M.get_app _ _)] at h
  simp only [id_eq] at h
  cases r with
  | none =>
    injection h with h; injection h with h1 h2; injection h1 with h1 h3
    subst h1 h2 h3
    exact ⟨none, e1, rfl⟩
  | some u =>
    simp only at h
    split at h
    · rename_i ha
      split at h
      · rename_i ht
        injection h with h; injection h with h1 h2; injection h1 with h1 h3
        subst h1 h2 h3
        exact ⟨some u, e1, by simp only; rw [if_pos ha, if_pos ht]⟩
      · rename_i ht
        injection h with h; injection h with h1 h2; injection h1 with h1 h3
        subst h1 h2 h3
        exact ⟨some u, e1, by simp only; rw [if_pos ha, if_neg ht]⟩
    · rename_i ha
      injection h with h; injection h with h1 h2; injection h1 with h1 h3
      subst h1 h2 h3
      exact ⟨some u, e1, by simp only; rw [if_neg ha]⟩

theorem act_active (o : LogF) (s : St σ) : o.act E.cfg s = active ⟨o.en, o.always⟩ E.cfg.profilers s := by
  unfold LogF.act active
  rw [Bool.or_comm]

/-- what a step writes: nothing, or one line that says what the step left -/
theorem step_line {o : LogF} {L : LogIn} {d d' : DS} {t : List Char} {s s' : St σ} {n : Nat}
    (h : stepL E o L d s = .ok ((t, d'), s')) (hm : '\n' ∉ L.msg) (hs : '\n' ∉ L.simd) (hd : Flat n d) :
    (∃ n', Flat n' d') ∧ ∃ r, stepD E L d s = .ok ((r, d'), s') ∧
      ((t = [] ∧ (leaves E.cfg s s' = none ∨ active ⟨o.en, o.always⟩ E.cfg.profilers s' = false)) ∨
       ∃ l k, t = l ++ ['\n'] ∧ '\n' ∉ l ∧ leaves E.cfg s s' = some k ∧
        active ⟨o.en, o.always⟩ E.cfg.profilers s' = true ∧ Says l (k, r.getD [])) := by
  obtain ⟨r, e, ht⟩ := stepL_split h
  obtain ⟨hf, hk⟩ := stepD_kind e hm hs hd
  refine ⟨hf, r, e, ?_⟩
  rw [act_active] at ht
  rcases hk with ⟨rfl, hk⟩ | ⟨u, rfl, hu, hk⟩
  · exact .inl ⟨ht, .inl hk⟩
  · simp only at ht
    by_cases ha : active ⟨o.en, o.always⟩ E.cfg.profilers s' = true
    · rw [if_pos ha] at ht
      rcases hk with ⟨h1, h2⟩ | ⟨h1, h2, h3, h4⟩
      · rw [if_pos h1] at ht
        exact .inr ⟨u, _, ht, hu, h2, ha, rfl⟩
      · rw [if_neg (by rw [h1]; nofun)] at ht
        have hi : s'.simInst ≠ s.simInst := by
          rw [h2]
          intro hc
          have := congrArg BitVec.toNat hc
          rw [BitVec.toNat_add] at this
          have := s.simInst.isLt
          have h1 : (1#64 : BitVec 64).toNat = 1 := rfl
          omega
        refine .inr ⟨_, _, ht.trans (logLine_body ..), lineBody_no _ _ _ _ _ hu, by unfold leaves; rw [if_pos hi], ha, ?_⟩
        show LogText.readLine _ = _
        rw [readBody]
        have hl : (padl '0' d'.instW (Nat.toDigits 16 s'.inst.toNat)).length = d'.instW := by
          have : ∃ k, d'.instW = k + 1 := by
            rw [h3]; split
            · exact ⟨7, rfl⟩
            · exact ⟨3, rfl⟩
          obtain ⟨k, hk⟩ := this
          rw [hk] at h4 ⊢
          exact padl_len k _ h4
        rw [hl, h3]
        rfl
    · rw [if_neg ha] at ht
      exact .inl ⟨ht, .inr (by simpa using ha)⟩

theorem step_of {L : LogIn} {d : DS} {s s' : St σ} {x : Option (List Char) × DS} (h : stepD E L d s = .ok (x, s')) :
    step E s = .ok ((), s') := by
  rw [stepD_same (E := E) L d s, h]

/-- **C101.** For every run, of any length, from any state, with any of the options: the file consists of lines, one for
each step that the options select and that retired an instruction or trapped, in order.  The line of a retired instruction
reads back as the number of the instruction, counted from the start of the run (or no number, outside the profiled part),
the address and the word it was executed from, in 4 or 8 digits by its size, and the text of that step; the line of
a trap is the text of the step.  `Flat` says that the stream of the texts holds no line break, as a fresh one. -/
theorem log_file {o : LogF} {L : Nat → LogIn} (hm : ∀ i, '\n' ∉ (L i).msg) (hs : ∀ i, '\n' ∉ (L i).simd) :
    ∀ {n : Nat} {d d' : DS} {t : List Char} {s s' : St σ} {m : Nat}, Flat m d → runL E o L n d s = .ok ((t, d'), s') →
    ∃ rs, runD E L n d s = .ok ((rs, d'), s') ∧ ∃ ls : List (List Char),
      pieces '\n' t = ls ++ [[]] ∧ List.Forall₂ Says ls (logged E ⟨o.en, o.always⟩ rs s)
  | 0, d, d', t, s, s', m, hd, h => by
    injection h with h; injection h with h1 h2; injection h1 with h1 h3
    subst h1 h2 h3
    exact ⟨[], rfl, [], rfl, .nil⟩
  | n + 1, d, d', t, s, s', m, hd, h => by
    unfold runL at h
    rw [M.bind_ok (M.get_app _ _)] at h
    unfold runD
    rw [M.bind_ok (M.get_app _ _)]
    by_cases hr : s.running = true
    · rw [if_pos hr] at h ⊢
      obtain ⟨⟨t1, d1⟩, s1, e1, h⟩ := bind_eq_ok.1 h
      obtain ⟨⟨t2, d2⟩, s2, e2, h⟩ := bind_eq_ok.1 h
      injection h with h; injection h with h1 h2; injection h1 with h1 h3
      subst h1 h2 h3
      obtain ⟨⟨m', hd1⟩, r, f1, hx⟩ := step_line e1 (hm n) (hs n) hd
      obtain ⟨rs, f2, ls, g1, g2⟩ := log_file hm hs hd1 e2
      refine ⟨r :: rs, by rw [M.bind_ok f1, M.bind_ok f2]; rfl, ?_⟩
      unfold logged
      rw [step_of f1]
      simp only
      rcases hx with ⟨rfl, hx⟩ | ⟨l, k, rfl, hl, hk, ha, hsay⟩
      · refine ⟨ls, g1, ?_⟩
        rcases hx with hx | hx
        · rw [hx]; exact g2
        · cases leaves E.cfg s s1 with
          | none => exact g2
          | some k => simp only [hx]; exact g2
      · refine ⟨l :: ls, ?_, ?_⟩
        · show pieces '\n' ((l ++ ['\n']) ++ t2) = _
          rw [List.append_assoc, List.singleton_append, Perf.pieces_part hl, g1]
          rfl
        · rw [hk]
          simp only [ha, if_true]
          exact .cons hsay g2
    · rw [if_neg hr] at h ⊢
      injection h with h; injection h with h1 h2; injection h1 with h1 h3
      subst h1 h2 h3
      exact ⟨[], rfl, [], rfl, .nil⟩

/-- a fresh stream holds no line break -/
theorem flat_init : Flat 8 DS.init := ⟨by decide, by decide, by decide, rfl⟩

/-- **C101**: and the build that writes the file does what the build without it does, for runs of any length -/
theorem log_file_same (o : LogF) (L : Nat → LogIn) : ∀ (n : Nat) (d : DS), Same (runL E o L n d) (runN E n)
  | 0, _ => .pure _
  | n + 1, _ => Same.bind fun _ => Same.ite (Same.seq (Same.skip fun _ => Same.skip fun _ => Same.last (stepD_same _ _) fun x =>
        Same.skip fun _ => by
          rcases x with ⟨_ | _, _⟩
          · exact .pure _
          · simp only
            split
            · split <;> exact .pure _
            · exact .pure _) fun x =>
      Same.last (log_file_same o L n x.2) fun _ => .pure _) (.pure _)

/-! ## The numbers of the lines -/

/-- how the count of instructions moves in a step -/
theorem step_count {L : LogIn} {d d' : DS} {r : Option (List Char)} {s s' : St σ} {n : Nat}
    (h : stepD E L d s = .ok ((r, d'), s')) (hm : '\n' ∉ L.msg) (hs : '\n' ∉ L.simd) (hd : Flat n d) :
    (s'.simInst = s.simInst ∧ (leaves E.cfg s s' = none ∨ leaves E.cfg s s' = some .trap)) ∨
    s'.simInst = s.simInst + 1#64 := by
  obtain ⟨_, ⟨_, hk⟩ | ⟨u, _, _, ⟨_, hk⟩ | ⟨_, hk, _⟩⟩⟩ := stepD_kind h hm hs hd
  · left
    refine ⟨?_, .inl hk⟩
    by_contra hc
    unfold leaves at hk
    rw [if_pos hc] at hk
    cases hk
  · left
    refine ⟨?_, .inr hk⟩
    by_contra hc
    unfold leaves at hk
    rw [if_pos hc] at hk
    cases hk
  · exact .inr hk

/-- **C101.** In a build without profilers, with the log on, the numbers of the lines are 1, 2, 3 … without a gap: they go
from the count of instructions before the run to the count after it, one line for each instruction retired. -/
theorem log_numbers {o : LogF} {L : Nat → LogIn} (hm : ∀ i, '\n' ∉ (L i).msg) (hs : ∀ i, '\n' ∉ (L i).simd)
    (hp : E.cfg.profilers = false) (he : o.en = true) (hal : o.always = true) :
    ∀ {n : Nat} {d d' : DS} {rs : List (Option (List Char))} {s s' : St σ} {m : Nat}, Flat m d →
    runD E L n d s = .ok ((rs, d'), s') → s.simInst.toNat + n < 2 ^ 64 →
    s.simInst.toNat ≤ s'.simInst.toNat ∧ (logged E ⟨o.en, o.always⟩ rs s).filterMap numOf =
      List.range' (s.simInst.toNat + 1) (s'.simInst.toNat - s.simInst.toNat)
  | 0, d, d', t, s, s', m, hd, h, _ => by
    injection h with h; injection h with h1 h2; injection h1 with h1 h3
    subst h1 h2
    simp [logged]
  | n + 1, d, d', t, s, s', m, hd, h, hb => by
    unfold runD at h
    rw [M.bind_ok (M.get_app _ _)] at h
    by_cases hr : s.running = true
    · rw [if_pos hr] at h
      obtain ⟨⟨r, d1⟩, s1, e1, h⟩ := bind_eq_ok.1 h
      obtain ⟨⟨rs, d2⟩, s2, e2, h⟩ := bind_eq_ok.1 h
      injection h with h; injection h with h1 h2; injection h1 with h1 h3
      subst h1 h2
      obtain ⟨⟨m', hd1⟩, _⟩ := stepD_kind e1 (hm n) (hs n) hd
      have ha : active ⟨o.en, o.always⟩ E.cfg.profilers s1 = true := by simp [active, he, hal]
      unfold logged
      rw [step_of e1]
      simp only [ha, if_true]
      rcases step_count e1 (hm n) (hs n) hd with ⟨hi, hk⟩ | hi
      · obtain ⟨g1, g2⟩ := log_numbers hm hs hp he hal hd1 e2 (by rw [hi]; omega)
        rw [hi] at g1 g2
        refine ⟨g1, ?_⟩
        rw [List.filterMap_append, g2]
        rcases hk with hk | hk <;> rw [hk] <;> rfl
      · have hn : s1.simInst.toNat = s.simInst.toNat + 1 := by
          rw [hi, BitVec.toNat_add]
          have h1 : (1#64 : BitVec 64).toNat = 1 := rfl
          omega
        obtain ⟨g1, g2⟩ := log_numbers hm hs hp he hal hd1 e2 (by omega)
        have hne : s1.simInst ≠ s.simInst := fun hc => by rw [hc] at hn; omega
        have hl : leaves E.cfg s s1 = some (.inst (some (s.simInst.toNat + 1)) s.pc.toNat s1.inst.toNat
            (if s1.inst.extractLsb' 0 2 = 3#2 then 8 else 4)) := by
          unfold leaves
          rw [if_pos hne, ← hi, hn]
          simp [LogText.numbered, hp]
        refine ⟨by omega, ?_⟩
        rw [List.filterMap_append, g2, hl, hn]
        have : s2.simInst.toNat - s.simInst.toNat = (s2.simInst.toNat - (s.simInst.toNat + 1)) + 1 := by omega
        rw [this, List.range'_succ]
        rfl
    · rw [if_neg hr] at h
      injection h with h; injection h with h1 h2; injection h1 with h1 h3
      subst h1 h2
      simp [logged]

/-- **C101.** Whatever the options and the profiled part, the numbers of the lines are among the numbers of the instructions
retired in the run, in increasing order, each at most once. -/
theorem log_numbers_any {o : LogF} {L : Nat → LogIn} (hm : ∀ i, '\n' ∉ (L i).msg) (hs : ∀ i, '\n' ∉ (L i).simd) :
    ∀ {n : Nat} {d d' : DS} {rs : List (Option (List Char))} {s s' : St σ} {m : Nat}, Flat m d →
    runD E L n d s = .ok ((rs, d'), s') → s.simInst.toNat + n < 2 ^ 64 →
    s.simInst.toNat ≤ s'.simInst.toNat ∧ ((logged E ⟨o.en, o.always⟩ rs s).filterMap numOf).Sublist
      (List.range' (s.simInst.toNat + 1) (s'.simInst.toNat - s.simInst.toNat))
  | 0, d, d', t, s, s', m, hd, h, _ => by
    injection h with h; injection h with h1 h2; injection h1 with h1 h3
    subst h1 h2
    simp [logged]
  | n + 1, d, d', t, s, s', m, hd, h, hb => by
    unfold runD at h
    rw [M.bind_ok (M.get_app _ _)] at h
    by_cases hr : s.running = true
    · rw [if_pos hr] at h
      obtain ⟨⟨r, d1⟩, s1, e1, h⟩ := bind_eq_ok.1 h
      obtain ⟨⟨rs, d2⟩, s2, e2, h⟩ := bind_eq_ok.1 h
      injection h with h; injection h with h1 h2; injection h1 with h1 h3
      subst h1 h2
      obtain ⟨⟨m', hd1⟩, _⟩ := stepD_kind e1 (hm n) (hs n) hd
      unfold logged
      rw [step_of e1]
      simp only
      rcases step_count e1 (hm n) (hs n) hd with ⟨hi, hk⟩ | hi
      · obtain ⟨g1, g2⟩ := log_numbers_any hm hs hd1 e2 (by rw [hi]; omega)
        rw [hi] at g1 g2
        refine ⟨g1, ?_⟩
        rw [List.filterMap_append]
        rcases hk with hk | hk <;> rw [hk]
        · exact g2
        · simp only
          split <;> exact g2
      · have hn : s1.simInst.toNat = s.simInst.toNat + 1 := by
          rw [hi, BitVec.toNat_add]
          have h1 : (1#64 : BitVec 64).toNat = 1 := rfl
          omega
        obtain ⟨g1, g2⟩ := log_numbers_any hm hs hd1 e2 (by omega)
        have hne : s1.simInst ≠ s.simInst := fun hc => by rw [hc] at hn; omega
        refine ⟨by omega, ?_⟩
        have : s2.simInst.toNat - s.simInst.toNat = (s2.simInst.toNat - (s.simInst.toNat + 1)) + 1 := by omega
        rw [List.filterMap_append, this, List.range'_succ]
        rw [hn] at g2
        have hl : leaves E.cfg s s1 = some (.inst (if LogText.numbered E.cfg.profilers s1 then some (s.simInst.toNat + 1) else none)
            s.pc.toNat s1.inst.toNat (if s1.inst.extractLsb' 0 2 = 3#2 then 8 else 4)) := by
          unfold leaves
          rw [if_pos hne, ← hi, hn]
        rw [hl]
        simp only
        split
        · cases LogText.numbered E.cfg.profilers s1 with
          | true => exact g2.cons_cons _
          | false => exact g2.cons _
        · exact g2.cons _
    · rw [if_neg hr] at h
      injection h with h; injection h with h1 h2; injection h1 with h1 h3
      subst h1 h2
      simp [logged]

/-! ## Concrete runs -/

/-- the file of the first `n` steps of a program -/
def fileOf (E : Env Unit) (n : Nat) (ws : List W) : Option (List Char) :=
  match runL E ⟨true, true⟩ (fun _ => ⟨false, "TRAP".toList, []⟩) n DS.init (Ex.st0 E ws) with
  | .ok ((t, _), _) => some t
  | _ => none

/-- a run of two instructions and a misaligned store, which traps -/
example : fileOf Ex.env0 3 [encode (.lui 2#5 0x80001#20), encode (.alui .addi 1#5 2#5 0xfff#12), encode (.store .sw 1#5 2#5 1#12)] =
    some ("         1: 80000000: 80001137 lui x2, 0x80001               x2 : 0x80001000  \n".toList ++
      "         2: 80000004: fff10093 addi x1,x2,-1                 x1 : 0x80000fff  \n".toList ++
      "TRAP                          \n".toList) := by
  decide +kernel

end Ama.Dasm
