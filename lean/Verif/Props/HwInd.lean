import Verif.Lemmas.HwStep
import Verif.Props.BpPredict
import Verif.Lemmas.Ex
/-!
# C53: the hardware models do not change what a program computes
-/
namespace Ama.HwInd
open M
variable {σ τ : Type} {E : Env σ} {F : Env τ}

/-- the architectural state does not mention what `erase` forgets -/
theorem arch_erase (s : St σ) : arch (erase s) = arch s := rfl

theorem initSt_ready (img : W → BitVec 8) (pp : ProfPc) (h : σ) : Ready E (initSt E img pp h) :=
  ⟨fun _ => rfl, fun _ => ⟨rfl, fun h => nomatch h⟩⟩

theorem initSt_erase (img : W → BitVec 8) (pp : ProfPc) (h : σ) :
    erase (initSt E img pp h) = initSt (plain E) img pp () := rfl

theorem runN_succ_run {s : St σ} (hr : s.running = true) (n : Nat) :
    runN E (n + 1) s = (step E >>= fun _ => runN E n) s := by
  show (get (·.running) >>= _) s = _
  rw [M.bind_ok (show get (·.running) s = .ok (s.running, s) from rfl), hr]
  rfl

theorem runN_succ_stop {s : St σ} (hr : s.running = false) (n : Nat) : runN E (n + 1) s = .ok ((), s) := by
  show (get (·.running) >>= _) s = _
  rw [M.bind_ok (show get (·.running) s = .ok (s.running, s) from rfl), hr]
  rfl

/-- from any state reached with a consistent fetch buffer -/
theorem runN_erase (hp : Predicts E) : ∀ n {s s' : St σ}, Ready E s → Clean E s n →
    runN E n s = .ok ((), s') → runN (plain E) n (erase s) = .ok ((), erase s')
  | 0, s, s', _, _, e => by cases e; rfl
  | n + 1, s, s', hr, hc, e => by
    cases hrun : s.running with
    | false =>
      rw [runN_succ_stop hrun] at e
      cases e
      exact runN_succ_stop (s := erase s) hrun n
    | true =>
      rw [runN_succ_run hrun] at e
      obtain ⟨⟨⟩, s1, e1, e2⟩ := bind_eq_ok.1 e
      have h1 : runN E 1 s = .ok ((), s1) := by
        rw [runN_succ_run hrun, M.bind_ok e1]; rfl
      obtain ⟨hb, hbb⟩ := hc 1 (by omega) s1 h1
      obtain ⟨g, hr'⟩ := step_erase hp hr hrun hb hbb e1
      have hc' : Clean E s1 n := fun m hm t et =>
        hc (m + 1) (by omega) t (by rw [runN_succ_run hrun, M.bind_ok e1]; exact et)
      rw [runN_succ_run (s := erase s) hrun, M.bind_ok g]
      exact runN_erase hp n hr' hc' e2

/-- **C53 (partial)**: any run of a build with hardware models — whatever caches, predictor and
divider, in whatever initial condition — that completes `n` steps without an answered
scratchpad hint and without a malformed branch is reproduced, in every architectural component,
by the build without them.

Missing from the full claim: the build with models may stop where the plain one continues
(`speculation_aborts_program`), and a malformed branch makes it execute a different instruction
(`malformed_branch_steers`); both are defects of the code, shown below. -/
theorem hw_run_matches_plain_partial (hp : Predicts E) {img : W → BitVec 8} {pp : ProfPc} {h : σ} {n : Nat} {s' : St σ}
    (hc : Clean E (initSt E img pp h) n) (e : runN E n (initSt E img pp h) = .ok ((), s')) :
    ∃ t', runN (plain E) n (initSt (plain E) img pp ()) = .ok ((), t') ∧ arch t' = arch s' :=
  ⟨erase s', runN_erase hp n (initSt_ready img pp h) hc e, arch_erase s'⟩

/-- **C53 (partial)**: two builds with different hardware models (or none) and otherwise the same
options compute the same architectural state after every number of steps. -/
theorem hw_models_agree_partial (hpE : Predicts E) (hpF : Predicts F) (hs : SameSetup E F)
    {img : W → BitVec 8} {pp : ProfPc} {h : σ} {g : τ} {n : Nat} {s' : St σ} {t' : St τ}
    (hcE : Clean E (initSt E img pp h) n) (hcF : Clean F (initSt F img pp g) n)
    (eE : runN E n (initSt E img pp h) = .ok ((), s')) (eF : runN F n (initSt F img pp g) = .ok ((), t')) :
    arch s' = arch t' := by
  have hpl : plain E = plain F := by
    obtain ⟨h1, h2, h3, h4⟩ := hs
    unfold plain
    rw [h1, h2, h3, h4]
  obtain ⟨a, ea, ha⟩ := hw_run_matches_plain_partial hpE hcE eE
  obtain ⟨b, eb, hb⟩ := hw_run_matches_plain_partial hpF hcF eF
  rw [hpl, eb] at ea
  cases ea
  rw [← ha, ← hb]

/-! ## The predictors of the simulator -/

/-- an active predictor built without a `none` component, ideal only at the top: every predictor
the command line accepts for which `prediction_is_successor_partial` holds, and the ideal one -/
def Usable (b : Bp.BpIf) : Prop := Bp.Real (Bp.shape b.active) ∨ Bp.shape b.active = .one .ideal

theorem usable_ideal {b : Bp.BpIf} (n : W) (h : Usable b) : Usable (b.ideal n) := by
  unfold Usable Bp.BpIf.ideal
  simp only [Bp.shape_goto]
  exact h

theorem usable_prof {b : Bp.BpIf} (on : Bool) (h : Usable b) : Usable (b.profiling on) := by
  unfold Usable Bp.BpIf.profiling
  simp only [Bp.shape_setProf]
  exact h

theorem ifPredict_parts {b b' : Bp.BpIf} {pc imm v : W} {f3 : BitVec 3}
    (e : b.predict pc imm f3 = .ok (v, b')) : Bp.predict (pc + imm) pc b.active = .ok (v, b'.active) := by
  unfold Bp.BpIf.predict at e
  obtain ⟨_, _, e⟩ := Bp.bind_eq_ok e
  obtain ⟨r, hr, e⟩ := Bp.bind_eq_ok e
  injection e with e; injection e with e1 e2
  subst e1 e2
  exact hr

theorem usable_predict {b b' : Bp.BpIf} {pc imm v : W} {f3 : BitVec 3} (h : Usable b)
    (e : b.predict pc imm f3 = .ok (v, b')) : Usable b' := by
  have := (Bp.asked _ _ (ifPredict_parts e)).shape
  unfold Usable
  rw [this]
  exact h

theorem usable_update {b b' : Bp.BpIf} {pc n : W} (h : Usable b) (e : b.update pc n = .ok b') : Usable b' := by
  unfold Bp.BpIf.update at e
  obtain ⟨r, hr, e⟩ := Bp.bind_eq_ok e
  obtain ⟨_, _, e⟩ := Bp.bind_eq_ok e
  have hs := (Bp.eval_shape _ _ hr).1
  dsimp only at e
  split at e
  · injection e with e
    subst e
    unfold Usable
    simp only [hs]
    exact h
  · obtain ⟨a, ha, e⟩ := Bp.bind_eq_ok e
    obtain ⟨_, _, e⟩ := Bp.bind_eq_ok e
    injection e with e
    subst e
    obtain ⟨_, _, ha⟩ := Bp.bind_eq_ok ha
    injection ha with ha
    subst ha
    unfold Usable
    simp only [Bp.shape_setBase, hs]
    exact h

/-- The simulator's branch predictor interface as the core uses it, next to any caches and
divider `H`.  Where the predictor model reports undefined behaviour (which C48 excludes for
accepted configurations) this one answers pc + 4 and stays as it is. -/
def withBp {κ : Type} (H : Hw κ) : Hw ({b : Bp.BpIf // Usable b} × κ) where
  icRd a h := (h.1, H.icRd a h.2)
  dcRd a n h := (h.1, H.dcRd a n h.2)
  dcWr a v n h := (h.1, H.dcWr a v n h.2)
  scp a m h := ((H.scp a m h.2).1, h.1, (H.scp a m h.2).2)
  bpIdeal n h := (⟨h.1.1.ideal n, usable_ideal n h.1.2⟩, h.2)
  bpPredict pc imm f3 h :=
    match e : h.1.1.predict pc imm f3 with
    | .ok r => (r.1, ⟨r.2, usable_predict (v := r.1) h.1.2 e⟩, h.2)
    | _ => (pc + 4#32, h)
  bpUpdate pc n h :=
    match e : h.1.1.update pc n with
    | .ok b => (⟨b, usable_update h.1.2 e⟩, h.2)
    | _ => h
  divEval a b m h := (h.1, H.divEval a b m h.2)
  profiling on h := (⟨h.1.1.profiling on, usable_prof on h.1.2⟩, H.profiling on h.2)

/-- The hypothesis on the predictor in C53 holds for the simulator's own: every predictor without
a `none` component, in every state and after any history. -/
theorem bp_predicts {κ : Type} (H : Hw κ) (c : Cfg) (rs : List Region) (ui : List (BitVec 8))
    (si : Nat → Option (BitVec 8)) :
    Predicts ({ cfg := c, hw := withBp H, regions := rs, uartIn := ui, stdin := si } : Env _) := by
  refine .inr fun pc imm f3 n h => ?_
  have hu : ∀ v b', (h.1.1.ideal n).predict pc imm f3 = .ok (v, b') → v = pc + imm ∨ v = pc + 4#32 ∨ v = n := by
    intro v b' e
    have hp := ifPredict_parts e
    rcases h.1.2 with hr | hr
    · rcases Bp.predict_successor _ _ (by unfold Bp.BpIf.ideal; rw [Bp.shape_goto]; exact hr) hp with h | h
      · exact .inl h
      · exact .inr (.inl h)
    · refine .inr (.inr ?_)
      unfold Bp.BpIf.ideal at hp
      revert hp hr
      cases h.1.1.active <;> intro hp hr <;> simp only [Bp.shape] at hr <;> try (injection hr with hr; cases hr)
      · injection hp with hp; injection hp with hp _
        exact hp.symm
      all_goals cases hr
  dsimp only [withBp]
  split
  · rename_i r e
    exact hu r.1 r.2 e
  · exact .inr (.inl rfl)

/-! ## Concrete builds -/

/-- always predicts not taken, caches and scratchpad that do nothing -/
def envN : Env Unit := { Ex.env0 with cfg := { Ex.cfg0 with hwModels := true } }
/-- always predicts taken -/
def envT : Env Unit :=
  { envN with hw := { Ex.hw0 with bpPredict := fun pc imm _ h => (pc + imm, h) } }
/-- a 1-bit history predictor: the state is the last direction seen -/
def envH : Env Bool where
  cfg := { Ex.cfg0 with hwModels := true }
  regions := []
  uartIn := []
  stdin := fun _ => none
  hw :=
    { icRd := fun _ h => h, dcRd := fun _ _ h => h, dcWr := fun _ _ _ h => h
      scp := fun _ _ h => (true, h), bpIdeal := fun _ h => h
      bpPredict := fun pc imm _ h => (if h then pc + imm else pc + 4#32, h)
      bpUpdate := fun pc n _ => n != pc + 4#32, divEval := fun _ _ _ h => h, profiling := fun _ h => h }
/-- no predictor: predicts address 0 and never fetches speculatively (bp_none.h) -/
def env0p : Env Unit :=
  { envN with cfg := { Ex.cfg0 with hwModels := true, noBp := true }
              hw := { Ex.hw0 with bpPredict := fun _ _ _ h => (0#32, h) } }

theorem envN_predicts : Predicts envN := .inr fun _ _ _ _ _ => .inr (.inl rfl)
theorem envT_predicts : Predicts envT := .inr fun _ _ _ _ _ => .inl rfl
theorem envH_predicts : Predicts envH := .inr fun pc imm _ _ h => by
  cases h
  · exact .inr (.inl rfl)
  · exact .inl rfl
/-- a combined predictor of the list in bp_if.h, made by the simulator's constructor, is usable -/
example : ∃ b, Bp.BpIf.make 2 [] false false (Bp.archDefs.getD 17 (.one .none ⟨0, 0, 0, 0, .none⟩)) = .ok b ∧
    Usable b := ⟨_, rfl, .inl ⟨⟨by decide, by decide⟩, by decide, by decide⟩⟩
example : Predicts env0p := .inl rfl
example : SameSetup envH env0p := ⟨rfl, rfl, rfl, rfl⟩

/-- count x10 down from 3: a loop with a backward branch -/
def loopProg : List W := [0x00300513#32, 0xfff50513#32, 0xfe051ee3#32, 0x0000006f#32]

/-- decide `Clean` for a concrete program by running it -/
theorem clean_of_check {s : St σ} {n : Nat}
    (h : (List.range (n + 1)).all (fun m => match runN E m s with
      | .ok (_, t) => !(t.inst.extractLsb' 0 7 == 0x0b#7 && t.inst.extractLsb' 25 7 == 0x7f#7) &&
          !(t.inst.extractLsb' 0 7 == 0x63#7 && (t.inst.extractLsb' 12 3 == 2#3 || t.inst.extractLsb' 12 3 == 3#3))
      | _ => true) = true) : Clean E s n := by
  intro m hm t e
  have := List.all_eq_true.1 h m (List.mem_range.2 (by omega))
  rw [e] at this
  simp only [Bool.and_eq_true, Bool.not_eq_true', Bool.and_eq_false_iff, beq_eq_false_iff_ne,
    Bool.or_eq_false_iff] at this
  refine ⟨fun hb => ?_, fun hb => ?_⟩
  · rcases this.1 with h | h
    · exact h hb.1.1
    · exact h hb.1.2.1
  · rcases this.2 with h | h
    · exact h hb.1
    · exact hb.2.elim h.1 h.2

/-- observe the final state of a run -/
def ob {α : Type} (r : Res (Unit × St σ)) (f : St σ → α) : Option α :=
  match r with
  | .ok (_, s) => some (f s)
  | _ => none
def stH (ws : List W) : St Bool := initSt envH (Ex.image ws) Ex.pp0 false

/-- the hypotheses are met by a run with taken, not taken and mispredicted branches -/
example : Clean envH (stH loopProg) 8 := clean_of_check (by decide +kernel)
/-- the run of the build with the history predictor, of the one without a predictor and of the
plain one: the loop is left after three rounds in all of them -/
example : ob (runN envH 8 (stH loopProg)) (fun s => (s.pc, s.rf 10#5, s.hw)) =
    some (0x8000000c#32, 0#32, false) := by decide +kernel
example : ob (runN env0p 8 (Ex.st0 env0p loopProg)) (fun s => (s.pc, s.rf 10#5)) =
    some (0x8000000c#32, 0#32) := by decide +kernel
example : ob (runN Ex.env0 8 (Ex.st0 Ex.env0 loopProg)) (fun s => (s.pc, s.rf 10#5)) =
    some (0x8000000c#32, 0#32) := by decide +kernel

/-! ## Where the full claim fails -/

/-- set `mtvec` to 0x80000020, then a malformed branch; `x10 := 1` follows it, `x11 := 2` is the
first instruction of the handler -/
def badProg : List W :=
  [0x800002b7#32, 0x02028293#32, 0x30529073#32, 0x00002063#32, 0x00100513#32, 0x00000013#32, 0x00000013#32,
   0x00000013#32, 0x00200593#32, 0x0000006f#32]

/-- **C53 is false of the code, first way.**  A malformed branch traps in both builds, but with
hardware models `d_branch` goes on to fetch the word at pc + 4 into the buffer, so the trap
handler's first instruction is replaced by the instruction after the branch: `x10` is written and
`x11` is not. -/
theorem malformed_branch_steers :
    ob (runN envN 5 (Ex.st0 envN badProg)) (fun s => (s.pc, s.rf 10#5, s.rf 11#5)) =
      some (0x80000024#32, 1#32, 0xc0ffee#32) ∧
    ob (runN Ex.env0 5 (Ex.st0 Ex.env0 badProg)) (fun s => (s.pc, s.rf 10#5, s.rf 11#5)) =
      some (0x80000024#32, 0xc0ffee#32, 2#32) := by
  constructor <;> decide +kernel

/-- only the first word may be executed -/
def envX (E : Env Unit) : Env Unit :=
  { E with regions := [⟨0#32, 4#32, true, false, true⟩, ⟨4#32, 0x1fffc#32, true, true, false⟩] }

/-- **C53 is false of the code, second way.**  A branch that is always taken is the last word of the
code; the predictor proposes the data after it, and the speculative fetch, checked like a real
one, aborts the simulation.  The plain build, and a build predicting taken, go round the loop. -/
theorem speculation_aborts_program :
    (match runN (envX envN) 1 (Ex.st0 (envX envN) [0x00000063#32]) with | .abort => true | _ => false) = true ∧
    ob (runN (envX Ex.env0) 9 (Ex.st0 (envX Ex.env0) [0x00000063#32])) (fun s => (s.pc, s.simStep)) =
      some (0x80000000#32, 9#64) ∧
    ob (runN (envX envT) 9 (Ex.st0 (envX envT) [0x00000063#32])) (fun s => (s.pc, s.simStep)) =
      some (0x80000000#32, 9#64) := by
  refine ⟨?_, ?_, ?_⟩ <;> decide +kernel

/-- a branch to itself when `x10 = 0`; then `x10 := 0` and a jump to address 0, where memory is
seen again -/
def nullProg : List W := [0x00050063#32, 0x00000513#32, 0x00000067#32]

/-- **C53 is false of the code, third way.**  Without a predictor, address 0 counts as the prediction,
and a branch that does go to 0 executes a member that was never written. -/
theorem no_predictor_uninit :
    (match runN env0p 4 (Ex.st0 env0p nullProg) with | .ub .uninit => true | _ => false) = true ∧
    ob (runN Ex.env0 4 (Ex.st0 Ex.env0 nullProg)) (fun s => s.pc) = some 0#32 := by
  constructor <;> decide +kernel

/-- The exception the claim itself makes: `scp.lcl x10` answers 0 (success) from the cache model and
1 without it. -/
theorem scp_answer_differs :
    ob (runN envN 1 (Ex.st0 envN [0xfe00050b#32])) (fun s => s.rf 10#5) = some 0#32 ∧
    ob (runN Ex.env0 1 (Ex.st0 Ex.env0 [0xfe00050b#32])) (fun s => s.rf 10#5) = some 1#32 := by
  constructor <;> decide +kernel

end Ama.HwInd
