import Verif.Lemmas.DasmInstC
import Verif.Lemmas.ProfStep
/-!
# The log of a step
-/
namespace Ama.Dasm
open M Spec
variable {σ : Type} {E : Env σ}

/-! ## The log leaves the rest alone -/

/-- the same computation, except for the value returned -/
def Same {α : Type} (m : M σ α) (n : M σ Unit) : Prop :=
  ∀ s, n s = match m s with
    | .ok (_, s') => .ok ((), s')
    | .ub k => .ub k
    | .abort => .abort

theorem Same.pure {α : Type} (a : α) : Same (pure a : M σ α) (pure ()) := fun _ => rfl
theorem Same.refl (m : M σ Unit) : Same m m := fun s => by
  rcases m s with ⟨_, _⟩ | _ | _ <;> rfl
theorem Same.bind {α β : Type} {m : M σ α} {f : α → M σ β} {g : α → M σ Unit} (h : ∀ a, Same (f a) (g a)) :
    Same (m >>= f) (m >>= g) := fun s => by
  rw [M.bind_app, M.bind_app]
  rcases m s with ⟨a, s1⟩ | _ | _
  · exact h a s1
  · rfl
  · rfl
theorem Same.seq {α β : Type} {m : M σ α} {n : M σ Unit} {f : α → M σ β} {g : Unit → M σ Unit} (hm : Same m n)
    (h : ∀ a, Same (f a) (g ())) : Same (m >>= f) (n >>= g) := fun s => by
  rw [M.bind_app, M.bind_app, hm s]
  rcases m s with ⟨a, s1⟩ | _ | _
  · exact h a s1
  · rfl
  · rfl
theorem Same.skip {α β : Type} {p : St σ → α} {f : α → M σ β} {n : M σ Unit} (h : ∀ a, Same (f a) n) :
    Same (get p >>= f) n := fun s => by
  rw [M.bind_ok (M.get_app _ _)]
  exact h _ s
theorem Same.last {α β : Type} {m : M σ α} {n : M σ Unit} {f : α → M σ β} (hm : Same m n)
    (h : ∀ a, Same (f a) (Pure.pure ())) : Same (m >>= f) n := fun s => by
  rw [M.bind_app, hm s]
  rcases m s with ⟨a, s1⟩ | _ | _
  · exact h a s1
  · rfl
  · rfl
theorem Same.ite {α : Type} {c : Prop} [Decidable c] {m m' : M σ α} {n n' : M σ Unit} (h : Same m n) (h' : Same m' n') :
    Same (if c then m else m') (if c then n else n') := by
  split
  · exact h
  · exact h'

theorem stepExecD_same (L : LogIn) (d : DS) : Same (stepExecD E L d) (stepExec E) :=
  Same.bind fun _ => Same.bind fun _ => Same.bind fun _ => Same.bind fun _ => Same.bind fun _ => Same.bind fun _ =>
    Same.ite (Same.bind fun _ => Same.skip fun _ => Same.last (.refl _) fun _ => Same.skip fun _ => .pure _)
      (by split <;> exact .pure _)

theorem stepD_same (L : LogIn) (d : DS) : Same (stepD E L d) (step E) :=
  Same.bind fun _ => Same.bind fun _ => Same.ite (.pure _) <| Same.seq (stepExecD_same L _) fun _ =>
    Same.bind fun _ => Same.bind fun _ => Same.ite (Same.last (.refl _) fun _ => .pure _) <|
    Same.skip fun _ => Same.skip fun _ => Same.last (.refl _) fun _ => by split <;> exact .pure _

theorem runD_same (L : Nat → LogIn) : ∀ (n : Nat) (d : DS), Same (runD E L n d) (runN E n)
  | 0, _ => .pure _
  | n + 1, _ => Same.bind fun _ => Same.ite (Same.seq (stepD_same _ _) fun x =>
      Same.last (runD_same L n x.2) fun _ => .pure _) (.pure _)

/-! ## Taking a step with its log apart -/

theorem stepExecD_split {L : LogIn} {d d' : DS} {q0 q1 : St σ} (h : stepExecD E L d q0 = .ok (d', q1)) :
    ∃ defer nt qa, checkInterrupts E defer q0 = .ok (nt, qa) ∧
      (((wakeSt nt qa).trapped = false ∧ ((wakeSt nt qa).wfiActive = false ∨ nt = true) ∧
        ∃ qc, fetch E (wakeSt nt qa) = .ok ((), qc) ∧ exec E qc = .ok ((), q1) ∧
          d' = run (tExec E.cfg ⟨L.abi, q1.inst, qc.pc, qc.rf, q1.rf, q1.csr, q1.trapped, L.msg⟩) d) ∨
      (q1 = wakeSt nt qa ∧ q1.trapped = true ∧ d' = trap L.msg d) ∨
      (q1 = wakeSt nt qa ∧ q1.trapped = false ∧ q1.wfiActive = true ∧ nt = false ∧ d' = d)) := by
  obtain ⟨act, s4, e4, e3⟩ := bind_eq_ok.1 h
  rw [M.get_app] at e4
  have e4 : q0.wfiActive = act ∧ q0 = s4 := by
    injection e4 with e4; injection e4 with e5 e6; exact ⟨e5, e6⟩
  obtain ⟨rfl, rfl⟩ := e4
  obtain ⟨wf, s5, e5, r3⟩ := bind_eq_ok.1 e3
  have p5 : s5 = q0 := by
    split at e5
    · injection e5 with e5; injection e5 with e5 e6
      exact e6.symm
    · obtain ⟨a1, b1, f1, e5⟩ := bind_eq_ok.1 e5
      rw [M.get_app] at f1
      injection f1 with f1; injection f1 with f1 f2
      obtain ⟨a2, b2, f3, e5⟩ := bind_eq_ok.1 e5
      injection e5 with e5; injection e5 with e5 e6
      rw [← e6, f2]
      obtain ⟨a3, b3, f4, f3⟩ := bind_eq_ok.1 f3
      rw [M.get_app] at f4
      injection f4 with f4; injection f4 with f4 f5
      rw [f5]
      cases hr : a3.rd32 (toNorm a1) with
      | ok v => rw [hr] at f3; injection f3 with f3; injection f3 with _ f3; exact f3.symm
      | ub k => rw [hr] at f3; cases f3
      | abort => rw [hr] at f3; cases f3
  subst p5
  obtain ⟨nt, qa, e6, r4⟩ := bind_eq_ok.1 r3
  refine ⟨wf, nt, qa, e6, ?_⟩
  obtain ⟨u7, s7, e7, r5⟩ := bind_eq_ok.1 r4
  rw [M.mod_app] at e7
  have e7 : wakeSt nt qa = s7 := by injection e7 with e7; injection e7
  rw [e7]
  rw [M.bind_ok (M.get_app _ _), M.bind_ok (M.get_app _ _)] at r5
  split at r5
  · rename_i hc
    rw [Bool.and_eq_true, Bool.or_eq_true] at hc
    obtain ⟨_, qc, f1, f2⟩ := bind_eq_ok.1 r5
    rw [M.bind_ok (M.get_app _ _)] at f2
    obtain ⟨_, qd, f3, f4⟩ := bind_eq_ok.1 f2
    rw [M.bind_ok (M.get_app _ _)] at f4
    injection f4 with f4; injection f4 with f4 f5
    subst f5
    exact .inl ⟨by simpa using hc.1, by simpa using hc.2, qc, f1, f3, f4.symm⟩
  · rename_i hc
    right
    split at r5
    · rename_i ht
      injection r5 with r5; injection r5 with r5 r6
      exact .inl ⟨r6.symm, r6 ▸ ht, r5.symm⟩
    · rename_i ht
      injection r5 with r5; injection r5 with r5 r6
      refine .inr ⟨r6.symm, ?_⟩
      rw [← r6]
      cases h1 : s7.trapped <;> cases h2 : s7.wfiActive <;> cases nt <;> simp [h1, h2] at hc ht ⊢
      exact r5.symm

/-- what a step leaves of the log: nothing, or a record -/
theorem stepD_split {L : LogIn} {d d' : DS} {o : Option (List Char)} {s s' : St σ}
    (h : stepD E L d s = .ok ((o, d'), s')) :
    (profWindow E { s with trapped := false } = .ok (true, s') ∧ o = none ∧ d' = clear d) ∨
    ∃ q0 q1 d1, profWindow E { s with trapped := false } = .ok (false, q0) ∧
      stepExecD E L (clear d) q0 = .ok (d1, q1) ∧ s' = finishSt E q1 ∧
      (((q1.simStep + 1#64 = E.cfg.runSteps ∨ (q1.wfiActive = true ∧ q1.trapped = false)) ∧ o = none ∧ d' = d1) ∨
       (q1.simStep + 1#64 ≠ E.cfg.runSteps ∧ ¬ (q1.wfiActive = true ∧ q1.trapped = false) ∧
        o = some d'.text ∧ d' = run [align, str L.simd] d1)) := by
  obtain ⟨u, s1, e1, h⟩ := bind_eq_ok.1 h
  rw [M.mod_app] at e1
  have e1 : ({ s with trapped := false } : St σ) = s1 := by injection e1 with e1; injection e1
  rw [e1]
  obtain ⟨ex, q0, e2, h⟩ := bind_eq_ok.1 h
  cases ex with
  | true =>
    injection h with h; injection h with h h2; injection h with h h3
    exact .inl ⟨h2 ▸ e2, h.symm, h3.symm⟩
  | false =>
    obtain ⟨d1, q1, e3, h⟩ := bind_eq_ok.1 (show (stepExecD E L (clear d) >>= _) q0 = _ from h)
    refine .inr ⟨q0, q1, d1, e2, e3, ?_⟩
    rw [M.bind_ok (M.mod_app _ _), M.bind_ok (M.get_app _ _)] at h
    unfold finishSt
    generalize hq : ({ q1 with simStep := q1.simStep + 1#64 } : St σ) = q2 at h ⊢
    have g1 : q1.simStep + 1#64 = q2.simStep := by rw [← hq]
    have g2 : q1.wfiActive = q2.wfiActive := by rw [← hq]
    have g3 : q1.trapped = q2.trapped := by rw [← hq]
    rw [g1, g2, g3]
    split at h
    · rename_i hl
      rw [M.bind_ok (M.mod_app _ _)] at h
      injection h with h; injection h with h h2; injection h with h h3
      unfold finishSt1
      rw [if_pos hl]
      exact ⟨h2.symm, .inl ⟨.inl hl, h.symm, h3.symm⟩⟩
    · rename_i hl
      rw [M.bind_ok (M.get_app _ _), M.bind_ok (M.get_app _ _)] at h
      obtain ⟨_, q3, f1, f2⟩ := bind_eq_ok.1 h
      have := stepFinish_app f1
      unfold finishSt1
      rw [if_neg hl, this]
      split at f2
      · rename_i hc
        injection f2 with h; injection h with h h2; injection h with h h3
        refine ⟨h2.symm, .inl ⟨.inr ?_, h.symm, h3.symm⟩⟩
        simpa using hc
      · rename_i hc
        injection f2 with h; injection h with h h2; injection h with h h3
        refine ⟨h2.symm, .inr ⟨hl, by simpa using hc, ?_, h3.symm⟩⟩
        rw [← h3]; exact h.symm

theorem finishSt_frame (q : St σ) : (finishSt E q).trapped = q.trapped ∧ (finishSt E q).inst = q.inst ∧
    (finishSt E q).rf = q.rf ∧ (finishSt E q).csr = q.csr ∧ (finishSt E q).ram = q.ram := by
  unfold finishSt finishSt1
  split
  · exact ⟨rfl, rfl, rfl, rfl, rfl⟩
  · split
    · exact ⟨rfl, rfl, rfl, rfl, rfl⟩
    · split <;> exact ⟨rfl, rfl, rfl, rfl, rfl⟩

/-- the record of a step that did not trap is that of the instruction executed -/
theorem stepD_exec {L : LogIn} {d d' : DS} {t : List Char} {s s' : St σ} (h : stepD E L d s = .ok ((some t, d'), s'))
    (ht : s'.trapped = false) :
    ∃ qc q1, exec E qc = .ok ((), q1) ∧ qc.pc = s.pc ∧ qc.rf = s.rf ∧ q1.trapped = false ∧
      q1.inst = s'.inst ∧ q1.rf = s'.rf ∧ q1.csr = s'.csr ∧ q1.ram = s'.ram ∧ s' = finishSt E q1 ∧
      t = record (tExec E.cfg ⟨L.abi, s'.inst, s.pc, s.rf, s'.rf, s'.csr, false, L.msg⟩) L.simd (clear d) := by
  have h0 : PreStep s.profLog s.rf s.pc s.simInst { s with trapped := false } := ⟨rfl, rfl, fun _ => rfl, rfl⟩
  rcases stepD_split h with ⟨_, hx, _⟩ | ⟨q0, q1, d1, e1, e2, e3, e4⟩
  · cases hx
  · have h1 := pre_window _ _ _ h0 e1
    obtain ⟨g1, g2, g3, g4, g5⟩ := finishSt_frame (E := E) q1
    rw [← e3] at g1 g2 g3 g4 g5
    rcases e4 with ⟨_, hx, _⟩ | ⟨_, hn, ho, hd⟩
    · cases hx
    · obtain ⟨defer, nt, qa, c1, hx⟩ := stepExecD_split e2
      have h2 : PreStep s.profLog s.rf s.pc s.simInst (wakeSt nt qa) :=
        have := pre_check _ _ _ _ h1 c1
        this
      have ht1 : q1.trapped = false := g1 ▸ ht
      rcases hx with ⟨_, _, qc, f1, f2, f3⟩ | ⟨_, hx, _⟩ | ⟨_, hx, hy, _⟩
      · have h3 := prof_fetch _ _ _ h2 f1
        have hpc : qc.pc = s.pc := by
          refine h3.2.2.1 ?_
          by_contra hc
          have hk : PrimsE E (fun s : St σ => s.trapped = true) := {
            trap := fun _ _ => pres_trap fun _ _ => rfl
            ramWr := ramWr_of (fun _ _ h => h) (fun _ _ h => h)
            uartWr := uartWr_of (fun _ _ h => h)
            uartRd := uartRd_of (fun _ _ h => h) (fun _ _ h => h)
            wrCsr := fun _ _ _ _ => wrCsr_of (fun _ _ => pres_trap fun _ _ => rfl) (fun _ _ _ h => h) _ _
            uartIn := uartIn_of (fun _ _ h => h) (fun _ _ h => h)
            mtime := mtime_of (fun _ _ h => h) (fun _ _ h => h) _ }
          have := hk.exec _ _ _ (by simpa using hc) f2
          rw [ht1] at this; cases this
        refine ⟨qc, q1, f2, hpc, h3.2.1, ht1, g2.symm, g3.symm, g4.symm, g5.symm, e3, ?_⟩
        injection ho with ho
        rw [ho, hd, f3, hpc, h3.2.1, ht1, ← g2, ← g3, ← g4]
        rfl
      · rw [ht1] at hx; cases hx
      · exact absurd ⟨hy, hx⟩ hn

/-! ## What executed without trapping -/

theorem trap_trapped {m : M σ Unit} (h : m = eIllegal) {q q' : St σ} (e : m q = .ok ((), q')) : q'.trapped = true := by
  subst h
  unfold eIllegal at e
  rw [M.bind_ok (M.get_app _ _), trapInst_app] at e
  injection e with e; injection e with _ e
  rw [← e]; rfl

theorem inst_primsX (w : W) : PrimsX E (fun s : St σ => s.inst = w) where
  ramWr := ramWr_of (fun _ _ h => h) (fun _ _ h => h)
  uartWr := uartWr_of (fun _ _ h => h)
  uartRd := uartRd_of (fun _ _ h => h) (fun _ _ h => h)
theorem inst_dSystem (w v : W) : Pres (fun s : St σ => s.inst = w) (dSystem E v) :=
  (inst_primsX w).dSystem_of v (Pres.mod fun _ h => h) fun _ => (inst_primsX w).dCsr_of v
    (Pres.bind (Pres.mod fun _ h => h) fun _ => Pres.bind (Pres.bind (Pres.get _) fun _ => Pres.lift _) fun _ =>
      Pres.mod fun _ h => h)
    (fun _ _ _ => wrCsr_of (fun _ _ => Pres.bind (Pres.mod fun _ h => h) fun _ => Pres.mod fun _ h => h) (fun _ _ _ h => h) _ _)
    (fun _ _ _ h => h)

theorem copcode_toRvc (w : W) : IP.copcode (IP.toRvc w) = IP.copcode w := by
  unfold IP.copcode IP.toRvc
  rw [BitVec.and_assoc]
  rfl

/-- the word in the instruction register after executing -/
theorem exec_word {q q' : St σ} (h : exec E q = .ok ((), q')) (ht : q'.trapped = false) :
    (IP.copcode q'.inst = 3#2 ∧ exec32 E q'.inst q = .ok ((), q')) ∨ (IP.copcode q'.inst ≠ 3#2 ∧ E.cfg.rv32c = true) := by
  rcases exec_split h with ⟨h1, h2⟩ | ⟨h1, h2, h3⟩ | ⟨h1, h2, h3⟩
  · have : q'.inst = q.inst := (inst_primsX q.inst).exec32_of q.inst (fun _ => inst_dSystem _ _) _ _ _ rfl h2
    rw [this]
    exact .inl ⟨h1, h2⟩
  · have : q'.inst = IP.toRvc q.inst := (inst_primsX (IP.toRvc q.inst)).exec16_of _ (fun _ =>
      Pres.bind (Pres.mod fun _ h => h) fun _ => (inst_primsX _).emit _) _ _ _ rfl h3
    rw [this, copcode_toRvc]
    exact .inr ⟨h1, h2⟩
  · rw [trap_trapped rfl h3] at ht; cases ht

theorem csr_known {w : W} (hs : IP.opcode w = 0x73#7) (h0 : IP.funct3 w ≠ 0#3) {q q' : St σ}
    (h : exec32 E w q = .ok ((), q')) (ht : q'.trapped = false) : csrInfo E.cfg.rv32c (IP.csrAddr w) ≠ none := by
  intro hn
  rw [exec32_system hs] at h
  unfold dSystem at h
  rw [if_pos h0, dCsr_none hn] at h
  obtain ⟨_, q1, h1, h2⟩ := bind_eq_ok.1 h
  have := trap_trapped rfl h1
  unfold nextSeq at h2
  rw [M.mod_app] at h2
  injection h2 with h2; injection h2 with _ h2
  rw [← h2] at ht
  rw [this] at ht; cases ht

theorem simd_known {w : W} (hs : IP.opcode w = 0x0b#7) {q q' : St σ} (h : exec32 E w q = .ok ((), q'))
    (ht : q'.trapped = false) : E.cfg.simd = true ∧ ∃ op, Simd.sel (IP.funct7 w) (IP.funct3 w) = some op := by
  have he : exec32 E w = if E.cfg.simd then dCustom E w else eIllegal := by
    unfold exec32
    rw [hs]; rfl
  rw [he] at h
  split at h
  · rename_i hc
    refine ⟨hc, ?_⟩
    unfold dCustom at h
    cases hop : Simd.sel (IP.funct7 w) (IP.funct3 w) with
    | some op => exact ⟨op, rfl⟩
    | none =>
      rw [hop] at h
      obtain ⟨_, q1, h1, h2⟩ := bind_eq_ok.1 h
      have h1 := trap_trapped rfl h1
      split at h2
      · injection h2 with h2; injection h2 with _ h2
        rw [← h2, h1] at ht; cases ht
      · unfold nextSeq at h2
        rw [M.mod_app] at h2
        injection h2 with h2; injection h2 with _ h2
        rw [← h2] at ht
        rw [h1] at ht; cases ht
  · rw [trap_trapped rfl h] at ht; cases ht

end Ama.Dasm
