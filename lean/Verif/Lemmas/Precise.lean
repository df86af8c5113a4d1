import Verif.Lemmas.StepCases
import Verif.Lemmas.CsrExec
import Verif.Lemmas.DasmStep
import Verif.Lemmas.HwStep
import Verif.Lemmas.CsrTable
import Verif.Lemmas.PrimsOf
import Verif.Spec.Isa
/-!
# A trap raised by an instruction changes nothing else

Walk of every function that executes an instruction: as long as nothing trapped, the registers, memory, devices and CSRs
may change; if something trapped, the state is that of the start with the trap entered.
-/
namespace Ama.Precise
open M
variable {σ α β : Type} {E : Env σ} {s0 s s' : St σ}

/-- nothing architectural has happened since `s0` -/
structure Calm (s0 s : St σ) : Prop where
  trapped : s.trapped = false
  rf : s.rf = s0.rf
  ram : s.ram = s0.ram
  uart : s.uart = s0.uart
  clint : s.clint = s0.clint
  csr : s.csr = s0.csr
  pc : s.pc = s0.pc
  trapLog : s.trapLog = s0.trapLog
/-- codes of the exceptions an instruction can raise -/
def codes : List W := [0#32, 2#32, 3#32, 4#32, 5#32, 6#32, 7#32, 11#32]
/-- one trap has been entered, with one of these codes, and nothing else happened since `s0` -/
def Entered (cs : List W) (s0 s : St σ) : Prop :=
  s.trapped = true ∧ ∃ c ∈ cs, ∃ t, s.rf = s0.rf ∧ s.ram = s0.ram ∧ s.uart = s0.uart ∧ s.clint = s0.clint ∧
    s.csr = trapCsr s0.csr s0.pc c t ∧ s.pc = s0.csr A.mtvec ∧ s.trapLog = (c, t, s0.pc) :: s0.trapLog
/-- not trapped, or one trap and nothing else -/
def Post (s0 s : St σ) : Prop := s.trapped = false ∨ Entered codes s0 s
/-- never traps -/
def NT (m : M σ α) : Prop := Pres (fun s : St σ => s.trapped = false) m

theorem trap_in {cs : List W} {c t : W} (hc : c ∈ cs) (h : Calm s0 s) (e : trapInst c t s = .ok ((), s')) :
    Entered cs s0 s' := by
  rw [trapInst_app] at e
  have e : trapTo c t s = s' := by injection e with e; injection e
  rw [← e]
  refine ⟨rfl, c, hc, t, h.rf, h.ram, h.uart, h.clint, ?_, ?_, ?_⟩
  · show trapCsr s.csr s.pc c t = _
    rw [h.csr, h.pc]
  · show s.csr A.mtvec = _
    rw [h.csr]
  · show (c, t, s.pc) :: s.trapLog = _
    rw [h.pc, h.trapLog]
theorem illegal_in (h : Calm s0 s) {u : Unit} (e : eIllegal s = .ok (u, s')) : Entered codes s0 s' := by
  unfold eIllegal at e
  rw [M.bind_ok (M.get_app _ _)] at e
  exact trap_in (by decide) h e
theorem env_in {c : W} (hc : c ∈ codes) (h : Calm s0 s) {u : Unit} (e : eEnv c s = .ok (u, s')) : Entered codes s0 s' := by
  unfold eEnv at e
  rw [M.bind_ok (M.get_app _ _)] at e
  exact trap_in hc h e

/-! ## Frames -/

theorem Entered.nextPc (h : Entered codes s0 s) (v : W) : Entered codes s0 { s with nextPc := v } := h
theorem Entered.log (h : Entered codes s0 s) (v : List ProfRec) : Entered codes s0 { s with profLog := v } := h
/-- `m` changes at most bookkeeping: the next pc, the profiler and the hardware models -/
def Quiet (m : M σ α) : Prop := ∀ s a s', m s = .ok (a, s') → s'.trapped = s.trapped ∧ s'.rf = s.rf ∧ s'.ram = s.ram ∧
  s'.uart = s.uart ∧ s'.clint = s.clint ∧ s'.csr = s.csr ∧ s'.pc = s.pc ∧ s'.trapLog = s.trapLog
theorem Quiet.mod {f : St σ → St σ} (h : ∀ s, (f s).trapped = s.trapped ∧ (f s).rf = s.rf ∧ (f s).ram = s.ram ∧
    (f s).uart = s.uart ∧ (f s).clint = s.clint ∧ (f s).csr = s.csr ∧ (f s).pc = s.pc ∧ (f s).trapLog = s.trapLog) :
    Quiet (M.mod f) := by
  intro s a s' e
  rw [M.mod_app] at e
  have e : f s = s' := by injection e with e; injection e
  exact e ▸ h s
theorem Quiet.pure (a : α) : Quiet (pure a : M σ α) := by
  intro s b s' e
  simp at e
  rw [← e.2]; simp
theorem Quiet.get (f : St σ → α) : Quiet (M.get f) := by
  intro s b s' e
  simp at e
  rw [← e.2]; simp
theorem Quiet.lift (r : Res α) : Quiet (M.lift r : M σ α) := by
  intro s b s' e
  cases r <;> simp at e
  rw [← e.2]; simp
theorem Quiet.bind {m : M σ α} {f : α → M σ β} (h1 : Quiet m) (h2 : ∀ a, Quiet (f a)) : Quiet (m >>= f) := by
  intro s b s' e
  obtain ⟨a, s1, e1, e2⟩ := bind_eq_ok.1 e
  obtain ⟨x1, x2, x3, x4, x5, x6, x7, x8⟩ := h1 _ _ _ e1
  obtain ⟨y1, y2, y3, y4, y5, y6, y7, y8⟩ := h2 _ _ _ _ e2
  exact ⟨y1.trans x1, y2.trans x2, y3.trans x3, y4.trans x4, y5.trans x5, y6.trans x6, y7.trans x7, y8.trans x8⟩
theorem Quiet.ite {c : Prop} [Decidable c] {x y : M σ α} (hx : Quiet x) (hy : Quiet y) : Quiet (if c then x else y) := by
  split <;> assumption
theorem Quiet.abort : Quiet (fun _ => (.abort : Res (α × St σ)) : M σ α) := by
  intro s a s' e; cases e
theorem Quiet.ub (k : UB) : Quiet (fun _ => (.ub k : Res (α × St σ)) : M σ α) := by
  intro s a s' e; cases e
theorem Quiet.calm {m : M σ α} (h : Quiet m) {a : α} (hc : Calm s0 s) (e : m s = .ok (a, s')) : Calm s0 s' := by
  obtain ⟨x1, x2, x3, x4, x5, x6, x7, x8⟩ := h _ _ _ e
  exact ⟨x1.trans hc.1, x2.trans hc.2, x3.trans hc.3, x4.trans hc.4, x5.trans hc.5, x6.trans hc.6, x7.trans hc.7, x8.trans hc.8⟩
theorem Quiet.entered {m : M σ α} (h : Quiet m) {cs : List W} {a : α} (hc : Entered cs s0 s) (e : m s = .ok (a, s')) :
    Entered cs s0 s' := by
  obtain ⟨x1, x2, x3, x4, x5, x6, x7, x8⟩ := h _ _ _ e
  obtain ⟨c0, c, hm, t, c1, c2, c3, c4, c5, c6, c7⟩ := hc
  exact ⟨x1.trans c0, c, hm, t, x2.trans c1, x3.trans c2, x4.trans c3, x5.trans c4, x6.trans c5, x7.trans c6, x8.trans c7⟩
theorem Quiet.post {m : M σ α} (h : Quiet m) {a : α} (hc : Post s0 s) (e : m s = .ok (a, s')) : Post s0 s' := by
  rcases hc with hc | hc
  · exact .inl ((h _ _ _ e).1.trans hc)
  · exact .inr (h.entered hc e)
theorem Quiet.nt {m : M σ α} (h : Quiet m) : NT m := fun s a s' hs e => (h s a s' e).1.trans hs

theorem q_emit (ev : ProfEv) : Quiet (emit E ev) := Quiet.ite (.mod fun _ => by simp) (.pure _)
theorem q_next (v : W) : Quiet (setNext v : M σ Unit) := .mod fun _ => by simp
theorem q_seq (v : W) : Quiet (nextSeq v : M σ Unit) := .mod fun _ => by simp
theorem q_hwUpd (f : σ → σ) : Quiet (hwUpd E f) := Quiet.ite (.mod fun _ => by simp) (.pure _)
theorem q_rg (r : BitVec 5) : Quiet (rg r : M σ W) := .get _
theorem q_guard (b : Bool) : Quiet (guardAccess b : M σ Unit) := Quiet.ite (.pure _) .abort
theorem q_just (a : W) : Quiet (justInst a : M σ W) := .bind (.get _) fun _ => .lift _
theorem q_prof (b : Bool) : Quiet (profState E b) :=
  .bind (by unfold M.whenM; exact Quiet.ite (.mod fun _ => by simp) (.pure _)) fun _ => q_hwUpd _
theorem q_mmRdInst (a : W) : Quiet (mmRdInst E a) :=
  .bind (q_guard _) fun _ => .bind (.get _) fun _ => .bind (.lift _) fun _ => .bind (q_hwUpd _) fun _ => .pure _
theorem q_hint (a : W) (m : Simd.ScpMode) : Quiet (cacheHint E a m) :=
  Quiet.ite (.bind (.get _) fun _ => .bind (.mod fun _ => by simp) fun _ => .pure _) (.pure _)
theorem toNorm_even {a : W} (h : a.toNat % 2 = 0) : (toNorm a).toNat % 2 = 0 := by
  unfold toNorm
  rw [BitVec.toNat_and, show (0x1ffff#32).toNat = 2 ^ 17 - 1 from rfl, Nat.and_two_pow_sub_one_eq_mod]
  omega
theorem q_rdInst {a : W} (h : a.toNat % 2 = 0) : Quiet (rdInst E a) := by
  unfold rdInst
  rw [if_neg (by simpa using toNorm_even h)]
  exact q_mmRdInst _
theorem nt_bind {m : M σ α} {f : α → M σ β} (h1 : NT m) (h2 : ∀ a, NT (f a)) : NT (m >>= f) := Pres.bind h1 h2
theorem nt_ite {c : Prop} [Decidable c] {x y : M σ α} (hx : NT x) (hy : NT y) : NT (if c then x else y) := Pres.ite hx hy
theorem nt_mod {f : St σ → St σ} (h : ∀ s, (f s).trapped = s.trapped) : NT (M.mod f) := Pres.mod fun s hs => (h s).trans hs
theorem nt_rf (r : BitVec 5) (v : W) : NT (writeRf r v : M σ Unit) := Pres.ite (Pres.pure _) (Pres.mod fun _ h => h)
theorem nt_pair (r : BitVec 5) (p : W × W) : NT (writeRfPair r p : M σ Unit) := by
  by_cases h : r = 31#5
  · intro s a s' hs e
    subst h
    unfold writeRfPair at e
    obtain ⟨_, s1, _, e⟩ := bind_eq_ok.1 e
    rw [if_neg (by decide)] at e
    obtain ⟨_, s2, _, e⟩ := bind_eq_ok.1 e
    simp at e
  · unfold writeRfPair
    simp only [h, if_false]
    exact nt_bind (Quiet.pure _).nt fun _ => nt_ite (Quiet.pure _).nt (nt_bind (Pres.mod fun _ h => h) fun _ =>
      Pres.mod fun _ h => h)
/-- every successful run of `m` from where nothing happened is an instruction's -/
def Walk (s0 : St σ) (m : M σ α) : Prop := ∀ s a s', Calm s0 s → m s = .ok (a, s') → Post s0 s'
theorem NT.post {m : M σ α} (h : NT m) {a : α} (hc : s.trapped = false) (e : m s = .ok (a, s')) : Post s0 s' :=
  .inl (h _ _ _ hc e)

theorem NT.walk {m : M σ α} (h : NT m) : Walk s0 m := fun _ _ _ hc e => h.post hc.trapped e

/-! ## Functions -/

theorem p_illegal {u : Unit} (h : Calm s0 s) (e : eIllegal s = .ok (u, s')) : Post s0 s' := .inr (illegal_in h e)
theorem p_aluReg (w : W) {u : Unit} (h : Calm s0 s) (e : dAluReg E w s = .ok (u, s')) : Post s0 s' := by
  unfold dAluReg at e
  cases hm : aluRegSel (IP.funct7 w) (IP.funct3 w) with
  | none => rw [hm] at e; exact p_illegal h e
  | some op =>
    rw [hm] at e
    refine NT.post (nt_bind (q_rg _).nt fun _ => nt_bind (q_rg _).nt fun _ => nt_bind ?_ fun _ =>
      nt_bind (Quiet.lift _).nt fun _ => nt_bind (nt_rf _ _) fun _ => nt_bind (q_emit _).nt fun _ => (q_seq _).nt) h.trapped e
    split
    · exact (q_hwUpd _).nt
    · exact (Quiet.pure _).nt
theorem nt_aluImm (op : AluImmOp) (w a b : W) : NT (aluImm E op w a b) := by
  unfold aluImm
  split
  · unfold aluSlti
    exact nt_ite (nt_bind (Quiet.get _).nt fun _ => nt_bind (Pres.mod fun _ h => h) fun _ =>
        nt_bind (q_prof _).nt fun _ => (Quiet.pure _).nt)
      (nt_ite (nt_bind (q_prof _).nt fun _ => nt_bind (Pres.mod fun _ h => h) fun _ => (Quiet.pure _).nt) (Quiet.pure _).nt)
  · exact nt_bind (nt_ite (nt_bind (Quiet.get _).nt fun _ => nt_bind (q_just _).nt fun _ => (Quiet.pure _).nt)
      (Quiet.pure _).nt) fun _ => (Quiet.lift _).nt
  · exact (Quiet.lift _).nt
theorem p_aluImm (w : W) {u : Unit} (h : Calm s0 s) (e : dAluImm E w s = .ok (u, s')) : Post s0 s' := by
  unfold dAluImm at e
  cases hm : aluImmSel (IP.funct7b5 w) (IP.funct3 w) with
  | none => rw [hm] at e; exact p_illegal h e
  | some op =>
    rw [hm] at e
    exact NT.post (nt_bind (q_rg _).nt fun _ => nt_bind (nt_aluImm _ _ _ _) fun _ => nt_bind (nt_rf _ _) fun _ =>
      nt_bind (q_emit _).nt fun _ => (q_seq _).nt) h.trapped e

theorem p_setAddr {a : W} {o : MemOp} {n : Nat} {r : Option (DevId × W)} (h : Calm s0 s)
    (e : setAddr E a o n s = .ok (r, s')) : (r ≠ none ∧ s' = s) ∨ (r = none ∧ Entered codes s0 s') := by
  unfold setAddr at e
  cases hm : mapFind a (memMap E.cfg.uart) with
  | none =>
    rw [hm] at e
    obtain ⟨_, s1, e1, e⟩ := bind_eq_ok.1 e
    simp at e
    obtain ⟨rfl, rfl⟩ := e
    refine .inr ⟨rfl, trap_in ?_ h e1⟩
    cases o <;> decide
  | some x =>
    obtain ⟨base, d⟩ := x
    rw [hm] at e
    simp only at e
    split at e
    · obtain ⟨_, s1, e1, e⟩ := bind_eq_ok.1 e
      simp at e
      obtain ⟨rfl, rfl⟩ := e
      refine .inr ⟨rfl, trap_in ?_ h e1⟩
      cases o <;> decide
    · simp at e
      exact .inl ⟨by rw [← e.1]; nofun, e.2.symm⟩
theorem nt_devRd (d : DevId) (a : W) (n : Nat) : NT (devRd E d a n) := by
  cases d
  · exact nt_bind (q_guard _).nt fun _ => nt_bind (Quiet.get _).nt fun _ => nt_bind (Quiet.lift _).nt fun _ =>
      nt_bind (q_hwUpd _).nt fun _ => (Quiet.pure _).nt
  · exact uartRd_of (P := fun s : St σ => s.trapped = false) (fun _ _ h => h) (fun _ _ h => h) a n
  · exact nt_bind (Quiet.get _).nt fun _ => (Quiet.lift _).nt
theorem nt_devWr (d : DevId) (a v : W) (n : Nat) (ha : a.toNat % n = 0) : NT (devWr E d a v n) := by
  cases d
  · exact ramWr_of (P := fun s : St σ => s.trapped = false) (fun _ _ h => h) (fun _ _ h => h) a v n ha
  · exact uartWr_of (P := fun s : St σ => s.trapped = false) (fun _ _ h => h) a v n
  · exact nt_bind (Quiet.get _).nt fun _ => nt_bind (Quiet.lift _).nt fun _ => Pres.mod fun _ h => h
theorem p_memRd {a v : W} {n : Nat} (h : Calm s0 s) (e : memRd E a n s = .ok (v, s')) : Post s0 s' := by
  obtain ⟨r, s1, e1, e⟩ := bind_eq_ok.1 e
  rw [M.bind_ok (M.get_app _ _)] at e
  rcases p_setAddr h e1 with ⟨hr, rfl⟩ | ⟨rfl, hd⟩
  · cases r with
    | none => exact absurd rfl hr
    | some x =>
      rw [h.trapped] at e
      exact NT.post (nt_devRd _ _ _) h.trapped e
  · rw [hd.1] at e
    simp at e
    exact .inr (e.2 ▸ hd)
theorem p_memWr {a v : W} {n : Nat} {u : Unit} (h : Calm s0 s) (e : memWr E a v n s = .ok (u, s')) : Post s0 s' := by
  obtain ⟨r, s1, e1, e⟩ := bind_eq_ok.1 e
  rw [M.bind_ok (M.get_app _ _)] at e
  have e1' := e1
  rcases p_setAddr h e1 with ⟨hr, rfl⟩ | ⟨rfl, hd⟩
  · cases r with
    | none => exact absurd rfl hr
    | some x =>
      rw [h.trapped] at e
      exact NT.post (nt_devWr _ _ _ _ (PrimsM.setAddr_al e1')) h.trapped e
  · rw [hd.1] at e
    simp at e
    exact .inr (e ▸ hd)
/-- after an access: return if it trapped, otherwise something that does not trap -/
theorem p_after {m : M σ Unit} (hm : NT m) {u : Unit} (h : Post s0 s)
    (e : (do let t ← get (·.trapped); if t then pure () else m : M σ Unit) s = .ok (u, s')) : Post s0 s' := by
  rw [M.bind_ok (M.get_app _ _)] at e
  rcases h with h | h
  · rw [h, if_neg (by simp)] at e
    exact hm.post h e
  · rw [h.1, if_pos rfl] at e
    simp at e
    exact .inr (e ▸ h)
theorem p_loadVal {op : LoadOp} {a v : W} (h : Calm s0 s) (e : loadVal E op a s = .ok (v, s')) : Post s0 s' := by
  cases op
  case lb | lh =>
    obtain ⟨_, s1, e1, e⟩ := bind_eq_ok.1 e
    exact (Quiet.pure _).post (p_memRd h e1) e
  all_goals exact p_memRd h e
theorem p_load (w : W) {u : Unit} (h : Calm s0 s) (e : dLoad E w s = .ok (u, s')) : Post s0 s' := by
  unfold dLoad at e
  cases hm : loadSel (IP.funct3 w) with
  | none => rw [hm] at e; exact p_illegal h e
  | some op =>
    rw [hm] at e
    obtain ⟨b, s1, e1, e⟩ := bind_eq_ok.1 e
    have h1 := (q_rg _).calm h e1
    obtain ⟨v, s2, e2, e⟩ := bind_eq_ok.1 e
    exact p_after (nt_bind (nt_rf _ _) fun _ => nt_bind (q_emit _).nt fun _ => (q_seq _).nt) (p_loadVal h1 e2) e
theorem p_store (w : W) {u : Unit} (h : Calm s0 s) (e : dStore E w s = .ok (u, s')) : Post s0 s' := by
  unfold dStore at e
  cases hm : storeSel (IP.funct3 w) with
  | none =>
    rw [hm] at e
    obtain ⟨_, s1, e1, e⟩ := bind_eq_ok.1 e
    exact (q_seq _).post (p_illegal h e1) e
  | some op =>
    rw [hm] at e
    obtain ⟨b, s1, e1, e⟩ := bind_eq_ok.1 e
    obtain ⟨b, s2, e2, e⟩ := bind_eq_ok.1 e
    have h1 := (q_rg _).calm ((q_rg _).calm h e1) e2
    obtain ⟨v, s3, e3, e⟩ := bind_eq_ok.1 e
    exact p_after (nt_bind (q_emit _).nt fun _ => (q_seq _).nt) (p_memWr h1 e3) e

theorem q_spec (v : Option W) : Quiet (M.mod fun s : St σ => { s with instSpec := v }) := .mod fun _ => by simp
theorem q_resolved (v : W) : Quiet (M.mod fun s : St σ => { s with instResolved := v }) := .mod fun _ => by simp
theorem p_branchHw (w : W) {u : Unit} (h : Calm s0 s) (hn : s.nextPc.toNat % 2 = 0) (e : branchHw E w s = .ok (u, s')) :
    Post s0 s' := by
  unfold branchHw at e
  rw [M.bind_ok (M.mod_app _ _), M.bind_ok (M.get_app _ _), M.bind_ok (M.get_app _ _)] at e
  simp only at e
  generalize E.hw.bpPredict s.pc (IP.immB w) (IP.funct3 w) (E.hw.bpIdeal s.nextPc s.hw) = r at e
  rw [M.bind_ok (M.mod_app _ _)] at e
  obtain ⟨_, s1, e1, e⟩ := bind_eq_ok.1 e
  rw [M.bind_ok (M.mod_app _ _), M.bind_ok (M.get_app _ _)] at e
  have h1 : Post s0 s1 ∧ s1.nextPc = s.nextPc := by
    have hc : Calm s0 { s with lastInstBranch := true, hw := r.2 } := ⟨h.1, h.2, h.3, h.4, h.5, h.6, h.7, h.8⟩
    split at e1
    · simp at e1
      exact ⟨.inl (by rw [← e1]; exact hc.trapped), by rw [← e1]⟩
    · obtain ⟨i, s2, e2, e1⟩ := bind_eq_ok.1 e1
      have h2 : Post s0 s2 ∧ s2.nextPc = s.nextPc := by
        refine ⟨?_, ?_⟩
        · unfold rdInst at e2
          split at e2
          · obtain ⟨_, s3, e3, e2⟩ := bind_eq_ok.1 e2
            exact (Quiet.pure _).post (.inr (trap_in (by decide) hc e3)) e2
          · exact (q_mmRdInst _).post (.inl hc.trapped) e2
        · have : Pres (fun q : St σ => q.nextPc = s.nextPc) (rdInst E r.1) := by
            refine Pres.ite (Pres.bind (pres_trap fun _ h => h) fun _ => Pres.pure _) ?_
            exact Pres.bind (Pres.ite (Pres.pure _) Pres.abort) fun _ => Pres.bind (Pres.get _) fun _ =>
              Pres.bind (Pres.lift _) fun _ => Pres.bind (Pres.ite (Pres.mod fun _ h => h) (Pres.pure _))
              fun _ => Pres.pure _
          refine this _ _ _ ?_ e2
          rfl
      rw [M.mod_app] at e1
      have e1 : ({ s2 with instSpec := some i } : St σ) = s1 := by injection e1 with e1; injection e1
      rw [← e1]
      exact h2
  have h2 : Post s0 { s1 with hw := E.hw.bpUpdate s1.pc s1.nextPc s1.hw } := h1.1
  have hn2 : s1.nextPc.toNat % 2 = 0 := h1.2 ▸ hn
  simp only at e
  split at e
  · rw [M.bind_ok (M.get_app _ _)] at e
    cases hi : s1.instSpec with
    | none => simp only [hi] at e; cases e
    | some i => simp only [hi] at e; refine (q_resolved i).post ?_ e; exact h1.1
  · obtain ⟨i, s3, e3, e⟩ := bind_eq_ok.1 e
    exact (q_resolved _).post ((q_rdInst hn2).post h2 e3) e

theorem even_of_ialigned {c : Bool} {a : W} (h : Spec.ialigned c a) : a.toNat % 2 = 0 := by
  unfold Spec.ialigned at h
  cases c <;> simp at h <;> omega
theorem p_branch (w : W) (ha : Spec.ialigned E.cfg.rv32c s0.pc)
    (hb : branchSel (IP.funct3 w) = none → E.cfg.hwModels = false) {u : Unit}
    (h : Calm s0 s) (e : dBranch E w s = .ok (u, s')) : Post s0 s' := by
  unfold dBranch at e
  rw [M.bind_ok (M.get_app _ _)] at e
  obtain ⟨_, s1, e1, e⟩ := bind_eq_ok.1 e
  have h1 := (q_next _).calm h e1
  have n1 : s1.nextPc = s.pc + 4#32 := by
    unfold setNext at e1
    rw [M.mod_app] at e1
    have e1 : ({ s with nextPc := s.pc + 4#32 } : St σ) = s1 := by injection e1 with e1; injection e1
    rw [← e1]
  obtain ⟨_, s2, e2, e⟩ := bind_eq_ok.1 e
  rw [M.bind_ok (M.get_app _ _)] at e
  have he := even_of_ialigned ha
  rw [← h.pc] at he
  cases hm : branchSel (IP.funct3 w) with
  | none =>
    rw [hm] at e2
    have h2 := illegal_in h1 e2
    have n2 : s2.nextPc = s.pc + 4#32 := by
      have : Pres (fun q : St σ => q.nextPc = s.pc + 4#32) (eIllegal : M σ Unit) :=
        Pres.bind (Pres.get _) fun _ => pres_trap fun _ h => h
      exact this _ _ _ n1 e2
    rw [n2] at e
    rw [if_neg (by
      unfold misaligned
      unfold Spec.ialigned at ha
      rw [← h.pc] at ha
      cases hc : E.cfg.rv32c with
      | true => simp
      | false =>
        rw [hc] at ha
        simp at ha ⊢
        bv_omega), if_neg (by simp [hb hm])] at e
    exact (Quiet.pure _).post (.inr h2) e
  | some op =>
    rw [hm] at e2
    simp only at e2
    rw [M.bind_ok (show (rg _ : M σ W) _ = .ok (_, _) from rfl), M.bind_ok (show (rg _ : M σ W) _ = .ok (_, _) from rfl)] at e2
    have h2 : Calm s0 s2 ∧ s2.nextPc.toNat % 2 = 0 := by
      have hem : ∀ ev (x y : St σ) (v : Unit), emit E ev x = .ok (v, y) → y.nextPc = x.nextPc := by
        intro ev x y v e
        exact (Pres.ite (Pres.mod fun _ h => h) (Pres.pure _) : Pres (fun q : St σ => q.nextPc = x.nextPc) (emit E ev)) _ _ _ rfl e
      split at e2
      · obtain ⟨_, s5, e5, e2⟩ := bind_eq_ok.1 e2
        refine ⟨(q_emit _).calm ((q_next _).calm h1 e5) e2, ?_⟩
        rw [hem _ _ _ _ e2]
        unfold setNext at e5
        rw [M.mod_app] at e5
        have e5 : ({ s1 with nextPc := s.pc + IP.immB w } : St σ) = s5 := by injection e5 with e5; injection e5
        rw [← e5]
        have := HwInd.immB_ev w
        show (s.pc + IP.immB w).toNat % 2 = 0
        bv_omega
      · refine ⟨(q_emit _).calm h1 e2, ?_⟩
        rw [hem _ _ _ _ e2, n1]
        bv_omega
    split at e
    · exact .inr (trap_in (by decide) h2.1 e)
    · split at e
      · exact p_branchHw w h2.1 h2.2 e
      · exact (Quiet.pure _).post (.inl h2.1.trapped) e

theorem p_jalr (w : W) (hf : IP.funct3 w = 0#3) {u : Unit} (h : Calm s0 s) (e : dJalr E w s = .ok (u, s')) : Post s0 s' := by
  unfold dJalr at e
  rw [if_neg (by simp [hf])] at e
  obtain ⟨_, s1, e1, e⟩ := bind_eq_ok.1 e
  obtain ⟨b, s2, e2, e⟩ := bind_eq_ok.1 e
  obtain ⟨_, s3, e3, e⟩ := bind_eq_ok.1 e
  obtain ⟨_, s4, e4, e⟩ := bind_eq_ok.1 e
  have h3 := (q_next _).calm ((q_rg _).calm ((Quiet.pure _).calm h e1) e2) e3
  refine (q_emit _).post ?_ e
  split at e4
  · exact .inr (trap_in (by decide) h3 e4)
  · exact (nt_bind (Quiet.get _).nt fun _ => nt_rf _ _).post h3.trapped e4
theorem p_jal (w : W) {u : Unit} (h : Calm s0 s) (e : dJal E w s = .ok (u, s')) : Post s0 s' := by
  unfold dJal at e
  rw [M.bind_ok (M.get_app _ _)] at e
  obtain ⟨_, s3, e3, e⟩ := bind_eq_ok.1 e
  obtain ⟨_, s4, e4, e⟩ := bind_eq_ok.1 e
  have h3 := (q_next _).calm h e3
  refine (q_emit _).post ?_ e
  split at e4
  · exact .inr (trap_in (by decide) h3 e4)
  · exact (nt_rf _ _).post h3.trapped e4
theorem nt_lui (w : W) : NT (dLui E w) := nt_bind (nt_rf _ _) fun _ => nt_bind (q_seq _).nt fun _ => (q_emit _).nt
theorem nt_auipc (w : W) : NT (dAuipc E w) :=
  nt_bind (Quiet.get _).nt fun _ => nt_bind (nt_rf _ _) fun _ => nt_bind (q_seq _).nt fun _ => (q_emit _).nt

/-- the instruction writes the CSR -/
def Writes (w : W) : Prop := IP.funct3 w = 1#3 ∨ IP.funct3 w = 5#3 ∨ IP.rs1 w ≠ 0#5
theorem nt_writeCsr {e : CsrEntry} (he : e.perm ≠ .ro) (v : W) : NT (writeCsr e v : M σ Unit) := by
  unfold writeCsr
  split
  · exact absurd (by assumption) he
  · exact (Quiet.pure _).nt
  · exact Pres.mod fun _ h => h
theorem nt_csrDo {op : CsrOp} {e : CsrEntry} {w init : W} (ho : csrSel (IP.funct3 w) = some op)
    (he : e.perm = .ro → ¬ Writes w) : NT (csrDo op e w init : M σ Unit) := by
  by_cases hp : e.perm = .ro
  · have hw := he hp
    unfold Writes at hw
    push Not at hw
    obtain ⟨h1, h2, h3⟩ := hw
    refine nt_bind (Quiet.get _).nt fun _ => ?_
    cases op
    case rw => exact absurd ((by decide : ∀ i : BitVec 3, csrSel i = some .rw → i = 1#3) _ ho) h1
    case rwi => exact absurd ((by decide : ∀ i : BitVec 3, csrSel i = some .rwi → i = 5#3) _ ho) h2
    all_goals
      simp only [h3, if_true]
      exact (Quiet.pure _).nt
  · refine nt_bind (Quiet.get _).nt fun _ => ?_
    cases op
    case rw => exact nt_writeCsr hp _
    case rwi => exact nt_writeCsr hp _
    all_goals exact nt_ite (Quiet.pure _).nt (nt_writeCsr hp _)
theorem p_csr (w : W) (hc : ∀ e, csrInfo E.cfg.rv32c (IP.csrAddr w) = some e →
      csrSel (IP.funct3 w) ≠ none ∧ (e.perm = .ro → ¬ Writes w)) {u : Unit} (h : Calm s0 s)
    (e : dCsr E w s = .ok (u, s')) : Post s0 s' := by
  cases hi : csrInfo E.cfg.rv32c (IP.csrAddr w) with
  | none =>
    rw [dCsr_none hi] at e
    exact p_illegal h e
  | some c =>
    rw [dCsr_some hi] at e
    obtain ⟨h1, h2⟩ := hc c hi
    cases ho : csrSel (IP.funct3 w) with
    | none => exact absurd ho h1
    | some op =>
      rw [ho] at e
      have hcnt : NT (csrCntUpdate E w (IP.csrAddr w)) := nt_bind (nt_mod fun _ => rfl) fun _ =>
        nt_bind (nt_bind (Quiet.get _).nt fun _ => (Quiet.lift _).nt) fun _ => nt_mod fun _ => rfl
      refine NT.post ?_ h.trapped e
      exact nt_bind hcnt fun _ =>
        nt_bind (q_rg _).nt fun _ => nt_bind (Quiet.get _).nt fun _ => nt_bind (nt_rf _ _) fun _ =>
        nt_bind (nt_bind (nt_csrDo ho h2) fun _ => (q_emit _).nt) fun _ => nt_mod fun _ => rfl
theorem p_system (w : W) (hc : IP.funct3 w ≠ 0#3 → ∀ e, csrInfo E.cfg.rv32c (IP.csrAddr w) = some e →
      csrSel (IP.funct3 w) ≠ none ∧ (e.perm = .ro → ¬ Writes w)) {u : Unit} (h : Calm s0 s)
    (e : dSystem E w s = .ok (u, s')) : Post s0 s' := by
  unfold dSystem at e
  split at e
  · rename_i hf
    obtain ⟨_, s1, e1, e⟩ := bind_eq_ok.1 e
    exact (q_seq _).post (p_csr w (hc hf) h e1) e
  · split at e
    · exact .inr (env_in (by decide) h e)
    · split at e
      · exact .inr (env_in (by decide) h e)
      · split at e
        · exact NT.post (nt_bind (m := mretStateUpdate) (nt_mod fun _ => rfl) fun _ => (q_emit _).nt) h.trapped e
        · split at e
          · refine NT.post ?_ h.trapped e
            exact nt_bind (q_seq _).nt fun _ => nt_bind (nt_mod fun _ => rfl) fun _ => (q_emit _).nt
          · exact p_illegal h e
theorem p_miscMem (w : W) {u : Unit} (h : Calm s0 s) (e : dMiscMem E w s = .ok (u, s')) : Post s0 s' := by
  unfold dMiscMem at e
  split at e
  · exact NT.post (nt_bind (q_seq _).nt fun _ => (q_emit _).nt) h.trapped e
  · split at e
    · exact NT.post (nt_bind (q_seq _).nt fun _ => (q_emit _).nt) h.trapped e
    · exact p_illegal h e
theorem nt_simd (w : W) (op : Simd.Op) : NT (simdExec E w op) := by
  refine nt_bind (q_rg _).nt fun _ => nt_bind (q_rg _).nt fun _ => nt_bind (q_rg _).nt fun _ => ?_
  cases op
  case scp => exact nt_bind (q_hint _ _).nt fun _ => nt_rf _ _
  case wmul | widen => exact nt_bind (Quiet.lift _).nt fun _ => nt_pair _ _
  case txp => exact nt_pair _ _
  case narrow | dup | vins | vext => exact nt_rf _ _
  all_goals exact nt_bind (Quiet.lift _).nt fun _ => nt_rf _ _
theorem p_custom (w : W) {u : Unit} (h : Calm s0 s) (e : dCustom E w s = .ok (u, s')) : Post s0 s' := by
  unfold dCustom at e
  cases hm : Simd.sel (IP.funct7 w) (IP.funct3 w) with
  | some op =>
    rw [hm] at e
    exact NT.post (nt_bind (nt_simd _ _) fun _ => nt_bind (q_emit _).nt fun _ => (q_seq _).nt) h.trapped e
  | none =>
    rw [hm] at e
    obtain ⟨_, s1, e1, e⟩ := bind_eq_ok.1 e
    exact (Quiet.ite (Quiet.pure _) (q_seq _)).post (p_illegal h e1) e

/-! ## Compressed instructions -/

theorem nt_cWrite (op : COp) (r : BitVec 5) (v : W) : NT (cWrite E op r v) :=
  nt_bind (nt_rf _ _) fun _ => nt_bind (q_emit _).nt fun _ => (q_seq _).nt
theorem p_cLoad {op : COp} {base dst : BitVec 5} {off : W} {u : Unit} (h : Calm s0 s)
    (e : cLoad E op base dst off s = .ok (u, s')) : Post s0 s' := by
  obtain ⟨b, s1, e1, e⟩ := bind_eq_ok.1 e
  obtain ⟨v, s2, e2, e⟩ := bind_eq_ok.1 e
  exact p_after (nt_cWrite _ _ _) (p_memRd ((q_rg _).calm h e1) e2) e
theorem p_cStore {op : COp} {base src : BitVec 5} {off : W} {u : Unit} (h : Calm s0 s)
    (e : cStore E op base src off s = .ok (u, s')) : Post s0 s' := by
  obtain ⟨b, s1, e1, e⟩ := bind_eq_ok.1 e
  obtain ⟨d, s2, e2, e⟩ := bind_eq_ok.1 e
  obtain ⟨v, s3, e3, e⟩ := bind_eq_ok.1 e
  exact p_after (nt_bind (q_emit _).nt fun _ => (q_seq _).nt) (p_memWr ((q_rg _).calm ((q_rg _).calm h e1) e2) e3) e
theorem p_c0 (w : W) (hi : IP.cFunct3 w = 0#3 → IP.cImm4spn w ≠ 0#32) : Walk s0 (dCompressed0 E w) := by
  unfold dCompressed0
  split
  · rename_i hf
    have hw : w ≠ 0#32 := by rintro rfl; exact hi hf (by decide)
    unfold cAddi4spn
    rw [if_neg (hi hf), if_neg hw]
    exact NT.walk (nt_bind (Quiet.pure _).nt fun _ => nt_bind (Quiet.pure _).nt fun _ => nt_bind (q_rg _).nt fun _ =>
      nt_cWrite _ _ _)
  · exact fun _ _ _ h e => p_cLoad h e
  · exact fun _ _ _ h e => p_cStore h e
  · exact fun _ _ _ h e => p_illegal h e
theorem p_c1 (w : W) (hs : IP.cFunct3 w = 3#3 → IP.rd w = 2#5 → IP.cImm16sp w ≠ 0#32)
    (hl : IP.cFunct3 w = 3#3 → IP.rd w ≠ 0#5 → IP.rd w ≠ 2#5 → IP.cImmLui w ≠ 0#32) :
    Walk s0 (dCompressed1 E w) := by
  unfold dCompressed1
  split
  · exact NT.walk (nt_bind (q_rg _).nt fun _ => nt_cWrite _ _ _)
  · exact NT.walk (nt_bind (Quiet.get _).nt fun _ => nt_bind (q_next _).nt fun _ => nt_bind (nt_rf _ _) fun _ => (q_emit _).nt)
  · exact (nt_cWrite _ _ _).walk
  · rename_i hf
    split
    · exact NT.walk (nt_bind (q_emit _).nt fun _ => (q_seq _).nt)
    · split
      · rename_i h2
        unfold cAddi16sp
        rw [if_neg (hs hf h2)]
        exact NT.walk (nt_bind (Quiet.pure _).nt fun _ => nt_bind (q_rg _).nt fun _ => nt_cWrite _ _ _)
      · rename_i h0 h2
        unfold cLui
        rw [if_neg (hl hf h0 h2)]
        exact NT.walk (nt_bind (Quiet.pure _).nt fun _ => nt_cWrite _ _ _)
  · split
    · exact NT.walk (nt_bind (q_rg _).nt fun _ => nt_bind (Quiet.lift _).nt fun _ => nt_cWrite _ _ _)
    · exact NT.walk (nt_bind (q_rg _).nt fun _ => nt_bind (Quiet.lift _).nt fun _ => nt_cWrite _ _ _)
    · exact NT.walk (nt_bind (q_rg _).nt fun _ => nt_cWrite _ _ _)
    · have hc : ∀ op f, NT (cAlu E w op f) := fun _ _ => nt_bind (q_rg _).nt fun _ => nt_bind (q_rg _).nt fun _ => nt_cWrite _ _ _
      unfold dCompressed1Alu
      split
      · exact (hc _ _).walk
      · exact (hc _ _).walk
      · exact (hc _ _).walk
      · exact (hc _ _).walk
      · exact fun _ _ _ h e => p_illegal h e
  · exact NT.walk (nt_bind (q_seq _).nt fun _ => (q_emit _).nt)
  · exact NT.walk (nt_bind (Quiet.get _).nt fun _ => nt_bind (q_rg _).nt fun _ => nt_ite (nt_bind (q_next _).nt fun _ => (q_emit _).nt)
      (nt_bind (q_next _).nt fun _ => (q_emit _).nt))
  · exact NT.walk (nt_bind (Quiet.get _).nt fun _ => nt_bind (q_rg _).nt fun _ => nt_ite (nt_bind (q_next _).nt fun _ => (q_emit _).nt)
      (nt_bind (q_next _).nt fun _ => (q_emit _).nt))
theorem p_c2 (w : W) : Walk s0 (dCompressed2 E w) := by
  unfold dCompressed2
  split
  · exact NT.walk (nt_bind (q_rg _).nt fun _ => nt_bind (Quiet.lift _).nt fun _ => nt_bind (nt_rf _ _) fun _ =>
      nt_bind (q_emit _).nt fun _ => nt_bind (nt_ite (nt_bind (Quiet.get _).nt fun _ => nt_bind (q_just _).nt fun _ =>
      (Quiet.pure _).nt) (Quiet.pure _).nt) fun _ => (q_seq _).nt)
  · exact fun _ _ _ h e => p_cLoad h e
  · exact fun _ _ _ h e => p_cStore h e
  · split
    · split
      · intro s u s' h e
        obtain ⟨_, s1, e1, e⟩ := bind_eq_ok.1 e
        refine Quiet.post (.bind (q_rg _) fun _ => .bind (q_next _) fun _ => q_emit _) ?_ e
        split at e1
        · exact p_illegal h e1
        · exact (Quiet.pure _).post (.inl h.trapped) e1
      · exact NT.walk (nt_bind (q_rg _).nt fun _ => nt_cWrite _ _ _)
    · split
      · exact NT.walk (nt_bind (Pres.mod fun _ h => h) fun _ => (q_emit _).nt)
      · split
        · exact NT.walk (nt_bind (q_rg _).nt fun _ => nt_bind (q_next _).nt fun _ => nt_bind (Quiet.get _).nt fun _ =>
            nt_bind (nt_rf _ _) fun _ => (q_emit _).nt)
        · exact NT.walk (nt_bind (q_rg _).nt fun _ => nt_bind (q_rg _).nt fun _ => nt_cWrite _ _ _)
    · exact fun _ _ _ h e => p_illegal h e
  · exact fun _ _ _ h e => p_illegal h e

/-! ## Executing, polling, stepping -/

/-- instruction words that trap and yet have another effect: JALR with funct3 ≠ 0; branches with funct3 2 and 3, with
hardware models; accesses to an implemented CSR with funct3 4, or writing a read-only CSR; the reserved compressed
encodings C.ADDI4SPN, C.ADDI16SP and C.LUI with immediate 0 -/
def Imprecise (E : Env σ) (w : W) : Prop :=
  (IP.copcode w = 3#2 ∧
    ((IP.opcode w = 0x67#7 ∧ IP.funct3 w ≠ 0#3) ∨
     (IP.opcode w = 0x63#7 ∧ (IP.funct3 w = 2#3 ∨ IP.funct3 w = 3#3) ∧ E.cfg.hwModels = true) ∨
     (IP.opcode w = 0x73#7 ∧ IP.funct3 w = 4#3 ∧ Spec.csrKind E.cfg.rv32c (IP.csrAddr w).toNat ≠ .absent) ∨
     (IP.opcode w = 0x73#7 ∧ IP.funct3 w ≠ 0#3 ∧ Spec.csrKind E.cfg.rv32c (IP.csrAddr w).toNat = .ro ∧ Writes w))) ∨
  (E.cfg.rv32c = true ∧
    ((IP.copcode w = 0#2 ∧ IP.cFunct3 w = 0#3 ∧ IP.cImm4spn w = 0#32) ∨
     (IP.copcode w = 1#2 ∧ IP.cFunct3 w = 3#3 ∧ IP.rd w = 2#5 ∧ IP.cImm16sp w = 0#32) ∨
     (IP.copcode w = 1#2 ∧ IP.cFunct3 w = 3#3 ∧ IP.rd w ≠ 0#5 ∧ IP.rd w ≠ 2#5 ∧ IP.cImmLui w = 0#32)))

theorem p_exec32 {w : W} (ha : Spec.ialigned E.cfg.rv32c s0.pc) (hc : IP.copcode w = 3#2) (hi : ¬ Imprecise E w) :
    Walk s0 (exec32 E w) := by
  unfold Imprecise at hi
  simp only [hc, true_and, not_or] at hi
  obtain ⟨⟨i1, i2, i3, i4⟩, -⟩ := hi
  unfold exec32
  split
  · exact fun _ _ _ h e => p_aluReg w h e
  · exact fun _ _ _ h e => p_aluImm w h e
  · exact fun _ _ _ h e => p_load w h e
  · exact fun _ _ _ h e => p_store w h e
  · rename_i ho
    refine fun _ _ _ h e => p_branch w ha (fun hb => ?_) h e
    have := (by decide : ∀ i : BitVec 3, branchSel i = none → i = 2#3 ∨ i = 3#3) _ hb
    by_contra hh
    exact i2 ⟨ho, this, by simpa using hh⟩
  · rename_i ho
    refine fun _ _ _ h e => p_jalr w ?_ h e
    by_contra hh
    exact i1 ⟨ho, hh⟩
  · exact fun _ _ _ h e => p_jal w h e
  · exact (nt_lui w).walk
  · exact (nt_auipc w).walk
  · rename_i ho
    refine fun _ _ _ h e => p_system w (fun hf c hc => ⟨fun hn => ?_, fun hr hw => ?_⟩) h e
    · have h4 := (by decide : ∀ i : BitVec 3, i ≠ 0#3 → csrSel i = none → i = 4#3) _ hf hn
      refine i3 ⟨ho, h4, fun hk => ?_⟩
      rw [← kind_table, hc] at hk
      unfold kindOf at hk
      cases hp : c.perm <;> simp only [hp] at hk <;> cases hk
    · refine i4 ⟨ho, hf, ?_, hw⟩
      rw [← kind_table, hc]
      unfold kindOf
      simp only [hr]
  · exact fun _ _ _ h e => p_miscMem w h e
  · split
    · exact fun _ _ _ h e => p_custom w h e
    · exact fun _ _ _ h e => p_illegal h e
  · exact fun _ _ _ h e => p_illegal h e
theorem p_exec16 {w : W} (hr : E.cfg.rv32c = true) (hi : ¬ Imprecise E w) : Walk s0 (exec16 E w) := by
  unfold Imprecise at hi
  simp only [hr, true_and, not_or] at hi
  obtain ⟨-, i1, i2, i3⟩ := hi
  unfold exec16
  split
  · rename_i ho
    exact p_c0 w fun hf hz => i1 ⟨ho, hf, hz⟩
  · rename_i ho
    exact p_c1 w (fun hf hd hz => i2 ⟨ho, hf, hd, hz⟩) (fun hf h0 h2 hz => i3 ⟨ho, hf, h0, h2, hz⟩)
  · exact p_c2 w
  · exact fun _ _ _ h e => p_illegal h e
theorem p_exec {q q' : St σ} (ha : Spec.ialigned E.cfg.rv32c s0.pc) (h : Calm s0 q) (e : exec E q = .ok ((), q'))
    (hi : ¬ Imprecise E q'.inst) : Post s0 q' := by
  rcases exec_split e with ⟨hc, h2⟩ | ⟨_, hr, h2⟩ | ⟨_, _, h2⟩
  · have : q'.inst = q.inst := (Dasm.inst_primsX q.inst).exec32_of q.inst (fun _ => Dasm.inst_dSystem _ _) _ _ _ rfl h2
    rw [this] at hi
    exact p_exec32 ha hc hi _ _ _ h h2
  · have : q'.inst = IP.toRvc q.inst := (Dasm.inst_primsX (IP.toRvc q.inst)).exec16_of _ (fun _ =>
      Pres.bind (Pres.mod fun _ h => h) fun _ => Pres.ite (Pres.mod fun _ h => h) (Pres.pure _)) _ _ _ rfl h2
    rw [this] at hi
    refine p_exec16 hr hi _ _ _ ?_ h2
    exact ⟨h.1, h.2, h.3, h.4, h.5, h.6, h.7, h.8⟩
  · exact p_illegal h h2

/-- the devices' part of a step: the clock, then the UART -/
def tick (E : Env σ) (defer : Bool) : M σ Unit :=
  if defer then pure ()
  else do
    updateMtime 1#64
    if E.cfg.uartIn then do
      let t ← get (·.simStep)
      uartUpdateInput E t
    else pure ()

theorem check_cases {d nt : Bool} {q0 qa : St σ} (e : checkInterrupts E d q0 = .ok (nt, qa)) :
    ∃ q, tick E d q0 = .ok ((), q) ∧ (qa = q ∨ ∃ c ∈ [0x80000007#32, 0x8000000b#32], qa = { trapTo c 0#32 q with lastInstBranch := false }) := by
  unfold checkInterrupts at e
  unfold tick
  cases d with
  | true =>
    simp at e
    exact ⟨q0, rfl, .inl e.2.symm⟩
  | false =>
    simp only [Bool.false_eq_true, if_false] at e ⊢
    obtain ⟨_, s1, e1, e⟩ := bind_eq_ok.1 e
    obtain ⟨_, q, e2, e⟩ := bind_eq_ok.1 e
    refine ⟨q, by rw [M.bind_ok e1]; exact e2, ?_⟩
    rw [M.bind_ok (M.get_app _ _), M.bind_ok (M.get_app _ _), M.bind_ok (M.get_app _ _)] at e
    obtain ⟨_, s3, e3, e⟩ := bind_eq_ok.1 e
    simp at e
    obtain ⟨-, rfl⟩ := e
    split at e3
    · unfold eExternal at e3
      rw [M.bind_ok (trapInst_app _ _ _), M.mod_app] at e3
      injection e3 with e3; injection e3 with _ e3
      exact .inr ⟨_, by simp, e3.symm⟩
    · split at e3
      · unfold eTimer at e3
        rw [M.bind_ok (trapInst_app _ _ _), M.mod_app] at e3
        injection e3 with e3; injection e3 with _ e3
        exact .inr ⟨_, by simp, e3.symm⟩
      · simp at e3
        exact .inl e3.symm

/-- what polling the devices leaves alone -/
structure Kept (s q : St σ) : Prop where
  trapped : q.trapped = s.trapped
  rf : q.rf = s.rf
  ram : q.ram = s.ram
  pc : q.pc = s.pc
  trapLog : q.trapLog = s.trapLog
  simInst : q.simInst = s.simInst
  log : q.uart.log = s.uart.log
  csr : ∀ a, a ≠ A.mip → q.csr a = s.csr a
theorem kept_tick {d : Bool} {q0 q : St σ} (e : tick E d q0 = .ok ((), q)) : Kept q0 q := by
  have hm : ∀ (s : St σ) v, Kept q0 s → Kept q0 { s with csr := upd s.csr A.mip v } := fun s v h =>
    ⟨h.1, h.2, h.3, h.4, h.5, h.6, h.7, fun a ha => by show upd s.csr A.mip v a = _; rw [upd, if_neg ha]; exact h.8 a ha⟩
  have hu : ∀ (s : St σ) d n x p, Kept q0 s → Kept q0 { s with uart := { dev := d, log := s.uart.log, rxIdx := x, nextRxTime := n, polls := p } } :=
    fun s d n x p h => ⟨h.1, h.2, h.3, h.4, h.5, h.6, h.7, h.8⟩
  have h0 : Kept q0 q0 := ⟨rfl, rfl, rfl, rfl, rfl, rfl, rfl, fun _ _ => rfl⟩
  refine (?_ : Pres (Kept q0) (tick E d)) _ _ _ h0 e
  refine Pres.ite (Pres.pure _) (Pres.bind ?_ fun _ => Pres.ite (Pres.bind (Pres.get _) fun t => ?_) (Pres.pure _))
  · exact mtime_of (fun s c h => ⟨h.1, h.2, h.3, h.4, h.5, h.6, h.7, h.8⟩) hm _
  · refine Pres.bind (Pres.get _) fun u => Pres.bind (Pres.ite (Pres.bind (Pres.mod fun s h => hu s _ _ _ _ h) fun _ => Pres.bind (Pres.lift _) fun _ =>
      Pres.ite (Pres.bind ?_ fun b => ?_) (Pres.pure _)) (Pres.pure _)) fun _ =>
      Pres.bind (Pres.get _) fun _ => Pres.bind (Pres.lift _) fun _ => Pres.mod fun s h => hm s _ h
    · unfold nextByte
      refine Pres.bind (Pres.get _) fun u => ?_
      split
      · exact Pres.bind (Pres.mod fun s h => hu s _ _ _ _ h) fun _ => Pres.pure _
      · split
        · exact Pres.bind (Pres.mod fun s h => hu s _ _ _ _ h) fun _ => Pres.pure _
        · exact Pres.pure _
    · split
      · exact Pres.bind (Pres.get _) fun _ => Pres.bind (Pres.lift _) fun _ => Pres.bind (Pres.lift _) fun _ =>
          Pres.bind (Pres.lift _) fun _ => Pres.mod fun s h => hu s _ _ _ _ h
      · exact Pres.pure _

theorem q_fetch (h : s.pc.toNat % 2 = 0) {u : Unit} (hc : Calm s0 s) (e : fetch E s = .ok (u, s')) : Calm s0 s' := by
  unfold fetch at e
  rw [M.bind_ok (M.get_app _ _)] at e
  split at e
  · exact (Quiet.mod fun _ => by simp).calm hc e
  · rw [M.bind_ok (M.get_app _ _)] at e
    exact (Quiet.bind (q_rdInst h) fun _ => .mod fun _ => by simp).calm hc e
end Ama.Precise
