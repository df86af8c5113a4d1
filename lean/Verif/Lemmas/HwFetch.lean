import Verif.Lemmas.HwTotal
/-!
# The instruction fetches of a step
-/
namespace Ama.HwFetch
open M Spec HwCalls
variable {σ α β : Type} {E : Env σ}

/-- an instruction fetch, a call of the predictor or, in a build without profilers, a switch of the statistics -/
def watch (prof : Bool) : HwCall → Bool
  | .icRd _ => true
  | .ideal _ => true
  | .predict .. => true
  | .update .. => true
  | .prof _ => !prof
  | _ => false

/-- the cause of an exception -/
def exc (c : W) : Prop := c ≠ 0x80000007#32 ∧ c ≠ 0x8000000b#32
instance (c : W) : Decidable (exc c) := inferInstanceAs (Decidable (_ ∧ _))
/-- a trap, unless there was one before, is no interrupt -/
def Sync (T : Prop) (s : St σ) : Prop := s.trapped = true → T ∨ ∃ c t p r, s.trapLog = (c, t, p) :: r ∧ exc c

/-- takes no interrupt, makes no instruction fetch, asks for no prediction and does not touch the fetch buffer's flag -/
def NF (E : Env σ) (m : M σ α) : Prop :=
  ∀ g b T, Pres (fun s => (∃ c : List HwCall, s.hw = replay E.hw c g ∧ c.filter (watch E.cfg.profilers) = []) ∧ s.lastInstBranch = b ∧ Sync T s) m

namespace NF
theorem bind {m : M σ α} {f : α → M σ β} (h1 : NF E m) (h2 : ∀ a, NF E (f a)) : NF E (m >>= f) :=
  fun g b T => Pres.bind (h1 g b T) fun a => h2 a g b T
theorem pure (a : α) : NF E (pure a : M σ α) := fun _ _ _ => Pres.pure _
theorem get (f : St σ → α) : NF E (M.get f) := fun _ _ _ => Pres.get _
theorem mod {f : St σ → St σ} (h : ∀ s, (f s).hw = s.hw) (h' : ∀ s, (f s).lastInstBranch = s.lastInstBranch)
    (h2 : ∀ s, (f s).trapped = s.trapped ∧ (f s).trapLog = s.trapLog) : NF E (M.mod f) :=
  fun _ _ _ => Pres.mod fun s hs => by unfold Sync at *; rw [h, h', (h2 s).1, (h2 s).2]; exact hs
theorem lift (r : Res α) : NF E (M.lift r : M σ α) := fun _ _ _ => Pres.lift _
theorem ub (k : UB) : NF E (fun _ => .ub k : M σ α) := fun _ _ _ => Pres.ub _
theorem abort : NF E (fun _ => .abort : M σ α) := fun _ _ _ => Pres.abort
theorem ite {c : Prop} [Decidable c] {x y : M σ α} (h1 : NF E x) (h2 : NF E y) : NF E (if c then x else y) :=
  fun g b T => Pres.ite (h1 g b T) (h2 g b T)
/-- one call that is no fetch -/
theorem hwUpd (x : HwCall) (hx : watch E.cfg.profilers x = false) : NF E (hwUpd E (x.run E.hw)) := by
  intro g b T
  refine Pres.ite (Pres.mod ?_) (Pres.pure _)
  rintro s ⟨⟨c, h1, h2⟩, h3⟩
  refine ⟨⟨c ++ [x], ?_, ?_⟩, h3⟩
  · rw [replay_append, ← h1]; rfl
  · rw [List.filter_append, h2]; simp [hx]
theorem out {m : M σ α} (h : NF E m) {s q : St σ} {a : α} (e : m s = .ok (a, q)) :
    (∃ c, q.hw = replay E.hw c s.hw ∧ c.filter (watch E.cfg.profilers) = []) ∧ q.lastInstBranch = s.lastInstBranch ∧ ∀ T, Sync T s → Sync T q :=
  ⟨(h s.hw s.lastInstBranch True s a q ⟨⟨[], rfl, rfl⟩, rfl, fun _ => .inl trivial⟩ e).1,
   (h s.hw s.lastInstBranch True s a q ⟨⟨[], rfl, rfl⟩, rfl, fun _ => .inl trivial⟩ e).2.1,
   fun T hT => (h s.hw s.lastInstBranch T s a q ⟨⟨[], rfl, rfl⟩, rfl, hT⟩ e).2.2⟩
end NF

syntax "nf1" : tactic
macro_rules | `(tactic| nf1) => `(tactic| assumption)
macro_rules | `(tactic| nf1) => `(tactic| with_reducible refine NF.bind ?_ fun _ => ?_)
macro_rules | `(tactic| nf1) => `(tactic| with_reducible refine NF.ite ?_ ?_)
macro_rules | `(tactic| nf1) => `(tactic| with_reducible exact NF.lift _)
macro_rules | `(tactic| nf1) => `(tactic| with_reducible exact NF.pure _)
macro_rules | `(tactic| nf1) => `(tactic| with_reducible exact NF.get _)
macro_rules | `(tactic| nf1) => `(tactic| with_reducible exact NF.ub _)
macro_rules | `(tactic| nf1) => `(tactic| with_reducible exact NF.abort)
macro_rules | `(tactic| nf1) => `(tactic| (with_reducible refine NF.mod ?_ ?_ ?_; exact fun _ => rfl; exact fun _ => rfl; exact fun _ => ⟨rfl, rfl⟩))
/-- walk a model program -/
macro "nf" : tactic => `(tactic| repeat' nf1)

theorem nf_trapInst (c v : W) (hc : exc c) : NF E (trapInst c v : M σ Unit) := by
  unfold trapInst trapStateUpdate
  refine NF.bind (fun _ _ _ => Pres.mod fun s hs => ⟨hs.1, hs.2.1, fun _ => .inr ⟨_, _, _, _, rfl, hc⟩⟩) fun _ => ?_
  nf
macro_rules | `(tactic| nf1) => `(tactic| with_reducible exact nf_trapInst _ _ (by decide))
theorem nf_guard (b : Bool)   : NF E (guardAccess b : M σ Unit) := NF.ite (NF.pure _) NF.abort
macro_rules | `(tactic| nf1) => `(tactic| with_reducible exact nf_guard _)
theorem nf_ill : NF E (eIllegal : M σ Unit) := by unfold eIllegal; nf
macro_rules | `(tactic| nf1) => `(tactic| with_reducible exact nf_ill)
theorem nf_env (c : W) (hc : exc c) : NF E (eEnv c : M σ Unit) := NF.bind (NF.get _) fun _ => nf_trapInst _ _ hc
macro_rules | `(tactic| nf1) => `(tactic| with_reducible exact nf_env _ (by decide))
theorem nf_hard : NF E (eHardware : M σ Unit) := by unfold eHardware; nf
macro_rules | `(tactic| nf1) => `(tactic| with_reducible exact nf_hard)
theorem nf_mis (a : W) : NF E (eInstMisaligned a : M σ Unit) := nf_trapInst _ _ (by decide)
macro_rules | `(tactic| nf1) => `(tactic| with_reducible exact nf_mis _)
theorem nf_dacc (a : W) (o : MemOp) : NF E (eDmemAccess a o : M σ Unit) := nf_trapInst _ _ (by cases o <;> decide)
macro_rules | `(tactic| nf1) => `(tactic| with_reducible exact nf_dacc _ _)
theorem nf_dmis (a : W) (o : MemOp) : NF E (eDmemMisaligned a o : M σ Unit) := nf_trapInst _ _ (by cases o <;> decide)
macro_rules | `(tactic| nf1) => `(tactic| with_reducible exact nf_dmis _ _)
theorem nf_just (a : W) : NF E (justInst a : M σ W) := by unfold justInst; nf
macro_rules | `(tactic| nf1) => `(tactic| with_reducible exact nf_just _)
theorem nf_setAddr (a : W) (o : MemOp) (n : Nat) : NF E (setAddr E a o n) := by
  unfold setAddr
  split
  · nf
  · simp only; nf
macro_rules | `(tactic| nf1) => `(tactic| with_reducible exact nf_setAddr _ _ _)
theorem nf_meip : NF E (refreshMeip : M σ Unit) := by unfold refreshMeip; nf
macro_rules | `(tactic| nf1) => `(tactic| with_reducible exact nf_meip)
theorem nf_uartWr (a v : W) (n : Nat) : NF E (uartWr a v n : M σ Unit) := by unfold uartWr; nf
macro_rules | `(tactic| nf1) => `(tactic| with_reducible exact nf_uartWr _ _ _)
theorem nf_uartRd (a : W) (n : Nat) : NF E (uartRd E a n) := by unfold uartRd; nf
macro_rules | `(tactic| nf1) => `(tactic| with_reducible exact nf_uartRd _ _)
theorem nf_nextByte : NF E (nextByte E) := by
  unfold nextByte
  refine NF.bind (NF.get _) fun _ => ?_
  split
  · nf
  · split <;> nf
macro_rules | `(tactic| nf1) => `(tactic| with_reducible exact nf_nextByte)
theorem nf_deliver (b : BitVec 8) : NF E (uartDeliver b : M σ Unit) := by unfold uartDeliver; nf
macro_rules | `(tactic| nf1) => `(tactic| with_reducible exact nf_deliver _)
theorem nf_input (t : BitVec 64) : NF E (uartUpdateInput E t) := by
  unfold uartUpdateInput
  nf
  split <;> nf
macro_rules | `(tactic| nf1) => `(tactic| with_reducible exact nf_input _)
theorem nf_mtime (e : BitVec 64) : NF E (updateMtime e : M σ Unit) := by unfold updateMtime; nf
macro_rules | `(tactic| nf1) => `(tactic| with_reducible exact nf_mtime _)
theorem nf_shadow : NF E (mtimeShadow : M σ _) := by unfold mtimeShadow; nf
macro_rules | `(tactic| nf1) => `(tactic| with_reducible exact nf_shadow)
theorem nf_mret : NF E (mretStateUpdate : M σ Unit) := by unfold mretStateUpdate; nf
macro_rules | `(tactic| nf1) => `(tactic| with_reducible exact nf_mret)
theorem nf_rg (r : BitVec 5) : NF E (rg r : M σ W) := by unfold rg; nf
macro_rules | `(tactic| nf1) => `(tactic| with_reducible exact nf_rg _)
theorem nf_setNext (v : W) : NF E (setNext v : M σ Unit) := by unfold setNext; nf
macro_rules | `(tactic| nf1) => `(tactic| with_reducible exact nf_setNext _)
theorem nf_nextSeq (v : W) : NF E (nextSeq v : M σ Unit) := by unfold nextSeq; nf
macro_rules | `(tactic| nf1) => `(tactic| with_reducible exact nf_nextSeq _)
theorem nf_emit (ev : ProfEv) : NF E (emit E ev) := by unfold emit; nf
macro_rules | `(tactic| nf1) => `(tactic| with_reducible exact nf_emit _)
theorem nf_writeRf (r : BitVec 5) (v : W) : NF E (writeRf r v : M σ Unit) := by unfold writeRf; nf
macro_rules | `(tactic| nf1) => `(tactic| with_reducible exact nf_writeRf _ _)
theorem nf_pair (r : BitVec 5) (p : W × W) : NF E (writeRfPair r p : M σ Unit) := by
  unfold writeRfPair
  nf
  exact NF.ite (NF.ub _) (NF.mod (fun _ => rfl) (fun _ => rfl) fun _ => ⟨rfl, rfl⟩)
macro_rules | `(tactic| nf1) => `(tactic| with_reducible exact nf_pair _ _)
theorem nf_dJalr (w : W) : NF E (dJalr E w) := by unfold dJalr; nf
theorem nf_dJal (w : W) : NF E (dJal E w) := by unfold dJal; nf
theorem nf_dLui (w : W) : NF E (dLui E w) := by unfold dLui; nf
theorem nf_dAuipc (w : W) : NF E (dAuipc E w) := by unfold dAuipc; nf
theorem nf_cnt (w : W) (a : BitVec 16) : NF E (csrCntUpdate E w a) := by unfold csrCntUpdate; nf
macro_rules | `(tactic| nf1) => `(tactic| with_reducible exact nf_cnt _ _)
theorem nf_writeCsr (e : CsrEntry) (v : W) : NF E (writeCsr e v : M σ Unit) := by
  unfold writeCsr
  split <;> nf
macro_rules | `(tactic| nf1) => `(tactic| with_reducible exact nf_writeCsr _ _)
theorem nf_csrDo (op : CsrOp) (e : CsrEntry) (w v : W) : NF E (csrDo op e w v : M σ Unit) := by
  unfold csrDo; cases op <;> nf
macro_rules | `(tactic| nf1) => `(tactic| with_reducible exact nf_csrDo _ _ _ _)
theorem nf_dCsr (w : W) : NF E (dCsr E w) := by
  unfold dCsr
  split
  · nf
  · nf
    split <;> nf
macro_rules | `(tactic| nf1) => `(tactic| with_reducible exact nf_dCsr _)
theorem nf_dSystem (w : W) : NF E (dSystem E w) := by unfold dSystem; nf
theorem nf_dMiscMem (w : W) : NF E (dMiscMem E w) := by unfold dMiscMem; nf
theorem nf_cWrite (op : COp) (r : BitVec 5) (v : W) : NF E (cWrite E op r v) := by unfold cWrite; nf
macro_rules | `(tactic| nf1) => `(tactic| with_reducible exact nf_cWrite _ _ _)
theorem nf_cAlu (w : W) (op : COp) (f : W → W → W) : NF E (cAlu E w op f) := by unfold cAlu; nf
macro_rules | `(tactic| nf1) => `(tactic| with_reducible exact nf_cAlu _ _ _)
theorem nf_c1Alu (w : W) : NF E (dCompressed1Alu E w) := by unfold dCompressed1Alu; split <;> nf
macro_rules | `(tactic| nf1) => `(tactic| with_reducible exact nf_c1Alu _)
theorem nf_cSlli (w : W) : NF E (cSlli E w) := by unfold cSlli; nf
macro_rules | `(tactic| nf1) => `(tactic| with_reducible exact nf_cSlli _)
theorem nf_c1 (w : W) : NF E (dCompressed1 E w) := by
  unfold dCompressed1 cAddi cJal cLi cNop cAddi16sp cLui cSrli cSrai cAndi cJ cBeqz cBnez
  split <;> nf
  split <;> nf
theorem nf_c4spn (w : W) : NF E (cAddi4spn E w) := by unfold cAddi4spn; nf

theorem nf_mmRd (a : W) (n : Nat) : NF E (mmRd E a n) := by
  unfold mmRd
  nf
  exact NF.hwUpd (.dcRd a n) rfl
theorem nf_mmWr (a v : W) (n : Nat) : NF E (mmWr E a v n) := by
  unfold mmWr
  nf
  exact NF.hwUpd (.dcWr a v n) rfl
theorem nf_devRd (d : DevId) (a : W) (n : Nat) : NF E (devRd E d a n) := by
  cases d
  · exact nf_mmRd _ _
  · exact nf_uartRd _ _
  · show NF E (do let c ← M.get (·.clint.dev); M.lift (c.rd a n))
    nf
theorem nf_devWr (d : DevId) (a v : W) (n : Nat) : NF E (devWr E d a v n) := by
  cases d
  · exact nf_mmWr _ _ _
  · exact nf_uartWr _ _ _
  · unfold devWr
    nf
theorem nf_memRd (a : W) (n : Nat) : NF E (memRd E a n) := by
  unfold memRd
  refine NF.bind (nf_setAddr _ _ _) fun r => NF.bind (NF.get _) fun t => ?_
  split
  · exact nf_devRd _ _ _
  · exact NF.pure _
macro_rules | `(tactic| nf1) => `(tactic| with_reducible exact nf_memRd _ _)
theorem nf_memWr (a v : W) (n : Nat) : NF E (memWr E a v n) := by
  unfold memWr
  refine NF.bind (nf_setAddr _ _ _) fun r => NF.bind (NF.get _) fun t => ?_
  split
  · exact nf_devWr _ _ _ _
  · exact NF.pure _
macro_rules | `(tactic| nf1) => `(tactic| with_reducible exact nf_memWr _ _ _)
theorem nf_loadVal (op : LoadOp) (a : W) : NF E (loadVal E op a) := by unfold loadVal; cases op <;> (simp only; nf)
macro_rules | `(tactic| nf1) => `(tactic| with_reducible exact nf_loadVal _ _)
theorem nf_dLoad (w : W) : NF E (dLoad E w) := by unfold dLoad; split <;> nf
theorem nf_dStore (w : W) : NF E (dStore E w) := by unfold dStore; split <;> nf
theorem nf_cLoad (op : COp) (b d : BitVec 5) (o : W) : NF E (cLoad E op b d o) := by unfold cLoad; nf
macro_rules | `(tactic| nf1) => `(tactic| with_reducible exact nf_cLoad _ _ _ _)
theorem nf_cStore (op : COp) (b d : BitVec 5) (o : W) : NF E (cStore E op b d o) := by unfold cStore; nf
macro_rules | `(tactic| nf1) => `(tactic| with_reducible exact nf_cStore _ _ _ _)
theorem nf_c0 (w : W) : NF E (dCompressed0 E w) := by
  unfold dCompressed0
  split
  · exact nf_c4spn _
  all_goals nf
theorem nf_c2 (w : W) : NF E (dCompressed2 E w) := by
  unfold dCompressed2 cJr cMv cEbreak cJalr cAdd
  split <;> nf
  split <;> nf
theorem nf_exec16 (w : W) : NF E (exec16 E w) := by
  unfold exec16
  split
  · exact nf_c0 _
  · exact nf_c1 _
  · exact nf_c2 _
  · exact nf_ill
theorem nf_dAluReg (w : W) : NF E (dAluReg E w) := by
  unfold dAluReg
  split
  · exact nf_ill
  · nf
    split
    · exact NF.hwUpd (.div _ _ _) rfl
    · exact NF.pure _
theorem nf_profState (hp : E.cfg.profilers = true) (b : Bool) : NF E (profState E b) := by
  unfold profState M.whenM
  nf
  exact NF.hwUpd (.prof b) (by simp [watch, hp])
theorem nf_slti (w a b : W) : NF E (aluSlti E w a b) := by
  unfold aluSlti
  cases hp : E.cfg.profilers with
  | false => simp only [Bool.false_and, Bool.false_eq_true, if_false]; nf
  | true =>
    have h1 := nf_profState hp
    nf <;> exact h1 _
theorem nf_aluImm (op : AluImmOp) (w a b : W) : NF E (aluImm E op w a b) := by
  cases op
  case slti => exact nf_slti _ _ _
  all_goals (simp only [aluImm]; nf)
macro_rules | `(tactic| nf1) => `(tactic| with_reducible exact nf_aluImm _ _ _ _)
theorem nf_dAluImm (w : W) : NF E (dAluImm E w) := by unfold dAluImm; split <;> nf
theorem nf_hint (a : W) (m : Simd.ScpMode) : NF E (cacheHint E a m) := by
  intro g b T
  refine Pres.ite (fun s v q hs e => ?_) (Pres.pure _)
  rw [M.bind_ok (M.get_app _ _), M.bind_ok (M.mod_app _ _)] at e
  injection e with e; injection e with _ e
  subst e
  obtain ⟨⟨c, h1, h2⟩, h3⟩ := hs
  refine ⟨⟨c ++ [.scp (toNorm a) m], ?_, ?_⟩, h3⟩
  · rw [replay_append, ← h1]; rfl
  · rw [List.filter_append, h2]; rfl
macro_rules | `(tactic| nf1) => `(tactic| with_reducible exact nf_hint _ _)
theorem nf_dCustom (w : W) : NF E (dCustom E w) := by
  unfold dCustom
  split
  · refine NF.bind ?_ fun _ => by nf
    unfold simdExec
    refine NF.bind (nf_rg _) fun _ => NF.bind (nf_rg _) fun _ => NF.bind (nf_rg _) fun _ => ?_
    split <;> nf
  · nf
theorem nf_exec32 {w : W} (hw : IP.opcode w ≠ 0x63#7) : NF E (exec32 E w) := by
  unfold exec32
  split
  · exact nf_dAluReg _
  · exact nf_dAluImm _
  · exact nf_dLoad _
  · exact nf_dStore _
  · exact absurd ‹_› hw
  · exact nf_dJalr _
  · exact nf_dJal _
  · exact nf_dLui _
  · exact nf_dAuipc _
  · exact nf_dSystem _
  · exact nf_dMiscMem _
  · exact NF.ite (nf_dCustom _) nf_ill
  · exact nf_ill
theorem nf_exec (hw : IP.opcode w ≠ 0x63#7) {s q : St σ} (hs : s.inst = w) (e : exec E s = .ok ((), q)) :
    (∃ c, q.hw = replay E.hw c s.hw ∧ c.filter (watch E.cfg.profilers) = []) ∧ q.lastInstBranch = s.lastInstBranch ∧ ∀ T, Sync T s → Sync T q := by
  subst hs
  rcases exec_split e with ⟨_, h2⟩ | ⟨_, _, h3⟩ | ⟨_, _, h3⟩
  · exact (nf_exec32 hw).out h2
  · have := (nf_exec16 (E := E) _).out h3
    exact this
  · exact nf_ill.out h3
theorem nf_window : NF E (profWindow E) := by
  unfold profWindow
  cases hp : E.cfg.profilers with
  | false => exact NF.pure _
  | true =>
    have h1 := nf_profState hp
    nf <;> exact h1 _
theorem nf_tick (d : Bool) : NF E (Precise.tick E d) := by unfold Precise.tick; nf

/-- a branch that ends without an exception: everything it tells the models -/
theorem branchHw_calls (hm : E.cfg.hwModels = true) {w : W} {s q : St σ} (e : branchHw E w s = .ok ((), q)) (ht : q.trapped = false)
    {r : W} (hr : r = (E.hw.bpPredict s.pc (IP.immB w) (IP.funct3 w) (E.hw.bpIdeal s.nextPc s.hw)).1) :
    q.hw = replay E.hw ([.ideal s.nextPc, .predict s.pc (IP.immB w) (IP.funct3 w)] ++ (if E.cfg.noBp then [] else [.icRd (toNorm r)]) ++
      [.update s.pc s.nextPc] ++ (if s.nextPc = r then [] else [.icRd (toNorm s.nextPc)])) s.hw ∧
    q.lastInstBranch = true ∧ q.pc = s.pc ∧ q.nextPc = s.nextPc ∧ q.inst = s.inst ∧ s.trapped = false := by
  unfold branchHw at e
  rw [M.bind_ok (M.mod_app _ _), M.bind_ok (M.get_app _ _), M.bind_ok (M.get_app _ _)] at e
  simp only at e
  rw [M.bind_ok (M.mod_app _ _)] at e
  obtain ⟨_, s1, e1, e⟩ := bind_eq_ok.1 e
  rw [← hr] at e1 e
  -- the speculative fetch
  have h1 : s1.trapped = true ∨ ∃ sp, s1 = { s with
      lastInstBranch := true, instSpec := sp
      hw := replay E.hw ([.ideal s.nextPc, .predict s.pc (IP.immB w) (IP.funct3 w)] ++
        (if E.cfg.noBp then [] else [.icRd (toNorm r)])) s.hw } := by
    split at e1
    · rename_i hn
      injection e1 with e1; injection e1 with _ e1
      subst e1
      exact .inr ⟨s.instSpec, by rw [if_pos hn]; rfl⟩
    · rename_i hn
      obtain ⟨i, s2, e2, e1⟩ := bind_eq_ok.1 e1
      rw [M.mod_app] at e1
      injection e1 with e1; injection e1 with _ e1
      subst e1
      rcases rdInst_cases hm e2 with ⟨g1, _⟩ | ⟨rfl, _⟩
      · exact .inl g1
      · exact .inr ⟨some i, by rw [if_neg hn]; rfl⟩
  rw [M.bind_ok (M.mod_app _ _), M.bind_ok (M.get_app _ _)] at e
  simp only at e
  have h2 : s1.trapped = false ∧ ∃ ir, q = { s1 with
      instResolved := ir
      hw := replay E.hw ([.update s1.pc s1.nextPc] ++ (if s1.nextPc = r then [] else [.icRd (toNorm s1.nextPc)])) s1.hw } := by
    by_cases hn : s1.nextPc = r
    · rw [if_pos hn] at e
      rw [M.bind_ok (M.get_app _ _)] at e
      simp only at e
      cases hs : s1.instSpec with
      | none => rw [hs] at e; cases e
      | some i =>
        rw [hs] at e
        injection e with e; injection e with _ e
        subst e
        exact ⟨ht, i, by rw [if_pos hn]; rfl⟩
    · rw [if_neg hn] at e
      obtain ⟨i, s2, e2, e⟩ := bind_eq_ok.1 e
      rw [M.mod_app] at e
      injection e with e; injection e with _ e
      subst e
      rcases rdInst_cases hm e2 with ⟨g1, _⟩ | ⟨rfl, _⟩
      · rw [show _ = s2.trapped from rfl, g1] at ht; cases ht
      · exact ⟨ht, i, by rw [if_neg hn]; rfl⟩
  obtain ⟨t1, ir, rfl⟩ := h2
  rcases h1 with h1 | ⟨sp, rfl⟩
  · rw [h1] at t1; cases t1
  · refine ⟨?_, rfl, rfl, rfl, rfl, t1⟩
    simp only [replay_append]

theorem dBranch_calls (hm : E.cfg.hwModels = true) {w : W} {s q : St σ} (e : dBranch E w s = .ok ((), q))
    (ht : q.trapped = false) {r : W} (hr : r = (E.hw.bpPredict s.pc (IP.immB w) (IP.funct3 w) (E.hw.bpIdeal q.nextPc s.hw)).1) :
    q.hw = replay E.hw ([.ideal q.nextPc, .predict s.pc (IP.immB w) (IP.funct3 w)] ++ (if E.cfg.noBp then [] else [.icRd (toNorm r)]) ++
      [.update s.pc q.nextPc] ++ (if q.nextPc = r then [] else [.icRd (toNorm q.nextPc)])) s.hw ∧ q.lastInstBranch = true := by
  unfold dBranch at e
  rw [M.bind_ok (M.get_app _ _), M.bind_ok (show setNext (s.pc + 4#32) s = .ok ((), { s with nextPc := s.pc + 4#32 }) from rfl)] at e
  obtain ⟨_, s1, e1, e⟩ := bind_eq_ok.1 e
  rw [M.bind_ok (M.get_app _ _)] at e
  split at e
  · unfold eInstMisaligned at e
    have := trapInst_trapped e
    rw [this] at ht; cases ht
  · have h1 : s1.hw = s.hw ∧ (s1.trapped = false → s1.pc = s.pc) := by
      cases hb : branchSel (IP.funct3 w) with
      | none =>
        rw [hb] at e1
        refine ⟨?_, fun h => ?_⟩
        · exact (qt_ill s.hw (rest s) { s with nextPc := s.pc + 4#32 } _ _ ⟨rfl, rfl⟩ e1).1
        · rw [ill_trapped e1] at h; cases h
      | some op =>
        rw [hb] at e1
        simp only at e1
        rw [M.bind_ok (rg_app _ _), M.bind_ok (rg_app _ _)] at e1
        have hpc : ∀ (ev : ProfEv) {t t' : St σ}, emit E ev t = .ok ((), t') → t'.hw = t.hw ∧ t'.pc = t.pc := fun ev t t' e => by
          unfold emit at e
          split at e
          · injection e with e; injection e with _ e; subst e; exact ⟨rfl, rfl⟩
          · injection e with e; injection e with _ e; subst e; exact ⟨rfl, rfl⟩
        split at e1
        · obtain ⟨_, s2, e2, e1⟩ := bind_eq_ok.1 e1
          unfold setNext at e2
          rw [M.mod_app] at e2
          injection e2 with e2; injection e2 with _ e2
          subst e2
          exact ⟨(hpc _ e1).1, fun _ => (hpc _ e1).2⟩
        · exact ⟨(hpc _ e1).1, fun _ => (hpc _ e1).2⟩
    have key := branchHw_calls hm e ht rfl
    obtain ⟨_, _, _, k4, _, k6⟩ := key
    obtain ⟨g1, g2⟩ := h1
    have g2 := g2 k6
    obtain ⟨k1, k2, _⟩ := branchHw_calls hm e ht (r := r) (by rw [hr, k4, g1, g2])
    rw [g1, g2, ← k4] at k1
    exact ⟨k1, k2⟩

/-- exceptions on the way through a branch, but for a misaligned target: cause 0 comes with an odd address -/
def Inv (s : St σ) : Prop := s.trapped = true → ∃ c t p r, s.trapLog = (c, t, p) :: r ∧ exc c ∧ (c = 0#32 → t.toNat % 2 = 1)
theorem inv_rdInst (hm : E.cfg.hwModels = true) (a : W) : Pres Inv (rdInst E a) := fun s v q h e => by
  rcases rdInst_cases hm e with ⟨_, _, _, k1, p, r, k2⟩ | ⟨rfl, _⟩
  · exact fun _ => ⟨_, _, _, _, k2, by decide, fun _ => k1⟩
  · exact h
theorem inv_branchHw (hm : E.cfg.hwModels = true) (w : W) : Pres Inv (branchHw E w) := by
  unfold branchHw
  refine Pres.bind (Pres.mod fun _ h => h) fun _ => Pres.bind (Pres.get _) fun _ => Pres.bind (Pres.get _) fun _ => ?_
  refine Pres.bind (Pres.mod fun _ h => h) fun _ => Pres.bind (Pres.ite (Pres.pure _) (Pres.bind (inv_rdInst hm _) fun _ =>
    Pres.mod fun _ h => h)) fun _ => ?_
  refine Pres.bind (Pres.mod fun _ h => h) fun _ => Pres.bind (Pres.get _) fun _ => Pres.ite (Pres.bind (Pres.get _) fun x => ?_)
    (Pres.bind (inv_rdInst hm _) fun _ => Pres.mod fun _ h => h)
  cases x with
  | none => exact Pres.ub _
  | some i => exact Pres.mod fun _ h => h
theorem inv_emit (ev : ProfEv) : Pres Inv (emit E ev) := by
  unfold emit
  exact Pres.ite (Pres.mod fun _ h => h) (Pres.pure _)
/-- a branch that traps: no interrupt; with a misaligned target, nothing is predicted and nothing fetched -/
theorem dBranch_trap (hm : E.cfg.hwModels = true) {w : W} {s q : St σ} (e : dBranch E w s = .ok ((), q)) (hs : s.trapped = false)
    (ht : q.trapped = true) : ∃ c t p r, q.trapLog = (c, t, p) :: r ∧ exc c ∧
      (c = 0#32 → t.toNat % 2 = 0 → (∃ c, q.hw = replay E.hw c s.hw ∧ c.filter (watch E.cfg.profilers) = []) ∧ q.lastInstBranch = s.lastInstBranch) := by
  unfold dBranch at e
  rw [M.bind_ok (M.get_app _ _), M.bind_ok (show setNext (s.pc + 4#32) s = .ok ((), { s with nextPc := s.pc + 4#32 }) from rfl)] at e
  obtain ⟨_, s1, e1, e⟩ := bind_eq_ok.1 e
  rw [M.bind_ok (M.get_app _ _)] at e
  have h0 : Inv { s with nextPc := s.pc + 4#32 } := fun h => by rw [show _ = s.trapped from rfl, hs] at h; cases h
  have h1 : Inv s1 := by
    refine (?_ : Pres Inv _) _ _ _ h0 e1
    split
    · exact Pres.bind (Pres.get _) fun _ => pres_trap fun _ _ => fun _ => ⟨_, _, _, _, rfl, by decide, fun h => absurd h (by decide)⟩
    · exact Pres.bind (Pres.get _) fun _ => Pres.bind (Pres.get _) fun _ => Pres.ite (Pres.bind (Pres.mod fun _ h => h) fun _ =>
        inv_emit _) (inv_emit _)
  have n1 : NF E (match branchSel (IP.funct3 w) with
      | none => eIllegal
      | some op => do
        let a ← rg (IP.rs1 w)
        let b ← rg (IP.rs2 w)
        if branchCond op a b then do
          setNext (s.pc + IP.immB w)
          emit E (.branch op true)
        else emit E (.branch op false)) := by
    split <;> nf
  split at e
  · obtain ⟨⟨c, k1, k2⟩, k3, _⟩ := n1.out e1
    unfold eInstMisaligned at e
    obtain ⟨⟨d, l1, l2⟩, l3, _⟩ := (nf_trapInst (E := E) _ _ (by decide)).out e
    rw [trapInst_app] at e
    injection e with e; injection e with _ e
    refine ⟨0#32, s1.nextPc, s1.pc, s1.trapLog, by rw [← e]; rfl, by decide, fun _ _ => ⟨⟨c ++ d, ?_, ?_⟩, l3.trans k3⟩⟩
    · rw [replay_append, l1, k1]
    · rw [List.filter_append, k2, l2]; rfl
  · obtain ⟨c, t, p, r, g1, g2, g3⟩ := inv_branchHw hm w _ _ _ h1 e ht
    exact ⟨c, t, p, r, g1, g2, fun hc hv => by have := g3 hc; omega⟩

/-- the fetches among some calls -/
theorem fetches_none {b : Bool} {c : List HwCall} (h : c.filter (watch b) = []) (d : List HwCall) :
    (c ++ d).filter (watch b) = d.filter (watch b) := by rw [List.filter_append, h]; rfl

/-- how a step fetches: not at all, or first the word at the program counter unless a branch has fetched it -/
theorem finish_lib (q : St σ) : (finishSt E q).lastInstBranch = q.lastInstBranch := by
  unfold finishSt finishSt1
  split
  · rfl
  · split
    · rfl
    · split <;> rfl

/-- what waits keeps waiting -/
theorem finish_wfi {q : St σ} (h : q.wfiActive = true) : (finishSt E q).wfiActive = true := by
  unfold finishSt finishSt1
  split
  · exact h
  · split
    · exact h
    · split
      · exact h
      · show (q.wfiActive || q.wfiPend) = true
        rw [h]; rfl

theorem odd_traps {a i : W} {s q : St σ} (e : rdInst E a s = .ok (i, q)) (h : (toNorm a).toNat % 2 ≠ 0) : q.trapped = true := by
  unfold rdInst at e
  rw [if_pos h] at e
  obtain ⟨_, q1, e1, e⟩ := bind_eq_ok.1 e
  injection e with e; injection e with _ e
  subst e
  exact trapInst_trapped e1
theorem step_fetch_forms (hm : E.cfg.hwModels = true) {s s' : St σ} (h : step E s = .ok ((), s')) :
    ((s'.simInst = s.simInst ∧ ∃ c, s'.hw = replay E.hw c s.hw ∧ c.filter (watch E.cfg.profilers) = []) ∧
      ((s'.trapped = false ∧ s'.lastInstBranch = s.lastInstBranch ∧ (s'.wfiActive = true ∨ s'.simStep = s.simStep)) ∨
        (s'.trapped = true ∧ s'.lastInstBranch = false ∧ ∃ c t p r, s'.trapLog = (c, t, p) :: r ∧ ¬ exc c))) ∨
    ∃ c qc q1, qc.hw = replay E.hw c s.hw ∧
      (qc.trapped = true → c.filter (watch E.cfg.profilers) = [] ∧ s.lastInstBranch = false ∧ (toNorm s.pc).toNat % 2 = 1 ∧
        ∃ c t p r, qc.trapLog = (c, t, p) :: r ∧ exc c) ∧
      (qc.trapped = false → c.filter (watch E.cfg.profilers) = if s.lastInstBranch then [] else [.icRd (toNorm s.pc)]) ∧
      (qc.trapped = false → s.lastInstBranch = false → (toNorm s.pc).toNat % 2 = 0) ∧
      qc.lastInstBranch = false ∧ (qc.trapped = false → qc.pc = s.pc) ∧ (qc.trapped = false ∨ qc.inst = 0#32) ∧
      exec E qc = .ok ((), q1) ∧ s' = finishSt E q1 ∧ q1.simInst = s.simInst ∧
      q1.wfiActive = false ∧ q1.simStep = s.simStep := by
  have h0 : PreStep s.profLog s.rf s.pc s.simInst { s with trapped := false } := ⟨rfl, rfl, fun _ => rfl, rfl⟩
  rcases step_split h with he | ⟨q0, q1, e1, e2, e3⟩
  · exact .inl ⟨⟨(pre_window _ _ _ h0 he).2.2.2, (nf_window.out he).1⟩, .inl ⟨window_trap he, (nf_window.out he).2.1, .inr ((window_simStep he).trans rfl)⟩⟩
  · have h1 := pre_window _ _ _ h0 e1
    have t1 : q0.trapped = false := window_trap e1
    obtain ⟨⟨c0, w1, w2⟩, w3, _⟩ := nf_window.out e1
    obtain ⟨defer, nt, qa, c1, _, hx⟩ := stepExec_split e2
    have h2 : PreStep s.profLog s.rf s.pc s.simInst (wakeSt nt qa) :=
      have := pre_check _ _ _ _ h1 c1
      this
    obtain ⟨q, t1', t2⟩ := Precise.check_cases c1
    obtain ⟨⟨c2, v1, v2⟩, v3, _⟩ := (nf_tick defer).out t1'
    have hq : qa.hw = q.hw := by
      rcases t2 with rfl | ⟨_, _, rfl⟩ <;> rfl
    have hw : (wakeSt nt qa).hw = replay E.hw (c0 ++ c2) s.hw := by
      rw [replay_append, ← w1, ← v1]; exact hq
    have hf : (c0 ++ c2).filter (watch E.cfg.profilers) = [] := by rw [fetches_none w2, v2]
    rcases hx with ⟨hw1, hw2, qc, g1, g2⟩ | ⟨hq1, hw1⟩
    · have h3 := prof_fetch _ _ _ h2 g1
      have hi : q1.simInst = s.simInst := (exec_keeps.exec _ _ _ ⟨h3.2.2.1, h3.2.2.2⟩ g2).2
      have hks : q0.simStep = s.simStep := (window_simStep e1).trans rfl
      have hks : qa.simStep = s.simStep := step_keeps.checkInterrupts _ _ _ _ hks c1
      have hw2' : (wakeSt nt qa).wfiActive = false := by
        rcases hw2 with h | h
        · exact h
        · simp [wakeSt, h]
      have hkk := keep_step.exec _ _ _ (keep_step.fetch _ _ _ ⟨hw2', (show (wakeSt nt qa).simStep = s.simStep from hks)⟩ g1) g2
      have hl : qa.lastInstBranch = s.lastInstBranch ∧ qa.pc = s.pc := by
        rcases t2 with rfl | ⟨_, _, rfl⟩
        · exact ⟨v3.trans w3, h2.2.2.1 hw1⟩
        · cases hw1
      have ho : qc.trapped = false ∨ qc.inst = 0#32 := by
        rcases fetch_trap g1 with h | h
        · exact .inl (h.trans hw1)
        · exact .inr h.2
      unfold fetch at g1
      rw [M.bind_ok (M.get_app _ _)] at g1
      right
      cases hb : (wakeSt nt qa).lastInstBranch with
      | true =>
        rw [hb, hm] at g1
        simp only [Bool.and_self, if_true, M.mod_app] at g1
        injection g1 with g1; injection g1 with _ g1
        have hb' : s.lastInstBranch = true := hl.1.symm.trans hb
        refine ⟨c0 ++ c2, qc, q1, ?_, fun ht => ?_, fun _ => ?_, fun _ h => (by rw [hb'] at h; cases h), ?_, h3.2.2.1, ho, g2, e3, hi, hkk⟩
        · rw [← g1]; exact hw
        · rw [← g1, show _ = (wakeSt nt qa).trapped from rfl, hw1] at ht; cases ht
        · rw [hf, hb']; rfl
        · rw [← g1]
      | false =>
        rw [hb] at g1
        simp only [Bool.and_false, Bool.false_eq_true, if_false] at g1
        rw [M.bind_ok (M.get_app _ _)] at g1
        obtain ⟨i, q2, g3, g1⟩ := bind_eq_ok.1 g1
        rw [M.mod_app] at g1
        injection g1 with g1; injection g1 with _ g1
        have hb' : s.lastInstBranch = false := hl.1.symm.trans hb
        rcases rdInst_cases hm g3 with ⟨k1, k2, _, k3, p, r, k4⟩ | ⟨rfl, _⟩
        · refine ⟨c0 ++ c2, qc, q1, ?_, fun _ => ⟨hf, hb', ?_, _, _, p, r, by rw [← g1]; exact k4, by decide⟩, fun ht => ?_, fun ht => ?_, ?_, h3.2.2.1, ho, g2, e3, hi, hkk⟩
          · rw [← g1]; exact k2.trans hw
          · rw [← hl.2]; exact k3
          · rw [← g1] at ht
            rw [show _ = q2.trapped from rfl, k1] at ht; cases ht
          · rw [← g1] at ht
            rw [show _ = q2.trapped from rfl, k1] at ht; cases ht
          · rw [← g1]
        · refine ⟨c0 ++ c2 ++ [.icRd (toNorm s.pc)], qc, q1, ?_, fun ht => ?_, fun _ => ?_, fun _ _ => ?_, ?_, h3.2.2.1, ho, g2, e3, hi, hkk⟩
          · rw [replay_append, ← hw, ← g1, ← hl.2]; rfl
          · rw [← g1, show _ = (wakeSt nt qa).trapped from rfl, hw1] at ht; cases ht
          · rw [fetches_none hf, hb']; rfl
          · by_cases hz : (toNorm s.pc).toNat % 2 = 0
            · exact hz
            · have := odd_traps g3 (by rw [show (wakeSt nt qa).pc = s.pc from hl.2]; exact hz)
              rw [show _ = (wakeSt nt qa).trapped from rfl, hw1] at this; cases this
          · rw [← g1]
    · refine .inl ⟨⟨?_, c0 ++ c2, ?_, hf⟩, ?_⟩
      · have hi : q1.simInst = s.simInst := by rw [hq1]; exact h2.2.2.2
        rw [e3, ← hi]
        unfold finishSt finishSt1
        split
        · rfl
        · split
          · rfl
          · split
            · rfl
            · rename_i h1 h2
              exfalso
              rcases hw1 with hw | ⟨hw, _⟩
              · exact h2 hw
              · exact h1 ⟨hw, by simpa using h2⟩
      · rw [e3, (finish_hw q1).1, hq1]; exact hw
      · have kt := Precise.kept_tick t1'
        rw [e3, (Dasm.finishSt_frame q1).1, HwCalls.finish_log, finish_lib, hq1]
        rcases t2 with rfl | ⟨c, hc, rfl⟩
        · refine .inl ⟨kt.trapped.trans t1, v3.trans w3, .inl (finish_wfi ?_)⟩
          rcases hw1 with hw | ⟨hw, _⟩
          · rw [hq1] at hw
            exact absurd ((kt.trapped.trans t1).symm.trans hw) (by decide)
          · rw [← hq1]; exact hw
        · refine .inr ⟨rfl, rfl, _, _, _, _, rfl, ?_⟩
          simp only [List.mem_cons, List.not_mem_nil, or_false] at hc
          rcases hc with rfl | rfl <;> decide

end Ama.HwFetch
