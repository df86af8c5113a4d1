import Verif.Spec.HwInd
import Verif.Lemmas.StepCases
/-!
# Erasing the hardware models

`erase` forgets the hardware models and the fetch buffer; `plain E` is the same simulator built
without them.  `Er m m'`: every execution of `m` that returns is matched by `m'` on the erased
states, and does not touch the "last instruction was a branch" flag.
-/
namespace Ama.HwInd
open M
variable {σ α β : Type}

/-- no hardware models -/
def nullHw : Hw Unit where
  icRd _ _ := ()
  dcRd _ _ _ := ()
  dcWr _ _ _ _ := ()
  scp _ _ _ := (false, ())
  bpIdeal _ _ := ()
  bpPredict _ _ _ _ := (0#32, ())
  bpUpdate _ _ _ := ()
  divEval _ _ _ _ := ()
  profiling _ _ := ()

/-- the same set-up built without `HW_MODELS_EN` -/
abbrev plain (E : Env σ) : Env Unit :=
  { cfg := { E.cfg with hwModels := false, noBp := false }
    hw := nullHw
    regions := E.regions
    uartIn := E.uartIn
    stdin := E.stdin }

/-- forget the hardware models and the fetch buffer -/
@[reducible] def erase (s : St σ) : St Unit :=
  { pc := s.pc, nextPc := s.nextPc, inst := s.inst, rf := s.rf, csr := s.csr, trapped := s.trapped,
    running := s.running, wfiActive := s.wfiActive, wfiPend := s.wfiPend, simStep := s.simStep,
    simInst := s.simInst, csrStep := s.csrStep, csrInst := s.csrInst, ram := s.ram, uart := s.uart,
    clint := s.clint, lastInstBranch := false, instResolved := 0#32, instSpec := none,
    profActive := s.profActive, profPc := s.profPc, hw := (), trapLog := s.trapLog, profLog := s.profLog }

/-- the fetch buffer and the instruction are left alone -/
structure Fr (s s' : St σ) : Prop where
  lib : s'.lastInstBranch = s.lastInstBranch
  spec : s'.instSpec = s.instSpec
  inst : s'.inst = s.inst
  pend : s'.wfiPend = s.wfiPend

/-- `m'` matches every execution of `m` that returns -/
def Er (m : M σ α) (m' : M Unit α) : Prop := ∀ s a s', m s = .ok (a, s') →
  m' (erase s) = .ok (a, erase s') ∧ Fr s s'

namespace Er
theorem bind {m : M σ α} {m' : M Unit α} {f : α → M σ β} {f' : α → M Unit β} (h1 : Er m m')
    (h2 : ∀ a, Er (f a) (f' a)) : Er (m >>= f) (m' >>= f') := by
  intro s b s' e
  obtain ⟨a, s1, e1, e2⟩ := bind_eq_ok.1 e
  obtain ⟨g1, g2⟩ := h1 _ _ _ e1
  obtain ⟨g3, g4⟩ := h2 _ _ _ _ e2
  exact ⟨bind_eq_ok.2 ⟨a, _, g1, g3⟩, ⟨g4.1.trans g2.1, g4.2.trans g2.2, g4.3.trans g2.3, g4.4.trans g2.4⟩⟩
theorem pure (a : α) : Er (pure a : M σ α) (pure a) := by
  intro s b s' e
  simp at e; obtain ⟨rfl, rfl⟩ := e; exact ⟨rfl, ⟨rfl, rfl, rfl, rfl⟩⟩
theorem get {f : St σ → α} {f' : St Unit → α} (h : ∀ s, f s = f' (erase s)) : Er (M.get f) (M.get f') := by
  intro s b s' e
  simp at e; obtain ⟨rfl, rfl⟩ := e; exact ⟨by simp [h], ⟨rfl, rfl, rfl, rfl⟩⟩
theorem mod {f : St σ → St σ} {f' : St Unit → St Unit} (h : ∀ s, erase (f s) = f' (erase s))
    (hl : ∀ s, Fr s (f s)) : Er (M.mod f) (M.mod f') := by
  intro s b s' e
  simp only [mod_app, Res.ok.injEq, Prod.mk.injEq] at e
  obtain ⟨-, rfl⟩ := e; exact ⟨by simp only [mod_app, h], hl s⟩
theorem lift (r : Res α) : Er (M.lift r : M σ α) (M.lift r) := by
  cases r with
  | ok a => intro s b s' e; simp at e; obtain ⟨rfl, rfl⟩ := e; exact ⟨rfl, ⟨rfl, rfl, rfl, rfl⟩⟩
  | ub => intro s b s' e; simp at e
  | abort => intro s b s' e; simp at e
theorem ite {c : Prop} [Decidable c] {x y : M σ α} {x' y' : M Unit α} (h1 : Er x x') (h2 : Er y y') :
    Er (if c then x else y) (if c then x' else y') := by
  split <;> assumption
theorem iteH {c : Prop} [Decidable c] {x y : M σ α} {x' y' : M Unit α} (h1 : c → Er x x') (h2 : ¬c → Er y y') :
    Er (if c then x else y) (if c then x' else y') := by
  split
  · exact h1 ‹_›
  · exact h2 ‹_›
theorem abort : Er (fun _ => .abort : M σ α) (fun _ => .abort) := by
  intro s b s' e; cases e
theorem ub (k : UB) : Er (fun _ => .ub k : M σ α) (fun _ => .ub k) := by
  intro s b s' e; cases e
end Er

/-- a leaf of a model program, or a bind or conditional -/
syntax "er1" : tactic
macro_rules | `(tactic| er1) => `(tactic| assumption)
macro_rules | `(tactic| er1) => `(tactic| with_reducible refine Er.bind ?_ fun _ => ?_)
macro_rules | `(tactic| er1) => `(tactic| with_reducible refine Er.ite ?_ ?_)
macro_rules | `(tactic| er1) => `(tactic| with_reducible exact Er.lift _)
macro_rules | `(tactic| er1) => `(tactic| with_reducible exact Er.pure _)
macro_rules | `(tactic| er1) => `(tactic| (with_reducible refine Er.get ?_; exact fun _ => rfl))
macro_rules | `(tactic| er1) => `(tactic| (with_reducible refine Er.mod ?_ ?_; exact fun _ => rfl; exact fun _ => ⟨rfl, rfl, rfl, rfl⟩))
/-- walk a model program -/
macro "er" : tactic => `(tactic| repeat' er1)

variable {E : Env σ}
theorem er_trapInst (c v : W) : Er (trapInst c v : M σ Unit) (trapInst c v) := by
  unfold trapInst trapStateUpdate
  er
macro_rules | `(tactic| er1) => `(tactic| with_reducible exact er_trapInst _ _)
theorem er_guardAccess (b : Bool) : Er (guardAccess b : M σ Unit) (guardAccess b) :=
  Er.ite (Er.pure _) Er.abort
macro_rules | `(tactic| er1) => `(tactic| with_reducible exact er_guardAccess _)
theorem er_hwUpd (f : σ → σ) (f' : Unit → Unit) : Er (hwUpd E f) (hwUpd (plain E) f') := by
  unfold hwUpd
  simp only [Bool.false_eq_true, if_false]
  split
  · intro s a s' e
    simp only [mod_app, Res.ok.injEq, Prod.mk.injEq] at e
    obtain ⟨-, rfl⟩ := e; exact ⟨rfl, ⟨rfl, rfl, rfl, rfl⟩⟩
  · exact Er.pure _
macro_rules | `(tactic| er1) => `(tactic| with_reducible exact er_hwUpd _ _)
theorem er_eIllegal : Er (eIllegal : M σ Unit) eIllegal := by unfold eIllegal; er
macro_rules | `(tactic| er1) => `(tactic| with_reducible exact er_eIllegal)
theorem er_eEnv (c : W) : Er (eEnv c : M σ Unit) (eEnv c) := by unfold eEnv; er
macro_rules | `(tactic| er1) => `(tactic| with_reducible exact er_eEnv _)
theorem er_eHardware : Er (eHardware : M σ Unit) eHardware := by unfold eHardware; er
macro_rules | `(tactic| er1) => `(tactic| with_reducible exact er_eHardware)
theorem er_eInstMisaligned (a : W) : Er (eInstMisaligned a : M σ Unit) (eInstMisaligned a) := er_trapInst _ _
macro_rules | `(tactic| er1) => `(tactic| with_reducible exact er_eInstMisaligned _)
theorem er_eDmemAccess (a : W) (o : MemOp) : Er (eDmemAccess a o : M σ Unit) (eDmemAccess a o) := er_trapInst _ _
macro_rules | `(tactic| er1) => `(tactic| with_reducible exact er_eDmemAccess _ _)
theorem er_eDmemMisaligned (a : W) (o : MemOp) : Er (eDmemMisaligned a o : M σ Unit) (eDmemMisaligned a o) :=
  er_trapInst _ _
macro_rules | `(tactic| er1) => `(tactic| with_reducible exact er_eDmemMisaligned _ _)
theorem er_mmRdInst (a : W) : Er (mmRdInst E a) (mmRdInst (plain E) a) := by unfold mmRdInst; er
macro_rules | `(tactic| er1) => `(tactic| with_reducible exact er_mmRdInst _)
theorem er_rdInst (a : W) : Er (rdInst E a) (rdInst (plain E) a) := by unfold rdInst; er
macro_rules | `(tactic| er1) => `(tactic| with_reducible exact er_rdInst _)
theorem er_justInst (a : W) : Er (justInst a : M σ W) (justInst a) := by unfold justInst; er
macro_rules | `(tactic| er1) => `(tactic| with_reducible exact er_justInst _)
theorem er_setAddr (a : W) (o : MemOp) (n : Nat) : Er (setAddr E a o n) (setAddr (plain E) a o n) := by
  unfold setAddr
  simp only
  generalize mapFind a (memMap E.cfg.uart) = r
  cases r <;> simp only <;> er
macro_rules | `(tactic| er1) => `(tactic| with_reducible exact er_setAddr _ _ _)
theorem er_refreshMeip : Er (refreshMeip : M σ Unit) refreshMeip := by unfold refreshMeip; er
macro_rules | `(tactic| er1) => `(tactic| with_reducible exact er_refreshMeip)
theorem er_uartWr (a v : W) (n : Nat) : Er (uartWr a v n : M σ Unit) (uartWr a v n) := by unfold uartWr; er
macro_rules | `(tactic| er1) => `(tactic| with_reducible exact er_uartWr _ _ _)
theorem er_uartRd (a : W) (n : Nat) : Er (uartRd E a n) (uartRd (plain E) a n) := by unfold uartRd; er
macro_rules | `(tactic| er1) => `(tactic| with_reducible exact er_uartRd _ _)
theorem er_mmRd (a : W) (n : Nat) : Er (mmRd E a n) (mmRd (plain E) a n) := by unfold mmRd; er
macro_rules | `(tactic| er1) => `(tactic| with_reducible exact er_mmRd _ _)
theorem er_mmWr (a v : W) (n : Nat) : Er (mmWr E a v n) (mmWr (plain E) a v n) := by unfold mmWr; er
macro_rules | `(tactic| er1) => `(tactic| with_reducible exact er_mmWr _ _ _)
theorem er_devRd (d : DevId) (a : W) (n : Nat) : Er (devRd E d a n) (devRd (plain E) d a n) := by
  cases d <;> simp only [devRd] <;> er
macro_rules | `(tactic| er1) => `(tactic| with_reducible exact er_devRd _ _ _)
theorem er_devWr (d : DevId) (a v : W) (n : Nat) : Er (devWr E d a v n) (devWr (plain E) d a v n) := by
  cases d <;> simp only [devWr] <;> er
macro_rules | `(tactic| er1) => `(tactic| with_reducible exact er_devWr _ _ _ _)
theorem er_memRd (a : W) (n : Nat) : Er (memRd E a n) (memRd (plain E) a n) := by
  refine Er.bind (er_setAddr _ _ _) fun r => Er.bind (Er.get fun _ => rfl) fun t => ?_
  cases t <;> rcases r with _ | ⟨d, a⟩ <;> simp only <;> er
macro_rules | `(tactic| er1) => `(tactic| with_reducible exact er_memRd _ _)
theorem er_memWr (a v : W) (n : Nat) : Er (memWr E a v n) (memWr (plain E) a v n) := by
  refine Er.bind (er_setAddr _ _ _) fun r => Er.bind (Er.get fun _ => rfl) fun t => ?_
  cases t <;> rcases r with _ | ⟨d, a⟩ <;> simp only <;> er
macro_rules | `(tactic| er1) => `(tactic| with_reducible exact er_memWr _ _ _)
theorem er_nextByte : Er (nextByte E) (nextByte (plain E)) := by
  refine Er.bind (Er.get fun _ => rfl) fun u => ?_
  simp only
  cases E.uartIn with
  | nil => simp only; er
  | cons b bs =>
    simp only
    cases (b :: bs)[u.rxIdx]? <;> simp only <;> er
macro_rules | `(tactic| er1) => `(tactic| with_reducible exact er_nextByte)
theorem er_uartDeliver (b : BitVec 8) : Er (uartDeliver b : M σ Unit) (uartDeliver b) := by unfold uartDeliver; er
macro_rules | `(tactic| er1) => `(tactic| with_reducible exact er_uartDeliver _)
theorem er_uartUpdateInput (t : BitVec 64) : Er (uartUpdateInput E t) (uartUpdateInput (plain E) t) := by
  unfold uartUpdateInput
  refine Er.bind (Er.get fun _ => rfl) fun u => Er.bind (Er.ite (Er.bind (Er.mod (fun _ => rfl) fun _ => ⟨rfl, rfl, rfl, rfl⟩) fun _ =>
    Er.bind (Er.lift _) fun _ => Er.ite (Er.bind er_nextByte fun b => ?_) (Er.pure _)) (Er.pure _)) fun _ => er_refreshMeip
  cases b <;> simp only <;> er
macro_rules | `(tactic| er1) => `(tactic| with_reducible exact er_uartUpdateInput _)
theorem er_updateMtime (e : BitVec 64) : Er (updateMtime e : M σ Unit) (updateMtime e) := by
  unfold updateMtime; er
macro_rules | `(tactic| er1) => `(tactic| with_reducible exact er_updateMtime _)
theorem er_mtimeShadow : Er (mtimeShadow : M σ _) mtimeShadow := by unfold mtimeShadow; er
macro_rules | `(tactic| er1) => `(tactic| with_reducible exact er_mtimeShadow)
theorem er_mret : Er (mretStateUpdate : M σ Unit) mretStateUpdate := by unfold mretStateUpdate; er
macro_rules | `(tactic| er1) => `(tactic| with_reducible exact er_mret)
theorem er_rg (r : BitVec 5) : Er (rg r : M σ W) (rg r) := by unfold rg; er
macro_rules | `(tactic| er1) => `(tactic| with_reducible exact er_rg _)
theorem er_setNext (v : W) : Er (setNext v : M σ Unit) (setNext v) := by unfold setNext; er
macro_rules | `(tactic| er1) => `(tactic| with_reducible exact er_setNext _)
theorem er_nextSeq (v : W) : Er (nextSeq v : M σ Unit) (nextSeq v) := by unfold nextSeq; er
macro_rules | `(tactic| er1) => `(tactic| with_reducible exact er_nextSeq _)
theorem er_emit (ev : ProfEv) : Er (emit E ev) (emit (plain E) ev) := by unfold emit; er
macro_rules | `(tactic| er1) => `(tactic| with_reducible exact er_emit _)
theorem er_writeRf (r : BitVec 5) (v : W) : Er (writeRf r v : M σ Unit) (writeRf r v) := by unfold writeRf; er
macro_rules | `(tactic| er1) => `(tactic| with_reducible exact er_writeRf _ _)
theorem er_ub (k : UB) : Er (fun _ => .ub k : M σ α) (fun _ => .ub k) := Er.ub k
macro_rules | `(tactic| er1) => `(tactic| with_reducible exact er_ub _)
theorem er_writeRfPair (r : BitVec 5) (p : W × W) : Er (writeRfPair r p : M σ Unit) (writeRfPair r p) := by
  unfold writeRfPair
  refine Er.bind ?_ fun _ => Er.ite (Er.pure _) (Er.bind ?_ fun _ => Er.ite (Er.ub _) ?_) <;> er
macro_rules | `(tactic| er1) => `(tactic| with_reducible exact er_writeRfPair _ _)
theorem er_profState (b : Bool) : Er (profState E b) (profState (plain E) b) := by
  unfold profState M.whenM; er
macro_rules | `(tactic| er1) => `(tactic| with_reducible exact er_profState _)

/-! ## Instruction bodies -/

theorem er_dAluReg (w : W) : Er (dAluReg E w) (dAluReg (plain E) w) := by
  unfold dAluReg
  generalize aluRegSel (IP.funct7 w) (IP.funct3 w) = o
  cases o with
  | none => simp only; er
  | some op =>
    simp only
    refine Er.bind (er_rg _) fun a => Er.bind (er_rg _) fun b => Er.bind ?_ fun _ => ?_
    · cases op.divUns <;> simp only <;> er
    · er
macro_rules | `(tactic| er1) => `(tactic| with_reducible exact er_dAluReg _)
theorem er_aluSlti (w a b : W) : Er (aluSlti E w a b) (aluSlti (plain E) w a b) := by
  unfold aluSlti; er
macro_rules | `(tactic| er1) => `(tactic| with_reducible exact er_aluSlti _ _ _)
theorem er_aluImm (op : AluImmOp) (w a b : W) : Er (aluImm E op w a b) (aluImm (plain E) op w a b) := by
  cases op <;> simp only [aluImm] <;> er
macro_rules | `(tactic| er1) => `(tactic| with_reducible exact er_aluImm _ _ _ _)
theorem er_dAluImm (w : W) : Er (dAluImm E w) (dAluImm (plain E) w) := by
  unfold dAluImm
  generalize aluImmSel (IP.funct7b5 w) (IP.funct3 w) = o
  cases o <;> simp only <;> er
macro_rules | `(tactic| er1) => `(tactic| with_reducible exact er_dAluImm _)
theorem er_loadVal (op : LoadOp) (a : W) : Er (loadVal E op a) (loadVal (plain E) op a) := by
  cases op <;> simp only [loadVal] <;> er
macro_rules | `(tactic| er1) => `(tactic| with_reducible exact er_loadVal _ _)
theorem er_dLoad (w : W) : Er (dLoad E w) (dLoad (plain E) w) := by
  unfold dLoad
  generalize loadSel (IP.funct3 w) = o
  cases o <;> simp only <;> er
macro_rules | `(tactic| er1) => `(tactic| with_reducible exact er_dLoad _)
theorem er_dStore (w : W) : Er (dStore E w) (dStore (plain E) w) := by
  unfold dStore
  generalize storeSel (IP.funct3 w) = o
  cases o <;> simp only <;> er
macro_rules | `(tactic| er1) => `(tactic| with_reducible exact er_dStore _)
theorem er_dJalr (w : W) : Er (dJalr E w) (dJalr (plain E) w) := by unfold dJalr misaligned; er
macro_rules | `(tactic| er1) => `(tactic| with_reducible exact er_dJalr _)
theorem er_dJal (w : W) : Er (dJal E w) (dJal (plain E) w) := by unfold dJal misaligned; er
macro_rules | `(tactic| er1) => `(tactic| with_reducible exact er_dJal _)
theorem er_dLui (w : W) : Er (dLui E w) (dLui (plain E) w) := by unfold dLui; er
macro_rules | `(tactic| er1) => `(tactic| with_reducible exact er_dLui _)
theorem er_dAuipc (w : W) : Er (dAuipc E w) (dAuipc (plain E) w) := by unfold dAuipc; er
macro_rules | `(tactic| er1) => `(tactic| with_reducible exact er_dAuipc _)
theorem er_csrCntUpdate (w : W) (a : BitVec 16) : Er (csrCntUpdate E w a) (csrCntUpdate (plain E) w a) := by
  unfold csrCntUpdate; er
macro_rules | `(tactic| er1) => `(tactic| with_reducible exact er_csrCntUpdate _ _)
theorem er_writeCsr (e : CsrEntry) (v : W) : Er (writeCsr e v : M σ Unit) (writeCsr e v) := by
  unfold writeCsr
  cases e.perm <;> simp only <;> er
macro_rules | `(tactic| er1) => `(tactic| with_reducible exact er_writeCsr _ _)
theorem er_csrDo (op : CsrOp) (e : CsrEntry) (w v : W) : Er (csrDo op e w v : M σ Unit) (csrDo op e w v) := by
  cases op <;> simp only [csrDo] <;> er
macro_rules | `(tactic| er1) => `(tactic| with_reducible exact er_csrDo _ _ _ _)
theorem er_dCsr (w : W) : Er (dCsr E w) (dCsr (plain E) w) := by
  unfold dCsr
  simp only
  generalize csrInfo E.cfg.rv32c (IP.csrAddr w) = o
  cases o with
  | none => simp only; er
  | some e =>
    simp only
    refine Er.bind (er_csrCntUpdate _ _) fun _ => Er.bind (er_rg _) fun _ => Er.bind (Er.get fun _ => rfl) fun _ =>
      Er.bind (er_writeRf _ _) fun _ => Er.bind ?_ fun _ => (Er.mod (fun _ => rfl) fun _ => ⟨rfl, rfl, rfl, rfl⟩)
    cases csrSel (IP.funct3 w) <;> simp only <;> er
macro_rules | `(tactic| er1) => `(tactic| with_reducible exact er_dCsr _)
theorem er_dSystem (w : W) (h : w ≠ 0x10500073#32) : Er (dSystem E w) (dSystem (plain E) w) := by
  unfold dSystem
  rw [if_neg h, if_neg h]
  er
theorem er_dMiscMem (w : W) : Er (dMiscMem E w) (dMiscMem (plain E) w) := by unfold dMiscMem; er
macro_rules | `(tactic| er1) => `(tactic| with_reducible exact er_dMiscMem _)
theorem er_cWrite (op : COp) (r : BitVec 5) (v : W) : Er (cWrite E op r v) (cWrite (plain E) op r v) := by
  unfold cWrite; er
macro_rules | `(tactic| er1) => `(tactic| with_reducible exact er_cWrite _ _ _)
theorem er_cLoad (op : COp) (b d : BitVec 5) (o : W) : Er (cLoad E op b d o) (cLoad (plain E) op b d o) := by
  unfold cLoad; er
macro_rules | `(tactic| er1) => `(tactic| with_reducible exact er_cLoad _ _ _ _)
theorem er_cStore (op : COp) (b d : BitVec 5) (o : W) : Er (cStore E op b d o) (cStore (plain E) op b d o) := by
  unfold cStore; er
macro_rules | `(tactic| er1) => `(tactic| with_reducible exact er_cStore _ _ _ _)
theorem er_cAlu (w : W) (op : COp) (f : W → W → W) : Er (cAlu E w op f) (cAlu (plain E) w op f) := by
  unfold cAlu; er
macro_rules | `(tactic| er1) => `(tactic| with_reducible exact er_cAlu _ _ _)
theorem er_dCompressed0 (w : W) : Er (dCompressed0 E w) (dCompressed0 (plain E) w) := by
  unfold dCompressed0 cAddi4spn
  split <;> er
macro_rules | `(tactic| er1) => `(tactic| with_reducible exact er_dCompressed0 _)
theorem er_dCompressed1Alu (w : W) : Er (dCompressed1Alu E w) (dCompressed1Alu (plain E) w) := by
  unfold dCompressed1Alu
  split <;> er
macro_rules | `(tactic| er1) => `(tactic| with_reducible exact er_dCompressed1Alu _)
theorem er_cSlli (w : W) : Er (cSlli E w) (cSlli (plain E) w) := by unfold cSlli; er
macro_rules | `(tactic| er1) => `(tactic| with_reducible exact er_cSlli _)
theorem er_dCompressed1 (w : W) : Er (dCompressed1 E w) (dCompressed1 (plain E) w) := by
  unfold dCompressed1 cAddi cJal cLi cNop cAddi16sp cLui cSrli cSrai cAndi cJ cBeqz cBnez
  split <;> er
  split <;> er
macro_rules | `(tactic| er1) => `(tactic| with_reducible exact er_dCompressed1 _)
theorem er_dCompressed2 (w : W) : Er (dCompressed2 E w) (dCompressed2 (plain E) w) := by
  unfold dCompressed2 cJr cMv cEbreak cJalr cAdd
  split <;> er
  split <;> er
macro_rules | `(tactic| er1) => `(tactic| with_reducible exact er_dCompressed2 _)
theorem er_exec16 (w : W) : Er (exec16 E w) (exec16 (plain E) w) := by
  unfold exec16
  split <;> er
macro_rules | `(tactic| er1) => `(tactic| with_reducible exact er_exec16 _)
theorem er_simdExec (w : W) (op : Simd.Op) (h : ∀ m, op ≠ .scp m) : Er (simdExec E w op) (simdExec (plain E) w op) := by
  unfold simdExec
  refine Er.bind (er_rg _) fun a => Er.bind (er_rg _) fun b => Er.bind (er_rg _) fun c => ?_
  cases op
  case scp m => exact absurd rfl (h m)
  all_goals (simp only; er)

theorem er_profWindow : Er (profWindow E) (profWindow (plain E)) := by unfold profWindow; er
theorem er_wrapUp : Er (wrapUp E) (wrapUp (plain E)) := by unfold wrapUp; er

end Ama.HwInd
