import Verif.Lemmas.Wp
/-!
# Step invariants from primitive actions

`Prims E P` lists, for a state predicate `P`, that each primitive state change made by the
model preserves `P`; `Prims.step` concludes that a whole simulator step does.  The default
proofs discharge the primitives that do not touch the components `P` looks at.
-/
namespace Ama
open M
variable {σ : Type}

/-- primitives of memory accesses and traps -/
structure PrimsM (E : Env σ) (P : St σ → Prop) : Prop where
  hw : ∀ s g, P s → P { s with hw := g } := by exact fun _ _ h => h
  trap : ∀ c t, Pres P (trapInst c t) := by
    exact fun _ _ => Pres.bind (Pres.mod fun _ h => h) fun _ => Pres.mod fun _ h => h
  ramWr : ∀ a v n, a.toNat % n = 0 → Pres P (mmWr E a v n)
  uartWr : ∀ a v n, Pres P (uartWr a v n)
  uartRd : ∀ a n, Pres P (uartRd E a n)
  clintWr : ∀ a v n, Pres P (devWr E .clint a v n) := by
    exact fun _ _ _ => Pres.bind (Pres.get _) fun _ => Pres.bind (Pres.lift _) fun _ =>
      Pres.mod fun _ h => h

/-- the encoding of C.EBREAK, in the fields the decoder looks at -/
def isCEbreak (w : W) : Prop :=
  IP.copcode w = 2#2 ∧ IP.cFunct3 w = 4#3 ∧ IP.cFunct4 w = 9#4 ∧ IP.cRs2 w = 0#5 ∧ IP.rd w = 0#5

/-- primitives of executing an instruction other than SYSTEM ones, C.EBREAK and the profiling hints -/
structure PrimsN (E : Env σ) (P : St σ → Prop) : Prop extends PrimsM E P where
  rf : ∀ s r v, r ≠ 0#5 → P s → P { s with rf := upd s.rf r v } := by exact fun _ _ _ _ h => h
  nextPc : ∀ s v, P s → P { s with nextPc := v } := by exact fun _ _ h => h
  lib : ∀ s b, P s → P { s with lastInstBranch := b } := by exact fun _ _ h => h
  libHw : ∀ s b g, P s → P { s with lastInstBranch := b, hw := g } := by exact fun _ _ _ h => h
  resolved : ∀ s v, P s → P { s with instResolved := v } := by exact fun _ _ h => h
  spec : ∀ s v, P s → P { s with instSpec := v } := by exact fun _ _ h => h
  profLog : ∀ s v, P s → P { s with profLog := v } := by exact fun _ _ h => h
  wfiPend : ∀ s b, P s → P { s with wfiPend := b } := by exact fun _ _ h => h

/-- primitives of executing an instruction other than SYSTEM ones and C.EBREAK -/
structure PrimsX (E : Env σ) (P : St σ → Prop) : Prop extends PrimsN E P where
  profActive : ∀ s b, P s → P { s with profActive := b } := by exact fun _ _ h => h
  profPc : ∀ s v, P s → P { s with profPc := v } := by exact fun _ _ h => h
  runningHint : E.cfg.profilers = true → ∀ s, P s →
    P { s with running := !s.profPc.shouldExit } := by exact fun _ _ h => h

/-- primitives of fetch and execute -/
structure PrimsE (E : Env σ) (P : St σ → Prop) : Prop extends PrimsX E P where
  instC : ∀ s v, P s → P { s with inst := v } := by exact fun _ _ h => h
  stop : ∀ s b, (b = true → s.running = true) → P s → P { s with running := b } := by
    exact fun _ _ _ h => h
  inst : ∀ s v b, P s → P { s with inst := v, lastInstBranch := b } := by exact fun _ _ _ h => h
  mret : Pres P mretStateUpdate := by exact Pres.mod fun _ h => h
  cntUpd : ∀ w a, Pres P (csrCntUpdate E w a) := by
    exact fun _ _ => Pres.bind (Pres.mod fun _ h => h) fun _ =>
      Pres.bind (Pres.bind (Pres.get _) fun _ => Pres.lift _) fun _ => Pres.mod fun _ h => h
  wrCsr : ∀ a e v, csrInfo E.cfg.rv32c a = some e → Pres P (writeCsr e v)
  uartIn : ∀ t s a s', s.simStep = t → P s → uartUpdateInput E t s = .ok (a, s') → P s'
  mtime : Pres P (updateMtime 1#64)

/-- all primitives of a step -/
structure Prims (E : Env σ) (P : St σ → Prop) : Prop extends PrimsE E P where
  wfiActive : ∀ s b, P s → P { s with wfiActive := b } := by exact fun _ _ h => h
  untrap : ∀ s, P s → P { s with trapped := false } := by exact fun _ h => h
  simStep : ∀ s, P s → P { s with simStep := s.simStep + 1#64 } := by exact fun _ h => h
  finish : ∀ s, P s → s.trapped = false →
    P { s with
      profPc := if E.cfg.profilers && s.profActive
        then { s.profPc with instCnt := s.profPc.instCnt + 1#64 } else s.profPc
      pc := s.nextPc
      simInst := s.simInst + 1#64
      wfiActive := s.wfiActive || s.wfiPend
      wfiPend := false
      running := s.running && !(s.simInst + 1#64 == E.cfg.runInsts) } := by exact fun _ h _ => h

namespace PrimsM
set_option linter.unusedSectionVars false
variable {E : Env σ} {P : St σ → Prop} (h : PrimsM E P)
include h

theorem guardAccess (b : Bool) : Pres P (guardAccess b : M σ Unit) :=
  Pres.ite (Pres.pure _) Pres.abort
theorem hwUpd (f : σ → σ) : Pres P (hwUpd E f) :=
  Pres.ite (Pres.mod fun s hs => h.hw s _ hs) (Pres.pure _)
theorem eIllegal : Pres P eIllegal := Pres.bind (Pres.get _) fun _ => h.trap _ _
theorem eEnv (c : W) : Pres P (eEnv c) := Pres.bind (Pres.get _) fun _ => h.trap _ _
theorem eHardware : Pres P eHardware := Pres.bind (Pres.get _) fun _ => h.trap _ _
theorem eInstMisaligned (a : W) : Pres P (eInstMisaligned a) := h.trap _ _
theorem eDmemAccess (a : W) (o : MemOp) : Pres P (eDmemAccess a o) := h.trap _ _
theorem eDmemMisaligned (a : W) (o : MemOp) : Pres P (eDmemMisaligned a o) := h.trap _ _
theorem mmRdInst (a : W) : Pres P (mmRdInst E a) :=
  Pres.bind (h.guardAccess _) fun _ => Pres.bind (Pres.get _) fun _ => Pres.bind (Pres.lift _) fun _ =>
    Pres.bind (h.hwUpd _) fun _ => Pres.pure _
theorem rdInst (a : W) : Pres P (rdInst E a) :=
  Pres.ite (Pres.bind (h.eInstMisaligned _) fun _ => Pres.pure _) (h.mmRdInst _)
theorem justInst (a : W) : Pres P (justInst a : M σ W) := Pres.bind (Pres.get _) fun _ => Pres.lift _
theorem cacheHint (a : W) (m : Simd.ScpMode) : Pres P (cacheHint E a m) :=
  Pres.ite (Pres.bind (Pres.get _) fun _ => Pres.bind (Pres.mod fun s hs => h.hw s _ hs) fun _ =>
    Pres.pure _) (Pres.pure _)
theorem setAddr (a : W) (o : MemOp) (n : Nat) : Pres P (setAddr E a o n) := by
  unfold Ama.setAddr
  split
  · exact Pres.bind (h.eDmemAccess _ _) fun _ => Pres.pure _
  · exact Pres.ite (Pres.bind (h.eDmemMisaligned _ _) fun _ => Pres.pure _) (Pres.pure _)
theorem devRd (d : DevId) (a : W) (n : Nat) : Pres P (devRd E d a n) := by
  cases d
  · exact Pres.bind (h.guardAccess _) fun _ => Pres.bind (Pres.get _) fun _ =>
      Pres.bind (Pres.lift _) fun _ => Pres.bind (h.hwUpd _) fun _ => Pres.pure _
  · exact h.uartRd _ _
  · exact Pres.bind (Pres.get _) fun _ => Pres.lift _
theorem devWr (d : DevId) (a v : W) (n : Nat) (ha : a.toNat % n = 0) : Pres P (devWr E d a v n) := by
  cases d
  · exact h.ramWr _ _ _ ha
  · exact h.uartWr _ _ _
  · exact h.clintWr _ _ _
theorem memRd (a : W) (n : Nat) : Pres P (memRd E a n) := by
  refine Pres.bind (h.setAddr _ _ _) fun r => Pres.bind (Pres.get _) fun t => ?_
  split
  · exact h.devRd _ _ _
  · exact Pres.pure _
omit h in
/-- the offset `set_addr` returns is aligned -/
theorem setAddr_al {a off : W} {o : MemOp} {n : Nat} {d : DevId} {s s' : St σ}
    (e : Ama.setAddr E a o n s = .ok (some (d, off), s')) : off.toNat % n = 0 := by
  unfold Ama.setAddr at e
  generalize mapFind a (memMap E.cfg.uart) = r at e
  cases r with
  | none =>
    obtain ⟨_, _, _, e2⟩ := bind_eq_ok.1 e
    cases e2
  | some r =>
    simp only at e
    split at e
    · obtain ⟨_, _, _, e2⟩ := bind_eq_ok.1 e
      cases e2
    · rename_i hh
      cases e
      simpa using hh
theorem memWr (a v : W) (n : Nat) : Pres P (memWr E a v n) := by
  intro s u s' hp e
  obtain ⟨r, s1, e1, e2⟩ := bind_eq_ok.1 e
  have hp1 := h.setAddr a .write n s r s1 hp e1
  refine (Pres.bind (Pres.get _) fun t => ?_ : Pres P _) s1 u s' hp1 e2
  split
  · exact h.devWr _ _ _ _ (setAddr_al e1)
  · exact Pres.pure _

end PrimsM

namespace PrimsN
set_option linter.unusedSectionVars false
variable {E : Env σ} {P : St σ → Prop} (h : PrimsN E P)
include h

theorem writeRf (r : BitVec 5) (v : W) : Pres P (writeRf r v) :=
  Pres.iteH (fun _ => Pres.pure _) fun hr => Pres.mod fun s hs => h.rf s r v hr hs
theorem rg (r : BitVec 5) : Pres P (rg r : M σ W) := Pres.get _
theorem setNext (v : W) : Pres P (setNext v) := Pres.mod fun s hs => h.nextPc s v hs
theorem nextSeq (v : W) : Pres P (nextSeq v) := Pres.mod fun s hs => h.nextPc s _ hs
theorem emit (ev : ProfEv) : Pres P (emit E ev) :=
  Pres.ite (Pres.mod fun s hs => h.profLog s _ hs) (Pres.pure _)
theorem writeRfPair (r : BitVec 5) (p : W × W) : Pres P (writeRfPair r p) := by
  refine Pres.bind (Pres.ite h.eHardware (Pres.pure _)) fun _ => ?_
  refine Pres.iteH (fun _ => Pres.pure _) fun hr => ?_
  refine Pres.bind (Pres.mod fun s hs => h.rf s r _ hr hs) fun _ => ?_
  refine Pres.iteH (fun _ => Pres.ub _) fun hr2 => Pres.mod fun s hs => h.rf s _ _ ?_ hs
  revert hr hr2; revert r; decide
theorem dAluReg (w : W) : Pres P (dAluReg E w) := by
  unfold Ama.dAluReg
  split
  · exact h.eIllegal
  · refine Pres.bind (h.rg _) fun _ => Pres.bind (h.rg _) fun _ => Pres.bind ?_ fun _ =>
      Pres.bind (Pres.lift _) fun _ => Pres.bind (h.writeRf _ _) fun _ => Pres.bind (h.emit _) fun _ =>
      h.nextSeq _
    split
    · exact h.hwUpd _
    · exact Pres.pure _
theorem aluImm_of (op : AluImmOp) (w a b : W) (hs : Pres P (aluSlti E w a b)) : Pres P (aluImm E op w a b) := by
  cases op
  case slti => exact hs
  case slli =>
    exact Pres.bind (Pres.ite (Pres.bind (Pres.get _) fun _ => Pres.bind (h.justInst _) fun _ =>
      Pres.pure _) (Pres.pure _)) fun _ => Pres.lift _
  all_goals
    unfold Ama.aluImm
    exact Pres.lift _
theorem dAluImm_of (w : W) (hs : ∀ a b, Pres P (aluSlti E w a b)) : Pres P (dAluImm E w) := by
  unfold Ama.dAluImm
  split
  · exact h.eIllegal
  · exact Pres.bind (h.rg _) fun _ => Pres.bind (h.aluImm_of _ _ _ _ (hs _ _)) fun _ =>
      Pres.bind (h.writeRf _ _) fun _ => Pres.bind (h.emit _) fun _ => h.nextSeq _
theorem loadVal (op : LoadOp) (a : W) : Pres P (loadVal E op a) := by
  cases op
  · exact Pres.bind (h.memRd _ _) fun _ => Pres.pure _
  · exact Pres.bind (h.memRd _ _) fun _ => Pres.pure _
  all_goals exact h.memRd _ _
theorem dLoad (w : W) : Pres P (dLoad E w) := by
  unfold Ama.dLoad
  split
  · exact h.eIllegal
  · exact Pres.bind (h.rg _) fun _ => Pres.bind (h.loadVal _ _) fun _ => Pres.bind (Pres.get _) fun _ =>
      Pres.ite (Pres.pure _) (Pres.bind (h.writeRf _ _) fun _ => Pres.bind (h.emit _) fun _ => h.nextSeq _)
theorem dStore (w : W) : Pres P (dStore E w) := by
  unfold Ama.dStore
  split
  · exact Pres.bind h.eIllegal fun _ => h.nextSeq _
  · exact Pres.bind (h.rg _) fun _ => Pres.bind (h.rg _) fun _ => Pres.bind (h.memWr _ _ _) fun _ =>
      Pres.bind (Pres.get _) fun _ =>
      Pres.ite (Pres.pure _) (Pres.bind (h.emit _) fun _ => h.nextSeq _)
theorem branchHw (w : W) : Pres P (branchHw E w) := by
  refine Pres.bind (Pres.mod fun s hs => h.libHw s _ _ hs) fun _ => Pres.bind (Pres.get _) fun _ =>
    Pres.bind (Pres.get _) fun _ => Pres.bind (Pres.mod fun s hs => h.hw s _ hs) fun _ =>
    Pres.bind (Pres.ite (Pres.pure _) (Pres.bind (h.rdInst _) fun _ => Pres.mod fun s hs => h.spec s _ hs))
    fun _ => Pres.bind (Pres.mod fun s hs => h.hw s _ hs) fun _ => Pres.bind (Pres.get _) fun _ =>
    Pres.ite (Pres.bind (Pres.get _) fun sp => ?_) (Pres.bind (h.rdInst _) fun _ =>
      Pres.mod fun s hs => h.resolved s _ hs)
  split
  · exact Pres.mod fun s hs => h.resolved s _ hs
  · exact Pres.ub _
theorem dBranch (w : W) : Pres P (dBranch E w) := by
  refine Pres.bind (Pres.get _) fun _ => Pres.bind (h.setNext _) fun _ => Pres.bind ?_ fun _ =>
    Pres.bind (Pres.get _) fun _ => Pres.ite (h.eInstMisaligned _) (Pres.ite (h.branchHw _) (Pres.pure _))
  split
  · exact h.eIllegal
  · exact Pres.bind (h.rg _) fun _ => Pres.bind (h.rg _) fun _ =>
      Pres.ite (Pres.bind (h.setNext _) fun _ => h.emit _) (h.emit _)
theorem dJalr (w : W) : Pres P (dJalr E w) :=
  Pres.bind (Pres.ite h.eIllegal (Pres.pure _)) fun _ => Pres.bind (h.rg _) fun _ =>
    Pres.bind (h.setNext _) fun _ => Pres.bind (Pres.ite (h.eInstMisaligned _)
      (Pres.bind (Pres.get _) fun _ => h.writeRf _ _)) fun _ => h.emit _
theorem dJal (w : W) : Pres P (dJal E w) :=
  Pres.bind (Pres.get _) fun _ => Pres.bind (h.setNext _) fun _ => Pres.bind (Pres.ite (h.eInstMisaligned _)
      (h.writeRf _ _)) fun _ => h.emit _
theorem dLui (w : W) : Pres P (dLui E w) :=
  Pres.bind (h.writeRf _ _) fun _ => Pres.bind (h.nextSeq _) fun _ => h.emit _
theorem dAuipc (w : W) : Pres P (dAuipc E w) :=
  Pres.bind (Pres.get _) fun _ => Pres.bind (h.writeRf _ _) fun _ => Pres.bind (h.nextSeq _) fun _ => h.emit _
theorem dMiscMem (w : W) : Pres P (dMiscMem E w) :=
  Pres.ite (Pres.bind (h.nextSeq _) fun _ => h.emit _) <|
    Pres.ite (Pres.bind (h.nextSeq _) fun _ => h.emit _) h.eIllegal
theorem simdExec (w : W) (op : Simd.Op) : Pres P (simdExec E w op) := by
  refine Pres.bind (h.rg _) fun _ => Pres.bind (h.rg _) fun _ => Pres.bind (h.rg _) fun _ => ?_
  cases op
  case scp => exact Pres.bind (h.cacheHint _ _) fun _ => h.writeRf _ _
  all_goals first
    | exact h.writeRf _ _
    | exact h.writeRfPair _ _
    | exact Pres.bind (Pres.lift _) fun _ => h.writeRf _ _
    | exact Pres.bind (Pres.lift _) fun _ => h.writeRfPair _ _
theorem dCustom (w : W) : Pres P (dCustom E w) := by
  unfold Ama.dCustom
  split
  · exact Pres.bind (h.simdExec _ _) fun _ => Pres.bind (h.emit _) fun _ => h.nextSeq _
  · exact Pres.bind h.eIllegal fun _ => Pres.ite (Pres.pure _) (h.nextSeq _)

theorem cWrite (op : COp) (r : BitVec 5) (v : W) : Pres P (cWrite E op r v) :=
  Pres.bind (h.writeRf _ _) fun _ => Pres.bind (h.emit _) fun _ => h.nextSeq _
theorem cLoad (op : COp) (b d : BitVec 5) (o : W) : Pres P (cLoad E op b d o) :=
  Pres.bind (h.rg _) fun _ => Pres.bind (h.memRd _ _) fun _ => Pres.bind (Pres.get _) fun _ =>
    Pres.ite (Pres.pure _) (h.cWrite _ _ _)
theorem cStore (op : COp) (b d : BitVec 5) (o : W) : Pres P (cStore E op b d o) :=
  Pres.bind (h.rg _) fun _ => Pres.bind (h.rg _) fun _ => Pres.bind (h.memWr _ _ _) fun _ =>
    Pres.bind (Pres.get _) fun _ =>
    Pres.ite (Pres.pure _) (Pres.bind (h.emit _) fun _ => h.nextSeq _)
theorem trapIf (c : Prop) [Decidable c] : Pres P (if c then Ama.eIllegal else pure () : M σ Unit) :=
  Pres.ite h.eIllegal (Pres.pure _)
theorem cAddi4spn (w : W) : Pres P (cAddi4spn E w) :=
  Pres.bind (h.trapIf _) fun _ => Pres.bind (h.trapIf _) fun _ => Pres.bind (h.rg _) fun _ => h.cWrite _ _ _
theorem dCompressed0 (w : W) : Pres P (dCompressed0 E w) := by
  unfold Ama.dCompressed0
  split
  · exact h.cAddi4spn _
  · exact h.cLoad _ _ _ _
  · exact h.cStore _ _ _ _
  · exact h.eIllegal
theorem cAlu (w : W) (op : COp) (f : W → W → W) : Pres P (cAlu E w op f) :=
  Pres.bind (h.rg _) fun _ => Pres.bind (h.rg _) fun _ => h.cWrite _ _ _
theorem dCompressed1Alu (w : W) : Pres P (dCompressed1Alu E w) := by
  unfold Ama.dCompressed1Alu
  split
  all_goals first | exact h.cAlu _ _ _ | exact h.eIllegal
theorem cBeqz (w : W) : Pres P (cBeqz E w) :=
  Pres.bind (Pres.get _) fun _ => Pres.bind (h.rg _) fun _ =>
    Pres.ite (Pres.bind (h.setNext _) fun _ => h.emit _) (Pres.bind (h.setNext _) fun _ => h.emit _)
theorem cBnez (w : W) : Pres P (cBnez E w) :=
  Pres.bind (Pres.get _) fun _ => Pres.bind (h.rg _) fun _ =>
    Pres.ite (Pres.bind (h.setNext _) fun _ => h.emit _) (Pres.bind (h.setNext _) fun _ => h.emit _)
theorem cShift (f : Bool → W → W → Res W) (op : COp) (r : BitVec 5) (i : W) :
    Pres P (do
      let a ← Ama.rg r
      let x ← M.lift (f E.cfg.strict a i)
      Ama.cWrite E op r x : M σ Unit) :=
  Pres.bind (h.rg _) fun _ => Pres.bind (Pres.lift _) fun _ => h.cWrite _ _ _
theorem dCompressed1 (w : W) : Pres P (dCompressed1 E w) := by
  unfold Ama.dCompressed1
  split
  · exact Pres.bind (h.rg _) fun _ => h.cWrite _ _ _
  · exact Pres.bind (Pres.get _) fun _ => Pres.bind (h.setNext _) fun _ => Pres.bind (h.writeRf _ _) fun _ =>
      h.emit _
  · exact h.cWrite _ _ _
  · exact Pres.ite (Pres.bind (h.emit _) fun _ => h.nextSeq _) <| Pres.ite
      (Pres.bind (h.trapIf _) fun _ => Pres.bind (h.rg _) fun _ => h.cWrite _ _ _)
      (Pres.bind (h.trapIf _) fun _ => h.cWrite _ _ _)
  · split
    · exact h.cShift aluSrl _ _ _
    · exact h.cShift aluSra _ _ _
    · exact Pres.bind (h.rg _) fun _ => h.cWrite _ _ _
    · exact h.dCompressed1Alu _
  · exact Pres.bind (h.nextSeq _) fun _ => h.emit _
  · exact h.cBeqz _
  · exact h.cBnez _
theorem cSlli (w : W) : Pres P (cSlli E w) :=
  Pres.bind (h.rg _) fun _ => Pres.bind (Pres.lift _) fun _ => Pres.bind (h.writeRf _ _) fun _ =>
    Pres.bind (h.emit _) fun _ => Pres.bind (Pres.ite (Pres.bind (Pres.get _) fun _ =>
      Pres.bind (h.justInst _) fun _ => Pres.pure _) (Pres.pure _)) fun _ => h.nextSeq _
theorem dCompressed2_of (w : W) (heb : IP.cFunct3 w = 4#3 → IP.cFunct4 w = 9#4 → IP.cRs2 w = 0#5 → IP.rd w = 0#5 →
    Pres P (cEbreak E)) : Pres P (dCompressed2 E w) := by
  unfold Ama.dCompressed2
  split
  · exact h.cSlli _
  · exact h.cLoad _ _ _ _
  · exact h.cStore _ _ _ _
  · split
    · exact Pres.ite (Pres.bind (h.trapIf _) fun _ => Pres.bind (h.rg _) fun _ =>
        Pres.bind (h.setNext _) fun _ => h.emit _) (Pres.bind (h.rg _) fun _ => h.cWrite _ _ _)
    · exact Pres.iteH (fun hc => heb ‹_› ‹_› hc.1 hc.2) fun _ =>
        Pres.ite (Pres.bind (h.rg _) fun _ => Pres.bind (h.setNext _) fun _ => Pres.bind (Pres.get _) fun _ =>
          Pres.bind (h.writeRf _ _) fun _ => h.emit _)
        (Pres.bind (h.rg _) fun _ => Pres.bind (h.rg _) fun _ => h.cWrite _ _ _)
    · exact h.eIllegal
  · exact h.eIllegal
theorem exec16_of (w : W) (heb : isCEbreak w → Pres P (cEbreak E)) : Pres P (exec16 E w) := by
  unfold Ama.exec16
  split
  · exact h.dCompressed0 _
  · exact h.dCompressed1 _
  · exact h.dCompressed2_of _ fun h1 h2 h3 h4 => heb ⟨‹_›, h1, h2, h3, h4⟩
  · exact h.eIllegal
theorem exec32_of2 (w : W) (hs : ∀ a b, Pres P (aluSlti E w a b)) (hsys : IP.opcode w = 0x73#7 → Pres P (dSystem E w)) : Pres P (exec32 E w) := by
  unfold Ama.exec32
  split
  · exact h.dAluReg _
  · exact h.dAluImm_of _ hs
  · exact h.dLoad _
  · exact h.dStore _
  · exact h.dBranch _
  · exact h.dJalr _
  · exact h.dJal _
  · exact h.dLui _
  · exact h.dAuipc _
  · exact hsys ‹_›
  · exact h.dMiscMem _
  · exact Pres.ite (h.dCustom _) h.eIllegal
  · exact h.eIllegal
theorem csrDo_of (op : CsrOp) {e : CsrEntry} (hwr : ∀ v, Pres P (writeCsr e v)) (w v : W) :
    Pres P (csrDo op e w v) := by
  refine Pres.bind (Pres.get _) fun _ => ?_
  cases op
  case rw => exact hwr _
  case rwi => exact hwr _
  all_goals exact Pres.ite (Pres.pure _) (hwr _)
theorem dCsr_of (w : W) (hcnt : Pres P (csrCntUpdate E w (IP.csrAddr w)))
    (hwr : ∀ e v, csrInfo E.cfg.rv32c (IP.csrAddr w) = some e → Pres P (writeCsr e v))
    (hrun : ∀ s b, (b = true → s.running = true) → P s → P { s with running := b }) : Pres P (dCsr E w) := by
  unfold Ama.dCsr
  split
  · exact h.eIllegal
  · rename_i e he
    refine Pres.bind hcnt fun _ => Pres.bind (h.rg _) fun _ => Pres.bind (Pres.get _) fun _ =>
      Pres.bind (h.writeRf _ _) fun _ => Pres.bind ?_ fun _ => Pres.mod fun s hs => hrun s _ (by simp +contextual) hs
    split
    · exact Pres.bind (h.csrDo_of _ (fun v => hwr e v he) _ _) fun _ => h.emit _
    · exact h.eIllegal
theorem dSystem_of (w : W) (hmret : Pres P mretStateUpdate) (hcsr : IP.funct3 w ≠ 0#3 → Pres P (dCsr E w)) :
    Pres P (dSystem E w) :=
  Pres.iteH (fun hf => Pres.bind (hcsr hf) fun _ => h.nextSeq _) fun _ => Pres.ite (h.eEnv _) <| Pres.ite (h.eEnv _) <|
    Pres.ite (Pres.bind hmret fun _ => h.emit _) <|
    Pres.ite (Pres.bind (h.nextSeq _) fun _ => Pres.bind (Pres.mod fun s hs => h.wfiPend s _ hs) fun _ => h.emit _)
      h.eIllegal

end PrimsN

namespace PrimsX
set_option linter.unusedSectionVars false
variable {E : Env σ} {P : St σ → Prop} (h : PrimsX E P)
include h

theorem profState (b : Bool) : Pres P (profState E b) := by
  refine Pres.bind ?_ fun _ => h.hwUpd _
  unfold M.whenM
  exact Pres.ite (Pres.mod fun s hs => h.profActive s _ hs) (Pres.pure _)

theorem aluSlti (w a b : W) : Pres P (aluSlti E w a b) := by
  refine Pres.iteH (fun _ => ?_) fun _ => Pres.iteH (fun hc => ?_) (fun _ => Pres.pure _)
  · exact Pres.bind (Pres.get _) fun _ => Pres.bind (Pres.mod fun s hs => h.profPc s _ hs) fun _ =>
      Pres.bind (h.profState _) fun _ => Pres.pure _
  · exact Pres.bind (h.profState _) fun _ => Pres.bind (Pres.mod fun s hs => h.runningHint (by simp_all) s hs)
      fun _ => Pres.pure _
theorem aluImm (op : AluImmOp) (w a b : W) : Pres P (aluImm E op w a b) := h.aluImm_of _ _ _ _ (h.aluSlti _ _ _)
theorem dAluImm (w : W) : Pres P (dAluImm E w) := h.dAluImm_of _ fun _ _ => h.aluSlti _ _ _
theorem exec32_of (w : W) (hsys : IP.opcode w = 0x73#7 → Pres P (dSystem E w)) : Pres P (exec32 E w) :=
  h.exec32_of2 w (fun _ _ => h.aluSlti _ _ _) hsys

end PrimsX

namespace PrimsE
set_option linter.unusedSectionVars false
variable {E : Env σ} {P : St σ → Prop} (h : PrimsE E P)
include h

theorem dCsr (w : W) : Pres P (dCsr E w) := h.dCsr_of w (h.cntUpd _ _) (fun _ v he => h.wrCsr _ _ v he) h.stop
theorem dSystem (w : W) : Pres P (dSystem E w) := h.dSystem_of w h.mret fun _ => h.dCsr w
theorem exec16 (w : W) : Pres P (exec16 E w) := h.exec16_of w fun _ =>
  Pres.bind (Pres.mod fun s hs => h.stop s _ (by simp +contextual) hs) fun _ => h.emit _
theorem exec32 (w : W) : Pres P (exec32 E w) := h.exec32_of w fun _ => h.dSystem w
theorem exec : Pres P (exec E) :=
  Pres.bind (Pres.get _) fun _ => Pres.ite (Pres.ite (Pres.bind (Pres.mod fun s hs => h.instC s _ hs)
    fun _ => h.exec16 _) h.eIllegal) (h.exec32 _)
theorem fetch : Pres P (fetch E) :=
  Pres.bind (Pres.get _) fun _ => Pres.ite (Pres.mod fun s hs => h.inst s _ _ hs)
    (Pres.bind (Pres.get _) fun _ => Pres.bind (h.rdInst _) fun _ => Pres.mod fun s hs => h.inst s _ _ hs)
theorem checkInterrupts (b : Bool) : Pres P (checkInterrupts E b) :=
  Pres.ite (Pres.pure _) <| Pres.bind h.mtime fun _ =>
    Pres.bind (Pres.ite (fun s a s' hp e => h.uartIn _ s a s' rfl hp e) (Pres.pure _)) fun _ =>
    Pres.bind (Pres.get _) fun _ => Pres.bind (Pres.get _) fun _ => Pres.bind (Pres.get _) fun _ =>
    Pres.bind (Pres.ite (Pres.bind (h.trap _ _) fun _ => Pres.mod fun s hs => h.lib s _ hs)
      (Pres.ite (Pres.bind (h.trap _ _) fun _ => Pres.mod fun s hs => h.lib s _ hs) (Pres.pure _)))
      fun _ => Pres.pure _
theorem profWindow : Pres P (profWindow E) :=
  Pres.ite (Pres.bind (Pres.get _) fun _ => Pres.bind (Pres.get _) fun _ =>
    Pres.bind (Pres.mod fun s hs => h.profPc s _ hs) fun _ =>
    Pres.ite (Pres.bind (h.profState _) fun _ => Pres.pure _) <|
    Pres.ite (Pres.bind (h.profState _) fun _ => Pres.ite (Pres.bind (Pres.mod fun s hs => h.stop s _ (by simp +contextual) hs)
      fun _ => Pres.pure _) (Pres.pure _)) (Pres.pure _)) (Pres.pure _)
end PrimsE

namespace Prims
set_option linter.unusedSectionVars false
variable {E : Env σ} {P : St σ → Prop} (h : Prims E P)
include h

theorem stepExec : Pres P (stepExec E) :=
  Pres.bind (Pres.get _) fun _ =>
  Pres.bind (Pres.ite (Pres.pure _) (Pres.bind (Pres.get _) fun _ => Pres.bind (h.justInst _) fun _ =>
    Pres.pure _)) fun _ => Pres.bind (h.checkInterrupts _) fun _ =>
  Pres.bind (Pres.mod fun s hs => h.wfiActive s _ hs) fun _ => Pres.bind (Pres.get _) fun _ =>
  Pres.bind (Pres.get _) fun _ => Pres.ite (Pres.bind h.fetch fun _ => h.exec) (Pres.pure _)
theorem stepFinish : Pres P (stepFinish E) := by
  intro s a s' hp e
  unfold Ama.stepFinish at e
  simp only [M.bind_ok (M.get_app _ _)] at e
  split at e
  · simp at e; exact e ▸ hp
  · split at e
    · simp at e; subst e; exact h.stop s _ (by simp +contextual) hp
    · simp only [M.mod_app, Res.ok.injEq, Prod.mk.injEq, true_and] at e
      rename_i ht
      subst e; exact h.finish s hp (by simpa using ht)
/-- a step preserves `P` -/
theorem step : Pres P (step E) :=
  Pres.bind (Pres.mod fun s hs => h.untrap s hs) fun _ => Pres.bind h.profWindow fun _ =>
  Pres.ite (Pres.pure _) <| Pres.bind h.stepExec fun _ => Pres.bind (Pres.mod fun s hs => h.simStep s hs)
  fun _ => Pres.bind (Pres.get _) fun _ => Pres.ite (Pres.mod fun s hs => h.stop s _ (by simp) hs) h.stepFinish
/-- a whole run preserves `P` -/
theorem runN (n : Nat) : Pres P (runN E n) := Pres.runN E h.step n


end Prims

end Ama
