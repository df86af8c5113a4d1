import Verif.Model.Prof
import Verif.Lemmas.PrimsOf
import Verif.Lemmas.Cnt
/-!
# One profiler event per executed instruction

`PLog E L w K m`: started with the log `L` and the instruction word `w`, `m` ends with one more
record, of which `K` holds, or trapped without one.
-/
namespace Ama
open M
variable {σ α : Type} {E : Env σ} {L : List ProfRec} {w : W} {K : ProfRec → Prop}

/-- events of branches and jumps -/
def ProfEv.isBr : ProfEv → Bool
  | .branch .. | .jal | .jalr | .cBeqz _ | .cBnez _ | .c .j | .c .jal | .c .jr | .c .jalr => true
  | _ => false

/-- nothing logged yet -/
def EPre (L : List ProfRec) (w : W) (s : St σ) : Prop := s.profLog = L ∧ s.inst = w
/-- `r` was logged -/
structure EGot (L : List ProfRec) (w : W) (K : ProfRec → Prop) (s : St σ) (r : ProfRec) : Prop where
  log : s.profLog = r :: L
  inst : r.inst = w
  act : r.active = s.profActive
  name : K r
  pcs : s.trapped = false → r.pc = s.pc ∧ (r.ev.isBr = true → r.nextPc = s.nextPc)
/-- one record, or none and trapped -/
def EPost (L : List ProfRec) (w : W) (K : ProfRec → Prop) (s : St σ) : Prop :=
  s.inst = w ∧ ((s.profLog = L ∧ s.trapped = true) ∨ ∃ r, EGot L w K s r)
/-- from `EPre` to `EPost` -/
def PLog (L : List ProfRec) (w : W) (K : ProfRec → Prop) (m : M σ Unit) : Prop :=
  ∀ s, EPre L w s → wp m (fun _ s' => EPost L w K s') s

theorem pre_primsM (E : Env σ) (L : List ProfRec) (w : W) : PrimsM E (EPre L w) where
  ramWr := ramWr_of (fun _ _ h => h) (fun _ _ h => h)
  uartWr := uartWr_of (fun _ _ h => h)
  uartRd := uartRd_of (fun _ _ h => h) (fun _ _ h => h)

theorem PLog.bind {m : M σ α} {f : α → M σ Unit} (h1 : Pres (EPre L w) m) (h2 : ∀ a, PLog L w K (f a)) :
    PLog L w K (m >>= f) := fun s hs => (wp_bind _ _ _ _).2 fun a s1 e => h2 a s1 (h1 s a s1 hs e)
theorem PLog.then {m : M σ Unit} {f : Unit → M σ Unit} (h1 : PLog L w K m) (h2 : ∀ a, Pres (EPost L w K) (f a)) :
    PLog L w K (m >>= f) := fun s hs => (wp_bind _ _ _ _).2 fun a s1 e => Pres.iff_wp.1 (h2 a) s1 (h1 s hs a s1 e)
theorem PLog.ite {c : Prop} [Decidable c] {x y : M σ Unit} (hx : c → PLog L w K x) (hy : ¬ c → PLog L w K y) :
    PLog L w K (if c then x else y) := by
  split
  · exact hx ‹_›
  · exact hy ‹_›
theorem PLog.mono {K' : ProfRec → Prop} {m : M σ Unit} (h : PLog L w K m) (hk : ∀ r, r.inst = w → K r → K' r) : PLog L w K' m :=
  fun s hs => wp_mono (h s hs) fun _ _ ⟨h1, h2⟩ => ⟨h1, h2.imp_right fun ⟨r, hr⟩ =>
    ⟨r, hr.log, hr.inst, hr.act, hk r hr.inst hr.name, hr.pcs⟩⟩

theorem PLog.trap (c t : W) : PLog L w K (trapInst c t : M σ Unit) := by
  intro s hs u s' e
  rw [trapInst_app] at e
  simp only [Res.ok.injEq, Prod.mk.injEq, true_and] at e
  subst e
  exact ⟨hs.2, .inl ⟨hs.1, rfl⟩⟩
theorem PLog.illegal : PLog L w K (eIllegal : M σ Unit) := PLog.bind (Pres.get _) fun _ => PLog.trap _ _
theorem PLog.env (c : W) : PLog L w K (eEnv c : M σ Unit) := PLog.bind (Pres.get _) fun _ => PLog.trap _ _

/-- logging; `K` may use that the word, pc and next pc are those of the state -/
theorem PLog.emit (hp : E.cfg.profilers = true) {ev : ProfEv} (hk : ∀ r : ProfRec, r.inst = w → r.ev = ev → K r) :
    PLog L w K (emit E ev) := by
  intro s hs
  unfold Ama.emit
  rw [if_pos hp, wp_mod]
  exact ⟨hs.2, .inr ⟨⟨s.profActive, s.inst, s.pc, s.nextPc, ev⟩,
    { log := by rw [← hs.1], inst := hs.2, act := rfl, name := hk _ hs.2 rfl, pcs := fun _ => ⟨rfl, fun _ => rfl⟩ }⟩⟩

theorem post_next (hn : ∀ r, K r → r.ev.isBr = false) (v : W) : Pres (EPost L w K) (nextSeq v : M σ Unit) := by
  refine Pres.mod fun s hs => ⟨hs.1, hs.2.imp_right fun ⟨r, hr⟩ => ⟨r, hr.log, hr.inst, hr.act, hr.name, fun ht =>
    ⟨(hr.pcs ht).1, fun hb => ?_⟩⟩⟩
  rw [hn r hr.name] at hb
  cases hb

/-- log, then go to the next instruction -/
theorem PLog.emitNext (hp : E.cfg.profilers = true) {ev : ProfEv} {v : W} (hb : ev.isBr = false)
    (hk : ∀ r : ProfRec, r.inst = w → r.ev = ev → K r) : PLog L w K (do Ama.emit E ev; nextSeq v) :=
  PLog.mono (K := fun r => r.inst = w ∧ r.ev = ev)
    (PLog.then (PLog.emit hp fun r h1 h2 => ⟨h1, h2⟩) fun _ => post_next (fun r hr => by rw [hr.2]; exact hb) _)
    fun r h1 h2 => hk r h1 h2.2

theorem pre_writeRf (r : BitVec 5) (v : W) : Pres (EPre L w) (writeRf r v : M σ Unit) :=
  Pres.ite (Pres.pure _) (Pres.mod fun _ h => h)
theorem pre_next (v : W) : Pres (EPre L w) (nextSeq v : M σ Unit) := Pres.mod fun _ h => h
theorem pre_setNext (v : W) : Pres (EPre L w) (setNext v : M σ Unit) := Pres.mod fun _ h => h
theorem pre_pair (r : BitVec 5) (p : W × W) : Pres (EPre L w) (writeRfPair r p : M σ Unit) := by
  refine Pres.bind (Pres.ite (Pres.bind (Pres.get _) fun _ => Pres.bind (Pres.mod fun _ h => h) fun _ => Pres.mod fun _ h => h) (Pres.pure _)) fun _ => ?_
  refine Pres.ite (Pres.pure _) ?_
  refine Pres.bind (Pres.mod fun s hs => hs) fun _ => ?_
  exact Pres.ite (Pres.ub _) (Pres.mod fun s hs => hs)
theorem pre_profState (b : Bool) : Pres (EPre L w) (profState E b) := by
  refine Pres.bind ?_ fun _ => (pre_primsM E L w).hwUpd _
  unfold M.whenM
  exact Pres.ite (Pres.mod fun s hs => hs) (Pres.pure _)
theorem pre_trap (c t : W) : Pres (EPre L w) (trapInst c t : M σ Unit) :=
  Pres.bind (Pres.mod fun _ h => h) fun _ => Pres.mod fun _ h => h
theorem pre_illegal : Pres (EPre L w) (eIllegal : M σ Unit) := Pres.bind (Pres.get _) fun _ => pre_trap _ _
theorem pre_trapIf (c : Prop) [Decidable c] : Pres (EPre L w) (if c then eIllegal else pure () : M σ Unit) :=
  Pres.ite pre_illegal (Pres.pure _)
theorem pre_just (a : W) : Pres (EPre L w) (justInst a : M σ W) := Pres.bind (Pres.get _) fun _ => Pres.lift _

/-- stop if trapped, else go on -/
theorem PLog.unless {m : M σ Unit} (h : PLog L w K m) :
    PLog L w K (do let t ← get (·.trapped); if t then pure () else m) := by
  intro s hs
  rw [wp_bind, wp_get]
  by_cases ht : s.trapped = true
  · rw [if_pos ht, wp_pure]
    exact ⟨hs.2, .inl ⟨hs.1, ht⟩⟩
  · rw [if_neg ht]
    exact h s hs

theorem post_trap' (c t : W) : Pres (EPost L w K) (trapInst c t : M σ Unit) := by
  intro s u s' h e
  rw [trapInst_app] at e
  simp only [Res.ok.injEq, Prod.mk.injEq, true_and] at e
  subst e
  exact ⟨h.1, h.2.imp (fun h => ⟨h.1, rfl⟩) fun ⟨r, hr⟩ => ⟨r, hr.log, hr.inst, hr.act, hr.name, nofun⟩⟩
theorem post_of_same {f : St σ → St σ} (h : ∀ s, (f s).inst = s.inst ∧ (f s).profLog = s.profLog ∧
    (f s).trapped = s.trapped ∧ (f s).profActive = s.profActive ∧ (f s).pc = s.pc ∧ (f s).nextPc = s.nextPc) :
    Pres (EPost L w K) (M.mod f) := by
  refine Pres.mod fun s hs => ?_
  obtain ⟨h1, h2, h3, h4, h5, h6⟩ := h s
  refine ⟨h1.trans hs.1, hs.2.imp (fun a => ⟨h2.trans a.1, h3.trans a.2⟩) fun ⟨r, hr⟩ => ⟨r, h2.trans hr.log, hr.inst,
    hr.act.trans h4.symm, hr.name, fun ht => ?_⟩⟩
  rw [h5, h6]
  exact hr.pcs (h3 ▸ ht)
theorem postM (E : Env σ) (L : List ProfRec) (w : W) (K : ProfRec → Prop) : PrimsM E (EPost L w K) where
  hw := fun s v hs => (post_of_same (f := fun s => { s with hw := v }) fun _ => ⟨rfl, rfl, rfl, rfl, rfl, rfl⟩) s ()
    _ hs rfl
  trap := post_trap'
  ramWr := ramWr_of (fun s v hs => (post_of_same (f := fun s => { s with ram := v }) fun _ => ⟨rfl, rfl, rfl, rfl, rfl, rfl⟩) s ()
    _ hs rfl) (fun s v hs => (post_of_same (f := fun s => { s with hw := v }) fun _ => ⟨rfl, rfl, rfl, rfl, rfl, rfl⟩) s ()
    _ hs rfl)
  uartWr := uartWr_of (fun s v hs => (post_of_same (f := fun s => { s with uart := v }) fun _ => ⟨rfl, rfl, rfl, rfl, rfl, rfl⟩) s ()
    _ hs rfl)
  uartRd := uartRd_of (fun s v hs => (post_of_same (f := fun s => { s with uart := v }) fun _ => ⟨rfl, rfl, rfl, rfl, rfl, rfl⟩) s ()
    _ hs rfl) (fun s v hs => (post_of_same (f := fun s => { s with csr := upd s.csr A.mip v }) fun _ =>
      ⟨rfl, rfl, rfl, rfl, rfl, rfl⟩) s () _ hs rfl)
  clintWr := fun _ _ _ => Pres.bind (Pres.get _) fun _ => Pres.bind (Pres.lift _) fun _ =>
    post_of_same fun _ => ⟨rfl, rfl, rfl, rfl, rfl, rfl⟩

/-! ## What is logged for a word -/

/-- the operation of a compressed word, as the decoder finds it -/
def cOp (w : W) : Option COp :=
  match IP.copcode w with
  | 0#2 => match IP.cFunct3 w with
    | 0#3 => some .addi4spn | 2#3 => some .lw | 6#3 => some .sw | _ => none
  | 1#2 => match IP.cFunct3 w with
    | 0#3 => some .addi | 1#3 => some .jal | 2#3 => some .li
    | 3#3 => if IP.rd w = 0#5 then some .nop else if IP.rd w = 2#5 then some .addi16sp else some .lui
    | 4#3 => match IP.cFunct2h w with
      | 0#2 => some .srli | 1#2 => some .srai | 2#2 => some .andi
      | _ => match (IP.cFunct6 w ++ IP.cFunct2l w : BitVec 8) with
        | 0x8c#8 => some .sub | 0x8d#8 => some .xor | 0x8e#8 => some .or | 0x8f#8 => some .and | _ => none
    | 5#3 => some .j
    | _ => none
  | 2#2 => match IP.cFunct3 w with
    | 0#3 => some .slli | 2#3 => some .lwsp | 6#3 => some .swsp
    | 4#3 => match IP.cFunct4 w with
      | 8#4 => if IP.cRs2 w = 0#5 then some .jr else some .mv
      | 9#4 => if IP.cRs2 w = 0#5 ∧ IP.rd w = 0#5 then some .ebreak
        else if IP.cRs2 w = 0#5 then some .jalr else some .add
      | _ => none
    | _ => none
  | _ => none

/-- the event logged for a word; for branches, with the outcome for the registers `rf` and the pc the core goes to -/
def evNamed (rf : BitVec 5 → W) (r : ProfRec) : Prop :=
  match r.ev with
  | .alu op => IP.opcode r.inst = 0x33#7 ∧ aluRegSel (IP.funct7 r.inst) (IP.funct3 r.inst) = some op
  | .alui op => IP.opcode r.inst = 0x13#7 ∧ aluImmSel (IP.funct7b5 r.inst) (IP.funct3 r.inst) = some op
  | .load op => IP.opcode r.inst = 0x03#7 ∧ loadSel (IP.funct3 r.inst) = some op
  | .store op => IP.opcode r.inst = 0x23#7 ∧ storeSel (IP.funct3 r.inst) = some op
  | .branch op t => IP.opcode r.inst = 0x63#7 ∧ branchSel (IP.funct3 r.inst) = some op ∧
    t = branchCond op (rf (IP.rs1 r.inst)) (rf (IP.rs2 r.inst)) ∧
    r.nextPc = if t then r.pc + IP.immB r.inst else r.pc + 4#32
  | .jal => IP.opcode r.inst = 0x6f#7
  | .jalr => IP.opcode r.inst = 0x67#7
  | .lui => IP.opcode r.inst = 0x37#7
  | .auipc => IP.opcode r.inst = 0x17#7
  | .mret => r.inst = 0x30200073#32
  | .wfi => r.inst = 0x10500073#32
  | .fenceI => r.inst = 0x100f#32
  | .fence => IP.opcode r.inst = 0x0f#7 ∧ IP.funct3 r.inst = 0#3
  | .csr op => IP.opcode r.inst = 0x73#7 ∧ csrSel (IP.funct3 r.inst) = some op
  | .simd op => IP.opcode r.inst = 0x0b#7 ∧ Simd.sel (IP.funct7 r.inst) (IP.funct3 r.inst) = some op
  | .c op => IP.copcode r.inst ≠ 3#2 ∧ cOp r.inst = some op
  | .cBeqz t => IP.copcode r.inst = 1#2 ∧ ((IP.cFunct3 r.inst = 6#3 ∧ t = decide (rf (IP.cRegh r.inst) = 0#32)) ∨
      (IP.cFunct3 r.inst = 7#3 ∧ t = false ∧ rf (IP.cRegh r.inst) = 0#32)) ∧
    r.nextPc = if t then r.pc + IP.cImmB r.inst else r.pc + 2#32
  | .cBnez t => IP.copcode r.inst = 1#2 ∧ IP.cFunct3 r.inst = 7#3 ∧ t = true ∧
    rf (IP.cRegh r.inst) ≠ 0#32 ∧ r.nextPc = r.pc + IP.cImmB r.inst

/-- as `PLog`, from a state with the registers `rf` -/
def PLogR (L : List ProfRec) (w : W) (rf : BitVec 5 → W) (K : ProfRec → Prop) (m : M σ Unit) : Prop :=
  ∀ s, EPre L w s → s.rf = rf → wp m (fun _ s' => EPost L w K s') s
theorem PLog.toR {m : M σ Unit} (rf : BitVec 5 → W) (h : PLog L w K m) : PLogR L w rf K m := fun s hs _ => h s hs
variable {rf : BitVec 5 → W}

set_option linter.unusedSectionVars false
section
variable (hp : E.cfg.profilers = true)
include hp

theorem ev_aluReg (ho : IP.opcode w = 0x33#7) : PLog L w (evNamed rf) (dAluReg E w) := by
  unfold dAluReg
  split
  · exact PLog.illegal
  · rename_i op hsel
    refine PLog.bind (Pres.get _) fun _ => PLog.bind (Pres.get _) fun _ => PLog.bind ?_ fun _ => PLog.bind (Pres.lift _) fun _ =>
      PLog.bind (pre_writeRf _ _) fun _ => PLog.emitNext hp rfl fun r h1 h2 => by
        simp only [evNamed, h2, h1]; exact ⟨ho, hsel⟩
    split
    · exact (pre_primsM E L w).hwUpd _
    · exact Pres.pure _
theorem pre_slti (a b : W) : Pres (EPre L w) (aluSlti E w a b) := by
  refine Pres.iteH (fun _ => ?_) fun _ => Pres.iteH (fun hc => ?_) (fun _ => Pres.pure _)
  · exact Pres.bind (Pres.get _) fun _ => Pres.bind (Pres.mod fun s hs => hs) fun _ =>
      Pres.bind (pre_profState _) fun _ => Pres.pure _
  · exact Pres.bind (pre_profState _) fun _ => Pres.bind (Pres.mod fun s hs => hs) fun _ => Pres.pure _
theorem pre_aluImm (op : AluImmOp) (a b : W) : Pres (EPre L w) (aluImm E op w a b) := by
  cases op
  case slti => exact pre_slti hp _ _
  case slli =>
    exact Pres.bind (Pres.ite (Pres.bind (Pres.get _) fun _ => Pres.bind (pre_just _) fun _ =>
      Pres.pure _) (Pres.pure _)) fun _ => Pres.lift _
  all_goals
    unfold Ama.aluImm
    exact Pres.lift _
theorem ev_aluImm (ho : IP.opcode w = 0x13#7) : PLog L w (evNamed rf) (dAluImm E w) := by
  unfold dAluImm
  split
  · exact PLog.illegal
  · rename_i op hsel
    exact PLog.bind (Pres.get _) fun _ => PLog.bind (pre_aluImm hp _ _ _) fun _ =>
      PLog.bind (pre_writeRf _ _) fun _ => PLog.emitNext hp rfl fun r h1 h2 => by
        simp only [evNamed, h2, h1]; exact ⟨ho, hsel⟩
theorem pre_loadVal (op : LoadOp) (a : W) : Pres (EPre L w) (loadVal E op a) := by
  have h := pre_primsM E L w
  cases op
  · exact Pres.bind (h.memRd _ _) fun _ => Pres.pure _
  · exact Pres.bind (h.memRd _ _) fun _ => Pres.pure _
  all_goals exact h.memRd _ _
theorem ev_load (ho : IP.opcode w = 0x03#7) : PLog L w (evNamed rf) (dLoad E w) := by
  unfold dLoad
  split
  · exact PLog.illegal
  · rename_i op hsel
    exact PLog.bind (Pres.get _) fun _ => PLog.bind (pre_loadVal hp _ _) fun _ => PLog.unless <|
      PLog.bind (pre_writeRf _ _) fun _ => PLog.emitNext hp rfl fun r h1 h2 => by
        simp only [evNamed, h2, h1]; exact ⟨ho, hsel⟩
theorem post_nextT (v : W) : PLog L w K (do eIllegal; nextSeq v : M σ Unit) :=
  PLog.mono (K := fun _ => False) (PLog.then PLog.illegal fun _ => post_next (fun _ h => h.elim) _) fun _ _ h => h.elim
theorem ev_store (ho : IP.opcode w = 0x23#7) : PLog L w (evNamed rf) (dStore E w) := by
  unfold dStore
  split
  · exact post_nextT hp _
  · rename_i op hsel
    exact PLog.bind (Pres.get _) fun _ => PLog.bind (Pres.get _) fun _ => PLog.bind ((pre_primsM E L w).memWr _ _ _) fun _ =>
      PLog.unless <| PLog.emitNext hp rfl fun r h1 h2 => by
        simp only [evNamed, h2, h1]; exact ⟨ho, hsel⟩

/-- log a branch: `next_pc` has just been set from `pc` -/
theorem wp_emitBr {ev : ProfEv} {s : St σ} (hs : EPre L w s)
    (hk : evNamed rf ⟨s.profActive, w, s.pc, s.nextPc, ev⟩) : wp (emit E ev) (fun _ s' => EPost L w (evNamed rf) s') s := by
  unfold Ama.emit
  rw [if_pos hp, wp_mod]
  exact ⟨hs.2, .inr ⟨⟨s.profActive, s.inst, s.pc, s.nextPc, ev⟩,
    { log := by rw [← hs.1], inst := hs.2, act := rfl, name := hs.2 ▸ hk, pcs := fun _ => ⟨rfl, fun _ => rfl⟩ }⟩⟩

theorem ev_branchHw : Pres (EPost L w K) (branchHw E w) := by
  have h := postM E L w K
  refine Pres.bind (post_of_same fun _ => ⟨rfl, rfl, rfl, rfl, rfl, rfl⟩) fun _ => Pres.bind (Pres.get _) fun _ =>
    Pres.bind (Pres.get _) fun _ => Pres.bind (Pres.mod fun s hs => h.hw s _ hs) fun _ =>
    Pres.bind (Pres.ite (Pres.pure _) (Pres.bind (h.rdInst _) fun _ => post_of_same fun _ => ⟨rfl, rfl, rfl, rfl, rfl, rfl⟩))
    fun _ => Pres.bind (Pres.mod fun s hs => h.hw s _ hs) fun _ => Pres.bind (Pres.get _) fun _ =>
    Pres.ite (Pres.bind (Pres.get _) fun sp => ?_) (Pres.bind (h.rdInst _) fun _ =>
      post_of_same fun _ => ⟨rfl, rfl, rfl, rfl, rfl, rfl⟩)
  split
  · exact post_of_same fun _ => ⟨rfl, rfl, rfl, rfl, rfl, rfl⟩
  · exact Pres.ub _

theorem ev_branch (ho : IP.opcode w = 0x63#7) : PLogR L w rf (evNamed rf) (dBranch E w) := by
  unfold dBranch
  intro s hs hrf
  rw [wp_bind, wp_get, wp_bind]
  unfold setNext
  rw [wp_mod, wp_bind]
  have tail : ∀ u : Unit, Pres (EPost L w (evNamed rf)) (do
      let n ← get (·.nextPc)
      if misaligned E n then eInstMisaligned n
      else if E.cfg.hwModels then branchHw E w
      else pure () : M σ Unit) := fun _ => Pres.bind (Pres.get _) fun _ =>
    Pres.ite (post_trap' _ _) (Pres.ite (ev_branchHw hp) (Pres.pure _))
  refine wp_mono ?_ fun a s1 h1 => Pres.iff_wp.1 (tail a) s1 h1
  cases hb : branchSel (IP.funct3 w) with
  | none => exact PLog.illegal _ hs
  | some op =>
    simp only [rg]
    rw [wp_bind, wp_get, wp_bind, wp_get]
    rw [hrf]
    split
    · rename_i hc
      rw [wp_bind, wp_mod]
      exact wp_emitBr hp hs (by simp only [evNamed, if_true]; exact ⟨ho, hb, hc.symm, trivial⟩)
    · rename_i hc
      exact wp_emitBr hp hs (by
        simp only [evNamed, Bool.false_eq_true, if_false]; exact ⟨ho, hb, by simpa using hc, trivial⟩)

theorem ev_jalr (ho : IP.opcode w = 0x67#7) : PLog L w (evNamed rf) (dJalr E w) :=
  PLog.bind (pre_trapIf _) fun _ => PLog.bind (Pres.get _) fun _ => PLog.bind (pre_setNext _) fun _ =>
    PLog.bind (Pres.ite (pre_trap _ _) (Pres.bind (Pres.get _) fun _ => pre_writeRf _ _)) fun _ =>
    PLog.emit hp fun r h1 h2 => by simp only [evNamed, h2, h1]; exact ho
theorem ev_jal (ho : IP.opcode w = 0x6f#7) : PLog L w (evNamed rf) (dJal E w) :=
  PLog.bind (Pres.get _) fun _ => PLog.bind (pre_setNext _) fun _ =>
    PLog.bind (Pres.ite (pre_trap _ _) (pre_writeRf _ _)) fun _ =>
    PLog.emit hp fun r h1 h2 => by simp only [evNamed, h2, h1]; exact ho
theorem ev_lui (ho : IP.opcode w = 0x37#7) : PLog L w (evNamed rf) (dLui E w) :=
  PLog.bind (pre_writeRf _ _) fun _ => PLog.bind (pre_next _) fun _ =>
    PLog.emit hp fun r h1 h2 => by simp only [evNamed, h2, h1]; exact ho
theorem ev_auipc (ho : IP.opcode w = 0x17#7) : PLog L w (evNamed rf) (dAuipc E w) :=
  PLog.bind (Pres.get _) fun _ => PLog.bind (pre_writeRf _ _) fun _ => PLog.bind (pre_next _) fun _ =>
    PLog.emit hp fun r h1 h2 => by simp only [evNamed, h2, h1]; exact ho
theorem ev_misc (ho : IP.opcode w = 0x0f#7) : PLog L w (evNamed rf) (dMiscMem E w) :=
  PLog.ite (fun hw => PLog.bind (pre_next _) fun _ => PLog.emit hp fun r h1 h2 => by simp only [evNamed, h2, h1]; exact hw)
    fun _ => PLog.ite (fun hf => PLog.bind (pre_next _) fun _ => PLog.emit hp fun r h1 h2 => by
      simp only [evNamed, h2, h1]; exact ⟨ho, hf⟩) fun _ => PLog.illegal
theorem pre_simd (op : Simd.Op) : Pres (EPre L w) (simdExec E w op) := by
  refine Pres.bind (Pres.get _) fun _ => Pres.bind (Pres.get _) fun _ => Pres.bind (Pres.get _) fun _ => ?_
  cases op
  case scp => exact Pres.bind ((pre_primsM E L w).cacheHint _ _) fun _ => pre_writeRf _ _
  all_goals first
    | exact pre_writeRf _ _
    | exact pre_pair _ _
    | exact Pres.bind (Pres.lift _) fun _ => pre_writeRf _ _
    | exact Pres.bind (Pres.lift _) fun _ => pre_pair _ _
theorem ev_custom (ho : IP.opcode w = 0x0b#7) : PLog L w (evNamed rf) (dCustom E w) := by
  unfold dCustom
  split
  · rename_i op hsel
    exact PLog.bind (pre_simd hp _) fun _ => PLog.emitNext hp rfl fun r h1 h2 => by
      simp only [evNamed, h2, h1]; exact ⟨ho, hsel⟩
  · by_cases hr : Simd.selReturns (IP.funct7 w) = true
    · simp only [hr, if_true]
      exact PLog.then PLog.illegal fun _ => Pres.pure _
    · simp only [hr]
      exact post_nextT hp _

theorem pre_cnt (a : BitVec 16) : Pres (EPre L w) (csrCntUpdate E w a) :=
  Pres.bind (Pres.mod fun _ h => h) fun _ =>
    Pres.bind (Pres.bind (Pres.get _) fun _ => Pres.lift _) fun _ => Pres.mod fun _ h => h
theorem pre_wrCsr (e : CsrEntry) (v : W) : Pres (EPre L w) (writeCsr e v : M σ Unit) :=
  wrCsr_of pre_trap (fun _ _ _ h => h) _ _
theorem pre_csrDo (op : CsrOp) (e : CsrEntry) (v : W) : Pres (EPre L w) (csrDo op e w v : M σ Unit) := by
  refine Pres.bind (Pres.get _) fun _ => ?_
  cases op
  case rw => exact pre_wrCsr hp _ _
  case rwi => exact pre_wrCsr hp _ _
  all_goals exact Pres.ite (Pres.pure _) (pre_wrCsr hp _ _)
theorem ev_csr (ho : IP.opcode w = 0x73#7) : PLog L w (fun r => evNamed rf r ∧ r.ev.isBr = false) (dCsr E w) := by
  unfold dCsr
  split
  · exact PLog.illegal
  · refine PLog.bind (pre_cnt hp _) fun _ => PLog.bind (Pres.get _) fun _ => PLog.bind (Pres.get _) fun _ =>
      PLog.bind (pre_writeRf _ _) fun _ => PLog.then ?_ fun _ => post_of_same fun _ => ⟨rfl, rfl, rfl, rfl, rfl, rfl⟩
    split
    · rename_i op hsel
      exact PLog.bind (pre_csrDo hp _ _ _) fun _ => PLog.emit hp fun r h1 h2 => by
        simp only [evNamed, h2, h1]; exact ⟨⟨ho, hsel⟩, rfl⟩
    · exact PLog.illegal
theorem ev_system (ho : IP.opcode w = 0x73#7) : PLog L w (evNamed rf) (dSystem E w) :=
  PLog.ite (fun _ => PLog.mono (PLog.then (ev_csr hp ho) fun _ => post_next (fun _ h => h.2) _) fun _ _ h => h.1) fun _ =>
  PLog.ite (fun _ => PLog.env _) fun _ => PLog.ite (fun _ => PLog.env _) fun _ =>
  PLog.ite (fun hw => PLog.bind (Pres.mod fun _ h => h) fun _ => PLog.emit hp fun r h1 h2 => by
    simp only [evNamed, h2, h1]; exact hw) fun _ =>
  PLog.ite (fun hw => PLog.bind (pre_next _) fun _ => PLog.bind (Pres.mod fun _ h => h) fun _ => PLog.emit hp fun r h1 h2 => by
    simp only [evNamed, h2, h1]; exact hw) fun _ => PLog.illegal

theorem ev_32 : PLogR L w rf (evNamed rf) (exec32 E w) := by
  unfold exec32
  split
  · exact PLog.toR _ (ev_aluReg hp ‹_›)
  · exact PLog.toR _ (ev_aluImm hp ‹_›)
  · exact PLog.toR _ (ev_load hp ‹_›)
  · exact PLog.toR _ (ev_store hp ‹_›)
  · exact ev_branch hp ‹_›
  · exact PLog.toR _ (ev_jalr hp ‹_›)
  · exact PLog.toR _ (ev_jal hp ‹_›)
  · exact PLog.toR _ (ev_lui hp ‹_›)
  · exact PLog.toR _ (ev_auipc hp ‹_›)
  · exact PLog.toR _ (ev_system hp ‹_›)
  · exact PLog.toR _ (ev_misc hp ‹_›)
  · exact PLog.toR _ (PLog.ite (fun _ => ev_custom hp ‹_›) fun _ => PLog.illegal)
  · exact PLog.toR _ (PLog.illegal)

/-! compressed -/

theorem ev_cWrite {op : COp} {r : BitVec 5} {v : W} (hb : (ProfEv.c op).isBr = false) (h3 : IP.copcode w ≠ 3#2)
    (hc : cOp w = some op) : PLog L w (evNamed rf) (cWrite E op r v) :=
  PLog.bind (pre_writeRf _ _) fun _ => PLog.emitNext hp hb fun r h1 h2 => by
    simp only [evNamed, h2, h1]; exact ⟨h3, hc⟩
theorem ev_cEmit {op : COp} (h3 : IP.copcode w ≠ 3#2) (hc : cOp w = some op) : PLog L w (evNamed rf) (emit E (.c op)) :=
  PLog.emit hp fun r h1 h2 => by simp only [evNamed, h2, h1]; exact ⟨h3, hc⟩
theorem ev_cLoad {op : COp} {b d : BitVec 5} {o : W} (hb : (ProfEv.c op).isBr = false) (h3 : IP.copcode w ≠ 3#2)
    (hc : cOp w = some op) : PLog L w (evNamed rf) (cLoad E op b d o) :=
  PLog.bind (Pres.get _) fun _ => PLog.bind ((pre_primsM E L w).memRd _ _) fun _ => PLog.unless (ev_cWrite hp hb h3 hc)
theorem ev_cStore {op : COp} {b d : BitVec 5} {o : W} (hb : (ProfEv.c op).isBr = false) (h3 : IP.copcode w ≠ 3#2)
    (hc : cOp w = some op) : PLog L w (evNamed rf) (cStore E op b d o) :=
  PLog.bind (Pres.get _) fun _ => PLog.bind (Pres.get _) fun _ => PLog.bind ((pre_primsM E L w).memWr _ _ _) fun _ =>
    PLog.unless (PLog.emitNext hp hb fun r h1 h2 => by simp only [evNamed, h2, h1]; exact ⟨h3, hc⟩)

theorem ev_c0 (h : IP.copcode w = 0#2) : PLog L w (evNamed rf) (dCompressed0 E w) := by
  have h3 : IP.copcode w ≠ 3#2 := by rw [h]; decide
  unfold dCompressed0
  split
  · rename_i hf
    exact PLog.bind (pre_trapIf _) fun _ => PLog.bind (pre_trapIf _) fun _ => PLog.bind (Pres.get _) fun _ =>
      ev_cWrite hp rfl h3 (by unfold cOp; rw [h, hf]; rfl)
  · rename_i hf
    exact ev_cLoad hp rfl h3 (by unfold cOp; rw [h, hf]; rfl)
  · rename_i hf
    exact ev_cStore hp rfl h3 (by unfold cOp; rw [h, hf]; rfl)
  · exact PLog.illegal

theorem ev_c1 (h : IP.copcode w = 1#2) : PLogR L w rf (evNamed rf) (dCompressed1 E w) := by
  have h3 : IP.copcode w ≠ 3#2 := by rw [h]; decide
  unfold dCompressed1
  split
  · rename_i hf
    exact PLog.toR _ <| PLog.bind (Pres.get _) fun _ => ev_cWrite hp rfl h3 (by unfold cOp; rw [h, hf]; rfl)
  · rename_i hf
    exact PLog.toR _ <| PLog.bind (Pres.get _) fun _ => PLog.bind (pre_setNext _) fun _ => PLog.bind (pre_writeRf _ _) fun _ =>
      ev_cEmit hp h3 (by unfold cOp; rw [h, hf]; rfl)
  · rename_i hf
    exact PLog.toR _ <| ev_cWrite hp rfl h3 (by unfold cOp; rw [h, hf]; rfl)
  · rename_i hf
    have hc : cOp w = if IP.rd w = 0#5 then some .nop else if IP.rd w = 2#5 then some .addi16sp else some .lui := by
      unfold cOp; rw [h, hf]; rfl
    refine PLog.toR _ <| PLog.ite (fun h1 => ?_) fun h1 => PLog.ite (fun h2 => ?_) fun h2 => ?_
    · exact PLog.emitNext hp rfl fun r e1 e2 => by
        simp only [evNamed, e2, e1]; exact ⟨h3, by rw [hc, if_pos h1]⟩
    · exact PLog.bind (pre_trapIf _) fun _ => PLog.bind (Pres.get _) fun _ =>
        ev_cWrite hp rfl h3 (by rw [hc, if_neg h1, if_pos h2])
    · exact PLog.bind (pre_trapIf _) fun _ => ev_cWrite hp rfl h3 (by rw [hc, if_neg h1, if_neg h2])
  · rename_i hf
    split
    · rename_i h2
      exact PLog.toR _ <| PLog.bind (Pres.get _) fun _ => PLog.bind (Pres.lift _) fun _ =>
        ev_cWrite hp rfl h3 (by unfold cOp; rw [h, hf, h2]; rfl)
    · rename_i h2
      exact PLog.toR _ <| PLog.bind (Pres.get _) fun _ => PLog.bind (Pres.lift _) fun _ =>
        ev_cWrite hp rfl h3 (by unfold cOp; rw [h, hf, h2]; rfl)
    · rename_i h2
      exact PLog.toR _ <| PLog.bind (Pres.get _) fun _ => ev_cWrite hp rfl h3 (by unfold cOp; rw [h, hf, h2]; rfl)
    · rename_i n0 n1 n2
      have h2 : IP.cFunct2h w = 3#2 := by
        revert n0 n1 n2; generalize IP.cFunct2h w = x; revert x; decide
      have hc : cOp w = match (IP.cFunct6 w ++ IP.cFunct2l w : BitVec 8) with
        | 0x8c#8 => some .sub | 0x8d#8 => some .xor | 0x8e#8 => some .or | 0x8f#8 => some .and | _ => none := by
        unfold cOp; rw [h, hf, h2]; rfl
      unfold dCompressed1Alu
      split
      all_goals first
        | exact PLog.toR _ <| PLog.illegal
        | (rename_i h8
           rw [h8] at hc
           exact PLog.toR _ <| PLog.bind (Pres.get _) fun _ => PLog.bind (Pres.get _) fun _ => ev_cWrite hp rfl h3 hc)
  · rename_i hf
    exact PLog.toR _ <| PLog.bind (pre_next _) fun _ => ev_cEmit hp h3 (by unfold cOp; rw [h, hf]; rfl)
  · rename_i hf
    unfold cBeqz
    intro s hs hrf
    simp only [rg]
    rw [wp_bind, wp_get, wp_bind, wp_get, hrf]
    split
    · rename_i hc
      rw [wp_bind, setNext, wp_mod]
      exact wp_emitBr hp hs (by
        simp only [evNamed, if_true]; exact ⟨h, .inl ⟨hf, (decide_eq_true hc).symm⟩, trivial⟩)
    · rename_i hc
      rw [wp_bind, setNext, wp_mod]
      exact wp_emitBr hp hs (by
        simp only [evNamed, Bool.false_eq_true, if_false]; exact ⟨h, .inl ⟨hf, (decide_eq_false hc).symm⟩, trivial⟩)
  · rename_i n0 n1 n2 n3 n4 n5 n6
    have hf : IP.cFunct3 w = 7#3 := by
      revert n0 n1 n2 n3 n4 n5 n6; generalize IP.cFunct3 w = x; revert x; decide
    unfold cBnez
    intro s hs hrf
    simp only [rg]
    rw [wp_bind, wp_get, wp_bind, wp_get, hrf]
    split
    · rename_i hc
      rw [wp_bind, setNext, wp_mod]
      exact wp_emitBr hp hs (by simp only [evNamed]; exact ⟨h, hf, trivial, hc, trivial⟩)
    · rename_i hc
      rw [wp_bind, setNext, wp_mod]
      exact wp_emitBr hp hs (by
        simp only [evNamed, Bool.false_eq_true, if_false]
        exact ⟨h, .inr ⟨hf, trivial, Classical.byContradiction hc⟩, trivial⟩)

theorem ev_c2 (h : IP.copcode w = 2#2) : PLog L w (evNamed rf) (dCompressed2 E w) := by
  have h3 : IP.copcode w ≠ 3#2 := by rw [h]; decide
  unfold dCompressed2
  split
  · rename_i hf
    have hc : cOp w = some .slli := by unfold cOp; rw [h, hf]; rfl
    refine PLog.bind (Pres.get _) fun _ => PLog.bind (Pres.lift _) fun _ => PLog.bind (pre_writeRf _ _) fun _ => ?_
    refine PLog.mono (K := fun r => r.ev = .c .slli) (PLog.then (PLog.emit hp fun r _ h2 => h2) fun _ => Pres.bind (Pres.ite
      (Pres.bind (Pres.get _) fun _ => Pres.bind (Pres.bind (Pres.get _) fun _ => Pres.lift _) fun _ => Pres.pure _)
      (Pres.pure _)) fun _ => post_next (fun r hr => by rw [hr]; rfl) _) fun r h1 h2 => by
        simp only [evNamed, h2, h1]; exact ⟨h3, hc⟩
  · rename_i hf
    exact ev_cLoad hp rfl h3 (by unfold cOp; rw [h, hf]; rfl)
  · rename_i hf
    exact ev_cStore hp rfl h3 (by unfold cOp; rw [h, hf]; rfl)
  · rename_i hf
    split
    · rename_i h4
      have hc : cOp w = if IP.cRs2 w = 0#5 then some .jr else some .mv := by unfold cOp; rw [h, hf, h4]; rfl
      refine PLog.ite (fun h1 => ?_) fun h1 => ?_
      · exact PLog.bind (pre_trapIf _) fun _ => PLog.bind (Pres.get _) fun _ => PLog.bind (pre_setNext _) fun _ =>
          ev_cEmit hp h3 (by rw [hc, if_pos h1])
      · exact PLog.bind (Pres.get _) fun _ => ev_cWrite hp rfl h3 (by rw [hc, if_neg h1])
    · rename_i h4
      have hc : cOp w = if IP.cRs2 w = 0#5 ∧ IP.rd w = 0#5 then some .ebreak
        else if IP.cRs2 w = 0#5 then some .jalr else some .add := by unfold cOp; rw [h, hf, h4]; rfl
      refine PLog.ite (fun h1 => ?_) fun h1 => PLog.ite (fun h2 => ?_) fun h2 => ?_
      · exact PLog.bind (Pres.mod fun _ h => h) fun _ => ev_cEmit hp h3 (by rw [hc, if_pos h1])
      · exact PLog.bind (Pres.get _) fun _ => PLog.bind (pre_setNext _) fun _ => PLog.bind (Pres.get _) fun _ =>
          PLog.bind (pre_writeRf _ _) fun _ => ev_cEmit hp h3 (by rw [hc, if_neg h1, if_pos h2])
      · exact PLog.bind (Pres.get _) fun _ => PLog.bind (Pres.get _) fun _ =>
          ev_cWrite hp rfl h3 (by rw [hc, if_neg h1, if_neg h2])
    · exact PLog.illegal
  · exact PLog.illegal

theorem ev_16 : PLogR L w rf (evNamed rf) (exec16 E w) := by
  unfold exec16
  split
  · exact PLog.toR _ (ev_c0 hp ‹_›)
  · exact ev_c1 hp ‹_›
  · exact PLog.toR _ (ev_c2 hp ‹_›)
  · exact PLog.toR _ (PLog.illegal)

/-- executing an instruction logs one record named after the instruction word, or traps without logging -/
theorem exec_ev {s s' : St σ} (h : exec E s = .ok ((), s')) :
    s'.inst = (if IP.copcode s.inst ≠ 3#2 ∧ E.cfg.rv32c = true then IP.toRvc s.inst else s.inst) ∧
    EPost s.profLog s'.inst (evNamed s.rf) s' := by
  unfold exec at h
  obtain ⟨w, s1, e1, h⟩ := bind_eq_ok.1 h
  rw [M.get_app] at e1
  injection e1 with e1; injection e1 with e1 e2
  subst e1 e2
  by_cases hc : IP.copcode s.inst ≠ 3#2
  · rw [if_pos hc] at h
    by_cases hr : E.cfg.rv32c = true
    · rw [if_pos hr] at h
      obtain ⟨u, s2, e3, h⟩ := bind_eq_ok.1 h
      rw [M.mod_app] at e3
      injection e3 with e3; injection e3 with _ e3
      subst e3
      have := ev_16 hp (L := s.profLog) (w := IP.toRvc s.inst)
        { s with inst := IP.toRvc s.inst } ⟨rfl, rfl⟩ rfl _ _ h
      rw [if_pos ⟨hc, hr⟩]
      exact ⟨this.1, this.1.symm ▸ this⟩
    · rw [if_neg hr] at h
      have := PLog.illegal (K := evNamed s.rf) (L := s.profLog) (w := s.inst) s ⟨rfl, rfl⟩ _ _ h
      rw [if_neg (fun h => hr h.2)]
      exact ⟨this.1, this.1.symm ▸ this⟩
  · rw [if_neg hc] at h
    have := ev_32 hp (L := s.profLog) (w := s.inst) s ⟨rfl, rfl⟩ rfl _ _ h
    rw [if_neg (fun h => hc h.1)]
    exact ⟨this.1, this.1.symm ▸ this⟩

end
end Ama
