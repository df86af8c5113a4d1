import Verif.Lemmas.DasmNote
/-!
# Every register an instruction changes has a note
-/
namespace Ama.Dasm
open M Spec Spec.Log
variable {σ : Type} {E : Env σ}

/-! ## Which registers a handler can change -/

/-- register `j` holds `v` -/
def Fr (j : BitVec 5) (v : W) (s : St σ) : Prop := s.rf j = v
/-- a write to `r` leaves `j` alone -/
def NW (j r : BitVec 5) : Prop := j ≠ r ∨ r = 0#5

section
variable {j : BitVec 5} {v : W}
theorem fr_M : PrimsM E (Fr j v : St σ → Prop) where
  ramWr := ramWr_of (fun _ _ h => h) (fun _ _ h => h)
  uartWr := uartWr_of (fun _ _ h => h)
  uartRd := uartRd_of (fun _ _ h => h) (fun _ _ h => h)
theorem fr_trap (c t : W) : Pres (Fr j v : St σ → Prop) (trapInst c t) :=
  Pres.bind (Pres.mod fun _ h => h) fun _ => Pres.mod fun _ h => h
theorem fr_ill : Pres (Fr j v : St σ → Prop) eIllegal := Pres.bind (Pres.get _) fun _ => fr_trap _ _
theorem fr_hard : Pres (Fr j v : St σ → Prop) eHardware := Pres.bind (Pres.get _) fun _ => fr_trap _ _
theorem fr_env (c : W) : Pres (Fr j v : St σ → Prop) (eEnv c) := Pres.bind (Pres.get _) fun _ => fr_trap _ _
theorem fr_mis (a : W) : Pres (Fr j v : St σ → Prop) (eInstMisaligned a) := fr_trap _ _
theorem fr_just (a : W) : Pres (Fr j v : St σ → Prop) (justInst a) := Pres.bind (Pres.get _) fun _ => Pres.lift _
theorem fr_wr {r : BitVec 5} (h : NW j r) (x : W) : Pres (Fr j v : St σ → Prop) (writeRf r x) :=
  Pres.iteH (fun _ => Pres.pure _) fun hr => Pres.mod fun s hs => by
    have : j ≠ r := h.resolve_right hr
    show upd s.rf r x j = v
    rw [upd_other _ _ this]; exact hs
theorem fr_emit (ev : ProfEv) : Pres (Fr j v : St σ → Prop) (emit E ev) :=
  Pres.ite (Pres.mod fun _ hs => hs) (Pres.pure _)
theorem fr_next (x : W) : Pres (Fr j v : St σ → Prop) (setNext x) := Pres.mod fun _ hs => hs
theorem fr_seq (x : W) : Pres (Fr j v : St σ → Prop) (nextSeq x) := Pres.mod fun _ hs => hs
theorem fr_pair {r : BitVec 5} (h : NW j r) (h1 : j ≠ r + 1#5 ∨ r = 0#5 ∨ r = 31#5) (p : W × W) :
    Pres (Fr j v : St σ → Prop) (writeRfPair r p) := by
  refine Pres.bind (Pres.ite fr_hard (Pres.pure _)) fun _ => ?_
  refine Pres.iteH (fun _ => Pres.pure _) fun hr => ?_
  refine Pres.bind (Pres.mod fun s hs => ?_) fun _ =>
    Pres.iteH (fun _ => Pres.ub _) fun h31 => (Pres.mod fun s hs => ?_)
  · show upd s.rf r _ j = v
    rw [upd_other _ _ (h.resolve_right hr)]; exact hs
  · show upd s.rf (r + 1#5) _ j = v
    rw [upd_other _ _ (h1.resolve_right (by tauto))]; exact hs
theorem fr_aluReg {w : W} (h : NW j (IP.rd w)) : Pres (Fr j v : St σ → Prop) (dAluReg E w) := by
  unfold dAluReg
  split
  · exact fr_ill
  · refine Pres.bind (Pres.get _) fun _ => Pres.bind (Pres.get _) fun _ => Pres.bind ?_ fun _ =>
      Pres.bind (Pres.lift _) fun _ => Pres.bind (fr_wr h _) fun _ => Pres.bind (fr_emit _) fun _ => fr_seq _
    split
    · exact fr_M.hwUpd _
    · exact Pres.pure _
theorem fr_pstate (b : Bool) : Pres (Fr j v : St σ → Prop) (profState E b) := by
  refine Pres.bind ?_ fun _ => fr_M.hwUpd _
  unfold M.whenM
  exact Pres.ite (Pres.mod fun _ hs => hs) (Pres.pure _)
theorem fr_slti (w a b : W) : Pres (Fr j v : St σ → Prop) (aluSlti E w a b) :=
  Pres.ite (Pres.bind (Pres.get _) fun _ => Pres.bind (Pres.mod fun _ hs => hs) fun _ => Pres.bind (fr_pstate _)
      fun _ => Pres.pure _) <|
    Pres.ite (Pres.bind (fr_pstate _) fun _ => Pres.bind (Pres.mod fun _ hs => hs) fun _ => Pres.pure _) (Pres.pure _)
theorem fr_aluImm {w : W} (h : NW j (IP.rd w)) : Pres (Fr j v : St σ → Prop) (dAluImm E w) := by
  unfold dAluImm
  split
  · exact fr_ill
  · rename_i op _
    refine Pres.bind (Pres.get _) fun _ => Pres.bind ?_ fun _ => Pres.bind (fr_wr h _) fun _ =>
      Pres.bind (fr_emit _) fun _ => fr_seq _
    cases op
    case slti => exact fr_slti _ _ _
    case slli =>
      exact Pres.bind (Pres.ite (Pres.bind (Pres.get _) fun _ => Pres.bind (fr_just _) fun _ =>
        Pres.pure _) (Pres.pure _)) fun _ => Pres.lift _
    all_goals
      unfold aluImm
      exact Pres.lift _
theorem fr_load {w : W} (h : NW j (IP.rd w)) : Pres (Fr j v : St σ → Prop) (dLoad E w) := by
  unfold dLoad
  split
  · exact fr_ill
  · rename_i op _
    refine Pres.bind (Pres.get _) fun _ => Pres.bind ?_ fun _ => Pres.bind (Pres.get _) fun _ =>
      Pres.ite (Pres.pure _) (Pres.bind (fr_wr h _) fun _ => Pres.bind (fr_emit _) fun _ => fr_seq _)
    cases op
    · exact Pres.bind (fr_M.memRd _ _) fun _ => Pres.pure _
    · exact Pres.bind (fr_M.memRd _ _) fun _ => Pres.pure _
    all_goals exact fr_M.memRd _ _
theorem fr_store (w : W) : Pres (Fr j v : St σ → Prop) (dStore E w) := by
  unfold dStore
  split
  · exact Pres.bind fr_ill fun _ => fr_seq _
  · exact Pres.bind (Pres.get _) fun _ => Pres.bind (Pres.get _) fun _ => Pres.bind (fr_M.memWr _ _ _) fun _ =>
      Pres.bind (Pres.get _) fun _ => Pres.ite (Pres.pure _) (Pres.bind (fr_emit _) fun _ => fr_seq _)
theorem fr_branchHw (w : W) : Pres (Fr j v : St σ → Prop) (branchHw E w) := by
  refine Pres.bind (Pres.mod fun _ hs => hs) fun _ => Pres.bind (Pres.get _) fun _ =>
    Pres.bind (Pres.get _) fun _ => Pres.bind (Pres.mod fun _ hs => hs) fun _ =>
    Pres.bind (Pres.ite (Pres.pure _) (Pres.bind (fr_M.rdInst _) fun _ => Pres.mod fun _ hs => hs))
    fun _ => Pres.bind (Pres.mod fun _ hs => hs) fun _ => Pres.bind (Pres.get _) fun _ =>
    Pres.ite (Pres.bind (Pres.get _) fun sp => ?_) (Pres.bind (fr_M.rdInst _) fun _ => Pres.mod fun _ hs => hs)
  split
  · exact Pres.mod fun _ hs => hs
  · exact Pres.ub _
theorem fr_branch (w : W) : Pres (Fr j v : St σ → Prop) (dBranch E w) := by
  refine Pres.bind (Pres.get _) fun _ => Pres.bind (fr_next _) fun _ => Pres.bind ?_ fun _ =>
    Pres.bind (Pres.get _) fun _ => Pres.ite (fr_mis _) (Pres.ite (fr_branchHw _) (Pres.pure _))
  split
  · exact fr_ill
  · exact Pres.bind (Pres.get _) fun _ => Pres.bind (Pres.get _) fun _ =>
      Pres.ite (Pres.bind (fr_next _) fun _ => fr_emit _) (fr_emit _)
theorem fr_jalr {w : W} (h : NW j (IP.rd w)) : Pres (Fr j v : St σ → Prop) (dJalr E w) :=
  Pres.bind (Pres.ite fr_ill (Pres.pure _)) fun _ => Pres.bind (Pres.get _) fun _ =>
    Pres.bind (fr_next _) fun _ => Pres.bind (Pres.ite (fr_mis _)
      (Pres.bind (Pres.get _) fun _ => fr_wr h _)) fun _ => fr_emit _
theorem fr_jal {w : W} (h : NW j (IP.rd w)) : Pres (Fr j v : St σ → Prop) (dJal E w) :=
  Pres.bind (Pres.get _) fun _ => Pres.bind (fr_next _) fun _ => Pres.bind (Pres.ite (fr_mis _)
      (fr_wr h _)) fun _ => fr_emit _
theorem fr_lui {w : W} (h : NW j (IP.rd w)) : Pres (Fr j v : St σ → Prop) (dLui E w) :=
  Pres.bind (fr_wr h _) fun _ => Pres.bind (fr_seq _) fun _ => fr_emit _
theorem fr_auipc {w : W} (h : NW j (IP.rd w)) : Pres (Fr j v : St σ → Prop) (dAuipc E w) :=
  Pres.bind (Pres.get _) fun _ => Pres.bind (fr_wr h _) fun _ => Pres.bind (fr_seq _) fun _ => fr_emit _
theorem fr_miscMem (w : W) : Pres (Fr j v : St σ → Prop) (dMiscMem E w) :=
  Pres.ite (Pres.bind (fr_seq _) fun _ => fr_emit _) <|
    Pres.ite (Pres.bind (fr_seq _) fun _ => fr_emit _) fr_ill
theorem fr_csr {w : W} (h : NW j (IP.rd w)) : Pres (Fr j v : St σ → Prop) (dCsr E w) := by
  have hw : ∀ (e : CsrEntry) x, Pres (Fr j v : St σ → Prop) (writeCsr e x) := fun _ _ =>
    wrCsr_of fr_trap (fun _ _ _ h => h) _ _
  unfold dCsr
  split
  · exact fr_ill
  · refine Pres.bind (Pres.bind (Pres.mod fun _ h => h) fun _ => Pres.bind (Pres.bind (Pres.get _) fun _ => Pres.lift _)
      fun _ => Pres.mod fun _ h => h) fun _ => Pres.bind (Pres.get _) fun _ => Pres.bind (Pres.get _) fun _ =>
      Pres.bind (fr_wr h _) fun _ => Pres.bind ?_ fun _ => Pres.mod fun _ hs => hs
    split
    · rename_i op _
      refine Pres.bind (Pres.bind (Pres.get _) fun _ => ?_) fun _ => fr_emit _
      cases op
      case rw => exact hw _ _
      case rwi => exact hw _ _
      all_goals exact Pres.ite (Pres.pure _) (hw _ _)
    · exact fr_ill
theorem fr_system {w : W} (h : NW j (IP.rd w) ∨ IP.funct3 w = 0#3) : Pres (Fr j v : St σ → Prop) (dSystem E w) :=
  Pres.iteH (fun hf => Pres.bind (fr_csr (h.resolve_right hf)) fun _ => fr_seq _) fun _ => Pres.ite (fr_env _) <|
    Pres.ite (fr_env _) <| Pres.ite (Pres.bind (Pres.mod fun _ h => h) fun _ => fr_emit _) <|
    Pres.ite (Pres.bind (fr_seq _) fun _ => Pres.bind (Pres.mod fun _ hs => hs) fun _ => fr_emit _) fr_ill
/-- writes two registers -/
def isPair : Simd.Op → Bool
  | .wmul _ _ | .widen _ _ | .txp _ => true
  | _ => false
theorem fr_simd {w : W} {op : Simd.Op} (h : NW j (IP.rd w)) (h1 : isPair op = true → j ≠ IP.rd w + 1#5 ∨ IP.rd w = 0#5 ∨ IP.rd w = 31#5) :
    Pres (Fr j v : St σ → Prop) (simdExec E w op) := by
  refine Pres.bind (Pres.get _) fun _ => Pres.bind (Pres.get _) fun _ => Pres.bind (Pres.get _) fun _ => ?_
  cases op
  case scp => exact Pres.bind (fr_M.cacheHint _ _) fun _ => fr_wr h _
  all_goals first
    | exact fr_wr h _
    | exact fr_pair h (h1 rfl) _
    | exact Pres.bind (Pres.lift _) fun _ => fr_wr h _
    | exact Pres.bind (Pres.lift _) fun _ => fr_pair h (h1 rfl) _
theorem fr_custom {w : W} {op : Simd.Op} (hop : Simd.sel (IP.funct7 w) (IP.funct3 w) = some op) (h : NW j (IP.rd w))
    (h1 : isPair op = true → j ≠ IP.rd w + 1#5 ∨ IP.rd w = 0#5 ∨ IP.rd w = 31#5) : Pres (Fr j v : St σ → Prop) (dCustom E w) := by
  unfold dCustom
  rw [hop]
  exact Pres.bind (fr_simd h h1) fun _ => Pres.bind (fr_emit _) fun _ => fr_seq _
theorem fr_cWrite {op : COp} {r : BitVec 5} (h : NW j r) (x : W) : Pres (Fr j v : St σ → Prop) (cWrite E op r x) :=
  Pres.bind (fr_wr h _) fun _ => Pres.bind (fr_emit _) fun _ => fr_seq _
theorem fr_cLoad {op : COp} {b d : BitVec 5} (h : NW j d) (o : W) : Pres (Fr j v : St σ → Prop) (cLoad E op b d o) :=
  Pres.bind (Pres.get _) fun _ => Pres.bind (fr_M.memRd _ _) fun _ => Pres.bind (Pres.get _) fun _ =>
    Pres.ite (Pres.pure _) (fr_cWrite h _)
theorem fr_cStore {op : COp} {b d : BitVec 5} (o : W) : Pres (Fr j v : St σ → Prop) (cStore E op b d o) :=
  Pres.bind (Pres.get _) fun _ => Pres.bind (Pres.get _) fun _ => Pres.bind (fr_M.memWr _ _ _) fun _ =>
    Pres.bind (Pres.get _) fun _ => Pres.ite (Pres.pure _) (Pres.bind (fr_emit _) fun _ => fr_seq _)
theorem fr_trapIf (c : Prop) [Decidable c] : Pres (Fr j v : St σ → Prop) (if c then eIllegal else pure () : M σ Unit) :=
  Pres.ite fr_ill (Pres.pure _)
theorem fr_cAlu {w : W} (h : NW j (IP.cRegh w)) (op : COp) (f : W → W → W) : Pres (Fr j v : St σ → Prop) (cAlu E w op f) :=
  Pres.bind (Pres.get _) fun _ => Pres.bind (Pres.get _) fun _ => fr_cWrite h _
theorem fr_beqz (w : W) : Pres (Fr j v : St σ → Prop) (cBeqz E w) :=
  Pres.bind (Pres.get _) fun _ => Pres.bind (Pres.get _) fun _ =>
    Pres.ite (Pres.bind (fr_next _) fun _ => fr_emit _) (Pres.bind (fr_next _) fun _ => fr_emit _)
theorem fr_bnez (w : W) : Pres (Fr j v : St σ → Prop) (cBnez E w) :=
  Pres.bind (Pres.get _) fun _ => Pres.bind (Pres.get _) fun _ =>
    Pres.ite (Pres.bind (fr_next _) fun _ => fr_emit _) (Pres.bind (fr_next _) fun _ => fr_emit _)
theorem fr_cSlli {w : W} (h : NW j (IP.rd w)) : Pres (Fr j v : St σ → Prop) (cSlli E w) :=
  Pres.bind (Pres.get _) fun _ => Pres.bind (Pres.lift _) fun _ => Pres.bind (fr_wr h _) fun _ =>
    Pres.bind (fr_emit _) fun _ => Pres.bind (Pres.ite (Pres.bind (Pres.get _) fun _ =>
      Pres.bind (fr_just _) fun _ => Pres.pure _) (Pres.pure _)) fun _ => fr_seq _
end

/-! ## The register that changed is the one noted -/

theorem changed {m : M σ Unit} {q q' : St σ} {j r : BitVec 5} (hf : NW j r → Pres (Fr j (q.rf j)) m)
    (h : m q = .ok ((), q')) (hj : q'.rf j ≠ q.rf j) : j = r ∧ r ≠ 0#5 := by
  by_contra hc
  have : NW j r := by
    unfold NW
    by_cases h0 : r = 0#5
    · exact .inr h0
    · exact .inl fun he => hc ⟨he, h0⟩
  exact hj (hf this _ _ _ rfl h)
theorem unchanged {m : M σ Unit} {q q' : St σ} {j : BitVec 5} {X : Prop} (hf : Pres (Fr j (q.rf j)) m)
    (h : m q = .ok ((), q')) (hj : q'.rf j ≠ q.rf j) : X := (hj (hf _ _ _ rfl h)).elim

theorem rd_in' {as : List P} {r : Rec} {i : BitVec 5} (L : List Char) {d : DS} (hi : i ≠ 0#5) (ha : Cl as) (hd : Clean d) :
    regNote r.abi i (r.rf1 i) <:+: record (as ++ rdUpdateP r i) L d := by
  have := rd_in (bs := []) (r := r) L hi ha hd .nil
  rwa [List.append_nil] at this

theorem pair_f7 : ∀ (f7 : BitVec 7) (f3 : BitVec 3), (Simd.sel f7 f3).all (fun op =>
    !isPair op || (f7 == 0x03#7 || f7 == 0x30#7 || f7 == 0x20#7)) = true := by decide +kernel
theorem sel_f7 : ∀ (f7 : BitVec 7) (f3 : BitVec 3), (Simd.sel f7 f3).all (fun _ =>
    f7 == 0x00#7 || f7 == 0x01#7 || f7 == 0x02#7 || f7 == 0x04#7 || f7 == 0x08#7 || f7 == 0x22#7 || f7 == 0x23#7 ||
    f7 == 0x09#7 || f7 == 0x03#7 || f7 == 0x30#7 || f7 == 0x20#7 || f7 == 0x3c#7 || f7 == 0x3d#7 || f7 == 0x7f#7) = true := by
  decide +kernel

/-- the register `j` of `r` has its note -/
abbrev Noted (r : Rec) (j : BitVec 5) (T : List P) : Prop :=
  ∀ (L : List Char) (d : DS), Clean d → regNote r.abi j (r.rf1 j) <:+: record T L d

theorem noted_simd {r : Rec} {op : Simd.Op} (hop : Simd.sel (IP.funct7 r.w) (IP.funct3 r.w) = some op) (h0 : IP.rd r.w ≠ 0#5)
    {j : BitVec 5} (hj : j = IP.rd r.w ∨ isPair op = true ∧ j = IP.rd r.w + 1#5 ∧ j ≠ 0#5) {as : List P} (ha : Cl as) :
    Noted r j (as ++ tCustomText r) := by
  intro L d hd
  have h1 := pair_f7 (IP.funct7 r.w) (IP.funct3 r.w)
  have h2 := sel_f7 (IP.funct7 r.w) (IP.funct3 r.w)
  rw [hop] at h1 h2
  simp only [Option.all_some, Bool.or_eq_true, beq_iff_eq, Bool.not_eq_true'] at h1 h2
  have hx : ∀ {xs : List P}, Cl xs → IP.rd r.w = j → regNote r.abi j (r.rf1 j) <:+: record (as ++ (xs ++ rdUpdate r)) L d :=
    fun hc hr => by rw [← List.append_assoc, ← hr]; exact rd_in' L h0 (ha.append hc) hd
  have hy : ∀ {xs : List P}, Cl xs → regNote r.abi j (r.rf1 j) <:+: record (as ++ (xs ++ rdUpdate r ++ rdUpdatePair r)) L d := by
    intro xs hc
    rw [← List.append_assoc, ← List.append_assoc]
    rcases hj with hr | ⟨_, hr, hn⟩
    · rw [hr]
      refine rd_in L h0 (ha.append hc) hd ?_
      unfold rdUpdatePair
      exact .ite .nil (.cons (ext_lit _) (tl_rdP _ _).ext)
    · rw [rdUpdatePair, if_neg h0, ← hr, ← List.singleton_append, ← List.append_assoc]
      exact rd_in' L hn (((ha.append hc).append (.rdUpdate r)).append (.lit .nil)) hd
  unfold tCustomText
  by_cases hp : IP.funct7 r.w = 0x03#7 ∨ IP.funct7 r.w = 0x30#7 ∨ IP.funct7 r.w = 0x20#7
  · rcases hp with hp | hp | hp <;> rw [hp] <;> dsimp only <;> refine hy ?_ <;> cl
  · have hr : IP.rd r.w = j := by
      rcases hj with hr | ⟨hq, _⟩
      · exact hr.symm
      · exact absurd (h1.resolve_left (by rw [hq]; nofun)) (fun h => hp (or_assoc.1 h))
    simp only [or_assoc] at h2
    rcases h2 with a | a | a | a | a | a | a | a | a | a | a | a | a | a
    all_goals first
      | (exfalso; apply hp; simp [a]; done)
      | (rw [a]; dsimp only; refine hx ?_ hr; cl)

theorem succ_ne {x : BitVec 5} (h : x ≠ 31#5) : x + 1#5 ≠ 0#5 := by revert x; decide
/-- the handlers by opcode -/
theorem exec32_cases (E : Env σ) (w : W) :
    (IP.opcode w = 0x33#7 ∧ exec32 E w = dAluReg E w) ∨ (IP.opcode w = 0x13#7 ∧ exec32 E w = dAluImm E w) ∨
    (IP.opcode w = 0x03#7 ∧ exec32 E w = dLoad E w) ∨ (IP.opcode w = 0x23#7 ∧ exec32 E w = dStore E w) ∨
    (IP.opcode w = 0x63#7 ∧ exec32 E w = dBranch E w) ∨ (IP.opcode w = 0x67#7 ∧ exec32 E w = dJalr E w) ∨
    (IP.opcode w = 0x6f#7 ∧ exec32 E w = dJal E w) ∨ (IP.opcode w = 0x37#7 ∧ exec32 E w = dLui E w) ∨
    (IP.opcode w = 0x17#7 ∧ exec32 E w = dAuipc E w) ∨ (IP.opcode w = 0x73#7 ∧ exec32 E w = dSystem E w) ∨
    (IP.opcode w = 0x0f#7 ∧ exec32 E w = dMiscMem E w) ∨
    (IP.opcode w = 0x0b#7 ∧ exec32 E w = if E.cfg.simd then dCustom E w else eIllegal) ∨ exec32 E w = eIllegal := by
  unfold exec32
  split <;> simp_all

theorem noted_32 {w : W} {q q' : St σ} (h : exec32 E w q = .ok ((), q')) (ht : q'.trapped = false) {r : Rec} (hw : r.w = w)
    (hr : r.trapped = false) {j : BitVec 5} (hj : q'.rf j ≠ q.rf j) : Noted r j (tExec32 E.cfg.rv32c E.cfg.simd r) := by
  intro L d hd
  subst hw
  unfold tExec32
  have hh := h
  rcases exec32_cases E r.w with ⟨ho, e⟩ | ⟨ho, e⟩ | ⟨ho, e⟩ | ⟨ho, e⟩ | ⟨ho, e⟩ | ⟨ho, e⟩ | ⟨ho, e⟩ | ⟨ho, e⟩ | ⟨ho, e⟩ |
    ⟨ho, e⟩ | ⟨ho, e⟩ | ⟨ho, e⟩ | e <;> rw [e] at h
  · obtain ⟨rfl, h0⟩ := changed fr_aluReg h hj
    rw [ho]
    unfold dAluReg at h
    show _ <:+: record (tAluReg r) L d
    unfold tAluReg
    cases hs : aluRegSel (IP.funct7 r.w) (IP.funct3 r.w) with
    | none => rw [hs] at h; rw [trap_trapped rfl h] at ht; cases ht
    | some op => exact rd_in' L h0 (by cl) hd
  · obtain ⟨rfl, h0⟩ := changed fr_aluImm h hj
    rw [ho]
    unfold dAluImm at h
    show _ <:+: record (tAluImm r) L d
    unfold tAluImm
    cases hs : aluImmSel (IP.funct7b5 r.w) (IP.funct3 r.w) with
    | none => rw [hs] at h; rw [trap_trapped rfl h] at ht; cases ht
    | some op =>
      have hn : r.w ≠ 0x13#32 := fun he => h0 (by rw [he]; decide)
      dsimp only
      rw [if_neg hn, List.append_nil]
      exact rd_in' L h0 (by cl) hd
  · obtain ⟨rfl, h0⟩ := changed fr_load h hj
    rw [ho]
    unfold dLoad at h
    show _ <:+: record (tLoad r) L d
    unfold tLoad
    cases hs : loadSel (IP.funct3 r.w) with
    | none => rw [hs] at h; rw [trap_trapped rfl h] at ht; cases ht
    | some op =>
      dsimp only
      rw [hr, if_neg (by decide)]
      exact rd_in L h0 (by cl) hd (.ite .nil (extl_from _))
  · exact unchanged (fr_store _) h hj
  · exact unchanged (fr_branch _) h hj
  · obtain ⟨rfl, h0⟩ := changed fr_jalr h hj
    rw [ho]
    exact rd_in' L h0 (by cl) hd
  · obtain ⟨rfl, h0⟩ := changed fr_jal h hj
    rw [ho]
    exact rd_in' L h0 (by cl) hd
  · obtain ⟨rfl, h0⟩ := changed fr_lui h hj
    rw [ho]
    exact rd_in' L h0 (by cl) hd
  · obtain ⟨rfl, h0⟩ := changed fr_auipc h hj
    rw [ho]
    exact rd_in' L h0 (by cl) hd
  · by_cases hf : IP.funct3 r.w = 0#3
    · exact unchanged (fr_system (.inr hf)) h hj
    · obtain ⟨rfl, h0⟩ := changed (fun hn => fr_system (.inl hn)) h hj
      have ha := csr_known ho hf hh ht
      rw [ho]
      show _ <:+: record (tSystem E.cfg.rv32c r) L d
      unfold tSystem
      rw [if_pos hf]
      unfold tCsr
      cases hc : csrInfo E.cfg.rv32c (IP.csrAddr r.w) with
      | none => exact absurd hc ha
      | some e => exact rd_in L h0 (by cl) hd (.ite (.append (.ite (.cons (ext_lit _) .nil) .nil) (.cons ext_align (extl_csrf r _))) .nil)
  · exact unchanged (fr_miscMem _) h hj
  · obtain ⟨hs, op, hop⟩ := simd_known ho hh ht
    rw [hs, if_pos rfl] at h
    rw [ho]
    show _ <:+: record (if E.cfg.simd = true then tCustom r else _) L d
    rw [if_pos hs]
    unfold tCustom
    rw [hop]
    have hj' : IP.rd r.w ≠ 0#5 ∧ (j = IP.rd r.w ∨ isPair op = true ∧ j = IP.rd r.w + 1#5 ∧ j ≠ 0#5) := by
      by_contra hc
      have hz : NW j (IP.rd r.w) := by
        unfold NW
        by_cases h0 : IP.rd r.w = 0#5
        · exact .inr h0
        · exact .inl fun he => hc ⟨h0, .inl he⟩
      refine hj (fr_custom hop hz (fun hp => ?_) _ _ _ rfl h)
      by_cases h0 : IP.rd r.w = 0#5
      · exact .inr (.inl h0)
      by_cases h31 : IP.rd r.w = 31#5
      · exact .inr (.inr h31)
      refine .inl fun he => hc ⟨h0, .inr ⟨hp, he, ?_⟩⟩
      rw [he]
      exact succ_ne h31
    have := noted_simd hop hj'.1 hj'.2 (as := trapIf r ++ [setOp (simdText op)]) (by cl) L d hd
    rwa [List.append_assoc] at this
  · exact unchanged fr_ill h hj

theorem bv2 : ∀ x : BitVec 2, x = 0#2 ∨ x = 1#2 ∨ x = 2#2 ∨ x = 3#2 := by decide
theorem bv3 : ∀ x : BitVec 3, x = 0#3 ∨ x = 1#3 ∨ x = 2#3 ∨ x = 3#3 ∨ x = 4#3 ∨ x = 5#3 ∨ x = 6#3 ∨ x = 7#3 := by decide
theorem bv4 : ∀ x : BitVec 4, x = 8#4 ∨ x = 9#4 ∨ (x ≠ 8#4 ∧ x ≠ 9#4) := by decide

/-- a register `m` changes has its note in `T` -/
def NT (m : M σ Unit) (r : Rec) (T : List P) : Prop :=
  ∀ q q' : St σ, m q = .ok ((), q') → ∀ j, q'.rf j ≠ q.rf j → Noted r j T

theorem NT.un {m : M σ Unit} {r : Rec} {T : List P} (h : ∀ j v, Pres (Fr j v) m) : NT m r T :=
  fun _ _ e _ hj => unchanged (h _ _) e hj
theorem NT.rd {m : M σ Unit} {r : Rec} {as bs : List P} {i : BitVec 5} (h : ∀ {j v}, NW j i → Pres (Fr j v) m)
    (ha : Cl as) (hb : ExtL bs) : NT m r (as ++ rdUpdateP r i ++ bs) := by
  intro q q' e j hj L d hd
  obtain ⟨rfl, h0⟩ := changed h e hj
  exact rd_in L h0 ha hd hb
theorem NT.rd' {m : M σ Unit} {r : Rec} {as : List P} {i : BitVec 5} (h : ∀ {j v}, NW j i → Pres (Fr j v) m)
    (ha : Cl as) : NT m r (as ++ rdUpdateP r i) := by
  have := NT.rd (r := r) (bs := []) h ha .nil
  rwa [List.append_nil] at this

theorem nt_c0 (r : Rec) (hr : r.trapped = false) : NT (dCompressed0 E r.w) r (tCompressed0 r) := by
  unfold dCompressed0 tCompressed0
  rcases bv3 (IP.cFunct3 r.w) with h | h | h | h | h | h | h | h <;> rw [h]
  · exact NT.rd' (fun hn => Pres.bind (fr_trapIf _) fun _ => Pres.bind (fr_trapIf _) fun _ =>
        Pres.bind (Pres.get _) fun _ => fr_cWrite hn _) (by cl)
  · exact NT.un fun _ _ => fr_ill
  · show NT _ r (tcLw r)
    unfold tcLw
    rw [hr, if_neg (by decide)]
    exact NT.rd (fun hn => fr_cLoad hn _) (by cl) (.ite .nil (extl_from _))
  · exact NT.un fun _ _ => fr_ill
  · exact NT.un fun _ _ => fr_ill
  · exact NT.un fun _ _ => fr_ill
  · exact NT.un fun _ _ => fr_cStore _
  · exact NT.un fun _ _ => fr_ill
theorem nt_alu (r : Rec) : NT (dCompressed1Alu E r.w) r (tCompressed1Alu r) := by
  unfold dCompressed1Alu tCompressed1Alu
  generalize (IP.cFunct6 r.w ++ IP.cFunct2l r.w : BitVec 8) = x
  by_cases h1 : x = 0x8c#8
  · subst h1; exact NT.rd' (fun hn => fr_cAlu hn _ _) (by cl)
  by_cases h2 : x = 0x8d#8
  · subst h2; exact NT.rd' (fun hn => fr_cAlu hn _ _) (by cl)
  by_cases h3 : x = 0x8e#8
  · subst h3; exact NT.rd' (fun hn => fr_cAlu hn _ _) (by cl)
  by_cases h4 : x = 0x8f#8
  · subst h4; exact NT.rd' (fun hn => fr_cAlu hn _ _) (by cl)
  · simp only []
    exact NT.un fun _ _ => fr_ill
theorem nt_c1 (r : Rec) : NT (dCompressed1 E r.w) r (tCompressed1 r) := by
  unfold dCompressed1 tCompressed1
  rcases bv3 (IP.cFunct3 r.w) with h | h | h | h | h | h | h | h <;> rw [h]
  · exact NT.rd' (fun hn => Pres.bind (Pres.get _) fun _ => fr_cWrite hn _) (by cl)
  · exact NT.rd' (fun hn => Pres.bind (Pres.get _) fun _ => Pres.bind (fr_next _) fun _ =>
        Pres.bind (fr_wr hn _) fun _ => fr_emit _) (by cl)
  · exact NT.rd' (fun hn => fr_cWrite hn _) (by cl)
  · show NT (if IP.rd r.w = 0#5 then cNop E else if IP.rd r.w = 2#5 then cAddi16sp E r.w else cLui E r.w) r
      (if IP.rd r.w = 0#5 then tcBare "c.nop" else if IP.rd r.w = 2#5 then tcAddi16sp r else tcLui r)
    split
    · exact NT.un fun _ _ => Pres.bind (fr_emit _) fun _ => fr_seq _
    · split
      · exact NT.rd' (fun hn => Pres.bind (fr_trapIf _) fun _ => Pres.bind (Pres.get _) fun _ => fr_cWrite hn _) (by cl)
      · exact NT.rd' (fun hn => Pres.bind (fr_trapIf _) fun _ => fr_cWrite hn _) (by cl)
  · rcases bv2 (IP.cFunct2h r.w) with h | h | h | h <;> rw [h]
    · exact NT.rd' (fun hn => Pres.bind (Pres.get _) fun _ => Pres.bind (Pres.lift _) fun _ => fr_cWrite hn _) (by cl)
    · exact NT.rd' (fun hn => Pres.bind (Pres.get _) fun _ => Pres.bind (Pres.lift _) fun _ => fr_cWrite hn _) (by cl)
    · exact NT.rd' (fun hn => Pres.bind (Pres.get _) fun _ => fr_cWrite hn _) (by cl)
    · exact nt_alu r
  · exact NT.un fun _ _ => Pres.bind (fr_seq _) fun _ => fr_emit _
  · exact NT.un fun _ _ => fr_beqz _
  · exact NT.un fun _ _ => fr_bnez _
theorem nt_c2 (r : Rec) (hr : r.trapped = false) : NT (dCompressed2 E r.w) r (tCompressed2 r) := by
  unfold dCompressed2 tCompressed2
  rcases bv3 (IP.cFunct3 r.w) with h | h | h | h | h | h | h | h <;> rw [h]
  · exact NT.rd' fr_cSlli (by cl)
  · exact NT.un fun _ _ => fr_ill
  · show NT (cLoad E .lwsp 2#5 (IP.rd r.w) (IP.cImmLwsp r.w)) r (tcLwsp r)
    unfold tcLwsp
    rw [hr, if_neg (by decide)]
    exact NT.rd (fun hn => fr_cLoad hn _) (by cl) (.ite .nil (extl_from _))
  · exact NT.un fun _ _ => fr_ill
  · rcases bv4 (IP.cFunct4 r.w) with h | h | ⟨h, h'⟩
    · rw [h]
      show NT (if IP.cRs2 r.w = 0#5 then cJr E r.w else cMv E r.w) r
        (if IP.cRs2 r.w = 0#5 then tcJr r else tcReg r "c.mv")
      split
      · exact NT.un fun _ _ => Pres.bind (fr_trapIf _) fun _ => Pres.bind (Pres.get _) fun _ =>
            Pres.bind (fr_next _) fun _ => fr_emit _
      · exact NT.rd' (fun hn => Pres.bind (Pres.get _) fun _ => fr_cWrite hn _) (by cl)
    · rw [h]
      show NT (if IP.cRs2 r.w = 0#5 ∧ IP.rd r.w = 0#5 then cEbreak E else if IP.cRs2 r.w = 0#5 then cJalr E r.w else cAdd E r.w) r
        (if IP.cRs2 r.w = 0#5 ∧ IP.rd r.w = 0#5 then tcBare "c.ebreak" else if IP.cRs2 r.w = 0#5 then tcJalr r
          else tcReg r "c.add")
      split
      · exact NT.un fun _ _ => Pres.bind (Pres.mod fun _ h => h) fun _ => fr_emit _
      · split
        · exact NT.rd' (fun hn => Pres.bind (Pres.get _) fun _ => Pres.bind (fr_next _) fun _ =>
              Pres.bind (Pres.get _) fun _ => Pres.bind (fr_wr hn _) fun _ => fr_emit _) (by cl)
        · exact NT.rd' (fun hn => Pres.bind (Pres.get _) fun _ => Pres.bind (Pres.get _) fun _ => fr_cWrite hn _) (by cl)
    · simp only []
      exact NT.un fun _ _ => fr_ill
  · exact NT.un fun _ _ => fr_ill
  · exact NT.un fun _ _ => fr_cStore _
  · exact NT.un fun _ _ => fr_ill
theorem nt_16 (r : Rec) (hr : r.trapped = false) : NT (exec16 E r.w) r (tExec16 r) := by
  unfold exec16 tExec16
  rcases bv2 (IP.copcode r.w) with h | h | h | h <;> rw [h]
  · exact nt_c0 r hr
  · exact nt_c1 r
  · exact nt_c2 r hr
  · exact NT.un fun _ _ => fr_ill

theorem noted_exec {q q' : St σ} (h : exec E q = .ok ((), q')) (ht : q'.trapped = false) {r : Rec} (hw : r.w = q'.inst)
    (hr : r.trapped = false) {j : BitVec 5} (hj : q'.rf j ≠ q.rf j) : Noted r j (tExec E.cfg r) := by
  intro L d hd
  unfold tExec
  rcases exec_split h with ⟨h1, h2⟩ | ⟨h1, h2, h3⟩ | ⟨h1, h2, h3⟩
  · have : q'.inst = q.inst := (inst_primsX q.inst).exec32_of q.inst (fun _ => inst_dSystem _ _) _ _ _ rfl h2
    rw [← this] at h1 h2
    rw [hw, h1, if_neg (by decide)]
    exact noted_32 h2 ht hw hr hj L _ hd
  · have : q'.inst = IP.toRvc q.inst := (inst_primsX (IP.toRvc q.inst)).exec16_of _ (fun _ =>
      Pres.bind (Pres.mod fun _ h => h) fun _ => (inst_primsX _).emit _) _ _ _ rfl h3
    rw [← copcode_toRvc, ← this] at h1
    rw [← this] at h3
    rw [hw, if_pos h1, if_pos h2]
    rw [← hw] at h3
    exact nt_16 r hr _ _ h3 j hj L _ hd
  · rw [trap_trapped rfl h3] at ht; cases ht

end Ama.Dasm
