import Verif.Props.CsrRw
import Verif.Props.Stop
/-!
# C20: minstret and mcycle count exactly

The stored counters are stale between CSR accesses; `minstretOf` and `mcycleOf` (Spec/Csr.lean) are
the numbers a read returns (`csr_rmw`).  Here: how these numbers move in any history.
-/
namespace Ama
open M Spec
variable {σ : Type} {E : Env σ}

namespace Spec
/-- the counter: instructions (`true`) or cycles (`false`) -/
def cntOf (inst : Bool) (k : Core) : BitVec 64 := if inst then minstretOf k else mcycleOf k
/-- CSR addresses of its halves -/
def isHalf (inst : Bool) (a : BitVec 16) : Prop :=
  if inst then a = 0xb02#16 ∨ a = 0xb82#16 else a = 0xb00#16 ∨ a = 0xb80#16
/-- the word is a CSR instruction with a write operand, addressing a half of the counter -/
def addresses (inst : Bool) (w : W) : Prop :=
  IP.opcode w = 0x73#7 ∧ IP.funct3 w ≠ 0#3 ∧ (IP.rs1 w ≠ 0#5 ∨ IP.funct3 w = 1#3 ∨ IP.funct3 w = 5#3) ∧
    isHalf inst (IP.csrAddr w)
/-- this step wrote the counter: it retired such an instruction.  (Also counted here: the reserved
encoding funct3 = 4, and the step at which a run limit stops the simulator before it counts the
instruction.) -/
def Writes (inst : Bool) (s s' : St σ) : Prop :=
  addresses inst s'.inst ∧ (s'.simInst = s.simInst + 1#64 ∨ IP.funct3 s'.inst = 4#3 ∨ s'.running = false)

/-- a history: successive steps of a running simulator, all satisfying `P` -/
inductive History (E : Env σ) (P : St σ → St σ → Prop) : St σ → St σ → Prop where
  | refl (s : St σ) : History E P s s
  | snoc {s t t' : St σ} : History E P s t → t.running = true → step E t = .ok ((), t') → P t t' → History E P s t'
end Spec

/-- every run of the simulation loop is a history -/
theorem history_of_run : ∀ n (s s' : St σ), runN E n s = .ok ((), s') → History E (fun _ _ => True) s s' := by
  have key : ∀ n (s t s' : St σ), History E (fun _ _ => True) s t → runN E n t = .ok ((), s') →
      History E (fun _ _ => True) s s' := by
    intro n s t s' h0 h
    exact runN_inv (J := fun t => History E (fun _ _ => True) s t)
      (fun t t' ht hr hs => .snoc ht hr hs trivial) n t s' h0 h
  exact fun n s s' h => key n s s s' (.refl s) h

/-- the counter reads `v` -/
def Cn (i : Bool) (v : BitVec 64) (s : St σ) : Prop := cntOf i s.core = v

theorem cntOf_congr {i : Bool} {k k' : Core} (h1 : ∀ a, isHalf i a → k'.csr a = k.csr a)
    (h2 : if i then k'.simInst - k'.csrInst = k.simInst - k.csrInst
      else k'.simStep - k'.csrStep = k.simStep - k.csrStep) : cntOf i k' = cntOf i k := by
  unfold cntOf minstretOf mcycleOf
  cases i
  · have a1 := h1 0xb00#16 (by unfold isHalf; simp)
    have a2 := h1 0xb80#16 (by unfold isHalf; simp)
    simp only [Bool.false_eq_true, if_false] at h2 ⊢
    rw [a1, a2, h2]
  · have a1 := h1 0xb02#16 (by unfold isHalf; simp)
    have a2 := h1 0xb82#16 (by unfold isHalf; simp)
    simp only [if_true] at h2 ⊢
    rw [a1, a2, h2]

theorem half_ne {i : Bool} {a : BitVec 16} (h : isHalf i a) :
    a ≠ A.mip ∧ a ≠ A.mstatus ∧ a ≠ A.mepc ∧ a ≠ A.mtval ∧ a ≠ A.mcause := by
  unfold isHalf at h
  cases i
  · simp only [Bool.false_eq_true, if_false] at h
    rcases h with h | h <;> subst h <;> decide
  · simp only [if_true] at h
    rcases h with h | h <;> subst h <;> decide

theorem Cn.upd (i : Bool) (v : BitVec 64) {a : BitVec 16} (ha : ¬ isHalf i a) (s : St σ) (x : W) (h : Cn i v s) :
    Cn i v { s with csr := upd s.csr a x } := by
  refine Eq.trans (cntOf_congr (fun b hb => ?_) ?_) h
  · exact upd_other s.csr x (fun e => ha (e ▸ hb))
  · cases i <;> rfl

theorem Cn.enter (i : Bool) (v : BitVec 64) (c t : W) : Pres (Cn i v : St σ → Prop) (trapInst c t) := fun s _ s' h e => by
  rw [trapInst_app] at e
  simp only [Res.ok.injEq, Prod.mk.injEq, true_and] at e
  subst e
  unfold Cn at h ⊢
  rw [← h, trapTo_core]
  apply cntOf_congr
  · intro b hb
    obtain ⟨_, n2, n3, n4, n5⟩ := half_ne hb
    change trapCsr s.csr s.pc c t b = s.csr b
    unfold trapCsr
    rw [if_neg n2, if_neg n3, if_neg n4, if_neg n5]
  · cases i <;> rfl

theorem not_half_mip (i : Bool) : ¬ isHalf i A.mip := fun h => (half_ne h).1 rfl

theorem cn_prims (i : Bool) (v : BitVec 64) : PrimsX E (Cn i v : St σ → Prop) where
  trap := Cn.enter i v
  ramWr := ramWr_of (fun _ _ h => h) (fun _ _ h => h)
  uartWr := uartWr_of fun _ _ h => h
  uartRd := uartRd_of (fun _ _ h => h) (Cn.upd i v (not_half_mip i))

theorem cnt_half (c : Bool) (k : Core) (t : BitVec 64) :
    let C := cntCsr c k.csr (k.simInst - k.csrInst) (k.simStep - k.csrStep) t
    C 0xb02#16 = lo32 (minstretOf k) ∧ C 0xb82#16 = hi32 (minstretOf k) ∧
    C 0xb00#16 = lo32 (mcycleOf k) ∧ C 0xb80#16 = hi32 (mcycleOf k) := by
  intro C
  have h := cnt_counters c k
  simp only at h
  have e : ∀ a, a ≠ A.time → a ≠ A.timeh → C a =
      cntCsr c k.csr (k.simInst - k.csrInst) (k.simStep - k.csrStep) (mtimeOf k.clint.dev) a := by
    intro a h1 h2
    have e1 : A.time + 0x80#16 = A.timeh := rfl
    change csrWideAssign _ _ _ a = csrWideAssign _ _ _ a
    unfold csrWideAssign
    rw [e1, upd_other _ _ h2, upd_other _ _ h1, upd_other _ _ h2, upd_other _ _ h1]
  exact ⟨by rw [e _ (by decide) (by decide)]; exact h.1, by rw [e _ (by decide) (by decide)]; exact h.2.1,
    by rw [e _ (by decide) (by decide)]; exact h.2.2.1, by rw [e _ (by decide) (by decide)]; exact h.2.2.2⟩

/-- synchronising the stored counters does not change what they read -/
theorem Cn.cnt (i : Bool) (v : BitVec 64) {w : W} {a : BitVec 16}
    (hs : ¬ ((IP.rs1 w ≠ 0#5 ∨ IP.funct3 w = 1#3 ∨ IP.funct3 w = 5#3) ∧ isHalf i a)) :
    Pres (Cn i v : St σ → Prop) (csrCntUpdate E w a) := fun s _ s' h e => by
  obtain ⟨t, e⟩ := csrCntUpdate_ok e
  have e1 : s'.csr = cntCsr E.cfg.rv32c s.csr (s.simInst - s.csrInst) (s.simStep - s.csrStep) t := by rw [e]; rfl
  have e2 : s'.csrInst = s.simInst + (if cntSkip w a A.minstret A.minstreth then 1#64 else 0#64) := by rw [e]; rfl
  have e3 : s'.csrStep = s.simStep + (if cntSkip w a A.mcycle A.mcycleh then 1#64 else 0#64) := by rw [e]; rfl
  have e4 : s'.simInst = s.simInst := by rw [e]; rfl
  have e5 : s'.simStep = s.simStep := by rw [e]; rfl
  have hk := cnt_half E.cfg.rv32c s.core t
  simp only at hk
  have e1' : s'.csr = cntCsr E.cfg.rv32c s.core.csr (s.core.simInst - s.core.csrInst) (s.core.simStep - s.core.csrStep) t := e1
  rw [← e1'] at hk
  obtain ⟨k1, k2, k3, k4⟩ := hk
  have sk : ∀ lo hi : BitVec 16, (∀ b, b = lo ∨ b = hi → isHalf i b) → cntSkip w a lo hi = false := by
    intro lo hi hb
    cases hc : cntSkip w a lo hi with
    | false => rfl
    | true =>
      exfalso
      unfold cntSkip at hc
      simp only [Bool.and_eq_true, Bool.or_eq_true, bne_iff_ne, beq_iff_eq] at hc
      exact hs ⟨hc.1.elim (fun h => h.elim .inl (fun h => .inr (.inl h))) (fun h => .inr (.inr h)), hb _ hc.2⟩
  refine Eq.trans ?_ h
  unfold cntOf
  cases i
  · rw [if_neg (by decide), if_neg (by decide)]
    change pair (s'.csr 0xb80#16) (s'.csr 0xb00#16) + (s'.simStep - s'.csrStep) = mcycleOf s.core
    rw [k3, k4, pair_lo_hi, e3, e5, sk A.mcycle A.mcycleh (fun b hb => by unfold isHalf; exact hb)]
    simp only [Bool.false_eq_true, if_false, BitVec.add_zero, BitVec.sub_self]
  · rw [if_pos rfl, if_pos rfl]
    change pair (s'.csr 0xb82#16) (s'.csr 0xb02#16) + (s'.simInst - s'.csrInst) = minstretOf s.core
    rw [k1, k2, pair_lo_hi, e2, e4, sk A.minstret A.minstreth (fun b hb => by unfold isHalf; exact hb)]
    simp only [Bool.false_eq_true, if_false, BitVec.add_zero, BitVec.sub_self]

theorem Cn.write (i : Bool) (v : BitVec 64) {e : CsrEntry} (he : ¬ isHalf i e.addr) (x : W) :
    Pres (Cn i v : St σ → Prop) (writeCsr e x) := by
  unfold writeCsr
  split
  · exact Pres.bind (Pres.get _) fun _ => Cn.enter _ _ _ _
  · exact Pres.pure _
  · exact Pres.mod fun s hs => Cn.upd i v he s _ hs

theorem Cn.mret (i : Bool) (v : BitVec 64) : Pres (Cn i v : St σ → Prop) mretStateUpdate := by
  unfold mretStateUpdate
  exact Pres.mod fun s hs => Cn.upd i v (fun h => (half_ne h).2.1 rfl) s _ hs

/-- a CSR instruction that does not write the counter -/
theorem cn_dCsr (i : Bool) (v : BitVec 64) {w : W}
    (hw : ¬ ((IP.rs1 w ≠ 0#5 ∨ IP.funct3 w = 1#3 ∨ IP.funct3 w = 5#3) ∧ isHalf i (IP.csrAddr w))) :
    Pres (Cn i v : St σ → Prop) (dCsr E w) := by
  have hp := cn_prims (E := E) i v
  by_cases ha : isHalf i (IP.csrAddr w)
  · have hn : IP.rs1 w = 0#5 ∧ IP.funct3 w ≠ 1#3 ∧ IP.funct3 w ≠ 5#3 := by
      refine ⟨Classical.byContradiction fun h => hw ⟨.inl h, ha⟩, fun h => hw ⟨.inr (.inl h), ha⟩, fun h => hw ⟨.inr (.inr h), ha⟩⟩
    cases hi : csrInfo E.cfg.rv32c (IP.csrAddr w) with
    | none => rw [dCsr_none hi]; exact hp.eIllegal
    | some e =>
      rw [dCsr_some hi]
      refine Pres.bind (Cn.cnt i v hw) fun _ => Pres.bind (hp.rg _) fun _ => Pres.bind (Pres.get _) fun _ =>
        Pres.bind (hp.writeRf _ _) fun _ => Pres.bind ?_ fun _ => Pres.mod fun s hs => hs
      cases hop : csrSel (IP.funct3 w) with
      | none => exact hp.eIllegal
      | some op =>
        refine Pres.bind (Pres.bind (Pres.get _) fun _ => ?_) fun _ => hp.emit _
        have hop' : op ≠ .rw ∧ op ≠ .rwi := by
          have : ∀ f : BitVec 3, f ≠ 1#3 → f ≠ 5#3 → csrSel f ≠ some .rw ∧ csrSel f ≠ some .rwi := by decide
          have := this _ hn.2.1 hn.2.2
          rw [hop] at this
          exact ⟨fun h => this.1 (by rw [h]), fun h => this.2 (by rw [h])⟩
        cases op with
        | rw => exact absurd rfl hop'.1
        | rwi => exact absurd rfl hop'.2
        | rs => simp only [hn.1, if_true]; exact Pres.pure _
        | rc => simp only [hn.1, if_true]; exact Pres.pure _
        | rsi => simp only [hn.1, if_true]; exact Pres.pure _
        | rci => simp only [hn.1, if_true]; exact Pres.pure _
  · exact hp.dCsr_of _ (Cn.cnt i v hw) (fun e x he => Cn.write i v (by rw [csrInfo_addr he]; exact ha) x) (fun _ _ _ h => h)

/-- executing anything but a counter write leaves the counters alone -/
theorem cn_exec {i : Bool} {q q' : St σ} (h : exec E q = .ok ((), q')) :
    cntOf i q'.core = cntOf i q.core ∨ (IP.copcode q.inst = 3#2 ∧ addresses i q.inst) := by
  have hp := cn_prims (E := E) i (cntOf i q.core)
  rcases exec_split h with ⟨hc, h⟩ | ⟨_, _, h⟩ | ⟨_, _, h⟩
  · by_cases hw : addresses i q.inst
    · exact .inr ⟨hc, hw⟩
    · refine .inl (hp.exec32_of _ (fun hop => hp.dSystem_of _ (Cn.mret _ _) fun hf => ?_) _ _ _ rfl h)
      exact cn_dCsr _ _ fun hh => hw ⟨hop, hf, hh.1, hh.2⟩
  · exact .inl (hp.exec16_of _ (fun _ => Pres.bind (Pres.mod fun _ h => h) fun _ => hp.emit _)
      { q with inst := IP.toRvc q.inst } _ _ rfl h)
  · exact .inl (hp.eIllegal _ _ _ rfl h)

theorem cn_check (i : Bool) (v : BitVec 64) (b : Bool) : Pres (Cn i v : St σ → Prop) (checkInterrupts E b) := by
  refine Pres.ite (Pres.pure _) ?_
  refine Pres.bind (mtime_of (fun _ _ h => h) (Cn.upd i v (not_half_mip i)) _) fun _ => ?_
  refine Pres.bind (Pres.ite (Pres.bind (Pres.get _) fun _ => uartIn_pres (fun _ _ h => h) (Cn.upd i v (not_half_mip i)) _)
    (Pres.pure _)) fun _ => ?_
  refine Pres.bind (Pres.get _) fun _ => Pres.bind (Pres.get _) fun _ => Pres.bind (Pres.get _) fun _ => ?_
  exact Pres.bind (Pres.ite (Pres.bind (Cn.enter i v _ _) fun _ => Pres.mod fun _ h => h)
    (Pres.ite (Pres.bind (Cn.enter i v _ _) fun _ => Pres.mod fun _ h => h) (Pres.pure _))) fun _ => Pres.pure _

theorem cn_fetch (i : Bool) (v : BitVec 64) : Pres (Cn i v : St σ → Prop) (fetch E) := by
  have hp : PrimsM E (Cn i v : St σ → Prop) := (cn_prims i v).toPrimsM
  exact Pres.bind (Pres.get _) fun _ => Pres.ite (Pres.mod fun s hs => hs)
    (Pres.bind (Pres.get _) fun _ => Pres.bind (hp.rdInst _) fun _ => Pres.mod fun s hs => hs)

/-- a counter write that is not the reserved encoding does not trap -/
theorem dCsr_quiet {w : W} (hw : (IP.funct3 w ≠ 0#3 ∧ IP.funct3 w ≠ 4#3)) {e : CsrEntry}
    (he : csrInfo E.cfg.rv32c (IP.csrAddr w) = some e) (hp : e.perm ≠ .ro) :
    Pres (fun s : St σ => s.trapped = false) (dCsr E w) := by
  rw [dCsr_some he]
  obtain ⟨op, ho, _⟩ := csrSel_some hw
  have hwr : ∀ v, Pres (fun s : St σ => s.trapped = false) (writeCsr e v) := by
    intro v
    unfold writeCsr
    cases hpp : e.perm
    case ro => exact absurd hpp hp
    case war0 => exact Pres.pure _
    all_goals exact Pres.mod fun _ h => h
  refine Pres.bind ?_ fun _ => Pres.bind (Pres.get _) fun _ => Pres.bind (Pres.get _) fun _ =>
    Pres.bind (Pres.ite (Pres.pure _) (Pres.mod fun _ h => h)) fun _ => Pres.bind ?_ fun _ => Pres.mod fun _ h => h
  · exact Pres.bind (Pres.mod fun _ h => h) fun _ =>
      Pres.bind (Pres.bind (Pres.get _) fun _ => Pres.lift _) fun _ => Pres.mod fun _ h => h
  · rw [ho]
    refine Pres.bind (Pres.bind (Pres.get _) fun _ => ?_) fun _ => ?_
    · cases op
      case rw => exact hwr _
      case rwi => exact hwr _
      all_goals exact Pres.ite (Pres.pure _) (hwr _)
    · unfold emit
      exact Pres.ite (Pres.mod fun _ h => h) (Pres.pure _)

theorem half_perm (c : Bool) : ∀ a ∈ [0xb00#16, 0xb80#16, 0xb02#16, 0xb82#16], ∃ e, csrInfo c a = some e ∧ e.perm ≠ .ro := by
  intro a ha
  obtain ⟨e, he⟩ := Option.isSome_iff_exists.1 (counters_implemented c a ha)
  refine ⟨e, he, fun hp => ?_⟩
  have h := kind_table c a
  rw [he] at h
  unfold kindOf at h
  simp only [hp] at h
  simp only [List.mem_cons, List.not_mem_nil, or_false] at ha
  rcases ha with ha | ha | ha | ha <;> subst ha <;> cases c <;> exact absurd h (by decide)

theorem half_mem {i : Bool} {a : BitVec 16} (h : isHalf i a) : a ∈ [0xb00#16, 0xb80#16, 0xb02#16, 0xb82#16] := by
  unfold isHalf at h
  cases i
  · simp only [Bool.false_eq_true, if_false] at h
    rcases h with h | h <;> subst h <;> decide
  · simp only [if_true] at h
    rcases h with h | h <;> subst h <;> decide

theorem exec_write_quiet {i : Bool} {q q' : St σ} (h : exec E q = .ok ((), q')) (hc : IP.copcode q.inst = 3#2)
    (hw : addresses i q.inst) (h4 : IP.funct3 q.inst ≠ 4#3) (ht : q.trapped = false) : q'.trapped = false := by
  rcases exec_split h with ⟨_, h⟩ | ⟨h', _⟩ | ⟨h', _⟩
  · rw [exec32_system hw.1] at h
    unfold dSystem at h
    rw [if_pos hw.2.1] at h
    obtain ⟨_, q1, h1, h⟩ := bind_eq_ok.1 h
    rw [nextSeq_app] at h
    injection h with h; injection h with _ h
    obtain ⟨e, he, hp⟩ := half_perm E.cfg.rv32c _ (half_mem hw.2.2.2)
    have := dCsr_quiet ⟨hw.2.1, h4⟩ he hp _ _ _ ht h1
    rw [← h]
    exact this

  · exact absurd hc h'
  · exact absurd hc h'

theorem finish_cnt (i : Bool) (q : St σ) :
    cntOf i (finishSt E q).core = cntOf i q.core + (if i then (finishSt E q).simInst - q.simInst
      else (finishSt E q).simStep - q.simStep) := by
  have h1 : (finishSt E q).csr = q.csr := (finish_tohost q).1
  have h2 : (finishSt E q).csrInst = q.csrInst ∧ (finishSt E q).csrStep = q.csrStep := by
    unfold finishSt finishSt1
    split
    · exact ⟨rfl, rfl⟩
    · split
      · exact ⟨rfl, rfl⟩
      · split
        · exact ⟨rfl, rfl⟩
        · exact ⟨rfl, rfl⟩
  have e1 : cntOf i (finishSt E q).core = if i
      then pair ((finishSt E q).csr 0xb82#16) ((finishSt E q).csr 0xb02#16) + ((finishSt E q).simInst - (finishSt E q).csrInst)
      else pair ((finishSt E q).csr 0xb80#16) ((finishSt E q).csr 0xb00#16) + ((finishSt E q).simStep - (finishSt E q).csrStep) := rfl
  have e2 : cntOf i q.core = if i then pair (q.csr 0xb82#16) (q.csr 0xb02#16) + (q.simInst - q.csrInst)
      else pair (q.csr 0xb80#16) (q.csr 0xb00#16) + (q.simStep - q.csrStep) := rfl
  rw [e1, e2, h1, h2.1, h2.2]
  have arith : ∀ P x y z : BitVec 64, P + (x - y) = P + (z - y) + (x - z) := by
    intro P x y z
    rw [BitVec.add_assoc]
    congr 1
    bv_omega
  cases i
  · simp only [Bool.false_eq_true, if_false]
    exact arith _ _ _ _
  · simp only [if_true]
    exact arith _ _ _ _

/-- **C20, one step**: unless the step writes the counter, minstret moves by the number of
instructions retired in the step and mcycle by the number of steps counted. -/
theorem counter_step {i : Bool} {s s' : St σ} (h : step E s = .ok ((), s')) (hw : ¬ Writes i s s') :
    cntOf i s'.core = cntOf i s.core + (if i then s'.simInst - s.simInst else s'.simStep - s.simStep) := by
  have zero : ∀ t t' : St σ, t'.csr = t.csr → t'.csrInst = t.csrInst → t'.csrStep = t.csrStep →
      t'.simInst = t.simInst → t'.simStep = t.simStep → cntOf i t'.core = cntOf i t.core := by
    intro t t' h1 h2 h3 h4 h5
    refine cntOf_congr (fun a _ => ?_) ?_
    · change t'.csr a = t.csr a; rw [h1]
    · change if i then t'.simInst - t'.csrInst = t.simInst - t.csrInst else t'.simStep - t'.csrStep = t.simStep - t.csrStep
      rw [h2, h3, h4, h5]
      split <;> rfl
  rcases step_split h with hx | ⟨q0, q1, h1, h2, rfl⟩
  · obtain ⟨pa, pp, g, hq, _⟩ := profWindow_frame hx
    rw [zero s s' (by rw [hq]) (by rw [hq]) (by rw [hq]) (by rw [hq]) (by rw [hq])]
    have e1 : s'.simInst = s.simInst := by rw [hq]
    have e2 : s'.simStep = s.simStep := by rw [hq]
    rw [e1, e2, BitVec.sub_self, BitVec.sub_self]
    split <;> exact (BitVec.add_zero _).symm
  · obtain ⟨pa, pp, g, hq, _⟩ := profWindow_frame h1
    have c0 : cntOf i q0.core = cntOf i s.core :=
      zero s q0 (by rw [hq]) (by rw [hq]) (by rw [hq]) (by rw [hq]) (by rw [hq])
    have t0 : q0.trapped = false := by rw [hq]
    obtain ⟨o1, o2, _⟩ := stepExec_outcome t0 h2
    have e1 : q1.simStep = s.simStep := by rw [o1, hq]
    have e2 : q1.simInst = s.simInst := by rw [o2, hq]
    have key : cntOf i q1.core = cntOf i s.core := by
      rw [← c0]
      obtain ⟨d, nt, qa, hc, _, h2⟩ := stepExec_split h2
      have ha : Cn i (cntOf i q0.core) qa := cn_check (E := E) i _ d _ _ _ rfl hc
      have hwk : Cn i (cntOf i q0.core) (wakeSt nt qa) := ha
      rcases h2 with ⟨ht, hwf, qc, hf, he⟩ | ⟨rfl, _⟩
      · have hfc : Cn i (cntOf i q0.core) qc := cn_fetch (E := E) i _ _ _ _ hwk hf
        rcases cn_exec (i := i) he with e | ⟨hcop, hadd⟩
        · exact e.trans hfc
        · exfalso
          apply hw
          have hin := inst_exec he
          rw [if_neg (fun hh => hh.1 hcop)] at hin
          have hfi : (finishSt E q1).inst = qc.inst := (finish_tohost q1).2.1.trans hin
          refine ⟨by rw [hfi]; exact hadd, ?_⟩
          rw [hfi]
          by_cases h4 : IP.funct3 qc.inst = 4#3
          · exact .inr (.inl h4)
          · have htc : qc.trapped = false := by
              rcases fetch_trap hf with e | ⟨_, e⟩
              · exact e.trans ht
              · rw [e] at hadd; exact absurd hadd.1 (by decide)
            have ht1 := exec_write_quiet he hcop hadd h4 htc
            have hwa : q1.wfiActive = false := by
              have hb2 : Book (wakeSt nt qa).trapLog (wakeSt nt qa).simInst (wakeSt nt qa).simStep (wakeSt nt qa).wfiActive (wakeSt nt qa) :=
                ⟨rfl, rfl, rfl, fun _ => rfl, fun h => by rw [ht] at h; cases h⟩
              have hb3 := (book_prims (E := E) _ _ _ _).fetch _ _ _ hb2 hf
              have hb4 := (book_prims (E := E) _ _ _ _).exec _ _ _ hb3 he
              rw [hb4.2.2.1]
              rcases hwf with hwf | hwf
              · exact hwf
              · unfold wakeSt; rw [hwf]; simp
            unfold finishSt finishSt1
            split
            · exact .inr (.inr rfl)
            · split
              · rename_i hh; rw [show q1.wfiActive = true from hh.1] at hwa; cases hwa
              · split
                · rename_i hh; rw [show q1.trapped = true from hh] at ht1; cases ht1
                · left
                  change q1.simInst + 1#64 = _
                  rw [e2]
      · exact hwk
    rw [finish_cnt, key, e1, e2]

/-- **C20**: over any history in which software does not write the counter, minstret advances by
exactly the number of instructions retired and mcycle by exactly the number of steps.  Together
with `csr_rmw` (what a write leaves, and that a read returns this number) this determines every read
in every history.  Partial: the reserved encoding funct3 = 4 counts as a write here, because it
loses a count (`Ex.funct3_4_loses_count`). -/
theorem counter_history_partial {i : Bool} {s s' : St σ} (h : History E (fun t t' => ¬ Writes i t t') s s') :
    cntOf i s'.core = cntOf i s.core + (if i then s'.simInst - s.simInst else s'.simStep - s.simStep) := by
  induction h with
  | refl =>
    rw [BitVec.sub_self, BitVec.sub_self]
    split <;> exact (BitVec.add_zero _).symm
  | snoc _ _ hs hw ih =>
    rw [counter_step hs hw, ih]
    split
    · rw [BitVec.add_assoc]; congr 1; bv_omega
    · rw [BitVec.add_assoc]; congr 1; bv_omega

/-- **C20**: from reset, until software writes it, minstret is the number of instructions retired
and mcycle the number of steps. -/
theorem counter_from_reset_partial {image : W → BitVec 8} {pp : ProfPc} {g : σ} {s' : St σ} :
    (History E (fun t t' => ¬ Writes true t t') (initSt E image pp g) s' → minstretOf s'.core = s'.simInst) ∧
    (History E (fun t t' => ¬ Writes false t t') (initSt E image pp g) s' → mcycleOf s'.core = s'.simStep) := by
  have boot : ∀ c, csrBoot c 0xb02#16 = 0#32 ∧ csrBoot c 0xb82#16 = 0#32 ∧ csrBoot c 0xb00#16 = 0#32 ∧
      csrBoot c 0xb80#16 = 0#32 := by decide +kernel
  obtain ⟨b1, b2, b3, b4⟩ := boot E.cfg.rv32c
  constructor
  · intro h
    have := counter_history_partial h
    rw [if_pos rfl] at this
    have e : cntOf true (initSt E image pp g).core = 0#64 := by
      change pair (csrBoot E.cfg.rv32c 0xb82#16) (csrBoot E.cfg.rv32c 0xb02#16) + (0#64 - 0#64) = 0#64
      rw [b1, b2]; rfl
    rw [e] at this
    have e0 : (initSt E image pp g).simInst = 0#64 := rfl
    rw [e0, BitVec.zero_add, BitVec.sub_zero] at this
    exact this
  · intro h
    have := counter_history_partial h
    rw [if_neg (by decide)] at this
    have e : cntOf false (initSt E image pp g).core = 0#64 := by
      change pair (csrBoot E.cfg.rv32c 0xb80#16) (csrBoot E.cfg.rv32c 0xb00#16) + (0#64 - 0#64) = 0#64
      rw [b3, b4]; rfl
    rw [e] at this
    have e0 : (initSt E image pp g).simStep = 0#64 := rfl
    rw [e0, BitVec.zero_add, BitVec.sub_zero] at this
    exact this

namespace Ex
/-- **C20 fails** for the reserved encoding: from reset, an instruction with opcode SYSTEM,
funct3 = 4, rs1 = x1 and CSR address minstret traps (so nothing retires), and minstret then reads
2^64 − 1 instead of 0. -/
theorem funct3_4_loses_count :
    obs (step env0 (st0 env0 [csrWord 0xb02#12 1#5 4#3 0#5])) (fun s => (s.simInst, minstretOf s.core, s.trapLog.length)) =
      some (0#64, 0xffffffffffffffff#64, 1) := by decide +kernel

/-- a history without counter writes: nop; csrr x1, minstret -/
example : ∃ s', History env0 (fun t t' => ¬ Writes true t t') (st0 env0 [0x13#32, 0xb02020f3#32]) s' ∧
    s'.simInst = 2#64 ∧ s'.rf 1#5 = 1#32 := by
  have h1 : obs (step env0 (st0 env0 [0x13#32, 0xb02020f3#32])) (fun s => (s.inst, s.running)) = some (0x13#32, true) := by
    decide +kernel
  have h2 : obs (runN env0 2 (st0 env0 [0x13#32, 0xb02020f3#32])) (fun s => (s.inst, s.simInst, s.rf 1#5)) =
      some (0xb02020f3#32, 2#64, 1#32) := by
    decide +kernel
  cases e1 : step env0 (st0 env0 [0x13#32, 0xb02020f3#32]) with
  | ub k => rw [e1] at h1; cases h1
  | abort => rw [e1] at h1; cases h1
  | ok p =>
    obtain ⟨_, s1⟩ := p
    rw [e1] at h1
    simp only [obs, Option.some.injEq, Prod.mk.injEq] at h1
    have er : runN env0 2 (st0 env0 [0x13#32, 0xb02020f3#32]) = runN env0 1 s1 := by
      unfold runN
      rw [M.bind_ok (M.get_app _ _)]
      rw [if_pos (by rfl), M.bind_ok e1]
      rfl
    rw [er] at h2
    cases e2 : step env0 s1 with
    | ub k => unfold runN at h2; rw [M.bind_ok (M.get_app _ _), if_pos h1.2] at h2; simp only [M.bind_app, e2] at h2; cases h2
    | abort => unfold runN at h2; rw [M.bind_ok (M.get_app _ _), if_pos h1.2] at h2; simp only [M.bind_app, e2] at h2; cases h2
    | ok p2 =>
      obtain ⟨_, s2⟩ := p2
      have er2 : runN env0 1 s1 = .ok ((), s2) := by
        unfold runN
        rw [M.bind_ok (M.get_app _ _), if_pos h1.2, M.bind_ok e2]
        rfl
      rw [er2] at h2
      simp only [obs, Option.some.injEq, Prod.mk.injEq] at h2
      refine ⟨s2, .snoc (.snoc (.refl _) rfl e1 ?_) h1.2 e2 ?_, h2.2.1, h2.2.2⟩
      · rintro ⟨h, -⟩
        rw [h1.1] at h
        exact absurd h.1 (by decide)
      · rintro ⟨h, -⟩
        rw [h2.1] at h
        exact absurd h.2.2.1 (by decide)
end Ex

end Ama
