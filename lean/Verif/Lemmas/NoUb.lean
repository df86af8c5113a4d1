import Verif.Spec.Host
import Verif.Props.SimdStep
import Verif.Props.Bus
import Verif.Props.Alu
import Verif.Lemmas.Inverse
/-!
# Executions without undefined behaviour

`Fine m`: started with devices of the constructed sizes, `m` has no undefined behaviour and keeps
the sizes.
-/
namespace Ama
open M Spec
variable {σ α β : Type}

/-- no undefined behaviour from correctly sized devices -/
def Fine (m : M σ α) : Prop := ∀ s : St σ, Sized s → twp True m (fun _ q => Sized q) s

namespace Fine
theorem bind {m : M σ α} {f : α → M σ β} (h1 : Fine m) (h2 : ∀ a, Fine (f a)) : Fine (m >>= f) :=
  fun s hs => twp_bind.2 (twp_mono (h1 s hs) fun a q hq => h2 a q hq)
theorem pure (a : α) : Fine (pure a : M σ α) := fun _ hs => hs
theorem get (f : St σ → α) : Fine (M.get f) := fun _ hs => hs
theorem mod {f : St σ → St σ} (h : ∀ s, Sized s → Sized (f s)) : Fine (M.mod f) := fun s hs => h s hs
theorem ite {c : Prop} [Decidable c] {x y : M σ α} (h1 : Fine x) (h2 : Fine y) :
    Fine (if c then x else y) := by split <;> assumption
theorem abort : Fine (fun _ => .abort : M σ α) := fun _ _ => trivial
theorem liftOk {r : Res α} {a : α} (h : r = .ok a) : Fine (M.lift r : M σ α) := by subst h; exact fun _ hs => hs
end Fine

/-- one step of the walk -/
syntax "fn1" : tactic
macro_rules | `(tactic| fn1) => `(tactic| assumption)
macro_rules | `(tactic| fn1) => `(tactic| with_reducible refine Fine.bind ?_ fun _ => ?_)
macro_rules | `(tactic| fn1) => `(tactic| with_reducible refine Fine.ite ?_ ?_)
macro_rules | `(tactic| fn1) => `(tactic| with_reducible exact Fine.pure _)
macro_rules | `(tactic| fn1) => `(tactic| with_reducible exact Fine.get _)
macro_rules | `(tactic| fn1) => `(tactic| ((with_reducible refine Fine.mod ?_); exact fun _ hs => hs))
/-- walk a model program -/
macro "fn" : tactic => `(tactic| repeat' fn1)

variable {E : Env σ}
theorem fn_trapInst (c v : W) : Fine (trapInst c v : M σ Unit) := by unfold trapInst trapStateUpdate; fn
macro_rules | `(tactic| fn1) => `(tactic| with_reducible exact fn_trapInst _ _)
theorem fn_eIllegal : Fine (eIllegal : M σ Unit) := by unfold eIllegal; fn
macro_rules | `(tactic| fn1) => `(tactic| with_reducible exact fn_eIllegal)
theorem fn_eEnv (c : W) : Fine (eEnv c : M σ Unit) := by unfold eEnv; fn
macro_rules | `(tactic| fn1) => `(tactic| with_reducible exact fn_eEnv _)
theorem fn_eHardware : Fine (eHardware : M σ Unit) := by unfold eHardware; fn
macro_rules | `(tactic| fn1) => `(tactic| with_reducible exact fn_eHardware)
theorem fn_eInstMisaligned (a : W) : Fine (eInstMisaligned a : M σ Unit) := by unfold eInstMisaligned; fn
macro_rules | `(tactic| fn1) => `(tactic| with_reducible exact fn_eInstMisaligned _)
theorem fn_eTimer : Fine (eTimer : M σ Unit) := by unfold eTimer; fn
macro_rules | `(tactic| fn1) => `(tactic| with_reducible exact fn_eTimer)
theorem fn_eExternal : Fine (eExternal : M σ Unit) := by unfold eExternal; fn
macro_rules | `(tactic| fn1) => `(tactic| with_reducible exact fn_eExternal)
theorem fn_eDmemAccess (a : W) (o : MemOp) : Fine (eDmemAccess a o : M σ Unit) := by unfold eDmemAccess; fn
macro_rules | `(tactic| fn1) => `(tactic| with_reducible exact fn_eDmemAccess _ _)
theorem fn_eDmemMisaligned (a : W) (o : MemOp) : Fine (eDmemMisaligned a o : M σ Unit) := by unfold eDmemMisaligned; fn
macro_rules | `(tactic| fn1) => `(tactic| with_reducible exact fn_eDmemMisaligned _ _)
theorem fn_guardAccess (b : Bool) : Fine (guardAccess b : M σ Unit) := Fine.ite (Fine.pure _) Fine.abort
macro_rules | `(tactic| fn1) => `(tactic| with_reducible exact fn_guardAccess _)
theorem fn_hwUpd (f : σ → σ) : Fine (hwUpd E f) := by unfold hwUpd; fn
macro_rules | `(tactic| fn1) => `(tactic| with_reducible exact fn_hwUpd _)
theorem fn_rg (r : BitVec 5) : Fine (rg r : M σ W) := Fine.get _
macro_rules | `(tactic| fn1) => `(tactic| with_reducible exact fn_rg _)
theorem fn_setNext (v : W) : Fine (setNext v : M σ Unit) := by unfold setNext; fn
macro_rules | `(tactic| fn1) => `(tactic| with_reducible exact fn_setNext _)
theorem fn_nextSeq (v : W) : Fine (nextSeq v : M σ Unit) := by unfold nextSeq; fn
macro_rules | `(tactic| fn1) => `(tactic| with_reducible exact fn_nextSeq _)
theorem fn_emit (ev : ProfEv) : Fine (emit E ev) := by unfold emit; fn
macro_rules | `(tactic| fn1) => `(tactic| with_reducible exact fn_emit _)
theorem fn_writeRf (r : BitVec 5) (v : W) : Fine (writeRf r v : M σ Unit) := by unfold writeRf; fn
macro_rules | `(tactic| fn1) => `(tactic| with_reducible exact fn_writeRf _ _)
theorem fn_profState (b : Bool) : Fine (profState E b) := by unfold profState whenM; fn
macro_rules | `(tactic| fn1) => `(tactic| with_reducible exact fn_profState _)
theorem fn_cacheHint (a : W) (m : Simd.ScpMode) : Fine (cacheHint E a m) := by unfold cacheHint; fn
macro_rules | `(tactic| fn1) => `(tactic| with_reducible exact fn_cacheHint _ _)
theorem fn_mret : Fine (mretStateUpdate : M σ Unit) := by unfold mretStateUpdate; fn
macro_rules | `(tactic| fn1) => `(tactic| with_reducible exact fn_mret)

/-! ## Memory -/

theorem fn_setAddr (a : W) (o : MemOp) (n : Nat) : Fine (setAddr E a o n) := by
  unfold setAddr
  split
  · fn
  · simp only
    fn

/-- a data access of 1, 2 or 4 bytes -/
theorem fn_memRd (a : W) {n : Nat} (hn : n = 1 ∨ n = 2 ∨ n = 4) : Fine (memRd E a n) := by
  intro s hs
  cases ht : s.trapped
  · have e : ({ s with trapped := false } : St σ) = s := by rw [← ht]
    have := busOp_eff E (.load a n) hn s hs
    change (memRd E a n { s with trapped := false } = _ ∧ _) ∨ (∃ v t, memRd E a n { s with trapped := false } = _ ∧ _) at this
    rw [e] at this
    rcases this with ⟨h, -⟩ | ⟨v, t, h, -, hz⟩
    · rw [twp_abort h]; trivial
    · rw [twp_ok h]; exact hz
  · unfold memRd
    rw [twp_bind]
    have : twp True (setAddr E a .read n) (fun _ q => Sized q ∧ q.trapped = true) s := by
      unfold setAddr
      split
      · exact ⟨hs, rfl⟩
      · simp only
        split
        · exact ⟨hs, rfl⟩
        · exact ⟨hs, ht⟩
    refine twp_mono this fun r q hq => ?_
    rw [twp_bind, twp_get, hq.2]
    exact hq.1
theorem fn_memWr (a v : W) {n : Nat} (hn : n = 1 ∨ n = 2 ∨ n = 4) : Fine (memWr E a v n) := by
  intro s hs
  cases ht : s.trapped
  · have e : ({ s with trapped := false } : St σ) = s := by rw [← ht]
    have := busOp_eff E (.store a v n) hn s hs
    have hr : (BusOp.store a v n).run E s = (do memWr E a v n; pure 0#32) ({ s with trapped := false } : St σ) := rfl
    rw [hr, e, M.bind_app] at this
    unfold twp
    cases h : memWr E a v n s with
    | ok r =>
      rw [h] at this
      rcases this with ⟨h', -⟩ | ⟨_, t, h', -, hz⟩
      · cases h'
      · cases h'; exact hz
    | ub k =>
      rw [h] at this
      rcases this with ⟨h', -⟩ | ⟨_, t, h', -, hz⟩ <;> cases h'
    | abort => trivial
  · unfold memWr
    rw [twp_bind]
    have : twp True (setAddr E a .write n) (fun _ q => Sized q ∧ q.trapped = true) s := by
      unfold setAddr
      split
      · exact ⟨hs, rfl⟩
      · simp only
        split
        · exact ⟨hs, rfl⟩
        · exact ⟨hs, ht⟩
    refine twp_mono this fun r q hq => ?_
    rw [twp_bind, twp_get, hq.2]
    exact hq.1
theorem fn_updateMtime (e : BitVec 64) : Fine (updateMtime e : M σ Unit) := by
  intro s hs
  rw [twp_ok (updateMtime_app e s hs)]
  obtain ⟨_, _, _, _, _, h⟩ := mtime_tick e s hs
  exact h
theorem fn_uartUpdateInput (t : BitVec 64) : Fine (uartUpdateInput E t) := by
  intro s hs
  rw [twp_ok (uartUpdateInput_app E t s hs)]
  exact ⟨hs.1, (rxSt_frame E t s.uart).2.trans hs.2.1, hs.2.2⟩
macro_rules | `(tactic| fn1) => `(tactic| with_reducible exact fn_updateMtime _)
macro_rules | `(tactic| fn1) => `(tactic| with_reducible exact fn_uartUpdateInput _)
theorem fn_mtimeShadow : Fine (mtimeShadow : M σ (BitVec 64)) := by
  intro s hs
  have hz := hs.2.2
  unfold mtimeShadow
  rw [twp_bind, twp_get, s.clint.dev.rd64_ok (by rw [hz]; decide) (by rw [hz]; decide), twp_lift_ok]
  exact hs
macro_rules | `(tactic| fn1) => `(tactic| with_reducible exact fn_mtimeShadow)
theorem fn_csrCntUpdate (w : W) (a : BitVec 16) : Fine (csrCntUpdate E w a) := by unfold csrCntUpdate; fn
macro_rules | `(tactic| fn1) => `(tactic| with_reducible exact fn_csrCntUpdate _ _)
theorem fn_writeCsr (e : CsrEntry) (v : W) : Fine (writeCsr e v : M σ Unit) := by
  unfold writeCsr
  split <;> fn
macro_rules | `(tactic| fn1) => `(tactic| with_reducible exact fn_writeCsr _ _)
theorem fn_csrDo (op : CsrOp) (e : CsrEntry) (w v : W) : Fine (csrDo op e w v : M σ Unit) := by
  refine Fine.bind (Fine.get _) fun _ => ?_
  cases op <;> simp only <;> fn
macro_rules | `(tactic| fn1) => `(tactic| with_reducible exact fn_csrDo _ _ _ _)
theorem fn_dCsr (w : W) : Fine (dCsr E w) := by
  unfold dCsr
  split
  · fn
  · refine Fine.bind (fn_csrCntUpdate _ _) fun _ => Fine.bind (fn_rg _) fun _ => Fine.bind (Fine.get _) fun _ =>
      Fine.bind (fn_writeRf _ _) fun _ => Fine.bind ?_ fun _ => Fine.mod fun _ hs => hs
    split <;> fn
macro_rules | `(tactic| fn1) => `(tactic| with_reducible exact fn_dCsr _)
theorem fn_dSystem (w : W) : Fine (dSystem E w) := by unfold dSystem; fn
theorem fn_dMiscMem (w : W) : Fine (dMiscMem E w) := by unfold dMiscMem; fn
theorem fn_loadVal (op : LoadOp) (a : W) : Fine (loadVal E op a) := by
  have h1 := fn_memRd (E := E) a (n := 1) (.inl rfl)
  have h2 := fn_memRd (E := E) a (n := 2) (.inr (.inl rfl))
  have h4 := fn_memRd (E := E) a (n := 4) (.inr (.inr rfl))
  cases op <;> simp only [loadVal] <;> fn
macro_rules | `(tactic| fn1) => `(tactic| with_reducible exact fn_loadVal _ _)
theorem fn_dLoad (w : W) : Fine (dLoad E w) := by
  unfold dLoad
  split <;> fn
theorem fn_dStore (w : W) : Fine (dStore E w) := by
  unfold dStore
  split
  · fn
  · rename_i op _
    have h := fun a v => fn_memWr (E := E) a v (n := op.bytes) (by cases op <;> simp [StoreOp.bytes])
    refine Fine.bind (fn_rg _) fun _ => Fine.bind (fn_rg _) fun _ => Fine.bind (h _ _) fun _ => ?_
    fn
theorem fn_dJalr (w : W) : Fine (dJalr E w) := by unfold dJalr; simp only; fn
theorem fn_dJal (w : W) : Fine (dJal E w) := by unfold dJal; simp only; fn
theorem fn_dLui (w : W) : Fine (dLui E w) := by unfold dLui; fn
theorem fn_dAuipc (w : W) : Fine (dAuipc E w) := by unfold dAuipc; fn
theorem fn_cWrite (op : COp) (r : BitVec 5) (v : W) : Fine (cWrite E op r v) := by unfold cWrite; fn
macro_rules | `(tactic| fn1) => `(tactic| with_reducible exact fn_cWrite _ _ _)
theorem fn_cLoad (op : COp) (b d : BitVec 5) (o : W) : Fine (cLoad E op b d o) := by
  have h := fun a => fn_memRd (E := E) a (n := 4) (.inr (.inr rfl))
  refine Fine.bind (fn_rg _) fun _ => Fine.bind (h _) fun _ => ?_
  fn
theorem fn_cStore (op : COp) (b d : BitVec 5) (o : W) : Fine (cStore E op b d o) := by
  have h := fun a v => fn_memWr (E := E) a v (n := 4) (.inr (.inr rfl))
  refine Fine.bind (fn_rg _) fun _ => Fine.bind (fn_rg _) fun _ => Fine.bind (h _ _) fun _ => ?_
  fn
theorem fn_dCompressed0 (w : W) : Fine (dCompressed0 E w) := by
  unfold dCompressed0
  split
  · unfold cAddi4spn; fn
  · exact fn_cLoad _ _ _ _
  · exact fn_cStore _ _ _ _
  · fn
theorem fn_aluSlti (w a b : W) : Fine (aluSlti E w a b) := by
  unfold aluSlti; fn

theorem fn_checkInterrupts (d : Bool) : Fine (checkInterrupts E d) := by unfold checkInterrupts; simp only; fn
theorem fn_profWindow : Fine (profWindow E) := by unfold profWindow; simp only; fn
theorem fn_stepFinish : Fine (stepFinish E) := by
  unfold stepFinish; fn

/-! ## Instructions with hazards -/

variable {s : St σ} {w : W}

/-- instruction fields -/
theorem sel_sll : ∀ f7 f3, aluRegSel f7 f3 = some .sll → f7 = 0#7 ∧ f3 = 1#3 := by decide +kernel
theorem sel_srl : ∀ f7 f3, aluRegSel f7 f3 = some .srl → f7 = 0#7 ∧ f3 = 5#3 := by decide +kernel
theorem sel_sra : ∀ f7 f3, aluRegSel f7 f3 = some .sra → f7 = 0x20#7 ∧ f3 = 5#3 := by decide +kernel
theorem sel_mul : ∀ f7 f3, aluRegSel f7 f3 = some .mul → f7 = 1#7 ∧ f3 = 0#3 := by decide +kernel

theorem aluOp_ok (st : Bool) (op : AluOp) (a b : W) (h : st = true → aluUb op a b = none) :
    ∃ v, aluOp st op a b = .ok v := by
  cases st
  · exact ⟨_, alu_value op a b⟩
  · rw [alu_strict, h rfl]; exact ⟨_, rfl⟩

theorem nh_dAluReg (hs : Sized s) (ho : IP.opcode w = 0x33#7) (hn : ¬ Hazard E s.pc s.rf w) :
    twp True (dAluReg E w) (fun _ q => Sized q) s := by
  unfold dAluReg
  split
  · exact fn_eIllegal s hs
  · rename_i op hsel
    have hr := inv_R w
    rw [ho] at hr
    have hu : E.cfg.strict = true → aluUb op (s.rf (IP.rs1 w)) (s.rf (IP.rs2 w)) = none := by
      intro hst
      cases op <;> simp only [aluUb] <;> try (split <;> [rfl; rename_i hc])
      · obtain ⟨h1, h2⟩ := sel_sll _ _ hsel
        exact absurd (Hazard.shiftReg hst hr (by rw [h1, h2]; simp) (by omega)) hn
      · obtain ⟨h1, h2⟩ := sel_srl _ _ hsel
        exact absurd (Hazard.shiftReg hst hr (by rw [h1, h2]; simp) (by omega)) hn
      · obtain ⟨h1, h2⟩ := sel_sra _ _ hsel
        exact absurd (Hazard.shiftReg hst hr (by rw [h1, h2]; simp) (by omega)) hn
      · obtain ⟨h1, h2⟩ := sel_mul _ _ hsel
        rw [h1, h2] at hr
        exact absurd (Hazard.mulReg hst hr hc) hn
    obtain ⟨v, hv⟩ := aluOp_ok _ op _ _ hu
    rw [twp_bind, rg, twp_get, twp_bind, rg, twp_get, hv]
    have : Fine (do
        (match op.divUns with
          | some uns => hwUpd E (E.hw.divEval (s.rf (IP.rs1 w)) (s.rf (IP.rs2 w)) uns)
          | none => pure ())
        let res ← lift (.ok v)
        writeRf (IP.rd w) res
        emit E (.alu op)
        nextSeq 4#32) := by
      refine Fine.bind ?_ fun _ => Fine.bind (Fine.liftOk rfl) fun _ => ?_
      · split <;> fn
      · fn
    exact this s hs

theorem norm_toNat (a : W) : (toNorm a).toNat = a.toNat % 131072 := by
  unfold toNorm
  rw [BitVec.toNat_and]
  exact Nat.and_two_pow_sub_one_eq_mod a.toNat 17

theorem nh_justInst {a : W} (hs : Sized s) (h : ¬ pastEnd a) {Q : W → St σ → Prop} (hq : ∀ v, Q v s) :
    twp True (justInst a) Q s := by
  unfold pastEnd at h
  exact twp_justInst hs.1 (by rw [norm_toNat]; unfold memSize; omega) (hq _)

theorem immI_sext (w : W) : IP.immI w = (w.extractLsb' 20 12).signExtend 32 := by
  conv => lhs; rw [inv_I w]
  exact (decode_I _ _ _ _ _).2.2.2.2.1
theorem sext_small {imm : BitVec 12} (h : ¬ 32 ≤ imm.toNat) : (imm.signExtend 32).toNat < 32 := by
  have : imm.msb = false := by
    rw [BitVec.msb_eq_decide]; simp; omega
  rw [BitVec.signExtend_eq_setWidth_of_msb_false this, BitVec.toNat_setWidth]
  omega

theorem immSel_f3 : ∀ b f3 op, aluImmSel b f3 = some op → (op = .slli → f3 = 1#3 ∧ b = 0#1) ∧ (op = .srli ∨ op = .srai → f3 = 5#3) := by
  decide +kernel

theorem nh_dAluImm (hs : Sized s) (ho : IP.opcode w = 0x13#7) (hn : ¬ Hazard E s.pc s.rf w) :
    twp True (dAluImm E w) (fun _ q => Sized q) s := by
  unfold dAluImm
  split
  · exact fn_eIllegal s hs
  · rename_i op hsel
    have hi := inv_I w
    rw [ho] at hi
    obtain ⟨k0, k2⟩ := immSel_f3 _ _ _ hsel
    have k1 : op = .slli → IP.funct3 w = 1#3 ∧ (w.extractLsb' 20 12).getLsbD 10 = false := by
      intro h
      refine ⟨(k0 h).1, ?_⟩
      have h1 := (k0 h).2
      rw [hi, (decode_I _ _ _ _ _).2.2.2.2.2.2.2.1] at h1
      have := congrArg (fun b => b.getLsbD 0) h1
      simpa using this
    rw [twp_bind, rg, twp_get, twp_bind]
    have tl : ∀ (r : W) (q : St σ), Sized q → twp True (do
        writeRf (IP.rd w) r
        emit E (.alui op)
        nextSeq 4#32) (fun _ q => Sized q) q := by
      intro r
      have : Fine (do
        writeRf (IP.rd w) r
        emit E (.alui op)
        nextSeq 4#32) := by fn
      exact this
    have sh : ∀ o : AluOp, (o = .sll ∨ o = .srl ∨ o = .sra → IP.funct3 w = 1#3 ∧ (w.extractLsb' 20 12).getLsbD 10 = false ∨ IP.funct3 w = 5#3) → o ≠ .mul →
        ∃ v, aluOp E.cfg.strict o (s.rf (IP.rs1 w)) (IP.immI w) = .ok v := by
      intro o ho hm
      refine aluOp_ok _ _ _ _ fun hst => ?_
      have key : (o = .sll ∨ o = .srl ∨ o = .sra) → (IP.immI w).toNat < 32 := by
        intro hh
        rw [immI_sext]
        refine sext_small fun hc => hn (Hazard.shiftImm hst hi (ho hh) hc)
      cases o <;> simp only [aluUb] <;> first | rfl | (rw [if_pos (key (by simp))]) | exact absurd rfl hm
    have fin : ∀ o : AluOp, (o = .sll ∨ o = .srl ∨ o = .sra → IP.funct3 w = 1#3 ∧ (w.extractLsb' 20 12).getLsbD 10 = false ∨ IP.funct3 w = 5#3) → o ≠ .mul →
        twp True (lift (aluOp E.cfg.strict o (s.rf (IP.rs1 w)) (IP.immI w))) (fun r q => twp True (do
        writeRf (IP.rd w) r
        emit E (.alui op)
        nextSeq 4#32) (fun _ q => Sized q) q) s := by
      intro o h1 h2
      obtain ⟨v, hv⟩ := sh o h1 h2
      rw [hv, twp_lift_ok]
      exact tl _ _ hs
    cases op
    case slti => exact twp_mono (fn_aluSlti _ _ _ s hs) fun r q hq => tl r q hq
    case slli =>
      simp only [aluImm]
      rw [twp_bind, twp_ite]
      have f := fin .sll (fun _ => .inl (k1 rfl)) (by decide)
      split
      · rename_i hp
        rw [twp_bind, twp_get, twp_bind]
        refine nh_justInst hs ?_ fun _ => ?_
        · rw [(k1 rfl).1] at hi
          exact fun hc => hn (Hazard.slliPeek hp (k1 rfl).2 hi hc)
        · exact f
      · exact f
    case srli => exact fin .srl (fun _ => .inr (k2 (by decide))) (by decide)
    case srai => exact fin .sra (fun _ => .inr (k2 (by decide))) (by decide)
    case addi => exact fin .add (fun h => by simp at h) (by decide)
    case sltiu => exact fin .sltu (fun h => by simp at h) (by decide)
    case xori => exact fin .xor (fun h => by simp at h) (by decide)
    case ori => exact fin .or (fun h => by simp at h) (by decide)
    case andi => exact fin .and (fun h => by simp at h) (by decide)

/-! ## SIMD -/

/-- every selected operation is one of the listed instructions -/
theorem sel_listed {f7 : BitVec 7} {f3 : BitVec 3} {op : Simd.Op} (h : Simd.sel f7 f3 = some op) :
    (∃ x m, X1.match? x = some m ∧ op = opOf1 x ∧ m = encR f7 0#5 0#5 f3 0#5 0x0b#7) ∨
    (∃ y m, X2.match? y = some m ∧ op = opOf2 y ∧ m = encR f7 0#5 0#5 f3 0#5 0x0b#7) ∨ ∃ md, op = .scp md := by
  unfold Simd.sel at h
  split at h <;> (first | (cases h) | split at h) <;> cases h <;> first
    | exact .inr (.inr ⟨_, rfl⟩)
    | (refine .inl ⟨.add _, _, ?_, by exact rfl, rfl⟩; decide)
    | (refine .inl ⟨.sub _, _, ?_, by exact rfl, rfl⟩; decide)
    | (refine .inl ⟨.qadd _ _, _, ?_, by exact rfl, rfl⟩; decide)
    | (refine .inl ⟨.qsub _ _, _, ?_, by exact rfl, rfl⟩; decide)
    | (refine .inl ⟨.mul _, _, ?_, by exact rfl, rfl⟩; decide)
    | (refine .inl ⟨.mulh _ _, _, ?_, by exact rfl, rfl⟩; decide)
    | (refine .inl ⟨.dot _ _, _, ?_, by exact rfl, rfl⟩; decide)
    | (refine .inl ⟨.min _ _, _, ?_, by exact rfl, rfl⟩; decide)
    | (refine .inl ⟨.max _ _, _, ?_, by exact rfl, rfl⟩; decide)
    | (refine .inl ⟨.slli _, _, ?_, by exact rfl, rfl⟩; decide)
    | (refine .inl ⟨.srli _, _, ?_, by exact rfl, rfl⟩; decide)
    | (refine .inl ⟨.srai _, _, ?_, by exact rfl, rfl⟩; decide)
    | (refine .inl ⟨.narrow _, _, ?_, by exact rfl, rfl⟩; decide)
    | (refine .inl ⟨.qnarrow _ _, _, ?_, by exact rfl, rfl⟩; decide)
    | (refine .inl ⟨.dup _, _, ?_, by exact rfl, rfl⟩; decide)
    | (refine .inl ⟨.vins _, _, ?_, by exact rfl, rfl⟩; decide)
    | (refine .inl ⟨.vext _ _, _, ?_, by exact rfl, rfl⟩; decide)
    | (refine .inr (.inl ⟨.wmul _ _, _, ?_, by exact rfl, rfl⟩); decide)
    | (refine .inr (.inl ⟨.widen _ _, _, ?_, by exact rfl, rfl⟩); decide)
    | (refine .inr (.inl ⟨.txp _, _, ?_, by exact rfl, rfl⟩); decide)

theorem hostOk1 {x : X1} {m : W} (hm : x.match? = some m) {st : Bool}
    (h : st = true → ¬ (x = .mulh 16 false ∨ x = .dot 16 true ∨ x = .dot 16 false)) : X1.hostOk st x := by
  cases st
  · cases x <;> simp [X1.hostOk, mulOk]
  · refine (hostOk_iff hm).2 ?_ true
    have := h rfl
    simp only [not_or] at this
    exact this
theorem hostOk2 {y : X2} {m : W} (hm : y.match? = some m) {st : Bool}
    (h : st = true → ¬ (y = .wmul 16 false ∨ (∃ n, y = .widen n true) ∨ y = .widen 16 false)) : X2.hostOk st y := by
  cases st
  · cases y <;> simp [X2.hostOk, mulOk, shlOk]
  · have := h rfl
    unfold X2.match? at hm
    split at hm <;> cases hm <;> simp [X2.hostOk, mulOk, shlOk] at this ⊢

theorem nh_dCustom (hs : Sized s) (h0 : s.rf 0#5 = 0#32) (hx : E.cfg.simd = true) (ho : IP.opcode w = 0x0b#7)
    (hn : ¬ Hazard E s.pc s.rf w) :
    twp True (dCustom E w) (fun _ q => Sized q) s := by
  unfold dCustom
  have hr := inv_R w
  rw [ho, ← xWord_enc] at hr
  split
  · rename_i op hsel
    rw [twp_bind]
    have tl : ∀ (q : St σ), Sized q → twp True (do
        emit E (.simd op)
        nextSeq 4#32) (fun _ q => Sized q) q := by
      have : Fine (do
        emit E (.simd op)
        nextSeq 4#32) := by fn
      exact this
    have sz : ∀ (q : St σ) f, q.core = { s.core with rf := f } → Sized q := by
      intro q f h
      rw [sized_core, h]; exact hs
    rcases sel_listed hsel with ⟨x, m, hm, rfl, h⟩ | ⟨y, m, hm, rfl, h⟩ | ⟨md, rfl⟩
    · rw [← h] at hr
      obtain ⟨v, -, hv⟩ := simd1_exec (E := E) (k := s.core) (x := x) (w := w) h0 (table1 hm).2.2
        (hostOk1 hm fun hst hc => hn (Hazard.simd1 hst hx hm hr hc))
      exact hv s rfl _ _ fun q hq => tl q (sz q _ hq)
    · rw [← h] at hr
      obtain ⟨v, -, hv⟩ := simd2_exec (E := E) (k := s.core) (y := y) (w := w) h0
        (fun hc => hn (Hazard.pairX31 hx hm (by rw [hc] at hr; exact hr))) (table2 hm).2.2
        (hostOk2 hm fun hst hc => hn (Hazard.simd2 hst hx hm hr hc))
      exact hv s rfl _ _ fun q hq => tl q (sz q _ hq)
    · have : Fine (simdExec E w (.scp md)) := by unfold simdExec; simp only; fn
      exact twp_mono (this s hs) fun _ q hq => tl q hq
  · have : Fine (eIllegal >>= fun _ => if Simd.selReturns (IP.funct7 w) then pure () else nextSeq 4#32 : M σ Unit) := by fn
    exact this s hs

/-! ## Branches -/

theorem nh_rdInst {a : W} (hs : Sized s) (h : ¬ pastEnd a) :
    twp True (rdInst E a) (fun _ q => Sized q ∧ q.nextPc = s.nextPc) s := by
  unfold rdInst
  simp only
  rw [twp_ite]
  split
  · rw [twp_bind, eInstMisaligned, twp_ok (trapInst_app ..), twp_pure]
    exact ⟨hs, rfl⟩
  · have hb : (toNorm a).toNat + 4 ≤ memSize := by
      unfold pastEnd at h
      rw [norm_toNat]; unfold memSize; omega
    have hr := hs.1
    unfold mmRdInst
    rw [twp_bind]
    cases checkAccess (toNorm a) false false true E.regions
    · exact trivial
    · show twp True (pure ()) _ s
      rw [twp_pure, twp_bind, twp_get, s.ram.rd32_ok (by rw [hr]; exact hb) (by rw [hr]; decide), twp_bind,
        twp_lift_ok, twp_bind]
      unfold hwUpd
      rw [twp_ite]
      split
      · rw [twp_mod]; exact ⟨hs, rfl⟩
      · exact ⟨hs, rfl⟩

theorem nh_branchHw (hs : Sized s)
    (hA : ¬ pastEnd s.nextPc)
    (hB : E.cfg.noBp = false → ∀ h, ¬ pastEnd (E.hw.bpPredict s.pc (IP.immB w) (IP.funct3 w) (E.hw.bpIdeal s.nextPc h)).1)
    (hC : E.cfg.noBp = true → ∀ h, s.nextPc ≠ (E.hw.bpPredict s.pc (IP.immB w) (IP.funct3 w) (E.hw.bpIdeal s.nextPc h)).1) :
    twp True (branchHw E w) (fun _ q => Sized q) s := by
  unfold branchHw
  rw [twp_bind, twp_mod, twp_bind, twp_get, twp_bind, twp_get]
  simp only
  rw [twp_bind, twp_mod, twp_bind]
  have hB := fun h1 => hB h1 s.hw
  have hC := fun h1 => hC h1 s.hw
  simp only
  generalize E.hw.bpPredict s.pc (IP.immB w) (IP.funct3 w) (E.hw.bpIdeal s.nextPc s.hw) = r at *
  have fin : ∀ q : St σ, Sized q → q.nextPc = s.nextPc → (E.cfg.noBp = false → q.instSpec.isSome = true) →
      twp True (do
        mod fun s => { s with hw := E.hw.bpUpdate s.pc s.nextPc s.hw }
        let n ← get (·.nextPc)
        if n = r.1 then do
          let sp ← get (·.instSpec)
          match sp with
          | some i => mod fun s => { s with instResolved := i }
          | none => fun _ => .ub .uninit
        else do
          let i ← rdInst E n
          mod fun s => { s with instResolved := i } : M σ Unit) (fun _ q => Sized q) q := by
    intro q hq hn hi
    rw [twp_bind, twp_mod, twp_bind, twp_get, twp_ite]
    simp only
    split
    · rename_i he
      rw [hn] at he
      rw [twp_bind, twp_get]
      simp only
      cases hb : E.cfg.noBp
      · have := hi hb
        cases hh : q.instSpec with
        | none => rw [hh] at this; cases this
        | some i => rw [twp_mod]; exact hq
      · exact absurd he (hC hb)
    · rw [twp_bind]
      refine twp_mono (nh_rdInst hq (by rw [hn]; exact hA)) fun i q' hq' => ?_
      rw [twp_mod]; exact hq'.1
  rw [twp_ite]
  split
  · rename_i hb
    rw [twp_pure]
    exact fin _ hs rfl fun h => by rw [h] at hb; cases hb
  · rename_i hb
    rw [twp_bind]
    refine twp_mono (nh_rdInst hs (hB (by simpa using hb))) fun i q' hq' => ?_
    rw [twp_mod]
    exact fin _ hq'.1 hq'.2 fun _ => rfl

theorem immB_inv (w : W) : IP.immB w = (dbl (pick 12 w [8, 9, 10, 11, 25, 26, 27, 28, 29, 30, 7, 31])).signExtend 32 := by
  conv => lhs; rw [inv_B w]
  exact (decode_B _ (by simp [dbl]) _ _ _ _).2.2.2.2

theorem branchSel_none : ∀ f3, branchSel f3 = none → f3 = 2#3 ∨ f3 = 3#3 := by decide +kernel

theorem nh_dBranch (hs : Sized s) (ho : IP.opcode w = 0x63#7) (hn : ¬ Hazard E s.pc s.rf w) :
    twp True (dBranch E w) (fun _ q => Sized q) s := by
  have hi := inv_B w
  have hb := immB_inv w
  rw [ho] at hi
  have he : (dbl (pick 12 w [8, 9, 10, 11, 25, 26, 27, 28, 29, 30, 7, 31])).getLsbD 0 = false := by simp [dbl]
  generalize dbl (pick 12 w [8, 9, 10, 11, 25, 26, 27, 28, 29, 30, 7, 31]) = imm at *
  unfold dBranch
  have fin : ∀ q : St σ, Sized q → (q.nextPc = s.pc + 4#32 ∨ q.nextPc = s.pc + imm.signExtend 32) →
      (q.pc = s.pc ∨ IP.funct3 w = 2#3 ∨ IP.funct3 w = 3#3) →
      twp True (do
        let n ← get (·.nextPc)
        if misaligned E n then eInstMisaligned n
        else if E.cfg.hwModels then branchHw E w
        else pure () : M σ Unit) (fun _ q => Sized q) q := by
    intro q hq h1 h2
    rw [twp_bind, twp_get, twp_ite]
    split
    · exact fn_eInstMisaligned _ _ hq
    · rw [twp_ite]
      split
      · rename_i hmis hm
        have h1' : E.cfg.rv32c = true ∨ q.nextPc.toNat % 4 = 0 := by
          simp only [misaligned] at hmis
          cases hrv : E.cfg.rv32c <;> simp [hrv] at hmis ⊢; exact hmis
        refine nh_branchHw hq ?_ ?_ ?_
        · exact fun h => hn (Hazard.branchFetch hm he hi h2 h1 h1' (.inl rfl) h)
        · exact fun hf g h => hn (Hazard.branchFetch hm he hi h2 h1 h1' (.inr ⟨hf, g, rfl⟩) (by rw [hb] at h; exact h))
        · exact fun ht g h => hn (Hazard.branchUninit hm ht he hi h2 h1 h1' (by rw [hb] at h; exact h))
      · exact hq
  rw [twp_bind, twp_get, twp_bind, setNext, twp_mod, twp_bind]
  cases hsel : branchSel (IP.funct3 w) with
  | none =>
    simp only
    unfold eIllegal
    rw [twp_bind, twp_get, twp_ok (trapInst_app ..)]
    exact fin _ hs (.inl rfl) (.inr (branchSel_none _ hsel))
  | some op =>
    simp only
    rw [twp_bind, rg, twp_get, twp_bind, rg, twp_get, twp_ite]
    split
    · rw [twp_bind, setNext, twp_mod]
      unfold emit
      rw [twp_ite]
      split
      · exact fin _ hs (.inr (by rw [← hb])) (.inl rfl)
      · exact fin _ hs (.inr (by rw [← hb])) (.inl rfl)
    · unfold emit
      rw [twp_ite]
      split
      · exact fin _ hs (.inl rfl) (.inl rfl)
      · exact fin _ hs (.inl rfl) (.inl rfl)

/-! ## Compressed instructions -/

theorem six_low {i : BitVec 6} (h : ¬ 32 ≤ i.toNat) : (i.signExtend 32).toNat < 32 ∧ (i.setWidth 32).toNat < 32 := by
  have : i.msb = false := by
    rw [BitVec.msb_eq_decide]; simp; omega
  rw [BitVec.signExtend_eq_setWidth_of_msb_false this, BitVec.toNat_setWidth]
  omega

theorem shift_ok {st : Bool} {a n : W} (h : st = true → n.toNat < 32) :
    (∃ v, aluSll st a n = .ok v) ∧ (∃ v, aluSrl st a n = .ok v) ∧ ∃ v, aluSra st a n = .ok v :=
  ⟨aluOp_ok st .sll a n fun e => if_pos (h e), aluOp_ok st .srl a n fun e => if_pos (h e),
    aluOp_ok st .sra a n fun e => if_pos (h e)⟩

variable {c : W}

theorem nh_dCompressed1 (hs : Sized s) (hrv : E.cfg.rv32c = true) (hc : c = IP.toRvc w) (ho : IP.copcode c = 1#2)
    (hn : ¬ Hazard E s.pc s.rf w) : twp True (dCompressed1 E c) (fun _ q => Sized q) s := by
  have key : IP.cFunct3 c = 4#3 → (IP.cFunct2h c = 0#2 ∨ IP.cFunct2h c = 1#2) → E.cfg.strict = true →
      (IP.cImmArith c).toNat < 32 := by
    intro h3 h2 hst
    have hi := inv_CBA ho h3
    have hcc : IP.toRvc c = c := by subst hc; unfold IP.toRvc; rw [BitVec.and_assoc]; rfl
    rw [hcc] at hi
    have hw : w &&& 0xffff#32 = c := hc.symm
    rw [hi] at hw
    by_cases hl : 32 ≤ (pick 6 c [2, 3, 4, 5, 6, 12]).toNat
    · exact absurd (Hazard.cShift hst hrv hw h2 hl) hn
    · have := (decode_CBA (IP.cFunct2h c) (pick 6 c [2, 3, 4, 5, 6, 12]) (c.extractLsb' 7 3)).2.2.2.2.1
      rw [← hi] at this
      rw [this]
      exact (six_low hl).1
  unfold dCompressed1
  split
  · have : Fine (cAddi E c) := by unfold cAddi; fn
    exact this s hs
  · have : Fine (cJal E c) := by unfold cJal; fn
    exact this s hs
  · have : Fine (cLi E c) := by unfold cLi; fn
    exact this s hs
  · have : Fine (if IP.rd c = 0#5 then cNop E else if IP.rd c = 2#5 then cAddi16sp E c else cLui E c) := by
      unfold cNop cAddi16sp cLui; fn
    exact this s hs
  · rename_i h3
    split
    · rename_i h2
      unfold cSrli
      rw [twp_bind, rg, twp_get]
      obtain ⟨-, ⟨v, hv⟩, -⟩ := shift_ok (a := s.rf (IP.cRegh c)) (key h3 (.inl h2))
      rw [hv, twp_bind, twp_lift_ok]
      exact fn_cWrite _ _ _ _ hs
    · rename_i h2
      unfold cSrai
      rw [twp_bind, rg, twp_get]
      obtain ⟨-, -, ⟨v, hv⟩⟩ := shift_ok (a := s.rf (IP.cRegh c)) (key h3 (.inr h2))
      rw [hv, twp_bind, twp_lift_ok]
      exact fn_cWrite _ _ _ _ hs
    · have : Fine (cAndi E c) := by unfold cAndi; fn
      exact this s hs
    · have : Fine (dCompressed1Alu E c) := by unfold dCompressed1Alu cAlu; split <;> fn
      exact this s hs
  · have : Fine (cJ E c) := by unfold cJ; fn
    exact this s hs
  · have : Fine (cBeqz E c) := by unfold cBeqz; fn
    exact this s hs
  · have : Fine (cBnez E c) := by unfold cBnez; fn
    exact this s hs

theorem nh_dCompressed2 (hs : Sized s) (hrv : E.cfg.rv32c = true) (hc : c = IP.toRvc w) (ho : IP.copcode c = 2#2)
    (hn : ¬ Hazard E s.pc s.rf w) : twp True (dCompressed2 E c) (fun _ q => Sized q) s := by
  unfold dCompressed2
  split
  · rename_i h3
    have hi := inv_CI c
    have hcc : IP.toRvc c = c := by subst hc; unfold IP.toRvc; rw [BitVec.and_assoc]; rfl
    rw [hcc, h3, ho] at hi
    have hw : w &&& 0xffff#32 = c := hc.symm
    rw [hi] at hw
    have hk : E.cfg.strict = true → (IP.cImmSlli c).toNat < 32 := by
      intro hst
      by_cases hl : 32 ≤ (pick 6 c [2, 3, 4, 5, 6, 12]).toNat
      · exact absurd (Hazard.cSlli hst hrv hw hl) hn
      · have := (decode_CI 0#3 (pick 6 c [2, 3, 4, 5, 6, 12]) (IP.rd c) 2#2).2.2.2.2.1
        rw [← hi] at this
        rw [this]
        exact (six_low hl).2
    unfold cSlli
    rw [twp_bind, rg, twp_get]
    obtain ⟨⟨v, hv⟩, -, -⟩ := shift_ok (a := s.rf (IP.rd c)) hk
    rw [hv, twp_bind, twp_lift_ok, twp_bind]
    have hp : E.cfg.profilers = true → ¬ pastEnd (s.pc + 2#32) := fun hp h => hn (Hazard.cSlliPeek hrv hp hw h)
    have p2 : ∀ q : St σ, Sized q ∧ q.pc = s.pc → twp True (do
        emit E (.c .slli)
        (if E.cfg.profilers then do
          let pc ← get (·.pc)
          let _ ← justInst (pc + 2#32)
          pure ()
        else pure ())
        nextSeq 2#32) (fun _ q => Sized q) q := by
      intro q hq
      rw [twp_bind]
      have p3 : ∀ q : St σ, Sized q ∧ q.pc = s.pc → twp True (do
          (if E.cfg.profilers then do
            let pc ← get (·.pc)
            let _ ← justInst (pc + 2#32)
            pure ()
          else pure ())
          nextSeq 2#32) (fun _ q => Sized q) q := by
        intro q hq
        rw [twp_bind, twp_ite]
        split
        · rename_i hpr
          rw [twp_bind, twp_get, twp_bind]
          refine nh_justInst hq.1 (by rw [hq.2]; exact hp hpr) fun v => ?_
          rw [twp_pure, nextSeq, twp_mod]
          exact hq.1
        · rw [twp_pure, nextSeq, twp_mod]
          exact hq.1
      have he : twp True (emit E (.c .slli)) (fun _ q => Sized q ∧ q.pc = s.pc) q := by
        unfold emit
        rw [twp_ite]
        split
        · exact hq
        · exact hq
      exact twp_mono he fun _ q hq => p3 q hq
    unfold writeRf
    rw [twp_ite]
    split
    · exact p2 _ ⟨hs, rfl⟩
    · exact p2 _ ⟨hs, rfl⟩
  · exact fn_cLoad _ _ _ _ s hs
  · exact fn_cStore _ _ _ _ s hs
  · have : Fine (match IP.cFunct4 c with
        | 8#4 => if IP.cRs2 c = 0#5 then cJr E c else cMv E c
        | 9#4 =>
          if IP.cRs2 c = 0#5 ∧ IP.rd c = 0#5 then cEbreak E
          else if IP.cRs2 c = 0#5 then cJalr E c
          else cAdd E c
        | _ => eIllegal) := by
      unfold cJr cMv cEbreak cJalr cAdd
      split <;> fn
    exact this s hs
  · exact fn_eIllegal s hs

/-! ## The whole instruction -/

theorem nh_exec (hs : Sized s) (h0 : s.rf 0#5 = 0#32) (hn : ¬ Hazard E s.pc s.rf s.inst) :
    twp True (exec E) (fun _ q => Sized q) s := by
  unfold exec
  rw [twp_bind, twp_get]
  by_cases hc : IP.copcode s.inst = 3#2
  · rw [twp_ite, if_neg (by simpa using hc)]
    unfold exec32
    split
    · exact nh_dAluReg hs ‹_› hn
    · exact nh_dAluImm hs ‹_› hn
    · exact fn_dLoad _ s hs
    · exact fn_dStore _ s hs
    · exact nh_dBranch hs ‹_› hn
    · exact fn_dJalr _ s hs
    · exact fn_dJal _ s hs
    · exact fn_dLui _ s hs
    · exact fn_dAuipc _ s hs
    · exact fn_dSystem _ s hs
    · exact fn_dMiscMem _ s hs
    · rw [twp_ite]
      split
      · exact nh_dCustom hs h0 ‹_› ‹_› hn
      · exact fn_eIllegal s hs
    · exact fn_eIllegal s hs
  · rw [twp_ite, if_pos hc, twp_ite]
    split
    · rename_i hrv
      simp only
      rw [twp_bind, twp_mod]
      unfold exec16
      split
      · exact fn_dCompressed0 _ _ hs
      · exact nh_dCompressed1 (s := { s with inst := IP.toRvc s.inst }) hs hrv rfl ‹_› hn
      · exact nh_dCompressed2 (s := { s with inst := IP.toRvc s.inst }) hs hrv rfl ‹_› hn
      · exact fn_eIllegal _ hs
    · exact fn_eIllegal s hs

end Ama
