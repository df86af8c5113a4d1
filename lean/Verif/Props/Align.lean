import Verif.Lemmas.CsrTable
import Verif.Lemmas.Cnt
import Verif.Lemmas.Ex
/-!
# C16 and the address part of C18: pc, mtvec and mepc stay aligned
-/
namespace Ama.Spec
/-- instruction addresses are multiples of 4, of 2 with the C extension -/
def aligned (rv32c : Bool) (a : BitVec 32) : Prop := a.toNat % (if rv32c then 2 else 4) = 0
instance (c : Bool) (a : BitVec 32) : Decidable (aligned c a) := by unfold aligned; infer_instance
end Ama.Spec

namespace Ama
open M
variable {σ : Type} {E : Env σ}

/-- pc, mtvec, mepc aligned -/
def AlJ (E : Env σ) (s : St σ) : Prop :=
  Spec.aligned E.cfg.rv32c s.pc ∧ Spec.aligned E.cfg.rv32c (s.csr A.mtvec) ∧
    Spec.aligned E.cfg.rv32c (s.csr A.mepc)
/-- before execution -/
def AlPre (E : Env σ) (s : St σ) : Prop :=
  AlJ E s ∧ (E.cfg.rv32c = true → Spec.aligned true s.nextPc)
/-- after execution -/
def AlPost (E : Env σ) (s : St σ) : Prop :=
  (s.trapped = true ∨ Spec.aligned E.cfg.rv32c s.nextPc) ∧
    (E.cfg.rv32c = true → Spec.aligned true s.nextPc)

theorem aligned4 (a : W) : Spec.aligned false a ↔ a.getLsbD 0 = false ∧ a.getLsbD 1 = false := by
  simp only [Spec.aligned, Bool.false_eq_true, if_false, ← BitVec.testBit_toNat]
  rw [Nat.testBit_zero, Nat.testBit_succ, Nat.testBit_zero, decide_eq_false_iff_not,
    decide_eq_false_iff_not]
  omega
theorem aligned2 (a : W) : Spec.aligned true a ↔ a.getLsbD 0 = false := by
  simp only [Spec.aligned, if_true, ← BitVec.testBit_toNat]
  rw [Nat.testBit_zero, decide_eq_false_iff_not]
  omega
theorem aligned_weaken {c : Bool} {a : W} (h : Spec.aligned c a) : Spec.aligned true a := by
  cases c <;> simp [Spec.aligned] at * <;> omega
theorem aligned_add {c : Bool} {a b : W} (ha : Spec.aligned c a) (hb : Spec.aligned c b) :
    Spec.aligned c (a + b) := by
  cases c <;> simp [Spec.aligned, BitVec.toNat_add] at * <;> omega

theorem aligned_merge (c : Bool) (old v : W) (h : Spec.aligned c old) :
    Spec.aligned c ((old &&& ~~~(~~~(pcLowMask c))) ||| (v &&& ~~~(pcLowMask c))) := by
  cases c
  · rw [aligned4] at h ⊢
    simpa [pcLowMask] using h
  · rw [aligned2] at h ⊢
    simpa [pcLowMask] using h

theorem immB_even (w : W) : Spec.aligned true (IP.immB w) := by
  rw [aligned2]; simp [IP.immB, BitVec.getElem_sshiftRight]
theorem immJ_even (w : W) : Spec.aligned true (IP.immJ w) := by
  rw [aligned2]; simp [IP.immJ, BitVec.getElem_sshiftRight]
theorem cImmB_even (w : W) : Spec.aligned true (IP.cImmB w) := by
  rw [aligned2]; simp [IP.cImmB]
theorem cImmJ_even (w : W) : Spec.aligned true (IP.cImmJ w) := by
  rw [aligned2]; simp [IP.cImmJ]

theorem aligned_wmask (c : Bool) : ∀ e ∈ csrEntries c, e.addr = A.mtvec ∨ e.addr = A.mepc →
    e.wmask = ~~~(pcLowMask c) ∧ e.perm ≠ .roUShadow := by
  cases c <;> decide +kernel

theorem al_prims (E : Env σ) : PrimsE E (AlJ E) := by
  have hm : ∀ (s : St σ) w, AlJ E s → AlJ E { s with csr := upd s.csr A.mip w } := by
    intro s w h
    refine ⟨h.1, ?_, ?_⟩
    · simp only; rw [upd_other _ _ (by decide)]; exact h.2.1
    · simp only; rw [upd_other _ _ (by decide)]; exact h.2.2
  have ht : ∀ c t, Pres (AlJ E : St σ → Prop) (trapInst c t) := by
    intro c t s a s' h e
    rw [trapInst_app] at e
    simp only [Res.ok.injEq, Prod.mk.injEq, true_and] at e
    subst e
    refine ⟨h.2.1, ?_, ?_⟩
    · simpa [trapTo, trapCsr, A.mtvec, A.mstatus, A.mepc, A.mtval, A.mcause] using h.2.1
    · simpa [trapTo, trapCsr, A.mstatus, A.mepc] using h.1
  have hnt : ∀ a, a = A.mtvec ∨ a = A.mepc → ¬ CntTouched E.cfg.rv32c a := by
    rintro a ha (h | ⟨e', he', hs⟩)
    · rcases ha with rfl | rfl <;> revert h <;> decide
    · have h3 := csrInfo_addr he'
      exact (aligned_wmask _ _ (csrInfo_mem he') (h3 ▸ ha)).2 hs
  exact
  { trap := ht
    mret := by
      intro s a s' h e
      simp only [mretStateUpdate, M.mod_app, Res.ok.injEq, Prod.mk.injEq, true_and] at e
      subst e
      refine ⟨h.1, ?_, ?_⟩
      · simp only; rw [upd_other _ _ (by decide)]; exact h.2.1
      · simp only; rw [upd_other _ _ (by decide)]; exact h.2.2
    cntUpd := by
      intro w a s u s' h e
      obtain ⟨t, rfl⟩ := csrCntUpdate_ok e
      simp only [AlJ, cntState, cntCsr_other (hnt _ (.inl rfl)), cntCsr_other (hnt _ (.inr rfl))]; exact h
    wrCsr := by
      intro a e' v he'
      unfold writeCsr
      split
      · exact Pres.bind (Pres.get _) fun _ => ht _ _
      · exact Pres.pure _
      · refine Pres.mod fun s hs => ?_
        have hw := aligned_wmask _ _ (csrInfo_mem he')
        refine ⟨hs.1, ?_, ?_⟩
        · by_cases hea : e'.addr = A.mtvec
          · simp only [hea, upd_same, csrMerge, (hw (.inl hea)).1]
            exact aligned_merge _ _ _ hs.2.1
          · simp only [upd_other _ _ (Ne.symm hea)]; exact hs.2.1
        · by_cases hea : e'.addr = A.mepc
          · simp only [hea, upd_same, csrMerge, (hw (.inr hea)).1]
            exact aligned_merge _ _ _ hs.2.2
          · simp only [upd_other _ _ (Ne.symm hea)]; exact hs.2.2
    ramWr := ramWr_of (fun _ _ h => h) (fun _ _ h => h)
    uartWr := uartWr_of (fun _ _ h => h)
    uartRd := uartRd_of (fun _ _ h => h) hm
    uartIn := uartIn_of (fun _ _ h => h) hm
    mtime := mtime_of (fun _ _ h => h) hm _ }

/-- memory accesses and traps do not touch next_pc -/
theorem next_prims (E : Env σ) (Q : W → Prop) : PrimsM E (fun s => Q s.nextPc) where
  ramWr := ramWr_of (fun _ _ h => h) (fun _ _ h => h)
  uartWr := uartWr_of (fun _ _ h => h)
  uartRd := uartRd_of (fun _ _ h => h) (fun _ _ h => h)

theorem pre_prims (E : Env σ) : PrimsM E (AlPre E) := by
  have h1 := al_prims E
  have h2 := next_prims E (fun n => E.cfg.rv32c = true → Spec.aligned true n)
  exact
  { hw := fun s g h => ⟨h1.hw s g h.1, h2.hw s g h.2⟩
    trap := fun c t => Pres.and (h1.trap c t) (h2.trap c t)
    ramWr := fun a v n ha => Pres.and (h1.ramWr a v n ha) (h2.ramWr a v n ha)
    uartWr := fun a v n => Pres.and (h1.uartWr a v n) (h2.uartWr a v n)
    uartRd := fun a n => Pres.and (h1.uartRd a n) (h2.uartRd a n)
    clintWr := fun a v n => Pres.and (h1.clintWr a v n) (h2.clintWr a v n) }

/-- `m` ends with an aligned next_pc, or trapped -/
def NX (E : Env σ) (m : M σ Unit) : Prop := ∀ s, AlPre E s → wp m (fun _ s' => AlPost E s') s
/-- the same without an assumption on next_pc -/
def NJ (E : Env σ) (m : M σ Unit) : Prop := ∀ s, AlJ E s → wp m (fun _ s' => AlPost E s') s

theorem NJ.nx {m : M σ Unit} (h : NJ E m) : NX E m := fun s hs => h s hs.1
theorem NX.bind {α : Type} {m : M σ α} {f : α → M σ Unit} (h1 : Pres (AlPre E) m) (h2 : ∀ a, NX E (f a)) :
    NX E (m >>= f) := fun s hs => (wp_bind _ _ _ _).2 fun a s1 e => h2 a s1 (h1 s a s1 hs e)
theorem NJ.bind {α : Type} {m : M σ α} {f : α → M σ Unit} (h1 : Pres (AlJ E) m) (h2 : ∀ a, NJ E (f a)) :
    NJ E (m >>= f) := fun s hs => (wp_bind _ _ _ _).2 fun a s1 e => h2 a s1 (h1 s a s1 hs e)
theorem NX.then {m : M σ Unit} {f : Unit → M σ Unit} (h1 : NX E m) (h2 : ∀ a, Pres (AlPost E) (f a)) :
    NX E (m >>= f) := fun s hs => (wp_bind _ _ _ _).2 fun a s1 e => Pres.iff_wp.1 (h2 a) s1 (h1 s hs a s1 e)
theorem NJ.then {m : M σ Unit} {f : Unit → M σ Unit} (h1 : NJ E m) (h2 : ∀ a, Pres (AlPost E) (f a)) :
    NJ E (m >>= f) := fun s hs => (wp_bind _ _ _ _).2 fun a s1 e => Pres.iff_wp.1 (h2 a) s1 (h1 s hs a s1 e)
theorem NX.ite {c : Prop} [Decidable c] {x y : M σ Unit} (hx : NX E x) (hy : NX E y) :
    NX E (if c then x else y) := by split <;> assumption
theorem NJ.ite {c : Prop} [Decidable c] {x y : M σ Unit} (hx : NJ E x) (hy : NJ E y) :
    NJ E (if c then x else y) := by split <;> assumption
theorem NX.trap (c t : W) : NX E (trapInst c t) := by
  intro s hs u s' e
  have h := hs.2
  rw [trapInst_app] at e
  simp only [Res.ok.injEq, Prod.mk.injEq, true_and] at e
  subst e
  exact ⟨.inl rfl, h⟩
theorem NX.illegal : NX E eIllegal := NX.bind (Pres.get _) fun _ => NX.trap _ _
theorem NX.env (c : W) : NX E (eEnv c) := NX.bind (Pres.get _) fun _ => NX.trap _ _

theorem post_of {s : St σ} (h : Spec.aligned E.cfg.rv32c s.nextPc) : AlPost E s :=
  ⟨.inr h, fun _ => aligned_weaken h⟩
theorem NJ.nextSeq4 : NJ E (nextSeq 4#32) := by
  intro s hs u s' e
  simp only [nextSeq, M.mod_app, Res.ok.injEq, Prod.mk.injEq, true_and] at e
  subst e
  exact post_of (aligned_add hs.1 (by cases E.cfg.rv32c <;> decide))
theorem NJ.nextSeqC (hc : E.cfg.rv32c = true) {i : W} (hi : Spec.aligned true i) : NJ E (nextSeq i) := by
  intro s hs u s' e
  simp only [nextSeq, M.mod_app, Res.ok.injEq, Prod.mk.injEq, true_and] at e
  subst e
  refine post_of ?_
  have := hs.1
  rw [hc] at *
  exact aligned_add this hi
theorem NJ.setNext {i : W} (hi : Spec.aligned E.cfg.rv32c i) : NJ E (setNext i) := by
  intro s hs u s' e
  simp only [Ama.setNext, M.mod_app, Res.ok.injEq, Prod.mk.injEq, true_and] at e
  subst e
  exact post_of hi
theorem post_emit (ev : ProfEv) : Pres (AlPost E) (emit E ev) :=
  Pres.ite (Pres.mod fun _ h => h) (Pres.pure _)
theorem post_writeRf (r : BitVec 5) (v : W) : Pres (AlPost E) (writeRf r v : M σ Unit) :=
  Pres.ite (Pres.pure _) (Pres.mod fun _ h => h)
theorem post_trap (c t : W) : Pres (AlPost E) (trapInst c t : M σ Unit) := by
  intro s u s' h e
  rw [trapInst_app] at e
  simp only [Res.ok.injEq, Prod.mk.injEq, true_and] at e
  subst e
  exact ⟨.inl rfl, h.2⟩
theorem post_prims (E : Env σ) : PrimsM E (AlPost E) where
  trap := post_trap
  ramWr := ramWr_of (fun _ _ h => h) (fun _ _ h => h)
  uartWr := uartWr_of (fun _ _ h => h)
  uartRd := uartRd_of (fun _ _ h => h) (fun _ _ h => h)
theorem post_branchHw (w : W) : Pres (AlPost E) (branchHw E w) := by
  have h := post_prims E
  refine Pres.bind (Pres.mod fun _ h => h) fun _ => Pres.bind (Pres.get _) fun _ =>
    Pres.bind (Pres.get _) fun _ => Pres.bind (Pres.mod fun _ h => h) fun _ =>
    Pres.bind (Pres.ite (Pres.pure _) (Pres.bind (h.rdInst _) fun _ => Pres.mod fun _ h => h))
    fun _ => Pres.bind (Pres.mod fun _ h => h) fun _ => Pres.bind (Pres.get _) fun _ =>
    Pres.ite (Pres.bind (Pres.get _) fun sp => ?_) (Pres.bind (h.rdInst _) fun _ =>
      Pres.mod fun _ h => h)
  split
  · exact Pres.mod fun _ h => h
  · exact Pres.ub _

theorem misaligned_false {n : W} (h : misaligned E n = false) (hc : E.cfg.rv32c = true → Spec.aligned true n) :
    Spec.aligned E.cfg.rv32c n := by
  cases hh : E.cfg.rv32c
  · simpa [misaligned, hh, Spec.aligned] using h
  · exact hc hh

theorem nx_dBranch (w : W) : NX E (dBranch E w) := by
  intro s hs
  have key : ∀ n : W, (E.cfg.rv32c = true → Spec.aligned true n) → ∀ s1 : St σ, s1.nextPc = n →
      wp (do
        let n ← get (·.nextPc)
        if misaligned E n then eInstMisaligned n
        else if E.cfg.hwModels then branchHw E w
        else pure ()) (fun _ s' => AlPost E s') s1 := by
    rintro n hn s1 rfl
    rw [wp_bind, wp_get, wp_ite]
    split
    · intro u s' e
      rw [eInstMisaligned, trapInst_app] at e
      simp only [Res.ok.injEq, Prod.mk.injEq, true_and] at e
      subst e
      exact ⟨.inl rfl, hn⟩
    · rename_i hm
      have hp : AlPost E s1 := post_of (misaligned_false (by simpa using hm) hn)
      rw [wp_ite]
      split
      · exact Pres.iff_wp.1 (post_branchHw w) s1 hp
      · exact (wp_pure _ _ _).2 hp
  have hpc : E.cfg.rv32c = true → Spec.aligned true s.pc := fun _ => aligned_weaken hs.1.1
  have h4 : E.cfg.rv32c = true → Spec.aligned true (s.pc + 4#32) := fun h => aligned_add (hpc h) (by decide)
  have hb : E.cfg.rv32c = true → Spec.aligned true (s.pc + IP.immB w) :=
    fun h => aligned_add (hpc h) (immB_even w)
  rw [dBranch, wp_bind, wp_get, wp_bind]
  simp only [setNext, wp_mod]
  rw [wp_bind]
  split
  · rw [eIllegal, wp_bind, wp_get]
    intro u s1 e
    rw [trapInst_app] at e
    simp only [Res.ok.injEq, Prod.mk.injEq, true_and] at e
    subst e
    exact key _ h4 _ rfl
  · rw [wp_bind, rg, wp_get, wp_bind, rg, wp_get, wp_ite]
    have hem : ∀ n ev (s1 : St σ), s1.nextPc = n →
        wp (emit E ev) (fun _ s2 => s2.nextPc = n) s1 := by
      intro n ev s1 h
      have hpr : Pres (fun s => s.nextPc = n) (emit E ev) := Pres.ite (Pres.mod fun _ h => h) (Pres.pure _)
      exact Pres.iff_wp.1 hpr s1 h
    split
    · rw [wp_bind, wp_mod]
      exact wp_mono (hem _ _ _ rfl) fun _ s2 h => key _ hb _ h
    · exact wp_mono (hem _ _ _ rfl) fun _ s2 h => key _ h4 _ h

/-- common tail of the jumps -/
theorem nx_jump {n : W} (hn : E.cfg.rv32c = true → Spec.aligned true n) {f : M σ Unit}
    (hf : Pres (AlPost E) f) {g : Unit → M σ Unit} (hg : ∀ u, Pres (AlPost E) (g u)) (s : St σ) :
    wp (do setNext n; (if misaligned E n then eInstMisaligned n else f) >>= g)
      (fun _ s' => AlPost E s') s := by
  rw [wp_bind, setNext, wp_mod, wp_bind, wp_ite]
  split
  · intro u s' e
    rw [eInstMisaligned, trapInst_app] at e
    simp only [Res.ok.injEq, Prod.mk.injEq, true_and] at e
    subst e
    exact Pres.iff_wp.1 (hg _) _ ⟨.inl rfl, hn⟩
  · rename_i hm
    have hp : AlPost E ({ s with nextPc := n } : St σ) := post_of (misaligned_false (by simpa using hm) hn)
    exact wp_mono (Pres.iff_wp.1 hf _ hp) fun _ s2 h => Pres.iff_wp.1 (hg _) s2 h

theorem even_mask (x : W) : Spec.aligned true (x &&& 0xfffffffe#32) := by
  rw [aligned2]; simp
theorem even_mask' (x : W) : Spec.aligned true (x &&& ~~~1#32) := by
  rw [aligned2]; simp

theorem nx_dJalr (w : W) : NX E (dJalr E w) := by
  have h := al_prims E
  refine NJ.nx (NJ.bind (Pres.ite h.eIllegal (Pres.pure _)) fun _ => NJ.bind (Pres.get _) fun b => ?_)
  intro s _
  exact nx_jump (fun _ => even_mask _) (Pres.bind (Pres.get _) fun _ => post_writeRf _ _)
    (fun _ => post_emit _) s
theorem nx_dJal (w : W) : NX E (dJal E w) := by
  intro s hs
  rw [dJal, wp_bind, wp_get]
  exact nx_jump (fun _ => aligned_add (aligned_weaken hs.1.1) (immJ_even w)) (post_writeRf _ _)
    (fun _ => post_emit _) s

theorem nx_load {α : Type} {m : M σ α} (hm : Pres (AlPre E) m) {f : α → M σ Unit} (hf : ∀ a, NX E (f a)) :
    NX E (m >>= fun v => do
      let t ← get (·.trapped)
      if t then pure () else f v) := by
  refine NX.bind hm fun v => ?_
  intro s hs
  rw [wp_bind, wp_get, wp_ite]
  split
  · exact (wp_pure _ _ _).2 ⟨.inl ‹_›, hs.2⟩
  · exact hf v s hs

theorem nx_dLoad (w : W) : NX E (dLoad E w) := by
  have h := al_prims E
  have hp := pre_prims E
  unfold dLoad
  split
  · exact NX.illegal
  · refine NX.bind (Pres.get _) fun b => ?_
    have hl : ∀ op a, Pres (AlPre E) (loadVal E op a) := by
      intro op a
      cases op
      · exact Pres.bind (hp.memRd _ _) fun _ => Pres.pure _
      · exact Pres.bind (hp.memRd _ _) fun _ => Pres.pure _
      all_goals exact hp.memRd _ _
    exact nx_load (hl _ _) fun v => NJ.nx (NJ.bind (h.writeRf _ _) fun _ => NJ.bind (h.emit _) fun _ => NJ.nextSeq4)
theorem nx_dStore (w : W) : NX E (dStore E w) := by
  have h := al_prims E
  have hp := pre_prims E
  unfold dStore
  split
  · exact NJ.nx (NJ.bind h.eIllegal fun _ => NJ.nextSeq4)
  · refine NX.bind (Pres.get _) fun b => NX.bind (Pres.get _) fun d => ?_
    exact nx_load (f := fun _ => do emit E _; nextSeq 4#32) (hp.memWr _ _ _)
      fun v => NJ.nx (NJ.bind (h.emit _) fun _ => NJ.nextSeq4)
theorem nx_dSystem (w : W) : NX E (dSystem E w) := by
  have h := al_prims E
  refine NX.ite (NJ.nx (NJ.bind (h.dCsr _) fun _ => NJ.nextSeq4)) <| NX.ite (NX.env _) <|
    NX.ite (NX.env _) <| NX.ite ?_ <| NX.ite (NJ.nx (NJ.then NJ.nextSeq4 fun _ => Pres.bind
      (Pres.mod fun _ h => h) fun _ => post_emit _)) NX.illegal
  refine NJ.nx (NJ.then ?_ fun _ => post_emit _)
  intro s hs u s' e
  simp only [mretStateUpdate, M.mod_app, Res.ok.injEq, Prod.mk.injEq, true_and] at e
  subst e
  refine post_of ?_
  simp only
  rw [upd_other _ _ (by decide)]
  exact hs.2.2

theorem nx_dCustom (w : W) : NX E (dCustom E w) := by
  have h := al_prims E
  unfold dCustom
  split
  · exact NJ.nx (NJ.bind (h.simdExec _ _) fun _ => NJ.bind (h.emit _) fun _ => NJ.nextSeq4)
  · cases Simd.selReturns (IP.funct7 w)
    · exact NX.bind (Pres.bind (Pres.get _) fun _ => (pre_prims E).trap _ _) fun _ =>
        NJ.nx (NJ.nextSeq4 (E := E))
    · exact NX.then NX.illegal fun _ => Pres.pure _

theorem nx_exec32 (w : W) : NX E (exec32 E w) := by
  have h := al_prims E
  unfold exec32
  split
  · unfold dAluReg
    split
    · exact NX.illegal
    · refine NJ.nx (NJ.bind (h.rg _) fun _ => NJ.bind (h.rg _) fun _ => NJ.bind ?_ fun _ =>
        NJ.bind (Pres.lift _) fun _ => NJ.bind (h.writeRf _ _) fun _ => NJ.bind (h.emit _) fun _ =>
        NJ.nextSeq4)
      split
      · exact h.hwUpd _
      · exact Pres.pure _
  · unfold dAluImm
    split
    · exact NX.illegal
    · exact NJ.nx (NJ.bind (h.rg _) fun _ => NJ.bind (h.aluImm _ _ _ _) fun _ =>
        NJ.bind (h.writeRf _ _) fun _ => NJ.bind (h.emit _) fun _ => NJ.nextSeq4)
  · exact nx_dLoad _
  · exact nx_dStore _
  · exact nx_dBranch _
  · exact nx_dJalr _
  · exact nx_dJal _
  · exact NJ.nx (NJ.bind (h.writeRf _ _) fun _ => NJ.then NJ.nextSeq4 fun _ => post_emit _)
  · exact NJ.nx (NJ.bind (Pres.get _) fun _ => NJ.bind (h.writeRf _ _) fun _ =>
      NJ.then NJ.nextSeq4 fun _ => post_emit _)
  · exact nx_dSystem _
  · exact NX.ite (NJ.nx (NJ.then NJ.nextSeq4 fun _ => post_emit _)) <|
      NX.ite (NJ.nx (NJ.then NJ.nextSeq4 fun _ => post_emit _)) NX.illegal
  · exact NX.ite (nx_dCustom _) NX.illegal
  · exact NX.illegal

section compressed
variable (hc : E.cfg.rv32c = true)
include hc

theorem nj_seq2 : NJ E (nextSeq 2#32) := NJ.nextSeqC hc (by decide)
theorem nj_cWrite (op : COp) (r : BitVec 5) (v : W) : NJ E (cWrite E op r v) := by
  have h := al_prims E
  exact NJ.bind (h.writeRf _ _) fun _ => NJ.bind (h.emit _) fun _ => nj_seq2 hc
theorem nx_cLoad (op : COp) (b d : BitVec 5) (o : W) : NX E (cLoad E op b d o) :=
  NX.bind (Pres.get _) fun _ => nx_load ((pre_prims E).memRd _ _) fun _ => NJ.nx (nj_cWrite hc _ _ _)
theorem nx_cStore (op : COp) (b d : BitVec 5) (o : W) : NX E (cStore E op b d o) :=
  NX.bind (Pres.get _) fun _ => NX.bind (Pres.get _) fun _ =>
    nx_load (f := fun _ => do emit E _; nextSeq 2#32) ((pre_prims E).memWr _ _ _) fun _ =>
      NJ.nx (NJ.bind ((al_prims E).emit _) fun _ => nj_seq2 hc)
theorem nj_setNext {v : W} (hv : Spec.aligned true v) : NJ E (setNext v) :=
  NJ.setNext (by rw [hc]; exact hv)
theorem nj_cbr (w : W) (k : W → Prop) [DecidablePred k] (e1 e2 : ProfEv) : NJ E (do
    let pc ← get (·.pc)
    let a ← rg (IP.cRegh w)
    if k a then do
      setNext (pc + IP.cImmB w)
      emit E e1
    else do
      setNext (pc + 2#32)
      emit E e2) := by
  intro s hs
  rw [wp_bind, wp_get, wp_bind, rg, wp_get, wp_ite]
  have hp := aligned_weaken hs.1
  split
  · exact NJ.then (nj_setNext hc (aligned_add hp (cImmB_even w))) (fun _ => post_emit _) s hs
  · exact NJ.then (nj_setNext hc (aligned_add hp (by decide))) (fun _ => post_emit _) s hs
theorem nx_exec16 (w : W) : NX E (exec16 E w) := by
  have h := al_prims E
  unfold exec16
  split
  · unfold dCompressed0
    split
    · exact NJ.nx (NJ.bind (h.trapIf _) fun _ => NJ.bind (h.trapIf _) fun _ => NJ.bind (h.rg _) fun _ =>
        nj_cWrite hc _ _ _)
    · exact nx_cLoad hc _ _ _ _
    · exact nx_cStore hc _ _ _ _
    · exact NX.illegal
  · unfold dCompressed1
    split
    · exact NJ.nx (NJ.bind (h.rg _) fun _ => nj_cWrite hc _ _ _)
    · intro s hs
      rw [cJal, wp_bind, wp_get]
      have hp := aligned_weaken hs.1.1
      exact NJ.then (nj_setNext hc (aligned_add hp (cImmJ_even w)))
        (fun _ => Pres.bind (post_writeRf _ _) fun _ => post_emit _) s hs.1
    · exact NJ.nx (nj_cWrite hc _ _ _)
    · exact NX.ite (NJ.nx (NJ.bind (h.emit _) fun _ => nj_seq2 hc)) <| NX.ite
        (NJ.nx (NJ.bind (h.trapIf _) fun _ => NJ.bind (h.rg _) fun _ => nj_cWrite hc _ _ _))
        (NJ.nx (NJ.bind (h.trapIf _) fun _ => nj_cWrite hc _ _ _))
    · split
      · exact NJ.nx (NJ.bind (h.rg _) fun _ => NJ.bind (Pres.lift _) fun _ => nj_cWrite hc _ _ _)
      · exact NJ.nx (NJ.bind (h.rg _) fun _ => NJ.bind (Pres.lift _) fun _ => nj_cWrite hc _ _ _)
      · exact NJ.nx (NJ.bind (h.rg _) fun _ => nj_cWrite hc _ _ _)
      · unfold dCompressed1Alu
        split
        all_goals first
          | exact NJ.nx (NJ.bind (h.rg _) fun _ => NJ.bind (h.rg _) fun _ => nj_cWrite hc _ _ _)
          | exact NX.illegal
    · exact NJ.nx (NJ.then (NJ.nextSeqC hc (cImmJ_even w)) fun _ => post_emit _)
    · exact NJ.nx (nj_cbr hc w (· = 0#32) _ _)
    · exact NJ.nx (nj_cbr hc w (· ≠ 0#32) _ _)
  · unfold dCompressed2
    split
    · exact NJ.nx (NJ.bind (h.rg _) fun _ => NJ.bind (Pres.lift _) fun _ => NJ.bind (h.writeRf _ _) fun _ =>
        NJ.bind (h.emit _) fun _ => NJ.bind (Pres.ite (Pres.bind (Pres.get _) fun _ =>
        Pres.bind (h.justInst _) fun _ => Pres.pure _) (Pres.pure _)) fun _ => nj_seq2 hc)
    · exact nx_cLoad hc _ _ _ _
    · exact nx_cStore hc _ _ _ _
    · split
      · exact NX.ite (NJ.nx (NJ.bind (h.trapIf _) fun _ => NJ.bind (h.rg _) fun _ =>
          NJ.then (nj_setNext hc (even_mask' _)) fun _ => post_emit _))
          (NJ.nx (NJ.bind (h.rg _) fun _ => nj_cWrite hc _ _ _))
      · refine NX.ite ?_ <|
          NX.ite (NJ.nx (NJ.bind (h.rg _) fun _ => NJ.then (nj_setNext hc (even_mask' _)) fun _ =>
            Pres.bind (Pres.get _) fun _ => Pres.bind (post_writeRf _ _) fun _ => post_emit _))
          (NJ.nx (NJ.bind (h.rg _) fun _ => NJ.bind (h.rg _) fun _ => nj_cWrite hc _ _ _))
        intro s hs
        rw [cEbreak, wp_bind, wp_mod]
        refine Pres.iff_wp.1 (post_emit _) _ (post_of ?_)
        rw [hc]; exact hs.2 hc
      · exact NX.illegal
    · exact NX.illegal
  · exact NX.illegal
end compressed

theorem nx_exec : NX E (exec E) := by
  refine NX.bind (Pres.get _) fun w => NX.ite ?_ (nx_exec32 _)
  cases hc : E.cfg.rv32c
  · exact NX.illegal
  · exact NX.bind (Pres.mod fun _ h => h) fun _ => nx_exec16 hc _

theorem pre_prof (b : Bool) : Pres (AlPre E) (profState E b) := by
  refine Pres.bind ?_ fun _ => (pre_prims E).hwUpd _
  unfold M.whenM
  exact Pres.ite (Pres.mod fun _ h => h) (Pres.pure _)
theorem pre_profWindow : Pres (AlPre E) (profWindow E) :=
  Pres.ite (Pres.bind (Pres.get _) fun _ => Pres.bind (Pres.get _) fun _ =>
    Pres.bind (Pres.mod fun _ h => h) fun _ =>
    Pres.ite (Pres.bind (pre_prof _) fun _ => Pres.pure _) <|
    Pres.ite (Pres.bind (pre_prof _) fun _ => Pres.ite (Pres.bind (Pres.mod fun _ h => h)
      fun _ => Pres.pure _) (Pres.pure _)) (Pres.pure _)) (Pres.pure _)

theorem al_mip (s : St σ) (w : W) (h : AlPre E s) : AlPre E { s with csr := upd s.csr A.mip w } := by
  refine ⟨⟨h.1.1, ?_, ?_⟩, h.2⟩
  · simp only; rw [upd_other _ _ (by decide)]; exact h.1.2.1
  · simp only; rw [upd_other _ _ (by decide)]; exact h.1.2.2

theorem pre_checkInterrupts (b : Bool) : Pres (AlPre E) (checkInterrupts E b) := by
  have ht := (pre_prims E).trap
  exact Pres.ite (Pres.pure _) <| Pres.bind (mtime_of (fun _ _ h => h) al_mip _) fun _ =>
    Pres.bind (Pres.ite (Pres.bind (Pres.get _) fun _ => uartIn_pres (fun _ _ h => h) al_mip _)
      (Pres.pure _)) fun _ =>
    Pres.bind (Pres.get _) fun _ => Pres.bind (Pres.get _) fun _ => Pres.bind (Pres.get _) fun _ =>
    Pres.bind (Pres.ite (Pres.bind (ht _ _) fun _ => Pres.mod fun _ h => h)
      (Pres.ite (Pres.bind (ht _ _) fun _ => Pres.mod fun _ h => h) (Pres.pure _)))
      fun _ => Pres.pure _

theorem pre_fetch : Pres (AlPre E) (fetch E) :=
  Pres.bind (Pres.get _) fun _ => Pres.ite (Pres.mod fun _ h => h)
    (Pres.bind (Pres.get _) fun _ => Pres.bind ((pre_prims E).rdInst _) fun _ => Pres.mod fun _ h => h)

/-- after the execute phase: J, and next_pc is good if the step is going to use it -/
def AlMid (E : Env σ) (s : St σ) : Prop :=
  AlPre E s ∧ (s.trapped = false → s.wfiActive = false → Spec.aligned E.cfg.rv32c s.nextPc)

theorem mid_stepExec (s : St σ) (hs : AlPre E s) : wp (stepExec E) (fun _ s' => AlMid E s') s := by
  rw [stepExec, wp_bind, wp_get, wp_bind]
  have hj : ∀ (p : W), Pres (AlPre E) (justInst p : M σ W) := fun p => (pre_prims E).justInst p
  have h1 : Pres (AlPre E) (if s.wfiActive = true then pure false else do
      let pc ← get (·.pc)
      let w ← justInst pc
      pure (w == 0x10500073#32) : M σ Bool) :=
    Pres.ite (Pres.pure _) (Pres.bind (Pres.get _) fun _ => Pres.bind (hj _) fun _ => Pres.pure _)
  refine wp_mono (Pres.iff_wp.1 h1 s hs) fun b s1 hs1 => ?_
  rw [wp_bind]
  refine wp_mono (Pres.iff_wp.1 (pre_checkInterrupts _) s1 hs1) fun nti s2 hs2 => ?_
  rw [wp_bind, wp_mod, wp_bind, wp_get, wp_bind, wp_get, wp_ite]
  have hs3 : AlPre E ({ s2 with wfiActive := s2.wfiActive && !(s2.trapped || nti) } : St σ) := hs2
  split
  · rw [wp_bind]
    refine wp_mono (Pres.iff_wp.1 pre_fetch _ hs3) fun _ s4 hs4 => ?_
    intro u s5 e
    have hp := nx_exec s4 hs4 u s5 e
    have hJ := (al_prims E).exec s4 u s5 hs4.1 e
    refine ⟨⟨hJ, hp.2⟩, fun ht _ => ?_⟩
    rcases hp.1 with h | h
    · rw [h] at ht; cases ht
    · exact h
  · rename_i hcond
    rw [wp_pure]
    refine ⟨hs3, fun ht hw => ?_⟩
    simp only at ht hw hcond
    rw [ht] at hcond hw
    simp only [Bool.false_or] at hw hcond
    simp [hw] at hcond

theorem al_step : Pres (AlPre E) (step E) := by
  rw [Pres.iff_wp]
  intro s hs
  rw [step, wp_bind, wp_mod, wp_bind]
  have hs1 : AlPre E ({ s with trapped := false } : St σ) := hs
  refine wp_mono (Pres.iff_wp.1 pre_profWindow _ hs1) fun ex s2 hs2 => ?_
  rw [wp_ite]
  split
  · exact (wp_pure _ _ _).2 hs2
  rw [wp_bind]
  refine wp_mono (mid_stepExec s2 hs2) fun _ s3 hs3 => ?_
  rw [wp_bind, wp_mod, wp_bind, wp_get, wp_ite]
  split
  · rw [wp_mod]; exact hs3.1
  rw [stepFinish, wp_bind, wp_get, wp_bind, wp_get, wp_ite]
  split
  · exact (wp_pure _ _ _).2 hs3.1
  rw [wp_ite]
  split
  · rw [wp_mod]; exact hs3.1
  · rename_i ht hh
    rw [wp_mod]
    simp only at ht hh
    simp only [Bool.not_eq_true] at hh
    have hn := hs3.2 hh (by simpa [hh] using ht)
    exact ⟨⟨hn, hs3.1.1.2⟩, hs3.1.2⟩

theorem al_init (image : W → BitVec 8) (pp : ProfPc) (h : σ) : AlPre E (initSt E image pp h) := by
  refine ⟨⟨?_, ?_, ?_⟩, fun _ => ?_⟩ <;> simp only [initSt]
  · cases E.cfg.rv32c <;> decide
  · cases E.cfg.rv32c <;> decide +kernel
  · cases E.cfg.rv32c <;> decide +kernel
  · decide

/-- **C16** In every state reached from reset by any program, pc is 4-byte aligned (2-byte
aligned in a build with compressed instructions). -/
theorem pc_aligned (E : Env σ) (image : W → BitVec 8) (pp : ProfPc) (h : σ) (n : Nat) (s : St σ)
    (hrun : runN E n (initSt E image pp h) = .ok ((), s)) : Spec.aligned E.cfg.rv32c s.pc :=
  (Pres.runN E al_step n _ _ _ (al_init image pp h) hrun).1.1

/-- **C18** (addresses) mtvec and mepc always hold aligned addresses. -/
theorem mtvec_mepc_aligned (E : Env σ) (image : W → BitVec 8) (pp : ProfPc) (h : σ) (n : Nat) (s : St σ)
    (hrun : runN E n (initSt E image pp h) = .ok ((), s)) :
    Spec.aligned E.cfg.rv32c (s.csr A.mtvec) ∧ Spec.aligned E.cfg.rv32c (s.csr A.mepc) :=
  (Pres.runN E al_step n _ _ _ (al_init image pp h) hrun).1.2

/-- a run in which software tries to set misaligned mtvec and mepc and jump through them:
`addi x1,x0,0x13; csrrw x0,mtvec,x1; csrrw x0,mepc,x1; mret` -/
example : Ex.obs (runN Ex.env0 4 (Ex.st0 Ex.env0
      [0x01300093#32, 0x30509073#32, 0x34109073#32, 0x30200073#32]))
    (fun s => (s.csr A.mtvec, s.csr A.mepc, s.pc, s.simInst))
      = some (0x10#32, 0x10#32, 0x10#32, 4#64) := by decide +kernel
end Ama
