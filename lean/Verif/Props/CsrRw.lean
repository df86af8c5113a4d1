import Verif.Lemmas.CsrExec
import Verif.Props.IsaProps
/-!
# C19, C21: CSR instructions
-/
namespace Ama
open M Spec
variable {σ : Type} {E : Env σ} {s : St σ}

/-- neither a counter nor a user-level shadow -/
def Spec.plainCsr (b : BitVec 16) : Prop :=
  b.toNat ≠ 0xb00 ∧ b.toNat ≠ 0xb80 ∧ b.toNat ≠ 0xb02 ∧ b.toNat ≠ 0xb82 ∧
    ¬ (0xc00 ≤ b.toNat ∧ b.toNat ≤ 0xc1f) ∧ ¬ (0xc80 ≤ b.toNat ∧ b.toNat ≤ 0xc9f)

/-- 64-bit counter after replacing the addressed half -/
def Spec.setHalf (isHigh : Bool) (v : W) (n : BitVec 64) : BitVec 64 :=
  if isHigh then pair v (lo32 n) else pair (hi32 n) v

theorem csrView_plain {k : Core} {b : BitVec 16} (h : plainCsr b) : csrView k b = k.csr b := by
  obtain ⟨h1, h2, h3, h4, h5, h6⟩ := h
  unfold csrView
  simp only
  rw [if_neg (by omega), if_neg (by omega), if_neg (by omega), if_neg (by omega), if_neg (by omega),
    if_neg (by omega), if_neg (by omega)]

theorem cnt_plain {c : Bool} {b : BitVec 16} (k : Core) (h : plainCsr b) :
    cntCsr c k.csr (k.simInst - k.csrInst) (k.simStep - k.csrStep) (mtimeOf k.clint.dev) b = k.csr b := by
  cases hi : csrInfo c b with
  | some e => rw [cnt_view k hi, csrView_plain h]
  | none =>
    apply cntCsr_other
    rintro (h' | ⟨e, he, -⟩)
    · obtain ⟨h1, h2, h3, h4, h5, h6⟩ := h
      simp only [List.mem_cons, List.not_mem_nil, or_false] at h'
      rcases h' with h' | h' | h' | h' | h' | h' <;> subst h'
      · exact h3 rfl
      · exact h4 rfl
      · exact h1 rfl
      · exact h2 rfl
      · exact h5 (by decide)
      · exact h6 (by decide)
    · rw [hi] at he; cases he

theorem counters_implemented (c : Bool) : ∀ a ∈ [0xb00#16, 0xb80#16, 0xb02#16, 0xb82#16], (csrInfo c a).isSome = true := by
  intro a ha
  have h := kind_table c a
  cases hi : csrInfo c a with
  | some e => rfl
  | none =>
    rw [hi] at h
    simp only [List.mem_cons, List.not_mem_nil, or_false] at ha
    rcases ha with ha | ha | ha | ha <;> subst ha <;> cases c <;> exact absurd h (by decide)

theorem cnt_counters (c : Bool) (k : Core) :
    let C := cntCsr c k.csr (k.simInst - k.csrInst) (k.simStep - k.csrStep) (mtimeOf k.clint.dev)
    C 0xb02#16 = lo32 (minstretOf k) ∧ C 0xb82#16 = hi32 (minstretOf k) ∧
    C 0xb00#16 = lo32 (mcycleOf k) ∧ C 0xb80#16 = hi32 (mcycleOf k) := by
  intro C
  have g : ∀ a ∈ [0xb00#16, 0xb80#16, 0xb02#16, 0xb82#16], C a = csrView k a := by
    intro a ha
    obtain ⟨e, he⟩ := Option.isSome_iff_exists.1 (counters_implemented c a ha)
    exact cnt_view k he
  exact ⟨g _ (by decide), g _ (by decide), g _ (by decide), g _ (by decide)⟩

theorem csrWord_ne_wfi {a : BitVec 12} {rs1 rd : BitVec 5} {f3 : BitVec 3} (hf : f3 ≠ 0#3) :
    csrWord a rs1 f3 rd ≠ wfiWord := by
  intro h
  obtain ⟨-, -, d3, -⟩ := decode_I a rs1 f3 rd 0x73#7
  rw [show encI a rs1 f3 rd 0x73#7 = wfiWord from h] at d3
  exact hf (d3.symm.trans rfl)

theorem startCore_csr {w : W} (hw : w ≠ wfiWord) :
    startCore E s w = { clockCore E s.core with trapped := false, inst := w } := by
  unfold startCore
  rw [if_neg hw]

theorem setW_inj {a : BitVec 12} {n : Nat} : (a.setWidth 16).toNat = n ↔ a.toNat = n := by
  rw [BitVec.toNat_setWidth, Nat.mod_eq_of_lt (by have := a.isLt; omega)]

theorem cntSkip_iff {a : BitVec 12} {rs1 rd : BitVec 5} {f3 : BitVec 3} {b lo hi : BitVec 16} :
    cntSkip (csrWord a rs1 f3 rd) b lo hi = true ↔ csrWrites f3 rs1 ∧ (b = lo ∨ b = hi) := by
  obtain ⟨-, -, d3, d4, -⟩ := decode_I a rs1 f3 rd 0x73#7
  unfold cntSkip csrWrites
  rw [d3, d4]
  simp only [Bool.and_eq_true, Bool.or_eq_true, bne_iff_ne, beq_iff_eq]
  constructor
  · rintro ⟨h1, h2⟩
    exact ⟨by rcases h1 with (h | h) | h
              · exact .inr (.inr h)
              · exact .inl h
              · exact .inr (.inl h), h2⟩
  · rintro ⟨h1, h2⟩
    exact ⟨by rcases h1 with h | h | h
              · exact .inl (.inr h)
              · exact .inr h
              · exact .inl (.inl h), h2⟩

/-- the counter after an access, with `x` the count and `y` the reference point -/
theorem counter_after {F C : BitVec 16 → W} {hi lo a : BitVec 16} {m : W} {f3 : BitVec 3} {rs1 : BitVec 5} {x : W}
    {n y : BitVec 64} {skip : Bool} (hne : hi ≠ lo)
    (hF : F = csrAfter m f3 rs1 x a C) (hlo : C lo = lo32 n) (hhi : C hi = hi32 n)
    (hsk : skip = true ↔ csrWrites f3 rs1 ∧ (a = lo ∨ a = hi)) :
    pair (F hi) (F lo) + (y + 1#64 - (y + if skip then 1#64 else 0#64)) =
      if csrWrites f3 rs1 ∧ (a = lo ∨ a = hi)
      then setHalf (decide (a = hi)) (masked m (C a) (csrNew f3 (C a) x)) n else n + 1#64 := by
  subst hF
  unfold csrAfter
  by_cases hw : csrWrites f3 rs1 ∧ (a = lo ∨ a = hi)
  · rw [if_pos hw, hsk.2 hw, if_pos hw.1]
    simp only [if_true, BitVec.sub_self]
    unfold setHalf
    rcases hw.2 with h | h
    · subst h
      have : ¬ a = hi := fun h => hne h.symm
      simp only [this, decide_false, Bool.false_eq_true, if_false]
      rw [upd_other _ _ hne, upd_same, hhi]
      exact BitVec.add_zero _
    · subst h
      simp only [decide_true, if_true]
      rw [upd_same, upd_other _ _ hne.symm, hlo]
      exact BitVec.add_zero _
  · have hs : skip = false := by
      cases skip
      · rfl
      · exact absurd (hsk.1 rfl) hw
    rw [if_neg hw, hs]
    have e : ∀ b, b = lo ∨ b = hi → (if csrWrites f3 rs1 then upd C a (masked m (C a) (csrNew f3 (C a) x)) else C) b = C b := by
      intro b hb
      split
      · rename_i h
        apply upd_other
        rintro rfl
        exact hw ⟨h, hb⟩
      · rfl
    rw [e _ (.inl rfl), e _ (.inr rfl), hlo, hhi, pair_lo_hi]
    congr 1
    simp only [Bool.false_eq_true, if_false, BitVec.add_zero]
    rw [BitVec.add_comm]
    exact BitVec.add_sub_cancel _ _

/-- **C19**: an accepted CSR instruction returns the old value in rd, and in the same step stores
the new, set or cleared value through the CSR's write mask; with x0 or a zero immediate the set
and clear forms write nothing.  `b` ranges over all other CSRs: they keep their values, and the two
counters advance by one unless one of their halves is what was written.  Registers are those before
the instruction, so rd = rs1 is covered.  Timer and UART have had their tick (`clockCore`). -/
theorem csr_rmw {a : BitVec 12} {rs1 rd : BitVec 5} {f3 : BitVec 3} (hf : CsrF3 f3)
    (h : Ready E s (csrWord a rs1 f3 rd)) {m : W}
    (hk : csrKind E.cfg.rv32c a.toNat = .wr m ∨ (csrKind E.cfg.rv32c a.toNat = .ro ∧ ¬ csrWrites f3 rs1)) :
    let k := clockCore E s.core
    let a' : BitVec 16 := a.setWidth 16
    let old := csrView k a'
    let new := masked m old (csrNew f3 old (csrOperand f3 rs1 s.rf))
    ∃ s', step E s = .ok ((), s') ∧ s'.pc = s.pc + 4#32 ∧
      (∀ r, s'.rf r = if r = rd ∧ rd ≠ 0#5 then old else s.rf r) ∧
      (∀ b, plainCsr b → csrView s'.core b = if b = a' ∧ csrWrites f3 rs1 then new else csrView k b) ∧
      minstretOf s'.core = (if csrWrites f3 rs1 ∧ (a.toNat = 0xb02 ∨ a.toNat = 0xb82)
        then setHalf (decide (a.toNat = 0xb82)) new (minstretOf k) else minstretOf k + 1#64) ∧
      mcycleOf s'.core = (if csrWrites f3 rs1 ∧ (a.toNat = 0xb00 ∨ a.toNat = 0xb80)
        then setHalf (decide (a.toNat = 0xb80)) new (mcycleOf k) else mcycleOf k + 1#64) ∧
      s'.ram = s.ram ∧ s'.uart = k.uart ∧ s'.clint = k.clint ∧ s'.trapLog = s.trapLog ∧
      s'.trapped = false ∧ s'.simInst = s.simInst + 1#64 ∧ s'.simStep = s.simStep + 1#64 := by
  intro k a' old new
  have hw := csrWord_ne_wfi (a := a) (rs1 := rs1) (rd := rd) hf.1
  have hs0 := startCore_csr (E := E) (s := s) hw
  generalize hw' : csrWord a rs1 f3 rd = w at *
  have hkind := kind_table E.cfg.rv32c a'
  rw [show a'.toNat = a.toNat from setW_inj.2 rfl] at hkind
  have ⟨e, he, hk'⟩ : ∃ e, csrInfo E.cfg.rv32c a' = some e ∧ (kindOf (some e) = .wr m ∨ ¬ csrWrites f3 rs1) := by
    cases hi : csrInfo E.cfg.rv32c a' with
    | none =>
      rw [hi] at hkind
      rcases hk with hk | hk
      · rw [← hkind] at hk; cases hk
      · rw [← hkind] at hk; cases hk.1
    | some e =>
      rw [hi] at hkind
      rcases hk with hk | hk
      · exact ⟨e, rfl, .inl (hkind.trans hk)⟩
      · exact ⟨e, rfl, .inr hk.2⟩
  obtain ⟨f1, f2, f3', f4, f5, f6, f7, f8, f9, f10⟩ := startCore_frame (E := E) (s := s) (w := w)
  have hsz := startCore_sized (E := E) (w := w) h.sized
  have hv : ∀ b, csrView (startCore E s w) b = csrView k b := fun b => by rw [hs0]; rfl
  have hmi : minstretOf (startCore E s w) = minstretOf k := by rw [hs0]; rfl
  have hmc : mcycleOf (startCore E s w) = mcycleOf k := by rw [hs0]; rfl
  have hu : (startCore E s w).uart = k.uart := by rw [hs0]
  have hcl : (startCore E s w).clint = k.clint := by rw [hs0]
  have hx := fun p hp (_ : p.lastInstBranch = false) =>
    exec_csr (E := E) (p := p) (c := startCore E s w) hp hsz (by rw [f3']; exact h.x0) (m := m) (a := a) (rs1 := rs1) (rd := rd)
      (f10.trans hw'.symm) hf he hk'
  rw [hw'] at hx
  obtain ⟨s', g1, g2⟩ := step_retires h _ hx f9 (f2.trans h.awake) f5
  generalize startCore E s w = K at *
  have hcc := cnt_counters E.cfg.rv32c K
  simp only at hcc
  obtain ⟨c1, c2, c3, c4⟩ := hcc
  have hva : (cntCore E.cfg.rv32c w a' K).csr a' = old := (cnt_view K he).trans (hv a')
  have hvp : ∀ b, plainCsr b → (cntCore E.cfg.rv32c w a' K).csr b = csrView k b := by
    intro b hb
    rw [← hv b, csrView_plain hb]
    exact cnt_plain K hb
  generalize hC : (cntCore E.cfg.rv32c w a' K).csr = C at *
  have hC' : cntCsr E.cfg.rv32c K.csr (K.simInst - K.csrInst) (K.simStep - K.csrStep) (mtimeOf K.clint.dev) = C := hC
  rw [hC', hmi] at c1 c2
  rw [hC', hmc] at c3 c4
  have n16 : ∀ n : Nat, n < 65536 → (a' = BitVec.ofNat 16 n ↔ a.toNat = n) := by
    intro n hn
    rw [← setW_inj (a := a)]
    constructor
    · intro h; rw [show a.setWidth 16 = _ from h, BitVec.toNat_ofNat]; exact Nat.mod_eq_of_lt hn
    · intro h; apply BitVec.eq_of_toNat_eq; rw [BitVec.toNat_ofNat, h]; exact (Nat.mod_eq_of_lt hn).symm
  have q1 := counter_after (F := csrAfter m f3 rs1 (csrOperand f3 rs1 K.rf) a' C) (hi := 0xb82#16) (lo := 0xb02#16)
    (y := K.simInst) (by decide) rfl c1 c2 (cntSkip_iff (a := a) (rs1 := rs1) (rd := rd) (f3 := f3) (b := a'))
  have q2 := counter_after (F := csrAfter m f3 rs1 (csrOperand f3 rs1 K.rf) a' C) (hi := 0xb80#16) (lo := 0xb00#16)
    (y := K.simStep) (by decide) rfl c3 c4 (cntSkip_iff (a := a) (rs1 := rs1) (rd := rd) (f3 := f3) (b := a'))
  simp only [hw', n16 0xb82 (by omega), n16 0xb02 (by omega), hva, f3'] at q1
  simp only [hw', n16 0xb80 (by omega), n16 0xb00 (by omega), hva, f3'] at q2
  refine ⟨s', g1, ?_, ?_, ?_, ?_, ?_, ?_, ?_, ?_, ?_, ?_, ?_, ?_⟩
  · rw [core_pc g2]; exact congrArg (· + 4#32) f1
  · intro r
    rw [core_rf g2]
    simp only [wx, hv, f3']
    rfl
  · intro b hb
    rw [csrView_plain hb, g2, ← hvp b hb]
    simp only [csrAfter, f3']
    by_cases hw : csrWrites f3 rs1
    · simp only [hw, if_true, and_true, upd]
      rw [show C (a.setWidth 16) = old from hva]
    · simp only [hw, if_false, and_false]
  · rw [g2, ← q1]; simp only [f3']; rfl
  · rw [g2, ← q2, ← f5]; simp only [f3']; rfl
  · rw [core_ram g2]; exact f4
  · rw [core_uart g2]; exact hu
  · rw [core_clint g2]; exact hcl
  · rw [core_trapLog g2]; exact f8
  · rw [core_trapped g2]; exact f9
  · rw [core_simInst g2]; exact congrArg (· + 1#64) f6
  · rw [core_simStep g2]

/-- a step whose instruction word raises an exception, for any word -/
theorem raises_word' {w : W} (hw : w ≠ wfiWord) (h : Ready E s w) {cause tval n i : W}
    (hx : ∀ p, p.core = startCore E s w → p.lastInstBranch = false →
      ExecTo E p { trapCore cause tval (startCore E s w) with nextPc := n, inst := i }) : Raises E s cause tval := by
  obtain ⟨f1, f2, f3, f4, f5, f6, f7, f8, f9, f10⟩ := startCore_frame (E := E) (s := s) (w := w)
  have hs0 := startCore_csr (E := E) (s := s) hw
  have hcs : ∀ x, x ≠ 0x344#16 → (startCore E s w).csr x = s.csr x := fun x hx => by
    rw [hs0]; exact clockCore_csr E s.core hx
  have hu : (startCore E s w).uart = (clockCore E s.core).uart := by rw [hs0]
  have hcl : (startCore E s w).clint = (clockCore E s.core).clint := by rw [hs0]
  have hmip : (startCore E s w).csr 0x344#16 = (clockCore E s.core).csr 0x344#16 := by rw [hs0]
  obtain ⟨s', g1, g2⟩ := step_traps h _ hx rfl f5
  generalize startCore E s w = K at *
  have hc : s'.csr = trapCsr K.csr K.pc cause tval := by rw [core_csr g2]; rfl
  refine ⟨s', g1, ?_, ?_, ?_, ?_, ?_, ?_, ?_, ?_, ?_, ?_, ?_, ?_, ?_⟩
  · rw [core_rf g2]; exact f3
  · rw [core_ram g2]; exact congrArg Dev.bytes f4
  · rw [core_simInst g2]; exact f6
  · rw [core_uart g2]; exact hu
  · rw [core_clint g2]; exact hcl
  · rw [core_pc g2]; exact hcs _ (by decide)
  · rw [hc]; exact f1
  · rw [hc]; rfl
  · rw [hc]; rfl
  · intro j
    rw [hc]
    have e : trapCsr K.csr K.pc cause tval 0x300#16 =
        (((K.csr A.mstatus &&& ~~~0x80#32) ||| ((K.csr A.mstatus &&& 0x8#32) <<< 4)) &&& ~~~0x8#32) := rfl
    have e2 : K.csr A.mstatus = s.csr 0x300#16 := hcs _ (by decide)
    rw [e, e2]
    generalize s.csr 0x300#16 = v
    by_cases hj : j < 32
    · have h0 : (0x80#32).getLsbD j = decide (j = 7) := by revert j; decide
      have h8 : (8#32).getLsbD j = decide (j = 3) := by revert j; decide
      have h84 : (8#32).getLsbD (j - 4) = decide (j - 4 = 3) := by revert j; decide
      rw [BitVec.getLsbD_and, BitVec.getLsbD_not, BitVec.getLsbD_or, BitVec.getLsbD_and, BitVec.getLsbD_not,
        BitVec.getLsbD_shiftLeft, BitVec.getLsbD_and, h0, h8, h84]
      by_cases h7 : j = 7
      · subst h7; simp
      · have : ¬ j - 4 = 3 := by omega
        by_cases h3 : j = 3
        · subst h3; simp
        · simp [h7, h3, this, hj]
    · rw [BitVec.getLsbD_of_ge _ _ (by omega), if_neg (by omega), if_neg (by omega), BitVec.getLsbD_of_ge _ _ (by omega)]
  · intro x hx
    simp only [List.mem_cons, List.not_mem_nil, or_false, not_or] at hx
    obtain ⟨x1, x2, x3, x4, x5⟩ := hx
    rw [hc, ← hcs x x5]
    unfold trapCsr
    rw [if_neg (show x ≠ A.mstatus from x1), if_neg (show x ≠ A.mepc from x2), if_neg (show x ≠ A.mtval from x4),
      if_neg (show x ≠ A.mcause from x3)]
  · rw [hc]; exact hmip
  · rw [core_trapLog g2]
    change (cause, tval, K.pc) :: K.trapLog = _
    rw [f1, f8]
theorem raises_word {w : W} (hw : w ≠ wfiWord) (h : Ready E s w) {cause tval n : W}
    (hx : ∀ p, p.core = startCore E s w → p.lastInstBranch = false →
      ExecTo E p { trapCore cause tval (startCore E s w) with nextPc := n }) : Raises E s cause tval :=
  raises_word' (i := (startCore E s w).inst) hw h hx

/-- **C19**: accessing an unimplemented CSR address raises illegal instruction and has no other
effect (whatever funct3, so also for the reserved encoding). -/
theorem csr_absent {a : BitVec 12} {rs1 rd : BitVec 5} {f3 : BitVec 3} (hf : f3 ≠ 0#3)
    (h : Ready E s (csrWord a rs1 f3 rd)) (hk : csrKind E.cfg.rv32c a.toNat = .absent) :
    Raises E s 2#32 (csrWord a rs1 f3 rd) := by
  have he : csrInfo E.cfg.rv32c (a.setWidth 16) = none := by
    have hkind := kind_table E.cfg.rv32c (a.setWidth 16)
    rw [setW_inj.2 rfl, hk] at hkind
    cases hi : csrInfo E.cfg.rv32c (a.setWidth 16) with
    | none => rfl
    | some e =>
      rw [hi] at hkind
      unfold kindOf at hkind
      cases hp : e.perm <;> simp only [hp] at hkind <;> cases hkind
  refine raises_word (csrWord_ne_wfi hf) h fun p hp _ => exec_csr_absent hp startCore_frame.2.2.2.2.2.2.2.2.2 hf he

theorem counter_reject {C : BitVec 16 → W} {hi lo : BitVec 16} {n y : BitVec 64} {skip : Bool}
    (hlo : C lo = lo32 n) (hhi : C hi = hi32 n) :
    pair (C hi) (C lo) + (y - (y + if skip then 1#64 else 0#64)) = n - (if skip then 1#64 else 0#64) := by
  rw [hlo, hhi, pair_lo_hi]
  cases skip
  · simp only [Bool.false_eq_true, if_false, BitVec.add_zero, BitVec.sub_self, BitVec.sub_zero]
  · simp only [if_true]
    rw [BitVec.sub_eq_add_neg n, BitVec.sub_eq_add_neg]
    congr 1
    bv_omega

/-- **C18/C19, partial**: a write to a read-only CSR, and the reserved encoding funct3 = 4 on an
implemented CSR, raise illegal instruction and leave CSRs, memory and devices alone.  What is
missing for a precise exception: rd has been written with the old CSR value (`Ex.ro_write_sets_rd`,
`Ex.funct3_4_sets_rd`), and the reserved encoding with rs1 ≠ 0 makes the addressed counter lose one
count. -/
theorem csr_reject_partial {a : BitVec 12} {rs1 rd : BitVec 5} {f3 : BitVec 3}
    (h : Ready E s (csrWord a rs1 f3 rd))
    (hk : (CsrF3 f3 ∧ csrKind E.cfg.rv32c a.toNat = .ro ∧ csrWrites f3 rs1) ∨
      (f3 = 4#3 ∧ csrKind E.cfg.rv32c a.toNat ≠ .absent)) :
    let k := clockCore E s.core
    ∃ s', step E s = .ok ((), s') ∧ s'.pc = s.csr 0x305#16 ∧ s'.simInst = s.simInst ∧
      s'.trapLog = (2#32, csrWord a rs1 f3 rd, s.pc) :: s.trapLog ∧ s'.ram = s.ram ∧
      s'.uart = k.uart ∧ s'.clint = k.clint ∧
      (∀ r, s'.rf r = if r = rd ∧ rd ≠ 0#5 then csrView k (a.setWidth 16) else s.rf r) ∧
      (∀ b, plainCsr b → b ∉ [0x300#16, 0x341#16, 0x342#16, 0x343#16] → csrView s'.core b = csrView k b) ∧
      minstretOf s'.core = minstretOf k - (if f3 = 4#3 ∧ rs1 ≠ 0#5 ∧ (a.toNat = 0xb02 ∨ a.toNat = 0xb82) then 1#64 else 0#64) ∧
      mcycleOf s'.core + (if f3 = 4#3 ∧ rs1 ≠ 0#5 ∧ (a.toNat = 0xb00 ∨ a.toNat = 0xb80) then 1#64 else 0#64) =
        mcycleOf k + 1#64 := by
  intro k
  have hf0 : f3 ≠ 0#3 := by
    rcases hk with h | h
    · exact h.1.1
    · rw [h.1]; decide
  have hw := csrWord_ne_wfi (a := a) (rs1 := rs1) (rd := rd) hf0
  have hs0 := startCore_csr (E := E) (s := s) hw
  have hkind := kind_table E.cfg.rv32c (a.setWidth 16)
  rw [setW_inj.2 rfl] at hkind
  have ⟨e, he, hk'⟩ : ∃ e, csrInfo E.cfg.rv32c (a.setWidth 16) = some e ∧
      ((CsrF3 f3 ∧ kindOf (some e) = .ro ∧ csrWrites f3 rs1) ∨ f3 = 4#3) := by
    cases hi : csrInfo E.cfg.rv32c (a.setWidth 16) with
    | none =>
      rw [hi] at hkind
      rcases hk with hk | hk
      · have := hk.2.1; rw [← hkind] at this; cases this
      · exact absurd hkind.symm hk.2
    | some e =>
      rw [hi] at hkind
      rcases hk with hk | hk
      · exact ⟨e, rfl, .inl ⟨hk.1, hkind.trans hk.2.1, hk.2.2⟩⟩
      · exact ⟨e, rfl, .inr hk.1⟩
  obtain ⟨f1, f2, f3', f4, f5, f6, f7, f8, f9, f10⟩ := startCore_frame (E := E) (s := s) (w := csrWord a rs1 f3 rd)
  have hsz := startCore_sized (E := E) (w := csrWord a rs1 f3 rd) h.sized
  have hv : ∀ b, csrView (startCore E s (csrWord a rs1 f3 rd)) b = csrView k b := fun b => by rw [hs0]; rfl
  have hmi : minstretOf (startCore E s (csrWord a rs1 f3 rd)) = minstretOf k := by rw [hs0]; rfl
  have hmc : mcycleOf (startCore E s (csrWord a rs1 f3 rd)) = mcycleOf k := by rw [hs0]; rfl
  have hu : (startCore E s (csrWord a rs1 f3 rd)).uart = k.uart := by rw [hs0]
  have hcl : (startCore E s (csrWord a rs1 f3 rd)).clint = k.clint := by rw [hs0]
  have htv : (startCore E s (csrWord a rs1 f3 rd)).csr 0x305#16 = s.csr 0x305#16 := by
    rw [hs0]; exact clockCore_csr E s.core (by decide)
  have hx := fun p hp (_ : p.lastInstBranch = false) =>
    exec_csr_reject (E := E) (p := p) hp hsz (by rw [f3']; exact h.x0) f10 he hk'
  generalize hk1 : cntCore E.cfg.rv32c (csrWord a rs1 f3 rd) (a.setWidth 16) (startCore E s (csrWord a rs1 f3 rd)) = k1 at hx
  have hn : k1.simStep = s.simStep := by rw [← hk1]; exact f5
  obtain ⟨s', g1, g2⟩ := step_traps h _ hx rfl hn
  generalize startCore E s (csrWord a rs1 f3 rd) = K at *
  have hcc := cnt_counters E.cfg.rv32c K
  simp only at hcc
  obtain ⟨c1, c2, c3, c4⟩ := hcc
  have hcp : ∀ b, plainCsr b → (cntCore E.cfg.rv32c (csrWord a rs1 f3 rd) (a.setWidth 16) K).csr b = K.csr b :=
    fun b hb => cnt_plain K hb
  rw [hk1] at hcp
  have hC : k1.csr = cntCsr E.cfg.rv32c K.csr (K.simInst - K.csrInst) (K.simStep - K.csrStep) (mtimeOf K.clint.dev) := by
    rw [← hk1]; rfl
  rw [← hC, hmi] at c1 c2
  rw [← hC, hmc] at c3 c4
  have hI : k1.csrInst = K.simInst + (if cntSkip (csrWord a rs1 f3 rd) (a.setWidth 16) A.minstret A.minstreth then 1#64 else 0#64) := by
    rw [← hk1]; rfl
  have hS : k1.csrStep = K.simStep + (if cntSkip (csrWord a rs1 f3 rd) (a.setWidth 16) A.mcycle A.mcycleh then 1#64 else 0#64) := by
    rw [← hk1]; rfl
  have g1c : s'.csr = trapCsr k1.csr k1.pc 2#32 (csrWord a rs1 f3 rd) := by rw [core_csr g2]; rfl
  have oth : ∀ b, b ∉ [0x300#16, 0x341#16, 0x342#16, 0x343#16] → s'.csr b = k1.csr b := by
    intro b hb
    simp only [List.mem_cons, List.not_mem_nil, or_false, not_or] at hb
    obtain ⟨x1, x2, x3, x4⟩ := hb
    rw [g1c]
    unfold trapCsr
    rw [if_neg (show b ≠ A.mstatus from x1), if_neg (show b ≠ A.mepc from x2), if_neg (show b ≠ A.mtval from x4),
      if_neg (show b ≠ A.mcause from x3)]
  have n16 : ∀ n : Nat, n < 65536 → (a.setWidth 16 = BitVec.ofNat 16 n ↔ a.toNat = n) := by
    intro n hn
    rw [← setW_inj (a := a)]
    constructor
    · intro h; rw [show a.setWidth 16 = _ from h, BitVec.toNat_ofNat]; exact Nat.mod_eq_of_lt hn
    · intro h; apply BitVec.eq_of_toNat_eq; rw [BitVec.toNat_ofNat, h]; exact (Nat.mod_eq_of_lt hn).symm
  -- the skip condition: only the reserved encoding can address a counter here
  have hsk : ∀ lo hi : Nat, lo < 65536 → hi < 65536 → (∀ x, x = lo ∨ x = hi → csrKind E.cfg.rv32c x ≠ .ro) →
      ((if cntSkip (csrWord a rs1 f3 rd) (a.setWidth 16) (BitVec.ofNat 16 lo) (BitVec.ofNat 16 hi) then 1#64 else 0#64) =
        if f3 = 4#3 ∧ rs1 ≠ 0#5 ∧ (a.toNat = lo ∨ a.toNat = hi) then 1#64 else 0#64) := by
    intro lo hi hl hh hro
    have : (cntSkip (csrWord a rs1 f3 rd) (a.setWidth 16) (BitVec.ofNat 16 lo) (BitVec.ofNat 16 hi) = true) ↔
        (f3 = 4#3 ∧ rs1 ≠ 0#5 ∧ (a.toNat = lo ∨ a.toNat = hi)) := by
      rw [cntSkip_iff, n16 lo hl, n16 hi hh]
      constructor
      · rintro ⟨h1, h2⟩
        rcases hk with h | h
        · exact absurd h.2.1 (hro _ h2)
        · refine ⟨h.1, ?_, h2⟩
          rw [h.1] at h1
          rcases h1 with h1 | h1 | h1
          · exact absurd h1 (by decide)
          · exact absurd h1 (by decide)
          · exact h1
      · rintro ⟨h1, h2, h3⟩
        exact ⟨.inr (.inr h2), h3⟩
    by_cases hc : cntSkip (csrWord a rs1 f3 rd) (a.setWidth 16) (BitVec.ofNat 16 lo) (BitVec.ofNat 16 hi) = true
    · rw [if_pos hc, if_pos (this.1 hc)]
    · rw [if_neg hc, if_neg (fun h => hc (this.2 h))]
  have hskI := hsk 0xb02 0xb82 (by omega) (by omega) (by
    intro x hx; rcases hx with rfl | rfl <;> cases E.cfg.rv32c <;> decide)
  have hskC := hsk 0xb00 0xb80 (by omega) (by omega) (by
    intro x hx; rcases hx with rfl | rfl <;> cases E.cfg.rv32c <;> decide)
  refine ⟨s', g1, ?_, ?_, ?_, ?_, ?_, ?_, ?_, ?_, ?_, ?_⟩
  · rw [core_pc g2]
    change k1.csr A.mtvec = _
    rw [hcp _ (by unfold plainCsr; decide)]
    exact htv
  · rw [core_simInst g2]
    change k1.simInst = _
    rw [← hk1]; exact f6
  · rw [core_trapLog g2]
    change (_, _, k1.pc) :: k1.trapLog = _
    have e1 : k1.pc = s.pc := by rw [← hk1]; exact f1
    have e2 : k1.trapLog = s.trapLog := by rw [← hk1]; exact f8
    rw [e1, e2]
  · rw [core_ram g2]
    change k1.ram = _
    rw [← hk1]; exact f4
  · rw [core_uart g2]
    change k1.uart = _
    rw [← hk1]; exact hu
  · rw [core_clint g2]
    change k1.clint = _
    rw [← hk1]; exact hcl
  · intro r
    rw [core_rf g2]
    change wx K.rf rd (csrView K (a.setWidth 16)) r = _
    rw [f3', hv]; rfl
  · intro b hb hb'
    rw [csrView_plain hb]
    change s'.csr b = _
    rw [oth b hb', hcp b hb, ← csrView_plain hb, hv]
  · unfold minstretOf
    change pair (s'.csr 0xb82#16) (s'.csr 0xb02#16) + (s'.simInst - s'.csrInst) = _
    have e1 : s'.simInst = K.simInst := by rw [core_simInst g2]; change k1.simInst = _; rw [← hk1]; rfl
    have e2 : s'.csrInst = k1.csrInst := by rw [core_csrInst g2]; rfl
    rw [oth _ (by decide), oth _ (by decide), e1, e2, hI, counter_reject c1 c2]
    rw [show A.minstret = BitVec.ofNat 16 0xb02 from rfl, show A.minstreth = BitVec.ofNat 16 0xb82 from rfl, hskI]
    rfl
  · have e1 : s'.simStep = K.simStep + 1#64 := by rw [core_simStep g2, ← f5]
    have e2 : s'.csrStep = k1.csrStep := by rw [core_csrStep g2]; rfl
    have : mcycleOf s'.core = pair (s'.csr 0xb80#16) (s'.csr 0xb00#16) + (s'.simStep - s'.csrStep) := rfl
    rw [this, oth _ (by decide), oth _ (by decide), e1, e2]
    have cr := counter_reject (y := K.simStep)
      (skip := cntSkip (csrWord a rs1 f3 rd) (a.setWidth 16) A.mcycle A.mcycleh) c3 c4
    rw [← hS] at cr
    rw [show A.mcycle = BitVec.ofNat 16 0xb00 from rfl, show A.mcycleh = BitVec.ofNat 16 0xb80 from rfl, hskC] at cr
    generalize (if f3 = 4#3 ∧ rs1 ≠ 0#5 ∧ (a.toNat = 0xb00 ∨ a.toNat = 0xb80) then 1#64 else 0#64) = d at *
    generalize pair (k1.csr 0xb80#16) (k1.csr 0xb00#16) = P at *
    have : P + (K.simStep + 1#64 - k1.csrStep) + d = P + (K.simStep - k1.csrStep) + d + 1#64 := by
      rw [BitVec.sub_eq_add_neg, BitVec.sub_eq_add_neg]
      ac_rfl
    rw [this, cr, BitVec.sub_add_cancel]

/-- **C21**: a read of a user-level counter CSR returns the machine-level counter it shadows, in
the same half; `time` and `timeh` return the CLINT's mtime; and whatever the instruction form, a
user-level CSR is not written: every other CSR keeps its value and the counters just count. -/
theorem user_counters {a : BitVec 12} {rs1 rd : BitVec 5} {f3 : BitVec 3} (hf : CsrF3 f3)
    (h : Ready E s (csrWord a rs1 f3 rd))
    (ha : (0xc00 ≤ a.toNat ∧ a.toNat ≤ 0xc1f) ∨ (0xc80 ≤ a.toNat ∧ a.toNat ≤ 0xc9f)) :
    let k := clockCore E s.core
    let m : BitVec 16 := a.setWidth 16 - 0x100#16
    ∃ s', step E s = .ok ((), s') ∧ s'.pc = s.pc + 4#32 ∧
      (∀ r, r ≠ rd ∨ rd = 0#5 → s'.rf r = s.rf r) ∧
      (rd ≠ 0#5 → s'.rf rd =
        if a.toNat = 0xc01 then lo32 (mtimeOf k.clint.dev)
        else if a.toNat = 0xc81 then hi32 (mtimeOf k.clint.dev)
        else csrView k m) ∧
      (∀ b, plainCsr b → csrView s'.core b = csrView k b) ∧
      minstretOf s'.core = minstretOf k + 1#64 ∧ mcycleOf s'.core = mcycleOf k + 1#64 ∧
      s'.clint = k.clint := by
  intro k m
  have hk : csrKind E.cfg.rv32c a.toNat = .wr 0#32 := by
    unfold csrKind
    rw [if_neg (by omega), if_neg (by omega), if_neg (by omega), if_neg (by omega), if_neg (by omega),
      if_neg (by omega), if_neg (by omega), if_neg (by omega), if_neg (by omega), if_pos ha]
  obtain ⟨s', h1, h2, h3, h4, h5, h6, -, -, h9, -⟩ := csr_rmw hf h (.inl hk)
  rw [if_neg (by omega)] at h5 h6
  refine ⟨s', h1, h2, fun r hr => ?_, fun hr => ?_, fun b hb => ?_, h5, h6, h9⟩
  · rw [h3, if_neg]
    rintro ⟨e, e'⟩
    rcases hr with hr | hr
    · exact hr e
    · exact e' hr
  · rw [h3, if_pos ⟨rfl, hr⟩]
    have e0 : (a.setWidth 16).toNat = a.toNat := setW_inj.2 rfl
    have em : m.toNat = a.toNat - 0x100 := by
      change (a.setWidth 16 - 0x100#16).toNat = _
      rw [BitVec.toNat_sub, e0]
      have : (0x100#16).toNat = 0x100 := rfl
      omega
    unfold csrView
    simp only [e0, em]
    rcases Classical.em (a.toNat = 0xc01) with t1 | t1
    · rw [t1]; rfl
    · rcases Classical.em (a.toNat = 0xc81) with t2 | t2
      · rw [t2]; rfl
      · rw [if_neg t1, if_neg t2, if_neg t1, if_neg t2]
        by_cases c1 : a.toNat = 0xc02
        · rw [c1]; rfl
        · by_cases c2 : a.toNat = 0xc82
          · rw [c2]; rfl
          · by_cases c3 : a.toNat = 0xc00
            · rw [c3]; rfl
            · by_cases c4 : a.toNat = 0xc80
              · rw [c4]; rfl
              · rw [if_neg (by omega), if_neg (by omega), if_neg (by omega), if_neg (by omega), if_pos (by omega),
                  if_neg (by omega), if_neg (by omega), if_neg (by omega), if_neg (by omega), if_neg (by omega),
                  if_neg (by omega), if_neg (by omega)]
  · rw [h4 b hb, if_neg]
    rintro ⟨e, -⟩
    subst e
    obtain ⟨-, -, -, -, h5, h6⟩ := hb
    have e0 : (a.setWidth 16).toNat = a.toNat := setW_inj.2 rfl
    rw [e0] at h5 h6
    exact ha.elim h5 h6

/-! ## The hypotheses are satisfiable, and what the code gets wrong -/
namespace Ex

-- csrrw x1, mscratch, x1: the operand register is the destination
example : Ready env0 (stI (csrWord 0x340#12 1#5 1#3 1#5)) (csrWord 0x340#12 1#5 1#3 1#5) := by ready_ex
example : csrKind env0.cfg.rv32c 0x340 = .wr 0xffffffff#32 := by decide
example : obs (step env0 (stI (csrWord 0x340#12 1#5 1#3 1#5))) (fun s => (s.rf 1#5, s.csr 0x340#16)) =
    some (0#32, 0x80000100#32) := by decide +kernel
-- csrrc x3, mstatus, x2 through the MPP mask; csrrsi with a zero immediate on a read-only CSR
example : Ready env0 (stI (csrWord 0x300#12 2#5 3#3 3#5)) (csrWord 0x300#12 2#5 3#3 3#5) := by ready_ex
example : csrKind env0.cfg.rv32c 0x301 = .ro ∧ ¬ csrWrites 6#3 0#5 := by decide
-- absent CSR
example : Ready env0 (stI (csrWord 0x7c0#12 2#5 1#3 3#5)) (csrWord 0x7c0#12 2#5 1#3 3#5) := by ready_ex
example : csrKind env0.cfg.rv32c 0x7c0 = .absent := by decide
-- user counter
example : Ready env0 (stI (csrWord 0xc82#12 0#5 2#3 3#5)) (csrWord 0xc82#12 0#5 2#3 3#5) := by ready_ex

/-- **C10/C18 deviation**: a write to a read-only CSR raises illegal instruction, but rd has
already been written: `csrrw x3, misa, x1`. -/
theorem ro_write_sets_rd :
    obs (step env0 (stI (csrWord 0x301#12 1#5 1#3 3#5))) (fun s => (s.rf 3#5, s.trapLog.length, s.simInst)) =
      some (0x40801100#32, 1, 0#64) := by decide +kernel

-- csr_reject_partial
example : Ready env0 (stI (csrWord 0x301#12 1#5 1#3 3#5)) (csrWord 0x301#12 1#5 1#3 3#5) ∧ CsrF3 1#3 ∧
    csrKind env0.cfg.rv32c 0x301 = .ro ∧ csrWrites 1#3 1#5 := ⟨by ready_ex, by decide, by decide, by decide⟩

/-- **C17/C10 deviation**: the reserved encoding funct3 = 4 raises illegal instruction after
writing rd. -/
theorem funct3_4_sets_rd :
    obs (step env0 (stI (csrWord 0x301#12 1#5 4#3 3#5))) (fun s => (s.rf 3#5, s.trapLog.length, s.simInst)) =
      some (0x40801100#32, 1, 0#64) := by decide +kernel
end Ex

end Ama
