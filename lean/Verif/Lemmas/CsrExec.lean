import Verif.Spec.Csr
import Verif.Lemmas.Cnt
import Verif.Lemmas.ExecI
import Verif.Lemmas.StepCases
/-!
# Executing a CSR instruction
-/
namespace Ama
open M Spec
variable {σ : Type}

/-- kind of a table lookup -/
def kindOf : Option CsrEntry → CsrKind
  | none => .absent
  | some e => match e.perm with
    | .ro => .ro
    | .war0 => .wr 0#32
    | _ => .wr e.wmask

/-- the implemented addresses -/
def csrList : List Nat :=
  [0x51e, 0xf11, 0xf12, 0xf13, 0xf14, 0xf15, 0x301, 0x344, 0x300, 0x305, 0x341, 0x310, 0x304, 0x340, 0x342, 0x343,
   0xb00, 0xb80, 0x320] ++ List.range' 0xb02 30 ++ List.range' 0xb82 30 ++ List.range' 0x323 29 ++
   List.range' 0xc00 32 ++ List.range' 0xc80 32

theorem csrList_some : ∀ c, ∀ a ∈ csrList, (csrInfo c (BitVec.ofNat 16 a)).isSome = true := by
  decide +kernel

theorem csrEntries_kind : ∀ c, ∀ e ∈ csrEntries c, kindOf (some e) = csrKind c e.addr.toNat := by
  decide +kernel

theorem csrList_of {c : Bool} {a : Nat} (h : csrKind c a ≠ .absent) : a ∈ csrList := by
  unfold csrList
  simp only [List.mem_append, List.mem_cons, List.not_mem_nil, or_false, List.mem_range'_1]
  unfold csrKind at h
  split at h; · omega
  split at h; · omega
  split at h; · omega
  split at h; · omega
  split at h; · omega
  split at h; · omega
  split at h; · omega
  split at h; · omega
  split at h; · omega
  split at h; · omega
  exact absurd rfl h

/-- the table agrees with the address map -/
theorem kind_table (c : Bool) (a : BitVec 16) : kindOf (csrInfo c a) = csrKind c a.toNat := by
  cases hi : csrInfo c a with
  | some e =>
    rw [csrEntries_kind c e (csrInfo_mem hi), csrInfo_addr hi]
  | none =>
    by_cases h : csrKind c a.toNat = .absent
    · exact h.symm
    · have := csrList_some c _ (csrList_of h)
      rw [BitVec.ofNat_toNat, BitVec.setWidth_eq, hi] at this
      cases this

/-- which entries are shadows, and of what -/
theorem shadow_table : ∀ c, ∀ e ∈ csrEntries c, (decide (e.perm = .roUShadow ∧ e.sAddr ≠ 0#16) =
      decide (((0xc00 ≤ e.addr.toNat ∧ e.addr.toNat ≤ 0xc1f) ∨ (0xc80 ≤ e.addr.toNat ∧ e.addr.toNat ≤ 0xc9f)) ∧
        e.addr.toNat ≠ 0xc01 ∧ e.addr.toNat ≠ 0xc81)) ∧
    ((e.perm = .roUShadow ∧ e.sAddr ≠ 0#16) → e.sAddr = e.addr - 0x100#16) := by
  decide +kernel

theorem pair_eq (hi lo : W) : (hi.setWidth 64 <<< 32) ||| lo.setWidth 64 = pair hi lo := by
  unfold pair
  apply BitVec.eq_of_getLsbD_eq
  intro i hi'
  rw [BitVec.getLsbD_or, BitVec.getLsbD_shiftLeft, BitVec.getLsbD_append, BitVec.getLsbD_setWidth, BitVec.getLsbD_setWidth]
  by_cases h : i < 32
  · simp [h, hi']
  · simp only [h, decide_false, Bool.not_false, Bool.and_true, hi', decide_true, Bool.true_and]
    rw [BitVec.getLsbD_of_ge lo i (by omega)]
    simp [show i - 32 < 64 by omega]

theorem lo_pair (hi lo : W) : lo32 (pair hi lo) = lo := by
  unfold lo32 pair
  apply BitVec.eq_of_getLsbD_eq
  intro i hi'
  rw [BitVec.getLsbD_setWidth, BitVec.getLsbD_append]
  simp [hi']
theorem hi_pair (hi lo : W) : hi32 (pair hi lo) = hi := by
  unfold hi32 pair
  apply BitVec.eq_of_getLsbD_eq
  intro i hi'
  rw [BitVec.getLsbD_setWidth, BitVec.getLsbD_ushiftRight, BitVec.getLsbD_append]
  simp [hi']
theorem pair_lo_hi (v : BitVec 64) : pair (hi32 v) (lo32 v) = v := by
  unfold hi32 lo32 pair
  apply BitVec.eq_of_getLsbD_eq
  intro i hi'
  rw [BitVec.getLsbD_append, BitVec.getLsbD_setWidth, BitVec.getLsbD_setWidth, BitVec.getLsbD_ushiftRight]
  by_cases h : i < 32
  · simp [h]
  · simp [h, show 32 + (i - 32) = i by omega, show i - 32 < 32 by omega]

/-- the counter part of `csr_cnt_update` at each address -/
theorem wideAdd2 (csr : BitVec 16 → W) (di dc : BitVec 64) (b : BitVec 16) :
    csrWideAdd (csrWideAdd csr A.minstret di) A.mcycle dc b =
      if b = 0xb80#16 then hi32 (pair (csr 0xb80#16) (csr 0xb00#16) + dc)
      else if b = 0xb00#16 then lo32 (pair (csr 0xb80#16) (csr 0xb00#16) + dc)
      else if b = 0xb82#16 then hi32 (pair (csr 0xb82#16) (csr 0xb02#16) + di)
      else if b = 0xb02#16 then lo32 (pair (csr 0xb82#16) (csr 0xb02#16) + di)
      else csr b := by
  have e1 : A.mcycle + 0x80#16 = 0xb80#16 := rfl
  have e2 : A.minstret + 0x80#16 = 0xb82#16 := rfl
  have e3 : A.mcycle = 0xb00#16 := rfl
  have e4 : A.minstret = 0xb02#16 := rfl
  unfold csrWideAdd csrWideAssign
  simp only [e1, e2, pair_eq]
  simp only [e3, e4, upd]
  simp [lo32, hi32]

/-- what the counter update makes visible at each implemented address -/
theorem cnt_view {c : Bool} {a : BitVec 16} {e : CsrEntry} (k : Core) (hi : csrInfo c a = some e) :
    cntCsr c k.csr (k.simInst - k.csrInst) (k.simStep - k.csrStep) (mtimeOf k.clint.dev) a = csrView k a := by
  obtain ⟨h1, h2⟩ := shadow_table c e (csrInfo_mem hi)
  rw [csrInfo_addr hi] at h1 h2
  have e1 : A.time + 0x80#16 = 0xc81#16 := rfl
  have e2 : A.time = 0xc01#16 := rfl
  have nat : ∀ m : Nat, m < 65536 → (a = BitVec.ofNat 16 m ↔ a.toNat = m) := by
    intro m hm
    constructor
    · rintro rfl; rw [BitVec.toNat_ofNat]; exact Nat.mod_eq_of_lt hm
    · intro h; apply BitVec.eq_of_toNat_eq; rw [BitVec.toNat_ofNat, h]; exact (Nat.mod_eq_of_lt hm).symm
  have natb : ∀ m : Nat, m < 0xff00 → (a - 0x100#16 = BitVec.ofNat 16 m ↔ a.toNat = m + 0x100) := by
    intro m hm
    rw [← nat (m + 0x100) (by omega)]
    have : BitVec.ofNat 16 (m + 0x100) = BitVec.ofNat 16 m + 0x100#16 := by
      rw [BitVec.ofNat_add]
    rw [this]
    constructor
    · intro h; rw [← h]; exact (BitVec.sub_add_cancel _ _).symm
    · intro h; rw [h]; exact BitVec.add_sub_cancel _ _
  unfold cntCsr csrWideAssign
  rw [e1, e2]
  unfold csrView
  simp only
  by_cases t1 : a.toNat = 0xc81
  · rw [(nat 0xc81 (by omega)).2 t1]
    simp [upd, hi32]
  · rw [upd_other _ _ (fun h => t1 ((nat 0xc81 (by omega)).1 h))]
    by_cases t2 : a.toNat = 0xc01
    · rw [(nat 0xc01 (by omega)).2 t2]
      simp [upd, lo32]
    · rw [upd_other _ _ (fun h => t2 ((nat 0xc01 (by omega)).1 h)), shadowAll_eq, hi]
      simp only
      by_cases hs : e.perm = .roUShadow ∧ e.sAddr ≠ 0#16
      · have h1 := of_decide_eq_true (h1 ▸ decide_eq_true hs)
        rw [if_pos hs, h2 hs, wideAdd2]
        simp only [natb 0xb80 (by omega), natb 0xb00 (by omega), natb 0xb82 (by omega), natb 0xb02 (by omega)]
        unfold minstretOf mcycleOf
        split
        · rename_i h; rw [h]; rfl
        · split
          · rename_i h; rw [h]; rfl
          · split
            · rename_i h; rw [h]; rfl
            · split
              · rename_i h; rw [h]; rfl
              · rw [if_neg (by omega), if_neg (by omega), if_neg (by omega), if_neg (by omega),
                  if_pos (by omega)]
      · have h1 : ¬ _ := of_decide_eq_false (h1 ▸ decide_eq_false hs)
        rw [if_neg hs, wideAdd2]
        simp only [nat 0xb80 (by omega), nat 0xb00 (by omega), nat 0xb82 (by omega), nat 0xb02 (by omega)]
        unfold minstretOf mcycleOf
        split
        · rename_i h; rw [h]; rfl
        · split
          · rename_i h; rw [h]; rfl
          · split
            · rename_i h; rw [h]; rfl
            · split
              · rename_i h; rw [h]; rfl
              · rw [if_neg (by omega), if_neg (by omega), if_neg (by omega), if_neg (by omega),
                  if_neg (by omega)]

/-- the core after the counter update -/
def cntCore (c : Bool) (w : W) (a : BitVec 16) (k : Core) : Core :=
  { k with
    csrInst := k.simInst + (if cntSkip w a A.minstret A.minstreth then 1#64 else 0#64)
    csrStep := k.simStep + (if cntSkip w a A.mcycle A.mcycleh then 1#64 else 0#64)
    csr := cntCsr c k.csr (k.simInst - k.csrInst) (k.simStep - k.csrStep) (mtimeOf k.clint.dev) }

theorem twp_cnt {ab : Prop} {E : Env σ} {w : W} {a : BitVec 16} {Q : Unit → St σ → Prop} {q : St σ} {k : Core}
    (hc : q.core = k) (hs : k.Sized)
    (hq : ∀ q', q'.core = cntCore E.cfg.rv32c w a k → Q () q') : twp ab (csrCntUpdate E w a) Q q := by
  have e : csrCntUpdate E w a q = .ok ((), cntState E w a (mtimeOf q.clint.dev) q) := by
    have hz : q.clint.dev.size = 32 := by rw [core_clint hc]; exact hs.2.2
    have r : q.clint.dev.rd64 0x10#32 = .ok (mtimeOf q.clint.dev) :=
      Dev.rd64_ok _ (by rw [hz]; decide) (by rw [hz]; decide)
    rw [csrCntUpdate_app, r]
  refine twp_ok e |>.2 (hq _ ?_)
  subst hc
  rfl

/-- the CSR file after the operation, given the file the operation sees -/
def csrAfter (m : W) (f3 : BitVec 3) (rs1 : BitVec 5) (x : W) (a : BitVec 16) (csr : BitVec 16 → W) : BitVec 16 → W :=
  if csrWrites f3 rs1 then upd csr a (masked m (csr a) (csrNew f3 (csr a) x)) else csr

theorem masked_zero (old new : W) : masked 0#32 old new = old := by
  unfold masked
  have : ~~~(0#32) = BitVec.allOnes 32 := by decide
  rw [this, BitVec.and_allOnes, BitVec.and_zero, BitVec.or_zero]

theorem upd_self {α β : Type} [DecidableEq α] (f : α → β) (a : α) : upd f a (f a) = f := by
  funext x; unfold upd; split
  · rename_i h; rw [h]
  · rfl

theorem twp_writeCsr {ab : Prop} {e : CsrEntry} {m v : W} {Q : Unit → St σ → Prop} {q : St σ} {k : Core}
    (hc : q.core = k) (hk : kindOf (some e) = .wr m)
    (hq : ∀ q', q'.core = { k with csr := upd k.csr e.addr (masked m (k.csr e.addr) v) } → Q () q') :
    twp ab (writeCsr e v) Q q := by
  subst hc
  have g : m = e.wmask → twp ab (mod fun s : St σ => { s with csr := upd s.csr e.addr (csrMerge e (s.csr e.addr) v) }) Q q := by
    intro h
    subst h
    rw [twp_mod]
    exact hq _ rfl
  unfold writeCsr
  unfold kindOf at hk
  cases hp : e.perm <;> simp only [hp] at hk ⊢ <;> first | injection hk with hk | cases hk
  · exact g hk.symm
  · rw [twp_pure]
    refine hq _ ?_
    rw [← hk, masked_zero, upd_self]
  · exact g hk.symm
  · exact g hk.symm

theorem csrSel_some {f3 : BitVec 3} (h : CsrF3 f3) :
    ∃ op, csrSel f3 = some op ∧ (f3 = match op with
      | .rw => 1#3 | .rs => 2#3 | .rc => 3#3 | .rwi => 5#3 | .rsi => 6#3 | .rci => 7#3) := by
  obtain ⟨h1, h2⟩ := h
  have : ∀ f : BitVec 3, f ≠ 0#3 → f ≠ 4#3 → ∃ op, csrSel f = some op ∧ (f = match op with
      | .rw => 1#3 | .rs => 2#3 | .rc => 3#3 | .rwi => 5#3 | .rsi => 6#3 | .rci => 7#3) := by
    intro f a b
    have : f = 1#3 ∨ f = 2#3 ∨ f = 3#3 ∨ f = 5#3 ∨ f = 6#3 ∨ f = 7#3 := by revert f; decide
    rcases this with h | h | h | h | h | h <;> subst h
    · exact ⟨.rw, rfl, rfl⟩
    · exact ⟨.rs, rfl, rfl⟩
    · exact ⟨.rc, rfl, rfl⟩
    · exact ⟨.rwi, rfl, rfl⟩
    · exact ⟨.rsi, rfl, rfl⟩
    · exact ⟨.rci, rfl, rfl⟩
  exact this f3 h1 h2

/-- the operation proper -/
theorem twp_csrDo {ab : Prop} {e : CsrEntry} {m w : W} {f3 : BitVec 3} {rs1 : BitVec 5} {op : CsrOp}
    {Q : Unit → St σ → Prop} {q : St σ} {k : Core} {rf : BitVec 5 → W}
    (hc : q.core = k) (hk : kindOf (some e) = .wr m ∨ ¬ csrWrites f3 rs1)
    (ho : f3 = match op with
      | .rw => 1#3 | .rs => 2#3 | .rc => 3#3 | .rwi => 5#3 | .rsi => 6#3 | .rci => 7#3)
    (h1 : IP.rs1 w = rs1) (h2 : IP.uimmCsr w = rs1.setWidth 32)
    (hq : ∀ q', q'.core = { k with csr := csrAfter m f3 rs1 (csrOperand f3 rs1 rf) e.addr k.csr } → Q () q') :
    twp ab (csrDo op e w (rx rf rs1)) Q q := by
  unfold csrDo
  rw [twp_bind, twp_get, h1, h2]
  have hv : q.csr e.addr = k.csr e.addr := by rw [← hc]; rfl
  have g : ∀ v, csrWrites f3 rs1 → v = csrNew f3 (k.csr e.addr) (csrOperand f3 rs1 rf) →
      twp ab (writeCsr e v) Q q := by
    intro v hw hv
    rcases hk with hk | hk
    · refine twp_writeCsr hc hk fun q' h' => hq q' ?_
      rw [h']
      unfold csrAfter
      rw [if_pos hw, hv]
    · exact absurd hw hk
  have n : ¬ csrWrites f3 rs1 → twp ab (pure () : M σ Unit) Q q := by
    intro hw
    rw [twp_pure]
    refine hq _ ?_
    unfold csrAfter
    rw [if_neg hw]
    exact hc
  cases op <;> simp only at ho ⊢ <;> subst ho <;> try rw [hv]
  · exact g _ (.inl rfl) rfl
  · split
    · rename_i h; exact n (by simp [csrWrites, h])
    · rename_i h; exact g _ (.inr (.inr h)) rfl
  · split
    · rename_i h; exact n (by simp [csrWrites, h])
    · rename_i h; exact g _ (.inr (.inr h)) rfl
  · exact g _ (.inr (.inl rfl)) rfl
  · split
    · rename_i h; exact n (by simp [csrWrites, h])
    · rename_i h; exact g _ (.inr (.inr h)) rfl
  · split
    · rename_i h; exact n (by simp [csrWrites, h])
    · rename_i h; exact g _ (.inr (.inr h)) rfl

/-- the word of a CSR instruction -/
abbrev csrWord (a : BitVec 12) (rs1 : BitVec 5) (f3 : BitVec 3) (rd : BitVec 5) : W := encI a rs1 f3 rd 0x73#7

section
variable {E : Env σ} {p : St σ} {c : Core} (hc : p.core = c) (hs : c.Sized)
variable {a : BitVec 12} {rs1 rd : BitVec 5} {f3 : BitVec 3}

include hc in
theorem twp_system {ab : Prop} {Q : Unit → St σ → Prop} (hi : c.inst = csrWord a rs1 f3 rd) (hf : f3 ≠ 0#3)
    (h : twp ab (do dCsr E (csrWord a rs1 f3 rd); nextSeq 4#32) Q p) : twp ab (exec E) Q p := by
  obtain ⟨d1, d2, d3, -⟩ := decode_I a rs1 f3 rd 0x73#7
  have hpi : p.inst = csrWord a rs1 f3 rd := (core_inst hc).trans hi
  refine twp_exec32 (copcode_of _ 0x73#7 (by rw [hpi]; exact d1) rfl) ?_
  rw [hpi, exec32_system d1]
  unfold dSystem
  rw [if_pos (by rw [d3]; exact hf)]
  exact h

include hc hs in
/-- an accepted CSR instruction -/
theorem exec_csr (h0 : c.rf 0#5 = 0#32) {e : CsrEntry} {m : W} (hi : c.inst = csrWord a rs1 f3 rd) (hf : CsrF3 f3)
    (he : csrInfo E.cfg.rv32c (a.setWidth 16) = some e) (hk : kindOf (some e) = .wr m ∨ ¬ csrWrites f3 rs1) :
    ExecTo E p { cntCore E.cfg.rv32c (csrWord a rs1 f3 rd) (a.setWidth 16) c with
      rf := wx c.rf rd (csrView c (a.setWidth 16))
      csr := csrAfter m f3 rs1 (csrOperand f3 rs1 c.rf) (a.setWidth 16)
        (cntCore E.cfg.rv32c (csrWord a rs1 f3 rd) (a.setWidth 16) c).csr
      nextPc := c.pc + 4#32 } := by
  intro ab Q hq
  obtain ⟨d1, d2, d3, d4, d5, d6, d7, -⟩ := decode_I a rs1 f3 rd 0x73#7
  refine twp_system hc hi hf.1 ?_
  have ha := csrInfo_addr he
  have hv : (cntCore E.cfg.rv32c (csrWord a rs1 f3 rd) (a.setWidth 16) c).csr (a.setWidth 16) = csrView c (a.setWidth 16) :=
    cnt_view c he
  rw [dCsr_some (e := e) (by rw [d6]; exact he), d6, d4, d2, d3, ha, twp_bind, twp_bind]
  obtain ⟨op, ho, hop⟩ := csrSel_some hf
  refine twp_cnt hc hs fun q1 h1 => ?_
  generalize hk1 : cntCore E.cfg.rv32c (csrWord a rs1 f3 rd) (a.setWidth 16) c = k1 at *
  have r1 : k1.rf = c.rf := by rw [← hk1]; rfl
  have p1 : k1.pc = c.pc := by rw [← hk1]; rfl
  rw [twp_bind, twp_rg (by rw [core_rf h1, r1]; exact h0), twp_bind, twp_get, twp_bind, twp_writeRf, ho]
  simp only
  have rr : q1.rf = c.rf := (core_rf h1).trans r1
  have cc : q1.csr (a.setWidth 16) = csrView c (a.setWidth 16) := by rw [core_csr h1, hv]
  rw [rr, cc]
  generalize hq2 : ({ q1 with rf := wx c.rf rd (csrView c (a.setWidth 16)) } : St σ) = q2
  have h2 : q2.core = { k1 with rf := wx c.rf rd (csrView c (a.setWidth 16)) } := by
    rw [← hq2, ← h1]; rfl
  rw [twp_bind, twp_bind]
  refine twp_csrDo (rf := c.rf) h2 hk hop d4 d7 fun q3 h3 => ?_
  refine twp_emit fun q4 h4 _ => ?_
  rw [twp_mod]
  refine twp_nextSeq (c := q3.core) h4 fun q5 h5 => hq q5 ?_
  rw [h5, h3, ha]
  simp only [p1]

include hc in
/-- an unimplemented CSR -/
theorem exec_csr_absent (hi : c.inst = csrWord a rs1 f3 rd) (hf : f3 ≠ 0#3)
    (he : csrInfo E.cfg.rv32c (a.setWidth 16) = none) :
    ExecTo E p { trapCore 2#32 (csrWord a rs1 f3 rd) c with nextPc := c.csr A.mtvec + 4#32 } := by
  intro ab Q hq
  obtain ⟨d1, d2, d3, d4, d5, d6, d7, -⟩ := decode_I a rs1 f3 rd 0x73#7
  refine twp_system hc hi hf ?_
  rw [dCsr_none (by rw [d6]; exact he), twp_bind]
  unfold eIllegal
  rw [twp_bind, twp_get, twp_trap]
  refine twp_nextSeq (trapTo_core _ _ _) fun q h => hq q ?_
  rw [h, hc, core_inst hc, hi]
  rfl

include hc hs in
/-- a rejected CSR instruction: a write to a read-only CSR, or the reserved funct3; rd is written
before the trap -/
theorem exec_csr_reject (h0 : c.rf 0#5 = 0#32) {e : CsrEntry} (hi : c.inst = csrWord a rs1 f3 rd)
    (he : csrInfo E.cfg.rv32c (a.setWidth 16) = some e)
    (hk : (CsrF3 f3 ∧ kindOf (some e) = .ro ∧ csrWrites f3 rs1) ∨ f3 = 4#3) :
    ExecTo E p { trapCore 2#32 (csrWord a rs1 f3 rd)
      { cntCore E.cfg.rv32c (csrWord a rs1 f3 rd) (a.setWidth 16) c with
        rf := wx c.rf rd (csrView c (a.setWidth 16)) } with
      nextPc := (cntCore E.cfg.rv32c (csrWord a rs1 f3 rd) (a.setWidth 16) c).csr A.mtvec + 4#32 } := by
  intro ab Q hq
  obtain ⟨d1, d2, d3, d4, d5, d6, d7, -⟩ := decode_I a rs1 f3 rd 0x73#7
  have hf : f3 ≠ 0#3 := by
    rcases hk with h | h
    · exact h.1.1
    · rw [h]; decide
  refine twp_system hc hi hf ?_
  have ha := csrInfo_addr he
  have hv : (cntCore E.cfg.rv32c (csrWord a rs1 f3 rd) (a.setWidth 16) c).csr (a.setWidth 16) = csrView c (a.setWidth 16) :=
    cnt_view c he
  rw [dCsr_some (e := e) (by rw [d6]; exact he), d6, d4, d2, d3, ha, twp_bind, twp_bind]
  refine twp_cnt hc hs fun q1 h1 => ?_
  generalize hk1 : cntCore E.cfg.rv32c (csrWord a rs1 f3 rd) (a.setWidth 16) c = k1 at *
  have r1 : k1.rf = c.rf := by rw [← hk1]; rfl
  have i1 : k1.inst = c.inst := by rw [← hk1]; rfl
  rw [twp_bind, twp_rg (by rw [core_rf h1, r1]; exact h0), twp_bind, twp_get, twp_bind, twp_writeRf]
  have rr : q1.rf = c.rf := (core_rf h1).trans r1
  have cc : q1.csr (a.setWidth 16) = csrView c (a.setWidth 16) := by rw [core_csr h1, hv]
  rw [rr, cc]
  generalize hq2 : ({ q1 with rf := wx c.rf rd (csrView c (a.setWidth 16)) } : St σ) = q2
  have h2 : q2.core = { k1 with rf := wx c.rf rd (csrView c (a.setWidth 16)) } := by
    rw [← hq2, ← h1]; rfl
  have i2 : q2.inst = csrWord a rs1 f3 rd := by rw [core_inst h2]; exact i1.trans hi
  rw [twp_bind]
  have fin : ∀ q3 : St σ, q3.core = trapCore 2#32 (csrWord a rs1 f3 rd) q2.core →
      twp ab (mod fun s => { s with running := s.running && (s.csr A.tohost &&& 1#32 == 0#32) })
        (fun _ s => twp ab (nextSeq 4#32) Q s) q3 := by
    intro q3 h3
    rw [twp_mod]
    refine twp_nextSeq (c := q3.core) rfl fun q4 h4 => hq q4 ?_
    rw [h4, h3, h2]
    rfl
  have ill : ∀ Q' : Unit → St σ → Prop, (∀ q3 : St σ, q3.core = trapCore 2#32 (csrWord a rs1 f3 rd) q2.core → Q' () q3) →
      twp ab eIllegal Q' q2 := by
    intro Q' h'
    unfold eIllegal
    rw [twp_bind, twp_get, twp_trap, i2]
    exact h' _ rfl
  rcases hk with ⟨hf', hro, hwr⟩ | hf4
  · obtain ⟨op, ho, hop⟩ := csrSel_some hf'
    rw [ho]
    simp only
    have hp : e.perm = .ro := by
      unfold kindOf at hro
      cases hp : e.perm <;> simp only [hp] at hro <;> first | rfl | cases hro
    have wr : ∀ v (Q' : Unit → St σ → Prop), (∀ q3 : St σ, q3.core = trapCore 2#32 (csrWord a rs1 f3 rd) q2.core → Q' () q3) →
        twp ab (writeCsr e v) Q' q2 := by
      intro v Q' h'
      unfold writeCsr
      rw [hp]
      exact ill Q' h'
    rw [twp_bind]
    have key : twp ab (csrDo op e (csrWord a rs1 f3 rd) (rx c.rf rs1))
        (fun _ s => twp ab (emit E (.csr op)) (fun _ s => twp ab (mod fun s =>
          { s with running := s.running && (s.csr A.tohost &&& 1#32 == 0#32) }) (fun _ s => twp ab (nextSeq 4#32) Q s) s) s) q2 := by
      have fin' : ∀ q3 : St σ, q3.core = trapCore 2#32 (csrWord a rs1 f3 rd) q2.core →
          twp ab (emit E (.csr op)) (fun _ s => twp ab (mod fun s =>
          { s with running := s.running && (s.csr A.tohost &&& 1#32 == 0#32) }) (fun _ s => twp ab (nextSeq 4#32) Q s) s) q3 :=
        fun q3 h3 => twp_emit fun q4 h4 _ => fin q4 (h4.trans h3)
      unfold csrDo
      rw [twp_bind, twp_get, d4]
      have hn : rs1 ≠ 0#5 ∨ f3 = 1#3 ∨ f3 = 5#3 := by
        rcases hwr with h | h | h
        · exact .inr (.inl h)
        · exact .inr (.inr h)
        · exact .inl h
      cases op <;> simp only at hop ⊢ <;> subst hop
      · exact wr _ _ fin'
      · rw [if_neg (by revert hn; simp)]; exact wr _ _ fin'
      · rw [if_neg (by revert hn; simp)]; exact wr _ _ fin'
      · exact wr _ _ fin'
      · rw [if_neg (by revert hn; simp)]; exact wr _ _ fin'
      · rw [if_neg (by revert hn; simp)]; exact wr _ _ fin'
    exact key
  · subst hf4
    exact ill _ fin
end

end Ama
