import Verif.Spec.Mnemonic
import Verif.Lemmas.ProfStep
import Verif.Lemmas.ExecJump
import Verif.Lemmas.ExecC
import Verif.Lemmas.Ex
import Verif.Props.SimdStep
import Verif.Props.ProfInst
/-!
# Names of profiler records
-/
set_option linter.unusedSimpArgs false
set_option linter.unusedTactic false
set_option linter.unreachableTactic false
set_option linter.unnecessarySeqFocus false
namespace Ama
open M Spec Prof
variable {σ : Type} {E : Env σ} {r : ProfRec} {rf : BitVec 5 → W}

/-- the report line of a record: the call it makes, and the entry the profiler counts for it -/
def lineOf (rv32c : Bool) (r : ProfRec) : Option Line :=
  (callOf r).map fun c => match Prof.Spec.entry rv32c r.inst c with
    | .g o => (o.name, none)
    | .b o t f => (o.name, some (t, f))

/-! ## The record of a 32-bit instruction -/

/-- opcode of the words an event is logged for; `none`: compressed words -/
def evOpc : ProfEv → Option (BitVec 7)
  | .alu _ => some 0x33#7 | .alui _ => some 0x13#7 | .load _ => some 0x03#7 | .store _ => some 0x23#7
  | .branch .. => some 0x63#7 | .jal => some 0x6f#7 | .jalr => some 0x67#7 | .lui => some 0x37#7
  | .auipc => some 0x17#7 | .mret | .wfi | .csr _ => some 0x73#7 | .fenceI | .fence => some 0x0f#7
  | .simd _ => some 0x0b#7 | .c _ | .cBeqz _ | .cBnez _ => none
theorem copcode_opcode (w : W) : IP.copcode w = (IP.opcode w).setWidth 2 := by
  fields [IP.copcode, IP.opcode]
theorem evOpc_some (h : evNamed rf r) {o : BitVec 7} (ho : IP.opcode r.inst = o) (h3 : o.setWidth 2 = 3#2) :
    evOpc r.ev = some o := by
  unfold evNamed at h
  have hc := copcode_opcode r.inst
  rw [ho, h3] at hc
  cases he : r.ev <;> rw [he] at h <;> simp only at h <;> unfold evOpc <;> simp only
  case mret | wfi | fenceI => rw [← ho, h]; rfl
  case c => exact absurd hc h.1
  case cBeqz | cBnez => rw [hc] at h; exact absurd h.1 (by decide)
  all_goals first
    | exact congrArg some (h.symm.trans ho)
    | exact congrArg some (h.1.symm.trans ho)

theorem not_c1 {w : W} (h3 : IP.copcode w = 3#2) (c : Bool) : ¬ (c = true ∧ w.toNat % 65536 = 1) := by
  rintro ⟨_, h⟩
  rw [← mask16] at h
  have : IP.copcode (w &&& 0xFFFF#32) = IP.copcode w := by fields [IP.copcode]
  rw [h, h3] at this
  exact absurd this (by decide)
/-- the entry of a 32-bit word that is not NOP or a hint -/
theorem entry_g {w : W} (h3 : IP.copcode w = 3#2) (h1 : w ≠ 0x13#32) (h2 : w ≠ 0x01002013#32) (h4 : w ≠ 0x01102013#32)
    (c : Bool) (o : OpG) : Prof.Spec.entry c w (.g o) = .g o := by
  unfold Prof.Spec.entry
  simp only
  rw [if_neg h1, if_neg (not_c1 h3 c), if_neg (by simp [h2, h4])]
theorem ne_opc {w : W} {o : BitVec 7} (h : IP.opcode w = o) (ho : o ≠ 0x13#7) :
    w ≠ 0x13#32 ∧ w ≠ 0x01002013#32 ∧ w ≠ 0x01102013#32 := by
  refine ⟨?_, ?_, ?_⟩ <;> rintro rfl <;> exact ho (h.symm.trans (by decide))
/-- the line of a record with a plain call -/
theorem line_g {c : Bool} {o : OpG} {w : W} (hw : r.inst = w) (hc : callOf r = some (.g o)) {op : BitVec 7}
    (ho : IP.opcode w = op) (h3 : op.setWidth 2 = 3#2) (hn : op ≠ 0x13#7) : lineOf c r = some (o.name, none) := by
  obtain ⟨h1, h2, h4⟩ := ne_opc ho hn
  unfold lineOf
  rw [hc, hw]
  simp only [Option.map_some]
  rw [entry_g (by rw [copcode_opcode, ho, h3]) h1 h2 h4]
theorem line_b {c t f : Bool} {o : OpB} (hc : callOf r = some (.b o t f)) : lineOf c r = some (o.name, some (t, f)) := by
  unfold lineOf
  rw [hc]
  rfl

theorem immSel_enc (op : IOp) (b : BitVec 1) : aluImmSel b (iopF op) = some (match op with
    | .addi => .addi | .slti => .slti | .sltiu => .sltiu | .xori => .xori | .ori => .ori | .andi => .andi) := by
  cases op <;> rfl
theorem loadSel_enc (op : LoadOp) : loadSel (loadF op) = some op := by cases op <;> rfl
theorem storeSel_enc (op : StoreOp) : storeSel (storeF op) = some op := by cases op <;> rfl
theorem branchSel_enc (op : BranchOp) : branchSel (branchF op) = some op := by cases op <;> rfl

theorem imm_inj {a b : BitVec 12} (h : a.signExtend 32 = b.signExtend 32) : a = b := by
  revert h; revert a b
  intro a b h
  ext i hi
  have := congrArg (fun x : BitVec 32 => x.getLsbD i) h
  simp only [BitVec.getLsbD_signExtend] at this
  rw [decide_eq_true (by omega : i < 32), if_pos hi, if_pos hi] at this
  simpa [BitVec.getLsbD_eq_getElem hi] using this
theorem shift_b5 (f7 : BitVec 7) (rs2 rs1 : BitVec 5) (f3 : BitVec 3) (rd : BitVec 5) (op : BitVec 7) :
    IP.funct7b5 (encR f7 rs2 rs1 f3 rd op) = f7.extractLsb' 5 1 := by
  fields [IP.funct7b5, encR]

/-- the record's event is one of those logged for the opcode -/
theorem ev_at (h : evNamed rf r) {w : W} (hi : r.inst = w) {o : BitVec 7} (ho : IP.opcode w = o) (h3 : o.setWidth 2 = 3#2) :
    evOpc r.ev = some o := evOpc_some h (by rw [hi]; exact ho) h3

theorem lt_iff_bv (a b : W) : (decide (a < b)) = decide (a.toNat < b.toNat) := rfl

section
variable (h : evNamed rf r) (c : Bool)
include h

theorem line_alu (op : AluOp) (rd rs1 rs2 : BitVec 5) (hi : r.inst = encode (.alu op rd rs1 rs2)) :
    lineOf c r = some (line rf r.pc r.nextPc (.alu op rd rs1 rs2)) := by
  have h' := h
  unfold evNamed at h
  have d := decode_R (aluF op).1 rs2 rs1 (aluF op).2 rd 0x33#7
  have e := ev_at h' hi d.1 rfl
  cases he : r.ev <;> rw [he] at e h <;> try (simp [evOpc] at e; done)
  simp only [hi, encode, d] at h
  rw [regSel_enc] at h
  obtain ⟨-, h⟩ := h
  cases h
  rw [line_g hi (by unfold callOf; rw [he]) d.1 rfl (by decide)]
  cases op <;> rfl
omit h in
theorem nop_iff (op : IOp) (rd rs1 : BitVec 5) (imm : BitVec 12) :
    encI imm rs1 (iopF op) rd 0x13#7 = 0x13#32 ↔ op = .addi ∧ rd = 0#5 ∧ rs1 = 0#5 ∧ imm = 0#12 := by
  obtain ⟨-, d1, d2, d3, d4, -⟩ := decode_I imm rs1 (iopF op) rd 0x13#7
  constructor
  · intro e
    rw [e] at d1 d2 d3 d4
    exact ⟨by revert d2; cases op <;> decide, d1.symm, d3.symm, imm_inj (d4.symm.trans (by decide))⟩
  · rintro ⟨rfl, rfl, rfl, rfl⟩; decide
omit h in
theorem hint_iff (op : IOp) (rd rs1 : BitVec 5) (imm : BitVec 12) :
    (encI imm rs1 (iopF op) rd 0x13#7 = 0x01002013#32 ∨ encI imm rs1 (iopF op) rd 0x13#7 = 0x01102013#32) ↔
      op = .slti ∧ rd = 0#5 ∧ rs1 = 0#5 ∧ (imm = 16#12 ∨ imm = 17#12) := by
  obtain ⟨-, d1, d2, d3, d4, -⟩ := decode_I imm rs1 (iopF op) rd 0x13#7
  constructor
  · rintro (e | e) <;> rw [e] at d1 d2 d3 d4
    · exact ⟨by revert d2; cases op <;> decide, d1.symm, d3.symm, .inl (imm_inj (d4.symm.trans (by decide)))⟩
    · exact ⟨by revert d2; cases op <;> decide, d1.symm, d3.symm, .inr (imm_inj (d4.symm.trans (by decide)))⟩
  · rintro ⟨rfl, rfl, rfl, rfl | rfl⟩ <;> decide
theorem ev_alui {w : W} (hi : r.inst = w) (ho : IP.opcode w = 0x13#7) :
    ∃ op, aluImmSel (IP.funct7b5 w) (IP.funct3 w) = some op ∧ callOf r = some (.g (aluiG op)) := by
  have e := ev_at h hi ho rfl
  unfold evNamed at h
  cases he : r.ev <;> rw [he] at e h <;> try (simp [evOpc] at e; done)
  rw [hi] at h
  exact ⟨_, h.2, by unfold callOf; rw [he]⟩
theorem line_alui (op : IOp) (rd rs1 : BitVec 5) (imm : BitVec 12) (hi : r.inst = encode (.alui op rd rs1 imm)) :
    lineOf c r = some (line rf r.pc r.nextPc (.alui op rd rs1 imm)) := by
  have d := decode_I imm rs1 (iopF op) rd 0x13#7
  obtain ⟨o, h1, hc⟩ := ev_alui h hi d.1
  rw [encode, d.2.2.1, immSel_enc] at h1
  have h3 : IP.copcode (encI imm rs1 (iopF op) rd 0x13#7) = 3#2 := by rw [copcode_opcode, d.1]; rfl
  have e1 := nop_iff op rd rs1 imm
  have e2 := hint_iff op rd rs1 imm
  unfold lineOf
  rw [hc, hi, encode]
  simp only [Option.map_some, Prof.Spec.entry]
  rw [if_neg (not_c1 h3 c)]
  simp only [line]
  clear hi d
  generalize encI imm rs1 (iopF op) rd 0x13#7 = w at *
  by_cases g1 : op = .addi ∧ rd = 0#5 ∧ rs1 = 0#5 ∧ imm = 0#12
  · rw [if_pos (e1.2 g1), if_pos g1]; rfl
  · rw [if_neg (fun e => g1 (e1.1 e)), if_neg g1]
    by_cases g2 : op = .slti ∧ rd = 0#5 ∧ rs1 = 0#5 ∧ (imm = 16#12 ∨ imm = 17#12)
    · rw [if_pos (e2.2 g2), if_pos g2]; rfl
    · rw [if_neg (fun e => g2 (e2.1 e)), if_neg g2]
      cases op <;> cases h1 <;> rfl
theorem line_shift (op : ShOp) (rd rs1 sh : BitVec 5) (hi : r.inst = encode (.shift op rd rs1 sh)) :
    lineOf c r = some (line rf r.pc r.nextPc (.shift op rd rs1 sh)) := by
  have d := decode_R (shF op).1 sh rs1 (shF op).2 rd 0x13#7
  obtain ⟨o, h1, hc⟩ := ev_alui h hi d.1
  rw [encode, d.2.2.1, shift_b5] at h1
  have h3 : IP.copcode (encode (.shift op rd rs1 sh)) = 3#2 := by rw [copcode_opcode, encode, d.1]; rfl
  have hne : ∀ w, IP.funct3 w ≠ (shF op).2 → encode (.shift op rd rs1 sh) ≠ w := fun w hw e => by
    rw [← e] at hw; exact hw d.2.2.1
  unfold lineOf
  rw [hc, hi]
  simp only [Option.map_some]
  rw [entry_g h3 (hne _ (by cases op <;> decide)) (hne _ (by cases op <;> decide)) (hne _ (by cases op <;> decide))]
  clear hi d h3 hne
  cases op <;> cases h1 <;> rfl
theorem line_lui (rd : BitVec 5) (imm : BitVec 20) (hi : r.inst = encode (.lui rd imm)) :
    lineOf c r = some (line rf r.pc r.nextPc (.lui rd imm)) := by
  have h' := h
  unfold evNamed at h
  have d := decode_U imm rd 0x37#7
  have e := ev_at h' hi d.1 rfl
  cases he : r.ev <;> rw [he] at e h <;> try (simp [evOpc] at e; done)
  rw [line_g hi (by unfold callOf; rw [he]) d.1 rfl (by decide)]
  rfl
theorem line_auipc (rd : BitVec 5) (imm : BitVec 20) (hi : r.inst = encode (.auipc rd imm)) :
    lineOf c r = some (line rf r.pc r.nextPc (.auipc rd imm)) := by
  have h' := h
  unfold evNamed at h
  have d := decode_U imm rd 0x17#7
  have e := ev_at h' hi d.1 rfl
  cases he : r.ev <;> rw [he] at e h <;> try (simp [evOpc] at e; done)
  rw [line_g hi (by unfold callOf; rw [he]) d.1 rfl (by decide)]
  rfl
theorem line_load (op : LoadOp) (rd rs1 : BitVec 5) (imm : BitVec 12) (hi : r.inst = encode (.load op rd rs1 imm)) :
    lineOf c r = some (line rf r.pc r.nextPc (.load op rd rs1 imm)) := by
  have h' := h
  unfold evNamed at h
  have d := decode_I imm rs1 (loadF op) rd 0x03#7
  have e := ev_at h' hi d.1 rfl
  cases he : r.ev <;> rw [he] at e h <;> try (simp [evOpc] at e; done)
  simp only [hi, encode, d] at h
  rw [loadSel_enc] at h
  obtain ⟨-, h⟩ := h
  cases h
  rw [line_g hi (by unfold callOf; rw [he]) d.1 rfl (by decide)]
  cases op <;> rfl
theorem line_store (op : StoreOp) (rs2 rs1 : BitVec 5) (imm : BitVec 12) (hi : r.inst = encode (.store op rs2 rs1 imm)) :
    lineOf c r = some (line rf r.pc r.nextPc (.store op rs2 rs1 imm)) := by
  have h' := h
  unfold evNamed at h
  have d := decode_S imm rs2 rs1 (storeF op) 0x23#7
  have e := ev_at h' hi d.1 rfl
  cases he : r.ev <;> rw [he] at e h <;> try (simp [evOpc] at e; done)
  simp only [hi, encode, d] at h
  rw [storeSel_enc] at h
  obtain ⟨-, h⟩ := h
  cases h
  rw [line_g hi (by unfold callOf; rw [he]) d.1 rfl (by decide)]
  cases op <;> rfl
theorem line_branch (h0 : rf 0#5 = 0#32) (op : BranchOp) (rs1 rs2 : BitVec 5) (off : BitVec 12) (hi : r.inst = encode (.branch op rs1 rs2 off)) :
    lineOf c r = some (line rf r.pc r.nextPc (.branch op rs1 rs2 off)) := by
  have h' := h
  unfold evNamed at h
  have d := decode_B (dbl off) (by simp [dbl]) rs2 rs1 (branchF op) 0x63#7
  have e := ev_at h' hi d.1 rfl
  cases he : r.ev <;> rw [he] at e h <;> try (simp [evOpc] at e; done)
  simp only [hi, encode, d] at h
  rw [branchSel_enc] at h
  obtain ⟨-, h, ht, hn⟩ := h
  cases h
  rw [line_b (by unfold callOf; rw [he])]
  have hr : ∀ x, rx rf x = rf x := fun x => by
    unfold rx; split
    · rename_i hx; rw [hx, h0]
    · rfl
  simp only [line]
  rw [hr, hr, ← br_cond, ← ht]
  congr 1
  refine Prod.ext (by cases op <;> rfl) ?_
  show some _ = some _
  congr 1
  refine Prod.ext rfl ?_
  show (if _ then _ else _) = _
  rw [hn, hi, encode, d.2.2.2.2]
  split <;> rfl
theorem line_jal (rd : BitVec 5) (off : BitVec 20) (hi : r.inst = encode (.jal rd off)) :
    lineOf c r = some (line rf r.pc r.nextPc (.jal rd off)) := by
  have h' := h
  unfold evNamed at h
  have d := decode_J (dbl off) (by simp [dbl]) rd 0x6f#7
  have e := ev_at h' hi d.1 rfl
  cases he : r.ev <;> rw [he] at e h <;> try (simp [evOpc] at e; done)
  rw [line_b (by unfold callOf; rw [he])]
  rfl
theorem line_jalr (rd rs1 : BitVec 5) (imm : BitVec 12) (hi : r.inst = encode (.jalr rd rs1 imm)) :
    lineOf c r = some (line rf r.pc r.nextPc (.jalr rd rs1 imm)) := by
  have h' := h
  unfold evNamed at h
  have d := decode_I imm rs1 0#3 rd 0x67#7
  have e := ev_at h' hi d.1 rfl
  cases he : r.ev <;> rw [he] at e h <;> try (simp [evOpc] at e; done)
  rw [line_b (by unfold callOf; rw [he])]
  rfl
theorem line_fence (imm : BitVec 12) (rs1 rd : BitVec 5) (hi : r.inst = encode (.fence imm rs1 rd)) :
    lineOf c r = some (line rf r.pc r.nextPc (.fence imm rs1 rd)) := by
  have h' := h
  unfold evNamed at h
  have d := decode_I imm rs1 0#3 rd 0x0f#7
  have e := ev_at h' hi d.1 rfl
  cases he : r.ev <;> rw [he] at e h <;> try (simp [evOpc] at e; done)
  · exfalso
    rw [hi] at h
    have := d.2.2.1
    rw [show encI imm rs1 0#3 rd 0x0f#7 = 0x100f#32 from h] at this
    exact absurd this (by decide)
  rw [line_g hi (by unfold callOf; rw [he]) d.1 rfl (by decide)]
  rfl
theorem line_fencei  (hi : r.inst = encode (.fencei)) :
    lineOf c r = some (line rf r.pc r.nextPc (.fencei)) := by
  have h' := h
  unfold evNamed at h
  have e := ev_at (o := 0x0f#7) h' hi (by decide) rfl
  rw [hi] at h
  cases he : r.ev <;> rw [he] at e h <;> (try (simp [evOpc] at e; done)) <;>
    (try exact absurd h (by decide)) <;> (try (simp [encode, encI, encR, IP.funct3, csrSel, fld] at h; done)) <;>
    (rw [line_g (op := 0x0f#7) hi (by unfold callOf; rw [he]) (by decide) rfl (by decide)]; rfl)
theorem line_mret  (hi : r.inst = encode (.mret)) :
    lineOf c r = some (line rf r.pc r.nextPc (.mret)) := by
  have h' := h
  unfold evNamed at h
  have e := ev_at (o := 0x73#7) h' hi (by decide) rfl
  rw [hi] at h
  cases he : r.ev <;> rw [he] at e h <;> (try (simp [evOpc] at e; done)) <;>
    (try exact absurd h (by decide)) <;> (try (simp [encode, encI, encR, IP.funct3, csrSel, fld] at h; done)) <;>
    (rw [line_g (op := 0x73#7) hi (by unfold callOf; rw [he]) (by decide) rfl (by decide)]; rfl)
theorem line_wfi  (hi : r.inst = encode (.wfi)) :
    lineOf c r = some (line rf r.pc r.nextPc (.wfi)) := by
  have h' := h
  unfold evNamed at h
  have e := ev_at (o := 0x73#7) h' hi (by decide) rfl
  rw [hi] at h
  cases he : r.ev <;> rw [he] at e h <;> (try (simp [evOpc] at e; done)) <;>
    (try exact absurd h (by decide)) <;> (try (simp [encode, encI, encR, IP.funct3, csrSel, fld] at h; done)) <;>
    (rw [line_g (op := 0x73#7) hi (by unfold callOf; rw [he]) (by decide) rfl (by decide)]; rfl)
theorem line_ecall  (hi : r.inst = encode (.ecall)) :
    lineOf c r = some (line rf r.pc r.nextPc (.ecall)) := by
  have h' := h
  unfold evNamed at h
  have e := ev_at (o := 0x73#7) h' hi (by decide) rfl
  rw [hi] at h
  cases he : r.ev <;> rw [he] at e h <;> (try (simp [evOpc] at e; done)) <;>
    (try exact absurd h (by decide)) <;> (try (simp [encode, encI, encR, IP.funct3, csrSel, fld] at h; done)) <;>
    (rw [line_g (op := 0x73#7) hi (by unfold callOf; rw [he]) (by decide) rfl (by decide)]; rfl)
theorem line_ebreak  (hi : r.inst = encode (.ebreak)) :
    lineOf c r = some (line rf r.pc r.nextPc (.ebreak)) := by
  have h' := h
  unfold evNamed at h
  have e := ev_at (o := 0x73#7) h' hi (by decide) rfl
  rw [hi] at h
  cases he : r.ev <;> rw [he] at e h <;> (try (simp [evOpc] at e; done)) <;>
    (try exact absurd h (by decide)) <;> (try (simp [encode, encI, encR, IP.funct3, csrSel, fld] at h; done)) <;>
    (rw [line_g (op := 0x73#7) hi (by unfold callOf; rw [he]) (by decide) rfl (by decide)]; rfl)
end

/-- the record of every encoded instruction names it, with the outcome of branches and jumps -/
theorem line_named (h : evNamed rf r) (h0 : rf 0#5 = 0#32) (c : Bool) {i : Instr} (hi : r.inst = encode i) :
    lineOf c r = some (line rf r.pc r.nextPc i) := by
  cases i with
  | alu op rd rs1 rs2 => exact line_alu h c _ _ _ _ hi
  | alui op rd rs1 imm => exact line_alui h c _ _ _ _ hi
  | shift op rd rs1 sh => exact line_shift h c _ _ _ _ hi
  | lui rd imm => exact line_lui h c _ _ hi
  | auipc rd imm => exact line_auipc h c _ _ hi
  | load op rd rs1 imm => exact line_load h c _ _ _ _ hi
  | store op rs2 rs1 imm => exact line_store h c _ _ _ _ hi
  | branch op rs1 rs2 off => exact line_branch h c h0 _ _ _ _ hi
  | jal rd off => exact line_jal h c _ _ hi
  | jalr rd rs1 imm => exact line_jalr h c _ _ _ hi
  | fence imm rs1 rd => exact line_fence h c _ _ _ hi
  | fencei => exact line_fencei h c  hi
  | mret => exact line_mret h c  hi
  | wfi => exact line_wfi h c  hi
  | ecall => exact line_ecall h c  hi
  | ebreak => exact line_ebreak h c  hi

/-! ## CSR and SIMD instructions -/

theorem line_csr (h : evNamed rf r) (c : Bool) {a : BitVec 12} {rs1 rd : BitVec 5} {f3 : BitVec 3} (h0 : f3 ≠ 0#3)
    (hi : r.inst = encI a rs1 f3 rd 0x73#7) : lineOf c r = some (csrName f3, none) := by
  have d := decode_I a rs1 f3 rd 0x73#7
  have e := ev_at h hi d.1 rfl
  unfold evNamed at h
  cases he : r.ev <;> rw [he] at e h <;> try (simp [evOpc] at e; done)
  case mret | wfi =>
    exfalso
    have d3 := d.2.2.1
    rw [← hi, show r.inst = _ from h] at d3
    exact h0 (d3.symm.trans (by decide))
  case csr op =>
    obtain ⟨-, h⟩ := h
    rw [hi, d.2.2.1] at h
    rw [line_g hi (by unfold callOf; rw [he]) d.1 rfl (by decide)]
    revert h; clear hi d h0 he e
    revert op f3; decide +kernel

theorem xName_1 {x : X1} {m : W} (hm : x.match? = some m) : ∃ o, simdG (opOf1 x) = some o ∧ o.name = x.name := by
  unfold X1.match? at hm
  split at hm <;> cases hm <;> exact ⟨_, rfl, by decide +kernel⟩
theorem xName_2 {x : X2} {m : W} (hm : x.match? = some m) : ∃ o, simdG (opOf2 x) = some o ∧ o.name = x.name := by
  unfold X2.match? at hm
  split at hm <;> cases hm <;> exact ⟨_, rfl, by decide +kernel⟩

theorem ev_simd (h : evNamed rf r) {w : W} (hi : r.inst = w) (ho : IP.opcode w = 0x0b#7) :
    ∃ op, Simd.sel (IP.funct7 w) (IP.funct3 w) = some op ∧ callOf r = (simdG op).map .g := by
  have e := ev_at h hi ho rfl
  unfold evNamed at h
  cases he : r.ev <;> rw [he] at e h <;> try (simp [evOpc] at e; done)
  rw [hi] at h
  exact ⟨_, h.2, by unfold callOf; rw [he]⟩

theorem line_x1 (h : evNamed rf r) (c : Bool) {x : X1} {m : W} (hm : x.match? = some m) {rd rs1 rs2 : BitVec 5}
    (hi : r.inst = xWord m rd rs1 rs2) : lineOf c r = some (x.name, none) := by
  obtain ⟨t1, t2, -⟩ := table1 hm
  rw [t1, xWord_enc] at hi
  have d := decode_R (IP.funct7 m) rs2 rs1 (IP.funct3 m) rd 0x0b#7
  obtain ⟨op, h1, h2⟩ := ev_simd h hi d.1
  rw [d.2.2.1, d.2.2.2.2.2, t2] at h1
  cases h1
  obtain ⟨o, h3, h4⟩ := xName_1 hm
  rw [h3] at h2
  rw [line_g hi h2 d.1 rfl (by decide), h4]
theorem line_x2 (h : evNamed rf r) (c : Bool) {x : X2} {m : W} (hm : x.match? = some m) {rd rs1 rs2 : BitVec 5}
    (hi : r.inst = xWord m rd rs1 rs2) : lineOf c r = some (x.name, none) := by
  obtain ⟨t1, t2, -⟩ := table2 hm
  rw [t1, xWord_enc] at hi
  have d := decode_R (IP.funct7 m) rs2 rs1 (IP.funct3 m) rd 0x0b#7
  obtain ⟨op, h1, h2⟩ := ev_simd h hi d.1
  rw [d.2.2.1, d.2.2.2.2.2, t2] at h1
  cases h1
  obtain ⟨o, h3, h4⟩ := xName_2 hm
  rw [h3] at h2
  rw [line_g hi h2 d.1 rfl (by decide), h4]
/-- `scp.lcl` (funct3 0) and `scp.rel` (funct3 1) -/
theorem line_scp (h : evNamed rf r) (c rel : Bool) {rd rs1 rs2 : BitVec 5}
    (hi : r.inst = encR 0x7f#7 rs2 rs1 (if rel then 1#3 else 0#3) rd 0x0b#7) :
    lineOf c r = some (if rel then "scp.rel" else "scp.lcl", none) := by
  have d := decode_R 0x7f#7 rs2 rs1 (if rel then 1#3 else 0#3) rd 0x0b#7
  obtain ⟨op, h1, h2⟩ := ev_simd h hi d.1
  rw [d.2.2.1, d.2.2.2.2.2] at h1
  cases rel <;> cases h1
  · exact line_g hi h2 d.1 rfl (by decide)
  · exact line_g hi h2 d.1 rfl (by decide)

/-- every record makes a call -/
theorem call_some (h : evNamed rf r) : (callOf r).isSome := by
  unfold evNamed at h
  unfold callOf
  cases he : r.ev <;> rw [he] at h <;> try rfl
  rename_i op
  obtain ⟨-, h⟩ := h
  simp only [Option.isSome_map]
  revert h
  generalize IP.funct7 r.inst = a
  generalize IP.funct3 r.inst = b
  intro h
  have t : ∀ (a : BitVec 7) (b : BitVec 3), (match Simd.sel a b with
    | none => true | some op => (simdG op).isSome) = true := by decide +kernel
  have := t a b
  rw [h] at this
  exact this

/-! ## Compressed instructions -/

/-- a compressed word equal to C.NOP in the low half -/
theorem c1_fields {w : W} (h : w.toNat % 65536 = 1) :
    IP.copcode w = 1#2 ∧ IP.cFunct3 w = 0#3 ∧ IP.rd w = 0#5 ∧ IP.cImmArith w = 0#32 := by
  rw [← mask16] at h
  have a1 : IP.copcode (w &&& 0xFFFF#32) = IP.copcode w := by fields [IP.copcode]
  have a2 : IP.cFunct3 (w &&& 0xFFFF#32) = IP.cFunct3 w := by fields [IP.cFunct3]
  have a3 : IP.rd (w &&& 0xFFFF#32) = IP.rd w := by fields [IP.rd]
  have a4 : IP.cImmArith (w &&& 0xFFFF#32) = IP.cImmArith w := by sfields [IP.cImmArith, IP.cImmArith] []
  rw [h] at a1 a2 a3 a4
  exact ⟨a1.symm, a2.symm, a3.symm, a4.symm⟩


theorem ev_c (h : evNamed rf r) {w : W} (hi : r.inst = w) {q : BitVec 2} (hq : IP.copcode w = q) (h3 : q ≠ 3#2)
    {f3 : BitVec 3} (hf : IP.cFunct3 w = f3) (hb : ¬ (q = 1#2 ∧ (f3 = 6#3 ∨ f3 = 7#3))) :
    ∃ op, r.ev = .c op ∧ cOp w = some op := by
  subst hi hq hf
  unfold evNamed at h
  have n : ∀ {o : BitVec 7}, o.setWidth 2 = 3#2 → ¬ IP.opcode r.inst = o := fun ho h => by
    have hc := copcode_opcode r.inst
    rw [h, ho] at hc
    exact h3 hc
  cases he : r.ev <;> rw [he] at h <;> simp only at h
  case alu | alui | load | store | branch | fence | csr | simd => exact absurd h.1 (n rfl)
  case jal | jalr | lui | auipc => exact absurd h (n rfl)
  case mret => exact absurd (show IP.opcode r.inst = 0x73#7 by rw [h]; rfl) (n rfl)
  case wfi => exact absurd (show IP.opcode r.inst = 0x73#7 by rw [h]; rfl) (n rfl)
  case fenceI => exact absurd (show IP.opcode r.inst = 0x0f#7 by rw [h]; rfl) (n rfl)
  case c => exact ⟨_, rfl, h.2⟩
  case cBeqz => exact absurd ⟨h.1, h.2.1.elim (fun h => .inl h.1) (fun h => .inr h.1)⟩ hb
  case cBnez => exact absurd ⟨h.1, .inr h.2.1⟩ hb
theorem ev_cb (h : evNamed rf r) {w : W} (hi : r.inst = w) (hq : IP.copcode w = 1#2)
    (hf : IP.cFunct3 w = 6#3 ∨ IP.cFunct3 w = 7#3) : (∃ t, r.ev = .cBeqz t) ∨ ∃ t, r.ev = .cBnez t := by
  subst hi
  unfold evNamed at h
  have n : ∀ {o : BitVec 7}, o.setWidth 2 = 3#2 → ¬ IP.opcode r.inst = o := fun ho h => by
    have hc := copcode_opcode r.inst
    rw [h, ho, hq] at hc
    exact absurd hc (by decide)
  cases he : r.ev <;> rw [he] at h <;> simp only at h
  case alu | alui | load | store | branch | fence | csr | simd => exact absurd h.1 (n rfl)
  case jal | jalr | lui | auipc => exact absurd h (n rfl)
  case mret => exact absurd (show IP.opcode r.inst = 0x73#7 by rw [h]; rfl) (n rfl)
  case wfi => exact absurd (show IP.opcode r.inst = 0x73#7 by rw [h]; rfl) (n rfl)
  case fenceI => exact absurd (show IP.opcode r.inst = 0x0f#7 by rw [h]; rfl) (n rfl)
  case cBeqz => exact .inl ⟨_, rfl⟩
  case cBnez => exact .inr ⟨_, rfl⟩
  case c =>
    exfalso
    obtain ⟨-, h⟩ := h
    unfold cOp at h
    rw [hq] at h
    rcases hf with hf | hf <;> rw [hf] at h <;> cases h

/-- the entry of a compressed word that is not C.NOP -/
theorem entry_c {w : W} (h3 : IP.copcode w ≠ 3#2) (h1 : w.toNat % 65536 ≠ 1) (c : Bool) (o : OpG) :
    Prof.Spec.entry c w (.g o) = .g o := by
  have n : ∀ v : W, IP.copcode v = 3#2 → w ≠ v := fun v hv e => h3 (e ▸ hv)
  unfold Prof.Spec.entry
  simp only
  rw [if_neg (n _ (by decide)), if_neg (fun h => h1 h.2), if_neg (by
    have a := n 0x01002013#32 (by decide)
    have b := n 0x01102013#32 (by decide)
    simp [a, b])]
/-- the line of a compressed word: its call, unless it is C.NOP -/
theorem line_cg (c : Bool) {op : COp} {o : OpG} {w : W} (hi : r.inst = w) (he : r.ev = .c op)
    (hc : ∀ f, compCall f op = .g o) {q : BitVec 2} (hq : IP.copcode w = q) (h3 : q ≠ 3#2)
    {f3 : BitVec 3} (hf : IP.cFunct3 w = f3) (h1 : ¬ (q = 1#2 ∧ f3 = 0#3)) : lineOf c r = some (o.name, none) := by
  subst hi hq hf
  unfold lineOf callOf
  rw [he]
  simp only [Option.map_some]
  rw [hc, entry_c h3 (fun e => h1 ⟨(c1_fields e).1, (c1_fields e).2.1⟩)]
theorem line_cb (c : Bool) {op : COp} {o : OpB} (he : r.ev = .c op)
    (hc : ∀ f, compCall f op = .b o true f) :
    lineOf c r = some (o.name, some (true, decide (r.pc.toNat < r.nextPc.toNat))) := by
  have : callOf r = some (.b o true (decide (r.pc.toNat < r.nextPc.toNat))) := by
    unfold callOf
    rw [he]
    simp only [hc]
    rfl
  exact line_b this

section
variable (h : evNamed rf r) (c : Bool)
include h

theorem cline {w : W} (hi : r.inst = w) {q : BitVec 2} (hq : IP.copcode w = q) (h3 : q ≠ 3#2)
    {f3 : BitVec 3} (hf : IP.cFunct3 w = f3) (hb : ¬ (q = 1#2 ∧ (f3 = 6#3 ∨ f3 = 7#3)))
    {op : COp} {o : OpG} (hop : cOp w = some op) (hc : ∀ f, compCall f op = .g o) (h1 : ¬ (q = 1#2 ∧ f3 = 0#3)) :
    lineOf c r = some (o.name, none) := by
  obtain ⟨op', e, e'⟩ := ev_c h hi hq h3 hf hb
  rw [hop] at e'
  cases e'
  exact line_cg c hi e hc hq h3 hf h1
theorem cjump {w : W} (hi : r.inst = w) {q : BitVec 2} (hq : IP.copcode w = q) (h3 : q ≠ 3#2)
    {f3 : BitVec 3} (hf : IP.cFunct3 w = f3) (hb : ¬ (q = 1#2 ∧ (f3 = 6#3 ∨ f3 = 7#3)))
    {op : COp} {o : OpB} (hop : cOp w = some op) (hc : ∀ f, compCall f op = .b o true f) :
    lineOf c r = some (o.name, some (true, decide (r.pc.toNat < r.nextPc.toNat))) := by
  obtain ⟨op', e, e'⟩ := ev_c h hi hq h3 hf hb
  rw [hop] at e'
  cases e'
  exact line_cb c e hc

theorem cline_addi {rd : BitVec 5} {imm : BitVec 6} (hi : r.inst = encCI 0#3 imm rd 1#2) :
    lineOf true r = some (if rd = 0#5 ∧ imm = 0#6 then "c.nop" else "c.addi", none) := by
  have d := decode_CI 0#3 imm rd 1#2
  obtain ⟨op', e, e'⟩ := ev_c h hi d.1 (by decide) d.2.1 (by decide)
  have e2 : cOp (encCI 0#3 imm rd 1#2) = some .addi := by
    unfold cOp; rw [d.1, d.2.1]; rfl
  rw [e2] at e'
  cases e'
  by_cases hn : rd = 0#5 ∧ imm = 0#6
  · rw [if_pos hn]
    obtain ⟨rfl, rfl⟩ := hn
    unfold lineOf callOf
    rw [e, hi]
    rfl
  · rw [if_neg hn]
    unfold lineOf callOf
    rw [e]
    simp only [Option.map_some]
    rw [hi, show compCall _ COp.addi = .g .i_c_addi from rfl, entry_c (by rw [d.1]; decide)]
    · rfl
    · intro e3
      apply hn
      obtain ⟨-, -, f1, f2⟩ := c1_fields e3
      rw [d.2.2.1] at f1
      rw [d.2.2.2.1] at f2
      refine ⟨f1, ?_⟩
      clear hn e3 e2 d hi
      revert f2; revert imm; decide +kernel

/-- C.BEQZ and a C.BNEZ that is taken -/
theorem cline_beqz {rs : BitVec 3} {off : BitVec 8} (hi : r.inst = encCB 6#3 (scale 9 1 off) rs) :
    lineOf c r = some (lineC rf r.pc r.nextPc (.beqz rs off)) := by
  have d := decode_CB 6#3 (scale 9 1 off) (scale_even 9 off) rs
  have hv := ev_cb h hi d.1 (.inl d.2.1)
  unfold evNamed at h
  rcases hv with ⟨t, e⟩ | ⟨t, e⟩ <;> rw [e] at h
  · simp only at h
    obtain ⟨-, h1, h2⟩ := h
    rw [hi] at h1 h2
    rw [d.2.2.2.1] at h2
    rw [d.2.1, d.2.2.1] at h1
    rcases h1 with ⟨-, rfl⟩ | ⟨h1, -⟩
    · rw [line_b (o := .i_c_beqz) (by unfold callOf; rw [e])]
      simp only [lineC]
      rw [hi, d.2.2.2.1, h2]
      split
      · rfl
      · rfl
    · exact absurd h1 (by decide)
  · simp only at h
    rw [hi, d.2.1] at h
    exact absurd h.2.1 (by decide)
theorem cline_bnez {rs : BitVec 3} {off : BitVec 8} (hi : r.inst = encCB 7#3 (scale 9 1 off) rs)
    (ht : rf (creg rs) ≠ 0#32) :
    lineOf c r = some (lineC rf r.pc r.nextPc (.bnez rs off)) := by
  have d := decode_CB 7#3 (scale 9 1 off) (scale_even 9 off) rs
  have hv := ev_cb h hi d.1 (.inr d.2.1)
  unfold evNamed at h
  rcases hv with ⟨t, e⟩ | ⟨t, e⟩ <;> rw [e] at h <;> simp only at h
  · exfalso
    obtain ⟨-, h1, h2⟩ := h
    rw [hi, d.2.1, d.2.2.1] at h1
    rcases h1 with ⟨h1, -⟩ | ⟨-, -, h1⟩
    · exact absurd h1 (by decide)
    · exact ht h1
  · obtain ⟨-, -, rfl, -, h2⟩ := h
    rw [hi, d.2.2.2.1] at h2
    rw [line_b (o := .i_c_bnez) (by unfold callOf; rw [e])]
    simp only [lineC]
    rw [h2]
    simp only [ht, ne_eq, not_false_eq_true, decide_true, if_true]
    rfl
/-- a C.BNEZ that is not taken is counted as a C.BEQZ -/
theorem cline_bnez_not {rs : BitVec 3} {off : BitVec 8} (hi : r.inst = encCB 7#3 (scale 9 1 off) rs)
    (ht : rf (creg rs) = 0#32) :
    lineOf c r = some ("c.beqz", (lineC rf r.pc r.nextPc (.bnez rs off)).2) := by
  have d := decode_CB 7#3 (scale 9 1 off) (scale_even 9 off) rs
  have hv := ev_cb h hi d.1 (.inr d.2.1)
  unfold evNamed at h
  rcases hv with ⟨t, e⟩ | ⟨t, e⟩ <;> rw [e] at h <;> simp only at h
  · obtain ⟨-, h1, h2⟩ := h
    rw [hi, d.2.1, d.2.2.1] at h1
    rcases h1 with ⟨h1, -⟩ | ⟨-, rfl, h1⟩
    · exact absurd h1 (by decide)
    · rw [line_b (o := .i_c_beqz) (by unfold callOf; rw [e])]
      simp only [lineC, hi, d.2.2.2.1]
      simp only [ht, ne_eq, not_true_eq_false, decide_false, Bool.false_eq_true, if_false]
      rfl
  · exfalso
    obtain ⟨-, -, rfl, h1, -⟩ := h
    rw [hi, d.2.2.1] at h1
    exact h1 ht

/-- the compressed instructions counted on another line: a C.BNEZ that is not taken and the C.LUI hint -/
def misnamed (rf : BitVec 5 → W) : CInstr → Prop
  | .bnez rs _ => rf (creg rs) = 0#32
  | .lui rd _ => rd = 0#5
  | _ => False
/-- the C.LUI hint is counted as C.NOP -/
theorem cline_lui_hint {imm : BitVec 6} (hi : r.inst = encCI 3#3 imm 0#5 1#2) : lineOf c r = some ("c.nop", none) := by
  have d := decode_CI 3#3 imm 0#5 1#2
  exact cline h _ hi d.1 (by decide) d.2.1 (by decide) (op := .nop) (o := .i_c_nop) (by
    unfold cOp; rw [d.1, d.2.1, d.2.2.1]; rfl) (fun _ => rfl) (by decide)
/-- every legal compressed instruction but a C.BNEZ that is not taken and the C.LUI hint -/
theorem cline_all (i : CInstr) (hl : i.legal) (hi : r.inst = encodeC i)
    (hx : ¬ misnamed rf i) : lineOf true r = some (lineC rf r.pc r.nextPc i) := by
  cases i <;> simp only [encodeC] at hi <;> simp only [CInstr.legal] at hl <;> simp only [misnamed] at hx
  case addi4spn rd imm =>
    have d := decode_CADDI4SPN (scale 10 2 imm) (scale_mod4 10 imm) rd
    exact cline h _ hi d.1 (by decide) d.2.1 (by decide) (op := .addi4spn) (o := .i_c_addi4spn) (by unfold cOp; rw [d.1, d.2.1]; rfl) (fun _ => rfl) (by decide)
  case lw rd rs imm =>
    have d := decode_CLS 2#3 (scale 7 2 imm) (scale_mod4 7 imm) rs rd
    exact cline h _ hi d.1 (by decide) d.2.1 (by decide) (op := .lw) (o := .i_c_lw) (by unfold cOp; rw [d.1, d.2.1]; rfl) (fun _ => rfl) (by decide)
  case sw rd rs imm =>
    have d := decode_CLS 6#3 (scale 7 2 imm) (scale_mod4 7 imm) rs rd
    exact cline h _ hi d.1 (by decide) d.2.1 (by decide) (op := .sw) (o := .i_c_sw) (by unfold cOp; rw [d.1, d.2.1]; rfl) (fun _ => rfl) (by decide)
  case addi => exact cline_addi h hi
  case jal off =>
    have d := decode_CJ 1#3 (scale 12 1 off) (scale_even 12 off)
    exact cjump h _ hi d.1 (by decide) d.2.1 (by decide) (op := .jal) (o := .i_c_jal) (by unfold cOp; rw [d.1, d.2.1]; rfl) (fun _ => rfl)
  case j off =>
    have d := decode_CJ 5#3 (scale 12 1 off) (scale_even 12 off)
    exact cjump h _ hi d.1 (by decide) d.2.1 (by decide) (op := .j) (o := .i_c_j) (by unfold cOp; rw [d.1, d.2.1]; rfl) (fun _ => rfl)
  case li rd imm =>
    have d := decode_CI 2#3 imm rd 1#2
    exact cline h _ hi d.1 (by decide) d.2.1 (by decide) (op := .li) (o := .i_c_li) (by unfold cOp; rw [d.1, d.2.1]; rfl) (fun _ => rfl) (by decide)
  case lui rd imm =>
    have d := decode_CI 3#3 imm rd 1#2
    exact cline h _ hi d.1 (by decide) d.2.1 (by decide) (op := .lui) (o := .i_c_lui) (by
      unfold cOp; rw [d.1, d.2.1, d.2.2.1]
      show (if _ then _ else _) = _
      rw [if_neg hx, if_neg hl.1]) (fun _ => rfl) (by decide)
  case addi16sp imm =>
    have d := decode_CADDI16SP (scale 10 4 imm) (scale_mod16 10 imm)
    exact cline h _ hi d.1 (by decide) d.2.1 (by decide) (op := .addi16sp) (o := .i_c_addi16sp) (by
      unfold cOp; rw [d.1, d.2.1, d.2.2.1]; rfl) (fun _ => rfl) (by decide)
  case srli rd sh =>
    have d := decode_CBA 0#2 (sh.setWidth 6) rd
    exact cline h _ hi d.1 (by decide) d.2.1 (by decide) (op := .srli) (o := .i_c_srli) (by
      unfold cOp; rw [d.1, d.2.1, d.2.2.1]; rfl) (fun _ => rfl) (by decide)
  case srai rd sh =>
    have d := decode_CBA 1#2 (sh.setWidth 6) rd
    exact cline h _ hi d.1 (by decide) d.2.1 (by decide) (op := .srai) (o := .i_c_srai) (by
      unfold cOp; rw [d.1, d.2.1, d.2.2.1]; rfl) (fun _ => rfl) (by decide)
  case andi rd imm =>
    have d := decode_CBA 2#2 imm rd
    exact cline h _ hi d.1 (by decide) d.2.1 (by decide) (op := .andi) (o := .i_c_andi) (by
      unfold cOp; rw [d.1, d.2.1, d.2.2.1]; rfl) (fun _ => rfl) (by decide)
  case alu op rd rs =>
    have d := decode_CA 0x23#6 rd (caluF op) rs
    obtain ⟨d1, d2, d3, -, -, d6, d7, -⟩ := d
    cases op
    · exact cline h _ hi d1 (by decide) d6 (by decide) (op := .sub) (o := .i_c_sub) (by
        unfold cOp; rw [d1, d6, d7, d2, d3]; rfl) (fun _ => rfl) (by decide)
    · exact cline h _ hi d1 (by decide) d6 (by decide) (op := .xor) (o := .i_c_xor) (by
        unfold cOp; rw [d1, d6, d7, d2, d3]; rfl) (fun _ => rfl) (by decide)
    · exact cline h _ hi d1 (by decide) d6 (by decide) (op := .or) (o := .i_c_or) (by
        unfold cOp; rw [d1, d6, d7, d2, d3]; rfl) (fun _ => rfl) (by decide)
    · exact cline h _ hi d1 (by decide) d6 (by decide) (op := .and) (o := .i_c_and) (by
        unfold cOp; rw [d1, d6, d7, d2, d3]; rfl) (fun _ => rfl) (by decide)
  case beqz => exact cline_beqz h _ hi
  case bnez => exact cline_bnez h _ hi hx
  case slli rd sh =>
    have d := decode_CI 0#3 (sh.setWidth 6) rd 2#2
    exact cline h _ hi d.1 (by decide) d.2.1 (by decide) (op := .slli) (o := .i_c_slli) (by unfold cOp; rw [d.1, d.2.1]; rfl) (fun _ => rfl) (by decide)
  case lwsp rd imm =>
    have d := decode_CLWSP (scale 8 2 imm) (scale_mod4 8 imm) rd
    exact cline h _ hi d.1 (by decide) d.2.1 (by decide) (op := .lwsp) (o := .i_c_lwsp) (by unfold cOp; rw [d.1, d.2.1]; rfl) (fun _ => rfl) (by decide)
  case swsp rs imm =>
    have d := decode_CSWSP (scale 8 2 imm) (scale_mod4 8 imm) rs
    exact cline h _ hi d.1 (by decide) d.2.1 (by decide) (op := .swsp) (o := .i_c_swsp) (by unfold cOp; rw [d.1, d.2.1]; rfl) (fun _ => rfl) (by decide)
  case jr rs =>
    have d := decode_CR 8#4 rs 0#5
    exact cjump h _ hi d.1 (by decide) d.2.2.1 (by decide) (op := .jr) (o := .i_c_jr) (by
      unfold cOp; rw [d.1, d.2.2.1, d.2.1, d.2.2.2.2.1]; rfl) (fun _ => rfl)
  case mv rd rs =>
    have d := decode_CR 8#4 rd rs
    exact cline h _ hi d.1 (by decide) d.2.2.1 (by decide) (op := .mv) (o := .i_c_mv) (by
      unfold cOp; rw [d.1, d.2.2.1, d.2.1, d.2.2.2.2.1]
      show (if _ then _ else _) = _
      rw [if_neg hl]) (fun _ => rfl) (by decide)
  case ebreak =>
    have d := decode_CR 9#4 0#5 0#5
    exact cline h _ hi d.1 (by decide) d.2.2.1 (by decide) (op := .ebreak) (o := .i_c_ebreak) (by
      unfold cOp; rw [d.1, d.2.2.1, d.2.1, d.2.2.2.2.1, d.2.2.2.1]; rfl) (fun _ => rfl) (by decide)
  case jalr rs =>
    have d := decode_CR 9#4 rs 0#5
    exact cjump h _ hi d.1 (by decide) d.2.2.1 (by decide) (op := .jalr) (o := .i_c_jalr) (by
      unfold cOp; rw [d.1, d.2.2.1, d.2.1, d.2.2.2.2.1, d.2.2.2.1]
      show (if _ then _ else if _ then _ else _) = _
      rw [if_neg (fun e => hl e.2), if_pos rfl]) (fun _ => rfl)
  case add rd rs =>
    have d := decode_CR 9#4 rd rs
    exact cline h _ hi d.1 (by decide) d.2.2.1 (by decide) (op := .add) (o := .i_c_add) (by
      unfold cOp; rw [d.1, d.2.2.1, d.2.1, d.2.2.2.2.1, d.2.2.2.1]
      show (if _ then _ else if _ then _ else _) = _
      rw [if_neg (fun e => hl e.1), if_neg hl]) (fun _ => rfl) (by decide)
end

end Ama
