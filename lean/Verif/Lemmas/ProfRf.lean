import Verif.Model.ProfRf
import Verif.Spec.RegUse
import Verif.Lemmas.ProfName
import Verif.Lemmas.DasmFrame
import Verif.Props.Window
/-!
# Register operands of profiler records
-/
set_option linter.unusedSimpArgs false
set_option linter.unusedTactic false
set_option linter.unreachableTactic false
set_option linter.unnecessarySeqFocus false
namespace Ama.ProfRf
open M Spec Prof
variable {σ : Type} {E : Env σ} {r : ProfRec} {rf : BitVec 5 → W}

/-- the profiler's name of a role -/
def use : Role → Use
  | .dest => .rd | .dest2 => .rdp | .src1 => .rs1 | .src2 => .rs2 | .acc => .rs3
/-- operands as calls -/
def calls (l : List Operand) : List (Use × Reg) := l.map fun x => (use x.1, x.2)

theorem cnum_creg (r : BitVec 3) : (creg r).toNat = cnum r := by revert r; decide

/-- the instructions whose result is compared with zero -/
def flagged : Instr → Bool
  | .alu .. | .alui .. | .shift .. | .load .. => true
  | _ => false
/-- the same for compressed instructions -/
def flaggedC : CInstr → Bool
  | .lui .. | .jal _ | .jalr _ | .sw .. | .swsp .. | .j _ | .jr _ | .beqz .. | .bnez .. | .ebreak => false
  | _ => true

/-! ## 32-bit instructions -/

theorem uses_base (h : evNamed rf r) (i : Instr) (hi : r.inst = encode i) : usesOf r = calls (operands i) ∧
    setsZero r.ev = flagged i := by
  cases i with
  | alu op rd rs1 rs2 =>
    have d := decode_R (aluF op).1 rs2 rs1 (aluF op).2 rd 0x33#7
    have e := ev_at h hi d.1 rfl
    cases he : r.ev <;> rw [he] at e <;> try (simp [evOpc] at e; done)
    simp only [usesOf, he, prd, prs1, prs2, hi, encode, d.2.1, d.2.2.2.1, d.2.2.2.2.1]
    exact ⟨rfl, rfl⟩
  | alui op rd rs1 imm =>
    have d := decode_I imm rs1 (iopF op) rd 0x13#7
    have e := ev_at h hi d.1 rfl
    cases he : r.ev <;> rw [he] at e <;> try (simp [evOpc] at e; done)
    simp only [usesOf, he, prd, prs1, prs2, hi, encode, d.2.1, d.2.2.2.1]
    exact ⟨rfl, rfl⟩
  | shift op rd rs1 sh =>
    have d := decode_R (shF op).1 sh rs1 (shF op).2 rd 0x13#7
    have e := ev_at h hi d.1 rfl
    cases he : r.ev <;> rw [he] at e <;> try (simp [evOpc] at e; done)
    simp only [usesOf, he, prd, prs1, prs2, hi, encode, d.2.1, d.2.2.2.1]
    exact ⟨rfl, rfl⟩
  | load op rd rs1 imm =>
    have d := decode_I imm rs1 (loadF op) rd 0x03#7
    have e := ev_at h hi d.1 rfl
    cases he : r.ev <;> rw [he] at e <;> try (simp [evOpc] at e; done)
    simp only [usesOf, he, prd, prs1, prs2, hi, encode, d.2.1, d.2.2.2.1]
    exact ⟨rfl, rfl⟩
  | jalr rd rs1 imm =>
    have d := decode_I imm rs1 0#3 rd 0x67#7
    have e := ev_at h hi d.1 rfl
    cases he : r.ev <;> rw [he] at e <;> try (simp [evOpc] at e; done)
    simp only [usesOf, he, prd, prs1, prs2, hi, encode, d.2.1, d.2.2.2.1]
    exact ⟨rfl, rfl⟩
  | lui rd imm =>
    have d := decode_U imm rd 0x37#7
    have e := ev_at h hi d.1 rfl
    cases he : r.ev <;> rw [he] at e <;> try (simp [evOpc] at e; done)
    simp only [usesOf, he, prd, prs1, prs2, hi, encode, d.2.1]
    exact ⟨rfl, rfl⟩
  | auipc rd imm =>
    have d := decode_U imm rd 0x17#7
    have e := ev_at h hi d.1 rfl
    cases he : r.ev <;> rw [he] at e <;> try (simp [evOpc] at e; done)
    simp only [usesOf, he, prd, prs1, prs2, hi, encode, d.2.1]
    exact ⟨rfl, rfl⟩
  | jal rd off =>
    have d := decode_J (dbl off) (by simp [dbl]) rd 0x6f#7
    have e := ev_at h hi d.1 rfl
    cases he : r.ev <;> rw [he] at e <;> try (simp [evOpc] at e; done)
    simp only [usesOf, he, prd, prs1, prs2, hi, encode, d.2.1]
    exact ⟨rfl, rfl⟩
  | store op rs2 rs1 imm =>
    have d := decode_S imm rs2 rs1 (storeF op) 0x23#7
    have e := ev_at h hi d.1 rfl
    cases he : r.ev <;> rw [he] at e <;> try (simp [evOpc] at e; done)
    simp only [usesOf, he, prd, prs1, prs2, hi, encode, d.2.2.1, d.2.2.2.1]
    exact ⟨rfl, rfl⟩
  | branch op rs1 rs2 off =>
    have d := decode_B (dbl off) (by simp [dbl]) rs2 rs1 (branchF op) 0x63#7
    have e := ev_at h hi d.1 rfl
    cases he : r.ev <;> rw [he] at e <;> try (simp [evOpc] at e; done)
    simp only [usesOf, he, prd, prs1, prs2, hi, encode, d.2.2.1, d.2.2.2.1]
    exact ⟨rfl, rfl⟩
  | fence imm rs1 rd =>
    have d := decode_I imm rs1 0#3 rd 0x0f#7
    have e := ev_at h hi d.1 rfl
    cases he : r.ev <;> rw [he] at e <;> try (simp [evOpc] at e; done)
    all_goals simp only [usesOf, he]; exact ⟨rfl, rfl⟩
  | fencei =>
    have e := ev_at (o := 0x0f#7) h hi (by decide) rfl
    cases he : r.ev <;> rw [he] at e <;> try (simp [evOpc] at e; done)
    all_goals simp only [usesOf, he]; exact ⟨rfl, rfl⟩
  | mret =>
    have e := ev_at (o := 0x73#7) h hi (by decide) rfl
    unfold evNamed at h
    rw [hi] at h
    cases he : r.ev <;> rw [he] at e h <;> (try (simp [evOpc] at e; done)) <;> (try (simp only [usesOf, he]; exact ⟨rfl, rfl⟩)) <;>
      (simp [encode, encI, encR, IP.funct3, csrSel, fld] at h; done)
  | wfi =>
    have e := ev_at (o := 0x73#7) h hi (by decide) rfl
    unfold evNamed at h
    rw [hi] at h
    cases he : r.ev <;> rw [he] at e h <;> (try (simp [evOpc] at e; done)) <;> (try (simp only [usesOf, he]; exact ⟨rfl, rfl⟩)) <;>
      (simp [encode, encI, encR, IP.funct3, csrSel, fld] at h; done)
  | ecall =>
    have e := ev_at (o := 0x73#7) h hi (by decide) rfl
    unfold evNamed at h
    rw [hi] at h
    cases he : r.ev <;> rw [he] at e h <;> (try (simp [evOpc] at e; done)) <;> (try (simp only [usesOf, he]; exact ⟨rfl, rfl⟩)) <;>
      (simp [encode, encI, encR, IP.funct3, csrSel, fld] at h; done)
  | ebreak =>
    have e := ev_at (o := 0x73#7) h hi (by decide) rfl
    unfold evNamed at h
    rw [hi] at h
    cases he : r.ev <;> rw [he] at e h <;> (try (simp [evOpc] at e; done)) <;> (try (simp only [usesOf, he]; exact ⟨rfl, rfl⟩)) <;>
      (simp [encode, encI, encR, IP.funct3, csrSel, fld] at h; done)

theorem uses_csr (h : evNamed rf r) {a : BitVec 12} {rs1 rd : BitVec 5} {f3 : BitVec 3} (h0 : f3 ≠ 0#3)
    (hi : r.inst = encI a rs1 f3 rd 0x73#7) : usesOf r =
      if f3 = 1#3 ∨ f3 = 2#3 ∨ f3 = 3#3 then [(.rd, rd.toNat), (.rs1, rs1.toNat)] else [(.rd, rd.toNat)] := by
  have d := decode_I a rs1 f3 rd 0x73#7
  have e := ev_at h hi d.1 rfl
  unfold evNamed at h
  cases he : r.ev <;> rw [he] at e h <;> try (simp [evOpc] at e; done)
  case mret | wfi =>
    exfalso
    have d3 := d.2.2.1
    rw [← hi, show r.inst = _ from h] at d3
    exact h0 (d3.symm.trans (by decide))
  case csr op =>
    obtain ⟨-, h⟩ := h
    rw [hi, d.2.2.1] at h
    have t : ∀ (f : BitVec 3) (op : CsrOp), csrSel f = some op →
        ((f = 1#3 ∨ f = 2#3 ∨ f = 3#3) ↔ (op = .rw ∨ op = .rs ∨ op = .rc)) := by
      intro f op
      revert f
      cases op <;> decide
    have t := t f3 op h
    simp only [usesOf, he, prd, prs1, hi, d.2.1, d.2.2.2.1]
    cases op
    all_goals first
      | (rw [if_pos (t.2 (by simp))]; done)
      | (rw [if_neg (fun x => by simpa using t.1 x)])

theorem ev_simd' (h : evNamed rf r) {w : W} (hi : r.inst = w) (ho : IP.opcode w = 0x0b#7) :
    ∃ op, Simd.sel (IP.funct7 w) (IP.funct3 w) = some op ∧ r.ev = .simd op := by
  have e := ev_at h hi ho rfl
  unfold evNamed at h
  cases he : r.ev <;> rw [he] at e h <;> try (simp [evOpc] at e; done)
  rw [hi] at h
  exact ⟨_, h.2, rfl⟩

/-- what is counted for a SIMD instruction with one result -/
def counted1 (x : X1) (rd rs1 rs2 : BitVec 5) : List (Use × Reg) :=
  match x with
  | .dup _ | .vext .. | .vins _ => [(.rd, rd.toNat), (.rs1, rs1.toNat)]
  | .dot .. => [(.rd, rd.toNat), (.rs1, rs1.toNat), (.rs2, rs2.toNat), (.rs3, rd.toNat)]
  | _ => [(.rd, rd.toNat), (.rs1, rs1.toNat), (.rs2, rs2.toNat)]
theorem uses_x1 (h : evNamed rf r) {x : X1} {m : W} (hm : x.match? = some m) {rd rs1 rs2 : BitVec 5}
    (hi : r.inst = xWord m rd rs1 rs2) : usesOf r = counted1 x rd rs1 rs2 ∧
      setsZero r.ev = true := by
  obtain ⟨t1, t2, -⟩ := table1 hm
  rw [t1, xWord_enc] at hi
  have d := decode_R (IP.funct7 m) rs2 rs1 (IP.funct3 m) rd 0x0b#7
  obtain ⟨op, h1, h2⟩ := ev_simd' h hi d.1
  rw [d.2.2.1, d.2.2.2.2.2, t2] at h1
  cases h1
  simp only [usesOf, h2]
  cases x <;> simp only [opOf1, simdUses, prd, prs1, prs2, prs3, hi, d.2.1, d.2.2.2.1, d.2.2.2.2.1, counted1] <;> exact ⟨trivial, rfl⟩
theorem uses_x2 (h : evNamed rf r) {x : X2} {m : W} (hm : x.match? = some m) {rd rs1 rs2 : BitVec 5}
    (hi : r.inst = xWord m rd rs1 rs2) : usesOf r = calls (operandsX2 x rd rs1 rs2) ∧
      setsZero r.ev = true := by
  obtain ⟨t1, t2, -⟩ := table2 hm
  rw [t1, xWord_enc] at hi
  have d := decode_R (IP.funct7 m) rs2 rs1 (IP.funct3 m) rd 0x0b#7
  obtain ⟨op, h1, h2⟩ := ev_simd' h hi d.1
  rw [d.2.2.1, d.2.2.2.2.2, t2] at h1
  cases h1
  simp only [usesOf, h2]
  cases x <;> simp only [opOf2, simdUses, prd, prdp, prs1, prs2, hi, d.2.1, d.2.2.2.1, d.2.2.2.2.1] <;> exact ⟨rfl, rfl⟩
theorem uses_scp (h : evNamed rf r) (rel : Bool) {rd rs1 rs2 : BitVec 5}
    (hi : r.inst = encR 0x7f#7 rs2 rs1 (if rel then 1#3 else 0#3) rd 0x0b#7) :
    usesOf r = [(.rd, rd.toNat), (.rs1, rs1.toNat)] := by
  have d := decode_R 0x7f#7 rs2 rs1 (if rel then 1#3 else 0#3) rd 0x0b#7
  obtain ⟨op, h1, h2⟩ := ev_simd' h hi d.1
  rw [d.2.2.1, d.2.2.2.2.2] at h1
  simp only [usesOf, h2]
  have : simdUses r.inst op = [prd r.inst, prs1 r.inst] := by cases rel <;> cases h1 <;> rfl
  rw [this, prd, prs1, hi, d.2.1, d.2.2.2.1]

/-! ## Compressed instructions -/

theorem cuse (h : evNamed rf r) {w : W} (hi : r.inst = w) {q : BitVec 2} (hq : IP.copcode w = q) (h3 : q ≠ 3#2)
    {f3 : BitVec 3} (hf : IP.cFunct3 w = f3) (hb : ¬ (q = 1#2 ∧ (f3 = 6#3 ∨ f3 = 7#3)))
    {op : COp} (hop : cOp w = some op) : usesOf r = compUses w op ∧ setsZero r.ev = setsZero (.c op) := by
  obtain ⟨op', e, e'⟩ := ev_c h hi hq h3 hf hb
  rw [hop] at e'
  cases e'
  simp only [usesOf, e, hi]
  exact ⟨trivial, trivial⟩
theorem cuse_b (h : evNamed rf r) {w : W} (hi : r.inst = w) (hq : IP.copcode w = 1#2)
    (hf : IP.cFunct3 w = 6#3 ∨ IP.cFunct3 w = 7#3) : usesOf r = [(.rs1, (IP.cRegh w).toNat)] ∧
      setsZero r.ev = false := by
  rcases ev_cb h hi hq hf with ⟨t, e⟩ | ⟨t, e⟩ <;> simp only [usesOf, e, hi] <;> exact ⟨trivial, rfl⟩

/-- every legal compressed instruction but the C.LUI hint -/
theorem uses_comp (h : evNamed rf r) (i : CInstr) (hl : i.legal) (hi : r.inst = encodeC i)
    (hx : ∀ imm, i ≠ .lui 0#5 imm) : usesOf r = calls (operandsC i) ∧
    setsZero r.ev = flaggedC i := by
  cases i <;> simp only [encodeC] at hi <;> simp only [CInstr.legal] at hl
  case addi4spn rd imm =>
    have d := decode_CADDI4SPN (scale 10 2 imm) (scale_mod4 10 imm) rd
    have c := cuse h hi d.1 (by decide) d.2.1 (by decide) (op := .addi4spn) (by
      unfold cOp; rw [d.1, d.2.1]; rfl)
    rw [c.1, c.2]
    simp only [compUses, prd, d.2.2.1, cnum_creg]
    exact ⟨rfl, rfl⟩
  case lw rd rs imm =>
    have d := decode_CLS 2#3 (scale 7 2 imm) (scale_mod4 7 imm) rs rd
    have c := cuse h hi d.1 (by decide) d.2.1 (by decide) (op := .lw) (by
      unfold cOp; rw [d.1, d.2.1]; rfl)
    rw [c.1, c.2]
    simp only [compUses, prd, d.2.2.1, d.2.2.2.1, cnum_creg]
    exact ⟨rfl, rfl⟩
  case sw rd rs imm =>
    have d := decode_CLS 6#3 (scale 7 2 imm) (scale_mod4 7 imm) rs rd
    have c := cuse h hi d.1 (by decide) d.2.1 (by decide) (op := .sw) (by
      unfold cOp; rw [d.1, d.2.1]; rfl)
    rw [c.1, c.2]
    simp only [compUses, prd, d.2.2.1, d.2.2.2.1, cnum_creg]
    exact ⟨rfl, rfl⟩
  case addi rd imm =>
    have d := decode_CI 0#3 imm rd 1#2
    have c := cuse h hi d.1 (by decide) d.2.1 (by decide) (op := .addi) (by
      unfold cOp; rw [d.1, d.2.1]; rfl)
    rw [c.1, c.2]
    simp only [compUses, prd, d.2.2.1]
    exact ⟨rfl, rfl⟩
  case jal off =>
    have d := decode_CJ 1#3 (scale 12 1 off) (scale_even 12 off)
    have c := cuse h hi d.1 (by decide) d.2.1 (by decide) (op := .jal) (by
      unfold cOp; rw [d.1, d.2.1]; rfl)
    rw [c.1, c.2]
    simp only [compUses, prd, d.1]
    exact ⟨rfl, rfl⟩
  case j off =>
    have d := decode_CJ 5#3 (scale 12 1 off) (scale_even 12 off)
    have c := cuse h hi d.1 (by decide) d.2.1 (by decide) (op := .j) (by
      unfold cOp; rw [d.1, d.2.1]; rfl)
    rw [c.1, c.2]
    simp only [compUses, prd, d.1]
    exact ⟨rfl, rfl⟩
  case li rd imm =>
    have d := decode_CI 2#3 imm rd 1#2
    have c := cuse h hi d.1 (by decide) d.2.1 (by decide) (op := .li) (by
      unfold cOp; rw [d.1, d.2.1]; rfl)
    rw [c.1, c.2]
    simp only [compUses, prd, d.2.2.1]
    exact ⟨rfl, rfl⟩
  case lui rd imm =>
    have d := decode_CI 3#3 imm rd 1#2
    have c := cuse h hi d.1 (by decide) d.2.1 (by decide) (op := .lui) (by
      unfold cOp; rw [d.1, d.2.1, d.2.2.1]
      show (if _ then _ else _) = _
      rw [if_neg (fun e => hx imm (by rw [e])), if_neg hl.1])
    rw [c.1, c.2]
    simp only [compUses, prd, d.2.2.1]
    exact ⟨rfl, rfl⟩
  case addi16sp imm =>
    have d := decode_CADDI16SP (scale 10 4 imm) (scale_mod16 10 imm)
    have c := cuse h hi d.1 (by decide) d.2.1 (by decide) (op := .addi16sp) (by
      unfold cOp; rw [d.1, d.2.1, d.2.2.1]; rfl)
    rw [c.1, c.2]
    simp only [compUses, prd, d.2.2.1]
    exact ⟨rfl, rfl⟩
  case srli rd sh =>
    have d := decode_CBA 0#2 (sh.setWidth 6) rd
    have c := cuse h hi d.1 (by decide) d.2.1 (by decide) (op := .srli) (by
      unfold cOp; rw [d.1, d.2.1, d.2.2.1]; rfl)
    rw [c.1, c.2]
    simp only [compUses, prd, d.2.2.2.1, cnum_creg]
    exact ⟨rfl, rfl⟩
  case srai rd sh =>
    have d := decode_CBA 1#2 (sh.setWidth 6) rd
    have c := cuse h hi d.1 (by decide) d.2.1 (by decide) (op := .srai) (by
      unfold cOp; rw [d.1, d.2.1, d.2.2.1]; rfl)
    rw [c.1, c.2]
    simp only [compUses, prd, d.2.2.2.1, cnum_creg]
    exact ⟨rfl, rfl⟩
  case andi rd sh =>
    have d := decode_CBA 2#2 (sh) rd
    have c := cuse h hi d.1 (by decide) d.2.1 (by decide) (op := .andi) (by
      unfold cOp; rw [d.1, d.2.1, d.2.2.1]; rfl)
    rw [c.1, c.2]
    simp only [compUses, prd, d.2.2.2.1, cnum_creg]
    exact ⟨rfl, rfl⟩
  case alu op rd rs =>
    obtain ⟨d1, d2, d3, d4, d5, d6, d7, -⟩ := decode_CA 0x23#6 rd (caluF op) rs
    cases op
    · have c := cuse h hi d1 (by decide) d6 (by decide) (op := .sub) (by unfold cOp; rw [d1, d6, d7, d2, d3]; rfl)
      rw [c.1, c.2]
      simp only [compUses, d4, d5, cnum_creg]
      exact ⟨rfl, rfl⟩
    · have c := cuse h hi d1 (by decide) d6 (by decide) (op := .xor) (by unfold cOp; rw [d1, d6, d7, d2, d3]; rfl)
      rw [c.1, c.2]
      simp only [compUses, d4, d5, cnum_creg]
      exact ⟨rfl, rfl⟩
    · have c := cuse h hi d1 (by decide) d6 (by decide) (op := .or) (by unfold cOp; rw [d1, d6, d7, d2, d3]; rfl)
      rw [c.1, c.2]
      simp only [compUses, d4, d5, cnum_creg]
      exact ⟨rfl, rfl⟩
    · have c := cuse h hi d1 (by decide) d6 (by decide) (op := .and) (by unfold cOp; rw [d1, d6, d7, d2, d3]; rfl)
      rw [c.1, c.2]
      simp only [compUses, d4, d5, cnum_creg]
      exact ⟨rfl, rfl⟩
  case beqz rs off =>
    have d := decode_CB 6#3 (scale 9 1 off) (scale_even 9 off) rs
    have c := cuse_b h hi d.1 (by rw [d.2.1]; decide)
    rw [c.1, c.2, d.2.2.1, cnum_creg]
    exact ⟨rfl, rfl⟩
  case bnez rs off =>
    have d := decode_CB 7#3 (scale 9 1 off) (scale_even 9 off) rs
    have c := cuse_b h hi d.1 (by rw [d.2.1]; decide)
    rw [c.1, c.2, d.2.2.1, cnum_creg]
    exact ⟨rfl, rfl⟩
  case slli rd sh =>
    have d := decode_CI 0#3 (sh.setWidth 6) rd 2#2
    have c := cuse h hi d.1 (by decide) d.2.1 (by decide) (op := .slli) (by
      unfold cOp; rw [d.1, d.2.1]; rfl)
    rw [c.1, c.2]
    simp only [compUses, prd, d.2.2.1]
    exact ⟨rfl, rfl⟩
  case lwsp rd imm =>
    have d := decode_CLWSP (scale 8 2 imm) (scale_mod4 8 imm) rd
    have c := cuse h hi d.1 (by decide) d.2.1 (by decide) (op := .lwsp) (by
      unfold cOp; rw [d.1, d.2.1]; rfl)
    rw [c.1, c.2]
    simp only [compUses, prd, d.2.2.1]
    exact ⟨rfl, rfl⟩
  case swsp rs imm =>
    have d := decode_CSWSP (scale 8 2 imm) (scale_mod4 8 imm) rs
    have c := cuse h hi d.1 (by decide) d.2.1 (by decide) (op := .swsp) (by
      unfold cOp; rw [d.1, d.2.1]; rfl)
    rw [c.1, c.2]
    simp only [compUses, prd, d.2.2.1]
    exact ⟨rfl, rfl⟩
  case jr rs =>
    have d := decode_CR 8#4 rs 0#5
    have c := cuse h hi d.1 (by decide) d.2.2.1 (by decide) (op := .jr) (by
      unfold cOp; rw [d.1, d.2.2.1, d.2.1, d.2.2.2.2.1]; rfl)
    rw [c.1, c.2]
    simp only [compUses, prd, d.2.2.2.1]
    exact ⟨rfl, rfl⟩
  case mv rd rs =>
    have d := decode_CR 8#4 rd rs
    have c := cuse h hi d.1 (by decide) d.2.2.1 (by decide) (op := .mv) (by
      unfold cOp; rw [d.1, d.2.2.1, d.2.1, d.2.2.2.2.1]
      show (if _ then _ else _) = _
      rw [if_neg hl])
    rw [c.1, c.2]
    simp only [compUses, prd, d.2.2.2.1, d.2.2.2.2.1]
    exact ⟨rfl, rfl⟩
  case ebreak =>
    have d := decode_CR 9#4 0#5 0#5
    have c := cuse h hi d.1 (by decide) d.2.2.1 (by decide) (op := .ebreak) (by
      unfold cOp; rw [d.1, d.2.2.1, d.2.1, d.2.2.2.2.1, d.2.2.2.1]; rfl)
    rw [c.1, c.2]
    simp only [compUses, prd, d.1]
    exact ⟨rfl, rfl⟩
  case jalr rs =>
    have d := decode_CR 9#4 rs 0#5
    have c := cuse h hi d.1 (by decide) d.2.2.1 (by decide) (op := .jalr) (by
      unfold cOp; rw [d.1, d.2.2.1, d.2.1, d.2.2.2.2.1, d.2.2.2.1]
      show (if _ then _ else if _ then _ else _) = _
      rw [if_neg (fun e => hl e.2), if_pos rfl])
    rw [c.1, c.2]
    simp only [compUses, prd, d.2.2.2.1]
    exact ⟨rfl, rfl⟩
  case add rd rs =>
    have d := decode_CR 9#4 rd rs
    have c := cuse h hi d.1 (by decide) d.2.2.1 (by decide) (op := .add) (by
      unfold cOp; rw [d.1, d.2.2.1, d.2.1, d.2.2.2.2.1, d.2.2.2.1]
      show (if _ then _ else if _ then _ else _) = _
      rw [if_neg (fun e => hl e.1), if_neg hl])
    rw [c.1, c.2]
    simp only [compUses, prd, d.2.2.2.1, d.2.2.2.2.1]
    exact ⟨rfl, rfl⟩

/-! ## The table -/

theorem logUses_ok {l : List (Use × Reg)} (h : ∀ x ∈ l, x.2 < 32) (u : Usage) :
    ∃ u', logUses u l = .ok u' ∧ ∀ r k, u' r k = u r k + l.count (k, r) := by
  induction l generalizing u with
  | nil => exact ⟨u, rfl, fun _ _ => rfl⟩
  | cons x t ih =>
    obtain ⟨u', h1, h2⟩ := ih (fun y hy => h y (List.mem_cons_of_mem _ hy))
      (fun r k => if r = x.2 ∧ k = x.1 then u r k + 1 else u r k)
    refine ⟨u', ?_, fun r k => ?_⟩
    · unfold logUses logUse
      rw [if_pos (h x (List.mem_cons_self ..))]
      exact h1
    · rw [h2, List.count_cons]
      by_cases e : x = (k, r)
      · subst e
        simp
        omega
      · have e1 : ¬ (r = x.2 ∧ k = x.1) := fun ⟨a, b⟩ => e (by rw [a, b])
        have e2 : (x == (k, r)) = false := by simpa using e
        rw [if_neg e1, e2]
        simp
theorem use_inj {a b : Role} (h : use a = use b) : a = b := by cases a <;> cases b <;> first | rfl | cases h
theorem calls_count (l : List Operand) (k : Role) (r : Nat) : (calls l).count (use k, r) = l.count (k, r) := by
  unfold calls
  induction l with
  | nil => rfl
  | cons x t ih =>
    rw [List.map_cons, List.count_cons, List.count_cons, ih]
    congr 1
    by_cases e : x = (k, r)
    · subst e; simp
    · rw [if_neg, if_neg]
      · simpa using e
      · simp only [beq_iff_eq]
        intro h
        injection h with h1 h2
        exact e (Prod.ext (use_inj h1) h2)

theorem pair_ok {r : BitVec 5} {p : W × W} {q q' : St σ} (h : writeRfPair r p q = .ok ((), q')) : r ≠ 31#5 := by
  rintro rfl
  unfold writeRfPair at h
  obtain ⟨_, q1, -, h⟩ := bind_eq_ok.1 h
  rw [if_neg (by decide)] at h
  obtain ⟨_, q2, -, h⟩ := bind_eq_ok.1 h
  cases (show (Res.ub UB.outOfBounds : Res (Unit × St σ)) = _ from h)
/-- the calls for a second result -/
def isPair : Simd.Op → Bool
  | .wmul .. | .txp .. | .widen .. => true
  | _ => false
theorem simd_pair {w : W} {op : Simd.Op} (ho : isPair op = true) {q q' : St σ}
    (h : simdExec E w op q = .ok ((), q')) : IP.rd w ≠ 31#5 := by
  unfold simdExec at h
  obtain ⟨_, _, -, h⟩ := bind_eq_ok.1 h
  obtain ⟨_, _, -, h⟩ := bind_eq_ok.1 h
  obtain ⟨_, _, -, h⟩ := bind_eq_ok.1 h
  cases op <;> first | cases ho | skip
  · obtain ⟨_, _, -, h⟩ := bind_eq_ok.1 h
    exact pair_ok h
  · obtain ⟨_, _, -, h⟩ := bind_eq_ok.1 h
    exact pair_ok h
  · exact pair_ok h
theorem illegal_log (L : List ProfRec) : Pres (fun s : St σ => s.profLog = L) (eIllegal : M σ Unit) :=
  Pres.bind (Pres.get _) fun _ => pres_trap fun _ h => h
theorem exec_pair {q q' : St σ} (h : exec E q = .ok ((), q')) (h3 : IP.opcode q.inst = 0x0b#7) (hl : q'.profLog ≠ q.profLog)
    {op : Simd.Op} (hs : Simd.sel (IP.funct7 q.inst) (IP.funct3 q.inst) = some op) (ho : isPair op = true) :
    IP.rd q.inst ≠ 31#5 := by
  have hc : IP.copcode q.inst = 3#2 := by rw [copcode_opcode, h3]; rfl
  rcases exec_split h with ⟨-, h⟩ | ⟨h0, -⟩ | ⟨h0, -⟩
  · have e : exec32 E q.inst = if E.cfg.simd then dCustom E q.inst else eIllegal := by
      unfold exec32; rw [h3]; rfl
    rw [e] at h
    cases hx : E.cfg.simd with
    | false =>
      rw [hx, if_neg (by decide)] at h
      exact absurd (illegal_log q.profLog _ _ _ rfl h) hl
    | true =>
    rw [hx, if_pos rfl] at h
    unfold dCustom at h
    rw [hs] at h
    obtain ⟨_, _, h, -⟩ := bind_eq_ok.1 h
    exact simd_pair ho h
  · exact absurd hc h0
  · exact absurd hc h0

/-- every register index of a logged instruction is in range -/
theorem uses_lt {q q' : St σ} (hp : E.cfg.profilers = true) (h : exec E q = .ok ((), q')) {r : ProfRec}
    (hr : q'.profLog = r :: q.profLog) : ∀ x ∈ usesOf r, x.2 < 32 := by
  have b : ∀ v : BitVec 5, v.toNat < 32 := fun v => v.isLt
  have hl : q'.profLog ≠ q.profLog := by
    rw [hr]; intro e; have := congrArg List.length e; simp at this
  obtain ⟨hi, -, ⟨h1, -⟩ | ⟨r', h1⟩⟩ := exec_ev hp h
  · exact absurd h1 hl
  have e := h1.log
  rw [hr] at e
  injection e with e
  subst e
  have hn := h1.name
  have hr := h1.inst
  unfold usesOf
  cases he : r.ev
  case simd op =>
    unfold evNamed at hn
    rw [he] at hn
    obtain ⟨n1, n2⟩ := hn
    have hc : IP.copcode r.inst = 3#2 := by rw [copcode_opcode, n1]; rfl
    have hq : r.inst = q.inst := by
      rw [hr, hi]
      split
      · rename_i g
        rw [hr, hi, if_pos g] at hc
        exact absurd (by rw [← hc]; fields [IP.toRvc, IP.copcode]) g.1
      · rfl
    have hp := fun ho => exec_pair h (hq ▸ n1) hl (hq ▸ n2) ho
    rw [← hq] at hp
    intro x hx
    have hp : isPair op = true → (IP.rd r.inst).toNat + 1 < 32 := fun ho => by
      have := hp ho
      have b := b (IP.rd r.inst)
      have : (IP.rd r.inst).toNat ≠ 31 := fun e => this (BitVec.eq_of_toNat_eq e)
      omega
    cases op <;> simp only [simdUses, prd, prdp, prs1, prs2, prs3, List.mem_cons, List.not_mem_nil, or_false] at hx <;>
      rcases hx with rfl | rfl | rfl | rfl <;> first | exact b _ | exact hp rfl
  case c op =>
    intro x hx
    cases op <;> simp only [compUses, prd, List.mem_cons, List.not_mem_nil, or_false] at hx <;>
      rcases hx with rfl | rfl | rfl <;> first | exact b _ | decide
  case csr op =>
    intro x hx
    cases op <;> simp only [prd, prs1, List.mem_cons, List.not_mem_nil, or_false] at hx <;>
      rcases hx with rfl | rfl <;> exact b _
  all_goals
    intro x hx
    simp only [prd, prs1, prs2, List.mem_cons, List.not_mem_nil, or_false] at hx
    try first
      | (rcases hx with rfl | rfl | rfl <;> exact b _)
      | (rcases hx with rfl | rfl <;> exact b _)
      | (subst hx; exact b _)

theorem step_log_lt (hp : E.cfg.profilers = true) {s s' : St σ} (h : step E s = .ok ((), s')) {r : ProfRec}
    (hr : s'.profLog = r :: s.profLog) : ∀ x ∈ usesOf r, x.2 < 32 := by
  have hl : s'.profLog ≠ s.profLog := by
    rw [hr]; intro e; have := congrArg List.length e; simp at this
  have h0 : PreStep s.profLog s.rf s.pc s.simInst { s with trapped := false } := ⟨rfl, rfl, fun _ => rfl, rfl⟩
  rcases step_split h with he | ⟨q0, q1, e1, e2, e3⟩
  · exact absurd (pre_window _ _ _ h0 he).1 hl
  · have h1 := pre_window _ _ _ h0 e1
    obtain ⟨defer, nt, qa, c1, _, hx⟩ := stepExec_split e2
    have h2 : PreStep s.profLog s.rf s.pc s.simInst (wakeSt nt qa) :=
      have := pre_check _ _ _ _ h1 c1
      this
    subst e3
    rw [(finish_log (E := E) q1).1] at hr hl
    rcases hx with ⟨_, _, qc, f1, f2⟩ | ⟨hq, hw⟩
    · have h3 := prof_fetch _ _ _ h2 f1
      exact uses_lt hp f2 (by rw [h3.1]; exact hr)
    · exact absurd (by rw [hq]; exact h2.1) hl

/-- profiling is only switched on by the window or a hint -/
theorem act_src (hp : E.cfg.profilers = true) {s s' : St σ} (h : step E s = .ok ((), s')) (ha : s'.profActive = true) :
    s.profActive = true ∨ windowRst E s = true ∨ ∃ r, s'.profLog = r :: s.profLog ∧ hintRst r = true := by
  by_cases hw : windowRst E s = true
  · exact .inr (.inl hw)
  have hk : ∀ {b q}, profWindow E { s with trapped := false } = .ok (b, q) → q.profActive = true → s.profActive = true := by
    intro b q e hq
    have := (window_app hp e).2.1
    rw [hq] at this
    unfold windowRst at hw
    simp only [hp, Bool.true_and, Bool.or_eq_true, not_or] at hw
    simp only at this
    rw [if_neg hw.1] at this
    split at this
    · cases this
    · exact this.symm
  have h0 : PreStep s.profLog s.rf s.pc s.simInst { s with trapped := false } := ⟨rfl, rfl, fun _ => rfl, rfl⟩
  rcases step_split h with he | ⟨q0, q1, e1, e2, e3⟩
  · exact .inl (hk he ha)
  · have h1 := pre_window _ _ _ h0 e1
    obtain ⟨defer, nt, qa, c1, _, hx⟩ := stepExec_split e2
    let Q : Bool → ProfPc → Prop := fun b _ => b = true → s.profActive = true
    have w2 : Q (wakeSt nt qa).profActive (wakeSt nt qa).profPc :=
      have := win_check Q _ _ _ _ (hk e1) c1
      this
    have h2 : PreStep s.profLog s.rf s.pc s.simInst (wakeSt nt qa) :=
      have := pre_check _ _ _ _ h1 c1
      this
    subst e3
    have hf : (finishSt E q1).profActive = q1.profActive := by
      unfold finishSt finishSt1
      split
      · rfl
      · split
        · rfl
        · split <;> rfl
    rw [hf] at ha
    rcases hx with ⟨_, _, qc, f1, f2⟩ | ⟨hq, _⟩
    · have w3 := win_fetch Q _ _ _ w2 f1
      have h3 := prof_fetch _ _ _ h2 f1
      by_cases g : qc.inst = hintOn ∨ qc.inst = hintOff
      · refine .inr (.inr ?_)
        obtain ⟨k1, k2⟩ := hint_log hp g f2
        obtain ⟨-, -, ⟨h1, -⟩ | ⟨r, h1⟩⟩ := exec_ev hp f2
        · rw [h1] at k1; omega
        · refine ⟨r, by rw [(finish_log (E := E) q1).1, h1.log, h3.1], ?_⟩
          unfold hintRst
          rw [h1.inst, k2]
          rcases g with g | g <;> rw [g] <;> rfl
      · exact .inl (exec_win Q f2 (fun e => g (.inl e)) (fun e => g (.inr e)) w3 ha)
    · subst hq
      exact .inl (w2 ha)

end Ama.ProfRf
