import Verif.Lemmas.ProfTrace
import Verif.Props.Dasm
import Verif.Lemmas.ProfRf
import Verif.Spec.Trace
/-!
# What the trace records of an instruction
-/
namespace Ama.ProfTrace
open M Spec Prof

/-! ## The event of an instruction -/

/-- the event of a compressed instruction that is not a branch -/
def copOf : CInstr → COp
  | .addi4spn .. => .addi4spn | .lw .. => .lw | .sw .. => .sw | .addi .. => .addi | .jal _ => .jal | .li .. => .li
  | .addi16sp _ => .addi16sp | .lui rd _ => if rd = 0#5 then .nop else .lui | .srli .. => .srli | .srai .. => .srai
  | .andi .. => .andi | .alu .sub .. => .sub | .alu .xor .. => .xor | .alu .or .. => .or | .alu .and .. => .and
  | .j _ => .j | .slli .. => .slli | .lwsp .. => .lwsp | .jr _ => .jr | .mv .. => .mv | .ebreak => .ebreak
  | .jalr _ => .jalr | .add .. => .add | .swsp .. => .swsp | .beqz .. | .bnez .. => .nop
/-- C.BEQZ and C.BNEZ -/
def isCB : CInstr → Bool
  | .beqz .. | .bnez .. => true
  | _ => false
variable {rf : BitVec 5 → W} {r : ProfRec}
theorem cev1 (h : evNamed rf r) {w : W} (hi : r.inst = w) {q : BitVec 2} (hq : IP.copcode w = q) (h3 : q ≠ 3#2)
    {f3 : BitVec 3} (hf : IP.cFunct3 w = f3) (hb : ¬ (q = 1#2 ∧ (f3 = 6#3 ∨ f3 = 7#3)))
    {op : COp} (hop : cOp w = some op) : r.ev = .c op := by
  obtain ⟨op', e, e'⟩ := ev_c h hi hq h3 hf hb
  rw [hop] at e'
  cases e'
  exact e
theorem cev (h : evNamed rf r) (i : CInstr) (hl : i.legal) (hi : r.inst = encodeC i) (hb : isCB i ≠ true) :
    r.ev = .c (copOf i) := by
  cases i <;> simp only [encodeC] at hi <;> simp only [CInstr.legal] at hl
  case addi4spn rd imm =>
    have d := decode_CADDI4SPN (scale 10 2 imm) (scale_mod4 10 imm) rd
    exact cev1 h hi d.1 (by decide) d.2.1 (by decide) (op := .addi4spn) (by
      unfold cOp; rw [d.1, d.2.1]; rfl)
  case lw rd rs imm =>
    have d := decode_CLS 2#3 (scale 7 2 imm) (scale_mod4 7 imm) rs rd
    exact cev1 h hi d.1 (by decide) d.2.1 (by decide) (op := .lw) (by
      unfold cOp; rw [d.1, d.2.1]; rfl)
  case sw rd rs imm =>
    have d := decode_CLS 6#3 (scale 7 2 imm) (scale_mod4 7 imm) rs rd
    exact cev1 h hi d.1 (by decide) d.2.1 (by decide) (op := .sw) (by
      unfold cOp; rw [d.1, d.2.1]; rfl)
  case addi rd imm =>
    have d := decode_CI 0#3 imm rd 1#2
    exact cev1 h hi d.1 (by decide) d.2.1 (by decide) (op := .addi) (by
      unfold cOp; rw [d.1, d.2.1]; rfl)
  case jal off =>
    have d := decode_CJ 1#3 (scale 12 1 off) (scale_even 12 off)
    exact cev1 h hi d.1 (by decide) d.2.1 (by decide) (op := .jal) (by
      unfold cOp; rw [d.1, d.2.1]; rfl)
  case j off =>
    have d := decode_CJ 5#3 (scale 12 1 off) (scale_even 12 off)
    exact cev1 h hi d.1 (by decide) d.2.1 (by decide) (op := .j) (by
      unfold cOp; rw [d.1, d.2.1]; rfl)
  case li rd imm =>
    have d := decode_CI 2#3 imm rd 1#2
    exact cev1 h hi d.1 (by decide) d.2.1 (by decide) (op := .li) (by
      unfold cOp; rw [d.1, d.2.1]; rfl)
  case lui rd imm =>
    have d := decode_CI 3#3 imm rd 1#2
    by_cases e : rd = 0#5
    · exact cev1 h hi d.1 (by decide) d.2.1 (by decide) (by
        unfold cOp copOf; rw [d.1, d.2.1, d.2.2.1]; simp [e])
    · exact cev1 h hi d.1 (by decide) d.2.1 (by decide) (by
        unfold cOp copOf; rw [d.1, d.2.1, d.2.2.1]; simp [e, hl.1])
  case addi16sp imm =>
    have d := decode_CADDI16SP (scale 10 4 imm) (scale_mod16 10 imm)
    exact cev1 h hi d.1 (by decide) d.2.1 (by decide) (op := .addi16sp) (by
      unfold cOp; rw [d.1, d.2.1, d.2.2.1]; rfl)
  case srli rd sh =>
    have d := decode_CBA 0#2 (sh.setWidth 6) rd
    exact cev1 h hi d.1 (by decide) d.2.1 (by decide) (op := .srli) (by
      unfold cOp; rw [d.1, d.2.1, d.2.2.1]; rfl)
  case srai rd sh =>
    have d := decode_CBA 1#2 (sh.setWidth 6) rd
    exact cev1 h hi d.1 (by decide) d.2.1 (by decide) (op := .srai) (by
      unfold cOp; rw [d.1, d.2.1, d.2.2.1]; rfl)
  case andi rd sh =>
    have d := decode_CBA 2#2 (sh) rd
    exact cev1 h hi d.1 (by decide) d.2.1 (by decide) (op := .andi) (by
      unfold cOp; rw [d.1, d.2.1, d.2.2.1]; rfl)
  case alu op rd rs =>
    obtain ⟨d1, d2, d3, d4, d5, d6, d7, -⟩ := decode_CA 0x23#6 rd (caluF op) rs
    cases op
    · exact cev1 h hi d1 (by decide) d6 (by decide) (op := .sub) (by unfold cOp; rw [d1, d6, d7, d2, d3]; rfl)
    · exact cev1 h hi d1 (by decide) d6 (by decide) (op := .xor) (by unfold cOp; rw [d1, d6, d7, d2, d3]; rfl)
    · exact cev1 h hi d1 (by decide) d6 (by decide) (op := .or) (by unfold cOp; rw [d1, d6, d7, d2, d3]; rfl)
    · exact cev1 h hi d1 (by decide) d6 (by decide) (op := .and) (by unfold cOp; rw [d1, d6, d7, d2, d3]; rfl)
  case beqz rs off => exact (hb rfl).elim
  case bnez rs off => exact (hb rfl).elim
  case slli rd sh =>
    have d := decode_CI 0#3 (sh.setWidth 6) rd 2#2
    exact cev1 h hi d.1 (by decide) d.2.1 (by decide) (op := .slli) (by
      unfold cOp; rw [d.1, d.2.1]; rfl)
  case lwsp rd imm =>
    have d := decode_CLWSP (scale 8 2 imm) (scale_mod4 8 imm) rd
    exact cev1 h hi d.1 (by decide) d.2.1 (by decide) (op := .lwsp) (by
      unfold cOp; rw [d.1, d.2.1]; rfl)
  case swsp rs imm =>
    have d := decode_CSWSP (scale 8 2 imm) (scale_mod4 8 imm) rs
    exact cev1 h hi d.1 (by decide) d.2.1 (by decide) (op := .swsp) (by
      unfold cOp; rw [d.1, d.2.1]; rfl)
  case jr rs =>
    have d := decode_CR 8#4 rs 0#5
    exact cev1 h hi d.1 (by decide) d.2.2.1 (by decide) (op := .jr) (by
      unfold cOp; rw [d.1, d.2.2.1, d.2.1, d.2.2.2.2.1]; rfl)
  case mv rd rs =>
    have d := decode_CR 8#4 rd rs
    exact cev1 h hi d.1 (by decide) d.2.2.1 (by decide) (op := .mv) (by
      unfold cOp; rw [d.1, d.2.2.1, d.2.1, d.2.2.2.2.1]
      show (if _ then _ else _) = _
      rw [if_neg hl])
  case ebreak =>
    have d := decode_CR 9#4 0#5 0#5
    exact cev1 h hi d.1 (by decide) d.2.2.1 (by decide) (op := .ebreak) (by
      unfold cOp; rw [d.1, d.2.2.1, d.2.1, d.2.2.2.2.1, d.2.2.2.1]; rfl)
  case jalr rs =>
    have d := decode_CR 9#4 rs 0#5
    exact cev1 h hi d.1 (by decide) d.2.2.1 (by decide) (op := .jalr) (by
      unfold cOp; rw [d.1, d.2.2.1, d.2.1, d.2.2.2.2.1, d.2.2.2.1]
      show (if _ then _ else if _ then _ else _) = _
      rw [if_neg (fun e => hl e.2), if_pos rfl])
  case add rd rs =>
    have d := decode_CR 9#4 rd rs
    exact cev1 h hi d.1 (by decide) d.2.2.1 (by decide) (op := .add) (by
      unfold cOp; rw [d.1, d.2.2.1, d.2.1, d.2.2.2.2.1, d.2.2.2.1]
      show (if _ then _ else if _ then _ else _) = _
      rw [if_neg (fun e => hl e.1), if_neg hl])


/-- major opcode of an instruction -/
def majOpc : Instr → BitVec 7
  | .alu .. => 0x33#7 | .alui .. | .shift .. => 0x13#7 | .lui .. => 0x37#7 | .auipc .. => 0x17#7 | .load .. => 0x03#7
  | .store .. => 0x23#7 | .branch .. => 0x63#7 | .jal .. => 0x6f#7 | .jalr .. => 0x67#7
  | .ecall | .ebreak | .mret | .wfi => 0x73#7 | .fence .. | .fencei => 0x0f#7
theorem opcode_encode (i : Instr) : IP.opcode (encode i) = majOpc i := by
  cases i <;> simp only [encode, majOpc]
  case alu => exact (decode_R ..).1
  case alui => exact (decode_I ..).1
  case shift => exact (decode_R ..).1
  case lui => exact (decode_U ..).1
  case auipc => exact (decode_U ..).1
  case load => exact (decode_I ..).1
  case store => exact (decode_S ..).1
  case branch => exact (decode_B _ (by simp [dbl]) ..).1
  case jal => exact (decode_J _ (by simp [dbl]) ..).1
  case jalr => exact (decode_I ..).1
  case fence => exact (decode_I ..).1
  all_goals rfl
theorem majOpc3 (i : Instr) : (majOpc i).setWidth 2 = 3#2 := by cases i <;> (simp only [majOpc]; decide)
theorem ev_base (h : evNamed rf r) (i : Instr) (hi : r.inst = encode i) : evOpc r.ev = some (majOpc i) :=
  ev_at h hi (opcode_encode i) (majOpc3 i)
theorem ev_csr (h : evNamed rf r) (a : BitVec 12) (rs1 rd : BitVec 5) (f3 : BitVec 3) (hi : r.inst = encI a rs1 f3 rd 0x73#7) :
    evOpc r.ev = some 0x73#7 := ev_at h hi (decode_I ..).1 rfl
theorem opcode_low (w : W) : IP.opcode w = w.setWidth 7 := by
  apply BitVec.eq_of_toNat_eq
  simp only [IP.opcode, BitVec.toNat_setWidth, BitVec.toNat_and]
  rw [show (0x7f#32).toNat = 2 ^ 7 - 1 from rfl, Nat.and_two_pow_sub_one_eq_mod]
  omega
theorem ev_custom (h : evNamed rf r) (hi : r.inst.setWidth 7 = 0x0b#7) : evOpc r.ev = some 0x0b#7 :=
  ev_at h rfl ((opcode_low _).trans hi) rfl

theorem taken_no {o : BitVec 7} (h : evOpc r.ev = some o) (h1 : o ≠ 0x63#7) (h2 : o ≠ 0x6f#7) (h3 : o ≠ 0x67#7) :
    takenCall r = false := by
  unfold takenCall
  cases he : r.ev <;> rw [he] at h <;> simp only [evOpc, Option.some.injEq, reduceCtorEq] at h
  case branch => exact absurd h.symm h1
  case jal => exact absurd h.symm h2
  case jalr => exact absurd h.symm h3
theorem taken_jal (h : evOpc r.ev = some 0x6f#7) : takenCall r = true := by
  unfold takenCall
  cases he : r.ev <;> rw [he] at h <;> simp [evOpc] at h
theorem taken_jalr (h : evOpc r.ev = some 0x67#7) : takenCall r = true := by
  unfold takenCall
  cases he : r.ev <;> rw [he] at h <;> simp [evOpc] at h
theorem rx_eq (h0 : rf 0#5 = 0#32) (x : BitVec 5) : rx rf x = rf x := by
  unfold rx; split
  · rename_i hx; rw [hx, h0]
  · rfl
theorem taken_branch (h : evNamed rf r) (h0 : rf 0#5 = 0#32) (op : BranchOp) (rs1 rs2 : BitVec 5) (off : BitVec 12)
    (hi : r.inst = encode (.branch op rs1 rs2 off)) : takenCall r = taken op (rx rf rs1) (rx rf rs2) := by
  have e := ev_base h _ hi
  have d := decode_B (dbl off) (by simp [dbl]) rs2 rs1 (branchF op) 0x63#7
  unfold evNamed at h
  cases he : r.ev <;> rw [he] at e h <;> try (simp [evOpc, majOpc] at e; done)
  simp only [hi, encode, d] at h
  rw [branchSel_enc] at h
  obtain ⟨-, h, ht, hn⟩ := h
  cases h
  unfold takenCall
  rw [he, rx_eq h0, rx_eq h0, ← br_cond, ← ht]
theorem off_two (off : BitVec 8) (h : (scale 9 1 off).signExtend 32 = 2#32) : off = 1#8 := by
  revert off; decide +kernel
theorem jump_away {pc : W} {off : BitVec 8} (h : off ≠ 1#8) : (pc + (scale 9 1 off).signExtend 32 != pc + 2#32) = true := by
  simp only [bne_iff_ne, ne_eq]
  intro e
  exact h (off_two off (by bv_omega))
theorem creg_nz (x : BitVec 3) : creg x ≠ 0#5 := by revert x; decide
theorem rx_creg (x : BitVec 3) : rx rf (creg x) = rf (creg x) := if_neg (creg_nz x)
theorem taken_beqz (h : evNamed rf r) {rs : BitVec 3} {off : BitVec 8} (ho : off ≠ 1#8)
    (hi : r.inst = encodeC (.beqz rs off)) : takenCall r = taken .beq (rx rf (creg rs)) (rx rf 0#5) := by
  simp only [encodeC] at hi
  have d := decode_CB 6#3 (scale 9 1 off) (scale_even 9 off) rs
  have hv := ev_cb h hi d.1 (.inl d.2.1)
  unfold evNamed at h
  rcases hv with ⟨t, e⟩ | ⟨t, e⟩ <;> rw [e] at h <;> simp only at h
  · obtain ⟨-, h1, h2⟩ := h
    rw [hi] at h1 h2
    rw [d.2.2.2.1] at h2
    rw [d.2.1, d.2.2.1] at h1
    rcases h1 with ⟨-, rfl⟩ | ⟨h1, -⟩
    · unfold takenCall
      rw [e]
      simp only
      rw [h2, rx_creg]
      by_cases hz : rf (creg rs) = 0#32
      · simp [hz, jump_away ho, taken, rx]
      · simp [hz, taken, rx]
    · exact absurd h1 (by decide)
  · rw [hi, d.2.1] at h
    exact absurd h.2.1 (by decide)
theorem taken_bnez (h : evNamed rf r) {rs : BitVec 3} {off : BitVec 8} (ho : off ≠ 1#8)
    (hi : r.inst = encodeC (.bnez rs off)) : takenCall r = taken .bne (rx rf (creg rs)) (rx rf 0#5) := by
  simp only [encodeC] at hi
  have d := decode_CB 7#3 (scale 9 1 off) (scale_even 9 off) rs
  have hv := ev_cb h hi d.1 (.inr d.2.1)
  unfold evNamed at h
  rcases hv with ⟨t, e⟩ | ⟨t, e⟩ <;> rw [e] at h <;> simp only at h
  · obtain ⟨-, h1, h2⟩ := h
    rw [hi, d.2.1, d.2.2.1] at h1
    rcases h1 with ⟨h1, -⟩ | ⟨-, rfl, h1⟩
    · exact absurd h1 (by decide)
    · unfold takenCall
      rw [e]
      simp only
      rw [h2, rx_creg]
      simp [h1, taken, rx]
  · obtain ⟨-, -, rfl, h1, h2⟩ := h
    rw [hi, d.2.2.1] at h1
    rw [hi, d.2.2.2.1] at h2
    unfold takenCall
    rw [e]
    simp only
    rw [h2, rx_creg, jump_away ho]
    simp [h1, taken, rx]
/-- the compressed jumps -/
def cjump : COp → Bool
  | .j | .jal | .jr | .jalr => true
  | _ => false
theorem taken_c {op : COp} (h : r.ev = .c op) : takenCall r = cjump op := by
  have : takenCall r = takenCall { r with ev := .c op } := by rw [← h]
  rw [this]
  cases op <;> rfl

/-- a compressed branch to the next instruction -/
def NextBranch (w : W) : Prop := ∃ rs, w = encodeC (.beqz rs 1#8) ∨ w = encodeC (.bnez rs 1#8)
theorem taken_ok (h : evNamed rf r) (h0 : rf 0#5 = 0#32) {m : Option Instr} (hm : Meaning r.inst m) (hx : ¬ NextBranch r.inst) :
    takenCall r = m.elim false (transfers rf) := by
  generalize hw : r.inst = w at hm hx
  cases hm with
  | base i =>
    have e := ev_base h i hw
    cases i
    case branch op rs1 rs2 off => exact taken_branch h h0 op rs1 rs2 off hw
    case jal => exact taken_jal e
    case jalr => exact taken_jalr e
    all_goals exact taken_no e (by simp only [majOpc]; decide) (by simp only [majOpc]; decide) (by simp only [majOpc]; decide)
  | comp i hl =>
    cases i
    case beqz rs off => exact taken_beqz h (fun e => hx ⟨rs, .inl (by rw [e])⟩) hw
    case bnez rs off => exact taken_bnez h (fun e => hx ⟨rs, .inr (by rw [e])⟩) hw
    case alu op _ _ => rw [taken_c (cev h _ hl hw (by simp [isCB]))]; cases op <;> rfl
    case lui rd _ =>
      rw [taken_c (cev h _ hl hw (by simp [isCB]))]
      unfold copOf
      by_cases e : rd = 0#5 <;> simp [e, transfers, expand, cjump]
    all_goals
      rw [taken_c (cev h _ hl hw (by simp [isCB]))]
      rfl
  | csr a rs1 rd f3 hf => exact taken_no (ev_csr h a rs1 rd f3 hw) (by decide) (by decide) (by decide)
  | custom _ hc => exact taken_no (ev_custom h (by rw [hw]; exact hc)) (by decide) (by decide) (by decide)

/-! ## Data accesses -/

/-- the meaning of the access fields of an entry -/
def accOf (z : DSize) (a : W) : Option Access :=
  match z with
  | .lb => some ⟨false, 1, a⟩ | .lh => some ⟨false, 2, a⟩ | .lw => some ⟨false, 4, a⟩
  | .sb => some ⟨true, 1, a⟩ | .sh => some ⟨true, 2, a⟩ | .sw => some ⟨true, 4, a⟩
  | .noAccess => none


open Dasm (cop_encode cop_encodeC)
theorem dmem_base (h0 : rf 0#5 = 0#32) (i : Instr) :
    (dmemCall (encode i) rf).bind (fun d => accOf d.1 d.2) = access rf i ∧ (access rf i = none → dmemCall (encode i) rf = none) := by
  unfold dmemCall
  rw [if_neg (by simp [cop_encode])]
  cases i
  case load op rd rs1 imm =>
    have d := decode_I imm rs1 (loadF op) rd 0x03#7
    simp only [encode, d, if_true, loadSel_enc, access, rx_eq h0]
    cases op <;> exact ⟨rfl, fun h => by cases h⟩
  case store op rs2 rs1 imm =>
    have d := decode_S imm rs2 rs1 (storeF op) 0x23#7
    simp only [encode, d, storeSel_enc, access, rx_eq h0]
    rw [if_neg (by decide), if_pos trivial]
    cases op <;> exact ⟨rfl, fun h => by cases h⟩
  all_goals
    rw [opcode_encode, if_neg (by simp only [majOpc]; decide), if_neg (by simp only [majOpc]; decide)]
    exact ⟨rfl, fun _ => rfl⟩
theorem dmem_comp {w : W} (h : IP.copcode w ≠ 3#2) : dmemCall w rf = none := if_pos h
theorem dmem_opc {w : W} {o : BitVec 7} (h : IP.opcode w = o) (h1 : o ≠ 0x03#7) (h2 : o ≠ 0x23#7) : dmemCall w rf = none := by
  unfold dmemCall
  split
  · rfl
  · rw [if_neg (h ▸ h1), if_neg (h ▸ h2)]
/-- an instruction that accesses no data reports no access -/
theorem dmem_none (h0 : rf 0#5 = 0#32) {w : W} {m : Option Instr} (hm : Meaning w m) (ha : m.bind (access rf) = none) :
    dmemCall w rf = none := by
  cases hm with
  | base i => exact (dmem_base h0 i).2 ha
  | comp i _ => exact dmem_comp (cop_encodeC i)
  | csr a rs1 rd f3 _ => exact dmem_opc (decode_I a rs1 f3 rd 0x73#7).1 (by decide) (by decide)
  | custom _ h => exact dmem_opc ((opcode_low _).trans h) (by decide) (by decide)

/-! ## Stack accesses -/

theorem badStore_no {w : W} {m : Option Instr} (hm : Meaning w m) : badStore w = false := by
  have ho : ∀ {o : BitVec 7}, IP.opcode w = o → o ≠ 0x23#7 → badStore w = false := fun h h1 => by
    unfold badStore
    rw [show (IP.opcode w == 0x23#7) = false by simpa [h] using h1]
    simp
  cases hm with
  | base i =>
    cases i
    case store op rs2 rs1 imm =>
      unfold badStore
      have d := decode_S imm rs2 rs1 (storeF op) 0x23#7
      simp only [encode, d, storeSel_enc]
      simp
    all_goals exact ho (opcode_encode _) (by simp only [majOpc]; decide)
  | comp i _ =>
    unfold badStore
    rw [show (IP.copcode (encodeC i) == 3#2) = false by simpa using cop_encodeC i]
    rfl
  | csr a rs1 rd f3 _ => exact ho (decode_I a rs1 f3 rd 0x73#7).1 (by decide)
  | custom _ h => exact ho ((opcode_low _).trans h) (by decide)
theorem stack_no {rf1 : BitVec 5 → W} {o : BitVec 7} (h : evOpc r.ev = some o) (h1 : o ≠ 0x03#7) (h2 : o ≠ 0x23#7) :
    stackCall r rf rf1 = none := by
  unfold stackCall
  cases he : r.ev <;> rw [he] at h <;> simp only [evOpc, Option.some.injEq, reduceCtorEq] at h
  case load => exact absurd h.symm h1
  case store => exact absurd h.symm h2
theorem stack_load {rf1 : BitVec 5 → W} (h : evOpc r.ev = some 0x03#7) : stackCall r rf rf1 =
    some (false, decide (rf1 2#5 < rf (IP.rs1 r.inst) + IP.immI r.inst)) := by
  unfold stackCall
  cases he : r.ev <;> rw [he] at h <;> simp [evOpc] at h
theorem stack_store {rf1 : BitVec 5 → W} (h : evOpc r.ev = some 0x23#7) : stackCall r rf rf1 =
    some (true, decide (rf1 2#5 < rf1 (IP.rs1 r.inst) + IP.immS r.inst)) := by
  unfold stackCall
  cases he : r.ev <;> rw [he] at h <;> simp [evOpc] at h
/-- the compressed loads and stores -/
def cmem : COp → Bool
  | .lw | .lwsp | .sw | .swsp => true
  | _ => false
theorem stack_c {rf1 : BitVec 5 → W} {op : COp} (h : r.ev = .c op) (ho : cmem op = false) : stackCall r rf rf1 = none := by
  have : stackCall r rf rf1 = stackCall { r with ev := .c op } rf rf1 := by rw [← h]
  rw [this]
  cases op <;> first | rfl | cases ho

variable {σ : Type} {E : Env σ}
/-- the register a load writes -/
def loadsInto (j : BitVec 5) : Instr → Prop
  | .load _ rd _ _ => rd = j
  | _ => False
/-- not C.LWSP into the stack pointer -/
def NoReload (w : W) (m : Option Instr) : Prop := IP.copcode w = 3#2 ∨ ∀ i, m = some i → ¬ loadsInto 2#5 i
theorem rf_store {qc q1 : St σ} {op : StoreOp} {rs2 rs1 : BitVec 5} {imm : BitVec 12} (he : exec E qc = .ok ((), q1))
    (ht : q1.trapped = false) (hw : q1.inst = encode (.store op rs2 rs1 imm)) : q1.rf = qc.rf := by
  rcases Dasm.exec_word he ht with ⟨_, hx⟩ | ⟨hx, _⟩
  · rw [hw] at hx
    exact Dasm.store_rf (opcode_encode (.store op rs2 rs1 imm)) hx
  · rw [hw] at hx; exact absurd (cop_encode _) hx

theorem rf_c {qc q1 : St σ} {m : M σ Unit} {w : W} (he : exec E qc = .ok ((), q1)) (ht : q1.trapped = false)
    (hw : q1.inst = w) (hc : IP.copcode w ≠ 3#2) (hm : exec16 E w = m) {j : BitVec 5}
    (hf : ∀ v, Pres (Dasm.Fr j v : St σ → Prop) m) : q1.rf j = qc.rf j := by
  have hx := Dasm.exec_word16 he (by rw [hw]; exact hc) ht
  rw [hw, hm] at hx
  exact hf (qc.rf j) { qc with inst := w } _ _ rfl hx
/-- the stack call of a retired instruction -/
theorem stack_ok {qc q1 : St σ} (he : exec E qc = .ok ((), q1)) (ht : q1.trapped = false) (h : evNamed qc.rf r)
    (hi : r.inst = q1.inst) (h0 : qc.rf 0#5 = 0#32) {m : Option Instr} (hm : Meaning q1.inst m) (hx : NoReload q1.inst m) :
    stackCall r qc.rf q1.rf = (m.bind (access qc.rf)).map fun a => (a.store, decide (q1.rf 2#5 < a.addr)) := by
  generalize hw : q1.inst = w at hm hx
  rw [hw] at hi
  cases hm with
  | base i =>
    have e := ev_base h i hi
    cases i
    case load op rd rs1 imm =>
      have d := decode_I imm rs1 (loadF op) rd 0x03#7
      rw [stack_load e, hi]
      simp only [encode, d, Option.bind_some, access, Option.map_some, rx_eq h0]
    case store op rs2 rs1 imm =>
      have d := decode_S imm rs2 rs1 (storeF op) 0x23#7
      rw [stack_store e, hi]
      rw [rf_store he ht hw]
      simp only [encode, d, Option.bind_some, access, Option.map_some, rx_eq h0]
    all_goals exact stack_no e (by simp only [majOpc]; decide) (by simp only [majOpc]; decide)
  | comp i hl =>
    cases i
    case beqz rs off =>
      have d := decode_CB 6#3 (scale 9 1 off) (scale_even 9 off) rs
      rcases ev_cb h hi d.1 (.inl d.2.1) with ⟨t, e⟩ | ⟨t, e⟩ <;> · unfold stackCall; rw [e]; rfl
    case bnez rs off =>
      have d := decode_CB 7#3 (scale 9 1 off) (scale_even 9 off) rs
      rcases ev_cb h hi d.1 (.inr d.2.1) with ⟨t, e⟩ | ⟨t, e⟩ <;> · unfold stackCall; rw [e]; rfl
    case lw rd rs imm =>
      have d := decode_CLS 2#3 (scale 7 2 imm) (scale_mod4 7 imm) rs rd
      have e := cev h _ hl hi (by simp [isCB])
      unfold stackCall
      rw [e, hi]
      simp only [copOf, encodeC, d, expand, Option.bind_some, access, Option.map_some, rx_eq h0, immLw]
    case sw rs2 rs imm =>
      have d := decode_CLS 6#3 (scale 7 2 imm) (scale_mod4 7 imm) rs rs2
      have e := cev h _ hl hi (by simp [isCB])
      have hr : ∀ j, q1.rf j = qc.rf j := fun j => rf_c he ht hw (cop_encodeC _) (sel_sw rs2 rs imm) fun v =>
        Dasm.fr_cStore _
      unfold stackCall
      rw [e, hi]
      simp only [copOf, encodeC, d, expand, Option.bind_some, access, Option.map_some, rx_eq h0, immLw, hr]
    case lwsp rd imm =>
      have d := decode_CLWSP (scale 8 2 imm) (scale_mod4 8 imm) rd
      have e := cev h _ hl hi (by simp [isCB])
      have hr : q1.rf 2#5 = qc.rf 2#5 := rf_c he ht hw (cop_encodeC _) (sel_lwsp rd imm) fun v =>
        Dasm.fr_cLoad (.inl fun e => (hx.resolve_left (cop_encodeC _)) _ rfl e.symm) _
      unfold stackCall
      rw [e, hi]
      simp only [copOf, encodeC, d, expand, Option.bind_some, access, Option.map_some, rx_eq h0, immLwsp, hr]
    case swsp rs2 imm =>
      have d := decode_CSWSP (scale 8 2 imm) (scale_mod4 8 imm) rs2
      have e := cev h _ hl hi (by simp [isCB])
      have hr : ∀ j, q1.rf j = qc.rf j := fun j => rf_c he ht hw (cop_encodeC _) (sel_swsp rs2 imm) fun v =>
        Dasm.fr_cStore _
      unfold stackCall
      rw [e, hi]
      simp only [copOf, encodeC, d, expand, Option.bind_some, access, Option.map_some, rx_eq h0, immLwsp, hr]
    case alu op _ _ =>
      rw [stack_c (cev h _ hl hi (by simp [isCB])) (by cases op <;> rfl)]
      rfl
    case lui rd _ =>
      rw [stack_c (cev h _ hl hi (by simp [isCB])) (by simp only [copOf]; split <;> rfl)]
      rfl
    all_goals
      rw [stack_c (cev h _ hl hi (by simp [isCB])) rfl]
      rfl
  | csr a rs1 rd f3 hf => exact stack_no (ev_csr h a rs1 rd f3 hi) (by decide) (by decide)
  | custom _ hc => exact stack_no (ev_custom h (by rw [hi]; exact hc)) (by decide) (by decide)
/-- a load or store leaves every register alone but the one a load writes -/
theorem sp_keep {qc q1 : St σ} (he : exec E qc = .ok ((), q1)) (ht : q1.trapped = false) {i : Instr}
    (hm : Meaning q1.inst (some i)) {a : Access} (ha : access qc.rf i = some a) {j : BitVec 5} (hj : ¬ loadsInto j i) :
    q1.rf j = qc.rf j := by
  generalize hw : q1.inst = w at hm
  cases hm with
  | base i =>
    cases i
    case load op rd rs1 imm =>
      have d := decode_I imm rs1 (loadF op) rd 0x03#7
      rcases Dasm.exec_word he ht with ⟨_, hx⟩ | ⟨hx, _⟩
      · rw [hw] at hx
        have e : exec32 E (encode (.load op rd rs1 imm)) = dLoad E (encode (.load op rd rs1 imm)) := by
          unfold exec32; rw [opcode_encode]; rfl
        rw [e] at hx
        exact Dasm.fr_load (.inl fun e => hj (by rw [encode, d.2.1] at e; exact e.symm)) _ _ _ rfl hx
      · rw [hw] at hx; exact absurd (cop_encode _) hx
    case store => rw [rf_store he ht hw]
    all_goals cases ha
  | comp i hl =>
    cases i
    case lw rd rs imm =>
      exact rf_c he ht hw (cop_encodeC _) (sel_lw rd rs imm) fun v => Dasm.fr_cLoad (.inl fun e => hj e.symm) _
    case lwsp rd imm =>
      exact rf_c he ht hw (cop_encodeC _) (sel_lwsp rd imm) fun v => Dasm.fr_cLoad (.inl fun e => hj e.symm) _
    case sw rs2 rs imm => exact rf_c he ht hw (cop_encodeC _) (sel_sw rs2 rs imm) fun v => Dasm.fr_cStore _
    case swsp rs2 imm => exact rf_c he ht hw (cop_encodeC _) (sel_swsp rs2 imm) fun v => Dasm.fr_cStore _
    all_goals cases ha


/-! ## Loads and stores that trap make no stack call -/

/-- `m` logs nothing if it traps -/
def TLog (m : M σ Unit) : Prop := ∀ s s', m s = .ok ((), s') → s'.trapped = true → s'.profLog = s.profLog
theorem tl_unless {m : M σ Unit} (h : Pres (fun s : St σ => s.trapped = false) m) {s1 s' : St σ}
    (e : (do let t ← M.get (·.trapped); if t then pure () else m : M σ Unit) s1 = .ok ((), s')) (ht : s'.trapped = true) :
    s' = s1 := by
  rw [M.bind_ok (M.get_app _ _)] at e
  by_cases h1 : s1.trapped = true
  · rw [if_pos h1] at e
    injection e with e; injection e with _ e
    exact e.symm
  · rw [if_neg h1] at e
    exact absurd (show s'.trapped = false from h _ _ _ (by simpa using h1) e) (by simp [ht])
theorem tr_wr (r : BitVec 5) (x : W) : Pres (fun s : St σ => s.trapped = false) (writeRf r x) :=
  Pres.ite (Pres.pure _) (Pres.mod fun _ h => h)
theorem tr_end (ev : ProfEv) (x : W) : Pres (fun s : St σ => s.trapped = false) (do emit E ev; nextSeq x) :=
  Pres.bind (Pres.ite (Pres.mod fun _ h => h) (Pres.pure _)) fun _ => Pres.mod fun _ h => h
theorem tl_ill (E : Env σ) : TLog (eIllegal : M σ Unit) := fun s _ h _ =>
  ((Pres.bind (Pres.get _) fun _ => (pre_primsM E s.profLog s.inst).trap _ _ :
    Pres (EPre s.profLog s.inst) (eIllegal : M σ Unit)) _ _ _ ⟨rfl, rfl⟩ h).1
theorem tl_load (w : W) : TLog (dLoad E w : M σ Unit) := fun s s' h ht => by
  unfold dLoad at h
  cases hs : loadSel (IP.funct3 w) with
  | none => rw [hs] at h; exact tl_ill E s s' h ht
  | some op =>
    rw [hs] at h
    obtain ⟨b, s1, e1, h⟩ := bind_eq_ok.1 h
    obtain ⟨v, s2, e2, h⟩ := bind_eq_ok.1 h
    have h1 : EPre s.profLog s.inst s1 := Pres.get _ _ _ _ ⟨rfl, rfl⟩ e1
    have h2 : EPre s.profLog s.inst s2 := by
      have hm := pre_primsM E s.profLog s.inst
      refine (?_ : Pres (EPre s.profLog s.inst) (loadVal E op (b + IP.immI w))) _ _ _ h1 e2
      cases op
      · exact Pres.bind (hm.memRd _ _) fun _ => Pres.pure _
      · exact Pres.bind (hm.memRd _ _) fun _ => Pres.pure _
      all_goals exact hm.memRd _ _
    rw [tl_unless (Pres.bind (tr_wr _ _) fun _ => tr_end _ _) h ht, h2.1]
theorem tl_store (w : W) : TLog (dStore E w : M σ Unit) := fun s s' h ht => by
  unfold dStore at h
  cases hs : storeSel (IP.funct3 w) with
  | none =>
    rw [hs] at h
    obtain ⟨_, s1, e1, h⟩ := bind_eq_ok.1 h
    have h1 : EPre s.profLog s.inst s1 :=
      (Pres.bind (Pres.get _) fun _ => (pre_primsM E s.profLog s.inst).trap _ _ :
        Pres (EPre s.profLog s.inst) (eIllegal : M σ Unit)) _ _ _ ⟨rfl, rfl⟩ e1
    exact ((Pres.mod fun _ h => h : Pres (EPre s.profLog s.inst) (nextSeq 4#32 : M σ Unit)) _ _ _ h1 h).1
  | some op =>
    rw [hs] at h
    obtain ⟨b, s1, e1, h⟩ := bind_eq_ok.1 h
    obtain ⟨d, s2, e2, h⟩ := bind_eq_ok.1 h
    obtain ⟨_, s3, e3, h⟩ := bind_eq_ok.1 h
    have h1 : EPre s.profLog s.inst s1 := Pres.get _ _ _ _ ⟨rfl, rfl⟩ e1
    have h2 : EPre s.profLog s.inst s2 := Pres.get _ _ _ _ h1 e2
    have h3 : EPre s.profLog s.inst s3 := (pre_primsM E s.profLog s.inst).memWr _ _ _ _ _ _ h2 e3
    rw [tl_unless (tr_end _ _) h ht, h3.1]
theorem tl_cLoad (op : COp) (a b : BitVec 5) (o : W) : TLog (cLoad E op a b o : M σ Unit) := fun s s' h ht => by
  unfold cLoad at h
  obtain ⟨b, s1, e1, h⟩ := bind_eq_ok.1 h
  obtain ⟨v, s2, e2, h⟩ := bind_eq_ok.1 h
  have h1 : EPre s.profLog s.inst s1 := Pres.get _ _ _ _ ⟨rfl, rfl⟩ e1
  have h2 : EPre s.profLog s.inst s2 := (pre_primsM E s.profLog s.inst).memRd _ _ _ _ _ h1 e2
  rw [tl_unless (Pres.bind (tr_wr _ _) fun _ => tr_end _ _) h ht, h2.1]
theorem tl_cStore (op : COp) (a b : BitVec 5) (o : W) : TLog (cStore E op a b o : M σ Unit) := fun s s' h ht => by
  unfold cStore at h
  obtain ⟨b, s1, e1, h⟩ := bind_eq_ok.1 h
  obtain ⟨d, s2, e2, h⟩ := bind_eq_ok.1 h
  obtain ⟨_, s3, e3, h⟩ := bind_eq_ok.1 h
  have h1 : EPre s.profLog s.inst s1 := Pres.get _ _ _ _ ⟨rfl, rfl⟩ e1
  have h2 : EPre s.profLog s.inst s2 := Pres.get _ _ _ _ h1 e2
  have h3 : EPre s.profLog s.inst s3 := (pre_primsM E s.profLog s.inst).memWr _ _ _ _ _ _ h2 e3
  rw [tl_unless (tr_end _ _) h ht, h3.1]
theorem cmem_where {w : W} {op : COp} (h : cOp w = some op) (hm : cmem op = true) :
    (IP.copcode w = 0#2 ∨ IP.copcode w = 2#2) ∧ (IP.cFunct3 w = 2#3 ∨ IP.cFunct3 w = 6#3) := by
  unfold cOp at h
  repeat' split at h
  all_goals first
    | (cases h; cases hm; done)
    | (cases h; refine ⟨by simp_all, by simp_all⟩)
    | cases h
theorem tl_16 {w : W} {op : COp} (h : cOp w = some op) (hm : cmem op = true) : TLog (exec16 E w : M σ Unit) := by
  obtain ⟨e | e, f | f⟩ := cmem_where h hm
  · rw [show exec16 E w = cLoad E .lw (IP.cRegh w) (IP.cRegl w) (IP.cImmMem w) by
      unfold exec16 dCompressed0; rw [e, f]; rfl]
    exact tl_cLoad _ _ _ _
  · rw [show exec16 E w = cStore E .sw (IP.cRegh w) (IP.cRegl w) (IP.cImmMem w) by
      unfold exec16 dCompressed0; rw [e, f]; rfl]
    exact tl_cStore _ _ _ _
  · rw [show exec16 E w = cLoad E .lwsp 2#5 (IP.rd w) (IP.cImmLwsp w) by
      unfold exec16 dCompressed2; rw [e, f]; rfl]
    exact tl_cLoad _ _ _ _
  · rw [show exec16 E w = cStore E .swsp 2#5 (IP.cRs2 w) (IP.cImmSwsp w) by
      unfold exec16 dCompressed2; rw [e, f]; rfl]
    exact tl_cStore _ _ _ _
theorem stack_trap (hp : E.cfg.profilers = true) {qc q1 : St σ} (he : exec E qc = .ok ((), q1)) (ht : q1.trapped = true)
    (hr : newRec qc q1 = some r) (rf0 rf1 : BitVec 5 → W) : stackCall r rf0 rf1 = none := by
  have hn : q1.profLog ≠ qc.profLog := fun e => by
    unfold newRec at hr
    rw [e, if_pos rfl] at hr
    cases hr
  obtain ⟨e1, -, ⟨e, -⟩ | ⟨r', hg⟩⟩ := exec_ev hp he
  · exact absurd e hn
  have hrr : r' = r := by
    unfold newRec at hr
    rw [hg.log, if_neg (by simp)] at hr
    exact Option.some.inj hr
  subst hrr
  have hi := hg.inst
  have hv := hg.name
  clear hr
  unfold evNamed at hv
  have n16 : IP.copcode q1.inst ≠ 3#2 → ∀ op, cOp q1.inst = some op → cmem op = true → False := fun hc op ho hm => by
    rcases exec_split he with ⟨c1, c2⟩ | ⟨c1, c2, c3⟩ | ⟨c1, c2, c3⟩
    · rw [e1, if_neg (fun h => h.1 c1)] at hc
      exact hc c1
    · rw [e1, if_pos ⟨c1, c2⟩] at ho
      exact hn (tl_16 ho hm { qc with inst := IP.toRvc qc.inst } _ c3 ht)
    · exact hn (tl_ill E _ _ c3 ht)
  have n32 : ∀ {o : BitVec 7} {m : W → M σ Unit}, IP.opcode q1.inst = o → o.setWidth 2 = 3#2 →
      (∀ w, IP.opcode w = o → exec32 E w = m w) → (∀ w, TLog (m w)) → False := fun {o m} ho h3 hm htl => by
    rcases exec_split he with ⟨c1, c2⟩ | ⟨c1, c2, c3⟩ | ⟨c1, c2, c3⟩
    · rw [e1, if_neg (fun h => h.1 c1)] at ho
      rw [hm _ ho] at c2
      exact hn (htl _ _ _ c2 ht)
    · have : IP.copcode q1.inst = 3#2 := by rw [copcode_opcode, ho, h3]
      rw [e1, if_pos ⟨c1, c2⟩, Dasm.copcode_toRvc] at this
      exact c1 this
    · exact hn (tl_ill E _ _ c3 ht)
  unfold stackCall
  cases hev : r'.ev <;> rw [hev] at hv <;> try rfl
  case load =>
    exact (n32 (hi ▸ hv.1) (by decide) (m := dLoad E) (fun w h => by unfold exec32; rw [h]; rfl) tl_load).elim
  case store =>
    exact (n32 (hi ▸ hv.1) (by decide) (m := dStore E) (fun w h => by unfold exec32; rw [h]; rfl) tl_store).elim
  case c op =>
    have := n16 (hi ▸ hv.1) op (hi ▸ hv.2)
    cases op <;> first | rfl | exact (this rfl).elim

end Ama.ProfTrace
