import Verif.Lemmas.HwCalls
/-!
# What each instruction tells the hardware models
-/
namespace Ama.HwCalls
open M Spec
open ProfTrace (rx_eq rx_creg opcode_encode majOpc)
open Dasm (cop_encode cop_encodeC)
variable {rf : BitVec 5 → W} {pc next : W}

theorem ldN_eq (op : LoadOp) : ldN op = loadN op := by cases op <;> rfl
theorem stN_eq (op : StoreOp) : op.bytes = storeN op := by cases op <;> rfl

/-- the calls of a 32-bit word -/
theorem wCalls32 {w : W} (h : IP.copcode w = 3#2) : wCalls rf pc next w =
    if IP.opcode w = 0x33#7 then
      match (aluRegSel (IP.funct7 w) (IP.funct3 w)).bind AluOp.divUns with
      | some u => [.div (rf (IP.rs1 w)) (rf (IP.rs2 w)) u]
      | none => []
    else if IP.opcode w = 0x03#7 then
      match loadSel (IP.funct3 w) with
      | some op => rdC (rf (IP.rs1 w) + IP.immI w) (ldN op)
      | none => []
    else if IP.opcode w = 0x23#7 then
      match storeSel (IP.funct3 w) with
      | some op => wrC (rf (IP.rs1 w) + IP.immS w) (rf (IP.rs2 w)) op.bytes
      | none => []
    else if IP.opcode w = 0x63#7 then [.ideal next, .predict pc (IP.immB w) (IP.funct3 w), .update pc next]
    else if IP.opcode w = 0x0b#7 then
      match Simd.sel (IP.funct7 w) (IP.funct3 w) with
      | some (.scp m) => [.scp (rf (IP.rs1 w) &&& 0x1ffff#32) m]
      | _ => []
    else [] := by
  unfold wCalls
  rw [if_neg (by rw [h]; decide), if_neg (by rw [h]; decide), if_neg (by rw [h]; decide)]
  rfl

theorem wCalls_base (h0 : rf 0#5 = 0#32) (i : Instr) :
    wCalls rf pc next (encode i) = bpCalls pc next i ++ dataCalls rf i ++ divCalls rf i := by
  rw [wCalls32 (cop_encode i)]
  cases i
  case alu op rd rs1 rs2 =>
    have d := decode_R (aluF op).1 rs2 rs1 (aluF op).2 rd 0x33#7
    simp only [encode, d, regSel_enc, if_true, Option.bind_some]
    simp only [bpCalls, dataCalls, List.nil_append]
    cases op <;> simp only [AluOp.divUns, divCalls, rx_eq h0]
  case load op rd rs1 imm =>
    have d := decode_I imm rs1 (loadF op) rd 0x03#7
    simp only [encode, d, loadSel_enc, ldN_eq]
    rw [if_neg (by decide), if_pos trivial]
    simp only [bpCalls, dataCalls, divCalls, List.nil_append, List.append_nil, rx_eq h0]
    rfl
  case store op rs2 rs1 imm =>
    have d := decode_S imm rs2 rs1 (storeF op) 0x23#7
    simp only [encode, d, storeSel_enc, stN_eq]
    rw [if_neg (by decide), if_neg (by decide), if_pos trivial]
    simp only [bpCalls, dataCalls, divCalls, List.nil_append, List.append_nil, rx_eq h0]
    rfl
  case branch op rs1 rs2 off =>
    have d := decode_B (dbl off) (by simp [dbl]) rs2 rs1 (branchF op) 0x63#7
    simp only [encode, d]
    rw [if_neg (by decide), if_neg (by decide), if_neg (by decide), if_pos trivial]
    rfl
  all_goals
    rw [opcode_encode, if_neg (by simp only [majOpc]; decide), if_neg (by simp only [majOpc]; decide), if_neg (by simp only [majOpc]; decide), if_neg (by simp only [majOpc]; decide), if_neg (by simp only [majOpc]; decide)]
    rfl

/-- the calls of a compressed word that accesses no data -/
theorem wCalls16 {w : W} {f3 : BitVec 3} (h : IP.copcode w ≠ 3#2) (h3 : IP.cFunct3 w = f3)
    (hd : IP.copcode w = 1#2 ∨ (f3 ≠ 2#3 ∧ f3 ≠ 6#3)) : wCalls rf pc next w = [] := by
  unfold wCalls
  rw [h3]
  rcases hd with hd | ⟨h1, h2⟩
  · rw [if_neg (by rw [hd]; decide), if_neg (by rw [hd]; decide), if_pos hd]
  · rw [if_neg h1, if_neg h2, if_neg h1, if_neg h2]
    by_cases h0 : IP.copcode w = 0#2
    · rw [if_pos h0]
    rw [if_neg h0]
    by_cases h2 : IP.copcode w = 2#2
    · rw [if_pos h2]
    rw [if_neg h2]
    by_cases h1 : IP.copcode w = 1#2
    · rw [if_pos h1]
    · exfalso
      generalize IP.copcode w = c at *
      revert c; decide

theorem wCalls_comp (h0 : rf 0#5 = 0#32) (i : CInstr) : wCalls rf pc next (encodeC i) = dataCalls rf (expand i) := by
  have hn := cop_encodeC i
  cases i
  case lw rd rs imm =>
    have d := decode_CLS 2#3 (scale 7 2 imm) (scale_mod4 7 imm) rs rd
    unfold wCalls
    simp only [encodeC, d, expand, dataCalls, rx_creg, if_true, immLw]
    rfl
  case sw rd rs imm =>
    have d := decode_CLS 6#3 (scale 7 2 imm) (scale_mod4 7 imm) rs rd
    unfold wCalls
    simp only [encodeC, d, expand, dataCalls, rx_creg, if_true, immLw]
    rfl
  case lwsp rd imm =>
    have d := decode_CLWSP (scale 8 2 imm) (scale_mod4 8 imm) rd
    unfold wCalls
    simp only [encodeC, d, expand, dataCalls, rx_eq h0, if_true, immLwsp]
    rfl
  case swsp rs imm =>
    have d := decode_CSWSP (scale 8 2 imm) (scale_mod4 8 imm) rs
    unfold wCalls
    simp only [encodeC, d, expand, dataCalls, rx_eq h0, if_true, immLwsp]
    rfl
  case addi4spn rd imm => exact wCalls16 hn (decode_CADDI4SPN (scale 10 2 imm) (scale_mod4 10 imm) rd).2.1 (.inr (by decide))
  case addi rd imm => exact wCalls16 hn (decode_CI 0#3 imm rd 1#2).2.1 (.inl (decode_CI 0#3 imm rd 1#2).1)
  case jal off => exact wCalls16 hn rfl (.inl (decode_CJ 1#3 (scale 12 1 off) (scale_even 12 off)).1)
  case j off => exact wCalls16 hn rfl (.inl (decode_CJ 5#3 (scale 12 1 off) (scale_even 12 off)).1)
  case li rd imm => exact wCalls16 hn rfl (.inl (decode_CI 2#3 imm rd 1#2).1)
  case lui rd imm => exact wCalls16 hn rfl (.inl (decode_CI 3#3 imm rd 1#2).1)
  case addi16sp imm => exact wCalls16 hn rfl (.inl (decode_CADDI16SP (scale 10 4 imm) (scale_mod16 10 imm)).1)
  case srli rd sh => exact wCalls16 hn rfl (.inl (decode_CBA 0#2 (sh.setWidth 6) rd).1)
  case srai rd sh => exact wCalls16 hn rfl (.inl (decode_CBA 1#2 (sh.setWidth 6) rd).1)
  case andi rd sh => exact wCalls16 hn rfl (.inl (decode_CBA 2#2 sh rd).1)
  case alu op rd rs => exact wCalls16 hn rfl (.inl (decode_CA 0x23#6 rd (caluF op) rs).1)
  case beqz rs off => exact wCalls16 hn rfl (.inl (decode_CB 6#3 (scale 9 1 off) (scale_even 9 off) rs).1)
  case bnez rs off => exact wCalls16 hn rfl (.inl (decode_CB 7#3 (scale 9 1 off) (scale_even 9 off) rs).1)
  case slli rd sh => exact wCalls16 hn (decode_CI 0#3 (sh.setWidth 6) rd 2#2).2.1 (.inr (by decide))
  case jr rs => exact wCalls16 hn (decode_CR 8#4 rs 0#5).2.2.1 (.inr (by decide))
  case mv rd rs => exact wCalls16 hn (decode_CR 8#4 rd rs).2.2.1 (.inr (by decide))
  case ebreak => exact wCalls16 hn (decode_CR 9#4 0#5 0#5).2.2.1 (.inr (by decide))
  case jalr rs => exact wCalls16 hn (decode_CR 9#4 rs 0#5).2.2.1 (.inr (by decide))
  case add rd rs => exact wCalls16 hn (decode_CR 9#4 rd rs).2.2.1 (.inr (by decide))

/-- the calls of a custom word -/
theorem wCalls_x {m : W} (hm : m = encR (IP.funct7 m) 0#5 0#5 (IP.funct3 m) 0#5 0x0b#7) (rd rs1 rs2 : BitVec 5) :
    wCalls rf pc next (xWord m rd rs1 rs2) =
      match Simd.sel (IP.funct7 m) (IP.funct3 m) with
      | some (.scp k) => [.scp (rf rs1 &&& 0x1ffff#32) k]
      | _ => [] := by
  have d := decode_R (IP.funct7 m) rs2 rs1 (IP.funct3 m) rd 0x0b#7
  have e : xWord m rd rs1 rs2 = encR (IP.funct7 m) rs2 rs1 (IP.funct3 m) rd 0x0b#7 := by
    conv => lhs; rw [hm]
    rw [xWord_enc]
  rw [e, wCalls32 (by rw [copcode_opcode, d.1]; decide)]
  simp only [d]
  rw [if_neg (by decide), if_neg (by decide), if_neg (by decide), if_neg (by decide), if_pos trivial]

/-- **the fields say what the instruction set says** -/
theorem wCalls_spec (h0 : rf 0#5 = 0#32) {w : W} {l : List HwCall} (h : HwCalls rf pc next w l) : wCalls rf pc next w = l := by
  cases h with
  | base i => exact wCalls_base h0 i
  | comp i => exact wCalls_comp h0 i
  | csr a rs1 rd f3 _ =>
    have d := decode_I a rs1 f3 rd 0x73#7
    rw [wCalls32 (by rw [copcode_opcode, d.1]; decide), d.1]
    rfl
  | x1 x m rd rs1 rs2 hm =>
    obtain ⟨h1, h2, -⟩ := table1 hm
    rw [wCalls_x h1, h2]
    unfold X1.match? at hm
    split at hm <;> cases hm <;> rfl
  | x2 x m rd rs1 rs2 hm =>
    obtain ⟨h1, h2, -⟩ := table2 hm
    rw [wCalls_x h1, h2]
    unfold X2.match? at hm
    split at hm <;> cases hm <;> rfl
  | lcl rd rs1 rs2 => rw [wCalls_x (by decide), rx_eq h0]; rfl
  | rel rd rs1 rs2 => rw [wCalls_x (by decide), rx_eq h0]; rfl
  | other w h =>
    rw [HwInd.opcode_bits, show w.extractLsb' 0 2 = IP.copcode w by fields [IP.copcode],
      show w.extractLsb' 13 3 = IP.cFunct3 w by fields [IP.cFunct3]] at h
    rcases h with h | ⟨h1, h2⟩ | h
    · exact wCalls16 (by rw [h]; decide) rfl (.inl h)
    · exact wCalls16 h1 rfl (.inr h2)
    · rw [wCalls32 (by rw [copcode_opcode]; revert h; generalize IP.opcode w = o; revert o; decide)]
      simp only [List.mem_cons, List.not_mem_nil, or_false] at h
      rcases h with h | h | h | h | h | h | h <;> rw [h] <;> rfl
end Ama.HwCalls
