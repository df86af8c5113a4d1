import Verif.Spec.Defined
import Verif.Lemmas.ExecC
import Verif.Props.SimdStep
/-!
# Field-level checks satisfied by every word of the instruction listings
-/
namespace Ama
open Spec

/-- a check on decoded fields -/
def definedB (simd : Bool) (w : W) : Bool :=
  let f3 := IP.funct3 w
  let f7 := IP.funct7 w
  match IP.opcode w with
  | 0x33#7 => (aluRegSel f7 f3).isSome
  | 0x13#7 => if f3 = 1#3 then f7 == 0#7 else if f3 = 5#3 then f7 == 0#7 || f7 == 0x20#7 else true
  | 0x03#7 => (loadSel f3).isSome
  | 0x23#7 => (storeSel f3).isSome
  | 0x63#7 => (branchSel f3).isSome
  | 0x67#7 => f3 == 0#3
  | 0x6f#7 | 0x37#7 | 0x17#7 => true
  | 0x73#7 => if f3 = 0#3 then w == 0x73#32 || w == 0x100073#32 || w == 0x30200073#32 || w == 0x10500073#32 else f3 != 4#3
  | 0x0f#7 => f3 == 0#3 || w == 0x100f#32
  | 0x0b#7 => simd && (Simd.sel f7 f3).isSome && (f7 != 0x7f#7 || IP.rs2 w == 0#5)
  | _ => false

theorem sel_7f (x : X1) (m : W) (h : x.match? = some m) : IP.funct7 m ≠ 0x7f#7 := by
  unfold X1.match? at h
  split at h <;> cases h <;> decide
theorem sel_7f2 (x : X2) (m : W) (h : x.match? = some m) : IP.funct7 m ≠ 0x7f#7 := by
  unfold X2.match? at h
  split at h <;> cases h <;> decide

theorem defined_check {simd : Bool} {w : W} (h : Defined simd w) : definedB simd w = true := by
  cases h with
  | base i =>
    cases i with
    | alu op rd rs1 rs2 =>
      obtain ⟨d1, -, d3, -, -, d6⟩ := decode_R (aluF op).1 rs2 rs1 (aluF op).2 rd 0x33#7
      simp only [definedB, encode, d1, d3, d6]; cases op <;> rfl
    | alui op rd rs1 imm =>
      obtain ⟨d1, -, d3, -⟩ := decode_I imm rs1 (iopF op) rd 0x13#7
      simp only [definedB, encode, d1, d3]; cases op <;> rfl
    | shift op rd rs1 sh =>
      obtain ⟨d1, -, d3, -, -, d6⟩ := decode_R (shF op).1 sh rs1 (shF op).2 rd 0x13#7
      simp only [definedB, encode, d1, d3, d6]; cases op <;> rfl
    | lui rd imm => simp only [definedB, encode, (decode_U imm rd 0x37#7).1]
    | auipc rd imm => simp only [definedB, encode, (decode_U imm rd 0x17#7).1]
    | load op rd rs1 imm =>
      obtain ⟨d1, -, d3, -⟩ := decode_I imm rs1 (loadF op) rd 0x03#7
      simp only [definedB, encode, d1, d3]; cases op <;> rfl
    | store op rs2 rs1 imm =>
      obtain ⟨d1, d3, -⟩ := decode_S imm rs2 rs1 (storeF op) 0x23#7
      simp only [definedB, encode, d1, d3]; cases op <;> rfl
    | branch op rs1 rs2 off =>
      obtain ⟨d1, d3, -⟩ := decode_B (dbl off) (dbl_even off) rs2 rs1 (branchF op) 0x63#7
      simp only [definedB, encode, d1, d3]; cases op <;> rfl
    | jal rd off => simp only [definedB, encode, (decode_J (dbl off) (dbl_even off) rd 0x6f#7).1]
    | jalr rd rs1 imm =>
      obtain ⟨d1, -, d3, -⟩ := decode_I imm rs1 0#3 rd 0x67#7
      simp only [definedB, encode, d1, d3]; rfl
    | fence imm rs1 rd =>
      obtain ⟨d1, -, d3, -⟩ := decode_I imm rs1 0#3 rd 0x0f#7
      simp only [definedB, encode, d1, d3]; rfl
    | _ => cases simd <;> decide
  | csr a rs1 f3 rd h =>
    obtain ⟨d1, -, d3, -⟩ := decode_I a rs1 f3 rd 0x73#7
    simp only [definedB, d1, d3, h.1, if_false]
    simp [h.2]
  | x1 x m rd rs1 rs2 hs h =>
    obtain ⟨h1, h2, -⟩ := table1 h
    have h7 := sel_7f x m h
    generalize IP.funct7 m = f7 at *
    generalize IP.funct3 m = f3 at *
    subst h1
    rw [xWord_enc]
    obtain ⟨d1, -, d3, -, -, d6⟩ := decode_R f7 rs2 rs1 f3 rd 0x0b#7
    simp only [definedB, d1, d3, d6, h2, hs]
    simp [h7]
  | x2 x m rd rs1 rs2 hs h =>
    obtain ⟨h1, h2, -⟩ := table2 h
    have h7 := sel_7f2 x m h
    generalize IP.funct7 m = f7 at *
    generalize IP.funct3 m = f3 at *
    subst h1
    rw [xWord_enc]
    obtain ⟨d1, -, d3, -, -, d6⟩ := decode_R f7 rs2 rs1 f3 rd 0x0b#7
    simp only [definedB, d1, d3, d6, h2, hs]
    simp [h7]
  | scpLcl rd rs1 hs =>
    have : (0xfe00000b#32) = encR 0x7f#7 0#5 0#5 0#3 0#5 0x0b#7 := by decide
    rw [this, xWord_enc]
    obtain ⟨d1, -, d3, -, d5, d6⟩ := decode_R 0x7f#7 0#5 rs1 0#3 rd 0x0b#7
    simp only [definedB, d1, d3, d5, d6, hs]; rfl
  | scpRel rd rs1 hs =>
    have : (0xfe00100b#32) = encR 0x7f#7 0#5 0#5 1#3 0#5 0x0b#7 := by decide
    rw [this, xWord_enc]
    obtain ⟨d1, -, d3, -, d5, d6⟩ := decode_R 0x7f#7 0#5 rs1 1#3 rd 0x0b#7
    simp only [definedB, d1, d3, d5, d6, hs]; rfl

/-- a check on the fields of a 16-bit encoding -/
def definedCB (e : W) : Bool :=
  match IP.copcode e, IP.cFunct3 e with
  | 0#2, 0#3 => IP.cImm4spn e != 0#32
  | 0#2, 2#3 | 0#2, 6#3 => true
  | 1#2, 3#3 => if IP.rd e = 2#5 then IP.cImm16sp e != 0#32 else IP.cImmLui e != 0#32
  | 1#2, 4#3 =>
    if IP.cFunct2h e = 2#2 then true else if IP.cFunct2h e = 3#2 then IP.cFunct6 e == 0x23#6
    else decide ((IP.cImmArith e).toNat < 32)
  | 1#2, _ => true
  | 2#2, 0#3 => decide ((IP.cImmSlli e).toNat < 32)
  | 2#2, 2#3 => IP.rd e != 0#5
  | 2#2, 4#3 => IP.cFunct4 e == 9#4 || IP.rd e != 0#5 || IP.cRs2 e != 0#5
  | 2#2, 6#3 => true
  | _, _ => false

theorem definedC_check {e : W} (h : DefinedC e) : definedCB e = true := by
  obtain ⟨ci, hl, rfl⟩ := h
  cases ci with
  | addi4spn r imm =>
    obtain ⟨d1, d2, d3, d4, -⟩ := decode_CADDI4SPN (scale 10 2 imm) (scale_mod4 10 imm) r
    simp only [definedCB, encodeC, d1, d2, d4]
    simp [bne_iff_ne.2 (imm4spn0 imm hl)]
  | lw r1 r2 imm =>
    obtain ⟨d1, d2, -⟩ := decode_CLS 2#3 (scale 7 2 imm) (scale_mod4 7 imm) r2 r1
    simp only [definedCB, encodeC, d1, d2]
  | sw r1 r2 imm =>
    obtain ⟨d1, d2, -⟩ := decode_CLS 6#3 (scale 7 2 imm) (scale_mod4 7 imm) r2 r1
    simp only [definedCB, encodeC, d1, d2]
  | addi r imm =>
    obtain ⟨d1, d2, -⟩ := decode_CI 0#3 imm r 1#2
    simp only [definedCB, encodeC, d1, d2]; rfl
  | li r imm =>
    obtain ⟨d1, d2, -⟩ := decode_CI 2#3 imm r 1#2
    simp only [definedCB, encodeC, d1, d2]; rfl
  | jal off =>
    obtain ⟨d1, d2, -⟩ := decode_CJ 1#3 (scale 12 1 off) (scale_even 12 off)
    simp only [definedCB, encodeC, d1, d2]; rfl
  | j off =>
    obtain ⟨d1, d2, -⟩ := decode_CJ 5#3 (scale 12 1 off) (scale_even 12 off)
    simp only [definedCB, encodeC, d1, d2]; rfl
  | beqz r off =>
    obtain ⟨d1, d2, -⟩ := decode_CB 6#3 (scale 9 1 off) (scale_even 9 off) r
    simp only [definedCB, encodeC, d1, d2]; rfl
  | bnez r off =>
    obtain ⟨d1, d2, -⟩ := decode_CB 7#3 (scale 9 1 off) (scale_even 9 off) r
    simp only [definedCB, encodeC, d1, d2]; rfl
  | addi16sp imm =>
    obtain ⟨d1, d2, d3, d4, -⟩ := decode_CADDI16SP (scale 10 4 imm) (scale_mod16 10 imm)
    simp only [definedCB, encodeC, d1, d2, d3, d4, if_true]
    exact bne_iff_ne.2 (imm16sp0 imm hl)
  | lui r imm =>
    obtain ⟨d1, d2, d3, -, -, d4, -⟩ := decode_CI 3#3 imm r 1#2
    simp only [definedCB, encodeC, d1, d2, d3, d4, hl.1, if_false]
    exact bne_iff_ne.2 (immLui0 imm hl.2)
  | srli r sh =>
    obtain ⟨d1, d2, d3, -, d4, -⟩ := decode_CBA 0#2 (sh.setWidth 6) r
    simp only [definedCB, encodeC, d1, d2, d3, d4]
    exact decide_eq_true (sh6 sh).2.2.1
  | srai r sh =>
    obtain ⟨d1, d2, d3, -, d4, -⟩ := decode_CBA 1#2 (sh.setWidth 6) r
    simp only [definedCB, encodeC, d1, d2, d3, d4]
    exact decide_eq_true (sh6 sh).2.2.1
  | andi r imm =>
    obtain ⟨d1, d2, d3, -, d4, -⟩ := decode_CBA 2#2 imm r
    simp only [definedCB, encodeC, d1, d2, d3, if_true]
  | alu op r1 r2 =>
    obtain ⟨d1, d2, -, -, -, d3, d4, -⟩ := decode_CA 0x23#6 r1 (caluF op) r2
    have d3 : IP.cFunct3 (encCA 0x23#6 r1 (caluF op) r2) = 4#3 := d3
    have d4 : IP.cFunct2h (encCA 0x23#6 r1 (caluF op) r2) = 3#2 := d4
    simp only [definedCB, encodeC, d1, d2, d3, d4]; rfl
  | slli r sh =>
    obtain ⟨d1, d2, -, -, d4, -⟩ := decode_CI 0#3 (sh.setWidth 6) r 2#2
    simp only [definedCB, encodeC, d1, d2, d4]
    exact decide_eq_true (sh6 sh).2.2.2
  | lwsp r imm =>
    obtain ⟨d1, d2, d3, -⟩ := decode_CLWSP (scale 8 2 imm) (scale_mod4 8 imm) r
    simp only [definedCB, encodeC, d1, d2, d3]
    exact bne_iff_ne.2 hl
  | swsp r imm =>
    obtain ⟨d1, d2, -⟩ := decode_CSWSP (scale 8 2 imm) (scale_mod4 8 imm) r
    simp only [definedCB, encodeC, d1, d2]
  | jr r =>
    obtain ⟨d1, d2, d3, d4, d5, -⟩ := decode_CR 8#4 r 0#5
    have d3 : IP.cFunct3 (encCR 8#4 r 0#5) = 4#3 := d3
    simp only [definedCB, encodeC, d1, d2, d3, d4, d5]
    simp [bne_iff_ne.2 (show r ≠ 0#5 from hl)]
  | mv r r2 =>
    obtain ⟨d1, d2, d3, d4, d5, -⟩ := decode_CR 8#4 r r2
    have d3 : IP.cFunct3 (encCR 8#4 r r2) = 4#3 := d3
    simp only [definedCB, encodeC, d1, d2, d3, d4, d5]
    simp [bne_iff_ne.2 (show r2 ≠ 0#5 from hl)]
  | ebreak => decide
  | jalr r =>
    obtain ⟨d1, d2, d3, -⟩ := decode_CR 9#4 r 0#5
    have d3 : IP.cFunct3 (encCR 9#4 r 0#5) = 4#3 := d3
    simp only [definedCB, encodeC, d1, d2, d3]; rfl
  | add r r2 =>
    obtain ⟨d1, d2, d3, -⟩ := decode_CR 9#4 r r2
    have d3 : IP.cFunct3 (encCR 9#4 r r2) = 4#3 := d3
    simp only [definedCB, encodeC, d1, d2, d3]; rfl

end Ama
