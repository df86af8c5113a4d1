import Verif.Lemmas.DasmInstX
/-!
# The text of SIMD and compressed instructions assembles to the instruction
-/
set_option linter.unusedSimpArgs false
namespace Ama.Dasm
open Spec Spec.Asm
variable {r : Rec}

theorem asm_x3 {op : Simd.Op} {f7 : BitVec 7} {f3 : BitVec 3} {rd rs1 rs2 : BitVec 5} {tail : List P} (ht : Tl tail)
    (hs : solid (simdText op) = true) (hf : form (simdText op) = some (x3 (encR f7 0#5 0#5 f3 0#5 0x0b#7)))
    (hi : r.w = encR f7 rs2 rs1 f3 rd 0x0b#7) :
    Asms r.pc ((setOp (simdText op) :: opRd r ++ [lit ",", nm r (IP.rs1 r.w), lit ",", nm r (IP.rs2 r.w)]) ++ tail) r.w := by
  have d := decode_R f7 rs2 rs1 f3 rd 0x0b#7
  refine asms_op3 (op := simdText op) (a := rfName r.abi rd) (b := rfName r.abi rs1) (c := rfName r.abi rs2)
    (shows_of ht 0 fun l f o iw => ?_) hs (plain_name _ _) (plain_name _ _) (plain_name _ _) hf ?_
  · outs
    rw [hi, d.2.1, d.2.2.2.1, d.2.2.2.2.1]
    simp [mk]
  · simp only [x3, rrr, reg_name, bind, Option.bind, hi, xWord_enc]

theorem asm_xi {op : Simd.Op} {f7 : BitVec 7} {f3 : BitVec 3} {rd rs1 rs2 : BitVec 5} {n : Int} {v : BitVec 5} {tail : List P}
    (ht : Tl tail) (hv : v = rs2)
    (hs : solid (simdText op) = true) (hf : form (simdText op) = some (xi (encR f7 0#5 0#5 f3 0#5 0x0b#7)))
    (hi : r.w = encR f7 rs2 rs1 f3 rd 0x0b#7) :
    Asms r.pc ((setOp (simdText op) :: opRd r ++ [lit ",", nm r (IP.rs1 r.w), lit ","] ++ fhexn (v.setWidth 32) n) ++ tail) r.w := by
  subst hv
  have d := decode_R f7 v rs1 f3 rd 0x0b#7
  refine asms_op3 (op := simdText op) (a := rfName r.abi rd) (b := rfName r.abi rs1) (c := xtext (v.setWidth 32))
    (shows_of ht (n.toNat - (Nat.toDigits 16 (v.setWidth 32).toNat).length) fun l f o iw => ?_) hs (plain_name _ _)
    (plain_name _ _) (plain_xtext _) hf ?_
  · outs
    rw [hi, d.2.1, d.2.2.2.1]
    simp [mk]
  · simp only [xi, rri, reg_name, uimm_xtext (n := 5) (by decide), bind, Option.bind, hi, xWord_enc]

theorem asm_x2 {op : Simd.Op} {f7 : BitVec 7} {f3 : BitVec 3} {rd rs1 : BitVec 5} {tail : List P} (ht : Tl tail)
    (hs : solid (simdText op) = true) (hf : form (simdText op) = some (x2 (encR f7 0#5 0#5 f3 0#5 0x0b#7)))
    (hi : r.w = encR f7 0#5 rs1 f3 rd 0x0b#7) :
    Asms r.pc ((setOp (simdText op) :: opRd r ++ [lit ",", nm r (IP.rs1 r.w)]) ++ tail) r.w := by
  have d := decode_R f7 0#5 rs1 f3 rd 0x0b#7
  refine asms_op2 (op := simdText op) (a := rfName r.abi rd) (b := rfName r.abi rs1)
    (shows_of ht 0 fun l f o iw => ?_) hs (plain_name _ _) (plain_name _ _) hf ?_
  · outs
    rw [hi, d.2.1, d.2.2.2.1]
    simp [mk]
  · simp only [x2, rr, reg_name, bind, Option.bind, hi, xWord_enc]

theorem asm_simd (ht : r.trapped = false) {op : Simd.Op} {f7 : BitVec 7} {f3 : BitVec 3} (hop : Simd.sel f7 f3 = some op)
    {rd rs1 rs2 : BitVec 5} (hL : kindL f7 f3 → rs2 &&& laneMask f3 = rs2) (h2 : kind2 f7 f3 → rs2 = 0#5)
    (hi : r.w = encR f7 rs2 rs1 f3 rd 0x0b#7) : Asms r.pc (tCustom r) r.w := by
  have d := decode_R f7 rs2 rs1 f3 rd 0x0b#7
  have d3 : IP.funct3 r.w = f3 := by rw [hi, d.2.2.1]
  have d7 : IP.funct7 r.w = f7 := by rw [hi, d.2.2.2.2.2]
  have ds : IP.rs2 r.w = rs2 := by rw [hi, d.2.2.2.2.1]
  obtain ⟨hs, hk, hf⟩ := simd_forms hop
  have e : tCustom r = setOp (simdText op) :: tCustomText r := by
    unfold tCustom trapIf
    rw [ht, d3, d7, hop]
    rfl
  rw [e]
  have tr := tl_rd r
  have tp := tl_pair r
  by_cases k3 : kind3 f7
  · have hk0 : kindOf f7 f3 = 0 := if_pos k3
    rw [hk0, build, if_pos rfl] at hf
    have h3 := @asm_x3 r op f7 f3 rd rs1 rs2
    unfold tCustomText
    rw [d7]
    rcases k3 with h | h | h | h | h | h | h | h | h <;> subst h <;> dsimp only <;>
      first
      | exact h3 tr hs hf hi
      | (rw [List.append_assoc (_ ++ _) (rdUpdate r)]; exact h3 tp hs hf hi)
  by_cases kI : kindI f7
  · have hk0 : kindOf f7 f3 = 1 := by unfold kindOf; rw [if_neg k3, if_pos (.inl kI)]
    rw [hk0, build, if_neg (by decide), if_pos rfl] at hf
    have h3 := @asm_xi r op f7 f3 rd rs1 rs2 2 (IP.rs2 r.w)
    unfold tCustomText
    rw [d7]
    rcases kI with h | h <;> subst h <;> dsimp only
    · exact h3 tr ds hs hf hi
    · rw [List.append_assoc (_ ++ _) (rdUpdate r)]; exact h3 tp ds hs hf hi
  by_cases kL : kindL f7 f3
  · have hk0 : kindOf f7 f3 = 1 := by unfold kindOf; rw [if_neg k3, if_pos (.inr kL)]
    rw [hk0, build, if_neg (by decide), if_pos rfl] at hf
    have hm := hL kL
    have h3 := @asm_xi r op f7 f3 rd rs1 rs2 1 (IP.rs2 r.w &&& laneMask f3)
    rw [ds] at h3
    unfold tCustomText
    rw [d7, d3, ds]
    rcases kL with h | ⟨h, hb⟩ <;> subst h <;> dsimp only
    · exact h3 tr hm hs hf hi
    · rw [if_pos hb]
      have := h3 tr hm hs hf hi
      simpa using this
  have k2 : kind2 f7 f3 := by
    by_contra k2
    apply hk
    unfold kindOf
    rw [if_neg k3, if_neg (by rintro (h | h) <;> contradiction), if_neg k2]
  have hk0 : kindOf f7 f3 = 2 := by
    unfold kindOf
    rw [if_neg k3, if_neg (by rintro (h | h) <;> contradiction), if_pos k2]
  rw [hk0, build, if_neg (by decide), if_neg (by decide)] at hf
  have h0 := h2 k2
  subst h0
  unfold tCustomText
  rw [d7, d3]
  rcases k2 with h | ⟨h, hb⟩ <;> subst h <;> dsimp only
  · exact asm_x2 tr hs hf hi
  · rw [if_neg (by simpa using hb), List.append_nil]
    exact asm_x2 tr hs hf hi

/-! ## Compressed -/

theorem s16_itext (imm : BitVec 6) : s16 (itext ((scale 10 4 imm).signExtend 32)) = some imm := by
  unfold s16
  rw [simm_itext (n := 10) (by decide)]
  dsimp only
  have h : (scale 10 4 imm).extractLsb' 4 6 = imm := extract_scale (n := 6) (k := 4) imm
  rw [h]
  exact if_pos rfl
theorem lui_shift (imm : BitVec 6) : (imm.signExtend 32 <<< 12 : W) >>> 12 = (imm.signExtend 20).setWidth 32 := by
  revert imm; decide
theorem hi6_xtext (imm : BitVec 6) : hi6 (xtext ((imm.signExtend 32 <<< 12 : W) >>> 12)) = some imm := by
  rw [lui_shift]
  unfold hi6
  rw [uimm_xtext (n := 20) (by decide)]
  dsimp only
  have h : (imm.signExtend 20).setWidth 6 = imm := by revert imm; decide
  rw [h, if_pos rfl]
theorem sext5 (sh : BitVec 5) : (sh.setWidth 6).signExtend 32 = (sh.setWidth 32 : W) := by revert sh; decide
theorem zext5 (sh : BitVec 5) : (sh.setWidth 6).setWidth 32 = (sh.setWidth 32 : W) := by revert sh; decide
theorem creg_ne (x : BitVec 3) : creg x ≠ 0#5 := by revert x; decide

theorem c_arith (op : String) (f3 : BitVec 3) (g : BitVec 5 → BitVec 6 → W) (hg : ∀ d i, g d i = encCI f3 i d 1#2)
    (ho : solid op.toList = true) (hf : form op.toList = some (ri (simm 6) g)) (rd : BitVec 5) (imm : BitVec 6)
    (hi : r.w = encCI f3 imm rd 1#2) : Asms r.pc (tcArith r op) r.w := by
  have d := decode_CI f3 imm rd 1#2
  unfold tcArith
  refine asms_op2 (op := op.toList) (a := rfName r.abi rd) (b := itext (imm.signExtend 32))
    (shows_of (tl_rd r) 0 fun l f o iw => ?_) ho (plain_name _ _) (plain_itext _) hf ?_
  · outs
    rw [hi, d.2.2.1, d.2.2.2.1]
    simp [mk]
  · simp only [ri, reg_name, simm_itext (n := 6) (by decide), bind, Option.bind, hi, hg]

theorem c_lui (ht : r.trapped = false) (rd : BitVec 5) (imm : BitVec 6) (hi : r.w = encodeC (.lui rd imm)) :
    Asms r.pc (tcLui r) r.w := by
  have d := decode_CI 3#3 imm rd 1#2
  have e : tcLui r = (setOp "c.lui".toList :: opRd r ++ [lit ","] ++ fhexn (IP.cImmLui r.w >>> 12) 5) ++ rdUpdate r := by
    unfold tcLui trapIf
    rw [ht]; rfl
  rw [e]
  refine asms_op2 (op := "c.lui".toList) (a := rfName r.abi rd) (b := xtext ((imm.signExtend 32 <<< 12 : W) >>> 12))
    (shows_of (tl_rd r) ((5 : Int).toNat - (Nat.toDigits 16 ((imm.signExtend 32 <<< 12 : W) >>> 12).toNat).length)
      fun l f o iw => ?_) (by decide) (plain_name _ _) (plain_xtext _)
    (F := ri hi6 fun d i => encodeC (.lui d i)) (by rfl) ?_
  · outs
    rw [hi, encodeC, d.2.2.1, d.2.2.2.2.2.1]
    simp [mk]
  · simp only [ri, reg_name, hi6_xtext, bind, Option.bind, hi]

theorem c_addi16sp (ht : r.trapped = false) (imm : BitVec 6) (hi : r.w = encodeC (.addi16sp imm)) :
    Asms r.pc (tcAddi16sp r) r.w := by
  have d := decode_CADDI16SP (scale 10 4 imm) (scale_mod16 10 imm)
  have e : tcAddi16sp r = (setOp "c.addi16sp".toList :: opRd r ++ [lit ",", i32 (IP.cImm16sp r.w)]) ++ rdUpdateP r 2#5 := by
    unfold tcAddi16sp trapIf
    rw [ht]; rfl
  rw [e]
  refine asms_op2 (op := "c.addi16sp".toList) (a := rfName r.abi 2#5) (b := itext ((scale 10 4 imm).signExtend 32))
    (shows_of (tl_rdP r _) 0 fun l f o iw => ?_) (by decide) (plain_name _ _) (plain_itext _)
    (F := sp s16 fun i => encodeC (.addi16sp i)) (by rfl) ?_
  · outs
    rw [hi, encodeC, d.2.2.1, d.2.2.2.1]
    simp [mk]
  · simp only [sp, reg_name, s16_itext, bind, Option.bind, hi, if_true]

theorem c_immh (op : String) (f2 : BitVec 2) (rd : BitVec 3) (imm : BitVec 6) {n : Nat} (num : List Char → Option (BitVec n))
    (g : BitVec 3 → BitVec n → W) (v : BitVec n) (hn : num (itext (imm.signExtend 32)) = some v)
    (ho : solid op.toList = true) (hf : form op.toList = some (ri' num g))
    (hi : r.w = encCBA f2 imm rd) (hw : g rd v = r.w) : Asms r.pc (tcImmH r op) r.w := by
  have d := decode_CBA f2 imm rd
  unfold tcImmH
  refine asms_op2 (op := op.toList) (a := rfName r.abi (creg rd)) (b := itext (imm.signExtend 32))
    (shows_of (tl_rdP r _) 0 fun l f o iw => ?_) ho (plain_name _ _) (plain_itext _) hf ?_
  · outs
    rw [hi, d.2.2.2.1, d.2.2.2.2.1]
    simp [mk]
  · simp only [ri', reg'_name, hn, bind, Option.bind, hw]

/-- the name of a CA operation -/
def caluText : CAlu → String
  | .sub => "c.sub" | .xor => "c.xor" | .or => "c.or" | .and => "c.and"

theorem c_alu (op : CAlu) (t : String) (ho : solid t.toList = true)
    (hf : form t.toList = some (rr' fun d s => encodeC (.alu op d s))) (rd rs2 : BitVec 3)
    (hi : r.w = encodeC (.alu op rd rs2)) : Asms r.pc (tcAlu r t) r.w := by
  have d := decode_CA 0x23#6 rd (caluF op) rs2
  unfold tcAlu
  refine asms_op2 (op := t.toList) (a := rfName r.abi (creg rd)) (b := rfName r.abi (creg rs2))
    (shows_of (tl_rdP r _) 0 fun l f o iw => ?_) ho (plain_name _ _) (plain_name _ _) hf ?_
  · outs
    rw [hi, encodeC, d.2.2.2.1, d.2.2.2.2.1]
    simp [mk]
  · simp only [rr', reg'_name, bind, Option.bind, hi]

theorem c_addi4spn (ht : r.trapped = false) (rd : BitVec 3) (imm : BitVec 8) (hi : r.w = encodeC (.addi4spn rd imm)) :
    Asms r.pc (tcAddi4spn r) r.w := by
  have d := decode_CADDI4SPN (scale 10 2 imm) (scale_mod4 10 imm) rd
  have e : tcAddi4spn r = [setOp "c.addi4spn".toList, putOp, lit " ", nm r (IP.cRegl r.w), lit ",x2,",
      i32 (IP.cImm4spn r.w)] ++ rdUpdateP r (IP.cRegl r.w) := by
    unfold tcAddi4spn trapIf
    rw [ht]; rfl
  rw [e]
  refine asms_op3 (op := "c.addi4spn".toList) (a := rfName r.abi (creg rd)) (b := "x2".toList)
    (c := itext ((scale 10 2 imm).setWidth 32))
    (shows_of (tl_rdP r _) 0 fun l f o iw => ?_) (by decide) (plain_name _ _) (by decide) (plain_itext _)
    (F := r'sp (uscaled 8 2) fun d i => encodeC (.addi4spn d i)) (by rfl) ?_
  · outs
    rw [hi, encodeC, d.2.2.1, d.2.2.2.1]
    simp [mk]
  · have h2 : reg "x2".toList = some 2#5 := by decide +kernel
    have h3 : uscaled 8 2 (itext ((scale 10 2 imm).setWidth 32)) = some imm := uscaled_itext (n := 8) (k := 2) (by decide) imm
    simp only [r'sp, reg'_name, h2, h3, bind, Option.bind, hi, if_true]

theorem c_slli (rd sh : BitVec 5) (hi : r.w = encodeC (.slli rd sh)) : Asms r.pc (tcSlli r) r.w := by
  have d := decode_CI 0#3 (sh.setWidth 6) rd 2#2
  unfold tcSlli
  refine asms_op2 (op := "c.slli".toList) (a := rfName r.abi rd) (b := xtext (sh.setWidth 32))
    (shows_of (tl_rd r) ((2 : Int).toNat - (Nat.toDigits 16 (sh.setWidth 32).toNat).length) fun l f o iw => ?_) (by decide)
    (plain_name _ _) (plain_xtext _) (F := ri (uimm 5) fun d i => encodeC (.slli d i)) (by rfl) ?_
  · outs
    rw [hi, encodeC, d.2.2.1, d.2.2.2.2.1, zext5]
    simp [mk]
  · simp only [ri, reg_name, uimm_xtext (n := 5) (by decide), bind, Option.bind, hi]

theorem c_reg (t : String) (f4 : BitVec 4) (g : BitVec 5 → BitVec 5 → W) (hg : ∀ d s, g d s = encCR f4 d s)
    (ho : solid t.toList = true) (hf : form t.toList = some (rr g)) (rd rs2 : BitVec 5)
    (hi : r.w = encCR f4 rd rs2) : Asms r.pc (tcReg r t) r.w := by
  have d := decode_CR f4 rd rs2
  unfold tcReg
  refine asms_op2 (op := t.toList) (a := rfName r.abi rd) (b := rfName r.abi rs2)
    (shows_of (tl_rd r) 0 fun l f o iw => ?_) ho (plain_name _ _) (plain_name _ _) hf ?_
  · outs
    rw [hi, d.2.2.2.1, d.2.2.2.2.1]
    simp [mk]
  · simp only [rr, reg_name, bind, Option.bind, hi, hg]

theorem c_lw (ht : r.trapped = false) (rd rs1 : BitVec 3) (imm : BitVec 5) (hi : r.w = encodeC (.lw rd rs1 imm)) :
    Asms r.pc (tcLw r) r.w := by
  have d := decode_CLS 2#3 (scale 7 2 imm) (scale_mod4 7 imm) rs1 rd
  have dl : IP.cRegl r.w = creg rd := by rw [hi, encodeC, d.2.2.2.1]
  have e : tcLw r = [setOp "c.lw".toList, putOp, lit " ", nm r (IP.cRegl r.w), lit ",", i32 (IP.cImmMem r.w), lit "(",
    nm r (IP.cRegh r.w), lit ")"] ++ (rdUpdateP r (IP.cRegl r.w) ++
    (if IP.rd r.w = 0#5 then []
     else lit " <- mem[" :: memAddr (IP.cImmMem r.w + r.rf0 (IP.cRegh r.w)) ++ [lit "]"])) := by
    unfold tcLw
    rw [ht, if_neg (by decide), List.append_assoc]
  rw [e]
  refine asms_op2 (op := "c.lw".toList) (a := rfName r.abi (creg rd))
    (b := itext ((scale 7 2 imm).setWidth 32) ++ '(' :: (rfName r.abi (creg rs1) ++ [')']))
    (shows_of (tl_load r _ _ _ fun h => absurd (dl ▸ h) (creg_ne rd)) 0 fun l f o iw => ?_) (by decide)
    (plain_name _ _) (plain_mem ..) (F := rm' (uscaled 5 2) fun d a i => encodeC (.lw d a i)) (by rfl) ?_
  · outs
    rw [hi, encodeC, d.2.2.1, d.2.2.2.1, d.2.2.2.2.1]
    simp [mk]
  · have h3 : uscaled 5 2 (itext ((scale 7 2 imm).setWidth 32)) = some imm := uscaled_itext (n := 5) (k := 2) (by decide) imm
    simp only [rm', mem_text, reg'_name, h3, bind, Option.bind, hi]

theorem c_sw (ht : r.trapped = false) (rs2 rs1 : BitVec 3) (imm : BitVec 5) (hi : r.w = encodeC (.sw rs2 rs1 imm)) :
    Asms r.pc (tcSw r) r.w := by
  have d := decode_CLS 6#3 (scale 7 2 imm) (scale_mod4 7 imm) rs1 rs2
  have e : tcSw r = [setOp "c.sw".toList, putOp, lit " ", nm r (IP.cRegl r.w), lit ",", i32 (IP.cImmMem r.w), lit "(",
    nm r (IP.cRegh r.w), lit ")"] ++ memUpdateP r (IP.cImmMem r.w + r.rf1 (IP.cRegh r.w)) (IP.cRegl r.w) := by
    unfold tcSw
    rw [ht, if_neg (by decide)]
  rw [e]
  refine asms_op2 (op := "c.sw".toList) (a := rfName r.abi (creg rs2))
    (b := itext ((scale 7 2 imm).setWidth 32) ++ '(' :: (rfName r.abi (creg rs1) ++ [')']))
    (shows_of (tl_mem r _ _) 0 fun l f o iw => ?_) (by decide)
    (plain_name _ _) (plain_mem ..) (F := rm' (uscaled 5 2) fun d a i => encodeC (.sw d a i)) (by rfl) ?_
  · outs
    rw [hi, encodeC, d.2.2.1, d.2.2.2.1, d.2.2.2.2.1]
    simp [mk]
  · have h3 : uscaled 5 2 (itext ((scale 7 2 imm).setWidth 32)) = some imm := uscaled_itext (n := 5) (k := 2) (by decide) imm
    simp only [rm', mem_text, reg'_name, h3, bind, Option.bind, hi]

theorem c_lwsp (ht : r.trapped = false) (rd : BitVec 5) (imm : BitVec 6) (hi : r.w = encodeC (.lwsp rd imm)) :
    Asms r.pc (tcLwsp r) r.w := by
  have d := decode_CLWSP (scale 8 2 imm) (scale_mod4 8 imm) rd
  have e : tcLwsp r = (setOp "c.lwsp".toList :: opRd r ++ [lit ",", i32 (IP.cImmLwsp r.w), lit "(", nm r 2#5, lit ")"]) ++
    (rdUpdateP r (IP.rd r.w) ++ (if IP.rd r.w = 0#5 then []
     else lit " <- mem[" :: memAddr (IP.cImmLwsp r.w + r.rf1 2#5) ++ [lit "]"])) := by
    unfold tcLwsp rdUpdate
    rw [ht, if_neg (by decide), List.append_assoc]
  rw [e]
  refine asms_op2 (op := "c.lwsp".toList) (a := rfName r.abi rd)
    (b := itext ((scale 8 2 imm).setWidth 32) ++ '(' :: (rfName r.abi 2#5 ++ [')']))
    (shows_of (tl_load r _ _ _ id) 0 fun l f o iw => ?_) (by decide)
    (plain_name _ _) (plain_mem ..) (F := rsp (uscaled 6 2) fun d i => encodeC (.lwsp d i)) (by rfl) ?_
  · outs
    rw [hi, encodeC, d.2.2.1, d.2.2.2.1]
    simp [mk]
  · have h3 : uscaled 6 2 (itext ((scale 8 2 imm).setWidth 32)) = some imm := uscaled_itext (n := 6) (k := 2) (by decide) imm
    simp only [rsp, mem_text, reg_name, h3, bind, Option.bind, hi, if_true]

theorem c_swsp (ht : r.trapped = false) (rs2 : BitVec 5) (imm : BitVec 6) (hi : r.w = encodeC (.swsp rs2 imm)) :
    Asms r.pc (tcSwsp r) r.w := by
  have d := decode_CSWSP (scale 8 2 imm) (scale_mod4 8 imm) rs2
  have e : tcSwsp r = [setOp "c.swsp".toList, putOp, lit " ", nm r (IP.cRs2 r.w), lit ",", i32 (IP.cImmSwsp r.w), lit "(",
    nm r 2#5, lit ")"] ++ memUpdateP r (IP.cImmSwsp r.w + r.rf1 2#5) (IP.cRs2 r.w) := by
    unfold tcSwsp
    rw [ht, if_neg (by decide)]
  rw [e]
  refine asms_op2 (op := "c.swsp".toList) (a := rfName r.abi rs2)
    (b := itext ((scale 8 2 imm).setWidth 32) ++ '(' :: (rfName r.abi 2#5 ++ [')']))
    (shows_of (tl_mem r _ _) 0 fun l f o iw => ?_) (by decide)
    (plain_name _ _) (plain_mem ..) (F := rsp (uscaled 6 2) fun d i => encodeC (.swsp d i)) (by rfl) ?_
  · outs
    rw [hi, encodeC, d.2.2.1, d.2.2.2.1]
    simp [mk]
  · have h3 : uscaled 6 2 (itext ((scale 8 2 imm).setWidth 32)) = some imm := uscaled_itext (n := 6) (k := 2) (by decide) imm
    simp only [rsp, mem_text, reg_name, h3, bind, Option.bind, hi, if_true]

theorem c_branch (t : String) (f3 : BitVec 3) (g : BitVec 3 → BitVec 8 → W) (hg : ∀ a o, g a o = encCB f3 (scale 9 1 o) a)
    (ho : solid t.toList = true) (hf : form t.toList = some (rt' 8 g)) (rs1 : BitVec 3) (off : BitVec 8)
    (hi : r.w = encCB f3 (scale 9 1 off) rs1) : Asms r.pc (tcBranch r t) r.w := by
  have d := decode_CB f3 (scale 9 1 off) (scale_even 9 off) rs1
  have e : tcBranch r t = (setOp t.toList :: opCregh r ++ [lit ",", hex, u32 (r.pc + IP.cImmB r.w), dec]) ++ [] := by
    unfold tcBranch; rw [List.append_nil]
  rw [e]
  refine asms_op2 (op := t.toList) (a := rfName r.abi (creg rs1))
    (b := Nat.toDigits 16 (r.pc + (scale 9 1 off).signExtend 32).toNat) (shows_of .nil 0 fun l f o iw => ?_) ho (plain_name _ _)
    (plain_toDigits (by decide) (by decide) _) hf ?_
  · outs
    rw [hi, d.2.2.1, d.2.2.2.1]
    simp [mk]
  · have h3 : offset 8 r.pc (Nat.toDigits 16 (r.pc + (scale 9 1 off).signExtend 32).toNat) = some off :=
      offset_hex (n := 8) (by decide) r.pc off _ rfl
    simp only [rt', reg'_name, h3, bind, Option.bind, hi, hg]

theorem c_j (off : BitVec 11) (hi : r.w = encodeC (.j off)) : Asms r.pc (tcJ r) r.w := by
  have d := decode_CJ 5#3 (scale 12 1 off) (scale_even 12 off)
  have e : tcJ r = [setOp "c.j".toList, putOp, lit " ", hex, u32 (r.pc + IP.cImmJ r.w), dec] ++ [] := rfl
  rw [e]
  refine asms_op1 (op := "c.j".toList) (a := Nat.toDigits 16 (r.pc + (scale 12 1 off).signExtend 32).toNat)
    (shows_of .nil 0 fun l f o iw => ?_) (by decide)
    (plain_toDigits (by decide) (by decide) _) Nat.toDigits_ne_nil (F := tgt 11 fun o => encodeC (.j o)) (by rfl) ?_
  · outs
    rw [hi, encodeC, d.2.2.1]
    simp [mk]
  · have h3 : offset 11 r.pc (Nat.toDigits 16 (r.pc + (scale 12 1 off).signExtend 32).toNat) = some off :=
      offset_hex (n := 11) (by decide) r.pc off _ rfl
    simp only [tgt, h3, bind, Option.bind, hi]

theorem c_jal (off : BitVec 11) (hi : r.w = encodeC (.jal off)) : Asms r.pc (tcJal r) r.w := by
  have d := decode_CJ 1#3 (scale 12 1 off) (scale_even 12 off)
  unfold tcJal
  refine asms_op1 (op := "c.jal".toList) (a := Nat.toDigits 16 (r.pc + (scale 12 1 off).signExtend 32).toNat)
    (shows_of (tl_rdP r _) 0 fun l f o iw => ?_) (by decide)
    (plain_toDigits (by decide) (by decide) _) Nat.toDigits_ne_nil (F := tgt 11 fun o => encodeC (.jal o)) (by rfl) ?_
  · outs
    rw [hi, encodeC, d.2.2.1]
    simp [mk]
  · have h3 : offset 11 r.pc (Nat.toDigits 16 (r.pc + (scale 12 1 off).signExtend 32).toNat) = some off :=
      offset_hex (n := 11) (by decide) r.pc off _ rfl
    simp only [tgt, h3, bind, Option.bind, hi]

theorem c_jr (ht : r.trapped = false) (rs1 : BitVec 5) (hi : r.w = encodeC (.jr rs1)) : Asms r.pc (tcJr r) r.w := by
  have d := decode_CR 8#4 rs1 0#5
  have e : tcJr r = ((setOp "c.jr".toList :: opRd r) ++ (if r.w = 0x8082#32 then [lit " # ret"] else [])) ++ [] := by
    unfold tcJr trapIf
    rw [ht]; rw [List.append_nil]; rfl
  rw [e]
  refine asms_op1 (op := "c.jr".toList) (a := rfName r.abi rs1) ?_ (by decide) (plain_name _ _) (name_ne _ _)
    (F := one fun a => encodeC (.jr a)) (by rfl) ?_
  · split
    · refine shows_ret .nil fun l f o iw => ?_
      outs
      rw [hi, encodeC, d.2.2.2.1]
      simp [mk]
    · refine shows_of .nil 0 fun l f o iw => ?_
      outs
      rw [hi, encodeC, d.2.2.2.1]
      simp [mk]
  · simp only [one, reg_name, bind, Option.bind, hi]

theorem c_jalr (rs1 : BitVec 5) (hi : r.w = encodeC (.jalr rs1)) : Asms r.pc (tcJalr r) r.w := by
  have d := decode_CR 9#4 rs1 0#5
  unfold tcJalr
  refine asms_op1 (op := "c.jalr".toList) (a := rfName r.abi rs1) (shows_of (tl_rdP r _) 0 fun l f o iw => ?_) (by decide)
    (plain_name _ _) (name_ne _ _) (F := one fun a => encodeC (.jalr a)) (by rfl) ?_
  · outs
    rw [hi, encodeC, d.2.2.2.1]
    simp [mk]
  · simp only [one, reg_name, bind, Option.bind, hi]

/-- the compressed instructions that are printed as themselves: `C.LUI` with `rd = x0` (a HINT) is printed as `c.nop` -/
def shownC : CInstr → Prop
  | .lui rd _ => rd ≠ 0#5
  | _ => True

theorem asm_16 (ht : r.trapped = false) (i : CInstr) (hl : i.legal) (hs : shownC i) (hi : r.w = encodeC i) :
    Asms r.pc (tExec16 r) r.w := by
  have o0 : IP.copcode r.w = 0#2 → tExec16 r = tCompressed0 r := fun h => by unfold tExec16; rw [h]; rfl
  have o1 : IP.copcode r.w = 1#2 → tExec16 r = tCompressed1 r := fun h => by unfold tExec16; rw [h]; rfl
  have o2 : IP.copcode r.w = 2#2 → tExec16 r = tCompressed2 r := fun h => by unfold tExec16; rw [h]; rfl
  cases i with
  | addi4spn rd imm =>
    have d := decode_CADDI4SPN (scale 10 2 imm) (scale_mod4 10 imm) rd
    have e : tCompressed0 r = tcAddi4spn r := by unfold tCompressed0; rw [hi, encodeC, d.2.1]; rfl
    rw [o0 (by rw [hi, encodeC, d.1]), e]
    exact c_addi4spn ht rd imm hi
  | lw rd rs1 imm =>
    have d := decode_CLS 2#3 (scale 7 2 imm) (scale_mod4 7 imm) rs1 rd
    have e : tCompressed0 r = tcLw r := by unfold tCompressed0; rw [hi, encodeC, d.2.1]; rfl
    rw [o0 (by rw [hi, encodeC, d.1]), e]
    exact c_lw ht rd rs1 imm hi
  | sw rs2 rs1 imm =>
    have d := decode_CLS 6#3 (scale 7 2 imm) (scale_mod4 7 imm) rs1 rs2
    have e : tCompressed0 r = tcSw r := by unfold tCompressed0; rw [hi, encodeC, d.2.1]; rfl
    rw [o0 (by rw [hi, encodeC, d.1]), e]
    exact c_sw ht rs2 rs1 imm hi
  | addi rd imm =>
    have d := decode_CI 0#3 imm rd 1#2
    have e : tCompressed1 r = tcArith r "c.addi" := by unfold tCompressed1; rw [hi, encodeC, d.2.1]; rfl
    rw [o1 (by rw [hi, encodeC, d.1]), e]
    exact c_arith "c.addi" 0#3 (fun d i => encodeC (.addi d i)) (fun _ _ => rfl) (by decide) (by rfl) rd imm hi
  | jal off =>
    have d := decode_CJ 1#3 (scale 12 1 off) (scale_even 12 off)
    have e : tCompressed1 r = tcJal r := by unfold tCompressed1; rw [hi, encodeC, d.2.1]; rfl
    rw [o1 (by rw [hi, encodeC, d.1]), e]
    exact c_jal off hi
  | li rd imm =>
    have d := decode_CI 2#3 imm rd 1#2
    have e : tCompressed1 r = tcArith r "c.li" := by unfold tCompressed1; rw [hi, encodeC, d.2.1]; rfl
    rw [o1 (by rw [hi, encodeC, d.1]), e]
    exact c_arith "c.li" 2#3 (fun d i => encodeC (.li d i)) (fun _ _ => rfl) (by decide) (by rfl) rd imm hi
  | addi16sp imm =>
    have d := decode_CADDI16SP (scale 10 4 imm) (scale_mod16 10 imm)
    have e : tCompressed1 r = tcAddi16sp r := by
      unfold tCompressed1
      have h3 : IP.rd r.w = 2#5 := by rw [hi, encodeC, d.2.2.1]
      rw [h3]
      rw [hi, encodeC, d.2.1]
      rfl
    rw [o1 (by rw [hi, encodeC, d.1]), e]
    exact c_addi16sp ht imm hi
  | lui rd imm =>
    have d := decode_CI 3#3 imm rd 1#2
    have e : tCompressed1 r = tcLui r := by
      unfold tCompressed1
      have h3 : IP.rd r.w = rd := by rw [hi, encodeC, d.2.2.1]
      rw [h3, if_neg hs, if_neg hl.1]
      rw [hi, encodeC, d.2.1]
      rfl
    rw [o1 (by rw [hi, encodeC, d.1]), e]
    exact c_lui ht rd imm hi
  | srli rd sh =>
    have d := decode_CBA 0#2 (sh.setWidth 6) rd
    have e : tCompressed1 r = tcImmH r "c.srli" := by unfold tCompressed1; rw [hi, encodeC, d.2.1, d.2.2.1]; rfl
    rw [o1 (by rw [hi, encodeC, d.1]), e]
    exact c_immh "c.srli" 0#2 rd (sh.setWidth 6) (uimm 5) (fun d i => encodeC (.srli d i)) sh
      (by rw [sext5]; exact uimm_itext (n := 5) (by decide) sh) (by decide) (by rfl) hi hi.symm
  | srai rd sh =>
    have d := decode_CBA 1#2 (sh.setWidth 6) rd
    have e : tCompressed1 r = tcImmH r "c.srai" := by unfold tCompressed1; rw [hi, encodeC, d.2.1, d.2.2.1]; rfl
    rw [o1 (by rw [hi, encodeC, d.1]), e]
    exact c_immh "c.srai" 1#2 rd (sh.setWidth 6) (uimm 5) (fun d i => encodeC (.srai d i)) sh
      (by rw [sext5]; exact uimm_itext (n := 5) (by decide) sh) (by decide) (by rfl) hi hi.symm
  | andi rd imm =>
    have d := decode_CBA 2#2 imm rd
    have e : tCompressed1 r = tcImmH r "c.andi" := by unfold tCompressed1; rw [hi, encodeC, d.2.1, d.2.2.1]; rfl
    rw [o1 (by rw [hi, encodeC, d.1]), e]
    exact c_immh "c.andi" 2#2 rd imm (simm 6) (fun d i => encodeC (.andi d i)) imm
      (simm_itext (n := 6) (by decide) imm) (by decide) (by rfl) hi hi.symm
  | alu op rd rs2 =>
    have d := decode_CA 0x23#6 rd (caluF op) rs2
    have e : tCompressed1 r = tCompressed1Alu r := by
      unfold tCompressed1
      rw [hi, encodeC, d.2.2.2.2.2.1, d.2.2.2.2.2.2.1]
      rfl
    have e2 : tCompressed1Alu r = tcAlu r (caluText op) := by
      unfold tCompressed1Alu
      rw [hi, encodeC, d.2.1, d.2.2.1]
      cases op <;> rfl
    rw [o1 (by rw [hi, encodeC, d.1]), e, e2]
    exact c_alu op (caluText op) (by cases op <;> decide) (by cases op <;> rfl) rd rs2 hi
  | j off =>
    have d := decode_CJ 5#3 (scale 12 1 off) (scale_even 12 off)
    have e : tCompressed1 r = tcJ r := by unfold tCompressed1; rw [hi, encodeC, d.2.1]; rfl
    rw [o1 (by rw [hi, encodeC, d.1]), e]
    exact c_j off hi
  | beqz rs1 off =>
    have d := decode_CB 6#3 (scale 9 1 off) (scale_even 9 off) rs1
    have e : tCompressed1 r = tcBranch r "c.beqz" := by unfold tCompressed1; rw [hi, encodeC, d.2.1]; rfl
    rw [o1 (by rw [hi, encodeC, d.1]), e]
    exact c_branch "c.beqz" 6#3 (fun a o => encodeC (.beqz a o)) (fun _ _ => rfl) (by decide) (by rfl) rs1 off hi
  | bnez rs1 off =>
    have d := decode_CB 7#3 (scale 9 1 off) (scale_even 9 off) rs1
    have e : tCompressed1 r = tcBranch r "c.bnez" := by unfold tCompressed1; rw [hi, encodeC, d.2.1]; rfl
    rw [o1 (by rw [hi, encodeC, d.1]), e]
    exact c_branch "c.bnez" 7#3 (fun a o => encodeC (.bnez a o)) (fun _ _ => rfl) (by decide) (by rfl) rs1 off hi
  | slli rd sh =>
    have d := decode_CI 0#3 (sh.setWidth 6) rd 2#2
    have e : tCompressed2 r = tcSlli r := by unfold tCompressed2; rw [hi, encodeC, d.2.1]; rfl
    rw [o2 (by rw [hi, encodeC, d.1]), e]
    exact c_slli rd sh hi
  | lwsp rd imm =>
    have d := decode_CLWSP (scale 8 2 imm) (scale_mod4 8 imm) rd
    have e : tCompressed2 r = tcLwsp r := by unfold tCompressed2; rw [hi, encodeC, d.2.1]; rfl
    rw [o2 (by rw [hi, encodeC, d.1]), e]
    exact c_lwsp ht rd imm hi
  | swsp rs2 imm =>
    have d := decode_CSWSP (scale 8 2 imm) (scale_mod4 8 imm) rs2
    have e : tCompressed2 r = tcSwsp r := by unfold tCompressed2; rw [hi, encodeC, d.2.1]; rfl
    rw [o2 (by rw [hi, encodeC, d.1]), e]
    exact c_swsp ht rs2 imm hi
  | jr rs1 =>
    have d := decode_CR 8#4 rs1 0#5
    have e : tCompressed2 r = tcJr r := by
      unfold tCompressed2
      rw [hi, encodeC, d.2.1, d.2.2.1, d.2.2.2.2.1]; rfl
    rw [o2 (by rw [hi, encodeC, d.1]), e]
    exact c_jr ht rs1 hi
  | mv rd rs2 =>
    have d := decode_CR 8#4 rd rs2
    have e : tCompressed2 r = tcReg r "c.mv" := by
      unfold tCompressed2
      rw [hi, encodeC, d.2.1, d.2.2.1, d.2.2.2.2.1, if_neg hl]; rfl
    rw [o2 (by rw [hi, encodeC, d.1]), e]
    exact c_reg "c.mv" 8#4 (fun d s => encodeC (.mv d s)) (fun _ _ => rfl) (by decide) (by rfl) rd rs2 hi
  | ebreak =>
    have h : r.w = 0x9002#32 := hi.trans (by decide)
    have e : tCompressed2 r = tcBare "c.ebreak" ++ [] := by
      unfold tCompressed2
      rw [h]; rfl
    rw [o2 (by rw [h]; decide), e]
    exact asms_0 (op := "c.ebreak".toList) (shows_of .nil 0 fun _ _ _ _ => (by unfold tcBare; outs; simp [mk])) (by decide)
      (by rfl) (by rw [hi]; rfl)
  | jalr rs1 =>
    have d := decode_CR 9#4 rs1 0#5
    have e : tCompressed2 r = tcJalr r := by
      unfold tCompressed2
      rw [hi, encodeC, d.2.1, d.2.2.1, d.2.2.2.2.1, d.2.2.2.1, if_pos rfl, if_neg (fun h => absurd h.2 hl)]; rfl
    rw [o2 (by rw [hi, encodeC, d.1]), e]
    exact c_jalr rs1 hi
  | add rd rs2 =>
    have d := decode_CR 9#4 rd rs2
    have e : tCompressed2 r = tcReg r "c.add" := by
      unfold tCompressed2
      rw [hi, encodeC, d.2.1, d.2.2.1, d.2.2.2.2.1, if_neg hl, if_neg (fun h => absurd h.1 hl), if_neg hl]; rfl
    rw [o2 (by rw [hi, encodeC, d.1]), e]
    exact c_reg "c.add" 9#4 (fun d s => encodeC (.add d s)) (fun _ _ => rfl) (by decide) (by rfl) rd rs2 hi

end Ama.Dasm
