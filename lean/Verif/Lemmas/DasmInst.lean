import Verif.Lemmas.DasmText
/-!
# The text of an instruction assembles to the instruction
-/
set_option linter.unusedSimpArgs false
namespace Ama.Dasm
open Spec Spec.Asm

/-- whatever the state of the stream, the record assembles to `w` -/
def Asms (pc : W) (ps : List P) (w : W) : Prop :=
  ∀ l f o iw sm, assemble pc (record ps sm (mk [] l f o iw)) = some w

theorem asms_of {pc w : W} {ps : List P} {x op : List Char} {args : List (List Char)} {F : Form} (h : Shows ps x)
    (ht : ∀ g, End g → tokens (x ++ g) = (op, args)) (hF : form op = some F) (hw : F pc args = some w) : Asms pc ps w := by
  intro l f o iw sm
  obtain ⟨g, hg, he⟩ := h l f o iw sm
  rw [hg, assemble, ht g he, hF]
  exact hw
theorem asms_0 {pc w : W} {ps : List P} {op : List Char} {F : Form} (h : Shows ps op) (ho : solid op = true)
    (hF : form op = some F) (hw : F pc [] = some w) : Asms pc ps w :=
  asms_of h (fun _ hg => tokens_0 ho hg) hF hw
theorem asms_1 {pc w : W} {ps : List P} {op b : List Char} {F : Form} (h : Shows ps (op ++ ' ' :: b)) (ho : solid op = true)
    (hb : solid b = true) (hn : b ≠ []) (hF : form op = some F) (hw : F pc (pieces b) = some w) : Asms pc ps w :=
  asms_of h (fun g hg => by rw [List.append_assoc, List.cons_append]; exact tokens_1 ho hb hn hg) hF hw

theorem solid_1 {b : List Char} (hb : plain b = true) : solid b = true := plain_solid hb
theorem solid_2 {a b : List Char} (ha : plain a = true) (hb : plain b = true) : solid (a ++ ',' :: b) = true := by
  rw [solid_append, plain_solid ha]
  have := plain_solid hb
  unfold solid at this ⊢
  rw [List.all_cons, this]
  decide
theorem solid_3 {a b c : List Char} (ha : plain a = true) (hb : plain b = true) (hc : plain c = true) :
    solid (a ++ ',' :: (b ++ ',' :: c)) = true := by
  rw [solid_append, plain_solid ha]
  have := solid_2 hb hc
  unfold solid at this ⊢
  rw [List.all_cons, this]
  decide
theorem append_cons_ne {a b : List Char} {c : Char} : a ++ c :: b ≠ [] := by simp

/-- two operands -/
theorem asms_op2 {pc w : W} {ps : List P} {op a b : List Char} {F : Form} (h : Shows ps (op ++ ' ' :: (a ++ ',' :: b)))
    (ho : solid op = true) (ha : plain a = true) (hb : plain b = true) (hF : form op = some F)
    (hw : F pc [a, b] = some w) : Asms pc ps w :=
  asms_1 h ho (solid_2 ha hb) append_cons_ne hF (by rw [pieces_2 ha hb]; exact hw)
/-- three operands -/
theorem asms_op3 {pc w : W} {ps : List P} {op a b c : List Char} {F : Form}
    (h : Shows ps (op ++ ' ' :: (a ++ ',' :: (b ++ ',' :: c)))) (ho : solid op = true) (ha : plain a = true)
    (hb : plain b = true) (hc : plain c = true) (hF : form op = some F) (hw : F pc [a, b, c] = some w) : Asms pc ps w :=
  asms_1 h ho (solid_3 ha hb hc) append_cons_ne hF (by rw [pieces_3 ha hb hc]; exact hw)
/-- one operand -/
theorem asms_op1 {pc w : W} {ps : List P} {op a : List Char} {F : Form} (h : Shows ps (op ++ ' ' :: a))
    (ho : solid op = true) (ha : plain a = true) (hn : a ≠ []) (hF : form op = some F)
    (hw : F pc [a] = some w) : Asms pc ps w :=
  asms_1 h ho (plain_solid ha) hn hF (by rw [pieces_one (plain_nc ha)]; exact hw)

theorem Asms.setInstW {pc w : W} {ps : List P} (h : Asms pc ps w) (n : Nat) : Asms pc (setInstW n :: ps) w :=
  fun l f o _ sm => h l f o n sm

theorem plain_mem (abi : Bool) (v : W) (i : BitVec 5) : plain (itext v ++ '(' :: (rfName abi i ++ [')'])) = true := by
  rw [plain_append, plain_itext]
  have := plain_name abi i
  have h2 : plain (rfName abi i ++ [')']) = true := by rw [plain_append, this]; decide
  unfold plain at h2 ⊢
  rw [List.all_cons, h2]
  decide

/-- run the outputs that make up the instruction -/
macro "outs" : tactic => `(tactic|
  simp only [opRd, opCregh, List.cons_append, List.nil_append, List.append_assoc, run_cons, run_nil, run_append, setOp_mk, putOp_mk,
    setInstW_mk, lit_mk, nm_mk, i32_mk, u32_mk, str_mk, hexnum_mk, fhexn_mk, clear_mk])

variable {r : Rec}

theorem asm_alu (op : AluOp) (rd rs1 rs2 : BitVec 5) (hi : r.w = encode (.alu op rd rs1 rs2)) :
    Asms r.pc (tAluReg r) r.w := by
  have d := decode_R (aluF op).1 rs2 rs1 (aluF op).2 rd 0x33#7
  have e : tAluReg r = (setOp (aluText op).toList :: opRd r ++
      [lit ",", nm r (IP.rs1 r.w), lit ",", nm r (IP.rs2 r.w)]) ++ rdUpdate r := by
    unfold tAluReg
    rw [hi, encode, d.2.2.1, d.2.2.2.2.2, regSel_enc]
  rw [e]
  refine asms_op3 (op := (aluText op).toList) (a := rfName r.abi rd) (b := rfName r.abi rs1) (c := rfName r.abi rs2)
    (shows_of (tl_rd r) 0 fun l f o iw => ?_) (by cases op <;> decide) (plain_name _ _) (plain_name _ _) (plain_name _ _)
    (F := rrr fun d a b => encode (.alu op d a b)) (by cases op <;> rfl) ?_
  · outs
    rw [hi, encode, d.2.1, d.2.2.2.1, d.2.2.2.2.1]
    simp [mk]
  · simp only [rrr, reg_name, bind, Option.bind, hi]


/-- selected operation of an I-type instruction -/
def iopA : IOp → AluImmOp
  | .addi => .addi | .slti => .slti | .sltiu => .sltiu | .xori => .xori | .ori => .ori | .andi => .andi
/-- selected operation of a shift by an immediate -/
def shA : ShOp → AluImmOp
  | .slli => .slli | .srli => .srli | .srai => .srai
theorem iopSel (op : IOp) (b : BitVec 1) : aluImmSel b (iopF op) = some (iopA op) := by cases op <;> rfl
theorem shSel (op : ShOp) : aluImmSel ((shF op).1.extractLsb' 5 1) (shF op).2 = some (shA op) := by
  cases op <;> rfl

theorem asm_alui (op : IOp) (rd rs1 : BitVec 5) (imm : BitVec 12) (hi : r.w = encode (.alui op rd rs1 imm)) :
    Asms r.pc (tAluImm r) r.w := by
  have d := decode_I imm rs1 (iopF op) rd 0x13#7
  by_cases hn : r.w = 0x13#32
  · obtain ⟨rfl, rfl, rfl, rfl⟩ := (nop_iff op rd rs1 imm).1 (by rw [hi] at hn; exact hn)
    have e : tAluImm r = (setOp "addi".toList :: opRd r ++ [lit ",", nm r 0#5, lit ",", i32 0#32, clear, lit "nop"]) ++ [] := by
      unfold tAluImm rdUpdate rdUpdateP
      rw [hn]
      rfl
    rw [e]
    refine asms_0 (op := "nop".toList) (F := bare (encode (.alui .addi 0#5 0#5 0#12))) (shows_of .nil 0 fun l f o iw => ?_)
      (by decide) (by rfl) (by rw [hi]; rfl)
    outs
    rfl
  · have e : tAluImm r = (setOp (aluImmText (iopA op)).toList :: opRd r ++ [lit ",", nm r (IP.rs1 r.w), lit ","] ++
      [i32 (IP.immI r.w)]) ++ rdUpdate r := by
      unfold tAluImm
      rw [if_neg hn]
      rw [hi, encode, d.2.2.1, iopSel]
      dsimp only
      rw [List.append_nil, if_neg (by cases op <;> decide)]
    rw [e]
    refine asms_op3 (op := (aluImmText (iopA op)).toList) (a := rfName r.abi rd) (b := rfName r.abi rs1)
      (c := itext (imm.signExtend 32)) (shows_of (tl_rd r) 0 fun l f o iw => ?_) (by cases op <;> decide) (plain_name _ _)
      (plain_name _ _) (plain_itext _) (F := rri (simm 12) fun d a i => encode (.alui op d a i)) (by cases op <;> rfl) ?_
    · outs
      rw [hi, encode, d.2.1, d.2.2.2.1, d.2.2.2.2.1]
      simp [mk]
    · simp only [rri, reg_name, simm_itext (n := 12) (by decide), bind, Option.bind, hi]

theorem shamt_enc (f7 : BitVec 7) (rs2 rs1 : BitVec 5) (f3 : BitVec 3) (rd : BitVec 5) (op : BitVec 7) :
    IP.immIShamt (encR f7 rs2 rs1 f3 rd op) = rs2.setWidth 32 := by
  fields [IP.immIShamt, encR]
theorem asm_shift (op : ShOp) (rd rs1 sh : BitVec 5) (hi : r.w = encode (.shift op rd rs1 sh)) :
    Asms r.pc (tAluImm r) r.w := by
  have d := decode_R (shF op).1 sh rs1 (shF op).2 rd 0x13#7
  have hn : r.w ≠ 0x13#32 := by
    intro h
    have h2 := congrArg IP.funct3 h
    rw [hi, encode, d.2.2.1] at h2
    revert h2; cases op <;> decide
  have e : tAluImm r = (setOp (aluImmText (shA op)).toList :: opRd r ++ [lit ",", nm r (IP.rs1 r.w), lit ","] ++
      fhexn (IP.immIShamt r.w) 2) ++ rdUpdate r := by
    unfold tAluImm
    rw [if_neg hn]
    rw [hi, encode, d.2.2.1, shift_b5, shSel]
    dsimp only
    rw [List.append_nil, if_pos (by cases op <;> decide)]
  rw [e]
  refine asms_op3 (op := (aluImmText (shA op)).toList) (a := rfName r.abi rd) (b := rfName r.abi rs1)
    (c := xtext (sh.setWidth 32)) (shows_of (tl_rd r) ((2 : Int).toNat - (Nat.toDigits 16 (sh.setWidth 32).toNat).length)
      fun l f o iw => ?_) (by cases op <;> decide) (plain_name _ _)
    (plain_name _ _) (plain_xtext _) (F := rri (uimm 5) fun d a i => encode (.shift op d a i)) (by cases op <;> rfl) ?_
  · outs
    rw [hi, encode, d.2.1, d.2.2.2.1, shamt_enc]
    simp [mk]
  · simp only [rri, reg_name, uimm_xtext (n := 5) (by decide), bind, Option.bind, hi]

theorem asm_load (ht : r.trapped = false) (op : LoadOp) (rd rs1 : BitVec 5) (imm : BitVec 12)
    (hi : r.w = encode (.load op rd rs1 imm)) : Asms r.pc (tLoad r) r.w := by
  have d := decode_I imm rs1 (loadF op) rd 0x03#7
  have e : tLoad r = (setOp (loadText op).toList :: opRd r ++
      [lit ",", i32 (IP.immI r.w), lit "(", nm r (IP.rs1 r.w), lit ")"]) ++ (rdUpdateP r (IP.rd r.w) ++
      (if IP.rd r.w = 0#5 then [] else lit " <- mem[" :: memAddr (IP.immI r.w + r.rf0 (IP.rs1 r.w)) ++ [lit "]"])) := by
    unfold tLoad
    have h3 : IP.funct3 r.w = loadF op := by rw [hi, encode, d.2.2.1]
    rw [h3, loadSel_enc, ht]
    dsimp only
    rw [if_neg (by decide)]
    simp [rdUpdate]
  rw [e]
  refine asms_op2 (op := (loadText op).toList) (a := rfName r.abi rd)
    (b := itext (imm.signExtend 32) ++ '(' :: (rfName r.abi rs1 ++ [')'])) (shows_of (tl_load r _ _ _ id) 0 fun l f o iw => ?_)
    (by cases op <;> decide) (plain_name _ _)
    (plain_mem ..) (F := rm (simm 12) fun d a i => encode (.load op d a i)) (by cases op <;> rfl) ?_
  · outs
    rw [hi, encode, d.2.1, d.2.2.2.1, d.2.2.2.2.1]
    simp [mk]
  · simp only [rm, reg_name, mem_text, simm_itext (n := 12) (by decide), bind, Option.bind, hi]

theorem asm_store (ht : r.trapped = false) (op : StoreOp) (rs2 rs1 : BitVec 5) (imm : BitVec 12)
    (hi : r.w = encode (.store op rs2 rs1 imm)) : Asms r.pc (tStore r) r.w := by
  have d := decode_S imm rs2 rs1 (storeF op) 0x23#7
  have e : tStore r = [setOp (storeText op).toList, putOp, lit " ", nm r (IP.rs2 r.w), lit ",", i32 (IP.immS r.w), lit "(",
      nm r (IP.rs1 r.w), lit ")"] ++ memUpdate r := by
    unfold tStore
    have h3 : IP.funct3 r.w = storeF op := by rw [hi, encode, d.2.1]
    rw [h3, storeSel_enc, ht]
    dsimp only
    rw [if_neg (by decide)]
    rfl
  rw [e]
  refine asms_op2 (op := (storeText op).toList) (a := rfName r.abi rs2)
    (b := itext (imm.signExtend 32) ++ '(' :: (rfName r.abi rs1 ++ [')'])) (shows_of (tl_mem r _ _) 0 fun l f o iw => ?_)
    (by cases op <;> decide) (plain_name _ _)
    (plain_mem ..) (F := rm (simm 12) fun d a i => encode (.store op d a i)) (by cases op <;> rfl) ?_
  · outs
    rw [hi, encode, d.2.2.2.1, d.2.2.1, d.2.2.2.2]
    simp [mk]
  · simp only [rm, reg_name, mem_text, simm_itext (n := 12) (by decide), bind, Option.bind, hi]

theorem dbl_even {n : Nat} (o : BitVec n) : (dbl o).getLsbD 0 = false := by
  unfold dbl; simp

theorem asm_branch (ht : r.trapped = false) (op : BranchOp) (rs1 rs2 : BitVec 5) (off : BitVec 12)
    (hi : r.w = encode (.branch op rs1 rs2 off)) : Asms r.pc (tBranch r) r.w := by
  have d := decode_B (dbl off) (dbl_even off) rs2 rs1 (branchF op) 0x63#7
  have e : tBranch r = [setOp (branchText op).toList, putOp, lit " ", nm r (IP.rs1 r.w), lit ",", nm r (IP.rs2 r.w), lit ",",
      hex, u32 (r.pc + IP.immB r.w), dec] ++ [] := by
    unfold tBranch
    have h3 : IP.funct3 r.w = branchF op := by rw [hi, encode, d.2.1]
    rw [h3, branchSel_enc, ht]
    dsimp only
    rw [if_neg (by decide)]
    rfl
  rw [e]
  refine asms_op3 (op := (branchText op).toList) (a := rfName r.abi rs1) (b := rfName r.abi rs2)
    (c := Nat.toDigits 16 (r.pc + (dbl off).signExtend 32).toNat) (shows_of .nil 0 fun l f o iw => ?_)
    (by cases op <;> decide) (plain_name _ _) (plain_name _ _)
    (plain_toDigits (by decide) (by decide) _) (F := rrt 12 fun a b o => encode (.branch op a b o)) (by cases op <;> rfl) ?_
  · outs
    rw [hi, encode, d.2.2.2.1, d.2.2.1, d.2.2.2.2]
    simp [mk]
  · simp only [rrt, reg_name, offset_hex (n := 12) (by decide) r.pc off _ rfl, bind, Option.bind, hi]

theorem asm_jal (ht : r.trapped = false) (rd : BitVec 5) (off : BitVec 20) (hi : r.w = encode (.jal rd off)) :
    Asms r.pc (tJal r) r.w := by
  have d := decode_J (dbl off) (dbl_even off) rd 0x6f#7
  have e : tJal r = (setOp "jal".toList :: opRd r ++ [lit ",", hex, u32 (r.pc + IP.immJ r.w), dec]) ++ rdUpdate r := by
    unfold tJal trapIf
    rw [ht]
    rfl
  rw [e]
  refine asms_op2 (op := "jal".toList) (a := rfName r.abi rd)
    (b := Nat.toDigits 16 (r.pc + (dbl off).signExtend 32).toNat) (shows_of (tl_rd r) 0 fun l f o iw => ?_)
    (by decide) (plain_name _ _)
    (plain_toDigits (by decide) (by decide) _) (F := rt 20 fun d o => encode (.jal d o)) (by rfl) ?_
  · outs
    rw [hi, encode, d.2.1, d.2.2]
    simp [mk]
  · simp only [rt, reg_name, offset_hex (n := 20) (by decide) r.pc off _ rfl, bind, Option.bind, hi]

theorem asm_jalr (ht : r.trapped = false) (rd rs1 : BitVec 5) (imm : BitVec 12) (hi : r.w = encode (.jalr rd rs1 imm)) :
    Asms r.pc (tJalr r) r.w := by
  have d := decode_I imm rs1 0#3 rd 0x67#7
  have e : tJalr r = ((setOp "jalr".toList :: opRd r ++
      [lit ",", i32 (IP.immI r.w), lit "(", nm r (IP.rs1 r.w), lit ")"]) ++
    (if r.w = 0x8067#32 ∨ r.w = 0x28067#32 then [lit " # ret"] else [])) ++ rdUpdate r := by
    unfold tJalr trapIf
    rw [ht]
    rfl
  rw [e]
  refine asms_op2 (op := "jalr".toList) (a := rfName r.abi rd)
    (b := itext (imm.signExtend 32) ++ '(' :: (rfName r.abi rs1 ++ [')'])) ?_
    (by decide) (plain_name _ _)
    (plain_mem ..) (F := rm (simm 12) fun d a i => encode (.jalr d a i)) (by rfl) ?_
  · split
    · refine shows_ret (tl_rd r) fun l f o iw => ?_
      outs
      rw [hi, encode, d.2.1, d.2.2.2.1, d.2.2.2.2.1]
      simp [mk]
    · refine shows_of (tl_rd r) 0 fun l f o iw => ?_
      outs
      rw [hi, encode, d.2.1, d.2.2.2.1, d.2.2.2.2.1]
      simp [mk]
  · simp only [rm, reg_name, mem_text, simm_itext (n := 12) (by decide), bind, Option.bind, hi]

theorem upper_shift (imm : BitVec 20) : (imm.setWidth 32 <<< 12 : W) >>> 12 = imm.setWidth 32 := by
  apply BitVec.eq_of_toNat_eq
  have := imm.isLt
  rw [BitVec.toNat_ushiftRight, BitVec.toNat_shiftLeft, BitVec.toNat_setWidth, Nat.shiftRight_eq_div_pow, Nat.shiftLeft_eq]
  omega

theorem asm_upper (op : String) (g : BitVec 5 → BitVec 20 → W) (b7 : BitVec 7) (hg : ∀ d i, g d i = encU i d b7)
    (ho : solid op.toList = true) (hf : form op.toList = some (ri (uimm 20) g)) (rd : BitVec 5) (imm : BitVec 20)
    (hi : r.w = encU imm rd b7) : Asms r.pc (tUpper r op) r.w := by
  have d := decode_U imm rd b7
  have e : tUpper r op = (setOp op.toList :: opRd r ++ [lit ", "] ++ fhexn (IP.immU r.w >>> 12) 5) ++ rdUpdate r := rfl
  rw [e]
  refine asms_of (x := op.toList ++ ' ' :: ((rfName r.abi rd ++ [',']) ++ ' ' :: xtext (imm.setWidth 32))) (op := op.toList)
    (args := [rfName r.abi rd, xtext (imm.setWidth 32)])
    (shows_of (tl_rd r) ((5 : Int).toNat - (Nat.toDigits 16 (imm.setWidth 32).toNat).length) fun l f o iw => ?_)
    (fun g hg => ?_) hf ?_
  · outs
    rw [hi, d.2.1, d.2.2, upper_shift]
    simp [mk]
  · have h1 : solid (rfName r.abi rd ++ [',']) = true := by
      rw [solid_append, plain_solid (plain_name _ _)]; decide
    have h2 := plain_xtext (imm.setWidth 32)
    have h3 := tokens_2 (g := g) ho h1 (by simp) (plain_solid h2) (by simp [xtext]) hg
    have h4 : pieces (rfName r.abi rd ++ [','] ++ xtext (imm.setWidth 32)) = [rfName r.abi rd, xtext (imm.setWidth 32)] := by
      rw [List.append_assoc, List.singleton_append, pieces_2 (plain_name _ _) h2]
    rw [h4] at h3
    rw [← h3]
    simp
  · simp only [ri, reg_name, uimm_xtext (n := 20) (by decide), bind, Option.bind, hi, hg]

/-- the instructions whose text the simulator prints in full: every `fence` is printed without its operands -/
def shown : Instr → Prop
  | .fence imm rs1 rd => imm = 0x0ff#12 ∧ rs1 = 0#5 ∧ rd = 0#5
  | .ecall | .ebreak => False
  | _ => True

theorem asm_32 (rv32c simd : Bool) (ht : r.trapped = false) (i : Instr) (hs : shown i) (hi : r.w = encode i) :
    Asms r.pc (tExec32 rv32c simd r) r.w := by
  have ho : ∀ o, IP.opcode r.w = o → tExec32 rv32c simd r = (match o with
      | 0x33#7 => tAluReg r
      | 0x13#7 => tAluImm r
      | 0x03#7 => tLoad r
      | 0x23#7 => tStore r
      | 0x63#7 => tBranch r
      | 0x67#7 => tJalr r
      | 0x6f#7 => tJal r
      | 0x37#7 => tUpper r "lui"
      | 0x17#7 => tUpper r "auipc"
      | 0x73#7 => tSystem rv32c r
      | 0x0f#7 => tMiscMem r
      | 0x0b#7 => if simd then tCustom r else [trap r.msg]
      | _ => [trap r.msg]) := by
    rintro o rfl; rfl
  cases i with
  | alu op rd rs1 rs2 => rw [ho 0x33#7 (by rw [hi, encode, (decode_R ..).1])]; exact asm_alu op rd rs1 rs2 hi
  | alui op rd rs1 imm => rw [ho 0x13#7 (by rw [hi, encode, (decode_I ..).1])]; exact asm_alui op rd rs1 imm hi
  | shift op rd rs1 sh => rw [ho 0x13#7 (by rw [hi, encode, (decode_R ..).1])]; exact asm_shift op rd rs1 sh hi
  | lui rd imm =>
    rw [ho 0x37#7 (by rw [hi, encode, (decode_U ..).1])]
    exact asm_upper "lui" (fun d i => encode (.lui d i)) 0x37#7 (fun _ _ => rfl) (by decide) (by rfl) rd imm hi
  | auipc rd imm =>
    rw [ho 0x17#7 (by rw [hi, encode, (decode_U ..).1])]
    exact asm_upper "auipc" (fun d i => encode (.auipc d i)) 0x17#7 (fun _ _ => rfl) (by decide) (by rfl) rd imm hi
  | load op rd rs1 imm => rw [ho 0x03#7 (by rw [hi, encode, (decode_I ..).1])]; exact asm_load ht op rd rs1 imm hi
  | store op rs2 rs1 imm => rw [ho 0x23#7 (by rw [hi, encode, (decode_S ..).1])]; exact asm_store ht op rs2 rs1 imm hi
  | branch op rs1 rs2 off =>
    rw [ho 0x63#7 (by rw [hi, encode, (decode_B _ (dbl_even off) ..).1])]; exact asm_branch ht op rs1 rs2 off hi
  | jal rd off => rw [ho 0x6f#7 (by rw [hi, encode, (decode_J _ (dbl_even off) ..).1])]; exact asm_jal ht rd off hi
  | jalr rd rs1 imm => rw [ho 0x67#7 (by rw [hi, encode, (decode_I ..).1])]; exact asm_jalr ht rd rs1 imm hi
  | ecall => exact hs.elim
  | ebreak => exact hs.elim
  | mret =>
    have h : r.w = 0x30200073#32 := hi.trans (by decide)
    rw [ho 0x73#7 (by rw [h]; decide)]
    have e : tSystem rv32c r = [setOp "mret".toList, putOp] ++ [] := by
      unfold tSystem
      rw [h]; rfl
    show Asms _ (tSystem rv32c r) _
    rw [e]
    exact asms_0 (op := "mret".toList) (shows_of .nil 0 fun _ _ _ _ => (by outs; simp [mk])) (by decide) (by rfl) (by rw [hi]; rfl)
  | wfi =>
    have h : r.w = 0x10500073#32 := hi.trans (by decide)
    rw [ho 0x73#7 (by rw [h]; decide)]
    have e : tSystem rv32c r = [setOp "wfi".toList, putOp] ++ [] := by
      unfold tSystem
      rw [h]; rfl
    show Asms _ (tSystem rv32c r) _
    rw [e]
    exact asms_0 (op := "wfi".toList) (shows_of .nil 0 fun _ _ _ _ => (by outs; simp [mk])) (by decide) (by rfl) (by rw [hi]; rfl)
  | fence imm rs1 rd =>
    obtain ⟨rfl, rfl, rfl⟩ := hs
    have h : r.w = 0x0ff0000f#32 := hi.trans (by decide)
    rw [ho 0x0f#7 (by rw [h]; decide)]
    have e : tMiscMem r = [setOp "fence".toList, putOp] ++ [] := by
      unfold tMiscMem
      rw [h]; rfl
    show Asms _ (tMiscMem r) _
    rw [e]
    exact asms_0 (op := "fence".toList) (shows_of .nil 0 fun _ _ _ _ => (by outs; simp [mk])) (by decide) (by rfl) (by rw [hi]; rfl)
  | fencei =>
    have h : r.w = 0x100f#32 := hi.trans (by decide)
    rw [ho 0x0f#7 (by rw [h]; decide)]
    have e : tMiscMem r = [setOp "fence.i".toList, putOp] ++ [] := by
      unfold tMiscMem
      rw [h]; rfl
    show Asms _ (tMiscMem r) _
    rw [e]
    exact asms_0 (op := "fence.i".toList) (shows_of .nil 0 fun _ _ _ _ => (by outs; simp [mk])) (by decide) (by rfl) (by rw [hi]; rfl)

end Ama.Dasm
