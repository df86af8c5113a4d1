import Verif.Lemmas.DasmInst
import Verif.Lemmas.CsrExec
import Verif.Lemmas.ExecC
/-!
# The text of CSR, compressed and SIMD instructions assembles to the instruction
-/
set_option linter.unusedSimpArgs false
namespace Ama.Dasm
open Spec Spec.Asm
variable {r : Rec}

/-! ## CSR -/

theorem csr_name_table : ∀ c, ∀ e ∈ csrEntries c, csr (csrNm e.addr) = some (e.addr.setWidth 12) ∧
    plain (csrNm e.addr) = true := by decide +kernel
theorem csr_name {c : Bool} {a : BitVec 12} (h : csrInfo c (a.setWidth 16) ≠ none) :
    csr (csrNm (a.setWidth 16)) = some a ∧ plain (csrNm (a.setWidth 16)) = true := by
  cases he : csrInfo c (a.setWidth 16) with
  | none => exact absurd he h
  | some e =>
    have := csr_name_table c e (csrInfo_mem he)
    rw [csrInfo_addr he] at this
    refine ⟨?_, this.2⟩
    rw [this.1]
    congr 1
    apply BitVec.eq_of_toNat_eq
    have := a.isLt
    simp only [BitVec.toNat_setWidth]
    omega

theorem csr_sel_some {f3 : BitVec 3} (h0 : f3 ≠ 0#3) (h4 : f3 ≠ 4#3) : ∃ op, csrSel f3 = some op := by
  have : ∀ f3 : BitVec 3, f3 ≠ 0#3 → f3 ≠ 4#3 → (csrSel f3).isSome = true := by decide
  exact Option.isSome_iff_exists.1 (this f3 h0 h4)
theorem csr_forms {f3 : BitVec 3} {op : CsrOp} (h : csrSel f3 = some op) :
    (4#3 ≤ f3 → form (csrText op).toList = some (csrI f3)) ∧
    (¬ 4#3 ≤ f3 → form (csrText op).toList = some (csrR f3)) := by
  unfold csrSel at h
  split at h <;> cases h <;>
    first
    | exact ⟨fun hb => absurd hb (by decide), fun _ => rfl⟩
    | exact ⟨fun _ => rfl, fun hb => absurd (by decide) hb⟩

theorem asm_csr (c : Bool) (ht : r.trapped = false) (a : BitVec 12) (f3 : BitVec 3) (rd rs1 : BitVec 5)
    (h0 : f3 ≠ 0#3) (h4 : f3 ≠ 4#3) (ha : csrInfo c (a.setWidth 16) ≠ none) (hi : r.w = encI a rs1 f3 rd 0x73#7) :
    Asms r.pc (tSystem c r) r.w := by
  have d := decode_I a rs1 f3 rd 0x73#7
  obtain ⟨n1, n2⟩ := csr_name ha
  obtain ⟨op, hop⟩ : ∃ op, csrSel f3 = some op := csr_sel_some h0 h4
  have e1 : tSystem c r = tCsr c r := by
    unfold tSystem
    rw [hi, d.2.2.1, if_pos h0]
  have e : tCsr c r = (setOp (csrText op).toList :: opRd r ++
        [lit ",", str (csrNm (IP.csrAddr r.w)), lit ",",
         (if 4#3 ≤ f3 then u32 (IP.uimmCsr r.w) else nm r (IP.rs1 r.w))]) ++ (rdUpdate r ++
    (if IP.rs1 r.w ≠ 0#5 ∨ 4#3 ≤ f3 then
      (if IP.rd r.w ≠ 0#5 then [lit "; "] else []) ++ align :: csrf r (IP.csrAddr r.w)
     else [])) := by
    unfold tCsr trapIf
    rw [ht]
    have h3 : IP.funct3 r.w = f3 := by rw [hi, d.2.2.1]
    have h5 : IP.csrAddr r.w = a.setWidth 16 := by rw [hi, d.2.2.2.2.2.1]
    rw [h3, h5, hop]
    cases hx : csrInfo c (a.setWidth 16) with
    | none => exact absurd hx ha
    | some e =>
      dsimp only
      rw [if_neg (by decide), List.nil_append, List.append_assoc]
  rw [e1, e]
  by_cases hb : 4#3 ≤ f3
  · refine asms_op3 (op := (csrText op).toList) (a := rfName r.abi rd) (b := csrNm (a.setWidth 16))
      (c := Nat.toDigits 10 (rs1.setWidth 32 : W).toNat)
      (shows_of (tl_csr r _ _) 0 fun l f o iw => ?_) (by cases op <;> decide) (plain_name _ _) n2
      (plain_toDigits (by decide) (by decide) _) (F := csrI f3) ((csr_forms hop).1 hb) ?_
    · outs
      rw [if_pos hb]
      outs
      rw [hi, d.2.1, d.2.2.2.2.2.1, d.2.2.2.2.2.2.1]
      simp [mk]
    · simp only [csrI, reg_name, n1, uimm_dec (n := 5) (by decide), bind, Option.bind, hi]
  · refine asms_op3 (op := (csrText op).toList) (a := rfName r.abi rd) (b := csrNm (a.setWidth 16))
      (c := rfName r.abi rs1)
      (shows_of (tl_csr r _ _) 0 fun l f o iw => ?_) (by cases op <;> decide) (plain_name _ _) n2
      (plain_name _ _) (F := csrR f3) ((csr_forms hop).2 hb) ?_
    · outs
      rw [if_neg hb]
      outs
      rw [hi, d.2.1, d.2.2.2.2.2.1, d.2.2.2.1]
      simp [mk]
    · simp only [csrR, reg_name, n1, bind, Option.bind, hi]

/-! ## SIMD -/

/-- three register operands -/
def kind3 (f7 : BitVec 7) : Prop :=
  f7 = 0x00#7 ∨ f7 = 0x01#7 ∨ f7 = 0x02#7 ∨ f7 = 0x03#7 ∨ f7 = 0x04#7 ∨ f7 = 0x08#7 ∨ f7 = 0x22#7 ∨ f7 = 0x23#7 ∨ f7 = 0x30#7
instance (f7 : BitVec 7) : Decidable (kind3 f7) := by unfold kind3; infer_instance
/-- an immediate -/
def kindI (f7 : BitVec 7) : Prop := f7 = 0x09#7 ∨ f7 = 0x20#7
instance (f7 : BitVec 7) : Decidable (kindI f7) := by unfold kindI; infer_instance
/-- a lane number -/
def kindL (f7 : BitVec 7) (f3 : BitVec 3) : Prop := f7 = 0x3d#7 ∨ f7 = 0x3c#7 ∧ f3 &&& 1#3 ≠ 0#3
instance (f7 : BitVec 7) (f3 : BitVec 3) : Decidable (kindL f7 f3) := by unfold kindL; infer_instance
/-- two registers -/
def kind2 (f7 : BitVec 7) (f3 : BitVec 3) : Prop := f7 = 0x7f#7 ∨ f7 = 0x3c#7 ∧ f3 &&& 1#3 = 0#3
instance (f7 : BitVec 7) (f3 : BitVec 3) : Decidable (kind2 f7 f3) := by unfold kind2; infer_instance

/-- the SIMD part of the mnemonics as data -/
def simdKey : List (String × Nat × W) :=
  [("add16", 0, 0xb#32), ("add8", 0, 0x200b#32), ("sub16", 0, 0x400b#32), ("sub8", 0, 0x600b#32),
   ("qadd16", 0, 0x200000b#32), ("qadd16u", 0, 0x200100b#32), ("qadd8", 0, 0x200200b#32), ("qadd8u", 0, 0x200300b#32),
   ("qsub16", 0, 0x200400b#32), ("qsub16u", 0, 0x200500b#32), ("qsub8", 0, 0x200600b#32), ("qsub8u", 0, 0x200700b#32),
   ("mul16", 0, 0x400000b#32), ("mul8", 0, 0x400200b#32), ("mulh16", 0, 0x400400b#32), ("mulh16u", 0, 0x400500b#32),
   ("mulh8", 0, 0x400600b#32), ("mulh8u", 0, 0x400700b#32),
   ("wmul16", 0, 0x600000b#32), ("wmul16u", 0, 0x600100b#32), ("wmul8", 0, 0x600200b#32), ("wmul8u", 0, 0x600300b#32),
   ("dot16", 0, 0x800000b#32), ("dot16u", 0, 0x800100b#32), ("dot8", 0, 0x800200b#32), ("dot8u", 0, 0x800300b#32),
   ("dot4", 0, 0x800400b#32), ("dot4u", 0, 0x800500b#32), ("dot2", 0, 0x800600b#32), ("dot2u", 0, 0x800700b#32),
   ("min16", 0, 0x1000000b#32), ("min16u", 0, 0x1000100b#32), ("min8", 0, 0x1000200b#32), ("min8u", 0, 0x1000300b#32),
   ("max16", 0, 0x1000400b#32), ("max16u", 0, 0x1000500b#32), ("max8", 0, 0x1000600b#32), ("max8u", 0, 0x1000700b#32),
   ("slli16", 1, 0x1200000b#32), ("slli8", 1, 0x1200200b#32), ("srli16", 1, 0x1200400b#32), ("srli8", 1, 0x1200600b#32),
   ("srai16", 1, 0x1200500b#32), ("srai8", 1, 0x1200700b#32),
   ("widen16", 1, 0x4000600b#32), ("widen16u", 1, 0x4000700b#32), ("widen8", 1, 0x4000000b#32), ("widen8u", 1, 0x4000100b#32),
   ("widen4", 1, 0x4000200b#32), ("widen4u", 1, 0x4000300b#32), ("widen2", 1, 0x4000400b#32), ("widen2u", 1, 0x4000500b#32),
   ("narrow32", 0, 0x4400000b#32), ("narrow16", 0, 0x4400200b#32), ("narrow8", 0, 0x4400400b#32), ("narrow4", 0, 0x4400600b#32),
   ("qnarrow32", 0, 0x4600000b#32), ("qnarrow32u", 0, 0x4600100b#32), ("qnarrow16", 0, 0x4600200b#32),
   ("qnarrow16u", 0, 0x4600300b#32), ("qnarrow8", 0, 0x4600400b#32), ("qnarrow8u", 0, 0x4600500b#32),
   ("qnarrow4", 0, 0x4600600b#32), ("qnarrow4u", 0, 0x4600700b#32),
   ("txp16", 0, 0x6000000b#32), ("txp8", 0, 0x6000200b#32), ("txp4", 0, 0x6000400b#32), ("txp2", 0, 0x6000600b#32),
   ("dup16", 2, 0x7800000b#32), ("dup8", 2, 0x7800200b#32), ("dup4", 2, 0x7800400b#32), ("dup2", 2, 0x7800600b#32),
   ("vins16", 1, 0x7800100b#32), ("vins8", 1, 0x7800300b#32), ("vins4", 1, 0x7800500b#32), ("vins2", 1, 0x7800700b#32),
   ("vext16", 1, 0x7a00000b#32), ("vext16u", 1, 0x7a00100b#32), ("vext8", 1, 0x7a00200b#32), ("vext8u", 1, 0x7a00300b#32),
   ("vext4", 1, 0x7a00400b#32), ("vext4u", 1, 0x7a00500b#32), ("vext2", 1, 0x7a00600b#32), ("vext2u", 1, 0x7a00700b#32),
   ("scp.lcl", 2, 0xfe00000b#32), ("scp.rel", 2, 0xfe00100b#32)]
def build (k : Nat) (m : W) : Form := if k = 0 then x3 m else if k = 1 then xi m else x2 m
theorem simd_key : simd = simdKey.map fun p => (p.1, build p.2.1 p.2.2) := rfl

/-- operands of an operation -/
def kindOf (f7 : BitVec 7) (f3 : BitVec 3) : Nat :=
  if kind3 f7 then 0 else if kindI f7 ∨ kindL f7 f3 then 1 else if kind2 f7 f3 then 2 else 3
theorem simd_table : ∀ (f7 : BitVec 7) (f3 : BitVec 3), (Simd.sel f7 f3).all (fun op =>
    solid (simdText op) && decide (kindOf f7 f3 ≠ 3) &&
      (base ++ compressed).all (fun p => p.1.toList ≠ simdText op) &&
      decide ((simdKey.find? fun p => p.1.toList = simdText op).map Prod.snd =
        some (kindOf f7 f3, encR f7 0#5 0#5 f3 0#5 0x0b#7))) = true := by
  decide +kernel

theorem simd_forms {f7 : BitVec 7} {f3 : BitVec 3} {op : Simd.Op} (h : Simd.sel f7 f3 = some op) :
    solid (simdText op) = true ∧ kindOf f7 f3 ≠ 3 ∧
      form (simdText op) = some (build (kindOf f7 f3) (encR f7 0#5 0#5 f3 0#5 0x0b#7)) := by
  have ht := simd_table f7 f3
  rw [h, Option.all_some, Bool.and_eq_true, Bool.and_eq_true, Bool.and_eq_true, decide_eq_true_iff, decide_eq_true_iff] at ht
  obtain ⟨⟨⟨h1, h2⟩, h3⟩, h4⟩ := ht
  refine ⟨h1, h2, ?_⟩
  unfold form mnemonics
  have h5 : ((base ++ compressed).find? fun p => p.1.toList = simdText op) = none := by
    rw [List.find?_eq_none]
    intro p hp
    have := List.all_eq_true.1 h3 p hp
    simpa using this
  rw [List.find?_append, h5, Option.none_or, simd_key, List.find?_map]
  obtain ⟨q, hq, hq2⟩ := Option.map_eq_some_iff.1 h4
  have h6 : (simdKey.find? ((fun p : String × Form => decide (p.1.toList = simdText op)) ∘
      fun p => (p.1, build p.2.1 p.2.2))) = some q := hq
  rw [h6]
  simp [hq2]

end Ama.Dasm
