import Verif.Lemmas.Asm
import Verif.Lemmas.ProfName
/-!
# The text of one instruction
-/
set_option linter.unusedSimpArgs false
namespace Ama.Dasm
open Spec Spec.Asm

/-- a stream in base 10 with no width pending -/
def mk (tx : List Char) (l : Bool) (f : Char) (o : List Char) (iw : Nat) : DS := ⟨tx, l, false, f, 0, o, iw⟩

section
variable (tx : List Char) (l : Bool) (f : Char) (o : List Char) (iw : Nat)
theorem run_nil (d : DS) : run [] d = d := rfl
theorem run_cons (p : P) (ps : List P) (d : DS) : run (p :: ps) d = run ps (p d) := rfl
theorem run_append (ps qs : List P) (d : DS) : run (ps ++ qs) d = run qs (run ps d) := List.foldl_append
theorem str_mk (t : List Char) : str t (mk tx l f o iw) = mk (tx ++ t) l f o iw := by
  unfold str mk
  simp
theorem lit_mk (t : String) : lit t (mk tx l f o iw) = mk (tx ++ t.toList) l f o iw := str_mk ..
theorem nm_mk (r : Rec) (i : BitVec 5) : nm r i (mk tx l f o iw) = mk (tx ++ rfName r.abi i) l f o iw := str_mk ..
theorem i32_mk (v : W) : i32 v (mk tx l f o iw) = mk (tx ++ itext v) l f o iw := by
  rw [← str_mk]; rfl
theorem u32_mk (v : W) : u32 v (mk tx l f o iw) = mk (tx ++ Nat.toDigits 10 v.toNat) l f o iw := by
  rw [← str_mk]; rfl
theorem setOp_mk (s : List Char) : setOp s (mk tx l f o iw) = mk tx l f s iw := rfl
theorem putOp_mk : putOp (mk tx l f o iw) = mk (tx ++ o) l f o iw := str_mk ..
theorem setInstW_mk (n : Nat) : setInstW n (mk tx l f o iw) = mk tx l f o n := rfl
theorem clear_mk : clear (mk tx l f o iw) = mk [] l f o iw := rfl
theorem hexnum_mk (v : W) : dec (u32 v (hex (mk tx l f o iw))) = mk (tx ++ Nat.toDigits 16 v.toNat) l f o iw := by
  unfold dec u32 hex mk str
  simp
theorem fhexn_mk (v : W) (n : Int) : run (fhexn v n) (mk tx l f o iw) =
    mk (tx ++ (xtext v ++ List.replicate (n.toNat - (Nat.toDigits 16 v.toNat).length) ' ')) true ' ' o iw := by
  unfold fhexn run mk
  simp [lit, str, left, setw, setfill, hex, u32, dec, xtext]
end

/-! ## What follows -/

/-- only adds to the text -/
def Ext (p : P) : Prop := ∀ d, ∃ x, (p d).text = d.text ++ x
def ExtL (ps : List P) : Prop := ∀ p ∈ ps, Ext p

theorem ext_str (t : List Char) : Ext (str t) := fun _ => ⟨_, rfl⟩
theorem ext_lit (t : String) : Ext (lit t) := ext_str _
theorem ext_nm (r : Rec) (i : BitVec 5) : Ext (nm r i) := ext_str _
theorem ext_same {p : P} (h : ∀ d, (p d).text = d.text) : Ext p := fun d => ⟨[], by rw [h, List.append_nil]⟩
theorem ext_setw (n : Int) : Ext (setw n) := ext_same fun _ => rfl
theorem ext_setfill (c : Char) : Ext (setfill c) := ext_same fun _ => rfl
theorem ext_hex : Ext hex := ext_same fun _ => rfl
theorem ext_dec : Ext dec := ext_same fun _ => rfl
theorem ext_left : Ext left := ext_same fun _ => rfl
theorem ext_right : Ext right := ext_same fun _ => rfl
theorem ext_u32 (v : W) : Ext (u32 v) := fun _ => ⟨_, rfl⟩
theorem ext_u16 (v : BitVec 16) : Ext (u16 v) := fun _ => ⟨_, rfl⟩

theorem ExtL.nil : ExtL [] := nofun
theorem ExtL.cons {p : P} {ps : List P} (h : Ext p) (hs : ExtL ps) : ExtL (p :: ps) := by
  intro q hq
  rcases List.mem_cons.1 hq with rfl | hq
  · exact h
  · exact hs q hq
theorem ExtL.append {ps qs : List P} (h : ExtL ps) (hs : ExtL qs) : ExtL (ps ++ qs) := by
  intro q hq
  rcases List.mem_append.1 hq with hq | hq
  · exact h q hq
  · exact hs q hq
theorem ExtL.run {ps : List P} (h : ExtL ps) (d : DS) : ∃ x, (run ps d).text = d.text ++ x := by
  induction ps generalizing d with
  | nil => exact ⟨[], (List.append_nil _).symm⟩
  | cons p ps ih =>
    obtain ⟨x, hx⟩ := h p (by simp) d
    obtain ⟨y, hy⟩ := ih (fun q hq => h q (by simp [hq])) (p d)
    exact ⟨x ++ y, by rw [run_cons, hy, hx, List.append_assoc]⟩
theorem ExtL.ite {c : Prop} [Decidable c] {ps qs : List P} (h : ExtL ps) (hs : ExtL qs) :
    ExtL (if c then ps else qs) := by
  split
  · exact h
  · exact hs

theorem align_text (d : DS) : ∃ x, (align d).text = d.text ++ ' ' :: ' ' :: x := by
  have hp : ∀ k, ∃ x, List.replicate k ' ' ++ [' ', ' '] = ' ' :: ' ' :: x := by
    intro k
    match k with
    | 0 => exact ⟨[], rfl⟩
    | 1 => exact ⟨[' '], rfl⟩
    | k + 2 => exact ⟨List.replicate k ' ' ++ [' ', ' '], rfl⟩
  have ha : (align d).text = d.text ++ (if d.left then [' ', ' '] ++ List.replicate ((38 - (d.instW : Int) -
      (d.text.length : Int)).toNat - [' ', ' '].length) ' ' else List.replicate ((38 - (d.instW : Int) -
      (d.text.length : Int)).toNat - [' ', ' '].length) ' ' ++ [' ', ' ']) := rfl
  rw [ha]
  by_cases hl : d.left = true
  · rw [if_pos hl]; exact ⟨_, rfl⟩
  · rw [if_neg hl]
    obtain ⟨x, hx⟩ := hp ((38 - (d.instW : Int) - (d.text.length : Int)).toNat - [' ', ' '].length)
    exact ⟨x, congrArg (d.text ++ ·) hx⟩
theorem ext_align : Ext align := fun d => by
  obtain ⟨x, hx⟩ := align_text d
  exact ⟨_, hx⟩

/-- a list that adds nothing, or starts with an alignment and adds more -/
def Tl (ps : List P) : Prop := ps = [] ∨ ∃ qs, ps = align :: qs ∧ ExtL qs

theorem Tl.nil : Tl [] := .inl rfl
theorem Tl.append {ps qs : List P} (h : Tl ps) (hs : Tl qs) : Tl (ps ++ qs) := by
  rcases h with rfl | ⟨ps, rfl, h⟩
  · exact hs
  · refine .inr ⟨ps ++ qs, rfl, h.append ?_⟩
    rcases hs with rfl | ⟨qs, rfl, hs⟩
    · exact .nil
    · exact .cons ext_align hs
theorem Tl.append' {ps qs : List P} (h : Tl ps) (hs : ExtL qs) (h0 : ps = [] → Tl qs) : Tl (ps ++ qs) := by
  rcases h with rfl | ⟨ps, rfl, h⟩
  · exact h0 rfl
  · exact .inr ⟨ps ++ qs, rfl, h.append hs⟩
theorem Tl.ext {ps : List P} (h : Tl ps) : ExtL ps := by
  rcases h with rfl | ⟨ps, rfl, h⟩
  · exact .nil
  · exact .cons ext_align h

/-- the record of a list of outputs: its text, then an alignment and the lane values -/
def record (ps : List P) (simd : List Char) (d : DS) : List Char := (run [align, str simd] (run ps d)).text

/-- the record starts with `x`, and what follows is not part of the instruction -/
def Shows (ps : List P) (x : List Char) : Prop :=
  ∀ l f o iw sm, ∃ g, record ps sm (mk [] l f o iw) = x ++ g ∧ End g

theorem tl_gap {ps : List P} (h : Tl ps) (sm : List Char) (d : DS) :
    ∃ x, (run [align, str sm] (run ps d)).text = d.text ++ ' ' :: ' ' :: x := by
  rcases h with rfl | ⟨qs, rfl, h⟩
  · obtain ⟨x, hx⟩ := align_text d
    obtain ⟨y, hy⟩ := ext_str sm (align d)
    exact ⟨x ++ y, by rw [run_nil, run_cons, run_cons, run_nil, hy, hx]; simp⟩
  · obtain ⟨x, hx⟩ := align_text d
    obtain ⟨y, hy⟩ := (h.append (.cons ext_align (.cons (ext_str sm) .nil))).run (align d)
    exact ⟨x ++ y, by rw [run_append] at hy; rw [run_cons align qs, hy, hx]; simp⟩
theorem gap_pad (k : Nat) (x : List Char) : End (List.replicate k ' ' ++ ' ' :: ' ' :: x) := by
  match k with
  | 0 => exact .inl ⟨x, rfl⟩
  | 1 => exact .inl ⟨' ' :: x, rfl⟩
  | k + 2 => exact .inl ⟨List.replicate k ' ' ++ ' ' :: ' ' :: x, rfl⟩

theorem shows_of {head tail : List P} {x : List Char} (ht : Tl tail) (k : Nat)
    (h : ∀ l f o iw, (run head (mk [] l f o iw)).text = x ++ List.replicate k ' ') : Shows (head ++ tail) x := by
  intro l f o iw sm
  obtain ⟨y, hy⟩ := tl_gap ht sm (run head (mk [] l f o iw))
  refine ⟨List.replicate k ' ' ++ ' ' :: ' ' :: y, ?_, gap_pad k y⟩
  unfold record
  rw [run_append, hy, h, List.append_assoc]
theorem shows_ret {head tail : List P} {x : List Char} (ht : Tl tail)
    (h : ∀ l f o iw, (run head (mk [] l f o iw)).text = x ++ " # ret".toList) : Shows (head ++ tail) x := by
  intro l f o iw sm
  obtain ⟨y, hy⟩ := tl_gap ht sm (run head (mk [] l f o iw))
  refine ⟨" # ret".toList ++ ' ' :: ' ' :: y, ?_, .inr ⟨y, rfl⟩⟩
  unfold record
  rw [run_append, hy, h, List.append_assoc]

theorem Shows.setInstW {ps : List P} {x : List Char} (h : Shows ps x) (n : Nat) : Shows (setInstW n :: ps) x :=
  fun l f o _ sm => h l f o n sm

/-! ## The notes -/

theorem extl_frf (r : Rec) (i : BitVec 5) : ExtL (frf r i) :=
  .cons ext_left <| .cons (ext_setw _) <| .cons (ext_setfill _) <| .cons (ext_nm _ _) <| .cons (ext_lit _) <|
  .cons ext_right <| .cons (ext_setw _) <| .cons (ext_setfill _) <| .cons ext_hex <| .cons (ext_u32 _) <|
  .cons ext_dec .nil
theorem extl_memAddr (a : W) : ExtL (memAddr a) :=
  .cons (ext_setw _) <| .cons (ext_setfill _) <| .cons ext_hex <| .cons (ext_u32 _) <| .cons ext_dec .nil
theorem extl_fhexz (v : W) (n : Int) : ExtL (fhexz v n) :=
  .cons (ext_lit _) <| .cons (ext_setw _) <| .cons (ext_setfill _) <| .cons ext_hex <| .cons (ext_u32 _) <|
  .cons ext_dec .nil
theorem extl_csrf (r : Rec) (a : BitVec 16) : ExtL (csrf r a) :=
  .cons ext_hex <| .cons (ext_lit _) <| .cons (ext_setw _) <| .cons (ext_setfill _) <| .cons (ext_u16 _) <|
  .cons (ext_lit _) <| .cons ext_left <| .cons (ext_setw _) <| .cons (ext_setfill _) <| .cons (ext_str _) <|
  .cons (ext_lit _) <| .cons ext_right <| .cons (ext_setw _) <| .cons (ext_setfill _) <| .cons (ext_u32 _) <|
  .cons ext_dec <| .cons (ext_setfill _) .nil
theorem tl_rdP (r : Rec) (i : BitVec 5) : Tl (rdUpdateP r i) := by
  unfold rdUpdateP
  split
  · exact .nil
  · exact .inr ⟨_, rfl, extl_frf r i⟩
theorem tl_rd (r : Rec) : Tl (rdUpdate r) := tl_rdP r _
theorem tl_mem (r : Rec) (a : W) (i : BitVec 5) : Tl (memUpdateP r a i) :=
  .inr ⟨_, rfl, ExtL.append (ExtL.append (ExtL.append (.cons (ext_lit _) .nil) (extl_memAddr _))
    (.cons (ext_lit _) <| .cons (ext_nm _ _) <| .cons (ext_lit _) .nil) |>.append (extl_fhexz _ _))
    (.cons (ext_lit _) <| .cons (ext_str _) .nil)⟩
theorem extl_from (a : W) : ExtL (lit " <- mem[" :: memAddr a ++ [lit "]"]) :=
  .append (.cons (ext_lit _) (extl_memAddr _)) (.cons (ext_lit _) .nil)
/-- the notes of a load -/
theorem tl_load (r : Rec) (i j : BitVec 5) (a : W) (hij : i = 0#5 → j = 0#5) :
    Tl (rdUpdateP r i ++ if j = 0#5 then [] else lit " <- mem[" :: memAddr a ++ [lit "]"]) := by
  refine (tl_rdP r i).append' (.ite .nil (extl_from a)) fun h => ?_
  by_cases hi : i = 0#5
  · rw [if_pos (hij hi)]; exact .nil
  · rw [rdUpdateP, if_neg hi] at h; cases h
theorem tl_pair (r : Rec) : Tl (rdUpdate r ++ rdUpdatePair r) := by
  refine (tl_rd r).append' ?_ fun h => ?_
  · unfold rdUpdatePair
    exact .ite .nil (.cons (ext_lit _) (tl_rdP _ _).ext)
  · unfold rdUpdate rdUpdateP at h
    unfold rdUpdatePair
    split at h
    · rename_i h0; rw [if_pos h0]; exact .nil
    · cases h
theorem tl_csr (r : Rec) (c : Prop) [Decidable c] (a : BitVec 16) :
    Tl (rdUpdate r ++ if c then (if IP.rd r.w ≠ 0#5 then [lit "; "] else []) ++ align :: csrf r a else []) := by
  refine (tl_rd r).append' (.ite (.append (.ite (.cons (ext_lit _) .nil) .nil) (.cons ext_align (extl_csrf r a))) .nil)
    fun h => ?_
  unfold rdUpdate rdUpdateP at h
  split at h
  · rename_i h0
    have : (if IP.rd r.w ≠ 0#5 then [lit "; "] else []) = [] := if_neg (fun hn => hn h0)
    rw [this]
    by_cases hc : c
    · rw [if_pos hc]; exact .inr ⟨_, rfl, extl_csrf r a⟩
    · rw [if_neg hc]; exact .nil
  · cases h

end Ama.Dasm
