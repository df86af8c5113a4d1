import Verif.Lemmas.DasmStep
import Verif.Spec.LogNote
/-!
# The stream between records, and the notes in a record
-/
namespace Ama.Dasm
open M Spec
variable {σ : Type} {E : Env σ}

/-! ## Base and width are always restored -/

/-- base 10, no width pending -/
def Clean (d : DS) : Prop := d.hex = false ∧ d.width = 0
theorem Clean.mk_eq {d : DS} (h : Clean d) : d = mk d.text d.left d.fill d.op d.instW := by
  obtain ⟨tx, l, x, f, w, o, iw⟩ := d
  obtain ⟨rfl, rfl⟩ := h
  rfl

/-- outputs that leave base and width as a record needs them -/
def Cl (ps : List P) : Prop := ∀ d, Clean d → Clean (run ps d)
theorem Cl.nil : Cl [] := fun _ h => h
theorem Cl.append {ps qs : List P} (h : Cl ps) (hs : Cl qs) : Cl (ps ++ qs) := fun _ hd => by
  rw [run_append]; exact hs _ (h _ hd)
theorem Cl.consL {p : P} {ps qs : List P} (h : Cl (p :: (ps ++ qs))) : Cl (p :: ps ++ qs) := h
theorem Cl.cons {p : P} {ps : List P} (h : ∀ d, Clean d → Clean (p d)) (hs : Cl ps) : Cl (p :: ps) :=
  fun d hd => hs _ (h _ hd)
theorem Cl.str {t : List Char} {ps : List P} (h : Cl ps) : Cl (str t :: ps) := .cons (fun _ hd => ⟨hd.1, rfl⟩) h
theorem Cl.lit {t : String} {ps : List P} (h : Cl ps) : Cl (lit t :: ps) := .cons (fun _ hd => ⟨hd.1, rfl⟩) h
theorem Cl.nm {r : Rec} {i : BitVec 5} {ps : List P} (h : Cl ps) : Cl (nm r i :: ps) := .cons (fun _ hd => ⟨hd.1, rfl⟩) h
theorem Cl.i32 {v : W} {ps : List P} (h : Cl ps) : Cl (i32 v :: ps) := .cons (fun _ hd => ⟨hd.1, rfl⟩) h
theorem Cl.u32 {v : W} {ps : List P} (h : Cl ps) : Cl (u32 v :: ps) := .cons (fun _ hd => ⟨hd.1, rfl⟩) h
theorem Cl.putOp {ps : List P} (h : Cl ps) : Cl (putOp :: ps) := .cons (fun _ hd => ⟨hd.1, rfl⟩) h
theorem Cl.setOp {t : List Char} {ps : List P} (h : Cl ps) : Cl (setOp t :: ps) := .cons (fun _ hd => hd) h
theorem Cl.setInstW {n : Nat} {ps : List P} (h : Cl ps) : Cl (setInstW n :: ps) := .cons (fun _ hd => hd) h
theorem Cl.clear {ps : List P} (h : Cl ps) : Cl (clear :: ps) := .cons (fun _ hd => hd) h
theorem Cl.trap {m : List Char} {ps : List P} (h : Cl ps) : Cl (trap m :: ps) := .cons (fun _ _ => ⟨rfl, rfl⟩) h
theorem Cl.align {ps : List P} (h : Cl ps) : Cl (align :: ps) := .cons (fun _ hd => ⟨hd.1, rfl⟩) h
theorem Cl.hexnum {v : W} {ps : List P} (h : Cl ps) : Cl (hex :: Ama.Dasm.u32 v :: dec :: ps) :=
  fun _ _ => h _ ⟨rfl, rfl⟩
theorem Cl.hexnumL {v : W} {ps : List P} (h : Cl ps) : Cl (hex :: ([Ama.Dasm.u32 v, dec] ++ ps)) :=
  fun _ _ => h _ ⟨rfl, rfl⟩
theorem Cl.frf (r : Rec) (i : BitVec 5) : Cl (frf r i) := fun _ _ => ⟨rfl, rfl⟩
theorem Cl.csrf (r : Rec) (a : BitVec 16) : Cl (csrf r a) := fun _ _ => ⟨rfl, rfl⟩
theorem Cl.memAddr (a : W) : Cl (memAddr a) := fun _ _ => ⟨rfl, rfl⟩
theorem Cl.fhexz (v : W) (n : Int) : Cl (fhexz v n) := fun _ _ => ⟨rfl, rfl⟩
theorem Cl.fhexn (v : W) (n : Int) : Cl (fhexn v n) := fun _ _ => ⟨rfl, rfl⟩
theorem Cl.ite {c : Prop} [Decidable c] {ps qs : List P} (h : Cl ps) (hs : Cl qs) : Cl (if c then ps else qs) := by
  split
  · exact h
  · exact hs
theorem Cl.pick {c : Prop} [Decidable c] {p q : P} {ps : List P} (h : Cl (p :: ps)) (hs : Cl (q :: ps)) :
    Cl ((if c then p else q) :: ps) := by
  split
  · exact h
  · exact hs
theorem Cl.rdUpdateP (r : Rec) (i : BitVec 5) : Cl (rdUpdateP r i) := .ite .nil (.align (.frf r i))
theorem Cl.rdUpdate (r : Rec) : Cl (rdUpdate r) := .rdUpdateP r _
theorem Cl.opRd (r : Rec) : Cl (opRd r) := .putOp (.lit (.nm .nil))
theorem Cl.opCregh (r : Rec) : Cl (opCregh r) := .putOp (.lit (.nm .nil))
theorem Cl.trapIf (r : Rec) : Cl (trapIf r) := .ite (.trap .nil) .nil
theorem Cl.memUpdateP (r : Rec) (a : W) (i : BitVec 5) : Cl (memUpdateP r a i) :=
  ((((Cl.align (.lit .nil)).append (.memAddr a)).append (.lit (.nm (.lit .nil)))).append (.fhexz _ _)).append (.lit (.str .nil))
theorem Cl.rdUpdatePair (r : Rec) : Cl (rdUpdatePair r) := .ite .nil (.lit (.rdUpdateP _ _))

macro "cl" : tactic => `(tactic| repeat' (first
  | with_reducible exact Cl.nil
  | with_reducible exact Cl.rdUpdate _
  | with_reducible exact Cl.rdUpdateP _ _
  | with_reducible exact Cl.rdUpdatePair _
  | with_reducible exact Cl.opRd _
  | with_reducible exact Cl.opCregh _
  | with_reducible exact Cl.trapIf _
  | with_reducible exact Cl.memUpdateP _ _ _
  | with_reducible exact Cl.csrf _ _
  | with_reducible exact Cl.memAddr _
  | with_reducible exact Cl.fhexn _ _
  | with_reducible apply Cl.consL
  | with_reducible apply Cl.append
  | with_reducible apply Cl.hexnum
  | with_reducible apply Cl.hexnumL
  | with_reducible apply Cl.str
  | with_reducible apply Cl.lit
  | with_reducible apply Cl.nm
  | with_reducible apply Cl.i32
  | with_reducible apply Cl.u32
  | with_reducible apply Cl.putOp
  | with_reducible apply Cl.setOp
  | with_reducible apply Cl.setInstW
  | with_reducible apply Cl.clear
  | with_reducible apply Cl.trap
  | with_reducible apply Cl.align
  | with_reducible apply Cl.ite
  | with_reducible apply Cl.pick
  | split))

theorem cl_exec32 (c sd : Bool) (r : Rec) : Cl (tExec32 c sd r) := by
  unfold tExec32
  split
  · unfold tAluReg; cl
  · unfold tAluImm; cl
  · unfold tLoad; cl
  · unfold tStore memUpdate; cl
  · unfold tBranch; cl
  · unfold tJalr; cl
  · unfold tJal; cl
  · unfold tUpper; cl
  · unfold tUpper; cl
  · unfold tSystem tCsr; cl
  · unfold tMiscMem; cl
  · unfold tCustom tCustomText; cl
  · cl
theorem cl_exec16 (r : Rec) : Cl (tExec16 r) := by
  unfold tExec16
  split
  · unfold tCompressed0 tcAddi4spn tcLw tcSw; cl
  · unfold tCompressed1 tCompressed1Alu tcArith tcJal tcBare tcAddi16sp tcLui tcImmH tcAlu tcJ tcBranch; cl
  · unfold tCompressed2 tcSlli tcLwsp tcSwsp tcJr tcReg tcBare tcJalr; cl
  · cl
theorem cl_exec (c : Cfg) (r : Rec) : Cl (tExec c r) :=
  .ite (.ite (.setInstW (cl_exec16 r)) (.trap .nil)) (.setInstW (cl_exec32 _ _ r))

theorem clean_step {L : LogIn} {d d' : DS} {o : Option (List Char)} {s s' : St σ}
    (h : stepD E L d s = .ok ((o, d'), s')) (hd : Clean d) : Clean d' := by
  have hc : Clean (clear d) := hd
  rcases stepD_split h with ⟨_, _, rfl⟩ | ⟨q0, q1, d1, e1, e2, e3, e4⟩
  · exact hc
  · have h1 : Clean d1 := by
      obtain ⟨_, _, _, _, hx⟩ := stepExecD_split e2
      rcases hx with ⟨_, _, _, _, _, rfl⟩ | ⟨_, _, rfl⟩ | ⟨_, _, _, _, rfl⟩
      · exact cl_exec _ _ _ hc
      · exact ⟨rfl, rfl⟩
      · exact hc
    rcases e4 with ⟨_, _, rfl⟩ | ⟨_, _, _, rfl⟩
    · exact h1
    · exact (Cl.align (.str .nil)) _ h1

/-! ## Hexadecimal of a fixed width -/

open Spec.Log

theorem hexn_zero (n : Nat) : hexn n 0 = List.replicate n '0' := by
  induction n with
  | zero => rfl
  | succ n ih => rw [hexn, Nat.zero_div, ih, List.replicate_succ']; rfl

theorem pad_hex (n v : Nat) (h : v < 16 ^ (n + 1)) :
    List.replicate (n + 1 - (Nat.toDigits 16 v).length) '0' ++ Nat.toDigits 16 v = hexn (n + 1) v := by
  induction n generalizing v with
  | zero =>
    have h : v < 16 := by simpa using h
    rw [Nat.toDigits_of_lt_base h]
    simp [hexn, Nat.mod_eq_of_lt h]
  | succ n ih =>
    by_cases hv : v < 16
    · rw [Nat.toDigits_of_lt_base hv, hexn, Nat.div_eq_of_lt hv, hexn_zero, Nat.mod_eq_of_lt hv]
      rfl
    · rw [Nat.toDigits_of_base_le (by decide) (by omega), hexn, ← ih (v / 16) (by
        rw [Nat.pow_succ] at h; omega)]
      rw [List.length_append, ← List.append_assoc]
      congr 3
      simp

theorem pad_hex8 (v : W) :
    List.replicate (8 - (Nat.toDigits 16 v.toNat).length) '0' ++ Nat.toDigits 16 v.toNat = hexn 8 v.toNat :=
  pad_hex 7 _ (by have := v.isLt; omega)
theorem pad_hex4 (v : BitVec 16) :
    List.replicate (4 - (Nat.toDigits 16 v.toNat).length) '0' ++ Nat.toDigits 16 v.toNat = hexn 4 v.toNat :=
  pad_hex 3 _ (by have := v.isLt; omega)

/-! ## The notes -/

theorem rfName_spec : ∀ abi i, rfName abi i = regName abi i := by decide +kernel
theorem regNote_eq (abi : Bool) (i : BitVec 5) (v : W) : regNote abi i v =
    rfName abi i ++ List.replicate (rfNamesW abi - (rfName abi i).length) ' ' ++ ": 0x".toList ++ hexn 8 v.toNat := by
  rw [rfName_spec]; rfl

theorem frf_text (r : Rec) (i : BitVec 5) {d : DS} (_ : Clean d) :
    (run (frf r i) d).text = d.text ++ regNote r.abi i (r.rf1 i) ∧ (run (frf r i) d).left = false := by
  refine ⟨?_, rfl⟩
  rw [regNote_eq, ← pad_hex8]
  simp [frf, run, nm, lit, str, left, right, setw, setfill, hex, u32, dec]
theorem from_text (a : W) {d : DS} (hd : Clean d) (hl : d.left = false) :
    (run (lit " <- mem[" :: memAddr a ++ [lit "]"]) d).text = d.text ++ loadNote a := by
  unfold loadNote
  rw [← pad_hex8]
  simp [memAddr, run, lit, str, setw, setfill, hex, u32, dec, hl, hd.2]
theorem csrf_text (r : Rec) (a : BitVec 16) {d : DS} (hd : Clean d) (hl : d.left = false) :
    (run (csrf r a) d).text = d.text ++ csrNote a (csrNm a) (r.csr1 a) := by
  unfold csrNote field
  rw [← pad_hex8, ← pad_hex4]
  have : a.toNat % 4294967296 = a.toNat := Nat.mod_eq_of_lt (by have := a.isLt; omega)
  simp [csrf, run, lit, str, setw, setfill, hex, u32, u16, dec, left, right, hl, hd.2, this, csrNamesW]
theorem memUpd_text (r : Rec) (a : W) (i : BitVec 5) {d : DS} (hd : Clean d) (hl : d.left = false) :
    ∃ x y, (run (memUpdateP r a i) d).text = d.text ++ x ++ storeNote r.abi a i (r.rf1 i) ++ y := by
  obtain ⟨x, hx⟩ := ext_align d
  have hc : Clean (align d) := Cl.align .nil d hd
  have hl : (align d).left = false := hl
  refine ⟨x, asciiHint (r.rf1 i) a, ?_⟩
  rw [← hx]
  unfold memUpdateP storeNote
  rw [← pad_hex8, ← pad_hex8, ← rfName_spec]
  generalize he : align d = e at hc hl
  simp [memAddr, fhexz, run, lit, str, setw, setfill, hex, u32, dec, nm, he, hl, hc.2]

theorem note_in {as ns bs : List P} {x : List Char} (L : List Char) {d : DS} (hb : ExtL bs)
    (h : ∃ u v, (run ns (run as d)).text = u ++ x ++ v) : x <:+: record (as ++ ns ++ bs) L d := by
  obtain ⟨u, v, h⟩ := h
  obtain ⟨y, hy⟩ := (hb.append (.cons ext_align (.cons (ext_str L) .nil))).run (run ns (run as d))
  refine ⟨u, v ++ y, ?_⟩
  unfold record
  rw [run_append, run_append, ← run_append bs, hy, h]
  simp

theorem rd_in {as bs : List P} {r : Rec} {i : BitVec 5} (L : List Char) {d : DS} (hi : i ≠ 0#5) (ha : Cl as) (hd : Clean d) (hb : ExtL bs) :
    regNote r.abi i (r.rf1 i) <:+: record (as ++ rdUpdateP r i ++ bs) L d := by
  refine note_in L hb ?_
  rw [rdUpdateP, if_neg hi, run_cons,
    (frf_text r i (show Clean (align (run as d)) from Cl.align .nil _ (ha _ hd))).1]
  exact ⟨_, [], (List.append_nil _).symm⟩

end Ama.Dasm
