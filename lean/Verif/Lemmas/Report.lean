import Verif.Model.Report
import Verif.Spec.StateText
import Verif.Lemmas.Pieces
/-!
# Lemmas on the report
-/
namespace Ama.Report
open Dasm Spec.Folded Spec.StateText Spec.Asm

/-! ## What a chain of `<<` adds to a stream -/

/-- right-adjusted, decimal, no width pending -/
def Calm (d : DS) : Prop := d.width = 0 ∧ d.left = false ∧ d.hex = false
/-- the chain adds the text, and leaves the stream calm -/
def Out (ps : List P) (t : List Char) : Prop := ∀ d, Calm d → Calm (run ps d) ∧ (run ps d).text = d.text ++ t

theorem run_append (a b : List P) (d : DS) : run (a ++ b) d = run b (run a d) := by simp [run, List.foldl_append]
theorem Out.nil : Out [] [] := fun d h => ⟨h, by simp [run]⟩
theorem Out.app {a b : List P} {t u : List Char} (h1 : Out a t) (h2 : Out b u) : Out (a ++ b) (t ++ u) := fun d h => by
  rw [run_append]
  obtain ⟨c1, e1⟩ := h1 d h
  obtain ⟨c2, e2⟩ := h2 _ c1
  exact ⟨c2, by rw [e2, e1, List.append_assoc]⟩
theorem Out.flat {α : Type} {f : α → List P} {t : α → List Char} (l : List α) (h : ∀ a ∈ l, Out (f a) (t a)) :
    Out (l.flatMap f) (l.flatMap t) := by
  induction l with
  | nil => exact Out.nil
  | cons a l ih =>
    rw [List.flatMap_cons, List.flatMap_cons]
    exact (h a (by simp)).app (ih fun b hb => h b (by simp [hb]))
theorem out_str (t : List Char) : Out [str t] t := fun d h => by
  obtain ⟨h1, h2, h3⟩ := h
  refine ⟨⟨rfl, h2, h3⟩, ?_⟩
  show d.text ++ _ = _
  rw [h1, h2]
  simp
theorem out_lit (s : String) : Out [lit s] s.toList := out_str _

/-- padded on the left with `c` -/
def padl (c : Char) (n : Nat) (t : List Char) : List Char := List.replicate (n - t.length) c ++ t
/-- padded on the right with spaces -/
def padr (n : Nat) (t : List Char) : List Char := t ++ List.replicate (n - t.length) ' '
/-- eight hexadecimal digits -/
def hex8 (v : W) : List Char := padl '0' 8 (Nat.toDigits 16 v.toNat)

theorem out_memAddr (a : W) : Out (memAddr a) (hex8 a) := fun d h => by
  obtain ⟨h1, h2, h3⟩ := h
  refine ⟨⟨rfl, h2, rfl⟩, ?_⟩
  show d.text ++ (if d.left = true then _ else _) = _
  rw [h2]
  rfl
theorem out_fhexz (a : W) : Out (fhexz a 8) ("0x".toList ++ hex8 a) := fun d h => by
  obtain ⟨h1, h2, h3⟩ := h
  refine ⟨⟨rfl, h2, rfl⟩, ?_⟩
  show (d.text ++ (if d.left = true then _ else _)) ++ (if d.left = true then _ else _) = _
  rw [h2, h1, ← List.append_assoc]
  rfl
/-- a register -/
def rfText (r : Rec) (i : BitVec 5) : List Char := padr (rfNamesW r.abi) (rfName r.abi i) ++ ": 0x".toList ++ hex8 (r.rf1 i)
theorem out_frf (r : Rec) (i : BitVec 5) : Out (frf r i) (rfText r i) := fun d h => by
  refine ⟨⟨rfl, rfl, rfl⟩, ?_⟩
  show ((d.text ++ padr (rfNamesW r.abi) (rfName r.abi i)) ++ _) ++ hex8 (r.rf1 i) = _
  unfold rfText
  simp only [List.append_assoc]
  rfl
/-- a CSR -/
def csrText (r : Rec) (a : BitVec 16) : List Char :=
  "0x".toList ++ padl '0' 4 (Nat.toDigits 16 a.toNat) ++ [' '] ++ padr 14 (csrNm a) ++ ": 0x".toList ++ hex8 (r.csr1 a)
theorem out_csrf (r : Rec) (a : BitVec 16) : Out (csrf r a) (csrText r a) := fun d h => by
  obtain ⟨tx, l, hx, fi, w, o, iw⟩ := d
  obtain ⟨rfl, rfl, rfl⟩ : w = 0 ∧ l = false ∧ hx = false := h
  refine ⟨⟨rfl, rfl, rfl⟩, ?_⟩
  have ha : (a.setWidth 32 : W).toNat = a.toNat := by
    rw [BitVec.toNat_setWidth]; omega
  show ((((((tx ++ "0x".toList) ++ padl '0' 4 (Nat.toDigits 16 (a.setWidth 32 : W).toNat)) ++ [' ']) ++
    padr 14 (csrNm a)) ++ ": 0x".toList) ++ hex8 (r.csr1 a)) = tx ++ _
  rw [ha]
  unfold csrText
  simp only [List.append_assoc]
theorem out_u32 (v : W) : Out [u32 v] (Nat.toDigits 10 v.toNat) := fun d h => by
  obtain ⟨c, e⟩ := out_str (Nat.toDigits 10 v.toNat) d h
  have : run [u32 v] d = run [str (Nat.toDigits 10 v.toNat)] d := by
    show str (Nat.toDigits (if d.hex = true then 16 else 10) v.toNat) d = _
    rw [h.2.2]
    rfl
  rw [this]
  exact ⟨c, e⟩
theorem out_u64 (v : BitVec 64) : Out [u64 v] (Nat.toDigits 10 v.toNat) := fun d h => by
  obtain ⟨c, e⟩ := out_str (Nat.toDigits 10 v.toNat) d h
  have : run [u64 v] d = run [str (Nat.toDigits 10 v.toNat)] d := by
    show str (Nat.toDigits (if d.hex = true then 16 else 10) v.toNat) d = _
    rw [h.2.2]
    rfl
  rw [this]
  exact ⟨c, e⟩
theorem out_hex (v : W) : Out [hex, u32 v, dec] (Nat.toDigits 16 v.toNat) := fun d h => by
  obtain ⟨tx, l, hx, fi, w, o, iw⟩ := d
  obtain ⟨rfl, rfl, rfl⟩ : w = 0 ∧ l = false ∧ hx = false := h
  refine ⟨⟨rfl, rfl, rfl⟩, ?_⟩
  show tx ++ padl fi 0 (Nat.toDigits 16 v.toNat) = tx ++ _
  simp [padl]
theorem out_dec : Out [dec] [] := fun d h => ⟨⟨h.1, h.2.1, rfl⟩, by simp [run, dec]⟩

/-! ## The lines -/

/-- three indents -/
def ind : List Char := List.replicate 12 ' '
theorem out_indent : Out indent3 ind := by
  have := ((out_lit "    ").app (out_lit "    ")).app (out_lit "    ")
  exact this
/-- the line of the `pc`, without its end -/
def pcLine (r : Rec) : List Char := ind ++ "PC: ".toList ++ hex8 r.pc
/-- a row of registers -/
def rowLine (r : Rec) (i : Nat) : List Char := ind ++ (List.range 4).flatMap fun j => rfText r (BitVec.ofNat 5 (4 * i + j)) ++ "   ".toList
/-- a CSR -/
def csrLineT (r : Rec) (a : BitVec 16) : List Char := ind ++ csrText r a
/-- the lines of the state -/
def stateLines (r : Rec) (b : Bool) : List (List Char) :=
  pcLine r :: (List.range 8).map (rowLine r) ++ if b then csrOrder.map fun a => csrLineT r a.1 else []
/-- lines, each ended -/
def endl (l : List (List Char)) : List Char := l.flatMap fun x => x ++ ['\n']
theorem endl_append (a b : List (List Char)) : endl (a ++ b) = endl a ++ endl b := by simp [endl]
theorem endl_map {α : Type} (l : List α) (f : α → List Char) : endl (l.map f) = l.flatMap fun a => f a ++ ['\n'] := by
  simp [endl, List.flatMap_map]

theorem out_pc (r : Rec) : Out (pcP r) (pcLine r ++ ['\n']) := by
  have := ((out_indent.app (out_lit "PC: ")).app (out_memAddr r.pc)).app (out_lit "\n")
  exact this
theorem out_row (r : Rec) (i : Nat) : Out (rowP r i) (rowLine r i ++ ['\n']) :=
  (out_indent.app (Out.flat _ fun j _ => (out_frf r _).app (out_lit "   "))).app (out_lit "\n")
theorem out_csrP (r : Rec) (a : BitVec 16) : Out (csrP r a) (csrLineT r a ++ ['\n']) :=
  (out_indent.app (out_csrf r a)).app (out_lit "\n")
theorem out_csrs (r : Rec) (b : Bool) (l : List (BitVec 16 × List Char)) :
    Out (if b then l.flatMap (fun a => csrP r a.1) else []) (endl (if b then l.map (fun a => csrLineT r a.1) else [])) := by
  cases b
  · exact Out.nil
  · rw [if_pos rfl, if_pos rfl, endl_map]
    exact Out.flat l fun a _ => out_csrP r a.1
theorem printState_text (r : Rec) (b : Bool) : printState r b = endl (stateLines r b) := by
  have h := ((out_pc r).app (Out.flat (List.range 8) fun i _ => out_row r i)).app (out_csrs r b csrOrder)
  have e := (h DS.init ⟨rfl, rfl, rfl⟩).2
  unfold printState
  rw [e]
  show [] ++ _ = _
  unfold stateLines
  rw [List.nil_append, endl_append, show ∀ (x : List Char) l, endl (x :: l) = (x ++ ['\n']) ++ endl l from fun x l => by simp [endl],
    endl_map]

/-! ## Words -/

theorem words_nil : words [] = [] := rfl
theorem words_sep {c : Char} (hc : c = ' ' ∨ c = ':') (l : List Char) : words (c :: l) = words l := by
  unfold words
  have : (if c = ':' then ' ' else c) = ' ' := by
    rcases hc with rfl | rfl <;> rfl
  rw [List.map_cons, this]
  have := Perf.pieces_part (sep := ' ') (a := []) (by simp) (l.map fun c => if c = ':' then ' ' else c)
  rw [List.nil_append] at this
  rw [this]
  rfl
/-- characters of a word -/
def Solid (w : List Char) : Prop := w ≠ [] ∧ ∀ c ∈ w, c ≠ ' ' ∧ c ≠ ':' ∧ c ≠ '\n'
theorem Solid.map {w : List Char} (h : Solid w) : w.map (fun c => if c = ':' then ' ' else c) = w := by
  refine (List.map_congr_left fun c hc => ?_).trans (List.map_id w)
  rw [if_neg (h.2 c hc).2.1]
  rfl
theorem words_word {w : List Char} (h : Solid w) {c : Char} (hc : c = ' ' ∨ c = ':') (l : List Char) :
    words (w ++ c :: l) = w :: words l := by
  unfold words
  have : (if c = ':' then ' ' else c) = ' ' := by
    rcases hc with rfl | rfl <;> rfl
  rw [List.map_append, h.map, List.map_cons, this, Perf.pieces_part (fun hm => (h.2 _ hm).1 rfl), List.filter_cons_of_pos (by simpa using h.1)]
theorem words_end {w : List Char} (h : Solid w) : words w = [w] := by
  unfold words
  rw [h.map, Perf.pieces_last (fun hm => (h.2 _ hm).1 rfl), List.filter_cons_of_pos (by simpa using h.1)]
  rfl
theorem words_spaces (n : Nat) (l : List Char) : words (List.replicate n ' ' ++ l) = words l := by
  induction n with
  | zero => rfl
  | succ n ih => rw [List.replicate_succ, List.cons_append, words_sep (.inl rfl), ih]
theorem words_pad {w : List Char} (h : Solid w) (n : Nat) (l : List Char) :
    words (w ++ List.replicate n ' ' ++ ':' :: l) = w :: words l := by
  cases n with
  | zero =>
    rw [List.replicate_zero, List.append_nil]
    exact words_word h (.inr rfl) l
  | succ n =>
    rw [List.replicate_succ, List.append_assoc, List.cons_append, words_word h (.inl rfl), words_spaces, words_sep (.inr rfl)]

/-! ## Numbers -/

theorem padl_mem {n k : Nat} {c : Char} (h : c ∈ padl '0' n (Nat.toDigits 16 k)) : ∃ d, d < 16 ∧ c = Nat.digitChar d := by
  unfold padl at h
  rcases List.mem_append.1 h with h | h
  · exact ⟨0, by omega, (List.eq_of_mem_replicate h)⟩
  · exact mem_toDigits (by omega) k h
theorem hexChar {d : Nat} (h : d < 16) : let c := Nat.digitChar d
    c ≠ ' ' ∧ c ≠ ':' ∧ c ≠ '\n' ∧ c ≠ 'h' := by
  interval_cases d <;> decide
theorem padl_ne (n k : Nat) : padl '0' n (Nat.toDigits 16 k) ≠ [] := by
  unfold padl
  intro h
  exact Nat.toDigits_ne_nil (List.append_eq_nil_iff.1 h).2
theorem digits_zeros (b n : Nat) (hb : 0 < b) (l : List Char) : digits? b 0 (List.replicate n '0' ++ l) = digits? b 0 l := by
  induction n with
  | zero => rfl
  | succ n ih =>
    rw [List.replicate_succ, List.cons_append, digits?, show digit? '0' = some 0 from by decide]
    simp only [hb, if_true, Nat.zero_mul, Nat.add_zero]
    exact ih
theorem nat_padl (n k : Nat) : nat? 16 (padl '0' n (Nat.toDigits 16 k)) = some k := by
  unfold nat?
  rw [if_neg (padl_ne n k)]
  unfold padl
  rw [digits_zeros 16 _ (by omega)]
  exact digits_toDigits (by omega) (by omega) k
theorem padl_length {n k : Nat} (hn : 0 < n) (h : k < 16 ^ n) : (padl '0' n (Nat.toDigits 16 k)).length = n := by
  have := (Nat.length_toDigits_le_iff (b := 16) (n := k) (k := n) (by omega) hn).2 h
  unfold padl
  rw [List.length_append, List.length_replicate]
  omega
theorem hex8_length (v : W) : (hex8 v).length = 8 := padl_length (by omega) (by have := v.isLt; omega)
theorem hexWord_hex8 (v : W) : hexWord ("0x".toList ++ hex8 v) = some v.toNat := nat_padl 8 v.toNat
theorem solid_hex8 (v : W) : Solid (hex8 v) := ⟨padl_ne _ _, fun c hc => by
  obtain ⟨d, hd, rfl⟩ := padl_mem hc
  obtain ⟨h1, h2, h3, _⟩ := hexChar hd
  exact ⟨h1, h2, h3⟩⟩
theorem solid_0x {w : List Char} (h : Solid w) : Solid ("0x".toList ++ w) := ⟨by simp, fun c hc => by
  rcases List.mem_append.1 hc with hc | hc
  · exact (by decide : ∀ c ∈ "0x".toList, c ≠ ' ' ∧ c ≠ ':' ∧ c ≠ '\n') c hc
  · exact h.2 c hc⟩
theorem hex8_inj {v w : W} (h : hex8 v = hex8 w) : v = w := by
  have := nat_padl 8 v.toNat
  rw [show padl '0' 8 (Nat.toDigits 16 v.toNat) = hex8 v from rfl, h, show hex8 w = padl '0' 8 (Nat.toDigits 16 w.toNat) from rfl,
    nat_padl] at this
  exact (BitVec.eq_of_toNat_eq (Option.some.inj this)).symm
end Ama.Report
