import Verif.Lemmas.Report
import Verif.Props.Finish
import Verif.Props.PerfText
/-!
# C97: the report reads back as the state, and the scripts judge a run by it
-/
namespace Ama.Report
open Dasm Spec.Folded Spec.StateText Spec.Asm M
variable {σ : Type}

/-! ## Reading the state -/

theorem name_solid (abi : Bool) (i : BitVec 5) : Solid (rfName abi i) ∧ 'h' ∉ rfName abi i := by
  unfold Solid
  revert i abi
  decide +kernel
theorem csr_solid : ∀ a ∈ csrOrder, (Solid a.2 ∧ a.2 = csrNm a.1) ∧ (csrNm a.1).length ≤ 14 := by
  unfold Solid
  decide +kernel
/-- by increasing address -/
theorem csr_sorted : csrOrder.Pairwise (fun a b => a.1.toNat < b.1.toNat) ∧ ∀ a, a ∈ csrOrder ↔ a ∈ csrNames := by
  refine ⟨by decide +kernel, fun a => ?_⟩
  have : ∀ l : List (BitVec 16 × List Char), a ∈ l.foldr insertAddr [] ↔ a ∈ l := by
    intro l
    have hi : ∀ (b : BitVec 16 × List Char) m, a ∈ insertAddr b m ↔ a = b ∨ a ∈ m := by
      intro b m
      induction m with
      | nil => simp [insertAddr]
      | cons x m ih =>
        unfold insertAddr
        split
        · simp
        · rw [List.mem_cons, ih, List.mem_cons]
          exact or_left_comm
    induction l with
    | nil => rfl
    | cons b l ih =>
      rw [List.foldr_cons, hi, List.mem_cons]
      exact ⟨Or.imp_right ih.1, Or.imp_right ih.2⟩
  exact this csrNames

theorem words_rf (r : Rec) (i : BitVec 5) (l : List Char) :
    words (rfText r i ++ "   ".toList ++ l) = rfName r.abi i :: ("0x".toList ++ hex8 (r.rf1 i)) :: words l := by
  have e : rfText r i ++ "   ".toList ++ l = rfName r.abi i ++ List.replicate (rfNamesW r.abi - (rfName r.abi i).length) ' ' ++
      ':' :: ' ' :: (("0x".toList ++ hex8 (r.rf1 i)) ++ ' ' :: ' ' :: ' ' :: l) := by
    unfold rfText padr
    simp
  rw [e, words_pad (name_solid _ _).1, words_sep (.inl rfl), words_word (solid_0x (solid_hex8 _)) (.inl rfl), words_sep (.inl rfl),
    words_sep (.inl rfl)]
theorem words_row (r : Rec) (i : Nat) :
    pairs (words (rowLine r i)) =
      some ((List.range 4).map fun j => (rfName r.abi (BitVec.ofNat 5 (4 * i + j)), (r.rf1 (BitVec.ofNat 5 (4 * i + j))).toNat)) := by
  unfold rowLine
  rw [show ind = List.replicate 12 ' ' from rfl, words_spaces]
  generalize List.range 4 = l
  induction l with
  | nil => rfl
  | cons j l ih =>
    rw [List.flatMap_cons, words_rf, pairs, hexWord_hex8, ih]
    rfl
theorem words_pcLine (r : Rec) : words (pcLine r) = ["PC".toList, hex8 r.pc] := by
  unfold pcLine
  rw [show ind = List.replicate 12 ' ' from rfl, List.append_assoc, words_spaces]
  have : "PC: ".toList ++ hex8 r.pc = "PC".toList ++ ':' :: ' ' :: hex8 r.pc := rfl
  rw [this, words_word (by unfold Solid; decide) (.inr rfl), words_sep (.inl rfl), words_end (solid_hex8 _)]
theorem words_csr (r : Rec) {a : BitVec 16 × List Char} (h : a ∈ csrOrder) :
    words (csrLineT r a.1) = ["0x".toList ++ padl '0' 4 (Nat.toDigits 16 a.1.toNat), a.2, "0x".toList ++ hex8 (r.csr1 a.1)] := by
  obtain ⟨⟨h1, h2⟩, -⟩ := csr_solid a h
  unfold csrLineT
  rw [show ind = List.replicate 12 ' ' from rfl, words_spaces]
  have e : csrText r a.1 = ("0x".toList ++ padl '0' 4 (Nat.toDigits 16 a.1.toNat)) ++ ' ' ::
      (a.2 ++ List.replicate (14 - a.2.length) ' ' ++ ':' :: ' ' :: ("0x".toList ++ hex8 (r.csr1 a.1))) := by
    unfold csrText padr
    rw [← h2]
    simp
  have hs : Solid (padl '0' 4 (Nat.toDigits 16 a.1.toNat)) := ⟨padl_ne _ _, fun c hc => by
    obtain ⟨d, hd, rfl⟩ := padl_mem hc
    obtain ⟨h1, h2, h3, _⟩ := hexChar hd
    exact ⟨h1, h2, h3⟩⟩
  rw [e, words_word (solid_0x hs) (.inl rfl), words_pad h1, words_sep (.inl rfl), words_end (solid_0x (solid_hex8 _))]

theorem nl_hex8 (v : W) : '\n' ∉ hex8 v := fun h => ((solid_hex8 v).2 _ h).2.2 rfl
theorem nl_pad {w : List Char} (h : Solid w) (n : Nat) : '\n' ∉ padr n w := by
  unfold padr
  rw [List.mem_append, not_or]
  exact ⟨fun hm => (h.2 _ hm).2.2 rfl, fun hm => absurd (List.eq_of_mem_replicate hm) (by decide)⟩
theorem nl_rf (r : Rec) (i : BitVec 5) : '\n' ∉ rfText r i := by
  unfold rfText
  simp only [List.mem_append, not_or]
  exact ⟨⟨nl_pad (name_solid _ _).1 _, by decide⟩, nl_hex8 _⟩
theorem nl_csr (r : Rec) {a : BitVec 16 × List Char} (h : a ∈ csrOrder) : '\n' ∉ csrText r a.1 := by
  obtain ⟨⟨h1, h2⟩, -⟩ := csr_solid a h
  unfold csrText
  rw [← h2]
  simp only [List.mem_append, not_or]
  refine ⟨⟨⟨⟨⟨by decide, fun hm => ?_⟩, by decide⟩, nl_pad h1 _⟩, by decide⟩, nl_hex8 _⟩
  obtain ⟨d, hd, e⟩ := padl_mem hm
  exact (hexChar hd).2.2.1 e.symm
theorem nl_state (r : Rec) (b : Bool) : ∀ l ∈ stateLines r b, '\n' ∉ l := by
  intro l hl
  unfold stateLines at hl
  rcases List.mem_append.1 hl with hl | hl
  · rcases List.mem_cons.1 hl with rfl | hl
    · unfold pcLine
      simp only [List.mem_append, not_or]
      exact ⟨⟨by decide, by decide⟩, nl_hex8 _⟩
    · obtain ⟨i, _, rfl⟩ := List.mem_map.1 hl
      unfold rowLine
      simp only [List.mem_append, not_or, List.mem_flatMap, not_exists, not_and]
      exact ⟨by decide, fun j _ => ⟨nl_rf r _, by decide⟩⟩
  · cases b with
    | false => cases hl
    | true =>
      rw [if_pos rfl] at hl
      obtain ⟨a, ha, rfl⟩ := List.mem_map.1 hl
      unfold csrLineT
      rw [List.mem_append, not_or]
      exact ⟨by decide, nl_csr r ha⟩

theorem mapM_map {α β γ : Type} {f : β → Option γ} {g : α → β} {h : α → γ} (l : List α) (e : ∀ a ∈ l, f (g a) = some (h a)) :
    (l.map g).mapM f = some (l.map h) := by
  induction l with
  | nil => rfl
  | cons a l ih =>
    rw [List.map_cons, List.mapM_cons, e a (by simp), ih fun b hb => e b (by simp [hb])]
    rfl

theorem csr_part (r : Rec) (l : List (BitVec 16 × List Char)) (h : ∀ a ∈ l, a ∈ csrOrder) :
    (((l.map fun a => csrLineT r a.1).map words ++ [[]].map words).filter (fun x => decide (x ≠ []))).mapM csrLine =
      some (l.map fun a => (a.1.toNat, a.2, (r.csr1 a.1).toNat)) := by
  have e : (l.map fun a => csrLineT r a.1).map words =
      l.map fun a => ["0x".toList ++ padl '0' 4 (Nat.toDigits 16 a.1.toNat), a.2, "0x".toList ++ hex8 (r.csr1 a.1)] := by
    rw [List.map_map]
    exact List.map_congr_left fun a ha => words_csr r (h a ha)
  have e2 : ([[]].map words).filter (fun x => decide (x ≠ ([] : List (List Char)))) = [] := rfl
  rw [e, List.filter_append, e2, List.append_nil, List.filter_eq_self.2 fun x hx => by
    obtain ⟨a, _, rfl⟩ := List.mem_map.1 hx
    rfl]
  refine mapM_map l fun a _ => ?_
  unfold csrLine
  simp only
  rw [hexWord_hex8, show hexWord ("0x".toList ++ padl '0' 4 (Nat.toDigits 16 a.1.toNat)) = some a.1.toNat from nat_padl 4 _]

/-- the registers, by number -/
def regs (r : Rec) : List (List Char × Nat) := (List.range 32).map fun i => (rfName r.abi (BitVec.ofNat 5 i), (r.rf1 (BitVec.ofNat 5 i)).toNat)
theorem rows_regs (r : Rec) : ((List.range 8).map fun i => (List.range 4).map fun j =>
    (rfName r.abi (BitVec.ofNat 5 (4 * i + j)), (r.rf1 (BitVec.ofNat 5 (4 * i + j))).toNat)).flatten = regs r := rfl

/-- **C97**: the state that is shown reads back as the `pc`, the thirty-two registers under their names and, if asked for, every
CSR with its address and name, in the order of the addresses. -/
theorem state_reads (r : Rec) (b : Bool) :
    readState (printState r b) = some (r.pc.toNat, regs r,
      if b then csrOrder.map fun a => (a.1.toNat, a.2, (r.csr1 a.1).toNat) else []) := by
  rw [printState_text]
  unfold readState endl
  have ep := Perf.pieces_flat (sep := '\n') (fun x => x) (stateLines r b) (nl_state r b)
  rw [ep, List.map_id', List.map_append]
  unfold stateLines
  rw [List.cons_append, List.map_cons, words_pcLine, List.cons_append, List.map_append]
  simp only
  rw [if_pos trivial, show nat? 16 (hex8 r.pc) = some r.pc.toNat from nat_padl 8 _]
  have hlen : (((List.range 8).map (rowLine r)).map words).length = 8 := by simp
  rw [List.append_assoc, List.take_left' hlen, List.drop_left' hlen, List.map_map,
    mapM_map (f := pairs) (g := words ∘ rowLine r) _ fun i _ => words_row r i]
  cases b with
  | false =>
    rw [if_neg (by decide), if_neg (by decide)]
    exact congrArg (fun x => some (r.pc.toNat, x, ([] : List (Nat × List Char × Nat)))) (rows_regs r)
  | true =>
    rw [if_pos rfl, if_pos rfl, csr_part r csrOrder fun a h => h]
    generalize csrOrder.map (fun a => (a.1.toNat, a.2, (r.csr1 a.1).toNat)) = q
    exact congrArg (fun x => some (r.pc.toNat, x, q)) (rows_regs r)

/-- **C97**: `sim.check` reads back as the number of instructions, the registers, the `pc` and `tohost`. -/
theorem check_reads (p : Finish.Report) : readCheck (check p) =
    some (p.insts.toNat, ((List.range 32).map fun i => (p.rf (BitVec.ofNat 5 i)).toNat) ++ [p.pc.toNat, p.tohost.toNat]) := by
  have h := ((((((out_dec.app (out_u64 p.insts)).app (out_lit "\n")).app (Out.flat (List.range 32) fun i _ =>
    (out_fhexz (p.rf (BitVec.ofNat 5 i))).app (out_lit "\n"))).app (out_lit "0x")).app (out_memAddr p.pc)).app (out_lit "\n")).app
    ((out_fhexz p.tohost).app (out_lit "\n"))
  have e := (h DS.init ⟨rfl, rfl, rfl⟩).2
  have hc : check p = endl (Nat.toDigits 10 p.insts.toNat :: ((List.range 32).map (fun i => "0x".toList ++ hex8 (p.rf (BitVec.ofNat 5 i))) ++
      ["0x".toList ++ hex8 p.pc, "0x".toList ++ hex8 p.tohost])) := by
    unfold check
    simp only [List.append_assoc] at e ⊢
    refine e.trans ?_
    rw [show ∀ (x : List Char) l, endl (x :: l) = x ++ ('\n' :: endl l) from fun x l => by simp [endl], endl_append, endl_map]
    simp [endl, DS.init]
  have hnl : ∀ l ∈ Nat.toDigits 10 p.insts.toNat :: ((List.range 32).map (fun i => "0x".toList ++ hex8 (p.rf (BitVec.ofNat 5 i))) ++
      ["0x".toList ++ hex8 p.pc, "0x".toList ++ hex8 p.tohost]), '\n' ∉ l ∧ l ≠ [] := by
    intro l hl
    have hx : ∀ v : W, '\n' ∉ "0x".toList ++ hex8 v ∧ "0x".toList ++ hex8 v ≠ [] := fun v =>
      ⟨by rw [List.mem_append, not_or]; exact ⟨by decide, nl_hex8 v⟩, by simp⟩
    simp only [List.mem_cons, List.mem_append, List.mem_map, List.not_mem_nil, or_false] at hl
    rcases hl with rfl | ⟨i, _, rfl⟩ | rfl | rfl
    · exact ⟨fun hm => (Perf.digit_ws _ _ hm).2 rfl, Nat.toDigits_ne_nil⟩
    · exact hx _
    · exact hx _
    · exact hx _
  unfold readCheck
  rw [hc]
  unfold endl
  rw [Perf.pieces_flat (sep := '\n') (fun x => x) _ fun l hl => (hnl l hl).1, List.map_id', List.filter_append,
    List.filter_eq_self.2 fun l hl => by simpa using (hnl l hl).2, List.filter_cons_of_neg (by simp), List.filter_nil, List.append_nil]
  simp only
  rw [nat_toDigits (by omega) (by omega)]
  have e2 : ((List.range 32).map (fun i => "0x".toList ++ hex8 (p.rf (BitVec.ofNat 5 i))) ++ ["0x".toList ++ hex8 p.pc, "0x".toList ++ hex8 p.tohost]) =
      (((List.range 32).map fun i => p.rf (BitVec.ofNat 5 i)) ++ [p.pc, p.tohost]).map fun v => "0x".toList ++ hex8 v := by
    rw [List.map_append, List.map_map]
    rfl
  rw [e2, mapM_map (h := fun v => v.toNat) _ fun v _ => hexWord_hex8 v, List.map_append, List.map_map]
  rfl

/-! ## What the scripts look for -/

theorem in_split {p : List Char} (hp : p ≠ []) {c : Char} (hc : c ∉ p) (a b : List Char) : In p (a ++ c :: b) ↔ In p a ∨ In p b := by
  constructor
  · rintro ⟨x, y, h⟩
    rw [List.append_assoc] at h
    rcases List.append_eq_append_iff.1 h with ⟨z, hz, h2⟩ | ⟨z, hz, h2⟩
    · cases z with
      | nil =>
        cases p with
        | nil => exact absurd rfl hp
        | cons q p =>
          rw [List.nil_append, List.cons_append] at h2
          injection h2 with h2 _
          exact absurd (by simp [h2]) hc
      | cons q z =>
        rw [List.cons_append] at h2
        injection h2 with _ h2
        exact .inr ⟨z, y, by rw [h2, List.append_assoc]⟩
    · rcases List.append_eq_append_iff.1 h2 with ⟨u, hu, h3⟩ | ⟨u, hu, h3⟩
      · exact .inl ⟨x, u, by rw [hz, hu, List.append_assoc]⟩
      · cases u with
        | nil =>
          rw [List.append_nil] at hu
          exact .inl ⟨x, [], by rw [hz, hu, List.append_nil]⟩
        | cons q u =>
          rw [List.cons_append] at h3
          injection h3 with h3 _
          exact absurd (by rw [hu, h3]; simp) hc
  · rintro (⟨x, y, rfl⟩ | ⟨x, y, rfl⟩)
    · exact ⟨x, y ++ c :: b, by simp⟩
    · exact ⟨a ++ c :: x, y, by simp⟩
theorem in_nil {p : List Char} (hp : p ≠ []) : ¬ In p [] := by
  rintro ⟨x, y, h⟩
  have := (List.append_eq_nil_iff.1 h.symm).1
  exact hp (List.append_eq_nil_iff.1 this).2
theorem in_endl {p : List Char} (hp : p ≠ []) (hc : '\n' ∉ p) (l : List (List Char)) (b : List Char) :
    In p (endl l ++ b) ↔ (∃ x ∈ l, In p x) ∨ In p b := by
  induction l with
  | nil => simp [endl]
  | cons x l ih =>
    have e : endl (x :: l) ++ b = x ++ '\n' :: (endl l ++ b) := by simp [endl]
    rw [e, in_split hp hc, ih]
    simp only [List.mem_cons, exists_eq_or_imp, or_assoc]
theorem in_char {p l : List Char} {c : Char} (hc : c ∈ p) (hl : c ∉ l) : ¬ In p l := by
  rintro ⟨x, y, rfl⟩
  exact hl (by simp [hc])

/-- the line of `tohost` without its indentation -/
def tohostLine (v : W) : List Char := "0x051e tohost        : 0x".toList ++ hex8 v
/-- what the scripts look for -/
def wanted (v : W) : List Char := "    ".toList ++ tohostLine v
theorem pass_wanted : passString = wanted 1#32 ∧ earlyString = wanted 0xf0000000#32 := by decide +kernel
theorem wanted_ne (v : W) : wanted v ≠ [] := by simp [wanted]
theorem wanted_chars (v : W) : 'h' ∈ wanted v ∧ '\n' ∉ wanted v ∧ 'S' ∉ wanted v := by
  unfold wanted tohostLine
  simp only [List.mem_append, not_or]
  refine ⟨.inr (.inl (by decide)), ⟨by decide, by decide, nl_hex8 v⟩, by decide, by decide, fun h => ?_⟩
  obtain ⟨d, hd, e⟩ := padl_mem h
  have : ∀ d < 16, 'S' ≠ Nat.digitChar d := by decide
  exact this d hd e

theorem csrText_length (r : Rec) {a : BitVec 16 × List Char} (h : a ∈ csrOrder) : (csrText r a.1).length = 33 := by
  have h4 : (padl '0' 4 (Nat.toDigits 16 a.1.toNat)).length = 4 := padl_length (by omega) (by have := a.1.isLt; omega)
  have h14 := (csr_solid a h).2
  unfold csrText padr
  simp only [List.length_append, h4, hex8_length, List.length_replicate]
  have e1 : "0x".toList.length = 2 := rfl
  have e2 : ": 0x".toList.length = 4 := rfl
  have e3 : [' '].length = 1 := rfl
  omega
theorem tohost_text (r : Rec) : csrText r A.tohost = tohostLine (r.csr1 A.tohost) := by
  unfold csrText tohostLine
  have : "0x".toList ++ padl '0' 4 (Nat.toDigits 16 A.tohost.toNat) ++ [' '] ++ padr 14 (csrNm A.tohost) ++ ": 0x".toList =
    "0x051e tohost        : 0x".toList := by decide +kernel
  rw [this]

/-- in the line of a CSR the scripts find what they look for only if it is `tohost` and holds the value -/
theorem in_csr (r : Rec) {a : BitVec 16 × List Char} (h : a ∈ csrOrder) (v : W) (n : Nat) :
    In (wanted v) (List.replicate (n + 4) ' ' ++ csrText r a.1) ↔ a.1 = 0x51e#16 ∧ r.csr1 a.1 = v := by
  constructor
  · rintro ⟨x, y, hxy⟩
    have hl := csrText_length r h
    have hw : (tohostLine v).length = 33 := by
      unfold tohostLine
      rw [List.length_append, hex8_length]
      rfl
    have hlen := congrArg List.length hxy
    unfold wanted at hlen hxy
    simp only [List.length_append, List.length_replicate, hl, hw] at hlen
    have e4 : "    ".toList.length = 4 := rfl
    rw [e4] at hlen
    have hx : x = List.replicate x.length ' ' := by
      have := congrArg (List.take x.length) hxy
      rw [List.append_assoc, List.take_left' rfl, List.take_append_of_le_length (by rw [List.length_replicate]; omega), List.take_replicate] at this
      rw [← this, List.length_replicate]
    have hd : tohostLine v ++ y = csrText r a.1 := by
      have h1 : ∀ (k : Nat) (l : List Char), (List.replicate k ' ' ++ '0' :: l).dropWhile (· = ' ') = '0' :: l := by
        intro k l
        rw [List.dropWhile_append_of_pos (fun c hc => by simp [List.eq_of_mem_replicate hc]), List.dropWhile_cons_of_neg (by decide)]
      have h2 := congrArg (List.dropWhile (fun c => decide (c = ' '))) hxy
      rw [hx, show "    ".toList = List.replicate 4 ' ' from rfl, ← List.append_assoc, List.replicate_append_replicate, List.append_assoc] at h2
      exact ((h1 _ _).symm.trans (h2.symm.trans (h1 _ _)))
    have hy : y = [] := by
      have := congrArg List.length hd
      rw [List.length_append, hl, hw] at this
      exact List.length_eq_zero_iff.1 (by omega)
    rw [hy, List.append_nil] at hd
    unfold tohostLine csrText at hd
    have e : "0x051e tohost        : 0x".toList = "0x".toList ++ "051e".toList ++ [' '] ++ "tohost        ".toList ++ ": 0x".toList := rfl
    have hlast := List.append_inj_right' hd (by rw [hex8_length, hex8_length])
    have hfirst := List.append_inj_left' hd (by rw [hex8_length, hex8_length])
    refine ⟨?_, (hex8_inj hlast).symm⟩
    have h4 : (padl '0' 4 (Nat.toDigits 16 a.1.toNat)).length = 4 := padl_length (by omega) (by have := a.1.isLt; omega)
    have h6 := congrArg (List.take 6) hfirst
    rw [show List.take 6 "0x051e tohost        : 0x".toList = "0x".toList ++ "051e".toList from rfl, List.append_assoc, List.append_assoc,
      List.take_left' (by rw [List.length_append, h4]; rfl)] at h6
    have h7 := List.append_cancel_left h6
    have h8 := nat_padl 4 a.1.toNat
    rw [← h7, show nat? 16 "051e".toList = some 0x51e from by decide] at h8
    injection h8 with h8
    exact BitVec.eq_of_toNat_eq h8.symm
  · rintro ⟨ha, hv⟩
    refine ⟨List.replicate n ' ', [], ?_⟩
    rw [ha, show (0x51e#16 : BitVec 16) = A.tohost from rfl, tohost_text, ← hv, ha, List.append_nil]
    unfold wanted
    rw [← List.append_assoc, show "    ".toList = List.replicate 4 ' ' from rfl, List.replicate_append_replicate]
    rfl

theorem tohost_mem : (A.tohost, "tohost".toList) ∈ csrOrder := by decide +kernel
theorem h_hex8 (v : W) : 'h' ∉ hex8 v := fun h => by
  obtain ⟨d, hd, e⟩ := padl_mem h
  exact (hexChar hd).2.2.2 e.symm
theorem h_toDigits (b : Nat) (hb : 1 < b) (h16 : b ≤ 16) (n : Nat) : 'h' ∉ Nat.toDigits b n := fun h => by
  obtain ⟨d, hd, e⟩ := mem_toDigits hb n h
  exact (hexChar (show d < 16 by omega)).2.2.2 e.symm
theorem h_rf (r : Rec) (i : BitVec 5) : 'h' ∉ rfText r i := by
  unfold rfText padr
  simp only [List.mem_append, not_or]
  exact ⟨⟨⟨(name_solid _ _).2, fun hm => absurd (List.eq_of_mem_replicate hm) (by decide)⟩, by decide⟩, h_hex8 _⟩

/-- the state shown has the value of `tohost` and nothing that looks like another -/
theorem in_state (r : Rec) (v : W) : (∃ x ∈ stateLines r true, In (wanted v) x) ↔ r.csr1 A.tohost = v := by
  have hh := (wanted_chars v).1
  constructor
  · rintro ⟨x, hx, hin⟩
    unfold stateLines at hx
    rcases List.mem_append.1 hx with hx | hx
    · rcases List.mem_cons.1 hx with rfl | hx
      · refine absurd hin (in_char hh ?_)
        unfold pcLine
        simp only [List.mem_append, not_or]
        exact ⟨⟨by decide, by decide⟩, h_hex8 _⟩
      · obtain ⟨i, _, rfl⟩ := List.mem_map.1 hx
        refine absurd hin (in_char hh ?_)
        unfold rowLine
        simp only [List.mem_append, not_or, List.mem_flatMap, not_exists, not_and]
        exact ⟨by decide, fun j _ => ⟨h_rf r _, by decide⟩⟩
    · rw [if_pos rfl] at hx
      obtain ⟨a, ha, rfl⟩ := List.mem_map.1 hx
      obtain ⟨h1, h2⟩ := (in_csr r ha v 8).1 hin
      rw [h1] at h2
      exact h2
  · intro h
    refine ⟨csrLineT r A.tohost, ?_, ?_⟩
    · unfold stateLines
      rw [if_pos rfl]
      exact List.mem_append_right _ (List.mem_map.2 ⟨_, tohost_mem, rfl⟩)
    · exact (in_csr r tohost_mem v 8).2 ⟨rfl, h⟩

/-! ## The report -/

/-- the lines on the result -/
def resultLines (p : Finish.Report) : List (List Char) :=
  if p.early then ["Early exit on profiler stop, TOHOST invalid".toList]
  else match p.failed with
    | none => []
    | some (n, trap) => ["Failed test ID: ".toList ++ Nat.toDigits 10 n.toNat ++ " (0x".toList ++ Nat.toDigits 16 n.toNat ++ ")".toList ++
        (if trap then " (trap)" else " (exit)").toList]
/-- the line of the counters -/
def countersLine (prof : Bool) (p : Finish.Report) : List Char :=
  "Instruction Counters: executed: ".toList ++ Nat.toDigits 10 p.insts.toNat ++
    (if prof then ", profiled: ".toList ++ Nat.toDigits 10 p.profiled.toNat else [])
/-- the lines of the state -/
def endLines (showState : Bool) (r : Rec) : List (List Char) := if showState then stateLines r true ++ [[]] else ["    ".toList ++ csrText r A.tohost]
/-- the report from its first line on -/
def dumpLines (prof : Bool) (c : Show) (p : Finish.Report) (r : Rec) : List (List Char) :=
  (if c.uart then [[], "=== UART END ===".toList] else []) ++ ["SIMULATION FINISHED".toList, []] ++ resultLines p ++
    [countersLine prof p] ++ endLines c.state r

theorem out_result (p : Finish.Report) : Out (resultP p) (endl (resultLines p)) := by
  obtain ⟨early, failed, th, i, pr, pc, rf⟩ := p
  cases early with
  | true => exact out_lit _
  | false =>
    cases failed with
    | none => exact Out.nil
    | some x =>
      obtain ⟨n, trap⟩ := x
      have := (((((out_lit "Failed test ID: ").app (out_u32 n)).app (out_lit " (0x")).app (out_hex n)).app (out_lit ")")).app
        ((out_lit (if trap then " (trap)" else " (exit)")).app (out_lit "\n"))
      have e : ∀ x : List Char, endl [x] = x ++ "\n".toList := fun x => by simp [endl]
      show Out _ (endl [_])
      rw [e]
      simp only [List.append_assoc] at this ⊢
      exact this
theorem out_counters (prof : Bool) (p : Finish.Report) : Out (countersP prof p) (countersLine prof p ++ ['\n']) := by
  have h0 := (out_dec.app (out_lit "Instruction Counters: executed: ")).app (out_u64 p.insts)
  have h1 : Out (if prof then [lit ", profiled: ", u64 p.profiled] else [])
      (if prof then ", profiled: ".toList ++ Nat.toDigits 10 p.profiled.toNat else []) := by
    cases prof
    · exact Out.nil
    · exact (out_lit ", profiled: ").app (out_u64 p.profiled)
  exact (h0.app h1).app (out_lit "\n")
theorem out_end (b : Bool) (r : Rec) : Out (stateP b r) (endl (endLines b r)) := by
  unfold stateP endLines
  cases b
  · have := ((out_lit "    ").app (out_csrf r A.tohost)).app (out_lit "\n")
    have e : ∀ x : List Char, endl [x] = x ++ "\n".toList := fun x => by simp [endl]
    rw [if_neg (by decide), if_neg (by decide), e]
    exact this
  · rw [if_pos rfl, if_pos rfl, endl_append, ← printState_text]
    exact (out_str _).app (out_lit "\n")
theorem out_dump (prof : Bool) (c : Show) (p : Finish.Report) (r : Rec) : Out (dumpP prof c p r) (endl (dumpLines prof c p r)) := by
  have h0 : Out (if c.uart then [lit "\n=== UART END ===\n"] else []) (endl (if c.uart then [[], "=== UART END ===".toList] else [])) := by
    cases c.uart
    · exact Out.nil
    · exact out_lit _
  have h1 : Out [lit "SIMULATION FINISHED\n\n"] (endl ["SIMULATION FINISHED".toList, []]) := out_lit _
  have h2 : Out (countersP prof p) (endl [countersLine prof p]) := by
    have e : ∀ x : List Char, endl [x] = x ++ ['\n'] := fun x => by simp [endl]
    rw [e]
    exact out_counters prof p
  unfold dumpLines
  simp only [endl_append]
  exact (((h0.app h1).app (out_result p)).app h2).app (out_end c.state r)

/-- the report contains what the scripts look for exactly if `tohost` holds it, whatever comes before and after -/
theorem in_dump (prof : Bool) (c : Show) (p : Finish.Report) (r : Rec) (v : W) (before after : List Char) :
    In (wanted v) (before ++ endl (dumpLines prof c p r) ++ after) ↔ In (wanted v) before ∨ In (wanted v) after ∨ r.csr1 A.tohost = v := by
  obtain ⟨hh, hn, hS⟩ := wanted_chars v
  have hne := wanted_ne v
  have hres : ∀ x ∈ resultLines p, 'h' ∉ x := by
    intro x hx
    unfold resultLines at hx
    split at hx
    · rw [List.mem_singleton] at hx
      subst hx
      decide
    · split at hx
      · cases hx
      · rename_i n trap _
        rw [List.mem_singleton] at hx
        subst hx
        simp only [List.mem_append, not_or]
        exact ⟨⟨⟨⟨⟨by decide, h_toDigits 10 (by omega) (by omega) _⟩, by decide⟩, h_toDigits 16 (by omega) (by omega) _⟩, by decide⟩,
          by cases trap <;> decide⟩
  have hcnt : 'h' ∉ countersLine prof p := by
    unfold countersLine
    simp only [List.mem_append, not_or]
    refine ⟨⟨by decide, h_toDigits 10 (by omega) (by omega) _⟩, ?_⟩
    cases prof
    · simp
    · rw [if_pos rfl, List.mem_append, not_or]
      exact ⟨by decide, h_toDigits 10 (by omega) (by omega) _⟩
  have hend : (∃ x ∈ endLines c.state r, In (wanted v) x) ↔ r.csr1 A.tohost = v := by
    unfold endLines
    cases c.state with
    | true =>
      rw [if_pos rfl, ← in_state]
      constructor
      · rintro ⟨x, hx, hin⟩
        rcases List.mem_append.1 hx with hx | hx
        · exact ⟨x, hx, hin⟩
        · rw [List.mem_singleton] at hx
          subst hx
          exact absurd hin (in_nil hne)
      · rintro ⟨x, hx, hin⟩
        exact ⟨x, List.mem_append_left _ hx, hin⟩
    | false =>
      rw [if_neg (by decide)]
      have := in_csr r tohost_mem v 0
      constructor
      · rintro ⟨x, hx, hin⟩
        rw [List.mem_singleton] at hx
        subst hx
        exact (this.1 hin).2
      · intro h
        exact ⟨_, by simp, this.2 ⟨rfl, h⟩⟩
  -- the lines after the first
  have htail : ∀ after, In (wanted v) (endl ([] :: resultLines p ++ [countersLine prof p] ++ endLines c.state r) ++ after) ↔
      In (wanted v) after ∨ r.csr1 A.tohost = v := by
    intro after
    rw [in_endl hne hn, ← hend]
    constructor
    · rintro (⟨x, hx, hin⟩ | h)
      · rcases List.mem_append.1 hx with hx | hx
        · rcases List.mem_append.1 hx with hx | hx
          · rcases List.mem_cons.1 hx with rfl | hx
            · exact absurd hin (in_nil hne)
            · exact absurd hin (in_char hh (hres x hx))
          · rw [List.mem_singleton] at hx
            subst hx
            exact absurd hin (in_char hh hcnt)
        · exact .inr ⟨x, hx, hin⟩
      · exact .inl h
    · rintro (h | ⟨x, hx, hin⟩)
      · exact .inr h
      · exact .inl ⟨x, List.mem_append_right _ hx, hin⟩
  have hfin : ∀ b : List Char, In (wanted v) (b ++ (endl ["SIMULATION FINISHED".toList] ++
      (endl ([] :: resultLines p ++ [countersLine prof p] ++ endLines c.state r) ++ after))) ↔
      In (wanted v) b ∨ In (wanted v) after ∨ r.csr1 A.tohost = v := by
    intro b
    generalize hX : endl ([] :: resultLines p ++ [countersLine prof p] ++ endLines c.state r) ++ after = X
    have e : endl ["SIMULATION FINISHED".toList] ++ X = 'S' :: ("IMULATION FINISHED".toList ++ '\n' :: X) := rfl
    rw [e, in_split hne hS, in_split hne hn, ← hX, htail]
    have : ¬ In (wanted v) "IMULATION FINISHED".toList := in_char hh (by decide)
    simp only [this, false_or]
  have eL : endl (dumpLines prof c p r) = endl (if c.uart then [[], "=== UART END ===".toList] else []) ++
      (endl ["SIMULATION FINISHED".toList] ++ endl ([] :: resultLines p ++ [countersLine prof p] ++ endLines c.state r)) := by
    rw [← endl_append, ← endl_append]
    unfold dumpLines
    simp only [List.append_assoc, List.cons_append, List.nil_append]
  rw [eL, show ∀ a b x y z : List Char, a ++ (b ++ (x ++ y)) ++ z = (a ++ b) ++ (x ++ (y ++ z)) from fun _ _ _ _ _ => by simp, hfin]
  cases c.uart with
  | false =>
    rw [if_neg (by decide), show endl [] = [] from rfl, List.append_nil]
  | true =>
    rw [if_pos rfl, show before ++ endl [[], "=== UART END ===".toList] = before ++ '\n' :: ("=== UART END ===".toList ++ '\n' :: []) from rfl,
      in_split hne hn, in_split hne hn]
    have h1 : ¬ In (wanted v) "=== UART END ===".toList := in_char hh (by decide)
    have h2 := in_nil hne
    simp only [h1, h2, or_false]

theorem dump_app (E : Env σ) (c : Show) (d : DS) (s : St σ) : ∃ s' p, Finish.report E s = .ok (p, s') ∧
    dump E c d s = .ok (run (dumpP E.cfg.profilers c p ⟨c.abi, s'.inst, s'.pc, s'.rf, s'.rf, s'.csr, s'.trapped, []⟩) d, s') := by
  obtain ⟨s', p, h, -⟩ := Finish.report_app E s
  refine ⟨s', p, h, ?_⟩
  unfold dump
  rw [M.bind_ok h, M.bind_ok (M.get_app _ _)]
  rfl

theorem judged_prop {x a b c d e f : Prop} (hx : ¬ x) : (a ∨ b ∨ c) ∨ (d ∨ e ∨ f) ↔ x ∨ c ∨ f ∨ (a ∨ d) ∨ (b ∨ e) := by tauto
theorem judged_prop' {x a b c d : Prop} (hb : ¬ b) (hc : ¬ c) (hd : ¬ d) : x ∨ a ∨ b ∨ c ∨ d ↔ x ∨ a := by tauto

/-- **C97**: how the scripts judge a run.  The report never fails to print, and what the scripts look for is in the output exactly
if the profiler ended the run, or `tohost` holds 1, or it holds the value that stands for an early exit, or something else that was
printed contains it.  The stream is as the program leaves it: right-adjusted, decimal, no width pending. -/
theorem judged (E : Env σ) (c : Show) (s : St σ) (d : DS) (h1 : d.width = 0) (h2 : d.left = false) (h3 : d.hex = false) :
    ∃ d' s' t, dump E c d s = .ok (d', s') ∧ d'.text = d.text ++ t ∧ ∀ after,
      Passed (d'.text ++ after) ↔ (E.cfg.profilers = true ∧ s.profPc.exitOnStop = true) ∨ s.csr 0x51e#16 = 1#32 ∨
        s.csr 0x51e#16 = 0xf0000000#32 ∨ Passed d.text ∨ Passed after := by
  obtain ⟨s', p, hr, hd⟩ := dump_app E c d s
  obtain ⟨s1, p1, hr', hplain, hearly, -⟩ := Finish.report_app E s
  rw [hr] at hr'
  injection hr' with hr'
  injection hr' with e1 e2
  subst e1 e2
  obtain ⟨-, ht⟩ := out_dump E.cfg.profilers c p ⟨c.abi, s'.inst, s'.pc, s'.rf, s'.rf, s'.csr, s'.trapped, []⟩ d ⟨h1, h2, h3⟩
  refine ⟨_, s', _, hd, ht, fun after => ?_⟩
  rw [ht]
  unfold Passed
  rw [pass_wanted.1, pass_wanted.2, in_dump, in_dump]
  show (_ ∨ _ ∨ s'.csr A.tohost = _) ∨ (_ ∨ _ ∨ s'.csr A.tohost = _) ↔ _
  by_cases hx : E.cfg.profilers = true ∧ s.profPc.exitOnStop = true
  · obtain ⟨-, -, e⟩ := hearly hx
    have : s'.csr A.tohost = 0xf0000000#32 := by rw [e]; simp only [upd_same]
    exact ⟨fun _ => .inl hx, fun _ => .inr (.inr (.inr this))⟩
  · obtain ⟨e, -⟩ := hplain hx
    rw [e]
    exact judged_prop hx

/-- **C97**: the verdict of the scripts is right - passed exactly if the program reported success or the profiler ended the run -
if neither the program nor another part of the simulator prints the line itself.  Missing: a program that leaves the value of an early
exit in `tohost` (`Ex.false_early`), or prints the line (`printed_pass`). -/
theorem judged_partial (E : Env σ) (c : Show) (s : St σ) (d : DS) (h1 : d.width = 0) (h2 : d.left = false) (h3 : d.hex = false)
    (ho : s.csr 0x51e#16 ≠ 0xf0000000#32) (hb : ¬ Passed d.text) {after : List Char} (ha : ¬ Passed after) :
    ∃ d' s', dump E c d s = .ok (d', s') ∧ (Passed (d'.text ++ after) ↔
      (E.cfg.profilers = true ∧ s.profPc.exitOnStop = true) ∨ s.csr 0x51e#16 = 1#32) := by
  obtain ⟨d', s', t, hd, -, h⟩ := judged E c s d h1 h2 h3
  refine ⟨d', s', hd, ?_⟩
  rw [h]
  exact judged_prop' ho hb ha
/-- **C97**: whatever the result of a program that prints the line, the scripts take it for passed. -/
theorem printed_pass (E : Env σ) (c : Show) (s : St σ) (d : DS) (h1 : d.width = 0) (h2 : d.left = false) (h3 : d.hex = false)
    (hb : Passed d.text) : ∃ d' s', dump E c d s = .ok (d', s') ∧ Passed d'.text := by
  obtain ⟨d', s', t, hd, -, h⟩ := judged E c s d h1 h2 h3
  refine ⟨d', s', hd, ?_⟩
  have := (h []).2 (.inr (.inr (.inr (.inl hb))))
  rwa [List.append_nil] at this

namespace Ex
open Ama.Ex (env0 st0)
/-- the text of the report after `n` steps -/
def text (n : Nat) (s : St Unit) : Option (List Char) :=
  match (do runN env0 n; dump env0 ⟨false, false, true⟩ DS.init) s with
  | .ok (d, _) => some d.text
  | _ => none
/-- a program that passed, and one whose test 3 failed -/
example : text 5 (st0 env0 [0x51e0d073#32]) = some
    "SIMULATION FINISHED\n\nInstruction Counters: executed: 1\n    0x051e tohost        : 0x00000001\n".toList := by decide +kernel
example : text 5 (st0 env0 [0x51e3d073#32]) = some
    ("SIMULATION FINISHED\n\nFailed test ID: 3 (0x3) (exit)\nInstruction Counters: executed: 1\n" ++
      "    0x051e tohost        : 0x00000007\n").toList := by decide +kernel
/-- **C97**: a program still running that has 0xf0000000 in `tohost` is reported as failed, but has the line of an early exit, by
which the scripts take it for passed. -/
theorem false_early : text 2 (st0 env0 [0xf00000b7#32, 0x51e09073#32]) = some
    ("SIMULATION FINISHED\n\nFailed test ID: 2013265920 (0x78000000) (trap)\nInstruction Counters: executed: 2\n" ++
      "    0x051e tohost        : 0xf0000000\n").toList ∧
    Passed ("SIMULATION FINISHED\n\nFailed test ID: 2013265920 (0x78000000) (trap)\nInstruction Counters: executed: 2\n" ++
      "    0x051e tohost        : 0xf0000000\n").toList :=
  ⟨by decide +kernel, .inr ⟨("SIMULATION FINISHED\n\nFailed test ID: 2013265920 (0x78000000) (trap)\n" ++
    "Instruction Counters: executed: 2\n").toList, ['\n'], by decide +kernel⟩⟩
/-- the hypotheses of `judged_partial` and `printed_pass` -/
example : (st0 env0 []).csr 0x51e#16 ≠ 0xf0000000#32 ∧ ¬ Passed DS.init.text ∧ ¬ Passed "Simulation performance".toList ∧
    Passed ("hello\n".toList ++ passString) :=
  ⟨by decide, fun h => h.elim (in_nil (by decide)) (in_nil (by decide)),
    fun h => h.elim (in_char (c := 'h') (by decide) (by decide)) (in_char (c := 'h') (by decide) (by decide)), .inl ⟨_, [], (List.append_nil _).symm⟩⟩
/-- the first lines of the state, read back -/
def r0 : Rec := ⟨true, 0#32, 0x80000010#32, fun i => i.setWidth 32, fun i => i.setWidth 32, fun _ => 5#32, false, []⟩
example : (readState (printState r0 false)).map (fun x => (x.1, x.2.1.take 3)) =
    some (0x80000010, [("zero".toList, 0), ("ra".toList, 1), ("sp".toList, 2)]) := by decide +kernel
end Ex
end Ama.Report
