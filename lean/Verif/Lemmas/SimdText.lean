import Verif.Model.SimdText
import Verif.Spec.LaneText
import Verif.Lemmas.Report
import Verif.Props.SimdStep
/-!
# Lemmas on the elements in the log
-/
namespace Ama.SimdText
open Dasm Simd Spec Spec.Asm Spec.LaneText Report

/-! ## Reading -/

/-- only separates -/
def Sep (c : Char) : Prop := c = ' ' ∨ c = '[' ∨ c = ']' ∨ c = ',' ∨ c = ';'
/-- one token -/
def Whole (w : List Char) : Prop := w ≠ [] ∧ ∀ c ∈ w, ¬ Sep c
/-- the text reads as these tokens, whatever follows -/
def Toks (t : List Char) (ws : List (List Char)) : Prop := ∀ l, toks (t ++ l) = ws ++ toks l

/-- separators become spaces -/
def blank (c : Char) : Char := if c = '[' ∨ c = ']' ∨ c = ',' ∨ c = ';' then ' ' else c
theorem blank_sep {c : Char} (h : Sep c) : blank c = ' ' := by
  unfold blank
  rcases h with rfl | rfl | rfl | rfl | rfl <;> rfl
theorem blank_whole {w : List Char} (h : Whole w) : w.map blank = w := by
  have := h.2
  clear h
  induction w with
  | nil => rfl
  | cons c w ih =>
    rw [List.map_cons, ih fun d hd => this d (by simp [hd])]
    have hc := this c (by simp)
    unfold blank
    rw [if_neg fun h => hc (.inr h)]
theorem toks_def (l : List Char) : toks l = (Spec.Folded.pieces ' ' (l.map blank)).filter (· ≠ []) := rfl
theorem toks_sep {c : Char} (h : Sep c) (l : List Char) : toks (c :: l) = toks l := by
  rw [toks_def, toks_def, List.map_cons, blank_sep h]
  have := Perf.pieces_part (sep := ' ') (a := []) (by simp) (l.map blank)
  rw [List.nil_append] at this
  rw [this, List.filter_cons_of_neg (by simp)]
theorem toks_word {w : List Char} (h : Whole w) {c : Char} (hc : Sep c) (l : List Char) : toks (w ++ c :: l) = w :: toks l := by
  rw [toks_def, toks_def, List.map_append, blank_whole h, List.map_cons, blank_sep hc,
    Perf.pieces_part (fun hm => h.2 _ hm (.inl rfl)), List.filter_cons_of_pos (by simpa using h.1)]
theorem Toks.nil : Toks [] [] := fun _ => rfl
theorem Toks.app {a b : List Char} {x y : List (List Char)} (h1 : Toks a x) (h2 : Toks b y) : Toks (a ++ b) (x ++ y) := fun l => by
  rw [List.append_assoc, h1, h2, List.append_assoc]
theorem Toks.seps {s : List Char} (h : ∀ c ∈ s, Sep c) : Toks s [] := by
  induction s with
  | nil => exact Toks.nil
  | cons c s ih =>
    intro l
    rw [List.cons_append, toks_sep (h c (by simp)), ih fun d hd => h d (by simp [hd])]
theorem Toks.word {w s : List Char} (h : Whole w) (hs : s ≠ []) (hc : ∀ c ∈ s, Sep c) : Toks (w ++ s) [w] := by
  intro l
  cases s with
  | nil => exact absurd rfl hs
  | cons c s =>
    rw [List.append_assoc, List.cons_append, toks_word h (hc c (by simp)), Toks.seps fun d hd => hc d (by simp [hd])]
    rfl
theorem Toks.done {t : List Char} {ws : List (List Char)} (h : Toks t ws) : toks t = ws := by
  have := h []
  rw [List.append_nil] at this
  rw [this]
  exact List.append_nil _

/-! ## Numbers -/

/-- a signed decimal -/
def decI (v : W) : List Char := if v.msb then '-' :: Nat.toDigits 10 (2 ^ 32 - v.toNat) else Nat.toDigits 10 v.toNat
/-- hexadecimal, at least `n` digits -/
def hexI (v : W) (n : Nat) : List Char := "0x".toList ++ padl '0' n (Nat.toDigits 16 v.toNat)

theorem sep_digit {b : Nat} (hb : 1 < b) (h16 : b ≤ 16) (n : Nat) {c : Char} (hc : c ∈ Nat.toDigits b n) : ¬ Sep c := by
  obtain ⟨d, hd, rfl⟩ := mem_toDigits hb n hc
  have : d < 16 := by omega
  clear hc hd
  unfold Sep
  interval_cases d <;> decide
theorem whole_digits {b : Nat} (hb : 1 < b) (h16 : b ≤ 16) (n : Nat) : Whole (Nat.toDigits b n) :=
  ⟨Nat.toDigits_ne_nil, fun _ hc => sep_digit hb h16 n hc⟩
theorem whole_decI (v : W) : Whole (decI v) := by
  unfold decI
  split
  · refine ⟨by simp, fun c hc => ?_⟩
    rcases List.mem_cons.1 hc with rfl | hc
    · unfold Sep; decide
    · exact sep_digit (by omega) (by omega) _ hc
  · exact whole_digits (by omega) (by omega) _
theorem whole_hexI (v : W) (n : Nat) : Whole (hexI v n) := by
  refine ⟨by simp [hexI], fun c hc => ?_⟩
  unfold hexI padl at hc
  rcases List.mem_append.1 hc with hc | hc
  · have : c = '0' ∨ c = 'x' := by simpa using hc
    rcases this with rfl | rfl <;> (unfold Sep; decide)
  · rcases List.mem_append.1 hc with hc | hc
    · rw [(List.mem_replicate.1 hc).2]; unfold Sep; decide
    · exact sep_digit (by omega) (by omega) _ hc

theorem int_dec (n : Nat) : int? (Nat.toDigits 10 n) = some (n : Int) := by
  have h := nat_toDigits (b := 10) (by omega) (by omega) n
  have hx : ∀ c ∈ Nat.toDigits 10 n, c ≠ 'x' ∧ c ≠ '-' := fun c hc => by
    obtain ⟨_, _, _, _, _, a, b⟩ := digit_class (b := 10) (by omega) (by omega) n hc
    exact ⟨a, b⟩
  generalize Nat.toDigits 10 n = t at *
  unfold int?
  split
  · rename_i t
    exact absurd rfl (hx 'x' (by simp)).1
  · rename_i t
    exact absurd rfl (hx '-' (by simp)).2
  · rw [h]; rfl
theorem int_decI (v : W) : int? (decI v) = some v.toInt := by
  unfold decI
  split
  · rename_i h
    have h1 := nat_toDigits (b := 10) (by omega) (by omega) (2 ^ 32 - v.toNat)
    show (nat? 10 (Nat.toDigits 10 (2 ^ 32 - v.toNat))).map _ = _
    rw [h1]
    have := v.isLt
    rw [BitVec.toInt_eq_msb_cond, if_pos h, Option.map_some]
    have e : ((2 ^ 32 - v.toNat : Nat) : Int) = (2 ^ 32 : Nat) - (v.toNat : Int) := Int.ofNat_sub (by omega)
    rw [e, Int.neg_sub]
  · rename_i h
    rw [int_dec, BitVec.toInt_eq_msb_cond, if_neg h]
theorem int_hexI (v : W) (n : Nat) : int? (hexI v n) = some (v.toNat : Int) := by
  show (nat? 16 (padl '0' n (Nat.toDigits 16 v.toNat))).map _ = _
  rw [nat_padl]
  rfl

/-! ## Chains that send numbers -/

/-- the chain adds a text that reads as these tokens -/
def Says (ps : List P) (ws : List (List Char)) : Prop := ∃ t, Out ps t ∧ Toks t ws
theorem Says.app {a b : List P} {x y : List (List Char)} : Says a x → Says b y → Says (a ++ b) (x ++ y)
  | ⟨_, h1, h2⟩, ⟨_, g1, g2⟩ => ⟨_, h1.app g1, h2.app g2⟩
theorem Says.nil : Says [] [] := ⟨_, Out.nil, Toks.nil⟩
/-- the chain adds a text that reads as these numbers -/
def Sends (ps : List P) (zs : List Int) : Prop := ∃ ws, Says ps ws ∧ ws.map int? = zs.map some
theorem Sends.nil : Sends [] [] := ⟨[], Says.nil, rfl⟩
theorem Sends.app {a b : List P} {x y : List Int} : Sends a x → Sends b y → Sends (a ++ b) (x ++ y)
  | ⟨_, h1, h2⟩, ⟨_, g1, g2⟩ => ⟨_, h1.app g1, by rw [List.map_append, List.map_append, h2, g2]⟩
theorem Sends.flat {α : Type} {f : α → List P} {z : α → List Int} (l : List α) (h : ∀ a ∈ l, Sends (f a) (z a)) :
    Sends (l.flatMap f) (l.flatMap z) := by
  induction l with
  | nil => exact Sends.nil
  | cons a l ih =>
    rw [List.flatMap_cons, List.flatMap_cons]
    exact (h a (by simp)).app (ih fun b hb => h b (by simp [hb]))
theorem Sends.map {α : Type} {f : α → List P} {z : α → Int} (l : List α) (h : ∀ a ∈ l, Sends (f a) [z a]) :
    Sends (l.flatMap f) (l.map z) := by
  have := Sends.flat l h
  have e : ∀ l : List α, l.flatMap (fun a => [z a]) = l.map z := fun l => by
    induction l with
    | nil => rfl
    | cons a l ih => rw [List.flatMap_cons, ih]; rfl
  rwa [e] at this
theorem sends_seps {s : String} (h : ∀ c ∈ s.toList, Sep c) : Sends [lit s] [] := ⟨[], ⟨_, out_lit s, Toks.seps h⟩, rfl⟩
theorem sends_opening : Sends opening [] := sends_seps (by unfold Sep; decide)

theorem out_i32 (v : W) : Out [i32 v] (decI v) := fun d h => by
  obtain ⟨c, e⟩ := out_str (decI v) d h
  have : run [i32 v] d = run [str (decI v)] d := by
    show str (if d.hex = true then _ else _) d = _
    rw [h.2.2]
    rfl
  rw [this]
  exact ⟨c, e⟩
theorem says_i32 (v : W) {s : String} (hs : s.toList ≠ []) (hc : ∀ c ∈ s.toList, Sep c) : Says [i32 v, lit s] [decI v] :=
  ⟨_, (out_i32 v).app (out_lit s), Toks.word (whole_decI v) hs hc⟩
theorem sends_i32 (v : W) {s : String} (hs : s.toList ≠ []) (hc : ∀ c ∈ s.toList, Sep c) : Sends [i32 v, lit s] [v.toInt] :=
  ⟨_, says_i32 v hs hc, by simp [int_decI]⟩
theorem sends_app (v : W) : Sends (app v) [v.toInt] := sends_i32 v (by decide) (by unfold Sep; decide)
theorem sends_appU (v : W) : Sends (appU v) [(v.toNat : Int)] :=
  ⟨_, ⟨_, (out_u32 v).app (out_lit " "), Toks.word (whole_digits (by omega) (by omega) _) (by decide) (by unfold Sep; decide)⟩,
    by simp [int_dec]⟩
theorem out_appHex (v : W) (n : Nat) : Out (appHex v n) (hexI v n ++ [' ']) := fun d h => by
  obtain ⟨tx, l, hx, fi, w, o, iw⟩ := d
  obtain ⟨rfl, rfl, rfl⟩ : w = 0 ∧ l = false ∧ hx = false := h
  refine ⟨⟨rfl, rfl, rfl⟩, ?_⟩
  show ((tx ++ "0x".toList) ++ padl '0' n (Nat.toDigits 16 v.toNat)) ++ [' '] = tx ++ _
  unfold hexI
  simp only [List.append_assoc]
theorem sends_appHex (v : W) (n : Nat) : Sends (appHex v n) [(v.toNat : Int)] :=
  ⟨_, ⟨_, out_appHex v n, Toks.word (whole_hexI v n) (by decide) (by unfold Sep; decide)⟩, by simp [int_hexI]⟩

/-! ## The end of an operation -/

/-- the table that the end writes -/
def tableOf (f : Fin) (c a b : List Int) : List (List Char × List Int) :=
  match f with
  | .cas sh => [("RD".toList, c), ("RS1".toList, a), ("SHAMT".toList, [sh.toInt])]
  | .cab => [("RD".toList, c), ("RS1".toList, a), ("RS2".toList, b)]
  | .dot r x => [("RD".toList, [r.toInt]), ("RS1".toList, a), ("RS2".toList, b), ("RS3".toList, [x.toInt])]
  | .vins x i => [("RD".toList, c), ("RS1".toList, [x.toInt]), ("IDX".toList, [i.toInt])]
  | .vext x i => [("RD".toList, [x.toInt]), ("RS1".toList, a), ("IDX".toList, [i.toInt])]
  | .dup x => [("RD".toList, c), ("RS1".toList, [x.toInt])]
  | .none => []

theorem fields_nums {ws : List (List Char)} {zs : List Int} (h : ws.map int? = zs.map some) (t : List (List Char)) :
    fields (ws ++ t) = (zs ++ (fields t).1, (fields t).2) := by
  induction ws generalizing zs with
  | nil =>
    cases zs with
    | nil => rfl
    | cons z zs => cases h
  | cons w ws ih =>
    cases zs with
    | nil => cases h
    | cons z zs =>
      rw [List.map_cons, List.map_cons, List.cons.injEq] at h
      rw [List.cons_append, fields, h.1]
      simp only [ih h.2, List.cons_append]
/-- names used -/
def Name (n : List Char) : Prop := int? n = none ∧ n ≠ "=".toList
theorem fields_seg {n : List Char} (hn : Name n) {ws : List (List Char)} {zs : List Int} (h : ws.map int? = zs.map some)
    {t : List (List Char)} (ht : (fields t).1 = []) :
    fields ((n :: "=".toList :: ws) ++ t) = ([], (n, zs) :: (fields t).2) := by
  have e : fields ("=".toList :: ws ++ t) = (zs, (fields t).2) := by
    show fields ("=".toList :: (ws ++ t)) = _
    rw [fields, show int? "=".toList = none by decide]
    simp only [if_true]
    rw [fields_nums h, ht, List.append_nil]
  show fields (n :: ("=".toList :: ws ++ t)) = _
  rw [fields, hn.1]
  simp only [if_neg hn.2, e]
/-- the text says this table -/
def Tells (ps : List P) (fs : List (List Char × List Int)) : Prop := ∃ ws, Says ps ws ∧ fields ws = ([], fs)
theorem Tells.nil : Tells [] [] := ⟨[], Says.nil, rfl⟩
theorem Tells.seg {n : String} (hn : Name n.toList) (hw : Toks (n ++ " = ").toList [n.toList, "=".toList]) {a b : List P} {zs : List Int}
    {fs : List (List Char × List Int)} (h1 : Sends a zs) (h2 : Tells b fs) :
    Tells ([lit (n ++ " = ")] ++ a ++ b) ((n.toList, zs) :: fs) := by
  obtain ⟨wa, ha, ea⟩ := h1
  obtain ⟨wb, hb, eb⟩ := h2
  refine ⟨[n.toList, "=".toList] ++ wa ++ wb, (Says.app ⟨_, out_lit _, hw⟩ ha).app hb, ?_⟩
  have := fields_seg hn ea (t := wb) (by rw [eb])
  rw [eb] at this
  exact this

theorem toks_rd : Toks "RD = ".toList ["RD".toList, "=".toList] :=
  (Toks.word (w := "RD".toList) (s := [' ']) (by unfold Whole Sep; decide) (by decide) (by unfold Sep; decide)).app
    (Toks.word (w := "=".toList) (s := [' ']) (by unfold Whole Sep; decide) (by decide) (by unfold Sep; decide))
theorem toks_rs1 : Toks "RS1 = ".toList ["RS1".toList, "=".toList] :=
  (Toks.word (w := "RS1".toList) (s := [' ']) (by unfold Whole Sep; decide) (by decide) (by unfold Sep; decide)).app
    (Toks.word (w := "=".toList) (s := [' ']) (by unfold Whole Sep; decide) (by decide) (by unfold Sep; decide))
theorem toks_rs2 : Toks "RS2 = ".toList ["RS2".toList, "=".toList] :=
  (Toks.word (w := "RS2".toList) (s := [' ']) (by unfold Whole Sep; decide) (by decide) (by unfold Sep; decide)).app
    (Toks.word (w := "=".toList) (s := [' ']) (by unfold Whole Sep; decide) (by decide) (by unfold Sep; decide))
theorem toks_rs3 : Toks "RS3 = ".toList ["RS3".toList, "=".toList] :=
  (Toks.word (w := "RS3".toList) (s := [' ']) (by unfold Whole Sep; decide) (by decide) (by unfold Sep; decide)).app
    (Toks.word (w := "=".toList) (s := [' ']) (by unfold Whole Sep; decide) (by decide) (by unfold Sep; decide))
theorem toks_shamt : Toks "SHAMT = ".toList ["SHAMT".toList, "=".toList] :=
  (Toks.word (w := "SHAMT".toList) (s := [' ']) (by unfold Whole Sep; decide) (by decide) (by unfold Sep; decide)).app
    (Toks.word (w := "=".toList) (s := [' ']) (by unfold Whole Sep; decide) (by decide) (by unfold Sep; decide))
theorem toks_idx : Toks "IDX = ".toList ["IDX".toList, "=".toList] :=
  (Toks.word (w := "IDX".toList) (s := [' ']) (by unfold Whole Sep; decide) (by decide) (by unfold Sep; decide)).app
    (Toks.word (w := "=".toList) (s := [' ']) (by unfold Whole Sep; decide) (by decide) (by unfold Sep; decide))

/-- the text of a stream, with the separators after it -/
theorem sends_str {t : List Char} {zs : List Int} (h : ∃ ws, Toks t ws ∧ ws.map int? = zs.map some) {s : String} (hc : ∀ c ∈ s.toList, Sep c) :
    Sends [str t, lit s] zs := by
  obtain ⟨ws, h1, h2⟩ := h
  refine ⟨ws ++ [], ⟨_, (out_str t).app (out_lit s), h1.app (Toks.seps hc)⟩, by rw [List.append_nil, h2]⟩

/-- the text reads as these numbers -/
def Holds (t : List Char) (zs : List Int) : Prop := ∃ ws, Toks t ws ∧ ws.map int? = zs.map some

theorem tells_finish {rd : BitVec 5} (hrd : rd ≠ 0#5) (f : Fin) {c a b : List Char} {zc za zb : List Int}
    (hc : Holds c zc) (ha : Holds a za) (hb : Holds b zb) : Tells (finish rd f c a b) (tableOf f zc za zb) := by
  unfold finish
  rw [if_neg hrd]
  have s1 : ∀ c ∈ "], ".toList, Sep c := by unfold Sep; decide
  have s2 : ∀ c ∈ "]; ".toList, Sep c := by unfold Sep; decide
  have s3 : ∀ c ∈ ", ".toList, Sep c := by unfold Sep; decide
  have s4 : ∀ c ∈ "; ".toList, Sep c := by unfold Sep; decide
  have n1 : Name "RD".toList := by unfold Name; decide
  have n2 : Name "RS1".toList := by unfold Name; decide
  have n3 : Name "RS2".toList := by unfold Name; decide
  have n4 : Name "RS3".toList := by unfold Name; decide
  have n5 : Name "SHAMT".toList := by unfold Name; decide
  have n6 : Name "IDX".toList := by unfold Name; decide
  cases f with
  | cas sh =>
    exact Tells.seg (n := "RD") n1 toks_rd (sends_str hc s1) (Tells.seg (n := "RS1") n2 toks_rs1 (sends_str ha s1)
      (Tells.seg (n := "SHAMT") n5 toks_shamt (sends_i32 sh (by decide) s4) Tells.nil))
  | cab =>
    exact Tells.seg (n := "RD") n1 toks_rd (sends_str hc s1) (Tells.seg (n := "RS1") n2 toks_rs1 (sends_str ha s1)
      (Tells.seg (n := "RS2") n3 toks_rs2 (sends_str hb s2) Tells.nil))
  | dot r x =>
    exact Tells.seg (n := "RD") n1 toks_rd (sends_i32 r (by decide) s3) (Tells.seg (n := "RS1") n2 toks_rs1 (sends_str ha s1)
      (Tells.seg (n := "RS2") n3 toks_rs2 (sends_str hb s1)
        (Tells.seg (n := "RS3") n4 toks_rs3 (sends_i32 x (by decide) s4) Tells.nil)))
  | vins x i =>
    obtain ⟨wc, c1, c2⟩ := hc
    have o := (((out_lit "RD = ").app ((out_str c).app (out_lit "], "))).app ((out_lit "RS1 = ").app (out_i32 x))).app
      ((out_lit ", IDX = ").app ((out_i32 i).app (out_lit "; ")))
    have k := ((toks_rd.app (c1.app (Toks.seps s1))).app (toks_rs1.app (Toks.word (whole_decI x) (by decide) s3))).app
      (toks_idx.app (Toks.word (whole_decI i) (by decide) s4))
    have e : ("RD = ".toList ++ (c ++ "], ".toList)) ++ ("RS1 = ".toList ++ decI x) ++ (", IDX = ".toList ++ (decI i ++ "; ".toList)) =
        ("RD = ".toList ++ (c ++ "], ".toList)) ++ ("RS1 = ".toList ++ (decI x ++ ", ".toList)) ++
          ("IDX = ".toList ++ (decI i ++ "; ".toList)) := by
      simp only [List.append_assoc]
      rfl
    rw [← e] at k
    refine ⟨_, ⟨_, o, k⟩, ?_⟩
    · have f3 : fields ("IDX".toList :: "=".toList :: [decI i] ++ []) = ([], [("IDX".toList, [i.toInt])]) :=
        fields_seg n6 (zs := [i.toInt]) (by simp [int_decI]) rfl
      have f2 := fields_seg n2 (ws := [decI x]) (zs := [x.toInt]) (by simp [int_decI]) (t := "IDX".toList :: "=".toList :: [decI i] ++ []) (by rw [f3])
      have f1 := fields_seg n1 c2 (t := "RS1".toList :: "=".toList :: [decI x] ++ ("IDX".toList :: "=".toList :: [decI i] ++ [])) (by rw [f2])
      rw [f2, f3] at f1
      simpa [tableOf] using f1
  | vext x i =>
    exact Tells.seg (n := "RD") n1 toks_rd (sends_i32 x (by decide) s3) (Tells.seg (n := "RS1") n2 toks_rs1 (sends_str ha s1)
      (Tells.seg (n := "IDX") n6 toks_idx (sends_i32 i (by decide) s4) Tells.nil))
  | dup x =>
    exact Tells.seg (n := "RD") n1 toks_rd (sends_str hc s1) (Tells.seg (n := "RS1") n2 toks_rs1 (sends_i32 x (by decide) s4) Tells.nil)
  | none => exact Tells.nil
end Ama.SimdText
