import Verif.Model.SimdText
import Verif.Props.LogFile
/-!
# C101: the texts of the SIMD lanes have no line breaks
-/
namespace Ama.SimdText
open Ama.Dasm Ama.Simd

theorem bind_parts {α β : Type} {x : Res α} {f : α → Res β} {b : β} (h : (x >>= f) = .ok b) : ∃ a, x = .ok a ∧ f a = .ok b := by
  cases x with
  | ok a => exact ⟨a, rfl, h⟩
  | ub k => cases h
  | abort => cases h

/-- no chain of an operation sends a line break -/
def Chains.Nls (ch : Chains) : Prop := Nl ch.c ∧ Nl ch.a ∧ Nl ch.b

theorem nl_opening : Nl opening := .lit (by decide) .nil
theorem nl_app (v : W) : Nl (app v) := .i32 (.lit (by decide) .nil)
theorem nl_appU (v : W) : Nl (appU v) := .u32 (.lit (by decide) .nil)
theorem nl_appHex (v : W) (w : Nat) : Nl (appHex v w) :=
  .lit (by decide) (.setw (.setfill (by decide) (.hex (.i32 (.dec (.lit (by decide) .nil))))))
theorem nl_flatMap {α : Type} {f : α → List P} (h : ∀ a, Nl (f a)) : ∀ l : List α, Nl (l.flatMap f)
  | [] => .nil
  | a :: l => by rw [List.flatMap_cons]; exact (h a).append (nl_flatMap h l)

theorem nl_cabLoop (vbits : Nat) (sg : Bool) (f : W → W → Res W) : ∀ (n : Nat) (a b : W) (ch : Chains) {r : Chains}, ch.Nls →
    cabLoop vbits sg f n a b ch = .ok r → r.Nls
  | 0, _, _, _, _, h, e => by cases e; exact h
  | n + 1, a, b, ch, r, h, e => by
    obtain ⟨v, _, e⟩ := bind_parts e
    exact nl_cabLoop vbits sg f n _ _ _ ⟨h.1.append (nl_app _), h.2.1.append (nl_app _), h.2.2.append (nl_app _)⟩ e
theorem nl_shiftLoop (vbits : Nat) (ar : Bool) (f : W → W → Res W) : ∀ (n : Nat) (a : W) (ch : Chains) {r : Chains}, ch.Nls →
    shiftLoop vbits ar f n a ch = .ok r → r.Nls
  | 0, _, _, _, h, e => by cases e; exact h
  | n + 1, a, ch, r, h, e => by
    obtain ⟨v, _, e⟩ := bind_parts e
    refine nl_shiftLoop vbits ar f n _ _ ?_ e
    exact ⟨h.1.append (nl_appHex _ _), h.2.1.append (nl_appHex _ _), h.2.2⟩
theorem nl_abLoop (vbits : Nat) (sg : Bool) : ∀ (n : Nat) (a b : W) (ch : Chains), ch.Nls → (abLoop vbits sg n a b ch).Nls
  | 0, _, _, _, h => h
  | n + 1, _, _, _, h => nl_abLoop vbits sg n _ _ _ ⟨h.1, h.2.1.append (nl_app _), h.2.2.append (nl_app _)⟩
theorem nl_aLoop (vbits : Nat) (sg : Bool) : ∀ (n : Nat) (a : W) (l : List P), Nl l → Nl (aLoop vbits sg n a l)
  | 0, _, _, h => h
  | n + 1, _, _, h => nl_aLoop vbits sg n _ _ (h.append (nl_app _))
theorem nl_wide (half : Nat) : ∀ (i : Nat) (rs : List W), Nl (wide half i rs)
  | _, [] => .nil
  | i, r :: rs => (Nl.i32 (.pick (.lit (by decide) .nil) (.lit (by decide) .nil))).append (nl_wide half (i + 1) rs)
theorem nl_narrowSrc (vbits : Nat) (sg : Bool) (x : W) : Nl (narrowSrc vbits sg x) :=
  nl_flatMap (fun _ => .ite (nl_app _) (nl_appU _)) _
theorem nl_txpSrc (vbits : Nat) (x : W) : Nl (txpSrc vbits x) := nl_flatMap (fun _ => (nl_app _).append (nl_app _)) _
theorem nl_txpRes (vbits off : Nat) (a b : W) : Nl (txpRes vbits off a b) := nl_flatMap (fun _ => (nl_app _).append (nl_app _)) _

theorem nl_out {st : Bool} {op : Op} {a b c : W} {imm : BitVec 5} {z : Chains × Fin} (h : out st op a b c imm = .ok z) : z.1.Nls := by
  have o3 : Chains.Nls ⟨opening, opening, opening⟩ := ⟨nl_opening, nl_opening, nl_opening⟩
  unfold out at h
  cases op with
  | addSub n sg sb sat =>
    obtain ⟨ch, e, h⟩ := bind_parts h
    cases h; exact nl_cabLoop _ _ _ _ _ _ _ o3 e
  | minMax n sg mx =>
    obtain ⟨ch, e, h⟩ := bind_parts h
    cases h; exact nl_cabLoop _ _ _ _ _ _ _ o3 e
  | mul n sg up =>
    obtain ⟨ch, e, h⟩ := bind_parts h
    cases h; exact nl_cabLoop _ _ _ _ _ _ _ o3 e
  | wmul n sg =>
    obtain ⟨rs, e, h⟩ := bind_parts h
    cases h
    have k := nl_abLoop n sg (count n) a b _ o3
    exact ⟨k.1.append (nl_wide _ _ _), k.2.1, k.2.2⟩
  | dot n sg =>
    obtain ⟨r, e, h⟩ := bind_parts h
    cases h
    exact nl_abLoop n sg (count n) a b _ ⟨.nil, nl_opening, nl_opening⟩
  | shift n ar l =>
    obtain ⟨ch, e, h⟩ := bind_parts h
    cases h; exact nl_shiftLoop _ _ _ _ _ _ ⟨nl_opening, nl_opening, .nil⟩ e
  | widen n sg =>
    obtain ⟨rs, e, h⟩ := bind_parts h
    cases h
    exact ⟨nl_opening.append (nl_wide _ _ _), nl_aLoop _ _ _ _ _ nl_opening, .nil⟩
  | narrow n sat sg =>
    cases h
    exact ⟨nl_opening.append (nl_flatMap nl_app _), nl_opening.append (nl_narrowSrc _ _ _), nl_opening.append (nl_narrowSrc _ _ _)⟩
  | txp n =>
    cases h
    exact ⟨((nl_opening.append (nl_txpRes _ _ _ _)).append (.lit (by decide) .nil)).append (nl_txpRes _ _ _ _),
      nl_opening.append (nl_txpSrc _ _), nl_opening.append (nl_txpSrc _ _)⟩
  | dup n => cases h; exact ⟨nl_opening.append (nl_flatMap (fun _ => nl_app _) _), .nil, .nil⟩
  | vins n => cases h; exact ⟨nl_opening.append (nl_flatMap (fun _ => nl_app _) _), .nil, .nil⟩
  | vext n sg => cases h; exact ⟨.nil, nl_opening.append (nl_flatMap (fun _ => nl_app _) _), .nil⟩
  | scp k => cases h; exact ⟨.nil, .nil, .nil⟩

theorem nl_finish (rd : BitVec 5) (f : Fin) {c a b : List Char} (hc : '\n' ∉ c) (ha : '\n' ∉ a) (hb : '\n' ∉ b) :
    Nl (finish rd f c a b) := by
  unfold finish
  refine .ite .nil ?_
  cases f <;> repeat (first
    | with_reducible exact Nl.nil | (with_reducible refine Nl.lit ?_ ?_; decide) | (with_reducible refine Nl.str ?_ ?_; assumption)
    | with_reducible refine Nl.i32 ?_)

/-- all streams without a line break -/
def SS.Flats (s : SS) : Prop := (∃ n, Flat n s.c) ∧ (∃ n, Flat n s.a) ∧ (∃ n, Flat n s.b) ∧ ∃ n, Flat n s.ss

theorem flats_step {cfg : Cfg} {rf : BitVec 5 → W} {w : W} {s s' : SS} (h : stepText cfg rf w s = .ok s') (hs : s.Flats) : s'.Flats := by
  obtain ⟨⟨n1, h1⟩, ⟨n2, h2⟩, ⟨n3, h3⟩, ⟨n4, h4⟩⟩ := hs
  have h4' : Flat n4 (clear s.ss) := (Nl.clear .nil) n4 _ h4
  unfold stepText at h
  simp only at h
  split at h
  · cases ho : sel (IP.funct7 w) (IP.funct3 w) with
    | none => rw [ho] at h; cases h; exact ⟨⟨n1, h1⟩, ⟨n2, h2⟩, ⟨n3, h3⟩, n4, h4'⟩
    | some op =>
      rw [ho] at h
      obtain ⟨z, hz, h⟩ := bind_parts h
      cases h
      obtain ⟨z1, z2, z3⟩ := nl_out hz
      have k1 := Nl.clear z1 n1 _ h1
      have k2 := Nl.clear z2 n2 _ h2
      have k3 := Nl.clear z3 n3 _ h3
      exact ⟨⟨n1, k1⟩, ⟨n2, k2⟩, ⟨n3, k3⟩, n4, nl_finish _ _ k1.1 k2.1 k3.1 n4 _ h4'⟩
  · cases h; exact ⟨⟨n1, h1⟩, ⟨n2, h2⟩, ⟨n3, h3⟩, n4, h4'⟩

/-- the streams after any sequence of steps -/
inductive After (cfg : Cfg) : SS → Prop
  | init : After cfg SS.init
  | step {s s' : SS} (rf : BitVec 5 → W) (w : W) : After cfg s → stepText cfg rf w s = .ok s' → After cfg s'

/-- **C101**: whatever has been executed, the text of the SIMD lanes has no line break; this is the hypothesis on `simd` of
`log_file` and `log_numbers`. -/
theorem simd_flat {cfg : Cfg} {s : SS} (h : After cfg s) : '\n' ∉ s.ss.text := by
  have : s.Flats := by
    induction h with
    | init => exact ⟨⟨_, flat_init⟩, ⟨_, flat_init⟩, ⟨_, flat_init⟩, _, flat_init⟩
    | step rf w _ h ih => exact flats_step h ih
  exact this.2.2.2.choose_spec.1

/-- the text of a word of SIMD, with 0x01020304 in every register -/
def textOf (w : W) : Option (List Char) :=
  match stepText { Ama.Ex.cfg0 with simd := true, strict := false } (fun _ => 0x01020304#32) w SS.init with
  | .ok s => some s.ss.text
  | _ => none
/-- an addition of halves -/
example : textOf 0x0020808b#32 = some "RD = [ 1544 516 ], RS1 = [ 772 258 ], RS2 = [ 772 258 ]; ".toList := by decide +kernel
example : ∃ s, After { Ama.Ex.cfg0 with simd := true, strict := false } s ∧ s.ss.text ≠ [] := by
  have h : textOf 0x0020808b#32 = some "RD = [ 1544 516 ], RS1 = [ 772 258 ], RS2 = [ 772 258 ]; ".toList := by decide +kernel
  unfold textOf at h
  split at h
  · rename_i s e
    exact ⟨s, .step _ _ .init e, by rw [Option.some.inj h]; decide⟩
  · cases h

end Ama.SimdText
