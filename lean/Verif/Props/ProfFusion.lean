import Verif.Model.Prof
import Verif.Props.Decode
/-!
# C60: fusion analysis
-/
namespace Ama.Prof

/-! ## Specification -/
namespace Spec

/-- `n` bits of a word from bit `lo` -/
def bits (w : W) (lo n : Nat) : Nat := w.toNat / 2 ^ lo % 2 ^ n

/-- the word is `add rd, rd, rs2` or `c.add rd, rs2` for some `rd` -/
def accumulates (w : W) (rs2 : Nat) : Prop :=
  (bits w 0 7 = 0x33 ∧ bits w 12 3 = 0 ∧ bits w 25 7 = 0 ∧ bits w 7 5 = bits w 15 5 ∧ bits w 20 5 = rs2) ∨
  (bits w 0 2 = 2 ∧ bits w 13 3 = 4 ∧ bits w 12 1 = 1 ∧ bits w 7 5 ≠ 0 ∧ bits w 2 5 ≠ 0 ∧ bits w 2 5 = rs2)

/-- the shift amount of `slli` or `c.slli` -/
def shift (rvc : Bool) (w : W) : Nat := if rvc then bits w 2 5 + 32 * bits w 12 1 else bits w 20 5

/-- shift by one or two, then accumulate the shifted register -/
def pair (rvc : Bool) (w nx : W) : Prop :=
  (shift rvc w = 1 ∨ shift rvc w = 2) ∧ accumulates nx (bits w 7 5)

end Spec

theorem ext_bits (w : W) (lo n : Nat) : (w.extractLsb' lo n).toNat = Spec.bits w lo n := by
  rw [BitVec.extractLsb'_toNat, Nat.shiftRight_eq_div_pow]; rfl

theorem opcode_bits (w : W) : (IP.opcode w).toNat = Spec.bits w 0 7 := by
  rw [← ext_bits]; congr 1; fields [IP.opcode]
theorem rd_bits (w : W) : (IP.rd w).toNat = Spec.bits w 7 5 := by
  rw [← ext_bits]; congr 1; fields [IP.rd]
theorem rs1_bits (w : W) : (IP.rs1 w).toNat = Spec.bits w 15 5 := by
  rw [← ext_bits]; congr 1; fields [IP.rs1]
theorem rs2_bits (w : W) : (IP.rs2 w).toNat = Spec.bits w 20 5 := by
  rw [← ext_bits]; congr 1; fields [IP.rs2]
theorem cRs2_bits (w : W) : (IP.cRs2 w).toNat = Spec.bits w 2 5 := by
  rw [← ext_bits]; congr 1; fields [IP.cRs2]
theorem cFunct3_bits (w : W) : (IP.cFunct3 w).toNat = Spec.bits w 13 3 := by
  rw [← ext_bits]; congr 1; fields [IP.cFunct3]
theorem cFunct4_bits (w : W) : (IP.cFunct4 w).toNat = Spec.bits w 12 4 := by
  rw [← ext_bits]; congr 1; fields [IP.cFunct4]
theorem funct3_bits (w : W) : (IP.funct3 w).toNat = Spec.bits w 12 3 := by
  rw [← ext_bits]; congr 1; fields [IP.funct3]
theorem f7b5_bits (w : W) : (IP.funct7b5 w).toNat = Spec.bits w 30 1 := by
  rw [← ext_bits]; congr 1; fields [IP.funct7b5]

theorem shamt_bits (rvc : Bool) (w : W) :
    (if rvc then IP.cImmSlli w else IP.immIShamt w).toNat = Spec.shift rvc w := by
  cases rvc
  · simp only [Spec.shift, Bool.false_eq_true, if_false]
    have h : IP.immIShamt w = (w.extractLsb' 20 5).setWidth 32 := by fields [IP.immIShamt]
    rw [h, BitVec.toNat_setWidth_of_le (by omega), ext_bits]
  · simp only [Spec.shift, if_true]
    have h : IP.cImmSlli w = (w.extractLsb' 12 1).setWidth 32 <<< 5 ||| (w.extractLsb' 2 5).setWidth 32 := by
      fields [IP.cImmSlli]
    have hl : Spec.bits w 2 5 < 2 ^ 5 := Nat.mod_lt _ (by decide)
    have hh : Spec.bits w 12 1 < 2 ^ 1 := Nat.mod_lt _ (by decide)
    rw [h, BitVec.toNat_or, BitVec.toNat_shiftLeft, BitVec.toNat_setWidth_of_le (by omega),
      BitVec.toNat_setWidth_of_le (by omega), ext_bits, ext_bits, Nat.shiftLeft_eq, Nat.mod_eq_of_lt (by omega),
      ← Nat.shiftLeft_eq, ← Nat.shiftLeft_add_eq_or_of_lt hl, Nat.shiftLeft_eq]
    omega

theorem lea1_iff (o : Opt) : lea1 o = if Spec.shift o.rvc o.inst = 1 ∨ Spec.shift o.rvc o.inst = 2 then .lea2 else .start := by
  simp only [lea1]
  rw [← shamt_bits]
  simp only [BitVec.lt_def]
  generalize (if o.rvc = true then IP.cImmSlli o.inst else IP.immIShamt o.inst).toNat = n
  by_cases h : n = 1 ∨ n = 2
  · rw [if_pos (by simp; omega), if_pos h]
  · rw [if_neg (by simp; omega), if_neg h]

/-- the test made on the next word -/
def second (w : W) (rd : Nat) : Prop :=
  (Spec.bits w 12 4 = 9 ∧ ¬ (Spec.bits w 2 5 = 0 ∧ Spec.bits w 7 5 = 0) ∧ Spec.bits w 2 5 = rd) ∨
  (Spec.bits w 0 7 = 0x33 ∧ Spec.bits w 30 1 = 0 ∧ Spec.bits w 12 3 = 0 ∧ Spec.bits w 7 5 = Spec.bits w 15 5 ∧
    Spec.bits w 20 5 = rd)

instance (w : W) (rd : Nat) : Decidable (second w rd) := by unfold second; infer_instance

theorem bits_top (w : W) : Spec.bits w 13 3 = Spec.bits w 12 4 / 2 ∧ Spec.bits w 12 1 = Spec.bits w 12 4 % 2 := by
  unfold Spec.bits; omega

theorem lea2_iff (o : Opt) : lea2 o = if second o.instNx (Spec.bits o.inst 7 5) then .leaMatch else .start := by
  simp only [lea2, ← BitVec.toNat_inj (y := (_ : BitVec 5)), ← BitVec.toNat_inj (y := (_ : BitVec 3)),
    ← BitVec.toNat_inj (y := (_ : BitVec 4)), ← BitVec.toNat_inj (y := (_ : BitVec 7)),
    ← BitVec.toNat_inj (y := (_ : BitVec 1)), opcode_bits, rd_bits, rs1_bits, rs2_bits, cRs2_bits, cFunct3_bits,
    cFunct4_bits, funct3_bits, f7b5_bits]
  simp only [BitVec.toNat_ofNat, Nat.reduceMod, Nat.reducePow, Nat.zero_mod]
  obtain ⟨h3, _⟩ := bits_top o.instNx
  rw [h3]
  split
  · rw [if_pos (by unfold second; left; omega)]
  · split
    · rw [if_pos (by unfold second; right; omega)]
    · rw [if_neg (by unfold second; omega)]

/-- the profiler between instructions: switched on, nothing in progress -/
structure Fus.Idle (f : Fus) : Prop where
  st : f.state = .start

/-- **C60.** Whatever the instruction and its successor, examination ends within four transitions, with nothing in
progress, and adds at most one to the count; while switched off it does nothing. -/
theorem attack_ends (f : Fus) (h : f.Idle) (on : Bool) (ha : f.active = some on) (o : Opt) :
    ∃ f', f.attack 4 o = .ok (some f') ∧ f'.Idle ∧ f'.active = some on ∧
      f'.matches_ = f.matches_ + (if on = true ∧ o.trig = .slliLea ∧
        (Spec.shift o.rvc o.inst = 1 ∨ Spec.shift o.rvc o.inst = 2) ∧ second o.instNx (Spec.bits o.inst 7 5)
        then 1 else 0) := by
  obtain ⟨act, st, m⟩ := f
  obtain ⟨h⟩ := h
  simp only at h ha
  subst h ha
  cases on with
  | false => exact ⟨_, rfl, ⟨rfl⟩, rfl, by simp⟩
  | true =>
    simp only [Fus.attack]
    by_cases ht : o.trig = .slliLea
    · by_cases h1 : Spec.shift o.rvc o.inst = 1 ∨ Spec.shift o.rvc o.inst = 2
      · by_cases h2 : second o.instNx (Spec.bits o.inst 7 5)
        · refine ⟨{ active := some true, state := .start, matches_ := m + 1 }, ?_, ⟨rfl⟩, rfl, by simp [ht, h1, h2]⟩
          simp [Fus.loop, Fus.transition, ht, lea1_iff, h1, lea2_iff, h2]
        · refine ⟨{ active := some true, state := .start, matches_ := m }, ?_, ⟨rfl⟩, rfl, by simp [h2]⟩
          simp [Fus.loop, Fus.transition, ht, lea1_iff, h1, lea2_iff, h2]
      · refine ⟨{ active := some true, state := .start, matches_ := m }, ?_, ⟨rfl⟩, rfl, by simp [h1]⟩
        simp [Fus.loop, Fus.transition, ht, lea1_iff, h1]
    · refine ⟨{ active := some true, state := .start, matches_ := m }, ?_, ⟨rfl⟩, rfl, by simp [ht]⟩
      simp [Fus.loop, Fus.transition, ht]

theorem second_complete {w : W} {rd : Nat} (h : Spec.accumulates w rd) : second w rd := by
  have hb := bits_top w
  have hf : Spec.bits w 30 1 = Spec.bits w 25 7 / 32 % 2 := by unfold Spec.bits; omega
  have h4 : Spec.bits w 12 4 < 16 := Nat.mod_lt _ (by decide)
  unfold second
  rcases h with h | h
  · right; omega
  · left; omega

/-- **C60.** Every pair of a shift by one or two and an addition accumulating the shifted register is counted. -/
theorem pair_counted (f : Fus) (h : f.Idle) (ha : f.active = some true) (w nx : W) (rvc : Bool)
    (hp : Spec.pair rvc w nx) :
    ∃ f', f.attack 4 ⟨.slliLea, w, nx, rvc⟩ = .ok (some f') ∧ f'.matches_ = f.matches_ + 1 := by
  obtain ⟨f', h1, _, _, h2⟩ := attack_ends f h true ha ⟨.slliLea, w, nx, rvc⟩
  exact ⟨f', h1, by rw [h2, if_pos ⟨rfl, rfl, hp.1, second_complete hp.2⟩]⟩

/-- the conditions under which the test on the next word is exact: the shifted register is not `x0`, bits 15-12 are
only read as a compressed opcode in a compressed word of quadrant 2, and register-register arithmetic has the plain
function code -/
structure Clear (w nx : W) : Prop where
  rd : Spec.bits w 7 5 ≠ 0
  quad : Spec.bits nx 12 4 = 9 → Spec.bits nx 0 2 = 2
  rd2 : Spec.bits nx 12 4 = 9 → Spec.bits nx 7 5 ≠ 0
  f7 : Spec.bits nx 0 7 = 0x33 → Spec.bits nx 12 3 = 0 → Spec.bits nx 30 1 = 0 → Spec.bits nx 25 7 = 0

theorem second_sound {w nx : W} (hc : Clear w nx) (h : second nx (Spec.bits w 7 5)) :
    Spec.accumulates nx (Spec.bits w 7 5) := by
  have hb := bits_top nx
  have h1 := hc.rd
  have h2 := hc.quad
  have h3 := hc.rd2
  have h4 := hc.f7
  rcases h with h | h
  · right
    exact ⟨h2 h.1, by omega, by omega, h3 h.1, by omega, h.2.2⟩
  · left
    exact ⟨h.1, h.2.2.1, h4 h.1 h.2.2.1 h.2.1, h.2.2.2⟩

/-- **C60**, restricted: under `Clear`, the count goes up exactly for the pairs.  Without it the statement is false,
see below. -/
theorem counted_iff_pair_partial (f : Fus) (h : f.Idle) (ha : f.active = some true) (w nx : W) (rvc : Bool)
    (hc : Clear w nx) :
    ∃ f', f.attack 4 ⟨.slliLea, w, nx, rvc⟩ = .ok (some f') ∧
      (f'.matches_ = f.matches_ + 1 ↔ Spec.pair rvc w nx) ∧ (f'.matches_ = f.matches_ ↔ ¬ Spec.pair rvc w nx) := by
  obtain ⟨f', h1, _, _, h2⟩ := attack_ends f h true ha ⟨.slliLea, w, nx, rvc⟩
  refine ⟨f', h1, ?_⟩
  have hiff : (true = true ∧ Trigger.slliLea = .slliLea ∧ (Spec.shift rvc w = 1 ∨ Spec.shift rvc w = 2) ∧
      second nx (Spec.bits w 7 5)) ↔ Spec.pair rvc w nx :=
    ⟨fun ⟨_, _, a, b⟩ => ⟨a, second_sound hc b⟩, fun ⟨a, b⟩ => ⟨rfl, rfl, a, second_complete b⟩⟩
  by_cases hp : Spec.pair rvc w nx
  · rw [if_pos (hiff.2 hp)] at h2; simp only [hp, not_true_eq_false, iff_true, iff_false]; omega
  · rw [if_neg (mt hiff.1 hp)] at h2; simp only [hp, not_false_eq_true, iff_true, iff_false]; omega

instance (w : W) (r : Nat) : Decidable (Spec.accumulates w r) := by unfold Spec.accumulates; infer_instance
instance (b : Bool) (w nx : W) : Decidable (Spec.pair b w nx) := by unfold Spec.pair; infer_instance

/-- profiler on, nothing counted -/
def fon : Fus := { active := some true }

/-- `slli a2, a2, 2; add a0, a0, a2` meets the conditions and is a pair -/
example : Clear 0x00261613#32 0x00c50533#32 ∧ Spec.pair false 0x00261613#32 0x00c50533#32 :=
  ⟨⟨by decide +kernel, by decide +kernel, by decide +kernel, by decide +kernel⟩, by decide +kernel⟩

/-- `c.slli a2, 1; c.add a0, a2` -/
example : Clear 0x0606#32 0x9532#32 ∧ Spec.pair true 0x0606#32 0x9532#32 :=
  ⟨⟨by decide +kernel, by decide +kernel, by decide +kernel, by decide +kernel⟩, by decide +kernel⟩

/-- **C60 fails**: `slli a2, a2, 2; mul a0, a0, a2` is counted -/
theorem mul_counted : ¬ Spec.pair false 0x00261613#32 0x02c50533#32 ∧
    (match fon.attack 4 ⟨.slliLea, 0x00261613#32, 0x02c50533#32, false⟩ with
      | .ok (some f) => f.matches_ == 1 | _ => false) = true := by decide +kernel

/-- **C60 fails**: `slli a2, a2, 2; sll a0, a1, a3` is counted, because bits of the 32-bit word look like a compressed
addition -/
theorem sll_counted : ¬ Spec.pair false 0x00261613#32 0x00d59533#32 ∧
    (match fon.attack 4 ⟨.slliLea, 0x00261613#32, 0x00d59533#32, false⟩ with
      | .ok (some f) => f.matches_ == 1 | _ => false) = true := by decide +kernel

/-- **C60 fails**: `slli s8, s8, 1; bne a1, zero, +8` is counted -/
theorem branch_counted : ¬ Spec.pair false 0x001c1c13#32 0x00059463#32 ∧
    (match fon.attack 4 ⟨.slliLea, 0x001c1c13#32, 0x00059463#32, false⟩ with
      | .ok (some f) => f.matches_ == 1 | _ => false) = true := by decide +kernel

/-- **C60 fails**: a shift into `x0` followed by `c.jalr a0` is counted -/
theorem jalr_counted : ¬ Spec.pair false 0x00151013#32 0x9502#32 ∧
    (match fon.attack 4 ⟨.slliLea, 0x00151013#32, 0x9502#32, false⟩ with
      | .ok (some f) => f.matches_ == 1 | _ => false) = true := by decide +kernel

end Ama.Prof
