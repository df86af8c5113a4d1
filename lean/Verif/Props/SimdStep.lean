import Verif.Lemmas.WordStep
import Verif.Props.Simd
/-!
# C34 - C40: stepping a SIMD instruction
-/
namespace Ama
open M Spec
variable {σ : Type} {E : Env σ} {s : St σ}

/-- the operation `d_custom_ext` selects for each instruction -/
def opOf1 : X1 → Simd.Op
  | .add n => .addSub n true false false | .sub n => .addSub n true true false
  | .qadd n sg => .addSub n sg false true | .qsub n sg => .addSub n sg true true
  | .mul n => .mul n true false | .mulh n sg => .mul n sg true | .dot n sg => .dot n sg
  | .min n sg => .minMax n sg false | .max n sg => .minMax n sg true
  | .slli n => .shift n false true | .srli n => .shift n false false | .srai n => .shift n true false
  | .narrow n => .narrow n false false | .qnarrow n sg => .narrow n true sg
  | .dup n => .dup n | .vins n => .vins n | .vext n sg => .vext n sg
def opOf2 : X2 → Simd.Op
  | .wmul n sg => .wmul n sg | .widen n sg => .widen n sg | .txp n => .txp n

/-- element width an instruction allows -/
def X1.wdOk : X1 → Prop
  | .add n | .sub n | .qadd n _ | .qsub n _ | .mul n | .mulh n _ | .dot n _ | .min n _ | .max n _
  | .slli n | .srli n | .srai n | .dup n | .vins n | .vext n _ => wd16 n
  | .narrow n | .qnarrow n _ => wdN n
def X2.wdOk : X2 → Prop
  | .wmul n _ | .widen n _ | .txp n => wd16 n

/-- the whole encoding table -/
theorem table1 {x : X1} {m : W} (h : x.match? = some m) :
    m = encR (IP.funct7 m) 0#5 0#5 (IP.funct3 m) 0#5 0x0b#7 ∧
    Simd.sel (IP.funct7 m) (IP.funct3 m) = some (opOf1 x) ∧ X1.wdOk x := by
  unfold X1.match? at h
  split at h <;> cases h <;>
    exact ⟨by decide, by decide, by simp [X1.wdOk, wd16, wdN]⟩
theorem table2 {x : X2} {m : W} (h : x.match? = some m) :
    m = encR (IP.funct7 m) 0#5 0#5 (IP.funct3 m) 0#5 0x0b#7 ∧
    Simd.sel (IP.funct7 m) (IP.funct3 m) = some (opOf2 x) ∧ X2.wdOk x := by
  unfold X2.match? at h
  split at h <;> cases h <;>
    exact ⟨by decide, by decide, by simp [X2.wdOk, wd16]⟩

theorem xWord_enc (f7 : BitVec 7) (f3 : BitVec 3) (rd rs1 rs2 : BitVec 5) :
    xWord (encR f7 0#5 0#5 f3 0#5 0x0b#7) rd rs1 rs2 = encR f7 rs2 rs1 f3 rd 0x0b#7 := by
  have z : ∀ k, fld (0#5) k = 0#32 := fun k => by simp [fld]
  have o : ∀ z : W, 0#32 ||| z = z ∧ z ||| 0#32 = z := fun z => by simp
  unfold xWord encR
  rw [z, z, z, (o _).2, (o _).2, (o _).2]
  show fld f7 25 ||| fld f3 12 ||| fld 0x0b#7 0 ||| fld rd 7 ||| fld rs1 15 ||| fld rs2 20 = _
  generalize fld f7 25 = a
  generalize fld f3 12 = b
  generalize fld 0x0b#7 0 = c
  generalize fld rd 7 = d
  generalize fld rs1 15 = e
  generalize fld rs2 20 = f
  clear z o
  ac_rfl

/-- the host arithmetic of the operation is defined for these operands: always on g++/x86, and
with undefined behaviour as an outcome except for the cases listed -/
def X1.hostOk (st : Bool) : X1 → Prop
  | .mulh n sg => mulOk st n sg
  | .dot n _ => st = true → n ≤ 8
  | _ => True
def X2.hostOk (st : Bool) : X2 → Prop
  | .wmul n sg => mulOk st n sg
  | .widen n sg => shlOk st n sg
  | .txp _ => True

section
variable {p : St σ} {k : Core} {x : X1} {y : X2} {w : W}

theorem twp_lift_res {ab : Prop} {α : Type} {r : Res α} {v : α} (h : r = .ok v) {Q : α → St σ → Prop} {q : St σ}
    (hq : Q v q) : twp ab (lift r) Q q := by
  rw [h, twp_lift_ok]; exact hq

/-- the selected operation computes the specified value -/
theorem simd1_exec (h0 : k.rf 0#5 = 0#32) (hwd : X1.wdOk x) (hh : X1.hostOk E.cfg.strict x) :
    ∃ v, x.holds (rx k.rf (IP.rs1 w)) (rx k.rf (IP.rs2 w)) (rx k.rf (IP.rd w)) (IP.rs2 w) v ∧
      ∀ p : St σ, p.core = k → ∀ (ab : Prop) (Q : Unit → St σ → Prop),
        (∀ q, q.core = { k with rf := wx k.rf (IP.rd w) v } → Q () q) → twp ab (simdExec E w (opOf1 x)) Q p := by
  have pre : ∀ (v : W) (m : W → W → W → M σ Unit),
      (∀ (p : St σ) (ab : Prop) (Q : Unit → St σ → Prop), twp ab (writeRf (IP.rd w) v) Q p →
        twp ab (m (rx k.rf (IP.rs1 w)) (rx k.rf (IP.rs2 w)) (rx k.rf (IP.rd w))) Q p) →
      ∀ p : St σ, p.core = k → ∀ (ab : Prop) (Q : Unit → St σ → Prop), (∀ q, q.core = { k with rf := wx k.rf (IP.rd w) v } → Q () q) →
        twp ab (do
          let a ← rg (IP.rs1 w)
          let b ← rg (IP.rs2 w)
          let c ← rg (IP.rd w)
          m a b c) Q p := by
    intro v m hm p hc ab Q hq
    have hp0 : p.rf 0#5 = 0#32 := by rw [core_rf hc]; exact h0
    rw [twp_bind, twp_rg hp0, twp_bind, twp_rg hp0, twp_bind, twp_rg hp0, core_rf hc]
    exact hm p ab Q (twp_wrRf hc hq)
  have lf : ∀ {r : Res W} {v : W}, r = .ok v → ∀ (p : St σ) (ab : Prop) (Q : Unit → St σ → Prop),
      twp ab (writeRf (IP.rd w) v) Q p → twp ab (do let z ← lift r; writeRf (IP.rd w) z) Q p := by
    intro r v hr p ab Q hq
    rw [twp_bind]; exact twp_lift_res hr hq
  generalize rx k.rf (IP.rs1 w) = a at *
  generalize rx k.rf (IP.rs2 w) = b at *
  generalize rx k.rf (IP.rd w) = c at *
  cases x with
  | add n =>
    obtain ⟨v, h1, h2⟩ := addsub_wrap hwd E.cfg.strict false a b
    exact ⟨v, fun i hi => by have := h2 i hi; simpa using this, pre v _ (lf h1)⟩
  | sub n =>
    obtain ⟨v, h1, h2⟩ := addsub_wrap hwd E.cfg.strict true a b
    exact ⟨v, fun i hi => by have := h2 i hi; simpa using this, pre v _ (lf h1)⟩
  | qadd n sg =>
    obtain ⟨v, h1, h2⟩ := addsub_sat hwd E.cfg.strict sg false a b
    exact ⟨v, fun i hi => by have := h2 i hi; simpa using this, pre v _ (lf h1)⟩
  | qsub n sg =>
    obtain ⟨v, h1, h2⟩ := addsub_sat hwd E.cfg.strict sg true a b
    exact ⟨v, fun i hi => by have := h2 i hi; simpa using this, pre v _ (lf h1)⟩
  | mul n =>
    obtain ⟨v, h1, h2⟩ := mul_lanes hwd (st := E.cfg.strict) (sg := true) (fun _ _ => rfl) a b
    exact ⟨v, h2, pre v _ (lf h1)⟩
  | mulh n sg =>
    obtain ⟨v, h1, h2⟩ := mulh_lanes hwd (st := E.cfg.strict) (sg := sg) hh a b
    exact ⟨v, h2, pre v _ (lf h1)⟩
  | dot n sg =>
    exact ⟨_, rfl, pre _ _ (lf (dot_lanes hwd hh a b c))⟩
  | min n sg =>
    obtain ⟨v, h1, h2⟩ := minmax_lanes hwd sg false a b
    exact ⟨v, fun i hi => by have := h2 i hi; simpa using this, pre v _ (lf h1)⟩
  | max n sg =>
    obtain ⟨v, h1, h2⟩ := minmax_lanes hwd sg true a b
    exact ⟨v, fun i hi => by have := h2 i hi; simpa using this, pre v _ (lf h1)⟩
  | slli n =>
    obtain ⟨v, h1, h2⟩ := slli_lanes hwd E.cfg.strict a (IP.rs2 w)
    exact ⟨v, h2, pre v _ (lf h1)⟩
  | srli n =>
    obtain ⟨v, h1, h2⟩ := shr_lanes hwd E.cfg.strict false a (IP.rs2 w)
    exact ⟨v, fun i hi => by have := h2 i hi; simpa using this, pre v _ (lf h1)⟩
  | srai n =>
    obtain ⟨v, h1, h2⟩ := shr_lanes hwd E.cfg.strict true a (IP.rs2 w)
    exact ⟨v, fun i hi => by have := h2 i hi; simpa using this, pre v _ (lf h1)⟩
  | narrow n => exact ⟨_, fun i hi => narrow_lanes hwd false a b hi, pre _ _ (fun _ _ _ h => h)⟩
  | qnarrow n sg => exact ⟨_, fun i hi => qnarrow_lanes hwd sg a b hi, pre _ _ (fun _ _ _ h => h)⟩
  | dup n => exact ⟨_, fun i hi => dup_lanes hwd a hi, pre _ _ (fun _ _ _ h => h)⟩
  | vins n =>
    refine ⟨_, fun i hi => ?_, pre _ _ (fun _ _ _ h => h)⟩
    have := vins_lanes hwd c a ((IP.rs2 w).toNat % Simd.count n) hi
    rw [show Simd.count n = 32 / n from rfl, Nat.mod_mod] at this
    exact this
  | vext n sg =>
    refine ⟨_, ?_, pre _ _ (fun _ _ _ h => h)⟩
    have := vext_value hwd sg a ((IP.rs2 w).toNat % Simd.count n)
    rw [show Simd.count n = 32 / n from rfl, Nat.mod_mod] at this
    exact this

/-- register file after writing a pair -/
def Spec.wx2 (rf : BitVec 5 → W) (rd : BitVec 5) (q : W × W) : BitVec 5 → W := fun r =>
  if rd = 0#5 then rf r else if r = rd then q.1 else if r = rd + 1#5 then q.2 else rf r

theorem twp_pair (hc : p.core = k) {rd : BitVec 5} {v : W × W} (hrd : rd ≠ 31#5) {ab : Prop} {Q : Unit → St σ → Prop}
    (hq : ∀ q, q.core = { k with rf := wx2 k.rf rd v } → Q () q) : twp ab (writeRfPair rd v) Q p := by
  unfold writeRfPair
  rw [if_neg hrd, twp_bind, twp_pure, twp_ite]
  split
  · rename_i h
    rw [twp_pure]
    apply hq
    rw [hc]
    have : wx2 k.rf rd v = k.rf := by funext r; simp [wx2, h]
    rw [this]
  · rename_i h
    rw [twp_bind, twp_mod]
    erw [if_neg hrd]
    rw [twp_mod]
    apply hq
    subst hc
    have hne : rd ≠ rd + 1#5 := by
      clear * -
      revert rd; decide
    have hf : upd (upd p.rf rd v.1) (rd + 1#5) v.2 = wx2 p.core.rf rd v := by
      funext r
      show upd (upd p.rf rd v.1) (rd + 1#5) v.2 r = wx2 p.rf rd v r
      by_cases c1 : r = rd
      · subst c1
        simp only [upd, wx2, h, hne, if_false, if_true]
      · simp only [upd, wx2, h, c1, if_false]
    rw [← hf]
    rfl

theorem simd2_exec (h0 : k.rf 0#5 = 0#32) (hrd : IP.rd w ≠ 31#5) (hwd : X2.wdOk y)
    (hh : X2.hostOk E.cfg.strict y) :
    ∃ v, y.holds (rx k.rf (IP.rs1 w)) (rx k.rf (IP.rs2 w)) (IP.rs2 w) v ∧
      ∀ p : St σ, p.core = k → ∀ (ab : Prop) (Q : Unit → St σ → Prop),
        (∀ q, q.core = { k with rf := wx2 k.rf (IP.rd w) v } → Q () q) → twp ab (simdExec E w (opOf2 y)) Q p := by
  have pre : ∀ (v : W × W) (m : W → W → W → M σ Unit),
      (∀ (p : St σ) (ab : Prop) (Q : Unit → St σ → Prop), twp ab (writeRfPair (IP.rd w) v) Q p →
        twp ab (m (rx k.rf (IP.rs1 w)) (rx k.rf (IP.rs2 w)) (rx k.rf (IP.rd w))) Q p) →
      ∀ p : St σ, p.core = k → ∀ (ab : Prop) (Q : Unit → St σ → Prop), (∀ q, q.core = { k with rf := wx2 k.rf (IP.rd w) v } → Q () q) →
        twp ab (do
          let a ← rg (IP.rs1 w)
          let b ← rg (IP.rs2 w)
          let c ← rg (IP.rd w)
          m a b c) Q p := by
    intro v m hm p hc ab Q hq
    have hp0 : p.rf 0#5 = 0#32 := by rw [core_rf hc]; exact h0
    rw [twp_bind, twp_rg hp0, twp_bind, twp_rg hp0, twp_bind, twp_rg hp0, core_rf hc]
    exact hm p ab Q (twp_pair hc hrd hq)
  have lf : ∀ {r : Res (W × W)} {v : W × W}, r = .ok v → ∀ (p : St σ) (ab : Prop) (Q : Unit → St σ → Prop),
      twp ab (writeRfPair (IP.rd w) v) Q p → twp ab (do let z ← lift r; writeRfPair (IP.rd w) z) Q p := by
    intro r v hr p ab Q hq
    rw [twp_bind]; exact twp_lift_res hr hq
  generalize rx k.rf (IP.rs1 w) = a at *
  generalize rx k.rf (IP.rs2 w) = b at *
  cases y with
  | wmul n sg =>
    obtain ⟨v, h1, h2⟩ := wmul_lanes hwd (st := E.cfg.strict) (sg := sg) hh a b
    exact ⟨v, h2, pre v _ (lf h1)⟩
  | widen n sg =>
    obtain ⟨v, h1, h2⟩ := widen_lanes hwd (st := E.cfg.strict) (sg := sg) hh a (IP.rs2 w)
    exact ⟨v, h2, pre v _ (lf h1)⟩
  | txp n => exact ⟨_, fun i hi => txp_lanes hwd a b hi, pre _ _ (fun _ _ _ h => h)⟩

end

theorem exec_custom {p : St σ} {k : Core} (hc : p.core = k) (hs : E.cfg.simd = true) {op : Simd.Op} {w : W}
    {f : BitVec 5 → W} (hi : k.inst = w) (hop : IP.opcode w = 0x0b#7)
    (hsel : Simd.sel (IP.funct7 w) (IP.funct3 w) = some op)
    (hx : ∀ (ab : Prop) (Q : Unit → St σ → Prop), (∀ q, q.core = { k with rf := f } → Q () q) →
      twp ab (simdExec E w op) Q p) :
    ExecTo E p { k with rf := f, nextPc := k.pc + 4#32 } := by
  intro ab Q hq
  have hpi : p.inst = w := (core_inst hc).trans hi
  refine twp_exec32 (copcode_of _ 0x0b#7 (by rw [hpi]; exact hop) rfl) ?_
  rw [hpi]
  simp only [exec32, hop, hs, if_true, dCustom, hsel]
  rw [twp_bind]
  refine hx _ _ fun q1 h1 => ?_
  rw [twp_bind]
  refine twp_emit fun q2 h2 _ => ?_
  exact twp_nextSeq (h2.trans h1) hq

/-- **C36, C37** (and the instructions of `simd_step`): stepping a SIMD instruction with one
destination writes the specified value to rd (computed from the registers before the step) and
nothing else, whenever the host arithmetic is defined. Missing with overflow undefined
(`E.cfg.strict`): MULH16U, DOT16, DOT16U, where `mulh16u_ub`, `dot16_ub`, `dot16u_ub` show that
some operands are undefined behaviour in C++. -/
theorem simd_step_partial (hs : E.cfg.simd = true) {x : X1} {m : W} (hm : x.match? = some m)
    (hh : X1.hostOk E.cfg.strict x) {rd rs1 rs2 : BitVec 5} (h : Ready E s (xWord m rd rs1 rs2)) :
    ∃ s' v, step E s = .ok ((), s') ∧ x.holds (rx s.rf rs1) (rx s.rf rs2) (rx s.rf rd) rs2 v ∧
      s'.pc = s.pc + 4#32 ∧ (∀ r, s'.rf r = if r = rd ∧ rd ≠ 0#5 then v else s.rf r) ∧
      s'.ram.bytes = s.ram.bytes ∧ s'.simInst = s.simInst + 1#64 ∧ Frame E s s' := by
  obtain ⟨t1, t2, t3⟩ := table1 hm
  have hw : xWord m rd rs1 rs2 = encR (IP.funct7 m) rs2 rs1 (IP.funct3 m) rd 0x0b#7 := by
    rw [t1, xWord_enc, ← t1]
  rw [hw] at h
  obtain ⟨d1, d2, d3, d4, d5, d6⟩ := decode_R (IP.funct7 m) rs2 rs1 (IP.funct3 m) rd 0x0b#7
  generalize encR (IP.funct7 m) rs2 rs1 (IP.funct3 m) rd 0x0b#7 = w at *
  obtain ⟨f1, f2, f3, f4, f5, f6, f7, f8, f9, f10⟩ := startCore_frame (E := E) (s := s) (w := w)
  obtain ⟨v, hv, hx⟩ := simd1_exec (E := E) (x := x) (w := w) (k := startCore E s w) (by rw [f3]; exact h.x0) t3 hh
  rw [f3, d4, d5, d2] at hv
  rw [f3, d2] at hx
  obtain ⟨s', g1, g2, g3, g4, g5, g6⟩ := retires_word (opcode_ne d1 (by decide)) h (f := wx s.rf rd v) (t := s.pc + 4#32)
    fun p hp _ => by
      have := exec_custom (E := E) hp hs f10 d1 (by rw [d6, d3]; exact t2) (hx p hp)
      rw [show (startCore E s w).pc + 4#32 = s.pc + 4#32 by rw [f1]] at this
      exact this
  exact ⟨s', v, g1, hv, g2, fun r => by rw [g3]; rfl, g4, g5, g6⟩

/-- **C34, C35, C38 (narrowing), C39**: every other one-destination SIMD instruction, in either
host reading and for all operands. -/
theorem simd_step (hs : E.cfg.simd = true) {x : X1} {m : W} (hm : x.match? = some m)
    (hx : ∀ st, X1.hostOk st x) {rd rs1 rs2 : BitVec 5} (h : Ready E s (xWord m rd rs1 rs2)) :
    ∃ s' v, step E s = .ok ((), s') ∧ x.holds (rx s.rf rs1) (rx s.rf rs2) (rx s.rf rd) rs2 v ∧
      s'.pc = s.pc + 4#32 ∧ (∀ r, s'.rf r = if r = rd ∧ rd ≠ 0#5 then v else s.rf r) ∧
      s'.ram.bytes = s.ram.bytes ∧ s'.simInst = s.simInst + 1#64 ∧ Frame E s s' :=
  simd_step_partial hs hm (hx _) h

/-- which instructions `simd_step` leaves out -/
theorem hostOk_iff {x : X1} {m : W} (hm : x.match? = some m) :
    (∀ st, X1.hostOk st x) ↔ x ≠ .mulh 16 false ∧ x ≠ .dot 16 true ∧ x ≠ .dot 16 false := by
  unfold X1.match? at hm
  split at hm <;> cases hm <;> simp [X1.hostOk, mulOk]

/-- **C40, C36, C38, C39**: stepping a SIMD instruction with a register-pair destination other
than x31 writes the specified pair to rd and rd+1 (nothing at all when rd is x0). -/
theorem simd_pair_step_partial (hs : E.cfg.simd = true) {y : X2} {m : W} (hm : y.match? = some m)
    (hh : X2.hostOk E.cfg.strict y) {rd rs1 rs2 : BitVec 5} (hrd : rd ≠ 31#5)
    (h : Ready E s (xWord m rd rs1 rs2)) :
    ∃ s' v, step E s = .ok ((), s') ∧ y.holds (rx s.rf rs1) (rx s.rf rs2) rs2 v ∧
      s'.pc = s.pc + 4#32 ∧
      (rd = 0#5 → s'.rf = s.rf) ∧
      (rd ≠ 0#5 → s'.rf rd = v.1 ∧ s'.rf (rd + 1#5) = v.2 ∧
        ∀ r, r ≠ rd → r ≠ rd + 1#5 → s'.rf r = s.rf r) ∧
      s'.ram.bytes = s.ram.bytes ∧ s'.simInst = s.simInst + 1#64 ∧ Frame E s s' := by
  obtain ⟨t1, t2, t3⟩ := table2 hm
  have hw : xWord m rd rs1 rs2 = encR (IP.funct7 m) rs2 rs1 (IP.funct3 m) rd 0x0b#7 := by
    rw [t1, xWord_enc, ← t1]
  rw [hw] at h
  obtain ⟨d1, d2, d3, d4, d5, d6⟩ := decode_R (IP.funct7 m) rs2 rs1 (IP.funct3 m) rd 0x0b#7
  generalize encR (IP.funct7 m) rs2 rs1 (IP.funct3 m) rd 0x0b#7 = w at *
  obtain ⟨f1, f2, f3, f4, f5, f6, f7, f8, f9, f10⟩ := startCore_frame (E := E) (s := s) (w := w)
  obtain ⟨v, hv, hx⟩ := simd2_exec (E := E) (y := y) (w := w) (k := startCore E s w) (by rw [f3]; exact h.x0)
    (by rw [d2]; exact hrd) t3 hh
  rw [f3, d4, d5] at hv
  rw [f3, d2] at hx
  obtain ⟨s', g1, g2, g3, g4, g5, g6⟩ := retires_word (opcode_ne d1 (by decide)) h (f := wx2 s.rf rd v) (t := s.pc + 4#32)
    fun p hp _ => by
      have := exec_custom (E := E) hp hs f10 d1 (by rw [d6, d3]; exact t2) (hx p hp)
      rw [show (startCore E s w).pc + 4#32 = s.pc + 4#32 by rw [f1]] at this
      exact this
  have hne : rd + 1#5 ≠ rd := by
    clear * -
    revert rd; decide
  refine ⟨s', v, g1, hv, g2, fun e => ?_, fun e => ⟨?_, ?_, fun r a b => ?_⟩, g4, g5, g6⟩ <;> rw [g3]
  · funext r; simp [wx2, e]
  · simp [wx2, e]
  · simp only [wx2, e, hne, if_false, if_true]
  · simp only [wx2, e, a, b, if_false]

/-! ## The specification determines the result -/

theorem lv_inj {n : Nat} {sg : Bool} {k l : BitVec n} (h : lv sg k = lv sg l) : k = l := by
  have := congrArg (BitVec.ofInt n) h
  rwa [ofInt_lv, ofInt_lv] at this

theorem wdN_half {n : Nat} (h : wdN n) : wd16 (n / 2) ∧ 32 / (n / 2) = 64 / n := by
  rcases wdN_cases h with rfl | rfl | rfl | rfl <;> simp [wd16]

/-- **C34-C39**: at most one result meets the specification. -/
theorem simd_unique {x : X1} {m : W} (hm : x.match? = some m) {a b c : W} {imm : BitVec 5} {v v' : W}
    (h : x.holds a b c imm v) (h' : x.holds a b c imm v') : v = v' := by
  have hwd := (table1 hm).2.2
  cases x
  case dot => exact h.trans h'.symm
  case vext => exact h.trans h'.symm
  case narrow n =>
    obtain ⟨w1, w2⟩ := wdN_half hwd
    exact lanes_ext (wd16_32 w1) fun i hi => (h i (w2 ▸ hi)).trans (h' i (w2 ▸ hi)).symm
  case qnarrow n sg =>
    obtain ⟨w1, w2⟩ := wdN_half hwd
    exact lanes_ext (wd16_32 w1) fun i hi => lv_inj ((h i (w2 ▸ hi)).trans (h' i (w2 ▸ hi)).symm)
  all_goals first
    | exact lanes_ext (wd16_32 hwd) fun i hi => (h i hi).trans (h' i hi).symm
    | exact lanes_ext (wd16_32 hwd) fun i hi => lv_inj ((h i hi).trans (h' i hi).symm)

/-! ## Where the code disagrees -/

/-- **C40 fails for rd = x31**: after the exception the code still writes the first half and then
indexes past the register file. -/
theorem pair_x31_ub (v : W × W) (s : St σ) : writeRfPair 31#5 v s = .ub .outOfBounds := by
  have h1 : (eHardware : M σ Unit) s = .ok ((), trapTo 19#32 s.inst s) := by
    unfold eHardware
    rw [M.bind_ok (M.get_app _ _), trapInst_app]
  unfold writeRfPair
  simp only [if_true]
  rw [M.bind_ok h1, if_neg (by decide : (31#5 : BitVec 5) ≠ 0#5), M.bind_ok (M.mod_app _ _)]
  exact congrFun (if_pos trivial) _

/-- **C36, strict host reading**: 0xffff * 0xffff overflows `int`. -/
theorem mulh16u_ub : Simd.mul true 16 false true 0xffff#32 0xffff#32 = .ub .signedOverflow := by decide +kernel
theorem wmul16u_ub : Simd.wmul true 16 false 0xffff#32 0xffff#32 = .ub .signedOverflow := by decide +kernel
/-- **C37, strict host reading**: 2^30 + 2^30 overflows `int32_t`. -/
theorem dot16_ub : Simd.dot true 16 true 0x80008000#32 0x80008000#32 0#32 = .ub .signedOverflow := by decide +kernel
theorem dot16u_ub : Simd.dot true 16 false 0xffff#32 0xffff#32 0#32 = .ub .signedOverflow := by decide +kernel
/-- **C38, strict host reading**: a negative element is shifted left, even by 0. -/
theorem widen8_ub : Simd.widen true 8 true 0xff#32 0#32 = .ub .negShift := by decide +kernel
theorem widen16u_ub : Simd.widen true 16 false 0xffff#32 31#32 = .ub .negShift := by decide +kernel

/-! ## Concrete cases -/
section
open Ex

-- simd_step, simd_step_partial: qadd8 x5, x1, x2; dot4u x5, x1, x2; srai16 x5, x1, 7
example : (X1.qadd 8 true).match? = some 0x200200b#32 ∧ (∀ st, X1.hostOk st (.qadd 8 true)) ∧
    Ready env0 (stI (xWord 0x200200b#32 5#5 1#5 2#5)) (xWord 0x200200b#32 5#5 1#5 2#5) :=
  ⟨rfl, fun _ => trivial, by ready_ex⟩
example : obs (step env0 (stI (xWord 0x200200b#32 5#5 1#5 2#5))) (fun s => s.rf 5#5) = some 0x80000201#32 := by
  decide +kernel
-- a pair: wmul8 x5, x1, x2 and into x0 and x30
example : (X2.wmul 8 true).match? = some 0x600200b#32 ∧ X2.hostOk true (.wmul 8 true) ∧
    Ready env0 (stI (xWord 0x600200b#32 30#5 1#5 2#5)) (xWord 0x600200b#32 30#5 1#5 2#5) :=
  ⟨rfl, fun _ h => absurd h (by decide), by ready_ex⟩
-- rd = x31 from reset
example : (match runN env0 1 (st0 env0 [xWord 0x600200b#32 31#5 1#5 2#5]) with
    | .ub .outOfBounds => true | _ => false) = true := by decide +kernel
-- simd_unique
example : (X1.qadd 8 true).holds 0x7f80#32 0x0180#32 0#32 0#5 0x7f80#32 := by
  intro i hi
  have : i = 0 ∨ i = 1 ∨ i = 2 ∨ i = 3 := by omega
  rcases this with rfl | rfl | rfl | rfl <;> decide +kernel
end

end Ama
