import Verif.Lemmas.BpRef
import Verif.Props.BpPredict
/-!
# C66, C67: predictors are functions of the branches before, and learn patterns

The specification is `Verif.Spec.Bp`: the answer computed from the list of past branches.
-/
namespace Ama.Bp
open Ama.Spec.Bp

theorem make_ref {low : Nat} (hl : low ≤ 2) : ∀ {d : Def} {p : Pred}, Real (shapeD d) → make low d = .ok p →
    Ref low d [] p
  | .one k c, p, hr, h => make1_ref hl hr h
  | .comb c d0 d1, p, hr, h => by
    unfold make at h
    obtain ⟨p0, h0, h⟩ := bind_eq_ok h
    obtain ⟨p1, h1, h⟩ := bind_eq_ok h
    obtain ⟨b, hb, h⟩ := bind_eq_ok h
    obtain ⟨t, ht, h⟩ := bind_eq_ok h
    simp only [Res.ok.injEq] at h
    subst h
    exact ⟨make_baseR hl hb, make_tab ht _, make_ref hl hr.1 h0, make_ref hl hr.2 h1⟩

/-- **C66.** After any sequence of branches and profiling switches, a predictor of any accepted configuration
built without `none` and ideal answers with what the list of past branches determines, and with nothing else:
counters, history registers and masks hold exactly what the specification computes from that list. -/
theorem predictor_refines {low : Nat} (hl : low = 1 ∨ low = 2) {d : Def} {p : Pred} (hm : make low d = .ok p)
    (hr : Real (shapeD d)) (evs : List Ev) (e : Br) :
    ∃ p1 p2, run evs p = .ok p1 ∧
      drive e p1 = .ok (guess low d (branches evs).reverse e.pc (e.pc + e.offset), p2) := by
  obtain ⟨p1, v, p2, h1, h2, _⟩ := prediction_is_successor_partial hl hm hr evs e
  refine ⟨p1, p2, h1, ?_⟩
  have := ref_run (by omega) evs (make_ref (by omega) hr hm) h1
  rw [List.append_nil] at this
  rw [h2, (ref_drive (by omega) this h2).1]

/-! ## Learning -/

theorem newest_testBit : ∀ (n : Nat) (l : List Bool) (k : Nat),
    (newest n l).testBit k = (decide (k < n) && l.getD k false)
  | 0, l, k => by simp [newest]
  | n + 1, [], k => by simp [newest]
  | n + 1, b :: l, 0 => by
    simp only [newest, Nat.testBit_zero, List.getD_cons_zero]
    cases b <;> simp <;> omega
  | n + 1, b :: l, k + 1 => by
    have hb : b.toNat < 2 := by cases b <;> decide
    simp only [newest, Nat.testBit_succ, List.getD_cons_succ]
    rw [show (b.toNat + 2 * newest n l) / 2 = newest n l by omega, newest_testBit n l k]
    simp

/-- branch number `j` of a branch repeated with outcomes `b` -/
def rep (pc off : W) (f3 : BitVec 3) (b : Nat → Bool) (j : Nat) : Br :=
  ⟨pc, off, f3, if b j then pc + off else pc + 4#32⟩

/-- the first `i` of them, newest first -/
def past (pc off : W) (f3 : BitVec 3) (b : Nat → Bool) (i : Nat) : List Br :=
  ((List.range i).map (rep pc off f3 b)).reverse

theorem past_succ (pc off : W) (f3 : BitVec 3) (b : Nat → Bool) (i : Nat) :
    past pc off f3 b (i + 1) = rep pc off f3 b i :: past pc off f3 b i := by
  simp [past, List.range_succ]

section
variable {pc off : W} {f3 : BitVec 3} {b : Nat → Bool}

theorem taken_rep (ho : off ≠ 4#32) (j : Nat) : taken (rep pc off f3 b j) = b j := by
  cases hb : b j
  · simp [taken, rep, hb]
  · have : pc + off ≠ pc + 4#32 := fun h => ho (by simpa using h)
    simp [taken, rep, hb, this]

theorem outs_getD (ho : off ≠ 4#32) : ∀ (i k : Nat), k < i → ((past pc off f3 b i).map taken).getD k false = b (i - 1 - k)
  | 0, k, h => by omega
  | i + 1, 0, h => by
    rw [past_succ, List.map_cons, List.getD_cons_zero, taken_rep ho]
    rfl
  | i + 1, k + 1, h => by
    rw [past_succ, List.map_cons, List.getD_cons_succ, outs_getD ho i k (by omega)]
    congr 1
    omega

/-- history length of a class -/
def histLen (k : Kind) (c : PCfg) : Nat :=
  match k with
  | .local => c.histBits.toNat
  | _ => c.ghrBits.toNat

/-- the classes with a history -/
def HasHist (k : Kind) : Prop := k = .local ∨ k = .global ∨ k = .gselect ∨ k = .gshare

theorem filter_past (low : Nat) (c : PCfg) (i : Nat) :
    (past pc off f3 b i).filter (fun e => Spec.Bp.hash low c e.pc = Spec.Bp.hash low c pc) = past pc off f3 b i := by
  rw [List.filter_eq_self]
  intro e he
  simp only [past, List.mem_reverse, List.mem_map] at he
  obtain ⟨j, _, rfl⟩ := he
  simp [rep]

/-- for one branch, the index is determined by the history and determines it -/
theorem index_inj {low : Nat} {k : Kind} {c : PCfg} (hk : HasHist k) (i j : Nat) :
    index low k c (past pc off f3 b i) pc = index low k c (past pc off f3 b j) pc ↔
      newest (histLen k c) ((past pc off f3 b i).map taken) = newest (histLen k c) ((past pc off f3 b j).map taken) := by
  rcases hk with rfl | rfl | rfl | rfl
  · simp only [index, filter_past, histLen]
  · simp only [index, histLen]
  · simp only [index, histLen]
    omega
  · simp only [index, histLen]
    constructor
    · intro h
      have h := congrArg (Spec.Bp.hash low c pc ^^^ ·) h
      simp only [← Nat.xor_assoc, Nat.xor_self, Nat.zero_xor] at h
      exact Nat.eq_of_mul_eq_mul_right (Nat.two_pow_pos _) h
    · intro h
      rw [h]

/-- same index, same outcome, for a pattern no longer than the history -/
theorem same_outcome (ho : off ≠ 4#32) {p : Nat} (hp : ∀ n, b (n + p) = b n) (h1 : 1 ≤ p) {n : Nat} (hn : p ≤ n) {i j : Nat}
    (hi : p ≤ i) (hj : p ≤ j)
    (h : newest n ((past pc off f3 b i).map taken) = newest n ((past pc off f3 b j).map taken)) : b i = b j := by
  have := congrArg (fun x => x.testBit (p - 1)) h
  simp only [newest_testBit] at this
  rw [outs_getD ho i (p - 1) (by omega), outs_getD ho j (p - 1) (by omega)] at this
  simp only [show p - 1 < n by omega, decide_true, Bool.true_and] at this
  have e1 := hp (i - 1 - (p - 1))
  have e2 := hp (j - 1 - (p - 1))
  rw [show i - 1 - (p - 1) + p = i by omega] at e1
  rw [show j - 1 - (p - 1) + p = j by omega] at e2
  rw [e1, e2, this]

theorem period_mul {p : Nat} (hp : ∀ n, b (n + p) = b n) (n : Nat) : ∀ k, b (n + k * p) = b n
  | 0 => by simp
  | k + 1 => by
    rw [show n + (k + 1) * p = n + k * p + p by rw [Nat.add_mul]; omega, hp, period_mul hp n k]

/-- a period later the history is the same -/
theorem same_index (ho : off ≠ 4#32) {p : Nat} (hp : ∀ n, b (n + p) = b n) {n j : Nat} (hj : n ≤ j) (k : Nat) :
    newest n ((past pc off f3 b (j + k * p)).map taken) = newest n ((past pc off f3 b j).map taken) := by
  apply Nat.eq_of_testBit_eq
  intro m
  rw [newest_testBit, newest_testBit]
  by_cases hm : m < n
  · rw [outs_getD ho _ m (by omega), outs_getD ho _ m (by omega)]
    rw [show j + k * p - 1 - m = j - 1 - m + k * p by omega, period_mul hp]
  · simp [hm]

theorem count_le (c : PCfg) (vote : List Br → Br → Option (Nat × Bool)) (hw : weak c ≤ top c) : ∀ (h : List Br) (i : Nat),
    count c vote h i ≤ top c
  | [], i => hw
  | e :: h, i => by
    have ih := count_le c vote hw h i
    simp only [count]
    split
    · split
      · unfold Spec.Bp.sat
        split <;> omega
      · exact ih
    · exact ih

theorem count_past {low : Nat} {k : Kind} {c : PCfg} (ho : off ≠ 4#32) (j e : Nat) :
    count c (train low k c) (past pc off f3 b (j + 1)) e =
      if index low k c (past pc off f3 b j) pc = e then
        Spec.Bp.sat (top c) (b j) (count c (train low k c) (past pc off f3 b j) e)
      else count c (train low k c) (past pc off f3 b j) e := by
  rw [past_succ]
  simp only [count, train, taken_rep ho]
  rfl

/-- the counter of a branch in a pattern saturates -/
theorem saturates {low : Nat} {k : Kind} {c : PCfg} (hk : HasHist k) (ho : off ≠ 4#32) (hw : weak c ≤ top c)
    {p : Nat} (hp : ∀ n, b (n + p) = b n) (h1 : 1 ≤ p) (hn : p ≤ histLen k c) {j : Nat} (hj : histLen k c ≤ j) :
    ∀ m, (b j = true → min (top c) m ≤ count c (train low k c) (past pc off f3 b (j + m * p))
            (index low k c (past pc off f3 b j) pc)) ∧
      (b j = false → count c (train low k c) (past pc off f3 b (j + m * p))
            (index low k c (past pc off f3 b j) pc) ≤ top c - m) := by
  generalize he : index low k c (past pc off f3 b j) pc = e
  -- the counter never moves the wrong way
  have mono : ∀ x, p ≤ x →
      (b j = true → count c (train low k c) (past pc off f3 b x) e ≤ count c (train low k c) (past pc off f3 b (x + 1)) e) ∧
      (b j = false → count c (train low k c) (past pc off f3 b (x + 1)) e ≤ count c (train low k c) (past pc off f3 b x) e) := by
    intro x hx
    have hle := count_le c (train low k c) hw (past pc off f3 b x) e
    rw [count_past ho]
    by_cases hxe : index low k c (past pc off f3 b x) pc = e
    · have hb : b x = b j := same_outcome (pc := pc) (f3 := f3) ho hp h1 hn hx (by omega)
        ((index_inj hk x j).mp (hxe.trans he.symm))
      rw [if_pos hxe, hb]
      constructor
      · intro hbj; rw [hbj]; simp only [Spec.Bp.sat, if_true]; omega
      · intro hbj; rw [hbj]; simp only [Spec.Bp.sat, Bool.false_eq_true, if_false]; omega
    · rw [if_neg hxe]
      exact ⟨fun _ => Nat.le_refl _, fun _ => Nat.le_refl _⟩
  have monoN : ∀ y x, p ≤ x →
      (b j = true → count c (train low k c) (past pc off f3 b x) e ≤ count c (train low k c) (past pc off f3 b (x + y)) e) ∧
      (b j = false → count c (train low k c) (past pc off f3 b (x + y)) e ≤ count c (train low k c) (past pc off f3 b x) e) := by
    intro y x hx
    induction y with
    | zero => exact ⟨fun _ => Nat.le_refl _, fun _ => Nat.le_refl _⟩
    | succ y ih =>
      have := mono (x + y) (by omega)
      exact ⟨fun h => Nat.le_trans (ih.1 h) (this.1 h), fun h => Nat.le_trans (this.2 h) (ih.2 h)⟩
  intro m
  induction m with
  | zero =>
    constructor
    · intro _; simp
    · intro _; exact count_le c _ hw _ _
  | succ m ih =>
    have hle := count_le c (train low k c) hw (past pc off f3 b (j + m * p)) e
    have hidx : index low k c (past pc off f3 b (j + m * p)) pc = e := by
      rw [← he]; exact (index_inj hk _ _).mpr (same_index ho hp hj m)
    have hstep := count_past (low := low) (k := k) (c := c) (pc := pc) (f3 := f3) (b := b) ho (j + m * p) e
    rw [if_pos hidx, period_mul hp] at hstep
    have hrest := monoN (p - 1) (j + m * p + 1) (by omega)
    rw [show j + m * p + 1 + (p - 1) = j + (m + 1) * p by rw [Nat.add_mul]; omega] at hrest
    constructor
    · intro hb
      have h1 := ih.1 hb
      have h2 := hrest.1 hb
      rw [hstep, hb] at h2
      simp only [Spec.Bp.sat, if_true] at h2
      omega
    · intro hb
      have h1 := ih.2 hb
      have h2 := hrest.2 hb
      rw [hstep, hb] at h2
      simp only [Spec.Bp.sat, Bool.false_eq_true, if_false] at h2
      omega

end

/-- the run that executes the branch `i` times -/
def reps (pc off : W) (f3 : BitVec 3) (b : Nat → Bool) (i : Nat) : List Ev :=
  (List.range i).map (fun j => .br (rep pc off f3 b j))

theorem branches_reps (pc off : W) (f3 : BitVec 3) (b : Nat → Bool) (i : Nat) :
    (branches (reps pc off f3 b i)).reverse = past pc off f3 b i := by
  have : ∀ l : List Br, branches (l.map Ev.br) = l := by
    intro l
    induction l with
    | nil => rfl
    | cons a t ih => simp [branches, ih]
  rw [reps, past, show (List.range i).map (fun j => Ev.br (rep pc off f3 b j)) =
    ((List.range i).map (rep pc off f3 b)).map Ev.br by simp, this]

theorem make1_cnt {low : Nat} {k : Kind} {c : PCfg} {p : Pred} (hk : HasHist k) (hm : make1 low k c = .ok p) :
    1 ≤ c.cntBits.toNat := by
  unfold make1 at hm
  obtain ⟨b, hb, hm⟩ := bind_eq_ok hm
  rcases hk with rfl | rfl | rfl | rfl <;> simp only at hm
  · split at hm
    · cases hm
    · split at hm
      · cases hm
      · obtain ⟨t, ht, hm⟩ := bind_eq_ok hm
        exact (make_pht ht).b1
  · obtain ⟨m, _, hm⟩ := bind_eq_ok hm
    obtain ⟨t, ht, hm⟩ := bind_eq_ok hm
    exact (make_pht ht).b1
  · obtain ⟨m, _, hm⟩ := bind_eq_ok hm
    obtain ⟨gm, _, hm⟩ := bind_eq_ok hm
    obtain ⟨pm, _, hm⟩ := bind_eq_ok hm
    obtain ⟨t, ht, hm⟩ := bind_eq_ok hm
    exact (make_pht ht).b1
  · obtain ⟨m, _, hm⟩ := bind_eq_ok hm
    obtain ⟨gm, _, hm⟩ := bind_eq_ok hm
    obtain ⟨pm, _, hm⟩ := bind_eq_ok hm
    obtain ⟨t, ht, hm⟩ := bind_eq_ok hm
    exact (make_pht ht).b1

/-- **C67.** A local, global, gselect or gshare predictor of any accepted configuration that sees one branch
repeating a pattern no longer than its history answers every execution right, from
(history length) + (period) × (largest counter value) executions on. -/
theorem learns_pattern {low : Nat} (hl : low = 1 ∨ low = 2) {k : Kind} (hk : HasHist k) {c : PCfg} {p : Pred}
    (hm : make low (.one k c) = .ok p) (pc off : W) (f3 : BitVec 3) {b : Nat → Bool} {q : Nat} (h1 : 1 ≤ q)
    (hq : ∀ n, b (n + q) = b n) (hh : q ≤ histLen k c) {i : Nat}
    (hi : histLen k c + q * (2 ^ c.cntBits.toNat - 1) ≤ i) :
    ∃ p1 p2, run (reps pc off f3 b i) p = .ok p1 ∧
      drive (rep pc off f3 b i) p1 = .ok ((rep pc off f3 b i).next, p2) := by
  have hr : Real (shapeD (.one k c)) := by rcases hk with rfl | rfl | rfl | rfl <;> exact ⟨by decide, by decide⟩
  obtain ⟨p1, p2, e1, e2⟩ := predictor_refines hl hm hr (reps pc off f3 b i) (rep pc off f3 b i)
  refine ⟨p1, p2, e1, ?_⟩
  rw [e2, branches_reps]
  have hg : guess low (.one k c) (past pc off f3 b i) pc (pc + off) =
      if weak c ≤ count c (train low k c) (past pc off f3 b i) (index low k c (past pc off f3 b i) pc) then pc + off
      else pc + 4#32 := by
    rcases hk with rfl | rfl | rfl | rfl <;> rfl
  by_cases ho : off = 4#32
  · subst ho
    have : guess low (.one k c) (past pc 4#32 f3 b i) pc (pc + 4#32) = pc + 4#32 := by
      rw [hg]; split <;> rfl
    simp only [rep, this, ite_self]
  · have h2 := pow_b (make1_cnt hk hm)
    have hw : 1 ≤ weak c ∧ weak c ≤ top c := by
      unfold weak top
      have hc := make1_cnt hk hm
      split
      · omega
      · have := pow_b2 (b := c.cntBits.toNat) (by omega)
        omega
    have hle : top c * q ≤ i := by
      rw [Nat.mul_comm]; unfold top; omega
    have hj : histLen k c ≤ i - top c * q := by
      have : top c * q = q * (2 ^ c.cntBits.toNat - 1) := Nat.mul_comm _ _
      omega
    have hs := saturates (low := low) (pc := pc) (f3 := f3) hk ho hw.2 hq h1 hh hj (top c)
    have hidx := (index_inj (low := low) (c := c) (pc := pc) (off := off) (f3 := f3) (b := b) hk
      (i - top c * q + top c * q) (i - top c * q)).mpr (same_index ho hq hj (top c))
    have hb := period_mul hq (i - top c * q) (top c)
    rw [← hidx] at hs
    rw [show i - top c * q + top c * q = i by omega] at hs hb
    show Res.ok (guess low (.one k c) (past pc off f3 b i) pc (pc + off), p2) = _
    rw [hg]
    cases hbi : b i
    · have := hs.2 (by rw [← hb]; exact hbi)
      rw [if_neg (by omega)]
      simp only [rep, hbi]
      rfl
    · have := hs.1 (by rw [← hb]; exact hbi)
      rw [if_pos (by omega)]
      simp only [rep, hbi]
      rfl

namespace Ex

/-- a combined predictor over local and folded gshare -/
def mix : Def := .comb ⟨4, 2, 0, 0, .all⟩ (.one .local ⟨3, 2, 4, 0, .none⟩) (.one .gshare ⟨6, 3, 0, 4, .all⟩)
/-- the pattern taken, taken, not taken -/
def ttn (n : Nat) : Bool := decide (n % 3 ≠ 2)
/-- three branches, one of them loops -/
def stream : List Ev :=
  (List.range 24).flatMap fun j =>
    [.br (rep 0x10040#32 (-16#32) 0#3 ttn j), .prof (decide (j % 2 = 0)),
      .br (rep (0x10100#32 + BitVec.ofNat 32 (4 * j)) 32#32 1#3 (fun n => decide (n % 2 = 0)) j)]

/-- `predictor_refines` is not vacuous, and the two sides agree by evaluation on a run where neither answer is
constant -/
example : Real (shapeD mix) ∧ (match make 2 mix with | .ok _ => true | _ => false) = true :=
  ⟨⟨⟨by decide, by decide⟩, ⟨by decide, by decide⟩⟩, by decide +kernel⟩
example : (List.range 6).map (fun j => lastPred mix (stream.take (9 * j)) (rep 0x10040#32 (-16#32) 0#3 ttn j)) =
    (List.range 6).map (fun j =>
      some (guess 2 mix (branches (stream.take (9 * j))).reverse 0x10040#32 (0x10040#32 - 16#32))) := by decide +kernel

/-- `learns_pattern` is not vacuous: a 3-bit history and 2-bit counters, the pattern TTN of period 3, which is
learned from execution 3 + 3 × 3 = 12 on -/
example : HasHist .global ∧ (match make 2 (.one .global ⟨0, 2, 0, 3, .none⟩) with | .ok _ => true | _ => false) = true ∧
    (∀ n, ttn (n + 3) = ttn n) ∧ 3 ≤ histLen .global ⟨0, 2, 0, 3, .none⟩ ∧
    histLen .global ⟨0, 2, 0, 3, .none⟩ + 3 * (2 ^ 2 - 1) ≤ 12 :=
  ⟨.inr (.inl rfl), by decide +kernel, fun n => by simp [ttn], by decide, by decide⟩
/-- the bound on the period is needed: with one bit of history the same pattern is missed at execution 62 -/
example : lastPred (.one .global ⟨0, 2, 0, 1, .none⟩) (reps 0x10040#32 (-16#32) 0#3 ttn 62)
    (rep 0x10040#32 (-16#32) 0#3 ttn 62) ≠ some (rep 0x10040#32 (-16#32) 0#3 ttn 62).next := by decide +kernel
/-- and so is the history: a bimodal predictor misses it too -/
example : lastPred (.one .bimodal ⟨6, 2, 0, 0, .none⟩) (reps 0x10040#32 (-16#32) 0#3 ttn 62)
    (rep 0x10040#32 (-16#32) 0#3 ttn 62) ≠ some (rep 0x10040#32 (-16#32) 0#3 ttn 62).next := by decide +kernel

end Ex

end Ama.Bp
