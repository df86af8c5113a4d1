import Verif.Model.Prof
/-!
# C57, C61: instruction profile totals and peak stack usage
-/
namespace Ama.Prof

/-- what the core does to the instruction profiler -/
inductive Ev where | active (on : Bool) | inst (w : W) | call (c : Call)

def apply (rv32c : Bool) (p : IProf) : Ev → Res IProf
  | .active on => .ok (p.setActive on)
  | .inst w => .ok (p.newInst w)
  | .call c => p.call rv32c c

def run (rv32c : Bool) : List Ev → IProf → Res IProf
  | [], p => .ok p
  | e :: t, p => do let p ← apply rv32c p e; run rv32c t p

/-! ## Specification -/
namespace Spec

/-- the line of the report a call belongs to: nops and the two profiling hints have their own -/
inductive Entry where | g (o : OpG) | b (o : OpB) (taken fwd : Bool)
  deriving DecidableEq

/-- `w` is the current instruction word -/
def entry (rv32c : Bool) (w : W) : Call → Entry
  | .b o t f => .b o t f
  | .g o =>
    if w = 0x00000013#32 then .g .i_nop
    else if rv32c = true ∧ w.toNat % 65536 = 1 then .g .i_c_nop
    else if w = 0x01002013#32 ∨ w = 0x01102013#32 then .g .i_hint
    else .g o

/-- the entries of the calls made while active, in order -/
def logged (rv32c : Bool) : (on : Bool) → (w : W) → List Ev → List Entry
  | _, _, [] => []
  | _, w, .active b :: t => logged rv32c b w t
  | on, _, .inst w :: t => logged rv32c on w t
  | on, w, .call c :: t => (if on then [entry rv32c w c] else []) ++ logged rv32c on w t

/-- number of calls while active -/
def active : Bool → List Ev → Nat
  | _, [] => 0
  | _, .active b :: t => active b t
  | on, .inst _ :: t => active on t
  | on, .call _ :: t => (if on then 1 else 0) + active on t

end Spec

theorem mask16 (w : W) : w &&& 0xFFFF#32 = 0x1#32 ↔ w.toNat % 65536 = 1 := by
  rw [← BitVec.toNat_inj, BitVec.toNat_and]
  rw [show (0xFFFF#32).toNat = 2 ^ 16 - 1 by rfl, Nat.and_two_pow_sub_one_eq_mod]
  rfl

/-! ## Counts -/

theorem mem_allG (o : OpG) : o ∈ allG := by cases o <;> decide +kernel
theorem mem_allB (o : OpB) : o ∈ allB := by cases o <;> decide +kernel
theorem nodup_allG : allG.Nodup := by decide +kernel
theorem nodup_allB : allB.Nodup := by decide +kernel
theorem initG_all (o : OpG) : initG.any (fun x => x.1 == o) = true := by cases o <;> decide +kernel
theorem initB_all (o : OpB) : initB.any (fun x => x.1 == o) = true := by cases o <;> decide +kernel

/-- every entry is set -/
def Set (p : IProf) : Prop := (∀ o, (p.g o).isSome) ∧ (∀ o, (p.b o).isSome) ∧ p.active.isSome

theorem make_set (on : Bool) : Set (IProf.make.setActive on) := by
  refine ⟨fun o => ?_, fun o => ?_, rfl⟩
  · show (if initG.any (fun x => x.1 == o) then some 0 else none).isSome
    rw [initG_all]; rfl
  · show (if initB.any (fun x => x.1 == o) then some ({} : CntB) else none).isSome
    rw [initB_all]; rfl

/-- the counters are the counts of `es` -/
structure Counts (p : IProf) (es : List Spec.Entry) : Prop where
  n : p.instCnt = es.length
  g : ∀ o, p.g o = some (es.count (.g o))
  b : ∀ o, p.b o = some
    { taken := es.count (.b o true true) + es.count (.b o true false)
      takenFwd := es.count (.b o true true)
      notTaken := es.count (.b o false true) + es.count (.b o false false)
      notTakenFwd := es.count (.b o false true) }

theorem make_counts (on : Bool) : Counts (IProf.make.setActive on) [] := by
  refine ⟨rfl, fun o => ?_, fun o => ?_⟩
  · show (if initG.any (fun x => x.1 == o) then some 0 else none) = _
    rw [initG_all]; rfl
  · show (if initB.any (fun x => x.1 == o) then some ({} : CntB) else none) = _
    rw [initB_all]; rfl

theorem bumpG_counts {p : IProf} {es : List Spec.Entry} (h : Counts p es) (o : OpG) :
    ∃ p', { p with instCnt := p.instCnt + 1 }.bumpG o = .ok p' ∧ p'.active = p.active ∧ p'.inst = p.inst ∧
      Counts p' (es ++ [.g o]) := by
  unfold IProf.bumpG
  simp only [h.g]
  refine ⟨_, rfl, rfl, rfl, ?_, fun o' => ?_, fun o' => ?_⟩
  · simp [h.n]
  · show upd p.g o _ o' = _
    unfold upd
    by_cases ho : o' = o
    · subst ho; simp
    · rw [if_neg ho, h.g, List.count_append]
      congr 1
      have : List.count (Spec.Entry.g o') [.g o] = 0 := by
        rw [List.count_eq_zero]; simp [ho]
      omega
  · show p.b o' = _
    rw [h.b]
    simp

theorem logB_counts {p : IProf} {es : List Spec.Entry} (h : Counts p es) (ha : p.active = some true) (o : OpB)
    (t f : Bool) : ∃ p', p.logB o t f = .ok p' ∧ p'.active = p.active ∧ p'.inst = p.inst ∧
      Counts p' (es ++ [.b o t f]) := by
  unfold IProf.logB
  simp only [ha, h.b]
  refine ⟨_, rfl, rfl, rfl, ?_, fun o' => ?_, fun o' => ?_⟩
  · simp [h.n]
  · show p.g o' = _
    rw [h.g]; simp
  · show upd p.b o _ o' = _
    unfold upd
    by_cases ho : o' = o
    · subst ho
      cases t <;> cases f <;> simp <;> omega
    · rw [if_neg ho, h.b]
      simp [List.count_append, Ne.symm ho]

theorem call_counts {rv32c : Bool} {p : IProf} {es : List Spec.Entry} (h : Counts p es) {on : Bool}
    (ha : p.active = some on) (c : Call) : ∃ p', p.call rv32c c = .ok p' ∧ p'.active = some on ∧ p'.inst = p.inst ∧
      Counts p' (es ++ if on then [Spec.entry rv32c p.inst c] else []) := by
  cases on with
  | false =>
    refine ⟨p, ?_, ha, rfl, by simpa using h⟩
    cases c <;> simp [IProf.call, IProf.logG, IProf.logB, ha]
  | true =>
    cases c with
    | b o t f =>
      obtain ⟨p', h1, h2, h3, h4⟩ := logB_counts h ha o t f
      exact ⟨p', h1, h2.trans ha, h3, h4⟩
    | g o =>
      simp only [IProf.call, IProf.logG, ha, Spec.entry]
      have key : ∀ o, ∃ p', { p with instCnt := p.instCnt + 1 }.bumpG o = .ok p' ∧ p'.active = some true ∧
          p'.inst = p.inst ∧ Counts p' (es ++ [.g o]) := fun o => by
        obtain ⟨p', h1, h2, h3, h4⟩ := bumpG_counts h o
        exact ⟨p', h1, h2.trans ha, h3, h4⟩
      by_cases h1 : p.inst = 0x13#32
      · rw [if_pos h1, if_pos h1]; simpa [ha] using key .i_nop
      · rw [if_neg h1, if_neg h1]
        by_cases h2 : rv32c = true ∧ p.inst.toNat % 65536 = 1
        · rw [if_pos h2, if_pos (by simp [h2.1, mask16, h2.2])]; simpa [ha] using key .i_c_nop
        · rw [if_neg h2, if_neg (by simpa [mask16] using h2)]
          by_cases h3 : p.inst = 0x01002013#32 ∨ p.inst = 0x01102013#32
          · rw [if_pos h3, if_pos (by simpa using h3)]; simpa [ha] using key .i_hint
          · rw [if_neg h3, if_neg (by simpa using h3)]; simpa [ha] using key o

theorem run_counts {rv32c : Bool} : ∀ (evs : List Ev) {p : IProf} {es : List Spec.Entry} {on : Bool}, Counts p es →
    p.active = some on → ∃ p', run rv32c evs p = .ok p' ∧
      Counts p' (es ++ Spec.logged rv32c on p.inst evs)
  | [], p, es, on, h, _ => ⟨p, rfl, by simpa [Spec.logged] using h⟩
  | .active b :: t, p, es, on, h, _ => by
    obtain ⟨p', h1, h2⟩ := run_counts t (p := p.setActive b) (on := b) ⟨h.n, h.g, h.b⟩ rfl
    exact ⟨p', h1, h2⟩
  | .inst w :: t, p, es, on, h, ha => by
    obtain ⟨p', h1, h2⟩ := run_counts t (p := p.newInst w) (on := on) ⟨h.n, h.g, h.b⟩ ha
    exact ⟨p', h1, h2⟩
  | .call c :: t, p, es, on, h, ha => by
    obtain ⟨q, h1, h2, h3, h4⟩ := call_counts (rv32c := rv32c) h ha c
    obtain ⟨p', h5, h6⟩ := run_counts t h4 h2
    refine ⟨p', ?_, ?_⟩
    · simp only [run, apply, h1]; exact h5
    · rw [h3, List.append_assoc] at h6
      exact h6

/-- **C57.** After any stream of instructions, calls and activations, each line of the report holds the number of
calls made while active that belong to it: per instruction, and per branch taken or not, forward or backward. -/
theorem lines_exact (rv32c on : Bool) (evs : List Ev) : ∃ p, run rv32c evs (IProf.make.setActive on) = .ok p ∧
    (∀ o, p.cntG o = (Spec.logged rv32c on 0#32 evs).count (.g o)) ∧
    (∀ o, (p.cntB o).rep.takenFwd = (Spec.logged rv32c on 0#32 evs).count (.b o true true) ∧
      (p.cntB o).rep.takenBwd = (Spec.logged rv32c on 0#32 evs).count (.b o true false) ∧
      (p.cntB o).rep.notTakenFwd = (Spec.logged rv32c on 0#32 evs).count (.b o false true) ∧
      (p.cntB o).rep.notTakenBwd = (Spec.logged rv32c on 0#32 evs).count (.b o false false)) := by
  obtain ⟨p, h1, h2⟩ := run_counts (rv32c := rv32c) evs (make_counts on) rfl
  rw [List.nil_append] at h2
  refine ⟨p, h1, fun o => by simp only [IProf.cntG, h2.g]; rfl, fun o => ?_⟩
  simp only [IProf.cntB, h2.b, CntB.rep, Option.getD_some]
  exact ⟨rfl, by rw [Nat.add_sub_cancel_left]; rfl, rfl, by rw [Nat.add_sub_cancel_left]; rfl⟩

/-- **C57.** The breakdown of each branch adds up to its count. -/
theorem breakdown_sums (rv32c on : Bool) (evs : List Ev) : ∃ p, run rv32c evs (IProf.make.setActive on) = .ok p ∧
    ∀ o, (p.cntB o).rep.taken = (p.cntB o).rep.takenFwd + (p.cntB o).rep.takenBwd ∧
      (p.cntB o).rep.notTaken = (p.cntB o).rep.notTakenFwd + (p.cntB o).rep.notTakenBwd ∧
      (p.cntB o).rep.count = (p.cntB o).rep.taken + (p.cntB o).rep.notTaken := by
  obtain ⟨p, h1, h2⟩ := run_counts (rv32c := rv32c) evs (make_counts on) rfl
  refine ⟨p, h1, fun o => ?_⟩
  simp only [IProf.cntB, h2.b, CntB.rep, Option.getD_some, Nat.add_sub_cancel_left, and_self]

/-! ## Totals -/

theorem sum_add {α : Type} (f g : α → Nat) : ∀ l : List α, (l.map fun a => f a + g a).sum = (l.map f).sum + (l.map g).sum
  | [] => rfl
  | a :: l => by
    simp only [List.map_cons, List.sum_cons, sum_add f g l]; omega

theorem sum_swap {α β : Type} (w : α → β → Nat) (l : List α) : ∀ es : List β,
    (l.map fun a => (es.map (w a)).sum).sum = (es.map fun e => (l.map fun a => w a e).sum).sum
  | [] => by
    simp only [List.map_nil, List.sum_nil]
    induction l with
    | nil => rfl
    | cons a l ih => simpa using ih
  | e :: es => by
    simp only [List.map_cons, List.sum_cons]
    rw [sum_add, sum_swap w l es]

theorem sum_one {α : Type} [DecidableEq α] (x : α) : ∀ l : List α, l.Nodup →
    (l.map fun a => if a = x then 1 else 0).sum = if x ∈ l then 1 else 0
  | [], _ => rfl
  | a :: l, hn => by
    obtain ⟨h1, h2⟩ := List.nodup_cons.1 hn
    rw [List.map_cons, List.sum_cons, sum_one x l h2]
    by_cases h : a = x
    · subst h; simp [h1]
    · rw [if_neg h]
      simp [Ne.symm h]

theorem sum_zero {α : Type} : ∀ l : List α, (l.map fun _ => 0).sum = 0
  | [] => rfl
  | a :: l => by simpa using sum_zero l

theorem sum_congr {α : Type} {f g : α → Nat} {l : List α} (h : ∀ a ∈ l, f a = g a) : (l.map f).sum = (l.map g).sum := by
  rw [List.map_congr_left h]

theorem count_sum {β : Type} [DecidableEq β] (x : β) : ∀ es : List β,
    es.count x = (es.map fun e => if e = x then 1 else 0).sum
  | [] => rfl
  | e :: es => by
    rw [List.count_cons, count_sum x es, List.map_cons, List.sum_cons]
    by_cases h : e = x
    · simp [h]; omega
    · simp [h]

/-- the weight of an entry in the sum over a list of report lines -/
def wG (l : List OpG) : Spec.Entry → Nat
  | .g o => if o ∈ l then 1 else 0
  | .b .. => 0
def wB (l : List OpB) : Spec.Entry → Nat
  | .g _ => 0
  | .b o .. => if o ∈ l then 1 else 0
def wT (l : List OpB) : Spec.Entry → Nat
  | .b o true _ => if o ∈ l then 1 else 0
  | _ => 0

theorem sumG_eq {p : IProf} {es : List Spec.Entry} (h : Counts p es) {l : List OpG} (hn : l.Nodup) :
    p.sumG l = (es.map (wG l)).sum := by
  unfold IProf.sumG
  rw [show (l.map p.cntG) = l.map fun o => (es.map fun e => if e = Spec.Entry.g o then 1 else 0).sum from
    List.map_congr_left fun o _ => by simp only [IProf.cntG, h.g, Option.getD_some]; exact count_sum _ _]
  rw [sum_swap]
  apply sum_congr
  intro e _
  cases e with
  | b o t f => simpa [wG] using sum_zero l
  | g o =>
    simp only [wG, Spec.Entry.g.injEq]
    rw [← sum_one o l hn]
    exact sum_congr fun a _ => by simp [eq_comm]

theorem sumT_eq {p : IProf} {es : List Spec.Entry} (h : Counts p es) {l : List OpB} (hn : l.Nodup) :
    p.sumT l = (es.map (wT l)).sum := by
  unfold IProf.sumT
  rw [show (l.map fun o => (p.cntB o).taken) = l.map fun o => (es.map fun e =>
      (if e = Spec.Entry.b o true true then 1 else 0) + (if e = Spec.Entry.b o true false then 1 else 0)).sum from
    List.map_congr_left fun o _ => by
      simp only [IProf.cntB, h.b, Option.getD_some]; rw [count_sum, count_sum, ← sum_add]]
  rw [sum_swap]
  apply sum_congr
  intro e _
  cases e with
  | g o => simpa [wT] using sum_zero l
  | b o t f =>
    cases t
    · simpa [wT] using sum_zero l
    · simp only [wT]
      rw [← sum_one o l hn]
      exact sum_congr fun a _ => by cases f <;> simp [eq_comm]

theorem sumB_eq {p : IProf} {es : List Spec.Entry} (h : Counts p es) {l : List OpB} (hn : l.Nodup) :
    p.sumB l = (es.map (wB l)).sum := by
  unfold IProf.sumB
  rw [show (l.map fun o => (p.cntB o).taken + (p.cntB o).notTaken) = l.map fun o => (es.map fun e =>
      ((if e = Spec.Entry.b o true true then 1 else 0) + (if e = Spec.Entry.b o true false then 1 else 0)) +
      ((if e = Spec.Entry.b o false true then 1 else 0) + (if e = Spec.Entry.b o false false then 1 else 0))).sum from
    List.map_congr_left fun o _ => by
      simp only [IProf.cntB, h.b, Option.getD_some]
      rw [count_sum, count_sum, count_sum, count_sum, ← sum_add, ← sum_add, ← sum_add]]
  rw [sum_swap]
  apply sum_congr
  intro e _
  cases e with
  | g o => simpa [wB] using sum_zero l
  | b o t f =>
    simp only [wB]
    rw [← sum_one o l hn]
    exact sum_congr fun a _ => by cases t <;> cases f <;> simp [eq_comm]

theorem logged_length (rv32c : Bool) : ∀ (evs : List Ev) (on : Bool) (w : W),
    (Spec.logged rv32c on w evs).length = Spec.active on evs
  | [], _, _ => rfl
  | .active b :: t, _, w => logged_length rv32c t b w
  | .inst w :: t, on, _ => logged_length rv32c t on w
  | .call c :: t, on, w => by
    cases on <;> simp [Spec.logged, Spec.active, logged_length rv32c t] <;> omega

/-- an entry printed in a build without `RV32C` -/
def Spec.Entry.plain : Spec.Entry → Bool
  | .g o => !dotG o
  | .b o .. => !dotB o

theorem total_eq {p : IProf} {es : List Spec.Entry} (h : Counts p es) {rv32c : Bool}
    (hc : rv32c = true ∨ ∀ e ∈ es, e.plain = true) : p.total rv32c = es.length := by
  unfold IProf.total
  rw [sumG_eq h (nodup_allG.filter _), sumB_eq h (nodup_allB.filter _), ← sum_add]
  rw [show es.length = (es.map fun _ => 1).sum by rw [List.map_const', List.sum_replicate_nat, Nat.mul_one]]
  apply sum_congr
  intro e he
  have hp : rv32c = true ∨ e.plain = true := hc.imp_right fun h => h e he
  cases e with
  | g o => 
    have : (rv32c || !dotG o) = true := by rcases hp with h | h <;> simp_all [Spec.Entry.plain]
    simp [wG, wB, mem_allG, this]
  | b o t f =>
    have : (rv32c || !dotB o) = true := by rcases hp with h | h <;> simp_all [Spec.Entry.plain]
    simp [wG, wB, mem_allB, this]

/-- the calls only a build with `RV32C` makes -/
def Call.plain : Call → Bool
  | .g o => !dotG o
  | .b o .. => !dotB o

theorem logged_plain : ∀ (evs : List Ev) (on : Bool) (w : W),
    (∀ c, Ev.call c ∈ evs → c.plain = true) → ∀ e ∈ Spec.logged false on w evs, e.plain = true
  | [], _, _, _, e, he => by cases he
  | .active b :: t, _, w, h, e, he => logged_plain t b w (fun c hc => h c (List.mem_cons_of_mem _ hc)) e he
  | .inst w :: t, on, _, h, e, he => logged_plain t on w (fun c hc => h c (List.mem_cons_of_mem _ hc)) e he
  | .call c :: t, on, w, h, e, he => by
    rcases List.mem_append.1 he with he | he
    · cases on
      · cases he
      · rw [if_pos rfl, List.mem_singleton] at he
        subst he
        have hcp := h c List.mem_cons_self
        cases c with
        | b o t f => exact hcp
        | g o =>
          simp only [Spec.entry, Bool.false_eq_true, false_and, if_false]
          split
          · rfl
          · split
            · rfl
            · exact hcp
    · exact logged_plain t on w (fun c hc => h c (List.mem_cons_of_mem _ hc)) e he

/-- **C57.** For every stream and activation schedule, the sum of the lines of the report is the number of calls made
while active, and so is the profiler's own instruction count: the assertion at the end of the report holds.  Without
`RV32C` the report leaves the compressed lines out, so no compressed instruction may have been logged. -/
theorem total_exact (rv32c on : Bool) (evs : List Ev)
    (hc : rv32c = true ∨ ∀ c, Ev.call c ∈ evs → c.plain = true) :
    ∃ p, run rv32c evs (IProf.make.setActive on) = .ok p ∧ p.total rv32c = Spec.active on evs ∧
      p.instCnt = Spec.active on evs := by
  obtain ⟨p, h1, h2⟩ := run_counts (rv32c := rv32c) evs (make_counts on) rfl
  rw [List.nil_append] at h2
  refine ⟨p, h1, ?_, ?_⟩
  · rw [total_eq h2, logged_length]
    rcases hc with h | h
    · exact .inl h
    · cases rv32c
      · exact .inr (logged_plain evs on _ h)
      · exact .inl rfl
  · rw [h2.n, logged_length]

/-- two adds and a taken branch, the first add while inactive -/
example : (∃ p, run true [.inst 0x00b50533#32, .call (.g .i_add), .active true, .call (.g .i_add),
    .inst 0xfe0008e3#32, .call (.b .i_beq true false)] (IProf.make.setActive false) = .ok p ∧ p.total true = 2) := by
  obtain ⟨p, h, h2, _⟩ := total_exact true false [.inst 0x00b50533#32, .call (.g .i_add), .active true,
    .call (.g .i_add), .inst 0xfe0008e3#32, .call (.b .i_beq true false)] (.inl rfl)
  exact ⟨p, h, h2⟩

/-- the precondition is needed: a compressed call in a build without `RV32C` is missing from the sum -/
example : ∃ p, run false [.call (.g .i_c_add)] (IProf.make.setActive true) = .ok p ∧ p.total false = 0 ∧
    p.instCnt = 1 := ⟨_, rfl, by decide +kernel, rfl⟩

/-! ## Classes -/

/-- the classes of the summary, as lists of lines -/
def classesG : List (List OpG) := [[.i_nop], loadOpcs, storeOpcs, mulOpcs, divOpcs, aluOpcs, zbbOpcs, dotCOpcs, aluCOpcs,
  mulCOpcs, widenCOpcs, narrowCOpcs, txpCOpcs, dupCOpcs, vinsCOpcs, vextCOpcs, scpCOpcs]

theorem classes_nodup : ∀ l ∈ classesG, l.Nodup := by decide +kernel
/-- the lines in no class: system, fence and hint instructions -/
def Spec.isRest : Spec.Entry → Bool
  | .g o => o ∈ [.i_fence_i, .i_fence, .i_ecall, .i_ebreak, .i_hint, .i_mret, .i_wfi, .i_csrrw, .i_csrrs, .i_csrrc,
      .i_csrrwi, .i_csrrsi, .i_csrrci, .i_c_nop, .i_c_ebreak]
  | .b .. => false

theorem classes_rest (o : OpG) : (classesG.map fun l => wG l (.g o)).sum + (wB branchOpcs (.g o) + wT jalOpcs (.g o) +
    wT jalrOpcs (.g o)) + (if Spec.isRest (.g o) = true then 1 else 0) = 1 := by
  cases o <;> decide +kernel

/-- jumps are logged as taken -/
def Spec.Entry.jumpTaken : Spec.Entry → Bool
  | .b o t _ => t || o ∈ branchOpcs
  | .g _ => true

theorem classesB_all (o : OpB) (t f : Bool) (h : (Spec.Entry.b o t f).jumpTaken = true) :
    (classesG.map fun l => wG l (.b o t f)).sum + (wB branchOpcs (.b o t f) + wT jalOpcs (.b o t f) +
    wT jalrOpcs (.b o t f)) + (if Spec.isRest (.b o t f) = true then 1 else 0) = 1 := by
  revert h; cases t <;> cases f <;> cases o <;> decide +kernel

theorem rest_eq {p : IProf} {es : List Spec.Entry} (h : Counts p es) {rv32c : Bool}
    (hc : rv32c = true ∨ ∀ e ∈ es, e.plain = true) (hj : ∀ e ∈ es, e.jumpTaken = true) :
    (p.summary rv32c).rest = (es.countP Spec.isRest : Nat) := by
  have hn := classes_nodup
  have hnop : p.cntG .i_nop = p.sumG [.i_nop] := by simp [IProf.sumG]
  have hG : (classesG.map p.sumG).sum = (es.map fun e => (classesG.map fun l => wG l e).sum).sum := by
    rw [← sum_swap]
    exact sum_congr fun l hl => sumG_eq h (hn l hl)
  have hB : p.sumB branchOpcs + p.sumT jalOpcs + p.sumT jalrOpcs =
      (es.map fun e => wB branchOpcs e + wT jalOpcs e + wT jalrOpcs e).sum := by
    rw [sum_add, sum_add, sumB_eq h (by decide +kernel), sumT_eq h (l := jalOpcs) (by decide +kernel),
      sumT_eq h (l := jalrOpcs) (by decide +kernel)]
  have key : (classesG.map p.sumG).sum + (p.sumB branchOpcs + p.sumT jalOpcs + p.sumT jalrOpcs) +
      es.countP Spec.isRest = es.length := by
    rw [hG, hB]
    clear hc h hnop hn hG hB
    induction es with
    | nil => rfl
    | cons e t ih =>
      have ih := ih fun e he => hj e (List.mem_cons_of_mem _ he)
      have hjt := hj e List.mem_cons_self
      simp only [List.map_cons, List.sum_cons, List.countP_cons, List.length_cons]
      have one : (classesG.map fun l => wG l e).sum + (wB branchOpcs e + wT jalOpcs e + wT jalrOpcs e) +
          (if Spec.isRest e = true then 1 else 0) = 1 := by
        cases e with
        | g o => exact classes_rest o
        | b o tk f => exact classesB_all o tk f hjt
      generalize (classesG.map fun l => wG l e).sum = a at one ⊢
      generalize wB branchOpcs e + wT jalOpcs e + wT jalrOpcs e = b at one ⊢
      generalize (if Spec.isRest e = true then 1 else 0) = c at one ⊢
      omega
  have ht := total_eq h hc
  simp only [classesG, List.map_cons, List.map_nil, List.sum_cons, List.sum_nil] at key
  simp only [IProf.summary, ht, hnop]
  clear hG hB
  omega

/-- jumps are logged as taken -/
def Call.jumpTaken : Call → Bool
  | .b o t _ => t || o ∈ branchOpcs
  | .g _ => true

theorem logged_jump (rv32c : Bool) : ∀ (evs : List Ev) (on : Bool) (w : W),
    (∀ c, Ev.call c ∈ evs → c.jumpTaken = true) → ∀ e ∈ Spec.logged rv32c on w evs, e.jumpTaken = true
  | [], _, _, _, e, he => by cases he
  | .active b :: t, _, w, h, e, he => logged_jump rv32c t b w (fun c hc => h c (List.mem_cons_of_mem _ hc)) e he
  | .inst w :: t, on, _, h, e, he => logged_jump rv32c t on w (fun c hc => h c (List.mem_cons_of_mem _ hc)) e he
  | .call c :: t, on, w, h, e, he => by
    rcases List.mem_append.1 he with he | he
    · cases on
      · cases he
      · rw [if_pos rfl, List.mem_singleton] at he
        subst he
        have hcp := h c List.mem_cons_self
        cases c with
        | b o t f => exact hcp
        | g o =>
          simp only [Spec.entry]
          repeat' split
          all_goals rfl
    · exact logged_jump rv32c t on w (fun c hc => h c (List.mem_cons_of_mem _ hc)) e he

/-- **C57.** The classes of the summary do not overlap and leave out exactly the system, fence and hint lines: what is
printed as the rest is the number of those, so its unsigned subtraction never wraps. -/
theorem rest_exact (rv32c on : Bool) (evs : List Ev)
    (hc : rv32c = true ∨ ∀ c, Ev.call c ∈ evs → c.plain = true)
    (hj : ∀ c, Ev.call c ∈ evs → c.jumpTaken = true) :
    ∃ p, run rv32c evs (IProf.make.setActive on) = .ok p ∧
      (p.summary rv32c).rest = ((Spec.logged rv32c on 0#32 evs).countP Spec.isRest : Nat) := by
  obtain ⟨p, h1, h2⟩ := run_counts (rv32c := rv32c) evs (make_counts on) rfl
  rw [List.nil_append] at h2
  refine ⟨p, h1, rest_eq h2 ?_ (logged_jump rv32c evs on _ hj)⟩
  rcases hc with h | h
  · exact .inl h
  · cases rv32c
    · exact .inr (logged_plain evs on _ h)
    · exact .inl rfl

/-- a csr access, a jump and a multiplication -/
example : ∃ p, run false [.inst 0x30001073#32, .call (.g .i_csrrw), .inst 0x0000006f#32, .call (.b .i_jal true false),
    .inst 0x02b50533#32, .call (.g .i_mul)] (IProf.make.setActive true) = .ok p ∧ (p.summary false).rest = 1 := by
  obtain ⟨p, h, h2⟩ := rest_exact false true [.inst 0x30001073#32, .call (.g .i_csrrw), .inst 0x0000006f#32,
    .call (.b .i_jal true false), .inst 0x02b50533#32, .call (.g .i_mul)]
    (.inr (by intro c hc; simp at hc; rcases hc with rfl | rfl | rfl <;> decide +kernel))
    (by intro c hc; simp at hc; rcases hc with rfl | rfl | rfl <;> rfl)
  exact ⟨p, h, h2.trans (by decide +kernel)⟩

/-! ## Peak stack usage -/

/-- reported usage after a history of stack pointer values -/
def usage (p : IProf) : Nat := (p.summary true).maxSp.toNat

/-- the stack pointer values that are inside the memory: between `0x80000000` and `0x80020000`, exclusive -/
def Spec.inside (sp : W) : Bool := 0x80000000 < sp.toNat && sp.toNat < 0x80020000

theorem track_min (p : IProf) (hp : 0x80000000 < p.minSp.toNat ∧ p.minSp.toNat ≤ 0x80020000) (sps : List W) :
    (sps.foldl IProf.trackSp p).minSp.toNat =
      ((sps.filter Spec.inside).map BitVec.toNat).foldl min p.minSp.toNat ∧
    0x80000000 < (sps.foldl IProf.trackSp p).minSp.toNat ∧ (sps.foldl IProf.trackSp p).minSp.toNat ≤ 0x80020000 := by
  induction sps generalizing p with
  | nil => exact ⟨rfl, hp⟩
  | cons sp t ih =>
    have hm : (p.trackSp sp).minSp.toNat = if Spec.inside sp then min p.minSp.toNat sp.toNat else p.minSp.toNat := by
      unfold IProf.trackSp Spec.inside
      simp only [BitVec.lt_def, BitVec.toNat_ofNat, Nat.reduceMod, Nat.reducePow]
      by_cases h : 2147483648 < sp.toNat ∧ sp.toNat < p.minSp.toNat
      · have : sp.toNat < 2147614720 := by omega
        simp only [h, and_self, if_true, this, decide_true, Bool.and_self]
        omega
      · simp only [h, if_false]
        split
        · rename_i h'
          simp at h'
          omega
        · rfl
    have h2 : 0x80000000 < (p.trackSp sp).minSp.toNat ∧ (p.trackSp sp).minSp.toNat ≤ 0x80020000 := by
      rw [hm]
      split
      · rename_i h'
        simp [Spec.inside] at h'
        omega
      · exact hp
    obtain ⟨h3, h4⟩ := ih (p.trackSp sp) h2
    refine ⟨?_, h4⟩
    rw [List.foldl_cons, h3, hm]
    by_cases h : Spec.inside sp = true
    · rw [if_pos h, List.filter_cons_of_pos h]; rfl
    · rw [if_neg h, List.filter_cons_of_neg h]

theorem usage_eq (p : IProf) (hp : p.minSp.toNat ≤ 0x80020000) : usage p = 0x80020000 - p.minSp.toNat := by
  show (0x80020000#32 - p.minSp).toNat = _
  rw [BitVec.toNat_sub]
  have := p.minSp.isLt
  simp only [BitVec.toNat_ofNat]
  omega

theorem foldl_min_le (l : List Nat) (a : Nat) : l.foldl min a ≤ a ∧ (∀ x ∈ l, l.foldl min a ≤ x) ∧
    (l.foldl min a = a ∨ l.foldl min a ∈ l) := by
  induction l generalizing a with
  | nil => exact ⟨Nat.le_refl _, by simp, .inl rfl⟩
  | cons y t ih =>
    obtain ⟨h1, h2, h3⟩ := ih (min a y)
    refine ⟨by rw [List.foldl_cons]; omega, fun x hx => ?_, ?_⟩
    · rw [List.foldl_cons]
      rcases List.mem_cons.1 hx with rfl | hx
      · omega
      · exact h2 x hx
    · rw [List.foldl_cons]
      rcases h3 with h3 | h3
      · rw [h3]
        by_cases h : a ≤ y
        · left; omega
        · right; rw [show min a y = y by omega]; exact List.mem_cons_self
      · exact .inr (List.mem_cons_of_mem _ h3)

/-- **C61.** For every history of stack pointer values, the reported usage is the depth below the top of memory of the
deepest value inside the memory: no such value is deeper, and one is exactly that deep unless there was none. -/
theorem usage_exact (sps : List W) :
    (∀ sp ∈ sps, Spec.inside sp = true → 0x80020000 - sp.toNat ≤ usage (sps.foldl IProf.trackSp IProf.make)) ∧
    ((usage (sps.foldl IProf.trackSp IProf.make) = 0 ∧ ∀ sp ∈ sps, Spec.inside sp = false) ∨
      ∃ sp ∈ sps, Spec.inside sp = true ∧ usage (sps.foldl IProf.trackSp IProf.make) = 0x80020000 - sp.toNat) := by
  obtain ⟨h1, h2, h3⟩ := track_min IProf.make (by decide) sps
  rw [usage_eq _ h3, h1]
  have hm : IProf.make.minSp.toNat = 0x80020000 := rfl
  rw [hm]
  obtain ⟨f1, f2, f3⟩ := foldl_min_le ((sps.filter Spec.inside).map BitVec.toNat) 0x80020000
  have hb : ∀ sp ∈ sps, Spec.inside sp = true →
      ((sps.filter Spec.inside).map BitVec.toNat).foldl min 0x80020000 ≤ sp.toNat := fun sp hm hi =>
    f2 _ (List.mem_map_of_mem (List.mem_filter.2 ⟨hm, hi⟩))
  refine ⟨fun sp hm hi => by have := hb sp hm hi; omega, ?_⟩
  rcases f3 with h | h
  · refine .inl ⟨by rw [h], fun sp hm => ?_⟩
    cases hi : Spec.inside sp with
    | false => rfl
    | true =>
      have := hb sp hm hi
      rw [h] at this
      simp [Spec.inside] at hi
      omega
  · obtain ⟨sp, hm, he⟩ := List.mem_map.1 h
    obtain ⟨h5, h6⟩ := List.mem_filter.1 hm
    exact .inr ⟨sp, h5, h6, by rw [he]⟩

/-- **C61.** Usage never goes down. -/
theorem usage_mono (sps more : List W) :
    usage (sps.foldl IProf.trackSp IProf.make) ≤ usage ((sps ++ more).foldl IProf.trackSp IProf.make) := by
  obtain ⟨h1, h2, h3⟩ := track_min IProf.make (by decide) sps
  rw [List.foldl_append]
  obtain ⟨h4, h5, h6⟩ := track_min (sps.foldl IProf.trackSp IProf.make) ⟨h2, h3⟩ more
  rw [usage_eq _ h3, usage_eq _ h6, h4]
  have := (foldl_min_le ((more.filter Spec.inside).map BitVec.toNat)
    (sps.foldl IProf.trackSp IProf.make).minSp.toNat).1
  omega

/-- nothing but calls of `track_sp` changes the reported usage -/
theorem apply_usage {rv32c : Bool} {p p' : IProf} {e : Ev} (h : apply rv32c p e = .ok p') : usage p' = usage p := by
  have : p'.minSp = p.minSp := by
    cases e with
    | active b => cases h; rfl
    | inst w => cases h; rfl
    | call c =>
      cases c with
      | g o =>
        simp only [apply, IProf.call, IProf.logG] at h
        split at h
        · cases h
        · cases h; rfl
        · have hb : ∀ (q : IProf) (o : OpG), q.bumpG o = .ok p' → p'.minSp = q.minSp := fun q o hq => by
            unfold IProf.bumpG at hq
            split at hq
            · cases hq
            · cases hq; rfl
          repeat' split at h
          all_goals exact (hb _ _ h).trans rfl
      | b o t f =>
        simp only [apply, IProf.call, IProf.logB] at h
        split at h
        · cases h
        · cases h; rfl
        · split at h
          · cases h
          · cases h; rfl
  show (0x80020000#32 - p'.minSp).toNat = (0x80020000#32 - p.minSp).toNat
  rw [this]

/-- a call chain 0x40 deep, with a stray value below the memory -/
example : usage ([0x8001fff0#32, 0x8001ffc0#32, 0x1000#32, 0x8001fff0#32].foldl IProf.trackSp IProf.make) = 0x40 := by
  decide +kernel

end Ama.Prof
