import Verif.Lemmas.BpCsv
/-!
# C89: the branch report `branches.csv`

The specification is `Verif.Spec.BpCsv`; the answers of the predictors are those of `Verif.Spec.Bp`.
-/
namespace Ama.Bp
open Ama.Spec.BpCsv

theorem commas_line : ∀ (l : List (List Char)), commas l = line l
  | [] => rfl
  | [a] => by simp [commas, line, List.intercalate]
  | a :: b :: t => by
    have := commas_line (b :: t)
    simp only [commas, this]
    simp [line, List.intercalate]

theorem commas_snoc : ∀ (l : List (List Char)) (a : List Char), l ≠ [] → commas (l ++ [a]) = commas l ++ ',' :: a
  | [], _, h => absurd rfl h
  | [x], a, _ => rfl
  | x :: y :: t, a, _ => by
    have := commas_snoc (y :: t) a (by simp)
    simp only [List.cons_append] at this
    simp only [List.cons_append, commas, this, List.append_assoc]

theorem commas_flat {α : Type} (f : α → List Char) : ∀ (t : List α) (l : List (List Char)), l ≠ [] →
    commas (l ++ t.map f) = commas l ++ t.flatMap (fun x => ',' :: f x)
  | [], l, _ => by simp
  | x :: t, l, h => by
    have := commas_flat f t (l ++ [f x]) (by simp)
    rw [List.append_assoc, commas_snoc _ _ h] at this
    simpa using this

theorem csvHead_line (cols : List Col) : csvHead cols = line (heading (cols.map (·.name))) := by
  rw [← commas_line]
  unfold heading csvHead
  rw [commas_flat _ _ _ (by simp), List.map_map, List.map_map, commas_flat _ _ _ (by simp), commas_flat _ _ _ (by simp)]
  simp [commas]

theorem taken_split (l : List Br) : num Br.taken l = (l.filter (fun e => e.next != e.pc + 4#32)).length ∧
    l.length = (l.filter (fun e => e.next != e.pc + 4#32)).length
      + (l.filter (fun e => e.next == e.pc + 4#32)).length := by
  induction l with
  | nil => exact ⟨rfl, rfl⟩
  | cons a t ih =>
    simp only [num, Br.taken, List.filter_cons]
    by_cases h : a.next = a.pc + 4#32
    · simp [h]; exact ⟨ih.1, by omega⟩
    · simp [h]; exact ⟨by rw [Nat.add_comm, ← ih.1], by omega⟩

theorem zip_fst {α β : Type} (f : α → β) : ∀ (l : List α) (k : Nat), (l.zipIdx k).map (fun x => f x.1) = l.map f
  | [], _ => rfl
  | a :: t, k => by simp only [List.zipIdx_cons, List.map_cons, zip_fst f t]

theorem mn_name (f : BitVec 3) : funct3Mn f = (branchName f).toList := by
  revert f; decide

/-- **C89, partial.** Missing: a predictor that is `none`, alone or inside a combined one, or ideal inside a
combined one (`run_all_uninit`: the predefined list of `--bp_run_all` contains `none`).  For every other
configuration, with the report requested, after every run of branches and profiling switches: the report is the
heading and one line for each address at which a profiled branch was seen, in ascending order.  The line gives
the address, the direction and the comparison of the first such branch, how many were taken, how many fell
through and how many there were, then for the active and each further predictor how many of them it answered
right as computed from the branches before, then the name and count of the first of the largest of these counts,
leaving out the ideal one of the predefined predictors, and last a string from which the taken/not-taken history
of the address can be read back.  No line divides by zero. -/
theorem branches_csv_partial {low : Nat} (hl : low = 1 ∨ low = 2) {arch : List Def} {ra : Bool} {d : Def} {s s' : BpIf}
    (hm : BpIf.make low arch true ra d = .ok s) (hd : Known d) (ha : ra = true → ∀ a ∈ arch, Known a)
    {names : List (List Char)} (hn : names.length = (d :: if ra then arch else []).length)
    {evs : List Ev} (hr : s.run evs = .ok s') (hlen : evs.length < 2 ^ 32) (pct : Nat → Nat → List Char) :
    let bs := presented false evs
    let ds := d :: if ra then arch else []
    let v := fun pc => ds.map (fun d => hits low d pc [] bs)
    ∃ (pcs : List W) (best : W → Nat) (pattern : W → List Char),
      pcs.Pairwise (fun a b => a.toNat < b.toNat) ∧ (∀ pc, pc ∈ pcs ↔ here pc bs ≠ []) ∧
      s'.finishCsv pct names = .ok (some (line (heading names) ::
        pcs.map (fun pc => line (fields pct names (here pc bs) pc (v pc) (best pc) ++ [pattern pc])))) ∧
      ∀ pc ∈ pcs, Winner (fun j => j == 0 || !((ds.map (·.isIdeal)).getD j true)) (v pc) (best pc) ∧
        readPattern 0 (pattern pc) = (here pc bs).map (fun e => e.next != e.pc + 4#32) := by
  intro bs ds v
  obtain ⟨hsy, hact, _⟩ := make_synced (by omega) hm
  obtain ⟨hra, hrall⟩ := run_proj evs hsy hr
  have hrec := app_records hm hr
  -- what the constructor built
  have hb : (∃ r, (if ra then BpIf.make.go low arch else .ok []) = .ok r ∧ s.all = r) ∧ s.dumpCsv = true := by
    unfold BpIf.make at hm
    obtain ⟨a, _, hm⟩ := bind_eq_ok hm
    obtain ⟨al, hal, hm⟩ := bind_eq_ok hm
    simp only [Res.ok.injEq] at hm
    subst hm
    exact ⟨⟨al, hal, rfl⟩, rfl⟩
  obtain ⟨⟨r, hgo, rfl⟩, hdump⟩ := hb
  have hdump' : s'.dumpCsv = true := by
    have : ∀ (evs : List Ev) {s s' : BpIf}, s.run evs = .ok s' → s'.dumpCsv = s.dumpCsv := by
      intro evs
      induction evs with
      | nil => intro s s' h; simp only [BpIf.run, Res.ok.injEq] at h; rw [h]
      | cons ev t ih =>
        intro s s' h
        cases ev with
        | prof b => exact ih (s := s.profiling b) h
        | br e =>
          obtain ⟨⟨w, q⟩, h1, h⟩ := bind_eq_ok h
          exact (ih h).trans (branch_app h1).2.1
    rw [this evs hr, hdump]
  -- the columns
  have hcol0 : ∀ pc, s'.active.base.stats.getPredicted pc = hits low d pc [] bs := by
    intro pc
    obtain ⟨_, hst, _⟩ := make_ok (by omega) hact
    have := (seen_run (by omega) pc evs false (make_seen (by omega) hd hact) (by rw [hst]) hra).1
    rw [this, hst]
    simp [BStats.getPredicted, bs]
  have hcols : ∀ pc, s'.all.map (fun q => (q.isIdeal, q.base.stats.getPredicted pc))
      = (if ra then arch else []).map (fun a => (a.isIdeal, hits low a pc [] bs)) := by
    intro pc
    cases ra with
    | true => exact all_counts (by omega) evs pc (by simpa using hgo) (ha rfl) hrall
    | false =>
      simp only [Bool.false_eq_true, if_false, Res.ok.injEq] at hgo
      rw [← hgo] at hrall
      cases hrall' : s'.all with
      | nil => rfl
      | cons x y => rw [hrall'] at hrall; cases hrall
  have hlenall : s'.all.length = (if ra then arch else []).length := by
    have := congrArg List.length (hcols 0#32)
    simpa using this
  have hcpred : ∀ pc, (s'.cols names).map (·.pred pc) = v pc := by
    intro pc
    simp only [BpIf.cols, List.map_cons, List.map_map, v, ds, hcol0]
    congr 1
    have := congrArg (List.map (·.2)) (hcols pc)
    simp only [List.map_map, Function.comp_def] at this
    rw [← this]
    exact zip_fst (fun q : Pred => q.base.stats.getPredicted pc) _ _
  have hcname : (s'.cols names).map (·.name) = names := by
    cases names with
    | nil => simp at hn
    | cons n ns =>
      have hl2 : ns.length = s'.all.length := by
        rw [hlenall]; simpa using hn
      simp only [BpIf.cols, List.map_cons, List.map_map, List.headD_cons]
      congr 1
      refine List.ext_getElem (by simp [hl2]) ?_
      intro i h1 h2
      simp [List.getD_eq_getElem?_getD, h2]
  have hcideal : (s'.cols names).map (·.idealArch) = false :: (if ra then arch else []).map (·.isIdeal) := by
    simp only [BpIf.cols, List.map_cons, List.map_map]
    congr 1
    have := congrArg (List.map (·.1)) (hcols 0#32)
    simp only [List.map_map, Function.comp_def] at this
    rw [← this]
    exact zip_fst (fun q : Pred => q.isIdeal) _ _
  -- the keys
  have hkey : ∀ pc, pc ∈ appKeys s'.app ↔ here pc bs ≠ [] := by
    intro pc
    rw [appKeys_mem, hrec pc, atPc_here]
    cases here pc (presented false evs) <;> simp [recordOf]
  have hplen : (profiled false evs).length < 2 ^ 32 := by
    have : ∀ (evs : List Ev) (on : Bool), (profiled on evs).length ≤ evs.length := by
      intro evs
      induction evs with
      | nil => intro _; exact Nat.le_refl _
      | cons ev t ih =>
        intro on
        cases ev with
        | prof b => exact Nat.le_succ_of_le (ih b)
        | br e =>
          simp only [profiled]
          split
          · exact Nat.succ_le_succ (ih on)
          · exact Nat.le_succ_of_le (ih on)
    exact Nat.lt_of_le_of_lt (this evs false) hlen
  let pat : W → List Char := fun pc =>
    match s'.app pc with
    | some a => match findRunLength a.pattern with | .ok t => t | _ => []
    | .none => []
  refine ⟨appKeys s'.app, fun pc => bestGo pc (s'.cols names) 0 0 [], pat, appKeys_sorted _, hkey, ?_, ?_⟩
  · have hrows := csvRows_map (pct := pct) (cols := s'.cols names) (m := s'.app) (pcs := appKeys s'.app)
      (f := fun pc => line (fields pct names (here pc bs) pc (v pc) (bestGo pc (s'.cols names) 0 0 []) ++ [pat pc])) ?_
    · unfold BpIf.finishCsv
      rw [if_pos hdump']
      simp only [hrows, Res.bind_ok, csvHead_line, hcname]
    · intro pc hpc
      have hsome := (appKeys_mem _ _).1 hpc
      obtain ⟨a, hapc⟩ := Option.isSome_iff_exists.1 hsome
      refine ⟨a, hapc, ?_⟩
      obtain ⟨str, hstr, _⟩ := written_pattern_reads_back hm hr hapc hplen
      have hpat : pat pc = str := by simp only [pat, hapc, hstr]
      have hrpc := hrec pc
      rw [hapc, atPc_here] at hrpc
      cases hh : here pc (presented false evs) with
      | nil => rw [hh] at hrpc; cases hrpc
      | cons e t =>
        rw [hh] at hrpc
        simp only [recordOf, Option.some.injEq] at hrpc
        obtain ⟨t1, t2⟩ := taken_split (e :: t)
        unfold csvRow
        rw [hstr]
        simp only [Res.bind_ok, hcpred, hcname, hpat]
        rw [← commas_line]
        subst hrpc
        have t3 : (e :: t).length - num Br.taken (e :: t) = ((e :: t).filter (fun e => e.next == e.pc + 4#32)).length := by
          omega
        have hfw : (if e.forward then ['F'] else ['B']) = [if e.forward then 'F' else 'B'] := by cases e.forward <;> rfl
        simp only [fields, t3, mn_name, hfw, ← t1]
        rw [t1, ← t2]
        simp [Br.forward]
  · intro pc hpc
    refine ⟨?_, ?_⟩
    · have hw := bestGo_winner pc (s'.cols names) [] 0 (fun _ => ⟨rfl, by simp [BpIf.cols]⟩) (fun h => absurd rfl h)
        (by simp [BpIf.cols])
      simp only [List.nil_append, List.map_nil, List.length_nil] at hw
      rw [hcpred, hcideal] at hw
      have hok : (fun j => !((false :: (if ra then arch else []).map (fun x : Def => x.isIdeal)).getD j true))
          = (fun j => j == 0 || !((ds.map (fun x : Def => x.isIdeal)).getD j true)) := by
        funext j
        cases j with
        | zero => rfl
        | succ j => simp [ds]
      rw [hok] at hw
      exact hw
    · have hsome := (appKeys_mem _ _).1 hpc
      obtain ⟨a, hapc⟩ := Option.isSome_iff_exists.1 hsome
      obtain ⟨str, hstr, hback⟩ := written_pattern_reads_back hm hr hapc hplen
      have hpat : pat pc = str := by simp only [pat, hapc, hstr]
      rw [hpat, hback, atPc_here]

/-- **C89.** No predictor is credited with more right answers at an address than profiled branches there, and the
ideal one with exactly as many. -/
theorem credited (low : Nat) (d : Def) (pc : W) : ∀ (bs : List (Br × Bool)) (h : List Br),
    hits low d pc h bs ≤ (here pc bs).length ∧ (d.isIdeal = true → hits low d pc h bs = (here pc bs).length)
  | [], _ => ⟨Nat.le_refl _, fun _ => rfl⟩
  | (e, on) :: t, h => by
    obtain ⟨h1, h2⟩ := credited low d pc t (e :: h)
    have hh : (here pc ((e, on) :: t)).length
        = (if on = true ∧ e.pc = pc then 1 else 0) + (here pc t).length := by
      unfold here
      cases on with
      | false => simp
      | true => by_cases hp : e.pc = pc <;> simp [hp]; omega
    rw [hh]
    simp only [hits]
    refine ⟨?_, ?_⟩
    · by_cases hc : on = true ∧ e.pc = pc ∧ says low d h e = e.next
      · rw [if_pos hc, if_pos ⟨hc.1, hc.2.1⟩]; omega
      · rw [if_neg hc]; omega
    · intro hi
      rw [h2 hi]
      have hs : says low d h e = e.next := by
        cases d with
        | one k c => cases k <;> first | rfl | (cases hi; done)
        | comb c a b => cases hi
      simp only [hs, and_true]

/-! ## Concrete cases -/
namespace CsvEx

/-- the predefined combined predictor 3 is configured with the number of `btfn` in the field of the address bits
(bp_if.h:117), so its static component always answers the target, also for a forward branch, which `btfn` would
not -/
theorem predefined_v3_not_btfn : ∃ c d0 d1, archDefs[17]? = some (.comb c d0 d1) ∧
    (∀ low h pc tg, Ama.Spec.Bp.guess low d0 h pc tg = tg) ∧
    Ama.Spec.Bp.guess 2 (.one .sttc ⟨0, 2, 0, 0, .none⟩) [] 0x100#32 0x200#32 = 0x104#32 :=
  ⟨_, _, _, rfl, fun _ _ _ _ => rfl, by decide⟩


/-- the active predictor bimodal, further ones: always taken, ideal -/
def arch2 : List Def := [.one .sttc ⟨0, 0, 0, 0, .none⟩, .one .ideal ⟨0, 0, 0, 0, .none⟩]
/-- two addresses; the first branch is not profiled -/
def evs2 : List Ev :=
  [.br (Ex.back 0x10040#32 true), .prof true, .br (Ex.back 0x10080#32 true), .br (Ex.back 0x10040#32 true),
   .br (Ex.back 0x10040#32 false), .br (Ex.back 0x10040#32 true)]
def names2 : List (List Char) := ["mine", "at", "ideal"].map String.toList

/-- the hypotheses are met and the run goes through -/
example : Known (Ex.bim 2) ∧ (∀ a ∈ arch2, Known a) ∧ names2.length = (Ex.bim 2 :: arch2).length ∧
    (match (do let s ← BpIf.make 2 arch2 true true (Ex.bim 2); s.run evs2) with | .ok _ => true | _ => false) = true := by
  refine ⟨.inl ⟨(fun h => by cases h), (fun h => by cases h)⟩, ?_, rfl, by decide +kernel⟩
  intro a ha
  rcases List.mem_cons.1 ha with rfl | ha
  · exact .inl ⟨(fun h => by cases h), (fun h => by cases h)⟩
  · rcases List.mem_cons.1 ha with rfl | ha
    · exact .inr ⟨_, rfl⟩
    · cases ha

/-- the lines of the two addresses; `ideal` has more right answers but is not named best -/
example : (match (do
      let s ← BpIf.make 2 arch2 true true (Ex.bim 2)
      let s ← s.run evs2
      csvRows (fun a b => Nat.toDigits 10 (100 * a / b)) (s.cols names2) s.app [0x10040#32, 0x10080#32]) with
    | .ok rows => rows.map String.ofList == ["10040,B,1,bne,2,1,3,66,2,2,3,66,66,100,mine,2,66,1T 1N 1T",
        "10080,B,1,bne,1,0,1,100,1,1,1,100,100,100,mine,1,100,1T"]
    | _ => false) = true := by decide +kernel

end CsvEx

end Ama.Bp
