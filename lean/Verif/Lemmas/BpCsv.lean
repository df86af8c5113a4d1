import Verif.Model.BpCsv
import Verif.Spec.BpCsv
import Verif.Props.BpHistory
import Verif.Props.BpPattern
/-!
# Lemmas on the branch report
-/
namespace Ama.Bp
open Ama.Spec.Bp (guess)
open Ama.Spec.BpCsv

/-- the branches of a run, each with whether profiling was on -/
def presented : (on : Bool) → List Ev → List (Br × Bool)
  | _, [] => []
  | _, .prof b :: t => presented b t
  | on, .br e :: t => (e, on) :: presented on t

theorem profiled_presented : ∀ (evs : List Ev) (on : Bool),
    profiled on evs = ((presented on evs).filter (·.2)).map (·.1)
  | [], _ => rfl
  | .prof b :: t, _ => profiled_presented t b
  | .br e :: t, on => by
    have := profiled_presented t on
    cases on <;> simp [profiled, presented, this]

theorem atPc_here (evs : List Ev) (pc : W) : atPc pc (profiled false evs) = here pc (presented false evs) := by
  rw [profiled_presented]
  unfold atPc here
  rw [List.filter_map, List.filter_filter]
  congr 1
  refine List.filter_congr fun x _ => ?_
  simp [Function.comp, Bool.and_comm]

/-- predictors whose answers the specification knows -/
def Known (d : Def) : Prop := Real (shapeD d) ∨ ∃ c, d = .one .ideal c

/-- the predictor `p` has seen the branches `h` -/
def Seen (low : Nat) (d : Def) (h : List Br) (p : Pred) : Prop :=
  (Real (shapeD d) ∧ Real (shape p) ∧ Ref low d h p) ∨ ∃ c, d = .one .ideal c ∧ shape p = .one .ideal

theorem says_real {low : Nat} {d : Def} (hr : Real (shapeD d)) (h : List Br) (e : Br) :
    says low d h e = guess low d h e.pc (e.pc + e.offset) := by
  unfold says
  split
  · exact absurd rfl hr.2
  · rfl

theorem make_seen {low : Nat} (hl : low ≤ 2) {d : Def} {p : Pred} (hk : Known d) (hm : make low d = .ok p) :
    Seen low d [] p := by
  have hs := make_shape hm
  rcases hk with hr | ⟨c, rfl⟩
  · exact .inl ⟨hr, by rw [hs]; exact hr, make_ref hl hr hm⟩
  · exact .inr ⟨c, rfl, hs⟩

theorem Seen.notNone {low : Nat} {d : Def} {h : List Br} {p : Pred} (s : Seen low d h p) : shape p ≠ .one .none := by
  rcases s with ⟨_, hr, _⟩ | ⟨c, _, hs⟩
  · exact hr.plain.2
  · rw [hs]; intro h; cases h

theorem Seen.drive {low : Nat} (hl : low ≤ 2) {d : Def} {h : List Br} {p p' : Pred} {e : Br} {v : W}
    (s : Seen low d h p) (hd : Ama.Bp.drive e p = .ok (v, p')) : v = says low d h e ∧ Seen low d (e :: h) p' := by
  have hsh := drive_shape hd
  rcases s with ⟨hr, hr', hf⟩ | ⟨c, rfl, hs⟩
  · obtain ⟨hv, hf'⟩ := ref_drive hl hf hd
    exact ⟨by rw [hv, says_real hr], .inl ⟨hr, by rw [hsh]; exact hr', hf'⟩⟩
  · refine ⟨?_, .inr ⟨c, rfl, by rw [hsh, hs]⟩⟩
    obtain ⟨q, r, q', k1, _⟩ := drive_parts hd
    cases p <;> first
      | (cases hs; done)
      | (simp only [gotoFuture, predict, Res.ok.injEq, Prod.mk.injEq] at k1
         exact k1.1.symm)

theorem Seen.setProf {low : Nat} {d : Def} {h : List Br} {p : Pred} (s : Seen low d h p) (on : Bool) :
    Seen low d h (setProf on p) := by
  rcases s with ⟨hr, hr', hf⟩ | ⟨c, rfl, hs⟩
  · refine .inl ⟨hr, by rw [shape_setProf]; exact hr', ?_⟩
    exact hf.setBase (b := { p.base with stats := { p.base.stats with prof := on } }) rfl rfl rfl
  · exact .inr ⟨c, rfl, by rw [shape_setProf, hs]⟩

theorem seen_run {low : Nat} (hl : low ≤ 2) {d : Def} (pc : W) : ∀ (evs : List Ev) (on : Bool) {h : List Br}
    {p p' : Pred}, Seen low d h p → p.base.stats.prof = on → run evs p = .ok p' →
    p'.base.stats.getPredicted pc = p.base.stats.getPredicted pc + hits low d pc h (presented on evs) ∧
      shape p' = shape p
  | [], on, h, p, p', s, hp, hr => by
    simp only [run, Res.ok.injEq] at hr
    subst hr
    exact ⟨rfl, rfl⟩
  | .prof b :: t, on, h, p, p', s, hp, hr => by
    have := seen_run hl pc t b (s.setProf b) (setProf_prof _ _) hr
    have e : (setProf b p).base.stats.getPredicted pc = p.base.stats.getPredicted pc := by
      unfold setProf; rw [base_setBase]; rfl
    rw [e, shape_setProf] at this
    exact this
  | .br e :: t, on, h, p, p', s, hp, hr => by
    simp only [run] at hr
    obtain ⟨⟨v, q⟩, h1, h2⟩ := bind_eq_ok hr
    obtain ⟨hv, s'⟩ := s.drive hl h1
    have ih := seen_run hl pc t on s' ((drive_prof h1).trans hp) h2
    have hst := drive_stats s.notNone h1
    refine ⟨?_, ih.2.trans (drive_shape h1)⟩
    rw [ih.1]
    simp only [presented, hits]
    rw [← Nat.add_assoc]
    congr 1
    rw [hst]
    cases on with
    | false =>
      unfold BStats.eval
      simp [hp]
    | true =>
      rw [(eval_vals _ _ _ _ hp).2.2.2.2 pc, hv]
      congr 1
      simp only [Bool.and_eq_true, beq_iff_eq, true_and]
      have hc : (e.next = says low d h e) = (says low d h e = e.next) := propext eq_comm
      simp only [hc]

/-- is a configuration the ideal predictor -/
def Def.isIdeal : Def → Bool
  | .one .ideal _ => true
  | _ => false

theorem isIdeal_shape {d : Def} {p : Pred} (h : shape p = shapeD d) : p.isIdeal = d.isIdeal := by
  cases p <;> cases d with
  | one k c => cases k <;> first | rfl | (cases h; done)
  | comb c a b => first | rfl | (cases h; done)

/-- all predictors of a run at once -/
theorem all_counts {low : Nat} (hl : low ≤ 2) (evs : List Ev) (pc : W) : ∀ {arch : List Def} {all all' : List Pred},
    BpIf.make.go low arch = .ok all → (∀ a ∈ arch, Known a) → All2 (fun p q => run evs p = .ok q) all all' →
    all'.map (fun q => (q.isIdeal, q.base.stats.getPredicted pc))
      = arch.map (fun a => (a.isIdeal, hits low a pc [] (presented false evs)))
  | [], all, all', hm, _, h2 => by
    simp only [BpIf.make.go, Res.ok.injEq] at hm
    subst hm
    cases h2
    rfl
  | a :: t, all, all', hm, hk, h2 => by
    unfold BpIf.make.go at hm
    obtain ⟨p, hp, hm⟩ := bind_eq_ok hm
    obtain ⟨ps, hps, hm⟩ := bind_eq_ok hm
    simp only [Res.ok.injEq] at hm
    subst hm
    cases h2 with
    | cons h1 h2 =>
      have ih := all_counts hl evs pc hps (fun a ha => hk a (.tail _ ha)) h2
      obtain ⟨ho, hst, _⟩ := make_ok hl hp
      have := seen_run hl pc evs false (make_seen hl (hk a (.head _)) hp) (by rw [hst]) h1
      simp only [List.map_cons, ih]
      congr 1
      rw [this.1, hst, isIdeal_shape (this.2.trans (make_shape hp))]
      simp [BStats.getPredicted]

/-! ## The winner -/

theorem bestGo_winner (pc : W) : ∀ (rest done : List Col) (best : Nat),
    (done = [] → best = 0 ∧ ∀ c ∈ rest.head?, c.idealArch = false) →
    (done ≠ [] → Winner (fun j => !((done.map (·.idealArch)).getD j true)) (done.map (·.pred pc)) best) →
    done ++ rest ≠ [] →
    Winner (fun j => !(((done ++ rest).map (·.idealArch)).getD j true)) ((done ++ rest).map (·.pred pc))
      (bestGo pc rest done.length best (done.map (·.pred pc)))
  | [], done, best, _, h, hne => by
    simp only [List.append_nil] at hne ⊢
    exact h hne
  | c :: t, done, best, h0, h, hne => by
    have hcat : done ++ c :: t = (done ++ [c]) ++ t := by simp
    have hmap : done.map (·.pred pc) ++ [c.pred pc] = (done ++ [c]).map (·.pred pc) := by simp
    have hlen : done.length + 1 = (done ++ [c]).length := by simp
    have hgi : ((done ++ [c]).map (fun x : Col => x.pred pc)).getD done.length 0 = c.pred pc := by
      simp [List.getD_eq_getElem?_getD]
    have hgj : ∀ j < done.length, ((done ++ [c]).map (fun x : Col => x.pred pc)).getD j 0
        = (done.map (fun x : Col => x.pred pc)).getD j 0 := by
      intro j hj
      simp [List.getD_eq_getElem?_getD, List.getElem?_append_left, hj]
    have hok : ∀ j < done.length, ((done ++ [c]).map (fun x : Col => x.idealArch)).getD j true
        = (done.map (fun x : Col => x.idealArch)).getD j true := by
      intro j hj
      simp [List.getD_eq_getElem?_getD, List.getElem?_append_left, hj]
    have hoki : ((done ++ [c]).map (fun x : Col => x.idealArch)).getD done.length true = c.idealArch := by
      simp [List.getD_eq_getElem?_getD]
    have hsplit : ∀ j < ((done ++ [c]).map (fun x : Col => x.pred pc)).length, j < done.length ∨ j = done.length := by
      intro j hj
      simp at hj; omega
    unfold bestGo
    simp only
    rw [hcat, hmap, hlen]
    by_cases hd : done = []
    · subst hd
      obtain ⟨rfl, hc⟩ := h0 rfl
      have hc := hc c rfl
      have hw : Winner (fun j => !((([] ++ [c]).map (fun x : Col => x.idealArch)).getD j true))
          (([] ++ [c]).map (fun x : Col => x.pred pc)) 0 := by
        refine ⟨by simp [hc], by simp, ?_, fun j hj => absurd hj (Nat.not_lt_zero _)⟩
        intro j hj _
        have : j = 0 := by simpa using hj
        subst this
        exact Nat.le_refl _
      rw [if_neg (by simp [hc])]
      have e : (if (([] ++ [c]).map (fun x : Col => x.pred pc)).getD ([] : List Col).length 0
          > (([] ++ [c]).map (fun x : Col => x.pred pc)).getD 0 0 then ([] : List Col).length else 0) = 0 := by
        split <;> rfl
      rw [e]
      exact bestGo_winner pc t _ 0 (fun h => by simp at h) (fun _ => hw) (by simp)
    · obtain ⟨w1, w2, w3, w4⟩ := h hd
      have hb : best < done.length := by simpa using w2
      have keep : (c.idealArch = true ∨ c.pred pc ≤ (done.map (fun x : Col => x.pred pc)).getD best 0) →
          Winner (fun j => !(((done ++ [c]).map (fun x : Col => x.idealArch)).getD j true))
            ((done ++ [c]).map (fun x : Col => x.pred pc)) best := by
        intro hc
        refine ⟨by dsimp only; rw [hok _ hb]; exact w1, by simp; omega, ?_, ?_⟩
        · intro j hj hoj
          dsimp only at hoj
          rw [hgj _ hb]
          rcases hsplit j hj with hj | rfl
          · rw [hgj _ hj]; rw [hok _ hj] at hoj
            exact w3 j (by simpa using hj) hoj
          · rw [hgi]
            rw [hoki] at hoj
            rcases hc with hc | hc
            · rw [hc] at hoj; cases hoj
            · exact hc
        · intro j hj hoj
          dsimp only at hoj
          rw [hgj _ hb, hgj _ (by omega)]
          rw [hok _ (by omega)] at hoj
          exact w4 j hj hoj
      split
      · rename_i hc
        exact bestGo_winner pc t _ best (fun h => by simp at h) (fun _ => keep (.inl hc)) (by simp)
      · rename_i hc
        rw [hgi, hgj _ hb]
        split
        · rename_i hlt
          refine bestGo_winner pc t _ _ (fun h => by simp at h) (fun _ => ?_) (by simp)
          refine ⟨by dsimp only; rw [hoki]; simpa using hc, by simp, ?_, ?_⟩
          · intro j hj hoj
            dsimp only at hoj
            rw [hgi]
            rcases hsplit j hj with hj | rfl
            · rw [hgj _ hj]; rw [hok _ hj] at hoj
              exact Nat.le_of_lt (Nat.lt_of_le_of_lt (w3 j (by simpa using hj) hoj) hlt)
            · rw [hgi]; exact Nat.le_refl _
          · intro j hj hoj
            dsimp only at hoj
            rw [hgi, hgj _ hj]; rw [hok _ hj] at hoj
            exact Nat.lt_of_le_of_lt (w3 j (by simpa using hj) hoj) hlt
        · rename_i hlt
          exact bestGo_winner pc t _ best (fun h => by simp at h) (fun _ => keep (.inr (Nat.le_of_not_lt hlt))) (by simp)

/-! ## The keys -/

theorem appKeys_mem (m : W → Option App) (pc : W) : pc ∈ appKeys m ↔ (m pc).isSome = true := by
  unfold appKeys
  rw [List.mem_filter]
  refine ⟨fun h => h.2, fun h => ⟨List.mem_map.2 ⟨pc.toNat, List.mem_range.2 pc.isLt, ?_⟩, h⟩⟩
  exact BitVec.ofNat_toNat .. |>.trans (BitVec.setWidth_eq pc)

theorem appKeys_sorted (m : W → Option App) : (appKeys m).Pairwise (fun a b => a.toNat < b.toNat) := by
  unfold appKeys
  refine List.Pairwise.filter _ ?_
  rw [List.pairwise_map]
  have h : (List.range (2 ^ 32)).Pairwise (fun a b => a < b ∧ a < 2 ^ 32 ∧ b < 2 ^ 32) := by
    refine (List.pairwise_lt_range (n := 2 ^ 32)).imp_of_mem fun ha hb hab => ⟨hab, List.mem_range.1 ha, List.mem_range.1 hb⟩
  refine h.imp ?_
  intro a b ⟨h1, h2, h3⟩
  rw [BitVec.toNat_ofNat, BitVec.toNat_ofNat, Nat.mod_eq_of_lt h2, Nat.mod_eq_of_lt h3]
  exact h1

/-- an ascending list is determined by its members -/
theorem ascending_unique : ∀ {a b : List W}, a.Pairwise (fun x y => x.toNat < y.toNat) →
    b.Pairwise (fun x y => x.toNat < y.toNat) → (∀ x, x ∈ a ↔ x ∈ b) → a = b
  | [], [], _, _, _ => rfl
  | [], y :: b, _, _, h => absurd ((h y).2 (.head _)) (by simp)
  | x :: a, [], _, _, h => absurd ((h x).1 (.head _)) (by simp)
  | x :: a, y :: b, ha, hb, h => by
    rw [List.pairwise_cons] at ha hb
    have hxy : x = y := by
      rcases List.mem_cons.1 ((h x).1 (.head _)) with e | hx
      · exact e
      · rcases List.mem_cons.1 ((h y).2 (.head _)) with e | hy
        · exact e.symm
        · have h1 := hb.1 x hx
          have h2 := ha.1 y hy
          omega
    subst hxy
    congr 1
    refine ascending_unique ha.2 hb.2 fun z => ?_
    constructor
    · intro hz
      rcases List.mem_cons.1 ((h z).1 (.tail _ hz)) with e | hz'
      · subst e; exact absurd (ha.1 z hz) (Nat.lt_irrefl _)
      · exact hz'
    · intro hz
      rcases List.mem_cons.1 ((h z).2 (.tail _ hz)) with e | hz'
      · subst e; exact absurd (hb.1 z hz) (Nat.lt_irrefl _)
      · exact hz'

theorem csvRows_map {pct : Nat → Nat → List Char} {cols : List Col} {m : W → Option App} {f : W → List Char} :
    ∀ {pcs : List W}, (∀ pc ∈ pcs, ∃ a, m pc = some a ∧ csvRow pct cols pc a = .ok (f pc)) →
    csvRows pct cols m pcs = .ok (pcs.map f)
  | [], _ => rfl
  | pc :: t, h => by
    obtain ⟨a, ha, hr⟩ := h pc (.head _)
    unfold csvRows
    rw [ha]
    simp only [Res.bind_ok, hr, csvRows_map (pcs := t) (fun pc hp => h pc (.tail _ hp)), List.map_cons]

end Ama.Bp
