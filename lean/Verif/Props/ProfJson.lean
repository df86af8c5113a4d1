import Verif.Model.ProfJson
import Verif.Lemmas.Json
import Verif.Props.HwStats
import Verif.Props.ProfInst
import Verif.Props.ProfOne
/-!
# C92: `inst_profile.json` is well-formed and gives the counts
-/
namespace Ama.Prof
open Ama.Spec.Json
open HwStats (key int sp)

/-- members one per line, with a last one -/
def linesT : List (List Char × T) → Ms → Ms
  | [], ms => ms
  | (k, t) :: l, ms => .more (['\n'] ++ indent) k [' '] t [] (linesT l ms)

def gT (n : Nat) : T := .obj (.last [] "count".toList sp (.num (int n)) [])
def bT (r : RepB) : T :=
  .obj (.more [] "count".toList sp (.num (int r.count)) []
    (.last sp "breakdown".toList sp (.obj
      (.more [] "taken".toList sp (.num (int r.taken)) []
      (.more sp "taken_fwd".toList sp (.num (int r.takenFwd)) []
      (.more sp "taken_bwd".toList sp (.num (int r.takenBwd)) []
      (.more sp "not_taken".toList sp (.num (int r.notTaken)) []
      (.more sp "not_taken_fwd".toList sp (.num (int r.notTakenFwd)) []
      (.last sp "not_taken_bwd".toList sp (.num (int r.notTakenBwd)) []))))))) []))

/-- the entries of the report -/
def entriesT (rv32c : Bool) (p : IProf) : List (List Char × T) :=
  ((allG.filter fun o => rv32c || !dotG o).map fun o => (o.name.toList, gT (p.cntG o))) ++
  ((allB.filter fun o => rv32c || !dotB o).map fun o => (o.name.toList, bT (p.cntB o).rep))
def tailT (peak : W) (total : Nat) : Ms :=
  .more (['\n'] ++ indent) "_max_sp_usage".toList sp (.num (int peak.toNat)) []
    (.last (['\n'] ++ indent) "_profiled_instructions".toList sp (.num (int total)) ['\n'])
def profileT (rv32c : Bool) (p : IProf) (peak : W) : T :=
  .obj (linesT (entriesT rv32c p) (tailT peak (p.total rv32c)))

/-- a line up to the comma, and the newline -/
def lineOf (x : List Char × T) : List Char := indent ++ '"' :: (x.1 ++ '"' :: ':' :: ' ' :: (x.2.text ++ [',']))

theorem lines_text : ∀ (l : List (List Char × T)) (ms : Ms) (u : List Char), ms.text = '\n' :: u →
    (linesT l ms).text = '\n' :: ((l.map fun x => lineOf x ++ ['\n']).flatten ++ u)
  | [], ms, u, h => by simpa [linesT] using h
  | (k, t) :: l, ms, u, h => by
    have ih := lines_text l ms u h
    simp only [linesT, Ms.text, ih, List.map_cons, List.flatten_cons, lineOf, List.append_assoc, List.cons_append, List.nil_append]

theorem entryG_line (o : OpG) (n : Nat) : entryG o n = lineOf (o.name.toList, gT n) ++ ['\n'] := by
  unfold entryG lineOf gT
  simp only [HwStats.obj_text, HwStats.last_text]
  simp only [HwStats.num_text]
  simp only [List.append_assoc, List.cons_append, List.nil_append]
theorem entryB_line (o : OpB) (r : RepB) : entryB o r = lineOf (o.name.toList, bT r) ++ ['\n'] := by
  unfold entryB lineOf bT
  simp only [HwStats.obj_text, HwStats.more_text, HwStats.last_text]
  simp only [HwStats.num_text]
  simp only [sp, List.append_assoc, List.cons_append, List.nil_append]

theorem profile_text (rv32c : Bool) (p : IProf) (peak : W) : profileText rv32c p peak = (profileT rv32c p peak).text ++ ['\n'] := by
  have h := lines_text (entriesT rv32c p) (tailT peak (p.total rv32c))
    (indent ++ key "_max_sp_usage" ++ int peak.toNat ++ [',', '\n'] ++ indent ++ key "_profiled_instructions" ++ int (p.total rv32c) ++ ['\n'])
    (by
      unfold tailT
      simp only [HwStats.more_text, HwStats.last_text]
      simp only [HwStats.num_text]
      simp only [List.append_assoc, List.cons_append, List.nil_append])
  unfold profileText profileT
  rw [T.text, h]
  simp only [entriesT, List.map_append, List.map_map, List.flatten_append]
  have e1 : ((fun x => lineOf x ++ ['\n']) ∘ fun o : OpG => (o.name.toList, gT (p.cntG o))) = fun o => entryG o (p.cntG o) := by
    funext o; exact (entryG_line o _).symm
  have e2 : ((fun x => lineOf x ++ ['\n']) ∘ fun o : OpB => (o.name.toList, bT (p.cntB o).rep)) = fun o => entryB o (p.cntB o).rep := by
    funext o; exact (entryB_line o _).symm
  rw [e1, e2]
  simp only [List.append_assoc, List.cons_append, List.nil_append]

theorem int_number (n : Nat) : Number (int n) := number_digits n

theorem gT_ok (n : Nat) : (gT n).Ok := by
  refine ⟨?_, ?_, ?_, int_number n, ?_⟩
  · intro c hc; cases hc
  · unfold Plain; decide +kernel
  · unfold Blank; decide +kernel
  · intro c hc; cases hc

theorem blank_nil : Blank [] := by intro c hc; cases hc
theorem blank_sp : Blank sp := by unfold Blank; decide +kernel
theorem blank_line : Blank (['\n'] ++ indent) := by unfold Blank; decide +kernel
theorem blank_nl : Blank ['\n'] := by unfold Blank; decide +kernel

theorem keys_plain : ∀ n ∈ ["count", "breakdown", "taken", "taken_fwd", "taken_bwd", "not_taken", "not_taken_fwd", "not_taken_bwd",
    "_max_sp_usage", "_profiled_instructions"], Plain n.toList := by
  unfold Plain; decide +kernel
theorem namesG_plain : ∀ o ∈ allG, Plain o.name.toList := by unfold Plain; decide +kernel
theorem namesB_plain : ∀ o ∈ allB, Plain o.name.toList := by unfold Plain; decide +kernel

theorem bT_ok (r : RepB) : (bT r).Ok := by
  have k : ∀ n ∈ ["count", "breakdown", "taken", "taken_fwd", "taken_bwd", "not_taken", "not_taken_fwd", "not_taken_bwd",
    "_max_sp_usage", "_profiled_instructions"], Plain n.toList := keys_plain
  simp only [List.mem_cons, List.not_mem_nil, or_false, forall_eq_or_imp, forall_eq] at k
  obtain ⟨k1, k2, k3, k4, k5, k6, k7, k8, -, -⟩ := k
  simp only [bT, T.Ok, Ms.Ok, int_number, blank_nil, blank_sp, k1, k2, k3, k4, k5, k6, k7, k8, and_self]

theorem lines_ok : ∀ (l : List (List Char × T)) {ms : Ms}, (∀ x ∈ l, Plain x.1 ∧ x.2.Ok) → ms.Ok → (linesT l ms).Ok
  | [], _, _, h => h
  | (k, t) :: l, ms, hl, h => by
    have hx := hl (k, t) (.head _)
    exact ⟨blank_line, hx.1, blank_sp, hx.2, blank_nil, lines_ok l (fun x hx => hl x (.tail _ hx)) h⟩

theorem profile_ok (rv32c : Bool) (p : IProf) (peak : W) : (profileT rv32c p peak).Ok := by
  refine lines_ok _ ?_ ?_
  · intro x hx
    rcases List.mem_append.1 hx with hx | hx
    · obtain ⟨o, ho, rfl⟩ := List.mem_map.1 hx
      exact ⟨namesG_plain o (List.mem_filter.1 ho).1, gT_ok _⟩
    · obtain ⟨o, ho, rfl⟩ := List.mem_map.1 hx
      exact ⟨namesB_plain o (List.mem_filter.1 ho).1, bT_ok _⟩
  · exact ⟨blank_line, keys_plain _ (by simp), blank_sp, int_number _, blank_nil, blank_line, keys_plain _ (by simp), blank_sp,
      int_number _, blank_nl⟩

/-! ## Reading -/

/-- the names in the report, in order -/
def names (rv32c : Bool) : List (List Char) :=
  ((allG.filter fun o => rv32c || !dotG o).map fun o => o.name.toList) ++
  ((allB.filter fun o => rv32c || !dotB o).map fun o => o.name.toList) ++ ["_max_sp_usage".toList, "_profiled_instructions".toList]

/-- **C92**: no name occurs twice in the report -/
theorem names_nodup : ∀ rv32c, (names rv32c).Nodup := by decide +kernel

theorem lines_val : ∀ (l : List (List Char × T)) (ms : Ms), (linesT l ms).val = (l.map fun x => (x.1, x.2.val)) ++ ms.val
  | [], _ => rfl
  | (k, t) :: l, ms => by simp only [linesT, Ms.val, lines_val l ms, List.map_cons, List.cons_append]

theorem find_key : ∀ {l : List (List Char × JV)} {k : List Char} {v : JV}, (l.map (·.1)).Nodup → (k, v) ∈ l →
    l.find? (fun x => x.1 == k) = some (k, v)
  | (k', v') :: l, k, v, hn, hm => by
    rw [List.map_cons, List.nodup_cons] at hn
    rcases List.mem_cons.1 hm with e | hm
    · cases e
      rw [List.find?_cons_of_pos (by simp)]
    · have hne : k' ≠ k := fun e => hn.1 (List.mem_map.2 ⟨(k, v), hm, e.symm⟩)
      rw [List.find?_cons_of_neg (by simpa using hne)]
      exact find_key hn.2 hm

/-- the members of the report -/
def membersOf (rv32c : Bool) (p : IProf) (peak : W) : List (List Char × JV) :=
  ((entriesT rv32c p).map fun x => (x.1, x.2.val)) ++
    [("_max_sp_usage".toList, JV.nat peak.toNat), ("_profiled_instructions".toList, JV.nat (p.total rv32c))]

theorem members_keys (rv32c : Bool) (p : IProf) (peak : W) : (membersOf rv32c p peak).map (·.1) = names rv32c := by
  simp only [membersOf, entriesT, names, List.map_append, List.map_map, List.map_cons, List.map_nil]
  rfl

theorem profile_get {rv32c : Bool} {p : IProf} {peak : W} {k : List Char} {v : JV} (h : (k, v) ∈ membersOf rv32c p peak) :
    (JV.obj (membersOf rv32c p peak)).get k = some v := by
  show Option.map (·.2) ((membersOf rv32c p peak).find? fun x => x.1 == k) = some v
  rw [find_key (by rw [members_keys]; exact names_nodup rv32c) h]
  rfl

/-- **C92**: whatever the counters are, the file is one JSON object; every instruction of the build has one entry with its count,
every branch and jump also its breakdown; the number of profiled instructions and the peak use of the stack follow. -/
theorem profile_reads (rv32c : Bool) (p : IProf) (peak : W) : ∃ v, readJson (profileText rv32c p peak) = some v ∧
    (∀ o, (rv32c || !dotG o) = true → v.at [o.name, "count"] = some (.nat (p.cntG o))) ∧
    (∀ o, (rv32c || !dotB o) = true →
      v.at [o.name, "count"] = some (.nat ((p.cntB o).taken + (p.cntB o).notTaken)) ∧
      v.at [o.name, "breakdown", "taken"] = some (.nat (p.cntB o).taken) ∧
      v.at [o.name, "breakdown", "taken_fwd"] = some (.nat (p.cntB o).takenFwd) ∧
      v.at [o.name, "breakdown", "taken_bwd"] = some (.nat ((p.cntB o).taken - (p.cntB o).takenFwd)) ∧
      v.at [o.name, "breakdown", "not_taken"] = some (.nat (p.cntB o).notTaken) ∧
      v.at [o.name, "breakdown", "not_taken_fwd"] = some (.nat (p.cntB o).notTakenFwd) ∧
      v.at [o.name, "breakdown", "not_taken_bwd"] = some (.nat ((p.cntB o).notTaken - (p.cntB o).notTakenFwd))) ∧
    v.at ["_max_sp_usage"] = some (.nat peak.toNat) ∧
    v.at ["_profiled_instructions"] = some (.nat (p.total rv32c)) ∧
    (∀ k : String, (v.get k.toList).isSome → k.toList ∈ names rv32c) := by
  refine ⟨.obj (membersOf rv32c p peak), ?_, fun o ho => ?_, fun o ho => ?_, ?_, ?_, fun k hk => ?_⟩
  · rw [profile_text, read_text _ (profile_ok rv32c p peak) blank_nl]
    simp only [profileT, T.val, lines_val, tailT, Ms.val, membersOf]
    rfl
  · have hm : (o.name.toList, (gT (p.cntG o)).val) ∈ membersOf rv32c p peak := by
      refine List.mem_append.2 (.inl (List.mem_map.2 ⟨(o.name.toList, gT (p.cntG o)), List.mem_append.2 (.inl ?_), rfl⟩))
      exact List.mem_map.2 ⟨o, List.mem_filter.2 ⟨mem_allG o, ho⟩, rfl⟩
    rw [JV.at, profile_get hm]
    simp [gT, T.val, Ms.val, JV.at, HwStats.get_cons, JV.nat, int]
  · have hm : (o.name.toList, (bT (p.cntB o).rep).val) ∈ membersOf rv32c p peak := by
      refine List.mem_append.2 (.inl (List.mem_map.2 ⟨(o.name.toList, bT (p.cntB o).rep), List.mem_append.2 (.inr ?_), rfl⟩))
      exact List.mem_map.2 ⟨o, List.mem_filter.2 ⟨mem_allB o, ho⟩, rfl⟩
    simp only [JV.at, profile_get hm]
    simp [bT, T.val, Ms.val, HwStats.get_cons, JV.nat, int, CntB.rep]
  · rw [JV.at, profile_get (v := .nat peak.toNat) (by simp [membersOf])]
    rfl
  · rw [JV.at, profile_get (v := .nat (p.total rv32c)) (by simp [membersOf])]
    rfl
  · have hk : (Option.map (·.2) ((membersOf rv32c p peak).find? fun x => x.1 == k.toList)).isSome = true := hk
    rw [Option.isSome_map, List.find?_isSome] at hk
    obtain ⟨x, hx, e⟩ := hk
    rw [← members_keys rv32c p peak]
    exact List.mem_map.2 ⟨x, hx, beq_iff_eq.1 e⟩

/-- `v` gives the numbers of the entries `es` -/
structure Gives (rv32c : Bool) (es : List Spec.Entry) (v : JV) : Prop where
  plain : ∀ o, (rv32c || !dotG o) = true → v.at [o.name, "count"] = some (.nat (es.count (.g o)))
  taken : ∀ o, (rv32c || !dotB o) = true →
    v.at [o.name, "breakdown", "taken_fwd"] = some (.nat (es.count (.b o true true))) ∧
    v.at [o.name, "breakdown", "taken_bwd"] = some (.nat (es.count (.b o true false))) ∧
    v.at [o.name, "breakdown", "taken"] = some (.nat (es.count (.b o true true) + es.count (.b o true false)))
  notTaken : ∀ o, (rv32c || !dotB o) = true →
    v.at [o.name, "breakdown", "not_taken_fwd"] = some (.nat (es.count (.b o false true))) ∧
    v.at [o.name, "breakdown", "not_taken_bwd"] = some (.nat (es.count (.b o false false))) ∧
    v.at [o.name, "breakdown", "not_taken"] = some (.nat (es.count (.b o false true) + es.count (.b o false false)))
  all : ∀ o, (rv32c || !dotB o) = true → v.at [o.name, "count"] = some (.nat
    (es.count (.b o true true) + es.count (.b o true false) + (es.count (.b o false true) + es.count (.b o false false))))
  only : ∀ k : String, (v.get k.toList).isSome → k.toList ∈ names rv32c

theorem reads_counts {rv32c : Bool} {p : IProf} {es : List Spec.Entry} (h : Counts p es) (peak : W) :
    ∃ v, readJson (profileText rv32c p peak) = some v ∧ Gives rv32c es v ∧
      v.at ["_max_sp_usage"] = some (.nat peak.toNat) ∧ v.at ["_profiled_instructions"] = some (.nat (p.total rv32c)) := by
  obtain ⟨v, h1, h2, h3, h4, h5, h6⟩ := profile_reads rv32c p peak
  have hg : ∀ o, p.cntG o = es.count (.g o) := fun o => by simp only [IProf.cntG, h.g]; rfl
  simp only [IProf.cntB, h.b, Option.getD_some, Nat.add_sub_cancel_left] at h3
  simp only [hg] at h2
  exact ⟨v, h1, ⟨h2, fun o ho => ⟨(h3 o ho).2.2.1, (h3 o ho).2.2.2.1, (h3 o ho).2.1⟩,
    fun o ho => ⟨(h3 o ho).2.2.2.2.2.1, (h3 o ho).2.2.2.2.2.2, (h3 o ho).2.2.2.2.1⟩, fun o ho => (h3 o ho).1, h6⟩, h4, h5⟩

/-- **C92**: for every sequence of calls, the file gives for each instruction of the build how often it was reported while active, and
for each branch and jump the four outcomes. -/
theorem profile_counts (rv32c on : Bool) (evs : List Ev) (peak : W) : ∃ p v, run rv32c evs (IProf.make.setActive on) = .ok p ∧
    readJson (profileText rv32c p peak) = some v ∧
    Gives rv32c (Spec.logged rv32c on 0#32 evs) v := by
  obtain ⟨p, h1, h2⟩ := run_counts (rv32c := rv32c) evs (make_counts on) rfl
  obtain ⟨v, h3, h4⟩ := reads_counts (rv32c := rv32c) h2 peak
  refine ⟨p, v, h1, h3, ?_⟩
  rw [List.nil_append] at h4
  exact h4.1

end Ama.Prof

namespace Ama
open Prof Ama.Spec.Json
variable {σ : Type} {E : Env σ}

/-- without `RV32C` only words with the two low bits set are reported -/
theorem exec_plain (hc : E.cfg.rv32c = false) {s s' : St σ} (h : exec E s = .ok ((), s')) :
    s'.profLog = s.profLog ∨ IP.copcode s.inst = 3#2 := by
  by_cases h3 : IP.copcode s.inst = 3#2
  · exact .inr h3
  refine .inl ?_
  unfold exec at h
  obtain ⟨i, s1, e1, h⟩ := bind_eq_ok.1 h
  rw [M.get_app] at e1
  injection e1 with e1; injection e1 with e1 e2
  subst e1 e2
  rw [if_pos h3, if_neg (by simp [hc])] at h
  rcases (PLog.illegal (K := fun _ => False) (L := s.profLog) (w := s.inst) s ⟨rfl, rfl⟩ _ _ h).2 with h1 | ⟨r, h1⟩
  · exact h1.1
  · exact h1.name.elim

/-- no compressed instruction is reported without `RV32C` -/
def notC : ProfEv → Bool
  | .c _ | .cBeqz _ | .cBnez _ => false
  | _ => true

theorem step_plain (hp : E.cfg.profilers = true) (hc : E.cfg.rv32c = false) {s s' : St σ} (h : step E s = .ok ((), s'))
    {r : ProfRec} (hr : s'.profLog = r :: s.profLog) : notC r.ev = true := by
  have hl : s'.profLog ≠ s.profLog := by
    rw [hr]; intro e; have := congrArg List.length e; simp at this
  have h0 : PreStep s.profLog s.rf s.pc s.simInst { s with trapped := false } := ⟨rfl, rfl, fun _ => rfl, rfl⟩
  rcases step_split h with he | ⟨q0, q1, e1, e2, e3⟩
  · exact absurd (pre_window _ _ _ h0 he).1 hl
  · have h1 := pre_window _ _ _ h0 e1
    obtain ⟨defer, nt, qa, c1, _, hx⟩ := stepExec_split e2
    have h2 : PreStep s.profLog s.rf s.pc s.simInst (wakeSt nt qa) :=
      have := pre_check _ _ _ _ h1 c1
      this
    subst e3
    rw [(finish_log (E := E) q1).1] at hr hl
    rcases hx with ⟨_, _, qc, f1, f2⟩ | ⟨hq, hw⟩
    · have h3 := prof_fetch _ _ _ h2 f1
      rcases exec_plain hc f2 with h4 | h4
      · exact absurd (h4.trans h3.1) hl
      obtain ⟨h6, -, ⟨h5, -⟩ | ⟨r', h5⟩⟩ := exec_ev hp f2
      · exact absurd (h5.trans h3.1) hl
      have e := h5.log
      rw [h3.1, hr] at e
      injection e with e
      subst e
      have h7 : IP.copcode r.inst = 3#2 := by
        rw [h5.inst, h6, if_neg (fun x => x.1 h4)]
        exact h4
      have h8 := h5.name
      unfold evNamed at h8
      cases he : r.ev <;> try rfl
      all_goals
        rw [he] at h8
        simp only at h8
      · exact absurd h7 h8.1
      · rw [h7] at h8; exact absurd h8.1 (by decide)
      · rw [h7] at h8; exact absurd h8.1 (by decide)
    · exact absurd (by rw [hq]; exact h2.1) hl

theorem simd_plain : ∀ (f7 : BitVec 7) (f3 : BitVec 3), ((Simd.sel f7 f3).bind simdG).all (!dotG ·) = true := by decide +kernel

theorem call_plain {rf : BitVec 5 → W} {r : ProfRec} {k : Call} (h : notC r.ev = true) (hn : evNamed rf r) (hk : callOf r = some k) : k.plain = true := by
  unfold callOf at hk
  cases he : r.ev with
  | alu op => rw [he] at hk; cases hk; cases op <;> rfl
  | alui op => rw [he] at hk; cases hk; cases op <;> rfl
  | load op => rw [he] at hk; cases hk; cases op <;> rfl
  | store op => rw [he] at hk; cases hk; cases op <;> rfl
  | branch op t => rw [he] at hk; cases hk; cases op <;> rfl
  | csr op => rw [he] at hk; cases hk; cases op <;> rfl
  | simd op =>
    rw [he] at hk
    simp only at hk
    obtain ⟨o, e, rfl⟩ := Option.map_eq_some_iff.1 hk
    show (!dotG o) = true
    unfold evNamed at hn
    rw [he] at hn
    have := simd_plain (IP.funct7 r.inst) (IP.funct3 r.inst)
    rw [hn.2, Option.bind_some, e] at this
    exact this
  | c op => rw [he] at h; cases h
  | cBeqz t => rw [he] at h; cases h
  | cBnez t => rw [he] at h; cases h
  | _ => rw [he] at hk; cases hk; rfl

/-- the call made for the record is not one of a compressed instruction -/
def PlainRec (r : ProfRec) : Prop := ∀ k, callOf r = some k → k.plain = true

theorem runN_plain (hp : E.cfg.profilers = true) (hc : E.cfg.rv32c = false) : ∀ (n : Nat) {s s' : St σ},
    runN E n s = .ok ((), s') → (∀ r ∈ s.profLog, PlainRec r) → ∀ r ∈ s'.profLog, PlainRec r
  | 0, s, s', h, h0 => by cases h; exact h0
  | n + 1, s, s', h, h0 => by
    have h' : (if s.running then (do step E; runN E n) else pure () : M σ Unit) s = .ok ((), s') := h
    cases hs : s.running with
    | false => rw [hs] at h'; cases h'; exact h0
    | true =>
      rw [hs, if_pos rfl] at h'
      obtain ⟨⟨⟩, s1, h1, h2⟩ := bind_eq_ok.1 h'
      refine runN_plain hp hc n h2 ?_
      have one : ∀ r, s1.profLog = r :: s.profLog → evNamed s.rf r → ∀ x ∈ s1.profLog, PlainRec x := by
        intro r e en x hx
        rw [e] at hx
        rcases List.mem_cons.1 hx with rfl | hx
        · exact fun k => call_plain (step_plain hp hc h1 e) en
        · exact h0 x hx
      rcases step_log hp h1 with ⟨-, i2 | ⟨r, i2, -, -, en, -⟩⟩ | ⟨-, -, r, i2, -, -, en, -⟩
      · rw [i2]; exact h0
      · exact one r i2 en
      · exact one r i2 en

theorem entries_plain {log : List ProfRec} (h : ∀ r ∈ log, PlainRec r) :
    ∀ e ∈ entriesOf false log, e.plain = true := by
  intro e he
  obtain ⟨r, hr, h1⟩ := List.mem_filterMap.1 he
  split at h1
  · obtain ⟨k, hk, rfl⟩ := Option.map_eq_some_iff.1 h1
    have hp := h r (List.mem_reverse.1 hr) k hk
    cases k with
    | b o t f => exact hp
    | g o =>
      unfold Prof.Spec.entry
      simp only [Bool.false_eq_true, false_and, if_false]
      split
      · decide
      · split
        · decide
        · exact hp
  · cases h1

/-- **C92**: after any run from reset, the file gives the instructions reported by the core while the profiler was active, and the
number of profiled instructions is the number of those reports. -/
theorem run_profile_json (hp : E.cfg.profilers = true) {img : W → BitVec 8} {pp : ProfPc} {hs : σ} {n : Nat} {s' : St σ}
    (h : runN E n (initSt E img pp hs) = .ok ((), s')) (peak : W) :
    ∃ p v, IProf.replay E.cfg.rv32c s'.profLog = .ok p ∧ readJson (profileText E.cfg.rv32c p peak) = some v ∧
      Gives E.cfg.rv32c (entriesOf E.cfg.rv32c s'.profLog) v ∧
      v.at ["_max_sp_usage"] = some (.nat peak.toNat) ∧
      v.at ["_profiled_instructions"] = some (.nat (s'.profLog.countP (·.active))) := by
  obtain ⟨new, k, e1, e2, -⟩ := runN_log hp n h
  have i1 : (initSt E img pp hs).profLog = [] := rfl
  rw [i1, List.append_nil] at e1
  subst e1
  obtain ⟨p, h1, h2⟩ := replay_counts E.cfg.rv32c s'.profLog e2
  obtain ⟨v, h3, h4, h5, h6⟩ := reads_counts h2 peak
  refine ⟨p, v, h1, h3, h4, h5, ?_⟩
  rw [h6, total_eq h2, entries_length _ _ e2]
  cases hc : E.cfg.rv32c with
  | true => exact .inl rfl
  | false => exact .inr (entries_plain (runN_plain hp hc n h (by rw [i1]; simp)))

/-! ## Cases -/
namespace ProfJson.Ex
/-- the numbers at the paths in the report of a run, the profiler active from the second instruction up to the fourth -/
def report (c : Bool) (n : Nat) (ws : List W) (paths : List (List String)) : Option (List (Option (List Char))) :=
  Ama.Ex.obs (runN (Ama.Ex.envP c) n (initSt (Ama.Ex.envP c) (Ama.Ex.image ws)
      ⟨0x80000004#32, 0x8000000c#32, 1#32, false, 0#32, false, 0#64⟩ ())) (fun s =>
    match IProf.replay c s.profLog with
    | .ok p => (readJson (profileText c p 16#32)).map fun v => paths.map fun k => match v.at k with
      | some (.num l) => some l
      | _ => none
    | _ => none) |>.join

/-- addi, beq not taken, jal, csrrs: the branch and the jump are profiled; no line for compressed instructions -/
example : report false 4 [0x00500093#32, 0x00100463#32, 0x0040006f#32, 0x30052073#32]
    [["addi", "count"], ["beq", "count"], ["beq", "breakdown", "not_taken_fwd"], ["jal", "breakdown", "taken"], ["c.nop", "count"],
      ["_max_sp_usage"], ["_profiled_instructions"]] =
    some [some ['0'], some ['1'], some ['1'], some ['1'], none, some ['1', '6'], some ['2']] := by decide +kernel
/-- C.LI, C.BNEZ not taken, C.LUI x0: the third is profiled, as C.NOP -/
example : report true 3 [0xe0194401#32, 0x00016005#32] [["c.nop", "count"], ["c.lui", "count"], ["_profiled_instructions"]] =
    some [some ['1'], some ['0'], some ['1']] := by decide +kernel
end ProfJson.Ex

end Ama
