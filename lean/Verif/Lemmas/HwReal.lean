import Verif.Spec.HwReal
import Verif.Props.CacheData
import Verif.Props.CacheStats
import Verif.Props.Divider
import Verif.Props.BpStats
import Verif.Props.BpTables
/-!
# The models of a build with hardware models, one by one
-/
namespace Ama.HwReal
open Ama.Spec

/-- calls on one model -/
def runWith {α : Type} (f : HwCall → α → Res α) : List HwCall → α → Res α
  | [], a => .ok a
  | x :: c, a => do let a ← f x a; runWith f c a

/-- what a call does to the divider -/
def divCall : HwCall → Div.Divider → Res Div.Divider
  | .div a b u, d => Div.eval d ⟨a, b, u⟩
  | .prof on, d => .ok (Div.profiling d on)
  | _, d => .ok d
/-- what a call does to the predictors -/
def bpCall : HwCall → Bp.BpIf → Res Bp.BpIf
  | .ideal n, b => .ok (b.ideal n)
  | .predict pc imm f3, b => do let r ← b.predict pc imm f3; .ok r.2
  | .update pc n, b => b.update pc n
  | .prof on, b => .ok (b.profiling on)
  | _, b => .ok b
/-- what a call does to memory and caches -/
def mmiCall : HwCall → MMI → Res MMI
  | .icRd a, q => q.step (.fetch a)
  | .dcRd a n, q => q.step (.data (.rd a n))
  | .dcWr a v n, q => q.step (.data (.wr a v n))
  | .scp a .lcl, q => q.step (.data (.lcl a))
  | .scp a .rel, q => q.step (.data (.rel a))
  | .prof on, q => .ok ⟨{ q.mm with dc := q.mm.dc.profiling on }, q.ic.profiling on⟩
  | _, q => .ok q

theorem scp_step (q : MMI) (a : W) (k : Simd.ScpMode) : mmiCall (.scp a k) q =
    (do let r ← q.mm.scp a k; .ok { q with mm := r.2 }) := by
  cases k
  · simp only [mmiCall, MMI.step, MM.step]
    cases q.mm.scp a .lcl <;> rfl
  · simp only [mmiCall, MMI.step, MM.step]
    cases q.mm.scp a .rel <;> rfl

/-- a call acts on the three models separately -/
theorem call_real (x : HwCall) (m : Models) : x.run real (.ok m) = (do
    let q ← mmiCall x m.mmi; let b ← bpCall x m.bp; let d ← divCall x m.div; .ok ⟨q, b, d⟩) := by
  cases x with
  | icRd a =>
    show Models.icRd a m = _
    unfold Models.icRd
    rfl
  | dcRd a n =>
    show Models.dcRd a n m = _
    rfl
  | dcWr a v n =>
    show Models.dcWr a v n m = _
    rfl
  | scp a k =>
    rw [scp_step]
    show (match Models.scp a k m with | .ok (b, m) => (b, Res.ok m) | .ub u => (false, .ub u) | .abort => (false, .abort)).2 = _
    unfold Models.scp
    rcases m.mmi.mm.scp a k with ⟨_, _⟩ | _ | _ <;> rfl
  | ideal n => rfl
  | predict pc imm f3 =>
    show (match Models.bpPredict pc imm f3 m with | .ok (b, m) => (b, Res.ok m) | .ub u => (0#32, .ub u) | .abort => (0#32, .abort)).2 = _
    simp only [Models.bpPredict, mmiCall, bpCall, divCall]
    cases m.bp.predict pc imm f3 <;> rfl
  | update pc n =>
    show Models.bpUpdate pc n m = _
    simp only [Models.bpUpdate, mmiCall, bpCall, divCall]
    cases m.bp.update pc n <;> rfl
  | div a b u =>
    show Models.divEval a b u m = _
    simp only [Models.divEval, mmiCall, bpCall, divCall]
    cases Div.eval m.div ⟨a, b, u⟩ <;> rfl
  | prof on => rfl

theorem call_ub (x : HwCall) (k : UB) : x.run real (.ub k) = .ub k := by cases x <;> rfl
theorem call_abort (x : HwCall) : x.run real .abort = .abort := by cases x <;> rfl
theorem replay_ub (k : UB) : ∀ c, replay real c (.ub k) = .ub k
  | [] => rfl
  | x :: c => by show replay real c (x.run real _) = _; rw [call_ub, replay_ub]
theorem replay_abort : ∀ c, replay real c .abort = .abort
  | [] => rfl
  | x :: c => by show replay real c (x.run real _) = _; rw [call_abort, replay_abort]

theorem bind_ok_iff {α β : Type} {x : Res α} {f : α → Res β} {b : β} : (x >>= f) = .ok b ↔ ∃ a, x = .ok a ∧ f a = .ok b := by
  cases x with
  | ok a => simp only [Res.bind_ok, Res.ok.injEq, exists_eq_left']
  | ub k => simp
  | abort => simp

/-- the run of all models goes through exactly when the run of each does -/
theorem replay_real : ∀ {c : List HwCall} {m m' : Models}, replay real c (.ok m) = .ok m' ↔
    runWith mmiCall c m.mmi = .ok m'.mmi ∧ runWith bpCall c m.bp = .ok m'.bp ∧ runWith divCall c m.div = .ok m'.div
  | [], m, m' => by
    cases m; cases m'
    simp [replay, runWith]
  | x :: c, m, m' => by
    show replay real c (x.run real _) = _ ↔ _
    rw [call_real]
    simp only [runWith, bind_ok_iff]
    constructor
    · intro h
      rcases hq : mmiCall x m.mmi with q | _ | _
      · rcases hb : bpCall x m.bp with b | _ | _
        · rcases hd : divCall x m.div with d | _ | _
          · rw [hq, hb, hd] at h
            obtain ⟨h1, h2, h3⟩ := replay_real.1 h
            exact ⟨⟨q, rfl, h1⟩, ⟨b, rfl, h2⟩, ⟨d, rfl, h3⟩⟩
          · rw [hq, hb, hd] at h; exact absurd ((replay_ub _ _).symm.trans h) (by simp)
          · rw [hq, hb, hd] at h; exact absurd ((replay_abort _).symm.trans h) (by simp)
        · rw [hq, hb] at h; exact absurd ((replay_ub _ _).symm.trans h) (by simp)
        · rw [hq, hb] at h; exact absurd ((replay_abort _).symm.trans h) (by simp)
      · rw [hq] at h; exact absurd ((replay_ub _ _).symm.trans h) (by simp)
      · rw [hq] at h; exact absurd ((replay_abort _).symm.trans h) (by simp)
    · rintro ⟨⟨q, hq, h1⟩, ⟨b, hb, h2⟩, ⟨d, hd, h3⟩⟩
      rw [hq, hb, hd]
      exact replay_real.2 ⟨h1, h2, h3⟩

theorem runWith_append {α : Type} (f : HwCall → α → Res α) : ∀ (c d : List HwCall) (a : α),
    runWith f (c ++ d) a = (runWith f c a >>= runWith f d)
  | [], _, _ => rfl
  | x :: c, d, a => by
    simp only [List.cons_append, runWith]
    rcases f x a with b | _ | _
    · exact runWith_append f c d b
    · rfl
    · rfl

/-! ## Divider -/

/-- what the divider is told -/
def divEvs : List HwCall → List Div.Ev
  | [] => []
  | .div a b u :: c => .op ⟨a, b, u⟩ :: divEvs c
  | .prof on :: c => .prof on :: divEvs c
  | _ :: c => divEvs c
/-- divisions, each with whether statistics are on -/
def divTag : Bool → List Div.Ev → List (Bool × Div.Op)
  | _, [] => []
  | _, .prof on :: t => divTag on t
  | b, .op o :: t => (b, o) :: divTag b t

theorem div_run : ∀ (c : List HwCall) (d : Div.Divider), runWith divCall c d = Div.run (divEvs c) d
  | [], _ => rfl
  | x :: c, d => by
    have ih := div_run c
    cases x <;> simp only [runWith, divCall, divEvs, Div.run, Res.bind_ok, ih]
theorem div_seen : ∀ (c : List HwCall) (b : Bool),
    divTag b (divEvs c) = (seen b c).filterMap (fun x => x.2.divOp.map (x.1, ·))
  | [], _ => rfl
  | x :: c, b => by
    have ih := div_seen c
    cases x <;> simp [divEvs, divTag, seen, List.filterMap_cons, HwCall.divOp, ih]
theorem div_prof : ∀ (es : List Div.Ev) (b : Bool), Div.profiledOps b es = (divTag b es).countP (·.1)
  | [], _ => rfl
  | .prof on :: t, _ => div_prof t on
  | .op o :: t, b => by
    cases b <;> simp [Div.profiledOps, divTag, div_prof t, List.countP_cons] <;> omega

/-! ## Data cache -/

/-- what the data cache is asked -/
def dcOps : List HwCall → List Cache.Op
  | [] => []
  | .dcRd a n :: c => .rd a n :: dcOps c
  | .dcWr a v n :: c => .wr a v n :: dcOps c
  | .scp a .lcl :: c => .lcl a :: dcOps c
  | .scp a .rel :: c => .rel a :: dcOps c
  | .prof on :: c => .prof on :: dcOps c
  | _ :: c => dcOps c

theorem mm_dc {m m' : MM} {o : Cache.Op} (h : m.step o = .ok m') : ∃ d, o.apply m.dc d = .ok m'.dc := by
  cases o with
  | rd a n =>
    simp only [MM.step, bind_ok_iff] at h
    obtain ⟨r, h, e⟩ := h
    simp only [Res.ok.injEq] at e
    subst e
    unfold MM.rd at h
    simp only [bind_ok_iff] at h
    obtain ⟨w, _, r', h1, h⟩ := h
    have : r.2 = { m with dc := r'.2 } := by
      split at h
      · split at h
        · cases h
        · split at h
          · cases h
          · cases h; rfl
      · cases h; rfl
    refine ⟨m.ram, ?_⟩
    simp only [Cache.Op.apply, h1, Res.bind_ok, this]
  | wr a v n =>
    simp only [MM.step, MM.wr, bind_ok_iff] at h
    obtain ⟨d, _, r, h1, h⟩ := h
    cases h
    exact ⟨d, h1⟩
  | lcl a =>
    simp only [MM.step, MM.scp, bind_ok_iff] at h
    obtain ⟨r, ⟨r', h1, h⟩, e⟩ := h
    cases h; cases e
    exact ⟨m.ram, by simp only [Cache.Op.apply, h1, Res.bind_ok]⟩
  | rel a =>
    simp only [MM.step, MM.scp, bind_ok_iff] at h
    obtain ⟨r, ⟨r', h1, h⟩, e⟩ := h
    cases h; cases e
    exact ⟨m.ram, by simp only [Cache.Op.apply, h1, Res.bind_ok]⟩
  | prof b => cases h; exact ⟨m.ram, rfl⟩
  | roi s z => cases h; exact ⟨m.ram, rfl⟩

theorem fetch_mm {q q' : MMI} {a : W} (h : q.step (.fetch a) = .ok q') : q'.mm = q.mm := by
  unfold MMI.step MMI.rdInst at h
  simp only [bind_ok_iff] at h
  obtain ⟨r, ⟨w, _, r', h1, h⟩, e⟩ := h
  cases e
  split at h
  · split at h
    · cases h
    · split at h
      · cases h
      · cases h; rfl
  · cases h; rfl

theorem dc_run : ∀ {c : List HwCall} {q q' : MMI}, runWith mmiCall c q = .ok q' →
    ∃ tr, q.mm.dc.runOps tr = .ok q'.mm.dc ∧ tr.map (·.2) = dcOps c
  | [], q, q', h => by cases h; exact ⟨[], rfl, rfl⟩
  | x :: c, q, q', h => by
    simp only [runWith, bind_ok_iff] at h
    obtain ⟨q1, h1, h2⟩ := h
    obtain ⟨tr, k1, k2⟩ := dc_run h2
    have data : ∀ o, q.step (.data o) = .ok q1 → ∃ d, o.apply q.mm.dc d = .ok q1.mm.dc := by
      intro o ho
      simp only [MMI.step, bind_ok_iff] at ho
      obtain ⟨mm, hm, e⟩ := ho
      cases e
      exact mm_dc hm
    have one : ∀ o, (∃ d, o.apply q.mm.dc d = .ok q1.mm.dc) → dcOps (x :: c) = o :: dcOps c →
        ∃ tr, q.mm.dc.runOps tr = .ok q'.mm.dc ∧ tr.map (·.2) = dcOps (x :: c) := by
      rintro o ⟨d, hd⟩ e
      refine ⟨(d, o) :: tr, ?_, by rw [e, ← k2]; rfl⟩
      simp only [Cache.runOps, hd, Res.bind_ok, k1]
    have none : q1.mm.dc = q.mm.dc → dcOps (x :: c) = dcOps c →
        ∃ tr, q.mm.dc.runOps tr = .ok q'.mm.dc ∧ tr.map (·.2) = dcOps (x :: c) := by
      intro e1 e2
      exact ⟨tr, by rw [← e1]; exact k1, by rw [e2]; exact k2⟩
    cases x with
    | icRd a => exact none (by rw [fetch_mm h1]) rfl
    | dcRd a n => exact one _ (data _ h1) rfl
    | dcWr a v n => exact one _ (data _ h1) rfl
    | scp a k =>
      cases k
      · exact one _ (data _ h1) rfl
      · exact one _ (data _ h1) rfl
    | ideal n => cases h1; exact none rfl rfl
    | predict pc imm f3 => cases h1; exact none rfl rfl
    | update pc n => cases h1; exact none rfl rfl
    | div a b u => cases h1; exact none rfl rfl
    | prof on => cases h1; exact one (.prof on) ⟨q.mm.ram, rfl⟩ rfl

/-- counted requests, each with whether statistics are on -/
def dcTag : Bool → List Cache.Op → List (Bool × Cache.Op)
  | _, [] => []
  | b, o :: t => (if o.lookup then [(b, o)] else []) ++ dcTag (Cache.onAfter b o) t

theorem trace_tag : ∀ {tr : List (Dev × Cache.Op)} {c c' : Cache} (b : Bool), c.runOps tr = .ok c' →
    (Cache.trace c b tr).map (fun e => (e.on, e.op)) = dcTag b (tr.map (·.2))
  | [], _, _, _, _ => rfl
  | (d, o) :: t, c, c', b, h => by
    simp only [Cache.runOps, bind_ok_iff] at h
    obtain ⟨c1, h1, h2⟩ := h
    unfold Cache.trace
    rw [h1]
    simp only [List.map_append, List.map_cons, dcTag, trace_tag _ h2]
    split <;> rfl

theorem dc_seen : ∀ (c : List HwCall) (b : Bool),
    dcTag b (dcOps c) = (seen b c).filterMap (fun x => x.2.dataOp.map (x.1, ·))
  | [], _ => rfl
  | x :: c, b => by
    have ih := dc_seen c
    cases x with
    | scp a k => cases k <;> simp [dcOps, dcTag, seen, List.filterMap_cons, HwCall.dataOp, ih, Cache.Op.lookup, Cache.onAfter]
    | _ => simp [dcOps, dcTag, seen, List.filterMap_cons, HwCall.dataOp, ih, Cache.Op.lookup, Cache.onAfter]

/-! ## Predictors -/

/-- calls that are not about the predictors -/
def bpFree : HwCall → Bool
  | .ideal _ | .predict _ _ _ | .update _ _ | .prof _ => false
  | _ => true
/-- switches as events of the predictors -/
def switchEvs : List HwCall → List Bp.Ev
  | [] => []
  | .prof on :: c => .prof on :: switchEvs c
  | _ :: c => switchEvs c
/-- branches, each with whether statistics are on -/
def bpTag : Bool → List Bp.Ev → List (Bool × Bp.Br)
  | _, [] => []
  | _, .prof on :: t => bpTag on t
  | b, .br e :: t => (b, e) :: bpTag b t

theorem bp_own : ∀ (c : List HwCall) (b : Bp.BpIf), runWith bpCall c b = runWith bpCall (own c) b
  | [], _ => rfl
  | x :: c, b => by
    have ih := bp_own c
    cases x <;> simp only [own, List.filter_cons, HwCall.fetch, Bool.not_false, Bool.not_true, if_true, runWith, bpCall, ih] <;> rfl
theorem bp_free : ∀ {c : List HwCall} (b : Bp.BpIf), (∀ x ∈ c, bpFree x = true) → runWith bpCall c b = .ok b
  | [], _, _ => rfl
  | x :: c, b, h => by
    have h1 := h x (.head _)
    have ih := bp_free (c := c) b fun y hy => h y (.tail _ hy)
    cases x <;> simp only [bpFree, Bool.false_eq_true] at h1 <;> simp only [runWith, bpCall, Res.bind_ok, ih]
theorem bp_switch : ∀ {c : List HwCall} (b : Bp.BpIf), (∀ x ∈ c, x.switch = true) →
    runWith bpCall c b = Bp.BpIf.run (switchEvs c) b
  | [], _, _ => rfl
  | x :: c, b, h => by
    have h1 := h x (.head _)
    have ih := fun b => bp_switch (c := c) b fun y hy => h y (.tail _ hy)
    cases x <;> simp only [HwCall.switch, Bool.false_eq_true] at h1
    simp only [runWith, bpCall, Res.bind_ok, ih, switchEvs, Bp.BpIf.run]
theorem ifRun_append : ∀ (x y : List Bp.Ev) (b : Bp.BpIf), Bp.BpIf.run (x ++ y) b = (Bp.BpIf.run x b >>= Bp.BpIf.run y)
  | [], _, _ => rfl
  | .br e :: t, y, b => by
    simp only [List.cons_append, Bp.BpIf.run]
    rcases b.branch e with r | _ | _
    · exact ifRun_append t y _
    · rfl
    · rfl
  | .prof on :: t, y, b => ifRun_append t y _
theorem bp_branch (pc imm n : W) (f3 : BitVec 3) (b : Bp.BpIf) :
    runWith bpCall [.ideal n, .predict pc imm f3, .update pc n] b = Bp.BpIf.run [.br ⟨pc, imm, f3, n⟩] b := by
  simp only [runWith, bpCall, Bp.BpIf.run, Bp.BpIf.branch, Res.bind_ok]
  rcases (b.ideal n).predict pc imm f3 with r | _ | _
  · simp only [Res.bind_ok]
    rcases r.2.update pc n with _ | _ | _ <;> rfl
  · rfl
  · rfl

theorem dataCalls_free (rf : BitVec 5 → W) (i : Instr) : ∀ x ∈ dataCalls rf i, bpFree x = true := by
  intro x hx
  unfold dataCalls at hx
  split at hx
  · split at hx
    · cases List.mem_singleton.1 hx; rfl
    · cases hx
  · split at hx
    · cases List.mem_singleton.1 hx; rfl
    · cases hx
  · cases hx
theorem divCalls_free (rf : BitVec 5 → W) (i : Instr) : ∀ x ∈ divCalls rf i, bpFree x = true := by
  intro x hx
  unfold divCalls at hx
  split at hx
  all_goals first
    | (cases List.mem_singleton.1 hx; rfl)
    | cases hx
theorem branchOf_free {l : List HwCall} (h : ∀ x ∈ l, bpFree x = true) : branchOf l = [] := by
  cases l with
  | nil => rfl
  | cons x l => have := h x (.head _); cases x <;> simp [bpFree] at this <;> rfl

/-- the predictors see one branch, or nothing -/
theorem calls_branch {rf : BitVec 5 → W} {pc next w : W} {l : List HwCall} (h : HwCalls rf pc next w l) (b : Bp.BpIf) :
    runWith bpCall l b = Bp.BpIf.run ((branchOf l).map .br) b := by
  have hf : (∀ x ∈ l, bpFree x = true) → runWith bpCall l b = Bp.BpIf.run ((branchOf l).map .br) b := by
    intro hl
    rw [bp_free b hl, branchOf_free hl]; rfl
  cases h with
  | base i =>
    cases hb : bpCalls pc next i with
    | nil =>
      rw [hb] at hf
      exact hf fun x hx => (List.mem_append.1 hx).elim (dataCalls_free rf i x) (divCalls_free rf i x)
    | cons y t =>
      cases i with
      | branch op r1 r2 off =>
        rw [← hb]
        exact bp_branch _ _ _ _ b
      | _ => cases hb
  | comp i => exact hf (dataCalls_free rf _)
  | other => exact hf (by simp)
  | csr => exact hf (by simp)
  | x1 => exact hf (by simp)
  | x2 => exact hf (by simp)
  | lcl => exact hf (by simp [bpFree])
  | rel => exact hf (by simp [bpFree])

theorem bad_branch {pc h w : W} {l : List HwCall} (hb : BadBranch pc h w l) (b : Bp.BpIf) :
    runWith bpCall l b = Bp.BpIf.run ((branchOf l).map .br) b := by
  cases hb
  exact bp_branch _ _ _ _ b

/-- whether statistics are on after some events -/
def evFlag : Bool → List Bp.Ev → Bool
  | b, [] => b
  | _, .prof on :: t => evFlag on t
  | b, .br _ :: t => evFlag b t
theorem bpTag_append (b : Bool) : ∀ (x y : List Bp.Ev), bpTag b (x ++ y) = bpTag b x ++ bpTag (evFlag b x) y
  | [], _ => rfl
  | .br e :: t, y => by simp only [List.cons_append, bpTag, bpTag_append b t y, evFlag]
  | .prof on :: t, y => by simp only [List.cons_append, bpTag, bpTag_append on t y, evFlag]
theorem evFlag_append (b : Bool) : ∀ (x y : List Bp.Ev), evFlag b (x ++ y) = evFlag (evFlag b x) y
  | [], _ => rfl
  | .br e :: t, y => by simp only [List.cons_append, evFlag_append b t y, evFlag]
  | .prof on :: t, y => by simp only [List.cons_append, evFlag_append on t y, evFlag]
theorem evFlag_switch (b : Bool) : ∀ (p : List HwCall), evFlag b (switchEvs p) = flagAfter b p
  | [] => rfl
  | x :: c => by cases x <;> exact evFlag_switch _ c
theorem evFlag_br (b : Bool) : ∀ (l : List Bp.Br), evFlag b (l.map .br) = b
  | [] => rfl
  | _ :: l => evFlag_br b l
/-- switches are no branches -/
theorem bpTag_switch (b : Bool) : ∀ (p : List HwCall) (y : List Bp.Ev), bpTag b (switchEvs p ++ y) = bpTag (flagAfter b p) y
  | [], _ => rfl
  | x :: c, y => by cases x <;> exact bpTag_switch _ c y
theorem bpTag_br (b : Bool) : ∀ (l : List Bp.Br), bpTag b (l.map .br) = l.map (b, ·)
  | [] => rfl
  | e :: l => by simp only [List.map_cons, bpTag, bpTag_br b l]
theorem profiled_tag : ∀ (es : List Bp.Ev) (b : Bool), Bp.profiled b es = ((bpTag b es).filter (·.1)).map (·.2)
  | [], _ => rfl
  | .prof on :: t, _ => profiled_tag t on
  | .br e :: t, b => by cases b <;> simp [Bp.profiled, bpTag, profiled_tag t]

end Ama.HwReal
