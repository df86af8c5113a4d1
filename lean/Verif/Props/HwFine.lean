import Verif.Lemmas.HwFine
import Verif.Props.HwReal
/-!
# C87: the hardware models never fail in a run of the core
-/
namespace Ama.HwReal
open Ama.Spec Ama.HwCalls
variable {E : Env (Res Models × List HwCall)} {C : ModelsCfg} {s0 s : St (Res Models × List HwCall)}
  {L : List (St (Res Models × List HwCall) × List HwCall)} {m0 : Models}

/-- a run of a build with these models, which also write down what they are told, from their construction on; main memory is the
whole 128 KiB, the predictor is one that a branch cannot make read an unset prediction (see C48) -/
structure Logged (E : Env (Res Models × List HwCall)) (C : ModelsCfg) (s0 : St (Res Models × List HwCall))
    (L : List (St (Res Models × List HwCall) × List HwCall)) (s : St (Res Models × List HwCall)) (m0 : Models) : Prop where
  hw : E.hw = logged real
  on : E.cfg.hwModels = true
  x0 : s0.rf 0#5 = 0#32
  size : s0.ram.size = 0x20000
  made : Models.make C s0.ram = .ok m0
  start : s0.hw = (.ok m0, [])
  low : C.low = 1 ∨ C.low = 2
  plain : C.bp.plain
  others : C.runAll = false ∨ ∀ d ∈ C.arch, d.plain
  run : HwRun E s0 L s

/-- **C87, all runs.**  Every run from reset is one of those the theorems below are about. -/
theorem logged_total (hh : E.hw = logged real) (on : E.cfg.hwModels = true) {image : W → BitVec 8} {pp : ProfPc}
    (hsz : (initSt E image pp (.ok m0, [])).ram.size = 0x20000)
    (hm : Models.make C (initSt E image pp (.ok m0, [])).ram = .ok m0) (low : C.low = 1 ∨ C.low = 2) (plain : C.bp.plain)
    (others : C.runAll = false ∨ ∀ d ∈ C.arch, d.plain) {n : Nat} (h : runN E n (initSt E image pp (.ok m0, [])) = .ok ((), s)) :
    ∃ L, Logged E C (initSt E image pp (.ok m0, [])) L s m0 := by
  obtain ⟨_, _, _, _, _, hb, _⟩ := make_parts hm
  obtain ⟨L, k⟩ := hwrun_reset on image pp (.ok m0, []) (.inr fun c pc imm f3 n h1 h2 h3 => by
    rw [hh, replay_logged]; exact real_predict_even (make_tame hb) c pc imm f3 n h1 h2 h3) n h
  exact ⟨L, hh, on, rfl, hsz, hm, rfl, low, plain, others, k⟩

/-- the divider and the predictors go through whatever they are told -/
theorem Logged.rest (h : Logged E C s0 L s m0) : ∃ evs b d, Fed E false s0 s s.hw.2 ∧ s.hw.1 = replay real s.hw.2 (.ok m0) ∧
    (∀ B, runWith bpCall s.hw.2 B = Bp.BpIf.run evs B) ∧ runWith bpCall s.hw.2 m0.bp = .ok b ∧ runWith divCall s.hw.2 m0.div = .ok d := by
  obtain ⟨c, evs, h1, _, h3, _, _⟩ := run_models h.on h.x0 h.run false
  have hr := h1.hw
  rw [h.start, h.hw, replay_logged] at hr
  have hc : s.hw.2 = c := by rw [hr]; simp
  rw [← hc] at h1 h3 hr
  obtain ⟨_, _, _, _, _, hb, hd⟩ := make_parts h.made
  have hE : C.div ≠ 0#32 := by
    intro he
    rw [he] at hd
    cases hd
  obtain ⟨d, d', g1, g2, _⟩ := Div.counted_once C.div hE (divEvs s.hw.2)
  rw [hd] at g1
  cases g1
  have hl := h.low
  obtain ⟨hsy, hact, hall⟩ := Bp.make_synced (by omega) hb
  have hothers : ∀ p ∈ m0.bp.all, Fine p := by
    rcases h.others with hra | ho
    · intro p hp
      rw [hra] at hb
      unfold Bp.BpIf.make at hb
      simp only [bind_ok_iff, Bool.false_eq_true, if_false] at hb
      obtain ⟨_, _, _, hn, he⟩ := hb
      cases hn
      rw [← show [] = m0.bp.all from congrArg Bp.BpIf.all (Res.ok.inj he)] at hp
      cases hp
    · intro p hp
      obtain ⟨a, ha, hm⟩ := hall p hp
      exact make_fine h.low hm (ho a ha)
  obtain ⟨b, hbr⟩ := bp_fine evs hsy (make_fine h.low hact h.plain) hothers
  exact ⟨evs, b, d', h1, congrArg Prod.fst hr, h3, by rw [h3]; exact hbr, by rw [div_run]; exact g2⟩

/-- **C87.**  With caches that hold data (verified against memory or not), in every run of the core in which no instruction fetch
crosses a cache line, no store goes to a line fetched before and no lock is released before the first access: no cache, predictor
or divider ever fails — no mismatch is reported, nothing is undefined.  The storage behind the caches is the core's main memory,
and the instruction cache and the data cache give the bytes of main memory for whatever is asked of them next.

Missing: fetches that cross a line and stores to fetched lines, after which the instruction cache is stale or read past a line; early releases
(all witnessed below).  Otherwise for every run (`logged_total`). -/
theorem caches_go_through_partial (h : Logged E C s0 L s m0) (hi : C.ic.func = true) (hd : C.dc.func = true)
    (h1 : FetchInLine s.hw.2) (h2 : NoStoreFetched s.hw.2) (h3 : NoEarlyRelease s.hw.2) : ∃ m, s.hw.1 = .ok m ∧
    m.mmi.mm.ram.bytes = s.ram.bytes ∧
    ∀ (a : W) (n : Nat), n = 1 ∨ n = 2 ∨ n = 4 → a.toNat + n ≤ 0x20000 → a.toNat % 64 + n ≤ 64 →
      (∃ c, m.mmi.ic.rd m.mmi.mm.ram a n = .ok (some (BitVec.ofNat 32 (Spec.le s.ram.bytes a n)), c)) ∧
      ∃ c, m.mmi.mm.dc.rd m.mmi.mm.ram a n = .ok (some (BitVec.ofNat 32 (Spec.le s.ram.bytes a n)), c) := by
  obtain ⟨evs, b, d, hf, hr, _, hb, hdv⟩ := h.rest
  obtain ⟨ic, dc, hic, hdc, hq, _, _⟩ := make_parts h.made
  have hI : MMI.Inv m0.mmi (fun _ => False) := by
    rw [hq]
    have h64 : s0.ram.size % 64 = 0 := by rw [h.size]
    have h32 : s0.ram.size ≤ 2 ^ 32 := by rw [h.size]; decide
    obtain ⟨⟨⟨b, k1⟩, k2, k3, k4, k5, k6⟩⟩ := id (⟨Cache.new_inv hdc hd h64 h32⟩ : PLift _)
    obtain ⟨⟨⟨b', l1⟩, l2, l3, l4, l5, l6⟩⟩ := id (⟨Cache.new_inv hic hi h64 h32⟩ : PLift _)
    obtain ⟨sm, wf⟩ := Cache.apply_wf (o := .roi C.roiStart C.roiSize) (d := s0.ram) k1 k2 rfl
    obtain ⟨sm', wf'⟩ := Cache.apply_wf (o := .roi C.roiStart C.roiSize) (d := s0.ram) l1 l2 rfl
    refine ⟨⟨⟨b, sm.geo k1⟩, wf, k3, k4, k5, k6⟩, ⟨b', sm'.geo l1⟩, wf', l3, l4, ?_⟩
    intro i j _ _ hv
    have : ((ic.setRoi C.roiStart C.roiSize).arr i j).valid = (ic.arr i j).valid := rfl
    rw [show (⟨⟨s0.ram, dc.setRoi C.roiStart C.roiSize⟩, ic.setRoi C.roiStart C.roiSize⟩ : MMI).ic = ic.setRoi C.roiStart C.roiSize from rfl,
      this, Cache.new_arr hic] at hv
    cases hv
  have hz : m0.mmi.mm.ram.size = 0x20000 := by rw [hq]; exact h.size
  have hm0 : m0.mmi.mm.ram.bytes = s0.ram.bytes := by rw [hq]
  obtain ⟨q, F, e1, e2, e3, e4⟩ := func_ok s.hw.2 hI hz (by rw [← h.size]; exact hf.inMain) h1 (.inr h3) (fun pre a v n post he =>
    ⟨id, fun f hf => h2 pre a v n post he f hf⟩)
  have hbytes : q.mm.ram.bytes = s.ram.bytes := by rw [e4, hm0, hf.mem h.size]
  refine ⟨⟨q, b, d⟩, hr.trans (replay_real.2 ⟨e1, hb, hdv⟩), hbytes, fun a n hn ha hal => ?_⟩
  obtain ⟨⟨⟨b, g1⟩, g2, g3, g4, g5, g6⟩, ⟨b', l1⟩, l2, l3, l4, _⟩ := e2
  have k1 := gives g1 g2 g3 g4 g5 g6 hn (by rw [e3]; exact ha) hal
  have k2 := gives l1 l2 l3 l4 g5 g6 hn (by rw [e3]; exact ha) hal
  rw [hbytes] at k1 k2
  exact ⟨k2, k1⟩

/-- **C87.**  With caches that hold tags only: no cache, predictor or divider ever fails in a run in which no lock is released
before the first access.

Missing: early releases.  Otherwise for every run (`logged_total`). -/
theorem tags_go_through_partial (h : Logged E C s0 L s m0) (hi : C.ic.func = false) (hd : C.dc.func = false)
    (h3 : NoEarlyRelease s.hw.2) : ∃ m, s.hw.1 = .ok m ∧ m.mmi.mm.ram.bytes = s.ram.bytes := by
  obtain ⟨evs, b, d, hf, hr, _, hb, hdv⟩ := h.rest
  obtain ⟨ic, dc, hic, hdc, hq, _, _⟩ := make_parts h.made
  have hI : PInv m0.mmi := by
    rw [hq]
    obtain ⟨c1, b, k1⟩ := Cache.new_geo hdc
    obtain ⟨c1', b', l1⟩ := Cache.new_geo hic
    obtain ⟨sm, wf⟩ := Cache.apply_wf (o := .roi C.roiStart C.roiSize) (d := s0.ram) k1 (Cache.new_wf hdc) rfl
    obtain ⟨sm', wf'⟩ := Cache.apply_wf (o := .roi C.roiStart C.roiSize) (d := s0.ram) l1 (Cache.new_wf hic) rfl
    exact ⟨⟨⟨b, sm.geo k1⟩, wf, by rw [← hd, ← c1]; rfl⟩, ⟨⟨b', sm'.geo l1⟩, wf', by rw [← hi, ← c1']; rfl⟩, h.size⟩
  have hm0 : m0.mmi.mm.ram.bytes = s0.ram.bytes := by rw [hq]
  obtain ⟨q, e1, e2, e4⟩ := perf_ok s.hw.2 hI (by rw [← h.size]; exact hf.inMain) (.inr h3)
  exact ⟨⟨q, b, d⟩, hr.trans (replay_real.2 ⟨e1, hb, hdv⟩), by rw [e4, hm0, hf.mem h.size]⟩

/-! ## Runs of the model -/
namespace Ex

def envL : Env (Res Models × List HwCall) where
  cfg := { Ama.Ex.cfg0 with hwModels := true, profilers := true }
  regions := []
  uartIn := []
  stdin := fun _ => none
  hw := logged real
def stL (C : ModelsCfg) (ws : List W) : St (Res Models × List HwCall) :=
  initSt envL (Ama.Ex.image ws) ⟨0x80000000#32, 0#32, 1#32, false, 0#32, false, 0#64⟩ (Models.make C ⟨0x20000, Ama.Ex.image ws⟩, [])

theorem logged_follow (fn : Bool) (is : List Instr) {c : List HwCall}
    (h : (follow envL is (stL (mc fn) (is.map encode))).map (·.hw.2) = some c) :
    ∃ L s m0, Logged envL (mc fn) (stL (mc fn) (is.map encode)) L s m0 ∧ s.hw.2 = c := by
  obtain ⟨m0, hm⟩ := made fn ⟨0x20000, Ama.Ex.image (is.map encode)⟩
  cases e : follow envL is (stL (mc fn) (is.map encode)) with
  | none => rw [e] at h; cases h
  | some s =>
    rw [e] at h
    obtain ⟨L, hL⟩ := follow_run is e .nil
    have hs : (stL (mc fn) (is.map encode)).hw = (.ok m0, []) := Prod.ext hm rfl
    exact ⟨L, s, m0, ⟨rfl, rfl, rfl, rfl, hm, hs, .inr rfl, ⟨trivial, by simp [mc, Bp.shapeD]⟩, .inl rfl, hL⟩, Option.some.inj h⟩

def log1 : List HwCall := [.prof true, .icRd 0#32, .div 0xc0ffee#32 0xc0ffee#32 true, .icRd 4#32, .icRd 8#32,
  .dcWr 0x44#32 0xc0ffee#32 4, .icRd 12#32, .dcRd 0x45#32 1, .icRd 16#32, .div 0xc0ffee#32 0xc0ffee#32 false, .icRd 20#32,
  .ideal 0x80000024#32, .predict 0x80000014#32 16#32 0#3, .icRd 0x24#32, .update 0x80000014#32 0x80000024#32]

/-- no store of the list goes to a line fetched before, `F` being lines fetched already -/
def clear : List Nat → List HwCall → Bool
  | _, [] => true
  | F, .icRd a :: l => clear (a.toNat / 64 :: F) l
  | F, .dcWr a _ _ :: l => !F.contains (a.toNat / 64) && clear F l
  | F, _ :: l => clear F l
theorem clear_spec : ∀ {F : List Nat} {c : List HwCall}, clear F c = true → ∀ pre a v n post, c = pre ++ .dcWr a v n :: post →
    a.toNat / 64 ∉ F ∧ ∀ f, .icRd f ∈ pre → f.toNat / 64 ≠ a.toNat / 64
  | F, [], _, pre, a, v, n, post, he => by cases pre <;> cases he
  | F, x :: c, h, pre, a, v, n, post, he => by
    cases pre with
    | nil =>
      obtain ⟨rfl, rfl⟩ := List.cons.inj he
      have := (Bool.and_eq_true_iff.1 h).1
      exact ⟨by simpa using this, by simp⟩
    | cons y pre =>
      obtain ⟨rfl, rfl⟩ := List.cons.inj he
      cases x with
      | icRd b =>
        obtain ⟨k1, k2⟩ := clear_spec (F := b.toNat / 64 :: F) h pre a v n post rfl
        refine ⟨fun hm => k1 (.tail _ hm), fun f hf hh => ?_⟩
        rcases List.mem_cons.1 hf with e | hf
        · cases e
          exact k1 (hh ▸ .head _)
        · exact k2 f hf hh
      | dcWr b w k =>
        obtain ⟨k1, k2⟩ := clear_spec (F := F) (Bool.and_eq_true_iff.1 h).2 pre a v n post rfl
        exact ⟨k1, fun f hf => k2 f ((List.mem_cons.1 hf).resolve_left (by simp))⟩
      | _ =>
        obtain ⟨k1, k2⟩ := clear_spec (F := F) (c := pre ++ .dcWr a v n :: post) h pre a v n post rfl
        exact ⟨k1, fun f hf => k2 f ((List.mem_cons.1 hf).resolve_left (by simp))⟩

theorem log1_ok : FetchInLine log1 ∧ NoStoreFetched log1 ∧ NoEarlyRelease log1 := by
  refine ⟨?_, fun pre a v n post he => (clear_spec (F := []) (c := log1) (by decide) pre a v n post he).2, ?_⟩
  · intro a ha
    have : ∀ x ∈ log1, (match x with | .icRd a => decide (a.toNat % 64 + 4 ≤ 64) | _ => true) = true := by decide
    exact of_decide_eq_true (this _ ha)
  · intro pre a post he
    have : HwCall.scp a .rel ∈ log1 := by rw [he]; simp
    simp [log1] at this

/-- the hypotheses are met, with data in the caches and without -/
example : ∃ L s m0, Logged envL (mc true) (stL (mc true) (prog.map encode)) L s m0 ∧
    FetchInLine s.hw.2 ∧ NoStoreFetched s.hw.2 ∧ NoEarlyRelease s.hw.2 := by
  obtain ⟨L, s, m0, h, e⟩ := logged_follow true prog (c := log1) (by decide +kernel)
  exact ⟨L, s, m0, h, by rw [e]; exact log1_ok⟩
example : ∃ L s m0, Logged envL (mc false) (stL (mc false) (prog.map encode)) L s m0 ∧ NoEarlyRelease s.hw.2 := by
  obtain ⟨L, s, m0, h, e⟩ := logged_follow false prog (c := log1) (by decide +kernel)
  exact ⟨L, s, m0, h, by rw [e]; exact log1_ok.2.2⟩

def envC : Env (Res Models × List HwCall) := { envL with cfg := { envL.cfg with rv32c := true } }
def stC (C : ModelsCfg) (ws : List W) : St (Res Models × List HwCall) :=
  initSt envC (Ama.Ex.image ws) ⟨0x80000000#32, 0#32, 1#32, false, 0#32, false, 0#64⟩ (Models.make C ⟨0x20000, Ama.Ex.image ws⟩, [])
open HwInd (ob)

/-- **C87 fails for programs that write their own code**: `auipc x1, 0; sw x3, 8(x1); nop` makes the instruction cache disagree with
memory at the third fetch, and the verifying build throws. -/
theorem own_code_throws : ob (runN envL 3 (stL (mc true) [encode (.auipc 1#5 0#20), encode (.store .sw 3#5 1#5 8#12), 0x13#32]))
    (fun s => match s.hw.1 with | .abort => true | _ => false) = some true := by decide +kernel

/-- **C87 fails for compressed code**: thirty-two `c.nop` from the start of a line; the fetch of the last one, in the last two bytes
of the line, reads four bytes of the cache line: past its end. -/
theorem crossing_fetch_undefined : ob (runN envC 32 (stC (mc true) (List.replicate 20 0x00010001#32)))
    (fun s => (s.pc, match s.hw.1 with | .ub u => decide (u = .outOfBounds) | _ => false)) = some (0x80000040#32, true) ∧
    ob (runN envC 31 (stC (mc true) (List.replicate 20 0x00010001#32)))
    (fun s => (s.pc, match s.hw.1 with | .ok _ => true | _ => false)) = some (0x8000003e#32, true) :=
  ⟨by decide +kernel, by decide +kernel⟩

/-- **C87 fails for a release as the first access**: the status it gives was never set. -/
theorem early_release_undefined (fn : Bool) : ob (runN envL 1 (stL (mc fn) [xWord 0xfe00100b#32 1#5 2#5 3#5]))
    (fun s => match s.hw.1 with | .ub u => decide (u = .uninit) | _ => false) = some true := by
  cases fn <;> decide +kernel
end Ex
end Ama.HwReal
