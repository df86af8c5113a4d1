import Verif.Lemmas.NoUb
import Verif.Lemmas.StepCases
import Verif.Props.Align
import Verif.Props.X0
import Verif.Lemmas.Ex
/-!
# C26: which guest programs can make the simulator execute undefined C++
-/
namespace Ama
open M Spec
variable {σ α : Type} {E : Env σ} {s : St σ}

theorem twp_and {ab : Prop} {m : M σ α} {Q R : α → St σ → Prop} (h : twp ab m Q s)
    (hr : ∀ a q, m s = .ok (a, q) → R a q) : twp ab m (fun a q => Q a q ∧ R a q) s := by
  unfold twp at *
  split
  · rename_i he; rw [he] at h; exact ⟨h, hr _ _ he⟩
  · rename_i he; rw [he] at h; exact h
  · rename_i he; rw [he] at h; exact h
theorem twp_not_ub {m : M σ α} {Q : α → St σ → Prop} (h : twp True m Q s) (k : UB) : m s ≠ .ub k := by
  intro e
  unfold twp at h
  rw [e] at h
  exact h

/-- what the step hazards look at -/
def HzKeep (s q : St σ) : Prop :=
  q.pc = s.pc ∧ q.rf = s.rf ∧ q.ram = s.ram ∧ q.lastInstBranch = s.lastInstBranch ∧ q.instResolved = s.instResolved

theorem HzKeep.hazard {s q : St σ} (h : HzKeep s q) : StepHazard E q ↔ StepHazard E s := by
  obtain ⟨h1, h2, h3, h4, h5⟩ := h
  unfold StepHazard fetched
  rw [h1, h2, h3, h4, h5]

theorem hz_check (d : Bool) {q q' : St σ} {b : Bool} (ht : HzKeep s q)
    (e : checkInterrupts E d q = .ok (b, q')) : q'.trapped = true ∨ HzKeep s q' := by
  have htrap : ∀ c v, Pres (fun q : St σ => q.trapped = true ∨ HzKeep s q)
      (trapInst c v >>= fun _ => M.mod fun q : St σ => { q with lastInstBranch := false }) := by
    intro c v q a q' _ e
    rw [M.bind_ok (trapInst_app _ _ _)] at e
    injection e with e; injection e with _ e
    subst e
    exact .inl rfl
  have : Pres (fun q : St σ => q.trapped = true ∨ HzKeep s q) (checkInterrupts E d) := by
    refine Pres.ite (Pres.pure _) ?_
    refine Pres.bind (mtime_of (fun _ _ h => h) (fun _ _ h => h) _) fun _ => ?_
    refine Pres.bind (Pres.ite (Pres.bind (Pres.get _) fun _ => uartIn_pres (fun _ _ h => h) (fun _ _ h => h) _)
      (Pres.pure _)) fun _ => ?_
    refine Pres.bind (Pres.get _) fun _ => Pres.bind (Pres.get _) fun _ => Pres.bind (Pres.get _) fun _ => ?_
    exact Pres.bind (Pres.ite (htrap _ _) (Pres.ite (htrap _ _) (Pres.pure _))) fun _ => Pres.pure _
  exact this _ _ _ (.inr ht) e

theorem fetched_word (hr : E.cfg.hwModels = true → s.lastInstBranch = true → False) :
    fetched E s = wordAt s.ram s.pc := by
  unfold fetched wordAt
  rw [if_neg fun h => hr h.1 h.2]
  have : toNorm s.pc = BitVec.ofNat 32 (s.pc.toNat % 131072) := by
    apply BitVec.eq_of_toNat_eq
    rw [norm_toNat, BitVec.toNat_ofNat]
    omega
  rw [this]

theorem nh_fetch (hs : Sized s) (he : s.pc.toNat % 2 = 0) (hp : ¬ pastEnd s.pc) :
    twp True (fetch E) (fun _ q => Sized q ∧ q.pc = s.pc ∧ q.rf = s.rf ∧ q.inst = fetched E s) s := by
  unfold fetch
  rw [twp_bind, twp_get, twp_ite]
  split
  · rename_i hc
    rw [twp_mod]
    refine ⟨hs, rfl, rfl, ?_⟩
    have hc : E.cfg.hwModels = true ∧ s.lastInstBranch = true := by simpa using hc
    unfold fetched
    rw [if_pos hc]
  · rename_i hc
    rw [twp_bind, twp_get, twp_bind]
    by_cases hx : checkAccess (toNorm s.pc) false false true E.regions = true
    · unfold pastEnd at hp
      refine twp_rdInst hs.1 ⟨he, by rw [norm_toNat]; unfold memSize; omega, hx⟩ fun q hq _ _ => ?_
      rw [twp_mod]
      refine ⟨?_, congrArg Core.pc hq, congrArg Core.rf hq, ?_⟩
      · have : Sized q := by rw [sized_core, hq]; exact hs
        exact this
      · exact (fetched_word fun h1 h2 => hc (by rw [h1, h2]; rfl)).symm
    · have ho : ¬ (toNorm s.pc).toNat % 2 ≠ 0 := by rw [norm_toNat]; omega
      unfold rdInst
      simp only
      rw [if_neg ho]
      unfold mmRdInst
      rw [twp_bind, twp_abort (guard_abort s (by simpa using hx))]
      trivial

/-- **C26** From any state with devices of the constructed sizes, x0 = 0 and an even pc, a step
with undefined behaviour fetches past the end of memory or executes one of the listed
instructions. -/
theorem step_ub (hs : Sized s) (h0 : s.rf 0#5 = 0#32) (he : s.pc.toNat % 2 = 0) {k : UB}
    (e : step E s = .ub k) : StepHazard E s := by
  by_contra hn
  refine twp_not_ub (Q := fun _ q => Sized q) (m := step E) (s := s) ?_ k e
  unfold step
  rw [twp_bind, twp_mod, twp_bind]
  refine twp_mono (twp_and (fn_profWindow _ hs) fun b q eq => profWindow_frame eq) ?_
  rintro b q ⟨hq, pa, pp, g, hfr, -⟩
  have hk : HzKeep s q := by rw [hfr]; exact ⟨rfl, rfl, rfl, rfl, rfl⟩
  clear hfr
  rw [twp_ite]
  split
  · exact hq
  rw [twp_bind]
  have fin : ∀ q : St σ, Sized q → twp True (do
      mod fun s => { s with simStep := s.simStep + 1#64 }
      let n ← get (·.simStep)
      if n = E.cfg.runSteps then mod fun s => { s with running := false }
      else stepFinish E) (fun _ q => Sized q) q := by
    intro q hq
    rw [twp_bind, twp_mod, twp_bind, twp_get, twp_ite]
    split
    · exact hq
    · exact fn_stepFinish _ hq
  have hpe : ¬ pastEnd s.pc := fun h => hn (.inl h)
  refine twp_mono (Q := fun _ q => Sized q) ?_ fun _ q hq => fin q hq
  -- execute phase
  have main : ∀ (d : Bool), twp True (do
      let noTrapInt ← checkInterrupts E d
      mod fun s => { s with wfiActive := s.wfiActive && !(s.trapped || noTrapInt) }
      let trp ← get (·.trapped)
      let act ← get (·.wfiActive)
      if !trp && (!act || noTrapInt) then do
        fetch E
        exec E
      else pure ()) (fun _ q => Sized q) q := by
    intro d
    rw [twp_bind]
    refine twp_mono (twp_and (fn_checkInterrupts d q hq) fun b q' e => hz_check d hk e) ?_
    rintro nt r ⟨hr, hrk⟩
    rw [twp_bind, twp_mod, twp_bind, twp_get, twp_bind, twp_get, twp_ite]
    split
    · rename_i hc
      simp only [Bool.and_eq_true, Bool.not_eq_true'] at hc
      have hrk : HzKeep s r := by
        rcases hrk with h | h
        · rw [h] at hc; exact nomatch hc.1
        · exact h
      rw [twp_bind]
      have hh : HzKeep s { r with wfiActive := r.wfiActive && !(r.trapped || nt) } := hrk
      have hn' : ¬ StepHazard E { r with wfiActive := r.wfiActive && !(r.trapped || nt) } := fun h => hn (hh.hazard.1 h)
      refine twp_mono (nh_fetch (E := E) (s := { r with wfiActive := r.wfiActive && !(r.trapped || nt) }) hr
        (by rw [hh.1]; exact he) fun h => hn' (.inl h)) ?_
      rintro _ t ⟨ht, h1, h2, h3⟩
      refine nh_exec ht (by rw [h2, hh.2.1]; exact h0) fun h => hn' (.inr ?_)
      rw [h1, h2, h3] at h
      exact h
    · exact hr
  unfold stepExec
  rw [twp_bind, twp_get, twp_bind, twp_ite]
  split
  · exact main false
  · rw [twp_bind, twp_get, twp_bind]
    refine nh_justInst hq (by rw [hk.1]; exact hpe) fun v => ?_
    exact main _

theorem run_ub_aux : ∀ n {s : St σ} {k : UB}, runN E n s = .ub k →
    ∃ i < n, ∃ q, runN E i s = .ok ((), q) ∧ q.running = true ∧ step E q = .ub k
  | 0, s, k, e => nomatch e
  | n + 1, s, k, e => by
    cases hr : s.running with
    | false =>
      have : runN E (n + 1) s = .ok ((), s) := by
        show (get (·.running) >>= _) s = _
        rw [M.bind_ok (show get (·.running) s = .ok (s.running, s) from rfl), hr]
        rfl
      rw [this] at e; exact nomatch e
    | true =>
      have hsucc : ∀ m, runN E (m + 1) s = (step E >>= fun _ => runN E m) s := by
        intro m
        show (get (·.running) >>= _) s = _
        rw [M.bind_ok (show get (·.running) s = .ok (s.running, s) from rfl), hr]
        rfl
      rw [hsucc, bind_app] at e
      cases hs : step E s with
      | ub k' =>
        rw [hs] at e
        cases e
        exact ⟨0, by omega, s, rfl, hr, hs⟩
      | abort => rw [hs] at e; exact nomatch e
      | ok p =>
        obtain ⟨_, t⟩ := p
        rw [hs] at e
        obtain ⟨i, hi, q, h1, h2, h3⟩ := run_ub_aux n e
        refine ⟨i + 1, by omega, q, ?_, h2, h3⟩
        rw [hsucc, bind_app, hs]
        exact h1

/-- **C26** Any run from reset that reaches undefined behaviour, with any program, memory
permissions, UART input and hardware models, is about to execute one of the listed instructions
or to fetch past the end of memory. -/
theorem run_ub (E : Env σ) (image : W → BitVec 8) (pp : ProfPc) (h : σ) (n : Nat) (k : UB)
    (e : runN E n (initSt E image pp h) = .ub k) :
    ∃ i < n, ∃ q, runN E i (initSt E image pp h) = .ok ((), q) ∧ StepHazard E q := by
  obtain ⟨i, hi, q, h1, -, h3⟩ := run_ub_aux n e
  refine ⟨i, hi, q, h1, step_ub ((sized_prims E).runN i _ _ _ (sized_init E image pp h) h1) (x0_zero E image pp h i q h1) ?_ h3⟩
  have := aligned_weaken (pc_aligned E image pp h i q h1)
  simpa [Spec.aligned] using this

theorem pastEnd_four {a : W} (h : Spec.aligned false a) : ¬ pastEnd a := by
  simp only [Spec.aligned, Bool.false_eq_true, if_false] at h
  unfold pastEnd
  omega

/-- **C26** In builds without compressed instructions and without hardware models, on a host where
shifts and signed overflow are as on x86, the only instructions that reach undefined behaviour are
the SIMD ones with a register-pair destination whose rd is x31. -/
theorem only_pair_ub (E : Env σ) (hc : E.cfg.rv32c = false) (hh : E.cfg.hwModels = false) (hst : E.cfg.strict = false)
    (image : W → BitVec 8) (pp : ProfPc) (h : σ) (n : Nat) (k : UB)
    (e : runN E n (initSt E image pp h) = .ub k) :
    E.cfg.simd = true ∧ ∃ i < n, ∃ q, runN E i (initSt E image pp h) = .ok ((), q) ∧
      ∃ (y : X2) (m : W) (rs1 rs2 : BitVec 5), y.match? = some m ∧ fetched E q = xWord m 31#5 rs1 rs2 := by
  obtain ⟨i, hi, q, h1, h2⟩ := run_ub E image pp h n k e
  have ha := pc_aligned E image pp h i q h1
  rw [hc] at ha
  rcases h2 with h2 | h2
  · exact absurd h2 (pastEnd_four ha)
  · cases h2 with
    | pairX31 a b c => exact ⟨a, i, hi, q, h1, _, _, _, _, b, c⟩
    | slliPeek a b c d => exact absurd d (pastEnd_four (aligned_add ha (by decide)))
    | cSlliPeek a b c d => rw [hc] at a; cases a
    | branchFetch a => rw [hh] at a; cases a
    | branchUninit a => rw [hh] at a; cases a
    | shiftReg a => rw [hst] at a; cases a
    | mulReg a => rw [hst] at a; cases a
    | shiftImm a => rw [hst] at a; cases a
    | cShift a => rw [hst] at a; cases a
    | cSlli a => rw [hst] at a; cases a
    | simd1 a => rw [hst] at a; cases a
    | simd2 a => rw [hst] at a; cases a

/-- **C26, for base builds**: RV32IM without the SIMD extension, compressed instructions and
hardware models never reaches undefined behaviour on such a host, whatever the program. The full
claim is false, see the runs below. -/
theorem no_ub_partial (E : Env σ) (hc : E.cfg.rv32c = false) (hh : E.cfg.hwModels = false) (hst : E.cfg.strict = false)
    (hx : E.cfg.simd = false) (image : W → BitVec 8) (pp : ProfPc) (h : σ) (n : Nat) (k : UB) :
    runN E n (initSt E image pp h) ≠ .ub k := fun e => by
  have := (only_pair_ub E hc hh hst image pp h n k e).1
  rw [hx] at this
  cases this

/-! ## The listed instructions really are undefined -/

/-- executing a pair instruction with rd = x31 writes `rf[32]`, whatever the state and operands -/
theorem pair_x31_always (hx : E.cfg.simd = true) (hst : E.cfg.strict = false) {y : X2} {m : W} (hm : y.match? = some m)
    {rs1 rs2 : BitVec 5} (hi : s.inst = xWord m 31#5 rs1 rs2) : exec E s = .ub .outOfBounds := by
  obtain ⟨t1, t2, t3⟩ := table2 hm
  have hw : s.inst = encR (IP.funct7 m) rs2 rs1 (IP.funct3 m) 31#5 0x0b#7 := by
    rw [hi]; conv => lhs; rw [t1]
    exact xWord_enc _ _ _ _ _
  obtain ⟨d1, d2, d3, d4, d5, d6⟩ := decode_R (IP.funct7 m) rs2 rs1 (IP.funct3 m) 31#5 0x0b#7
  rw [← hw] at d1 d2 d3 d4 d5 d6
  have hp : ∀ (v : W × W) (q : St σ), writeRfPair (IP.rd s.inst) v q = .ub .outOfBounds := by
    intro v q
    rw [d2]
    rfl
  have hx2 : ∀ q : St σ, simdExec E s.inst (opOf2 y) q = .ub .outOfBounds := by
    intro q
    have lf : ∀ {r : Res (W × W)} {v : W × W}, r = .ok v → ∀ q : St σ,
        (do let z ← lift r; writeRfPair (IP.rd s.inst) z : M σ Unit) q = .ub .outOfBounds := by
      intro r v hr q
      rw [hr]
      exact hp v q
    unfold simdExec
    rw [rg, M.bind_ok (M.get_app _ _), rg, M.bind_ok (M.get_app _ _), rg, M.bind_ok (M.get_app _ _)]
    have hok : X2.hostOk E.cfg.strict y := hostOk2 hm fun h => by rw [hst] at h; cases h
    cases y with
    | wmul n sg =>
      obtain ⟨v, h1, -⟩ := wmul_lanes t3 (st := E.cfg.strict) (sg := sg) hok (q.rf (IP.rs1 s.inst)) (q.rf (IP.rs2 s.inst))
      exact lf h1 q
    | widen n sg =>
      obtain ⟨v, h1, -⟩ := widen_lanes t3 (st := E.cfg.strict) (sg := sg) hok (q.rf (IP.rs1 s.inst)) (IP.rs2 s.inst)
      exact lf h1 q
    | txp n => exact hp _ q
  have hcop : IP.copcode s.inst = 3#2 := copcode_of _ 0x0b#7 d1 rfl
  unfold exec
  rw [M.bind_ok (M.get_app _ _), if_neg (by rw [hcop]; decide)]
  unfold exec32
  rw [d1]
  show (if E.cfg.simd = true then dCustom E s.inst else eIllegal) s = _
  rw [if_pos hx]
  unfold dCustom
  rw [d6, d3, t2]
  show (simdExec E s.inst (opOf2 y) >>= _) s = _
  rw [bind_app, hx2]

/-- with shift counts of 32 or more undefined (ISO C++), every SRAI is: its whole 12-bit immediate,
which includes the bit that selects SRAI, is used as the count -/
theorem srai_always (hst : E.cfg.strict = true) {imm : BitVec 12} {rs1 rd : BitVec 5} (hb : imm.getLsbD 10 = true)
    (hi : s.inst = encI imm rs1 5#3 rd 0x13#7) : exec E s = .ub .shift := by
  obtain ⟨d1, d2, d3, d4, d5, -, -, d8, -⟩ := decode_I imm rs1 5#3 rd 0x13#7
  rw [← hi] at d1 d2 d3 d4 d5 d8
  have hcop : IP.copcode s.inst = 3#2 := copcode_of _ 0x13#7 d1 rfl
  have hsel : aluImmSel (IP.funct7b5 s.inst) (IP.funct3 s.inst) = some .srai := by
    rw [d8, d3]
    have : imm.extractLsb' 10 1 = 1#1 := by
      apply BitVec.eq_of_getLsbD_eq
      intro i hi
      have : i = 0 := by omega
      subst this
      simpa using hb
    rw [this]; rfl
  have hbig : ¬ (IP.immI s.inst).toNat < 32 := by
    rw [d5]
    intro h
    have h1 : (imm.signExtend 32).getLsbD 10 = true := by rw [BitVec.getLsbD_signExtend]; simp; simpa using hb
    rw [← BitVec.testBit_toNat, Nat.testBit_lt_two_pow (Nat.lt_of_lt_of_le h (by decide))] at h1
    cases h1
  unfold exec
  rw [M.bind_ok (M.get_app _ _), if_neg (by rw [hcop]; decide)]
  unfold exec32
  rw [d1]
  show dAluImm E s.inst s = _
  unfold dAluImm
  rw [hsel]
  show (rg (IP.rs1 s.inst) >>= fun a => lift (aluOp E.cfg.strict .sra a (IP.immI s.inst)) >>= _) s = _
  rw [rg, M.bind_ok (M.get_app _ _), hst, alu_strict]
  simp only [aluUb]
  rw [if_neg hbig]
  rfl

namespace Ex

/-- main memory with words at the given byte offsets -/
def imgAt (l : List (Nat × W)) (a : W) : BitVec 8 :=
  match l.find? fun p => p.1 ≤ a.toNat ∧ a.toNat < p.1 + 4 with
  | some p => (p.2 >>> (8 * (a.toNat - p.1))).setWidth 8
  | none => 0#8
def envIso : Env Unit := { env0 with cfg := { cfg0 with strict := true } }
def envCP : Env Unit := { env0 with cfg := { cfg0 with rv32c := true, profilers := true } }
def envIsoC : Env Unit := { env0 with cfg := { cfg0 with rv32c := true, strict := true } }
/-- static "always taken" predictor -/
def envBt : Env Unit := { env0 with
  cfg := { cfg0 with hwModels := true }, hw := { hw0 with bpPredict := fun pc imm _ h => (pc + imm, h) } }
def envNoB : Env Unit := { env0 with cfg := { cfg0 with hwModels := true, noBp := true } }
/-- the undefined behaviour that ends a run of `n` steps of the program -/
def ubOf (E : Env Unit) (n : Nat) (l : List (Nat × W)) : Option UB :=
  match runN E n (initSt E (imgAt l) pp0 ()) with
  | .ub k => some k
  | _ => none

/-- **C26 is false**: programs that reach undefined behaviour from reset, whatever the compiler
makes of shifts and overflow -/
theorem ub_runs :
    -- TXP16 x31, x1, x2
    ubOf env0 1 [(0, 0x60208f8b#32)] = some .outOfBounds ∧
    -- C.J -2: the next fetch is at the last halfword
    ubOf envCP 2 [(0, 0x0000bffd#32)] = some .outOfBounds ∧
    -- C.J -6; SLLI x1, x1, 1
    ubOf envCP 2 [(0, 0x0000bfed#32), (131066, 0x00109093#32)] = some .outOfBounds ∧
    -- C.J -4; C.SLLI x1, 1
    ubOf envCP 2 [(0, 0x0000bff5#32), (131068, 0x00000086#32)] = some .outOfBounds ∧
    -- BEQ x0, x1, -2, not taken and predicted taken
    ubOf envBt 1 [(0, 0xfe100fe3#32)] = some .outOfBounds ∧
    -- BEQ x0, x1, 8, not taken, no predictor
    ubOf envNoB 1 [(0, 0x00100463#32)] = some .uninit := by
  decide +kernel

/-- and further ones when shift counts out of range and signed overflow are undefined, as in ISO C++ -/
theorem ub_runs_iso :
    -- ADDI x1, x0, 32; SLL x2, x0, x1
    ubOf envIso 2 [(0, 0x02000093#32), (4, 0x00101133#32)] = some .shift ∧
    -- LUI x1, 16; MUL x2, x1, x1
    ubOf envIso 2 [(0, 0x000100b7#32), (4, 0x02108133#32)] = some .signedOverflow ∧
    -- SRAI x1, x1, 0
    ubOf envIso 1 [(0, 0x4000d093#32)] = some .shift ∧
    -- SLLI x1, x1, 33 (reserved)
    ubOf envIso 1 [(0, 0x02109093#32)] = some .shift ∧
    -- C.SRLI x8, 32 (reserved)
    ubOf envIsoC 1 [(0, 0x00009001#32)] = some .shift ∧
    -- C.SLLI x1, 33 (reserved)
    ubOf envIsoC 1 [(0, 0x00001086#32)] = some .shift ∧
    -- ADDI x1, x0, -1; MULH16U x2, x1, x1
    ubOf envIso 2 [(0, 0xfff00093#32), (4, 0x0410d10b#32)] = some .signedOverflow ∧
    -- LUI x1, 0x80008; DOT16 x2, x1, x1
    ubOf envIso 2 [(0, 0x800080b7#32), (4, 0x0810810b#32)] = some .signedOverflow ∧
    -- ADDI x1, x0, -1; DOT16U x2, x1, x1
    ubOf envIso 2 [(0, 0xfff00093#32), (4, 0x0810910b#32)] = some .signedOverflow ∧
    -- ADDI x1, x0, -1; WMUL16U x2, x1, x1
    ubOf envIso 2 [(0, 0xfff00093#32), (4, 0x0610910b#32)] = some .signedOverflow ∧
    -- ADDI x1, x0, -1; WIDEN8 x2, x1, 1
    ubOf envIso 2 [(0, 0xfff00093#32), (4, 0x4010810b#32)] = some .negShift ∧
    -- ADDI x1, x0, -1; WIDEN16U x2, x1, 31
    ubOf envIso 2 [(0, 0xfff00093#32), (4, 0x41f0f10b#32)] = some .negShift := by
  decide +kernel

/-- a run without hazards, for `no_ub_partial` and `step_ub`: six instructions of a build with the
SIMD extension, compressed instructions and profilers -/
example : (fun E : Env Unit => Ex.obs (runN E 6 (initSt E (imgAt [(0, 0x00500093#32), (4, 0x00108133#32), (8, 0x0220e1b3#32),
    (12, 0x00209213#32), (16, 0x0020818b#32), (20, 0x00418133#32)]) pp0 ()))
    (fun s => (s.simInst, s.pc, s.rf 4#5))) envCP = some (6#64, 0x80000018#32, 20#32) := by decide +kernel

end Ex

end Ama
