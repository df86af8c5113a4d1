import Verif.Lemmas.ProfRf
import Verif.Lemmas.Ex
import Verif.Props.ProfOne
/-!
# C72, C73: the register file profiler
-/
namespace Ama.ProfRf
open M Spec Prof
variable {σ : Type} {E : Env σ} {s s' s0 : St σ}

/-- instructions counted differently: SIMD shifts and VINS, and the hint C.LUI x0 -/
def MisCounted (w : W) : Prop :=
  (∃ x m rd rs1 rs2, X1.match? x = some m ∧ w = xWord m rd rs1 rs2 ∧
    ((∃ n, x = .slli n ∨ x = .srli n ∨ x = .srai n) ∨ ∃ n, x = .vins n)) ∨
  ∃ imm, w = encodeC (.lui 0#5 imm)

theorem uses_eq {rf : BitVec 5 → W} {r : ProfRec} (h : evNamed rf r) {l : List Operand} (hl : Operands r.inst l)
    (hx : ¬ MisCounted r.inst) : usesOf r = calls l := by
  generalize hw : r.inst = w at hl hx
  cases hl with
  | base i => exact (uses_base h i hw).1
  | comp i hl => exact (uses_comp h i hl hw fun imm e => hx (.inr ⟨imm, by rw [e]⟩)).1
  | csrReg a rs1 rd f3 hf =>
    rw [uses_csr h (by rcases hf with rfl | rfl | rfl <;> decide) hw, if_pos hf]
    rfl
  | csrImm a u rd f3 hf =>
    rw [uses_csr h (by rcases hf with rfl | rfl | rfl <;> decide) hw,
      if_neg (by rcases hf with rfl | rfl | rfl <;> decide)]
    rfl
  | x1 x m rd rs1 rs2 hm =>
    rw [(uses_x1 h hm hw).1]
    have := fun hy => hx (.inl ⟨x, m, rd, rs1, rs2, hm, rfl, hy⟩)
    cases x
    case slli n => exact (this (.inl ⟨n, .inl rfl⟩)).elim
    case srli n => exact (this (.inl ⟨n, .inr (.inl rfl)⟩)).elim
    case srai n => exact (this (.inl ⟨n, .inr (.inr rfl)⟩)).elim
    case vins n => exact (this (.inr ⟨n, rfl⟩)).elim
    all_goals rfl
  | x2 x m rd rs1 rs2 hm => exact (uses_x2 h hm hw).1
  | scp rel rd rs1 rs2 => exact uses_scp h rel hw

/-! ## C72: register use counters -/

/-- **C72**, one step, all instructions but `MisCounted` ones.  A retired instruction adds one to the counter of each of
its register operands in each role, if profiling is active, and changes no other counter.  The counters are always
within the table.  Missing: SIMD shifts, VINS and the C.LUI hint (see the witnesses below). -/
theorem usage_step_partial (hp : E.cfg.profilers = true) (h : step E s = .ok ((), s')) (hr : s'.simInst ≠ s.simInst)
    {l : List Operand} (hl : Operands s'.inst l) (hx : ¬ MisCounted s'.inst) {u : Usage} (hu : usageOf s.profLog = .ok u) :
    ∃ u', usageOf s'.profLog = .ok u' ∧
      ∀ r k, u' r (use k) = u r (use k) + if s'.profActive then l.count (k, r) else 0 := by
  rcases step_log hp h with ⟨h1, -⟩ | ⟨-, -, r, h1, h2, h3, h4, -⟩
  · exact absurd h1 hr
  · rw [h1]
    unfold usageOf
    rw [hu, h3]
    cases s'.profActive with
    | false => exact ⟨u, rfl, fun _ _ => rfl⟩
    | true =>
      obtain ⟨u', e1, e2⟩ := logUses_ok (step_log_lt hp h h1) u
      refine ⟨u', e1, fun r k => ?_⟩
      rw [e2, uses_eq h4 (h2 ▸ hl) (h2 ▸ hx), calls_count]
      rfl
/-- **C72.** A step never writes outside the table and never lowers a counter; one that retires nothing changes the
counters only if it traps or ends the run. -/
theorem usage_step_any (hp : E.cfg.profilers = true) (h : step E s = .ok ((), s')) {u : Usage}
    (hu : usageOf s.profLog = .ok u) : ∃ u', usageOf s'.profLog = .ok u' ∧ (∀ r k, u r k ≤ u' r k) ∧
      (s'.simInst = s.simInst → s'.trapped = false → s'.running = true → u' = u) := by
  have hk : ∀ r, s'.profLog = r :: s.profLog → ∃ u', usageOf s'.profLog = .ok u' ∧ (∀ r k, u r k ≤ u' r k) := by
    intro r hr
    rw [hr]
    unfold usageOf
    rw [hu]
    cases r.active with
    | false => exact ⟨u, rfl, fun _ _ => Nat.le_refl _⟩
    | true =>
      obtain ⟨u', e1, e2⟩ := logUses_ok (step_log_lt hp h hr) u
      exact ⟨u', e1, fun r k => by rw [e2]; omega⟩
  rcases step_log hp h with ⟨-, h1 | ⟨r, h1, -, -, -, h5⟩⟩ | ⟨hs, -, r, h1, -⟩
  · exact ⟨u, by rw [h1]; exact hu, fun _ _ => Nat.le_refl _, fun _ _ _ => rfl⟩
  · obtain ⟨u', e1, e2⟩ := hk r h1
    exact ⟨u', e1, e2, fun _ a b => by rcases h5 with h5 | h5 <;> simp_all⟩
  · obtain ⟨u', e1, e2⟩ := hk r h1
    refine ⟨u', e1, e2, fun e => ?_⟩
    rw [e] at hs
    exact absurd hs (by intro e; have := congrArg BitVec.toNat e; rw [BitVec.toNat_add] at this; simp at this; omega)

/-- a run from `s0`, with the steps that retired an instruction (newest first) and the register trace.  In a quiet run
(`q = true`) no step traps or ends the run without retiring an instruction. -/
inductive Run (E : Env σ) (q : Bool) (t0 : Tr) (s0 : St σ) : List (St σ × St σ) → Tr → St σ → Prop
  | nil : Run E q t0 s0 [] t0 s0
  | retired {L t s s'} : Run E q t0 s0 L t s → step E s = .ok ((), s') → s'.simInst ≠ s.simInst →
      Run E q t0 s0 ((s, s') :: L) (t.after E s s') s'
  | other {L t s s'} : Run E q t0 s0 L t s → step E s = .ok ((), s') → s'.simInst = s.simInst →
      (q = true → s'.trapped = false ∧ s'.running = true) → Run E q t0 s0 L (t.after E s s') s'

/-- the operands of the instructions retired while profiling is active that are `r` in the role `k` -/
def uses (ops : W → List Operand) (L : List (St σ × St σ)) (k : Role) (r : Nat) : Nat :=
  (L.map fun p => if p.2.profActive then (ops p.2.inst).count (k, r) else 0).sum

/-- **C72**, whole runs of `Operands` instructions that are not `MisCounted`: at every point of every run the table is
well-defined, and counts at least the register operands of the instructions retired while profiling is active; in a quiet
run it counts exactly those.  Missing: see `usage_step_partial`; steps that trap (`usage_trap_counted`). -/
theorem usage_run_partial (hp : E.cfg.profilers = true) {q : Bool} {t0 t : Tr} {L : List (St σ × St σ)}
    (h : Run E q t0 s0 L t s) (h0 : s0.profLog = []) (ops : W → List Operand)
    (hL : ∀ p ∈ L, Operands p.2.inst (ops p.2.inst) ∧ ¬ MisCounted p.2.inst) :
    ∃ u, usageOf s.profLog = .ok u ∧ (∀ r k, uses ops L k r ≤ u r (use k)) ∧
      (q = true → ∀ r k, u r (use k) = uses ops L k r) := by
  induction h with
  | nil => exact ⟨fun _ _ => 0, by rw [h0]; rfl, fun _ _ => Nat.le_refl _, fun _ _ _ => rfl⟩
  | @retired L t s s' hr hs hn ih =>
    obtain ⟨u, h1, h2, h3⟩ := ih fun p hp => hL p (List.mem_cons_of_mem _ hp)
    obtain ⟨a, b⟩ := hL _ (List.mem_cons_self ..)
    obtain ⟨u', e1, e2⟩ := usage_step_partial hp hs hn a b h1
    have hu : ∀ r k, uses ops ((s, s') :: L) k r = (if s'.profActive then (ops s'.inst).count (k, r) else 0) + uses ops L k r :=
      fun _ _ => rfl
    refine ⟨u', e1, fun r k => ?_, fun hq r k => ?_⟩
    · have := h2 r k
      rw [e2, hu]
      simp only
      omega
    · rw [e2, hu, h3 hq]
      simp only
      omega
  | @other L t s s' hr hs hn hq ih =>
    obtain ⟨u, h1, h2, h3⟩ := ih hL
    obtain ⟨u', e1, e2, e3⟩ := usage_step_any hp hs h1
    refine ⟨u', e1, fun r k => Nat.le_trans (h2 r k) (e2 _ _), fun hq' => ?_⟩
    rw [e3 hn (hq hq').1 (hq hq').2]
    exact h3 hq'

/-! ## C73: register trace -/

/-- the name an entry carries -/
def TE.name (e : TE) : Option String :=
  match e.opcG with
  | some o => some o.name
  | none => e.opcB.map (·.name)
/-- a register in the given role -/
def inRole (k : Role) (l : List Operand) : Option Nat := (l.find? fun x => x.1 == k).map (·.2)

/-- what an entry says about a retired instruction with the given operands: its registers; its line's name, unless that
is NOP, C.NOP or a hint; whether the results are zero, for those of `flagged` -/
structure Entry (rv32c : Bool) (s s' : St σ) (e : TE) : Prop where
  regs : ∀ l, Operands s'.inst l → ¬ MisCounted s'.inst →
    e.rd = inRole .dest l ∧ e.rs1 = inRole .src1 l ∧ e.rs2 = inRole .src2 l
  name : ∀ ln, Reported rv32c s s' ln → ln.1 ∉ ["nop", "c.nop", "hint"] → e.name = some ln.1
  zero : ∀ x, e.rd = some x → x ≠ 0 → (∃ i, s'.inst = encode i ∧ flagged i = true) ∨
    (∃ i, i.legal ∧ s'.inst = encodeC i ∧ flaggedC i = true) ∨
    (∃ y m rd rs1 rs2, X1.match? y = some m ∧ s'.inst = xWord m rd rs1 rs2) ∨
    (∃ y m rd rs1 rs2, X2.match? y = some m ∧ s'.inst = xWord m rd rs1 rs2) →
    e.rdZero = some (decide (s'.rf (BitVec.ofNat 5 x) = 0#32))
  zero2 : ∀ y m rd rs1 rs2, X2.match? y = some m → s'.inst = xWord m rd rs1 rs2 → rd ≠ 0#5 →
    e.rdpZero = some (decide (s'.rf (rd + 1#5) = 0#32))

theorem reg_calls (k : Role) (l : List Operand) : reg (use k) (calls l) none = inRole k l := by
  unfold reg calls inRole
  induction l with
  | nil => rfl
  | cons x t ih =>
    rw [List.map_cons, List.find?_cons, List.find?_cons]
    by_cases e : x.1 = k
    · simp [e]
    · have h1 : (use x.1 == use k) = false := by simp only [beq_eq_false_iff_ne]; exact fun h => e (use_inj h)
      have h2 : (x.1 == k) = false := by simpa using e
      rw [h1, h2]
      exact ih
theorem name_put {r : ProfRec} {c : Bool} {ln : Line} (h : lineOf c r = some ln) (hn : ln.1 ∉ ["nop", "c.nop", "hint"])
    (rf : BitVec 5 → W) : (TE.rst.put r rf).name = some ln.1 := by
  unfold lineOf at h
  unfold TE.put TE.name
  cases hc : callOf r with
  | none => rw [hc] at h; cases h
  | some x =>
    rw [hc] at h
    cases x with
    | b o t f => cases h; rfl
    | g o =>
      simp only [Option.map_some, Prof.Spec.entry] at h ⊢
      by_cases h1 : r.inst = 0x13#32
      · rw [if_pos h1] at h; cases h; exact absurd (by decide) hn
      · rw [if_neg h1] at h
        by_cases h2 : c = true ∧ r.inst.toNat % 65536 = 1
        · rw [if_pos h2] at h; cases h; exact absurd (by decide) hn
        · rw [if_neg h2] at h
          by_cases h3 : r.inst = 0x01002013#32 ∨ r.inst = 0x01102013#32
          · rw [if_pos h3] at h; cases h; exact absurd (by decide) hn
          · rw [if_neg h3] at h; cases h; rfl

/-- the entry built from a cleared one by a retired instruction -/
theorem entry_put (hp : E.cfg.profilers = true) (h : step E s = .ok ((), s')) (hr : s'.simInst ≠ s.simInst) {r : ProfRec}
    (hl : s'.profLog = r :: s.profLog) (c : Bool) : Entry c s s' (TE.rst.put r s'.rf) := by
  have hev : evNamed s.rf r ∧ r.inst = s'.inst := by
    rcases step_log hp h with ⟨h1, -⟩ | ⟨-, -, r', h1, h2, -, h4, -⟩
    · exact absurd h1 hr
    · rw [hl] at h1; injection h1 with h1; subst h1; exact ⟨h4, h2⟩
  obtain ⟨hv, hi⟩ := hev
  refine ⟨fun l hl hx => ?_, fun ln ⟨r', h1, _, h3⟩ hn => ?_, fun x hx h0 hf => ?_, fun y m rd rs1 rs2 hm hw h0 => ?_⟩
  · have e := uses_eq hv (hi ▸ hl) (hi ▸ hx)
    unfold TE.put
    rw [e]
    exact ⟨reg_calls .dest l, reg_calls .src1 l, reg_calls .src2 l⟩
  · rw [hl] at h1; injection h1 with h1; subst h1
    exact name_put h3 hn _
  · have hz : setsZero r.ev = true := by
      rcases hf with ⟨i, a, b⟩ | ⟨i, a0, a, b⟩ | ⟨y, m, rd, rs1, rs2, a, b⟩ | ⟨y, m, rd, rs1, rs2, a, b⟩
      · rw [(uses_base hv i (hi.trans a)).2, b]
      · rw [(uses_comp hv i a0 (hi.trans a) fun imm e => by rw [e] at b; cases b).2, b]
      · exact (uses_x1 hv a (hi.trans b)).2
      · exact (uses_x2 hv a (hi.trans b)).2
    have hx : reg .rd (usesOf r) none = some x := hx
    show (if _ then _ else _) = _
    rw [if_pos hz, hx]
    split
    · rename_i e; cases e; exact absurd rfl h0
    · rename_i e; cases e; rfl
    · rename_i e; cases e
  · have hu := (uses_x2 hv hm (hi.trans hw)).1
    have e : reg .rdp (usesOf r) none = some (rd.toNat + 1) := by
      rw [hu]; cases y <;> rfl
    have h1 : rd.toNat + 1 ≠ 1 := fun e => h0 (BitVec.eq_of_toNat_eq (by simpa using e))
    show (match reg .rdp (usesOf r) none with | some 1 => none | some x => some (rfAt s'.rf x == 0#32) | none => _) = _
    rw [e]
    split
    · rename_i e; injection e with e; exact absurd e h1
    · rename_i e; injection e with e; subst e
      unfold rfAt
      rw [BitVec.ofNat_add]
      simp
      rfl
    · rename_i e; cases e

/-- **C73**, one step.  If the pending entry is clear while profiling is active, a retired instruction appends exactly one
entry when profiling is active, none otherwise, and the pending entry is clear again; that entry tells the instruction
(`Entry`). -/
theorem trace_step (hp : E.cfg.profilers = true) (h : step E s = .ok ((), s')) (hr : s'.simInst ≠ s.simInst) {t : Tr}
    (ht : s.profActive = true → t.te = TE.rst) :
    (s'.profActive = true → (t.after E s s').te = TE.rst) ∧
    (s'.profActive = false → (t.after E s s').trace = t.trace) ∧
    (s'.profActive = true → ∃ e, (t.after E s s').trace = e :: t.trace ∧ ∀ c, Entry c s s' e) := by
  obtain ⟨r, h1⟩ : ∃ r, s'.profLog = r :: s.profLog := by
    rcases step_log hp h with ⟨h1, -⟩ | ⟨-, -, r, h1, -⟩
    · exact absurd h1 hr
    · exact ⟨r, h1⟩
  have hlen : s'.profLog.length ≠ s.profLog.length := by rw [h1]; simp
  unfold Tr.after
  simp only [if_neg hr, if_neg hlen]
  refine ⟨fun ha => by rw [if_pos ha], fun ha => by rw [if_neg (by simp [ha])], fun ha => ?_⟩
  rw [if_pos ha]
  refine ⟨_, rfl, fun c => ?_⟩
  rw [h1]
  simp only
  have : (if hintRst r then TE.rst else if windowRst E s then TE.rst else t.te) = TE.rst := by
    rcases act_src hp h ha with h2 | h2 | ⟨r', h2, h3⟩
    · rw [ht h2]; simp
    · rw [if_pos h2]; simp
    · rw [h1] at h2; injection h2 with h2; subst h2; rw [if_pos h3]
  rw [this]
  exact entry_put hp h hr h1 c
/-- **C73**, a step that retires nothing, and neither traps nor ends the run, leaves the trace alone and the pending entry
clear. -/
theorem trace_idle (hp : E.cfg.profilers = true) (h : step E s = .ok ((), s')) (hr : s'.simInst = s.simInst)
    (hq : s'.trapped = false ∧ s'.running = true) {t : Tr} (ht : s.profActive = true → t.te = TE.rst) :
    (s'.profActive = true → (t.after E s s').te = TE.rst) ∧ (t.after E s s').trace = t.trace := by
  have h1 : s'.profLog = s.profLog := by
    rcases unretired_at_most_one hp h hr with h1 | ⟨r, -, -, h5⟩
    · exact h1
    · rcases h5 with h5 | h5 <;> simp_all
  unfold Tr.after
  simp only [if_pos hr, h1, if_true]
  refine ⟨fun ha => ?_, trivial⟩
  rcases act_src hp h ha with h2 | h2 | ⟨r, h2, -⟩
  · rw [ht h2]; simp
  · rw [if_pos h2]
  · rw [h1] at h2; have := congrArg List.length h2; simp at this

/-- **C73**, quiet runs: the trace has one entry for each instruction retired while profiling is active, in order, and each
tells its instruction.  Missing: runs with traps, where an entry may carry the opcode and registers of an instruction that
did not retire (`trace_stale`); the zero flag of `lui`, `auipc`, jumps, CSR and cache instructions (`trace_lui_zero`);
`MisCounted` instructions. -/
theorem trace_run_partial (hp : E.cfg.profilers = true) {t : Tr} {L : List (St σ × St σ)}
    (h : Run E true Tr.init s0 L t s) (c : Bool) :
    List.Forall₂ (fun e p => Entry c p.1 p.2 e) t.trace (L.filter fun p => p.2.profActive) := by
  suffices hh : (s.profActive = true → t.te = TE.rst) ∧
      List.Forall₂ (fun e p => Entry c p.1 p.2 e) t.trace (L.filter fun p => p.2.profActive) from hh.2
  induction h with
  | nil => exact ⟨fun _ => rfl, .nil⟩
  | @retired L t s s' _ hs hn ih =>
    obtain ⟨a, b, d⟩ := trace_step hp hs hn ih.1
    refine ⟨a, ?_⟩
    rw [List.filter_cons]
    cases ha : s'.profActive with
    | false => rw [b ha]; exact ih.2
    | true =>
      obtain ⟨e, e1, e2⟩ := d ha
      rw [e1]
      exact .cons (e2 c) ih.2
  | @other L t s s' _ hs hn hq ih =>
    obtain ⟨a, b⟩ := trace_idle hp hs hn (hq rfl) ih.1
    exact ⟨a, by rw [b]; exact ih.2⟩

/-! ## Where the code differs -/

theorem head_ev (hp : E.cfg.profilers = true) (h : step E s = .ok ((), s')) (hr : s'.simInst ≠ s.simInst) :
    ∃ r, s'.profLog = r :: s.profLog ∧ r.inst = s'.inst ∧ evNamed s.rf r := by
  rcases step_log hp h with ⟨h1, -⟩ | ⟨-, -, r, h1, h2, -, h4, -⟩
  · exact absurd h1 hr
  · exact ⟨r, h1, h2, h4⟩
/-- **C72 fails for SIMD shifts**: the shift amount is counted as the register rs2. -/
theorem usage_shift_amount (hp : E.cfg.profilers = true) (h : step E s = .ok ((), s')) (hr : s'.simInst ≠ s.simInst)
    {x : X1} (hx : ∃ n, x = .slli n ∨ x = .srli n ∨ x = .srai n) {m : W} (hm : x.match? = some m) {rd rs1 sh : BitVec 5}
    (hi : s'.inst = xWord m rd rs1 sh) : ∃ r, s'.profLog = r :: s.profLog ∧
      usesOf r = calls (operandsX1 x rd rs1 sh) ++ [(.rs2, sh.toNat)] := by
  obtain ⟨r, h1, h2, h3⟩ := head_ev hp h hr
  refine ⟨r, h1, ?_⟩
  rw [(uses_x1 h3 hm (h2.trans hi)).1]
  obtain ⟨n, rfl | rfl | rfl⟩ := hx <;> rfl
/-- **C72 fails for VINS**: the old value of rd, which it keeps but for one lane, is not counted as a source. -/
theorem usage_vins (hp : E.cfg.profilers = true) (h : step E s = .ok ((), s')) (hr : s'.simInst ≠ s.simInst)
    {n : Nat} {m : W} (hm : (X1.vins n).match? = some m) {rd rs1 lane : BitVec 5}
    (hi : s'.inst = xWord m rd rs1 lane) : ∃ r, s'.profLog = r :: s.profLog ∧
      calls (operandsX1 (.vins n) rd rs1 lane) = usesOf r ++ [(.rs3, rd.toNat)] := by
  obtain ⟨r, h1, h2, h3⟩ := head_ev hp h hr
  refine ⟨r, h1, ?_⟩
  rw [(uses_x1 h3 hm (h2.trans hi)).1]
  rfl
/-- **C72 fails for the C.LUI hint** (rd = x0): its destination is not counted. -/
theorem usage_lui_hint (hp : E.cfg.profilers = true) (h : step E s = .ok ((), s')) (hr : s'.simInst ≠ s.simInst)
    {imm : BitVec 6} (hi : s'.inst = encodeC (.lui 0#5 imm)) : ∃ r, s'.profLog = r :: s.profLog ∧ usesOf r = [] := by
  obtain ⟨r, h1, h2, h3⟩ := head_ev hp h hr
  refine ⟨r, h1, ?_⟩
  have d := decode_CI 3#3 imm 0#5 1#2
  rw [encodeC] at hi
  have c := cuse h3 (h2.trans hi) d.1 (by decide) d.2.1 (by decide) (op := .nop) (by
    unfold cOp; rw [d.1, d.2.1, d.2.2.1]; rfl)
  rw [c.1]
  rfl

namespace Ex
open Ama.Ex (image env0 cfg0)
/-- profilers compiled in -/
def envR (c : Bool) : Env Unit := { env0 with cfg := { cfg0 with profilers := true, rv32c := c } }
/-- reset state, profiling from the first instruction -/
def stR (c : Bool) (ws : List W) : St Unit :=
  initSt (envR c) (image ws) ⟨0x80000000#32, 0xfffffff0#32, 1#32, false, 0#32, false, 0#64⟩ ()
/-- counters and number of retired instructions after a run -/
def usageAt (c : Bool) (n : Nat) (ws : List W) (l : List (Use × Reg)) : Option (List Nat × Nat) :=
  match runN (envR c) n (stR c ws) with
  | .ok (_, s) => match usageOf s.profLog with
    | .ok u => some (l.map fun x => u x.2 x.1, s.simInst.toNat)
    | _ => none
  | _ => none
/-- trace after a run, newest first, and number of retired instructions -/
def traceAt (c : Bool) (n : Nat) (ws : List W) : Option (List TE × Nat) :=
  match Tr.runN (envR c) n Tr.init (stR c ws) with
  | .ok (t, s) => some (t.trace, s.simInst.toNat)
  | _ => none

/-- `add x1, x2, x3` and a NOP: five operands -/
example : usageAt false 2 [0x003100b3#32, 0x00000013#32] [(.rd, 1), (.rs1, 2), (.rs2, 3), (.rs2, 1), (.rd, 0), (.rs1, 0)] =
    some ([1, 1, 1, 0, 1, 1], 2) := by decide +kernel
/-- `slli16 x1, x2, 3` counts a use of x3 (`usage_shift_amount`) -/
theorem usage_shift_witness : usageAt false 1 [xWord 0x1200000b#32 1#5 2#5 3#5] [(.rd, 1), (.rs1, 2), (.rs2, 3)] =
    some ([1, 1, 1], 1) := by decide +kernel
/-- `vins16 x1, x2, 1` does not count x1 as a source (`usage_vins`) -/
theorem usage_vins_witness : usageAt false 1 [xWord 0x7800100b#32 1#5 2#5 1#5] [(.rd, 1), (.rs1, 2), (.rs3, 1)] =
    some ([1, 1, 0], 1) := by decide +kernel
/-- `c.lui x0, 1` counts nothing (`usage_lui_hint`) -/
theorem usage_lui_witness : usageAt true 1 [0x6005#32] [(.rd, 0)] = some ([0], 1) := by decide +kernel
/-- **C72 fails for jumps that trap**: `jal x5` to a misaligned target retires nothing and does not write x5, but counts a
write of it. -/
theorem usage_trap_counted : usageAt false 1 [0x002002ef#32] [(.rd, 5)] = some ([1], 0) := by decide +kernel

/-- the hypotheses of `usage_step_partial` and `trace_step` are met by `add x1, x2, x3` -/
example : (match step (envR false) (stR false [0x003100b3#32]) with
    | .ok (_, s) => decide (s.simInst ≠ 0#64 ∧ s.inst = encode (.alu .add 1#5 2#5 3#5) ∧ s.profActive = true)
    | _ => false) = true := by decide +kernel
/-- ... and it is not one of the exceptions -/
example : ¬ MisCounted 0x003100b3#32 := by
  rintro (⟨x, m, rd, rs1, rs2, hm, hw, -⟩ | ⟨imm, hw⟩)
  · obtain ⟨t1, -⟩ := table1 hm
    rw [t1, xWord_enc] at hw
    have d := (decode_R (IP.funct7 m) rs2 rs1 (IP.funct3 m) rd 0x0b#7).1
    rw [← hw] at d
    exact absurd d (by decide)
  · have d := (decode_CI 3#3 imm 0#5 1#2).1
    rw [show encCI 3#3 imm 0#5 1#2 = 0x003100b3#32 from hw.symm] at d
    exact absurd d (by decide)

/-- a quiet run of one instruction -/
example : ∃ L t s, Run (envR false) true Tr.init (stR false [0x003100b3#32]) L t s ∧ L.length = 1 := by
  have h : (match step (envR false) (stR false [0x003100b3#32]) with
    | .ok (_, s) => decide (s.simInst ≠ (stR false [0x003100b3#32]).simInst) | _ => false) = true := by decide +kernel
  split at h
  · rename_i s hs
    exact ⟨_, _, _, .retired .nil hs (of_decide_eq_true h), rfl⟩
  · cases h
/-- two entries, oldest last; the second result is that of x0 -/
example : traceAt false 2 [0x003100b3#32, 0x00000013#32] = some
    ([⟨some .i_addi, none, some 0, some 0, none, none, some false⟩,
      ⟨some .i_add, none, some 1, some 2, some 3, some false, some false⟩], 2) := by decide +kernel
/-- **C73 fails for LUI**: the result 0 of `lui x1, 0` is not flagged; `addi x1, x0, 0` is. -/
theorem trace_lui_zero : traceAt false 2 [0x000000b7#32, 0x00000093#32] = some
    ([⟨some .i_addi, none, some 1, some 0, none, some true, some false⟩,
      ⟨some .i_lui, none, some 1, none, none, some false, some false⟩], 2) := by decide +kernel
/-- **C73 fails after a trap**: mtvec is set, `jal x5` traps on a misaligned target, and the entry of the FENCE in the trap
handler carries the opcode and destination of the jump. -/
theorem trace_stale : traceAt false 5 [0x00000097#32, 0x01408093#32, 0x30509073#32, 0x002002ef#32, 0x13#32, 0xf#32] =
    some ([⟨some .i_fence, some .i_jal, some 5, none, none, some false, some false⟩,
      ⟨some .i_csrrw, none, some 0, some 1, none, some false, some false⟩,
      ⟨some .i_addi, none, some 1, some 1, none, some false, some false⟩,
      ⟨some .i_auipc, none, some 1, none, none, some false, some false⟩], 4) := by decide +kernel
end Ex
end Ama.ProfRf
