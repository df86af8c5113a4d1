import Verif.Lemmas.ProfBin
import Verif.Props.ProfTrace
import Verif.Props.ProfRf
/-!
# C93: the binary profiles read back as the profile
-/
namespace Ama.ProfBin
open Ama.Spec.Bin
variable {σ : Type} {E : Env σ}
attribute [local irreducible] le

/-! ## The instruction trace -/

theorem te_length (x : Extra) (e : ProfTrace.TE) : (teBytes x e).length = 40 := by
  simp only [teBytes, List.length_append, le_length, List.length_cons, List.length_nil]

/-- an entry's fields -/
theorem te_row (x : Extra) (e : ProfTrace.TE) (h : e.instSize < 256) : row (teBytes x e) =
    ⟨e.sampleCnt.toNat, e.inst.toNat, e.pc.toNat, e.nextPc.toNat, e.dmem.toNat, e.sp.toNat, e.taken.toNat, e.instSize,
      dsizeCode e.dmemSize, x.ic.toNat, x.dc.toNat, x.bp.toNat⟩ := by
  have h8 : ∀ n : BitVec 64, n.toNat % 256 ^ 8 = n.toNat := fun n => Nat.mod_eq_of_lt n.isLt
  have h4 : ∀ n : BitVec 32, n.toNat % 256 ^ 4 = n.toNat := fun n => Nat.mod_eq_of_lt n.isLt
  have hd : ∀ d, dsizeCode d % 256 ^ 1 = dsizeCode d := fun d => by cases d <;> rfl
  have hb : ∀ b : Bool, b.toNat % 256 ^ 1 = b.toNat := fun b => by cases b <;> rfl
  have hi : e.instSize % 256 ^ 1 = e.instSize := Nat.mod_eq_of_lt h
  have h1 : ∀ b : Byte, num [b] = b.toNat := fun b => by simp [num]
  unfold row teBytes
  simp only [List.append_assoc]
  rw [Row.mk.injEq]
  refine ⟨?_, ?_, ?_, ?_, ?_, ?_, ?_, ?_, ?_, ?_, ?_, ?_⟩
  · rw [field_here (le_length ..), num_le, h8]
  · rw [field_skip (le_length ..) (by decide), field_here (le_length ..), num_le, h4]
  · iterate 2 rw [field_skip (le_length ..) (by decide)]
    rw [field_here (le_length ..), num_le, h4]
  · iterate 3 rw [field_skip (le_length ..) (by decide)]
    rw [field_here (le_length ..), num_le, h4]
  · iterate 4 rw [field_skip (le_length ..) (by decide)]
    rw [field_here (le_length ..), num_le, h4]
  · iterate 5 rw [field_skip (le_length ..) (by decide)]
    rw [field_here (le_length ..), num_le, h4]
  · iterate 6 rw [field_skip (le_length ..) (by decide)]
    rw [field_here (le_length ..), num_le, hb]
  · iterate 7 rw [field_skip (le_length ..) (by decide)]
    rw [field_here (le_length ..), num_le, hi]
  · iterate 8 rw [field_skip (le_length ..) (by decide)]
    rw [field_here (le_length ..), num_le, hd]
  · iterate 9 rw [field_skip (le_length ..) (by decide)]
    rw [field_here (k := 1) rfl, h1]
  · iterate 9 rw [field_skip (le_length ..) (by decide)]
    rw [field_skip (o := 1) rfl (by decide), field_here (k := 1) rfl, h1]
  · iterate 9 rw [field_skip (le_length ..) (by decide)]
    rw [field_skip (o := 1) rfl (by decide), field_skip (o := 1) rfl (by decide), field_here (k := 1) rfl, h1]

/-- **C93**: whatever the padding, the trace file read as an array of rows gives the entries in the order they were made. -/
theorem trace_file (x : Nat → Extra) (p : ProfTrace.Prf) (h : ∀ e ∈ p.trace, e.instSize < 256) :
    readTrace (traceFile x p) = p.trace.reverse.zipIdx.map fun e =>
      ⟨e.1.sampleCnt.toNat, e.1.inst.toNat, e.1.pc.toNat, e.1.nextPc.toNat, e.1.dmem.toNat, e.1.sp.toNat, e.1.taken.toNat, e.1.instSize,
        dsizeCode e.1.dmemSize, (x e.2).ic.toNat, (x e.2).dc.toNat, (x e.2).bp.toNat⟩ := by
  unfold readTrace traceFile
  rw [records_flatten (by decide) (by
    intro y hy
    obtain ⟨e, -, rfl⟩ := List.mem_map.1 hy
    exact te_length ..), List.map_map]
  apply List.map_congr_left
  intro e he
  exact te_row _ _ (h _ (List.mem_reverse.1 (by
    have := List.mem_zipIdx he
    obtain ⟨-, h2, h3⟩ := this
    rw [h3]; exact List.getElem_mem ..)))

theorem size_lt (w : W) : Spec.instBytes w < 256 := by unfold Spec.instBytes; split <;> decide

theorem forall₂_reverse {α β : Type} {R : α → β → Prop} : ∀ {l : List α} {m : List β}, List.Forall₂ R l m →
    List.Forall₂ R l.reverse m.reverse
  | _, _, .nil => .nil
  | _, _, .cons h t => by
    rw [List.reverse_cons, List.reverse_cons]
    have app : ∀ {a : List α} {b : List β} {c : List α} {d : List β}, List.Forall₂ R a b → List.Forall₂ R c d →
        List.Forall₂ R (a ++ c) (b ++ d) := by
      intro a b c d h1 h2
      induction h1 with
      | nil => exact h2
      | cons h _ ih => exact .cons h ih
    exact app (forall₂_reverse t) (.cons h .nil)

/-- what a row of the file says about a retired instruction -/
structure RowOf (s s' : St σ) (r : Row) : Prop where
  inst : r.inst = s'.inst.toNat
  pc : r.pc = s.pc.toNat
  next : r.nextPc = s'.pc.toNat
  sp : r.sp = (s'.rf 2#5).toNat
  count : r.smp = s'.simInst.toNat
  size : r.isz = Spec.instBytes s'.inst
  /-- not for compressed branches to the next instruction -/
  taken : ∀ m, Spec.Meaning s'.inst m → ¬ ProfTrace.NextBranch s'.inst →
    r.taken = if m.elim false (Spec.transfers s.rf) then 1 else 0

/-- **C93**, whole runs: at every point of every run the file has exactly one row for each instruction retired while profiling was
active, in order.  Missing: see `ProfTrace.trace_step_partial`. -/
theorem trace_file_run_partial (hp : E.cfg.profilers = true) {R : St σ → St σ → Prop} {L : List (St σ × St σ)} {p : ProfTrace.Prf}
    {s0 s : St σ} (h : ProfTrace.Run E R ProfTrace.Prf.init s0 L p s) (h0 : s0.rf 0#5 = 0#32) (x : Nat → Extra) :
    List.Forall₂ (fun r y => RowOf y.1 y.2 r) (readTrace (traceFile x p)) (ProfTrace.active L).reverse ∧
      (traceFile x p).length = 40 * (ProfTrace.active L).length := by
  have hf := ProfTrace.trace_run_partial hp h h0 rfl
  have hs : ∀ e ∈ p.trace, e.instSize < 256 := by
    generalize p.trace = t, ProfTrace.active L = m at hf
    intro e he
    induction hf with
    | nil => cases he
    | cons h1 _ ih =>
      rcases List.mem_cons.1 he with rfl | he
      · rw [h1.size]; exact size_lt _
      · exact ih he
  have hl : p.trace.length = (ProfTrace.active L).length := by
    generalize p.trace = t, ProfTrace.active L = m at hf
    induction hf with
    | nil => rfl
    | cons _ _ ih => rw [List.length_cons, List.length_cons, ih]
  refine ⟨?_, ?_⟩
  · rw [trace_file x p hs]
    have hr := forall₂_reverse hf
    generalize p.trace.reverse = t, (ProfTrace.active L).reverse = m at hr
    generalize 0 = i
    induction hr generalizing i with
    | nil => exact .nil
    | @cons e y t m h1 _ ih =>
      rw [List.zipIdx_cons, List.map_cons]
      refine .cons ?_ (ih _)
      refine ⟨congrArg BitVec.toNat h1.inst, congrArg BitVec.toNat h1.pc, congrArg BitVec.toNat h1.next, congrArg BitVec.toNat h1.sp, congrArg BitVec.toNat h1.count, h1.size, fun m hm hn => ?_⟩
      have := h1.taken m hm hn
      simp only [this]
      cases m.elim false (Spec.transfers y.1.rf) <;> rfl
  · unfold traceFile
    rw [flatten_length (n := 40) _ (by
      intro y hy
      obtain ⟨e, -, rfl⟩ := List.mem_map.1 hy
      exact te_length ..), List.length_map, List.length_zipIdx, List.length_reverse, hl, Nat.mul_comm]

/-- the code of an access reads back as its direction and width -/
theorem access_code (d : ProfTrace.DSize) : access (dsizeCode d) = match d with
    | .lb => some (false, 1) | .lh => some (false, 2) | .lw => some (false, 4)
    | .sb => some (true, 1) | .sh => some (true, 2) | .sw => some (true, 4) | .noAccess => none := by
  cases d <;> rfl

/-! ## The register trace -/

/-- the name in the script's table -/
def scriptName (n : String) : String := if n = "scp.lcl" then "scp_lcl" else if n = "scp.rel" then "scp_rel" else n

theorem table_g : ∀ o : Prof.OpG, opcG[codeG o]? = some (scriptName o.name) ∧ codeG o < 255 := by
  intro o; cases o <;> decide +kernel
theorem table_b : ∀ o : Prof.OpB, opcB[codeB o]? = some (scriptName o.name) ∧ codeB o < 255 := by
  intro o; cases o <;> decide +kernel

/-- registers fit -/
def Small (e : ProfRf.TE) : Prop := (∀ r, e.rd = some r → r < 32) ∧ (∀ r, e.rs1 = some r → r < 32) ∧ (∀ r, e.rs2 = some r → r < 32)

theorem rf_length (z : Bool × Bool) (e : ProfRf.TE) : (rfBytes z e).length = 7 := rfl

theorem reg_back {o : Option Nat} (h : ∀ r, o = some r → r < 32) : regOf (o.getD 255 % 256) = o := by
  cases o with
  | none => rfl
  | some r =>
    have := h r rfl
    have e : r % 256 = r := Nat.mod_eq_of_lt (by omega)
    simp only [Option.getD_some, e, regOf]
    rw [if_neg (by omega)]

theorem rf_row (z : Bool × Bool) (e : ProfRf.TE) (h : Small e) : rfRow (rfBytes z e) =
    ⟨e.name.map scriptName, e.rd, e.rs1, e.rs2, (e.rdZero.getD z.1).toNat, (e.rdpZero.getD z.2).toNat⟩ := by
  have f : ∀ i : Nat, ∀ b : Byte, (rfBytes z e)[i]? = some b → field i 1 (rfBytes z e) = b.toNat := by
    intro i b hb
    unfold field
    rw [List.take_one, List.head?_drop, hb]
    simp [num]
  have hb : ∀ b : Bool, b.toNat % 256 = b.toNat := fun b => by cases b <;> rfl
  unfold rfRow
  rw [f 0 _ rfl, f 1 _ rfl, f 2 _ rfl, f 3 _ rfl, f 4 _ rfl, f 5 _ rfl, f 6 _ rfl]
  simp only [BitVec.toNat_ofNat, Nat.reducePow, hb, reg_back h.1, reg_back h.2.1, reg_back h.2.2]
  congr 1
  unfold mnemonic ProfRf.TE.name
  cases hg : e.opcG with
  | some o =>
    have := table_g o
    simp only [Option.map_some, Option.getD_some, Nat.mod_eq_of_lt (show codeG o < 256 by omega)]
    rw [if_pos (by omega), this.1]
  | none =>
    simp only [Option.map_none, Option.getD_none]
    rw [if_neg (by decide)]
    cases hb : e.opcB with
    | some o =>
      have := table_b o
      simp only [Option.map_some, Option.getD_some, Nat.mod_eq_of_lt (show codeB o < 256 by omega), this.1]
    | none => rfl

/-- **C93**: the register trace file read as an array of rows gives the entries in the order they were made. -/
theorem rf_file (z : Nat → Bool × Bool) (t : ProfRf.Tr) (h : ∀ e ∈ t.trace, Small e) :
    readRf (rfFile z t) = t.trace.reverse.zipIdx.map fun e =>
      ⟨e.1.name.map scriptName, e.1.rd, e.1.rs1, e.1.rs2, (e.1.rdZero.getD (z e.2).1).toNat, (e.1.rdpZero.getD (z e.2).2).toNat⟩ := by
  unfold readRf rfFile
  rw [records_flatten (by decide) (by
    intro y hy
    obtain ⟨e, -, rfl⟩ := List.mem_map.1 hy
    exact rf_length ..), List.map_map]
  apply List.map_congr_left
  intro e he
  exact rf_row _ _ (h _ (List.mem_reverse.1 (by
    have := List.mem_zipIdx he
    obtain ⟨-, h2, h3⟩ := this
    rw [h3]; exact List.getElem_mem ..)))

theorem reg_small {k : ProfRf.Use} {l : List (ProfRf.Use × ProfRf.Reg)} {old : Option ProfRf.Reg} (hl : ∀ x ∈ l, x.2 < 32)
    (ho : ∀ r, old = some r → r < 32) : ∀ r, ProfRf.reg k l old = some r → r < 32 := by
  intro r hr
  unfold ProfRf.reg at hr
  cases hf : l.find? fun x => x.1 == k with
  | none => rw [hf] at hr; exact ho r hr
  | some x => rw [hf] at hr; cases hr; exact hl x (List.mem_of_find?_eq_some hf)

theorem rst_small : Small ProfRf.TE.rst := ⟨nofun, nofun, nofun⟩

theorem after_small (hp : E.cfg.profilers = true) {t : ProfRf.Tr} {s s' : St σ} (h : step E s = .ok ((), s'))
    (ht : Small t.te ∧ ∀ e ∈ t.trace, Small e) : Small (t.after E s s').te ∧ ∀ e ∈ (t.after E s s').trace, Small e := by
  have hlog : s'.profLog = s.profLog ∨ ∃ r, s'.profLog = r :: s.profLog := by
    rcases step_log hp h with ⟨-, i | ⟨r, i, -⟩⟩ | ⟨-, -, r, i, -⟩
    · exact .inl i
    · exact .inr ⟨r, i⟩
    · exact .inr ⟨r, i⟩
  have h0 : Small (if ProfRf.windowRst E s then ProfRf.TE.rst else t.te) := by
    split
    · exact rst_small
    · exact ht.1
  have h1 : Small (if s'.profLog.length = s.profLog.length then (if ProfRf.windowRst E s then ProfRf.TE.rst else t.te)
      else match s'.profLog with
        | [] => (if ProfRf.windowRst E s then ProfRf.TE.rst else t.te)
        | r :: _ => (if ProfRf.hintRst r then ProfRf.TE.rst else (if ProfRf.windowRst E s then ProfRf.TE.rst else t.te)).put r s'.rf) := by
    rcases hlog with e | ⟨r, e⟩
    · rw [e, if_pos rfl]; exact h0
    · have hl := ProfRf.step_log_lt hp h e
      rw [e, if_neg (by simp)]
      have h2 : Small (if ProfRf.hintRst r then ProfRf.TE.rst else (if ProfRf.windowRst E s then ProfRf.TE.rst else t.te)) := by
        split
        · exact rst_small
        · exact h0
      exact ⟨reg_small hl h2.1, reg_small hl h2.2.1, reg_small hl h2.2.2⟩
  unfold ProfRf.Tr.after
  simp only
  split
  · exact ⟨h1, ht.2⟩
  · split
    · refine ⟨rst_small, fun e he => ?_⟩
      rcases List.mem_cons.1 he with rfl | he
      · exact h1
      · exact ht.2 e he
    · exact ⟨h1, ht.2⟩

theorem run_small (hp : E.cfg.profilers = true) {q : Bool} {s0 s : St σ} {L : List (St σ × St σ)} {t : ProfRf.Tr}
    (h : ProfRf.Run E q ProfRf.Tr.init s0 L t s) : Small t.te ∧ ∀ e ∈ t.trace, Small e := by
  induction h with
  | nil => exact ⟨rst_small, fun e he => by simp [ProfRf.Tr.init] at he⟩
  | retired _ hs _ ih => exact after_small hp hs ih
  | other _ hs _ _ ih => exact after_small hp hs ih

/-- what a row of the register trace says about a retired instruction -/
structure RfRowOf (rv32c : Bool) (s s' : St σ) (r : RfRow) : Prop where
  regs : ∀ l, Spec.Operands s'.inst l → ¬ ProfRf.MisCounted s'.inst →
    r.rd = ProfRf.inRole .dest l ∧ r.rs1 = ProfRf.inRole .src1 l ∧ r.rs2 = ProfRf.inRole .src2 l
  name : ∀ ln, Reported rv32c s s' ln → ln.1 ∉ ["nop", "c.nop", "hint"] → r.name = some (scriptName ln.1)
  zero : ∀ x i, r.rd = some x → x ≠ 0 → s'.inst = Spec.encode i → ProfRf.flagged i = true →
    r.rdz = if s'.rf (BitVec.ofNat 5 x) = 0#32 then 1 else 0

/-- **C93**, whole quiet runs: the register trace file has exactly one row for each instruction retired while profiling was active, in
order.  Missing: see `ProfRf.trace_run_partial`. -/
theorem rf_file_run_partial (hp : E.cfg.profilers = true) {L : List (St σ × St σ)} {t : ProfRf.Tr} {s0 s : St σ}
    (h : ProfRf.Run E true ProfRf.Tr.init s0 L t s) (z : Nat → Bool × Bool) (c : Bool) :
    List.Forall₂ (fun r y => RfRowOf c y.1 y.2 r) (readRf (rfFile z t)) (L.filter fun y => y.2.profActive).reverse := by
  have hf := forall₂_reverse (ProfRf.trace_run_partial hp h c)
  rw [rf_file z t (run_small hp h).2]
  generalize t.trace.reverse = t, (L.filter fun y => y.2.profActive).reverse = m at hf
  generalize 0 = i
  induction hf generalizing i with
  | nil => exact .nil
  | @cons e y t m h1 _ ih =>
    rw [List.zipIdx_cons, List.map_cons]
    refine .cons ⟨h1.regs, fun ln hr hn => ?_, fun x i hx h0 hi hfl => ?_⟩ (ih _)
    · show e.name.map scriptName = _
      rw [h1.name ln hr hn]; rfl
    · show (e.rdZero.getD _).toNat = _
      rw [h1.zero x hx h0 (.inl ⟨i, hi, hfl⟩), Option.getD_some]
      by_cases hz : y.2.rf (BitVec.ofNat 5 x) = 0#32
      · simp [hz]
      · simp [hz]

/-! ## Register use -/

/-- **C93**: the file of the register use has a row for each register, with its counters (modulo 2^64). -/
theorem usage_file (u : ProfRf.Usage) : readUsage (usageFile u) = (List.range 32).map fun r =>
    [u r .rd % 2 ^ 64, u r .rdp % 2 ^ 64, u r .rs1 % 2 ^ 64, u r .rs2 % 2 ^ 64, u r .rs3 % 2 ^ 64] := by
  have hl : ∀ r, ((allUses.map fun k => le 8 (u r k)).flatten).length = 40 := fun r => by
    simp [allUses, le_length]
  unfold readUsage usageFile
  rw [records_flatten (n := 40) (by decide) (by
    intro y hy
    obtain ⟨r, -, rfl⟩ := List.mem_map.1 hy
    exact hl r), List.map_map]
  apply List.map_congr_left
  intro r _
  have e8 : (256 : Nat) ^ 8 = 2 ^ 64 := by decide
  simp only [Function.comp, allUses, List.map_cons, List.map_nil, List.flatten_cons, List.flatten_nil, List.append_nil]
  simp only [List.cons.injEq, and_true]
  refine ⟨?_, ?_, ?_, ?_, ?_⟩
  · rw [field_here (le_length ..), num_le, e8]
  · rw [field_skip (le_length ..) (by decide), field_here (le_length ..), num_le, e8]
  · iterate 2 rw [field_skip (le_length ..) (by decide)]
    rw [field_here (le_length ..), num_le, e8]
  · iterate 3 rw [field_skip (le_length ..) (by decide)]
    rw [field_here (le_length ..), num_le, e8]
  · iterate 4 rw [field_skip (le_length ..) (by decide)]
    rw [field_last (le_length ..), num_le, e8]

/-! ## Cases, and where the files differ -/
namespace Ex
open Spec (encode)
def noHw (_ : Nat) : Extra := ⟨2#8, 2#8, 2#8, 0xdeadbeefcafe#48⟩
def rowsAt (c : Bool) (n : Nat) (ws : List W) : Option (List Row) :=
  (ProfTrace.Ex.at' c n ws).map fun x => readTrace (traceFile noHw x.1)
/-- LUI, SH and a backward jump, oldest first -/
example : rowsAt false 3 [ProfTrace.Ex.base 1#5, encode (.store .sh 1#5 1#5 6#12), encode (.jal 0#5 0xffffe#20)] = some
    [⟨1, 0x800100b7, 0x80000000, 0x80000004, 0, 0xc0ffee, 0, 4, 8, 2, 2, 2⟩,
     ⟨2, 0x00109323, 0x80000004, 0x80000008, 0x80010006, 0xc0ffee, 0, 4, 5, 2, 2, 2⟩,
     ⟨3, 0xffdff06f, 0x80000008, 0x80000004, 0, 0xc0ffee, 1, 4, 8, 2, 2, 2⟩] := by decide +kernel
/-- a run that meets the hypotheses of `trace_file_run_partial` -/
example : ∃ L p s, ProfTrace.Run (ProfRf.Ex.envR false) (fun _ _ => True) ProfTrace.Prf.init (ProfRf.Ex.stR false [0x003100b3#32]) L p s ∧
    L.length = 1 ∧ (ProfRf.Ex.stR false [0x003100b3#32]).rf 0#5 = 0#32 := by
  have h : (match ProfTrace.stepT (ProfRf.Ex.envR false) ProfTrace.Prf.init (ProfRf.Ex.stR false [0x003100b3#32]) with
    | .ok (_, s) => decide (s.simInst ≠ (ProfRf.Ex.stR false [0x003100b3#32]).simInst) | _ => false) = true := by decide +kernel
  split at h
  · rename_i p s hs
    exact ⟨_, _, _, .retired .nil hs (of_decide_eq_true h) trivial, rfl, rfl⟩
  · cases h

def rfAt (c : Bool) (n : Nat) (ws : List W) : Option (List RfRow) :=
  (ProfRf.Ex.traceAt c n ws).map fun x => readRf (rfFile (fun _ => (true, true)) ⟨ProfRf.TE.rst, x.1⟩)
/-- `add x1, x2, x3`, `beq x0, x1` -/
example : rfAt false 2 [0x003100b3#32, 0x00100463#32] = some
    [⟨some "add", some 1, some 2, some 3, 0, 0⟩, ⟨some "beq", none, some 0, some 1, 0, 0⟩] := by decide +kernel
example : Small ⟨some .i_add, none, some 1, some 2, some 31, some false, some false⟩ := by
  refine ⟨?_, ?_, ?_⟩ <;> intro r h <;> cases h <;> decide
/-- **C93 fails for the names of the cache hints**: the report of the profiler calls the instruction `scp.lcl`, the reader of the
register trace `scp_lcl`. -/
theorem hint_name : rfAt false 1 [0xfe00800b#32] = some [⟨some "scp_lcl", some 0, some 1, none, 0, 0⟩] ∧
    Prof.OpG.i_scp_lcl.name = "scp.lcl" := ⟨by decide +kernel, rfl⟩
/-- **C93 fails after a trap**: the entry of the FENCE in the handler still has the jump's number in the other column, and its
destination. -/
theorem stale_row : (rfAt false 5 [0x00000097#32, 0x01408093#32, 0x30509073#32, 0x002002ef#32, 0x13#32, 0xf#32]).map (·.getLast?) =
    some (some ⟨some "fence", some 5, none, none, 0, 0⟩) := by decide +kernel

/-- register 5 used twice -/
example : ((readUsage (usageFile fun r k => if r = 5 ∧ k = .rs1 then 2 else 0))[5]?) = some [0, 0, 2, 0, 0] := by decide +kernel
/-- **The trace file is not determined by the run**: the bytes that pad an entry are never set, so files of equal entries may differ. -/
theorem padding_open (p : ProfTrace.Prf) (h : p.trace ≠ []) : ∃ x x' : Nat → Extra,
    (∀ i, (x i).ic = (x' i).ic ∧ (x i).dc = (x' i).dc ∧ (x i).bp = (x' i).bp) ∧ traceFile x p ≠ traceFile x' p := by
  refine ⟨fun _ => ⟨2#8, 2#8, 2#8, 0#48⟩, fun _ => ⟨2#8, 2#8, 2#8, 1#48⟩, fun _ => ⟨rfl, rfl, rfl⟩, fun e => ?_⟩
  unfold traceFile at e
  cases hr : p.trace.reverse with
  | nil => exact h (List.reverse_eq_nil_iff.1 hr)
  | cons a l =>
    rw [hr, List.zipIdx_cons, List.map_cons, List.map_cons, List.flatten_cons, List.flatten_cons] at e
    have e1 := (List.append_inj e (by rw [te_length, te_length])).1
    unfold teBytes at e1
    have e2 := congrArg num ((List.append_inj e1 (by simp only [List.length_append, le_length, List.length_cons, List.length_nil])).2)
    rw [num_le, num_le] at e2
    simp at e2
end Ex

end Ama.ProfBin
