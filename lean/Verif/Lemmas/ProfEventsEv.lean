import Verif.Lemmas.ProfEvents
/-!
# The calls of the callstack profiler for each instruction
-/
namespace Ama.PerfCore
open M Spec Prof
open Perf (Op)
open ProfTrace (newRec badStore takenCall)
variable {σ : Type} {E : Env σ} {rf : BitVec 5 → W} {r : ProfRec}

/-- `perf_event_t` -/
def num : Event → Nat
  | .inst => 0 | .ctrl => 1 | .jumpReg => 2 | .branch => 3 | .mem => 4 | .memLoad => 5 | .mul => 6 | .div => 7 | .simd => 8
  | .simdArith => 9 | .simdDot => 10

/-- a control transfer call -/
def Jump : Op → Prop
  | .branch .. | .jalr .. | .jal .. => True
  | _ => False
/-- the control transfer calls of an instruction: at most one, and none taken if the instruction does not move -/
inductive Ctl (m : Bool) : List Op → Prop
  | none : Ctl m []
  | fall (pc : W) : Ctl m [.branch pc false]
  | jump (o : Op) : Jump o → m = true → Ctl m [o]

/-- the events of a report, but for `ret_inst` -/
def evn : ProfEv → List Nat
  | .alu op => aluEvents op
  | .load _ | .c .lw | .c .lwsp => [4, 5]
  | .store _ | .c .sw | .c .swsp => [4]
  | .branch .. | .cBeqz _ | .cBnez _ => [3, 1]
  | .jalr | .c .jr | .c .jalr => [2, 1]
  | .jal | .c .j | .c .jal => [1]
  | _ => []
theorem rec_split (r : ProfRec) : ∃ c, recCalls r = c ++ sets (evn r.ev) ∧ Ctl (takenCall r || r.ev == .mret) c := by
  unfold recCalls evn takenCall
  have hb : ∀ pc t (b : Bool), b = t → Ctl (b || false) [Op.branch pc t] := by
    intro pc t b h
    cases t
    · exact .fall pc
    · exact .jump _ trivial (by rw [h]; rfl)
  cases he : r.ev
  case branch op t =>
    refine ⟨[_], rfl, ?_⟩
    cases t
    · exact .fall _
    · exact .jump _ trivial rfl
  case cBeqz | cBnez =>
    refine ⟨[_], rfl, ?_⟩
    simp only
    generalize (r.nextPc != r.pc + 2#32) = t
    cases t
    · exact .fall _
    · exact .jump _ trivial rfl
  case jal | jalr | mret => exact ⟨[_], rfl, .jump _ trivial rfl⟩
  case c op =>
    cases op
    case j | jal | jr | jalr => exact ⟨[_], rfl, .jump _ trivial rfl⟩
    all_goals exact ⟨[], rfl, .none⟩
  all_goals exact ⟨[], rfl, .none⟩

/-- the events of an instruction, but for `ret_inst` -/
def evs : Any → List Nat
  | .base (.alu op ..) => aluEvents op
  | .base (.load ..) => [4, 5]
  | .base (.store ..) => [4]
  | .base (.branch ..) => [3, 1]
  | .base (.jalr ..) => [2, 1]
  | .base (.jal ..) => [1]
  | .x1 (.dot ..) => [8, 9, 10]
  | .x1 x => if x.arith then [8, 9] else [8]
  | .x2 x => if x.arith then [8, 9] else [8]
  | _ => []
theorem evs_count (e : Event) (a : Any) : (evs a ++ [0]).count (num e) = if e.counts a then 1 else 0 := by
  cases a with
  | base i =>
    cases i
    case alu op _ _ _ => cases op <;> cases e <;> rfl
    all_goals cases e <;> rfl
  | x1 x => cases x <;> cases e <;> rfl
  | x2 x => cases x <;> cases e <;> rfl
  | csr => cases e <;> rfl
  | hint => cases e <;> rfl

theorem simd1 {x : X1} {m : W} (h : x.match? = some m) : simdEvents (IP.funct7 m) = evs (.x1 x) := by
  unfold X1.match? at h
  split at h <;> cases h <;> decide
theorem simd2 {x : X2} {m : W} (h : x.match? = some m) : simdEvents (IP.funct7 m) = evs (.x2 x) := by
  unfold X2.match? at h
  split at h <;> cases h <;> decide
theorem xword {m : W} {f7 : BitVec 7} {f3 : BitVec 3} (h : m = encR f7 0#5 0#5 f3 0#5 0x0b#7) (rd rs1 rs2 : BitVec 5) :
    IP.opcode (xWord m rd rs1 rs2) = 0x0b#7 ∧ IP.funct7 (xWord m rd rs1 rs2) = f7 := by
  rw [h, xWord_enc]
  exact ⟨(decode_R f7 rs2 rs1 f3 rd 0x0b#7).1, by simp [decode_R]⟩

/-- custom words -/
theorem word_custom {w : W} {a : Any} (h : Word w a) (ho : IP.opcode w = 0x0b#7) : simdEvents (IP.funct7 w) = evs a ∧
    a.moves rf = false := by
  cases h with
  | base i => rw [ProfTrace.opcode_encode] at ho; cases i <;> (simp only [ProfTrace.majOpc] at ho; exact absurd ho (by decide))
  | comp i hl =>
    have := copcode_opcode (encodeC i)
    rw [ho] at this
    exact absurd this (Dasm.cop_encodeC i)
  | csr a rs1 rd f3 _ => rw [(decode_I a rs1 f3 rd 0x73#7).1] at ho; exact absurd ho (by decide)
  | x1 x m rd rs1 rs2 hm =>
    obtain ⟨h1, -⟩ := table1 hm
    rw [(xword h1 rd rs1 rs2).2]
    exact ⟨simd1 hm, rfl⟩
  | x2 x m rd rs1 rs2 hm =>
    obtain ⟨h1, -⟩ := table2 hm
    rw [(xword h1 rd rs1 rs2).2]
    exact ⟨simd2 hm, rfl⟩
  | lcl rd rs1 rs2 =>
    rw [(xword (f7 := 0x7f#7) (f3 := 0#3) (by decide) rd rs1 rs2).2]
    exact ⟨by decide, rfl⟩
  | rel rd rs1 rs2 =>
    rw [(xword (f7 := 0x7f#7) (f3 := 1#3) (by decide) rd rs1 rs2).2]
    exact ⟨by decide, rfl⟩

/-- the meaning of a word that is not a custom instruction -/
theorem word_meaning {w : W} {a : Any} (h : Word w a) (ho : IP.opcode w ≠ 0x0b#7) :
    ∃ m, Meaning w m ∧ ((∃ i, m = some i ∧ a = .base i) ∨ m = none ∧ a = .csr ∧ IP.opcode w = 0x73#7 ∧ IP.funct3 w ≠ 0#3) := by
  cases h with
  | base i => exact ⟨_, .base i, .inl ⟨i, rfl, rfl⟩⟩
  | comp i hl => exact ⟨_, .comp i hl, .inl ⟨_, rfl, rfl⟩⟩
  | csr a rs1 rd f3 hf =>
    have d := decode_I a rs1 f3 rd 0x73#7
    exact ⟨_, .csr a rs1 rd f3 hf, .inr ⟨rfl, rfl, d.1, by simp [d, hf]⟩⟩
  | x1 x m rd rs1 rs2 hm => exact absurd (xword (table1 hm).1 rd rs1 rs2).1 ho
  | x2 x m rd rs1 rs2 hm => exact absurd (xword (table2 hm).1 rd rs1 rs2).1 ho
  | lcl rd rs1 rs2 => exact absurd (xword (f7 := 0x7f#7) (f3 := 0#3) (by decide) rd rs1 rs2).1 ho
  | rel rd rs1 rs2 => exact absurd (xword (f7 := 0x7f#7) (f3 := 1#3) (by decide) rd rs1 rs2).1 ho

/-- reports of base instructions -/
theorem evn_opc {o : BitVec 7} (h : evOpc r.ev = some o) (h0 : o ≠ 0x33#7) (h1 : o ≠ 0x03#7) (h2 : o ≠ 0x23#7) (h3 : o ≠ 0x63#7)
    (h4 : o ≠ 0x6f#7) (h5 : o ≠ 0x67#7) : evn r.ev = [] := by
  unfold evOpc at h
  unfold evn
  cases he : r.ev <;> rw [he] at h <;> simp only [Option.some.injEq] at h <;> first
    | rfl
    | (subst h; contradiction)
    | cases h
theorem evn_load (h : evOpc r.ev = some 0x03#7) : evn r.ev = [4, 5] := by
  cases he : r.ev <;> rw [he] at h <;> first | rfl | cases h
theorem evn_store (h : evOpc r.ev = some 0x23#7) : evn r.ev = [4] := by
  cases he : r.ev <;> rw [he] at h <;> first | rfl | cases h
theorem evn_branch (h : evOpc r.ev = some 0x63#7) : evn r.ev = [3, 1] := by
  cases he : r.ev <;> rw [he] at h <;> first | rfl | cases h
theorem evn_jal (h : evOpc r.ev = some 0x6f#7) : evn r.ev = [1] := by
  cases he : r.ev <;> rw [he] at h <;> first | rfl | cases h
theorem evn_jalr (h : evOpc r.ev = some 0x67#7) : evn r.ev = [2, 1] := by
  cases he : r.ev <;> rw [he] at h <;> first | rfl | cases h
theorem evn_alu (hn : evNamed rf r) {op : AluOp} {rd rs1 rs2 : BitVec 5} (hi : r.inst = encode (.alu op rd rs1 rs2)) :
    evn r.ev = aluEvents op := by
  have h := ProfTrace.ev_base hn _ hi
  unfold evNamed at hn
  cases he : r.ev <;> rw [he] at h <;> simp only [evOpc, ProfTrace.majOpc, Option.some.injEq, reduceCtorEq] at h
  case alu op' =>
    rw [he] at hn
    have h2 := hn.2
    have d := decode_R (aluF op).1 rs2 rs1 (aluF op).2 rd 0x33#7
    rw [hi] at h2
    simp only [encode, d, regSel_enc] at h2
    cases h2
    rfl
  all_goals exact absurd h (by decide)
theorem evn_c (hn : evNamed rf r) (i : CInstr) (hl : i.legal) (hi : r.inst = encodeC i) : evn r.ev = evs (.base (expand i)) := by
  cases i
  case beqz rs off =>
    simp only [encodeC] at hi
    have d := decode_CB 6#3 (scale 9 1 off) (scale_even 9 off) rs
    rcases ev_cb hn hi d.1 (.inl d.2.1) with ⟨t, e⟩ | ⟨t, e⟩ <;> rw [e] <;> rfl
  case bnez rs off =>
    simp only [encodeC] at hi
    have d := decode_CB 7#3 (scale 9 1 off) (scale_even 9 off) rs
    rcases ev_cb hn hi d.1 (.inr d.2.1) with ⟨t, e⟩ | ⟨t, e⟩ <;> rw [e] <;> rfl
  case alu op _ _ => rw [ProfTrace.cev hn _ hl hi (by simp [ProfTrace.isCB])]; cases op <;> rfl
  case lui rd _ =>
    rw [ProfTrace.cev hn _ hl hi (by simp [ProfTrace.isCB])]
    unfold ProfTrace.copOf
    by_cases e : rd = 0#5 <;> simp [e, expand, evn, evs]
  all_goals
    rw [ProfTrace.cev hn _ hl hi (by simp [ProfTrace.isCB])]
    rfl
theorem evn_ok (hn : evNamed rf r) {m : Option Instr} (hm : Meaning r.inst m) (hc : IP.opcode r.inst ≠ 0x0b#7) :
    evn r.ev = m.elim [] fun i => evs (.base i) := by
  generalize hw : r.inst = w at hm hc
  cases hm with
  | base i =>
    have e := ProfTrace.ev_base hn i hw
    cases i
    case alu op rd rs1 rs2 => exact evn_alu hn hw
    case load => exact evn_load e
    case store => exact evn_store e
    case branch => exact evn_branch e
    case jal => exact evn_jal e
    case jalr => exact evn_jalr e
    all_goals refine evn_opc e ?_ ?_ ?_ ?_ ?_ ?_ <;> simp only [ProfTrace.majOpc] <;> decide
  | comp i hl => exact evn_c hn i hl hw
  | csr a rs1 rd f3 hf => exact evn_opc (ProfTrace.ev_csr hn a rs1 rd f3 hw) nofun nofun nofun nofun nofun nofun
  | custom _ hx => exact absurd ((ProfTrace.opcode_low _).trans hx) hc

/-- a compressed branch to the next instruction is not reported as taken -/
theorem next_falls (hn : evNamed rf r) (hx : ProfTrace.NextBranch r.inst) : takenCall r = false := by
  have one : (scale 9 1 1#8).signExtend 32 = 2#32 := by decide
  obtain ⟨rs, hi⟩ := hx
  rcases hi with hi | hi <;> simp only [encodeC] at hi
  · have d := decode_CB 6#3 (scale 9 1 1#8) (scale_even 9 1#8) rs
    have hv := ev_cb hn hi d.1 (.inl d.2.1)
    unfold evNamed at hn
    rcases hv with ⟨t, e⟩ | ⟨t, e⟩ <;> rw [e] at hn <;> simp only at hn <;> unfold takenCall <;> rw [e] <;> simp only
    · have h2 := hn.2.2
      rw [hi, d.2.2.2.1, one] at h2
      rw [h2]; simp
    · have h2 := hn.2.2.2.2
      rw [hi, d.2.2.2.1, one] at h2
      rw [h2]; simp
  · have d := decode_CB 7#3 (scale 9 1 1#8) (scale_even 9 1#8) rs
    have hv := ev_cb hn hi d.1 (.inr d.2.1)
    unfold evNamed at hn
    rcases hv with ⟨t, e⟩ | ⟨t, e⟩ <;> rw [e] at hn <;> simp only at hn <;> unfold takenCall <;> rw [e] <;> simp only
    · have h2 := hn.2.2
      rw [hi, d.2.2.2.1, one] at h2
      rw [h2]; simp
    · have h2 := hn.2.2.2.2
      rw [hi, d.2.2.2.1, one] at h2
      rw [h2]; simp
/-- only moves are reported as such -/
theorem moves_ok (hn : evNamed rf r) (h0 : rf 0#5 = 0#32) {a : Any} (hw : Word r.inst a) (hc : IP.opcode r.inst ≠ 0x0b#7)
    (h : (takenCall r || r.ev == .mret) = true) : a.moves rf = true := by
  obtain ⟨m, hm, ha⟩ := word_meaning hw hc
  rw [Bool.or_eq_true] at h
  rcases h with h | h
  · by_cases hx : ProfTrace.NextBranch r.inst
    · rw [next_falls hn hx] at h; cases h
    · rw [ProfTrace.taken_ok hn h0 hm hx] at h
      rcases ha with ⟨i, rfl, rfl⟩ | ⟨rfl, -⟩
      · cases i <;> first | rfl | exact h
      · cases h
  · have he : r.ev = .mret := by simpa using h
    have hi : r.inst = 0x30200073#32 := by
      unfold evNamed at hn
      rw [he] at hn
      exact hn
    rw [hi] at hm ha
    rcases ha with ⟨i, rfl, rfl⟩ | ⟨-, -, -, h3⟩
    · generalize hv : (0x30200073#32 : W) = v at hm
      generalize hi : some i = j at hm
      cases hm with
      | base i' =>
        cases hi
        have ho := ProfTrace.opcode_encode i
        rw [← hv] at ho
        cases i
        case mret => rfl
        case ecall | ebreak | wfi => exact absurd hv (by decide)
        all_goals (simp only [ProfTrace.majOpc] at ho; exact absurd ho (by decide))
      | comp i' hl =>
        have := Dasm.cop_encodeC i'
        rw [← hv] at this
        exact absurd this (by decide)
      | csr => cases hi
      | custom => cases hi
    · exact absurd h3 (by decide)
end Ama.PerfCore
