import Verif.Props.ProfJson

/-! # C99: the classes of the instruction summary

What each figure of the printed summary counts, by the names of the instructions the report prints. -/

namespace Ama.Prof

namespace Spec

/-- the printed name of the instruction of an entry -/
def Entry.text : Entry → List Char
  | .g o => o.name.toList
  | .b o .. => o.name.toList

/-- whether a branch or jump is taken -/
def Entry.wasTaken : Entry → Bool
  | .b _ t _ => t
  | .g _ => false

/-- compressed instructions are printed with `c.` in front -/
def isC (n : List Char) : Bool := "c.".toList.isPrefixOf n
/-- the name without `c.` in front -/
def bare (n : List Char) : List Char := if isC n then n.drop 2 else n
/-- the name starts with one of these -/
def starts (l : List String) (n : List Char) : Bool := l.any fun s => s.toList.isPrefixOf n
/-- the name, apart from `c.`, is one of these -/
def oneOf (l : List String) (n : List Char) : Bool := l.any fun s => s.toList == bare n
/-- the name is one of these followed by an element width and perhaps `u` -/
def lanes (l : List String) (n : List Char) : Bool :=
  l.any fun s => ["16", "8", "16u", "8u"].any fun w => s.toList ++ w.toList == n

/-- conditional branches -/
def isBranch : List Char → Bool := oneOf ["beq", "bne", "blt", "bge", "bltu", "bgeu", "beqz", "bnez"]
/-- jumps to a fixed offset -/
def isJal : List Char → Bool := oneOf ["jal", "j"]
/-- jumps to a register -/
def isJalr : List Char → Bool := oneOf ["jalr", "jr"]
def isLoad : List Char → Bool := oneOf ["lb", "lh", "lw", "lbu", "lhu", "lwsp"]
def isStore : List Char → Bool := oneOf ["sb", "sh", "sw", "swsp"]
/-- integer arithmetic other than multiplication and division -/
def isAlu : List Char → Bool := oneOf ["add", "sub", "sll", "srl", "sra", "slt", "sltu", "xor", "or", "and", "addi", "slli",
  "srli", "srai", "slti", "sltiu", "xori", "ori", "andi", "lui", "auipc", "mv", "li", "addi16sp", "addi4spn"]
def isMul : List Char → Bool := oneOf ["mul", "mulh", "mulhsu", "mulhu"]
def isDiv : List Char → Bool := oneOf ["div", "divu", "rem", "remu"]
def isZbb : List Char → Bool := oneOf ["max", "maxu", "min", "minu"]
def isDot : List Char → Bool := starts ["dot"]
/-- element-wise arithmetic other than multiplication -/
def isAluC : List Char → Bool := lanes ["add", "sub", "qadd", "qsub", "min", "max", "slli", "srli", "srai"]
def isMulC : List Char → Bool := lanes ["mul", "mulh", "wmul"]
def isWiden : List Char → Bool := starts ["widen"]
def isNarrow : List Char → Bool := starts ["narrow", "qnarrow"]
def isTxp : List Char → Bool := starts ["txp"]
def isDup : List Char → Bool := starts ["dup"]
def isVins : List Char → Bool := starts ["vins"]
def isVext : List Char → Bool := starts ["vext"]
def isScp : List Char → Bool := starts ["scp."]

/-- how many of the entries have such a name -/
def named (q : List Char → Bool) (es : List Entry) : Nat := es.countP fun e => q e.text
/-- jumps are counted when taken, which they always are -/
def namedTaken (q : List Char → Bool) (es : List Entry) : Nat := es.countP fun e => e.wasTaken && q e.text

end Spec

open Ama.Prof.Spec

theorem sum_countP {α : Type} (w : α → Nat) (q : α → Bool) (hq : ∀ e, w e = if q e then 1 else 0) : ∀ es : List α,
    (es.map w).sum = es.countP q
  | [] => rfl
  | e :: es => by
    rw [List.map_cons, List.sum_cons, List.countP_cons, sum_countP w q hq es, hq]; omega

/-- a class of instructions that do not jump: the figure counts the names -/
theorem sumG_named {p : IProf} {es : List Spec.Entry} (h : Counts p es) {l : List OpG} {q : List Char → Bool}
    (hn : l.Nodup) (hg : ∀ o ∈ allG, q o.name.toList = decide (o ∈ l)) (hb : ∀ o ∈ allB, q o.name.toList = false) :
    p.sumG l = named q es := by
  rw [sumG_eq h hn]
  refine sum_countP _ _ (fun e => ?_) es
  cases e with
  | g o => simp [wG, Entry.text, hg o (mem_allG o)]
  | b o t f => simp [wG, Entry.text, hb o (mem_allB o)]

theorem sumB_named {p : IProf} {es : List Spec.Entry} (h : Counts p es) {l : List OpB} {q : List Char → Bool}
    (hn : l.Nodup) (hb : ∀ o ∈ allB, q o.name.toList = decide (o ∈ l)) (hg : ∀ o ∈ allG, q o.name.toList = false) :
    p.sumB l = named q es := by
  rw [sumB_eq h hn]
  refine sum_countP _ _ (fun e => ?_) es
  cases e with
  | g o => simp [wB, Entry.text, hg o (mem_allG o)]
  | b o t f => simp [wB, Entry.text, hb o (mem_allB o)]

theorem sumT_named {p : IProf} {es : List Spec.Entry} (h : Counts p es) {l : List OpB} {q : List Char → Bool}
    (hn : l.Nodup) (hb : ∀ o ∈ allB, q o.name.toList = decide (o ∈ l)) :
    p.sumT l = namedTaken q es := by
  rw [sumT_eq h hn]
  refine sum_countP _ _ (fun e => ?_) es
  cases e with
  | g o => simp [wT, Entry.wasTaken]
  | b o t f => cases t <;> simp [wT, Entry.text, Entry.wasTaken, hb o (mem_allB o)]

/-- the compressed instructions, of both kinds -/
theorem comp_named {p : IProf} {es : List Spec.Entry} (h : Counts p es) :
    p.sumG compOpcsAlu + p.sumB compOpcsB = named isC es := by
  rw [sumG_eq h (by decide +kernel), sumB_eq h (by decide +kernel), ← sum_add]
  refine sum_countP _ _ (fun e => ?_) es
  have hg : ∀ o ∈ allG, isC o.name.toList = decide (o ∈ compOpcsAlu) := by decide +kernel
  have hb : ∀ o ∈ allB, isC o.name.toList = decide (o ∈ compOpcsB) := by decide +kernel
  cases e with
  | g o => simp [wG, wB, Entry.text, hg o (mem_allG o)]
  | b o t f => simp [wG, wB, Entry.text, hb o (mem_allB o)]

/-- **C99.** The lines a build without compressed instructions leaves out are those whose name starts with `c.` -/
theorem dropped_names : (∀ o : OpG, dotG o = isC o.name.toList) ∧ (∀ o : OpB, dotB o = isC o.name.toList) := by
  constructor <;> intro o <;> cases o <;> decide +kernel

/-- what every figure of the summary counts, in terms of the entries -/
structure Figures (p : IProf) (rv32c : Bool) (es : List Spec.Entry) : Prop where
  comp : (p.summary rv32c).comp = named isC es
  branch : (p.summary rv32c).branch = named isBranch es
  jal : (p.summary rv32c).jal = namedTaken isJal es
  jalr : (p.summary rv32c).jalr = namedTaken isJalr es
  load : p.sumG loadOpcs = named isLoad es
  store : p.sumG storeOpcs = named isStore es
  mem : (p.summary rv32c).mem = named isLoad es + named isStore es
  alu : (p.summary rv32c).alu = named isAlu es
  mul : (p.summary rv32c).mul = named isMul es
  div : (p.summary rv32c).div = named isDiv es
  zbb : (p.summary rv32c).zbb = named isZbb es
  dot : (p.summary rv32c).dot = named isDot es
  aluC : (p.summary rv32c).aluC = named isAluC es
  mulC : (p.summary rv32c).mulC = named isMulC es
  widen : (p.summary rv32c).widen = named isWiden es
  narrow : (p.summary rv32c).narrow = named isNarrow es
  txp : (p.summary rv32c).txp = named isTxp es
  dup : (p.summary rv32c).dup = named isDup es
  vins : (p.summary rv32c).vins = named isVins es
  vext : (p.summary rv32c).vext = named isVext es
  scp : (p.summary rv32c).scp = named isScp es
  nop : (p.summary rv32c).nop = named (· == "nop".toList) es

theorem figures {p : IProf} {es : List Spec.Entry} (h : Counts p es) (rv32c : Bool) : Figures p rv32c es := by
  have ld := sumG_named h (l := loadOpcs) (q := isLoad) (by decide +kernel) (by decide +kernel) (by decide +kernel)
  have sd := sumG_named h (l := storeOpcs) (q := isStore) (by decide +kernel) (by decide +kernel) (by decide +kernel)
  constructor
  · exact comp_named h
  · exact sumB_named h (by decide +kernel) (by decide +kernel) (by decide +kernel)
  · exact sumT_named h (by decide +kernel) (by decide +kernel)
  · exact sumT_named h (by decide +kernel) (by decide +kernel)
  · exact ld
  · exact sd
  · show p.sumG loadOpcs + p.sumG storeOpcs = _
    rw [ld, sd]
  iterate 14 exact sumG_named h (by decide +kernel) (by decide +kernel) (by decide +kernel)
  · rw [show (p.summary rv32c).nop = p.sumG [.i_nop] by simp [IProf.sumG, IProf.summary]]
    exact sumG_named h (by decide +kernel) (by decide +kernel) (by decide +kernel)

/-- **C99.** For every stream of instructions, calls and activations, each figure of the summary is the number of calls made
while active whose instruction has a name of that class. -/
theorem figures_exact (rv32c on : Bool) (evs : List Ev) : ∃ p, run rv32c evs (IProf.make.setActive on) = .ok p ∧
    Figures p rv32c (Spec.logged rv32c on 0#32 evs) := by
  obtain ⟨p, h1, h⟩ := run_counts (rv32c := rv32c) evs (make_counts on) rfl
  rw [List.nil_append] at h
  exact ⟨p, h1, figures h rv32c⟩

/-- a taken compressed branch, a compressed load, an element-wise multiplication while inactive, a jump -/
example : ∃ p, run true [.inst 0xc101#32, .call (.b .i_c_beqz true true), .inst 0x4108#32, .call (.g .i_c_lw), .active false,
      .call (.g .i_mul16), .active true, .inst 0x0000006f#32, .call (.b .i_jal true false)] (IProf.make.setActive true) = .ok p ∧
    (p.summary true).comp = 2 ∧ (p.summary true).branch = 1 ∧ (p.summary true).jal = 1 ∧ (p.summary true).mem = 1 ∧
    (p.summary true).mulC = 0 := by
  obtain ⟨p, h, f⟩ := figures_exact true true [.inst 0xc101#32, .call (.b .i_c_beqz true true), .inst 0x4108#32, .call (.g .i_c_lw),
    .active false, .call (.g .i_mul16), .active true, .inst 0x0000006f#32, .call (.b .i_jal true false)]
  exact ⟨p, h, f.comp.trans (by decide +kernel), f.branch.trans (by decide +kernel), f.jal.trans (by decide +kernel),
    f.mem.trans (by decide +kernel), f.mulC.trans (by decide +kernel)⟩

/-- **C99.** After any run from reset, each figure is the number of instructions of that class the core reported while the
profiler was active. -/
theorem run_figures {σ : Type} {E : Env σ} (hp : E.cfg.profilers = true) {img : W → BitVec 8} {pp : ProfPc} {hs : σ} {n : Nat}
    {s' : St σ} (h : runN E n (initSt E img pp hs) = .ok ((), s')) :
    ∃ p, IProf.replay E.cfg.rv32c s'.profLog = .ok p ∧ Figures p E.cfg.rv32c (entriesOf E.cfg.rv32c s'.profLog) := by
  obtain ⟨new, k, e1, e2, -⟩ := runN_log hp n h
  have i1 : (initSt E img pp hs).profLog = [] := rfl
  rw [i1, List.append_nil] at e1
  subst e1
  obtain ⟨p, h1, h2⟩ := replay_counts E.cfg.rv32c s'.profLog e2
  exact ⟨p, h1, figures h2 _⟩

/-- addi, beq not taken, jal, with the profiler active from the second instruction: one branch, one jump, no arithmetic -/
example : Ama.Ex.obs (runN (Ama.Ex.envP false) 3 (initSt (Ama.Ex.envP false) (Ama.Ex.image [0x00500093#32, 0x00100463#32, 0x0040006f#32])
      ⟨0x80000004#32, 0#32, 1#32, false, 0#32, false, 0#64⟩ ())) (fun s =>
    match IProf.replay false s.profLog with
    | .ok p => some ((p.summary false).branch, (p.summary false).jal, (p.summary false).alu)
    | _ => none) = some (some (1, 1, 0)) := by decide +kernel

end Ama.Prof
