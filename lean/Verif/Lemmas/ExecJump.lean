import Verif.Lemmas.ExecMem
/-!
# Executing control transfers and system instructions: effect on the core part
-/
namespace Ama
open M Spec
variable {σ : Type}

theorem dbl_even {n : Nat} (off : BitVec n) : (dbl off).getLsbD 0 = false := by simp [dbl]

theorem misaligned_iff (E : Env σ) {a : W} (h : a.toNat % 2 = 0) :
    misaligned E a = true ↔ ¬ ialigned E.cfg.rv32c a := by
  unfold misaligned ialigned
  cases E.cfg.rv32c
  · simp
  · simp [h]

/-- the predictor offers one of the two successors of the branch (or nothing, for the `none`
predictor, whose answer 0 is never a successor), and both successors can be fetched -/
def BrOk (E : Env σ) (pc imm : W) : Prop :=
  E.cfg.hwModels = true →
    (∀ f3 h, if E.cfg.noBp then (E.hw.bpPredict pc imm f3 h).1 = 0#32
      else (E.hw.bpPredict pc imm f3 h).1 = pc + imm ∨ (E.hw.bpPredict pc imm f3 h).1 = pc + 4#32) ∧
    Fetchable E (pc + 4#32) ∧ Fetchable E (pc + imm) ∧
    (E.cfg.noBp = true → pc + imm ≠ 0#32 ∧ pc + 4#32 ≠ 0#32)

theorem br_cond (op : BranchOp) (a b : W) : branchCond op a b = taken op a b := by
  cases op
  case bge =>
    simp only [branchCond, taken, BitVec.slt]
    by_cases h : b.toInt ≤ a.toInt
    · have : ¬ a.toInt < b.toInt := by omega
      simp [h, this]
    · have : a.toInt < b.toInt := by omega
      simp [h, this]
  case bgeu =>
    simp only [branchCond, taken, BitVec.ult]
    by_cases h : b.toNat ≤ a.toNat
    · have : ¬ a.toNat < b.toNat := by omega
      simp [h, this]
    · have : a.toNat < b.toNat := by omega
      simp [h, this]
  case bne =>
    simp only [branchCond, taken]
    by_cases h : a = b <;> simp [h]
  case beq =>
    simp only [branchCond, taken]
    by_cases h : a = b <;> simp [h]
  all_goals simp [branchCond, taken, BitVec.slt, BitVec.ult]

theorem twp_branchHw {ab : Prop} {E : Env σ} {w : W} {p : St σ} {c : Core} {Q : Unit → St σ → Prop}
    (hc : p.core = c) (hsz : c.Sized) (hb : BrOk E c.pc (IP.immB w)) (hm : E.cfg.hwModels = true)
    (hn : c.nextPc = c.pc + IP.immB w ∨ c.nextPc = c.pc + 4#32)
    (hq : ∀ q, q.core = c → q.lastInstBranch = true → q.instResolved = wordAt c.ram c.nextPc → Q () q) :
    twp ab (branchHw E w) Q p := by
  obtain ⟨hp, hf4, hfi, hz⟩ := hb hm
  have hfn : Fetchable E c.nextPc := by rcases hn with h | h <;> rw [h] <;> assumption
  have hram : c.ram.size = memSize := hsz.1
  unfold branchHw
  rw [twp_bind, twp_mod]
  generalize hp1 : ({ p with lastInstBranch := true, hw := E.hw.bpIdeal p.nextPc p.hw } : St σ) = p1
  have c1 : p1.core = c := by rw [← hp1]; exact hc
  have l1 : p1.lastInstBranch = true := by rw [← hp1]
  rw [twp_bind, twp_get, twp_bind, twp_get, core_pc c1]
  have hp' := hp (IP.funct3 w) p1.hw
  generalize E.hw.bpPredict c.pc (IP.immB w) (IP.funct3 w) p1.hw = r at *
  have fin : ∀ q : St σ, q.core = c → q.lastInstBranch = true →
      (r.1 = c.nextPc → q.instSpec = some (wordAt c.ram c.nextPc)) → twp ab (do
        mod fun s => { s with hw := E.hw.bpUpdate s.pc s.nextPc s.hw }
        let n ← get (·.nextPc)
        if n = r.1 then do
          let sp ← get (·.instSpec)
          match sp with
          | some i => mod fun s => { s with instResolved := i }
          | none => fun _ => .ub .uninit
        else do
          let i ← rdInst E n
          mod fun s => { s with instResolved := i }) Q q := by
    intro q h1 h2 h3
    rw [twp_bind, twp_mod]
    generalize hqq : ({ q with hw := E.hw.bpUpdate q.pc q.nextPc q.hw } : St σ) = q'
    have c' : q'.core = c := by rw [← hqq]; exact h1
    have l' : q'.lastInstBranch = true := by rw [← hqq]; exact h2
    have i' : r.1 = c.nextPc → q'.instSpec = some (wordAt c.ram c.nextPc) := by rw [← hqq]; exact h3
    rw [twp_bind, twp_get, core_nextPc c', twp_ite]
    split
    · rename_i he
      rw [twp_bind, twp_get, i' he.symm]
      dsimp only
      rw [twp_mod]
      exact hq _ c' l' rfl
    · rw [twp_bind]
      refine twp_rdInst (by rw [core_ram c']; exact hram) hfn fun q2 c2 l2 _ => ?_
      rw [twp_mod]
      refine hq _ (c2.trans c') (l2.trans l') ?_
      dsimp only
      rw [core_ram c']
  rw [twp_bind, twp_mod]
  generalize hpp : ({ p1 with hw := r.2 } : St σ) = p'
  have c' : p'.core = c := by rw [← hpp]; exact c1
  have l' : p'.lastInstBranch = true := by rw [← hpp]; exact l1
  rw [twp_bind, twp_ite]
  split
  · rename_i hno
    rw [hno] at hp'
    simp only [if_true] at hp'
    rw [twp_pure]
    refine fin _ c' l' fun he => ?_
    obtain ⟨z1, z2⟩ := hz hno
    exfalso
    rw [hp'] at he
    rcases hn with h | h
    · exact z1 (by rw [← h, ← he])
    · exact z2 (by rw [← h, ← he])
  · rename_i hno
    rw [if_neg hno] at hp'
    have hfr : Fetchable E r.1 := by rcases hp' with h | h <;> rw [h] <;> assumption
    rw [twp_bind]
    refine twp_rdInst (by rw [core_ram c']; exact hram) hfr fun q2 c2 l2 _ => ?_
    rw [twp_mod]
    refine fin _ (c2.trans c') (l2.trans l') fun he => ?_
    dsimp only
    rw [core_ram c', he]

section
variable {E : Env σ} {p : St σ} {c : Core} (hc : p.core = c) (hsz : c.Sized) (ht : c.trapped = false)
  (h0 : c.rf 0#5 = 0#32)
include hc h0

theorem exec_branch_start {ab : Prop} {op : BranchOp} {rs1 rs2 : BitVec 5} {off : BitVec 12}
    {Q : Unit → St σ → Prop} (hi : c.inst = encode (.branch op rs1 rs2 off))
    (hx : ∀ q n, n = (if taken op (rx c.rf rs1) (rx c.rf rs2) then c.pc + (dbl off).signExtend 32
        else c.pc + 4#32) → q.core = { c with nextPc := n } → twp ab (
      if misaligned E n then eInstMisaligned n
      else if E.cfg.hwModels then branchHw E (encode (.branch op rs1 rs2 off))
      else pure ()) Q q) : twp ab (exec E) Q p := by
  obtain ⟨d1, d3, d4, d2, d5⟩ := decode_B (dbl off) (dbl_even off) rs2 rs1 (branchF op) 0x63#7
  have hpi : p.inst = encB (dbl off) rs2 rs1 (branchF op) 0x63#7 := (core_inst hc).trans hi
  refine twp_exec32 (copcode_of _ 0x63#7 (by rw [hpi]; exact d1) rfl) ?_
  rw [hpi]
  have hsel : branchSel (branchF op) = some op := by cases op <;> rfl
  simp only [exec32, d1, dBranch, d3, hsel]
  rw [twp_bind, twp_get, core_pc hc, twp_bind]
  refine twp_setNext hc fun q1 h1 => ?_
  have hp0 : q1.rf 0#5 = 0#32 := by rw [core_rf h1]; exact h0
  rw [twp_bind, twp_bind, twp_rg hp0, twp_bind, twp_rg hp0, core_rf h1, d2, d4, d5, br_cond, twp_ite]
  split
  · rename_i htk
    rw [twp_bind]
    refine twp_setNext h1 fun q2 h2 => ?_
    refine twp_emit fun q3 h3 _ => ?_
    rw [twp_bind, twp_get, core_nextPc (h3.trans h2)]
    refine hx q3 _ ?_ (h3.trans h2)
    exact (if_pos htk).symm
  · rename_i htk
    refine twp_emit fun q3 h3 _ => ?_
    rw [twp_bind, twp_get, core_nextPc (h3.trans h1)]
    refine hx q3 _ ?_ (h3.trans h1)
    exact (if_neg htk).symm

include hsz in
theorem exec_branch_ok {op : BranchOp} {rs1 rs2 : BitVec 5} {off : BitVec 12}
    (hi : c.inst = encode (.branch op rs1 rs2 off)) (hb : BrOk E c.pc ((dbl off).signExtend 32))
    {n : W} (hn : n = if taken op (rx c.rf rs1) (rx c.rf rs2) then c.pc + (dbl off).signExtend 32
        else c.pc + 4#32) (hal : misaligned E n = false) (ab : Prop) (Q : Unit → St σ → Prop)
    (hq : ∀ q, q.core = { c with nextPc := n } →
      (E.cfg.hwModels = true → q.lastInstBranch = true → q.instResolved = wordAt c.ram n) → Q () q) :
    twp ab (exec E) Q p := by
  refine exec_branch_start hc h0 hi fun q n' hn' hqc => ?_
  rw [← hn] at hn'
  subst hn'
  rw [hal]
  simp only [Bool.false_eq_true, if_false]
  have d5 : IP.immB (encode (.branch op rs1 rs2 off)) = (dbl off).signExtend 32 :=
    (decode_B (dbl off) (dbl_even off) rs2 rs1 (branchF op) 0x63#7).2.2.2.2
  rw [twp_ite]
  split
  · rename_i hm
    refine twp_branchHw hqc hsz (by rw [d5]; exact hb) hm ?_ fun q2 h2 _ hr => hq q2 h2 fun _ _ => hr
    rw [d5, hn]
    dsimp only
    split
    · exact Or.inl rfl
    · exact Or.inr rfl
  · rename_i hm
    rw [twp_pure]
    exact hq q hqc fun h => absurd h hm

theorem exec_branch_mis {op : BranchOp} {rs1 rs2 : BitVec 5} {off : BitVec 12}
    (hi : c.inst = encode (.branch op rs1 rs2 off))
    {n : W} (hn : n = if taken op (rx c.rf rs1) (rx c.rf rs2) then c.pc + (dbl off).signExtend 32
        else c.pc + 4#32) (hal : misaligned E n = true) :
    ExecTo E p (trapCore 0#32 n { c with nextPc := n }) := by
  intro ab Q hq
  refine exec_branch_start hc h0 hi fun q n' hn' hqc => ?_
  rw [← hn] at hn'
  subst hn'
  rw [hal]
  simp only [if_true]
  unfold eInstMisaligned
  rw [twp_trap]
  apply hq
  rw [trapTo_core, hqc]

theorem exec_jalr {rd rs1 : BitVec 5} {imm : BitVec 12} (hi : c.inst = encode (.jalr rd rs1 imm))
    {n : W} (hn : n = (rx c.rf rs1 + imm.signExtend 32) &&& 0xfffffffe#32) :
    ExecTo E p (if misaligned E n then trapCore 0#32 n { c with nextPc := n }
      else { c with nextPc := n, rf := wx c.rf rd (c.pc + 4#32) }) := by
  intro ab Q hq
  obtain ⟨d1, d2, d3, d4, d5, -⟩ := decode_I imm rs1 0#3 rd 0x67#7
  have hpi : p.inst = encI imm rs1 0#3 rd 0x67#7 := (core_inst hc).trans hi
  refine twp_exec32 (copcode_of _ 0x67#7 (by rw [hpi]; exact d1) rfl) ?_
  rw [hpi]
  have hp0 : p.rf 0#5 = 0#32 := by rw [core_rf hc]; exact h0
  simp only [exec32, d1, dJalr, d2, d3, d4, d5, ne_eq, not_true, if_false]
  rw [twp_bind, twp_pure, twp_bind, twp_rg hp0, core_rf hc, ← hn, twp_bind]
  refine twp_setNext hc fun q1 h1 => ?_
  rw [twp_bind, twp_ite]
  split
  · rename_i hal
    unfold eInstMisaligned
    rw [twp_trap]
    refine twp_emit fun q2 h2 _ => hq q2 ?_
    rw [h2, trapTo_core, h1, if_pos hal]
  · rename_i hal
    rw [twp_bind, twp_get, core_pc h1]
    refine twp_wrRf h1 fun q2 h2 => ?_
    refine twp_emit fun q3 h3 _ => hq q3 ?_
    rw [h3, h2, if_neg hal]

omit h0 in
theorem exec_jal {rd : BitVec 5} {off : BitVec 20} (hi : c.inst = encode (.jal rd off))
    {n : W} (hn : n = c.pc + (dbl off).signExtend 32) :
    ExecTo E p (if misaligned E n then trapCore 0#32 n { c with nextPc := n }
      else { c with nextPc := n, rf := wx c.rf rd (c.pc + 4#32) }) := by
  intro ab Q hq
  obtain ⟨d1, d2, d3⟩ := decode_J (dbl off) (dbl_even off) rd 0x6f#7
  have hpi : p.inst = encJ (dbl off) rd 0x6f#7 := (core_inst hc).trans hi
  refine twp_exec32 (copcode_of _ 0x6f#7 (by rw [hpi]; exact d1) rfl) ?_
  rw [hpi]
  simp only [exec32, d1, dJal, d2, d3]
  rw [twp_bind, twp_get, core_pc hc, ← hn, twp_bind]
  refine twp_setNext hc fun q1 h1 => ?_
  rw [twp_bind, twp_ite]
  split
  · rename_i hal
    unfold eInstMisaligned
    rw [twp_trap]
    refine twp_emit fun q2 h2 _ => hq q2 ?_
    rw [h2, trapTo_core, h1, if_pos hal]
  · rename_i hal
    refine twp_wrRf h1 fun q2 h2 => ?_
    refine twp_emit fun q3 h3 _ => hq q3 ?_
    rw [h3, h2, if_neg hal]

/-! ## System -/

omit h0

theorem exec_ecall (hi : c.inst = encode .ecall) :
    ExecTo E p (trapCore 11#32 (encode .ecall) c) := by
  intro ab Q hq
  have hpi : p.inst = 0x73#32 := (core_inst hc).trans hi
  refine twp_exec32 (by rw [hpi]; decide) ?_
  rw [hpi]
  have e : exec32 E 0x73#32 = eEnv 11#32 := rfl
  rw [e]
  unfold eEnv
  rw [twp_bind, twp_get, hpi, twp_trap]
  apply hq
  rw [trapTo_core, hc]
  rfl

theorem exec_ebreak (hi : c.inst = encode .ebreak) :
    ExecTo E p (trapCore 3#32 (encode .ebreak) c) := by
  intro ab Q hq
  have hpi : p.inst = 0x100073#32 := (core_inst hc).trans hi
  refine twp_exec32 (by rw [hpi]; decide) ?_
  rw [hpi]
  have e : exec32 E 0x100073#32 = eEnv 3#32 := rfl
  rw [e]
  unfold eEnv
  rw [twp_bind, twp_get, hpi, twp_trap]
  apply hq
  rw [trapTo_core, hc]
  rfl

/-- what the code computes for mstatus on MRET -/
def mretCode (m : W) : W := (m &&& ~~~0x8#32) ||| ((m &&& 0x80#32) >>> 4) ||| (m ||| 0x80#32)

theorem exec_mret (hi : c.inst = encode .mret) :
    ExecTo E p { c with csr := upd c.csr A.mstatus (mretCode (c.csr A.mstatus)), nextPc := c.csr A.mepc } := by
  intro ab Q hq
  have hpi : p.inst = 0x30200073#32 := (core_inst hc).trans hi
  refine twp_exec32 (by rw [hpi]; decide) ?_
  rw [hpi]
  have e : exec32 E 0x30200073#32 = (do mretStateUpdate; emit E .mret) := rfl
  rw [e]
  unfold mretStateUpdate
  rw [twp_bind, twp_mod]
  refine twp_emit fun q h1 _ => hq q ?_
  rw [h1, ← hc]
  rfl

theorem exec_wfi (hi : c.inst = encode .wfi) :
    ExecTo E p { c with wfiPend := true, nextPc := c.pc + 4#32 } := by
  intro ab Q hq
  have hpi : p.inst = 0x10500073#32 := (core_inst hc).trans hi
  refine twp_exec32 (by rw [hpi]; decide) ?_
  rw [hpi]
  have e : exec32 E 0x10500073#32 = (do
    nextSeq 4#32
    mod fun s => { s with wfiPend := true }
    emit E .wfi) := rfl
  rw [e, twp_bind]
  refine twp_nextSeq hc fun q1 h1 => ?_
  rw [twp_bind, twp_mod]
  refine twp_emit fun q h2 _ => hq q ?_
  have : ({ q1 with wfiPend := true } : St σ).core = { q1.core with wfiPend := true } := rfl
  rw [h2, this, h1]

theorem exec_fence {imm : BitVec 12} {rs1 rd : BitVec 5} (hi : c.inst = encode (.fence imm rs1 rd)) :
    ExecTo E p { c with nextPc := c.pc + 4#32 } := by
  intro ab Q hq
  obtain ⟨d1, d2, d3, -⟩ := decode_I imm rs1 0#3 rd 0x0f#7
  have hpi : p.inst = encI imm rs1 0#3 rd 0x0f#7 := (core_inst hc).trans hi
  refine twp_exec32 (copcode_of _ 0x0f#7 (by rw [hpi]; exact d1) rfl) ?_
  rw [hpi]
  have hne : encI imm rs1 0#3 rd 0x0f#7 ≠ 0x100f#32 := by
    intro h
    rw [h] at d3
    revert d3
    decide
  simp only [exec32, d1, dMiscMem, d3, hne, if_false, if_true]
  rw [twp_bind]
  refine twp_nextSeq hc fun q1 h1 => ?_
  exact twp_emit fun q h2 _ => hq q (h2.trans h1)

theorem exec_fencei (hi : c.inst = encode .fencei) :
    ExecTo E p { c with nextPc := c.pc + 4#32 } := by
  intro ab Q hq
  have hpi : p.inst = 0x100f#32 := (core_inst hc).trans hi
  refine twp_exec32 (by rw [hpi]; decide) ?_
  rw [hpi]
  have e : exec32 E 0x100f#32 = (do nextSeq 4#32; emit E .fenceI) := rfl
  rw [e, twp_bind]
  refine twp_nextSeq hc fun q1 h1 => ?_
  exact twp_emit fun q h2 _ => hq q (h2.trans h1)

end
end Ama
