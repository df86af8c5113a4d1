import Verif.Lemmas.ExecI
/-!
# Executing loads and stores: effect on the core part
-/
namespace Ama
open M Spec
variable {σ : Type}

/-! ## The memory map -/

theorem mapFind_ram {u : Bool} {a : W} (h : inRam a) : mapFind a (memMap u) = some (memBase, .main) := by
  obtain ⟨h1, h2⟩ := h
  have : memBase ≤ a ∧ a < memBase + 0x20000#32 := by
    rw [BitVec.le_def, BitVec.lt_def]
    exact ⟨h1, h2⟩
  simp only [memMap, mapFind]
  rw [if_pos this]

theorem not_ram {a : W} (h : ¬ inRam a) : ¬ (memBase ≤ a ∧ a < memBase + 0x20000#32) := by
  rw [BitVec.le_def, BitVec.lt_def]
  exact h

theorem mapFind_none {u : Bool} {a : W} (h : ¬ inRam a) (hd : ¬ inDev u a) :
    mapFind a (memMap u) = none := by
  have hc : ¬ (clintBase ≤ a ∧ a < clintBase + 32#32) := by
    rw [BitVec.le_def, BitVec.lt_def]
    exact fun hh => hd (Or.inr hh)
  cases u
  · simp only [memMap, mapFind, Bool.false_eq_true, if_false, List.nil_append]
    rw [if_neg (not_ram h), if_neg hc]
  · have hu : ¬ (uartBase ≤ a ∧ a < uartBase + 12#32) := by
      rw [BitVec.le_def, BitVec.lt_def]
      exact fun hh => hd (Or.inl ⟨rfl, hh⟩)
    simp only [memMap, mapFind, if_true, List.cons_append, List.nil_append]
    rw [if_neg (not_ram h), if_neg hu, if_neg hc]

theorem mapFind_uart {a : W} (h1 : 0x10013000 ≤ a.toNat) (h2 : a.toNat < 0x1001300c) :
    mapFind a (memMap true) = some (uartBase, .uart) := by
  have hn : ¬ inRam a := fun h => by have := h.1; omega
  have : uartBase ≤ a ∧ a < uartBase + 12#32 := by
    rw [BitVec.le_def, BitVec.lt_def]
    exact ⟨h1, h2⟩
  simp only [memMap, mapFind, if_true, List.cons_append, List.nil_append]
  rw [if_neg (not_ram hn), if_pos this]

theorem mapFind_clint {u : Bool} {a : W} (h1 : 0x02000000 ≤ a.toNat) (h2 : a.toNat < 0x02000020) :
    mapFind a (memMap u) = some (clintBase, .clint) := by
  have hn : ¬ inRam a := fun h => by have := h.1; omega
  have hc : clintBase ≤ a ∧ a < clintBase + 32#32 := by
    rw [BitVec.le_def, BitVec.lt_def]
    exact ⟨h1, h2⟩
  have hu : ¬ (uartBase ≤ a ∧ a < uartBase + 12#32) := by
    rw [BitVec.le_def, BitVec.lt_def]
    intro hh
    have : (0x10013000 : Nat) ≤ a.toNat := hh.1
    omega
  cases u
  · simp only [memMap, mapFind, Bool.false_eq_true, if_false, List.nil_append]
    rw [if_neg (not_ram hn), if_pos hc]
  · simp only [memMap, mapFind, if_true, List.cons_append, List.nil_append]
    rw [if_neg (not_ram hn), if_neg hu, if_pos hc]

theorem ram_off {a : W} (h : inRam a) : (a - memBase).toNat = a.toNat - 0x80000000 := by
  have h1 := h.1
  have : memBase.toNat = 0x80000000 := rfl
  rw [BitVec.toNat_sub, this]
  have := a.isLt
  omega

theorem ram_mod {a : W} (h : inRam a) {n : Nat} (hn : n = 1 ∨ n = 2 ∨ n = 4) :
    (a - memBase).toNat % n = a.toNat % n := by
  have := h.1
  rw [ram_off h]
  rcases hn with rfl | rfl | rfl <;> omega

theorem ram_fit {a : W} (h : inRam a) {n : Nat} (hn : n = 1 ∨ n = 2 ∨ n = 4) (ha : a.toNat % n = 0) :
    (a - memBase).toNat + n ≤ memSize := by
  have h1 := h.1
  have h2 := h.2
  rw [ram_off h, memSize]
  rcases hn with rfl | rfl | rfl <;> omega

/-! ## Address shift between guest and device view -/

theorem sub_add1 (a b : W) : a + 1#32 - b = a - b + 1#32 := by
  rw [BitVec.sub_eq_add_neg, BitVec.sub_eq_add_neg, BitVec.add_assoc, BitVec.add_comm 1#32,
    ← BitVec.add_assoc]

theorem le_shift (f : W → BitVec 8) (b a : W) (n : Nat) :
    le (fun x => f (x - b)) a n = le f (a - b) n := by
  induction n generalizing a with
  | zero => rfl
  | succ n ih => simp only [le]; rw [ih, sub_add1]

theorem put_shift (f : W → BitVec 8) (b a : W) (v n : Nat) :
    put (fun x => f (x - b)) a v n = fun x => put f (a - b) v n (x - b) := by
  funext x
  have : x - b - (a - b) = x - a := by
    apply BitVec.eq_of_toNat_eq
    simp only [BitVec.toNat_sub]
    have := x.isLt; have := a.isLt; have := b.isLt
    omega
  simp only [put, this]

/-! ## RAM accesses through the map -/

theorem loadN_cases (op : LoadOp) : loadN op = 1 ∨ loadN op = 2 ∨ loadN op = 4 := by
  cases op <;> simp [loadN]
theorem storeN_cases (op : StoreOp) : storeN op = 1 ∨ storeN op = 2 ∨ storeN op = 4 := by
  cases op <;> simp [storeN]

section
variable {E : Env σ} {p : St σ} {c : Core} (hc : p.core = c) (hsz : c.Sized) (ht : c.trapped = false)
include hc hsz ht

theorem twp_memRd_ram {ab : Prop} {a : W} {n : Nat} {Q : W → St σ → Prop} (h : inRam a)
    (hn : n = 1 ∨ n = 2 ∨ n = 4) (ha : a.toNat % n = 0)
    (hr : checkAccess (a - memBase) true false false E.regions = true)
    (hq : ∀ q, q.core = c → Q (BitVec.ofNat 32 (le c.ram.bytes (a - memBase) n)) q) :
    twp ab (memRd E a n) Q p := by
  unfold memRd setAddr
  rw [twp_bind, mapFind_ram h]
  simp only [ram_mod h hn, ha, ne_eq, not_true, if_false]
  rw [twp_pure, twp_bind, twp_get, core_trapped hc, ht]
  simp only [devRd]
  unfold mmRd
  rw [twp_bind, twp_ok (guard_ok _ hr), twp_bind, twp_get, core_ram hc,
    c.ram.rd_ok hn (by rw [hsz.1]; exact ram_fit h hn ha) (by rw [hsz.1]; decide), twp_bind, twp_lift_ok,
    twp_bind]
  refine twp_hwUpd fun q h1 _ => ?_
  rw [twp_pure]
  exact hq q (h1.trans hc)

omit hsz in
theorem twp_memRd_denied {a : W} {n : Nat} {Q : W → St σ → Prop} (h : inRam a)
    (hn : n = 1 ∨ n = 2 ∨ n = 4) (ha : a.toNat % n = 0)
    (hr : checkAccess (a - memBase) true false false E.regions = false) :
    twp True (memRd E a n) Q p := by
  unfold memRd setAddr
  rw [twp_bind, mapFind_ram h]
  simp only [ram_mod h hn, ha, ne_eq, not_true, if_false]
  rw [twp_pure, twp_bind, twp_get, core_trapped hc, ht]
  simp only [devRd]
  unfold mmRd
  rw [twp_bind, twp_abort (guard_abort _ hr)]
  trivial

theorem twp_memWr_ram {ab : Prop} {a v : W} {n : Nat} {Q : Unit → St σ → Prop} (h : inRam a)
    (hn : n = 1 ∨ n = 2 ∨ n = 4) (ha : a.toNat % n = 0)
    (hr : checkAccess (a - memBase) false true false E.regions = true)
    (hq : ∀ q, q.core = { c with ram := { c.ram with bytes := put c.ram.bytes (a - memBase) v.toNat n } } →
      Q () q) :
    twp ab (memWr E a v n) Q p := by
  unfold memWr setAddr
  rw [twp_bind, mapFind_ram h]
  simp only [ram_mod h hn, ha, ne_eq, not_true, if_false]
  rw [twp_pure, twp_bind, twp_get, core_trapped hc, ht]
  simp only [devWr]
  unfold mmWr
  rw [twp_bind, twp_ok (guard_ok _ hr), twp_bind, twp_get, core_ram hc,
    c.ram.wr_ok v hn (by rw [hsz.1]; exact ram_fit h hn ha) (by rw [hsz.1]; decide), twp_bind, twp_lift_ok,
    twp_bind, twp_mod]
  refine twp_hwUpd fun q h1 _ => ?_
  apply hq
  rw [h1, ← hc]
  rfl

omit hsz in
theorem twp_memWr_denied {a v : W} {n : Nat} {Q : Unit → St σ → Prop} (h : inRam a)
    (hn : n = 1 ∨ n = 2 ∨ n = 4) (ha : a.toNat % n = 0)
    (hr : checkAccess (a - memBase) false true false E.regions = false) :
    twp True (memWr E a v n) Q p := by
  unfold memWr setAddr
  rw [twp_bind, mapFind_ram h]
  simp only [ram_mod h hn, ha, ne_eq, not_true, if_false]
  rw [twp_pure, twp_bind, twp_get, core_trapped hc, ht]
  simp only [devWr]
  unfold mmWr
  rw [twp_bind, twp_abort (guard_abort _ hr)]
  trivial

omit hsz ht in
/-- misaligned access in RAM: trap value is the offset in RAM -/
theorem twp_setAddr_mis {ab : Prop} {a : W} {n : Nat} {op : MemOp} {Q : Option (DevId × W) → St σ → Prop}
    (h : inRam a) (hn : n = 1 ∨ n = 2 ∨ n = 4) (ha : a.toNat % n ≠ 0)
    (hq : ∀ q, q.core = trapCore (match op with | .read => 4#32 | .write => 6#32) (a - memBase) c →
      Q none q) :
    twp ab (setAddr E a op n) Q p := by
  unfold setAddr
  rw [mapFind_ram h]
  simp only [ram_mod h hn, ha, ne_eq, not_false_iff, if_true]
  unfold eDmemMisaligned
  rw [twp_bind, twp_trap, twp_pure]
  apply hq
  rw [trapTo_core, hc]
  cases op <;> rfl

omit hsz ht in
theorem twp_setAddr_fault {ab : Prop} {a : W} {n : Nat} {op : MemOp} {Q : Option (DevId × W) → St σ → Prop}
    (h : ¬ inRam a) (hd : ¬ inDev E.cfg.uart a)
    (hq : ∀ q, q.core = trapCore (match op with | .read => 5#32 | .write => 7#32) a c →
      Q none q) :
    twp ab (setAddr E a op n) Q p := by
  unfold setAddr
  rw [mapFind_none h hd]
  simp only
  unfold eDmemAccess
  rw [twp_bind, twp_trap, twp_pure]
  apply hq
  rw [trapTo_core, hc]
  cases op <;> rfl

/-! ## Load instructions -/
variable (h0 : c.rf 0#5 = 0#32)
include h0

omit hsz ht in
theorem exec_load_start {ab : Prop} {op : LoadOp} {rd rs1 : BitVec 5} {imm : BitVec 12}
    {Q : Unit → St σ → Prop} (hi : c.inst = encode (.load op rd rs1 imm))
    (hx : twp ab (do
      let v ← loadVal E op (rx c.rf rs1 + imm.signExtend 32)
      let t ← get (·.trapped)
      if t then pure ()
      else do
        writeRf rd v
        emit E (.load op)
        nextSeq 4#32) Q p) : twp ab (exec E) Q p := by
  obtain ⟨d1, d2, d3, d4, d5, -⟩ := decode_I imm rs1 (loadF op) rd 0x03#7
  have hpi : p.inst = encI imm rs1 (loadF op) rd 0x03#7 := (core_inst hc).trans hi
  refine twp_exec32 (copcode_of _ 0x03#7 (by rw [hpi]; exact d1) rfl) ?_
  rw [hpi]
  have hp0 : p.rf 0#5 = 0#32 := by rw [core_rf hc]; exact h0
  have hsel : loadSel (loadF op) = some op := by cases op <;> rfl
  simp only [exec32, d1, dLoad, d3, hsel]
  rw [twp_bind, twp_rg hp0, core_rf hc, d2, d4, d5]
  exact hx

theorem exec_load_ok {op : LoadOp} {rd rs1 : BitVec 5} {imm : BitVec 12}
    (hi : c.inst = encode (.load op rd rs1 imm)) {ad : W} (had : ad = rx c.rf rs1 + imm.signExtend 32)
    (h : inRam ad) (ha : ad.toNat % loadN op = 0)
    (hr : checkAccess (ad - memBase) true false false E.regions = true) :
    ExecTo E p { c with
      rf := wx c.rf rd (loadExt op (le c.ram.bytes (ad - memBase) (loadN op)))
      nextPc := c.pc + 4#32 } := by
  intro ab Q hq
  refine exec_load_start hc h0 hi ?_
  rw [← had]
  have tail : ∀ v, v = loadExt op (le c.ram.bytes (ad - memBase) (loadN op)) → ∀ q, q.core = c →
      twp ab (do
        let t ← get (·.trapped)
        if t then pure ()
        else do
          writeRf rd v
          emit E (.load op)
          nextSeq 4#32) Q q := by
    intro v hv q hqc
    rw [twp_bind, twp_get, core_trapped hqc, ht]
    simp only [Bool.false_eq_true, if_false]
    rw [hv]
    exact twp_tail hqc hq
  have w8 : ∀ v : Nat, (BitVec.ofNat 32 v).setWidth 8 = BitVec.ofNat 8 v := by
    intro v; apply BitVec.eq_of_toNat_eq; simp
  have w16 : ∀ v : Nat, (BitVec.ofNat 32 v).setWidth 16 = BitVec.ofNat 16 v := by
    intro v; apply BitVec.eq_of_toNat_eq; simp
  rw [twp_bind]
  cases op <;> simp only [loadVal, loadN] at ha ⊢
  case lb =>
    rw [twp_bind]
    refine twp_memRd_ram hc hsz ht h (by simp) ha hr fun q h1 => ?_
    rw [twp_pure]
    exact tail _ (by simp only [loadExt, loadN, w8]) q h1
  case lh =>
    rw [twp_bind]
    refine twp_memRd_ram hc hsz ht h (by simp) ha hr fun q h1 => ?_
    rw [twp_pure]
    exact tail _ (by simp only [loadExt, loadN, w16]) q h1
  all_goals
    refine twp_memRd_ram hc hsz ht h (by simp) ha hr fun q h1 => ?_
    exact tail _ rfl q h1

omit hsz ht in
/-- loads that do not reach memory -/
theorem exec_load_trap {op : LoadOp} {rd rs1 : BitVec 5} {imm : BitVec 12}
    (hi : c.inst = encode (.load op rd rs1 imm)) {ad : W} (had : ad = rx c.rf rs1 + imm.signExtend 32)
    {c' : Core} (hc' : c'.trapped = true)
    (hsa : ∀ (ab : Prop) (Q : Option (DevId × W) → St σ → Prop), (∀ q, q.core = c' → Q none q) →
      twp ab (setAddr E ad .read (loadN op)) Q p) :
    ExecTo E p c' := by
  intro ab Q hq
  refine exec_load_start hc h0 hi ?_
  rw [← had]
  have tail : ∀ v q, q.core = c' → twp ab (do
        let t ← get (·.trapped)
        if t then pure ()
        else do
          writeRf rd v
          emit E (.load op)
          nextSeq 4#32) Q q := by
    intro v q hqc
    rw [twp_bind, twp_get, core_trapped hqc, hc']
    simp only [if_true]
    rw [twp_pure]
    exact hq q hqc
  have mem : ∀ (R : W → St σ → Prop), (∀ q, q.core = c' → R 0#32 q) →
      twp ab (memRd E ad (loadN op)) R p := by
    intro R hR
    unfold memRd
    rw [twp_bind]
    refine hsa _ _ fun q hqc => ?_
    rw [twp_bind, twp_get, core_trapped hqc, hc']
    simp only
    rw [twp_pure]
    exact hR q hqc
  rw [twp_bind]
  cases op <;> simp only [loadVal, loadN] at mem ⊢
  case lb => rw [twp_bind]; exact mem _ fun q h1 => tail _ q h1
  case lh => rw [twp_bind]; exact mem _ fun q h1 => tail _ q h1
  all_goals exact mem _ fun q h1 => tail _ q h1

omit hsz in
theorem exec_load_denied {op : LoadOp} {rd rs1 : BitVec 5} {imm : BitVec 12}
    (hi : c.inst = encode (.load op rd rs1 imm)) {ad : W} (had : ad = rx c.rf rs1 + imm.signExtend 32)
    (h : inRam ad) (ha : ad.toNat % loadN op = 0)
    (hr : checkAccess (ad - memBase) true false false E.regions = false) :
    twp True (exec E) (fun _ _ => False) p := by
  refine exec_load_start hc h0 hi ?_
  rw [← had, twp_bind]
  cases op <;> simp only [loadVal, loadN] at ha ⊢
  case lb => rw [twp_bind]; exact twp_memRd_denied hc ht h (by simp) ha hr
  case lh => rw [twp_bind]; exact twp_memRd_denied hc ht h (by simp) ha hr
  all_goals exact twp_memRd_denied hc ht h (by simp) ha hr

/-! ## Store instructions -/

omit hsz ht in
theorem exec_store_start {ab : Prop} {op : StoreOp} {rs2 rs1 : BitVec 5} {imm : BitVec 12}
    {Q : Unit → St σ → Prop} (hi : c.inst = encode (.store op rs2 rs1 imm))
    (hx : twp ab (do
      memWr E (rx c.rf rs1 + imm.signExtend 32) (rx c.rf rs2) (storeN op)
      let t ← get (·.trapped)
      if t then pure ()
      else do
        emit E (.store op)
        nextSeq 4#32) Q p) : twp ab (exec E) Q p := by
  obtain ⟨d1, d3, d4, d2, d5⟩ := decode_S imm rs2 rs1 (storeF op) 0x23#7
  have hpi : p.inst = encS imm rs2 rs1 (storeF op) 0x23#7 := (core_inst hc).trans hi
  refine twp_exec32 (copcode_of _ 0x23#7 (by rw [hpi]; exact d1) rfl) ?_
  rw [hpi]
  have hp0 : p.rf 0#5 = 0#32 := by rw [core_rf hc]; exact h0
  have hsel : storeSel (storeF op) = some op := by cases op <;> rfl
  have hb : op.bytes = storeN op := by cases op <;> rfl
  simp only [exec32, d1, dStore, d3, hsel]
  rw [twp_bind, twp_rg hp0, twp_bind, twp_rg hp0, core_rf hc, d2, d4, d5, hb]
  exact hx

theorem exec_store_ok {op : StoreOp} {rs2 rs1 : BitVec 5} {imm : BitVec 12}
    (hi : c.inst = encode (.store op rs2 rs1 imm)) {ad : W} (had : ad = rx c.rf rs1 + imm.signExtend 32)
    (h : inRam ad) (ha : ad.toNat % storeN op = 0)
    (hr : checkAccess (ad - memBase) false true false E.regions = true) :
    ExecTo E p { c with
      ram := { c.ram with bytes := put c.ram.bytes (ad - memBase) (rx c.rf rs2).toNat (storeN op) }
      nextPc := c.pc + 4#32 } := by
  intro ab Q hq
  refine exec_store_start hc h0 hi ?_
  rw [← had, twp_bind]
  refine twp_memWr_ram hc hsz ht h (storeN_cases op) ha hr fun q h1 => ?_
  rw [twp_bind, twp_get, core_trapped h1, ht]
  simp only [Bool.false_eq_true, if_false]
  rw [twp_bind]
  refine twp_emit fun q2 h2 _ => ?_
  exact twp_nextSeq (h2.trans h1) hq

omit hsz ht in
/-- stores that do not reach memory -/
theorem exec_store_trap {op : StoreOp} {rs2 rs1 : BitVec 5} {imm : BitVec 12}
    (hi : c.inst = encode (.store op rs2 rs1 imm)) {ad : W} (had : ad = rx c.rf rs1 + imm.signExtend 32)
    {c' : Core} (hc' : c'.trapped = true)
    (hsa : ∀ (ab : Prop) (Q : Option (DevId × W) → St σ → Prop), (∀ q, q.core = c' → Q none q) →
      twp ab (setAddr E ad .write (storeN op)) Q p) :
    ExecTo E p c' := by
  intro ab Q hq
  refine exec_store_start hc h0 hi ?_
  rw [← had, twp_bind]
  unfold memWr
  rw [twp_bind]
  refine hsa _ _ fun q hqc => ?_
  rw [twp_bind, twp_get, core_trapped hqc, hc']
  simp only
  rw [twp_pure, twp_bind, twp_get, core_trapped hqc, hc']
  simp only [if_true]
  rw [twp_pure]
  exact hq q hqc

omit hsz in
theorem exec_store_denied {op : StoreOp} {rs2 rs1 : BitVec 5} {imm : BitVec 12}
    (hi : c.inst = encode (.store op rs2 rs1 imm)) {ad : W} (had : ad = rx c.rf rs1 + imm.signExtend 32)
    (h : inRam ad) (ha : ad.toNat % storeN op = 0)
    (hr : checkAccess (ad - memBase) false true false E.regions = false) :
    twp True (exec E) (fun _ _ => False) p := by
  refine exec_store_start hc h0 hi ?_
  rw [← had, twp_bind]
  exact twp_memWr_denied hc ht h (storeN_cases op) ha hr

end
end Ama
