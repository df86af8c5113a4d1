import Verif.Props.Elf
import Verif.Lemmas.Sized
import Verif.Lemmas.ExecMem
import Verif.Lemmas.Ex
/-!
# C29: segment permissions
-/
namespace Ama.Spec
/-- the region offset `x` belongs to: the first one listed containing it -/
def owner (regs : List Region) (x : Nat) : Option Region :=
  regs.find? fun g => g.base.toNat ≤ x && x < g.base.toNat + g.size.toNat
/-- offset `x` may be written: no region claims it or its region is writable -/
def mayWrite (regs : List Region) (x : Nat) : Bool := (owner regs x).all (·.w)
/-- offset `x` may be read -/
def mayRead (regs : List Region) (x : Nat) : Bool := (owner regs x).all (·.r)
/-- offset `x` may be executed -/
def mayExec (regs : List Region) (x : Nat) : Bool := (owner regs x).all (·.x)
/-- no region extends past the address space -/
def noWrap (regs : List Region) : Prop := ∀ g ∈ regs, g.base.toNat + g.size.toNat < 2 ^ 32
/-- region boundaries are word boundaries -/
def wordBounds (regs : List Region) : Prop := ∀ g ∈ regs, g.base.toNat % 4 = 0 ∧ g.size.toNat % 4 = 0
end Ama.Spec

namespace Ama
open M Spec
variable {σ : Type} {E : Env σ}

/-- the model's check is the owner's permission -/
theorem checkAccess_owner (regs : List Region) (hw : noWrap regs) (a : W) (r w x : Bool) :
    checkAccess a r w x regs = (owner regs a.toNat).all fun g => (!r || g.r) && (!w || g.w) && (!x || g.x) := by
  induction regs with
  | nil => rfl
  | cons g gs ih =>
    have hg : (g.base ≤ a ∧ a < g.base + g.size) ↔
        (g.base.toNat ≤ a.toNat ∧ a.toNat < g.base.toNat + g.size.toNat) := by
      have := hw g List.mem_cons_self
      rw [BitVec.le_def, BitVec.lt_def, BitVec.toNat_add, Nat.mod_eq_of_lt this]
    have ih := ih fun g' hg' => hw g' (List.mem_cons_of_mem _ hg')
    unfold checkAccess owner
    by_cases h : g.base.toNat ≤ a.toNat ∧ a.toNat < g.base.toNat + g.size.toNat
    · rw [if_pos (hg.2 h), List.find?_cons_of_pos (by simpa using h)]
      cases r <;> cases w <;> cases x <;> simp
    · rw [if_neg (fun hh => h (hg.1 hh)), List.find?_cons_of_neg (by simpa using h), ih]
      rfl

theorem check_write (hw : noWrap E.regions) (a : W) :
    checkAccess a false true false E.regions = mayWrite E.regions a.toNat := by
  rw [checkAccess_owner _ hw]; unfold mayWrite; congr 1; funext g; simp
theorem check_read (hw : noWrap E.regions) (a : W) :
    checkAccess a true false false E.regions = mayRead E.regions a.toNat := by
  rw [checkAccess_owner _ hw]; unfold mayRead; congr 1; funext g; simp
theorem check_exec (hw : noWrap E.regions) (a : W) :
    checkAccess a false false true E.regions = mayExec E.regions a.toNat := by
  rw [checkAccess_owner _ hw]; unfold mayExec; rfl

/-- with word-aligned boundaries the bytes of an aligned word have one owner -/
theorem owner_word {regs : List Region} (h : wordBounds regs) {x y : Nat} (hxy : x / 4 = y / 4) :
    owner regs x = owner regs y := by
  induction regs with
  | nil => rfl
  | cons g gs ih =>
    obtain ⟨h1, h2⟩ := h g List.mem_cons_self
    have ih := ih fun g' hg' => h g' (List.mem_cons_of_mem _ hg')
    unfold owner at ih ⊢
    by_cases hx : g.base.toNat ≤ x ∧ x < g.base.toNat + g.size.toNat
    · rw [List.find?_cons_of_pos (by simpa using hx), List.find?_cons_of_pos (by simp; omega)]
    · rw [List.find?_cons_of_neg (by simpa using hx), List.find?_cons_of_neg (by simp; omega), ih]

/-! ## Writes -/

theorem Dev.set_bytes {d d' : Dev} {a x : W} {v : BitVec 8} (h : d.set a v = .ok d') (hx : x ≠ a) :
    d'.bytes x = d.bytes x := by
  unfold Dev.set at h
  split at h
  · cases h; exact upd_other _ _ hx
  · cases h
/-- a device write changes only the bytes it addresses -/
theorem Dev.wr_bytes {d d' : Dev} {a v x : W} {n : Nat} (h : d.wr a v n = .ok d') (ha : a.toNat % n = 0)
    (hx : x.toNat < a.toNat ∨ a.toNat + n ≤ x.toNat) : d'.bytes x = d.bytes x := by
  have hne : ∀ k : Nat, k < n → a.toNat + k < 2 ^ 32 → x ≠ a + BitVec.ofNat 32 k := by
    intro k hk hb e
    have := congrArg BitVec.toNat e
    rw [BitVec.toNat_add, BitVec.toNat_ofNat] at this
    omega
  have ha0 : a = a + BitVec.ofNat 32 0 := by simp
  have := a.isLt
  unfold Dev.wr at h
  split at h
  · refine Dev.set_bytes h ?_
    rw [ha0]; exact hne 0 (by omega) (by omega)
  · obtain ⟨d1, h1, h⟩ := bindRes_ok h
    rw [Dev.set_bytes h (hne 1 (by omega) (by omega)), Dev.set_bytes h1 (by rw [ha0]; exact hne 0 (by omega) (by omega))]
  · obtain ⟨d1, h1, h⟩ := bindRes_ok h
    obtain ⟨d2, h2, h⟩ := bindRes_ok h
    obtain ⟨d3, h3, h⟩ := bindRes_ok h
    rw [Dev.set_bytes h (hne 3 (by omega) (by omega)), Dev.set_bytes h3 (hne 2 (by omega) (by omega)),
      Dev.set_bytes h2 (hne 1 (by omega) (by omega)), Dev.set_bytes h1 (by rw [ha0]; exact hne 0 (by omega) (by omega))]
  · cases h
theorem Dev.wr_n {d d' : Dev} {a v : W} {n : Nat} (h : d.wr a v n = .ok d') : n = 1 ∨ n = 2 ∨ n = 4 := by
  unfold Dev.wr at h
  split at h
  · exact .inl rfl
  · exact .inr (.inl rfl)
  · exact .inr (.inr rfl)
  · cases h

/-- one step keeps a byte whose byte, halfword and word addresses are all write-protected -/
theorem protected_prims (hw : noWrap E.regions) (x : W) (b : BitVec 8)
    (hp : ∀ n, n = 1 ∨ n = 2 ∨ n = 4 → mayWrite E.regions (x.toNat - x.toNat % n) = false) :
    Prims E (fun s : St σ => s.ram.bytes x = b) := by
  have ht : ∀ c t, Pres (fun s : St σ => s.ram.bytes x = b) (trapInst c t) :=
    fun _ _ => Pres.bind (Pres.mod fun _ h => h) fun _ => Pres.mod fun _ h => h
  exact
  { ramWr := by
      intro a v n ha s u s' hs e
      obtain ⟨u1, s1, e1, e⟩ := bind_eq_ok.1 e
      by_cases hc : checkAccess a false true false E.regions = true
      · rw [guard_ok s hc] at e1
        cases e1
        obtain ⟨d, s2, e2, e⟩ := bind_eq_ok.1 e
        rw [M.get_app] at e2; cases e2
        obtain ⟨d', s3, e3, e⟩ := bind_eq_ok.1 e
        cases hwr : s.ram.wr a v n with
        | ub k => rw [hwr] at e3; cases e3
        | abort => rw [hwr] at e3; cases e3
        | ok d2 =>
          rw [hwr] at e3; cases e3
          obtain ⟨u4, s4, e4, e⟩ := bind_eq_ok.1 e
          rw [M.mod_app] at e4; cases e4
          have hn := Dev.wr_n hwr
          have hx : x.toNat < a.toNat ∨ a.toNat + n ≤ x.toNat := by
            rw [check_write hw] at hc
            have h1 := hp n hn
            by_contra hcon
            have : x.toNat - x.toNat % n = a.toNat := by
              rcases hn with rfl | rfl | rfl <;> omega
            rw [this, hc] at h1; cases h1
          have hb := (Dev.wr_bytes hwr ha hx).trans hs
          have hp : Pres (fun s : St σ => s.ram.bytes x = b) (hwUpd E (E.hw.dcWr a v n)) :=
            Pres.ite (Pres.mod fun _ h => h) (Pres.pure _)
          exact hp _ _ _ hb e
      · rw [guard_abort s (by simpa using hc)] at e1; cases e1
    wrCsr := fun _ e v _ => wrCsr_of ht (fun _ _ _ h => h) e v
    uartWr := uartWr_of (fun _ _ h => h)
    uartRd := uartRd_of (fun _ _ h => h) (fun _ _ h => h)
    uartIn := uartIn_of (fun _ _ h => h) (fun _ _ h => h)
    mtime := mtime_of (fun _ _ h => h) (fun _ _ h => h) _ }

/-- **C29** (writes, any layout) If the byte at offset `x`, the halfword containing it and the word
containing it all start in non-writable segments, no program ever changes the byte. -/
theorem write_protected_run (hw : noWrap E.regions) {x : W}
    (hp : ∀ n, n = 1 ∨ n = 2 ∨ n = 4 → mayWrite E.regions (x.toNat - x.toNat % n) = false)
    {n : Nat} {s s' : St σ} (h : runN E n s = .ok ((), s')) : s'.ram.bytes x = s.ram.bytes x :=
  (protected_prims hw x (s.ram.bytes x) hp).runN n s () s' rfl h

/-- **C29** (writes, partial: segments with word-aligned boundaries; `straddling_store` shows the
claim fails without it) A byte of a segment without write permission never changes. -/
theorem readonly_segment_never_changes_partial (hw : noWrap E.regions) (hb : wordBounds E.regions) {x : W}
    (hp : mayWrite E.regions x.toNat = false)
    {n : Nat} {s s' : St σ} (h : runN E n s = .ok ((), s')) : s'.ram.bytes x = s.ram.bytes x := by
  refine write_protected_run hw (fun k hk => ?_) h
  unfold mayWrite at hp ⊢
  rw [owner_word hb (y := x.toNat), hp]
  rcases hk with rfl | rfl | rfl <;> omega

/-! ## Reads -/

/-- **C29** (reads) A load whose first byte is in a segment without read permission stops the
simulator, whatever the state. -/
theorem read_denied_aborts (hw : noWrap E.regions) {a : W} {n : Nat} (h : inRam a)
    (hn : n = 1 ∨ n = 2 ∨ n = 4) (ha : a.toNat % n = 0)
    (hp : mayRead E.regions (a.toNat - 0x80000000) = false) {s : St σ} (ht : s.trapped = false) :
    memRd E a n s = .abort :=
  twp_throws (twp_memRd_denied rfl ht h hn ha (by
    rw [check_read hw, ram_off h]; exact hp))

/-- **C29** (reads, partial: word-aligned boundaries) No byte a load returns lies in a segment
without read permission. -/
theorem load_bytes_readable_partial (hw : noWrap E.regions) (hb : wordBounds E.regions) {a : W} {n : Nat}
    (h : inRam a) (hn : n = 1 ∨ n = 2 ∨ n = 4) (ha : a.toNat % n = 0) {s s' : St σ} {v : W}
    (ht : s.trapped = false) (e : memRd E a n s = .ok (v, s')) (k : Nat) (hk : k < n) :
    mayRead E.regions (a.toNat - 0x80000000 + k) = true := by
  by_contra hc
  have hc : mayRead E.regions (a.toNat - 0x80000000 + k) = false := by simpa using hc
  have : mayRead E.regions (a.toNat - 0x80000000) = false := by
    unfold mayRead at hc ⊢
    rw [owner_word hb (y := a.toNat - 0x80000000 + k), hc]
    have := h.1
    rcases hn with rfl | rfl | rfl <;> omega
  rw [read_denied_aborts hw h hn ha this ht] at e
  cases e

/-! ## Fetches -/

/-- trapped, or at `p` with nothing executed -/
def NotRun (p : W) (s0 s : St σ) : Prop :=
  (s.trapped = true ∨ s.pc = p) ∧ s.rf = s0.rf ∧ s.ram = s0.ram ∧ s.simInst = s0.simInst

theorem notRun_check (p : W) (s0 : St σ) (b : Bool) : Pres (NotRun p s0) (checkInterrupts E b) := by
  have ht : ∀ c t, Pres (NotRun p s0 : St σ → Prop) (trapInst c t) := fun c t s a s' h e => by
    rw [trapInst_app] at e; cases e
    exact ⟨.inl rfl, h.2⟩
  refine Pres.ite (Pres.pure _) ?_
  refine Pres.bind (mtime_of (fun _ _ h => h) (fun _ _ h => h) _) fun _ => ?_
  refine Pres.bind (Pres.ite (Pres.bind (Pres.get _) fun _ => uartIn_pres (fun _ _ h => h) (fun _ _ h => h) _)
    (Pres.pure _)) fun _ => ?_
  refine Pres.bind (Pres.get _) fun _ => Pres.bind (Pres.get _) fun _ => Pres.bind (Pres.get _) fun _ => ?_
  exact Pres.bind (Pres.ite (Pres.bind (ht _ _) fun _ => Pres.mod fun _ h => h)
    (Pres.ite (Pres.bind (ht _ _) fun _ => Pres.mod fun _ h => h) (Pres.pure _))) fun _ => Pres.pure _

theorem notRun_window (p : W) (s0 : St σ) : Pres (NotRun p s0) (profWindow E) := by
  have hps : ∀ b, Pres (NotRun p s0 : St σ → Prop) (profState E b) := fun b =>
    Pres.bind (by unfold M.whenM; exact Pres.ite (Pres.mod fun _ h => h) (Pres.pure _))
      fun _ => Pres.ite (Pres.mod fun _ h => h) (Pres.pure _)
  refine Pres.ite (Pres.bind (Pres.get _) fun _ => Pres.bind (Pres.get _) fun _ =>
    Pres.bind (Pres.mod fun _ h => h) fun _ => ?_) (Pres.pure _)
  exact Pres.ite (Pres.bind (hps _) fun _ => Pres.pure _) (Pres.ite (Pres.bind (hps _) fun _ =>
    Pres.ite (Pres.bind (Pres.mod fun _ h => h) fun _ => Pres.pure _) (Pres.pure _)) (Pres.pure _))

/-- **C29** (fetch, simulator built without hardware models) With the pc in a segment without
execute permission no instruction executes: a step that returns has changed no register, no memory
and retired nothing (it took an interrupt, slept or ended the run). -/
theorem nx_never_executes (hw : noWrap E.regions) (hh : E.cfg.hwModels = false) {s s' : St σ}
    (hal : s.pc.toNat % 2 = 0) (hp : mayExec E.regions (s.pc.toNat % 0x20000) = false)
    (h : step E s = .ok ((), s')) : s'.rf = s.rf ∧ s'.ram = s.ram ∧ s'.simInst = s.simInst := by
  have hc : checkAccess (toNorm s.pc) false false true E.regions = false := by
    rw [check_exec hw, toNorm_toNat]; exact hp
  have hrd : ∀ q : St σ, rdInst E s.pc q = .abort := by
    intro q
    unfold rdInst
    rw [if_neg (by rw [toNorm_toNat]; unfold memSize; omega)]
    unfold mmRdInst
    rw [M.bind_app, guard_abort q hc]
  have hft : ∀ q : St σ, q.pc = s.pc → fetch E q = .abort := by
    intro q hq
    unfold fetch
    rw [M.bind_app, M.get_app]
    simp only [hh, Bool.false_and, Bool.false_eq_true, if_false]
    rw [M.bind_app, M.get_app]
    simp only [hq]
    rw [M.bind_app, hrd]
  obtain ⟨u, s1, e1, h⟩ := bind_eq_ok.1 h
  rw [M.mod_app] at e1
  simp only [Res.ok.injEq, Prod.mk.injEq, true_and] at e1
  have p1 : NotRun s.pc s s1 := by subst e1; exact ⟨.inr rfl, rfl, rfl, rfl⟩
  obtain ⟨ex, s2, e2, h⟩ := bind_eq_ok.1 h
  have p2 := notRun_window s.pc s s1 ex s2 p1 e2
  cases ex with
  | true => cases h; exact p2.2
  | false =>
    obtain ⟨u, s3, e3, h⟩ := bind_eq_ok.1 (show (stepExec E >>= _) s2 = _ from h)
    have p3 : NotRun s.pc s s3 ∧ (s3.trapped = true ∨ s3.wfiActive = true) := by
      obtain ⟨act, s4, e4, e3⟩ := bind_eq_ok.1 e3
      rw [M.get_app] at e4; cases e4
      obtain ⟨wf, s5, e5, e3⟩ := bind_eq_ok.1 e3
      have p5 : NotRun s.pc s s5 := (Pres.ite (Pres.pure _) (Pres.bind (Pres.get _) fun _ =>
        Pres.bind (Pres.bind (Pres.get _) fun _ => Pres.lift _) fun _ => Pres.pure _) :
        Pres (NotRun s.pc s) _) _ _ _ p2 e5
      obtain ⟨nt, s6, e6, e3⟩ := bind_eq_ok.1 e3
      have p6 := notRun_check _ _ _ _ _ _ p5 e6
      obtain ⟨u7, s7, e7, e3⟩ := bind_eq_ok.1 e3
      rw [M.mod_app] at e7
      simp only [Res.ok.injEq, Prod.mk.injEq, true_and] at e7
      have p7 : NotRun s.pc s s7 := by subst e7; exact p6
      obtain ⟨tr, s8, e8, e3⟩ := bind_eq_ok.1 e3
      rw [M.get_app] at e8; cases e8
      obtain ⟨ac, s8, e8, e3⟩ := bind_eq_ok.1 e3
      rw [M.get_app] at e8; cases e8
      split at e3
      · rename_i hcond
        have htr : s7.trapped = false := by
          cases hh : s7.trapped <;> simp [hh] at hcond ⊢
        obtain ⟨_, _, e9, _⟩ := bind_eq_ok.1 e3
        rw [hft s7 (p7.1.resolve_left (by rw [htr]; decide))] at e9
        cases e9
      · rename_i hcond
        have e9 : s7 = s3 := by injection e3 with e3; injection e3
        rw [← e9]
        refine ⟨p7, ?_⟩
        cases h1 : s7.trapped <;> cases h2 : s7.wfiActive <;> rw [h1, h2] at hcond <;> simp at hcond ⊢
    obtain ⟨p3, hdone⟩ := p3
    obtain ⟨u, s4, e4, h⟩ := bind_eq_ok.1 h
    rw [M.mod_app] at e4
    simp only [Res.ok.injEq, Prod.mk.injEq, true_and] at e4
    have p4 : NotRun s.pc s s4 ∧ (s4.trapped = true ∨ s4.wfiActive = true) := by subst e4; exact ⟨p3, hdone⟩
    obtain ⟨p4, hdone⟩ := p4
    obtain ⟨n, s5, e5, h⟩ := bind_eq_ok.1 h
    rw [M.get_app] at e5; cases e5
    split at h
    · rw [M.mod_app] at h; cases h; exact p4.2
    · obtain ⟨a, s5, e5, h⟩ := bind_eq_ok.1 h
      rw [M.get_app] at e5; cases e5
      obtain ⟨t, s5, e5, h⟩ := bind_eq_ok.1 h
      rw [M.get_app] at e5; cases e5
      split at h
      · cases h; exact p4.2
      · split at h
        · rw [M.mod_app] at h; cases h; exact p4.2
        · rename_i c1 c2
          rcases hdone with hd | hd
          · exact absurd hd c2
          · rw [hd] at c1; simp at c1; exact absurd c1 c2

namespace Ex
/-- text r-x, data rw-, secret region --- -/
def permRegs : List Region :=
  [⟨0#32, 0x100#32, true, false, true⟩, ⟨0x100#32, 0x100#32, true, true, false⟩, ⟨0x200#32, 0x10#32, false, false, false⟩]
def envPerm : Env Unit := { env0 with regions := permRegs }
example : noWrap permRegs ∧ wordBounds permRegs ∧ mayWrite permRegs 0x42 = false ∧
    mayRead permRegs 0x204 = false ∧ mayExec permRegs 0x140 = false ∧ mayWrite permRegs 0x142 = true := by
  unfold noWrap wordBounds
  refine ⟨?_, ?_, ?_, ?_, ?_, ?_⟩ <;> decide
/-- a run over this layout that returns: auipc x1,0; lw x2,0x100(x1); sw x2,0x104(x1) -/
example : obs (runN envPerm 3 (st0 envPerm [0x00000097#32, 0x1000a103#32, 0x1020a223#32]))
    (fun s => (s.simInst, s.rf 2#5, s.ram.bytes 0x104#32)) = some (3#64, 0xa5a5a5a5#32, 0xa5#8) := by decide +kernel
/-- and the stores and loads that do not: sw x0,0(x1); lw x2,0x200(x1); jump into data -/
example : obs (runN envPerm 2 (st0 envPerm [0x00000097#32, 0x0000a023#32])) (·.pc) = none ∧
    obs (runN envPerm 2 (st0 envPerm [0x00000097#32, 0x2000a103#32])) (·.pc) = none ∧
    obs (runN envPerm 1 (st0 envPerm [0x1000006f#32])) (·.pc) = some 0x80000100#32 ∧
    obs (runN envPerm 2 (st0 envPerm [0x1000006f#32])) (·.pc) = none := by
  refine ⟨?_, ?_, ?_, ?_⟩ <;> decide +kernel

/-- a writable segment ending in the middle of a word, then a read-only one -/
def envOdd : Env Unit := { env0 with regions :=
  [⟨0#32, 0x100#32, true, false, true⟩, ⟨0x100#32, 2#32, true, true, false⟩, ⟨0x102#32, 0x10#32, true, false, false⟩] }
/-- **C29 fails** for unaligned boundaries: `auipc x1,0; sw x0,0x100(x1)` changes byte 0x102 of a
read-only segment, because only the first byte of an access is checked. -/
theorem straddling_store :
    mayWrite envOdd.regions 0x102 = false ∧
    (st0 envOdd [0x00000097#32, 0x1000a023#32]).ram.bytes 0x102#32 = 0xa5#8 ∧
    obs (runN envOdd 2 (st0 envOdd [0x00000097#32, 0x1000a023#32])) (fun s => s.ram.bytes 0x102#32) = some 0#8 := by
  refine ⟨?_, ?_, ?_⟩ <;> decide +kernel
/-- an executable segment ending in the middle of a word, compressed instructions enabled -/
def envOddC : Env Unit := { env0 with cfg := { env0.cfg with rv32c := true }, regions :=
  [⟨0#32, 4#32, true, false, true⟩, ⟨4#32, 0x100#32, true, true, false⟩] }
/-- **C29 fails** for a 32-bit instruction straddling the end of an executable segment: `c.nop` then
`addi x1, x0, 5` at offset 2, whose upper half lies in the non-executable segment. -/
theorem straddling_fetch :
    mayExec envOddC.regions 4 = false ∧
    obs (runN envOddC 2 (st0 envOddC [0x00930001#32, 0x00000050#32])) (fun s => (s.simInst, s.rf 1#5)) =
      some (2#64, 5#32) := by
  refine ⟨?_, ?_⟩ <;> decide +kernel
end Ex

end Ama
