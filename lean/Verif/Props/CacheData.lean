import Verif.Lemmas.CacheMem
/-!
# C44: data in a functional cache

`CACHE_MODE_FUNC`: lines carry data.  A wrong line shows up as `.abort` (the verification of
`CACHE_VERIFY` throws), a wrong read as a wrong value.
-/
namespace Ama.Cache
open Ama.MM (Fits FitsA NoEarlyRel)

/-- the bytes of memory after a list of requests: stores in order, nothing else -/
def storesTo (f : W → BitVec 8) : List Op → W → BitVec 8
  | [] => f
  | .wr a v n :: t => storesTo (Spec.put f a v.toNat n) t
  | _ :: t => storesTo f t

theorem foldl_stored (f : W → BitVec 8) (ops : List Op) : ops.foldl MM.stored f = storesTo f ops := by
  induction ops generalizing f with
  | nil => rfl
  | cons o t ih =>
    simp only [List.foldl_cons, ih]
    cases o <;> rfl

/-- a fresh cache in front of any memory -/
theorem new_inv {g : Cfg} {c0 : Cache} (hnew : new g = some c0) (hf : g.func = true) {ram : Dev}
    (h64 : ram.size % 64 = 0) (h32 : ram.size ≤ 2 ^ 32) : MM.Inv ⟨ram, c0⟩ := by
  obtain ⟨hcfg, hg⟩ := new_geo hnew
  refine ⟨hg, new_wf hnew, by show c0.cfg.func = true; rw [hcfg]; exact hf, ?_, h64, h32⟩
  intro i j _ _ hv
  have := new_arr hnew
  rw [show (⟨ram, c0⟩ : MM).dc = c0 from rfl, this] at hv
  cases hv

/-- **C44.**  For every valid configuration (sets, ways, both policies, verification on or off) and every
sequence of aligned reads, stores, lock and release requests and profiling switches: the sequence runs
(no mismatch is ever reported, nothing is undefined), memory holds exactly the stores, every valid line
equals memory, and a read of any aligned address, both as the memory returns it and as the cache alone
returns it, is the little-endian value of the most recent stores. -/
theorem dcache_coherent_partial {g : Cfg} {c0 : Cache} (hnew : new g = some c0) (hf : g.func = true) (ram : Dev)
    (h64 : ram.size % 64 = 0) (h32 : ram.size ≤ 2 ^ 32) (ops : List Op) (hfit : ∀ o ∈ ops, Fits ram.size o)
    (hrel : NoEarlyRel ops) :
    ∃ m, MM.run ⟨ram, c0⟩ ops = .ok m ∧ m.ram.bytes = storesTo ram.bytes ops ∧
      (∀ i j, i < g.sets → j < g.ways → (m.dc.arr i j).valid = true → ∀ k, k < 64 →
        (m.dc.arr i j).data k = m.ram.bytes (m.dc.lineBase (m.dc.arr i j).tag i + BitVec.ofNat 32 k)) ∧
      ∀ a n, FitsA ram.size a n → ∃ c m',
        m.dc.rd m.ram a n = .ok (some (BitVec.ofNat 32 (Spec.le (storesTo ram.bytes ops) a n)), c) ∧
        m.rd a n = .ok (BitVec.ofNat 32 (Spec.le (storesTo ram.bytes ops) a n), m') := by
  obtain ⟨m, h, hI, e1, e2, e3⟩ := MM.run_ok ops (new_inv hnew hf h64 h32) hfit (.inr hrel)
  have hcfg : m.dc.cfg = g := e3.trans (new_geo hnew).1
  have e2' : m.ram.bytes = storesTo ram.bytes ops := by rw [e2, foldl_stored]
  obtain ⟨⟨b, hg⟩, hW, hf', hc, h64', h32'⟩ := hI
  refine ⟨m, h, e2', ?_, ?_⟩
  · intro i j hi hj hv k hk
    rw [← hcfg] at hi hj
    obtain ⟨p1, p2⟩ := hc i j hi hj hv
    rw [p2 k hk]
    have hk' : m.dc.key i j = (m.dc.arr i j).tag.toNat * m.dc.cfg.sets + i := rfl
    have hb := lineBase_toNat hg (t := (m.dc.arr i j).tag) hi (by omega)
    unfold memByte
    rw [base_add hb k, hk']
  · intro a n hfa
    rw [← show m.ram.size = ram.size from e1] at hfa
    have hin := hfa.inLine h64' h32'
    obtain ⟨r, hs, _, hrd⟩ := serve_coh hg hW hf' hin (MM.Coh.pre hc a n .read)
      (fun h => by cases h) (m := .none) (fun h => by cases h)
    obtain ⟨data, v, hv, hgo, hdat⟩ := hrd rfl (by simp)
    have hrm := readGo_mem m.ram a data _ n hfa.1 hin.2.1 h32' hfa.2.2 (fun k hk => by
      rw [hdat _ (by have := hin.2.1; omega), memByte_addr])
    have hval := m.ram.rd_ok hfa.1 hfa.2.2 h32'
    rw [hgo, hval] at hrm
    have hvv := Res.ok.inj hrm
    rw [e2'] at hvv hval
    subst hvv
    refine ⟨r.2, { m with dc := r.2 }, by simp only [Cache.rd, hs, Res.bind_ok, hv], ?_⟩
    simp only [MM.rd, hval, Cache.rd, hs, Res.bind_ok, hv]
    by_cases hfv : (m.dc.cfg.func && m.dc.cfg.verify) = true
    · simp only [if_pos hfv, ne_eq, not_true_eq_false, if_false]
    · simp only [if_neg hfv]

/-! ### A case -/

namespace Ex
/-- a functional verifying data cache -/
def cfgF (sets ways : Nat) (wp : WrPol) : Cfg := ⟨.data, sets, ways, .update, wp, true, true⟩
/-- 256 bytes of memory: byte `i` holds `i` -/
def ram256 : Dev := ⟨256, fun a => a.setWidth 8⟩
/-- stores to three lines through a cache of two -/
def opsF : List Op :=
  [.wr 0x10#32 0xdeadbeef#32 4, .wr 0x52#32 0x1234#32 2, .lcl 0x40#32, .wr 0x90#32 0x77#32 1, .rd 0x10#32 4,
   .rel 0x40#32, .wr 0xd0#32 0xcafe#32 2, .prof true, .rd 0x50#32 4]
end Ex

theorem fits_opsF : ∀ o ∈ Ex.opsF, Fits Ex.ram256.size o := by
  simp [Ex.opsF, Fits, FitsA, Ex.ram256]
theorem noEarlyRel_opsF : NoEarlyRel Ex.opsF := by
  intro pre a post he
  refine ⟨.wr 0x10#32 0xdeadbeef#32 4, ?_, rfl⟩
  cases pre with
  | nil => simp [Ex.opsF] at he
  | cons x t =>
    have : x = .wr 0x10#32 0xdeadbeef#32 4 := by
      have := congrArg List.head? he
      simp [Ex.opsF] at this
      exact this.symm
    simp [this]

example : ∃ c0, new (Ex.cfgF 1 2 .wb) = some c0 ∧ ∃ m, MM.run ⟨Ex.ram256, c0⟩ Ex.opsF = .ok m :=
  ⟨_, rfl, (dcache_coherent_partial (g := Ex.cfgF 1 2 .wb) rfl rfl Ex.ram256 rfl (by decide) Ex.opsF fits_opsF noEarlyRel_opsF).imp
    fun _ h => h.1⟩

/-- the same sequence, computed: the evicted store is read back -/
example : (match new (Ex.cfgF 1 2 .wb) with
    | some c0 => (match MM.run ⟨Ex.ram256, c0⟩ Ex.opsF with
      | .ok m => (match m.rd 0x10#32 4 with | .ok r => some (r.1, m.dc.stats.writebacks) | _ => none)
      | _ => none)
    | none => none) = some (0xdeadbeef#32, 0) := by decide +kernel

/-- **Exception.**  A release as the very first request returns a status nothing has written:
`scp_status` is not initialised by the constructor. -/
theorem rel_first_uninit : (match new (Ex.cfgF 1 2 .wb) with
    | some c0 => (match MM.run ⟨Ex.ram256, c0⟩ [.rel 0x10#32] with | .ub .uninit => true | _ => false)
    | none => false) = true := by decide +kernel

/-- **Exception.**  An access that crosses a line (a 4-byte fetch at offset 62, possible with
compressed code) indexes past the line's array. -/
theorem fetch_past_line : (match new { Ex.cfgF 1 2 .none with kind := .inst } with
    | some c0 => (match c0.rd Ex.ram256 0x3e#32 4 with | .ub .outOfBounds => true | _ => false)
    | none => false) = true := by decide +kernel

end Ama.Cache

/-! ## The instruction cache -/

namespace Ama.MMI
open Ama.Cache Ama.MM

/-- requests to the data side -/
def dataOps : List MMI.Op → List Cache.Op
  | [] => []
  | .data o :: t => o :: dataOps t
  | .fetch _ :: t => dataOps t

/-- no store goes to a line fetched earlier -/
def NoSelfModify (ops : List MMI.Op) : Prop :=
  ∀ pre a v n post, ops = pre ++ .data (.wr a v n) :: post → ∀ f, .fetch f ∈ pre → f.toNat / 64 ≠ a.toNat / 64

theorem run_ok : ∀ (ops : List MMI.Op) {m : MMI} {F : Nat → Prop}, Inv m F →
    (∀ o ∈ ops, Fits m.mm.ram.size o) → (m.mm.dc.scpStatus ≠ none ∨ NoEarlyRel (dataOps ops)) →
    (∀ pre a v n post, ops = pre ++ .data (.wr a v n) :: post →
      ¬ F (lineNo a) ∧ ∀ f, .fetch f ∈ pre → lineNo f ≠ lineNo a) →
    ∃ m' F', m.run ops = .ok m' ∧ Inv m' F' ∧ m'.mm.ram.size = m.mm.ram.size ∧
      m'.mm.ram.bytes = storesTo m.mm.ram.bytes (dataOps ops)
  | [], m, F, hI, _, _, _ => ⟨m, F, rfl, hI, rfl, rfl⟩
  | o :: t, m, F, hI, hfit, hs, hcl => by
    have hset : Settled m o := by
      cases o with
      | fetch a => exact trivial
      | data o =>
        rcases hs with h | h
        · exact .inr h
        · left
          intro a ha
          subst ha
          obtain ⟨_, hh, _⟩ := h [] a (dataOps t) rfl
          cases hh
    have hclo : Clear F o := by
      cases o with
      | fetch a => exact trivial
      | data o =>
        cases o with
        | wr a v n => exact (hcl [] a v n t rfl).1
        | _ => exact trivial
    obtain ⟨m1, h1, hI1, e1, e2, s1, s2⟩ := step_ok hI (hfit o (by simp)) hset hclo
    have hs' : m1.mm.dc.scpStatus ≠ none ∨ NoEarlyRel (dataOps t) := by
      rcases hs with h | h
      · exact .inl (s2 h)
      · cases o with
        | fetch a => exact .inr h
        | data o =>
          by_cases hl : Op.looksUp o = true
          · exact .inl (s1 o rfl hl)
          · right
            intro pre a post he
            obtain ⟨x, hx, hlx⟩ := h (o :: pre) a post (by show o :: dataOps t = _; rw [he]; rfl)
            rcases List.mem_cons.1 hx with rfl | hx
            · exact absurd hlx hl
            · exact ⟨x, hx, hlx⟩
    obtain ⟨m2, F2, h2, hI2, g1, g2⟩ := run_ok t hI1 (fun o ho => by rw [e1]; exact hfit o (by simp [ho])) hs' (by
      intro pre a v n post he
      obtain ⟨c1, c2⟩ := hcl (o :: pre) a v n post (by rw [he]; rfl)
      refine ⟨?_, fun f hf => c2 f (by simp [hf])⟩
      cases o with
      | data o => exact c1
      | fetch f =>
        rintro (hh | hh)
        · exact c1 hh
        · exact c2 f (by simp) hh.symm)
    refine ⟨m2, F2, by simp only [run, h1, Res.bind_ok, h2], hI2, g1.trans e1, ?_⟩
    rw [g2, e2]
    cases o with
    | fetch a => rfl
    | data o => cases o <;> rfl

/-- **C44, instruction side.**  With both caches functional and verified, every mix of aligned fetches and
data requests runs without a mismatch as long as no store goes to a line that was fetched before, and every
fetch returns the instruction in memory.  Missing: code that modifies lines it has already fetched. -/
theorem icache_coherent_partial {gi gd : Cache.Cfg} {ic dc : Cache} (hi : new gi = some ic) (hd : new gd = some dc)
    (hfi : gi.func = true) (hfd : gd.func = true) (ram : Dev) (h64 : ram.size % 64 = 0)
    (h32 : ram.size ≤ 2 ^ 32) (ops : List MMI.Op) (hfit : ∀ o ∈ ops, Fits ram.size o)
    (hrel : NoEarlyRel (dataOps ops)) (hsm : NoSelfModify ops) :
    ∃ m, MMI.run ⟨⟨ram, dc⟩, ic⟩ ops = .ok m ∧ m.mm.ram.bytes = storesTo ram.bytes (dataOps ops) ∧
      ∀ a, FitsA ram.size a 4 → ∃ m',
        m.rdInst a = .ok (BitVec.ofNat 32 (Spec.le (storesTo ram.bytes (dataOps ops)) a 4), m') := by
  have hI : Inv ⟨⟨ram, dc⟩, ic⟩ (fun _ => False) := by
    obtain ⟨h1, h2, h3, h4, _, _⟩ := new_inv hi hfi h64 h32
    refine ⟨new_inv hd hfd h64 h32, h1, h2, h3, h4, ?_⟩
    intro i j _ _ hv
    rw [show (⟨⟨ram, dc⟩, ic⟩ : MMI).ic = ic from rfl, new_arr hi] at hv
    cases hv
  obtain ⟨m, F, h, hI', e1, e2⟩ := run_ok ops hI hfit (.inr hrel)
    (fun pre a v n post he => ⟨id, hsm pre a v n post he⟩)
  refine ⟨m, h, e2, fun a hfa => ?_⟩
  obtain ⟨m', h', _, _⟩ := fetch_ok hI' (a := a) (by rw [show m.mm.ram.size = ram.size from e1]; exact hfa)
  exact ⟨m', by rw [h', e2]⟩

/-- a functional verifying instruction cache -/
def Ex.cfgI : Cache.Cfg := ⟨.inst, 1, 2, .update, .none, true, true⟩

/-- **Exception.**  The instruction cache does not see stores: overwriting a fetched instruction and fetching
it again ends the run with a mismatch. -/
theorem self_modify_mismatch : (match new Ex.cfgI,
      new (Cache.Ex.cfgF 1 2 .wb) with
    | some ic, some dc =>
      (match MMI.run ⟨⟨Cache.Ex.ram256, dc⟩, ic⟩ [.fetch 0x10#32, .data (.wr 0x10#32 0x13#32 4), .fetch 0x10#32] with
        | .abort => true | _ => false)
    | _, _ => false) = true := by decide +kernel

/-- fetches and stores that keep apart -/
def Ex.opsI : List MMI.Op :=
  [.fetch 0x10#32, .data (.wr 0x50#32 0x13#32 4), .fetch 0x14#32, .data (.rd 0x10#32 4), .fetch 0x90#32,
   .data (.wr 0xd0#32 7#32 1)]

example : ∃ ic dc m, new Ex.cfgI = some ic ∧
    new (Cache.Ex.cfgF 1 2 .wt) = some dc ∧ MMI.run ⟨⟨Cache.Ex.ram256, dc⟩, ic⟩ Ex.opsI = .ok m := by
  obtain ⟨m, h, _⟩ := icache_coherent_partial (gi := Ex.cfgI)
    (gd := Cache.Ex.cfgF 1 2 .wt) rfl rfl rfl rfl Cache.Ex.ram256 rfl (by decide) Ex.opsI
    (by simp [Ex.opsI, Fits, MM.Fits, FitsA, Cache.Ex.ram256])
    (by
      intro pre a post he
      exfalso
      have : Cache.Op.rel a ∈ dataOps Ex.opsI := by rw [he]; simp
      simp [Ex.opsI, dataOps] at this)
    (by
      intro pre a v n post he f hf
      have h1 : MMI.Op.data (.wr a v n) ∈ Ex.opsI := by rw [he]; simp
      have h2 : MMI.Op.fetch f ∈ Ex.opsI := by rw [he]; simp [hf]
      simp [Ex.opsI] at h1 h2
      rcases h1 with ⟨rfl, _, _⟩ | ⟨rfl, _, _⟩ <;> rcases h2 with rfl | rfl | rfl <;> decide)
  exact ⟨_, _, m, rfl, rfl, h⟩

end Ama.MMI
