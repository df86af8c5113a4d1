import Verif.Lemmas.CacheData
/-!
# Main memory and its data cache
-/
namespace Ama.MM
open Ama.Cache

/-- storage that is a whole number of cache lines, behind a coherent functional cache -/
def Inv (m : MM) : Prop :=
  (∃ b, Geo m.dc b) ∧ Wf m.dc ∧ m.dc.cfg.func = true ∧ Coh m.dc m.ram ∧ m.ram.size % 64 = 0 ∧
  m.ram.size ≤ 2 ^ 32

/-- an aligned access of 1, 2 or 4 bytes inside memory -/
def FitsA (sz : Nat) (a : W) (n : Nat) : Prop := (n = 1 ∨ n = 2 ∨ n = 4) ∧ a.toNat % n = 0 ∧ a.toNat + n ≤ sz

/-- what the core asks of memory: aligned accesses, lock requests for addresses in memory -/
def Fits (sz : Nat) : Op → Prop
  | .rd a n => FitsA sz a n
  | .wr a _ n => FitsA sz a n
  | .lcl a => a.toNat < sz
  | .rel a => a.toNat < sz
  | .prof _ => True
  | .roi _ _ => True

theorem line_in {sz : Nat} {a : W} (h : a.toNat < sz) (h64 : sz % 64 = 0) : lineNo a * 64 + 64 ≤ sz := by
  unfold lineNo; omega

theorem FitsA.inLine {d : Dev} {a : W} {n : Nat} (h : FitsA d.size a n) (h64 : d.size % 64 = 0)
    (h32 : d.size ≤ 2 ^ 32) : InLine d a n := by
  obtain ⟨hn, hal, hsz⟩ := h
  refine ⟨by omega, ?_, line_in (by omega) h64, h32⟩
  rw [off_toNat]
  rcases hn with rfl | rfl | rfl <;> omega

theorem lt_inLine {d : Dev} {a : W} (h : a.toNat < d.size) (h64 : d.size % 64 = 0)
    (h32 : d.size ≤ 2 ^ 32) : InLine d a 0 := by
  refine ⟨by omega, ?_, line_in h h64, h32⟩
  rw [off_toNat]; omega

theorem Coh.pre {c : Cache} {d : Dev} (h : Coh c d) (a : W) (n : Nat) (op : MemOp) : CohPre c d a n op :=
  fun i j hi hj hv => ⟨(h i j hi hj hv).1, fun k hk => .inr ((h i j hi hj hv).2 k hk)⟩

/-- what a lookup does to the lock status -/
theorem serve_status {c : Cache} {d : Dev} {a : W} {n : Nat} {op : MemOp} {m : Scp} {r : Ref × Cache} {b : Nat}
    (hg : Geo c b) (hW : Wf c) (h : c.serve d a n op m = .ok r) :
    (m ≠ .rel → r.2.scpStatus ≠ none) ∧ (c.scpStatus ≠ none → r.2.scpStatus ≠ none) := by
  rcases serve_cases hg hW h with ⟨w, _, _, _, _, _, _, _, e, _⟩ | ⟨_, _, _, v, _, _, _, _, _, e, _⟩ |
      ⟨w, _, hm, _, _, _, _, e, _⟩ | ⟨_, hm, _, _, _, _, e, _⟩
  · rw [e]; simp
  · rw [e]; simp
  · rw [e]; simp
  · rw [e]; exact ⟨fun hh => absurd hm hh, id⟩

/-- a request for which the status a release reads is initialised -/
def Settled (c : Cache) (o : Op) : Prop := (∀ a, o ≠ .rel a) ∨ c.scpStatus ≠ none

/-- does a request set the lock status -/
def Op.looksUp : Op → Bool
  | .rd _ _ => true
  | .wr _ _ _ => true
  | .lcl _ => true
  | _ => false

/-- bytes of memory after a request -/
def stored (f : W → BitVec 8) : Op → W → BitVec 8
  | .wr a v n => Spec.put f a v.toNat n
  | _ => f

theorem memByte_congr {d d' : Dev} (h : d.bytes = d'.bytes) (x k : Nat) : memByte d x k = memByte d' x k := by
  unfold memByte; rw [h]

/-- a store changes its own bytes only -/
theorem put_pre {c : Cache} {d : Dev} {a v : W} {n : Nat} (hc : Coh c d) (h64 : d.size % 64 = 0)
    (h32 : d.size ≤ 2 ^ 32) (hfit : FitsA d.size a n) :
    let d' : Dev := { d with bytes := Spec.put d.bytes a v.toNat n }
    CohPre c d' a n .write ∧ BufOk { c with wrBuf := v } d' a n := by
  intro d'
  obtain ⟨hn, hal, hsz⟩ := hfit
  constructor
  · intro i j hi hj hv
    obtain ⟨p1, p2⟩ := hc i j hi hj hv
    refine ⟨p1, fun k hk => ?_⟩
    rw [p2 k hk]
    unfold memByte
    show _ ∨ d.bytes _ = Spec.put d.bytes a v.toNat n _
    unfold Spec.put
    generalize hx : BitVec.ofNat 32 (c.key i j * 64 + k) = x
    have hxn : x.toNat = c.key i j * 64 + k := by
      rw [← hx, BitVec.toNat_ofNat, Nat.mod_eq_of_lt (by omega)]
    by_cases hin : (x - a).toNat < n
    · left
      have hax := a.isLt
      have hxx := x.isLt
      have : (x - a).toNat = (2 ^ 32 - a.toNat + x.toNat) % 2 ^ 32 := by rw [BitVec.toNat_sub]
      have hxa : a.toNat ≤ x.toNat ∧ x.toNat < a.toNat + n := by
        rcases Nat.lt_or_ge x.toNat a.toNat with hlt | hge
        · exfalso
          rw [Nat.mod_eq_of_lt (by omega)] at this
          omega
        · rw [show 2 ^ 32 - a.toNat + x.toNat = (x.toNat - a.toNat) + 2 ^ 32 by omega, Nat.add_mod_right,
            Nat.mod_eq_of_lt (by omega)] at this
          omega
      rw [off_toNat]
      unfold lineNo
      refine ⟨rfl, ?_, ?_, ?_⟩ <;> rcases hn with rfl | rfl | rfl <;> omega
    · right
      simp only [if_neg hin]
  · intro k hk
    rw [memByte_addr]
    show Spec.put d.bytes a v.toNat n _ = (v >>> (8 * k)).setWidth 8
    unfold Spec.put
    have e : (a + BitVec.ofNat 32 k - a) = BitVec.ofNat 32 k := by
      rw [BitVec.add_comm, BitVec.add_sub_cancel]
    have e2 : (BitVec.ofNat 32 k).toNat = k := by
      rw [BitVec.toNat_ofNat, Nat.mod_eq_of_lt (by omega)]
    simp only [e, e2, if_pos hk]
    rw [byte_of]

theorem step_ok {m : MM} (hI : Inv m) {o : Op} (hfit : Fits m.ram.size o) (hset : Settled m.dc o) :
    ∃ m', m.step o = .ok m' ∧ Inv m' ∧ m'.ram.size = m.ram.size ∧ m'.ram.bytes = stored m.ram.bytes o ∧
      m'.dc.cfg = m.dc.cfg ∧
      (Op.looksUp o = true → m'.dc.scpStatus ≠ none) ∧ (m.dc.scpStatus ≠ none → m'.dc.scpStatus ≠ none) := by
  obtain ⟨⟨b, hg⟩, hW, hf, hc, h64, h32⟩ := hI
  cases o with
  | rd a n =>
    have hfa : FitsA m.ram.size a n := hfit
    obtain ⟨r, hs, hcoh, hrd⟩ := serve_coh hg hW hf (hfa.inLine h64 h32) (Coh.pre hc a n .read)
      (fun h => by cases h) (m := .none) (fun h => by cases h)
    obtain ⟨data, v, hv, hgo, hdat⟩ := hrd rfl (by simp)
    have hin := hfa.inLine h64 h32
    have hrm := readGo_mem m.ram a data _ n hfa.1 hin.2.1 h32 hfa.2.2 (fun k hk => by
      rw [hdat _ (by have := hin.2.1; omega), memByte_addr])
    have hap : Op.apply m.dc m.ram (.rd a n) = .ok r.2 := by simp only [Op.apply, Cache.rd, hs, Res.bind_ok]
    obtain ⟨sm, wf⟩ := apply_wf hg hW hap
    obtain ⟨t1, t2⟩ := serve_status hg hW hs
    refine ⟨{ m with dc := r.2 }, ?_, ⟨⟨b, sm.geo hg⟩, wf, by rw [sm.1]; exact hf, hcoh, h64, h32⟩, rfl, rfl,
      sm.1, fun _ => t1 (by simp), t2⟩
    rw [hgo] at hrm
    simp only [step, MM.rd, Cache.rd, hs, ← hrm, Res.bind_ok, hv]
    by_cases hfv : (m.dc.cfg.func && m.dc.cfg.verify) = true
    · simp only [if_pos hfv, ne_eq, not_true_eq_false, if_false, Res.bind_ok]
    · simp only [if_neg hfv, Res.bind_ok]
  | wr a v n =>
    have hfa : FitsA m.ram.size a n := hfit
    have hw := m.ram.wr_ok hfa.1 hfa.2.2 h32 (v := v)
    obtain ⟨hpre, hbuf⟩ := put_pre (v := v) hc h64 h32 hfa
    generalize hd : ({ m.ram with bytes := Spec.put m.ram.bytes a v.toNat n } : Dev) = d' at *
    have hsz : d'.size = m.ram.size := by rw [← hd]
    have hg' : Geo { m.dc with wrBuf := v } b := hg
    have hW' : Wf { m.dc with wrBuf := v } := hW
    have hpre' : CohPre { m.dc with wrBuf := v } d' a n .write := hpre
    obtain ⟨r, hs, hcoh, _⟩ := serve_coh hg' hW' hf (FitsA.inLine (d := d') (by rw [hsz]; exact hfa)
      (by rw [hsz]; exact h64) (by rw [hsz]; exact h32)) hpre' (fun _ => hbuf) (m := .none) (fun h => by cases h)
    have hap : Op.apply m.dc d' (.wr a v n) = .ok r.2 := by simp only [Op.apply, Cache.wr, hs, Res.bind_ok]
    obtain ⟨sm, wf⟩ := apply_wf hg hW hap
    obtain ⟨t1, t2⟩ := serve_status hg' hW' hs
    refine ⟨⟨d', r.2⟩, ?_, ⟨⟨b, sm.geo hg⟩, wf, by rw [sm.1]; exact hf, hcoh, ?_, ?_⟩, hsz, by rw [← hd]; rfl,
      sm.1, fun _ => t1 (by simp), t2⟩
    · simp only [step, MM.wr, Cache.wr, hw, hs, Res.bind_ok]
    · show d'.size % 64 = 0; rw [hsz]; exact h64
    · show d'.size ≤ 2 ^ 32; rw [hsz]; exact h32
  | lcl a =>
    obtain ⟨r, hs, hcoh, _⟩ := serve_coh hg hW hf (lt_inLine hfit h64 h32) (Coh.pre hc a 0 .read)
      (fun h => by cases h) (m := .lcl) (fun h => by cases h)
    obtain ⟨t1, t2⟩ := serve_status hg hW hs
    have t1 := t1 (by simp)
    obtain ⟨sb, hsb⟩ := Option.ne_none_iff_exists'.1 t1
    have hap : Op.apply m.dc m.ram (.lcl a) = .ok r.2 := by
      simp only [Op.apply, scpLcl, hs, Res.bind_ok, hsb]
    obtain ⟨sm, wf⟩ := apply_wf hg hW hap
    refine ⟨{ m with dc := r.2 }, ?_, ⟨⟨b, sm.geo hg⟩, wf, by rw [sm.1]; exact hf, hcoh, h64, h32⟩, rfl, rfl,
      sm.1, fun _ => t1, t2⟩
    simp only [step, MM.scp, scpLcl, hs, Res.bind_ok, hsb]
  | rel a =>
    have hnn : m.dc.scpStatus ≠ none := by
      rcases hset with h | h
      · exact absurd rfl (h a)
      · exact h
    obtain ⟨r, hs, hcoh, _⟩ := serve_coh hg hW hf (lt_inLine hfit h64 h32) (Coh.pre hc a 0 .read)
      (fun h => by cases h) (m := .rel) (fun _ => rfl)
    obtain ⟨t1, t2⟩ := serve_status hg hW hs
    obtain ⟨sb, hsb⟩ := Option.ne_none_iff_exists'.1 (t2 hnn)
    have hap : Op.apply m.dc m.ram (.rel a) = .ok r.2 := by
      simp only [Op.apply, scpRel, hs, Res.bind_ok, hsb]
    obtain ⟨sm, wf⟩ := apply_wf hg hW hap
    refine ⟨{ m with dc := r.2 }, ?_, ⟨⟨b, sm.geo hg⟩, wf, by rw [sm.1]; exact hf, hcoh, h64, h32⟩, rfl, rfl,
      sm.1, (fun h => by cases h), t2⟩
    simp only [step, MM.scp, scpRel, hs, Res.bind_ok, hsb]
  | prof e =>
    obtain ⟨sm, wf⟩ := apply_wf (o := .prof e) (d := m.ram) hg hW rfl
    exact ⟨_, rfl, ⟨⟨b, sm.geo hg⟩, wf, hf, hc, h64, h32⟩, rfl, rfl, rfl, (fun h => by cases h), id⟩
  | roi s z =>
    exact ⟨_, rfl, ⟨⟨b, hg⟩, hW, hf, hc, h64, h32⟩, rfl, rfl, rfl, (fun h => by cases h), id⟩

/-- no release before the first lookup -/
def NoEarlyRel (ops : List Op) : Prop :=
  ∀ pre a post, ops = pre ++ .rel a :: post → ∃ o ∈ pre, Op.looksUp o = true

theorem run_ok : ∀ (ops : List Op) {m : MM}, Inv m → (∀ o ∈ ops, Fits m.ram.size o) →
    (m.dc.scpStatus ≠ none ∨ NoEarlyRel ops) →
    ∃ m', m.run ops = .ok m' ∧ Inv m' ∧ m'.ram.size = m.ram.size ∧
      m'.ram.bytes = ops.foldl stored m.ram.bytes ∧ m'.dc.cfg = m.dc.cfg
  | [], m, hI, _, _ => ⟨m, rfl, hI, rfl, rfl, rfl⟩
  | o :: t, m, hI, hfit, hs => by
    have hset : Settled m.dc o := by
      rcases hs with h | h
      · exact .inr h
      · left
        intro a ha
        subst ha
        obtain ⟨_, hh, _⟩ := h [] a t rfl
        cases hh
    obtain ⟨m1, h1, hI1, e1, e2, e3, s1, s2⟩ := step_ok hI (hfit o (by simp)) hset
    have hs' : m1.dc.scpStatus ≠ none ∨ NoEarlyRel t := by
      rcases hs with h | h
      · exact .inl (s2 h)
      · by_cases hl : Op.looksUp o = true
        · exact .inl (s1 hl)
        · right
          intro pre a post he
          obtain ⟨x, hx, hlx⟩ := h (o :: pre) a post (by rw [he]; rfl)
          rcases List.mem_cons.1 hx with rfl | hx
          · exact absurd hlx hl
          · exact ⟨x, hx, hlx⟩
    obtain ⟨m2, h2, hI2, g1, g2, g3⟩ := run_ok t hI1 (fun o ho => by rw [e1]; exact hfit o (by simp [ho])) hs'
    exact ⟨m2, by simp only [run, h1, Res.bind_ok, h2], hI2, g1.trans e1, by rw [g2, e2]; rfl, g3.trans e3⟩

/-! ## Instruction fetches -/

/-- every cached line is one of `F` -/
def Within (c : Cache) (F : Nat → Prop) : Prop :=
  ∀ i j, i < c.cfg.sets → j < c.cfg.ways → (c.arr i j).valid = true → F (c.key i j)

theorem serve_within {c : Cache} {d : Dev} {a : W} {n : Nat} {op : MemOp} {m : Scp} {r : Ref × Cache} {b : Nat}
    {F : Nat → Prop} (hg : Geo c b) (hW : Wf c) (h : c.serve d a n op m = .ok r) (hF : Within c F) :
    Within r.2 (fun x => F x ∨ x = lineNo a) := by
  have hln := lineNo_eq hg a
  rcases serve_cases hg hW h with ⟨w, _, _, _, sm, _, _, _, _, data, f⟩ |
      ⟨_, _, _, v, _, sm, _, _, _, _, data, f⟩ | ⟨w, _, hm, sm, _, _, _, _, f⟩ | ⟨_, hm, sm, _, _, _, _, f⟩
  · intro i j hi hj hv
    rw [sm.1] at hi hj
    rw [(f i j).1] at hv
    left
    unfold key
    rw [sm.1, (f i j).2.2.2.2.1]
    exact hF i j hi hj hv
  · intro i j hi hj hv
    rw [sm.1] at hi hj
    rw [(f i j).1] at hv
    unfold key
    rw [sm.1, (f i j).2.2.2.2.1]
    by_cases hij : i = c.idx a ∧ j = v
    · right
      rw [if_pos hij, hij.1]
      exact hln
    · left
      rw [if_neg hij]
      rw [decide_eq_false hij, Bool.or_false] at hv
      exact hF i j hi hj hv
  · intro i j hi hj hv
    rw [sm.1] at hi hj
    have hv' : (c.arr i j).valid = true := by rw [f i j] at hv; split at hv <;> exact hv
    have hk : r.2.key i j = c.key i j := by unfold key; rw [sm.1, f i j]; split <;> rfl
    left
    show F (r.2.key i j)
    rw [hk]
    exact hF i j hi hj hv'
  · intro i j hi hj hv
    rw [sm.1] at hi hj
    left
    unfold key
    rw [sm.1, f]
    rw [f] at hv
    exact hF i j hi hj hv

end Ama.MM

namespace Ama.MMI
open Ama.Cache Ama.MM

/-- instruction and data side together; `F` are the lines fetched so far -/
def Inv (m : MMI) (F : Nat → Prop) : Prop :=
  MM.Inv m.mm ∧ (∃ b, Geo m.ic b) ∧ Wf m.ic ∧ m.ic.cfg.func = true ∧ Coh m.ic m.mm.ram ∧ Within m.ic F

/-- an aligned fetch inside memory; data requests as before -/
def Fits (sz : Nat) : MMI.Op → Prop
  | .data o => MM.Fits sz o
  | .fetch a => FitsA sz a 4

/-- a store to a line outside `F` -/
def Clear (F : Nat → Prop) : MMI.Op → Prop
  | .data (.wr a _ _) => ¬ F (lineNo a)
  | _ => True

/-- lines fetched -/
def seen (F : Nat → Prop) : MMI.Op → Nat → Prop
  | .fetch a => fun x => F x ∨ x = lineNo a
  | _ => F

def Settled (m : MMI) : MMI.Op → Prop
  | .data o => MM.Settled m.mm.dc o
  | .fetch _ => True

theorem fetch_ok {m : MMI} {F : Nat → Prop} (hI : Inv m F) {a : W} (hfit : FitsA m.mm.ram.size a 4) :
    ∃ m', m.rdInst a = .ok (BitVec.ofNat 32 (Spec.le m.mm.ram.bytes a 4), m') ∧ m'.mm = m.mm ∧
      Inv m' (seen F (.fetch a)) := by
  obtain ⟨hD, ⟨b, hg⟩, hW, hf, hc, hwi⟩ := hI
  obtain ⟨_, _, _, _, h64, h32⟩ := id hD
  obtain ⟨r, hs, hcoh, hrd⟩ := serve_coh hg hW hf (hfit.inLine h64 h32) (Coh.pre hc a 4 .read)
    (fun h => by cases h) (m := .none) (fun h => by cases h)
  obtain ⟨data, v, hv, hgo, hdat⟩ := hrd rfl (by simp)
  have hin := hfit.inLine h64 h32
  have hrm := readGo_mem m.mm.ram a data _ 4 hfit.1 hin.2.1 h32 hfit.2.2 (fun k hk => by
    rw [hdat _ (by have := hin.2.1; omega), memByte_addr])
  have hap : Op.apply m.ic m.mm.ram (.rd a 4) = .ok r.2 := by simp only [Op.apply, Cache.rd, hs, Res.bind_ok]
  obtain ⟨sm, wf⟩ := apply_wf hg hW hap
  have hval := m.mm.ram.rd_ok hfit.1 hfit.2.2 h32
  rw [hgo, hval] at hrm
  refine ⟨{ m with ic := r.2 }, ?_, rfl, hD, ⟨b, sm.geo hg⟩, wf, by rw [sm.1]; exact hf, hcoh,
    serve_within hg hW hs hwi⟩
  simp only [rdInst, hval, Cache.rd, hs, Res.bind_ok, hv]
  have : v = BitVec.ofNat 32 (Spec.le m.mm.ram.bytes a 4) := Res.ok.inj hrm
  subst this
  by_cases hfv : (m.ic.cfg.func && m.ic.cfg.verify) = true
  · simp only [if_pos hfv, ne_eq, not_true_eq_false, if_false]
  · simp only [if_neg hfv]

theorem step_ok {m : MMI} {F : Nat → Prop} (hI : Inv m F) {o : MMI.Op} (hfit : Fits m.mm.ram.size o)
    (hset : Settled m o) (hcl : Clear F o) :
    ∃ m', m.step o = .ok m' ∧ Inv m' (seen F o) ∧ m'.mm.ram.size = m.mm.ram.size ∧
      m'.mm.ram.bytes = (match o with | .data o => stored m.mm.ram.bytes o | .fetch _ => m.mm.ram.bytes) ∧
      (∀ o', o = .data o' → Op.looksUp o' = true → m'.mm.dc.scpStatus ≠ none) ∧
      (m.mm.dc.scpStatus ≠ none → m'.mm.dc.scpStatus ≠ none) := by
  cases o with
  | fetch a =>
    obtain ⟨m', h, e, hI'⟩ := fetch_ok hI hfit
    refine ⟨m', by simp only [step, h, Res.bind_ok], hI', by rw [e], by rw [e], (fun _ h => by cases h),
      by rw [e]; exact id⟩
  | data o =>
    obtain ⟨hD, hg, hW, hf, hc, hwi⟩ := hI
    obtain ⟨mm', h, hD', e1, e2, e3, s1, s2⟩ := MM.step_ok hD hfit hset
    refine ⟨{ m with mm := mm' }, by simp only [step, h, Res.bind_ok], ⟨hD', hg, hW, hf, ?_, hwi⟩, e1, e2,
      (fun o' ho => by cases ho; exact s1), s2⟩
    intro i j hi hj hv
    obtain ⟨p1, p2⟩ := hc i j hi hj hv
    refine ⟨by rw [e1]; exact p1, fun k hk => ?_⟩
    rw [p2 k hk]
    have hFk := hwi i j hi hj hv
    unfold memByte
    rw [e2]
    cases o with
    | wr a v n =>
      have hne : m.ic.key i j ≠ lineNo a := by
        intro he
        exact hcl (by rw [← he]; exact hFk)
      obtain ⟨hn, hal, hsz⟩ : FitsA m.mm.ram.size a n := hfit
      have h32 := hD.2.2.2.2.2
      show _ = Spec.put _ _ _ _ _
      unfold Spec.put
      generalize hx : BitVec.ofNat 32 (m.ic.key i j * 64 + k) = x
      have hxn : x.toNat = m.ic.key i j * 64 + k := by
        rw [← hx, BitVec.toNat_ofNat, Nat.mod_eq_of_lt (by omega)]
      have hin : ¬ (x - a).toNat < n := by
        intro hin
        apply hne
        have hax := a.isLt
        have hxx := x.isLt
        have : (x - a).toNat = (2 ^ 32 - a.toNat + x.toNat) % 2 ^ 32 := by rw [BitVec.toNat_sub]
        have hxa : a.toNat ≤ x.toNat ∧ x.toNat < a.toNat + n := by
          rcases Nat.lt_or_ge x.toNat a.toNat with hlt | hge
          · exfalso
            rw [Nat.mod_eq_of_lt (by omega)] at this
            omega
          · rw [show 2 ^ 32 - a.toNat + x.toNat = (x.toNat - a.toNat) + 2 ^ 32 by omega, Nat.add_mod_right,
              Nat.mod_eq_of_lt (by omega)] at this
            omega
        unfold lineNo
        rcases hn with rfl | rfl | rfl <;> omega
      simp only [if_neg hin]
    | rd a n => rfl
    | lcl a => rfl
    | rel a => rfl
    | prof e => rfl
    | roi s z => rfl

end Ama.MMI
