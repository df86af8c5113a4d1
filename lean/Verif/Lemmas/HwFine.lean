import Verif.Lemmas.HwReal
import Verif.Props.BpTables
/-!
# When the hardware models go through
-/
namespace Ama.HwReal
open Ama.Spec

/-- a release comes after a lookup -/
def NoEarlyRelease (c : List HwCall) : Prop :=
  ∀ pre a post, c = pre ++ .scp a .rel :: post → ∃ x ∈ pre, x.dataOp.isSome = true
/-- no store goes to a line fetched before -/
def NoStoreFetched (c : List HwCall) : Prop :=
  ∀ pre a v n post, c = pre ++ .dcWr a v n :: post → ∀ f, .icRd f ∈ pre → f.toNat / 64 ≠ a.toNat / 64
/-- no fetch crosses a line -/
def FetchInLine (c : List HwCall) : Prop := ∀ a, .icRd a ∈ c → a.toNat % 64 + 4 ≤ 64

theorem early_tail {x : HwCall} {c : List HwCall} (h : NoEarlyRelease (x :: c)) (hx : x.dataOp = none) : NoEarlyRelease c := by
  intro pre a post he
  obtain ⟨y, hy, hs⟩ := h (x :: pre) a post (by rw [he]; rfl)
  rcases List.mem_cons.1 hy with rfl | hy
  · rw [hx] at hs; cases hs
  · exact ⟨y, hy, hs⟩
theorem early_head {a : W} {c : List HwCall} (h : NoEarlyRelease (.scp a .rel :: c)) : False := by
  obtain ⟨y, hy, _⟩ := h [] a c rfl
  cases hy

/-! ## Caches with data -/

theorem fetch_line {m : MMI} {F : Nat → Prop} (hI : MMI.Inv m F) {a : W} (ha : a.toNat + 4 ≤ m.mm.ram.size)
    (hl : a.toNat % 64 + 4 ≤ 64) :
    ∃ m', m.rdInst a = .ok (BitVec.ofNat 32 (Spec.le m.mm.ram.bytes a 4), m') ∧ m'.mm = m.mm ∧
      MMI.Inv m' (MMI.seen F (.fetch a)) := by
  obtain ⟨hD, ⟨b, hg⟩, hW, hf, hc, hwi⟩ := hI
  obtain ⟨_, _, _, _, h64, h32⟩ := id hD
  have hin : Cache.InLine m.mm.ram a 4 := ⟨by omega, by rw [Cache.off_toNat]; exact hl, MM.line_in (by omega) h64, h32⟩
  obtain ⟨r, hs, hcoh, hrd⟩ := Cache.serve_coh hg hW hf hin (MM.Coh.pre hc a 4 .read)
    (fun h => by cases h) (m := .none) (fun h => by cases h)
  obtain ⟨data, v, hv, hgo, hdat⟩ := hrd rfl (by simp)
  have hrm := Cache.readGo_mem m.mm.ram a data _ 4 (.inr (.inr rfl)) hin.2.1 h32 ha (fun k hk => by
    rw [hdat _ (by have := hin.2.1; omega), Cache.memByte_addr])
  have hap : Cache.Op.apply m.ic m.mm.ram (.rd a 4) = .ok r.2 := by simp only [Cache.Op.apply, Cache.rd, hs, Res.bind_ok]
  obtain ⟨sm, wf⟩ := Cache.apply_wf hg hW hap
  have hval := m.mm.ram.rd_ok (.inr (.inr rfl)) ha h32
  rw [hgo, hval] at hrm
  refine ⟨{ m with ic := r.2 }, ?_, rfl, hD, ⟨b, sm.geo hg⟩, wf, by rw [sm.1]; exact hf, hcoh,
    MM.serve_within hg hW hs hwi⟩
  simp only [MMI.rdInst, hval, Cache.rd, hs, Res.bind_ok, hv]
  have : v = BitVec.ofNat 32 (Spec.le m.mm.ram.bytes a 4) := Res.ok.inj hrm
  subst this
  by_cases hfv : (m.ic.cfg.func && m.ic.cfg.verify) = true
  · simp only [if_pos hfv, ne_eq, not_true_eq_false, if_false]
  · simp only [if_neg hfv]

/-- a cache that agrees with memory gives memory's bytes -/
theorem gives {c : Cache} {d : Dev} {b : Nat} (hg : Cache.Geo c b) (hW : Cache.Wf c) (hf : c.cfg.func = true) (hc : Cache.Coh c d)
    (h64 : d.size % 64 = 0) (h32 : d.size ≤ 2 ^ 32) {a : W} {n : Nat} (hn : n = 1 ∨ n = 2 ∨ n = 4) (ha : a.toNat + n ≤ d.size)
    (hl : a.toNat % 64 + n ≤ 64) : ∃ c', c.rd d a n = .ok (some (BitVec.ofNat 32 (Spec.le d.bytes a n)), c') := by
  have hin : Cache.InLine d a n := ⟨by omega, by rw [Cache.off_toNat]; exact hl, MM.line_in (by omega) h64, h32⟩
  obtain ⟨r, hs, _, hrd⟩ := Cache.serve_coh hg hW hf hin (MM.Coh.pre hc a n .read)
    (fun h => by cases h) (m := .none) (fun h => by cases h)
  obtain ⟨data, v, hv, hgo, hdat⟩ := hrd rfl (by simp)
  have hrm := Cache.readGo_mem d a data _ n hn hin.2.1 h32 ha (fun k hk => by
    rw [hdat _ (by have := hin.2.1; omega), Cache.memByte_addr])
  have hval := d.rd_ok hn ha h32
  rw [hgo, hval] at hrm
  have hvv := Res.ok.inj hrm
  subst hvv
  exact ⟨r.2, by simp only [Cache.rd, hs, Res.bind_ok, hv]⟩

theorem func_ok : ∀ (c : List HwCall) {q : MMI} {F : Nat → Prop}, MMI.Inv q F → q.mm.ram.size = 0x20000 →
    (∀ x ∈ c, x.inMain 0x20000) → FetchInLine c → (q.mm.dc.scpStatus ≠ none ∨ NoEarlyRelease c) →
    (∀ pre a v n post, c = pre ++ .dcWr a v n :: post →
      ¬ F (Cache.lineNo a) ∧ ∀ f, .icRd f ∈ pre → Cache.lineNo f ≠ Cache.lineNo a) →
    ∃ q' F', runWith mmiCall c q = .ok q' ∧ MMI.Inv q' F' ∧ q'.mm.ram.size = 0x20000 ∧
      q'.mm.ram.bytes = memAfter q.mm.ram.bytes c
  | [], q, F, hI, hz, _, _, _, _ => ⟨q, F, rfl, hI, hz, rfl⟩
  | x :: c, q, F, hI, hz, hin, hfl, hr, hsm => by
    have hfl' : FetchInLine c := fun a ha => hfl a (.tail _ ha)
    have hin' : ∀ x ∈ c, x.inMain 0x20000 := fun y hy => hin y (.tail _ hy)
    have hx := hin x (.head _)
    -- after a call that keeps the fetched lines
    have next : ∀ {q1 : MMI}, mmiCall x q = .ok q1 → MMI.Inv q1 F → q1.mm.ram.size = 0x20000 →
        (q1.mm.dc.scpStatus ≠ none ∨ NoEarlyRelease c) → memAfter q.mm.ram.bytes (x :: c) = memAfter q1.mm.ram.bytes c →
        ∃ q' F', runWith mmiCall (x :: c) q = .ok q' ∧ MMI.Inv q' F' ∧ q'.mm.ram.size = 0x20000 ∧
          q'.mm.ram.bytes = memAfter q.mm.ram.bytes (x :: c) := by
      intro q1 h1 hI1 hz1 hr1 hm
      obtain ⟨q2, F2, h2, hI2, hz2, hb2⟩ := func_ok c hI1 hz1 hin' hfl' hr1 (fun pre a v n post he => by
        obtain ⟨k1, k2⟩ := hsm (x :: pre) a v n post (by rw [he]; rfl)
        exact ⟨k1, fun f hf => k2 f (.tail _ hf)⟩)
      exact ⟨q2, F2, by simp only [runWith, h1, Res.bind_ok, h2], hI2, hz2, by rw [hb2, hm]⟩
    have quiet : mmiCall x q = .ok q → x.dataOp = none → memAfter q.mm.ram.bytes (x :: c) = memAfter q.mm.ram.bytes c →
        ∃ q' F', runWith mmiCall (x :: c) q = .ok q' ∧ MMI.Inv q' F' ∧ q'.mm.ram.size = 0x20000 ∧
          q'.mm.ram.bytes = memAfter q.mm.ram.bytes (x :: c) :=
      fun h1 h2 h3 => next h1 hI hz (hr.imp_right fun h => early_tail h h2) h3
    have data : ∀ o : Cache.Op, mmiCall x q = q.step (.data o) → MM.Fits q.mm.ram.size o → MM.Settled q.mm.dc o →
        MMI.Clear F (.data o) → (x.dataOp = none ∧ (∀ q1 : MMI, q.mm.dc.scpStatus ≠ none → q1.mm.dc.scpStatus ≠ none → q1.mm.dc.scpStatus ≠ none) ∨ MM.Op.looksUp o = true) →
        memAfter q.mm.ram.bytes (x :: c) = memAfter (MM.stored q.mm.ram.bytes o) c →
        ∃ q' F', runWith mmiCall (x :: c) q = .ok q' ∧ MMI.Inv q' F' ∧ q'.mm.ram.size = 0x20000 ∧
          q'.mm.ram.bytes = memAfter q.mm.ram.bytes (x :: c) := by
      intro o ho hfit hset hcl hlk hm
      obtain ⟨q1, h1, hI1, e1, e2, s1, s2⟩ := MMI.step_ok hI (o := .data o) hfit hset hcl
      refine next (ho.trans h1) hI1 (e1.trans hz) ?_ (by rw [hm, e2])
      rcases hlk with ⟨h, _⟩ | h
      · exact hr.imp s2 fun hh => early_tail hh h
      · exact .inl (s1 o rfl h)
    cases x with
    | icRd a =>
      obtain ⟨_, _, h4⟩ := hx
      obtain ⟨q1, h1, e, hI1⟩ := fetch_line hI (a := a) (by omega) (hfl a (.head _))
      have h1' : mmiCall (.icRd a) q = .ok q1 := by simp only [mmiCall, MMI.step, h1, Res.bind_ok]
      obtain ⟨q2, F2, h2, hI2, hz2, hb2⟩ := func_ok c hI1 (by rw [e]; exact hz) hin' hfl'
        (by rw [e]; exact hr.imp_right fun h => early_tail h rfl) (fun pre b v n post he => by
        obtain ⟨k1, k2⟩ := hsm (.icRd a :: pre) b v n post (by rw [he]; rfl)
        refine ⟨?_, fun f hf => k2 f (.tail _ hf)⟩
        rintro (hh | hh)
        · exact k1 hh
        · exact k2 a (.head _) hh.symm)
      refine ⟨q2, F2, by simp only [runWith, h1', Res.bind_ok, h2], hI2, hz2, by rw [hb2, e]; rfl⟩
    | dcRd a n =>
      exact data (.rd a n) rfl (by rw [hz]; exact hx) (.inl (by simp)) trivial (.inr rfl) rfl
    | dcWr a v n =>
      exact data (.wr a v n) rfl (by rw [hz]; exact hx) (.inl (by simp)) (hsm [] a v n c rfl).1 (.inr rfl) rfl
    | scp a k =>
      cases k with
      | lcl => exact data (.lcl a) rfl (by rw [hz]; exact hx) (.inl (by simp)) trivial (.inr rfl) rfl
      | rel =>
        have hs : q.mm.dc.scpStatus ≠ none := hr.resolve_right early_head
        exact data (.rel a) rfl (by rw [hz]; exact hx) (.inr hs) trivial (.inl ⟨rfl, fun _ _ h => h⟩) rfl
    | ideal n => exact quiet rfl rfl rfl
    | predict pc imm f3 => exact quiet rfl rfl rfl
    | update pc n => exact quiet rfl rfl rfl
    | div a b u => exact quiet rfl rfl rfl
    | prof on =>
      obtain ⟨hD, ⟨b, hg⟩, hW, hf, hc, hwi⟩ := hI
      obtain ⟨m1, k1, hD1, _⟩ := MM.step_ok hD (o := .prof on) trivial (.inl (by simp))
      cases k1
      obtain ⟨sm, wf⟩ := Cache.apply_wf (o := .prof on) (d := q.mm.ram) hg hW rfl
      exact next rfl ⟨hD1, ⟨b, sm.geo hg⟩, wf, hf, hc, hwi⟩ hz (hr.imp_right fun h => early_tail h rfl) rfl

/-! ## Caches without data -/

/-- every request goes through, but for a release before the first lookup -/
theorem op_perf {c : Cache} {b : Nat} (hg : Cache.Geo c b) (hW : Cache.Wf c) (hf : c.cfg.func = false) (d : Dev) (o : Cache.Op)
    (hset : MM.Settled c o) : ∃ c1, o.apply c d = .ok c1 ∧ (MM.Op.looksUp o = true → c1.scpStatus ≠ none) ∧
      (c.scpStatus ≠ none → c1.scpStatus ≠ none) := by
  cases o with
  | rd a n =>
    obtain ⟨r, hr⟩ := Cache.serve_perf hf d a n .read .none
    obtain ⟨t1, t2⟩ := MM.serve_status hg hW hr
    exact ⟨r.2, by simp only [Cache.Op.apply, Cache.rd, hr, Res.bind_ok], fun _ => t1 (by simp), t2⟩
  | wr a v n =>
    have hf' : ({ c with wrBuf := v } : Cache).cfg.func = false := hf
    obtain ⟨r, hr⟩ := Cache.serve_perf hf' d a n .write .none
    obtain ⟨t1, _⟩ := MM.serve_status (c := { c with wrBuf := v }) hg hW hr
    exact ⟨r.2, by simp only [Cache.Op.apply, Cache.wr, hr, Res.bind_ok], fun _ => t1 (by simp), fun _ => t1 (by simp)⟩
  | lcl a =>
    obtain ⟨r, hr⟩ := Cache.serve_perf hf d a 0 .read .lcl
    obtain ⟨t1, t2⟩ := MM.serve_status hg hW hr
    obtain ⟨sb, hsb⟩ := Option.ne_none_iff_exists'.1 (t1 (by simp))
    exact ⟨r.2, by simp only [Cache.Op.apply, Cache.scpLcl, hr, Res.bind_ok, hsb], fun _ => t1 (by simp), t2⟩
  | rel a =>
    have hnn : c.scpStatus ≠ none := hset.resolve_left fun h => h a rfl
    obtain ⟨r, hr⟩ := Cache.serve_perf hf d a 0 .read .rel
    obtain ⟨t1, t2⟩ := MM.serve_status hg hW hr
    obtain ⟨sb, hsb⟩ := Option.ne_none_iff_exists'.1 (t2 hnn)
    exact ⟨r.2, by simp only [Cache.Op.apply, Cache.scpRel, hr, Res.bind_ok, hsb], fun _ => t2 hnn, t2⟩
  | prof e => exact ⟨_, rfl, (fun h => by cases h), id⟩
  | roi s z => exact ⟨_, rfl, (fun h => by cases h), id⟩

/-- both caches are tag-only -/
def PInv (q : MMI) : Prop := ((∃ b, Cache.Geo q.mm.dc b) ∧ Cache.Wf q.mm.dc ∧ q.mm.dc.cfg.func = false) ∧
  ((∃ b, Cache.Geo q.ic b) ∧ Cache.Wf q.ic ∧ q.ic.cfg.func = false) ∧ q.mm.ram.size = 0x20000

theorem perf_data {q : MMI} (hI : PInv q) (o : Cache.Op) (hfit : MM.Fits 0x20000 o) (hset : MM.Settled q.mm.dc o) :
    ∃ q1, q.step (.data o) = .ok q1 ∧ PInv q1 ∧ (MM.Op.looksUp o = true → q1.mm.dc.scpStatus ≠ none) ∧
      (q.mm.dc.scpStatus ≠ none → q1.mm.dc.scpStatus ≠ none) ∧ q1.mm.ram.bytes = MM.stored q.mm.ram.bytes o := by
  obtain ⟨⟨⟨b, hg⟩, hW, hf⟩, hic, hz⟩ := hI
  have fin : ∀ {d d' : Dev} {c1 : Cache}, o.apply q.mm.dc d = .ok c1 → d'.size = 0x20000 → PInv { q with mm := ⟨d', c1⟩ } := by
    intro d d' c1 h hd
    obtain ⟨sm, wf⟩ := Cache.apply_wf hg hW h
    exact ⟨⟨⟨b, sm.geo hg⟩, wf, by rw [show ({ q with mm := ⟨d', c1⟩ } : MMI).mm.dc.cfg = c1.cfg from rfl, sm.1]; exact hf⟩, hic, hd⟩
  cases o with
  | rd a n =>
    obtain ⟨c1, h1, s1, s2⟩ := op_perf hg hW hf q.mm.ram (.rd a n) hset
    refine ⟨{ q with mm := ⟨q.mm.ram, c1⟩ }, ?_, fin h1 hz, s1, s2, rfl⟩
    have hfa : MM.FitsA 0x20000 a n := hfit
    have hv := q.mm.ram.rd_ok hfa.1 (by rw [hz]; exact hfa.2.2) (by omega)
    simp only [Cache.Op.apply, bind_ok_iff] at h1
    obtain ⟨r, h1, e⟩ := h1
    cases e
    simp only [MMI.step, MM.step, MM.rd, hv, h1, Res.bind_ok, hf, Bool.false_and, Bool.false_eq_true, if_false]
  | wr a v n =>
    have hfa : MM.FitsA 0x20000 a n := hfit
    have hv := q.mm.ram.wr_ok v hfa.1 (by rw [hz]; exact hfa.2.2) (by omega)
    generalize hd : ({ q.mm.ram with bytes := Spec.put q.mm.ram.bytes a v.toNat n } : Dev) = d' at *
    obtain ⟨c1, h1, s1, s2⟩ := op_perf hg hW hf d' (.wr a v n) hset
    refine ⟨{ q with mm := ⟨d', c1⟩ }, ?_, fin h1 (by rw [← hd]; exact hz), s1, s2, by rw [← hd]; rfl⟩
    have h1 : q.mm.dc.wr d' a v n = .ok c1 := h1
    simp only [MMI.step, MM.step, MM.wr, hv, h1, Res.bind_ok]
  | lcl a =>
    obtain ⟨c1, h1, s1, s2⟩ := op_perf hg hW hf q.mm.ram (.lcl a) hset
    refine ⟨{ q with mm := ⟨q.mm.ram, c1⟩ }, ?_, fin h1 hz, s1, s2, rfl⟩
    simp only [Cache.Op.apply, bind_ok_iff] at h1
    obtain ⟨r, h1, e⟩ := h1
    cases e
    simp only [MMI.step, MM.step, MM.scp, h1, Res.bind_ok]
  | rel a =>
    obtain ⟨c1, h1, s1, s2⟩ := op_perf hg hW hf q.mm.ram (.rel a) hset
    refine ⟨{ q with mm := ⟨q.mm.ram, c1⟩ }, ?_, fin h1 hz, s1, s2, rfl⟩
    simp only [Cache.Op.apply, bind_ok_iff] at h1
    obtain ⟨r, h1, e⟩ := h1
    cases e
    simp only [MMI.step, MM.step, MM.scp, h1, Res.bind_ok]
  | prof e => exact ⟨_, rfl, fin (d := q.mm.ram) (c1 := q.mm.dc.profiling e) rfl hz, (fun h => by cases h), id, rfl⟩
  | roi s z => exact ⟨_, rfl, fin (d := q.mm.ram) (c1 := q.mm.dc.setRoi s z) rfl hz, (fun h => by cases h), id, rfl⟩

theorem perf_ok : ∀ (c : List HwCall) {q : MMI}, PInv q → (∀ x ∈ c, x.inMain 0x20000) →
    (q.mm.dc.scpStatus ≠ none ∨ NoEarlyRelease c) →
    ∃ q', runWith mmiCall c q = .ok q' ∧ PInv q' ∧ q'.mm.ram.bytes = memAfter q.mm.ram.bytes c
  | [], q, hI, _, _ => ⟨q, rfl, hI, rfl⟩
  | x :: c, q, hI, hin, hr => by
    have hin' : ∀ x ∈ c, x.inMain 0x20000 := fun y hy => hin y (.tail _ hy)
    have hx := hin x (.head _)
    have next : ∀ {q1 : MMI}, mmiCall x q = .ok q1 → PInv q1 → (q1.mm.dc.scpStatus ≠ none ∨ NoEarlyRelease c) →
        memAfter q.mm.ram.bytes (x :: c) = memAfter q1.mm.ram.bytes c →
        ∃ q', runWith mmiCall (x :: c) q = .ok q' ∧ PInv q' ∧ q'.mm.ram.bytes = memAfter q.mm.ram.bytes (x :: c) := by
      intro q1 h1 hI1 hr1 hm
      obtain ⟨q2, h2, hI2, hb2⟩ := perf_ok c hI1 hin' hr1
      exact ⟨q2, by simp only [runWith, h1, Res.bind_ok, h2], hI2, by rw [hb2, hm]⟩
    have quiet : mmiCall x q = .ok q → x.dataOp = none → memAfter q.mm.ram.bytes (x :: c) = memAfter q.mm.ram.bytes c →
        ∃ q', runWith mmiCall (x :: c) q = .ok q' ∧ PInv q' ∧ q'.mm.ram.bytes = memAfter q.mm.ram.bytes (x :: c) :=
      fun h1 h2 h3 => next h1 hI (hr.imp_right fun h => early_tail h h2) h3
    have data : ∀ o : Cache.Op, mmiCall x q = q.step (.data o) → MM.Fits 0x20000 o → MM.Settled q.mm.dc o →
        (x.dataOp = none ∨ MM.Op.looksUp o = true) →
        memAfter q.mm.ram.bytes (x :: c) = memAfter (MM.stored q.mm.ram.bytes o) c →
        ∃ q', runWith mmiCall (x :: c) q = .ok q' ∧ PInv q' ∧ q'.mm.ram.bytes = memAfter q.mm.ram.bytes (x :: c) := by
      intro o ho hfit hset hlk hm
      obtain ⟨q1, h1, hI1, s1, s2, e⟩ := perf_data hI o hfit hset
      refine next (ho.trans h1) hI1 ?_ (by rw [hm, e])
      rcases hlk with h | h
      · exact hr.imp s2 fun hh => early_tail hh h
      · exact .inl (s1 h)
    cases x with
    | icRd a =>
      obtain ⟨_, _, h4⟩ := hx
      obtain ⟨hd, ⟨⟨b, hg⟩, hW, hf⟩, hz⟩ := hI
      have hv := q.mm.ram.rd_ok (a := a) (.inr (.inr rfl)) (by rw [hz]; exact h4) (by omega)
      obtain ⟨c1, h1, _⟩ := op_perf hg hW hf q.mm.ram (.rd a 4) (.inl (by simp))
      obtain ⟨sm, wf⟩ := Cache.apply_wf hg hW h1
      simp only [Cache.Op.apply, bind_ok_iff] at h1
      obtain ⟨r, h1, e⟩ := h1
      cases e
      refine next (q1 := { q with ic := r.2 }) ?_ ⟨hd, ⟨⟨b, sm.geo hg⟩, wf, by rw [show ({ q with ic := r.2 } : MMI).ic.cfg = r.2.cfg from rfl, sm.1]; exact hf⟩, hz⟩
        (hr.imp_right fun h => early_tail h rfl) rfl
      simp only [mmiCall, MMI.step, MMI.rdInst, hv, h1, Res.bind_ok, hf, Bool.false_and, Bool.false_eq_true, if_false]
    | dcRd a n => exact data (.rd a n) rfl hx (.inl (by simp)) (.inr rfl) rfl
    | dcWr a v n => exact data (.wr a v n) rfl hx (.inl (by simp)) (.inr rfl) rfl
    | scp a k =>
      cases k with
      | lcl => exact data (.lcl a) rfl hx (.inl (by simp)) (.inr rfl) rfl
      | rel => exact data (.rel a) rfl hx (.inr (hr.resolve_right early_head)) (.inl rfl) rfl
    | ideal n => exact quiet rfl rfl rfl
    | predict pc imm f3 => exact quiet rfl rfl rfl
    | update pc n => exact quiet rfl rfl rfl
    | div a b u => exact quiet rfl rfl rfl
    | prof on =>
      obtain ⟨⟨⟨b, hg⟩, hW, hf⟩, ⟨⟨b', hg'⟩, hW', hf'⟩, hz⟩ := hI
      obtain ⟨sm, wf⟩ := Cache.apply_wf (o := .prof on) (d := q.mm.ram) hg hW rfl
      obtain ⟨sm', wf'⟩ := Cache.apply_wf (o := .prof on) (d := q.mm.ram) hg' hW' rfl
      exact next rfl ⟨⟨⟨b, sm.geo hg⟩, wf, hf⟩, ⟨⟨b', sm'.geo hg'⟩, wf', hf'⟩, hz⟩ (hr.imp_right fun h => early_tail h rfl) rfl

/-! ## The predictors -/

theorem forAll_all {f : Bp.Pred → Res Bp.Pred} : ∀ {l : List Bp.Pred}, (∀ p ∈ l, ∃ q, f p = .ok q) →
    ∃ l', Bp.forAll f l = .ok l' ∧ ∀ q ∈ l', ∃ p ∈ l, f p = .ok q
  | [], _ => ⟨[], rfl, by simp⟩
  | p :: t, h => by
    obtain ⟨q, hq⟩ := h p (.head _)
    obtain ⟨t', ht, g⟩ := forAll_all (l := t) fun p hp => h p (.tail _ hp)
    refine ⟨q :: t', by simp only [Bp.forAll, hq, ht, Res.bind_ok], ?_⟩
    intro x hx
    rcases List.mem_cons.1 hx with rfl | hx
    · exact ⟨p, .head _, hq⟩
    · obtain ⟨y, hy, e⟩ := g x hx
      exact ⟨y, .tail _ hy, e⟩

/-- the parts of a branch that one predictor sees -/
theorem drive_parts {e : Bp.Br} {p p' : Bp.Pred} {v : W} (h : Bp.drive e p = .ok (v, p')) :
    ∃ q r, Bp.predict (e.pc + e.offset) e.pc (Bp.gotoFuture e.next p) = .ok (v, q) ∧
      Bp.evalUpdate (e.next != e.pc + 4#32) e.next q = .ok r ∧
      (p.base.stats.prof = true → Bp.updateStats e.pc e.next r.2 = .ok p') := by
  obtain ⟨⟨v1, q⟩, e1, h⟩ := Bp.bind_eq_ok h
  obtain ⟨r, e2, h⟩ := Bp.bind_eq_ok h
  obtain ⟨q'', e3, h⟩ := Bp.bind_eq_ok h
  simp only [Res.ok.injEq, Prod.mk.injEq] at h
  obtain ⟨rfl, rfl⟩ := h
  refine ⟨q, r, e1, e2, fun hp => ?_⟩
  have hs : r.2.base.stats = p.base.stats := by rw [(Bp.eval_shape _ _ e2).2.1, (Bp.asked _ _ e1).stats, Bp.goto_stats]
  simp only [hs, hp, if_true] at e3
  exact e3

theorem branch_all (e : Bp.Br) {s : Bp.BpIf} (hsy : Bp.Synced s) (ha : ∃ v p', Bp.drive e s.active = .ok (v, p'))
    (hall : ∀ p ∈ s.all, ∃ v p', Bp.drive e p = .ok (v, p')) : ∃ r, s.branch e = .ok r := by
  obtain ⟨v, a', ha⟩ := ha
  obtain ⟨qa, ra, a1, a2, a3⟩ := drive_parts ha
  unfold Bp.BpIf.branch Bp.BpIf.predict
  simp only
  obtain ⟨l1, e1, g1⟩ := forAll_all (f := fun p => do let r ← Bp.predict (e.pc + e.offset) e.pc p; .ok r.2)
    (l := (s.ideal e.next).all) (fun p hp => by
      obtain ⟨p, hpm, rfl⟩ := List.mem_map.1 hp
      obtain ⟨v, p', h⟩ := hall p hpm
      obtain ⟨q, r, h1, _⟩ := drive_parts h
      exact ⟨q, by simp only [h1, Res.bind_ok]⟩)
  have a1' : Bp.predict (e.pc + e.offset) e.pc (s.ideal e.next).active = .ok (v, qa) := a1
  rw [e1]
  simp only [Res.bind_ok, a1']
  unfold Bp.BpIf.update
  simp only [a2, Res.bind_ok]
  have k1 : ∀ q ∈ l1, ∃ p ∈ s.all, ∃ v, Bp.predict (e.pc + e.offset) e.pc (Bp.gotoFuture e.next p) = .ok (v, q) := by
    intro q hq
    obtain ⟨p, hp, h⟩ := g1 q hq
    obtain ⟨p, hpm, rfl⟩ := List.mem_map.1 hp
    obtain ⟨⟨v, q'⟩, h1, h⟩ := Bp.bind_eq_ok h
    cases h
    exact ⟨p, hpm, v, h1⟩
  obtain ⟨l2, e2, g2⟩ := forAll_all (f := fun p => do let r ← Bp.evalUpdate (e.next != e.pc + 4#32) e.next p; .ok r.2)
    (l := l1) (fun q hq => by
      obtain ⟨p, hp, v, h⟩ := k1 q hq
      obtain ⟨v', p', hd⟩ := hall p hp
      obtain ⟨q', r, h1, h2, _⟩ := drive_parts hd
      rw [h] at h1
      cases h1
      exact ⟨r.2, by simp only [h2, Res.bind_ok]⟩)
  rw [e2]
  simp only [Res.bind_ok]
  cases hp : (s.ideal e.next).prof with
  | false => exact ⟨_, rfl⟩
  | true =>
    simp only [Bool.not_true, Bool.false_eq_true, if_false]
    have hpa : s.active.base.stats.prof = true := hsy.1.trans hp
    rw [a3 hpa]
    simp only [Res.bind_ok]
    obtain ⟨l3, e3, _⟩ := forAll_all (f := Bp.updateStats e.pc e.next) (l := l2) (fun x hx => by
      obtain ⟨q, hq, h⟩ := g2 x hx
      obtain ⟨p, hpm, v, h1⟩ := k1 q hq
      obtain ⟨v', p', hd⟩ := hall p hpm
      obtain ⟨q', r, h1', h2, h3⟩ := drive_parts hd
      rw [h1] at h1'
      cases h1'
      simp only [h2, Res.bind_ok, Res.ok.injEq] at h
      subst h
      exact ⟨p', h3 ((hsy.2 p hpm).trans hp)⟩)
    rw [e3]
    exact ⟨_, rfl⟩

def Fine (p : Bp.Pred) : Prop := Bp.PredOk p ∧ Bp.Sound (Bp.shape p) ∧ Bp.shape p ≠ .one .none

theorem fine_drive (e : Bp.Br) {p : Bp.Pred} (h : Fine p) : ∃ v p', Bp.drive e p = .ok (v, p') ∧ Fine p' := by
  obtain ⟨h1, h2, h3⟩ := h
  rcases Bp.drive_ok e h1 with ⟨v, q, g1, g2, g3, _⟩ | ⟨_, g⟩
  · exact ⟨v, q, g1, g2, by rw [g3]; exact h2, by rw [g3]; exact h3⟩
  · rcases g with g | ⟨g, _⟩
    · exact absurd h2 g
    · exact absurd g h3

theorem bp_fine : ∀ (evs : List Bp.Ev) {s : Bp.BpIf}, Bp.Synced s → Fine s.active → (∀ p ∈ s.all, Fine p) →
    ∃ s', Bp.BpIf.run evs s = .ok s'
  | [], s, _, _, _ => ⟨s, rfl⟩
  | .br e :: t, s, hs, ha, hall => by
    obtain ⟨v, p', a1, a2⟩ := fine_drive e ha
    obtain ⟨⟨v', s1⟩, hb⟩ := branch_all e hs ⟨v, p', a1⟩ (fun p hp => by
      obtain ⟨v, p', h, _⟩ := fine_drive e (hall p hp); exact ⟨v, p', h⟩)
    obtain ⟨g1, g2, _, g4⟩ := Bp.branch_proj hs hb
    have ha' : Fine s1.active := by rw [a1] at g1; cases g1; exact a2
    have hall' : ∀ p ∈ s1.all, Fine p := by
      have : ∀ {x y : List Bp.Pred}, Bp.All2 (fun p q => ∃ v, Bp.drive e p = .ok (v, q)) x y → (∀ p ∈ x, Fine p) → ∀ p ∈ y, Fine p := by
        intro x y h
        induction h with
        | nil => intro _ p hp; cases hp
        | cons h1 _ ih =>
          intro hx p hp
          rcases List.mem_cons.1 hp with rfl | hp
          · obtain ⟨w, hw⟩ := h1
            obtain ⟨v, q, k1, k2⟩ := fine_drive e (hx _ (.head _))
            rw [hw] at k1
            cases k1
            exact k2
          · exact ih (fun p hp => hx p (.tail _ hp)) p hp
      exact this g2 hall
    obtain ⟨s2, h2⟩ := bp_fine t g4 ha' hall'
    exact ⟨s2, by simp only [Bp.BpIf.run, hb, Res.bind_ok, h2]⟩
  | .prof on :: t, s, hs, ha, hall => by
    have key : ∀ {p : Bp.Pred}, Fine p → Fine (Bp.setProf on p) := fun h =>
      ⟨Bp.setBase_ok (Bp.base_ok h.1) h.1, by rw [Bp.shape_setProf]; exact h.2.1, by rw [Bp.shape_setProf]; exact h.2.2⟩
    exact bp_fine t (s := s.profiling on) (Bp.profiling_synced s on) (key ha) (fun p hp => by
      obtain ⟨q, hq, rfl⟩ := List.mem_map.1 hp
      exact key (hall q hq))

theorem make_fine {low : Nat} (hl : low = 1 ∨ low = 2) {d : Bp.Def} {p : Bp.Pred} (h : Bp.make low d = .ok p) (hd : d.plain) : Fine p :=
  ⟨(Bp.make_ok (by omega) h).1, by rw [Bp.make_shape h]; exact hd.1, by rw [Bp.make_shape h]; exact hd.2⟩

/-! ## The models that write down what they are told -/

theorem replay_logged {σ : Type} {h : Hw σ} : ∀ (c : List HwCall) (g : σ) (l : List HwCall),
    replay (logged h) c (g, l) = (replay h c g, l ++ c)
  | [], g, l => by simp [replay]
  | x :: c, g, l => by
    have : replay (logged h) (x :: c) (g, l) = replay (logged h) c (HwCall.run h x g, l ++ [x]) := by cases x <;> rfl
    rw [this, replay_logged c]
    simp [replay]

end Ama.HwReal
