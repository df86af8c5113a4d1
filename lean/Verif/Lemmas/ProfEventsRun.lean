import Verif.Lemmas.ProfEventsEv
import Verif.Props.ProfPerf
import Verif.Props.X0
/-!
# The calls of the callstack profiler in a step
-/
namespace Ama.PerfCore
open M Spec Prof
open Perf (Op Trk Disc recorded)
open ProfTrace (newRec badStore takenCall)
variable {σ : Type} {E : Env σ} {s s' : St σ} {l : List Op}

/-! ## Branches that retire have aligned targets -/

theorem calm_branchHw {n w : W} : Pres (fun s : St σ => s.trapped = false → s.nextPc = n) (branchHw E w) := by
  have h : PrimsM E (fun s : St σ => s.trapped = false → s.nextPc = n) := {
    trap := fun _ _ => pres_trap fun _ _ => nofun
    ramWr := ramWr_of (fun _ _ h => h) (fun _ _ h => h)
    uartWr := uartWr_of (fun _ _ h => h)
    uartRd := uartRd_of (fun _ _ h => h) (fun _ _ h => h) }
  refine Pres.bind (Pres.mod fun s hs => hs) fun _ => Pres.bind (Pres.get _) fun _ =>
    Pres.bind (Pres.get _) fun _ => Pres.bind (Pres.mod fun s hs => hs) fun _ =>
    Pres.bind (Pres.ite (Pres.pure _) (Pres.bind (h.rdInst _) fun _ => Pres.mod fun s hs => hs))
    fun _ => Pres.bind (Pres.mod fun s hs => hs) fun _ => Pres.bind (Pres.get _) fun _ =>
    Pres.ite (Pres.bind (Pres.get _) fun sp => ?_) (Pres.bind (h.rdInst _) fun _ =>
      Pres.mod fun s hs => hs)
  split
  · exact Pres.mod fun s hs => hs
  · exact Pres.ub _
theorem branch_aligned {w : W} (h : dBranch E w s = .ok ((), s')) (ht : s'.trapped = false) : misaligned E s'.nextPc = false := by
  unfold dBranch at h
  obtain ⟨_, _, _, h⟩ := bind_eq_ok.1 h
  obtain ⟨_, _, _, h⟩ := bind_eq_ok.1 h
  obtain ⟨_, s1, _, h⟩ := bind_eq_ok.1 h
  rw [M.bind_ok (M.get_app _ _)] at h
  split at h
  · exfalso
    obtain ⟨_, s2, e1, e2⟩ := bind_eq_ok.1 (show (trapInst 0#32 s1.nextPc : M σ Unit) s1 = _ from h)
    rw [M.mod_app] at e1
    cases e1
    unfold trapStateUpdate at e2
    rw [M.mod_app] at e2
    cases e2
    cases ht
  · rename_i hm
    split at h
    · have h1 := calm_branchHw (n := s1.nextPc) _ _ _ (fun _ => rfl) h ht
      rw [h1]
      simpa using hm
    · cases h
      simpa using hm

/-! ## Only OP-IMM words switch profiling -/

theorem activeN (E : Env σ) {b : Bool} : PrimsN E (fun s : St σ => s.profActive = b) where
  ramWr := ramWr_of (fun _ _ h => h) (fun _ _ h => h)
  uartWr := uartWr_of (fun _ _ h => h)
  uartRd := uartRd_of (fun _ _ h => h) (fun _ _ h => h)
theorem active32 {w : W} (hw : IP.opcode w ≠ 0x13#7) {b : Bool} : Pres (fun s : St σ => s.profActive = b) (exec32 E w) := by
  have h := activeN (b := b) E
  unfold exec32
  split
  · exact h.dAluReg _
  · exact absurd ‹_› hw
  · exact h.dLoad _
  · exact h.dStore _
  · exact h.dBranch _
  · exact h.dJalr _
  · exact h.dJal _
  · exact h.dLui _
  · exact h.dAuipc _
  · exact h.dSystem_of _ (Pres.mod fun _ h => h) fun _ => h.dCsr_of _
      (Pres.bind (Pres.mod fun _ h => h) fun _ => Pres.bind (Pres.bind (Pres.get _) fun _ => Pres.lift _) fun _ =>
        Pres.mod fun _ h => h)
      (fun _ _ _ => wrCsr_of (fun _ _ => h.trap _ _) (fun _ _ _ h => h) _ _) (fun _ _ _ h => h)
  · exact h.dMiscMem _
  · exact Pres.ite (h.dCustom _) h.eIllegal
  · exact h.eIllegal
theorem active_kept {qc q1 : St σ} (h : exec E qc = .ok ((), q1)) (ht : q1.trapped = false) :
    qc.profActive = q1.profActive ∨ IP.opcode q1.inst = 0x13#7 := by
  rcases Dasm.exec_word h ht with ⟨_, hx⟩ | ⟨hc, _⟩
  · by_cases ho : IP.opcode q1.inst = 0x13#7
    · exact .inr ho
    · exact .inl (active32 ho _ _ _ rfl hx).symm
  · have hx := Dasm.exec_word16 h hc ht
    exact .inl ((activeN (b := qc.profActive) E).exec16_of _ (fun _ => Pres.bind (Pres.mod fun _ h => h) fun _ =>
      (activeN E).emit _) { qc with inst := q1.inst } _ _ rfl hx).symm

/-! ## The calls of one instruction -/

theorem word_imm {rf : BitVec 5 → W} {w : W} {a : Any} (h : Word w a) (ho : IP.opcode w = 0x13#7) : evs a = [] ∧ a.moves rf = false := by
  have hc : IP.opcode w ≠ 0x0b#7 := by rw [ho]; decide
  obtain ⟨m, hm, ha⟩ := word_meaning h hc
  rcases ha with ⟨i, rfl, rfl⟩ | ⟨_, _, h3, _⟩
  · generalize hj : some i = j at hm
    cases hm with
    | base i' =>
      cases hj
      rw [ProfTrace.opcode_encode] at ho
      cases i <;> first | exact ⟨rfl, rfl⟩ | (simp only [ProfTrace.majOpc] at ho; exact absurd ho (by decide))
    | comp i' hl =>
      have := copcode_opcode (encodeC i')
      rw [ho] at this
      exact absurd this (Dasm.cop_encodeC i')
    | csr => cases hj
    | custom => cases hj
  · rw [ho] at h3; exact absurd h3 (by decide)

theorem Ctl.weaken {c : List Op} {b : Bool} (h : Ctl b c) {m : Bool} (hm : b = true → m = true) : Ctl m c := by
  cases h with
  | none => exact .none
  | fall pc => exact .fall pc
  | jump o ho hb => exact .jump o ho (hm hb)

theorem inst_calls {rf : BitVec 5 → W} {qc q1 : St σ} {r : ProfRec} {a : Any} (hx : exec E qc = .ok ((), q1))
    (ht : q1.trapped = false) (hl : q1.trapLog = qc.trapLog) (hr : newRec qc q1 = some r) (hi : r.inst = q1.inst)
    (hn : evNamed rf r) (h0 : rf 0#5 = 0#32) (hw : Word q1.inst a) :
    ∃ c, instCalls E qc q1 = c ++ sets (evs a) ∧ Ctl (a.moves rf) c := by
  have hm : IP.opcode q1.inst ≠ 0x0b#7 → evn r.ev = evs a := by
    intro hc
    obtain ⟨m, hm, ha⟩ := word_meaning hw hc
    rw [evn_ok hn (by rw [hi]; exact hm) (by rw [hi]; exact hc)]
    rcases ha with ⟨i, rfl, rfl⟩ | ⟨rfl, rfl, -⟩ <;> rfl
  obtain ⟨c, hc1, hc2⟩ := rec_split r
  have key : IP.opcode q1.inst ≠ 0x0b#7 → recCalls r = c ++ sets (evs a) ∧ Ctl (a.moves rf) c := fun hc =>
    ⟨by rw [hc1, hm hc], hc2.weaken (moves_ok hn h0 (by rw [hi]; exact hw) (by rw [hi]; exact hc))⟩
  unfold instCalls
  simp only
  rw [trapCalls_nil hl, hr]
  by_cases h3 : IP.copcode q1.inst = 3#2
  · rw [if_pos h3]
    rcases Dasm.exec_word hx ht with ⟨_, hx⟩ | ⟨hc, _⟩
    swap
    · exact absurd h3 hc
    by_cases h1 : IP.opcode q1.inst = 0x0b#7
    · rw [if_pos h1]
      have : E.cfg.simd = true := by
        cases hs : E.cfg.simd
        · exfalso
          rw [show exec32 E q1.inst = eIllegal by unfold exec32; rw [h1]; simp [hs]] at hx
          obtain ⟨_, s1, e0, e1⟩ := bind_eq_ok.1 hx
          obtain ⟨_, s2, e1, e2⟩ := bind_eq_ok.1 e1
          rw [M.mod_app] at e1
          cases e1
          unfold trapStateUpdate at e2
          rw [M.mod_app] at e2
          cases e2
          cases ht
        · rfl
      rw [if_pos this]
      obtain ⟨g1, g2⟩ := word_custom (rf := rf) hw h1
      exact ⟨[], by rw [g1]; simp, .none⟩
    · rw [if_neg h1]
      obtain ⟨k1, k2⟩ := key h1
      by_cases h2 : IP.opcode q1.inst = 0x63#7
      · rw [if_pos h2]
        rw [show exec32 E q1.inst = dBranch E q1.inst by unfold exec32; rw [h2]; rfl] at hx
        have hal := branch_aligned hx ht
        have hb : (branchSel (IP.funct3 q1.inst)).isNone = false := by
          have he : evOpc r.ev = some 0x63#7 := evOpc_some hn (by rw [hi]; exact h2) (by decide)
          unfold evNamed at hn
          cases hev : r.ev <;> rw [hev] at he hn <;> simp only [evOpc, Option.some.injEq, reduceCtorEq] at he
          case branch op t => rw [← hi, hn.2.1]; rfl
          all_goals exact absurd he (by decide)
        refine ⟨c, ?_, k2⟩
        unfold branchCalls
        simp only
        rw [hal, hb, trapCalls_nil hl, hr]
        simp [k1]
      · rw [if_neg h2]
        obtain ⟨m, hm, _⟩ := word_meaning hw h1
        rw [ProfTrace.badStore_no hm]
        exact ⟨c, by simp [k1], k2⟩
  · rw [if_neg h3]
    have h1 : IP.opcode q1.inst ≠ 0x0b#7 := fun h => h3 (by rw [copcode_opcode, h]; rfl)
    obtain ⟨k1, k2⟩ := key h1
    obtain ⟨m, hm, _⟩ := word_meaning hw h1
    rw [ProfTrace.badStore_no hm]
    exact ⟨c, by simp [k1], k2⟩

/-- switching profiling from `a` to `b` -/
def sw (a b : Bool) : List Op := if a = b then [] else [.active b]

/-- the calls of a retired instruction -/
theorem retired_calls (hp : E.cfg.profilers = true) (h0 : s.rf 0#5 = 0#32) (h : stepP E s = .ok (l, s'))
    (hr : s'.simInst ≠ s.simInst) {a : Any} (hw : Word s'.inst a) :
    ∃ m c, l = sw s.profActive m ++ c ++ sets (evs a) ++ sw m s'.profActive ++ [.flag 0 true, .finishInst s'.pc] ∧
      Ctl (a.moves s.rf) c ∧ (m = s'.profActive ∨ evs a = [] ∧ a.moves s.rf = false) := by
  obtain ⟨qc, q1, r, hx, e1, e2, e3, e4, e5, e6, e7, e8, e9, e10⟩ := stepP_retired hp h hr
  obtain ⟨c, hc1, hc2⟩ := inst_calls hx e4 e5 e6 (e7.trans e1.symm) e8 h0 (by rw [e1]; exact hw)
  refine ⟨qc.profActive, c, ?_, hc2, ?_⟩
  · rw [e10]
    unfold execCalls
    rw [hc1]
    show _ = _
    rw [show activeCalls qc q1 = sw qc.profActive s'.profActive by unfold activeCalls sw; rw [e3]]
    rw [show activeCalls s qc = sw s.profActive qc.profActive from rfl]
    simp [sets, retInst]
  · rw [← e3]
    rcases active_kept hx e4 with h1 | h1
    · exact .inl h1
    · exact .inr (word_imm (by rw [← e1] at hw; exact hw) h1)

/-! ## What they record -/

theorem rec_ctl {m : Bool} {c t : List Op} (h : Ctl m c) (e : Nat) (b : Bool) : recorded e b (c ++ t) = recorded e b t := by
  cases h with
  | none => rfl
  | fall pc => rfl
  | jump o ho _ => cases o <;> first | rfl | cases ho
theorem rec_sets (e : Nat) (b : Bool) (t : List Op) : ∀ L : List Nat,
    recorded e b (sets L ++ t) = (if b then L.count e else 0) + recorded e b t
  | [] => by simp [sets]
  | x :: L => by
    have := rec_sets e b t L
    unfold sets at this ⊢
    simp only [List.map_cons, List.cons_append, recorded, this, List.count_cons]
    cases b
    · simp
    · simp only [Bool.true_and, if_true, beq_iff_eq, Bool.and_true]; omega
theorem rec_sw (e : Nat) (a b : Bool) (t : List Op) : recorded e a (sw a b ++ t) = recorded e b t := by
  unfold sw
  split
  · rename_i h; rw [h]; rfl
  · rfl
/-- the records of a retired instruction -/
theorem retired_records {a : Any} {b m b' : Bool} {c : List Op} {v : Bool} {pc : W} (hc : Ctl v c) (hm : m = b' ∨ evs a = [])
    (e : Event) (t : List Op) :
    recorded (num e) b (sw b m ++ c ++ sets (evs a) ++ sw m b' ++ [.flag 0 true, .finishInst pc] ++ t) =
      (if b' && e.counts a then 1 else 0) + recorded (num e) b' t := by
  simp only [List.append_assoc]
  rw [rec_sw, rec_ctl hc, rec_sets, rec_sw]
  have h1 := evs_count e a
  rw [List.count_append] at h1
  have h2 : recorded (num e) b' ([.flag 0 true, .finishInst pc] ++ t) = (if b' then [0].count (num e) else 0) + recorded (num e) b' t := by
    rw [show ([.flag 0 true, .finishInst pc] ++ t : List Op) = sets [0] ++ (.finishInst pc :: t) from rfl, rec_sets]
    rfl
  rw [h2]
  have h3 : (if m then (evs a).count (num e) else 0) = if b' then (evs a).count (num e) else 0 := by
    rcases hm with rfl | hm
    · rfl
    · rw [hm]; simp
  rw [h3]
  cases b'
  · simp
  · simp only [if_true, Bool.true_and] at h1 ⊢
    omega

/-! ## They are well-behaved -/

/-- between instructions -/
def Ready (k : Trk) : Prop := k.ctl = false ∧ (∀ e, k.p e ≤ 1) ∧ ∀ e, k.q e = 0
theorem disc_sw {k : Trk} {a b : Bool} {t : List Op} (h : a ≠ b → k.clean = true) : Disc k (sw a b ++ t) ↔ Disc k t := by
  unfold sw
  split
  · exact Iff.rfl
  · rename_i hn; exact ⟨fun d => d.2, fun d => ⟨h hn, d⟩⟩
/-- after raising the events `L` -/
def after (k : Trk) (L : List Nat) : Trk := { k with clean := k.clean && L.isEmpty, q := fun i => k.q i + L.count i }
theorem after_nil (k : Trk) : after k [] = k := by
  unfold after
  simp
theorem disc_sets {t : List Op} : ∀ {L : List Nat} {k : Trk}, (∀ e ∈ L, k.p e + k.q e + L.count e < 2 ^ 16) →
    Disc (after k L) t → Disc k (sets L ++ t)
  | [], k, _, d => by rw [after_nil] at d; exact d
  | x :: L, k, hL, d => by
    refine ⟨fun _ => ?_, ?_⟩
    · have := hL x List.mem_cons_self
      rw [List.count_cons_self] at this
      omega
    · refine disc_sets (L := L) (fun e he => ?_) ?_
      · have := hL e (List.mem_cons_of_mem _ he)
        rw [List.count_cons] at this
        simp only [and_true]
        split
        · rename_i hx
          rw [hx] at this ⊢
          simp at this
          omega
        · rename_i hx
          rw [if_neg (by simpa using fun h => hx h.symm)] at this
          exact this
      · have : after { k with clean := false, q := fun i => if i = x ∧ true = true then k.q i + 1 else k.q i } L =
            after k (x :: L) := by
          unfold after
          simp only [Trk.mk.injEq, true_and]
          refine ⟨by simp, funext fun i => ?_⟩
          rw [List.count_cons]
          by_cases hx : i = x
          · simp [hx]; omega
          · simp [hx, show (x == i) = false by simpa using fun h => hx h.symm]
        rw [this]
        exact d
/-- the tracker after a control transfer call -/
def moved (k : Trk) : List Op → Trk
  | [] => k
  | [.branch _ false] => k
  | _ => { k with ctl := true }
theorem disc_ctl {k : Trk} {v : Bool} {c t : List Op} (hk : k.ctl = false) (hc : Ctl v c) (d : Disc (moved k c) t) : Disc k (c ++ t) := by
  cases hc with
  | none => exact d
  | fall pc => exact d
  | jump o ho _ =>
    cases o
    case branch pc t' =>
      cases t'
      · exact d
      · exact ⟨hk, d⟩
    case jalr => exact ⟨hk, d⟩
    case jal => exact ⟨hk, d⟩
    all_goals cases ho
theorem moved_frame (k : Trk) (c : List Op) : (moved k c).clean = k.clean ∧ (moved k c).p = k.p ∧ (moved k c).q = k.q := by
  unfold moved
  split <;> exact ⟨rfl, rfl, rfl⟩
theorem moved_no {k : Trk} {c : List Op} (hk : k.ctl = false) (hc : Ctl false c) : (moved k c).ctl = false := by
  cases hc with
  | none => exact hk
  | fall pc => exact hk
  | jump o _ h => cases h
theorem count_le_one {e : Nat} : ∀ {L : List Nat}, L.Nodup → L.count e ≤ 1
  | [], _ => Nat.zero_le _
  | x :: L, h => by
    obtain ⟨h1, h2⟩ := List.nodup_cons.1 h
    rw [List.count_cons]
    by_cases hx : x = e
    · rw [List.count_eq_zero_of_not_mem (hx ▸ h1)]
      split <;> omega
    · have := count_le_one (e := e) h2
      simp only [beq_iff_eq, hx, if_false]
      exact this
/-- the possible event sets -/
theorem evs_mem (a : Any) : evs a ∈ [[], [6], [7], [4, 5], [4], [3, 1], [2, 1], [1], [8, 9, 10], [8, 9], [8]] := by
  cases a with
  | base i =>
    cases i
    case alu op _ _ _ => cases op <;> simp [evs, aluEvents, retMul, retDiv]
    all_goals simp [evs]
  | x1 x => cases x <;> simp [evs, X1.arith]
  | x2 x => cases x <;> simp [evs, X2.arith]
  | csr => simp [evs]
  | hint => simp [evs]
theorem evs_le (a : Any) (e : Nat) : (evs a ++ [0]).count e ≤ 1 := by
  have : ∀ L ∈ [[], [6], [7], [4, 5], [4], [3, 1], [2, 1], [1], [8, 9, 10], [8, 9], [8]], (L ++ [0]).Nodup := by decide
  exact count_le_one (this _ (evs_mem a))
theorem retired_disc {k : Trk} (hk : Ready k) {a : Any} {b m b' v : Bool} {c t : List Op} {pc : W} (hc : Ctl v c)
    (hm : m = b' ∨ evs a = [] ∧ v = false) (hs : b ≠ m ∨ m ≠ b' → k.clean = true)
    (d : ∀ k', Ready k' → (v = false → k'.clean = true) → Disc k' t) :
    Disc k (sw b m ++ c ++ sets (evs a) ++ sw m b' ++ [.flag 0 true, .finishInst pc] ++ t) := by
  obtain ⟨k1, k2, k3⟩ := hk
  simp only [List.append_assoc]
  rw [disc_sw fun h => hs (.inl h)]
  refine disc_ctl k1 hc ?_
  obtain ⟨m1, m2, m3⟩ := moved_frame k c
  have hle : ∀ e, (evs a).count e + [0].count e ≤ 1 := fun e => by rw [← List.count_append]; exact evs_le a e
  refine disc_sets (fun e _ => ?_) ?_
  · rw [m2, m3, k3]
    have := k2 e
    have := hle e
    omega
  rw [disc_sw fun h => ?_]
  · refine disc_sets (L := [0]) (fun e he => ?_) ?_
    · show (moved k c).p e + ((moved k c).q e + (evs a).count e) + [0].count e < 2 ^ 16
      rw [m2, m3, k3]
      have := k2 e
      have := hle e
      omega
    · refine d ⟨false, !(moved k c).ctl, _, fun _ => 0⟩ ⟨rfl, fun e => ?_, fun _ => rfl⟩ fun hv => ?_
      · show (moved k c).q e + (evs a).count e + [0].count e ≤ 1
        rw [m3, k3]
        have := hle e
        omega
      · subst hv
        show (!(moved k c).ctl) = true
        rw [moved_no k1 hc]; rfl
  · rcases hm with hm | ⟨hm, hv⟩
    · exact absurd hm h
    · unfold after
      simp only [hm, List.isEmpty_nil, Bool.and_true]
      rw [m1]
      exact hs (.inr h)
end Ama.PerfCore
