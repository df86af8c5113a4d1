import Verif.Spec.HwCalls
import Verif.Lemmas.HwStep
import Verif.Lemmas.ExecMem
import Verif.Lemmas.ProfEventsEv
import Verif.Lemmas.ProfEventsRun
/-!
# The calls a step makes of the hardware models
-/
namespace Ama.HwCalls
open M Spec
variable {σ α β : Type} {E : Env σ}

theorem replay_append (h : Hw σ) (l m : List HwCall) (g : σ) : replay h (l ++ m) g = replay h m (replay h l g) :=
  List.foldl_append
theorem own_append (l m : List HwCall) : own (l ++ m) = own l ++ own m := List.filter_append ..
theorem flag_append (b : Bool) : ∀ l m : List HwCall, flagAfter b (l ++ m) = flagAfter (flagAfter b l) m
  | [], _ => rfl
  | c :: l, m => by cases c <;> exact flag_append _ l m

/-- what stays when nothing is told: the profiler's state and main memory -/
@[reducible] def rest (s : St σ) : Bool × Dev := (s.profActive, s.ram)
theorem mem_append (f : W → BitVec 8) : ∀ l m : List HwCall, memAfter f (l ++ m) = memAfter (memAfter f l) m
  | [], _ => rfl
  | c :: l, m => by cases c <;> exact mem_append _ l m

theorem mem_own : ∀ (l : List HwCall) (f : W → BitVec 8), memAfter f l = memAfter f (own l)
  | [], _ => rfl
  | c :: l, f => by
    have := mem_own l
    cases c <;> simp only [own, List.filter_cons, HwCall.fetch, Bool.not_false, Bool.not_true, if_true, memAfter, this] <;> rfl
theorem _root_.Ama.Spec.Tells.quiet {s q : St σ} (h : q.hw = s.hw) (h' : rest q = rest s) : Tells E s q [] := by
  obtain ⟨h1, h2⟩ := Prod.mk.inj h'
  exact ⟨[], [], h, rfl, by simp, fun _ => h1.symm, fun _ => rfl, by rw [h2], fun _ => by rw [h2]; rfl, by simp⟩
theorem _root_.Ama.Spec.Tells.trans {s q r : St σ} {m : List HwCall} (h : Tells E s q []) (k : Tells E q r m) : Tells E s r m := by
  obtain ⟨p, c, a1, a2, a3, a4, a5, a6, a7, a8⟩ := h
  obtain ⟨p', c', b1, b2, b3, b4, b5, b6, b7, b8⟩ := k
  refine ⟨p ++ p', c ++ c', by rw [b1, a1, replay_append], by rw [own_append, a2, b2]; simp, ?_, ?_, ?_, b6.trans a6, ?_, ?_⟩
  · intro x hx
    rcases List.mem_append.1 hx with h | h
    exacts [a3 x h, b3 x h]
  · intro hp
    rw [flag_append, a4 hp, b4 hp]
  · intro hp
    rw [a5 hp, b5 hp]; rfl
  · intro hs
    rw [b7 (a6.trans hs), a7 hs, mem_append]
  · intro x hx
    rcases List.mem_append.1 hx with h | h
    exacts [a8 x h, a6 ▸ b8 x h]
theorem _root_.Ama.Spec.Tells.end_ {s q r : St σ} {m : List HwCall} (h : Tells E s q m) (h1 : r.hw = q.hw) (h2 : rest r = rest q) :
    Tells E s r m := by
  obtain ⟨p, c, a1, a2, a3, a4, a5, a6, a7, a8⟩ := h
  obtain ⟨g1, g2⟩ := Prod.mk.inj h2
  exact ⟨p, c, h1.trans a1, a2, a3, fun hp => (a4 hp).trans g1.symm, a5, by rw [g2, a6], fun hs => by rw [g2, a7 hs], a8⟩
/-- some calls that are neither switches nor stores -/
theorem _root_.Ama.Spec.Tells.calls {s q : St σ} (c : List HwCall) (h : q.hw = replay E.hw c s.hw) (h' : rest q = rest s)
    (hw : ∀ f, memAfter f c = f) (hi : ∀ x ∈ c, x.inMain s.ram.size) : Tells E s q (own c) := by
  obtain ⟨h1, h2⟩ := Prod.mk.inj h'
  exact ⟨[], c, h, rfl, by simp, fun _ => h1.symm, fun _ => rfl, by rw [h2], fun _ => by rw [h2, hw], hi⟩
/-- one such call -/
theorem _root_.Ama.Spec.Tells.call {s q : St σ} (c : HwCall) (h : q.hw = c.run E.hw s.hw) (h' : rest q = rest s)
    (hw : ∀ f, memAfter f [c] = f) (hi : c.inMain s.ram.size) : Tells E s q (own [c]) :=
  .calls [c] h h' hw fun _ hx => List.mem_singleton.1 hx ▸ hi

/-! ## What makes no calls -/

/-- neither calls a hardware model nor switches the profiler -/
def Quiet (m : M σ α) : Prop := ∀ g x, Pres (fun s => s.hw = g ∧ rest s = x) m
/-- quiet, and does not trap -/
def Calm (m : M σ α) : Prop := ∀ g x t, Pres (fun s => (s.hw = g ∧ rest s = x) ∧ s.trapped = t) m

theorem Calm.quiet {m : M σ α} (h : Calm m) : Quiet m := fun g b s a s' hs e => (h g b s.trapped s a s' ⟨hs, rfl⟩ e).1

namespace Quiet
theorem bind {m : M σ α} {f : α → M σ β} (h1 : Quiet m) (h2 : ∀ a, Quiet (f a)) : Quiet (m >>= f) :=
  fun g b => Pres.bind (h1 g b) fun a => h2 a g b
theorem pure (a : α) : Quiet (pure a : M σ α) := fun _ _ => Pres.pure _
theorem get (f : St σ → α) : Quiet (M.get f) := fun _ _ => Pres.get _
theorem mod {f : St σ → St σ} (h : ∀ s, (f s).hw = s.hw) (h' : ∀ s, rest (f s) = rest s) : Quiet (M.mod f) :=
  fun _ _ => Pres.mod fun s hs => ⟨(h s).trans hs.1, (h' s).trans hs.2⟩
theorem lift (r : Res α) : Quiet (M.lift r : M σ α) := fun _ _ => Pres.lift _
theorem ub (k : UB) : Quiet (fun _ => .ub k : M σ α) := fun _ _ => Pres.ub _
theorem abort : Quiet (fun _ => .abort : M σ α) := fun _ _ => Pres.abort
theorem ite {c : Prop} [Decidable c] {x y : M σ α} (h1 : Quiet x) (h2 : Quiet y) : Quiet (if c then x else y) :=
  fun g b => Pres.ite (h1 g b) (h2 g b)
theorem tells {m : M σ α} (h : Quiet m) {s q : St σ} {a : α} (e : m s = .ok (a, q)) : Tells E s q [] :=
  .quiet (h s.hw (rest s) s a q ⟨rfl, rfl⟩ e).1 (h s.hw (rest s) s a q ⟨rfl, rfl⟩ e).2
theorem tells' {m : M σ α} (h : Quiet m) {s t q : St σ} {a : α} (e : m t = .ok (a, q)) (h1 : t.hw = s.hw)
    (h2 : rest t = rest s) : Tells E s q [] := (Tells.quiet h1 h2).trans (h.tells e)
end Quiet

syntax "qt1" : tactic
macro_rules | `(tactic| qt1) => `(tactic| assumption)
macro_rules | `(tactic| qt1) => `(tactic| with_reducible refine Quiet.bind ?_ fun _ => ?_)
macro_rules | `(tactic| qt1) => `(tactic| with_reducible refine Quiet.ite ?_ ?_)
macro_rules | `(tactic| qt1) => `(tactic| with_reducible exact Quiet.lift _)
macro_rules | `(tactic| qt1) => `(tactic| with_reducible exact Quiet.pure _)
macro_rules | `(tactic| qt1) => `(tactic| with_reducible exact Quiet.get _)
macro_rules | `(tactic| qt1) => `(tactic| with_reducible exact Quiet.ub _)
macro_rules | `(tactic| qt1) => `(tactic| with_reducible exact Quiet.abort)
macro_rules | `(tactic| qt1) => `(tactic| (with_reducible refine Quiet.mod ?_ ?_; exact fun _ => rfl; exact fun _ => rfl))
/-- walk a model program -/
macro "qt" : tactic => `(tactic| repeat' qt1)

theorem qt_trapInst (c v : W) : Quiet (trapInst c v : M σ Unit) := by unfold trapInst trapStateUpdate; qt
macro_rules | `(tactic| qt1) => `(tactic| with_reducible exact qt_trapInst _ _)
theorem qt_guard (b : Bool)   : Quiet (guardAccess b : M σ Unit) := Quiet.ite (Quiet.pure _) Quiet.abort
macro_rules | `(tactic| qt1) => `(tactic| with_reducible exact qt_guard _)
theorem qt_ill : Quiet (eIllegal : M σ Unit) := by unfold eIllegal; qt
macro_rules | `(tactic| qt1) => `(tactic| with_reducible exact qt_ill)
theorem qt_env (c : W) : Quiet (eEnv c : M σ Unit) := by unfold eEnv; qt
macro_rules | `(tactic| qt1) => `(tactic| with_reducible exact qt_env _)
theorem qt_hard : Quiet (eHardware : M σ Unit) := by unfold eHardware; qt
macro_rules | `(tactic| qt1) => `(tactic| with_reducible exact qt_hard)
theorem qt_mis (a : W) : Quiet (eInstMisaligned a : M σ Unit) := qt_trapInst _ _
macro_rules | `(tactic| qt1) => `(tactic| with_reducible exact qt_mis _)
theorem qt_dacc (a : W) (o : MemOp) : Quiet (eDmemAccess a o : M σ Unit) := qt_trapInst _ _
macro_rules | `(tactic| qt1) => `(tactic| with_reducible exact qt_dacc _ _)
theorem qt_dmis (a : W) (o : MemOp) : Quiet (eDmemMisaligned a o : M σ Unit) := qt_trapInst _ _
macro_rules | `(tactic| qt1) => `(tactic| with_reducible exact qt_dmis _ _)
theorem qt_just (a : W) : Quiet (justInst a : M σ W) := by unfold justInst; qt
macro_rules | `(tactic| qt1) => `(tactic| with_reducible exact qt_just _)
theorem qt_setAddr (a : W) (o : MemOp) (n : Nat) : Quiet (setAddr E a o n) := by
  unfold setAddr
  split
  · qt
  · simp only; qt
macro_rules | `(tactic| qt1) => `(tactic| with_reducible exact qt_setAddr _ _ _)
theorem qt_meip : Quiet (refreshMeip : M σ Unit) := by unfold refreshMeip; qt
macro_rules | `(tactic| qt1) => `(tactic| with_reducible exact qt_meip)
theorem qt_uartWr (a v : W) (n : Nat) : Quiet (uartWr a v n : M σ Unit) := by unfold uartWr; qt
macro_rules | `(tactic| qt1) => `(tactic| with_reducible exact qt_uartWr _ _ _)
theorem qt_uartRd (a : W) (n : Nat) : Quiet (uartRd E a n) := by unfold uartRd; qt
macro_rules | `(tactic| qt1) => `(tactic| with_reducible exact qt_uartRd _ _)
theorem qt_nextByte : Quiet (nextByte E) := by
  unfold nextByte
  refine Quiet.bind (Quiet.get _) fun _ => ?_
  split
  · qt
  · split <;> qt
macro_rules | `(tactic| qt1) => `(tactic| with_reducible exact qt_nextByte)
theorem qt_deliver (b : BitVec 8) : Quiet (uartDeliver b : M σ Unit) := by unfold uartDeliver; qt
macro_rules | `(tactic| qt1) => `(tactic| with_reducible exact qt_deliver _)
theorem qt_input (t : BitVec 64) : Quiet (uartUpdateInput E t) := by
  unfold uartUpdateInput
  qt
  split <;> qt
macro_rules | `(tactic| qt1) => `(tactic| with_reducible exact qt_input _)
theorem qt_mtime (e : BitVec 64) : Quiet (updateMtime e : M σ Unit) := by unfold updateMtime; qt
macro_rules | `(tactic| qt1) => `(tactic| with_reducible exact qt_mtime _)
theorem qt_shadow : Quiet (mtimeShadow : M σ _) := by unfold mtimeShadow; qt
macro_rules | `(tactic| qt1) => `(tactic| with_reducible exact qt_shadow)
theorem qt_mret : Quiet (mretStateUpdate : M σ Unit) := by unfold mretStateUpdate; qt
macro_rules | `(tactic| qt1) => `(tactic| with_reducible exact qt_mret)
theorem qt_rg (r : BitVec 5) : Quiet (rg r : M σ W) := by unfold rg; qt
macro_rules | `(tactic| qt1) => `(tactic| with_reducible exact qt_rg _)
theorem qt_setNext (v : W) : Quiet (setNext v : M σ Unit) := by unfold setNext; qt
macro_rules | `(tactic| qt1) => `(tactic| with_reducible exact qt_setNext _)
theorem qt_nextSeq (v : W) : Quiet (nextSeq v : M σ Unit) := by unfold nextSeq; qt
macro_rules | `(tactic| qt1) => `(tactic| with_reducible exact qt_nextSeq _)
theorem qt_emit (ev : ProfEv) : Quiet (emit E ev) := by unfold emit; qt
macro_rules | `(tactic| qt1) => `(tactic| with_reducible exact qt_emit _)
theorem qt_writeRf (r : BitVec 5) (v : W) : Quiet (writeRf r v : M σ Unit) := by unfold writeRf; qt
macro_rules | `(tactic| qt1) => `(tactic| with_reducible exact qt_writeRf _ _)
theorem qt_pair (r : BitVec 5) (p : W × W) : Quiet (writeRfPair r p : M σ Unit) := by
  unfold writeRfPair
  qt
  exact Quiet.ite (Quiet.ub _) (Quiet.mod (fun _ => rfl) fun _ => rfl)
macro_rules | `(tactic| qt1) => `(tactic| with_reducible exact qt_pair _ _)
theorem qt_dJalr (w : W) : Quiet (dJalr E w) := by unfold dJalr; qt
theorem qt_dJal (w : W) : Quiet (dJal E w) := by unfold dJal; qt
theorem qt_dLui (w : W) : Quiet (dLui E w) := by unfold dLui; qt
theorem qt_dAuipc (w : W) : Quiet (dAuipc E w) := by unfold dAuipc; qt
theorem qt_cnt (w : W) (a : BitVec 16) : Quiet (csrCntUpdate E w a) := by unfold csrCntUpdate; qt
macro_rules | `(tactic| qt1) => `(tactic| with_reducible exact qt_cnt _ _)
theorem qt_writeCsr (e : CsrEntry) (v : W) : Quiet (writeCsr e v : M σ Unit) := by
  unfold writeCsr
  split <;> qt
macro_rules | `(tactic| qt1) => `(tactic| with_reducible exact qt_writeCsr _ _)
theorem qt_csrDo (op : CsrOp) (e : CsrEntry) (w v : W) : Quiet (csrDo op e w v : M σ Unit) := by
  unfold csrDo; cases op <;> qt
macro_rules | `(tactic| qt1) => `(tactic| with_reducible exact qt_csrDo _ _ _ _)
theorem qt_dCsr (w : W) : Quiet (dCsr E w) := by
  unfold dCsr
  split
  · qt
  · qt
    split <;> qt
macro_rules | `(tactic| qt1) => `(tactic| with_reducible exact qt_dCsr _)
theorem qt_dSystem (w : W) : Quiet (dSystem E w) := by unfold dSystem; qt
theorem qt_dMiscMem (w : W) : Quiet (dMiscMem E w) := by unfold dMiscMem; qt
theorem qt_cWrite (op : COp) (r : BitVec 5) (v : W) : Quiet (cWrite E op r v) := by unfold cWrite; qt
macro_rules | `(tactic| qt1) => `(tactic| with_reducible exact qt_cWrite _ _ _)
theorem qt_cAlu (w : W) (op : COp) (f : W → W → W) : Quiet (cAlu E w op f) := by unfold cAlu; qt
macro_rules | `(tactic| qt1) => `(tactic| with_reducible exact qt_cAlu _ _ _)
theorem qt_c1Alu (w : W) : Quiet (dCompressed1Alu E w) := by unfold dCompressed1Alu; split <;> qt
macro_rules | `(tactic| qt1) => `(tactic| with_reducible exact qt_c1Alu _)
theorem qt_cSlli (w : W) : Quiet (cSlli E w) := by unfold cSlli; qt
macro_rules | `(tactic| qt1) => `(tactic| with_reducible exact qt_cSlli _)
theorem qt_c1 (w : W) : Quiet (dCompressed1 E w) := by
  unfold dCompressed1 cAddi cJal cLi cNop cAddi16sp cLui cSrli cSrai cAndi cJ cBeqz cBnez
  split <;> qt
  split <;> qt
theorem qt_c4spn (w : W) : Quiet (cAddi4spn E w) := by unfold cAddi4spn; qt
theorem qt_int (d : Bool) : Quiet (checkInterrupts E d) := by unfold checkInterrupts eExternal eTimer; qt

/-! ## What does not trap either -/

syntax "ct1" : tactic
macro_rules | `(tactic| ct1) => `(tactic| with_reducible refine Pres.bind ?_ fun _ => ?_)
macro_rules | `(tactic| ct1) => `(tactic| with_reducible refine Pres.ite ?_ ?_)
macro_rules | `(tactic| ct1) => `(tactic| with_reducible exact Pres.lift _)
macro_rules | `(tactic| ct1) => `(tactic| with_reducible exact Pres.pure _)
macro_rules | `(tactic| ct1) => `(tactic| with_reducible exact Pres.get _)
macro_rules | `(tactic| ct1) => `(tactic| with_reducible exact Pres.abort)
macro_rules | `(tactic| ct1) => `(tactic| (with_reducible refine Pres.mod ?_; exact fun _ h => h))
/-- walk a model program -/
macro "ct" : tactic => `(tactic| repeat' ct1)
theorem ct_uartRd (a : W) (n : Nat) : Calm (uartRd E a n) := by intro g b t; unfold uartRd refreshMeip; ct
theorem ct_uartWr (a v : W) (n : Nat) : Calm (uartWr a v n : M σ Unit) := by intro g b t; unfold uartWr; ct
theorem ct_writeRf (r : BitVec 5) (v : W) : Calm (writeRf r v : M σ Unit) := by intro g b t; unfold writeRf; ct
theorem ct_emit (ev : ProfEv) : Calm (emit E ev) := by intro g b t; unfold emit; ct
theorem ct_nextSeq (v : W) : Calm (nextSeq v : M σ Unit) := by intro g b t; unfold nextSeq; ct
theorem Calm.bind {m : M σ α} {f : α → M σ β} (h1 : Calm m) (h2 : ∀ a, Calm (f a)) : Calm (m >>= f) :=
  fun g b t => Pres.bind (h1 g b t) fun a => h2 a g b t
theorem Calm.lift (r : Res α) : Calm (M.lift r : M σ α) := fun _ _ _ => Pres.lift _
theorem ct_cWrite (op : COp) (r : BitVec 5) (v : W) : Calm (cWrite E op r v) :=
  (ct_writeRf _ _).bind fun _ => (ct_emit _).bind fun _ => ct_nextSeq _
theorem Calm.end_ {m : M σ α} (h : Calm m) {s q r : St σ} {a : α} {l : List HwCall} (k : Tells E s q l) (e : m q = .ok (a, r)) :
    Tells E s r l ∧ r.trapped = q.trapped := by
  obtain ⟨⟨h1, h2⟩, h3⟩ := h q.hw (rest q) q.trapped q a r ⟨⟨rfl, rfl⟩, rfl⟩ e
  exact ⟨k.end_ h1 h2, h3⟩

/-! ## Data accesses -/

theorem off_main {a : W} : (memBase ≤ a ∧ a < memBase + 0x20000#32) ↔ (0x80000000 ≤ a.toNat ∧ a.toNat < 0x80020000) := by
  simp only [memBase, BitVec.le_def, BitVec.lt_def]
  have : (0x80000000#32 + 0x20000#32).toNat = 0x80020000 := by decide
  rw [this]
  rfl
theorem map_off {u : Bool} {a b : W} {d : DevId} (h : mapFind a (memMap u) = some (b, d)) :
    mainOff a = if d = .main then some (a - b) else none := by
  have h : (if memBase ≤ a ∧ a < memBase + 0x20000#32 then some (memBase, DevId.main) else
    mapFind a ((if u then [(uartBase, 12#32, .uart)] else []) ++ [(clintBase, 32#32, .clint)])) = some (b, d) := h
  unfold mainOff
  by_cases hc : memBase ≤ a ∧ a < memBase + 0x20000#32
  · rw [if_pos hc] at h
    cases h
    rw [if_pos (off_main.1 hc), if_pos rfl]
    rfl
  · rw [if_neg hc] at h
    rw [if_neg (fun g => hc (off_main.2 g)), if_neg]
    rintro rfl
    cases u
    · simp [mapFind] at h
    · simp only [if_true, List.cons_append, List.nil_append, mapFind] at h
      split at h
      · cases h
      · split at h <;> cases h
theorem map_main {u : Bool} {a b : W} (h : mapFind a (memMap u) = some (b, .main)) : mainOff a = some (a - b) := map_off h
theorem map_dev {u : Bool} {a b : W} {d : DevId} (h : mapFind a (memMap u) = some (b, d)) (hd : d ≠ .main) : mainOff a = none := by
  rw [map_off h, if_neg hd]

theorem setAddr_cases {a : W} {o : MemOp} {n : Nat} {s q : St σ} {r : Option (DevId × W)} (e : setAddr E a o n s = .ok (r, q)) :
    (r = none ∧ q.trapped = true) ∨ ∃ b d, r = some (d, a - b) ∧ q = s ∧ (a - b).toNat % n = 0 ∧ mapFind a (memMap E.cfg.uart) = some (b, d) := by
  unfold setAddr at e
  cases hm : mapFind a (memMap E.cfg.uart) with
  | none =>
    rw [hm] at e
    obtain ⟨_, q1, e1, e2⟩ := bind_eq_ok.1 e
    unfold eDmemAccess at e1
    rw [trapInst_app] at e1
    injection e1 with e1; injection e1 with _ e1
    injection e2 with e2; injection e2 with e2 e3
    subst e1 e2 e3
    exact .inl ⟨rfl, rfl⟩
  | some bd =>
    obtain ⟨b, d⟩ := bd
    rw [hm] at e
    simp only at e
    split at e
    · obtain ⟨_, q1, e1, e2⟩ := bind_eq_ok.1 e
      unfold eDmemMisaligned at e1
      rw [trapInst_app] at e1
      injection e1 with e1; injection e1 with _ e1
      injection e2 with e2; injection e2 with e2 e3
      subst e1 e2 e3
      exact .inl ⟨rfl, rfl⟩
    · rename_i hal
      injection e with e2; injection e2 with e2 e3
      subst e2 e3
      exact .inr ⟨b, d, rfl, rfl, by simpa using hal, rfl⟩

theorem hwUpd_on (hm : E.cfg.hwModels = true) (f : σ → σ) (s : St σ) : hwUpd E f s = .ok ((), { s with hw := f s.hw }) := by
  unfold hwUpd
  rw [if_pos hm]
  rfl
theorem guard_ok {b : Bool} {s q : St σ} {u : Unit} (e : guardAccess b s = .ok (u, q)) : q = s := by
  cases b with
  | true => injection e with e; injection e with _ e; exact e.symm
  | false => cases e
theorem lift_ok {r : Res α} {s q : St σ} {a : α} (e : M.lift r s = .ok (a, q)) : q = s := by
  cases r with
  | ok v => injection e with e; injection e with _ e; exact e.symm
  | ub k => cases e
  | abort => cases e

theorem rg_app (r : BitVec 5) (s : St σ) : (rg r : M σ W) s = .ok (s.rf r, s) := rfl

/-- what a read of `n` bytes at `a` tells the data cache -/
def rdC (a : W) (n : Nat) : List HwCall := match mainOff a with | some o => [.dcRd o n] | none => []
/-- what a write tells it -/
def wrC (a v : W) (n : Nat) : List HwCall := match mainOff a with | some o => [.dcWr o v n] | none => []

theorem fits_main {a : W} {n : Nat} (hn : n = 1 ∨ n = 2 ∨ n = 4) (h : a.toNat % n = 0) (hb : a.toNat < 0x20000) :
    (n = 1 ∨ n = 2 ∨ n = 4) ∧ a.toNat % n = 0 ∧ a.toNat + n ≤ 0x20000 :=
  ⟨hn, h, by rcases hn with rfl | rfl | rfl <;> omega⟩
theorem main_lt {a b : W} (h : mainOff a = some (a - b)) : (a - b).toNat < 0x20000 := by
  unfold mainOff at h
  split at h
  · rename_i hc
    injection h with h
    rw [← h]
    bv_omega
  · cases h
theorem mmRd_tells (hm : E.cfg.hwModels = true) {a : W} {n : Nat} {s q : St σ} {v : W} (hi : a.toNat % n = 0)
    (hb : a.toNat < 0x20000) (e : mmRd E a n s = .ok (v, q)) :
    Tells E s q [.dcRd a n] ∧ q.trapped = s.trapped := by
  obtain ⟨_, s1, e1, r⟩ := bind_eq_ok.1 e
  clear e
  have := guard_ok e1; subst this
  rw [M.bind_ok (M.get_app _ _)] at r
  obtain ⟨_, s2, e2, e⟩ := bind_eq_ok.1 r
  have := lift_ok e2; subst this
  have hn : n = 1 ∨ n = 2 ∨ n = 4 := by
    unfold Dev.rd at e2
    split at e2
    · exact .inl rfl
    · exact .inr (.inl rfl)
    · exact .inr (.inr rfl)
    · cases e2
  rw [M.bind_ok (hwUpd_on hm _ _)] at e
  injection e with e; injection e with _ e
  subst e
  exact ⟨Tells.call (.dcRd a n) rfl rfl (fun _ => rfl) (fits_main hn hi hb), rfl⟩
theorem mmWr_tells (hm : E.cfg.hwModels = true) {a v : W} {n : Nat} {s q : St σ} (hi : a.toNat % n = 0) (hb : a.toNat < 0x20000)
    (e : mmWr E a v n s = .ok ((), q)) :
    Tells E s q [.dcWr a v n] ∧ q.trapped = s.trapped := by
  obtain ⟨_, s1, e1, r⟩ := bind_eq_ok.1 e
  clear e
  have := guard_ok e1; subst this
  rw [M.bind_ok (M.get_app _ _)] at r
  obtain ⟨d', s2, e2, e⟩ := bind_eq_ok.1 r
  have := lift_ok e2; subst this
  have e2 : s2.ram.wr a v n = .ok d' := by
    cases h : s2.ram.wr a v n with
    | ok x => rw [h] at e2; injection e2 with e2; injection e2 with e2; rw [e2]
    | ub k => rw [h] at e2; cases e2
    | abort => rw [h] at e2; cases e2
  have hn : n = 1 ∨ n = 2 ∨ n = 4 := by
    unfold Dev.wr at e2
    split at e2
    · exact .inl rfl
    · exact .inr (.inl rfl)
    · exact .inr (.inr rfl)
    · cases e2
  rw [M.bind_ok (M.mod_app _ _), hwUpd_on hm] at e
  injection e with e; injection e with _ e
  subst e
  have hf := fits_main hn hi hb
  refine ⟨⟨[], [.dcWr a v n], rfl, rfl, by simp, fun _ => rfl, fun _ => rfl, Dev.wr_size e2, fun hs => ?_, ?_⟩, rfl⟩
  · rw [Dev.wr_ok s2.ram v hn (by rw [hs]; exact hf.2.2) (by omega)] at e2
    injection e2 with e2
    subst e2
    rfl
  · intro x hx
    cases List.mem_singleton.1 hx
    exact hf

/-- the outcome of an access: it traps and tells nothing, or it is told -/
def Out (E : Env σ) (s q : St σ) (m : List HwCall) : Prop :=
  q.trapped = true ∧ Tells E s q [] ∨ q.trapped = false ∧ Tells E s q m

theorem memRd_tells (hm : E.cfg.hwModels = true) {a : W} {n : Nat} {s q : St σ} {v : W} (e : memRd E a n s = .ok (v, q)) :
    Out E s q (rdC a n) := by
  obtain ⟨r, s1, e1, e'⟩ := bind_eq_ok.1 e
  clear e
  rw [M.bind_ok (M.get_app _ _)] at e'
  have e := e'
  clear e'
  have h1 : Tells E s s1 [] := (qt_setAddr a .read n).tells e1
  rcases setAddr_cases e1 with ⟨rfl, ht⟩ | ⟨b, d, rfl, rfl, hal, hf⟩
  · rw [ht] at e
    injection e with e; injection e with _ e
    subst e
    exact .inl ⟨ht, h1⟩
  · cases ht : s1.trapped with
    | true =>
      rw [ht] at e
      injection e with e; injection e with _ e
      subst e
      exact .inl ⟨ht, h1⟩
    | false =>
      rw [ht] at e
      right
      cases d with
      | main =>
        obtain ⟨k1, k2⟩ := mmRd_tells hm hal (main_lt (map_main hf)) (show mmRd E (a - b) n s1 = _ from e)
        unfold rdC
        rw [map_main hf]
        exact ⟨k2.trans ht, k1⟩
      | uart =>
        unfold rdC
        rw [map_dev hf (by decide)]
        obtain ⟨k1, k2⟩ := (ct_uartRd (E := E) _ _).end_ h1 (show uartRd E (a - b) n s1 = _ from e)
        exact ⟨k2.trans ht, k1⟩
      | clint =>
        unfold rdC
        rw [map_dev hf (by decide)]
        have e : (do let c ← get (·.clint.dev); lift (c.rd (a - b) n) : M σ W) s1 = .ok (v, q) := e
        rw [M.bind_ok (M.get_app _ _)] at e
        have := lift_ok e; subst this
        exact ⟨ht, h1⟩
theorem memWr_tells (hm : E.cfg.hwModels = true) {a v : W} {n : Nat} {s q : St σ} (e : memWr E a v n s = .ok ((), q)) :
    Out E s q (wrC a v n) := by
  obtain ⟨r, s1, e1, e'⟩ := bind_eq_ok.1 e
  clear e
  rw [M.bind_ok (M.get_app _ _)] at e'
  have e := e'
  clear e'
  have h1 : Tells E s s1 [] := (qt_setAddr a .write n).tells e1
  rcases setAddr_cases e1 with ⟨rfl, ht⟩ | ⟨b, d, rfl, rfl, hal, hf⟩
  · rw [ht] at e
    injection e with e; injection e with _ e
    subst e
    exact .inl ⟨ht, h1⟩
  · cases ht : s1.trapped with
    | true =>
      rw [ht] at e
      injection e with e; injection e with _ e
      subst e
      exact .inl ⟨ht, h1⟩
    | false =>
      rw [ht] at e
      right
      cases d with
      | main =>
        obtain ⟨k1, k2⟩ := mmWr_tells hm hal (main_lt (map_main hf)) (show mmWr E (a - b) v n s1 = _ from e)
        unfold wrC
        rw [map_main hf]
        exact ⟨k2.trans ht, k1⟩
      | uart =>
        unfold wrC
        rw [map_dev hf (by decide)]
        obtain ⟨k1, k2⟩ := (ct_uartWr _ _ _).end_ h1 (show uartWr (a - b) v n s1 = _ from e)
        exact ⟨k2.trans ht, k1⟩
      | clint =>
        unfold wrC
        rw [map_dev hf (by decide)]
        have e : (do
          let c ← get (·.clint.dev)
          let c' ← lift (c.wr (a - b) v n)
          mod fun s => { s with clint := { s.clint with dev := c' } } : M σ Unit) s1 = .ok ((), q) := e
        rw [M.bind_ok (M.get_app _ _)] at e
        obtain ⟨c', s2, e2, r⟩ := bind_eq_ok.1 e
        have := lift_ok e2; subst this
        rw [M.mod_app] at r
        injection r with r; injection r with _ r
        subst r
        exact ⟨ht, h1.end_ rfl rfl⟩

/-! ## Instructions -/

/-- what executing `w` tells: what `m` says if it does not trap; otherwise nothing, or one prediction of a branch word -/
def Meant (E : Env σ) (w : W) (s q : St σ) (m : List HwCall) : Prop :=
  (q.trapped = false ∧ Tells E s q m) ∨
  (q.trapped = true ∧ (Tells E s q [] ∨
    IP.opcode w = 0x63#7 ∧ (∃ c t p r, q.trapLog = (c, t, p) :: r ∧ (c = 2#32 ∨ c = 0#32 ∧ t.toNat % 2 = 1)) ∧
      ∃ n pc imm f3 pc' n', Tells E s q [.ideal n, .predict pc imm f3, .update pc' n']))
theorem Meant.quiet {w : W} {s q : St σ} (h : Tells E s q []) : Meant E w s q [] := by
  cases ht : q.trapped with
  | true => exact .inr ⟨ht, .inl h⟩
  | false => exact .inl ⟨ht, h⟩
theorem Out.meant {w : W} {s q : St σ} {m : List HwCall} (h : Out E s q m) : Meant E w s q m :=
  h.elim (fun h => .inr ⟨h.1, .inl h.2⟩) .inl

theorem load_then {m : M σ W} {c : List HwCall} {k : W → M σ Unit} (hk : ∀ v, Calm (k v)) {s q : St σ}
    (hm : ∀ v q, m s = .ok (v, q) → Out E s q c)
    (e : (do let v ← m; let t ← get (·.trapped); if t then pure () else k v : M σ Unit) s = .ok ((), q)) :
    Out E s q c := by
  obtain ⟨v, s1, e1, e⟩ := bind_eq_ok.1 e
  rw [M.bind_ok (M.get_app _ _)] at e
  rcases hm v s1 e1 with ⟨ht, h⟩ | ⟨ht, h⟩
  · rw [if_pos ht] at e
    injection e with e; injection e with _ e
    subst e
    exact .inl ⟨ht, h⟩
  · rw [if_neg (by rw [ht]; decide)] at e
    obtain ⟨g1, g2⟩ := (hk v).end_ h e
    exact .inr ⟨g2.trans ht, g1⟩
theorem store_then (hm : E.cfg.hwModels = true) {a v : W} {n : Nat} {k : M σ Unit} (hk : Calm k) {s q : St σ}
    (e : (do memWr E a v n; let t ← get (·.trapped); if t then pure () else k : M σ Unit) s = .ok ((), q)) :
    Out E s q (wrC a v n) := by
  obtain ⟨_, s1, e1, e⟩ := bind_eq_ok.1 e
  rw [M.bind_ok (M.get_app _ _)] at e
  rcases memWr_tells hm e1 with ⟨ht, h⟩ | ⟨ht, h⟩
  · rw [if_pos ht] at e
    injection e with e; injection e with _ e
    subst e
    exact .inl ⟨ht, h⟩
  · rw [if_neg (by rw [ht]; decide)] at e
    obtain ⟨g1, g2⟩ := hk.end_ h e
    exact .inr ⟨g2.trans ht, g1⟩

/-- bytes of a load -/
def ldN : LoadOp → Nat
  | .lb | .lbu => 1
  | .lh | .lhu => 2
  | .lw => 4
theorem loadVal_tells (hm : E.cfg.hwModels = true) {op : LoadOp} {a v : W} {s q : St σ} (e : loadVal E op a s = .ok (v, q)) :
    Out E s q (rdC a (ldN op)) := by
  cases op
  · obtain ⟨x, s1, e1, e⟩ := bind_eq_ok.1 (show (memRd E a 1 >>= _) s = _ from e)
    injection e with e; injection e with _ e
    exact e ▸ memRd_tells hm e1
  · obtain ⟨x, s1, e1, e⟩ := bind_eq_ok.1 (show (memRd E a 2 >>= _) s = _ from e)
    injection e with e; injection e with _ e
    exact e ▸ memRd_tells hm e1
  · exact memRd_tells hm e
  · exact memRd_tells hm e
  · exact memRd_tells hm e
theorem dLoad_tells (hm : E.cfg.hwModels = true) {w : W} {s q : St σ} (e : dLoad E w s = .ok ((), q)) :
    Meant E w s q (match loadSel (IP.funct3 w) with
      | some op => rdC (s.rf (IP.rs1 w) + IP.immI w) (ldN op)
      | none => []) := by
  unfold dLoad at e
  cases ho : loadSel (IP.funct3 w) with
  | none =>
    rw [ho] at e
    exact .quiet (qt_ill.tells e)
  | some op =>
    rw [ho] at e
    simp only at e ⊢
    rw [M.bind_ok (rg_app _ _)] at e
    have fin : ∀ v, Calm (do writeRf (IP.rd w) v; emit E (.load op); nextSeq 4#32 : M σ Unit) := fun v =>
      (ct_writeRf _ _).bind fun _ => (ct_emit _).bind fun _ => ct_nextSeq _
    apply Out.meant
    exact load_then fin (fun v q => loadVal_tells hm) e
theorem dStore_tells (hm : E.cfg.hwModels = true) {w : W} {s q : St σ} (e : dStore E w s = .ok ((), q)) :
    Meant E w s q (match storeSel (IP.funct3 w) with
      | some op => wrC (s.rf (IP.rs1 w) + IP.immS w) (s.rf (IP.rs2 w)) op.bytes
      | none => []) := by
  unfold dStore at e
  cases ho : storeSel (IP.funct3 w) with
  | none =>
    rw [ho] at e
    exact .quiet ((Quiet.bind qt_ill fun _ => qt_nextSeq _).tells e)
  | some op =>
    rw [ho] at e
    simp only at e ⊢
    rw [M.bind_ok (rg_app _ _), M.bind_ok (rg_app _ _)] at e
    exact (store_then hm ((ct_emit _).bind fun _ => ct_nextSeq _) e).meant
theorem cLoad_tells (hm : E.cfg.hwModels = true) {w : W} {op : COp} {b d : BitVec 5} {o : W} {s q : St σ}
    (e : cLoad E op b d o s = .ok ((), q)) : Meant E w s q (rdC (s.rf b + o) 4) := by
  unfold cLoad at e
  rw [M.bind_ok (rg_app _ _)] at e
  exact (load_then (fun v => ct_cWrite _ _ _) (fun v q => memRd_tells hm) e).meant
theorem cStore_tells (hm : E.cfg.hwModels = true) {w : W} {op : COp} {b d : BitVec 5} {o : W} {s q : St σ}
    (e : cStore E op b d o s = .ok ((), q)) : Meant E w s q (wrC (s.rf b + o) (s.rf d) 4) := by
  unfold cStore at e
  rw [M.bind_ok (rg_app _ _), M.bind_ok (rg_app _ _)] at e
  exact (store_then hm ((ct_emit _).bind fun _ => ct_nextSeq _) e).meant

theorem trapInst_trapped {c v : W} {s q : St σ} (e : trapInst c v s = .ok ((), q)) : q.trapped = true := by
  rw [trapInst_app] at e
  injection e with e; injection e with _ e
  subst e
  rfl
theorem ill_trapped {s q : St σ} (e : eIllegal s = .ok ((), q)) : q.trapped = true := by
  obtain ⟨_, s1, e1, e⟩ := bind_eq_ok.1 e
  exact trapInst_trapped e
theorem ill_meant {w : W} {s q : St σ} {m : List HwCall} (e : eIllegal s = .ok ((), q)) : Meant E w s q m :=
  .inr ⟨ill_trapped e, .inl (qt_ill.tells e)⟩

theorem dAluReg_tells (hm : E.cfg.hwModels = true) {w : W} {s q : St σ} (hs : s.trapped = false) (e : dAluReg E w s = .ok ((), q)) :
    Meant E w s q (match (aluRegSel (IP.funct7 w) (IP.funct3 w)).bind AluOp.divUns with
      | some u => [.div (s.rf (IP.rs1 w)) (s.rf (IP.rs2 w)) u]
      | none => []) := by
  unfold dAluReg at e
  cases ho : aluRegSel (IP.funct7 w) (IP.funct3 w) with
  | none =>
    rw [ho] at e
    exact ill_meant e
  | some op =>
    rw [ho] at e
    simp only [Option.bind_some] at e ⊢
    rw [M.bind_ok (rg_app _ _), M.bind_ok (rg_app _ _)] at e
    have fin : ∀ r : Res W, Calm (do let res ← lift r; writeRf (IP.rd w) res; emit E (.alu op); nextSeq 4#32 : M σ Unit) :=
      fun r => (Calm.lift _).bind fun _ => (ct_writeRf _ _).bind fun _ => (ct_emit _).bind fun _ => ct_nextSeq _
    cases hd : op.divUns with
    | none =>
      rw [hd] at e
      obtain ⟨_, s1, e1, r⟩ := bind_eq_ok.1 e
      injection e1 with e1; injection e1 with _ e1
      subst e1
      exact .quiet ((fin _).quiet.tells r)
    | some u =>
      rw [hd] at e
      simp only at e ⊢
      rw [M.bind_ok (hwUpd_on hm _ _)] at e
      have h1 : Tells E s { s with hw := E.hw.divEval (s.rf (IP.rs1 w)) (s.rf (IP.rs2 w)) u s.hw }
        [.div (s.rf (IP.rs1 w)) (s.rf (IP.rs2 w)) u] := Tells.call (.div (s.rf (IP.rs1 w)) (s.rf (IP.rs2 w)) u) rfl rfl (fun _ => rfl) trivial
      obtain ⟨k1, k2⟩ := (fin _).end_ h1 e
      exact .inl ⟨k2.trans hs, k1⟩

theorem profState_tells (hm : E.cfg.hwModels = true) (hp : E.cfg.profilers = true) {b : Bool} {s q : St σ}
    (e : profState E b s = .ok ((), q)) : Tells E s q [] ∧ q.profActive = b := by
  unfold profState at e
  rw [hp] at e
  rw [M.bind_ok (show whenM true (mod fun s : St σ => { s with profActive := b }) s = .ok ((), { s with profActive := b }) from rfl),
    hwUpd_on hm] at e
  injection e with e; injection e with _ e
  subst e
  refine ⟨⟨[.prof b], [.prof b], rfl, rfl, by simp [HwCall.switch], fun _ => rfl, ?_, rfl, fun _ => rfl, ?_⟩, rfl⟩
  · intro h
    rw [hp] at h
    cases h
  · intro x hx
    cases List.mem_singleton.1 hx
    trivial

theorem slti_tells (hm : E.cfg.hwModels = true) {w a b v : W} {s q : St σ} (e : aluSlti E w a b s = .ok (v, q)) :
    Tells E s q [] := by
  unfold aluSlti at e
  by_cases h1 : (E.cfg.profilers && w == 0x01002013#32) = true
  · rw [if_pos h1] at e
    rw [M.bind_ok (M.get_app _ _), M.bind_ok (M.mod_app _ _)] at e
    obtain ⟨_, s1, e1, r⟩ := bind_eq_ok.1 e
    injection r with r; injection r with _ r
    subst r
    exact (Tells.quiet rfl rfl).trans (profState_tells hm (Bool.and_eq_true_iff.1 h1).1 e1).1
  · rw [if_neg h1] at e
    by_cases h2 : (E.cfg.profilers && w == 0x01102013#32) = true
    · rw [if_pos h2] at e
      obtain ⟨_, s1, e1, r⟩ := bind_eq_ok.1 e
      rw [M.bind_ok (M.mod_app _ _)] at r
      injection r with r; injection r with _ r
      subst r
      exact ((profState_tells hm (Bool.and_eq_true_iff.1 h2).1 e1).1).end_ rfl rfl
    · rw [if_neg h2] at e
      exact (Quiet.pure _).tells e
theorem dAluImm_tells (hm : E.cfg.hwModels = true) {w : W} {s q : St σ} (e : dAluImm E w s = .ok ((), q)) :
    Meant E w s q [] := by
  unfold dAluImm at e
  cases ho : aluImmSel (IP.funct7b5 w) (IP.funct3 w) with
  | none =>
    rw [ho] at e
    exact ill_meant e
  | some op =>
    rw [ho] at e
    simp only at e
    rw [M.bind_ok (rg_app _ _)] at e
    obtain ⟨v, s1, e1, r⟩ := bind_eq_ok.1 e
    have h1 : Tells E s s1 [] := by
      have hl : ∀ (r : Res W) {v : W} {q : St σ}, M.lift r s = .ok (v, q) → Tells E s q [] := fun r {v q} e => (Quiet.lift _).tells e
      cases op
      case slti => exact slti_tells hm e1
      case slli =>
        have : Quiet (aluImm E .slli w (s.rf (IP.rs1 w)) (IP.immI w)) := by
          simp only [aluImm]
          qt
        exact this.tells e1
      all_goals (simp only [aluImm] at e1; exact hl _ e1)
    exact .quiet (h1.trans (((ct_writeRf _ _).bind fun _ => (ct_emit _).bind fun _ => ct_nextSeq _).quiet.tells r))

theorem norm_lt (a : W) : (a &&& 0x1ffff#32).toNat < 0x20000 := by
  rw [BitVec.toNat_and]
  exact Nat.lt_of_le_of_lt Nat.and_le_right (by decide)
theorem rd32_in {d : Dev} {a w : W} (ha : a.toNat < 0x20000) (h : d.rd32 a = .ok w) : a.toNat + 4 ≤ d.size := by
  unfold Dev.rd32 at h
  have : ∃ b, d.get (a + 3#32) = .ok b := by
    cases h0 : d.get a <;> rw [h0] at h <;> try cases h
    cases h1 : d.get (a + 1#32) <;> rw [h1] at h <;> try cases h
    cases h2 : d.get (a + 2#32) <;> rw [h2] at h <;> try cases h
    cases h3 : d.get (a + 3#32) <;> rw [h3] at h <;> try cases h
    exact ⟨_, rfl⟩
  obtain ⟨b, hb⟩ := this
  unfold Dev.get at hb
  split at hb
  · rename_i hl
    have : (a + 3#32).toNat = a.toNat + 3 := by bv_omega
    omega
  · cases hb
theorem lift_val {r : Res α} {x : α} {s q : St σ} (h : (M.lift r : M σ α) s = .ok (x, q)) : r = .ok x := by
  cases r with
  | ok y => injection h with h; injection h with h; rw [h]
  | ub k => cases h
  | abort => cases h
/-- an instruction read traps, or reads the cache -/
theorem rdInst_cases (hm : E.cfg.hwModels = true) {a i : W} {s q : St σ} (e : rdInst E a s = .ok (i, q)) :
    (q.trapped = true ∧ q.hw = s.hw ∧ rest q = rest s ∧ (toNorm a).toNat % 2 = 1 ∧ ∃ p r, q.trapLog = (0#32, toNorm a, p) :: r) ∨
      q = { s with hw := E.hw.icRd (toNorm a) s.hw } ∧ HwCall.inMain s.ram.size (.icRd (toNorm a)) := by
  unfold rdInst at e
  split at e
  · rename_i hodd
    obtain ⟨_, q1, e1, r⟩ := bind_eq_ok.1 e
    unfold eInstMisaligned at e1
    rw [trapInst_app] at e1
    injection e1 with e1; injection e1 with _ e1
    injection r with r; injection r with _ r
    subst e1 r
    exact .inl ⟨rfl, rfl, rfl, by omega, _, _, rfl⟩
  · rename_i hev
    obtain ⟨_, s1, e1, r⟩ := bind_eq_ok.1 e
    have := guard_ok e1; subst this
    rw [M.bind_ok (M.get_app _ _)] at r
    obtain ⟨_, s2, e2, r2⟩ := bind_eq_ok.1 r
    have := lift_ok e2; subst this
    rw [M.bind_ok (hwUpd_on hm _ _)] at r2
    injection r2 with r2; injection r2 with _ r2
    exact .inr ⟨r2.symm, by simpa using hev, norm_lt _, rd32_in (norm_lt _) (lift_val e2)⟩

theorem branchHw_tells (hm : E.cfg.hwModels = true) {w : W} {s q : St σ} (e : branchHw E w s = .ok ((), q)) :
    ∃ pc' n', Tells E s q [.ideal s.nextPc, .predict s.pc (IP.immB w) (IP.funct3 w), .update pc' n'] ∧
      ((q.trapped = s.trapped ∧ q.trapLog = s.trapLog ∧ q.pc = s.pc ∧ q.nextPc = s.nextPc ∧ pc' = s.pc ∧ n' = s.nextPc) ∨
       (q.trapped = true ∧ ∃ t p r, q.trapLog = (0#32, t, p) :: r ∧ t.toNat % 2 = 1)) := by
  unfold branchHw at e
  rw [M.bind_ok (M.mod_app _ _), M.bind_ok (M.get_app _ _), M.bind_ok (M.get_app _ _)] at e
  simp only at e
  generalize hr : E.hw.bpPredict s.pc (IP.immB w) (IP.funct3 w) (E.hw.bpIdeal s.nextPc s.hw) = r at e
  rw [M.bind_ok (M.mod_app _ _)] at e
  obtain ⟨_, s1, e1, e⟩ := bind_eq_ok.1 e
  have h0 : r.2 = replay E.hw [.ideal s.nextPc, .predict s.pc (IP.immB w) (IP.funct3 w)] s.hw := by rw [← hr]; rfl
  -- the speculative fetch
  have h1 : ∃ c, s1.hw = replay E.hw c r.2 ∧ own c = [] ∧ rest s1 = rest s ∧ (∀ x ∈ c, x.inMain s.ram.size) ∧
      ((s1.trapped = s.trapped ∧ s1.trapLog = s.trapLog ∧ s1.pc = s.pc ∧ s1.nextPc = s.nextPc) ∨
       (s1.trapped = true ∧ ∃ t p r, s1.trapLog = (0#32, t, p) :: r ∧ t.toNat % 2 = 1)) := by
    split at e1
    · injection e1 with e1; injection e1 with _ e1
      subst e1
      exact ⟨[], rfl, rfl, rfl, by simp, .inl ⟨rfl, rfl, rfl, rfl⟩⟩
    · obtain ⟨i, s2, e2, e1⟩ := bind_eq_ok.1 e1
      rw [M.mod_app] at e1
      injection e1 with e1; injection e1 with _ e1
      subst e1
      rcases rdInst_cases hm e2 with ⟨g1, g2, g3, g4, _, _, g5⟩ | ⟨rfl, hin⟩
      · exact ⟨[], g2, rfl, g3, by simp, .inr ⟨g1, _, _, _, g5, g4⟩⟩
      · exact ⟨[.icRd (toNorm r.1)], rfl, rfl, rfl, fun x hx => List.mem_singleton.1 hx ▸ hin, .inl ⟨rfl, rfl, rfl, rfl⟩⟩
  obtain ⟨c, a1, a2, a3, ai, a4⟩ := h1
  rw [M.bind_ok (M.mod_app _ _), M.bind_ok (M.get_app _ _)] at e
  simp only at e
  -- the update
  have h2 : ∃ c', q.hw = replay E.hw c' (E.hw.bpUpdate s1.pc s1.nextPc s1.hw) ∧ own c' = [] ∧ rest q = rest s1 ∧ (∀ x ∈ c', x.inMain s1.ram.size) ∧
      ((q.trapped = s1.trapped ∧ q.trapLog = s1.trapLog ∧ q.pc = s1.pc ∧ q.nextPc = s1.nextPc) ∨
       (q.trapped = true ∧ ∃ t p r, q.trapLog = (0#32, t, p) :: r ∧ t.toNat % 2 = 1)) := by
    by_cases hn : s1.nextPc = r.1
    · rw [if_pos hn] at e
      rw [M.bind_ok (M.get_app _ _)] at e
      simp only at e
      cases hs : s1.instSpec with
      | none => rw [hs] at e; cases e
      | some i =>
        rw [hs] at e
        injection e with e; injection e with _ e
        subst e
        exact ⟨[], rfl, rfl, rfl, by simp, .inl ⟨rfl, rfl, rfl, rfl⟩⟩
    · rw [if_neg hn] at e
      obtain ⟨i, s2, e2, e⟩ := bind_eq_ok.1 e
      rw [M.mod_app] at e
      injection e with e; injection e with _ e
      subst e
      rcases rdInst_cases hm e2 with ⟨g1, g2, g3, g4, _, _, g5⟩ | ⟨rfl, hin⟩
      · exact ⟨[], g2, rfl, g3, by simp, .inr ⟨g1, _, _, _, g5, g4⟩⟩
      · exact ⟨[.icRd (toNorm s1.nextPc)], rfl, rfl, rfl, fun x hx => List.mem_singleton.1 hx ▸ hin, .inl ⟨rfl, rfl, rfl, rfl⟩⟩
  obtain ⟨c', b1, b2, b3, bi, b4⟩ := h2
  refine ⟨s1.pc, s1.nextPc, ?_, ?_⟩
  · have h3 : q.hw = replay E.hw ([.ideal s.nextPc, .predict s.pc (IP.immB w) (IP.funct3 w)] ++ c ++ [.update s1.pc s1.nextPc] ++ c') s.hw := by
      rw [replay_append, replay_append, replay_append, ← h0, ← a1, b1]
      rfl
    have := Tells.calls _ h3 (b3.trans a3) (fun f => by rw [mem_own]; simp only [own_append, a2, b2]; rfl) (by
      simp only [List.append_assoc, List.mem_append, List.mem_cons, List.not_mem_nil, or_false]
      rintro x ((rfl | rfl) | hx | rfl | hx)
      exacts [trivial, trivial, ai x hx, trivial, (congrArg (fun p => p.2.size) a3 : s1.ram.size = s.ram.size) ▸ bi x hx])
    rw [own_append, own_append, own_append, a2, b2] at this
    exact this
  · rcases b4 with ⟨b1, b2, b3, b4⟩ | b4
    · rcases a4 with ⟨c1, c2, c3, c4⟩ | ⟨c1, t, p, r, c2, c3⟩
      · exact .inl ⟨b1.trans c1, b2.trans c2, b3.trans c3, b4.trans c4, c3, c4⟩
      · exact .inr ⟨b1.trans c1, t, p, r, b2.trans c2, c3⟩
    · exact .inr b4

/-- a branch: what it tells, by how it ends -/
theorem dBranch_cases (hm : E.cfg.hwModels = true) {w : W} {s q : St σ} (hs : s.trapped = false) (e : dBranch E w s = .ok ((), q)) :
    (q.trapped = false ∧ Tells E s q [.ideal q.nextPc, .predict s.pc (IP.immB w) (IP.funct3 w), .update s.pc q.nextPc]) ∨
    (q.trapped = true ∧
      ((∃ t p r, q.trapLog = (0#32, t, p) :: r ∧ Tells E s q []) ∨
       (∃ t p r, q.trapLog = (0#32, t, p) :: r ∧ t.toNat % 2 = 1 ∧
         ∃ n pc imm f3 pc' n', Tells E s q [.ideal n, .predict pc imm f3, .update pc' n']) ∨
       (∃ t p r, q.trapLog = (2#32, t, p) :: r ∧ branchSel (IP.funct3 w) = none ∧
         Tells E s q [.ideal (s.pc + 4#32), .predict q.pc (IP.immB w) (IP.funct3 w), .update q.pc (s.pc + 4#32)]))) := by
  unfold dBranch at e
  rw [M.bind_ok (M.get_app _ _), M.bind_ok (show setNext (s.pc + 4#32) s = .ok ((), { s with nextPc := s.pc + 4#32 }) from rfl)] at e
  obtain ⟨_, s1, e1, e⟩ := bind_eq_ok.1 e
  have h1 : Tells E s s1 [] ∧ ((s1.trapped = true ∧ s1.nextPc = s.pc + 4#32 ∧ branchSel (IP.funct3 w) = none ∧ ∃ t p r, s1.trapLog = (2#32, t, p) :: r) ∨
      (s1.trapped = false ∧ s1.pc = s.pc)) := by
    cases hb : branchSel (IP.funct3 w) with
    | none =>
      rw [hb] at e1
      refine ⟨qt_ill.tells' e1 rfl rfl, .inl ?_⟩
      simp only at e1
      unfold eIllegal at e1
      rw [M.bind_ok (M.get_app _ _), trapInst_app] at e1
      injection e1 with e1; injection e1 with _ e1
      subst e1
      exact ⟨rfl, rfl, rfl, _, _, _, rfl⟩
    | some op =>
      rw [hb] at e1
      simp only at e1
      rw [M.bind_ok (rg_app _ _), M.bind_ok (rg_app _ _)] at e1
      have hpc : ∀ (ev : ProfEv) {t t' : St σ}, emit E ev t = .ok ((), t') → t'.trapped = t.trapped ∧ t'.pc = t.pc := fun ev t t' e => by
        unfold emit at e
        split at e
        · injection e with e; injection e with _ e; subst e; exact ⟨rfl, rfl⟩
        · injection e with e; injection e with _ e; subst e; exact ⟨rfl, rfl⟩
      split at e1
      · obtain ⟨_, s2, e2, e1⟩ := bind_eq_ok.1 e1
        unfold setNext at e2
        rw [M.mod_app] at e2
        injection e2 with e2; injection e2 with _ e2
        subst e2
        exact ⟨(qt_emit _).tells' e1 rfl rfl, .inr ⟨(hpc _ e1).1.trans hs, (hpc _ e1).2.trans rfl⟩⟩
      · exact ⟨(qt_emit _).tells' e1 rfl rfl, .inr ⟨(hpc _ e1).1.trans hs, (hpc _ e1).2.trans rfl⟩⟩
  obtain ⟨h1, hc⟩ := h1
  rw [M.bind_ok (M.get_app _ _)] at e
  split at e
  · have ht := h1.trans ((qt_mis _).tells e)
    unfold eInstMisaligned at e
    rw [trapInst_app] at e
    injection e with e; injection e with _ e
    subst e
    exact .inr ⟨rfl, .inl ⟨_, _, _, rfl, ht⟩⟩
  · obtain ⟨pc', n', k1, ⟨k2, k3, k4, k5, k6, k7⟩ | ⟨k2, t, p, r, k3, k4⟩⟩ := branchHw_tells hm e
    · rw [k6, k7] at k1
      rcases hc with ⟨c1, c2, cb, t, p, r, c3⟩ | ⟨c1, c2⟩
      · rw [← k4, c2] at k1
        exact .inr ⟨k2.trans c1, .inr (.inr ⟨t, p, r, k3.trans c3, cb, h1.trans k1⟩)⟩
      · rw [← k5, c2] at k1
        exact .inl ⟨k2.trans c1, h1.trans k1⟩
    · exact .inr ⟨k2, .inr (.inl ⟨t, p, r, k3, k4, _, _, _, _, _, _, h1.trans k1⟩)⟩
theorem dBranch_tells (hm : E.cfg.hwModels = true) {w : W} (hw : IP.opcode w = 0x63#7) {s q : St σ} (hs : s.trapped = false)
    (e : dBranch E w s = .ok ((), q)) :
    Meant E w s q [.ideal q.nextPc, .predict s.pc (IP.immB w) (IP.funct3 w), .update s.pc q.nextPc] := by
  rcases dBranch_cases hm hs e with h | ⟨h, ⟨_, _, _, _, k⟩ | ⟨t, p, r, k1, k2, k3⟩ | ⟨t, p, r, k1, _, k2⟩⟩
  · exact .inl h
  · exact .inr ⟨h, .inl k⟩
  · exact .inr ⟨h, .inr ⟨hw, ⟨_, _, _, _, k1, .inr ⟨rfl, k2⟩⟩, k3⟩⟩
  · exact .inr ⟨h, .inr ⟨hw, ⟨_, _, _, _, k1, .inl rfl⟩, _, _, _, _, _, _, k2⟩⟩

theorem dCustom_tells (hm : E.cfg.hwModels = true) {w : W} {s q : St σ} (hs : s.trapped = false) (e : dCustom E w s = .ok ((), q)) :
    Meant E w s q (match Simd.sel (IP.funct7 w) (IP.funct3 w) with
      | some (.scp m) => [.scp (s.rf (IP.rs1 w) &&& 0x1ffff#32) m]
      | _ => []) := by
  unfold dCustom at e
  cases ho : Simd.sel (IP.funct7 w) (IP.funct3 w) with
  | none =>
    rw [ho] at e
    have : Quiet (do eIllegal; if Simd.selReturns (IP.funct7 w) then pure () else nextSeq 4#32 : M σ Unit) := by qt
    exact .quiet (this.tells e)
  | some op =>
    rw [ho] at e
    simp only at e
    obtain ⟨_, s1, e1, e'⟩ := bind_eq_ok.1 e
    clear e
    have fin : Calm (do emit E (.simd op); nextSeq 4#32 : M σ Unit) := (ct_emit _).bind fun _ => ct_nextSeq _
    unfold simdExec at e1
    rw [M.bind_ok (rg_app _ _), M.bind_ok (rg_app _ _), M.bind_ok (rg_app _ _)] at e1
    cases op
    case scp m =>
      simp only at e1 ⊢
      unfold cacheHint at e1
      rw [if_pos hm] at e1
      obtain ⟨v, s2, e2, e1⟩ := bind_eq_ok.1 e1
      rw [M.bind_ok (M.get_app _ _), M.bind_ok (M.mod_app _ _)] at e2
      injection e2 with e2; injection e2 with _ e2
      subst e2
      have h1 : Tells E s { s with hw := (E.hw.scp (toNorm (s.rf (IP.rs1 w))) m s.hw).2 } [.scp (s.rf (IP.rs1 w) &&& 0x1ffff#32) m] :=
        Tells.call (.scp (s.rf (IP.rs1 w) &&& 0x1ffff#32) m) rfl rfl (fun _ => rfl) (norm_lt _)
      obtain ⟨k1, k2⟩ := (ct_writeRf _ _).end_ h1 e1
      obtain ⟨k3, k4⟩ := fin.end_ k1 e'
      exact .inl ⟨(k4.trans k2).trans hs, k3⟩
    all_goals
      simp only at e1 ⊢
      refine .quiet (Tells.trans (Quiet.tells ?_ e1) (fin.quiet.tells e'))
      qt

theorem dC0_tells (hm : E.cfg.hwModels = true) {w : W} {s q : St σ} (e : dCompressed0 E w s = .ok ((), q)) :
    Meant E w s q (if IP.cFunct3 w = 2#3 then rdC (s.rf (IP.cRegh w) + IP.cImmMem w) 4
      else if IP.cFunct3 w = 6#3 then wrC (s.rf (IP.cRegh w) + IP.cImmMem w) (s.rf (IP.cRegl w)) 4 else []) := by
  have hc : (IP.cFunct3 w = 2#3 ∧ dCompressed0 E w = cLoad E .lw (IP.cRegh w) (IP.cRegl w) (IP.cImmMem w)) ∨
      (IP.cFunct3 w = 6#3 ∧ dCompressed0 E w = cStore E .sw (IP.cRegh w) (IP.cRegl w) (IP.cImmMem w)) ∨
      (IP.cFunct3 w ≠ 2#3 ∧ IP.cFunct3 w ≠ 6#3 ∧ Quiet (dCompressed0 E w)) := by
    unfold dCompressed0
    split
    · rename_i h; exact .inr (.inr ⟨by rw [h]; decide, by rw [h]; decide, qt_c4spn _⟩)
    · rename_i h; exact .inl ⟨h, rfl⟩
    · rename_i h; exact .inr (.inl ⟨h, rfl⟩)
    · rename_i h1 h2 h3; exact .inr (.inr ⟨h2, h3, qt_ill⟩)
  rcases hc with ⟨h, h'⟩ | ⟨h, h'⟩ | ⟨h, h', h3⟩
  · rw [h'] at e; rw [if_pos h]; exact cLoad_tells hm e
  · rw [h'] at e; rw [if_neg (by rw [h]; decide), if_pos h]; exact cStore_tells hm e
  · rw [if_neg h, if_neg h']; exact .quiet (h3.tells e)
theorem dC2_tells (hm : E.cfg.hwModels = true) {w : W} {s q : St σ} (e : dCompressed2 E w s = .ok ((), q)) :
    Meant E w s q (if IP.cFunct3 w = 2#3 then rdC (s.rf 2#5 + IP.cImmLwsp w) 4
      else if IP.cFunct3 w = 6#3 then wrC (s.rf 2#5 + IP.cImmSwsp w) (s.rf (IP.cRs2 w)) 4 else []) := by
  have hc : (IP.cFunct3 w = 2#3 ∧ dCompressed2 E w = cLoad E .lwsp 2#5 (IP.rd w) (IP.cImmLwsp w)) ∨
      (IP.cFunct3 w = 6#3 ∧ dCompressed2 E w = cStore E .swsp 2#5 (IP.cRs2 w) (IP.cImmSwsp w)) ∨
      (IP.cFunct3 w ≠ 2#3 ∧ IP.cFunct3 w ≠ 6#3 ∧ Quiet (dCompressed2 E w)) := by
    unfold dCompressed2 cJr cMv cEbreak cJalr cAdd
    split
    · rename_i h; exact .inr (.inr ⟨by rw [h]; decide, by rw [h]; decide, qt_cSlli _⟩)
    · rename_i h; exact .inl ⟨h, rfl⟩
    · rename_i h; exact .inr (.inl ⟨h, rfl⟩)
    · rename_i h
      refine .inr (.inr ⟨by rw [h]; decide, by rw [h]; decide, ?_⟩)
      split <;> qt
    · rename_i h1 h2 h3 h4; exact .inr (.inr ⟨h2, h3, qt_ill⟩)
  rcases hc with ⟨h, h'⟩ | ⟨h, h'⟩ | ⟨h, h', h3⟩
  · rw [h'] at e; rw [if_pos h]; exact cLoad_tells hm e
  · rw [h'] at e; rw [if_neg (by rw [h]; decide), if_pos h]; exact cStore_tells hm e
  · rw [if_neg h, if_neg h']; exact .quiet (h3.tells e)

/-- what executing the word tells, in terms of its fields -/
def wCalls (rf : BitVec 5 → W) (pc next w : W) : List HwCall :=
  if IP.copcode w = 0#2 then
    if IP.cFunct3 w = 2#3 then rdC (rf (IP.cRegh w) + IP.cImmMem w) 4
    else if IP.cFunct3 w = 6#3 then wrC (rf (IP.cRegh w) + IP.cImmMem w) (rf (IP.cRegl w)) 4 else []
  else if IP.copcode w = 2#2 then
    if IP.cFunct3 w = 2#3 then rdC (rf 2#5 + IP.cImmLwsp w) 4
    else if IP.cFunct3 w = 6#3 then wrC (rf 2#5 + IP.cImmSwsp w) (rf (IP.cRs2 w)) 4 else []
  else if IP.copcode w = 1#2 then []
  else if IP.opcode w = 0x33#7 then
    match (aluRegSel (IP.funct7 w) (IP.funct3 w)).bind AluOp.divUns with
    | some u => [.div (rf (IP.rs1 w)) (rf (IP.rs2 w)) u]
    | none => []
  else if IP.opcode w = 0x03#7 then
    match loadSel (IP.funct3 w) with
    | some op => rdC (rf (IP.rs1 w) + IP.immI w) (ldN op)
    | none => []
  else if IP.opcode w = 0x23#7 then
    match storeSel (IP.funct3 w) with
    | some op => wrC (rf (IP.rs1 w) + IP.immS w) (rf (IP.rs2 w)) op.bytes
    | none => []
  else if IP.opcode w = 0x63#7 then [.ideal next, .predict pc (IP.immB w) (IP.funct3 w), .update pc next]
  else if IP.opcode w = 0x0b#7 then
    match Simd.sel (IP.funct7 w) (IP.funct3 w) with
    | some (.scp m) => [.scp (rf (IP.rs1 w) &&& 0x1ffff#32) m]
    | _ => []
  else []

theorem exec32_tells (hm : E.cfg.hwModels = true) {w : W} (hc : IP.copcode w = 3#2) {q q' : St σ} (hq : q.trapped = false)
    (e : exec32 E w q = .ok ((), q')) : Meant E w q q' (wCalls q.rf q.pc q'.nextPc w) := by
  unfold wCalls
  rw [if_neg (by rw [hc]; decide), if_neg (by rw [hc]; decide), if_neg (by rw [hc]; decide)]
  by_cases h : IP.opcode w = 0x33#7
  · rw [if_pos h]
    exact dAluReg_tells hm hq (by unfold exec32 at e; rw [h] at e; exact e)
  rw [if_neg h]
  by_cases h : IP.opcode w = 0x03#7
  · rw [if_pos h]
    exact dLoad_tells hm (by unfold exec32 at e; rw [h] at e; exact e)
  rw [if_neg h]
  by_cases h : IP.opcode w = 0x23#7
  · rw [if_pos h]
    exact dStore_tells hm (by unfold exec32 at e; rw [h] at e; exact e)
  rw [if_neg h]
  by_cases h : IP.opcode w = 0x63#7
  · rw [if_pos h]
    exact dBranch_tells hm h hq (by unfold exec32 at e; rw [h] at e; exact e)
  rw [if_neg h]
  by_cases h : IP.opcode w = 0x0b#7
  · rw [if_pos h]
    have e : (if E.cfg.simd then dCustom E w else eIllegal) q = .ok ((), q') := by unfold exec32 at e; rw [h] at e; exact e
    cases hs : E.cfg.simd with
    | true => rw [hs] at e; exact dCustom_tells hm hq e
    | false => rw [hs] at e; exact ill_meant e
  rw [if_neg h]
  by_cases h : IP.opcode w = 0x13#7
  · exact dAluImm_tells hm (by unfold exec32 at e; rw [h] at e; exact e)
  have : Quiet (exec32 E w) := by
    unfold exec32
    split
    · contradiction
    · contradiction
    · contradiction
    · contradiction
    · contradiction
    · exact qt_dJalr _
    · exact qt_dJal _
    · exact qt_dLui _
    · exact qt_dAuipc _
    · exact qt_dSystem _
    · exact qt_dMiscMem _
    · contradiction
    · exact qt_ill
  exact .quiet (this.tells e)

theorem exec16_tells (hm : E.cfg.hwModels = true) {w : W} {q q' : St σ} (hc : IP.copcode w ≠ 3#2)
    (e : exec16 E w q = .ok ((), q')) : Meant E w q q' (wCalls q.rf q.pc q'.nextPc w) := by
  unfold wCalls
  by_cases h : IP.copcode w = 0#2
  · rw [if_pos h]
    exact dC0_tells hm (by unfold exec16 at e; rw [h] at e; exact e)
  rw [if_neg h]
  by_cases h2 : IP.copcode w = 2#2
  · rw [if_pos h2]
    exact dC2_tells hm (by unfold exec16 at e; rw [h2] at e; exact e)
  rw [if_neg h2]
  by_cases h1 : IP.copcode w = 1#2
  · rw [if_pos h1]
    exact .quiet ((qt_c1 w).tells (by unfold exec16 at e; rw [h1] at e; exact e))
  · exfalso
    generalize IP.copcode w = c at *
    revert c
    decide

theorem Meant.start {w : W} {s t q : St σ} {m : List HwCall} (h : Meant E w t q m) (h0 : Tells E s t []) : Meant E w s q m := by
  rcases h with ⟨h, k⟩ | ⟨h, k | ⟨h1, ht, n, pc, imm, f3, pc', n', k⟩⟩
  · exact .inl ⟨h, h0.trans k⟩
  · exact .inr ⟨h, .inl (h0.trans k)⟩
  · exact .inr ⟨h, .inr ⟨h1, ht, n, pc, imm, f3, pc', n', h0.trans k⟩⟩

/-- what executing the fetched word tells -/
theorem exec_tells (hm : E.cfg.hwModels = true) {q q' : St σ} (hq : q.trapped = false ∨ q.inst = 0#32)
    (e : exec E q = .ok ((), q')) : Meant E q'.inst q q' (wCalls q.rf q.pc q'.nextPc q'.inst) := by
  rcases exec_split e with ⟨h1, h2⟩ | ⟨h1, h2, h3⟩ | ⟨h1, h2, h3⟩
  · have hi : q'.inst = q.inst := (Dasm.inst_primsX q.inst).exec32_of q.inst (fun _ => Dasm.inst_dSystem _ _) _ _ _ rfl h2
    rw [hi]
    refine exec32_tells hm h1 ?_ h2
    rcases hq with hq | hq
    · exact hq
    · rw [hq] at h1; exact absurd h1 (by decide)
  · have hi : q'.inst = IP.toRvc q.inst := (Dasm.inst_primsX (IP.toRvc q.inst)).exec16_of _ (fun _ =>
      Pres.bind (Pres.mod fun _ h => h) fun _ => (Dasm.inst_primsX _).emit _) _ _ _ rfl h3
    rw [hi]
    exact (exec16_tells hm (by rw [Dasm.copcode_toRvc]; exact h1) h3).start (.quiet rfl rfl)
  · exact ill_meant h3

/-! ## Steps -/

theorem fetch_tells (hm : E.cfg.hwModels = true) {q q' : St σ} (e : fetch E q = .ok ((), q')) : Tells E q q' [] := by
  unfold fetch at e
  rw [M.bind_ok (M.get_app _ _)] at e
  split at e
  · rw [M.mod_app] at e
    injection e with e; injection e with _ e
    subst e
    exact .quiet rfl rfl
  · rw [M.bind_ok (M.get_app _ _)] at e
    obtain ⟨i, q1, e1, r⟩ := bind_eq_ok.1 e
    rw [M.mod_app] at r
    injection r with r; injection r with _ r
    subst r
    rcases rdInst_cases hm e1 with ⟨_, g2, g3, _⟩ | ⟨rfl, hin⟩
    · exact .quiet g2 g3
    · exact Tells.call (.icRd (toNorm q.pc)) rfl rfl (fun _ => rfl) hin

theorem window_tells (hm : E.cfg.hwModels = true) {s s' : St σ} {b : Bool} (e : profWindow E s = .ok (b, s')) : Tells E s s' [] := by
  unfold profWindow at e
  cases hp : E.cfg.profilers with
  | false =>
    rw [hp] at e
    exact (Quiet.pure _).tells e
  | true =>
    rw [hp] at e
    simp only [if_true] at e
    rw [M.bind_ok (M.get_app _ _), M.bind_ok (M.get_app _ _), M.bind_ok (M.mod_app _ _)] at e
    split at e
    · obtain ⟨_, q, e1, r⟩ := bind_eq_ok.1 e
      injection r with r; injection r with _ r
      subst r
      exact (Tells.quiet rfl rfl).trans (profState_tells hm hp e1).1
    · split at e
      · obtain ⟨_, q, e1, r⟩ := bind_eq_ok.1 e
        have h1 : Tells E s q [] := (Tells.quiet rfl rfl).trans (profState_tells hm hp e1).1
        split at r
        · rw [M.bind_ok (M.mod_app _ _)] at r
          injection r with r; injection r with _ r
          subst r
          exact h1.end_ rfl rfl
        · injection r with r; injection r with _ r
          subst r
          exact h1
      · injection e with e; injection e with _ e
        subst e
        exact .quiet rfl rfl

theorem finish_hw (q : St σ) : (finishSt E q).hw = q.hw ∧ rest (finishSt E q) = rest q := by
  unfold finishSt finishSt1
  split
  · exact ⟨rfl, rfl⟩
  · split
    · exact ⟨rfl, rfl⟩
    · split <;> exact ⟨rfl, rfl⟩

theorem finish_log (q : St σ) : (finishSt E q).trapLog = q.trapLog := by
  unfold finishSt finishSt1
  split
  · rfl
  · split
    · rfl
    · split <;> rfl
theorem window_simStep {s s' : St σ} {b : Bool} (e : profWindow E s = .ok (b, s')) : s'.simStep = s.simStep := by
  have hp : ∀ on, Pres (fun q : St σ => q.simStep = s.simStep) (profState E on) := fun on => by
    refine Pres.bind ?_ fun _ => ?_
    · unfold M.whenM
      exact Pres.ite (Pres.mod fun _ h => h) (Pres.pure _)
    · unfold hwUpd
      exact Pres.ite (Pres.mod fun _ h => h) (Pres.pure _)
  have : Pres (fun q : St σ => q.simStep = s.simStep) (profWindow E) :=
    Pres.ite (Pres.bind (Pres.get _) fun _ => Pres.bind (Pres.get _) fun _ =>
      Pres.bind (Pres.mod fun _ hs => hs) fun _ =>
      Pres.ite (Pres.bind (hp _) fun _ => Pres.pure _) <|
      Pres.ite (Pres.bind (hp _) fun _ => Pres.ite (Pres.bind (Pres.mod fun _ hs => hs)
        fun _ => Pres.pure _) (Pres.pure _)) (Pres.pure _)) (Pres.pure _)
  exact this _ _ _ rfl e

/-- **what a step tells the hardware models** -/
theorem step_tells (hm : E.cfg.hwModels = true) {s s' : St σ} (h : step E s = .ok ((), s')) :
    (s'.simInst = s.simInst + 1#64 ∧ s'.trapped = false ∧ Tells E s s' (wCalls s.rf s.pc s'.pc s'.inst)) ∨
    (s'.simInst = s.simInst ∧ ((Tells E s s' [] ∧ (s'.trapped = true ∨ s'.wfiActive = true ∨ s'.simStep = s.simStep)) ∨
      (s'.trapped = false ∧ s'.simStep = E.cfg.runSteps ∧ s'.running = false ∧ Tells E s s' (wCalls s.rf s.pc s'.nextPc s'.inst)) ∨
      (s'.trapped = true ∧ IP.opcode s'.inst = 0x63#7 ∧
        (∃ c t p r, s'.trapLog = (c, t, p) :: r ∧ (c = 2#32 ∨ c = 0#32 ∧ t.toNat % 2 = 1)) ∧
        ∃ n pc imm f3 pc' n', Tells E s s' [.ideal n, .predict pc imm f3, .update pc' n']))) := by
  have h0 : PreStep s.profLog s.rf s.pc s.simInst { s with trapped := false } := ⟨rfl, rfl, fun _ => rfl, rfl⟩
  have k0 : Tells E s { s with trapped := false } [] := .quiet rfl rfl
  rcases step_split h with he | ⟨q0, q1, e1, e2, e3⟩
  · exact .inr ⟨(pre_window _ _ _ h0 he).2.2.2, .inl ⟨k0.trans (window_tells hm he), .inr (.inr ((window_simStep he).trans rfl))⟩⟩
  · have h1 := pre_window _ _ _ h0 e1
    have k1 := k0.trans (window_tells hm e1)
    obtain ⟨defer, nt, qa, c1, _, hx⟩ := stepExec_split e2
    have h2 : PreStep s.profLog s.rf s.pc s.simInst (wakeSt nt qa) :=
      have := pre_check _ _ _ _ h1 c1
      this
    have k2 : Tells E s (wakeSt nt qa) [] := (k1.trans ((qt_int _).tells c1)).trans (.quiet rfl rfl)
    obtain ⟨f1, f2⟩ := finish_hw (E := E) q1
    rcases hx with ⟨hw, hw2, qc, g1, g2⟩ | ⟨hq, hw⟩
    · have h3 := prof_fetch _ _ _ h2 g1
      have hk := exec_keeps.exec _ _ _ ⟨h3.2.2.1, h3.2.2.2⟩ g2
      have hqc : qc.trapped = false ∨ qc.inst = 0#32 := by
        rcases fetch_trap g1 with h | h
        · exact .inl (h.trans hw)
        · exact .inr h.2
      have hM := (exec_tells hm hqc g2).start (k2.trans (fetch_tells hm g1))
      rw [h3.2.1] at hM
      have hwf : q1.wfiActive = false := by
        refine PerfCore.wfi_exec.exec _ _ _ (PerfCore.wfi_exec.fetch _ _ _ ?_ g1) g2
        rcases hw2 with hw2 | hw2
        · exact hw2
        · simp [wakeSt, hw2]
      rcases hM with ⟨ht, hT⟩ | ⟨ht, hT⟩
      · have hqt : qc.trapped = false := by
          cases h : qc.trapped
          · rfl
          · rw [PerfCore.trap_stays.exec _ _ _ h g2] at ht; cases ht
        rw [h3.2.2.1 hqt] at hT
        by_cases hl : q1.simStep + 1#64 = E.cfg.runSteps
        · refine .inr ⟨?_, .inr (.inl ⟨?_, ?_, ?_, ?_⟩)⟩
          · rw [e3]; unfold finishSt finishSt1; rw [if_pos hl]; exact hk.2
          · rw [e3]; unfold finishSt finishSt1; rw [if_pos hl]; exact ht
          · rw [e3]; unfold finishSt finishSt1; rw [if_pos hl]; exact hl
          · rw [e3]; unfold finishSt finishSt1; rw [if_pos hl]
          · rw [e3, (Dasm.finishSt_frame q1).2.1, show (finishSt E q1).nextPc = q1.nextPc by unfold finishSt finishSt1; rw [if_pos hl]]
            exact hT.end_ f1 f2
        · have hf : finishSt E q1 = { q1 with
              simStep := q1.simStep + 1#64
              profPc := (finishSt E q1).profPc, pc := q1.nextPc, simInst := q1.simInst + 1#64, wfiActive := (finishSt E q1).wfiActive,
              wfiPend := (finishSt E q1).wfiPend, running := (finishSt E q1).running } := by
            unfold finishSt finishSt1
            rw [if_neg hl, if_neg (by simp [hwf]), if_neg (by simp [ht])]
          refine .inl ⟨?_, ?_, ?_⟩
          · rw [e3, hf]; exact congrArg (· + 1#64) hk.2
          · rw [e3, hf]; exact ht
          · rw [e3, (Dasm.finishSt_frame q1).2.1, show (finishSt E q1).pc = q1.nextPc by rw [hf]]
            exact hT.end_ f1 f2
      · have hs : (finishSt E q1).simInst = q1.simInst := by
          unfold finishSt finishSt1
          split
          · rfl
          · split
            · rfl
            · rfl
        refine .inr ⟨by rw [e3, hs]; exact hk.2, ?_⟩
        rcases hT with hT | ⟨h1, hl, n, pc, imm, f3, pc', n', hT⟩
        · exact .inl ⟨by rw [e3]; exact hT.end_ f1 f2, .inl (by rw [e3, (Dasm.finishSt_frame q1).1]; exact ht)⟩
        · exact .inr (.inr ⟨by rw [e3, (Dasm.finishSt_frame q1).1]; exact ht, by rw [e3, (Dasm.finishSt_frame q1).2.1]; exact h1,
            by rw [e3, finish_log]; exact hl, n, pc, imm, f3, pc', n', by rw [e3]; exact hT.end_ f1 f2⟩)
    · have hs : (finishSt E q1).simInst = q1.simInst := by
        unfold finishSt finishSt1
        split
        · rfl
        · split
          · rfl
          · split
            · rfl
            · rename_i h1 h2
              exfalso
              rcases hw with hw | ⟨hw, _⟩
              · exact h2 hw
              · exact h1 ⟨hw, by simpa using h2⟩
      have hz : (finishSt E q1).trapped = true ∨ (finishSt E q1).wfiActive = true := by
        rcases hw with hw | ⟨hw, _⟩
        · exact .inl ((Dasm.finishSt_frame q1).1.trans hw)
        · unfold finishSt finishSt1
          split
          · exact .inr hw
          · split
            · exact .inr hw
            · split
              · exact .inr hw
              · exact .inr (by simp [hw])
      refine .inr ⟨by rw [e3, hs, hq]; exact h2.2.2.2, .inl ⟨?_, by rw [e3]; exact hz.elim .inl (fun h => .inr (.inl h))⟩⟩
      rw [e3]
      refine Tells.end_ ?_ f1 f2
      rw [hq]; exact k2
end Ama.HwCalls
