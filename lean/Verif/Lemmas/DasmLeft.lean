import Verif.Lemmas.DasmFrame
/-!
# The adjustment of the stream between records, and the notes that depend on it
-/
namespace Ama.Dasm
open M Spec Spec.Log
variable {σ : Type} {E : Env σ}

/-- after `ps` the stream adjusts right if it did before -/
def Rt (ps : List P) : Prop := ∀ d, d.left = false → (run ps d).left = false
theorem Rt.nil : Rt [] := fun _ h => h
theorem Rt.append {ps qs : List P} (h : Rt ps) (hs : Rt qs) : Rt (ps ++ qs) := fun d hd => by
  rw [run_append]; exact hs _ (h d hd)
theorem Rt.consL {p : P} {ps qs : List P} (h : Rt (p :: (ps ++ qs))) : Rt (p :: ps ++ qs) := h
theorem Rt.cons {p : P} {ps : List P} (h : ∀ d, (p d).left = d.left) (hs : Rt ps) : Rt (p :: ps) :=
  fun d hd => hs _ ((h d).trans hd)
theorem Rt.str {t : List Char} {ps : List P} (h : Rt ps) : Rt (str t :: ps) := .cons (fun _ => rfl) h
theorem Rt.lit {t : String} {ps : List P} (h : Rt ps) : Rt (lit t :: ps) := .cons (fun _ => rfl) h
theorem Rt.nm {r : Rec} {i : BitVec 5} {ps : List P} (h : Rt ps) : Rt (nm r i :: ps) := .cons (fun _ => rfl) h
theorem Rt.i32 {v : W} {ps : List P} (h : Rt ps) : Rt (i32 v :: ps) := .cons (fun _ => rfl) h
theorem Rt.u32 {v : W} {ps : List P} (h : Rt ps) : Rt (u32 v :: ps) := .cons (fun _ => rfl) h
theorem Rt.putOp {ps : List P} (h : Rt ps) : Rt (putOp :: ps) := .cons (fun _ => rfl) h
theorem Rt.setOp {t : List Char} {ps : List P} (h : Rt ps) : Rt (setOp t :: ps) := .cons (fun _ => rfl) h
theorem Rt.setInstW {n : Nat} {ps : List P} (h : Rt ps) : Rt (setInstW n :: ps) := .cons (fun _ => rfl) h
theorem Rt.clear {ps : List P} (h : Rt ps) : Rt (clear :: ps) := .cons (fun _ => rfl) h
theorem Rt.trap {m : List Char} {ps : List P} (h : Rt ps) : Rt (trap m :: ps) := .cons (fun _ => rfl) h
theorem Rt.align {ps : List P} (h : Rt ps) : Rt (align :: ps) := .cons (fun _ => rfl) h
theorem Rt.hex {ps : List P} (h : Rt ps) : Rt (hex :: ps) := .cons (fun _ => rfl) h
theorem Rt.dec {ps : List P} (h : Rt ps) : Rt (dec :: ps) := .cons (fun _ => rfl) h
theorem Rt.frf (r : Rec) (i : BitVec 5) : Rt (frf r i) := fun _ _ => rfl
theorem Rt.csrf (r : Rec) (a : BitVec 16) : Rt (csrf r a) := fun _ _ => rfl
theorem Rt.memAddr (a : W) : Rt (memAddr a) := fun _ h => h
theorem Rt.fhexz (v : W) (n : Int) : Rt (fhexz v n) := fun _ h => h
theorem Rt.ite {c : Prop} [Decidable c] {ps qs : List P} (h : Rt ps) (hs : Rt qs) : Rt (if c then ps else qs) := by
  split
  · exact h
  · exact hs
theorem Rt.iteH {c : Prop} [Decidable c] {ps qs : List P} (h : c → Rt ps) (hs : ¬ c → Rt qs) :
    Rt (if c then ps else qs) := by
  split
  · rename_i hc; exact h hc
  · rename_i hc; exact hs hc
theorem Rt.pick {c : Prop} [Decidable c] {p q : P} {ps : List P} (h : Rt (p :: ps)) (hs : Rt (q :: ps)) :
    Rt ((if c then p else q) :: ps) := by
  split
  · exact h
  · exact hs
theorem Rt.rdUpdateP (r : Rec) (i : BitVec 5) : Rt (rdUpdateP r i) := .ite .nil (.align (.frf r i))
theorem Rt.rdUpdate (r : Rec) : Rt (rdUpdate r) := .rdUpdateP r _
theorem Rt.opRd (r : Rec) : Rt (opRd r) := .putOp (.lit (.nm .nil))
theorem Rt.opCregh (r : Rec) : Rt (opCregh r) := .putOp (.lit (.nm .nil))
theorem Rt.trapIf (r : Rec) : Rt (trapIf r) := .ite (.trap .nil) .nil
theorem Rt.memUpdateP (r : Rec) (a : W) (i : BitVec 5) : Rt (memUpdateP r a i) :=
  ((((Rt.align (.lit .nil)).append (.memAddr a)).append (.lit (.nm (.lit .nil)))).append (.fhexz _ _)).append (.lit (.str .nil))
theorem Rt.rdUpdatePair (r : Rec) : Rt (rdUpdatePair r) := .ite .nil (.lit (.rdUpdateP _ _))
/-- a register note leaves the stream adjusting right, whatever came before -/
theorem Rt.noted {as : List P} {r : Rec} {i : BitVec 5} (h : i ≠ 0#5) : Rt (as ++ Dasm.rdUpdateP r i) := fun d _ => by
  rw [run_append, Dasm.rdUpdateP, if_neg h]
  rfl
theorem Rt.noted' {as : List P} {r : Rec} (h : IP.rd r.w ≠ 0#5) : Rt (as ++ Dasm.rdUpdate r) := .noted h

macro "rt" : tactic => `(tactic| repeat' (first
  | with_reducible exact Rt.nil
  | with_reducible exact Rt.noted' (by assumption)
  | with_reducible exact Rt.rdUpdate _
  | with_reducible exact Rt.rdUpdateP _ _
  | with_reducible exact Rt.rdUpdatePair _
  | with_reducible exact Rt.opRd _
  | with_reducible exact Rt.opCregh _
  | with_reducible exact Rt.trapIf _
  | with_reducible exact Rt.memUpdateP _ _ _
  | with_reducible exact Rt.csrf _ _
  | with_reducible exact Rt.memAddr _
  | with_reducible apply Rt.consL
  | with_reducible apply Rt.append
  | with_reducible apply Rt.str
  | with_reducible apply Rt.lit
  | with_reducible apply Rt.nm
  | with_reducible apply Rt.i32
  | with_reducible apply Rt.u32
  | with_reducible apply Rt.hex
  | with_reducible apply Rt.dec
  | with_reducible apply Rt.putOp
  | with_reducible apply Rt.setOp
  | with_reducible apply Rt.setInstW
  | with_reducible apply Rt.clear
  | with_reducible apply Rt.trap
  | with_reducible apply Rt.align
  | (with_reducible apply Rt.iteH <;> intro _)
  | with_reducible apply Rt.pick
  | split))

/-- destination x0 and an immediate printed in hexadecimal: `lui`, `auipc`, the immediate shifts, the custom group,
`c.slli` -/
def SlipI (w : W) : Prop := IP.rd w = 0#5 ∧
  (IP.copcode w = 3#2 ∧ (IP.opcode w = 0x37#7 ∨ IP.opcode w = 0x17#7 ∨
    (IP.opcode w = 0x13#7 ∧ (IP.funct3 w = 1#3 ∨ IP.funct3 w = 5#3)) ∨ IP.opcode w = 0x0b#7) ∨
   IP.copcode w = 2#2 ∧ IP.cFunct3 w = 0#3)

theorem rt_exec32 (c sd : Bool) (r : Rec) (hc : IP.copcode r.w = 3#2) (hs : ¬ SlipI r.w) : Rt (tExec32 c sd r) := by
  unfold tExec32
  split
  · unfold tAluReg; rt
  · rename_i ho
    unfold tAluImm
    split
    · rt
    · by_cases h0 : IP.rd r.w = 0#5
      · have : ¬ (IP.funct3 r.w = 1#3 ∨ IP.funct3 r.w = 5#3) := fun hf => hs ⟨h0, .inl ⟨hc, .inr (.inr (.inl ⟨ho, hf⟩))⟩⟩
        rw [if_neg this]; rt
      · rt
  · unfold tLoad; rt
  · unfold tStore memUpdate; rt
  · unfold tBranch; rt
  · unfold tJalr; rt
  · unfold tJal; rt
  · rename_i ho
    have h0 : IP.rd r.w ≠ 0#5 := fun h0 => hs ⟨h0, .inl ⟨hc, .inl ho⟩⟩
    unfold tUpper; rt
  · rename_i ho
    have h0 : IP.rd r.w ≠ 0#5 := fun h0 => hs ⟨h0, .inl ⟨hc, .inr (.inl ho)⟩⟩
    unfold tUpper; rt
  · unfold tSystem tCsr; rt
  · unfold tMiscMem; rt
  · rename_i ho
    have h0 : IP.rd r.w ≠ 0#5 := fun h0 => hs ⟨h0, .inl ⟨hc, .inr (.inr (.inr ho))⟩⟩
    unfold tCustom tCustomText; rt
  · rt
theorem rt_exec16 (r : Rec) (hs : ¬ SlipI r.w) : Rt (tExec16 r) := by
  unfold tExec16
  split
  · unfold tCompressed0 tcAddi4spn tcLw tcSw; rt
  · unfold tCompressed1 tCompressed1Alu tcArith tcJal tcBare tcAddi16sp tcLui tcImmH tcAlu tcJ tcBranch; rt
  · rename_i ho
    unfold tCompressed2
    split
    · rename_i hf
      have h0 : IP.rd r.w ≠ 0#5 := fun h0 => hs ⟨h0, .inr ⟨ho, hf⟩⟩
      unfold tcSlli; rt
    · unfold tcLwsp; rt
    · unfold tcSwsp; rt
    · unfold tcJr tcReg tcBare tcJalr; rt
    · rt
  · rt
theorem rt_exec (c : Cfg) (r : Rec) (hs : ¬ SlipI r.w) : Rt (tExec c r) := by
  unfold tExec
  split
  · exact .ite (.setInstW (rt_exec16 r hs)) (.trap .nil)
  · rename_i h
    exact .setInstW (rt_exec32 _ _ r (by simpa using h) hs)

theorem rt_step {L : LogIn} {d d' : DS} {o : Option (List Char)} {s s' : St σ}
    (h : stepD E L d s = .ok ((o, d'), s')) (hs : ¬ SlipI s'.inst) (hd : d.left = false) : d'.left = false := by
  have hc : (clear d).left = false := hd
  rcases stepD_split h with ⟨_, _, rfl⟩ | ⟨q0, q1, d1, e1, e2, e3, e4⟩
  · exact hc
  · have hi : q1.inst = s'.inst := by rw [e3]; exact ((finishSt_frame (E := E) q1).2.1).symm
    have h1 : d1.left = false := by
      obtain ⟨_, _, _, _, hx⟩ := stepExecD_split e2
      rcases hx with ⟨_, _, _, _, _, rfl⟩ | ⟨_, _, rfl⟩ | ⟨_, _, _, _, rfl⟩
      · exact rt_exec _ _ (by rw [← hi] at hs; exact hs) _ hc
      · exact hc
      · exact hc
    rcases e4 with ⟨_, _, rfl⟩ | ⟨_, _, _, rfl⟩
    · exact h1
    · exact (Rt.align (.str .nil)) _ h1

/-! ## The notes -/

theorem store_in {as : List P} {r : Rec} {a : W} {i : BitVec 5} (L : List Char) {d : DS} (ha : Cl as) (hr : Rt as)
    (hd : Clean d) (hl : d.left = false) : storeNote r.abi a i (r.rf1 i) <:+: record (as ++ memUpdateP r a i) L d := by
  have := note_in (as := as) (ns := memUpdateP r a i) (bs := []) (x := storeNote r.abi a i (r.rf1 i)) L .nil (d := d) (by
    obtain ⟨x, y, h⟩ := memUpd_text r a i (ha _ hd) (hr _ hl)
    exact ⟨_, _, h⟩)
  rwa [List.append_nil] at this
theorem load_in {as : List P} {r : Rec} {a : W} {i : BitVec 5} (L : List Char) {d : DS} (hi : i ≠ 0#5) (ha : Cl as)
    (hd : Clean d) : loadNote a <:+: record (as ++ rdUpdateP r i ++ (lit " <- mem[" :: memAddr a ++ [lit "]"])) L d := by
  have := note_in (as := as ++ rdUpdateP r i) (ns := lit " <- mem[" :: memAddr a ++ [lit "]"]) (bs := [])
    (x := loadNote a) L .nil (d := d) (by
    have hc := (ha.append (.rdUpdateP r i)) d hd
    have hl : (run (as ++ rdUpdateP r i) d).left = false := by
      rw [run_append, rdUpdateP, if_neg hi]; rfl
    exact ⟨_, [], by rw [from_text a hc hl, List.append_nil]⟩)
  rwa [List.append_nil] at this
theorem csr_in {as : List P} {r : Rec} {a : BitVec 16} (L : List Char) {d : DS} (ha : Cl as)
    (hd : Clean d) (hl : (run as d).left = false) :
    csrNote a (csrNm a) (r.csr1 a) <:+: record (as ++ align :: csrf r a) L d := by
  have := note_in (as := as) (ns := align :: csrf r a) (bs := [])
    (x := csrNote a (csrNm a) (r.csr1 a)) L .nil (d := d) (by
    have hc : Clean (align (run as d)) := Cl.align .nil _ (ha _ hd)
    exact ⟨_, [], by rw [run_cons, csrf_text r a hc hl, List.append_nil]⟩)
  rwa [List.append_nil] at this

theorem exec_word16 {q q' : St σ} (h : exec E q = .ok ((), q')) (hc : IP.copcode q'.inst ≠ 3#2) (ht : q'.trapped = false) :
    exec16 E q'.inst { q with inst := q'.inst } = .ok ((), q') := by
  rcases exec_split h with ⟨h1, h2⟩ | ⟨h1, h2, h3⟩ | ⟨h1, h2, h3⟩
  · have : q'.inst = q.inst := (inst_primsX q.inst).exec32_of q.inst (fun _ => inst_dSystem _ _) _ _ _ rfl h2
    rw [this] at hc
    exact absurd h1 hc
  · have : q'.inst = IP.toRvc q.inst := (inst_primsX (IP.toRvc q.inst)).exec16_of _ (fun _ =>
      Pres.bind (Pres.mod fun _ h => h) fun _ => (inst_primsX _).emit _) _ _ _ rfl h3
    rw [this]
    exact h3
  · rw [trap_trapped rfl h3] at ht; cases ht

/-! ## Records of traps -/

theorem stepD_trap {L : LogIn} {d d' : DS} {t : List Char} {s s' : St σ} (h : stepD E L d s = .ok ((some t, d'), s'))
    (ht : s'.trapped = true) : t = record [trap L.msg] L.simd (clear d) ∨
      ∃ r : Rec, r.w = s'.inst ∧ r.trapped = true ∧ r.msg = L.msg ∧ t = record (tExec E.cfg r) L.simd (clear d) := by
  rcases stepD_split h with ⟨_, hx, _⟩ | ⟨q0, q1, d1, e1, e2, e3, e4⟩
  · cases hx
  · obtain ⟨g1, g2, -⟩ := finishSt_frame (E := E) q1
    rw [← e3] at g1 g2
    rcases e4 with ⟨_, hx, _⟩ | ⟨_, hn, ho, hd⟩
    · cases hx
    · injection ho with ho
      subst ho hd
      obtain ⟨defer, nt, qa, c1, hx⟩ := stepExecD_split e2
      rcases hx with ⟨-, -, qc, c2, c3, rfl⟩ | ⟨-, -, rfl⟩ | ⟨-, hf, -⟩
      · exact .inr ⟨_, g2.symm, by rw [← g1]; exact ht, rfl, rfl⟩
      · exact .inl rfl
      · rw [g1, hf] at ht; cases ht

theorem record_trap (m L : List Char) (d : DS) : ∃ n, record [trap m] L d = m ++ List.replicate n ' ' ++ L := by
  refine ⟨2 + ((38 - (d.instW : Int) - (m.length : Int)).toNat - 2), ?_⟩
  have e : ∀ n, List.replicate (2 + n) ' ' = "  ".toList ++ List.replicate n ' ' := fun n => by
    rw [← List.replicate_append_replicate]; rfl
  have e' : ∀ n, List.replicate (2 + n) ' ' = List.replicate n ' ' ++ "  ".toList := fun n => by
    rw [Nat.add_comm, ← List.replicate_append_replicate]; rfl
  obtain ⟨tx, l, x, f, w, o, iw⟩ := d
  cases l
  · rw [e']
    show (m ++ (List.replicate ((38 - (iw : Int) - (m.length : Int)).toNat - 2) ' ' ++ "  ".toList)) ++
      (List.replicate (0 - L.length) ' ' ++ L) = _
    rw [Nat.zero_sub]; rfl
  · rw [e]
    show (m ++ ("  ".toList ++ List.replicate ((38 - (iw : Int) - (m.length : Int)).toNat - 2) ' ')) ++
      (L ++ List.replicate (0 - L.length) ' ') = _
    rw [Nat.zero_sub, List.replicate_zero, List.append_nil]

end Ama.Dasm
