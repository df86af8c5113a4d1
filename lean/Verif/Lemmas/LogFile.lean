import Verif.Model.LogFile
import Verif.Spec.LogText
import Verif.Lemmas.DasmNote
import Verif.Lemmas.Report
import Verif.Lemmas.HwFetch
/-!
# Lemmas on the file of the log
-/
namespace Ama.Dasm
open M Spec Spec.LogText Spec.Asm Report
variable {σ : Type} {E : Env σ}

/-! ## One line -/

theorem logLine_eq (b : Bool) (n : Nat) (pc w : W) (k : Nat) (t : List Char) :
    logLine b n pc w k t = "    ".toList ++ (padl ' ' 6 (if b then Nat.toDigits 10 n else []) ++
      ':' :: ' ' :: (hex8 pc ++ ':' :: ' ' :: (padl '0' k (Nat.toDigits 16 w.toNat) ++ ' ' :: (t ++ ['\n'])))) := by
  unfold logLine
  cases b <;> simp [run, str, lit, setw, setfill, hex, dec, u32, memAddr, padl, hex8]

theorem upto_part {c : Char} {a : List Char} (h : c ∉ a) (b : List Char) : upto c (a ++ c :: b) = some (a, b) := by
  induction a with
  | nil => simp [upto]
  | cons x a ih =>
    rw [List.cons_append, upto, if_neg (by rintro rfl; exact h (by simp)), ih fun hm => h (by simp [hm])]
    rfl

theorem digit_ne {d : Nat} (h : d < 16) : Nat.digitChar d ≠ ':' ∧ Nat.digitChar d ≠ ' ' ∧ Nat.digitChar d ≠ '\n' := by
  interval_cases d <;> decide

theorem num_mem {n : Nat} {c : Char} (b : Bool) (h : c ∈ padl ' ' 6 (if b then Nat.toDigits 10 n else [])) :
    c = ' ' ∨ ∃ d, d < 16 ∧ c = Nat.digitChar d := by
  unfold padl at h
  rcases List.mem_append.1 h with h | h
  · exact .inl (List.mem_replicate.1 h).2
  · cases b with
    | false => simp at h
    | true =>
      obtain ⟨d, h1, h2⟩ := mem_toDigits (by decide) n h
      exact .inr ⟨d, by omega, h2⟩

theorem drop_pad (k : Nat) (t : List Char) : (List.replicate k ' ' ++ t).dropWhile (· == ' ') = t.dropWhile (· == ' ') := by
  induction k with
  | zero => rfl
  | succ k ih => rw [List.replicate_succ, List.cons_append, List.dropWhile_cons, if_pos (by rfl)]; exact ih

theorem number_pad (b : Bool) (n : Nat) : number (padl ' ' 6 (if b then Nat.toDigits 10 n else [])) = some (if b then some n else none) := by
  unfold number padl
  rw [drop_pad]
  cases b with
  | false => rfl
  | true =>
    simp only [if_true]
    cases hd : Nat.toDigits 10 n with
    | nil => exact absurd hd Nat.toDigits_ne_nil
    | cons c u =>
      obtain ⟨d, h1, h2⟩ := mem_toDigits (b := 10) (by decide) n (c := c) (by rw [hd]; simp)
      have : c ≠ ' ' := by rw [h2]; exact (digit_ne (by omega)).2.1
      rw [List.dropWhile_cons, if_neg (by simpa using this)]
      show (nat? 10 (c :: u)).map some = _
      rw [← hd, nat_toDigits (by decide) (by decide)]
      rfl

theorem hex_no {c : Char} (hc : c = ':' ∨ c = ' ' ∨ c = '\n') (k v : Nat) : c ∉ padl '0' k (Nat.toDigits 16 v) := by
  intro h
  obtain ⟨d, h1, h2⟩ := padl_mem h
  have := digit_ne h1
  rcases hc with rfl | rfl | rfl
  · exact this.1 h2.symm
  · exact this.2.1 h2.symm
  · exact this.2.2 h2.symm

theorem num_no {c : Char} (hc : c = ':' ∨ c = '\n') (b : Bool) (n : Nat) :
    c ∉ padl ' ' 6 (if b then Nat.toDigits 10 n else []) := by
  intro h
  rcases num_mem b h with h | ⟨d, h1, h2⟩
  · rcases hc with rfl | rfl <;> cases h
  · have := digit_ne h1
    rcases hc with rfl | rfl
    · exact this.1 h2.symm
    · exact this.2.2 h2.symm

/-- the line without its end -/
def lineBody (b : Bool) (n : Nat) (pc w : W) (k : Nat) (t : List Char) : List Char :=
  "    ".toList ++ (padl ' ' 6 (if b then Nat.toDigits 10 n else []) ++
      ':' :: ' ' :: (hex8 pc ++ ':' :: ' ' :: (padl '0' k (Nat.toDigits 16 w.toNat) ++ ' ' :: t)))
theorem logLine_body (b : Bool) (n : Nat) (pc w : W) (k : Nat) (t : List Char) :
    logLine b n pc w k t = lineBody b n pc w k t ++ ['\n'] := by
  rw [logLine_eq]; simp [lineBody]
theorem lineBody_no (b : Bool) (n : Nat) (pc w : W) (k : Nat) {t : List Char} (h : '\n' ∉ t) :
    '\n' ∉ lineBody b n pc w k t := by
  have h1 := num_no (c := '\n') (.inr rfl) b n
  have h2 := hex_no (c := '\n') (.inr (.inr rfl)) 8 pc.toNat
  have h3 := hex_no (c := '\n') (.inr (.inr rfl)) k w.toNat
  unfold lineBody hex8
  simp only [List.mem_append, List.mem_cons, not_or]
  exact ⟨by decide, h1, by decide, by decide, h2, by decide, by decide, h3, by decide, h⟩

theorem padl_len (k v : Nat) (h : v < 16 ^ (k + 1)) : (padl '0' (k + 1) (Nat.toDigits 16 v)).length = k + 1 := by
  unfold padl
  rw [pad_hex k v h]
  have : ∀ n v, (Log.hexn n v).length = n := by
    intro n
    induction n with
    | zero => intro _; rfl
    | succ n ih => intro v; rw [Log.hexn, List.length_append, ih]; rfl
  exact this _ _

theorem readBody (b : Bool) (n : Nat) (pc w : W) (k : Nat) (t : List Char) :
    readLine (lineBody b n pc w k t) = some ⟨if b then some n else none, pc.toNat, w.toNat,
      (padl '0' k (Nat.toDigits 16 w.toNat)).length, t⟩ := by
  unfold lineBody
  show readLine (' ' :: ' ' :: ' ' :: ' ' :: (padl ' ' 6 (if b then Nat.toDigits 10 n else []) ++
      ':' :: ' ' :: (hex8 pc ++ ':' :: ' ' :: (padl '0' k (Nat.toDigits 16 w.toNat) ++ ' ' :: t)))) = _
  unfold readLine
  simp only [upto_part (num_no (.inl rfl) b n), number_pad, bind, Option.bind, hex8, nat_padl,
    upto_part (hex_no (.inl rfl) 8 pc.toNat), upto_part (hex_no (.inr (.inl rfl)) k w.toNat), pure]

/-! ## No text of an instruction has a line break -/

/-- nothing to print has a line break -/
def Flat (n : Nat) (d : DS) : Prop := '\n' ∉ d.text ∧ '\n' ∉ d.op ∧ d.fill ≠ '\n' ∧ d.instW = n
/-- outputs that add no line break -/
def Nl (ps : List P) : Prop := ∀ n d, Flat n d → Flat n (run ps d)
theorem Nl.nil : Nl [] := fun _ _ h => h
theorem Nl.append {ps qs : List P} (h : Nl ps) (hs : Nl qs) : Nl (ps ++ qs) := fun _ _ hd => by
  rw [run_append]; exact hs _ _ (h _ _ hd)
theorem Nl.consL {p : P} {ps qs : List P} (h : Nl (p :: (ps ++ qs))) : Nl (p :: ps ++ qs) := h
theorem Nl.cons {p : P} {ps : List P} (h : ∀ n d, Flat n d → Flat n (p d)) (hs : Nl ps) : Nl (p :: ps) :=
  fun n d hd => hs _ _ (h n d hd)

theorem flat_str {t : List Char} (h : '\n' ∉ t) {n : Nat} {d : DS} (hd : Flat n d) : Flat n (str t d) := by
  refine ⟨?_, hd.2⟩
  have hp : '\n' ∉ List.replicate (d.width - t.length) d.fill := fun hm => hd.2.2.1 (List.mem_replicate.1 hm).2.symm
  show '\n' ∉ d.text ++ (if d.left = true then t ++ List.replicate (d.width - t.length) d.fill else List.replicate (d.width - t.length) d.fill ++ t)
  split <;> simp only [List.mem_append, not_or]
  · exact ⟨hd.1, h, hp⟩
  · exact ⟨hd.1, hp, h⟩
theorem dec_no (b : Nat) (hb : 1 < b) (h16 : b ≤ 16) (v : Nat) : '\n' ∉ Nat.toDigits b v := fun h => by
  obtain ⟨d, h1, h2⟩ := mem_toDigits hb v h
  exact (digit_ne (by omega)).2.2 h2.symm
theorem flat_u32 (v : W) {n : Nat} {d : DS} (hd : Flat n d) : Flat n (u32 v d) := by
  unfold u32
  refine flat_str ?_ hd
  split
  · exact dec_no 16 (by decide) (by decide) _
  · exact dec_no 10 (by decide) (by decide) _
theorem flat_i32 (v : W) {n : Nat} {d : DS} (hd : Flat n d) : Flat n (i32 v d) := by
  unfold i32
  refine flat_str ?_ hd
  split
  · exact dec_no 16 (by decide) (by decide) _
  · split
    · have := dec_no 10 (by decide) (by decide) (2 ^ 32 - v.toNat)
      simpa using this
    · exact dec_no 10 (by decide) (by decide) _

theorem rfName_no : ∀ abi i, '\n' ∉ rfName abi i := by decide +kernel
theorem csrNames_no : ∀ p ∈ csrNames, '\n' ∉ p.2 := by decide +kernel
theorem csrNm_no (a : BitVec 16) : '\n' ∉ csrNm a := by
  unfold csrNm
  cases h : csrNames.find? fun p => p.1 == a with
  | none => simp
  | some p => exact csrNames_no p (List.mem_of_find?_eq_some h)
theorem asciiHint_no (v a : W) : '\n' ∉ asciiHint v a := by
  unfold asciiHint
  split
  · simp
  · split
    · rename_i h
      have h1 : 0x20 ≤ v.toNat := h.1
      have h2 : v.toNat ≤ 0x7e := h.2
      have : ∀ k, k ≤ 0x7e → 0x20 ≤ k → Char.ofNat k ≠ '\n' := by decide +kernel
      have := this _ h2 h1
      simp only [List.mem_append, List.mem_singleton, not_or]
      exact ⟨⟨by decide, fun h => this h.symm⟩, by decide⟩
    · split
      · decide
      · split
        · decide
        · split
          · decide
          · simp

theorem Nl.str {t : List Char} {ps : List P} (ht : '\n' ∉ t) (h : Nl ps) : Nl (str t :: ps) := .cons (fun _ _ hd => flat_str ht hd) h
theorem Nl.lit {t : String} {ps : List P} (ht : '\n' ∉ t.toList) (h : Nl ps) : Nl (lit t :: ps) :=
  .cons (fun _ _ hd => flat_str ht hd) h
theorem Nl.nm {r : Rec} {i : BitVec 5} {ps : List P} (h : Nl ps) : Nl (nm r i :: ps) := .cons (fun _ _ hd => flat_str (rfName_no _ _) hd) h
theorem Nl.i32 {v : W} {ps : List P} (h : Nl ps) : Nl (i32 v :: ps) := .cons (fun _ _ hd => flat_i32 v hd) h
theorem Nl.u32 {v : W} {ps : List P} (h : Nl ps) : Nl (u32 v :: ps) := .cons (fun _ _ hd => flat_u32 v hd) h
theorem Nl.u16 {v : BitVec 16} {ps : List P} (h : Nl ps) : Nl (u16 v :: ps) := .cons (fun _ _ hd => flat_u32 _ hd) h
theorem Nl.putOp {ps : List P} (h : Nl ps) : Nl (putOp :: ps) := .cons (fun _ _ hd => flat_str hd.2.1 hd) h
theorem Nl.setOp {t : List Char} {ps : List P} (ht : '\n' ∉ t) (h : Nl ps) : Nl (setOp t :: ps) := .cons (fun _ _ hd => ⟨hd.1, ht, hd.2.2⟩) h
theorem Nl.clear {ps : List P} (h : Nl ps) : Nl (clear :: ps) := .cons (fun _ _ hd => ⟨by simp [Ama.Dasm.clear], hd.2⟩) h
theorem Nl.trap {m : List Char} {ps : List P} (hm : '\n' ∉ m) (h : Nl ps) : Nl (trap m :: ps) := .cons (fun _ _ hd => ⟨hm, hd.2⟩) h
theorem Nl.hex {ps : List P} (h : Nl ps) : Nl (hex :: ps) := .cons (fun _ _ hd => hd) h
theorem Nl.dec {ps : List P} (h : Nl ps) : Nl (dec :: ps) := .cons (fun _ _ hd => hd) h
theorem Nl.left {ps : List P} (h : Nl ps) : Nl (left :: ps) := .cons (fun _ _ hd => hd) h
theorem Nl.right {ps : List P} (h : Nl ps) : Nl (right :: ps) := .cons (fun _ _ hd => hd) h
theorem Nl.setw {n : Int} {ps : List P} (h : Nl ps) : Nl (setw n :: ps) := .cons (fun _ _ hd => hd) h
theorem Nl.setfill {c : Char} {ps : List P} (hc : c ≠ '\n') (h : Nl ps) : Nl (setfill c :: ps) :=
  .cons (fun _ _ hd => ⟨hd.1, hd.2.1, hc, hd.2.2.2⟩) h
theorem Nl.align {ps : List P} (h : Nl ps) : Nl (align :: ps) :=
  .cons (fun n d hd => (Nl.setw (.setfill (by decide) (.lit (by decide) .nil))) n d hd) h
theorem Nl.frf (r : Rec) (i : BitVec 5) : Nl (frf r i) :=
  .left (.setw (.setfill (by decide) (.nm (.lit (by decide) (.right (.setw (.setfill (by decide) (.hex (.u32 (.dec .nil))))))))))
theorem Nl.csrf (r : Rec) (a : BitVec 16) : Nl (csrf r a) :=
  .hex (.lit (by decide) (.setw (.setfill (by decide) (.u16 (.lit (by decide) (.left (.setw (.setfill (by decide) (.str (csrNm_no a)
    (.lit (by decide) (.right (.setw (.setfill (by decide) (.u32 (.dec (.setfill (by decide) .nil))))))))))))))))
theorem Nl.memAddr (a : W) : Nl (memAddr a) := .setw (.setfill (by decide) (.hex (.u32 (.dec .nil))))
theorem Nl.fhexz (v : W) (n : Int) : Nl (fhexz v n) := .lit (by decide) (.setw (.setfill (by decide) (.hex (.u32 (.dec .nil)))))
theorem Nl.fhexn (v : W) (n : Int) : Nl (fhexn v n) := .lit (by decide) (.left (.setw (.setfill (by decide) (.hex (.u32 (.dec .nil))))))
theorem Nl.ite {c : Prop} [Decidable c] {ps qs : List P} (h : Nl ps) (hs : Nl qs) : Nl (if c then ps else qs) := by
  split
  · exact h
  · exact hs
theorem Nl.pick {c : Prop} [Decidable c] {p q : P} {ps : List P} (h : Nl (p :: ps)) (hs : Nl (q :: ps)) :
    Nl ((if c then p else q) :: ps) := by
  split
  · exact h
  · exact hs
theorem Nl.rdUpdateP (r : Rec) (i : BitVec 5) : Nl (rdUpdateP r i) := .ite .nil (.align (.frf r i))
theorem Nl.rdUpdate (r : Rec) : Nl (rdUpdate r) := .rdUpdateP r _
theorem Nl.opRd (r : Rec) : Nl (opRd r) := .putOp (.lit (by decide) (.nm .nil))
theorem Nl.opCregh (r : Rec) : Nl (opCregh r) := .putOp (.lit (by decide) (.nm .nil))
theorem Nl.trapIf (r : Rec) (h : '\n' ∉ r.msg) : Nl (trapIf r) := .ite (.trap h .nil) .nil
theorem Nl.memUpdateP (r : Rec) (a : W) (i : BitVec 5) : Nl (memUpdateP r a i) :=
  ((((Nl.align (.lit (by decide) .nil)).append (.memAddr a)).append (.lit (by decide) (.nm (.lit (by decide) .nil)))).append
    (.fhexz _ _)).append (.lit (by decide) (.str (asciiHint_no _ _) .nil))
theorem Nl.rdUpdatePair (r : Rec) : Nl (rdUpdatePair r) := .ite .nil (.lit (by decide) (.rdUpdateP _ _))

theorem aluText_no : ∀ op, '\n' ∉ (aluText op).toList := by intro op; cases op <;> decide
theorem aluImmText_no : ∀ op, '\n' ∉ (aluImmText op).toList := by intro op; cases op <;> decide
theorem loadText_no : ∀ op, '\n' ∉ (loadText op).toList := by intro op; cases op <;> decide
theorem storeText_no : ∀ op, '\n' ∉ (storeText op).toList := by intro op; cases op <;> decide
theorem branchText_no : ∀ op, '\n' ∉ (branchText op).toList := by intro op; cases op <;> decide
theorem csrOpText_no : ∀ op, '\n' ∉ (Ama.Dasm.csrText op).toList := by intro op; cases op <;> decide
theorem simdText_no' : ∀ f7 f3, ((Simd.sel f7 f3).map fun op => decide ('\n' ∈ simdText op)) ≠ some true := by decide +kernel
theorem simdText_no {f7 : BitVec 7} {f3 : BitVec 3} {op : Simd.Op} (h : Simd.sel f7 f3 = some op) : '\n' ∉ simdText op := by
  have := simdText_no' f7 f3
  rw [h] at this
  simpa using this

macro "nl" : tactic => `(tactic| repeat' (first
  | with_reducible exact Nl.nil
  | with_reducible exact Nl.rdUpdate _
  | with_reducible exact Nl.rdUpdateP _ _
  | with_reducible exact Nl.rdUpdatePair _
  | with_reducible exact Nl.opRd _
  | with_reducible exact Nl.opCregh _
  | with_reducible exact Nl.memUpdateP _ _ _
  | with_reducible exact Nl.csrf _ _
  | with_reducible exact Nl.memAddr _
  | with_reducible exact Nl.fhexn _ _
  | with_reducible assumption
  | with_reducible apply Nl.trapIf
  | with_reducible apply Nl.consL
  | with_reducible apply Nl.append
  | with_reducible apply Nl.hex
  | with_reducible apply Nl.dec
  | with_reducible apply Nl.str
  | with_reducible apply Nl.lit
  | with_reducible apply Nl.nm
  | with_reducible apply Nl.i32
  | with_reducible apply Nl.u32
  | with_reducible apply Nl.putOp
  | with_reducible apply Nl.setOp
  | with_reducible apply Nl.clear
  | with_reducible apply Nl.trap
  | with_reducible apply Nl.align
  | with_reducible apply Nl.ite
  | with_reducible apply Nl.pick
  | with_reducible exact asciiHint_no _ _
  | with_reducible exact csrNm_no _
  | with_reducible exact aluText_no _
  | with_reducible exact aluImmText_no _
  | with_reducible exact loadText_no _
  | with_reducible exact storeText_no _
  | with_reducible exact branchText_no _
  | with_reducible exact csrOpText_no _
  | with_reducible exact simdText_no (by assumption)
  | decide
  | split))

theorem nl_exec32 (c sd : Bool) (r : Rec) (hm : '\n' ∉ r.msg) : Nl (tExec32 c sd r) := by
  unfold tExec32
  split
  · unfold tAluReg; nl
  · unfold tAluImm; nl
  · unfold tLoad; nl
  · unfold tStore memUpdate; nl
  · unfold tBranch; nl
  · unfold tJalr; nl
  · unfold tJal; nl
  · unfold tUpper; nl
  · unfold tUpper; nl
  · unfold tSystem tCsr; nl
  · unfold tMiscMem; nl
  · unfold tCustom tCustomText; nl
  · nl
theorem nl_exec16 (r : Rec) (hm : '\n' ∉ r.msg) : Nl (tExec16 r) := by
  unfold tExec16
  split
  · unfold tCompressed0 tcAddi4spn tcLw tcSw; nl
  · unfold tCompressed1 tCompressed1Alu tcArith tcJal tcBare tcAddi16sp tcLui tcImmH tcAlu tcJ tcBranch; nl
  · unfold tCompressed2 tcSlli tcLwsp tcSwsp tcJr tcReg tcBare tcJalr; nl
  · nl


/-! ## One step -/

theorem nl_exec (c : Cfg) (r : Rec) (hm : '\n' ∉ r.msg) {n : Nat} {d : DS} (hd : Flat n d) :
    Flat (if IP.copcode r.w ≠ 3#2 then if c.rv32c then 4 else n else 8) (run (tExec c r) d) := by
  unfold tExec
  by_cases h1 : IP.copcode r.w ≠ 3#2
  · rw [if_pos h1, if_pos h1]
    cases c.rv32c with
    | true => exact nl_exec16 r hm 4 _ ⟨hd.1, hd.2.1, hd.2.2.1, rfl⟩
    | false => exact (Nl.trap hm .nil) n d hd
  · rw [if_neg h1, if_neg h1]
    exact nl_exec32 _ _ r hm 8 _ ⟨hd.1, hd.2.1, hd.2.2.1, rfl⟩

theorem copcode_ext (w : W) : IP.copcode w = w.extractLsb' 0 2 := by
  unfold IP.copcode
  apply BitVec.eq_of_toNat_eq
  have h : w.toNat &&& 3 = w.toNat % 4 := Nat.and_two_pow_sub_one_eq_mod w.toNat 2
  rw [BitVec.toNat_setWidth, BitVec.toNat_and, BitVec.extractLsb'_toNat, Nat.shiftRight_zero]
  show (w.toNat &&& 3) % 2 ^ 2 = _
  rw [h]; omega

/-- the word in the instruction register after executing, and how long it is -/
theorem exec_size {q q' : St σ} (h : exec E q = .ok ((), q')) (ht : q'.trapped = false) :
    IP.copcode q'.inst = 3#2 ∨ (IP.copcode q'.inst ≠ 3#2 ∧ E.cfg.rv32c = true ∧ q'.inst.toNat < 16 ^ 4) := by
  rcases exec_split h with ⟨h1, h2⟩ | ⟨h1, h2, h3⟩ | ⟨h1, h2, h3⟩
  · have : q'.inst = q.inst := (inst_primsX q.inst).exec32_of q.inst (fun _ => inst_dSystem _ _) _ _ _ rfl h2
    rw [this]
    exact .inl h1
  · have : q'.inst = IP.toRvc q.inst := (inst_primsX (IP.toRvc q.inst)).exec16_of _ (fun _ =>
      Pres.bind (Pres.mod fun _ h => h) fun _ => (inst_primsX _).emit _) _ _ _ rfl h3
    rw [this, copcode_toRvc]
    refine .inr ⟨h1, h2, ?_⟩
    unfold IP.toRvc
    rw [BitVec.toNat_and]
    exact Nat.lt_of_le_of_lt Nat.and_le_right (by decide)
  · rw [trap_trapped rfl h3] at ht; cases ht

/-- what a step leaves for the log -/
theorem stepD_kind {L : LogIn} {d d' : DS} {o : Option (List Char)} {s s' : St σ} {n : Nat}
    (h : stepD E L d s = .ok ((o, d'), s')) (hm : '\n' ∉ L.msg) (hs : '\n' ∉ L.simd) (hd : Flat n d) :
    (∃ n', Flat n' d') ∧
    ((o = none ∧ leaves E.cfg s s' = none) ∨
     ∃ t, o = some t ∧ '\n' ∉ t ∧
      ((s'.trapped = true ∧ leaves E.cfg s s' = some .trap) ∨
       (s'.trapped = false ∧ s'.simInst = s.simInst + 1#64 ∧
        d'.instW = (if s'.inst.extractLsb' 0 2 = 3#2 then 8 else 4) ∧ s'.inst.toNat < 16 ^ d'.instW))) := by
  have h0 : PreStep s.profLog s.rf s.pc s.simInst { s with trapped := false } := ⟨rfl, rfl, fun _ => rfl, rfl⟩
  have hc : Flat n (clear d) := ⟨by simp [clear], hd.2⟩
  rcases stepD_split h with ⟨e1, rfl, rfl⟩ | ⟨q0, q1, d1, e1, e2, e3, e4⟩
  · refine ⟨⟨n, hc⟩, .inl ⟨rfl, ?_⟩⟩
    have h1 : s'.simInst = s.simInst := (pre_window _ _ _ h0 e1).2.2.2
    have h2 : s'.trapped = false := HwCalls.window_trap e1
    simp [leaves, h1, h2]
  · have h1 := pre_window _ _ _ h0 e1
    obtain ⟨defer, nt, qa, c1, hx⟩ := stepExecD_split e2
    have h2 : PreStep s.profLog s.rf s.pc s.simInst (wakeSt nt qa) :=
      have := pre_check _ _ _ _ h1 c1
      this
    have hi : q1.simInst = s.simInst := by
      rcases hx with ⟨_, _, qc, f1, f2, _⟩ | ⟨rfl, _⟩ | ⟨rfl, _⟩
      · have h3 := prof_fetch _ _ _ h2 f1
        exact (exec_keeps.exec _ _ _ ⟨h3.2.2.1, h3.2.2.2⟩ f2).2
      · exact h2.2.2.2
      · exact h2.2.2.2
    have hf : ∃ n', Flat n' d1 := by
      rcases hx with ⟨_, _, qc, f1, f2, rfl⟩ | ⟨_, _, rfl⟩ | ⟨_, _, _, _, rfl⟩
      · exact ⟨_, nl_exec _ _ hm hc⟩
      · exact ⟨n, hm, hc.2⟩
      · exact ⟨n, hc⟩
    obtain ⟨g1, g2, _⟩ := finishSt_frame (E := E) q1
    rw [← e3] at g1 g2
    rcases e4 with ⟨hq, rfl, rfl⟩ | ⟨hl, hq, rfl, rfl⟩
    · refine ⟨hf, .inl ⟨rfl, ?_⟩⟩
      rw [e3]
      unfold finishSt finishSt1 leaves
      rcases hq with hq | hq
      · rw [if_pos hq]
        simp only
        rw [if_neg (by simp [hi]), if_neg (by rintro ⟨_, h⟩; exact h hq)]
      · by_cases hl : q1.simStep + 1#64 = E.cfg.runSteps
        · rw [if_pos hl]
          simp only
          rw [if_neg (by simp [hi]), if_neg (by rintro ⟨_, h⟩; exact h hl)]
        · rw [if_neg hl, if_pos hq]
          simp only
          rw [if_neg (by simp [hi]), if_neg (by rintro ⟨h, _⟩; rw [hq.2] at h; cases h)]
    · obtain ⟨m, hf⟩ := hf
      have hF : Flat m (run [align, str L.simd] d1) := (Nl.align (.str hs .nil)) m d1 hf
      refine ⟨⟨m, hF⟩, .inr ⟨_, rfl, hF.1, ?_⟩⟩
      cases ht : q1.trapped with
      | true =>
        refine .inl ⟨g1.trans ht, ?_⟩
        rw [e3]
        unfold finishSt finishSt1 leaves
        rw [if_neg hl, if_neg hq, if_pos ht]
        simp only
        rw [if_neg (by simp [hi]), if_pos ⟨ht, hl⟩]
      | false =>
        have hw : ¬ q1.wfiActive = true := fun hw => hq ⟨hw, ht⟩
        refine .inr ⟨g1.trans ht, ?_, ?_⟩
        · rw [e3]
          unfold finishSt finishSt1
          rw [if_neg hl, if_neg hq, if_neg (by rw [ht]; nofun)]
          show q1.simInst + 1#64 = _
          rw [hi]
        · rcases hx with ⟨_, _, qc, f1, f2, rfl⟩ | ⟨_, hx, _⟩ | ⟨_, _, hx, _⟩
          · have hG := nl_exec E.cfg ⟨L.abi, q1.inst, qc.pc, qc.rf, q1.rf, q1.csr, q1.trapped, L.msg⟩ hm hc
            have hG := ((Nl.align (.str hs .nil)) _ _ hG).2.2.2
            rw [hG, g2, ← copcode_ext]
            rcases exec_size f2 ht with hz | ⟨hz, hz2, hz3⟩
            · rw [if_neg (by simp only; exact fun h => h hz), if_pos hz]
              exact ⟨rfl, q1.inst.isLt⟩
            · rw [if_pos (by simpa using hz), if_neg hz, if_pos hz2]
              exact ⟨rfl, hz3⟩
          · rw [ht] at hx; cases hx
          · exact absurd hx hw

end Ama.Dasm
