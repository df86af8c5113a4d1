import Verif.Lemmas.PrimsOf
/-!
# Facts about the CSR table and about the CSR side of traps
-/
namespace Ama
open M
variable {σ : Type}

theorem csrInfo_addr {c : Bool} {a : BitVec 16} {e : CsrEntry} (h : csrInfo c a = some e) :
    e.addr = a := by
  have := List.find?_some h
  simpa using this

theorem csrInfo_mem {c : Bool} {a : BitVec 16} {e : CsrEntry} (h : csrInfo c a = some e) :
    e ∈ csrEntries c := List.mem_of_find?_eq_some h

/-- no two entries of the table share an address -/
theorem csr_nodup (c : Bool) : ((csrEntries c).map CsrEntry.addr).Nodup := by
  cases c <;> decide +kernel

/-- the source of a shadow entry is never a shadow itself -/
theorem csr_src (c : Bool) : ∀ e ∈ csrEntries c, ∀ e' ∈ csrEntries c,
    (e.perm = .roUShadow ∧ e.sAddr ≠ 0#16) → e'.perm = .roUShadow → e.sAddr ≠ e'.addr := by
  cases c <;> decide +kernel

theorem find_of_nodup {l : List CsrEntry} (hn : (l.map CsrEntry.addr).Nodup) {e : CsrEntry}
    (he : e ∈ l) : l.find? (fun x => x.addr == e.addr) = some e := by
  induction l with
  | nil => simp at he
  | cons x l ih =>
    simp only [List.map_cons, List.nodup_cons] at hn
    rcases List.mem_cons.1 he with rfl | hm
    · simp
    · have hne : x.addr ≠ e.addr := by
        intro h; apply hn.1; rw [h]; exact List.mem_map_of_mem hm
      rw [List.find?_cons_of_neg (by simpa using hne)]
      exact ih hn.2 hm

theorem csrInfo_of_mem {c : Bool} {e : CsrEntry} (he : e ∈ csrEntries c) :
    csrInfo c e.addr = some e := find_of_nodup (csr_nodup c) he

private theorem fold_shadow (l : List CsrEntry) (hn : (l.map CsrEntry.addr).Nodup)
    (hs : ∀ e ∈ l, ∀ e' ∈ l, (e.perm = .roUShadow ∧ e.sAddr ≠ 0#16) → e'.perm = .roUShadow →
      e.sAddr ≠ e'.addr) (f : BitVec 16 → W) (a : BitVec 16) :
    l.foldl shadowStep f a = match l.find? (fun e => e.addr == a) with
      | some e => if e.perm = .roUShadow ∧ e.sAddr ≠ 0#16 then f e.sAddr else f a
      | none => f a := by
  induction l generalizing f with
  | nil => rfl
  | cons x l ih =>
    simp only [List.map_cons, List.nodup_cons] at hn
    have hs' := fun e he e' he' => hs e (List.mem_cons_of_mem _ he) e' (List.mem_cons_of_mem _ he')
    rw [List.foldl_cons, ih hn.2 hs']
    by_cases hx : x.addr = a
    · rw [List.find?_cons_of_pos (by simpa using hx)]
      have hnone : l.find? (fun e => e.addr == a) = none := by
        rw [List.find?_eq_none]
        intro e he h
        apply hn.1
        rw [hx, ← (by simpa using h : e.addr = a)]
        exact List.mem_map_of_mem he
      rw [hnone]
      simp only [shadowStep]
      split
      · simp [upd, hx]
      · rfl
    · rw [List.find?_cons_of_neg (by simpa using hx)]
      cases hf : l.find? (fun e => e.addr == a) with
      | none =>
        simp only [shadowStep]
        split
        · simp [upd, Ne.symm hx]
        · rfl
      | some e =>
        have he := List.mem_of_find?_eq_some hf
        have hea : e.addr = a := by simpa using List.find?_some hf
        simp only
        split
        · rename_i hsh
          simp only [shadowStep]
          split
          · rename_i hxs
            have := hs e (List.mem_cons_of_mem _ he) x List.mem_cons_self hsh hxs.1
            simp [upd, this]
          · rfl
        · simp only [shadowStep]
          split
          · simp [upd, Ne.symm hx]
          · rfl

/-- what the shadow loop computes -/
theorem shadowAll_eq (c : Bool) (f : BitVec 16 → W) (a : BitVec 16) :
    shadowAll c f a = match csrInfo c a with
      | some e => if e.perm = .roUShadow ∧ e.sAddr ≠ 0#16 then f e.sAddr else f a
      | none => f a :=
  fold_shadow _ (csr_nodup c) (csr_src c) f a

/-- the shadow loop changes shadow entries only -/
theorem shadowAll_other (c : Bool) (f : BitVec 16 → W) (a : BitVec 16)
    (h : ∀ e, csrInfo c a = some e → e.perm ≠ .roUShadow) : shadowAll c f a = f a := by
  rw [shadowAll_eq]
  split
  · rename_i e he
    rw [if_neg (fun hh => h e he hh.1)]
  · rfl

/-- the CSR file after trap entry -/
def trapCsr (csr : BitVec 16 → W) (pc cause tval : W) : BitVec 16 → W := fun a =>
  if a = A.mstatus then
    (((csr A.mstatus &&& ~~~0x80#32) ||| ((csr A.mstatus &&& 0x8#32) <<< 4)) &&& ~~~0x8#32)
  else if a = A.mepc then pc
  else if a = A.mtval then tval
  else if a = A.mcause then cause
  else csr a

/-- the state after trap entry -/
def trapTo (cause tval : W) (s : St σ) : St σ :=
  { s with trapped := true, trapLog := (cause, tval, s.pc) :: s.trapLog
           csr := trapCsr s.csr s.pc cause tval, pc := s.csr A.mtvec }

theorem trapInst_app (cause tval : W) (s : St σ) :
    trapInst cause tval s = .ok ((), trapTo cause tval s) := by
  have h : (upd (upd (upd (upd (upd s.csr A.mcause cause) A.mtval tval) A.mepc s.pc) A.mstatus
      ((s.csr A.mstatus &&& ~~~0x80#32) ||| ((s.csr A.mstatus &&& 0x8#32) <<< 4))) A.mstatus
      (((s.csr A.mstatus &&& ~~~0x80#32) ||| ((s.csr A.mstatus &&& 0x8#32) <<< 4)) &&& ~~~0x8#32)) =
      trapCsr s.csr s.pc cause tval := by
    funext a
    simp only [upd, trapCsr]
    by_cases h1 : a = A.mstatus
    · simp [h1]
    · simp [h1]
  have h2 : s.csr A.mtvec = trapCsr s.csr s.pc cause tval A.mtvec := by
    simp [trapCsr, A.mtvec, A.mstatus, A.mepc, A.mtval, A.mcause]
  have hm : (upd (upd (upd s.csr A.mcause cause) A.mtval tval) A.mepc s.pc) A.mstatus
      = s.csr A.mstatus := by
    simp [upd, A.mstatus, A.mepc, A.mtval, A.mcause]
  simp only [trapInst, trapStateUpdate, M.bind_ok (M.mod_app _ _), M.mod_app, trapTo]
  simp only [hm, upd_same, h, h2]

end Ama
