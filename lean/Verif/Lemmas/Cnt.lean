import Verif.Lemmas.CsrTable
import Verif.Lemmas.Dev
/-!
# The counter update performed at each CSR access
-/
namespace Ama
open M Spec
variable {σ : Type}

/-- CSR file after `csr_cnt_update` -/
def cntCsr (c : Bool) (csr : BitVec 16 → W) (di dc t : BitVec 64) : BitVec 16 → W :=
  csrWideAssign (shadowAll c (csrWideAdd (csrWideAdd csr A.minstret di) A.mcycle dc)) A.time t

/-- does the instruction word count as a CSR write for the counters -/
def cntSkip (w : W) (a lo hi : BitVec 16) : Bool :=
  (IP.rs1 w != 0#5 || IP.funct3 w == 1#3 || IP.funct3 w == 5#3) && (a == lo || a == hi)

def cntState (E : Env σ) (w : W) (a : BitVec 16) (t : BitVec 64) (s : St σ) : St σ :=
  { s with
    csrInst := s.simInst + (if cntSkip w a A.minstret A.minstreth then 1#64 else 0#64)
    csrStep := s.simStep + (if cntSkip w a A.mcycle A.mcycleh then 1#64 else 0#64)
    csr := cntCsr E.cfg.rv32c s.csr (s.simInst - s.csrInst) (s.simStep - s.csrStep) t }

theorem csrCntUpdate_app (E : Env σ) (w : W) (a : BitVec 16) (s : St σ) :
    csrCntUpdate E w a s = match s.clint.dev.rd64 0x10#32 with
      | .ok t => .ok ((), cntState E w a t s)
      | .ub k => .ub k
      | .abort => .abort := by
  simp only [csrCntUpdate, mtimeShadow, M.bind_app, M.mod_app, M.get_app]
  cases h : s.clint.dev.rd64 0x10#32 <;> simp [h, cntState, cntCsr, cntSkip]

theorem csrCntUpdate_ok {E : Env σ} {w : W} {a : BitVec 16} {s s' : St σ} {u : Unit}
    (h : csrCntUpdate E w a s = .ok (u, s')) : ∃ t, s' = cntState E w a t s := by
  rw [csrCntUpdate_app] at h
  split at h
  · simp at h; exact ⟨_, h.symm⟩
  · simp at h
  · simp at h

/-- addresses the counter update may change -/
def CntTouched (c : Bool) (a : BitVec 16) : Prop :=
  a ∈ [A.minstret, A.minstreth, A.mcycle, A.mcycleh, A.time, A.timeh] ∨
    ∃ e, csrInfo c a = some e ∧ e.perm = .roUShadow

theorem cntCsr_other {c : Bool} {a : BitVec 16} (h : ¬ CntTouched c a) (csr : BitVec 16 → W)
    (di dc t : BitVec 64) : cntCsr c csr di dc t a = csr a := by
  simp only [CntTouched, not_or, not_exists, not_and, List.mem_cons, List.not_mem_nil, or_false] at h
  obtain ⟨⟨h1, h2, h3, h4, h5, h6⟩, hs⟩ := h
  have e1 : A.time + 0x80#16 = A.timeh := rfl
  have e2 : A.mcycle + 0x80#16 = A.mcycleh := rfl
  have e3 : A.minstret + 0x80#16 = A.minstreth := rfl
  simp only [cntCsr, csrWideAssign, e1, upd_other _ _ h5, upd_other _ _ h6]
  rw [shadowAll_other c _ a (fun e he => hs e he)]
  simp only [csrWideAdd, csrWideAssign, e2, e3, upd_other _ _ h1, upd_other _ _ h2, upd_other _ _ h3,
    upd_other _ _ h4]

end Ama
