import Verif.Model.Core
/-!
# The end of a run: the report and the memory dump

`core::run` after its loop, `core::finish`, `core::dump` and `memory::dump_as_words`.  Left out: the text around the values,
`print_state` and the profilers' and hardware models' own reports.
-/
namespace Ama.Finish
open M
variable {σ : Type}

/-- core.cpp:1199-1229 `dump`, the values printed -/
structure Report where
  /-- "Early exit on profiler stop" -/
  early : Bool
  /-- "Failed test ID", and whether "(trap)" is added -/
  failed : Option (W × Bool)
  tohost : W
  insts : BitVec 64
  profiled : BitVec 64
  pc : W
  rf : BitVec 5 → W

/-- core.cpp:1199-1229 `dump`; csrs.h:252 -/
def report (E : Env σ) : M σ Report := do
  let p ← get (·.profPc)
  let early := E.cfg.profilers && p.exitOnStop
  (if early then mod fun s => { s with csr := upd s.csr A.tohost 0xf0000000#32 } else pure ())
  let s ← get id
  let t := s.csr A.tohost
  pure ⟨early, if !early && t != 1#32 then some (t >>> 1, decide (1000#32 < t)) else none, t, s.simInst, p.instCnt, s.pc, s.rf⟩

/-- memory.cpp:138-139: one byte of the dump.  `dev` is `dev_ptr`, which keeps its value when no device has the address; the
address is then 0 (memory.cpp:36-40).  The trap raised is not looked at. -/
def dumpByte (E : Env σ) (dev : DevId) (a : W) : M σ (BitVec 8 × DevId) := do
  let r ← setAddr E a .read 1
  let d := r.getD (dev, 0#32)
  let b ← devRd E d.1 d.2 1
  pure (b.setWidth 8, d.1)

/-- memory.cpp:134-141 -/
def dumpWord (E : Env σ) (dev : DevId) (a : W) : M σ (W × DevId) := do
  let b0 ← dumpByte E dev a
  let b1 ← dumpByte E b0.2 (a + 1#32)
  let b2 ← dumpByte E b1.2 (a + 2#32)
  let b3 ← dumpByte E b2.2 (a + 3#32)
  pure (b0.1.setWidth 32 ||| b1.1.setWidth 32 <<< 8 ||| b2.1.setWidth 32 <<< 16 ||| b3.1.setWidth 32 <<< 24, b3.2)

/-- memory.cpp:133-143: the words written; `none` if the loop does not end within the given number of rounds -/
def dumpLoop (E : Env σ) (stop : W) : Nat → DevId → W → M σ (Option (List W))
  | 0, _, _ => pure none
  | n + 1, dev, a =>
    if a + 4#32 ≤ stop then do
      let w ← dumpWord E dev a
      let r ← dumpLoop E stop n w.2 (a + 4#32)
      pure (r.map (w.1 :: ·))
    else pure (some [])

/-- memory.cpp:125-145 `dump_as_words`; the addresses repeat after `2 ^ 30` rounds, so a loop that has not ended then never
does -/
def dumpWords (E : Env σ) (dev : DevId) (start size : W) : M σ (Option (List W)) :=
  dumpLoop E (start + size) (2 ^ 30 + 1) dev start

/-- core.cpp:107-109, 378-382: the report, and the dump if one is asked for -/
def finish (E : Env σ) (dev : DevId) (start size : W) : M σ (Report × Option (List W)) := do
  wrapUp E
  let r ← report E
  if 0#32 < start ∧ 0#32 < size then do
    let d ← dumpWords E dev start size
    pure (r, d)
  else pure (r, some [])
end Ama.Finish
