import Verif.Model.State
import Verif.Model.InstParser
/-!
# CSR file

Model of `/repo/src/csrs.h` and of the CSR helpers in `/repo/src/core.h:117-139` and
`/repo/src/core_exec_zicsr.cpp`.
-/
namespace Ama

/-- csrs.h:243-250 `perm_t` -/
inductive Perm where | rw | ro | war0 | warl | roUShadow
  deriving DecidableEq, Repr

/-- csrs.h:278-285 `CSR_entry` (names omitted) -/
structure CsrEntry where
  addr : BitVec 16
  perm : Perm
  boot : W
  wmask : W
  sAddr : BitVec 16
  deriving DecidableEq, Repr

namespace A
/-- CSR numbers, csrs.h:9-131 -/
def tohost : BitVec 16 := 0x51E#16
def mstatus : BitVec 16 := 0x300#16
def misa : BitVec 16 := 0x301#16
def mie : BitVec 16 := 0x304#16
def mtvec : BitVec 16 := 0x305#16
def mepc : BitVec 16 := 0x341#16
def mcause : BitVec 16 := 0x342#16
def mtval : BitVec 16 := 0x343#16
def mip : BitVec 16 := 0x344#16
def mcycle : BitVec 16 := 0xB00#16
def minstret : BitVec 16 := 0xB02#16
def mcycleh : BitVec 16 := 0xB80#16
def minstreth : BitVec 16 := 0xB82#16
def time : BitVec 16 := 0xC01#16
def timeh : BitVec 16 := 0xC81#16
end A

/-- types.h:105-112 `inst::align::pc_low_bits_mask` -/
def pcLowMask (rv32c : Bool) : W := if rv32c then 1#32 else 3#32

/-- csrs.h:287-288 -/
def ent (a : BitVec 16) (p : Perm) (boot : W) : CsrEntry := ⟨a, p, boot, 0xffffffff#32, 0#16⟩
/-- csrs.h:290-291 -/
def entWm (a : BitVec 16) (p : Perm) (boot wm : W) : CsrEntry := ⟨a, p, boot, wm, 0#16⟩
/-- csrs.h:293-294 -/
def entSh (a s : BitVec 16) : CsrEntry := ⟨a, .roUShadow, 0#32, 0#32, s⟩
/-- csrs.h:296-297 -/
def entShMmio (a : BitVec 16) : CsrEntry := ⟨a, .roUShadow, 0#32, 0#32, 0#16⟩
/-- consecutive entries, for the numbered counter blocks -/
def entRange (first : Nat) (n : Nat) (p : Perm) : List CsrEntry :=
  (List.range n).map fun i => ent (BitVec.ofNat 16 (first + i)) p 0#32
/-- consecutive shadow entries -/
def entShRange (first src : Nat) (n : Nat) : List CsrEntry :=
  (List.range n).map fun i => entSh (BitVec.ofNat 16 (first + i)) (BitVec.ofNat 16 (src + i))

/-- csrs.h:299-489 `supported_csrs[]`; the mhpm/hpm blocks are written as ranges. -/
def csrEntries (rv32c : Bool) : List CsrEntry :=
  [ ent 0x51E#16 .rw 0#32,
    ent 0xF11#16 .war0 0#32, ent 0xF12#16 .war0 0#32, ent 0xF13#16 .war0 0#32,
    ent 0xF14#16 .ro 0#32, ent 0xF15#16 .ro 0#32,
    entWm 0x300#16 .rw 0x1800#32 (~~~0x1800#32), ent 0x310#16 .rw 0#32,
    ent 0x301#16 .ro 0x40801100#32, ent 0x304#16 .warl 0#32,
    entWm 0x305#16 .rw 0#32 (~~~(pcLowMask rv32c)),
    ent 0x340#16 .rw 0#32, entWm 0x341#16 .rw 0#32 (~~~(pcLowMask rv32c)),
    ent 0x342#16 .rw 0#32, ent 0x343#16 .rw 0#32, ent 0x344#16 .ro 0#32,
    ent 0xB00#16 .rw 0#32, ent 0xB02#16 .rw 0#32, ent 0xB80#16 .rw 0#32, ent 0xB82#16 .rw 0#32 ]
  ++ entRange 0xB03 6 .rw ++ entRange 0xB09 23 .war0
  ++ entRange 0xB83 6 .rw ++ entRange 0xB89 23 .war0
  ++ [ent 0x320#16 .war0 0#32]
  ++ entRange 0x323 6 .rw ++ entRange 0x329 23 .war0
  ++ [ entSh 0xC00#16 0xB00#16, entShMmio 0xC01#16, entSh 0xC02#16 0xB02#16,
       entSh 0xC80#16 0xB80#16, entShMmio 0xC81#16, entSh 0xC82#16 0xB82#16 ]
  ++ entShRange 0xC03 0xB03 29 ++ entShRange 0xC83 0xB83 29

/-- core.cpp:20-40 (constructor): `csr` is a `std::map` filled from the table;
`csr.find(addr)`. -/
def csrInfo (rv32c : Bool) (a : BitVec 16) : Option CsrEntry :=
  (csrEntries rv32c).find? fun e => e.addr == a

/-- Reset values; addresses without an entry are not observable and hold 0. -/
def csrBoot (rv32c : Bool) (a : BitVec 16) : W :=
  match csrInfo rv32c a with
  | some e => e.boot
  | none => 0#32

/-- Value stored by a write to a writable CSR, core.h:124-125 -/
def csrMerge (e : CsrEntry) (old data : W) : W := (old &&& ~~~e.wmask) ||| (data &&& e.wmask)

/-- core.h:128-131 `csr_wide_assign` -/
def csrWideAssign (csr : BitVec 16 → W) (addr : BitVec 16) (v : BitVec 64) : BitVec 16 → W :=
  upd (upd csr addr (v.setWidth 32)) (addr + 0x80#16) ((v >>> 32).setWidth 32)

/-- core.h:133-139 `csr_wide_add` -/
def csrWideAdd (csr : BitVec 16 → W) (addr : BitVec 16) (delta : BitVec 64) : BitVec 16 → W :=
  let value : BitVec 64 := ((csr (addr + 0x80#16)).setWidth 64 <<< 32) ||| (csr addr).setWidth 64
  csrWideAssign csr addr (value + delta)

/-- core_exec_zicsr.cpp:54-58: one iteration of the shadow loop -/
def shadowStep (csr : BitVec 16 → W) (e : CsrEntry) : BitVec 16 → W :=
  if e.perm = .roUShadow ∧ e.sAddr ≠ 0#16 then upd csr e.addr (csr e.sAddr) else csr

/-- core_exec_zicsr.cpp:54-58: the loop (over the table order; the C++ map iterates in
address order, which gives the same result because no source is itself a shadow). -/
def shadowAll (rv32c : Bool) (csr : BitVec 16 → W) : BitVec 16 → W :=
  (csrEntries rv32c).foldl shadowStep csr

end Ama
