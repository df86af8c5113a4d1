import Verif.Model.Mem
/-!
# Loading the ELF file: `devices/main_memory.cpp` `burn_elf` (68-113) and `burn_bin` (43-64)

The ELF reader (ELFIO) is an input: a segment is what its accessors return. The symbol table
(115-165) is modelled with the profilers.
-/
namespace Ama

/-- what ELFIO reports of a program header -/
structure Seg where
  /-- `get_type() == PT_LOAD` -/
  ptLoad : Bool
  /-- `get_physical_address()` -/
  paddr : BitVec 64
  /-- `get_file_size()` -/
  filesz : BitVec 64
  /-- `get_memory_size()` -/
  memsz : BitVec 64
  /-- `get_data()`, `filesz` bytes -/
  data : Nat → BitVec 8
  r : Bool
  w : Bool
  x : Bool

/-- locals of the loop -/
structure LoadSt where
  mem : W → BitVec 8
  regions : List Region
  endOfLoaded : W
  any : Bool

/-- main_memory.cpp:74-103, one iteration. `ub` when `&mem[off]` or the copy leaves the vector;
the exception is `abort`. -/
def loadSeg (g : Seg) (l : LoadSt) : Res LoadSt :=
  if g.ptLoad = false then .ok l
  else if g.paddr < 0x80000000#64 ∨ 0x80020000#64 < g.paddr + g.filesz then .abort
  else
    let off := g.paddr - 0x80000000#64
    if off.toNat < memSize ∧ off.toNat + g.filesz.toNat ≤ memSize then
      let memsz := g.memsz.setWidth 32
      .ok { mem := fun x => if off.toNat ≤ x.toNat ∧ x.toNat < off.toNat + g.filesz.toNat
              then g.data (x.toNat - off.toNat) else l.mem x
            regions := l.regions ++ [⟨off.setWidth 32, memsz, g.r, g.w, g.x⟩]
            endOfLoaded := if l.endOfLoaded < off.setWidth 32 + memsz then off.setWidth 32 + memsz
              else l.endOfLoaded
            any := true }
    else .ub .outOfBounds

/-- the loop over segments -/
def loadSegs : List Seg → LoadSt → Res LoadSt
  | [], l => .ok l
  | g :: gs, l => do loadSegs gs (← loadSeg g l)

/-- main_memory.cpp:66-119 `burn_elf` (without symbols): memory contents and permission regions.
Memory starts filled with 0xA5 (dev.h:11). -/
def burnElf (segs : List Seg) : Res ((W → BitVec 8) × List Region) := do
  let l ← loadSegs segs { mem := fun _ => 0xA5#8, regions := [], endOfLoaded := 0#32, any := false }
  let regions := if l.endOfLoaded < 0x20000#32
    then l.regions ++ [⟨l.endOfLoaded, 0x20000#32 - l.endOfLoaded, true, true, false⟩] else l.regions
  if l.any then .ok (l.mem, regions) else .abort

/-- main_memory.cpp:43-64 `burn_bin`: a raw image at offset 0 over the memory contents `m` -/
def burnBin (file : List (BitVec 8)) (m : W → BitVec 8) : Res (W → BitVec 8) :=
  if file.length > memSize then .abort
  else .ok fun x => if h : x.toNat < file.length then file[x.toNat] else m x

end Ama
