import Verif.Model.Elf
import Mathlib.Tactic.ByContra
/-!
# C62: ELF loading
-/
namespace Ama
namespace Spec
end Spec
open Spec

/-- file contents a segment gives for memory offset `x` (address 0x80000000 + x) -/
def Spec.segByte (g : Seg) (x : Nat) : Option (BitVec 8) :=
  if g.ptLoad ∧ g.paddr.toNat ≤ 0x80000000 + x ∧ 0x80000000 + x < g.paddr.toNat + g.filesz.toNat
  then some (g.data (0x80000000 + x - g.paddr.toNat)) else none

/-- the last segment providing the byte wins -/
def Spec.imageByte (segs : List Seg) (x : Nat) : BitVec 8 :=
  match segs.reverse.findSome? (fun g => segByte g x) with
  | some b => b
  | none => 0xA5#8

/-- permission region of a loadable segment -/
def Spec.segRegion (g : Seg) : Region :=
  ⟨BitVec.ofNat 32 (g.paddr.toNat - 0x80000000), g.memsz.setWidth 32, g.r, g.w, g.x⟩

/-- a segment that fits in RAM -/
def Spec.segFits (g : Seg) : Prop :=
  0x80000000 ≤ g.paddr.toNat ∧ g.paddr.toNat + g.filesz.toNat ≤ 0x80020000
instance (g : Seg) : Decidable (segFits g) := by unfold segFits; infer_instance

/-- what an accepted segment does -/
theorem loadSeg_ok {g : Seg} {l l' : LoadSt} (h : loadSeg g l = .ok l') :
    (g.ptLoad = false ∧ l' = l) ∨
    (g.ptLoad = true ∧ segFits g ∧ l'.any = true ∧ l'.regions = l.regions ++ [segRegion g] ∧
      (∀ x, l'.mem x = (segByte g x.toNat).getD (l.mem x)) ∧
      l'.endOfLoaded.toNat = max l.endOfLoaded.toNat ((segRegion g).base + (segRegion g).size).toNat) := by
  unfold loadSeg at h
  split at h
  · cases h; exact .inl ⟨by assumption, rfl⟩
  rename_i hp
  have hp : g.ptLoad = true := by simpa using hp
  split at h
  · cases h
  rename_i hr
  rw [not_or] at hr
  obtain ⟨hr1, hr2⟩ := hr
  simp only [BitVec.not_lt] at hr1 hr2
  rw [BitVec.le_def] at hr1 hr2
  have c1 : (0x80000000#64).toNat = 0x80000000 := rfl
  have c2 : (0x80020000#64).toNat = 0x80020000 := rfl
  have hoff : (g.paddr - 0x80000000#64).toNat = g.paddr.toNat - 0x80000000 := by
    rw [BitVec.toNat_sub]; have := g.paddr.isLt; omega
  simp only at h
  split at h
  · rename_i hf
    rw [hoff] at hf
    unfold memSize at hf
    have hreg : BitVec.setWidth 32 (g.paddr - 0x80000000#64) = BitVec.ofNat 32 (g.paddr.toNat - 0x80000000) := by
      apply BitVec.eq_of_toNat_eq
      rw [BitVec.toNat_setWidth, hoff, BitVec.toNat_ofNat]
    cases h
    refine .inr ⟨hp, ⟨by omega, by omega⟩, rfl, ?_, ?_, ?_⟩
    · simp only [segRegion, hreg]
    · intro x
      simp only [segByte, hoff, hp, true_and]
      by_cases hx : g.paddr.toNat ≤ 0x80000000 + x.toNat ∧ 0x80000000 + x.toNat < g.paddr.toNat + g.filesz.toNat
      · rw [if_pos hx, if_pos (by omega)]
        have : x.toNat - (g.paddr.toNat - 0x80000000) = 0x80000000 + x.toNat - g.paddr.toNat := by omega
        rw [this]; rfl
      · rw [if_neg hx, if_neg (by omega)]; rfl
    · simp only [segRegion, ← hreg]
      split
      · rename_i hlt
        rw [BitVec.lt_def] at hlt
        omega
      · rename_i hlt
        rw [BitVec.lt_def] at hlt
        omega
  · cases h

theorem segByte_skip {g : Seg} (h : g.ptLoad = false) (x : Nat) : segByte g x = none := by
  unfold segByte
  rw [if_neg]
  rintro ⟨hp, -⟩
  rw [h] at hp; cases hp

theorem findSome_step {α β : Type} (l : List α) (g : α) (f : α → Option β) (d : β) :
    ((g :: l).reverse.findSome? f).getD d = (l.reverse.findSome? f).getD ((f g).getD d) := by
  rw [List.reverse_cons, List.findSome?_append]
  cases l.reverse.findSome? f <;> cases hg : f g <;> simp [hg]

theorem loadSegs_ok {segs : List Seg} {l l' : LoadSt} (h : loadSegs segs l = .ok l') :
    (∀ g ∈ segs, g.ptLoad = true → segFits g) ∧
    l'.any = (l.any || segs.any (·.ptLoad)) ∧
    l'.regions = l.regions ++ (segs.filter (·.ptLoad)).map segRegion ∧
    (∀ x, l'.mem x = (segs.reverse.findSome? (fun g => segByte g x.toNat)).getD (l.mem x)) ∧
    l'.endOfLoaded.toNat = ((segs.filter (·.ptLoad)).map segRegion).foldl
      (fun m r => max m (r.base + r.size).toNat) l.endOfLoaded.toNat := by
  induction segs generalizing l with
  | nil => cases h; simp
  | cons g gs ih =>
    unfold loadSegs at h
    cases h1 : loadSeg g l with
    | ub k => rw [h1] at h; cases h
    | abort => rw [h1] at h; cases h
    | ok l1 =>
      rw [h1] at h
      obtain ⟨i1, i2, i3, i4, i5⟩ := ih h
      rcases loadSeg_ok h1 with ⟨hp, rfl⟩ | ⟨hp, hf, ha, hreg, hm, he⟩
      · refine ⟨?_, ?_, ?_, ?_, ?_⟩
        · intro g' hg' hp'
          rcases List.mem_cons.mp hg' with rfl | hg'
          · rw [hp] at hp'; cases hp'
          · exact i1 g' hg' hp'
        · rw [i2]; simp [hp]
        · rw [i3]; simp [hp]
        · intro x
          rw [i4, findSome_step, segByte_skip hp]; rfl
        · rw [i5, List.filter_cons_of_neg (by rw [hp]; decide)]
      · refine ⟨?_, ?_, ?_, ?_, ?_⟩
        · intro g' hg' hp'
          rcases List.mem_cons.mp hg' with rfl | hg'
          · exact hf
          · exact i1 g' hg' hp'
        · rw [i2, ha]; simp [hp]
        · rw [i3, hreg]; simp [hp]
        · intro x
          rw [i4, hm, findSome_step]
        · rw [i5, he, List.filter_cons_of_pos hp, List.map_cons, List.foldl_cons]

theorem burnElf_ok {segs : List Seg} {m : W → BitVec 8} {regs : List Region}
    (h : burnElf segs = .ok (m, regs)) : ∃ l, loadSegs segs { mem := fun _ => 0xA5#8, regions := [], endOfLoaded := 0#32, any := false } = .ok l ∧
      l.any = true ∧ m = l.mem ∧ regs = (if l.endOfLoaded < 0x20000#32
        then l.regions ++ [⟨l.endOfLoaded, 0x20000#32 - l.endOfLoaded, true, true, false⟩] else l.regions) := by
  unfold burnElf at h
  cases h1 : loadSegs segs { mem := fun _ => 0xA5#8, regions := [], endOfLoaded := 0#32, any := false } with
  | ub k => rw [h1] at h; cases h
  | abort => rw [h1] at h; cases h
  | ok l =>
    rw [h1] at h
    change (if l.any then _ else _) = _ at h
    split at h
    · rename_i ha
      simp only [Res.ok.injEq, Prod.mk.injEq] at h
      exact ⟨l, rfl, ha, h.1.symm, h.2.symm⟩
    · cases h

/-- **C62** (image) If loading succeeds, every byte of memory is the file byte of the last loadable
segment covering its address, or the fill value. -/
theorem elf_image {segs : List Seg} {m : W → BitVec 8} {regs : List Region}
    (h : burnElf segs = .ok (m, regs)) (x : W) : m x = imageByte segs x.toNat := by
  obtain ⟨l, h1, -, rfl, -⟩ := burnElf_ok h
  rw [(loadSegs_ok h1).2.2.2.1]
  unfold imageByte
  cases segs.reverse.findSome? (fun g => segByte g x.toNat) <;> rfl

/-- **C62** (validity) Loading succeeds only if some segment is loadable and every loadable
segment's file contents lie inside RAM. -/
theorem elf_valid {segs : List Seg} {m : W → BitVec 8} {regs : List Region}
    (h : burnElf segs = .ok (m, regs)) :
    (∃ g ∈ segs, g.ptLoad = true) ∧ ∀ g ∈ segs, g.ptLoad = true → segFits g := by
  obtain ⟨l, h1, ha, -, -⟩ := burnElf_ok h
  obtain ⟨h2, h3, -⟩ := loadSegs_ok h1
  rw [ha, Bool.false_or] at h3
  exact ⟨by simpa using h3.symm, h2⟩

/-- **C62** (permissions) The permission table has one region per loadable segment, in order, with
its offset, memory size and flags, followed — when the highest segment end lies below the end of RAM
— by a read-write, non-executable region from there to the end of RAM. -/
theorem elf_regions {segs : List Seg} {m : W → BitVec 8} {regs : List Region}
    (h : burnElf segs = .ok (m, regs)) :
    ∃ top : W, top.toNat = ((segs.filter (·.ptLoad)).map segRegion).foldl
        (fun m r => max m (r.base + r.size).toNat) 0 ∧
      regs = (segs.filter (·.ptLoad)).map segRegion ++
        (if top.toNat < 0x20000 then [⟨top, BitVec.ofNat 32 (0x20000 - top.toNat), true, true, false⟩] else []) := by
  obtain ⟨l, h1, -, -, h2⟩ := burnElf_ok h
  obtain ⟨-, -, h3, -, h4⟩ := loadSegs_ok h1
  refine ⟨l.endOfLoaded, h4, ?_⟩
  rw [h2, h3]
  have c : (0x20000#32).toNat = 0x20000 := rfl
  by_cases hlt : l.endOfLoaded.toNat < 0x20000
  · rw [if_pos hlt, if_pos (by rw [BitVec.lt_def, c]; exact hlt)]
    have : 0x20000#32 - l.endOfLoaded = BitVec.ofNat 32 (0x20000 - l.endOfLoaded.toNat) := by
      apply BitVec.eq_of_toNat_eq
      rw [BitVec.toNat_sub, c, BitVec.toNat_ofNat]; omega
    rw [this]; rfl
  · rw [if_neg hlt, if_neg (by rw [BitVec.lt_def, c]; exact hlt)]; simp

/-- **C62** (rejection, partial) No segment table makes the loader touch memory outside the RAM
array, except (1) one with a loadable segment whose end overflows 64 bits or (2) an empty loadable
segment placed exactly at the end of RAM; see the two witnesses below. -/
theorem elf_no_ub_partial (segs : List Seg) (h : ∀ g ∈ segs, g.ptLoad = true →
      g.paddr.toNat + g.filesz.toNat < 2 ^ 64 ∧ (g.filesz ≠ 0#64 ∨ g.paddr ≠ 0x80020000#64)) (k : UB) :
    burnElf segs ≠ .ub k := by
  have hseg : ∀ g ∈ segs, ∀ l k, loadSeg g l ≠ .ub k := by
    intro g hg l k hh
    unfold loadSeg at hh
    split at hh
    · cases hh
    rename_i hp
    obtain ⟨h1, h2⟩ := h g hg (by simpa using hp)
    split at hh
    · cases hh
    rename_i hr
    simp only at hh
    split at hh
    · cases hh
    rename_i hf
    rw [not_or] at hr
    obtain ⟨hr1, hr2⟩ := hr
    simp only [BitVec.not_lt] at hr1 hr2
    rw [BitVec.le_def] at hr1 hr2
    have c1 : (0x80000000#64).toNat = 0x80000000 := rfl
    have c2 : (0x80020000#64).toNat = 0x80020000 := rfl
    have hoff : (g.paddr - 0x80000000#64).toNat = g.paddr.toNat - 0x80000000 := by
      rw [BitVec.toNat_sub]; have := g.paddr.isLt; omega
    rw [BitVec.toNat_add, Nat.mod_eq_of_lt h1, c2] at hr2
    rw [c1] at hr1
    apply hf
    rw [hoff]
    unfold memSize
    refine ⟨?_, by omega⟩
    by_contra hlt
    have e1 : g.paddr = 0x80020000#64 := BitVec.eq_of_toNat_eq (by rw [c2]; omega)
    have e2 : g.filesz = 0#64 := BitVec.eq_of_toNat_eq (by
      have : (0#64).toNat = 0 := rfl
      rw [this]; omega)
    rcases h2 with h2 | h2
    · exact h2 e2
    · exact h2 e1
  have hsegs : ∀ l k, loadSegs segs l ≠ .ub k := by
    clear h
    induction segs with
    | nil => exact nofun
    | cons g gs ih =>
      intro l k hh
      unfold loadSegs at hh
      cases h1 : loadSeg g l with
      | ub k' => exact hseg g List.mem_cons_self l k' h1
      | abort => rw [h1] at hh; cases hh
      | ok l1 =>
        rw [h1] at hh
        exact ih (fun g' hg' => hseg g' (List.mem_cons_of_mem _ hg')) l1 k hh
  intro hh
  unfold burnElf at hh
  cases h1 : loadSegs segs { mem := fun _ => 0xA5#8, regions := [], endOfLoaded := 0#32, any := false } with
  | ub k' => exact hsegs _ _ h1
  | abort => rw [h1] at hh; cases hh
  | ok l =>
    rw [h1] at hh
    change (if l.any then _ else _) = _ at hh
    split at hh <;> cases hh

namespace Ex
/-- text (r-x) and data (rw-) segments -/
def segText : Seg := ⟨true, 0x80000000#64, 4#64, 4#64, fun i => BitVec.ofNat 8 (0x10 + i), true, false, true⟩
def segData : Seg := ⟨true, 0x80000004#64, 2#64, 8#64, fun i => BitVec.ofNat 8 (0x20 + i), true, true, false⟩
def segNote : Seg := ⟨false, 0#64, 4#64, 4#64, fun _ => 0xff#8, true, false, false⟩
/-- the first `n` bytes and the regions of a loaded table -/
def elfObs (n : Nat) (r : Res ((W → BitVec 8) × List Region)) : List (BitVec 8) × List (W × W × Bool × Bool × Bool) :=
  match r with
  | .ok (m, r) => ((List.range n).map fun i => m (BitVec.ofNat 32 i), r.map fun g => (g.base, g.size, g.r, g.w, g.x))
  | _ => ([], [])
/-- the segment table is accepted, giving the image and three regions -/
example : elfObs 8 (burnElf [segText, segNote, segData]) =
    ([0x10#8, 0x11#8, 0x12#8, 0x13#8, 0x20#8, 0x21#8, 0xA5#8, 0xA5#8],
      [(0#32, 4#32, true, false, true), (4#32, 8#32, true, true, false), (12#32, 0x1fff4#32, true, true, false)]) := by
  decide +kernel
/-- the hypotheses of `elf_no_ub_partial` hold for it -/
example : ∀ g ∈ [segText, segNote, segData], g.ptLoad = true →
    g.paddr.toNat + g.filesz.toNat < 2 ^ 64 ∧ (g.filesz ≠ 0#64 ∨ g.paddr ≠ 0x80020000#64) := by decide
/-- witness: a segment whose end overflows 64 bits passes the bounds check, and the copy leaves the
memory array -/
theorem elf_overflow_ub : burnElf [⟨true, 0xfffffffffffffff0#64, 0x20#64, 0x20#64, fun _ => 0#8, true, true, true⟩] =
    .ub .outOfBounds := by rfl
/-- witness: an empty segment at the very end of RAM indexes one past the array -/
theorem elf_empty_end_ub : burnElf [⟨true, 0x80020000#64, 0#64, 0#64, fun _ => 0#8, true, true, true⟩] =
    .ub .outOfBounds := by rfl
end Ex

/-- **C62** (raw images) `burn_bin` copies the file to the start of RAM and leaves the rest, or
refuses a file that does not fit. -/
theorem bin_image (file : List (BitVec 8)) (m : W → BitVec 8) :
    (file.length > 0x20000 → burnBin file m = .abort) ∧
    (file.length ≤ 0x20000 → ∃ m', burnBin file m = .ok m' ∧
      ∀ x : W, m' x = (file[x.toNat]?).getD (m x)) := by
  have c : memSize = 0x20000 := rfl
  unfold burnBin
  rw [c]
  constructor
  · intro h; rw [if_pos h]
  · intro h
    rw [if_neg (by omega)]
    refine ⟨_, rfl, fun x => ?_⟩
    by_cases hx : x.toNat < file.length
    · simp [hx]
    · simp [hx]
example : ∃ m', burnBin [1#8, 2#8] (fun _ => 0xA5#8) = .ok m' ∧ m' 1#32 = 2#8 ∧ m' 2#32 = 0xA5#8 :=
  ⟨_, rfl, by decide, by decide⟩

end Ama
