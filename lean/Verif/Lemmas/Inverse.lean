import Verif.Spec.Defined
import Verif.Props.DecodeC
import Batteries.Data.BitVec.Lemmas
/-!
# Every word is the encoding of its fields
-/
namespace Ama
open Spec

/-- the listed bits of `w`, low bit first -/
def pick (n : Nat) (w : W) (l : List Nat) : BitVec n := BitVec.ofFnLE fun i => w.getLsbD (l.getD i 0)
theorem getLsbD_pick (n : Nat) (w : W) (l : List Nat) (i : Nat) :
    (pick n w l).getLsbD i = (decide (i < n) && w.getLsbD (l.getD i 0)) := by
  unfold pick
  rw [BitVec.getLsbD_ofFnLE]
  split <;> simp [*]
theorem getElem_pick (n : Nat) (w : W) (l : List Nat) (i : Nat) (h : i < n) :
    (pick n w l)[i] = w.getLsbD (l.getD i 0) := by
  rw [← BitVec.getLsbD_eq_getElem, getLsbD_pick]; simp [h]

set_option maxHeartbeats 400000 in
theorem inv_R (w : W) : w = encR (IP.funct7 w) (IP.rs2 w) (IP.rs1 w) (IP.funct3 w) (IP.rd w) (IP.opcode w) := by
  fields [IP.funct7, IP.rs2, IP.rs1, IP.funct3, IP.rd, IP.opcode, encR]
set_option maxHeartbeats 400000 in
theorem inv_I (w : W) : w = encI (w.extractLsb' 20 12) (IP.rs1 w) (IP.funct3 w) (IP.rd w) (IP.opcode w) := by
  fields [IP.rs1, IP.funct3, IP.rd, IP.opcode, encI]
set_option maxHeartbeats 400000 in
theorem inv_S (w : W) : w = encS (pick 12 w [7, 8, 9, 10, 11, 25, 26, 27, 28, 29, 30, 31]) (IP.rs2 w) (IP.rs1 w) (IP.funct3 w)
    (IP.opcode w) := by
  fields [IP.rs2, IP.rs1, IP.funct3, IP.opcode, encS, getLsbD_pick, getElem_pick]
set_option maxHeartbeats 400000 in
theorem inv_B (w : W) : w = encB (dbl (pick 12 w [8, 9, 10, 11, 25, 26, 27, 28, 29, 30, 7, 31]))
    (IP.rs2 w) (IP.rs1 w) (IP.funct3 w) (IP.opcode w) := by
  fields [IP.rs2, IP.rs1, IP.funct3, IP.opcode, encB, dbl, getLsbD_pick, getElem_pick]
set_option maxHeartbeats 400000 in
theorem inv_U (w : W) : w = encU (w.extractLsb' 12 20) (IP.rd w) (IP.opcode w) := by
  fields [IP.rd, IP.opcode, encU]
set_option maxHeartbeats 400000 in
theorem inv_J (w : W) : w = encJ (dbl (pick 20 w [21, 22, 23, 24, 25, 26, 27, 28, 29, 30, 20, 12, 13, 14, 15, 16, 17, 18, 19, 31]))
    (IP.rd w) (IP.opcode w) := by
  fields [IP.rd, IP.opcode, encJ, dbl, getLsbD_pick, getElem_pick]

/-! ## Compressed formats -/

theorem cop_bits {e : W} {b : BitVec 2} (h : IP.copcode e = b) : e[0] = b.getLsbD 0 ∧ e[1] = b.getLsbD 1 := by
  subst h; simp [IP.copcode]
theorem f3_bits {e : W} {b : BitVec 3} (h : IP.cFunct3 e = b) :
    e[13] = b.getLsbD 0 ∧ e[14] = b.getLsbD 1 ∧ e[15] = b.getLsbD 2 := by
  subst h; simp [IP.cFunct3]
theorem f4_bits {e : W} {b : BitVec 4} (h : IP.cFunct4 e = b) :
    e[12] = b.getLsbD 0 ∧ e[13] = b.getLsbD 1 ∧ e[14] = b.getLsbD 2 ∧ e[15] = b.getLsbD 3 := by
  subst h; simp [IP.cFunct4]

set_option maxHeartbeats 400000 in
theorem inv_CI (e : W) : IP.toRvc e = encCI (IP.cFunct3 e) (pick 6 e [2, 3, 4, 5, 6, 12]) (IP.rd e) (IP.copcode e) := by
  fields [IP.toRvc, IP.cFunct3, IP.rd, IP.copcode, encCI, getLsbD_pick, getElem_pick]
set_option maxHeartbeats 400000 in
theorem inv_CLS {e : W} (h : IP.copcode e = 0#2) : IP.toRvc e = encCLS (IP.cFunct3 e)
    (scale 7 2 (pick 5 e [6, 10, 11, 12, 5])) (e.extractLsb' 7 3) (e.extractLsb' 2 3) := by
  obtain ⟨b0, b1⟩ := cop_bits h
  simp at b0 b1
  fields [IP.toRvc, IP.cFunct3, encCLS, scale, getLsbD_pick, getElem_pick, b0, b1]
set_option maxHeartbeats 400000 in
theorem inv_4spn {e : W} (h : IP.copcode e = 0#2) (h3 : IP.cFunct3 e = 0#3) : IP.toRvc e = encAddi4spn
    (scale 10 2 (pick 8 e [6, 5, 11, 12, 7, 8, 9, 10])) (e.extractLsb' 2 3) := by
  obtain ⟨b0, b1⟩ := cop_bits h
  obtain ⟨c0, c1, c2⟩ := f3_bits h3
  simp at b0 b1 c0 c1 c2
  fields [IP.toRvc, encAddi4spn, scale, getLsbD_pick, getElem_pick, b0, b1, c0, c1, c2]
set_option maxHeartbeats 400000 in
theorem inv_CJ {e : W} (h : IP.copcode e = 1#2) : IP.toRvc e = encCJ (IP.cFunct3 e)
    (scale 12 1 (pick 11 e [3, 4, 5, 11, 2, 7, 6, 9, 10, 8, 12])) := by
  obtain ⟨b0, b1⟩ := cop_bits h
  simp at b0 b1
  fields [IP.toRvc, IP.cFunct3, encCJ, scale, getLsbD_pick, getElem_pick, b0, b1]
set_option maxHeartbeats 400000 in
theorem inv_CB {e : W} (h : IP.copcode e = 1#2) : IP.toRvc e = encCB (IP.cFunct3 e)
    (scale 9 1 (pick 8 e [3, 4, 10, 11, 2, 5, 6, 12]))
    (e.extractLsb' 7 3) := by
  obtain ⟨b0, b1⟩ := cop_bits h
  simp at b0 b1
  fields [IP.toRvc, IP.cFunct3, encCB, scale, getLsbD_pick, getElem_pick, b0, b1]
set_option maxHeartbeats 400000 in
theorem inv_CBA {e : W} (h : IP.copcode e = 1#2) (h3 : IP.cFunct3 e = 4#3) : IP.toRvc e = encCBA (IP.cFunct2h e)
    (pick 6 e [2, 3, 4, 5, 6, 12]) (e.extractLsb' 7 3) := by
  obtain ⟨b0, b1⟩ := cop_bits h
  obtain ⟨c0, c1, c2⟩ := f3_bits h3
  simp at b0 b1 c0 c1 c2
  fields [IP.toRvc, IP.cFunct2h, encCBA, getLsbD_pick, getElem_pick, b0, b1, c0, c1, c2]
set_option maxHeartbeats 400000 in
theorem inv_CA {e : W} (h : IP.copcode e = 1#2) : IP.toRvc e = encCA (IP.cFunct6 e) (e.extractLsb' 7 3)
    (IP.cFunct2l e) (e.extractLsb' 2 3) := by
  obtain ⟨b0, b1⟩ := cop_bits h
  simp at b0 b1
  fields [IP.toRvc, IP.cFunct6, IP.cFunct2l, encCA, b0, b1]
set_option maxHeartbeats 400000 in
theorem inv_16sp {e : W} (h : IP.copcode e = 1#2) (h3 : IP.cFunct3 e = 3#3) (hr : IP.rd e = 2#5) : IP.toRvc e =
    encAddi16sp (scale 10 4 (pick 6 e [6, 2, 5, 3, 4, 12])) := by
  obtain ⟨b0, b1⟩ := cop_bits h
  obtain ⟨c0, c1, c2⟩ := f3_bits h3
  have d0 : e[7] = false := by simpa [IP.rd] using congrArg (fun x => x.getLsbD 0) hr
  have d1 : e[8] = true := by simpa [IP.rd] using congrArg (fun x => x.getLsbD 1) hr
  have d2 : e[9] = false := by simpa [IP.rd] using congrArg (fun x => x.getLsbD 2) hr
  have d3 : e[10] = false := by simpa [IP.rd] using congrArg (fun x => x.getLsbD 3) hr
  have d4 : e[11] = false := by simpa [IP.rd] using congrArg (fun x => x.getLsbD 4) hr
  simp at b0 b1 c0 c1 c2
  fields [IP.toRvc, encAddi16sp, scale, getLsbD_pick, getElem_pick, b0, b1, c0, c1, c2, d0, d1, d2, d3, d4]
set_option maxHeartbeats 400000 in
theorem inv_lwsp {e : W} (h : IP.copcode e = 2#2) (h3 : IP.cFunct3 e = 2#3) : IP.toRvc e =
    encLwsp (scale 8 2 (pick 6 e [4, 5, 6, 12, 2, 3])) (IP.rd e) := by
  obtain ⟨b0, b1⟩ := cop_bits h
  obtain ⟨c0, c1, c2⟩ := f3_bits h3
  simp at b0 b1 c0 c1 c2
  fields [IP.toRvc, IP.rd, encLwsp, scale, getLsbD_pick, getElem_pick, b0, b1, c0, c1, c2]
set_option maxHeartbeats 400000 in
theorem inv_swsp {e : W} (h : IP.copcode e = 2#2) (h3 : IP.cFunct3 e = 6#3) : IP.toRvc e =
    encSwsp (scale 8 2 (pick 6 e [9, 10, 11, 12, 7, 8])) (IP.cRs2 e) := by
  obtain ⟨b0, b1⟩ := cop_bits h
  obtain ⟨c0, c1, c2⟩ := f3_bits h3
  simp at b0 b1 c0 c1 c2
  fields [IP.toRvc, IP.cRs2, encSwsp, scale, getLsbD_pick, getElem_pick, b0, b1, c0, c1, c2]
set_option maxHeartbeats 400000 in
theorem inv_CR {e : W} (h : IP.copcode e = 2#2) : IP.toRvc e = encCR (IP.cFunct4 e) (IP.rd e) (IP.cRs2 e) := by
  obtain ⟨b0, b1⟩ := cop_bits h
  simp at b0 b1
  fields [IP.toRvc, IP.cFunct4, IP.rd, IP.cRs2, encCR, b0, b1]

end Ama
