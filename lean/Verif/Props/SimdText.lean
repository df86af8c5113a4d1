import Verif.Lemmas.SimdTold
import Verif.Lemmas.DasmStep
import Verif.Lemmas.Ex
/-!
# C98: the elements in the execution log
-/
namespace Ama.SimdText
open Dasm Simd Spec Spec.Asm Spec.LaneText Report
variable {σ : Type} {E : Env σ} {s : St σ}

theorem rx_rf {rf : BitVec 5 → W} (h : rf 0#5 = 0#32) (r : BitVec 5) : rx rf r = rf r := by
  unfold rx
  by_cases e : r = 0#5
  · rw [if_pos e, e, h]
  · rw [if_neg e]
/-- the step of an instruction that writes elements -/
theorem stepText_eq {cfg : Cfg} (hs : cfg.simd = true) {m : W} {op : Op} {rd rs1 rs2 : BitVec 5} {rf : BitVec 5 → W}
    (hm : m = encR (IP.funct7 m) 0#5 0#5 (IP.funct3 m) 0#5 0x0b#7) (ho : sel (IP.funct7 m) (IP.funct3 m) = some op) {z : Chains × Fin}
    (hz : out cfg.strict op (rf rs1) (rf rs2) (rf rd) rs2 = .ok z) (L : SS) :
    stepText cfg rf (xWord m rd rs1 rs2) L = .ok (put rd z { L with ss := clear L.ss }) := by
  have hw : xWord m rd rs1 rs2 = encR (IP.funct7 m) rs2 rs1 (IP.funct3 m) rd 0x0b#7 := by
    rw [hm, xWord_enc, ← hm]
  obtain ⟨d1, d2, d3, d4, d5, d6⟩ := decode_R (IP.funct7 m) rs2 rs1 (IP.funct3 m) rd 0x0b#7
  rw [hw]
  generalize encR (IP.funct7 m) rs2 rs1 (IP.funct3 m) rd 0x0b#7 = w at *
  unfold stepText
  simp only [d1, d2, d3, d4, d5, d6, hs, ho, hz, and_self, if_true, Res.bind_ok]

/-- **C98**: reading the text a SIMD instruction adds to the log gives, element by element, its result and operands. The
numbers agree with the registers modulo the element width, and exactly where `X1.exact` says so. Missing: the sign of the
others, see `add_unwrapped`, `mulh_unsigned`, `srai_source`, `vext_source` (the log itself is at fault), and undefined host
arithmetic, as in `simd_step_partial`. -/
theorem simd_log_partial (hs : E.cfg.simd = true) {x : X1} {m : W} (hm : x.match? = some m)
    (hh : X1.hostOk E.cfg.strict x) {rd rs1 rs2 : BitVec 5} (h : Ready E s (xWord m rd rs1 rs2)) {L : SS} (hL : L.Calm) :
    ∃ s' L', step E s = .ok ((), s') ∧ stepText E.cfg s.rf (xWord m rd rs1 rs2) L = .ok L' ∧ L'.Calm ∧
      (rd = 0#5 → L'.ss.text = []) ∧
      (rd ≠ 0#5 → ∃ zs xs, readTable L'.ss.text = some (X1.table x zs xs (s.rf rs1) (s.rf rs2) (s.rf rd) rs2 (s'.rf rd)) ∧
        Shows (X1.resW x) zs (s'.rf rd) ∧ Shows (X1.srcW x) xs (s.rf rs1) ∧
        (∀ sg, X1.exact x = some sg → zs = nums sg (X1.resW x) (s'.rf rd)) ∧
        (∀ n, x = .slli n ∨ x = .srli n → xs = nums false n (s.rf rs1))) := by
  obtain ⟨t1, t2, -⟩ := table1 hm
  obtain ⟨s', v', e1, e2, -, e3, -⟩ := simd_step_partial hs hm hh h
  rw [rx_rf h.x0, rx_rf h.x0, rx_rf h.x0] at e2
  obtain ⟨v, z, g1, g2, zc, za, zb, zs, xs, k1, k2, k3, k4, k5, k6, k7, k8⟩ := out_told1 hm hh (s.rf rs1) (s.rf rs2) (s.rf rd) rs2
  obtain rfl := simd_unique hm g1 e2
  obtain ⟨p1, p2, p3⟩ := put_reads k1 k2 k3 (s := { L with ss := clear L.ss }) ⟨hL.1, hL.2.1, hL.2.2.1, calm_clear hL.2.2.2⟩ rd
  refine ⟨s', _, e1, stepText_eq hs t1 t2 g2 L, p1, fun h0 => by rw [p2 h0]; rfl, fun h0 => ⟨zs, xs, ?_⟩⟩
  have hv : s'.rf rd = v := by rw [e3, if_pos ⟨rfl, h0⟩]
  rw [hv]
  exact ⟨(p3 h0 rfl).trans (congrArg some k4), k5, k6, k7, k8⟩

theorem pair_ext {n : Nat} (hn : wd16 n) {p q : W × W} (h : ∀ i, i < 32 / n → pairLane (2 * n) i p = pairLane (2 * n) i q) : p = q := by
  have h2 : (2 * n) ∈ [2, 4, 8, 16, 32] := by rcases wd16_cases hn with rfl | rfl | rfl | rfl <;> decide
  have h64 : 32 / n = 32 / (2 * n) + 32 / (2 * n) := by rcases wd16_cases hn with rfl | rfl | rfl | rfl <;> rfl
  have e1 : p.1 = q.1 := lanes_ext h2 fun i hi => by
    have := h i (by omega)
    rw [pairLane, pairLane, if_pos hi, if_pos hi] at this
    exact this
  have e2 : p.2 = q.2 := lanes_ext h2 fun i hi => by
    have := h (32 / (2 * n) + i) (by omega)
    rw [pairLane, pairLane, if_neg (by omega), if_neg (by omega), show 32 / (2 * n) + i - 32 / (2 * n) = i by omega] at this
    exact this
  exact Prod.ext e1 e2
theorem simd_pair_unique {y : X2} {m : W} (hm : y.match? = some m) {a b : W} {imm : BitVec 5} {v v' : W × W}
    (h : y.holds a b imm v) (h' : y.holds a b imm v') : v = v' := by
  have hwd := (table2 hm).2.2
  cases y with
  | wmul n sg => exact pair_ext hwd fun i hi => lv_inj ((h i hi).trans (h' i hi).symm)
  | widen n sg => exact pair_ext hwd fun i hi => (h i hi).trans (h' i hi).symm
  | txp n =>
    exact Prod.ext (lanes_ext (wd16_32 hwd) fun i hi => (h i hi).1.trans (h' i hi).1.symm)
      (lanes_ext (wd16_32 hwd) fun i hi => (h i hi).2.trans (h' i hi).2.symm)

/-- **C98** for the instructions with a register pair as destination: the elements of both registers, in order -/
theorem simd_pair_log_partial (hs : E.cfg.simd = true) {y : X2} {m : W} (hm : y.match? = some m)
    (hh : X2.hostOk E.cfg.strict y) {rd rs1 rs2 : BitVec 5} (hrd : rd ≠ 31#5) (h : Ready E s (xWord m rd rs1 rs2)) {L : SS} (hL : L.Calm) :
    ∃ s' L', step E s = .ok ((), s') ∧ stepText E.cfg s.rf (xWord m rd rs1 rs2) L = .ok L' ∧ L'.Calm ∧
      (rd = 0#5 → L'.ss.text = []) ∧
      (rd ≠ 0#5 → ∃ zs, readTable L'.ss.text = some (X2.table y zs (s.rf rs1) (s.rf rs2) rs2) ∧
        PairShows (X2.resW y) zs (s'.rf rd, s'.rf (rd + 1#5)) ∧
        (∀ sg, X2.exact y = some sg → zs = pairNums sg (X2.resW y) (s'.rf rd, s'.rf (rd + 1#5)))) := by
  obtain ⟨t1, t2, -⟩ := table2 hm
  obtain ⟨s', v', e1, e2, -, -, e3, -⟩ := simd_pair_step_partial hs hm hh hrd h
  rw [rx_rf h.x0, rx_rf h.x0] at e2
  obtain ⟨v, z, g1, g2, zc, za, zb, zs, k1, k2, k3, k4, k5, k6⟩ := out_told2 hm hh (s.rf rs1) (s.rf rs2) (s.rf rd) rs2
  obtain rfl := simd_pair_unique hm g1 e2
  obtain ⟨p1, p2, p3⟩ := put_reads k1 k2 k3 (s := { L with ss := clear L.ss }) ⟨hL.1, hL.2.1, hL.2.2.1, calm_clear hL.2.2.2⟩ rd
  refine ⟨s', _, e1, stepText_eq hs t1 t2 g2 L, p1, fun h0 => by rw [p2 h0]; rfl, fun h0 => ⟨zs, ?_⟩⟩
  obtain ⟨q1, q2, -⟩ := e3 h0
  rw [q1, q2]
  exact ⟨(p3 h0 rfl).trans (congrArg some k4), k5, k6⟩

/-- **C98**: every record ends in that text -/
theorem record_ends {I : LogIn} {d d' : DS} {t : List Char} {s' : St σ} (h : stepD E I d s = .ok ((some t, d'), s')) :
    ∃ pre, t = pre ++ I.simd := by
  rcases stepD_split h with ⟨_, hx, _⟩ | ⟨q0, q1, d1, -, -, -, ⟨_, hx, _⟩ | ⟨-, -, e1, e2⟩⟩
  · cases hx
  · cases hx
  · have e1 := Option.some.inj e1
    subst e1
    rw [e2]
    refine ⟨(align d1).text, ?_⟩
    show (str I.simd (align d1)).text = _
    have hw : (align d1).width = 0 := rfl
    unfold str
    simp only [hw, Nat.zero_sub, List.replicate_zero, List.append_nil, List.nil_append, ite_self]

/-! ## All instructions -/

def widths : List Nat := [2, 4, 8, 16, 32]
def signs : List Bool := [false, true]
/-- every operation of the table -/
def all1 : List X1 :=
  widths.flatMap fun n => [.add n, .sub n, .mul n, .slli n, .srli n, .srai n, .narrow n, .dup n, .vins n] ++
    signs.flatMap fun g => [.qadd n g, .qsub n g, .mulh n g, .dot n g, .min n g, .max n g, .qnarrow n g, .vext n g]
def all2 : List X2 := widths.flatMap fun n => .txp n :: signs.flatMap fun g => [.wmul n g, .widen n g]
theorem sel_all : ∀ (f7 : BitVec 7) (f3 : BitVec 3), (sel f7 f3).all (fun op =>
    (all1.any fun x => x.match?.isSome && decide (opOf1 x = op)) || (all2.any fun y => y.match?.isSome && decide (opOf2 y = op)) ||
      decide (op = .scp .lcl) || decide (op = .scp .rel)) = true := by
  decide +kernel
theorem out_all {f7 : BitVec 7} {f3 : BitVec 3} {op : Op} (h : sel f7 f3 = some op) (a b c : W) (imm : BitVec 5) :
    ∃ z zc za zb, out false op a b c imm = .ok z ∧ Sends z.1.c zc ∧ Sends z.1.a za ∧ Sends z.1.b zb := by
  have ht := sel_all f7 f3
  rw [h, Option.all_some, Bool.or_eq_true, Bool.or_eq_true, Bool.or_eq_true, List.any_eq_true, List.any_eq_true] at ht
  rcases ht with ((⟨x, -, hx⟩ | ⟨y, -, hy⟩) | ho) | ho
  · rw [Bool.and_eq_true, decide_eq_true_iff] at hx
    obtain ⟨m, hm⟩ := Option.isSome_iff_exists.1 hx.1
    obtain ⟨v, z, -, g2, zc, za, zb, _, _, k1, k2, k3, -⟩ := out_told1 (st := false) hm (by cases x <;> simp [X1.hostOk, mulOk]) a b c imm
    exact ⟨z, zc, za, zb, hx.2 ▸ g2, k1, k2, k3⟩
  · rw [Bool.and_eq_true, decide_eq_true_iff] at hy
    obtain ⟨m, hm⟩ := Option.isSome_iff_exists.1 hy.1
    obtain ⟨v, z, -, g2, zc, za, zb, _, k1, k2, k3, -⟩ := out_told2 (st := false) hm (by cases y <;> simp [X2.hostOk, mulOk, shlOk]) a b c imm
    exact ⟨z, zc, za, zb, hy.2 ▸ g2, k1, k2, k3⟩
  · rw [decide_eq_true_iff] at ho
    subst ho
    exact ⟨_, [], [], [], rfl, Sends.nil, Sends.nil, Sends.nil⟩
  · rw [decide_eq_true_iff] at ho
    subst ho
    exact ⟨_, [], [], [], rfl, Sends.nil, Sends.nil, Sends.nil⟩

/-- **C98**: the hypothesis on the streams holds at the start of a run and after any instruction whatever -/
theorem log_calm : SS.init.Calm ∧ ∀ {cfg : Cfg}, cfg.strict = false → ∀ (rf : BitVec 5 → W) (w : W) {L : SS}, L.Calm →
    ∃ L', stepText cfg rf w L = .ok L' ∧ L'.Calm := by
  refine ⟨⟨⟨rfl, rfl, rfl⟩, ⟨rfl, rfl, rfl⟩, ⟨rfl, rfl, rfl⟩, ⟨rfl, rfl, rfl⟩⟩, fun {cfg} hst rf w L hL => ?_⟩
  have hc : SS.Calm { L with ss := clear L.ss } := ⟨hL.1, hL.2.1, hL.2.2.1, calm_clear hL.2.2.2⟩
  unfold stepText
  dsimp only
  by_cases h : IP.opcode w = 0x0b#7 ∧ cfg.simd = true
  · rw [if_pos h]
    cases ho : sel (IP.funct7 w) (IP.funct3 w) with
    | none => exact ⟨_, rfl, hc⟩
    | some op =>
      obtain ⟨z, zc, za, zb, h1, h2, h3, h4⟩ := out_all ho (rf (IP.rs1 w)) (rf (IP.rs2 w)) (rf (IP.rd w)) (IP.rs2 w)
      refine ⟨_, ?_, (put_reads h2 h3 h4 hc (IP.rd w)).1⟩
      simp only [hst, h1, Res.bind_ok]
  · rw [if_neg h]
    exact ⟨_, rfl, hc⟩
/-- **C98**: any other instruction, and any instruction without a destination, adds nothing -/
theorem log_silent {cfg : Cfg} {rf : BitVec 5 → W} {w : W} {L L' : SS} (h : stepText cfg rf w L = .ok L')
    (ho : IP.opcode w ≠ 0x0b#7 ∨ cfg.simd = false ∨ sel (IP.funct7 w) (IP.funct3 w) = none ∨ IP.rd w = 0#5) : L'.ss.text = [] := by
  unfold stepText at h
  dsimp only at h
  by_cases hc : IP.opcode w = 0x0b#7 ∧ cfg.simd = true
  · rw [if_pos hc] at h
    cases hs : sel (IP.funct7 w) (IP.funct3 w) with
    | none => rw [hs] at h; simp only [Res.ok.injEq] at h; subst h; rfl
    | some op =>
      have h0 : IP.rd w = 0#5 := by
        rcases ho with ho | ho | ho | ho
        · exact absurd hc.1 ho
        · rw [hc.2] at ho; cases ho
        · rw [hs] at ho; cases ho
        · exact ho
      rw [hs] at h
      simp only at h
      cases hz : out cfg.strict op (rf (IP.rs1 w)) (rf (IP.rs2 w)) (rf (IP.rd w)) (IP.rs2 w) with
      | ok z =>
        rw [hz, Res.bind_ok, Res.ok.injEq] at h
        subst h
        have hf : ∀ c a b, finish (IP.rd w) z.2 c a b = [] := fun c a b => if_pos h0
        unfold put
        dsimp only
        rw [hf]
        rfl
      | ub u => rw [hz] at h; cases h
      | abort => rw [hz] at h; cases h
  · rw [if_neg hc, Res.ok.injEq] at h
    subst h
    rfl

/-! ## Where the log is wrong -/
section
open Ex

/-- what is read of the text of `m x5, x1, x2` (or of index 2) with the registers given -/
def readAt (m a b : W) (imm : BitVec 5) : Option (List (List Char × List Int)) :=
  match stepText env0.cfg (fun r => if r = 1#5 then a else if r = 2#5 then b else 0#32) (xWord m 5#5 1#5 imm) SS.init with
  | .ok L => readTable L.ss.text
  | _ => none

/-- **C98 fails**: `add16` shows the sum, not the element: 32767 + 1 = 32768, though the element is -32768 -/
theorem add_unwrapped : readAt 0xb#32 0x7fff#32 1#32 2#5 =
      some [("RD".toList, [32768, 0]), ("RS1".toList, [32767, 0]), ("RS2".toList, [1, 0])] ∧
    nums true 16 0x8000#32 = [-32768, 0] := ⟨by decide +kernel, by decide +kernel⟩
/-- **C98 fails**: `mul16` and `mulh16` show signed operands with an unsigned result: -1 * 1 = 65535 -/
theorem mul_unsigned : readAt 0x400000b#32 0xffff#32 1#32 2#5 =
      some [("RD".toList, [65535, 0]), ("RS1".toList, [-1, 0]), ("RS2".toList, [1, 0])] ∧
    readAt 0x400400b#32 0xffff#32 1#32 2#5 =
      some [("RD".toList, [65535, 0]), ("RS1".toList, [-1, 0]), ("RS2".toList, [1, 0])] ∧
    nums true 16 0xffff#32 = [-1, 0] := ⟨by decide +kernel, by decide +kernel, by decide +kernel⟩
/-- **C98 fails**: `wmul16u` shows unsigned operands with a signed result: 65535 * 65535 = -131071 -/
theorem wmul_signed : readAt 0x600100b#32 0xffff#32 0xffff#32 2#5 =
      some [("RD".toList, [-131071, 0]), ("RS1".toList, [65535, 0]), ("RS2".toList, [65535, 0])] ∧
    pairNums false 32 (0xfffe0001#32, 0#32) = [4294836225, 0] := ⟨by decide +kernel, by decide +kernel⟩
/-- **C98 fails**: `srai16` shows a negative operand sign extended to 32 bits, in an element of four digits -/
theorem srai_source : readAt 0x1200500b#32 0x8000#32 0#32 2#5 =
      some [("RD".toList, [0xe000, 0]), ("RS1".toList, [0xffff8000, 0]), ("SHAMT".toList, [2])] ∧
    nums false 16 0x8000#32 = [0x8000, 0] ∧ nums true 16 0x8000#32 = [-32768, 0] := ⟨by decide +kernel, by decide +kernel, by decide +kernel⟩
/-- **C98 fails**: `widen8u` shows the number shifted, not the 16-bit element: 255 << 12 = 1044480 -/
theorem widen_unwrapped : readAt 0x4000100b#32 0xff#32 0#32 12#5 =
      some [("RD".toList, [1044480, 0, 0, 0]), ("RS1".toList, [255, 0, 0, 0]), ("SHAMT".toList, [12])] ∧
    nums false 16 0xf000#32 = [61440, 0] := ⟨by decide +kernel, by decide +kernel⟩
/-- **C98 fails**: `vext16u` shows the element extracted unsigned and the operand signed -/
theorem vext_source : readAt 0x7a00100b#32 0xffff#32 0#32 0#5 =
      some [("RD".toList, [65535]), ("RS1".toList, [-1, 0]), ("IDX".toList, [0])] := by decide +kernel

/-! ## Concrete cases -/

-- simd_log_partial: qadd8 x5, x1, x2; simd_pair_log_partial: wmul8 x30, x1, x2
example : env0.cfg.simd = true ∧ (X1.qadd 8 true).match? = some 0x200200b#32 ∧ X1.hostOk env0.cfg.strict (.qadd 8 true) ∧
    Ready env0 (stI (xWord 0x200200b#32 5#5 1#5 2#5)) (xWord 0x200200b#32 5#5 1#5 2#5) ∧ SS.init.Calm :=
  ⟨rfl, rfl, trivial, by ready_ex, log_calm.1⟩
example : readAt 0x200200b#32 0x7f80#32 0x0180#32 2#5 =
    some [("RD".toList, [-128, 127, 0, 0]), ("RS1".toList, [-128, 127, 0, 0]), ("RS2".toList, [-128, 1, 0, 0])] := by decide +kernel
example : env0.cfg.simd = true ∧ (X2.wmul 8 true).match? = some 0x600200b#32 ∧ X2.hostOk env0.cfg.strict (.wmul 8 true) ∧
    Ready env0 (stI (xWord 0x600200b#32 30#5 1#5 2#5)) (xWord 0x600200b#32 30#5 1#5 2#5) :=
  ⟨rfl, rfl, fun _ h => absurd h (by decide), by ready_ex⟩
example : readAt 0x600200b#32 0x7f80#32 0x0180#32 2#5 =
    some [("RD".toList, [16384, 127, 0, 0]), ("RS1".toList, [-128, 127, 0, 0]), ("RS2".toList, [-128, 1, 0, 0])] := by decide +kernel
-- record_ends: a step with a record
example : (match stepD env0 ⟨true, [], "RD = [ 1 ]; ".toList⟩ DS.init (st0 env0 [xWord 0x200200b#32 5#5 1#5 2#5]) with
    | .ok ((o, _), _) => o.isSome | _ => false) = true := by decide +kernel
-- log_calm: the cores of these examples have defined host arithmetic; log_silent: addi, qadd8 into x0
example : env0.cfg.strict = false ∧ IP.opcode 0x00108093#32 ≠ 0x0b#7 ∧ IP.rd (xWord 0x200200b#32 0#5 1#5 2#5) = 0#5 :=
  ⟨rfl, by decide, by decide⟩
end

end Ama.SimdText
