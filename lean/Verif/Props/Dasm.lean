import Verif.Lemmas.DasmLeft
import Verif.Lemmas.ProfName
import Verif.Lemmas.Ex
/-!
# C68, C69, C70: the execution log
-/
namespace Ama.Dasm
open M Spec Spec.Asm Spec.Log
variable {σ : Type} {E : Env σ}

/-! ## C68: a record is the instruction -/

/-- The instruction words whose operands are all printed. Left out: `fence` with operands other than the default, `c.lui`
hints, and SIMD words whose unused bits of `rs2` are not 0. -/
inductive Listed : W → Prop
  /-- RV32IM, Zbb minimum and maximum, `mret`, `wfi`, `fence`, `fence.i` -/
  | base (i : Instr) (h : ∀ imm rs1 rd, i = .fence imm rs1 rd → imm = 0x0ff#12 ∧ rs1 = 0#5 ∧ rd = 0#5) : Listed (encode i)
  /-- Zicsr -/
  | csr (a : BitVec 12) (f3 : BitVec 3) (rd rs1 : BitVec 5) (h0 : f3 ≠ 0#3) (h4 : f3 ≠ 4#3) :
      Listed (encI a rs1 f3 rd 0x73#7)
  /-- the custom group: the lane number of `vins` and `vext` is below the number of lanes, `rs2` is 0 in `dup` and `scp` -/
  | simd (f7 : BitVec 7) (f3 : BitVec 3) (rd rs1 rs2 : BitVec 5)
      (hl : f7 = 0x3d#7 ∨ (f7 = 0x3c#7 ∧ f3.toNat % 2 = 1) → rs2.toNat < 2 * 2 ^ (f3.toNat / 2))
      (hu : f7 = 0x7f#7 ∨ (f7 = 0x3c#7 ∧ f3.toNat % 2 = 0) → rs2 = 0#5) : Listed (encR f7 rs2 rs1 f3 rd 0x0b#7)
  /-- RVC -/
  | comp (i : CInstr) (hl : i.legal) (h : ∀ rd imm, i = .lui rd imm → rd ≠ 0#5) : Listed (encodeC i)

theorem lane_lt : ∀ (f3 : BitVec 3) (x : BitVec 5), x.toNat < 2 * 2 ^ (f3.toNat / 2) → x &&& laneMask f3 = x := by decide
theorem odd_iff : ∀ f3 : BitVec 3, f3 &&& 1#3 ≠ 0#3 ↔ f3.toNat % 2 = 1 := by decide
theorem even_iff : ∀ f3 : BitVec 3, f3 &&& 1#3 = 0#3 ↔ f3.toNat % 2 = 0 := by decide

theorem cop_encode (i : Instr) : IP.copcode (encode i) = 3#2 := by
  cases i with
  | alu op rd rs1 rs2 => rw [copcode_opcode, encode, (decode_R ..).1]; rfl
  | alui op rd rs1 imm => rw [copcode_opcode, encode, (decode_I ..).1]; rfl
  | shift op rd rs1 sh => rw [copcode_opcode, encode, (decode_R ..).1]; rfl
  | lui rd imm => rw [copcode_opcode, encode, (decode_U ..).1]; rfl
  | auipc rd imm => rw [copcode_opcode, encode, (decode_U ..).1]; rfl
  | load op rd rs1 imm => rw [copcode_opcode, encode, (decode_I ..).1]; rfl
  | store op rs2 rs1 imm => rw [copcode_opcode, encode, (decode_S ..).1]; rfl
  | branch op rs1 rs2 off => rw [copcode_opcode, encode, (decode_B _ (dbl_even off) ..).1]; rfl
  | jal rd off => rw [copcode_opcode, encode, (decode_J _ (dbl_even off) ..).1]; rfl
  | jalr rd rs1 imm => rw [copcode_opcode, encode, (decode_I ..).1]; rfl
  | fence imm rs1 rd => rw [copcode_opcode, encode, (decode_I ..).1]; rfl
  | _ => decide
theorem cop_encodeC (i : CInstr) : IP.copcode (encodeC i) ≠ 3#2 := by
  cases i with
  | addi4spn rd imm => rw [encodeC, (decode_CADDI4SPN _ (scale_mod4 10 imm) _).1]; decide
  | lw rd rs1 imm => rw [encodeC, (decode_CLS _ _ (scale_mod4 7 imm) _ _).1]; decide
  | sw rs2 rs1 imm => rw [encodeC, (decode_CLS _ _ (scale_mod4 7 imm) _ _).1]; decide
  | addi rd imm => rw [encodeC, (decode_CI ..).1]; decide
  | jal off => rw [encodeC, (decode_CJ _ _ (scale_even 12 off)).1]; decide
  | li rd imm => rw [encodeC, (decode_CI ..).1]; decide
  | addi16sp imm => rw [encodeC, (decode_CADDI16SP _ (scale_mod16 10 imm)).1]; decide
  | lui rd imm => rw [encodeC, (decode_CI ..).1]; decide
  | srli rd sh => rw [encodeC, (decode_CBA ..).1]; decide
  | srai rd sh => rw [encodeC, (decode_CBA ..).1]; decide
  | andi rd imm => rw [encodeC, (decode_CBA ..).1]; decide
  | alu op rd rs2 => rw [encodeC, (decode_CA ..).1]; decide
  | j off => rw [encodeC, (decode_CJ _ _ (scale_even 12 off)).1]; decide
  | beqz rs1 off => rw [encodeC, (decode_CB _ _ (scale_even 9 off) _).1]; decide
  | bnez rs1 off => rw [encodeC, (decode_CB _ _ (scale_even 9 off) _).1]; decide
  | slli rd sh => rw [encodeC, (decode_CI ..).1]; decide
  | lwsp rd imm => rw [encodeC, (decode_CLWSP _ (scale_mod4 8 imm) _).1]; decide
  | swsp rs2 imm => rw [encodeC, (decode_CSWSP _ (scale_mod4 8 imm) _).1]; decide
  | jr rs1 => rw [encodeC, (decode_CR ..).1]; decide
  | mv rd rs2 => rw [encodeC, (decode_CR ..).1]; decide
  | ebreak => rw [encodeC, (decode_CR ..).1]; decide
  | jalr rs1 => rw [encodeC, (decode_CR ..).1]; decide
  | add rd rs2 => rw [encodeC, (decode_CR ..).1]; decide

theorem env_trapped {c : W} {q q' : St σ} (e : eEnv c q = .ok ((), q')) : q'.trapped = true := by
  unfold eEnv at e
  rw [M.bind_ok (M.get_app _ _), trapInst_app] at e
  injection e with e; injection e with _ e
  rw [← e]; rfl
theorem env_traps {w : W} (hw : w = 0x73#32 ∨ w = 0x100073#32) {q q' : St σ} (h : exec32 E w q = .ok ((), q')) :
    q'.trapped = true := by
  have ho : IP.opcode w = 0x73#7 := by rcases hw with rfl | rfl <;> decide
  have h3 : ¬ IP.funct3 w ≠ 0#3 := by rcases hw with rfl | rfl <;> decide
  rw [exec32_system ho] at h
  unfold dSystem at h
  rw [if_neg h3] at h
  rcases hw with rfl | rfl
  · rw [if_pos rfl] at h; exact env_trapped h
  · rw [if_neg (by decide), if_pos rfl] at h; exact env_trapped h

theorem listed_asms {w : W} (hw : Listed w) {q q' : St σ} (he : exec E q = .ok ((), q')) (ht : q'.trapped = false)
    (hi : q'.inst = w) {r : Rec} (hr : r.w = w) (hrt : r.trapped = false) : Asms r.pc (tExec E.cfg r) r.w := by
  unfold tExec
  rcases exec_word he ht with ⟨h3, h2⟩ | ⟨h3, hc⟩ <;> rw [hi] at h3
  · rw [hr, if_neg (not_not_intro h3), ← hr]
    refine Asms.setInstW ?_ _
    rw [hi] at h2
    cases hw with
    | base i hf =>
      refine asm_32 _ _ hrt i ?_ hr
      cases i with
      | fence imm rs1 rd => exact hf _ _ _ rfl
      | ecall => rw [env_traps (.inl rfl) h2] at ht; cases ht
      | ebreak => rw [env_traps (.inr rfl) h2] at ht; cases ht
      | _ => trivial
    | csr a f3 rd rs1 h0 h4 =>
      have d := decode_I a rs1 f3 rd 0x73#7
      have ha := csr_known d.1 (by rw [d.2.2.1]; exact h0) h2 ht
      rw [d.2.2.2.2.2.1] at ha
      have e : tExec32 E.cfg.rv32c E.cfg.simd r = tSystem E.cfg.rv32c r := by
        unfold tExec32; rw [hr, d.1]; rfl
      rw [e]
      exact asm_csr _ hrt a f3 rd rs1 h0 h4 ha hr
    | simd f7 f3 rd rs1 rs2 hl hu =>
      have d := decode_R f7 rs2 rs1 f3 rd 0x0b#7
      obtain ⟨hs, op, hop⟩ := simd_known d.1 h2 ht
      have e : tExec32 E.cfg.rv32c E.cfg.simd r = tCustom r := by
        unfold tExec32; rw [hr, d.1]; show (if E.cfg.simd = true then _ else _) = _; rw [if_pos hs]
      rw [d.2.2.2.2.2, d.2.2.1] at hop
      rw [e]
      refine asm_simd hrt hop (fun hk => lane_lt _ _ (hl ?_)) (fun hk => hu ?_) hr
      · exact hk.imp id fun hk => ⟨hk.1, (odd_iff _).1 hk.2⟩
      · exact hk.imp id fun hk => ⟨hk.1, (even_iff _).1 hk.2⟩
    | comp i hl hs => exact absurd h3 (cop_encodeC i)
  · rw [hr, if_pos h3, if_pos hc, ← hr]
    refine Asms.setInstW ?_ _
    cases hw with
    | base i hf => exact absurd (cop_encode i) h3
    | csr a f3 rd rs1 h0 h4 => exact absurd (by rw [copcode_opcode, (decode_I ..).1]; rfl) h3
    | simd f7 f3 rd rs1 rs2 hl hu => exact absurd (by rw [copcode_opcode, (decode_R ..).1]; rfl) h3
    | comp i hl hs =>
      refine asm_16 hrt i hl ?_ hr
      cases i with
      | lui rd imm => exact hs _ _ rfl
      | _ => trivial

/-- **C68.** The text logged for an executed instruction that did not trap, read back by an assembler at the address of
the instruction, is the instruction: for every state, every naming mode, whatever was logged before.  Missing for the full
claim: the words left out of `Listed`, of which the witnesses below are logged as another instruction or ambiguously. -/
theorem log_reassembles_partial {L : LogIn} {d d' : DS} {t : List Char} {s s' : St σ} (hd : Clean d)
    (h : stepD E L d s = .ok ((some t, d'), s')) (ht : s'.trapped = false) (hw : Listed s'.inst) :
    assemble s.pc t = some s'.inst := by
  obtain ⟨qc, q1, he, -, -, h1, h2, -, -, -, -, rfl⟩ := stepD_exec h ht
  have hc : Clean (clear d) := hd
  rw [hc.mk_eq]
  exact listed_asms hw he h1 h2 (r := ⟨L.abi, s'.inst, s.pc, s.rf, s'.rf, s'.csr, false, L.msg⟩) rfl rfl _ _ _ _ _

/-- no two instructions have the same record at the same address -/
theorem log_injective_partial {L L' : LogIn} {d d' e e' : DS} {t : List Char} {s s' u u' : St σ} (hd : Clean d) (he : Clean e)
    (h : stepD E L d s = .ok ((some t, d'), s')) (ht : s'.trapped = false) (hw : Listed s'.inst)
    (h2 : stepD E L' e u = .ok ((some t, e'), u')) (ht2 : u'.trapped = false) (hw2 : Listed u'.inst) (hp : s.pc = u.pc) :
    s'.inst = u'.inst := by
  have a := log_reassembles_partial hd h ht hw
  have b := log_reassembles_partial he h2 ht2 hw2
  rw [hp, b] at a
  exact (Option.some.inj a).symm

/-- the stream a run starts with, and the stream after each step -/
theorem log_stream_clean : Clean DS.init ∧ ∀ {L : LogIn} {d d' : DS} {o : Option (List Char)} {s s' : St σ},
    stepD E L d s = .ok ((o, d'), s') → Clean d → Clean d' := ⟨⟨rfl, rfl⟩, fun h hd => clean_step h hd⟩

/-! ## C69: the notes are true -/

/-- **C69, registers.** Every register an instruction that did not trap has changed is noted with its new value. -/
theorem log_notes_registers {L : LogIn} {d d' : DS} {t : List Char} {s s' : St σ} (hd : Clean d)
    (h : stepD E L d s = .ok ((some t, d'), s')) (ht : s'.trapped = false) {j : BitVec 5} (hj : s'.rf j ≠ s.rf j) :
    regNote L.abi j (s'.rf j) <:+: t := by
  obtain ⟨qc, q1, he, -, h0, h1, h2, h3, -, -, -, rfl⟩ := stepD_exec h ht
  have hc : Clean (clear d) := hd
  rw [← h3, ← h0] at hj
  exact noted_exec he h1 (r := ⟨L.abi, s'.inst, s.pc, s.rf, s'.rf, s'.csr, false, L.msg⟩) h2.symm rfl hj _ _ hc

theorem store_rf {w : W} (hw : IP.opcode w = 0x23#7) {q q' : St σ} (h : exec32 E w q = .ok ((), q')) : q'.rf = q.rf := by
  have e : exec32 E w = dStore E w := by unfold exec32; rw [hw]; rfl
  rw [e] at h
  funext j
  exact fr_store w _ _ _ rfl h

/-- **C69, loads.** The address a load read is noted (a load into x0 has no note). -/
theorem log_notes_load {L : LogIn} {d d' : DS} {t : List Char} {s s' : St σ} (hd : Clean d)
    (h : stepD E L d s = .ok ((some t, d'), s')) (ht : s'.trapped = false) {op : LoadOp} {rd rs1 : BitVec 5} {imm : BitVec 12}
    (hw : s'.inst = encode (.load op rd rs1 imm)) (h0 : rd ≠ 0#5) :
    loadNote (s.rf rs1 + imm.signExtend 32) <:+: t := by
  obtain ⟨qc, q1, he, -, h0', h1, h2, h3, -, -, -, rfl⟩ := stepD_exec h ht
  have hc : Clean (clear d) := hd
  have D := decode_I imm rs1 (loadF op) rd 0x03#7
  generalize hr : (⟨L.abi, s'.inst, s.pc, s.rf, s'.rf, s'.csr, false, L.msg⟩ : Rec) = r
  have r1 : r.w = encI imm rs1 (loadF op) rd 0x03#7 := by rw [← hr]; exact hw
  have r2 : r.trapped = false := by rw [← hr]
  have r3 : r.rf0 = s.rf := by rw [← hr]
  have e : tExec E.cfg r = setInstW 8 :: tLoad r := by
    unfold tExec tExec32
    rw [copcode_opcode, r1, D.1, if_neg (by decide)]
    rfl
  rw [e]
  unfold tLoad
  rw [r2, r1, D.2.2.1, loadSel_enc, D.2.1, D.2.2.2.1, D.2.2.2.2.1]
  dsimp only
  rw [if_neg (by decide), if_neg h0, BitVec.add_comm, r3, rdUpdate, r1, D.2.1]
  exact load_in L.simd (r := r) (i := rd) (as := setInstW 8 :: (setOp (loadText op).toList :: opRd r ++
      [lit ",", i32 (imm.signExtend 32), lit "(", nm r rs1, lit ")"])) h0 (by cl) hc

/-- **C69, stores.** The address and the register of a store are noted, with the value the register held — if the stream
adjusts right (`log_right` says when).  Of a byte or halfword store the note shows the whole register. -/
theorem log_notes_store_partial {L : LogIn} {d d' : DS} {t : List Char} {s s' : St σ} (hd : Clean d) (hl : d.left = false)
    (h : stepD E L d s = .ok ((some t, d'), s')) (ht : s'.trapped = false) {op : StoreOp} {rs2 rs1 : BitVec 5} {imm : BitVec 12}
    (hw : s'.inst = encode (.store op rs2 rs1 imm)) :
    storeNote L.abi (s.rf rs1 + imm.signExtend 32) rs2 (s.rf rs2) <:+: t := by
  obtain ⟨qc, q1, he, -, h0', h1, h2, h3, -, -, -, rfl⟩ := stepD_exec h ht
  have hc : Clean (clear d) := hd
  have D := decode_S imm rs2 rs1 (storeF op) 0x23#7
  have hrf : s'.rf = s.rf := by
    rcases exec_word he h1 with ⟨_, hx⟩ | ⟨hx, _⟩
    · rw [h2, hw] at hx
      rw [← h3, ← h0']
      exact store_rf D.1 hx
    · rw [h2, hw] at hx
      exact absurd (cop_encode _) hx
  generalize hr : (⟨L.abi, s'.inst, s.pc, s.rf, s'.rf, s'.csr, false, L.msg⟩ : Rec) = r
  have r1 : r.w = encS imm rs2 rs1 (storeF op) 0x23#7 := by rw [← hr]; exact hw
  have r2 : r.trapped = false := by rw [← hr]
  have r3 : r.rf1 = s.rf := by rw [← hr]; exact hrf
  have r4 : r.abi = L.abi := by rw [← hr]
  have e : tExec E.cfg r = setInstW 8 :: tStore r := by
    unfold tExec tExec32
    rw [copcode_opcode, r1, D.1, if_neg (by decide)]
    rfl
  rw [e]
  unfold tStore memUpdate
  rw [r2, r1, D.2.1, storeSel_enc, D.2.2.1, D.2.2.2.1, D.2.2.2.2]
  dsimp only
  rw [if_neg (by decide), ← r3, ← r4]
  exact store_in L.simd (r := r) (as := setInstW 8 :: (setOp (storeText op).toList ::
    [putOp, lit " ", nm r rs2, lit ",", i32 (imm.signExtend 32), lit "(", nm r rs1, lit ")"])) (by cl) (by rt) hc hl

theorem fr_exec16_store {i : CInstr} (hi : (∃ a b c, i = .sw a b c) ∨ ∃ a b, i = .swsp a b) {q q' : St σ} {w : W}
    (h : exec16 E (encodeC i) { q with inst := w } = .ok ((), q')) : q'.rf = q.rf := by
  funext j
  rcases hi with ⟨a, b, c, rfl⟩ | ⟨a, b, rfl⟩
  · rw [sel_sw] at h
    exact (fr_cStore (j := j) (v := q.rf j) _) _ _ _ (show ({ q with inst := w } : St σ).rf j = q.rf j from rfl) h
  · rw [sel_swsp] at h
    exact (fr_cStore (j := j) (v := q.rf j) _) _ _ _ (show ({ q with inst := w } : St σ).rf j = q.rf j from rfl) h

/-- **C69, compressed stores**: likewise. -/
theorem log_notes_c_store_partial {L : LogIn} {d d' : DS} {t : List Char} {s s' : St σ} (hd : Clean d) (hl : d.left = false)
    (h : stepD E L d s = .ok ((some t, d'), s')) (ht : s'.trapped = false) {i : CInstr} (hw : s'.inst = encodeC i)
    {rs2 rs1 : BitVec 5} {imm : BitVec 12} (hi : expand i = .store .sw rs2 rs1 imm) :
    storeNote L.abi (s.rf rs1 + imm.signExtend 32) rs2 (s.rf rs2) <:+: t := by
  obtain ⟨qc, q1, he, -, h0', h1, h2, h3, -, -, -, rfl⟩ := stepD_exec h ht
  have hc : Clean (clear d) := hd
  have hcc : E.cfg.rv32c = true := by
    rcases exec_word he h1 with ⟨hx, _⟩ | ⟨_, hx⟩
    · rw [h2, hw] at hx; exact absurd hx (cop_encodeC i)
    · exact hx
  have hx := exec_word16 he (by rw [h2, hw]; exact cop_encodeC i) h1
  rw [h2, hw] at hx
  have hrf (hs : (∃ a b c, i = .sw a b c) ∨ ∃ a b, i = .swsp a b) : s'.rf = s.rf := by
    rw [← h3, ← h0']
    exact fr_exec16_store hs hx
  generalize hr : (⟨L.abi, s'.inst, s.pc, s.rf, s'.rf, s'.csr, false, L.msg⟩ : Rec) = r
  have r1 : r.w = encodeC i := by rw [← hr]; exact hw
  have r2 : r.trapped = false := by rw [← hr]
  have r3 (hs : (∃ a b c, i = .sw a b c) ∨ ∃ a b, i = .swsp a b) : r.rf1 = s.rf := by rw [← hr]; exact hrf hs
  have r4 : r.abi = L.abi := by rw [← hr]
  have e : tExec E.cfg r = setInstW 4 :: tExec16 r := by
    unfold tExec
    rw [r1, if_pos (cop_encodeC i), if_pos hcc]
  rw [e]
  cases i with
  | sw a b c =>
    have D := decode_CLS 6#3 (scale 7 2 c) (scale_mod4 7 c) b a
    cases hi
    have e2 : tExec16 r = tcSw r := by
      unfold tExec16; rw [r1, encodeC, D.1]; show tCompressed0 r = _
      unfold tCompressed0; rw [r1, encodeC, D.2.1]; rfl
    rw [e2]
    unfold tcSw
    rw [r2, if_neg (by decide), r1, encodeC, D.2.2.1, D.2.2.2.1, D.2.2.2.2.1, immLw, BitVec.add_comm, ← r4,
      ← r3 (.inl ⟨a, b, c, rfl⟩)]
    exact store_in L.simd (r := r) (as := setInstW 4 :: [setOp "c.sw".toList, putOp, lit " ", nm r (creg a), lit ",",
      i32 ((scale 12 2 c).signExtend 32), lit "(", nm r (creg b), lit ")"]) (by cl) (by rt) hc hl
  | swsp a c =>
    have D := decode_CSWSP (scale 8 2 c) (scale_mod4 8 c) a
    cases hi
    have e2 : tExec16 r = tcSwsp r := by
      unfold tExec16; rw [r1, encodeC, D.1]; show tCompressed2 r = _
      unfold tCompressed2; rw [r1, encodeC, D.2.1]; rfl
    rw [e2]
    unfold tcSwsp
    rw [r2, if_neg (by decide), r1, encodeC, D.2.2.1, D.2.2.2.1, immLwsp, BitVec.add_comm, ← r4,
      ← r3 (.inr ⟨_, c, rfl⟩)]
    exact store_in L.simd (r := r) (as := setInstW 4 :: [setOp "c.swsp".toList, putOp, lit " ", nm r _, lit ",",
      i32 ((scale 12 2 c).signExtend 32), lit "(", nm r 2#5, lit ")"]) (by cl) (by rt) hc hl
  | _ => cases hi

/-- **C69, `c.lwsp`**, if it does not load the stack pointer itself. -/
theorem log_notes_c_lwsp_partial {L : LogIn} {d d' : DS} {t : List Char} {s s' : St σ} (hd : Clean d)
    (h : stepD E L d s = .ok ((some t, d'), s')) (ht : s'.trapped = false) {rd : BitVec 5} {imm : BitVec 6}
    (hw : s'.inst = encodeC (.lwsp rd imm)) (h0 : rd ≠ 0#5) (hsp : rd ≠ 2#5) :
    loadNote (s.rf 2#5 + (scale 12 2 imm).signExtend 32) <:+: t := by
  obtain ⟨qc, q1, he, -, h0', h1, h2, h3, -, -, -, rfl⟩ := stepD_exec h ht
  have hc : Clean (clear d) := hd
  have hcc : E.cfg.rv32c = true := by
    rcases exec_word he h1 with ⟨hx, _⟩ | ⟨_, hx⟩
    · rw [h2, hw] at hx; exact absurd hx (cop_encodeC _)
    · exact hx
  have hx := exec_word16 he (by rw [h2, hw]; exact cop_encodeC _) h1
  rw [h2, hw, sel_lwsp] at hx
  have hrf : s'.rf 2#5 = s.rf 2#5 := by
    rw [← h3, ← h0']
    exact (fr_cLoad (j := 2#5) (v := qc.rf 2#5) (.inl hsp.symm) _) _ _ _
      (show ({ qc with inst := encodeC (.lwsp rd imm) } : St σ).rf 2#5 = qc.rf 2#5 from rfl) hx
  have D := decode_CLWSP (scale 8 2 imm) (scale_mod4 8 imm) rd
  generalize hr : (⟨L.abi, s'.inst, s.pc, s.rf, s'.rf, s'.csr, false, L.msg⟩ : Rec) = r
  have r1 : r.w = encodeC (.lwsp rd imm) := by rw [← hr]; exact hw
  have r2 : r.trapped = false := by rw [← hr]
  have r3 : r.rf1 2#5 = s.rf 2#5 := by rw [← hr]; exact hrf
  have e : tExec E.cfg r = setInstW 4 :: tcLwsp r := by
    unfold tExec tExec16
    rw [r1, if_pos (cop_encodeC _), if_pos hcc, encodeC, D.1]
    show _ :: tCompressed2 r = _
    unfold tCompressed2; rw [r1, encodeC, D.2.1]; rfl
  rw [e]
  unfold tcLwsp
  rw [r2, if_neg (by decide), r1, encodeC, D.2.2.1, if_neg h0, D.2.2.2.1, immLwsp, BitVec.add_comm, r3, rdUpdate, r1,
    encodeC, D.2.2.1]
  exact load_in L.simd (r := r) (i := rd) (as := setInstW 4 :: (setOp "c.lwsp".toList :: opRd r ++
    [lit ",", i32 ((scale 12 2 imm).signExtend 32), lit "(", nm r 2#5, lit ")"])) h0 (by cl) hc

/-- **C69, `c.lw`**, if bits 11:7 of the instruction (part of the offset and the base register) are not all 0. -/
theorem log_notes_c_lw_partial {L : LogIn} {d d' : DS} {t : List Char} {s s' : St σ} (hd : Clean d)
    (h : stepD E L d s = .ok ((some t, d'), s')) (ht : s'.trapped = false) {rd' rs1' : BitVec 3} {imm : BitVec 5}
    (hw : s'.inst = encodeC (.lw rd' rs1' imm)) (h0 : s'.inst.extractLsb' 7 5 ≠ 0#5) :
    loadNote (s.rf (creg rs1') + (scale 12 2 imm).signExtend 32) <:+: t := by
  obtain ⟨qc, q1, he, -, h0', h1, h2, h3, -, -, -, rfl⟩ := stepD_exec h ht
  have hc : Clean (clear d) := hd
  have hcc : E.cfg.rv32c = true := by
    rcases exec_word he h1 with ⟨hx, _⟩ | ⟨_, hx⟩
    · rw [h2, hw] at hx; exact absurd hx (cop_encodeC _)
    · exact hx
  have D := decode_CLS 2#3 (scale 7 2 imm) (scale_mod4 7 imm) rs1' rd'
  generalize hr : (⟨L.abi, s'.inst, s.pc, s.rf, s'.rf, s'.csr, false, L.msg⟩ : Rec) = r
  have r1 : r.w = encodeC (.lw rd' rs1' imm) := by rw [← hr]; exact hw
  have r2 : r.trapped = false := by rw [← hr]
  have r3 : r.rf0 = s.rf := by rw [← hr]
  have r5 : IP.rd r.w ≠ 0#5 := by
    have : IP.rd s'.inst = s'.inst.extractLsb' 7 5 := by fields [IP.rd]
    rw [← hr]
    show IP.rd s'.inst ≠ _
    rw [this]; exact h0
  have e : tExec E.cfg r = setInstW 4 :: tcLw r := by
    unfold tExec tExec16
    rw [r1, if_pos (cop_encodeC _), if_pos hcc, encodeC, D.1]
    show _ :: tCompressed0 r = _
    unfold tCompressed0; rw [r1, encodeC, D.2.1]; rfl
  rw [e]
  unfold tcLw
  rw [r2, if_neg (by decide), if_neg r5, r1, encodeC, D.2.2.1, D.2.2.2.1, D.2.2.2.2.1, immLw, BitVec.add_comm, r3]
  exact load_in L.simd (r := r) (i := creg rd') (as := setInstW 4 :: [setOp "c.lw".toList, putOp, lit " ", nm r (creg rd'), lit ",",
    i32 ((scale 12 2 imm).signExtend 32), lit "(", nm r (creg rs1'), lit ")"]) (creg_ne _) (by cl) hc

/-- **C69, CSRs.** An instruction that may write a CSR (an immediate form, or `rs1` not x0) notes its number, name and
value after the instruction — if a register note comes before it or the stream adjusts right. -/
theorem log_notes_csr_partial {L : LogIn} {d d' : DS} {t : List Char} {s s' : St σ} (hd : Clean d)
    (h : stepD E L d s = .ok ((some t, d'), s')) (ht : s'.trapped = false) {a : BitVec 12} {f3 : BitVec 3} {rd rs1 : BitVec 5}
    (hw : s'.inst = encI a rs1 f3 rd 0x73#7) (h0 : f3 ≠ 0#3) (hc : rs1 ≠ 0#5 ∨ 4 ≤ f3.toNat) (hl : rd ≠ 0#5 ∨ d.left = false) :
    ∃ name, Asm.csr name = some a ∧ csrNote (a.setWidth 16) name (s'.csr (a.setWidth 16)) <:+: t := by
  obtain ⟨qc, q1, he, -, h0', h1, h2, h3, -, -, -, rfl⟩ := stepD_exec h ht
  have hcl : Clean (clear d) := hd
  have D := decode_I a rs1 f3 rd 0x73#7
  have hx : exec32 E (encI a rs1 f3 rd 0x73#7) qc = .ok ((), q1) := by
    rcases exec_word he h1 with ⟨_, hx⟩ | ⟨hx, _⟩
    · rw [h2, hw] at hx; exact hx
    · rw [h2, hw] at hx
      exact absurd (by rw [copcode_opcode, D.1]; rfl) hx
  have ha := csr_known D.1 (by rw [D.2.2.1]; exact h0) hx h1
  rw [D.2.2.2.2.2.1] at ha
  refine ⟨_, (csr_name ha).1, ?_⟩
  generalize hr : (⟨L.abi, s'.inst, s.pc, s.rf, s'.rf, s'.csr, false, L.msg⟩ : Rec) = r
  have r1 : r.w = encI a rs1 f3 rd 0x73#7 := by rw [← hr]; exact hw
  have r2 : r.trapped = false := by rw [← hr]
  have r3 : r.csr1 = s'.csr := by rw [← hr]
  have e : tExec E.cfg r = setInstW 8 :: tCsr E.cfg.rv32c r := by
    unfold tExec tExec32
    rw [copcode_opcode, r1, D.1, if_neg (by decide)]
    show _ :: tSystem _ r = _
    unfold tSystem
    rw [r1, D.2.2.1, if_pos h0]
  rw [e]
  unfold tCsr
  have hc' : rs1 ≠ 0#5 ∨ 4#3 ≤ f3 := hc.imp id fun h => by rw [BitVec.le_def]; exact h
  rw [r1, D.2.2.2.2.2.1, D.2.2.1, D.2.2.2.1, D.2.1, rdUpdate, r1, D.2.1, ← r3]
  cases hi : csrInfo E.cfg.rv32c (a.setWidth 16) with
  | none => exact absurd hi ha
  | some e =>
    dsimp only
    rw [if_pos hc']
    have key : ∀ xs : List P, Cl xs → Rt xs → csrNote (a.setWidth 16) (csrNm (a.setWidth 16)) (r.csr1 (a.setWidth 16)) <:+:
        record (setInstW 8 :: (xs ++ rdUpdateP r rd ++ ((if rd ≠ 0#5 then [lit "; "] else []) ++
          align :: csrf r (a.setWidth 16)))) L.simd (clear d) := by
      intro xs hxs hxr
      have := csr_in (as := setInstW 8 :: (xs ++ rdUpdateP r rd ++ (if rd ≠ 0#5 then [lit "; "] else []))) (r := r)
        (a := a.setWidth 16) L.simd (d := clear d) (by cl; exact hxs) hcl (by
          rw [run_cons, run_append]
          have hz : ∀ z : DS, (run (if rd ≠ 0#5 then [lit "; "] else []) z).left = z.left := fun z => by split <;> rfl
          rw [hz, run_append]
          by_cases hr0 : rd = 0#5
          · rw [rdUpdateP, if_pos hr0]
            exact hxr _ (hl.resolve_left (not_not_intro hr0))
          · rw [rdUpdateP, if_neg hr0]; rfl)
      simpa only [List.cons_append, List.append_assoc] using this
    refine key _ ?_ ?_
    · cl
    · rt

/-! ### When the stream adjusts right -/

/-- destination x0 and an immediate shown in hexadecimal: `lui`, `auipc`, the immediate shifts, the custom group, `c.slli` -/
def Slip (w : W) : Prop := w.extractLsb' 7 5 = 0#5 ∧
  (w.extractLsb' 0 7 ∈ [0x37#7, 0x17#7, 0x0b#7] ∨ (w.extractLsb' 0 7 = 0x13#7 ∧ w.extractLsb' 12 3 ∈ [1#3, 5#3]) ∨
   (w.extractLsb' 0 2 = 2#2 ∧ w.extractLsb' 13 3 = 0#3))
instance (w : W) : Decidable (Slip w) := by unfold Slip; infer_instance
theorem slip_of {w : W} (h : SlipI w) : Slip w := by
  have a : IP.rd w = w.extractLsb' 7 5 := by fields [IP.rd]
  have b : IP.opcode w = w.extractLsb' 0 7 := by fields [IP.opcode]
  have c : IP.funct3 w = w.extractLsb' 12 3 := by fields [IP.funct3]
  have e : IP.copcode w = w.extractLsb' 0 2 := by fields [IP.copcode]
  have f : IP.cFunct3 w = w.extractLsb' 13 3 := by fields [IP.cFunct3]
  unfold SlipI at h
  rw [a, b, c, e, f] at h
  refine ⟨h.1, ?_⟩
  rcases h.2 with ⟨_, h | h | ⟨h, h'⟩ | h⟩ | h
  · exact .inl (by rw [h]; decide)
  · exact .inl (by rw [h]; decide)
  · exact .inr (.inl ⟨h, by rcases h' with h' | h' <;> rw [h'] <;> decide⟩)
  · exact .inl (by rw [h]; decide)
  · exact .inr (.inr h)

/-- the stream and the state after some steps from a fresh stream, none of which executed a `Slip` -/
inductive Logged (E : Env σ) : DS → St σ → Prop
  | start (s : St σ) : Logged E DS.init s
  | step {L : LogIn} {d d' : DS} {o : Option (List Char)} {s s' : St σ} (h : Logged E d s)
      (e : stepD E L d s = .ok ((o, d'), s')) (hs : ¬ Slip s'.inst) : Logged E d' s'

/-- **C69**: as long as no instruction of the kind `Slip` is executed, the stream adjusts right, so that the notes of stores
and CSRs are as `log_notes_store_partial` and `log_notes_csr_partial` say. -/
theorem log_right {d : DS} {s : St σ} (h : Logged E d s) : Clean d ∧ d.left = false := by
  induction h with
  | start => exact ⟨⟨rfl, rfl⟩, rfl⟩
  | step h e hs ih => exact ⟨clean_step e ih.1, rt_step e (fun h => hs (slip_of h)) ih.2⟩

/-! ### The numbers of the notes can be read back -/

theorem hexn_digits (n v a : Nat) (h : v < 16 ^ n) : digits? 16 a (hexn n v) = some (a * 16 ^ n + v) := by
  induction n generalizing v a with
  | zero =>
    have : v = 0 := by simpa using h
    subst this; simp [hexn, digits?]
  | succ n ih =>
    rw [hexn, digits_append, ih (v / 16) a (by rw [Nat.div_lt_iff_lt_mul (by decide)]; rwa [Nat.pow_succ] at h)]
    simp only [Option.bind_some, digits?, digit_char (Nat.mod_lt v (show 0 < 16 by decide)), if_pos (Nat.mod_lt v (show 0 < 16 by decide))]
    congr 1
    rw [Nat.pow_succ, ← Nat.mul_assoc]
    have := Nat.div_add_mod v 16
    generalize a * 16 ^ n = z
    omega
/-- the eight digits of a noted value are the value -/
theorem note_value (v : W) : nat? 16 (hexn 8 v.toNat) = some v.toNat := by
  have h : hexn 8 v.toNat ≠ [] := by
    rw [hexn]; intro h; simp at h
  unfold nat?
  rw [if_neg h, hexn_digits 8 _ 0 (by have := v.isLt; omega)]
  simp

/-! ## C70: the record of a trap -/

/-- **C70.** The record of a load, store, branch, `ecall` or `ebreak` that trapped is the text of the trap, and claims no
effect.  Missing for the full claim: it is false of other words, `log_trap_claims_store` below. -/
theorem log_trap_only_partial {L : LogIn} {d d' : DS} {t : List Char} {s s' : St σ}
    (h : stepD E L d s = .ok ((some t, d'), s')) (ht : s'.trapped = true)
    (hw : (∃ op rd rs1 imm, s'.inst = encode (.load op rd rs1 imm)) ∨ (∃ op rs2 rs1 imm, s'.inst = encode (.store op rs2 rs1 imm)) ∨
      (∃ op rs1 rs2 off, s'.inst = encode (.branch op rs1 rs2 off)) ∨ s'.inst = encode .ecall ∨ s'.inst = encode .ebreak) :
    ∃ n, t = L.msg ++ List.replicate n ' ' ++ L.simd := by
  rcases stepD_trap h ht with rfl | ⟨r, h1, h2, h3, rfl⟩
  · exact record_trap _ _ _
  rw [← h1] at hw
  have e32 : ∀ {o : BitVec 7}, IP.opcode r.w = o → o.setWidth 2 = 3#2 → tExec E.cfg r = setInstW 8 :: tExec32 E.cfg.rv32c E.cfg.simd r := by
    intro o ho h3
    unfold tExec
    rw [copcode_opcode, ho, if_neg (not_not_intro h3)]
  have fin : ∀ d, ∃ n, record [setInstW 8, trap r.msg] L.simd d = L.msg ++ List.replicate n ' ' ++ L.simd := fun d => by
    rw [h3]; exact record_trap _ _ (setInstW 8 d)
  rcases hw with ⟨op, rd, rs1, imm, hw⟩ | ⟨op, rs2, rs1, imm, hw⟩ | ⟨op, rs1, rs2, off, hw⟩ | hw | hw
  · have D := decode_I imm rs1 (loadF op) rd 0x03#7
    have e : tExec32 E.cfg.rv32c E.cfg.simd r = [trap r.msg] := by
      unfold tExec32
      rw [hw, encode, D.1]
      show tLoad r = _
      unfold tLoad
      rw [hw, encode, D.2.2.1, loadSel_enc, h2]; rfl
    rw [e32 (by rw [hw, encode, D.1]) (by decide), e]
    exact fin _
  · have D := decode_S imm rs2 rs1 (storeF op) 0x23#7
    have e : tExec32 E.cfg.rv32c E.cfg.simd r = [trap r.msg] := by
      unfold tExec32
      rw [hw, encode, D.1]
      show tStore r = _
      unfold tStore
      rw [hw, encode, D.2.1, storeSel_enc, h2]; rfl
    rw [e32 (by rw [hw, encode, D.1]) (by decide), e]
    exact fin _
  · have D := decode_B (dbl off) (dbl_even off) rs2 rs1 (branchF op) 0x63#7
    have e : tExec32 E.cfg.rv32c E.cfg.simd r = [setOp (branchText op).toList, trap r.msg] := by
      unfold tExec32
      rw [hw, encode, D.1]
      show tBranch r = _
      unfold tBranch
      rw [hw, encode, D.2.1, branchSel_enc, h2]; rfl
    rw [e32 (by rw [hw, encode, D.1]) (by decide), e]
    rw [h3]
    exact record_trap _ _ (setOp (branchText op).toList (setInstW 8 (clear d)))
  · rw [e32 (o := 0x73#7) (by rw [hw]; decide) (by decide)]
    have e : tExec32 E.cfg.rv32c E.cfg.simd r = [trap r.msg] := by
      unfold tExec32
      rw [hw]
      show tSystem _ r = _
      unfold tSystem
      rw [hw]; rfl
    rw [e]; exact fin _
  · rw [e32 (o := 0x73#7) (by rw [hw]; decide) (by decide)]
    have e : tExec32 E.cfg.rv32c E.cfg.simd r = [trap r.msg] := by
      unfold tExec32
      rw [hw]
      show tSystem _ r = _
      unfold tSystem
      rw [hw]; rfl
    rw [e]; exact fin _

/-! ## C71: logging does not change what a program does -/

/-- **C71.** A step of the build with the log ends as the step of the build without it: in the same state, or in the same
undefined behaviour, whatever was logged before. -/
theorem log_step_same (L : LogIn) (d : DS) (s : St σ) : step E s = match stepD E L d s with
    | .ok (_, s') => .ok ((), s')
    | .ub k => .ub k
    | .abort => .abort := by
  rw [stepD_same (E := E) L d s]
  rcases stepD E L d s with ⟨_, _⟩ | _ | _ <;> rfl
/-- and so do whole runs of any length -/
theorem log_run_same (L : Nat → LogIn) (n : Nat) (d : DS) (s : St σ) : runN E n s = match runD E L n d s with
    | .ok (_, s') => .ok ((), s')
    | .ub k => .ub k
    | .abort => .abort := by
  rw [runD_same (E := E) L n d s]
  rcases runD E L n d s with ⟨_, _⟩ | _ | _ <;> rfl

/-! ## Concrete runs -/

/-- the records of the first `n` steps of a program, with the final registers -/
def recs (E : Env Unit) (n : Nat) (ws : List W) : Option (List (Option (List Char)) × (BitVec 5 → W) × Bool) :=
  match runD E (fun _ => ⟨false, "TRAP".toList, []⟩) n DS.init (Ex.st0 E ws) with
  | .ok ((l, _), s) => some (l, s.rf, s.trapped)
  | _ => none
/-- with the C extension -/
def envC : Env Unit := { Ex.env0 with cfg := { Ex.cfg0 with rv32c := true } }

/-- a run in which every record reads back as its instruction, and none is a `Slip` -/
example : (recs Ex.env0 3 [encode (.lui 2#5 0x80001#20), encode (.alui .addi 1#5 2#5 0xfff#12), encode (.store .sw 1#5 2#5 4#12)]).any
    (fun x => x.1 == [some "lui x2, 0x80001               x2 : 0x80001000  ".toList,
      some "addi x1,x2,-1                 x1 : 0x80000fff  ".toList,
      some "sw x1,4(x2)                   mem[80001004] <- x1 (0x80000fff)  ".toList] && x.2.2 == false) = true := by
  decide +kernel
example : Listed (encode (.store .sw 1#5 2#5 4#12)) ∧ ¬ Slip (encode (.store .sw 1#5 2#5 4#12)) ∧
    storeNote false 0x80001004#32 1#5 0x80000fff#32 = "mem[80001004] <- x1 (0x80000fff)".toList ∧
    regNote false 1#5 0x80000fff#32 = "x1 : 0x80000fff".toList ∧ regNote true 1#5 0x80000fff#32 = "ra  : 0x80000fff".toList :=
  ⟨.base _ (fun _ _ _ h => by cases h), by decide, by decide, by decide, by decide⟩
example : assemble 0x80000000#32 "lui x2, 0x80001               x2 : 0x80001000  ".toList = some (encode (.lui 2#5 0x80001#20)) := by
  decide +kernel

/-- two different fences have the same record (why C68 is partial) -/
theorem log_fence_ambiguous : (recs Ex.env0 1 [encode (.fence 0x033#12 0#5 0#5)]).map Prod.fst =
    (recs Ex.env0 1 [encode (.fence 0x0ff#12 0#5 0#5)]).map Prod.fst ∧
    (recs Ex.env0 1 [encode (.fence 0x033#12 0#5 0#5)]).any (fun x => x.2.2 == false) = true ∧
    encode (.fence 0x033#12 0#5 0#5) ≠ encode (.fence 0x0ff#12 0#5 0#5) := by decide +kernel
/-- the hint `c.lui x0,5` is logged as `c.nop` (why C68 is partial) -/
theorem log_c_lui_hint : (recs envC 1 [encodeC (.lui 0#5 5#6)]).any (fun x =>
    (x.1.head?.join.bind fun t => assemble 0x80000000#32 t) == some (encodeC (.addi 0#5 0#6)) && x.2.2 == false) = true := by
  decide +kernel
/-- **C69 is false of stores in general**: after an instruction of the kind `Slip`, here `lui x0,0x12345`, the store of a
register that holds 1 is logged with the value 0x10000000. -/
theorem log_store_note_false : (recs Ex.env0 4 [encode (.alui .addi 1#5 0#5 1#12), encode (.lui 2#5 0x80001#20),
      encode (.lui 0#5 0x12345#20), encode (.store .sw 1#5 2#5 4#12)]).any (fun x =>
    x.1.getLast? == some (some "sw x1,4(x2)                   mem[80001004] <- x1 (0x10000000)  ".toList) &&
    x.2.1 1#5 == 1#32 && x.2.2 == false) = true := by decide +kernel
/-- **C69 is false of `c.lwsp`** into the stack pointer: the address noted is computed from the loaded value. -/
theorem log_c_lwsp_note_false : (recs envC 2 [encode (.lui 2#5 0x80001#20), encodeC (.lwsp 2#5 0#6)]).any (fun x =>
    x.1.getLast? == some (some "c.lwsp x2,0(x2)                   x2 : 0xa5a5a5a5 <- mem[a5a5a5a5]  ".toList) &&
    x.2.2 == false) = true := by decide +kernel
/-- **C69 is false of `c.lw`**: with bits 11:7 of the instruction 0 the address is not noted. -/
theorem log_c_lw_note_missing : (recs envC 2 [encode (.lui 8#5 0x80001#20), encodeC (.lw 1#3 0#3 0#5)]).any (fun x =>
    x.1.getLast? == some (some "c.lw x9,0(x8)                     x9 : 0xa5a5a5a5  ".toList) && x.2.2 == false) = true := by
  decide +kernel
/-- **C70 is false in general**: the record of a store with an undefined width, which traps and stores nothing, says that
memory was written. -/
theorem log_trap_claims_store : (recs Ex.env0 2 [encode (.lui 2#5 0x80001#20), encS 4#12 1#5 2#5 3#3 0x23#7]).any (fun x =>
    x.1.getLast? == some (some "TRAPlui x1,4(x2)              mem[80001004] <- x1 (0x00c0ffee)  ".toList) &&
    x.2.2 == true) = true := by decide +kernel
/-- the hypotheses of `log_trap_only_partial`: a misaligned store traps, and its record is the text of the trap -/
example : (recs Ex.env0 2 [encode (.lui 2#5 0x80001#20), encode (.store .sw 1#5 2#5 1#12)]).any (fun x =>
    x.1.getLast? == some (some "TRAP                          ".toList) && x.2.2 == true) = true := by decide +kernel
/-- a CSR note, and a compressed store -/
example : (recs Ex.env0 1 [encI 0x340#12 7#5 5#3 1#5 0x73#7]).any (fun x =>
    x.1 == [some "csrrwi x1,mscratch,7          x1 : 0x00000000;   0x0340 mscratch      : 0x00000007  ".toList]) = true := by
  decide +kernel

end Ama.Dasm
