import Verif.Lemmas.CacheInv
import Verif.Lemmas.Dev
/-!
# Data in a functional cache
-/
namespace Ama.Cache

/-- byte `k` of line `x` in memory -/
def memByte (d : Dev) (x k : Nat) : BitVec 8 := d.bytes (BitVec.ofNat 32 (x * 64 + k))

/-! ## Whole lines -/

theorem align_toNat (a : W) : (a &&& ~~~63#32).toNat = lineNo a * 64 := by
  have h : a &&& ~~~63#32 = (a >>> 6) <<< 6 := by
    apply BitVec.eq_of_getLsbD_eq
    intro i hi
    have hk : (~~~63#32 : W).getLsbD i = decide (6 ≤ i) := by
      revert i; decide
    simp only [BitVec.getLsbD_and, hk, BitVec.getLsbD_shiftLeft, BitVec.getLsbD_ushiftRight]
    by_cases h6 : 6 ≤ i
    · simp only [decide_eq_true h6, Bool.and_true, decide_eq_true hi, Bool.true_and]
      rw [decide_eq_false (by omega : ¬ i < 6)]
      simp [show 6 + (i - 6) = i by omega]
    · simp [h6, show i < 6 by omega]
  rw [h, BitVec.toNat_shiftLeft, BitVec.toNat_ushiftRight, Nat.shiftRight_eq_div_pow, Nat.shiftLeft_eq]
  unfold lineNo
  have := a.isLt
  rw [Nat.mod_eq_of_lt (by omega)]

theorem ofNat_add (n k : Nat) : BitVec.ofNat 32 n + BitVec.ofNat 32 k = BitVec.ofNat 32 (n + k) := by
  apply BitVec.eq_of_toNat_eq
  simp

theorem base_add {a : W} {x : Nat} (h : a.toNat = x) (k : Nat) :
    a + BitVec.ofNat 32 k = BitVec.ofNat 32 (x + k) := by
  rw [← ofNat_add, ← h, BitVec.ofNat_toNat, BitVec.setWidth_eq]

theorem rd1 (d : Dev) {a : W} (h : a.toNat < d.size) : d.rd a 1 = .ok ((d.bytes a).setWidth 32) := by
  simp only [Dev.rd, Dev.rd8, d.get_ok h, Res.bind_ok]

theorem rdLine_ok (d : Dev) (a : W) (hs : d.size ≤ 2 ^ 32) (h : lineNo a * 64 + 64 ≤ d.size) :
    ∃ f, rdLine d a = .ok f ∧ ∀ k, k < 64 → f k = memByte d (lineNo a) k := by
  have key : ∀ n, n ≤ 64 → ∃ f, rdLineGo d (a &&& ~~~63#32) n = .ok f ∧
      ∀ k, k < n → f k = memByte d (lineNo a) k := by
    intro n
    induction n with
    | zero => intro _; exact ⟨_, rfl, fun k hk => by omega⟩
    | succ n ih =>
      intro hn
      obtain ⟨f, hf, hk⟩ := ih (by omega)
      have ha := base_add (align_toNat a) n
      have hlt : (BitVec.ofNat 32 (lineNo a * 64 + n)).toNat = lineNo a * 64 + n := by
        rw [BitVec.toNat_ofNat, Nat.mod_eq_of_lt (by omega)]
      refine ⟨fun i => if i = n then ((d.bytes (BitVec.ofNat 32 (lineNo a * 64 + n))).setWidth 32).setWidth 8
        else f i, by simp only [rdLineGo, hf, Res.bind_ok, ha,
          rd1 d (show (BitVec.ofNat 32 (lineNo a * 64 + n)).toNat < d.size by rw [hlt]; omega)], ?_⟩
      intro k hk'
      simp only
      by_cases e : k = n
      · subst e
        rw [if_pos rfl]
        unfold memByte
        simp
      · rw [if_neg e]; exact hk k (by omega)
  exact key 64 (Nat.le_refl _)

theorem wrLine_ok (d : Dev) {a : W} {x : Nat} (data : Nat → BitVec 8) (ha : a.toNat = x * 64)
    (h : x * 64 + 64 ≤ d.size) (hd : ∀ k, k < 64 → data k = memByte d x k) :
    wrLine d a data = .ok () := by
  have hl : lineNo a = x := by unfold lineNo; omega
  have key : ∀ n i, i + n ≤ 64 → wrLineGo d (a &&& ~~~63#32) data n i = .ok () := by
    intro n
    induction n with
    | zero => intro i _; rfl
    | succ n ih =>
      intro i hi
      have ha' := base_add (align_toNat a) i
      rw [hl] at ha'
      have hlt : (BitVec.ofNat 32 (x * 64 + i)).toNat = x * 64 + i := by
        rw [BitVec.toNat_ofNat, Nat.mod_eq_of_lt (by omega)]
      simp only [wrLineGo, ha', rd1 d (show (BitVec.ofNat 32 (x * 64 + i)).toNat < d.size by rw [hlt]; omega),
        Res.bind_ok]
      rw [if_neg, ih (i + 1) (by omega)]
      rw [hd i (by omega)]
      simp [memByte]
  exact key 64 0 (by omega)

/-- the base address of a resident line -/
theorem lineBase_toNat {c : Cache} {b : Nat} (hg : Geo c b) {t : W} {i : Nat} (hi : i < c.cfg.sets)
    (h : (t.toNat * c.cfg.sets + i) * 64 + 64 ≤ 2 ^ 32) :
    (c.lineBase t i).toNat = (t.toNat * c.cfg.sets + i) * 64 := by
  obtain ⟨hb, hs, _, ht, _⟩ := hg
  unfold lineBase
  rw [ht]
  rw [hs] at h hi ⊢
  have hp : (2:Nat) ^ (6 + b) = 2 ^ b * 64 := by rw [Nat.pow_add, Nat.mul_comm]
  have hle : (2:Nat)^b ≤ 2 ^ 10 := Nat.pow_le_pow_right (by omega) hb
  have h10 : (2:Nat)^10 = 1024 := rfl
  have hmul : t.toNat * (2 ^ b * 64) = t.toNat * 2 ^ b * 64 := by rw [Nat.mul_assoc]
  have hi32 : (BitVec.ofNat 32 i <<< 6 : W).toNat = i * 64 := by
    rw [BitVec.toNat_shiftLeft, BitVec.toNat_ofNat, Nat.shiftLeft_eq, Nat.mod_eq_of_lt (a := i) (by omega),
      Nat.mod_eq_of_lt (by omega)]
  rw [BitVec.or_comm, or_shl_toNat, hi32, hp, hmul]
  · rw [Nat.add_mul]; omega
  · rw [hi32, hp]; exact Nat.mul_lt_mul_of_pos_right hi (by omega)
  · rw [hp, hmul]; rw [Nat.add_mul] at h; omega

/-! ## Parts of lines -/

/-- the line after writing the low `n` bytes of `v` at `p` -/
def putLine (data : Nat → BitVec 8) (p n : Nat) (v : W) : Nat → BitVec 8 := fun j =>
  if p ≤ j ∧ j < p + n then (v >>> (8 * (j - p))).setWidth 8 else data j

theorem writeGo_ok (v : W) (p : Nat) : ∀ (n i : Nat) (data : Nat → BitVec 8), p + i + n ≤ 64 → i + n ≤ 4 →
    writeGo v p n i data = .ok (fun j => if p + i ≤ j ∧ j < p + i + n then (v >>> (8 * (j - p))).setWidth 8
      else data j)
  | 0, i, data, _, _ => by
    unfold writeGo
    congr 1
    funext j
    rw [if_neg (by omega)]
  | n + 1, i, data, h1, h2 => by
    unfold writeGo
    rw [if_pos (by omega), if_pos (by omega), writeGo_ok v p n (i + 1) _ (by omega) (by omega)]
    congr 1
    funext j
    by_cases hj : j = p + i
    · subst hj
      rw [if_neg (by omega), if_pos rfl, if_pos (by omega)]
      rw [show p + i - p = i by omega]
    · by_cases h : p + (i + 1) ≤ j ∧ j < p + (i + 1) + n
      · rw [if_pos h, if_pos (by omega)]
      · rw [if_neg h, if_neg hj, if_neg (by omega)]

theorem readGo_ok (data : Nat → BitVec 8) (p : Nat) : ∀ (n i : Nat) (acc : W), p + i + n ≤ 64 → i + n ≤ 4 →
    ∃ v, readGo data p n i acc = .ok v
  | 0, i, acc, _, _ => ⟨acc, rfl⟩
  | n + 1, i, acc, h1, h2 => by
    unfold readGo
    rw [if_pos (by omega), if_pos (by omega)]
    exact readGo_ok data p n (i + 1) _ (by omega) (by omega)

/-- reading from a line that agrees with memory is reading memory -/
theorem readGo_mem (d : Dev) (a : W) (data : Nat → BitVec 8) (p n : Nat) (hn : n = 1 ∨ n = 2 ∨ n = 4)
    (hp : p + n ≤ 64) (hs : d.size ≤ 2 ^ 32) (ha : a.toNat + n ≤ d.size)
    (hd : ∀ k, k < n → data (p + k) = d.bytes (a + BitVec.ofNat 32 k)) :
    readGo data p n 0 0#32 = d.rd a n := by
  have hget : ∀ k, k < n → d.get (a + BitVec.ofNat 32 k) = .ok (data (p + k)) := by
    intro k hk
    rw [hd k hk]
    exact d.get_ok (by rw [add_toNat_of_lt (n := n) (by omega) hk]; omega)
  have h0 : ∀ x : W, 0#32 ||| x <<< (8 * 0) = x := by intro x; simp
  have ha0 : a + BitVec.ofNat 32 0 = a := by simp
  rcases hn with rfl | rfl | rfl
  · have g0 := hget 0 (by omega)
    rw [ha0] at g0
    simp only [Dev.rd, Dev.rd8, g0, Res.bind_ok]
    simp only [readGo, if_pos (show p + 0 < 64 by omega), if_pos (show 0 < 4 by omega), h0]
  · have g0 := hget 0 (by omega)
    have g1 : d.get (a + 1#32) = _ := hget 1 (by omega)
    rw [ha0] at g0
    simp only [Dev.rd, Dev.rd16, g0, g1, Res.bind_ok]
    simp only [readGo, if_pos (show p + 0 < 64 by omega), if_pos (show 0 < 4 by omega),
      if_pos (show p + (0 + 1) < 64 by omega), if_pos (show 0 + 1 < 4 by omega), h0]
  · have g0 := hget 0 (by omega)
    have g1 : d.get (a + 1#32) = _ := hget 1 (by omega)
    have g2 : d.get (a + 2#32) = _ := hget 2 (by omega)
    have g3 : d.get (a + 3#32) = _ := hget 3 (by omega)
    rw [ha0] at g0
    simp only [Dev.rd, Dev.rd32, g0, g1, g2, g3, Res.bind_ok]
    simp only [readGo, if_pos (show p + 0 < 64 by omega), if_pos (show 0 < 4 by omega),
      if_pos (show p + (0 + 1) < 64 by omega), if_pos (show 0 + 1 < 4 by omega),
      if_pos (show p + (0 + 1 + 1) < 64 by omega), if_pos (show 0 + 1 + 1 < 4 by omega),
      if_pos (show p + (0 + 1 + 1 + 1) < 64 by omega), if_pos (show 0 + 1 + 1 + 1 < 4 by omega), h0]

/-! ## The data phase -/

/-- the contents of the accessed line after the data phase -/
def newData (c : Cache) (op : MemOp) (n w : Nat) : Nat → BitVec 8 :=
  match op with
  | .read => (c.arr c.ccl.index w).data
  | .write => putLine (c.arr c.ccl.index w).data c.ccl.byteAddr n c.wrBuf

theorem access_ok {c : Cache} (d : Dev) (n : Nat) (op : MemOp) (w : Nat) (hf : c.cfg.func = true)
    (hp : c.ccl.byteAddr + n ≤ 64) (hn : n ≤ 4)
    (hv : op = .write → wrLine d (c.lineBase (c.arr c.ccl.index w).tag c.ccl.index) (newData c op n w) = .ok ()) :
    ∃ c', c.access d n op w = .ok c' ∧ (c'.arr c.ccl.index w).data = newData c op n w ∧
      (op = .read → ∃ v, readGo (c.arr c.ccl.index w).data c.ccl.byteAddr n 0 0#32 = .ok v ∧ c'.rdBuf = some v) := by
  cases op with
  | read =>
    obtain ⟨v, hr⟩ := readGo_ok (c.arr c.ccl.index w).data c.ccl.byteAddr n 0 0#32 (by omega) (by omega)
    refine ⟨{ c with rdBuf := some v }, ?_, rfl, fun _ => ⟨v, hr, rfl⟩⟩
    simp only [access, readFromCache, if_pos hf, hr, Res.bind_ok]
  | write =>
    have hw := writeGo_ok c.wrBuf c.ccl.byteAddr n 0 (c.arr c.ccl.index w).data (by omega) (by omega)
    have hw' : writeGo c.wrBuf c.ccl.byteAddr n 0 (c.arr c.ccl.index w).data = .ok (newData c .write n w) := hw
    generalize hc1 : c.setLine c.ccl.index w { c.arr c.ccl.index w with data := newData c .write n w } = c1
    have h1 : c.writeToCache d n w = .ok c1 := by
      unfold writeToCache
      rw [if_pos hf]
      simp only [hw', Res.bind_ok, hc1]
      split
      · have hb : c1.lineBase (c.arr c.ccl.index w).tag c.ccl.index =
            c.lineBase (c.arr c.ccl.index w).tag c.ccl.index := by rw [← hc1]; rfl
        have hi : c1.ccl.index = c.ccl.index := by rw [← hc1]; rfl
        rw [hi, hb, hv rfl]
        rfl
      · rfl
    have hdat : (c1.arr c.ccl.index w).data = newData c .write n w := by
      rw [← hc1, setLine_arr, if_pos ⟨rfl, rfl⟩]
    have hi : c1.ccl.index = c.ccl.index := by rw [← hc1]; rfl
    by_cases ht : (c1.cfg.wrPol == .wt) = true
    · refine ⟨{ c1 with stats := c1.stats.writeback,
                         roi := c1.roi.on (c1.lineBase (c1.arr c1.ccl.index w).tag c1.ccl.index) Stats.writeback },
        ?_, hdat, fun h => by cases h⟩
      simp only [access, h1, Res.bind_ok, if_pos ht]
    · refine ⟨c1.setLine c1.ccl.index w { c1.arr c1.ccl.index w with dirty := true }, ?_, ?_, fun h => by cases h⟩
      · simp only [access, h1, Res.bind_ok, if_neg ht]
      · rw [hi, setLine_arr, if_pos ⟨rfl, rfl⟩]
        exact hdat

/-! ## Coherence -/

/-- every valid line lies in memory and holds what memory holds -/
def Coh (c : Cache) (d : Dev) : Prop :=
  ∀ i j, i < c.cfg.sets → j < c.cfg.ways → (c.arr i j).valid = true →
    c.key i j * 64 + 64 ≤ d.size ∧ ∀ k, k < 64 → (c.arr i j).data k = memByte d (c.key i j) k

/-- coherence while a store of `n` bytes at `a` is in memory but not yet in the cache -/
def CohPre (c : Cache) (d : Dev) (a : W) (n : Nat) (op : MemOp) : Prop :=
  ∀ i j, i < c.cfg.sets → j < c.cfg.ways → (c.arr i j).valid = true →
    c.key i j * 64 + 64 ≤ d.size ∧ ∀ k, k < 64 →
      (op = .write ∧ c.key i j = lineNo a ∧ (a &&& 63#32).toNat ≤ k ∧ k < (a &&& 63#32).toNat + n) ∨
      (c.arr i j).data k = memByte d (c.key i j) k

/-- an access that stays inside one line of memory -/
def InLine (d : Dev) (a : W) (n : Nat) : Prop :=
  n ≤ 4 ∧ (a &&& 63#32).toNat + n ≤ 64 ∧ lineNo a * 64 + 64 ≤ d.size ∧ d.size ≤ 2 ^ 32

/-- the write buffer holds what memory holds at the stored bytes -/
def BufOk (c : Cache) (d : Dev) (a : W) (n : Nat) : Prop :=
  ∀ k, k < n → memByte d (lineNo a) ((a &&& 63#32).toNat + k) = (c.wrBuf >>> (8 * k)).setWidth 8

theorem off_toNat (a : W) : (a &&& 63#32).toNat = a.toNat % 64 := by
  rw [BitVec.toNat_and]; exact Nat.and_two_pow_sub_one_eq_mod _ 6

theorem addr_split (a : W) : lineNo a * 64 + (a &&& 63#32).toNat = a.toNat := by
  rw [off_toNat]; unfold lineNo; omega

theorem memByte_addr (d : Dev) (a : W) (k : Nat) :
    memByte d (lineNo a) ((a &&& 63#32).toNat + k) = d.bytes (a + BitVec.ofNat 32 k) := by
  unfold memByte
  rw [base_add (addr_split a).symm k, Nat.add_assoc]

/-- a line that agrees with memory except for a store in flight agrees after that store -/
theorem put_mem {c : Cache} {d : Dev} {a : W} {n : Nat} (data : Nat → BitVec 8) (hb : BufOk c d a n)
    (hd : ∀ k, k < 64 → ((a &&& 63#32).toNat ≤ k ∧ k < (a &&& 63#32).toNat + n) ∨
      data k = memByte d (lineNo a) k) :
    ∀ k, k < 64 → putLine data (a &&& 63#32).toNat n c.wrBuf k = memByte d (lineNo a) k := by
  intro k hk
  unfold putLine
  split
  · rename_i h
    rw [← hb (k - (a &&& 63#32).toNat) (by omega)]
    rw [show (a &&& 63#32).toNat + (k - (a &&& 63#32).toNat) = k by omega]
  · rename_i h
    rcases hd k hk with e | e
    · exact absurd e h
    · exact e

/-- a functional cache in front of memory: whatever is asked of an address in memory succeeds, leaves every
line equal to memory, and a read leaves the memory's bytes in the read buffer -/
theorem serve_coh {c : Cache} {b : Nat} (hg : Geo c b) (hW : Wf c) (hf : c.cfg.func = true) {d : Dev} {a : W}
    {n : Nat} {op : MemOp} {m : Scp} (hin : InLine d a n) (hc : CohPre c d a n op)
    (hb : op = .write → BufOk c d a n) (hrel : m = .rel → op = .read) :
    ∃ r, c.serve d a n op m = .ok r ∧ Coh r.2 d ∧
      (op = .read → m ≠ .rel → ∃ data v, r.2.rdBuf = some v ∧
        readGo data (a &&& 63#32).toNat n 0 0#32 = .ok v ∧ ∀ k, k < 64 → data k = memByte d (lineNo a) k) := by
  obtain ⟨hn, hp, hsz, hs32⟩ := hin
  have hways := hg.2.2.2.2.2.1
  obtain ⟨_, w2, _, w4⟩ := hW (c.idx a)
  have hi0 : c.idx a < c.cfg.sets := by rw [idx_eq hg]; exact Nat.mod_lt _ (sets_pos hg)
  have hln := lineNo_eq hg a
  rcases scan_top (c.arr (c.idx a)) (c.tg a) c.cfg.ways (exists_unlocked _ _ (by omega)) with
    ⟨w, hs, h1, h2, h3⟩ | ⟨v, l, hs, h1, h2, h3, h4, h5⟩
  · have hkey : c.key (c.idx a) w = lineNo a := by unfold key; rw [h3]; exact hln
    by_cases hm : m = .rel
    · subst hm
      have hop := hrel rfl
      subst hop
      have hok : ∃ r, c.serve d a n .read .rel = .ok r := by
        unfold serve reference counted
        simp only [ne_eq, not_true_eq_false, if_false, hs, if_true, Res.bind_ok]
        exact ⟨_, rfl⟩
      obtain ⟨r, hr⟩ := hok
      obtain ⟨_, ⟨f1, f2, f3, f4, f5⟩, _, _, _, _, _, fa⟩ := serve_rel_hit hs hr
      refine ⟨r, hr, ?_, fun _ hh => absurd rfl hh⟩
      intro i j hi hj hv
      rw [f1] at hi hj
      have hv' : (c.arr i j).valid = true := by rw [fa i j] at hv; split at hv <;> exact hv
      obtain ⟨q1, q2⟩ := hc i j hi hj hv'
      have hk : r.2.key i j = c.key i j := by
        unfold key; rw [f1, fa i j]; split <;> rfl
      have hd : (r.2.arr i j).data = (c.arr i j).data := by rw [fa i j]; split <;> rfl
      rw [hk, hd]
      refine ⟨q1, fun k hk => ?_⟩
      rcases q2 k hk with e | e
      · cases e.1
      · exact e
    · rw [serve_hit_eq d n op hm hs]
      obtain ⟨⟨q1, q2, q3, q4, q5⟩, qi, qb, qw, _, _, _, _, qa⟩ := hitSt_facts c a n op hm w
      generalize c.hitSt a n op m w = e2 at *
      obtain ⟨_, _, _, _, qt, qd⟩ := qa (c.idx a) w
      obtain ⟨c1, c2⟩ := hc (c.idx a) w hi0 h1 h2
      rw [hkey] at c1 c2
      -- the line after the data phase agrees with memory
      have hnew : ∀ k, k < 64 → newData e2 op n w k = memByte d (lineNo a) k := by
        cases op with
        | read =>
          intro k hk
          show (e2.arr e2.ccl.index w).data k = _
          rw [qi, qd]
          rcases c2 k hk with e | e
          · cases e.1
          · exact e
        | write =>
          show ∀ k, k < 64 → putLine (e2.arr e2.ccl.index w).data e2.ccl.byteAddr n e2.wrBuf k = _
          rw [qi, qb, qw, qd]
          exact put_mem _ (hb rfl) (fun k hk => (c2 k hk).imp (fun e => e.2.2) id)
      have hbase : (e2.lineBase (e2.arr e2.ccl.index w).tag e2.ccl.index).toNat = lineNo a * 64 := by
        have := lineBase_toNat hg (t := c.tg a) hi0 (by rw [hln]; omega)
        rw [hln] at this
        rw [← this, qi, qt, h3]
        unfold lineBase
        rw [q4]
      obtain ⟨c', hx, x1, x2⟩ := access_ok d n op w (by rw [q1]; exact hf) (by rw [qb]; exact hp) hn
        (fun _ => wrLine_ok d _ hbase c1 hnew)
      refine ⟨_, by rw [hx]; rfl, ?_, ?_⟩
      · obtain ⟨data, rb, e⟩ := access_frame hx
        obtain ⟨⟨z1, z2, z3, z4, z5⟩, _, _, _, za⟩ := accessed_facts e2 op w data rb
        rw [← e] at z1 z2 z3 z4 z5 za
        intro i j hi hj hv
        replace hv : (c'.arr i j).valid = true := hv
        replace hi : i < c'.cfg.sets := hi
        replace hj : j < c'.cfg.ways := hj
        show c'.key i j * 64 + 64 ≤ d.size ∧ ∀ k, k < 64 → (c'.arr i j).data k = memByte d (c'.key i j) k
        obtain ⟨y1, _, _, _, y5, y6⟩ := za i j
        obtain ⟨u1, _, _, _, u5, u6⟩ := qa i j
        rw [z1, q1] at hi hj
        rw [y1, u1] at hv
        have hk : c'.key i j = c.key i j := by
          unfold key; rw [z1, q1, y5, u5]
        obtain ⟨p1, p2⟩ := hc i j hi hj hv
        rw [hk]
        refine ⟨p1, ?_⟩
        by_cases hij : i = c.idx a ∧ j = w
        · obtain ⟨rfl, rfl⟩ := hij
          rw [qi] at x1
          rw [x1, hkey]
          exact hnew
        · rw [y6, qi, if_neg hij, u6]
          intro k hk
          rcases p2 k hk with e | e
          · exfalso
            apply hij
            have hkk : (c.arr i j).tag.toNat * c.cfg.sets + i = lineNo a := e.2.1
            have e1 : i = c.idx a := by
              rw [idx_eq hg, ← hkk, Nat.add_comm, Nat.add_mul_mod_self_right, Nat.mod_eq_of_lt hi]
            refine ⟨e1, ?_⟩
            subst e1
            obtain ⟨_, _, w3, _⟩ := hW (c.idx a)
            refine w3 j w hj h1 hv h2 ?_
            apply BitVec.eq_of_toNat_eq
            rw [h3]
            have := hkk.trans hln.symm
            have hsp := sets_pos hg
            exact Nat.eq_of_mul_eq_mul_right hsp (by omega)
          · exact e
      · intro hop _
        subst hop
        obtain ⟨v, v1, v2⟩ := x2 rfl
        refine ⟨_, v, v2, ?_, hnew⟩
        rw [← qb]
        exact v1
  · have hno : ∀ j, j < c.cfg.ways → (c.arr (c.idx a) j).valid = true → c.key (c.idx a) j ≠ lineNo a := by
      intro j hj hv he
      refine h1 j hj ⟨hv, ?_⟩
      apply BitVec.eq_of_toNat_eq
      have hsp := sets_pos hg
      unfold key at he
      exact Nat.eq_of_mul_eq_mul_right hsp (by omega)
    have hc' : ∀ i j, i < c.cfg.sets → j < c.cfg.ways → (c.arr i j).valid = true →
        c.key i j * 64 + 64 ≤ d.size ∧ ∀ k, k < 64 → (c.arr i j).data k = memByte d (c.key i j) k := by
      intro i j hi hj hv
      obtain ⟨p1, p2⟩ := hc i j hi hj hv
      refine ⟨p1, fun k hk => ?_⟩
      rcases p2 k hk with e | e
      · exfalso
        have hkk : (c.arr i j).tag.toNat * c.cfg.sets + i = lineNo a := e.2.1
        have e1 : i = c.idx a := by
          rw [idx_eq hg, ← hkk, Nat.add_comm, Nat.add_mul_mod_self_right, Nat.mod_eq_of_lt hi]
        subst e1
        exact hno j hj hv e.2.1
      · exact e
    by_cases hm : m = .rel
    · subst hm
      have hok : ∃ r, c.serve d a n op .rel = .ok r := by
        unfold serve reference counted
        simp only [ne_eq, not_true_eq_false, if_false, hs, if_true, Res.bind_ok]
        exact ⟨_, rfl⟩
      obtain ⟨r, hr⟩ := hok
      obtain ⟨_, ⟨f1, f2, f3, f4, f5⟩, _, _, _, _, _, fa⟩ := serve_rel_miss hs hr
      refine ⟨r, hr, ?_, fun _ hh => absurd rfl hh⟩
      unfold Coh key
      rw [f1, fa]
      exact hc'
    · rw [serve_miss_eq d n op hm hs]
      have hbb : c.counted a n op m =
          { c with stats := c.stats.referenced op n, roi := c.roi.on a (·.referenced op n) } := if_pos hm
      have k0 : Same c (c.missSt a n op m v l) ∧ (c.missSt a n op m v l).wrBuf = c.wrBuf := by
        unfold missSt; rw [hbb]; exact ⟨⟨rfl, rfl, rfl, rfl, rfl⟩, rfl⟩
      have k1 : (c.missSt a n op m v l).ccl.index = c.idx a ∧ (c.missSt a n op m v l).ccl.vWay = v ∧
          (c.missSt a n op m v l).ccl.tag = c.tg a ∧
          (c.missSt a n op m v l).ccl.byteAddr = (a &&& 63#32).toNat := by
        unfold missSt; rw [hbb]; exact ⟨rfl, rfl, rfl, rfl⟩
      have k3 : (c.missSt a n op m v l).arr = c.arr := by unfold missSt; rw [hbb]; rfl
      generalize c.missSt a n op m v l = c0 at *
      obtain ⟨⟨k01, k02, k03, k04, k05⟩, k06⟩ := k0
      -- eviction
      have hev : ∃ c1, c0.evict d = .ok c1 := by
        unfold evict
        rw [k1.1, k1.2.1, k3]
        by_cases hv : (c.arr (c.idx a) v).valid = true
        · simp only [if_pos hv]
          by_cases hdt : (c.arr (c.idx a) v).dirty = true
          · simp only [if_pos hdt]
            obtain ⟨p1, p2⟩ := hc' (c.idx a) v hi0 h2 hv
            have hbase : (c0.lineBase (c.arr (c.idx a) v).tag (c.idx a)).toNat = c.key (c.idx a) v * 64 := by
              have := lineBase_toNat hg (t := (c.arr (c.idx a) v).tag) hi0 (by
                have : c.key (c.idx a) v = (c.arr (c.idx a) v).tag.toNat * c.cfg.sets + c.idx a := rfl
                omega)
              rw [show c.key (c.idx a) v = (c.arr (c.idx a) v).tag.toNat * c.cfg.sets + c.idx a from rfl, ← this]
              unfold lineBase
              rw [k04]
            have hwl := wrLine_ok d (c.arr (c.idx a) v).data hbase p1 p2
            by_cases hfv : (c0.cfg.func && c0.cfg.verify) = true
            · simp only [if_pos hfv, hwl, Res.bind_ok]; exact ⟨_, rfl⟩
            · simp only [if_neg hfv, Res.bind_ok]; exact ⟨_, rfl⟩
          · simp only [if_neg hdt]; exact ⟨_, rfl⟩
        · simp only [if_neg hv]; exact ⟨_, rfl⟩
      obtain ⟨c1, h6⟩ := hev
      obtain ⟨⟨⟨a1, a2, a3, a4, a5⟩, a6, a7, a8, a9⟩, as, ar, ast, aa⟩ := evict_frame h6
      obtain ⟨⟨⟨b1, b2, b3, b4, b5⟩, b6, b7, b8, b9⟩, bs, br, bst, ba⟩ := install_facts c1 m
      rw [h6]; simp only [Res.bind_ok]
      generalize c1.install m = ci at *
      -- fill
      obtain ⟨dat, hr1, hr2⟩ := rdLine_ok d a hs32 hsz
      have hfl : ∃ c2, ci.fill d a = .ok c2 ∧ (c2.arr ci.ccl.index ci.ccl.vWay).data = dat := by
        unfold fill
        rw [if_pos (by rw [b1, a1, k01]; exact hf), hr1]
        refine ⟨_, rfl, ?_⟩
        rw [setLine_arr, if_pos ⟨rfl, rfl⟩]
      obtain ⟨c2, h7, h8⟩ := hfl
      obtain ⟨⟨⟨d1, d2, d3, d4, d5⟩, d6, d7, d8, d9⟩, ds, dr, dst, data0, da⟩ := fill_frame h7
      rw [h7]; simp only [Res.bind_ok]
      have hi : c2.ccl.index = c.idx a := by rw [d6, b6, a6, k1.1]
      have hv : c2.ccl.vWay = v := by rw [d6, b6, a6, k1.2.1]
      have hba : c2.ccl.byteAddr = (a &&& 63#32).toNat := by rw [d6, b6, a6, k1.2.2.2]
      have hi1 : c1.ccl.index = c.idx a := by rw [a6, k1.1]
      have hv1 : c1.ccl.vWay = v := by rw [a6, k1.2.1]
      have ht1 : c1.ccl.tag = c.tg a := by rw [a6, k1.2.2.1]
      have hii : ci.ccl.index = c.idx a := by rw [b6, hi1]
      have hvi : ci.ccl.vWay = v := by rw [b6, hv1]
      have hcfg2 : c2.cfg = c.cfg := by rw [d1, b1, a1, k01]
      have hwb : c2.wrBuf = c.wrBuf := by rw [d7, b7, a7, k06]
      have hl2 : ∀ t i, c2.lineBase t i = c.lineBase t i := by
        intro t i; unfold lineBase; rw [d4, b4, a4, k04]
      rw [hii, hvi] at h8
      have htag : (c2.arr (c.idx a) v).tag = c.tg a := by
        rw [(da (c.idx a) v).2.2.2.2.1, (ba (c.idx a) v).2.2.2.2.1, hi1, hv1, if_pos ⟨rfl, rfl⟩, ht1]
      have hnew : ∀ k, k < 64 → newData c2 op n c2.ccl.vWay k = memByte d (lineNo a) k := by
        cases op with
        | read =>
          intro k hk
          show (c2.arr c2.ccl.index c2.ccl.vWay).data k = _
          rw [hi, hv, h8]
          exact hr2 k hk
        | write =>
          show ∀ k, k < 64 →
            putLine (c2.arr c2.ccl.index c2.ccl.vWay).data c2.ccl.byteAddr n c2.wrBuf k = _
          rw [hi, hv, hba, hwb, h8]
          exact put_mem _ (hb rfl) (fun k hk => .inr (hr2 k hk))
      have hbase : (c2.lineBase (c2.arr c2.ccl.index c2.ccl.vWay).tag c2.ccl.index).toNat = lineNo a * 64 := by
        have := lineBase_toNat hg (t := c.tg a) hi0 (by rw [hln]; omega)
        rw [hln] at this
        rw [← this, hi, hv, htag, hl2]
      obtain ⟨c3, hx, x1, x2⟩ := access_ok d n op c2.ccl.vWay (by rw [hcfg2]; exact hf)
        (by rw [hba]; exact hp) hn (fun _ => wrLine_ok d _ hbase hsz hnew)
      refine ⟨_, by rw [hx]; rfl, ?_, ?_⟩
      · obtain ⟨data, rb, e⟩ := access_frame hx
        obtain ⟨⟨z1, z2, z3, z4, z5⟩, _, _, _, za⟩ := accessed_facts c2 op c2.ccl.vWay data rb
        rw [← e] at z1 z2 z3 z4 z5 za
        intro i j hi' hj' hvd
        replace hvd : (c3.arr i j).valid = true := hvd
        replace hi' : i < c3.cfg.sets := hi'
        replace hj' : j < c3.cfg.ways := hj'
        show c3.key i j * 64 + 64 ≤ d.size ∧ ∀ k, k < 64 → (c3.arr i j).data k = memByte d (c3.key i j) k
        rw [z1, hcfg2] at hi' hj'
        obtain ⟨y1, _, _, _, y5, y6⟩ := za i j
        obtain ⟨g1, _, _, _, g5, g6⟩ := da i j
        obtain ⟨n1, _, _, _, n5, n6⟩ := ba i j
        obtain ⟨p1, _, _, _, p5, p6⟩ := aa i j
        rw [k3] at p1 p5 p6
        rw [hi1, hv1] at n1 n5
        by_cases hij : i = c.idx a ∧ j = v
        · obtain ⟨rfl, rfl⟩ := hij
          have hk : c3.key (c.idx a) j = lineNo a := by
            unfold key; rw [z1, hcfg2, y5, htag]; exact hln
          rw [hk]
          refine ⟨hsz, ?_⟩
          rw [hi, hv] at x1
          rw [x1, ← hv]
          exact hnew
        · have hk : c3.key i j = c.key i j := by
            unfold key; rw [z1, hcfg2, y5, g5, n5, if_neg hij, p5]
          have hdd : (c3.arr i j).data = (c.arr i j).data := by
            rw [y6, hi, hv, if_neg hij, g6, hii, hvi, if_neg hij, n6, p6]
          have hvv : (c.arr i j).valid = true := by
            rw [y1, g1, n1, decide_eq_false hij, Bool.or_false, p1] at hvd; exact hvd
          rw [hk, hdd]
          exact hc' i j hi' hj' hvv
      · intro hop _
        subst hop
        obtain ⟨vv, v1, v2⟩ := x2 rfl
        refine ⟨_, vv, v2, ?_, hnew⟩
        rw [← hba]
        exact v1

end Ama.Cache
