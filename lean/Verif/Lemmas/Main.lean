import Verif.Spec.Options
import Verif.Props.Args
/-!
# Lemmas on the configuration
-/
namespace Ama.Main
open Args Spec

/-- the fields that a statement assigns -/
def targets : Stm → List Field
  | .set f _ _ => [f]
  | .logAlways => [.logAlways]
  | .active => [.bpActive, .bpActiveName]

theorem outBind_ok {α β : Type} {o : Out α} {f : α → Out β} {b : β} : o.bind f = .ok b ↔ ∃ a, o = .ok a ∧ f a = .ok b := by
  cases o <;> simp [Out.bind]

theorem put_ne {s : Store} {f g : Field} {v : Val} (h : g ≠ f) : s.put f v g = s g := if_neg h
theorem put_eq {s : Store} {f : Field} {v : Val} : s.put f v f = some v := if_pos rfl

theorem run1_frame {B : Build} {L : Line} {s s' : Store} {a : Stm} (h : run1 B L s a = .ok s') {g : Field} (hg : g ∉ targets a) :
    s' g = s g := by
  cases a with
  | set f c n =>
    obtain ⟨v, _, e⟩ := outBind_ok.1 h
    cases e
    exact put_ne (by simpa [targets] using hg)
  | logAlways =>
    cases h
    exact put_ne (by simpa [targets] using hg)
  | active =>
    simp only [targets, List.mem_cons, List.not_mem_nil, or_false, not_or] at hg
    simp only [run1] at h
    split at h
    · split at h
      · cases h
        rw [put_ne hg.2, put_ne hg.1]
      · obtain ⟨v, _, e⟩ := outBind_ok.1 h
        cases e
        rw [put_ne hg.2, put_ne hg.1]
    · cases h

theorem runs_frame {B : Build} {L : Line} : ∀ {l : List Stm} {s s' : Store}, runs B L s l = .ok s' → ∀ {g : Field},
    g ∉ l.flatMap targets → s' g = s g
  | [], s, s', h, g, _ => by cases h; rfl
  | a :: l, s, s', h, g, hg => by
    obtain ⟨t, ht, h⟩ := outBind_ok.1 h
    simp only [List.flatMap_cons, List.mem_append, not_or] at hg
    rw [runs_frame h hg.2, run1_frame ht hg.1]

theorem runs_append {B : Build} {L : Line} : ∀ {l l' : List Stm} {s : Store},
    runs B L s (l ++ l') = (runs B L s l).bind fun s => runs B L s l'
  | [], l', s => rfl
  | a :: l, l', s => by
    simp only [List.cons_append, runs]
    cases h : run1 B L s a with
    | ok t => simp only [Out.bind]; exact runs_append
    | usage => rfl
    | terminate => rfl

/-- with distinct fields, each statement's effect is there in the end -/
theorem runs_at {B : Build} {L : Line} {l1 l2 : List Stm} {a : Stm} {s s' : Store}
    (h : runs B L s (l1 ++ a :: l2) = .ok s') (hn : ((l1 ++ a :: l2).flatMap targets).Nodup) :
    ∃ t t', runs B L s l1 = .ok t ∧ run1 B L t a = .ok t' ∧ ∀ g ∈ targets a, s' g = t' g := by
  rw [runs_append] at h
  obtain ⟨t, h1, h⟩ := outBind_ok.1 h
  obtain ⟨t', h2, h⟩ := outBind_ok.1 h
  refine ⟨t, t', h1, h2, fun g hg => runs_frame h fun hm => ?_⟩
  simp only [List.flatMap_append, List.flatMap_cons] at hn
  have := (List.nodup_append.1 (List.nodup_append.1 hn).2.1).2.2 g hg g hm
  exact this rfl

theorem runs_set {B : Build} {L : Line} {l : List Stm} {s s' : Store} (h : runs B L s l = .ok s')
    (hn : (l.flatMap targets).Nodup) {f : Field} {c : Conv} {n : String} (hm : Stm.set f c n ∈ l) :
    ∃ v, conv B L n c = .ok v ∧ s' f = some v := by
  obtain ⟨l1, l2, rfl⟩ := List.append_of_mem hm
  obtain ⟨t, t', _, h2, h3⟩ := runs_at h hn
  obtain ⟨v, hv, e⟩ := outBind_ok.1 h2
  cases e
  exact ⟨v, hv, by rw [h3 f (by simp [targets]), put_eq]⟩

/-- the statements assign distinct fields -/
theorem stms_nodup (B : Build) : ((stms B).flatMap targets).Nodup := by
  obtain ⟨a, b, c, d, e⟩ := B
  cases a <;> cases b <;> cases c <;> cases d <;> cases e <;> decide +kernel

/-- how the setting of a field is converted -/
def convOf : Takes → Field → Conv
  | .hex32, _ => .u32h
  | .dec32, _ => .u32
  | .dec64, _ => .u64
  | .dec8, _ => .i8
  | .flag, _ => .flag
  | .text, _ => .text
  | .events, _ => .events
  | .oneOf _, f => match f with
    | .rfNames => .rf
    | .icRe | .dcRe => .re
    | .icIn | .dcIn => .ins
    | .dcWr => .wr
    | .bp | .bp2 => .bp
    | .bpSttc | .bp2Sttc => .sttc
    | _ => .fold
def tyOf : Takes → Ty
  | .flag => .bool
  | .events => .list
  | _ => .str
def entries : Takes → List (String × Val)
  | .oneOf l => l
  | _ => []

theorem row_stm : ∀ (B : Build), ∀ r ∈ help, r.on B = true → Stm.set r.field (convOf r.takes r.field) r.opt ∈ stms B := by
  intro B
  obtain ⟨a, b, c, d, e⟩ := B
  cases a <;> cases b <;> cases c <;> cases d <;> cases e <;> decide +kernel

theorem row_decl : ∀ (B : Build), ∀ r ∈ help, r.on B = true →
    ((decls B).find? fun d => d.name = r.opt ∧ d.ty = tyOf r.takes) = some ⟨r.opt, tyOf r.takes, r.dflt⟩ := by
  intro B
  obtain ⟨a, b, c, d, e⟩ := B
  cases a <;> cases b <;> cases c <;> cases d <;> cases e <;> decide +kernel

theorem row_entries : ∀ r ∈ help, ∀ p ∈ entries r.takes, convT (convOf r.takes r.field) p.1.toList = .ok p.2 := by decide +kernel

/-- every statement that sets a field from an option is that of a row -/
theorem stm_row : ∀ (B : Build), ∀ a ∈ stms B, a = .active ∨ a = .logAlways ∨
    ∃ r ∈ help, r.on B = true ∧ a = .set r.field (convOf r.takes r.field) r.opt := by
  intro B
  obtain ⟨a, b, c, d, e⟩ := B
  cases a <;> cases b <;> cases c <;> cases d <;> cases e <;> decide +kernel

/-- flags are off unless given -/
theorem flag_dflt : ∀ r ∈ help, tyOf r.takes = .bool → r.dflt = some "false" := by decide +kernel

theorem textMeans_conv {r : OptRow} (hr : r ∈ help) {t : List Char} {v : Val} (h : TextMeans r.takes t v) :
    convT (convOf r.takes r.field) t = .ok v ∧ tyOf r.takes = .str ∧ convOf r.takes r.field ≠ .flag ∧
      convOf r.takes r.field ≠ .events := by
  have he := row_entries r hr
  cases hk : r.takes with
  | hex32 =>
    rw [hk] at h
    obtain ⟨n, hn, hx, rfl⟩ := h
    have : argU32H t = .ok (BitVec.ofNat 32 n) := by
      rcases hx with hx | ⟨u, hu | hu, hx⟩
      · exact (numeric_option_partial.2 hx hn).1
      · rw [hu]; exact (numeric_option_partial.2 hx hn).2.1
      · rw [hu]; exact (numeric_option_partial.2 hx hn).2.2
    exact ⟨by simp [convOf, convT, this, Out.bind], rfl, nofun, nofun⟩
  | dec32 =>
    rw [hk] at h
    obtain ⟨n, hn, hx, rfl⟩ := h
    have := (numeric_option_partial.1 hx).2.1 hn
    exact ⟨by simp [convOf, convT, this, Out.bind], rfl, nofun, nofun⟩
  | dec64 =>
    rw [hk] at h
    obtain ⟨n, hn, hx, rfl⟩ := h
    have := (numeric_option_partial.1 hx).1 hn
    exact ⟨by simp only [convOf, convT, this, Out.bind], rfl, nofun, nofun⟩
  | dec8 =>
    rw [hk] at h
    obtain ⟨n, hn, hx, rfl⟩ := h
    have := (numeric_option_partial.1 hx).2.2 hn
    exact ⟨by simp [convOf, convT, this, Out.bind], rfl, nofun, nofun⟩
  | text =>
    rw [hk] at h
    exact ⟨by rw [show v = _ from h]; rfl, rfl, nofun, nofun⟩
  | flag => rw [hk] at h; exact h.elim
  | events => rw [hk] at h; exact h.elim
  | oneOf l =>
    rw [hk] at h he
    have := he _ h
    simp only [String.toList_ofList] at this
    refine ⟨this, rfl, ?_, ?_⟩ <;> · cases r.field <;> nofun

theorem conv_textual {B : Build} {L : Line} {n : String} {c : Conv} (h1 : c ≠ .flag) (h2 : c ≠ .events) :
    conv B L n c = (getText B L n).bind (convT c) := by
  cases c <;> first | rfl | exact absurd rfl h1 | exact absurd rfl h2

theorem sorted_eq {l l' : List Nat} (h : l.Pairwise (· < ·)) (h' : l'.Pairwise (· < ·)) (e : ∀ x, x ∈ l ↔ x ∈ l') : l = l' :=
  sorted_ext h h' e

/-- the setting asked for is what the conversion gives -/
theorem says_conv {B : Build} {L : Line} {r : OptRow} (hr : r ∈ help) (ho : r.on B = true) {v : Val} (h : r.Says B L v) :
    conv B L r.opt (convOf r.takes r.field) = .ok v := by
  have hd := row_decl B r hr ho
  have hf := flag_dflt r hr
  have main : ∀ t, (L.text r.opt = some t ∨ L.text r.opt = none ∧ r.dflt.map (·.toList) = some t) → TextMeans r.takes t v →
      conv B L r.opt (convOf r.takes r.field) = .ok v := by
    intro t ht hm
    obtain ⟨h1, h2, h3, h4⟩ := textMeans_conv hr hm
    rw [conv_textual h3 h4]
    have : getText B L r.opt = .ok t := by
      unfold getText
      rw [h2] at hd
      rw [hd]
      rcases ht with ht | ⟨ht, hq⟩
      · simp only [ht]
      · simp only [ht]
        cases hq' : r.dflt with
        | none => rw [hq'] at hq; cases hq
        | some q => rw [hq'] at hq; cases hq; rfl
    rw [this]
    exact h1
  unfold OptRow.Says at h
  cases hk : r.takes with
  | flag =>
    rw [hk] at h hd
    simp only at h
    rw [hk] at hf
    show (getFlag B L r.opt).bind _ = _
    unfold getFlag
    rw [show tyOf .flag = .bool from rfl] at hd
    rw [hd, hf rfl, h]
    rfl
  | events =>
    rw [hk] at h hd
    obtain ⟨names, es, hn, rfl, hs, ha, he⟩ := h
    have hnd : ((Args.perfEvents B.hw).map (·.1)).Nodup := by
      cases B.hw
      · exact names_distinct.1
      · exact names_distinct.2.1
    have hl : getList B L r.opt = .ok names := by
      unfold getList
      rw [show tyOf .events = .list from rfl] at hd
      rw [hd]
      rcases hn with hn | ⟨hn, rfl⟩
      · simp only [hn]
      · simp only [hn]
    obtain ⟨i1, _, i3⟩ := resolveList_iff hnd names
    obtain ⟨es', he'⟩ := i1.2 fun a h => by
      obtain ⟨e, h⟩ := ha a h
      exact List.mem_map.2 ⟨_, h, rfl⟩
    obtain ⟨j1, j2⟩ := i3 es' he'
    have : es' = es := sorted_eq j1 hs fun x => by rw [j2, he]
    show (getList B L r.opt).bind _ = _
    rw [hl]
    simp only [Out.bind, he', this]
  | _ =>
    rw [hk] at h
    obtain ⟨t, ht, hm⟩ := h
    rw [← hk]
    exact main t ht (by rw [hk]; exact hm)

/-- a list of settings succeeds when every conversion does -/
theorem runs_sets {B : Build} {L : Line} (l : List Stm) : ∀ (s : Store),
    (∀ a ∈ l, a = .logAlways ∨ ∃ f c n v, a = .set f c n ∧ conv B L n c = .ok v) → ∃ s', runs B L s l = .ok s' := by
  induction l with
  | nil => exact fun s _ => ⟨s, rfl⟩
  | cons a l ih =>
    intro s h
    have hl := fun a ha => h a (List.mem_cons_of_mem _ ha)
    rcases h a (by simp) with e | ⟨f, c, n, v, e, hv⟩
    · rw [e]
      exact ih _ hl
    · rw [e]
      simp only [runs, run1, hv, Out.bind]
      exact ih _ hl
/-- the command line is accepted when every conversion succeeds -/
theorem accepted_of_conv {B : Build} {L : Line}
    (hs : ∀ a ∈ stms B, a ≠ .active → a = .logAlways ∨ ∃ f c n v, a = .set f c n ∧ conv B L n c = .ok v) :
    ∃ s, config B L = .ok s := by
  by_cases ha : Stm.active ∈ stms B
  · obtain ⟨l1, l2, e⟩ := List.append_of_mem ha
    have hn := stms_nodup B
    have hw : B.hw = true := by
      cases hw : B.hw with
      | true => rfl
      | false =>
        exfalso
        revert ha
        obtain ⟨a, b, c, d, _⟩ := B
        cases hw
        cases a <;> cases b <;> cases c <;> cases d <;> decide +kernel
    have hpre : ∀ l1 l2, stms B = l1 ++ .active :: l2 → .set .bp .bp "bp" ∈ l1 ∧ .set .bp2 .bp "bp2" ∈ l1 ∧
        Stm.active ∉ l1 ∧ Stm.active ∉ l2 := by
      intro l1 l2 e
      rw [e, List.flatMap_append, List.flatMap_cons] at hn
      have na : ∀ l : List Stm, Stm.active ∈ l → Field.bpActive ∈ l.flatMap targets := fun l hl =>
        List.mem_flatMap.2 ⟨_, hl, by simp [targets]⟩
      have n2 : Stm.active ∉ l2 := fun hl => (List.nodup_append.1 (List.nodup_append.1 hn).2.1).2.2 .bpActive (by simp [targets])
        _ (na l2 hl) rfl
      have n1 : Stm.active ∉ l1 := fun hl => (List.nodup_append.1 hn).2.2 .bpActive (na l1 hl) .bpActive (by simp [targets]) rfl
      have e1 : l1 = (stms B).takeWhile (fun a => a ≠ .active) := by
        rw [e, List.takeWhile_append_of_pos, List.takeWhile_cons_of_neg (by simp), List.append_nil]
        intro a ha
        simp only [ne_eq, decide_not, Bool.not_eq_true', decide_eq_false_iff_not]
        exact fun e => n1 (e ▸ ha)
      refine ⟨?_, ?_, n1, n2⟩
      all_goals
        rw [e1]
        obtain ⟨a, b, c, d, f⟩ := B
        cases hw
        cases a <;> cases b <;> cases c <;> cases d <;> decide +kernel
    obtain ⟨i1, i2, n1, n2⟩ := hpre l1 l2 e
    unfold config
    rw [e, runs_append]
    obtain ⟨t, ht⟩ := runs_sets (B := B) (L := L) l1 .init fun a h =>
      hs a (by rw [e]; exact List.mem_append_left _ h) fun e => n1 (e ▸ h)
    rw [ht]
    have hn1 : (l1.flatMap targets).Nodup := by
      rw [e, List.flatMap_append] at hn
      exact (List.nodup_append.1 hn).1
    obtain ⟨v1, c1, f1⟩ := runs_set ht hn1 i1
    obtain ⟨v2, c2, f2⟩ := runs_set ht hn1 i2
    have bpv : ∀ {n v}, conv B L n .bp = .ok v → ∃ k u, v = .bp k ∧ getText B L n = .ok u := by
      intro n v h
      obtain ⟨u, hu, h⟩ := outBind_ok.1 h
      obtain ⟨k, _, h⟩ := outBind_ok.1 h
      cases h
      exact ⟨k, u, rfl, hu⟩
    obtain ⟨k1, u1, rfl, g1⟩ := bpv c1
    obtain ⟨k2, u2, rfl, g2⟩ := bpv c2
    have : ∃ t', run1 B L t .active = .ok t' := by
      simp only [run1, f1, f2]
      split
      · exact ⟨_, rfl⟩
      · rw [g1]; exact ⟨_, rfl⟩
    obtain ⟨t', ht'⟩ := this
    simp only [Out.bind, runs, ht']
    exact runs_sets _ _ fun a h => hs a (by rw [e]; exact List.mem_append_right _ (List.mem_cons_of_mem _ h)) fun e => n2 (e ▸ h)
  · exact runs_sets _ _ fun a h => hs a h fun e => ha (e ▸ h)


theorem decls_rows (B : Build) : ∀ d ∈ decls B, ∃ r ∈ help, r.on B = true ∧ r.opt = d.name ∧ r.dflt = d.dflt := by
  obtain ⟨a, b, c, d, e⟩ := B
  cases a <;> cases b <;> cases c <;> cases d <;> cases e <;> decide +kernel
theorem rows_decls (B : Build) : ∀ r ∈ help, r.on B = true → ∃ d ∈ decls B, d.name = r.opt ∧ d.dflt = r.dflt := by
  obtain ⟨a, b, c, d, e⟩ := B
  cases a <;> cases b <;> cases c <;> cases d <;> cases e <;> decide +kernel
theorem decls_nodup (B : Build) : ((decls B).map (·.name)).Nodup := by
  obtain ⟨a, b, c, d, e⟩ := B
  cases a <;> cases b <;> cases c <;> cases d <;> cases e <;> decide +kernel

/-- every default converts -/
def dfltOk (c : Conv) (d : Option String) : Bool := match d with
  | some d => match convT c d.toList with
    | .ok _ => true
    | _ => false
  | none => false
theorem row_dflts : ∀ r ∈ help, tyOf r.takes = .str → r.opt = "path" ∧ r.takes matches .text ∨
    dfltOk (convOf r.takes r.field) r.dflt = true := by decide +kernel
theorem row_path : ∀ r ∈ help, r.opt = "path" → r.dflt = none := by decide +kernel
theorem row_list : ∀ r ∈ help, tyOf r.takes = .list → r.dflt = some "ret_inst" := by decide +kernel
theorem row_ty : ∀ r ∈ help, tyOf r.takes = .str → convOf r.takes r.field ≠ .flag ∧ convOf r.takes r.field ≠ .events := by decide +kernel
end Ama.Main
