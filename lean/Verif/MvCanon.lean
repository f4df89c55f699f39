import Verif.Spec.MvCanon
import Verif.MvValue

/-! # Canonical form is established by collation and kept by the other operations -/

namespace Gal

open Out

/-! ## Coefficients stay in lowest terms -/

namespace Rat32

theorem lowest_den_one (n : Int) : Lowest ⟨n, 1⟩ := by
  unfold Lowest; exact Int.gcd_one_right _

theorem zero_canon : zero.Canon := by decide

theorem add_canon {a b r : Rat32} (ha : a.WF) (hb : b.WF) (h : add a b = ok r) : r.Canon := by
  refine ⟨(add_spec ha hb h).2, ?_⟩
  unfold add at h
  simp only [bind_eq_ok, chk_eq_ok] at h
  obtain ⟨x, ⟨_, rfl⟩, y, ⟨_, rfl⟩, n, ⟨hn, rfl⟩, h⟩ := h
  have hp : 0 < a.den * b.den := Int.mul_pos ha.pos hb.pos
  split at h
  · simp at h; subst h; decide
  · simp only [bind_eq_ok, chk_eq_ok] at h
    obtain ⟨d, ⟨hd, rfl⟩, h⟩ := h
    split at h
    · exact (gate_spec h hp).2.2.2.2.1
    · have : a.den * b.den = 1 := by omega
      rw [this] at h
      simp at h; subst h; exact lowest_den_one _

theorem mul_canon {a b r : Rat32} (ha : a.WF) (hb : b.WF) (h : mul a b = ok r) : r.Canon := by
  refine ⟨(mul_spec ha hb h).2, ?_⟩
  unfold mul at h
  simp only [bind_eq_ok, chk_eq_ok] at h
  obtain ⟨n, ⟨hn, rfl⟩, d, ⟨hd, rfl⟩, h⟩ := h
  have hp : 0 < a.den * b.den := Int.mul_pos ha.pos hb.pos
  split at h
  · simp at h; subst h; decide
  · split at h
    · exact (gate_spec h hp).2.2.2.2.1
    · have : a.den * b.den = 1 := by omega
      rw [this] at h
      simp at h; subst h; exact lowest_den_one _

theorem neg_canon {a r : Rat32} (ha : a.Canon) (h : neg a = ok r) : r.Canon := by
  refine ⟨(neg_spec ha.1 h).2, ?_⟩
  unfold neg at h
  simp only [bind_eq_ok, chk_eq_ok, pure_eq, ok_inj] at h
  obtain ⟨n, ⟨hn, rfl⟩, rfl⟩ := h
  have := ha.2
  unfold Lowest at this ⊢
  simpa using this

theorem imul_unit_canon {k : Int} (hk : k = 1 ∨ k = -1) {a r : Rat32} (ha : a.Canon) (h : imul k a = ok r) :
    r.Canon := by
  refine ⟨(imul_spec ha.1 h).2, ?_⟩
  unfold imul at h
  split at h
  · simp at h; subst h; decide
  · simp only [bind_eq_ok, chk_eq_ok, pure_eq, ok_inj] at h
    obtain ⟨n, ⟨hn, rfl⟩, rfl⟩ := h
    have := ha.2
    unfold Lowest at this ⊢
    rcases hk with rfl | rfl <;> simpa using this

theorem div_canon {a b r : Rat32} (ha : a.WF) (hb : b.WF) (hb0 : b.num ≠ 0) (h : div a b = ok r) : r.Canon := by
  refine ⟨(div_spec ha hb hb0 h).2, ?_⟩
  have hap := ha.pos
  unfold div at h
  simp only [bind_eq_ok, chk_eq_ok] at h
  obtain ⟨n, ⟨hn, rfl⟩, d, ⟨hd, rfl⟩, h⟩ := h
  split at h
  · simp at h; subst h; decide
  · rw [bind_eq_ok] at h
    obtain ⟨ad, had, h⟩ := h
    have hd0 : b.num * a.den ≠ 0 := mul_ne_zero hb0 (by omega)
    unfold cabs at had
    split at h
    · split at h
      · simp only [bind_eq_ok, chk_eq_ok] at h
        obtain ⟨n', ⟨_, rfl⟩, d', ⟨_, rfl⟩, h⟩ := h
        exact (gate_spec h (by simp only; omega)).2.2.2.2.1
      · exact (gate_spec h (by simp only; omega)).2.2.2.2.1
    · split at h
      · rename_i h1 h2
        simp only [bind_eq_ok, chk_eq_ok, pure_eq, ok_inj] at h
        obtain ⟨n', ⟨_, rfl⟩, d', ⟨_, rfl⟩, rfl⟩ := h
        rw [if_pos h2, chk_eq_ok] at had
        have : -(b.num * a.den) = 1 := by omega
        rw [this]; exact lowest_den_one _
      · rename_i h1 h2
        simp at h; subst h
        rw [if_neg h2] at had; simp at had
        have : b.num * a.den = 1 := by omega
        rw [this]; exact lowest_den_one _

end Rat32

theorem CanonInd.wf {i : Ind} (h : CanonInd i) : i.deg.WF :=
  ⟨h.rep, by rw [h.den]; decide, by rw [h.den]; decide⟩

theorem CanonInd.toQ {i : Ind} (h : CanonInd i) : i.deg.toQ = i.deg.num := by
  unfold Rat32.toQ; rw [h.den]; simp

theorem PreMon.wf {m : NMon} (h : PreMon m) : m.WF := ⟨h.q.1, fun i hi => (h.inds i hi).wf⟩

theorem CanonMv.wf {a : NMv} (h : CanonMv a) : MvWF a :=
  fun t ht m hm => ((h.terms t ht).1.mons m hm).wf

theorem CanonMv.intDegs {a : NMv} (h : CanonMv a) : IntDegs a :=
  fun t ht m hm i hi => (((h.terms t ht).1.mons m hm).inds i hi).den

theorem CanonMv.tail {t : NTerm} {a : NMv} (h : CanonMv (t :: a)) : CanonMv a :=
  ⟨fun u hu => h.terms u (by simp [hu]), (List.pairwise_cons.1 h.asc).2⟩

theorem CanonMons.tail {m : NMon} {a : List NMon} (h : CanonMons (m :: a)) : CanonMons a :=
  ⟨fun u hu => h.mons u (by simp [hu]), (List.pairwise_cons.1 h.asc).2⟩

/-! ## The comparators are the key order -/

theorem indKey_lt {x y : Ind} : indKey x < indKey y ↔ x.id < y.id ∨ x.id = y.id ∧ x.deg.num < y.deg.num := by
  unfold indKey; exact Prod.Lex.toLex_lt_toLex

theorem indKey_inj {x y : Ind} (hx : CanonInd x) (hy : CanonInd y) : indKey x = indKey y ↔ x = y := by
  unfold indKey
  constructor
  · intro h
    have h' := toLex.injective h
    simp only [Prod.mk.injEq] at h'
    have hxd := hx.den
    have hyd := hy.den
    rcases x with ⟨xi, xn, xd⟩
    rcases y with ⟨yi, yn, yd⟩
    simp only at h' hxd hyd
    simp [h'.1, h'.2, hxd, hyd]
  · rintro rfl; rfl

theorem lt_int {a b : Rat32} (ha : a.den = 1) (hb : b.den = 1) (ra : InI32 a.num) (rb : InI32 b.num) :
    a.lt b = ok (decide (a.num < b.num)) := by
  unfold Rat32.lt
  simp [ha, hb, chk_of ra, chk_of rb]

theorem gt_int {a b : Rat32} (ha : a.den = 1) (hb : b.den = 1) (ra : InI32 a.num) (rb : InI32 b.num) :
    a.gt b = ok (decide (b.num < a.num)) := by
  unfold Rat32.gt
  simp [ha, hb, chk_of ra, chk_of rb]

theorem eq_int {a b : Rat32} {r : Bool} (ha : a.den = 1) (hb : b.den = 1) (ra : InI32 a.num) (rb : InI32 b.num)
    (h : a.eq b = ok r) : r = decide (a.num = b.num) := by
  have wa : a.WF := ⟨ra, by rw [ha]; decide, by rw [ha]; decide⟩
  have wb : b.WF := ⟨rb, by rw [hb]; decide, by rw [hb]; decide⟩
  rw [Rat32.C03_eq_partial _ _ wa wb (Rat32.eq_ok_ne h) hb] at h
  simp only [ok_inj] at h
  rw [← h]
  unfold Rat32.toQ
  rw [ha, hb]
  simp

theorem Ind.lt_key {x y : Ind} (hx : CanonInd x) (hy : CanonInd y) : x.lt y = ok (decide (indKey x < indKey y)) := by
  unfold Ind.lt
  rw [lt_int hx.den hy.den hx.rep hy.rep]
  simp only [indKey_lt]
  split
  · simp [*]
  · split <;> simp [*]

theorem Ind.eq_key {x y : Ind} (hx : CanonInd x) (hy : CanonInd y) {r : Bool} (h : x.eq y = ok r) :
    r = decide (indKey x = indKey y) := by
  unfold Ind.eq at h
  have hk : indKey x = indKey y ↔ x.id = y.id ∧ x.deg.num = y.deg.num := by
    unfold indKey; simp
  rw [Bool.eq_iff_iff, decide_eq_true_iff, hk]
  split at h
  · rename_i hid
    rw [eq_int hx.den hy.den hx.rep hy.rep h]
    simp [hid]
  · rename_i hid
    simp at h; simp [hid, ← h]

theorem indsLt_key {l r : List Ind} (hl : ∀ i ∈ l, CanonInd i) (hr : ∀ i ∈ r, CanonInd i) :
    indsLt l r = ok (decide (l.map indKey < r.map indKey)) := by
  induction l generalizing r with
  | nil => cases r <;> simp [indsLt]
  | cons x l ih => cases r with
    | nil => simp [indsLt]
    | cons y r =>
      unfold indsLt
      have hx := hl x (by simp)
      have hy := hr y (by simp)
      rw [Ind.lt_key hx hy, Ind.lt_key hy hx, ok_bind, ok_bind,
        ih (fun i hi => hl i (by simp [hi])) (fun i hi => hr i (by simp [hi]))]
      simp only [List.map_cons, List.cons_lt_cons_iff]
      rcases lt_trichotomy (indKey x) (indKey y) with h | h | h
      · simp [h]
      · simp [h]
      · simp [h, h.not_gt, h.ne']

theorem viewLt_key {a b : NMon} (ha : PreMon a) (hb : PreMon b) : viewLt a b = ok (decide (monKey a < monKey b)) := by
  have da : a.degree.den = 1 := by rw [ha.deg]
  have db : b.degree.den = 1 := by rw [hb.deg]
  unfold viewLt
  rw [lt_int da db ha.degOk hb.degOk, gt_int da db ha.degOk hb.degOk, ok_bind, ok_bind, indsLt_key ha.inds hb.inds]
  unfold monKey
  simp only [Prod.Lex.toLex_lt_toLex]
  rcases lt_trichotomy a.degree.num b.degree.num with h | h | h
  · simp [h]
  · simp [h]
  · simp [h, h.not_gt, h.ne']

theorem map_indKey_inj {l r : List Ind} (hl : ∀ i ∈ l, CanonInd i) (hr : ∀ i ∈ r, CanonInd i)
    (h : l.map indKey = r.map indKey) : l = r := by
  induction l generalizing r with
  | nil => cases r with
    | nil => rfl
    | cons => simp at h
  | cons x l ih => cases r with
    | nil => simp at h
    | cons y r =>
      simp only [List.map_cons, List.cons.injEq] at h
      rw [(indKey_inj (hl x (by simp)) (hr y (by simp))).1 h.1,
        ih (fun i hi => hl i (by simp [hi])) (fun i hi => hr i (by simp [hi])) h.2]

theorem monKey_inj {a b : NMon} (ha : PreMon a) (hb : PreMon b) :
    monKey a = monKey b ↔ a.inds = b.inds ∧ a.degree = b.degree := by
  unfold monKey
  constructor
  · intro h
    have h' := toLex.injective h
    simp only [Prod.mk.injEq] at h'
    have hi := map_indKey_inj ha.inds hb.inds h'.2
    refine ⟨hi, ?_⟩
    rw [ha.deg, hb.deg, hi]
  · rintro ⟨h1, h2⟩
    rw [h1, h2]

theorem viewEq_key {a b : NMon} (ha : PreMon a) (hb : PreMon b) : viewEq a b = decide (monKey a = monKey b) := by
  by_cases h : viewEq a b = true
  · rw [h, eq_comm, decide_eq_true_iff, monKey_inj ha hb]
    exact viewEq_inds h
  · have h' : viewEq a b = false := by simpa using h
    rw [h', eq_comm, decide_eq_false_iff_not, monKey_inj ha hb]
    rintro ⟨h1, h2⟩
    exact h (viewEq_self h1 h2)

theorem key_strict : StrictOrder (fun a b : NMon => decide (monKey a < monKey b)) :=
  ⟨fun x y h => by simp at h ⊢; exact h.le, fun x y z h h' => by simp at h h' ⊢; exact h.trans h'⟩

theorem element_strict : StrictOrder (fun a b : NTerm => decide (a.element < b.element)) :=
  ⟨fun x y h => by simp at h ⊢; exact h.le, fun x y z h h' => by simp at h h' ⊢; exact h.trans h'⟩

/-! ## Collation -/

theorem accN_canon {m : NMon} (hm : PreMon m) (ms : List NMon) :
    ∀ {q q' : Rat32} {rest : List NMon}, q.Canon → (∀ x ∈ ms, PreMon x) → (∀ x ∈ ms, monKey m ≤ monKey x) →
      ms.Pairwise (fun x y => monKey x ≤ monKey y) → accN m q ms = ok (q', rest) →
      q'.Canon ∧ (∀ x ∈ rest, x ∈ ms ∧ monKey m < monKey x) ∧ rest.Pairwise (fun x y => monKey x ≤ monKey y) ∧
        rest.length ≤ ms.length := by
  induction ms with
  | nil =>
    intro q q' rest hq _ _ _ h
    simp [accN] at h
    obtain ⟨rfl, rfl⟩ := h
    simp [hq]
  | cons y ys ih =>
    intro q q' rest hq hw hle hs h
    have hy := hw y (by simp)
    rw [List.pairwise_cons] at hs
    unfold accN at h
    rw [viewEq_key hm hy] at h
    split at h
    · rw [bind_eq_ok] at h
      obtain ⟨q1, h1, h⟩ := h
      obtain ⟨c, s, p, l⟩ := ih (Rat32.add_canon hq.1 hy.q.1 h1) (fun z hz => hw z (by simp [hz]))
        (fun z hz => hle z (by simp [hz])) hs.2 h
      exact ⟨c, fun x hx => ⟨by simp [(s x hx).1], (s x hx).2⟩, p, by simp; omega⟩
    · rename_i hne
      simp at h hne
      obtain ⟨rfl, rfl⟩ := h
      have hlt : monKey m < monKey y := lt_of_le_of_ne (hle y (by simp)) hne
      refine ⟨hq, fun x hx => ⟨hx, ?_⟩, List.pairwise_cons.2 hs, le_rfl⟩
      rcases List.mem_cons.1 hx with rfl | hx
      · exact hlt
      · exact lt_of_lt_of_le hlt (hs.1 x hx)

theorem mergeRunN_canon (fuel : Nat) :
    ∀ {ms r : List NMon}, ms.length ≤ fuel → (∀ x ∈ ms, PreMon x) → ms.Pairwise (fun x y => monKey x ≤ monKey y) →
      mergeRunN fuel ms = ok r → CanonMons r ∧ ∀ x ∈ r, ∃ y ∈ ms, monKey x = monKey y := by
  induction fuel with
  | zero =>
    intro ms r hl _ _ h
    simp [mergeRunN] at h; subst h
    exact ⟨⟨by simp, .nil⟩, by simp⟩
  | succ fuel ih =>
    intro ms r hl hw hs h
    cases ms with
    | nil => simp [mergeRunN] at h; subst h; exact ⟨⟨by simp, .nil⟩, by simp⟩
    | cons m ms =>
      rw [List.pairwise_cons] at hs
      unfold mergeRunN at h
      simp only [bind_eq_ok] at h
      obtain ⟨⟨q, rest⟩, h1, out, h2, h⟩ := h
      have hm := hw m (by simp)
      obtain ⟨c, s, p, l⟩ := accN_canon hm ms hm.q (fun z hz => hw z (by simp [hz])) hs.1 hs.2 h1
      simp only [List.length_cons] at hl
      obtain ⟨hc, hk⟩ := ih (show rest.length ≤ fuel by omega) (fun z hz => hw z (by simp [(s z hz).1])) p h2
      have hk' : ∀ x ∈ out, ∃ y ∈ m :: ms, monKey x = monKey y := by
        intro x hx
        obtain ⟨y, hy, e⟩ := hk x hx
        exact ⟨y, by simp [(s y hy).1], e⟩
      split at h
      · simp at h; subst h
        exact ⟨hc, hk'⟩
      · rename_i hz
        simp at h; subst h
        refine ⟨⟨?_, ?_⟩, ?_⟩
        · intro x hx
          rcases List.mem_cons.1 hx with rfl | hx
          · exact ⟨⟨c, hm.inds, hm.asc, hm.deg, hm.degOk⟩, by simpa [Rat32.isZero] using hz⟩
          · exact hc.mons x hx
        · rw [List.pairwise_cons]
          refine ⟨fun x hx => ?_, hc.asc⟩
          obtain ⟨y, hy, e⟩ := hk x hx
          rw [e]; exact (s y hy).2
        · intro x hx
          rcases List.mem_cons.1 hx with rfl | hx
          · exact ⟨m, by simp, rfl⟩
          · exact hk' x hx

theorem gatherN_canon (el : Nat) (ts : NMv) (hs : ts.Pairwise (fun x y => x.element ≤ y.element))
    (hle : ∀ t ∈ ts, el ≤ t.element) :
    (∀ t ∈ (gatherN el ts).2, el < t.element) ∧ (gatherN el ts).2.Pairwise (fun x y => x.element ≤ y.element) := by
  induction ts with
  | nil => simp [gatherN]
  | cons t ts ih =>
    rw [List.pairwise_cons] at hs
    unfold gatherN
    split
    · exact ih hs.2 (fun u hu => hle u (by simp [hu]))
    · rename_i hne
      refine ⟨fun u hu => ?_, List.pairwise_cons.2 hs⟩
      have h1 := hle t (by simp)
      rcases List.mem_cons.1 hu with rfl | hu
      · omega
      · have := hs.1 u hu; omega

theorem sort_mons {ms : List NMon} (hw : ∀ x ∈ ms, PreMon x) :
    ∃ s, sortAll viewLt ms = ok s ∧ s.Perm ms ∧ s.Pairwise (fun x y => monKey x ≤ monKey y) := by
  obtain ⟨s, h1, h2, h3⟩ := C09_sortAll viewLt _ key_strict ms (fun x hx y hy => viewLt_key (hw x hx) (hw y hy))
  refine ⟨s, h1, h2, h3.imp ?_⟩
  intro x y h
  simpa using h

theorem sort_terms (ts : NMv) :
    ∃ s, sortAll termLt ts = ok s ∧ s.Perm ts ∧ s.Pairwise (fun x y => x.element ≤ y.element) := by
  obtain ⟨s, h1, h2, h3⟩ := C09_sortAll termLt _ element_strict ts (fun x hx y hy => rfl)
  refine ⟨s, h1, h2, h3.imp ?_⟩
  intro x y h
  simpa using h

theorem collateN_canon (fuel : Nat) :
    ∀ {ts r : NMv}, ts.length ≤ fuel → (∀ t ∈ ts, ∀ m ∈ t.mons, PreMon m) →
      ts.Pairwise (fun x y => x.element ≤ y.element) → collateN fuel ts = ok r →
      CanonMv r ∧ ∀ t ∈ r, ∃ u ∈ ts, t.element = u.element := by
  induction fuel with
  | zero =>
    intro ts r hl _ _ h
    simp [collateN] at h; subst h
    exact ⟨⟨by simp, .nil⟩, by simp⟩
  | succ fuel ih =>
    intro ts r hl hw hs h
    cases ts with
    | nil => simp [collateN] at h; subst h; exact ⟨⟨by simp, .nil⟩, by simp⟩
    | cons t ts =>
      unfold collateN at h
      simp only [bind_eq_ok] at h
      obtain ⟨sorted, h1, merged, h2, out, h3, h⟩ := h
      obtain ⟨_, m, s, _⟩ := gatherN_val (K := ℚ) (V := ℚ) (fun _ _ => 0) (fun _ => 0) t.element (t :: ts)
      have hgw : ∀ x ∈ (gatherN t.element (t :: ts)).1, PreMon x := by
        intro x hx
        obtain ⟨u, hu, hx⟩ := m x hx
        exact hw u hu x hx
      obtain ⟨s', h1', hp, ho⟩ := sort_mons hgw
      rw [h1'] at h1; simp at h1; subst h1
      obtain ⟨hcm, _⟩ := mergeRunN_canon _ le_rfl (fun x hx => hgw x (hp.mem_iff.1 hx)) ho h2
      have hl2 := gatherN_head_length t ts
      have hlen : ts.length + 1 ≤ fuel + 1 := hl
      obtain ⟨hg1, hg2⟩ := gatherN_canon t.element (t :: ts) hs (by
        intro u hu
        rcases List.mem_cons.1 hu with rfl | hu
        · exact le_rfl
        · exact (List.pairwise_cons.1 hs).1 u hu)
      obtain ⟨hc, hel⟩ := ih (by omega) (fun z hz => hw z (s z hz)) hg2 h3
      split at h
      · rename_i hpos
        simp at h; subst h
        refine ⟨⟨?_, ?_⟩, ?_⟩
        · intro u hu
          rcases List.mem_cons.1 hu with rfl | hu
          · exact ⟨hcm, fun e => by simp at e; simp [e] at hpos⟩
          · exact hc.terms u hu
        · rw [List.pairwise_cons]
          refine ⟨fun u hu => ?_, hc.asc⟩
          obtain ⟨v, hv, e⟩ := hel u hu
          rw [e]; exact hg1 v hv
        · intro u hu
          rcases List.mem_cons.1 hu with rfl | hu
          · exact ⟨t, by simp, rfl⟩
          · obtain ⟨v, hv, e⟩ := hel u hu
            exact ⟨v, s v hv, e⟩
      · simp at h; subst h
        refine ⟨hc, fun u hu => ?_⟩
        obtain ⟨v, hv, e⟩ := hel u hu
        exact ⟨v, s v hv, e⟩

theorem sortCollateN_canon {ts r : NMv} (hw : ∀ t ∈ ts, ∀ m ∈ t.mons, PreMon m) (h : sortCollateN ts = ok r) :
    CanonMv r := by
  unfold sortCollateN at h
  rw [bind_eq_ok] at h
  obtain ⟨s, h1, h2⟩ := h
  obtain ⟨s', h1', hp, ho⟩ := sort_terms ts
  rw [h1'] at h1; simp at h1; subst h1
  exact (collateN_canon _ le_rfl (fun t ht => hw t (hp.mem_iff.1 ht)) ho h2).1

/-! ## Sum -/

theorem cmpInds_key {l r : List Ind} (hl : ∀ i ∈ l, CanonInd i) (hr : ∀ i ∈ r, CanonInd i) {p : Pick}
    (h : cmpInds l r = ok p) :
    (p = .same ∧ l.map indKey = r.map indKey) ∨ (p = .left ∧ l.map indKey < r.map indKey) ∨
      (p = .right ∧ r.map indKey < l.map indKey) := by
  induction l generalizing r with
  | nil => cases r <;> simp [cmpInds] at h <;> subst h <;> simp
  | cons x l ih => cases r with
    | nil => simp [cmpInds] at h; subst h; simp
    | cons y r =>
      have hx := hl x (by simp)
      have hy := hr y (by simp)
      unfold cmpInds at h
      rw [bind_eq_ok] at h
      obtain ⟨b, hb, h⟩ := h
      rw [Ind.eq_key hx hy hb] at h
      simp only [List.map_cons, List.cons_lt_cons_iff, List.cons.injEq]
      by_cases he : indKey x = indKey y
      · simp only [he, decide_true, if_true] at h
        have := ih (fun i hi => hl i (by simp [hi])) (fun i hi => hr i (by simp [hi])) h
        simpa [he] using this
      · simp only [he, decide_false, Bool.false_eq_true, if_false, Ind.lt_key hx hy, ok_bind] at h
        rcases lt_or_gt_of_ne he with hlt | hgt
        · simp only [hlt, decide_true, if_true, pure_eq, ok_inj] at h
          subst h; simp [he, hlt]
        · simp only [hgt.not_gt, decide_false, Bool.false_eq_true, if_false, pure_eq, ok_inj] at h
          subst h; simp [he, hgt]

theorem sumMonsN_canon (fuel : Nat) :
    ∀ {l r out : List NMon}, l.length + r.length ≤ fuel → CanonMons l → CanonMons r → sumMonsN fuel l r = ok out →
      CanonMons out ∧ ∀ m ∈ out, ∃ n ∈ l ++ r, monKey m = monKey n := by
  induction fuel with
  | zero =>
    intro l r out hf hl hr h
    have h1 : l = [] := List.length_eq_zero_iff.1 (by omega)
    have h2 : r = [] := List.length_eq_zero_iff.1 (by omega)
    subst h1 h2
    simp [sumMonsN] at h; subst h
    exact ⟨hl, by simp⟩
  | succ fuel ih =>
    intro l r out hf hl hr h
    cases l with
    | nil => simp [sumMonsN] at h; subst h; exact ⟨hr, fun m hm => ⟨m, by simpa using hm, rfl⟩⟩
    | cons x l => cases r with
      | nil => simp [sumMonsN] at h; subst h; exact ⟨hl, fun m hm => ⟨m, by simpa using hm, rfl⟩⟩
      | cons y r =>
        simp only [List.length_cons] at hf
        have hx := hl.mons x (by simp)
        have hy := hr.mons y (by simp)
        have ax := (List.pairwise_cons.1 hl.asc).1
        have ay := (List.pairwise_cons.1 hr.asc).1
        have left : ∀ rest, monKey x < monKey y → sumMonsN fuel l (y :: r) = ok rest → out = x :: rest →
            CanonMons out ∧ ∀ m ∈ out, ∃ n ∈ (x :: l) ++ (y :: r), monKey m = monKey n := by
          rintro rest hlt hrest rfl
          obtain ⟨c, k⟩ := ih (by simp; omega) hl.tail hr hrest
          refine ⟨⟨fun m hm => ?_, List.pairwise_cons.2 ⟨fun m hm => ?_, c.asc⟩⟩, fun m hm => ?_⟩
          · rcases List.mem_cons.1 hm with rfl | hm
            · exact hx
            · exact c.mons m hm
          · obtain ⟨n, hn, e⟩ := k m hm
            rw [e]
            rcases List.mem_append.1 hn with hn | hn
            · exact ax n hn
            · rcases List.mem_cons.1 hn with rfl | hn
              · exact hlt
              · exact hlt.trans (ay n hn)
          · rcases List.mem_cons.1 hm with rfl | hm
            · exact ⟨m, by simp, rfl⟩
            · obtain ⟨n, hn, e⟩ := k m hm
              exact ⟨n, by simp at hn ⊢; tauto, e⟩
        have right : ∀ rest, monKey y < monKey x → sumMonsN fuel (x :: l) r = ok rest → out = y :: rest →
            CanonMons out ∧ ∀ m ∈ out, ∃ n ∈ (x :: l) ++ (y :: r), monKey m = monKey n := by
          rintro rest hlt hrest rfl
          obtain ⟨c, k⟩ := ih (by simp; omega) hl hr.tail hrest
          refine ⟨⟨fun m hm => ?_, List.pairwise_cons.2 ⟨fun m hm => ?_, c.asc⟩⟩, fun m hm => ?_⟩
          · rcases List.mem_cons.1 hm with rfl | hm
            · exact hy
            · exact c.mons m hm
          · obtain ⟨n, hn, e⟩ := k m hm
            rw [e]
            rcases List.mem_append.1 hn with hn | hn
            · rcases List.mem_cons.1 hn with rfl | hn
              · exact hlt
              · exact hlt.trans (ax n hn)
            · exact ay n hn
          · rcases List.mem_cons.1 hm with rfl | hm
            · exact ⟨m, by simp, rfl⟩
            · obtain ⟨n, hn, e⟩ := k m hm
              exact ⟨n, by simp at hn ⊢; tauto, e⟩
        have dx : x.degree.den = 1 := by rw [hx.deg]
        have dy : y.degree.den = 1 := by rw [hy.deg]
        unfold sumMonsN at h
        split at h
        · rename_i hne
          have hne' : x.degree.num ≠ y.degree.num := by
            simp [Rat32.ne, dx, dy] at hne; exact hne
          rw [lt_int dx dy hx.degOk hy.degOk, ok_bind] at h
          split at h
          · rename_i hlt
            simp only [bind_eq_ok, pure_eq, ok_inj] at h
            obtain ⟨rest, hrest, h⟩ := h
            exact left rest (Prod.Lex.toLex_lt_toLex.2 (.inl (by simpa using hlt))) hrest h.symm
          · rename_i hlt
            simp only [bind_eq_ok, pure_eq, ok_inj] at h
            obtain ⟨rest, hrest, h⟩ := h
            simp at hlt
            exact right rest (Prod.Lex.toLex_lt_toLex.2 (.inl (by simp only; omega))) hrest h.symm
        · rename_i hne
          have he : x.degree.num = y.degree.num := by
            simp [Rat32.ne, dx, dy] at hne; exact hne
          rw [bind_eq_ok] at h
          obtain ⟨p, hp, h⟩ := h
          rcases cmpInds_key hx.inds hy.inds hp with ⟨rfl, hk⟩ | ⟨rfl, hk⟩ | ⟨rfl, hk⟩
          · simp only [bind_eq_ok] at h
            obtain ⟨q, hq, rest, hrest, h⟩ := h
            have hxy : monKey x = monKey y := by unfold monKey; rw [he, hk]
            obtain ⟨c, k⟩ := ih (by omega) hl.tail hr.tail hrest
            have hqc := Rat32.add_canon hx.q.1 hy.q.1 hq
            have k' : ∀ m ∈ rest, ∃ n ∈ (x :: l) ++ (y :: r), monKey m = monKey n := by
              intro m hm
              obtain ⟨n, hn, e⟩ := k m hm
              exact ⟨n, by simp at hn ⊢; tauto, e⟩
            split at h
            · simp at h; subst h; exact ⟨c, k'⟩
            · rename_i hz
              simp at h; subst h
              refine ⟨⟨fun m hm => ?_, List.pairwise_cons.2 ⟨fun m hm => ?_, c.asc⟩⟩, fun m hm => ?_⟩
              · rcases List.mem_cons.1 hm with rfl | hm
                · exact ⟨⟨hqc, hx.inds, hx.asc, hx.deg, hx.degOk⟩, by simpa [Rat32.isZero] using hz⟩
                · exact c.mons m hm
              · obtain ⟨n, hn, e⟩ := k m hm
                rw [e]
                rcases List.mem_append.1 hn with hn | hn
                · exact ax n hn
                · have := ay n hn
                  rw [← hxy] at this; exact this
              · rcases List.mem_cons.1 hm with rfl | hm
                · exact ⟨x, by simp, rfl⟩
                · exact k' m hm
          · simp only [bind_eq_ok, pure_eq, ok_inj] at h
            obtain ⟨rest, hrest, h⟩ := h
            exact left rest (Prod.Lex.toLex_lt_toLex.2 (.inr ⟨he, hk⟩)) hrest h.symm
          · simp only [bind_eq_ok, pure_eq, ok_inj] at h
            obtain ⟨rest, hrest, h⟩ := h
            exact right rest (Prod.Lex.toLex_lt_toLex.2 (.inr ⟨he.symm, hk⟩)) hrest h.symm

theorem sumTermsN_canon (fuel : Nat) :
    ∀ {l r out : NMv}, l.length + r.length ≤ fuel → CanonMv l → CanonMv r → sumTermsN fuel l r = ok out →
      CanonMv out ∧ ∀ m ∈ out, ∃ n ∈ l ++ r, m.element = n.element := by
  induction fuel with
  | zero =>
    intro l r out hf hl hr h
    have h1 : l = [] := List.length_eq_zero_iff.1 (by omega)
    have h2 : r = [] := List.length_eq_zero_iff.1 (by omega)
    subst h1 h2
    simp [sumTermsN] at h; subst h
    exact ⟨hl, by simp⟩
  | succ fuel ih =>
    intro l r out hf hl hr h
    cases l with
    | nil => simp [sumTermsN] at h; subst h; exact ⟨hr, fun m hm => ⟨m, by simpa using hm, rfl⟩⟩
    | cons x l => cases r with
      | nil => simp [sumTermsN] at h; subst h; exact ⟨hl, fun m hm => ⟨m, by simpa using hm, rfl⟩⟩
      | cons y r =>
        simp only [List.length_cons] at hf
        have hx := hl.terms x (by simp)
        have hy := hr.terms y (by simp)
        have ax := (List.pairwise_cons.1 hl.asc).1
        have ay := (List.pairwise_cons.1 hr.asc).1
        unfold sumTermsN at h
        split at h
        · rename_i he
          simp only [bind_eq_ok] at h
          obtain ⟨ms, hms, rest, hrest, h⟩ := h
          obtain ⟨c, k⟩ := ih (by omega) hl.tail hr.tail hrest
          obtain ⟨cm, _⟩ := sumMonsN_canon _ le_rfl hx.1 hy.1 hms
          have k' : ∀ m ∈ rest, ∃ n ∈ (x :: l) ++ (y :: r), m.element = n.element := by
            intro m hm
            obtain ⟨n, hn, e⟩ := k m hm
            exact ⟨n, by simp at hn ⊢; tauto, e⟩
          split at h
          · rename_i hpos
            simp at h; subst h
            refine ⟨⟨fun m hm => ?_, List.pairwise_cons.2 ⟨fun m hm => ?_, c.asc⟩⟩, fun m hm => ?_⟩
            · rcases List.mem_cons.1 hm with rfl | hm
              · exact ⟨cm, fun e => by simp at e; simp [e] at hpos⟩
              · exact c.terms m hm
            · obtain ⟨n, hn, e⟩ := k m hm
              rw [e]
              rcases List.mem_append.1 hn with hn | hn
              · exact ax n hn
              · have := ay n hn
                simp only; omega
            · rcases List.mem_cons.1 hm with rfl | hm
              · exact ⟨x, by simp, rfl⟩
              · exact k' m hm
          · simp at h; subst h; exact ⟨c, k'⟩
        · rename_i hne
          split at h
          · rename_i hlt
            simp only [bind_eq_ok, pure_eq, ok_inj] at h
            obtain ⟨rest, hrest, rfl⟩ := h
            obtain ⟨c, k⟩ := ih (by simp; omega) hl.tail hr hrest
            refine ⟨⟨fun m hm => ?_, List.pairwise_cons.2 ⟨fun m hm => ?_, c.asc⟩⟩, fun m hm => ?_⟩
            · rcases List.mem_cons.1 hm with rfl | hm
              · exact hx
              · exact c.terms m hm
            · obtain ⟨n, hn, e⟩ := k m hm
              rw [e]
              rcases List.mem_append.1 hn with hn | hn
              · exact ax n hn
              · rcases List.mem_cons.1 hn with rfl | hn
                · exact hlt
                · exact hlt.trans (ay n hn)
            · rcases List.mem_cons.1 hm with rfl | hm
              · exact ⟨m, by simp, rfl⟩
              · obtain ⟨n, hn, e⟩ := k m hm
                exact ⟨n, by simp at hn ⊢; tauto, e⟩
          · rename_i hlt
            have hlt' : y.element < x.element := by omega
            simp only [bind_eq_ok, pure_eq, ok_inj] at h
            obtain ⟨rest, hrest, rfl⟩ := h
            obtain ⟨c, k⟩ := ih (by simp; omega) hl hr.tail hrest
            refine ⟨⟨fun m hm => ?_, List.pairwise_cons.2 ⟨fun m hm => ?_, c.asc⟩⟩, fun m hm => ?_⟩
            · rcases List.mem_cons.1 hm with rfl | hm
              · exact hy
              · exact c.terms m hm
            · obtain ⟨n, hn, e⟩ := k m hm
              rw [e]
              rcases List.mem_append.1 hn with hn | hn
              · rcases List.mem_cons.1 hn with rfl | hn
                · exact hlt'
                · exact hlt'.trans (ax n hn)
              · exact ay n hn
            · rcases List.mem_cons.1 hm with rfl | hm
              · exact ⟨m, by simp, rfl⟩
              · obtain ⟨n, hn, e⟩ := k m hm
                exact ⟨n, by simp at hn ⊢; tauto, e⟩

theorem sumN_canon {a b r : NMv} (ha : CanonMv a) (hb : CanonMv b) (h : sumN a b = ok r) : CanonMv r :=
  (sumTermsN_canon _ le_rfl ha hb h).1

/-! ## Product -/

theorem add_int {a b r : Rat32} (ha : a.den = 1) (hb : b.den = 1) (h : a.add b = ok r) :
    r = ⟨a.num + b.num, 1⟩ ∧ InI32 (a.num + b.num) := by
  unfold Rat32.add at h
  simp only [bind_eq_ok, chk_eq_ok, ha, hb, mul_one] at h
  obtain ⟨x, ⟨_, rfl⟩, y, ⟨_, rfl⟩, n, ⟨hn, rfl⟩, h⟩ := h
  refine ⟨?_, hn⟩
  split at h
  · rename_i h0; simp at h; rw [← h, h0]; rfl
  · simp only [bind_eq_ok, chk_eq_ok] at h
    obtain ⟨d, ⟨_, rfl⟩, h⟩ := h
    simp at h; exact h.symm

theorem addAssign_int {a b r : Rat32} (ha : a.den = 1) (hb : b.den = 1) (h : a.addAssign b = ok r) :
    r = ⟨a.num + b.num, 1⟩ ∧ InI32 (a.num + b.num) := by
  unfold Rat32.addAssign at h
  simp only [bind_eq_ok, chk_eq_ok, ha, hb, mul_one] at h
  obtain ⟨x, ⟨_, rfl⟩, y, ⟨_, rfl⟩, n, ⟨hn, rfl⟩, h⟩ := h
  refine ⟨?_, hn⟩
  split at h
  · rename_i h0; simp at h; rw [← h, h0]
  · simp only [bind_eq_ok, chk_eq_ok] at h
    obtain ⟨d, ⟨_, rfl⟩, h⟩ := h
    simp at h; exact h.symm

theorem mergeIndsN_canon (fuel : Nat) :
    ∀ {d d' : Rat32} {l r out : List Ind}, l.length + r.length ≤ fuel → d.den = 1 → InI32 d.num →
      (∀ i ∈ l, CanonInd i) → (∀ i ∈ r, CanonInd i) →
      l.Pairwise (fun x y => x.id < y.id) → r.Pairwise (fun x y => x.id < y.id) →
      mergeIndsN fuel d l r = ok (out, d') →
      (∀ i ∈ out, CanonInd i) ∧ out.Pairwise (fun x y => x.id < y.id) ∧
      (∀ i ∈ out, ∃ j ∈ l ++ r, i.id = j.id) ∧
      d' = ⟨d.num + (out.map (fun i => i.deg.num)).sum, 1⟩ ∧ InI32 d'.num := by
  induction fuel with
  | zero =>
    intro d d' l r out hf hd hdr _ _ _ _ h
    have h1 : l = [] := List.length_eq_zero_iff.1 (by omega)
    have h2 : r = [] := List.length_eq_zero_iff.1 (by omega)
    subst h1 h2
    simp [mergeIndsN] at h
    obtain ⟨rfl, rfl⟩ := h
    refine ⟨by simp, .nil, by simp, ?_, hdr⟩
    cases d; simp at hd; simp [hd]
  | succ fuel ih =>
    intro d d' l r out hf hd hdr cl cr al ar h
    cases l with
    | nil => cases r with
      | nil =>
        simp [mergeIndsN] at h
        obtain ⟨rfl, rfl⟩ := h
        refine ⟨by simp, .nil, by simp, ?_, hdr⟩
        cases d; simp at hd; simp [hd]
      | cons y r =>
        simp only [List.length_cons, List.length_nil] at hf
        simp only [mergeIndsN, bind_eq_ok, pure_eq, ok_inj] at h
        obtain ⟨d1, hd1, ⟨o, d2⟩, h2, h⟩ := h
        have hy := cr y (by simp)
        obtain ⟨rfl, hdr1⟩ := addAssign_int hd hy.den hd1
        obtain ⟨c, a, k, e, f⟩ := ih (by simp; omega) rfl hdr1 cl (fun i hi => cr i (by simp [hi])) al
          (List.pairwise_cons.1 ar).2 h2
        simp at h
        obtain ⟨rfl, rfl⟩ := h
        refine ⟨?_, List.pairwise_cons.2 ⟨?_, a⟩, ?_, ?_, f⟩
        · intro i hi
          rcases List.mem_cons.1 hi with rfl | hi
          · exact hy
          · exact c i hi
        · intro i hi
          obtain ⟨j, hj, e⟩ := k i hi
          rw [e]; exact (List.pairwise_cons.1 ar).1 j (by simpa using hj)
        · intro i hi
          rcases List.mem_cons.1 hi with rfl | hi
          · exact ⟨i, by simp, rfl⟩
          · obtain ⟨j, hj, e⟩ := k i hi
            exact ⟨j, by simp at hj ⊢; tauto, e⟩
        · rw [e]; simp [add_assoc]
    | cons x l => cases r with
      | nil =>
        simp only [List.length_cons, List.length_nil] at hf
        simp only [mergeIndsN, bind_eq_ok, pure_eq, ok_inj] at h
        obtain ⟨d1, hd1, ⟨o, d2⟩, h2, h⟩ := h
        have hx := cl x (by simp)
        obtain ⟨rfl, hdr1⟩ := addAssign_int hd hx.den hd1
        obtain ⟨c, a, k, e, f⟩ := ih (by simp; omega) rfl hdr1 (fun i hi => cl i (by simp [hi])) cr
          (List.pairwise_cons.1 al).2 ar h2
        simp at h
        obtain ⟨rfl, rfl⟩ := h
        refine ⟨?_, List.pairwise_cons.2 ⟨?_, a⟩, ?_, ?_, f⟩
        · intro i hi
          rcases List.mem_cons.1 hi with rfl | hi
          · exact hx
          · exact c i hi
        · intro i hi
          obtain ⟨j, hj, e⟩ := k i hi
          rw [e]; exact (List.pairwise_cons.1 al).1 j (by simpa using hj)
        · intro i hi
          rcases List.mem_cons.1 hi with rfl | hi
          · exact ⟨i, by simp, rfl⟩
          · obtain ⟨j, hj, e⟩ := k i hi
            exact ⟨j, by simp at hj ⊢; tauto, e⟩
        · rw [e]; simp [add_assoc]
      | cons y r =>
        simp only [List.length_cons] at hf
        have hx := cl x (by simp)
        have hy := cr y (by simp)
        have cL : ∀ i ∈ l, CanonInd i := fun i hi => cl i (by simp [hi])
        have cR : ∀ i ∈ r, CanonInd i := fun i hi => cr i (by simp [hi])
        obtain ⟨al1, al2⟩ := List.pairwise_cons.1 al
        obtain ⟨ar1, ar2⟩ := List.pairwise_cons.1 ar
        unfold mergeIndsN at h
        split at h
        · rename_i hid
          simp only [bind_eq_ok] at h
          obtain ⟨next, hn, d1, hd1, ⟨o, d2⟩, h2, h⟩ := h
          obtain ⟨rfl, hnr⟩ := add_int hx.den hy.den hn
          obtain ⟨rfl, hdr1⟩ := addAssign_int hd rfl hd1
          obtain ⟨c, a, k, e, f⟩ := ih (by omega) rfl hdr1 cL cR al2 ar2 h2
          have k' : ∀ i ∈ o, ∃ j ∈ (x :: l) ++ (y :: r), i.id = j.id := by
            intro i hi
            obtain ⟨j, hj, e⟩ := k i hi
            exact ⟨j, by simp at hj ⊢; tauto, e⟩
          split at h
          · rename_i hnz
            simp at h
            obtain ⟨rfl, rfl⟩ := h
            refine ⟨?_, List.pairwise_cons.2 ⟨?_, a⟩, ?_, ?_, f⟩
            · intro i hi
              rcases List.mem_cons.1 hi with rfl | hi
              · exact ⟨rfl, hnr, by simpa [Rat32.neInt] using hnz⟩
              · exact c i hi
            · intro i hi
              obtain ⟨j, hj, e⟩ := k i hi
              simp only [e]
              rcases List.mem_append.1 hj with hj | hj
              · exact al1 j hj
              · rw [hid]; exact ar1 j hj
            · intro i hi
              rcases List.mem_cons.1 hi with rfl | hi
              · exact ⟨x, by simp, rfl⟩
              · exact k' i hi
            · rw [e]; simp [add_assoc]
          · rename_i hz
            simp at h
            obtain ⟨rfl, rfl⟩ := h
            simp [Rat32.neInt] at hz
            refine ⟨c, a, k', ?_, f⟩
            rw [e]; simp [hz]
        · split at h
          · rename_i hne hlt
            simp only [bind_eq_ok, pure_eq, ok_inj] at h
            obtain ⟨d1, hd1, ⟨o, d2⟩, h2, h⟩ := h
            obtain ⟨rfl, hdr1⟩ := addAssign_int hd hx.den hd1
            obtain ⟨c, a, k, e, f⟩ := ih (by simp; omega) rfl hdr1 cL cr al2 ar h2
            simp at h
            obtain ⟨rfl, rfl⟩ := h
            refine ⟨?_, List.pairwise_cons.2 ⟨?_, a⟩, ?_, ?_, f⟩
            · intro i hi
              rcases List.mem_cons.1 hi with rfl | hi
              · exact hx
              · exact c i hi
            · intro i hi
              obtain ⟨j, hj, e⟩ := k i hi
              rw [e]
              rcases List.mem_append.1 hj with hj | hj
              · exact al1 j hj
              · rcases List.mem_cons.1 hj with rfl | hj
                · exact hlt
                · exact hlt.trans (ar1 j hj)
            · intro i hi
              rcases List.mem_cons.1 hi with rfl | hi
              · exact ⟨i, by simp, rfl⟩
              · obtain ⟨j, hj, e⟩ := k i hi
                exact ⟨j, by simp at hj ⊢; tauto, e⟩
            · rw [e]; simp [add_assoc]
          · rename_i hne hlt
            have hlt' : y.id < x.id := by omega
            simp only [bind_eq_ok, pure_eq, ok_inj] at h
            obtain ⟨d1, hd1, ⟨o, d2⟩, h2, h⟩ := h
            obtain ⟨rfl, hdr1⟩ := addAssign_int hd hy.den hd1
            obtain ⟨c, a, k, e, f⟩ := ih (by simp; omega) rfl hdr1 cl cR al ar2 h2
            simp at h
            obtain ⟨rfl, rfl⟩ := h
            refine ⟨?_, List.pairwise_cons.2 ⟨?_, a⟩, ?_, ?_, f⟩
            · intro i hi
              rcases List.mem_cons.1 hi with rfl | hi
              · exact hy
              · exact c i hi
            · intro i hi
              obtain ⟨j, hj, e⟩ := k i hi
              rw [e]
              rcases List.mem_append.1 hj with hj | hj
              · rcases List.mem_cons.1 hj with rfl | hj
                · exact hlt'
                · exact hlt'.trans (al1 j hj)
              · exact ar1 j hj
            · intro i hi
              rcases List.mem_cons.1 hi with rfl | hi
              · exact ⟨i, by simp, rfl⟩
              · obtain ⟨j, hj, e⟩ := k i hi
                exact ⟨j, by simp at hj ⊢; tauto, e⟩
            · rw [e]; simp [add_assoc]

theorem mulMonN_pre {k : Int} {x y r : NMon} (hx : PreMon x) (hy : PreMon y) (h : mulMonN k x y = ok r) : PreMon r := by
  unfold mulMonN at h
  simp only [bind_eq_ok, pure_eq, ok_inj] at h
  obtain ⟨⟨is, d⟩, h1, q, h2, q', h3, rfl⟩ := h
  obtain ⟨c, a, _, e, f⟩ := mergeIndsN_canon _ le_rfl (d := {}) rfl (by decide) hx.inds hy.inds hx.asc hy.asc h1
  refine ⟨?_, c, a, by simpa using e, f⟩
  exact Rat32.mul_canon (Rat32.imul_spec hx.q.1 h2).2 hy.q.1 h3

theorem mulMonsN_pre {k : Int} {l r out : List NMon} (hl : ∀ x ∈ l, PreMon x) (hr : ∀ y ∈ r, PreMon y)
    (h : mulMonsN k l r = ok out) : ∀ m ∈ out, PreMon m := by
  induction l generalizing out with
  | nil => simp [mulMonsN] at h; subst h; simp
  | cons x l ih =>
    simp only [mulMonsN, bind_eq_ok, pure_eq, ok_inj] at h
    obtain ⟨row, h1, rest, h2, rfl⟩ := h
    intro m hm
    rcases List.mem_append.1 hm with hm | hm
    · obtain ⟨y, hy, e⟩ := mapO_mem h1 hm
      exact mulMonN_pre (hl x (by simp)) (hr y hy) e
    · exact ih (fun x hx => hl x (by simp [hx])) h2 m hm

theorem mulTermsN_pre {P : Nat → Nat → Nat × Int} {l r out : NMv} (hl : ∀ t ∈ l, ∀ m ∈ t.mons, PreMon m)
    (hr : ∀ t ∈ r, ∀ m ∈ t.mons, PreMon m) (h : mulTermsN P l r = ok out) : ∀ t ∈ out, ∀ m ∈ t.mons, PreMon m := by
  have row : ∀ {x : NTerm} {r out : NMv}, (∀ m ∈ x.mons, PreMon m) → (∀ t ∈ r, ∀ m ∈ t.mons, PreMon m) →
      mulTermRowN P x r = ok out → ∀ t ∈ out, ∀ m ∈ t.mons, PreMon m := by
    intro x r
    induction r with
    | nil => intro out _ _ h; simp [mulTermRowN] at h; subst h; simp
    | cons y r ih =>
      intro out hx hr h
      unfold mulTermRowN at h
      split at h
      split at h
      · simp only [bind_eq_ok, pure_eq, ok_inj] at h
        obtain ⟨ms, h1, rest, h2, rfl⟩ := h
        intro t ht
        rcases List.mem_cons.1 ht with rfl | ht
        · exact mulMonsN_pre hx (hr y (by simp)) h1
        · exact ih hx (fun t ht => hr t (by simp [ht])) h2 t ht
      · exact ih hx (fun t ht => hr t (by simp [ht])) h
  induction l generalizing out with
  | nil => simp [mulTermsN] at h; subst h; simp
  | cons x l ih =>
    simp only [mulTermsN, bind_eq_ok, pure_eq, ok_inj] at h
    obtain ⟨rw1, h1, rest, h2, rfl⟩ := h
    intro t ht
    rcases List.mem_append.1 ht with ht | ht
    · exact row (hl x (by simp)) hr h1 t ht
    · exact ih (fun x hx => hl x (by simp [hx])) h2 t ht

theorem productN_canon {P : Nat → Nat → Nat × Int} {a b r : NMv} (ha : ∀ t ∈ a, ∀ m ∈ t.mons, PreMon m)
    (hb : ∀ t ∈ b, ∀ m ∈ t.mons, PreMon m) (h : productN P a b = ok r) : CanonMv r := by
  unfold productN at h
  rw [bind_eq_ok] at h
  obtain ⟨ts, h1, h2⟩ := h
  exact sortCollateN_canon (mulTermsN_pre ha hb h1) h2

theorem CanonMv.pre {a : NMv} (h : CanonMv a) : ∀ t ∈ a, ∀ m ∈ t.mons, PreMon m :=
  fun t ht m hm => ((h.terms t ht).1.mons m hm).toPreMon

/-! ## Coefficient maps -/

theorem mapQ_mons_canon {f : Rat32 → Out Rat32} (hf : ∀ x y, x.Canon → x.num ≠ 0 → f x = ok y → y.Canon ∧ y.num ≠ 0)
    {ms r : List NMon} (hc : CanonMons ms) (h : mapO (NMon.mapQ f) ms = ok r) :
    CanonMons r ∧ r.map monKey = ms.map monKey := by
  induction ms generalizing r with
  | nil => rw [mapO_nil_ok] at h; subst h; exact ⟨hc, rfl⟩
  | cons m ms ih =>
    rw [mapO_cons_ok] at h
    obtain ⟨y, ys, hy, hys, rfl⟩ := h
    obtain ⟨c, k⟩ := ih hc.tail hys
    unfold NMon.mapQ at hy
    simp only [bind_eq_ok, pure_eq, ok_inj] at hy
    obtain ⟨q, hq, rfl⟩ := hy
    have hm := hc.mons m (by simp)
    obtain ⟨qc, qn⟩ := hf _ _ hm.q hm.nz hq
    refine ⟨⟨fun x hx => ?_, List.pairwise_cons.2 ⟨fun x hx => ?_, c.asc⟩⟩, ?_⟩
    · rcases List.mem_cons.1 hx with rfl | hx
      · exact ⟨⟨qc, hm.inds, hm.asc, hm.deg, hm.degOk⟩, qn⟩
      · exact c.mons x hx
    · have : monKey x ∈ ms.map monKey := by rw [← k]; exact List.mem_map_of_mem hx
      obtain ⟨y, hy, e⟩ := List.mem_map.1 this
      rw [← e]
      exact (List.pairwise_cons.1 hc.asc).1 y hy
    · rw [List.map_cons, List.map_cons, k]; rfl

theorem mapT_canon {f : NTerm → Out NTerm}
    (hf : ∀ x y, CanonMons x.mons → x.mons ≠ [] → f x = ok y → y.element = x.element ∧ CanonMons y.mons ∧ y.mons ≠ [])
    {a r : NMv} (hc : CanonMv a) (h : mapO f a = ok r) :
    CanonMv r ∧ r.map (·.element) = a.map (·.element) := by
  induction a generalizing r with
  | nil => rw [mapO_nil_ok] at h; subst h; exact ⟨hc, rfl⟩
  | cons m ms ih =>
    rw [mapO_cons_ok] at h
    obtain ⟨y, ys, hy, hys, rfl⟩ := h
    obtain ⟨c, k⟩ := ih hc.tail hys
    have hm := hc.terms m (by simp)
    obtain ⟨e, yc, yn⟩ := hf _ _ hm.1 hm.2 hy
    refine ⟨⟨fun x hx => ?_, List.pairwise_cons.2 ⟨fun x hx => ?_, c.asc⟩⟩, ?_⟩
    · rcases List.mem_cons.1 hx with rfl | hx
      · exact ⟨yc, yn⟩
      · exact c.terms x hx
    · have : x.element ∈ ms.map (·.element) := by rw [← k]; exact List.mem_map_of_mem hx
      obtain ⟨z, hz, e'⟩ := List.mem_map.1 this
      rw [← e', e]
      exact (List.pairwise_cons.1 hc.asc).1 z hz
    · rw [List.map_cons, List.map_cons, k, e]

theorem mapQ_term_canon {f : Rat32 → Out Rat32} (hf : ∀ x y, x.Canon → x.num ≠ 0 → f x = ok y → y.Canon ∧ y.num ≠ 0)
    (x y : NTerm) (hc : CanonMons x.mons) (hn : x.mons ≠ []) (h : x.mapQ f = ok y) :
    y.element = x.element ∧ CanonMons y.mons ∧ y.mons ≠ [] := by
  unfold NTerm.mapQ at h
  simp only [bind_eq_ok, pure_eq, ok_inj] at h
  obtain ⟨ms, hms, rfl⟩ := h
  obtain ⟨c, k⟩ := mapQ_mons_canon hf hc hms
  refine ⟨rfl, c, fun e => hn ?_⟩
  have := mapO_length hms
  simp only at e
  subst e
  exact List.length_eq_zero_iff.1 this.symm

theorem neg_nz {x y : Rat32} (hc : x.Canon) (hn : x.num ≠ 0) (h : x.neg = ok y) : y.Canon ∧ y.num ≠ 0 := by
  refine ⟨Rat32.neg_canon hc h, ?_⟩
  unfold Rat32.neg at h
  simp only [bind_eq_ok, chk_eq_ok, pure_eq, ok_inj] at h
  obtain ⟨n, ⟨_, rfl⟩, rfl⟩ := h
  simpa using hn

theorem nz_of_toQ {x : Rat32} (hw : x.WF) (h : x.toQ ≠ 0) : x.num ≠ 0 := fun e => h ((Rat32.toQ_eq_zero hw).2 e)

theorem mul_nz {q x y : Rat32} (hq : q.WF) (hq0 : q.num ≠ 0) (hc : x.Canon) (hn : x.num ≠ 0) (h : q.mul x = ok y) :
    y.Canon ∧ y.num ≠ 0 := by
  obtain ⟨e, w⟩ := Rat32.mul_spec hq hc.1 h
  refine ⟨Rat32.mul_canon hq hc.1 h, nz_of_toQ w ?_⟩
  rw [e]
  exact mul_ne_zero (fun e => hq0 ((Rat32.toQ_eq_zero hq).1 e)) (fun e => hn ((Rat32.toQ_eq_zero hc.1).1 e))

theorem negateN_canon {a r : NMv} (ha : CanonMv a) (h : negateN a = ok r) : CanonMv r :=
  (mapT_canon (mapQ_term_canon (fun _ _ c n h => neg_nz c n h)) ha h).1

theorem scaleN_canon {q : Rat32} (hq : q.WF) (hq0 : q.num ≠ 0) {a r : NMv} (ha : CanonMv a) (h : scaleN q a = ok r) :
    CanonMv r :=
  (mapT_canon (mapQ_term_canon (fun _ _ c n h => mul_nz hq hq0 c n h)) ha h).1

theorem reverseN_canon {a r : NMv} (ha : CanonMv a) (h : reverseN a = ok r) : CanonMv r := by
  refine (mapT_canon ?_ ha h).1
  intro x y c n h
  unfold reverseTermN at h
  split at h
  · simp at h; subst h; exact ⟨rfl, c, n⟩
  · dsimp only at h
    split at h
    · exact mapQ_term_canon (fun _ _ c n h => neg_nz c n h) x y c n h
    · simp at h; subst h; exact ⟨rfl, c, n⟩

end Gal
