import Verif.Props.Mv

/-!
# Properties C21 and C26: scaling, shifting, negation, selection; array bounds

`Packed a n` describes results of library functions: entries are consecutive and do not overlap.  The in-place functions
(`scale`, `negate`, `reverse`, `divide` by a constant) need it, because they update shared storage once per term.
-/

namespace Gal

open Out

attribute [local irreducible] popCount

theorem Out.Rel.all_right {α β : Type} {R : α → β → Prop} {P : β → Prop} {x : Out α} {y : Out β} (h : Rel R x y)
    (hp : ∀ a b, R a b → P b) : All P y := by
  intro b l e
  subst e
  cases h with
  | val h => exact hp _ _ h

theorem mapQ_size' (f : Rat32 → Out Rat32) (t : NTerm) :
    All (fun o => o.mons.length = t.mons.length ∧ nIndsM o.mons = nIndsM t.mons) (t.mapQ f) :=
  (mapQ_size f t).mono fun _ h => h.2

theorem reverseTermN_size (t : NTerm) :
    All (fun o => o.mons.length = t.mons.length ∧ nIndsM o.mons = nIndsM t.mons) (reverseTermN t) := by
  unfold reverseTermN
  split
  · exact All.ok ⟨rfl, rfl⟩
  · dsimp only
    split
    · exact mapQ_size' _ t
    · exact All.ok ⟨rfl, rfl⟩

/-! ## C21: scale, negate, shift -/

/-- C21: `scale(q, m)` denotes `q` times the value, for every interpretation of powers. -/
theorem C21_scale {a r : Mv} {na : NMv} {q : Rat32} (ha : Packed a na) (wa : MvWF na) (hq : q.WF) (h : scale q a = ok r) :
    ∃ nr, Packed r nr ∧ (CanonMv na → q.toQ ≠ 0 → CanonMv nr) ∧
      ∀ (K V : Type) [Field K] [CharZero K] [AddCommGroup V] [Module K V] (pw : Nat → ℚ → K) (β : Nat → V),
        mvVal pw β nr = (q.toQ : K) • mvVal pw β na := by
  rw [ha.eq, scale_layout ha.fits.m] at h
  obtain ⟨nr, hn, rfl⟩ := map_eq_ok h
  refine ⟨nr, packed_layout ((mapO_fits (mapQ_size' _) ha.fits).of_ok hn),
    fun ca hq0 => scaleN_canon hq (nz_of_toQ hq hq0) ca hn, ?_⟩
  intro K V _ _ _ _ pw β
  exact (scaleN_val pw β hq wa hn).1

example : Packed (layout ⟨3, 3, 2⟩ exA) exA ∧ MvWF exA ∧ (⟨-2, 3⟩ : Rat32).WF ∧
    ∃ r, scale ⟨-2, 3⟩ (layout ⟨3, 3, 2⟩ exA) = ok r :=
  ⟨by decide +kernel, exA_canon.wf, by decide, Out.exists_of_isOk (by decide +kernel)⟩

/-- C21: `negate(m)` denotes the negated value and keeps canonical form. -/
theorem C21_negate {a r : Mv} {na : NMv} (ha : Packed a na) (wa : MvWF na) (h : negate a = ok r) :
    ∃ nr, Packed r nr ∧ (CanonMv na → CanonMv nr) ∧
      ∀ (K V : Type) [Field K] [CharZero K] [AddCommGroup V] [Module K V] (pw : Nat → ℚ → K) (β : Nat → V),
        mvVal pw β nr = - mvVal pw β na := by
  rw [ha.eq, negate_layout ha.fits.t] at h
  obtain ⟨nr, hn, rfl⟩ := map_eq_ok h
  refine ⟨nr, packed_layout ((mapO_fits (mapQ_size' _) ha.fits).of_ok hn), fun ca => negateN_canon ca hn, ?_⟩
  intro K V _ _ _ _ pw β
  exact (negateN_val pw β wa hn).1

example : ∃ r, negate (layout ⟨3, 3, 2⟩ exA) = ok r := Out.exists_of_isOk (by decide +kernel)

/-- C21: `shift(q, m)` denotes the value plus the scalar `q`; the result is canonical when `q` is a non-zero number in
lowest terms. -/
theorem C21_shift {a r : Mv} {na : NMv} {q : Rat32} (ha : Represents a na) (wa : MvWF na) (hq : q.WF)
    (h : shift q a = ok r) :
    ∃ nr, Packed r nr ∧ (CanonMv na → q.Canon → q.num ≠ 0 → CanonMv nr) ∧
      ∀ (K V : Type) [Field K] [CharZero K] [AddCommGroup V] [Module K V] (pw : Nat → ℚ → K) (β : Nat → V),
        mvVal pw β nr = mvVal pw β na + (q.toQ : K) • β 0 := by
  rw [shift_refines q ha] at h
  obtain ⟨nr, hn, rfl⟩ := map_eq_ok h
  unfold shiftN at hn
  refine ⟨nr, packed_layout ((sumN_fits ha.2 (single_fits q 0)).of_ok hn), ?_, ?_⟩
  · intro ca cq hq0
    refine sumN_canon ca ⟨?_, by simp⟩ hn
    intro t ht
    rw [List.mem_singleton] at ht
    subst ht
    refine ⟨⟨?_, by simp⟩, by simp⟩
    intro m hm
    rw [List.mem_singleton] at hm
    subst hm
    exact ⟨⟨cq, by simp, by simp, rfl, show InI32 0 by decide⟩, hq0⟩
  · intro K V _ _ _ _ pw β
    have := (sumN_val pw β wa (b := [⟨0, [⟨q, Rat32.zero, []⟩]⟩]) (by
      intro t ht m hm
      rw [List.mem_singleton] at ht; subst ht
      rw [List.mem_singleton] at hm; subst hm
      exact ⟨hq, by simp⟩) (by
      intro t ht m hm i hi
      rw [List.mem_singleton] at ht; subst ht
      rw [List.mem_singleton] at hm; subst hm
      simp at hi) hn).1
    rw [this]
    simp [NTerm.val, NMon.val]

example : (⟨-3, 2⟩ : Rat32).Canon ∧ ∃ r, shift ⟨-3, 2⟩ (layout ⟨3, 3, 2⟩ exA) = ok r :=
  ⟨by decide, Out.exists_of_isOk (by decide +kernel)⟩

/-- Shifting by zero is not canonical: it stores a term with a zero coefficient. -/
theorem C21_shift_zero_not_canonical :
    ∃ r, shift ⟨0, 1⟩ (layout ⟨0, 0, 0⟩ []) = ok r ∧ Packed r [⟨0, [⟨⟨0, 1⟩, ⟨0, 1⟩, []⟩]⟩] ∧
      ¬ CanonMv [⟨0, [⟨⟨0, 1⟩, ⟨0, 1⟩, []⟩]⟩] :=
  ⟨layout ⟨0, 1, 1⟩ [⟨0, [⟨⟨0, 1⟩, ⟨0, 1⟩, []⟩]⟩], by decide +kernel, by decide +kernel, by decide +kernel⟩

/-! ## C21: component selection -/

theorem coeff_cons {K : Type} [Field K] (pw : Nat → ℚ → K) (t : NTerm) (ts : NMv) (e : Nat) :
    coeff pw (t :: ts) e = (if t.element = e then monsVal pw t.mons else 0) + coeff pw ts e := by
  unfold coeff
  rw [mvVal_cons]
  simp [NTerm.val]

theorem coeff_absent {K : Type} [Field K] (pw : Nat → ℚ → K) (ts : NMv) (e : Nat) (h : ∀ t ∈ ts, t.element ≠ e) :
    coeff pw ts e = 0 := by
  induction ts with
  | nil => rfl
  | cons t ts ih =>
    rw [coeff_cons, if_neg (h t (by simp)), ih (fun u hu => h u (by simp [hu])), add_zero]

theorem one_mul_spec {x y : Rat32} (hx : x.WF) (h : x.mul Rat32.one = ok y) : y.toQ = 1 * x.toQ ∧ y.WF := by
  obtain ⟨e, w⟩ := Rat32.mul_spec hx (show Rat32.one.WF by decide) h
  exact ⟨by rw [e]; simp [Rat32.toQ, Rat32.one], w⟩

theorem pushTermN_one_val {K V : Type} [Field K] [CharZero K] [AddCommGroup V] [Module K V] (pw : Nat → ℚ → K)
    (β : Nat → V) {t u : NTerm} {e : Nat} (hw : ∀ m ∈ t.mons, m.WF) (h : pushTermN t Rat32.one e = ok u) :
    u.val pw β = monsVal pw t.mons • β (e % 256) := by
  unfold pushTermN at h
  simp only [bind_eq_ok, pure_eq, ok_inj] at h
  obtain ⟨t', h1, rfl⟩ := h
  have := (mapQ_term_val pw (c := 1) (fun x y hx hy => one_mul_spec hx hy) hw h1).1
  simp only [NTerm.val, this]
  simp

theorem pushTermN_one_canon {t u : NTerm} {e : Nat} (hc : CanonMons t.mons) (hn : t.mons ≠ [])
    (h : pushTermN t Rat32.one e = ok u) : u.element = e % 256 ∧ CanonMons u.mons ∧ u.mons ≠ [] := by
  unfold pushTermN at h
  simp only [bind_eq_ok, pure_eq, ok_inj] at h
  obtain ⟨t', h1, rfl⟩ := h
  have := mapQ_term_canon (fun x y c n h => ?_) t t' hc hn h1
  · exact ⟨rfl, this.2⟩
  · refine ⟨Rat32.mul_canon c.1 (show Rat32.one.WF by decide) h, ?_⟩
    obtain ⟨e, w⟩ := one_mul_spec c.1 h
    refine nz_of_toQ w ?_
    rw [e, one_mul]
    exact fun e0 => n ((Rat32.toQ_eq_zero c.1).1 e0)

theorem componentN_fits {c : Caps} {a : NMv} {e : Nat} (h : Fits c a) :
    All (Fits ⟨c.i, c.m, 1⟩) (componentN e a) := by
  have : All (fun o => o.length ≤ 1 ∧ nMons o ≤ nMons a ∧ nInds o ≤ nInds a) (componentN e a) := by
    clear h
    induction a with
    | nil => exact All.ok (by simp)
    | cons t ts ih =>
      unfold componentN
      split
      · refine All.bind (pushTermN_size t _ _) fun u hu => All.ok ?_
        simp [hu.1, hu.2]
      · refine ih.mono fun o ho => ?_
        simp only [nMons_cons, nInds_cons]
        omega
  exact this.mono fun o ho => ⟨ho.2.2.trans h.i, ho.2.1.trans h.m, ho.1⟩

theorem componentN_val {K V : Type} [Field K] [CharZero K] [AddCommGroup V] [Module K V] (pw : Nat → ℚ → K)
    (β : Nat → V) {a r : NMv} {e : Nat} (he : e < 256) (hw : MvWF a) (hp : a.Pairwise (fun x y => x.element < y.element))
    (h : componentN e a = ok r) : mvVal pw β r = coeff pw a e • β 0 := by
  induction a with
  | nil => simp only [componentN, ok_inj] at h; subst h; simp [coeff]
  | cons t ts ih =>
    rw [List.pairwise_cons] at hp
    unfold componentN at h
    rw [Nat.mod_eq_of_lt he] at h
    rw [coeff_cons]
    split at h
    · rename_i ht
      simp only [bind_eq_ok, pure_eq, ok_inj] at h
      obtain ⟨u, hu, rfl⟩ := h
      rw [if_pos ht, coeff_absent pw ts e (fun u hu => by have := hp.1 u hu; omega), add_zero, mvVal_cons, mvVal_nil, add_zero]
      exact pushTermN_one_val pw β (hw t (by simp)) hu
    · rename_i ht
      rw [if_neg ht, zero_add]
      exact ih (fun u hu => hw u (by simp [hu])) hp.2 h

theorem componentN_canon {a r : NMv} {e : Nat} (hc : CanonMv a) (h : componentN e a = ok r) : CanonMv r := by
  induction a with
  | nil => simp only [componentN, ok_inj] at h; subst h; exact ⟨by simp, by simp⟩
  | cons t ts ih =>
    unfold componentN at h
    split at h
    · simp only [bind_eq_ok, pure_eq, ok_inj] at h
      obtain ⟨u, hu, rfl⟩ := h
      have := hc.terms t (by simp)
      obtain ⟨h1, h2, h3⟩ := pushTermN_one_canon this.1 this.2 hu
      exact ⟨by simp [h2, h3], by simp⟩
    · exact ih hc.tail h

/-- C21: `m[e]` and `component(m, e)` denote the coefficient of `e`, as a scalar. -/
theorem C21_component {a r : Mv} {na : NMv} {e : Nat} (ha : Represents a na) (ca : CanonMv na) (he : e < 256)
    (h : component a e = ok r) :
    ∃ nr, Packed r nr ∧ CanonMv nr ∧
      ∀ (K V : Type) [Field K] [CharZero K] [AddCommGroup V] [Module K V] (pw : Nat → ℚ → K) (β : Nat → V),
        mvVal pw β nr = coeff pw na e • β 0 := by
  rw [component_refines e ha] at h
  obtain ⟨nr, hn, rfl⟩ := map_eq_ok h
  refine ⟨nr, packed_layout ((componentN_fits ha.2).of_ok hn), componentN_canon ca hn, ?_⟩
  intro K V _ _ _ _ pw β
  exact componentN_val pw β he ca.wf ca.asc hn

example : ∃ r, component (layout ⟨3, 3, 2⟩ exA) 2 = ok r := Out.exists_of_isOk (by decide +kernel)

/-! ## C21: grade selection -/

theorem selectGradeN_val {K V : Type} [Field K] [AddCommGroup V] [Module K V] (pw : Nat → ℚ → K)
    (β : Nat → V) {a : NMv} {g : Nat}
    (hp : a.Pairwise (fun x y => g < popCount x.element → popCount y.element ≠ g)) :
    mvVal pw β (selectGradeN g a) = mvVal pw (fun e => if popCount e = g then β e else 0) a := by
  induction a with
  | nil => rfl
  | cons t ts ih =>
    rw [List.pairwise_cons] at hp
    unfold selectGradeN
    rw [mvVal_cons]
    by_cases h1 : popCount t.element > g
    · rw [if_pos h1]
      have : ∀ us : NMv, (∀ u ∈ us, popCount u.element ≠ g) →
          mvVal pw (fun e => if popCount e = g then β e else 0) us = 0 := by
        intro us
        induction us with
        | nil => intro _; rfl
        | cons u us ih =>
          intro hu
          rw [mvVal_cons, ih (fun x hx => hu x (by simp [hx]))]
          simp [NTerm.val, hu u (by simp)]
      rw [this ts (fun u hu => hp.1 u hu h1)]
      have h3 : popCount t.element ≠ g := by omega
      simp [NTerm.val, h3]
    · rw [if_neg h1]
      by_cases h2 : popCount t.element < g
      · rw [if_pos h2, ih hp.2]
        have h3 : popCount t.element ≠ g := by omega
        simp [NTerm.val, h3]
      · rw [if_neg h2, mvVal_cons, ih hp.2]
        have h3 : popCount t.element = g := by omega
        simp [NTerm.val, h3]

theorem selectGradeN_sublist (g : Nat) (a : NMv) : (selectGradeN g a).Sublist a := by
  induction a with
  | nil => exact List.Sublist.refl _
  | cons t ts ih =>
    unfold selectGradeN
    split
    · exact List.nil_sublist _
    · split
      · exact ih.cons _
      · exact ih.cons_cons _

theorem CanonMv.sublist {a b : NMv} (h : CanonMv b) (s : a.Sublist b) : CanonMv a :=
  ⟨fun t ht => h.terms t (s.subset ht), h.asc.sublist s⟩

theorem nMons_sublist {a b : NMv} (s : a.Sublist b) : nMons a ≤ nMons b ∧ nInds a ≤ nInds b := by
  induction s with
  | slnil => simp
  | cons t _ ih => simp only [nMons_cons, nInds_cons]; omega
  | cons_cons t _ ih => simp only [nMons_cons, nInds_cons]; omega

theorem Fits.sublist {c : Caps} {a b : NMv} (h : Fits c b) (s : a.Sublist b) : Fits c a :=
  ⟨(nMons_sublist s).2.trans h.i, (nMons_sublist s).1.trans h.m, s.length_le.trans h.t⟩

/-- C21 (part): `select_grade(g)` is always defined, keeps canonical form and denotes the grade `g` part — provided no
term of grade `g` comes after a term of a higher grade.  Missing: without that proviso the claim is false, see
`C21_select_grade_false`. -/
theorem C21_select_grade_partial {a : Mv} {na : NMv} {g : Nat} (ha : Represents a na)
    (hp : na.Pairwise (fun x y => g < popCount x.element → popCount y.element ≠ g)) :
    ∃ r nr, selectGrade a g = ok r ∧ Packed r nr ∧ (CanonMv na → CanonMv nr) ∧
      ∀ (K V : Type) [Field K] [CharZero K] [AddCommGroup V] [Module K V] (pw : Nat → ℚ → K) (β : Nat → V),
        mvVal pw β nr = mvVal pw (fun e => if popCount e = g then β e else 0) na := by
  refine ⟨_, selectGradeN g na, selectGrade_refines g ha, packed_layout (ha.2.sublist (selectGradeN_sublist g na)),
    fun ca => ca.sublist (selectGradeN_sublist g na), ?_⟩
  intro K V _ _ _ _ pw β
  exact selectGradeN_val pw β hp

/-- A full multivector over two generators satisfies the proviso for every grade. -/
example (g : Nat) : let a : NMv := [⟨0, [⟨⟨1, 1⟩, ⟨1, 1⟩, [⟨0, ⟨1, 1⟩⟩]⟩]⟩, ⟨1, [⟨⟨1, 1⟩, ⟨1, 1⟩, [⟨1, ⟨1, 1⟩⟩]⟩]⟩,
      ⟨2, [⟨⟨1, 1⟩, ⟨1, 1⟩, [⟨2, ⟨1, 1⟩⟩]⟩]⟩, ⟨3, [⟨⟨1, 1⟩, ⟨1, 1⟩, [⟨3, ⟨1, 1⟩⟩]⟩]⟩]
    a.Pairwise (fun x y => g < popCount x.element → popCount y.element ≠ g) := by
  have h0 : popCount 0 = 0 := by decide +kernel
  have h1 : popCount 1 = 1 := by decide +kernel
  have h2 : popCount 2 = 1 := by decide +kernel
  have h3 : popCount 3 = 2 := by decide +kernel
  simp only [List.pairwise_cons, List.mem_cons, List.not_mem_nil, or_false, forall_eq_or_imp, forall_eq, h0, h1, h2, h3]
  refine ⟨⟨?_, ?_, ?_⟩, ⟨?_, ?_⟩, ?_, by simp⟩ <;> omega

/-- C21: the scalar part of a canonical multivector is selected correctly. -/
theorem C21_select_scalar {a : Mv} {na : NMv} (ha : Represents a na) (ca : CanonMv na) (ea : ElemsLt 256 na) :
    ∃ r nr, selectGrade a 0 = ok r ∧ Packed r nr ∧ CanonMv nr ∧
      ∀ (K V : Type) [Field K] [CharZero K] [AddCommGroup V] [Module K V] (pw : Nat → ℚ → K) (β : Nat → V),
        mvVal pw β nr = coeff pw na 0 • β 0 := by
  have hz : ∀ e, e < 256 → popCount e = 0 → e = 0 := by
    intro e he h
    rw [popCount_eq_card 8 e (by decide) he, Finset.card_eq_zero] at h
    apply Nat.eq_of_testBit_eq
    intro i
    rw [Nat.zero_testBit]
    by_cases hi : i < 8
    · by_contra hb
      have : i ∈ (∅ : Finset Nat) := by rw [← h]; simpa [hi] using hb
      simp at this
    · exact Nat.testBit_lt_two_pow (lt_of_lt_of_le he (by
        calc 256 = 2 ^ 8 := by decide
          _ ≤ 2 ^ i := Nat.pow_le_pow_right (by decide) (by omega)))
  have h0 : popCount 0 = 0 := by decide +kernel
  have hp : na.Pairwise (fun x y => 0 < popCount x.element → popCount y.element ≠ 0) := by
    refine (List.Pairwise.and_mem.1 ca.asc).imp ?_
    intro x y ⟨_, hy, hxy⟩ _ h
    have := hz y.element (ea y hy) h
    omega
  obtain ⟨r, nr, h1, h2, h3, h4⟩ := C21_select_grade_partial (g := 0) ha hp
  refine ⟨r, nr, h1, h2, h3 ca, ?_⟩
  intro K V _ _ _ _ pw β
  rw [h4 K V pw β]
  clear h4 h3 h2 h1 hp ca ha
  induction na with
  | nil => simp [coeff]
  | cons t ts ih =>
    rw [mvVal_cons, coeff_cons, ih (fun u hu => ea u (by simp [hu])), add_smul]
    congr 1
    unfold NTerm.val
    dsimp only
    by_cases h : t.element = 0
    · rw [if_pos h, h, if_pos h0]
    · rw [if_neg h, if_neg (fun e => h (hz _ (ea t (by simp)) e))]
      simp

/-- The claim for arbitrary canonical multivectors is false: from `e₀₁ + e₂` the grade one part is selected as zero,
because the loop stops at `e₀₁`. -/
theorem C21_select_grade_false :
    let n : NMv := [⟨3, [⟨⟨1, 1⟩, ⟨0, 1⟩, []⟩]⟩, ⟨4, [⟨⟨1, 1⟩, ⟨0, 1⟩, []⟩]⟩]
    CanonMv n ∧ Represents (layout ⟨0, 2, 2⟩ n) n ∧ popCount 4 = 1 ∧
      selectGrade (layout ⟨0, 2, 2⟩ n) 1 = ok (layout ⟨0, 2, 2⟩ []) := by
  refine ⟨by decide +kernel, by decide +kernel, by decide +kernel, by decide +kernel⟩

/-! ## C21: extraction -/

theorem mvVal_congr {K V : Type} [Field K] [AddCommGroup V] [Module K V] (pw : Nat → ℚ → K) {β γ : Nat → V} {a : NMv}
    (h : ∀ t ∈ a, β t.element = γ t.element) : mvVal pw β a = mvVal pw γ a := by
  induction a with
  | nil => rfl
  | cons t ts ih =>
    rw [mvVal_cons, mvVal_cons, ih (fun u hu => h u (by simp [hu]))]
    simp [NTerm.val, h t (by simp)]

theorem mvVal_zero {K V : Type} [Field K] [AddCommGroup V] [Module K V] (pw : Nat → ℚ → K) {β : Nat → V} {a : NMv}
    (h : ∀ t ∈ a, β t.element = 0) : mvVal pw β a = 0 := by
  rw [mvVal_congr pw (γ := fun _ => 0) h]
  induction a with
  | nil => rfl
  | cons t ts ih => rw [mvVal_cons, ih (fun u hu => h u (by simp [hu]))]; simp [NTerm.val]

theorem extractN_val {K V : Type} [Field K] [CharZero K] [AddCommGroup V] [Module K V] (pw : Nat → ℚ → K)
    (β : Nat → V) (fuel : Nat) : ∀ {a r : NMv} {es : List Nat}, a.length + es.length ≤ fuel → MvWF a →
    a.Pairwise (fun x y => x.element < y.element) → es.Pairwise (· ≤ ·) → (∀ e ∈ es, e < 256) →
    extractN fuel a es = ok r →
    mvVal pw β r = mvVal pw (fun e => if e ∈ es then β e else 0) a := by
  induction fuel with
  | zero =>
    intro a r es hl _ _ _ _ h
    have : a = [] := List.length_eq_zero_iff.1 (by omega)
    simp only [extractN, ok_inj] at h
    subst h this; rfl
  | succ fuel ih =>
    intro a r es hl hw hp hs he h
    match a, es with
    | a, [] =>
      simp only [extractN, ok_inj] at h
      subst h
      rw [mvVal_zero pw (a := a)]
      · rfl
      · simp
    | [], e :: es =>
      simp only [extractN, ok_inj] at h
      subst h; rfl
    | t :: ts, e :: es =>
      rw [List.pairwise_cons] at hp hs
      unfold extractN at h
      simp only [List.length_cons] at hl
      by_cases h1 : t.element > e
      · rw [if_pos h1] at h
        rw [ih (by simp only [List.length_cons]; omega) hw (List.pairwise_cons.2 hp) hs.2
          (fun x hx => he x (by simp [hx])) h]
        apply mvVal_congr
        intro u hu
        have hne : u.element ≠ e := by
          rcases List.mem_cons.1 hu with rfl | hu
          · omega
          · have := hp.1 u hu; omega
        simp [hne]
      · rw [if_neg h1] at h
        by_cases h2 : t.element < e
        · rw [if_pos h2] at h
          rw [ih (by simp only [List.length_cons]; omega) (fun u hu => hw u (by simp [hu])) hp.2
            (List.pairwise_cons.2 hs) he h, mvVal_cons]
          have hne : ¬ (t.element ∈ e :: es) := by
            intro hm
            rcases List.mem_cons.1 hm with hm | hm
            · omega
            · have := hs.1 _ hm; omega
          simp only [NTerm.val, if_neg hne, smul_zero, zero_add]
        · rw [if_neg h2] at h
          simp only [bind_eq_ok, pure_eq, ok_inj] at h
          obtain ⟨u, hu, rest, hr, rfl⟩ := h
          have heq : t.element = e := by omega
          rw [mvVal_cons, mvVal_cons, ih (by simp only [List.length_cons]; omega) (fun u hu => hw u (by simp [hu])) hp.2
            (List.pairwise_cons.2 hs) he hr, pushTermN_one_val pw β (hw t (by simp)) hu,
            Nat.mod_eq_of_lt (he e (by simp))]
          simp only [NTerm.val, heq, List.mem_cons, true_or, if_true]

theorem extractN_canon (fuel : Nat) : ∀ {a r : NMv} {es : List Nat}, CanonMv a → (∀ e ∈ es, e < 256) →
    extractN fuel a es = ok r → CanonMv r ∧ ∀ t ∈ r, ∃ u ∈ a, t.element = u.element := by
  have hnil : CanonMv [] := ⟨by simp, by simp⟩
  induction fuel with
  | zero => intro a r es _ _ h; simp only [extractN, ok_inj] at h; subst h; exact ⟨hnil, by simp⟩
  | succ fuel ih =>
    intro a r es hc he h
    match a, es with
    | a, [] => simp only [extractN, ok_inj] at h; subst h; exact ⟨hnil, by simp⟩
    | [], e :: es => simp only [extractN, ok_inj] at h; subst h; exact ⟨hnil, by simp⟩
    | t :: ts, e :: es =>
      unfold extractN at h
      by_cases h1 : t.element > e
      · rw [if_pos h1] at h
        exact ih hc (fun x hx => he x (by simp [hx])) h
      · rw [if_neg h1] at h
        by_cases h2 : t.element < e
        · rw [if_pos h2] at h
          obtain ⟨c1, c2⟩ := ih hc.tail he h
          refine ⟨c1, fun x hx => ?_⟩
          obtain ⟨u, hu, hx⟩ := c2 x hx
          exact ⟨u, by simp [hu], hx⟩
        · rw [if_neg h2] at h
          simp only [bind_eq_ok, pure_eq, ok_inj] at h
          obtain ⟨u, hu, rest, hr, rfl⟩ := h
          obtain ⟨c1, c2⟩ := ih hc.tail he hr
          have ht := hc.terms t (by simp)
          obtain ⟨u1, u2, u3⟩ := pushTermN_one_canon ht.1 ht.2 hu
          have heq : u.element = t.element := by
            rw [u1, Nat.mod_eq_of_lt (he e (by simp))]; omega
          refine ⟨⟨?_, ?_⟩, ?_⟩
          · intro x hx
            rcases List.mem_cons.1 hx with rfl | hx
            · exact ⟨u2, u3⟩
            · exact c1.terms x hx
          · rw [List.pairwise_cons]
            refine ⟨fun x hx => ?_, c1.asc⟩
            obtain ⟨v, hv, hx⟩ := c2 x hx
            have := (List.pairwise_cons.1 hc.asc).1 v hv
            omega
          · intro x hx
            rcases List.mem_cons.1 hx with rfl | hx
            · exact ⟨t, by simp, heq⟩
            · obtain ⟨v, hv, hx⟩ := c2 x hx
              exact ⟨v, by simp [hv], hx⟩

theorem extractN_fits (es : List Nat) {c : Caps} {a : NMv} (h : Fits c a)
    (hp : a.Pairwise (fun x y => x.element < y.element)) :
    All (Fits ⟨c.i, c.m, es.length⟩) (extractN (a.length + es.length) a es) := by
  have := extractLoop_rel (a.length + es.length) (b := Bld.empty ⟨c.i, c.m, es.length⟩) (es := es) hp
    (.inl rfl) ⟨⟨by simpa [Bld.empty] using h.i, by simpa [Bld.empty] using h.m⟩, by simp [Bld.empty]⟩
  exact this.all_right fun _ o ho => ⟨ho.2.2.2.trans h.i, ho.2.2.1.trans h.m, ho.2.1⟩

/-- C21: `extract<E...>(m)` with an ascending element list denotes the restriction of the value to the listed elements. -/
theorem C21_extract {a r : Mv} {na : NMv} {es : List Nat} (ha : Represents a na) (ca : CanonMv na)
    (hs : es.Pairwise (· ≤ ·)) (he : ∀ e ∈ es, e < 256) (h : extract a es = ok r) :
    ∃ nr, Packed r nr ∧ CanonMv nr ∧
      ∀ (K V : Type) [Field K] [CharZero K] [AddCommGroup V] [Module K V] (pw : Nat → ℚ → K) (β : Nat → V),
        mvVal pw β nr = mvVal pw (fun e => if e ∈ es then β e else 0) na := by
  rw [extract_refines es ha ca.asc] at h
  obtain ⟨nr, hn, rfl⟩ := map_eq_ok h
  refine ⟨nr, packed_layout ((extractN_fits es ha.2 ca.asc).of_ok hn), (extractN_canon _ ca he hn).1, ?_⟩
  intro K V _ _ _ _ pw β
  exact extractN_val pw β _ le_rfl ca.wf ca.asc hs he hn

example : [1, 5].Pairwise (· ≤ ·) ∧ ∃ r, extract (layout ⟨3, 3, 2⟩ exA) [1, 5] = ok r :=
  ⟨by decide, Out.exists_of_isOk (by decide +kernel)⟩

/-- With a list that is not ascending the claim is false: `extract<2, 1>` loses the element 1. -/
theorem C21_extract_unsorted_false :
    let n : NMv := [⟨1, [⟨⟨1, 1⟩, ⟨0, 1⟩, []⟩]⟩]
    CanonMv n ∧ Represents (layout ⟨0, 1, 1⟩ n) n ∧ extract (layout ⟨0, 1, 1⟩ n) [2, 1] = ok (layout ⟨0, 1, 2⟩ []) := by
  refine ⟨by decide +kernel, by decide +kernel, by decide +kernel⟩

/-! ## C26

Reading or writing outside an array is `ub` in the array model.  The nested operations `sumN`, `productN`, … have no arrays;
they are undefined only when 32-bit arithmetic on a coefficient or degree is.  `Safe x y caps` says that the array operation
`x` is undefined only if the array-free `y` is, and that otherwise the result is packed into arrays of the declared
capacities without overrunning them. -/

/-- No out-of-bounds access in `x`, and every result fits the declared capacities. -/
structure Safe (x : Out Mv) (y : Out NMv) (caps : Caps) : Prop where
  ub : x = .ub → y = .ub
  fits : All (fun r => r.caps = caps ∧ ∃ n, Packed r n) x

theorem safe_of {x : Out Mv} {y : Out NMv} {caps : Caps} (h : x = layout caps <$> y) (hf : All (Fits caps) y) :
    Safe x y caps := by
  subst h
  cases y with
  | ub => exact ⟨fun _ => rfl, All.ub⟩
  | val v l =>
    have e : (layout caps <$> (Out.val v l) : Out Mv) = Out.val (layout caps v) l := by
      show Out.bind (Out.val v l) (fun b => Out.ok (layout caps b)) = _
      simp [Out.bind, Out.ok]
    rw [e]
    refine ⟨fun h => (by cases h), fun r l' h => ?_⟩
    cases h
    exact ⟨rfl, v, packed_layout (hf v l rfl)⟩

/-- C26 for `sum`: capacities add up. -/
theorem C26_sum {a b : Mv} {na nb : NMv} (ha : Represents a na) (hb : Represents b nb) :
    Safe (sum a b) (sumN na nb) ⟨a.caps.i + b.caps.i, a.caps.m + b.caps.m, a.caps.t + b.caps.t⟩ :=
  safe_of (sum_refines ha hb) (sumN_fits ha.2 hb.2)

/-- C26 for every product. -/
theorem C26_product (P : Nat → Nat → Nat × Int) {a b : Mv} {na nb : NMv} (ha : Represents a na) (hb : Represents b nb) :
    Safe (product P a b) (productN P na nb)
      ⟨a.caps.m * b.caps.i + b.caps.m * a.caps.i, a.caps.m * b.caps.m, a.caps.t * b.caps.t⟩ :=
  safe_of (product_refines P ha hb) (productN_fits ha.2 hb.2)

/-- C26 for `shift`. -/
theorem C26_shift (q : Rat32) {a : Mv} {na : NMv} (ha : Represents a na) :
    Safe (shift q a) (shiftN q na) ⟨a.caps.i, a.caps.m + 1, a.caps.t + 1⟩ :=
  safe_of (shift_refines q ha) (sumN_fits ha.2 (single_fits q 0))

/-- C26 for component selection. -/
theorem C26_component (e : Nat) {a : Mv} {na : NMv} (ha : Represents a na) :
    Safe (component a e) (componentN e na) ⟨a.caps.i, a.caps.m, 1⟩ :=
  safe_of (component_refines e ha) (componentN_fits ha.2)

/-- C26 for grade selection, which is always defined. -/
theorem C26_select_grade (g : Nat) {a : Mv} {na : NMv} (ha : Represents a na) :
    ∃ r, selectGrade a g = ok r ∧ r.caps = a.caps ∧ ∃ n, Packed r n :=
  ⟨_, selectGrade_refines g ha, rfl, _, packed_layout (ha.2.sublist (selectGradeN_sublist g na))⟩

/-- C26 for `extract`, on strictly ascending operands. -/
theorem C26_extract (es : List Nat) {a : Mv} {na : NMv} (ha : Represents a na)
    (hp : na.Pairwise (fun x y => x.element < y.element)) :
    Safe (extract a es) (extractN (na.length + es.length) na es) ⟨a.caps.i, a.caps.m, es.length⟩ :=
  safe_of (extract_refines es ha hp) (extractN_fits es ha.2 hp)

/-- Without ascending elements `extract` can write past its term array. -/
theorem C26_extract_unsorted_false :
    let n : NMv := [⟨1, [⟨⟨1, 1⟩, ⟨0, 1⟩, []⟩]⟩, ⟨1, [⟨⟨1, 1⟩, ⟨0, 1⟩, []⟩]⟩]
    Represents (layout ⟨0, 2, 2⟩ n) n ∧ extract (layout ⟨0, 2, 2⟩ n) [1] = .ub ∧
      ∃ r, extractN 3 n [1] = ok r :=
  ⟨by decide +kernel, by decide +kernel, Out.exists_of_isOk (by decide +kernel)⟩

/-- C26 for the Poincaré dual. -/
theorem C26_dual (dim : Nat) {a : Mv} {na : NMv} (ha : Represents a na) :
    Safe (poincareDual dim a) (dualN dim na) a.caps :=
  safe_of (poincareDual_refines dim ha) (dualN_fits ha.2)

/-- C26 for `scale`, `negate` and `reverse` on packed operands. -/
theorem C26_in_place (q : Rat32) {a : Mv} {na : NMv} (ha : Packed a na) :
    Safe (scale q a) (scaleN q na) a.caps ∧ Safe (negate a) (negateN na) a.caps ∧
      Safe (reverse a) (reverseN na) a.caps := by
  have e := ha.eq
  refine ⟨safe_of ?_ (mapO_fits (mapQ_size' _) ha.fits), safe_of ?_ (mapO_fits (mapQ_size' _) ha.fits),
    safe_of ?_ (mapO_fits reverseTermN_size ha.fits)⟩
  · conv => lhs; rw [e]
    exact scale_layout ha.fits.m q
  · conv => lhs; rw [e]
    exact negate_layout ha.fits.t
  · conv => lhs; rw [e]
    exact reverse_layout ha.fits.t

/-- C26 for division by a constant. -/
theorem C26_divide_const {a b : Mv} {na : NMv} {m : Mon} (q : Rat32) (ha : Packed a na) (hi : b.caps.i = 0)
    (hm : b.caps.m ≠ 0) (ht : b.caps.t ≠ 0) (hb : rd b.caps.m b.mons 0 = ok m) :
    Safe (divide a b q) (divConstN q m.q na) a.caps := by
  have e := ha.eq
  refine safe_of ?_ (mapO_fits (mapQ_size' _) ha.fits)
  unfold divide
  rw [if_neg (by tauto), if_pos hi]
  conv => lhs; rw [e]
  exact divideConst_layout ha.fits.t hb q

theorem null_tail_fits {c : Caps} {na : NMv} (hf : Fits c na) {X : Out (Bld × Bld)} {Y : Out (NMv × NMv)}
    (h : Rel (NullRel (Bld.empty c) (Bld.empty c.double) na) X Y) :
    All (Fits (nullCaps c)) (Y >>= fun o => sortCollateN o.2 >>= fun r => sumN o.1 r) := by
  have f1 := hf.i
  have f2 := hf.m
  have f3 := hf.t
  have hY : All (fun o => Fits c o.1 ∧ Fits c.double o.2) Y := by
    refine h.all_right fun p o ⟨_, _, s1, s2, s3, s4, s5, s6⟩ => ⟨⟨by omega, by omega, by omega⟩, ?_⟩
    exact ⟨by simp [Caps.double]; omega, by simp [Caps.double]; omega, by simp [Caps.double]; omega⟩
  exact All.bind hY fun o ho => All.bind (sortCollateN_fits ho.2) fun r hr => sumN_fits ho.1 hr

theorem nullRoom {c : Caps} {na : NMv} (h : Fits c na) :
    RoomT (Bld.empty c) (nInds na) (nMons na) na.length ∧
      RoomT (Bld.empty c.double) (2 * nInds na) (2 * nMons na) (2 * na.length) :=
  ⟨⟨⟨by simpa [Bld.empty] using h.i, by simpa [Bld.empty] using h.m⟩, by simpa [Bld.empty] using h.t⟩,
    ⟨⟨by simpa [Bld.empty, Caps.double] using h.i, by simpa [Bld.empty, Caps.double] using h.m⟩,
      by simpa [Bld.empty, Caps.double] using h.t⟩⟩

theorem toNullN_fits (dim : Nat) {c : Caps} {na : NMv} (h : Fits c na) : All (Fits (nullCaps c)) (toNullN dim na) :=
  null_tail_fits h (toNullLoop_rel dim na (nullRoom h).1 (nullRoom h).2)

theorem toNaturalN_fits (dim : Nat) {c : Caps} {na : NMv} (h : Fits c na) :
    All (Fits (nullCaps c)) (toNaturalN dim na) :=
  null_tail_fits h (toNaturalLoop_rel dim na (nullRoom h).1 (nullRoom h).2)

/-- C26 for the null basis conversions. -/
theorem C26_null_basis (dim : Nat) {a : Mv} {na : NMv} (ha : Represents a na) :
    Safe (toNullBasis dim a) (toNullN dim na) ⟨3 * a.caps.i, 3 * a.caps.m, 3 * a.caps.t⟩ ∧
    Safe (toNaturalBasis dim a) (toNaturalN dim na) ⟨3 * a.caps.i, 3 * a.caps.m, 3 * a.caps.t⟩ := by
  have e : nullCaps a.caps = ⟨3 * a.caps.i, 3 * a.caps.m, 3 * a.caps.t⟩ := by
    simp only [nullCaps, sumCaps, Caps.double, Caps.mk.injEq]
    omega
  rw [← e]
  exact ⟨safe_of (toNullBasis_refines dim ha) (toNullN_fits dim ha.2),
    safe_of (toNaturalBasis_refines dim ha) (toNaturalN_fits dim ha.2)⟩

/-- C26 for `resize`: no coefficient arithmetic takes place, so it is defined whenever the entries fit. -/
theorem C26_resize {a : Mv} {na : NMv} {c : Caps} (ha : Packed a na) (hc : Fits c na) :
    ∃ r, resize a c = ok r ∧ r.caps = c ∧ Packed r na := by
  refine ⟨layout c na, ?_, rfl, packed_layout hc⟩
  conv => lhs; rw [ha.eq]
  exact resize_layout ha.fits hc

/-- The hypotheses are met by packed operands with spare room. -/
example : Represents (layout ⟨4, 4, 4⟩ exA) exA ∧ Packed (layout ⟨4, 4, 4⟩ exA) exA ∧ Fits ⟨3, 3, 2⟩ exA ∧
    rd (basisMv 0 3 2).caps.m (basisMv 0 3 2).mons 0 = ok ⟨⟨3, 2⟩, ⟨0, 1⟩, 0, 0⟩ ∧
    exA.Pairwise (fun x y => x.element < y.element) :=
  ⟨by decide +kernel, by decide +kernel, by decide +kernel, by decide +kernel, exA_canon.asc⟩

end Gal
