import Verif.Props.Unique
import Verif.ExteriorBasis

/-!
# Property C16: the Poincaré dual

The specification is in Mathlib's exterior algebra: a dual is a linear map that sends every basis blade to a multiple of
the complementary blade such that the wedge of the two is the unit pseudoscalar.
-/

namespace Gal

open Out

attribute [local irreducible] popCount

/-- A linear map is the Poincaré dual when blade `g` is sent to a multiple of the complementary blade and the wedge of the
two is the pseudoscalar. -/
structure IsPoincareDual (K : Type) [Field K] (n : Nat)
    (D : ExteriorAlgebra K (Fin n → K) →ₗ[K] ExteriorAlgebra K (Fin n → K)) : Prop where
  compl : ∀ g, g < 2 ^ n → ∃ c : K, D (extBlade K n g) = c • extBlade K n (2 ^ n - 1 - g)
  pairs : ∀ g, g < 2 ^ n → extBlade K n g * D (extBlade K n g) = extBlade K n (2 ^ n - 1)

theorem complement_table : ∀ n : Fin 9, ∀ g : Fin (2 ^ n.val),
    (poincareComplement g n).1 = 2 ^ n.val - 1 - g ∧
    extProduct g (2 ^ n.val - 1 - g) = (2 ^ n.val - 1, (poincareComplement g n).2) ∧
    ((poincareComplement g n).2 = 1 ∨ (poincareComplement g n).2 = -1) ∧
    (poincareComplement (2 ^ n.val - 1 - g) n).2 * (poincareComplement g n).2 =
      (-1) ^ (popCount g * (n.val - popCount g)) := by decide +kernel

/-- C16 on basis elements: the complement is the set complement, and wedging with the signed complement gives the unit
pseudoscalar. -/
theorem C16_complement (K : Type) [Field K] (n : Nat) (hn : n ≤ 8) (g : Nat) (hg : g < 2 ^ n) :
    (poincareComplement g n).1 = 2 ^ n - 1 - g ∧
    extBlade K n g * (((poincareComplement g n).2 : K) • extBlade K n (poincareComplement g n).1) =
      extBlade K n (2 ^ n - 1) := by
  obtain ⟨h1, h2, h3, _⟩ := complement_table ⟨n, by omega⟩ ⟨g, hg⟩
  simp only at h1 h2 h3
  refine ⟨h1, ?_⟩
  have hp := Nat.two_pow_pos n
  rw [h1, mul_smul_comm]
  unfold extBlade
  rw [C12_exterior K n hn g _ hg (by omega), h2]
  dsimp only
  rw [smul_smul]
  rcases h3 with h3 | h3 <;> rw [h3] <;> simp

example : (6 : Nat) < 2 ^ 4 ∧ poincareComplement 6 4 = (9, 1) ∧ poincareComplement 5 4 = (10, -1) := by decide +kernel

theorem IsPoincareDual.blade {K : Type} [Field K] {n : Nat} (hn : n ≤ 8)
    {D : ExteriorAlgebra K (Fin n → K) →ₗ[K] ExteriorAlgebra K (Fin n → K)} (H : IsPoincareDual K n D) (g : Nat)
    (hg : g < 2 ^ n) :
    D (extBlade K n g) = ((poincareComplement g n).2 : K) • extBlade K n (poincareComplement g n).1 := by
  obtain ⟨c, hc⟩ := H.compl g hg
  obtain ⟨h1, h2⟩ := C16_complement K n hn g hg
  have hp := Nat.two_pow_pos n
  have h3 := H.pairs g hg
  obtain ⟨_, t2, t3, _⟩ := complement_table ⟨n, by omega⟩ ⟨g, hg⟩
  simp only at t2 t3
  rw [hc, mul_smul_comm] at h3
  have he : extBlade K n g * extBlade K n (2 ^ n - 1 - g) =
      ((poincareComplement g n).2 : K) • extBlade K n (2 ^ n - 1) := by
    unfold extBlade
    rw [C12_exterior K n hn g _ hg (by omega), t2]
  rw [he, smul_smul] at h3
  have hz : (c * ((poincareComplement g n).2 : K) - 1) • extBlade K n (2 ^ n - 1) = 0 := by
    rw [sub_smul, h3, one_smul, sub_self]
  have hne := extBlade_ne_zero K n (2 ^ n - 1) (by omega)
  have hc1 : c * ((poincareComplement g n).2 : K) = 1 := by
    rcases smul_eq_zero.1 hz with h | h
    · exact sub_eq_zero.1 h
    · exact absurd h hne
  rw [hc, h1]
  congr 1
  rcases t3 with t | t <;> rw [t] at hc1 ⊢ <;> simp at hc1 ⊢
  · exact hc1
  · rw [← hc1]; ring

/-- The specification is satisfiable: there is a Poincaré dual in every dimension up to 8. -/
theorem exists_poincareDual (K : Type) [Field K] (n : Nat) (hn : n ≤ 8) : ∃ D, IsPoincareDual K n D := by
  refine ⟨(Finsupp.linearCombination K fun g : Nat =>
    ((poincareComplement g n).2 : K) • extBlade K n (poincareComplement g n).1).comp (extCoords K n), ?_, ?_⟩
  · intro g hg
    refine ⟨((poincareComplement g n).2 : K), ?_⟩
    rw [LinearMap.comp_apply, extCoords_blade K n g hg, Finsupp.linearCombination_single, one_smul,
      (C16_complement K n hn g hg).1]
  · intro g hg
    rw [LinearMap.comp_apply, extCoords_blade K n g hg, Finsupp.linearCombination_single, one_smul,
      (C16_complement K n hn g hg).2]

/-! ## Multivectors -/

theorem mapQ_inds {f : Rat32 → Out Rat32} {t u : NTerm} (h : t.mapQ f = ok u) :
    u.element = t.element ∧ ∀ m ∈ u.mons, ∃ m' ∈ t.mons, m.inds = m'.inds ∧ m.degree = m'.degree ∧ f m'.q = ok m.q := by
  unfold NTerm.mapQ at h
  simp only [bind_eq_ok, pure_eq, ok_inj] at h
  obtain ⟨ms, h1, rfl⟩ := h
  refine ⟨rfl, ?_⟩
  simp only
  generalize t.mons = l at h1
  induction l generalizing ms with
  | nil => rw [mapO_nil_ok] at h1; subst h1; simp
  | cons x l ih =>
    rw [mapO_cons_ok] at h1
    obtain ⟨y, ys, e1, e2, rfl⟩ := h1
    unfold NMon.mapQ at e1
    simp only [bind_eq_ok, pure_eq, ok_inj] at e1
    obtain ⟨q, e1, rfl⟩ := e1
    intro m hm
    rcases List.mem_cons.1 hm with rfl | hm
    · exact ⟨x, by simp, rfl, rfl, e1⟩
    · obtain ⟨m', hm', h⟩ := ih ys e2 m hm
      exact ⟨m', by simp [hm'], h⟩

theorem dualTermN_spec {n : Nat} (hn : n ≤ 8) {t u : NTerm} (ht : t.element < 2 ^ n)
    (hp : ∀ m ∈ t.mons, PreMon m) (h : dualTermN n t = ok u) :
    u.element = (poincareComplement t.element n).1 ∧ (∀ m ∈ u.mons, PreMon m) ∧
      (∀ m ∈ u.mons, ∃ m' ∈ t.mons, m.inds = m'.inds) ∧
      ∀ (K : Type) [Field K] [CharZero K] (pw : Nat → ℚ → K),
        monsVal pw u.mons = ((poincareComplement t.element n).2 : K) * monsVal pw t.mons := by
  unfold dualTermN at h
  simp only [bind_eq_ok, pure_eq, ok_inj] at h
  obtain ⟨t', h1, rfl⟩ := h
  obtain ⟨h2, h3⟩ := mapQ_inds h1
  have hu := (complement_table ⟨n, by omega⟩ ⟨t.element, ht⟩).2.2.1
  refine ⟨rfl, ?_, ?_, ?_⟩
  · intro m hm
    obtain ⟨m', hm', e1, e2, e3⟩ := h3 m hm
    have p := hp m' hm'
    exact ⟨Rat32.imul_unit_canon hu p.q e3, by rw [e1]; exact p.inds, by rw [e1]; exact p.asc, by rw [e1, e2]; exact p.deg,
      by rw [e2]; exact p.degOk⟩
  · intro m hm
    obtain ⟨m', hm', e1, _⟩ := h3 m hm
    exact ⟨m', hm', e1⟩
  · intro K _ _ pw
    have := (mapQ_term_val pw (c := (poincareComplement t.element n).2)
      (fun x y hx hy => Rat32.imul_spec hx hy) (fun m hm => (hp m hm).wf) h1).1
    rw [this]
    simp

theorem dualTerms_spec {n : Nat} (hn : n ≤ 8) {a u : NMv} (ha : ElemsLt (2 ^ n) a)
    (hp : ∀ t ∈ a, ∀ m ∈ t.mons, PreMon m) (h : mapO (dualTermN n) a = ok u) :
    ElemsLt (2 ^ n) u ∧ (∀ t ∈ u, ∀ m ∈ t.mons, PreMon m) ∧ (∀ Q, IndsAll Q a → IndsAll Q u) ∧
      ∀ (K V : Type) [Field K] [CharZero K] [AddCommGroup V] [Module K V] (pw : Nat → ℚ → K) (β : Nat → V),
        mvVal pw β u = mvVal pw
          (fun e => ((poincareComplement e n).2 : K) • β (poincareComplement e n).1) a := by
  induction a generalizing u with
  | nil =>
    rw [mapO_nil_ok] at h; subst h
    exact ⟨fun t ht => (List.not_mem_nil ht).elim, by simp, fun _ h => h, fun _ _ _ _ _ _ _ _ => rfl⟩
  | cons t a ih =>
    rw [mapO_cons_ok] at h
    obtain ⟨t', a', h1, h2, rfl⟩ := h
    have ht := ha t (by simp)
    obtain ⟨i1, i2, i3, i4⟩ := ih (fun x hx => ha x (by simp [hx])) (fun x hx => hp x (by simp [hx])) h2
    obtain ⟨e1, e2, e3, e4⟩ := dualTermN_spec hn ht (hp t (by simp)) h1
    have hc := (complement_table ⟨n, by omega⟩ ⟨t.element, ht⟩).1
    have hpos := Nat.two_pow_pos n
    refine ⟨?_, ?_, ?_, ?_⟩
    · intro x hx
      rcases List.mem_cons.1 hx with rfl | hx
      · rw [e1]
        simp only at hc
        rw [hc]
        omega
      · exact i1 x hx
    · intro x hx
      rcases List.mem_cons.1 hx with rfl | hx
      · exact e2
      · exact i2 x hx
    · intro Q hQ
      refine .cons (fun m hm i hi => ?_) (i3 Q (fun x hx => hQ x (by simp [hx])))
      obtain ⟨m', hm', e⟩ := e3 m hm
      rw [e] at hi
      exact hQ t (by simp) m' hm' i hi
    · intro K V _ _ _ _ pw β
      rw [mvVal_cons, mvVal_cons, i4 K V pw β]
      congr 1
      unfold NTerm.val
      rw [e4 K pw, e1, mul_comm, mul_smul]

theorem dualN_spec {n : Nat} (hn : n ≤ 8) {a r : NMv} (ha : ElemsLt (2 ^ n) a) (ca : CanonMv a) (h : dualN n a = ok r) :
    CanonMv r ∧ ElemsLt (2 ^ n) r ∧ (∀ Q, IndsAll Q a → IndsAll Q r) ∧
      ∀ (K V : Type) [Field K] [CharZero K] [AddCommGroup V] [Module K V] (pw : Nat → ℚ → K) (β : Nat → V),
        mvVal pw β r = mvVal pw
          (fun e => ((poincareComplement e n).2 : K) • β (poincareComplement e n).1) a := by
  unfold dualN at h
  rw [bind_eq_ok] at h
  obtain ⟨u, h1, h2⟩ := h
  obtain ⟨e1, e2, e3, e4⟩ := dualTerms_spec hn ha (fun t ht m hm => ((ca.terms t ht).1.mons m hm).toPreMon) h1
  have hw : MvWF u := fun t ht m hm => (e2 t ht m hm).wf
  refine ⟨sortCollateN_canon e2 h2, ?_, ?_, ?_⟩
  · exact ((sortCollateN_all (Q := fun _ => True) (E := fun e => e < 2 ^ n) (fun _ _ _ _ _ _ => trivial) e1).of_ok h2).2
  · intro Q hQ
    exact ((sortCollateN_all (E := fun _ => True) (e3 Q hQ) (fun _ _ => trivial)).of_ok h2).1
  · intro K V _ _ _ _ pw β
    rw [(sortCollateN_val pw β hw h2).1, e4]

/-- C16: `poincare_dual` is the Poincaré dual of the exterior algebra, applied to the value. -/
theorem C16_dual (n : Nat) (hn : n ≤ 8) {a r : Mv} {na : NMv} (ha : Represents a na) (ca : CanonMv na)
    (ea : ElemsLt (2 ^ n) na) (h : poincareDual n a = ok r) :
    ∃ nr, Packed r nr ∧ CanonMv nr ∧ ElemsLt (2 ^ n) nr ∧
      (∀ (K : Type) [Field K] (ρ : Nat → K), NoPole ρ na → NoPole ρ nr) ∧
      ∀ (K : Type) [Field K] [CharZero K] (pw : Nat → ℚ → K) (D), IsPoincareDual K n D →
        mvVal pw (extBlade K n) nr = D (mvVal pw (extBlade K n) na) := by
  rw [poincareDual_refines n ha] at h
  obtain ⟨nr, hn', rfl⟩ := map_eq_ok h
  obtain ⟨e1, e2, e3, e4⟩ := dualN_spec hn ea ca hn'
  refine ⟨nr, packed_layout ((dualN_fits ha.2).of_ok hn'), e1, e2,
    fun K _ ρ hp => (e3 _ (indsAll_noPole ca.intDegs hp)).noPole, ?_⟩
  intro K _ _ pw D hD
  rw [e4 K _ pw, mvVal_linear]
  exact mvVal_congr pw fun t ht => (hD.blade hn _ (ea t ht)).symm

example : ElemsLt (2 ^ 4) exA ∧ ∃ r, poincareDual 4 (layout ⟨3, 3, 2⟩ exA) = ok r :=
  ⟨by decide +kernel, Out.exists_of_isOk (by decide +kernel)⟩

/-- C16: dualising twice multiplies a `k`-blade by `(-1)^(k(n-k))`, for every interpretation of powers and blades. -/
theorem C16_twice (n : Nat) (hn : n ≤ 8) {a r s : Mv} {na : NMv} (ha : Represents a na) (ca : CanonMv na)
    (ea : ElemsLt (2 ^ n) na) (h : poincareDual n a = ok r) (h' : poincareDual n r = ok s) :
    ∃ ns, Packed s ns ∧ CanonMv ns ∧ ElemsLt (2 ^ n) ns ∧
      ∀ (K V : Type) [Field K] [CharZero K] [AddCommGroup V] [Module K V] (pw : Nat → ℚ → K) (β : Nat → V),
        mvVal pw β ns = mvVal pw (fun e => ((-1) ^ (gradeOf n e * (n - gradeOf n e)) : K) • β e) na := by
  rw [poincareDual_refines n ha] at h
  obtain ⟨nr, hr, rfl⟩ := map_eq_ok h
  obtain ⟨c1, c2, _, c4⟩ := dualN_spec hn ea ca hr
  have hp := (packed_layout ((dualN_fits ha.2).of_ok hr)).represents
  rw [poincareDual_refines n hp] at h'
  obtain ⟨ns, hs, rfl⟩ := map_eq_ok h'
  obtain ⟨d1, d2, _, d4⟩ := dualN_spec hn c2 c1 hs
  refine ⟨ns, packed_layout ((dualN_fits hp.2).of_ok hs), d1, d2, ?_⟩
  intro K V _ _ _ _ pw β
  rw [d4 K V pw β, c4 K V pw]
  refine mvVal_congr pw fun t ht => ?_
  have ht' := ea t ht
  obtain ⟨t1, _, _, t4⟩ := complement_table ⟨n, by omega⟩ ⟨t.element, ht'⟩
  simp only at t1 t4
  have hpos := Nat.two_pow_pos n
  have tt := (complement_table ⟨n, by omega⟩ ⟨2 ^ n - 1 - t.element, by simp only; omega⟩).1
  simp only at tt
  rw [t1, tt, smul_smul, show 2 ^ n - 1 - (2 ^ n - 1 - t.element) = t.element by omega,
    ← popCount_eq_gradeOf hn ht']
  congr 1
  rw [mul_comm, ← Int.cast_mul, t4]
  push_cast
  rfl

theorem Out.chain_of_isOk {α β : Type} {x : Out α} {f : α → Out β} (h : (x >>= f).isOk = true) :
    ∃ r, x = ok r ∧ ∃ s, f r = ok s := by
  obtain ⟨s, hs⟩ := Out.exists_of_isOk h
  rw [bind_eq_ok] at hs
  obtain ⟨r, h1, h2⟩ := hs
  exact ⟨r, h1, s, h2⟩

example : ∃ r, poincareDual 4 (layout ⟨3, 3, 2⟩ exA) = ok r ∧ ∃ s, poincareDual 4 r = ok s :=
  Out.chain_of_isOk (by decide +kernel)

/-- C16: in odd dimensions the dual is an involution, literally. -/
theorem C16_involution_odd (n : Nat) (hn : n ≤ 8) (hodd : n % 2 = 1) {a r s : Mv} {na : NMv} (ha : Represents a na)
    (ca : CanonMv na) (ea : ElemsLt (2 ^ n) na) (h : poincareDual n a = ok r) (h' : poincareDual n r = ok s) :
    Packed s na := by
  obtain ⟨ns, h1, h2, h3, h4⟩ := C16_twice n hn ha ca ea h h'
  have : ns = na := by
    refine C23_unique h2 ca fun ρ _ e => ?_
    unfold coeff
    rw [h4 ℚ ℚ]
    refine mvVal_congr _ fun t _ => ?_
    rw [Even.neg_one_pow, one_smul]
    have hg := gradeOf_le n t.element
    rw [Nat.even_mul]
    by_cases he : Even (gradeOf n t.element)
    · exact Or.inl he
    · right
      rw [Nat.even_iff] at he ⊢
      omega
  exact this ▸ h1

example : ElemsLt (2 ^ 5) exA ∧ ∃ r, poincareDual 5 (layout ⟨3, 3, 2⟩ exA) = ok r ∧ ∃ s, poincareDual 5 r = ok s :=
  ⟨by decide +kernel, Out.chain_of_isOk (by decide +kernel)⟩

end Gal
