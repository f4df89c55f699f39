import Verif.Props.Null

/-!
# Coefficient vectors of results

`Coords K n a f`: the arrays `a` hold a canonical multivector of an `n`-dimensional algebra whose vector of coefficients,
when indeterminate `i` has value `ρ i`, is `f ρ`.  The rules below carry such descriptions through the operations.
-/

namespace Gal

open Out

variable {K : Type} [Field K]

/-- The vector with a one at position `e`. -/
noncomputable def unitAt (K : Type) [Field K] (e : Nat) : Nat →₀ K := Finsupp.single e 1

/-- The coefficient vector of a multivector. -/
noncomputable def coeffVec (ρ : Nat → K) (n : NMv) : Nat →₀ K := mvVal (intPow ρ) (unitAt K) n

theorem coeffVec_apply (ρ : Nat → K) (n : NMv) (e : Nat) : coeffVec ρ n e = coeff (intPow ρ) n e := by
  unfold coeffVec coeff
  have := mvVal_linear (intPow ρ) (unitAt K) (Finsupp.lapply (R := K) e) n
  rw [Finsupp.lapply_apply] at this
  rw [this]
  congr 1
  funext x
  simp only [unitAt, Finsupp.lapply_apply, Finsupp.single_apply]

/-- See the module comment. -/
structure CoordsOf (K : Type) [Field K] (n : Nat) (a : Mv) (f : (Nat → K) → (Nat →₀ K)) (na : NMv) : Prop where
  rep : Represents a na
  canon : CanonMv na
  elems : ElemsLt (2 ^ n) na
  pole : ∀ (ρ : Nat → K), NoPole ρ na
  val : ∀ (ρ : Nat → K), coeffVec ρ na = f ρ

/-- See the module comment. -/
def Coords (K : Type) [Field K] (n : Nat) (a : Mv) (f : (Nat → K) → (Nat →₀ K)) : Prop := ∃ na, CoordsOf K n a f na

/-- A blade product as a bilinear map on coefficient vectors. -/
noncomputable def tableMul (K : Type) [Field K] (P : Nat → Nat → Nat × Int) : (Nat →₀ K) →ₗ[K] (Nat →₀ K) →ₗ[K] (Nat →₀ K) :=
  Finsupp.linearCombination K fun a => Finsupp.linearCombination K fun b => ((P a b).2 : K) • unitAt K (P a b).1

theorem tableMul_unit (P : Nat → Nat → Nat × Int) (a b : Nat) :
    tableMul K P (unitAt K a) (unitAt K b) = ((P a b).2 : K) • unitAt K (P a b).1 := by
  simp [tableMul, unitAt]

/-- A map of basis elements as a linear map on coefficient vectors. -/
noncomputable def tableMap (K : Type) [Field K] (T : Nat → Nat →₀ K) : (Nat →₀ K) →ₗ[K] (Nat →₀ K) := Finsupp.linearCombination K T

theorem tableMap_unit (T : Nat → Nat →₀ K) (a : Nat) : tableMap K T (unitAt K a) = T a := by
  simp [tableMap, unitAt]

section rules

variable {n : Nat} {a b r : Mv} {f g : (Nat → K) → (Nat →₀ K)} [CharZero K]

theorem coords_product (P : Nat → Nat → Nat × Int) (hn : n ≤ 8)
    (hP : ∀ x y, x < 2 ^ n → y < 2 ^ n → (P x y).2 ≠ 0 → (P x y).1 < 2 ^ n)
    (ha : Coords K n a f) (hb : Coords K n b g) (h : product P a b = ok r) :
    Coords K n r fun ρ => tableMul K P (f ρ) (g ρ) := by
  obtain ⟨na, ha⟩ := ha
  obtain ⟨nb, hb⟩ := hb
  have h256 : 2 ^ n ≤ 256 := Nat.pow_le_pow_right (by decide) hn
  obtain ⟨nr, h1, h2, h3, h4, h5⟩ := C20_product P ha.rep hb.rep ha.canon hb.canon (ha.elems.mono h256) (hb.elems.mono h256) h
  refine ⟨nr, h1.represents, h2, ?_, fun ρ => h4 K ρ (ha.pole ρ) (hb.pole ρ), fun ρ => ?_⟩
  · intro t ht
    obtain ⟨u, hu, v, hv, he, hne⟩ := h3 t ht
    rw [he]
    exact hP _ _ (ha.elems u hu) (hb.elems v hv) hne
  · rw [← ha.val, ← hb.val]
    exact h5 K _ ρ (unitAt K) (tableMul K P) (ha.pole ρ) (hb.pole ρ) fun u _ t _ => tableMul_unit P _ _

theorem coords_geo (m : Metric) (hm : m.dim ≤ 8) (ha : Coords K m.dim a f) (hb : Coords K m.dim b g)
    (h : product (geoProduct m) a b = ok r) : Coords K m.dim r fun ρ => tableMul K (geoProduct m) (f ρ) (g ρ) :=
  coords_product _ hm (fun _ _ hx hy _ => (C10_geometric_range m hm _ _ hx hy).2) ha hb h

theorem coords_ext (hn : n ≤ 8) (ha : Coords K n a f) (hb : Coords K n b g)
    (h : product extProduct a b = ok r) : Coords K n r fun ρ => tableMul K extProduct (f ρ) (g ρ) :=
  coords_product _ hn (fun _ _ hx hy h => extProduct_range hn hx hy h) ha hb h

theorem coords_con (m : Metric) (hm : m.dim ≤ 8) (ha : Coords K m.dim a f) (hb : Coords K m.dim b g)
    (h : product (conProduct m) a b = ok r) : Coords K m.dim r fun ρ => tableMul K (conProduct m) (f ρ) (g ρ) :=
  coords_product _ hm (fun _ _ hx hy _ => conProduct_range hm hx hy) ha hb h

theorem coords_inner (m : Metric) (hm : m.dim ≤ 8) (ha : Coords K m.dim a f) (hb : Coords K m.dim b g)
    (h : product (symProduct m) a b = ok r) : Coords K m.dim r fun ρ => tableMul K (symProduct m) (f ρ) (g ρ) :=
  coords_product _ hm (fun _ _ hx hy _ => symProduct_range hm hx hy) ha hb h

theorem coords_sum (ha : Coords K n a f) (hb : Coords K n b g) (h : sum a b = ok r) : Coords K n r fun ρ => f ρ + g ρ := by
  obtain ⟨na, ha⟩ := ha
  obtain ⟨nb, hb⟩ := hb
  obtain ⟨nr, h1, h2, h3, h4, h5⟩ := C19_sum ha.rep hb.rep ha.canon hb.canon h
  refine ⟨nr, h1.represents, h2, ?_, fun ρ => ?_, fun ρ => ?_⟩
  · intro t ht
    obtain ⟨u, hu, e⟩ := h3 t ht
    rw [e]
    rcases List.mem_append.1 hu with hu | hu
    · exact ha.elems u hu
    · exact hb.elems u hu
  · exact h4 K ρ (ha.pole ρ) (hb.pole ρ)
  · rw [← ha.val, ← hb.val]
    exact h5 K _ ρ _

/-- The Poincaré dual on coefficient vectors. -/
noncomputable def dualTable (K : Type) [Field K] (n g : Nat) : Nat →₀ K :=
  ((poincareComplement g n).2 : K) • unitAt K (poincareComplement g n).1

theorem coords_dual (hn : n ≤ 8) (ha : Coords K n a f) (h : poincareDual n a = ok r) :
    Coords K n r fun ρ => tableMap K (dualTable K n) (f ρ) := by
  obtain ⟨na, ha⟩ := ha
  rw [poincareDual_refines n ha.rep] at h
  obtain ⟨nr, hn', rfl⟩ := map_eq_ok h
  obtain ⟨e1, e2, e3, e4⟩ := dualN_spec hn ha.elems ha.canon hn'
  refine ⟨nr, (packed_layout ((dualN_fits ha.rep.2).of_ok hn')).represents, e1, e2,
    fun ρ => (e3 _ (indsAll_noPole ha.canon.intDegs (ha.pole ρ))).noPole, fun ρ => ?_⟩
  rw [← ha.val]
  unfold coeffVec
  rw [e4 K _ _, mvVal_linear]
  exact mvVal_congr _ fun t ht => (tableMap_unit (dualTable K n) _).symm

theorem coords_natural (h2 : 2 ≤ n) (hn : n ≤ 8) (ha : Coords K n a f) (h : toNaturalBasis n a = ok r) :
    Coords K n r fun ρ => tableMap K (natTarget (K := K) n (unitAt K)) (f ρ) := by
  obtain ⟨na, ha⟩ := ha
  rw [toNaturalBasis_refines n ha.rep] at h
  obtain ⟨nr, hn', rfl⟩ := map_eq_ok h
  obtain ⟨e1, e2, e3, e4⟩ := toNaturalN_spec h2 hn ha.canon ha.elems hn'
  refine ⟨nr, (packed_layout ((toNaturalN_fits n ha.rep.2).of_ok hn')).represents, e1, e2,
    fun ρ => (e3 _ (indsAll_noPole ha.canon.intDegs (ha.pole ρ))).noPole, fun ρ => ?_⟩
  rw [← ha.val]
  unfold coeffVec
  rw [e4 K _ _, mvVal_linear]
  exact mvVal_congr _ fun t ht => (tableMap_unit _ _).symm

theorem coords_null (h2 : 2 ≤ n) (hn : n ≤ 8) (ha : Coords K n a f) (h : toNullBasis n a = ok r) :
    Coords K n r fun ρ => tableMap K (nullTarget (K := K) n (unitAt K)) (f ρ) := by
  obtain ⟨na, ha⟩ := ha
  rw [toNullBasis_refines n ha.rep] at h
  obtain ⟨nr, hn', rfl⟩ := map_eq_ok h
  obtain ⟨e1, e2, e3, e4⟩ := toNullN_spec h2 hn ha.canon ha.elems hn'
  refine ⟨nr, (packed_layout ((toNullN_fits n ha.rep.2).of_ok hn')).represents, e1, e2,
    fun ρ => (e3 _ (indsAll_noPole ha.canon.intDegs (ha.pole ρ))).noPole, fun ρ => ?_⟩
  rw [← ha.val]
  unfold coeffVec
  rw [e4 K _ _, mvVal_linear]
  exact mvVal_congr _ fun t ht => (tableMap_unit _ _).symm

/-- Reversion on coefficient vectors: `k`-blades are multiplied by `(-1)^(k(k-1)/2)`. -/
noncomputable def reverseTable (K : Type) [Field K] (n g : Nat) : Nat →₀ K :=
  ((-1 : K) ^ (gradeOf n g * (gradeOf n g - 1) / 2)) • unitAt K g

theorem coords_reverse (hn : n ≤ 8) (ha : Coords K n a f) (hp : ∃ na, Packed a na) (h : reverse a = ok r) :
    Coords K n r fun ρ => tableMap K (reverseTable K n) (f ρ) := by
  obtain ⟨na, ha⟩ := ha
  obtain ⟨na', hp⟩ := hp
  have : na' = na := by
    have h1 := hp.represents.1
    rw [ha.rep.1] at h1
    exact ok_inj.1 h1.symm
  subst this
  rw [hp.eq, reverse_layout hp.fits.t] at h
  obtain ⟨nr, hn', rfl⟩ := map_eq_ok h
  have hel : ∀ {x y : NMv}, MvWF x → reverseN x = ok y → (∀ t ∈ y, ∃ u ∈ x, t.element = u.element ∧
      ∀ m ∈ t.mons, ∃ m' ∈ u.mons, m.inds = m'.inds) ∧
      ∀ ρ : Nat → K, mvVal (intPow ρ) (unitAt K) y =
        mvVal (intPow ρ) (fun e => ((-1 : Int) ^ (popCount e * (popCount e - 1) / 2) : Int) • unitAt K e) x := by
    intro x
    induction x with
    | nil => intro y _ hy; unfold reverseN at hy; rw [mapO_nil_ok] at hy; subst hy; simp
    | cons t ts ih =>
      intro y hw hy
      unfold reverseN at hy
      rw [mapO_cons_ok] at hy
      obtain ⟨u, us, e1, e2, rfl⟩ := hy
      obtain ⟨i1, i2⟩ := ih (fun x hx => hw x (by simp [hx])) (show reverseN ts = ok us from e2)
      refine ⟨?_, fun ρ => ?_⟩
      · intro s hs
        rcases List.mem_cons.1 hs with rfl | hs
        · refine ⟨t, by simp, (reverseTermN_spec (K := K) (V := K) (intPow fun _ => 0) (fun _ => 0) (hw t (by simp)) e1).2.1, ?_⟩
          unfold reverseTermN at e1
          split at e1
          · rename_i h0
            rw [ok_inj] at e1; subst e1; exact fun m hm => ⟨m, hm, rfl⟩
          · dsimp only at e1
            split at e1
            · exact fun m hm => by obtain ⟨m', h1, h2, _⟩ := (mapQ_inds e1).2 m hm; exact ⟨m', h1, h2⟩
            · rw [ok_inj] at e1; subst e1; exact fun m hm => ⟨m, hm, rfl⟩
        · obtain ⟨v, hv, e⟩ := i1 s hs
          exact ⟨v, by simp [hv], e⟩
      · rw [mvVal_cons, mvVal_cons, i2, (reverseTermN_spec (intPow ρ) (unitAt K) (hw t (by simp)) e1).1]
        congr 1
        unfold NTerm.val
        rw [smul_comm]
  obtain ⟨e1, e2⟩ := hel ha.canon.wf hn'
  refine ⟨nr, (packed_layout ((mapO_fits reverseTermN_size hp.fits).of_ok hn')).represents, reverseN_canon ha.canon hn', ?_, ?_, ?_⟩
  · intro t ht
    obtain ⟨u, hu, e, _⟩ := e1 t ht
    exact e ▸ ha.elems u hu
  · intro ρ t ht m hm i hi hneg
    obtain ⟨u, hu, _, e⟩ := e1 t ht
    obtain ⟨m', hm', e'⟩ := e m hm
    exact ha.pole ρ u hu m' hm' i (e' ▸ hi) hneg
  · intro ρ
    rw [← ha.val]
    unfold coeffVec
    rw [e2, mvVal_linear]
    refine mvVal_congr _ fun t ht => ?_
    rw [tableMap_unit]
    unfold reverseTable
    rw [popCount_eq_gradeOf hn (ha.elems t ht), ← Int.cast_smul_eq_zsmul K]
    push_cast
    rfl

end rules

theorem Coords.congr {n : Nat} {a : Mv} {f g : (Nat → K) → (Nat →₀ K)} (h : Coords K n a f) (e : ∀ ρ, f ρ = g ρ) : Coords K n a g := by
  obtain ⟨na, h⟩ := h
  exact ⟨na, h.rep, h.canon, h.elems, h.pole, fun ρ => (h.val ρ).trans (e ρ)⟩

/-- What a description says about the individual coefficients. -/
theorem Coords.coeffs {n : Nat} {a : Mv} {f : (Nat → K) → (Nat →₀ K)} (h : Coords K n a f) :
    ∃ na, Represents a na ∧ CanonMv na ∧ ElemsLt (2 ^ n) na ∧ ∀ ρ e, coeff (intPow ρ) na e = f ρ e := by
  obtain ⟨na, h⟩ := h
  exact ⟨na, h.rep, h.canon, h.elems, fun ρ e => by rw [← h.val, coeffVec_apply]⟩

end Gal
