import Verif.MvRefineOps
import Verif.MvCanon
import Verif.MvSource
import Verif.Props.Blade
import Verif.Spec.Grade

/-!
# Properties C19, C20, C21, C22 and C26: symbolic multivectors

All statements are about the array level.  `Represents a n` says that iterating over the arrays of `a` yields the nested
multivector `n`; `mvVal (intPow ρ) β n` is its value when indeterminate `i` is assigned `ρ i` and basis element `e` stands
for the vector `β e`.  A hypothesis `… = ok r` says that the machine arithmetic on coefficients is defined and that no
coefficient was rounded.
-/

namespace Gal

open Out

theorem map_eq_ok {α β : Type} {f : α → β} {x : Out α} {r : β} (h : f <$> x = ok r) : ∃ n, x = ok n ∧ r = f n := by
  rw [map_eq_pure_bind, bind_eq_ok] at h
  obtain ⟨n, h1, h2⟩ := h
  exact ⟨n, h1, (ok_inj.1 h2).symm⟩

theorem Packed.represents {a : Mv} {n : NMv} (h : Packed a n) : Represents a n := by
  have := represents_layout h.fits
  rwa [← h.eq] at this

theorem packed_layout {c : Caps} {n : NMv} (h : Fits c n) : Packed (layout c n) n := ⟨rfl, h⟩

/-- The outcome is a value and nothing was rounded. -/
def Out.isOk {α : Type} : Out α → Bool
  | .val _ false => true
  | _ => false

theorem Out.exists_of_isOk {α : Type} {x : Out α} (h : x.isOk = true) : ∃ r, x = ok r := by
  match x, h with
  | .val r false, _ => exact ⟨r, rfl⟩

/-! Concrete multivectors used to show that the hypotheses can be met. -/

/-- `x₀ e₀ + (x₁ x₀² - 3/2) e₁`. -/
def exA : NMv := [⟨1, [⟨⟨1, 1⟩, ⟨1, 1⟩, [⟨0, ⟨1, 1⟩⟩]⟩]⟩,
  ⟨2, [⟨⟨-3, 2⟩, ⟨0, 1⟩, []⟩, ⟨⟨1, 1⟩, ⟨3, 1⟩, [⟨0, ⟨2, 1⟩⟩, ⟨1, ⟨1, 1⟩⟩]⟩]⟩]

/-- `-x₀ e₀ + x₂⁻¹ e₁₂`. -/
def exB : NMv := [⟨1, [⟨⟨-1, 1⟩, ⟨1, 1⟩, [⟨0, ⟨1, 1⟩⟩]⟩]⟩, ⟨6, [⟨⟨1, 1⟩, ⟨-1, 1⟩, [⟨2, ⟨-1, 1⟩⟩]⟩]⟩]

instance : Decidable (CanonInd i) := decidable_of_iff (i.deg.den = 1 ∧ InI32 i.deg.num ∧ i.deg.num ≠ 0)
  ⟨fun ⟨a, b, c⟩ => ⟨a, b, c⟩, fun ⟨a, b, c⟩ => ⟨a, b, c⟩⟩

instance : Decidable (PreMon m) := decidable_of_iff
  (m.q.Canon ∧ (∀ i ∈ m.inds, CanonInd i) ∧ m.inds.Pairwise (fun x y => x.id < y.id) ∧
    m.degree = ⟨(m.inds.map (fun i => i.deg.num)).sum, 1⟩ ∧ InI32 m.degree.num)
  ⟨fun ⟨a, b, c, d, e⟩ => ⟨a, b, c, d, e⟩, fun ⟨a, b, c, d, e⟩ => ⟨a, b, c, d, e⟩⟩

instance : Decidable (CanonMon m) := decidable_of_iff (PreMon m ∧ m.q.num ≠ 0)
  ⟨fun ⟨a, b⟩ => ⟨a, b⟩, fun ⟨a, b⟩ => ⟨a, b⟩⟩

instance : Decidable (CanonMons ms) := decidable_of_iff
  ((∀ m ∈ ms, CanonMon m) ∧ ms.Pairwise (fun x y => monKey x < monKey y))
  ⟨fun ⟨a, b⟩ => ⟨a, b⟩, fun ⟨a, b⟩ => ⟨a, b⟩⟩

instance : Decidable (CanonMv a) := decidable_of_iff
  ((∀ t ∈ a, CanonMons t.mons ∧ t.mons ≠ []) ∧ a.Pairwise (fun x y => x.element < y.element))
  ⟨fun ⟨a, b⟩ => ⟨a, b⟩, fun ⟨a, b⟩ => ⟨a, b⟩⟩

instance : Decidable (Fits c a) := decidable_of_iff (nInds a ≤ c.i ∧ nMons a ≤ c.m ∧ a.length ≤ c.t)
  ⟨fun ⟨a, b, c⟩ => ⟨a, b, c⟩, fun ⟨a, b, c⟩ => ⟨a, b, c⟩⟩

instance : Decidable (Represents a n) := inferInstanceAs (Decidable (_ ∧ _))

instance : Decidable (Packed a n) := decidable_of_iff (a = layout a.caps n ∧ Fits a.caps n)
  ⟨fun ⟨a, b⟩ => ⟨a, b⟩, fun ⟨a, b⟩ => ⟨a, b⟩⟩

instance : Decidable (ElemsLt n a) := inferInstanceAs (Decidable (∀ t ∈ a, _))

theorem exA_canon : CanonMv exA := by decide +kernel
theorem exB_canon : CanonMv exB := by decide +kernel

/-! ## C19 -/

/-- C19: the sum of two canonical multivectors is canonical and denotes the sum, for every assignment. -/
theorem C19_sum {a b r : Mv} {na nb : NMv} (ha : Represents a na) (hb : Represents b nb) (ca : CanonMv na)
    (cb : CanonMv nb) (h : sum a b = ok r) :
    ∃ nr, Packed r nr ∧ CanonMv nr ∧ (∀ t ∈ nr, ∃ u ∈ na ++ nb, t.element = u.element) ∧
      (∀ (K : Type) [Field K] (ρ : Nat → K), NoPole ρ na → NoPole ρ nb → NoPole ρ nr) ∧
      ∀ (K V : Type) [Field K] [CharZero K] [AddCommGroup V] [Module K V] (ρ : Nat → K) (β : Nat → V),
        mvVal (intPow ρ) β nr = mvVal (intPow ρ) β na + mvVal (intPow ρ) β nb := by
  rw [sum_refines ha hb] at h
  obtain ⟨nr, hn, rfl⟩ := map_eq_ok h
  refine ⟨nr, packed_layout ((sumN_fits ha.2 hb.2).of_ok hn), sumN_canon ca cb hn,
    ((sumN_all (Q := fun _ => True) (E := fun e => ∃ u ∈ na ++ nb, e = u.element) (fun _ _ _ _ _ _ => trivial)
      (fun _ _ _ _ _ _ => trivial) (fun t ht => ⟨t, by simp [ht], rfl⟩) (fun t ht => ⟨t, by simp [ht], rfl⟩)).of_ok hn).2,
    fun K _ ρ pa pb => ((sumN_all (E := fun _ => True) (indsAll_noPole ca.intDegs pa) (indsAll_noPole cb.intDegs pb)
      (fun _ _ => trivial) (fun _ _ => trivial)).of_ok hn).1.noPole, ?_⟩
  intro K V _ _ _ _ ρ β
  exact (sumN_val (intPow ρ) β ca.wf cb.wf cb.intDegs hn).1

example : Represents (layout ⟨3, 3, 2⟩ exA) exA ∧ Represents (layout ⟨2, 5, 4⟩ exB) exB ∧ CanonMv exA ∧ CanonMv exB ∧
    ∃ r, sum (layout ⟨3, 3, 2⟩ exA) (layout ⟨2, 5, 4⟩ exB) = ok r :=
  ⟨by decide +kernel, by decide +kernel, exA_canon, exB_canon,
    layout ⟨5, 8, 6⟩ [⟨2, [⟨⟨-3, 2⟩, ⟨0, 1⟩, []⟩, ⟨⟨1, 1⟩, ⟨3, 1⟩, [⟨0, ⟨2, 1⟩⟩, ⟨1, ⟨1, 1⟩⟩]⟩]⟩,
      ⟨6, [⟨⟨1, 1⟩, ⟨-1, 1⟩, [⟨2, ⟨-1, 1⟩⟩]⟩]⟩], by decide +kernel⟩

/-- C19, values only: the sum denotes the sum for every interpretation of (also fractional) powers and without any
ordering assumption, as long as the degrees in the right operand are integers. -/
theorem C19_sum_value {a b r : Mv} {na nb : NMv} (ha : Represents a na) (hb : Represents b nb) (wa : MvWF na)
    (wb : MvWF nb) (db : IntDegs nb) (h : sum a b = ok r) :
    ∃ nr, Packed r nr ∧
      ∀ (K V : Type) [Field K] [CharZero K] [AddCommGroup V] [Module K V] (pw : Nat → ℚ → K) (β : Nat → V),
        mvVal pw β nr = mvVal pw β na + mvVal pw β nb := by
  rw [sum_refines ha hb] at h
  obtain ⟨nr, hn, rfl⟩ := map_eq_ok h
  refine ⟨nr, packed_layout ((sumN_fits ha.2 hb.2).of_ok hn), ?_⟩
  intro K V _ _ _ _ pw β
  exact (sumN_val pw β wa wb db hn).1

example : MvWF exB ∧ IntDegs exB := ⟨exB_canon.wf, exB_canon.intDegs⟩

/-- The right operand's degrees must be integers: `x₀^1` and `x₀^(3/2)`, given equal stored total degrees, are merged into
`2 x₀`, because equality of indeterminates goes through the truncating `==` of rationals. -/
theorem C19_sum_fractional_false :
    sum (layout ⟨1, 1, 1⟩ [⟨0, [⟨⟨1, 1⟩, ⟨1, 1⟩, [⟨0, ⟨1, 1⟩⟩]⟩]⟩])
      (layout ⟨1, 1, 1⟩ [⟨0, [⟨⟨1, 1⟩, ⟨1, 1⟩, [⟨0, ⟨3, 2⟩⟩]⟩]⟩]) =
    ok (layout ⟨2, 2, 2⟩ [⟨0, [⟨⟨2, 1⟩, ⟨1, 1⟩, [⟨0, ⟨1, 1⟩⟩]⟩]⟩]) := by decide +kernel

/-! ## C20 -/

theorem powOn_int {K : Type} [Field K] {ρ : Nat → K} {a b : NMv} (da : IntDegs a) (db : IntDegs b) (na : NoPole ρ a)
    (nb : NoPole ρ b) : PowOn (intPow ρ) a b where
  zero := intPow_zero ρ
  add t ht m hm i hi u hu n hn j hj hid := by
    have e1 := da t ht m hm i hi
    have e2 := db u hu n hn j hj
    unfold intPow Rat32.toQ
    rw [e1, e2]
    have h1 : ((i.deg.num : ℚ) / ((1 : ℤ) : ℚ)) = ((i.deg.num : ℤ) : ℚ) := by simp
    have h2 : ((j.deg.num : ℚ) / ((1 : ℤ) : ℚ)) = ((j.deg.num : ℤ) : ℚ) := by simp
    rw [h1, h2, ← Int.cast_add, Rat.num_intCast, Rat.num_intCast, Rat.num_intCast]
    by_cases hz : ρ i.id = 0
    · have p1 : 0 ≤ i.deg.num := by
        by_contra hneg
        exact na t ht m hm i hi (by omega) hz
      have p2 : 0 ≤ j.deg.num := by
        by_contra hneg
        exact nb u hu n hn j hj (by omega) (hid ▸ hz)
      obtain ⟨k1, hk1⟩ := Int.eq_ofNat_of_zero_le p1
      obtain ⟨k2, hk2⟩ := Int.eq_ofNat_of_zero_le p2
      rw [hk1, hk2, ← Int.natCast_add, zpow_natCast, zpow_natCast, zpow_natCast, pow_add]
    · exact zpow_add₀ hz _ _

/-- C20: for any blade product `P` and any bilinear map `B` that agrees with `P` on the elements of the operands, the
product of two multivectors is canonical and denotes `B` of the operands' values.  The assignment may be zero on
indeterminates that only occur with positive exponents. -/
theorem C20_product (P : Nat → Nat → Nat × Int) {a b r : Mv} {na nb : NMv} (ha : Represents a na) (hb : Represents b nb)
    (ca : CanonMv na) (cb : CanonMv nb) (ea : ElemsLt 256 na) (eb : ElemsLt 256 nb) (h : product P a b = ok r) :
    ∃ nr, Packed r nr ∧ CanonMv nr ∧
      (∀ t ∈ nr, ∃ u ∈ na, ∃ v ∈ nb, t.element = (P u.element v.element).1 ∧ (P u.element v.element).2 ≠ 0) ∧
      (∀ (K : Type) [Field K] (ρ : Nat → K), NoPole ρ na → NoPole ρ nb → NoPole ρ nr) ∧
      ∀ (K V : Type) [Field K] [CharZero K] [AddCommGroup V] [Module K V] (ρ : Nat → K) (β : Nat → V)
        (B : V →ₗ[K] V →ₗ[K] V), NoPole ρ na → NoPole ρ nb →
        (∀ u ∈ na, ∀ t ∈ nb, B (β u.element) (β t.element) =
          ((P u.element t.element).2 : K) • β (P u.element t.element).1) →
        mvVal (intPow ρ) β nr = B (mvVal (intPow ρ) β na) (mvVal (intPow ρ) β nb) := by
  rw [product_refines P ha hb] at h
  obtain ⟨nr, hn, rfl⟩ := map_eq_ok h
  refine ⟨nr, packed_layout ((productN_fits (P := P) ha.2 hb.2).of_ok hn), productN_canon ca.pre cb.pre hn,
    (productN_all (Q := fun _ => True) (fun _ _ _ _ _ _ _ => trivial) (fun _ _ _ _ _ _ => trivial)
      (fun _ _ _ _ _ _ => trivial) ea eb hn).2,
    fun K _ ρ pa pb => (productN_all (noPole_closed ρ) (indsAll_noPole ca.intDegs pa) (indsAll_noPole cb.intDegs pb)
      ea eb hn).1.noPole, ?_⟩
  intro K V _ _ _ _ ρ β B pa pb hB
  exact (productN_val (intPow ρ) β P B (powOn_int ca.intDegs cb.intDegs pa pb) ca.wf cb.wf hB ea eb hn).1

theorem ElemsLt.mono {n k : Nat} {a : NMv} (h : ElemsLt n a) (hk : n ≤ k) : ElemsLt k a :=
  fun t ht => lt_of_lt_of_le (h t ht) hk

theorem dim_lt_256 {m : Metric} (hm : m.dim ≤ 8) : 2 ^ m.dim ≤ 256 := by
  calc 2 ^ m.dim ≤ 2 ^ 8 := Nat.pow_le_pow_right (by decide) hm
    _ = 256 := by decide

/-- C20 for the geometric product: the value is the product in the Clifford algebra of the metric. -/
theorem C20_geometric (m : Metric) (hm : m.dim ≤ 8) {a b r : Mv} {na nb : NMv} (ha : Represents a na)
    (hb : Represents b nb) (ca : CanonMv na) (cb : CanonMv nb) (ea : ElemsLt (2 ^ m.dim) na)
    (eb : ElemsLt (2 ^ m.dim) nb) (h : product (geoProduct m) a b = ok r) :
    ∃ nr, Packed r nr ∧ CanonMv nr ∧ ElemsLt (2 ^ m.dim) nr ∧
      ∀ (K : Type) [Field K] [CharZero K] (ρ : Nat → K), NoPole ρ na → NoPole ρ nb → NoPole ρ nr ∧
        mvVal (intPow ρ) (cliffBlade K m.dim m.sq) nr =
          mvVal (intPow ρ) (cliffBlade K m.dim m.sq) na * mvVal (intPow ρ) (cliffBlade K m.dim m.sq) nb := by
  obtain ⟨nr, h1, h2, h4, h5, h3⟩ := C20_product _ ha hb ca cb (ea.mono (dim_lt_256 hm)) (eb.mono (dim_lt_256 hm)) h
  refine ⟨nr, h1, h2, fun t ht => ?_, ?_⟩
  · obtain ⟨u, hu, v, hv, he, h0⟩ := h4 t ht
    rw [he]
    exact (C10_geometric_range m hm _ _ (ea u hu) (eb v hv)).2
  intro K _ _ ρ pa pb
  refine ⟨h5 K ρ pa pb, ?_⟩
  exact h3 K _ ρ (cliffBlade K m.dim m.sq) (LinearMap.mul K _) pa pb
    (fun u hu t ht => C10_geometric K m hm _ _ (ea u hu) (eb t ht))

example : ElemsLt (2 ^ pgaMetric.dim) exA ∧ ElemsLt (2 ^ pgaMetric.dim) exB ∧
    (∃ r, product (geoProduct pgaMetric) (layout ⟨3, 3, 2⟩ exA) (layout ⟨2, 5, 4⟩ exB) = ok r) ∧
    NoPole (fun i => if i = 0 then (0 : ℚ) else 2) exA ∧ NoPole (fun i => if i = 0 then (0 : ℚ) else 2) exB :=
  ⟨by decide +kernel, by decide +kernel, Out.exists_of_isOk (by decide +kernel), by simp [NoPole, exA], by simp [NoPole, exB]⟩

theorem extProduct_range {n : Nat} (hn : n ≤ 8) {a b : Nat} (ha : a < 2 ^ n) (hb : b < 2 ^ n)
    (h : (extProduct a b).2 ≠ 0) : (extProduct a b).1 < 2 ^ n := by
  rw [extProduct_eq n a b (by omega) ha hb] at h ⊢
  split at h
  · simp at h
  · rename_i hs; rw [if_neg hs]; exact Nat.xor_lt_two_pow ha hb

/-- C20 for the exterior product: the value is the product in the exterior algebra. -/
theorem C20_exterior (n : Nat) (hn : n ≤ 8) {a b r : Mv} {na nb : NMv} (ha : Represents a na)
    (hb : Represents b nb) (ca : CanonMv na) (cb : CanonMv nb) (ea : ElemsLt (2 ^ n) na)
    (eb : ElemsLt (2 ^ n) nb) (h : product extProduct a b = ok r) :
    ∃ nr, Packed r nr ∧ CanonMv nr ∧ ElemsLt (2 ^ n) nr ∧
      ∀ (K : Type) [Field K] [CharZero K] (ρ : Nat → K), NoPole ρ na → NoPole ρ nb → NoPole ρ nr ∧
        mvVal (intPow ρ) (bladeOf (extGen K n) n) nr =
          mvVal (intPow ρ) (bladeOf (extGen K n) n) na * mvVal (intPow ρ) (bladeOf (extGen K n) n) nb := by
  have h256 : 2 ^ n ≤ 256 := Nat.pow_le_pow_right (by decide) hn
  obtain ⟨nr, h1, h2, h4, h5, h3⟩ := C20_product _ ha hb ca cb (ea.mono h256) (eb.mono h256) h
  refine ⟨nr, h1, h2, fun t ht => ?_, ?_⟩
  · obtain ⟨u, hu, v, hv, he, h0⟩ := h4 t ht
    rw [he]
    exact extProduct_range hn (ea u hu) (eb v hv) h0
  intro K _ _ ρ pa pb
  refine ⟨h5 K ρ pa pb, ?_⟩
  exact h3 K _ ρ (bladeOf (extGen K n) n) (LinearMap.mul K _) pa pb
    (fun u hu t ht => C12_exterior K n hn _ _ (ea u hu) (eb t ht))

example : ∃ r, product extProduct (layout ⟨3, 3, 2⟩ exA) (layout ⟨2, 5, 4⟩ exB) = ok r :=
  Out.exists_of_isOk (by decide +kernel)

attribute [local irreducible] popCount

theorem popCount_eq_gradeOf {n g : Nat} (hn : n ≤ 8) (hg : g < 2 ^ n) : popCount g = gradeOf n g :=
  popCount_eq_card n g (by omega) hg

theorem geoProduct_element {m : Metric} (hm : m.dim ≤ 8) {a b : Nat} (ha : a < 2 ^ m.dim) (hb : b < 2 ^ m.dim)
    (h : (geoProduct m a b).2 ≠ 0) : (geoProduct m a b).1 = a ^^^ b := by
  rw [geoProduct_eq m m.dim a b (by omega) ha hb] at h ⊢
  split at h
  · simp at h
  · rename_i hs; rw [if_neg hs]

theorem gradePart_mul (K : Type) [Field K] {m : Metric} (hm : m.dim ≤ 8) {a b : Nat} (ha : a < 2 ^ m.dim)
    (hb : b < 2 ^ m.dim) (k : Nat) :
    gradePart K m.dim m.sq k (cliffBlade K m.dim m.sq a * cliffBlade K m.dim m.sq b) =
      if gradeOf m.dim (a ^^^ b) = k then
        ((geoProduct m a b).2 : K) • cliffBlade K m.dim m.sq (geoProduct m a b).1 else 0 := by
  rw [C10_geometric K m hm a b ha hb, map_smul]
  by_cases h : (geoProduct m a b).2 = 0
  · simp [h]
  · have he := geoProduct_element hm ha hb h
    rw [he, gradePart_blade K _ _ _ _ (Nat.xor_lt_two_pow ha hb)]
    split <;> simp

theorem conProduct_range {m : Metric} (hm : m.dim ≤ 8) {a b : Nat} (ha : a < 2 ^ m.dim) (hb : b < 2 ^ m.dim) :
    (conProduct m a b).1 < 2 ^ m.dim := by
  rw [C13_contraction_grade m hm a b ha hb]
  split
  · exact (C10_geometric_range m hm a b ha hb).2
  · exact Nat.two_pow_pos _

theorem symProduct_range {m : Metric} (hm : m.dim ≤ 8) {a b : Nat} (ha : a < 2 ^ m.dim) (hb : b < 2 ^ m.dim) :
    (symProduct m a b).1 < 2 ^ m.dim := by
  rw [C14_inner m hm a b ha hb]
  split
  · exact (C10_geometric_range m hm a b ha hb).2
  · exact Nat.two_pow_pos _

theorem leftContraction_conProduct (K : Type) [Field K] (m : Metric) (hm : m.dim ≤ 8) (a b : Nat) (ha : a < 2 ^ m.dim)
    (hb : b < 2 ^ m.dim) : leftContraction K m.dim m.sq (cliffBlade K m.dim m.sq a) (cliffBlade K m.dim m.sq b) =
      ((conProduct m a b).2 : K) • cliffBlade K m.dim m.sq (conProduct m a b).1 := by
  rw [leftContraction_blade K _ _ a b ha hb, gradePart_mul K hm ha hb, C13_contraction_grade m hm a b ha hb,
    popCount_eq_gradeOf hm ha, popCount_eq_gradeOf hm hb, popCount_eq_gradeOf hm (Nat.xor_lt_two_pow ha hb)]
  by_cases h1 : gradeOf m.dim a ≤ gradeOf m.dim b
  · rw [if_pos h1]
    by_cases h2 : gradeOf m.dim (a ^^^ b) = gradeOf m.dim b - gradeOf m.dim a
    · rw [if_pos h2, if_pos (by omega)]
    · rw [if_neg h2, if_neg (by omega)]; simp
  · rw [if_neg h1, if_neg (by omega)]; simp

theorem innerProd_symProduct (K : Type) [Field K] (m : Metric) (hm : m.dim ≤ 8) (a b : Nat) (ha : a < 2 ^ m.dim)
    (hb : b < 2 ^ m.dim) : innerProd K m.dim m.sq (cliffBlade K m.dim m.sq a) (cliffBlade K m.dim m.sq b) =
      ((symProduct m a b).2 : K) • cliffBlade K m.dim m.sq (symProduct m a b).1 := by
  have hz : ∀ g, g < 2 ^ m.dim → (0 < gradeOf m.dim g ↔ g ≠ 0) := by
    intro g hg
    unfold gradeOf
    rw [Finset.card_pos]
    constructor
    · rintro ⟨i, hi⟩ rfl
      simp at hi
    · intro h
      obtain ⟨i, hi⟩ := Nat.exists_testBit_of_ne_zero h
      refine ⟨i, Finset.mem_filter.2 ⟨Finset.mem_range.2 ?_, hi⟩⟩
      by_contra hn
      have : g.testBit i = false := Nat.testBit_lt_two_pow (lt_of_lt_of_le hg (Nat.pow_le_pow_right (by decide) (by omega)))
      rw [this] at hi; cases hi
  rw [innerProd_blade K _ _ a b ha hb, gradePart_mul K hm ha hb, C14_inner m hm a b ha hb,
    popCount_eq_gradeOf hm ha, popCount_eq_gradeOf hm hb, popCount_eq_gradeOf hm (Nat.xor_lt_two_pow ha hb)]
  simp only [hz a ha, hz b hb]
  have habs : ∀ x y z : Nat, ((x : Int) = |(y : Int) - z|) ↔ x = z - y + (y - z) := by
    intro x y z
    rcases le_total (z : Int) y with h | h
    · rw [abs_of_nonneg (by omega)]; omega
    · rw [abs_of_nonpos (by omega)]; omega
  simp only [habs]
  by_cases h1 : a ≠ 0 ∧ b ≠ 0
  · rw [if_pos h1]
    by_cases h2 : gradeOf m.dim (a ^^^ b) = gradeOf m.dim b - gradeOf m.dim a + (gradeOf m.dim a - gradeOf m.dim b)
    · rw [if_pos h2, if_pos ⟨h1.1, h1.2, h2⟩]
    · rw [if_neg h2, if_neg (by tauto)]; simp
  · rw [if_neg h1, if_neg (by tauto)]; simp

/-- C20 for the contraction: the value is the left contraction `Σ_{r ≤ s} ⟨⟨x⟩ᵣ ⟨y⟩ₛ⟩_{s-r}` of the operands' values. -/
theorem C20_contraction (m : Metric) (hm : m.dim ≤ 8) {a b r : Mv} {na nb : NMv} (ha : Represents a na)
    (hb : Represents b nb) (ca : CanonMv na) (cb : CanonMv nb) (ea : ElemsLt (2 ^ m.dim) na)
    (eb : ElemsLt (2 ^ m.dim) nb) (h : product (conProduct m) a b = ok r) :
    ∃ nr, Packed r nr ∧ CanonMv nr ∧ ElemsLt (2 ^ m.dim) nr ∧
      ∀ (K : Type) [Field K] [CharZero K] (ρ : Nat → K), NoPole ρ na → NoPole ρ nb → NoPole ρ nr ∧
        mvVal (intPow ρ) (cliffBlade K m.dim m.sq) nr =
          leftContraction K m.dim m.sq (mvVal (intPow ρ) (cliffBlade K m.dim m.sq) na)
            (mvVal (intPow ρ) (cliffBlade K m.dim m.sq) nb) := by
  obtain ⟨nr, h1, h2, h4, h5, h3⟩ := C20_product _ ha hb ca cb (ea.mono (dim_lt_256 hm)) (eb.mono (dim_lt_256 hm)) h
  refine ⟨nr, h1, h2, fun t ht => ?_, ?_⟩
  · obtain ⟨u, hu, v, hv, he, h0⟩ := h4 t ht
    rw [he]
    exact conProduct_range hm (ea u hu) (eb v hv)
  intro K _ _ ρ pa pb
  refine ⟨h5 K ρ pa pb, ?_⟩
  exact h3 K _ ρ (cliffBlade K m.dim m.sq) (leftContraction K m.dim m.sq) pa pb
    (fun u hu t ht => leftContraction_conProduct K m hm _ _ (ea u hu) (eb t ht))

example : ∃ r, product (conProduct pgaMetric) (layout ⟨3, 3, 2⟩ exA) (layout ⟨2, 5, 4⟩ exB) = ok r :=
  Out.exists_of_isOk (by decide +kernel)

/-- C20 for the symmetric inner product: the value is `Σ_{r,s>0} ⟨⟨x⟩ᵣ ⟨y⟩ₛ⟩_{|s-r|}` of the operands' values. -/
theorem C20_inner (m : Metric) (hm : m.dim ≤ 8) {a b r : Mv} {na nb : NMv} (ha : Represents a na)
    (hb : Represents b nb) (ca : CanonMv na) (cb : CanonMv nb) (ea : ElemsLt (2 ^ m.dim) na)
    (eb : ElemsLt (2 ^ m.dim) nb) (h : product (symProduct m) a b = ok r) :
    ∃ nr, Packed r nr ∧ CanonMv nr ∧ ElemsLt (2 ^ m.dim) nr ∧
      ∀ (K : Type) [Field K] [CharZero K] (ρ : Nat → K), NoPole ρ na → NoPole ρ nb → NoPole ρ nr ∧
        mvVal (intPow ρ) (cliffBlade K m.dim m.sq) nr =
          innerProd K m.dim m.sq (mvVal (intPow ρ) (cliffBlade K m.dim m.sq) na)
            (mvVal (intPow ρ) (cliffBlade K m.dim m.sq) nb) := by
  obtain ⟨nr, h1, h2, h4, h5, h3⟩ := C20_product _ ha hb ca cb (ea.mono (dim_lt_256 hm)) (eb.mono (dim_lt_256 hm)) h
  refine ⟨nr, h1, h2, fun t ht => ?_, ?_⟩
  · obtain ⟨u, hu, v, hv, he, h0⟩ := h4 t ht
    rw [he]
    exact symProduct_range hm (ea u hu) (eb v hv)
  intro K _ _ ρ pa pb
  refine ⟨h5 K ρ pa pb, ?_⟩
  exact h3 K _ ρ (cliffBlade K m.dim m.sq) (innerProd K m.dim m.sq) pa pb
    (fun u hu t ht => innerProd_symProduct K m hm _ _ (ea u hu) (eb t ht))

example : ∃ r, product (symProduct pgaMetric) (layout ⟨3, 3, 2⟩ exA) (layout ⟨2, 5, 4⟩ exB) = ok r :=
  Out.exists_of_isOk (by decide +kernel)

/-! ## C22 -/

/-- C22: sorting and collating any temporary terms — in any order, with repeated elements and repeated monomials — yields
a canonical multivector of the same value. -/
theorem C22_collate {ct caps : Caps} {ns : NMv} {r : Mv} (hf : Fits ct ns) (hc : Fits caps ns)
    (hw : ∀ t ∈ ns, ∀ m ∈ t.mons, PreMon m) (h : sortCollate ((Bld.empty ct).add ns) caps = ok r) :
    ∃ nr, Packed r nr ∧ CanonMv nr ∧
      ∀ (K V : Type) [Field K] [CharZero K] [AddCommGroup V] [Module K V] (pw : Nat → ℚ → K) (β : Nat → V),
        mvVal pw β nr = mvVal pw β ns := by
  rw [sortCollate_refines hf hc] at h
  obtain ⟨nr, hn, rfl⟩ := map_eq_ok h
  refine ⟨nr, packed_layout ((sortCollateN_fits hc).of_ok hn), sortCollateN_canon hw hn, ?_⟩
  intro K V _ _ _ _ pw β
  exact (sortCollateN_val pw β (fun t ht m hm => ⟨(hw t ht m hm).q.1, fun i hi =>
    ⟨((hw t ht m hm).inds i hi).rep, by rw [((hw t ht m hm).inds i hi).den]; decide,
      by rw [((hw t ht m hm).inds i hi).den]; decide⟩⟩) hn).1

/-- `2x₁ e₀₁ + (x₀ - x₁) e₀ - 2x₁ e₀₁ + 0 e₂ + x₀ e₀` is collated to `(2x₀ - x₁) e₀`. -/
example :
    let ns : NMv := [⟨3, [⟨⟨2, 1⟩, ⟨1, 1⟩, [⟨1, ⟨1, 1⟩⟩]⟩]⟩,
      ⟨1, [⟨⟨1, 1⟩, ⟨1, 1⟩, [⟨0, ⟨1, 1⟩⟩]⟩, ⟨⟨-1, 1⟩, ⟨1, 1⟩, [⟨1, ⟨1, 1⟩⟩]⟩]⟩, ⟨3, [⟨⟨-2, 1⟩, ⟨1, 1⟩, [⟨1, ⟨1, 1⟩⟩]⟩]⟩,
      ⟨4, [⟨⟨0, 1⟩, ⟨0, 1⟩, []⟩]⟩, ⟨1, [⟨⟨1, 1⟩, ⟨1, 1⟩, [⟨0, ⟨1, 1⟩⟩]⟩]⟩]
    Fits ⟨5, 6, 5⟩ ns ∧ (∀ t ∈ ns, ∀ m ∈ t.mons, PreMon m) ∧
    sortCollate ((Bld.empty ⟨5, 6, 5⟩).add ns) ⟨5, 6, 5⟩ = ok (layout ⟨5, 6, 5⟩
      [⟨1, [⟨⟨2, 1⟩, ⟨1, 1⟩, [⟨0, ⟨1, 1⟩⟩]⟩, ⟨⟨-1, 1⟩, ⟨1, 1⟩, [⟨1, ⟨1, 1⟩⟩]⟩]⟩]) := by
  refine ⟨by decide +kernel, by decide +kernel, by decide +kernel⟩

end Gal
