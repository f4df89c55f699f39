import Verif.Props.Dual

/-!
# Properties C15 and C40: algebraic laws hold literally

Because canonical forms are unique (C23), laws of the Clifford and exterior algebras become identities between the
multivectors the library stores, not merely between their values.  Every statement assumes only that the operations
involved are defined (no overflow, no rounding).
-/

namespace Gal

open Out

attribute [local irreducible] popCount

/-- A canonical multivector of an `n`-dimensional algebra, stored anywhere in an array triple. -/
structure Operand (n : Nat) (a : Mv) (na : NMv) : Prop where
  rep : Represents a na
  canon : CanonMv na
  elems : ElemsLt (2 ^ n) na

/-- As `Operand`, with packed arrays: what every library function returns. -/
structure Result (n : Nat) (a : Mv) (na : NMv) : Prop where
  packed : Packed a na
  canon : CanonMv na
  elems : ElemsLt (2 ^ n) na

theorem Result.operand {n : Nat} {a : Mv} {na : NMv} (h : Result n a na) : Operand n a na :=
  ⟨h.packed.represents, h.canon, h.elems⟩

theorem noPole_of_ne {K : Type} [Field K] {ρ : Nat → K} (h : ∀ i, ρ i ≠ 0) (a : NMv) : NoPole ρ a :=
  fun _ _ _ _ i _ _ => h i.id

/-- `a ≈ b`: the two array triples hold the same multivector. -/
def Same (a b : Mv) : Prop := ∃ n, Packed a n ∧ Packed b n

theorem same_of {m : Nat} {d : Nat → Int} {a b : Mv} {na nb : NMv} (ha : Result m a na) (hb : Result m b nb)
    (h : ∀ ρ : Nat → ℚ, (∀ i, ρ i ≠ 0) →
      mvVal (intPow ρ) (cliffBlade ℚ m d) na = mvVal (intPow ρ) (cliffBlade ℚ m d) nb) : Same a b := by
  have : na = nb := C23_clifford m d ha.canon hb.canon ha.elems hb.elems h
  subst this
  exact ⟨na, ha.packed, hb.packed⟩

theorem same_of_ext {m : Nat} {a b : Mv} {na nb : NMv} (ha : Result m a na) (hb : Result m b nb)
    (h : ∀ ρ : Nat → ℚ, (∀ i, ρ i ≠ 0) →
      mvVal (intPow ρ) (extBlade ℚ m) na = mvVal (intPow ρ) (extBlade ℚ m) nb) : Same a b := by
  have : na = nb := unique_of_coords (extCoords ℚ m) (extCoords_blade ℚ m) ha.canon hb.canon ha.elems hb.elems h
  subst this
  exact ⟨na, ha.packed, hb.packed⟩

section results

variable {n : Nat} {a b r : Mv} {na nb : NMv}

theorem sum_result (ha : Operand n a na) (hb : Operand n b nb) (h : sum a b = ok r) :
    ∃ nr, Result n r nr ∧ ∀ (V : Type) [AddCommGroup V] [Module ℚ V] (β : Nat → V) (ρ : Nat → ℚ),
      mvVal (intPow ρ) β nr = mvVal (intPow ρ) β na + mvVal (intPow ρ) β nb := by
  obtain ⟨nr, h1, h2, h3, _, h5⟩ := C19_sum ha.rep hb.rep ha.canon hb.canon h
  refine ⟨nr, ⟨h1, h2, ?_⟩, fun V _ _ β ρ => h5 ℚ V ρ β⟩
  intro t ht
  obtain ⟨u, hu, e⟩ := h3 t ht
  rw [e]
  rcases List.mem_append.1 hu with hu | hu
  · exact ha.elems u hu
  · exact hb.elems u hu

theorem geo_result {m : Metric} (hm : m.dim ≤ 8) (ha : Operand m.dim a na) (hb : Operand m.dim b nb)
    (h : product (geoProduct m) a b = ok r) :
    ∃ nr, Result m.dim r nr ∧ ∀ (ρ : Nat → ℚ), (∀ i, ρ i ≠ 0) →
      mvVal (intPow ρ) (cliffBlade ℚ m.dim m.sq) nr =
        mvVal (intPow ρ) (cliffBlade ℚ m.dim m.sq) na * mvVal (intPow ρ) (cliffBlade ℚ m.dim m.sq) nb := by
  obtain ⟨nr, h1, h2, h3, h4⟩ := C20_geometric m hm ha.rep hb.rep ha.canon hb.canon ha.elems hb.elems h
  exact ⟨nr, ⟨h1, h2, h3⟩, fun ρ hρ => (h4 ℚ ρ (noPole_of_ne hρ _) (noPole_of_ne hρ _)).2⟩

theorem ext_result (hn : n ≤ 8) (ha : Operand n a na) (hb : Operand n b nb) (h : product extProduct a b = ok r) :
    ∃ nr, Result n r nr ∧ ∀ (ρ : Nat → ℚ), (∀ i, ρ i ≠ 0) →
      mvVal (intPow ρ) (extBlade ℚ n) nr = mvVal (intPow ρ) (extBlade ℚ n) na * mvVal (intPow ρ) (extBlade ℚ n) nb := by
  obtain ⟨nr, h1, h2, h3, h4⟩ := C20_exterior n hn ha.rep hb.rep ha.canon hb.canon ha.elems hb.elems h
  exact ⟨nr, ⟨h1, h2, h3⟩, fun ρ hρ => (h4 ℚ ρ (noPole_of_ne hρ _) (noPole_of_ne hρ _)).2⟩

theorem con_result {m : Metric} (hm : m.dim ≤ 8) (ha : Operand m.dim a na) (hb : Operand m.dim b nb)
    (h : product (conProduct m) a b = ok r) :
    ∃ nr, Result m.dim r nr ∧ ∀ (ρ : Nat → ℚ), (∀ i, ρ i ≠ 0) →
      mvVal (intPow ρ) (cliffBlade ℚ m.dim m.sq) nr = leftContraction ℚ m.dim m.sq
        (mvVal (intPow ρ) (cliffBlade ℚ m.dim m.sq) na) (mvVal (intPow ρ) (cliffBlade ℚ m.dim m.sq) nb) := by
  obtain ⟨nr, h1, h2, h3, h4⟩ := C20_contraction m hm ha.rep hb.rep ha.canon hb.canon ha.elems hb.elems h
  exact ⟨nr, ⟨h1, h2, h3⟩, fun ρ hρ => (h4 ℚ ρ (noPole_of_ne hρ _) (noPole_of_ne hρ _)).2⟩

theorem reverse_result {m : Metric} (hm : m.dim ≤ 8) (ha : Result m.dim a na) (h : reverse a = ok r) :
    ∃ nr, Result m.dim r nr ∧ ∀ (ρ : Nat → ℚ), mvVal (intPow ρ) (cliffBlade ℚ m.dim m.sq) nr =
      CliffordAlgebra.reverse (mvVal (intPow ρ) (cliffBlade ℚ m.dim m.sq) na) := by
  obtain ⟨nr, h1, h2, h3, h4⟩ := C15_reverse m hm ha.packed ha.canon.wf ha.elems h
  refine ⟨nr, ⟨h1, h2 ha.canon, ?_⟩, fun ρ => h4 ℚ _⟩
  intro t ht
  have : t.element ∈ nr.map (·.element) := List.mem_map.2 ⟨t, ht, rfl⟩
  rw [h3] at this
  obtain ⟨u, hu, e⟩ := List.mem_map.1 this
  exact e ▸ ha.elems u hu

theorem negate_result (ha : Result n a na) (h : negate a = ok r) :
    ∃ nr, Result n r nr ∧ ∀ (V : Type) [AddCommGroup V] [Module ℚ V] (β : Nat → V) (ρ : Nat → ℚ),
      mvVal (intPow ρ) β nr = - mvVal (intPow ρ) β na := by
  obtain ⟨nr, h1, h2, h3⟩ := C21_negate ha.packed ha.canon.wf h
  refine ⟨nr, ⟨h1, h2 ha.canon, ?_⟩, fun V _ _ β ρ => h3 ℚ V _ β⟩
  rw [ha.packed.eq, negate_layout ha.packed.fits.t] at h
  obtain ⟨nr', hn', e⟩ := map_eq_ok h
  have : nr' = nr := by
    refine C23_unique (negateN_canon ha.canon hn') (h2 ha.canon) fun ρ _ e => ?_
    unfold coeff
    rw [h3 ℚ ℚ, (negateN_val _ _ ha.canon.wf hn').1]
  subst this
  clear h h1 h2 h3 e
  have hel : ∀ {x y : NMv}, negateN x = ok y → ∀ t ∈ y, ∃ u ∈ x, t.element = u.element := by
    intro x
    induction x with
    | nil => intro y hy; unfold negateN at hy; rw [mapO_nil_ok] at hy; subst hy; simp
    | cons t ts ih =>
      intro y hy
      unfold negateN at hy
      rw [mapO_cons_ok] at hy
      obtain ⟨u, us, e1, e2, rfl⟩ := hy
      intro s hs
      rcases List.mem_cons.1 hs with rfl | hs
      · exact ⟨t, by simp, (mapQ_inds e1).1⟩
      · obtain ⟨v, hv, e⟩ := ih (show negateN ts = ok us from e2) s hs
        exact ⟨v, by simp [hv], e⟩
  intro t ht
  obtain ⟨u, hu, e⟩ := hel hn' t ht
  exact e ▸ ha.elems u hu

end results

/-! ## The laws -/

section laws

variable {n : Nat} {m : Metric} {a b c x y u v w : Mv} {na nb nc : NMv}

/-- C15: `reverse(ab) = reverse(b) reverse(a)`, as stored multivectors. -/
theorem C15_antiautomorphism (hm : m.dim ≤ 8) (ha : Result m.dim a na) (hb : Result m.dim b nb)
    (h1 : product (geoProduct m) a b = ok x) (h2 : reverse x = ok u)
    (h3 : reverse b = ok y) (h4 : reverse a = ok w) (h5 : product (geoProduct m) y w = ok v) : Same u v := by
  obtain ⟨nx, rx, vx⟩ := geo_result hm ha.operand hb.operand h1
  obtain ⟨nu, ru, vu⟩ := reverse_result hm rx h2
  obtain ⟨ny, ry, vy⟩ := reverse_result hm hb h3
  obtain ⟨nw, rw', vw⟩ := reverse_result hm ha h4
  obtain ⟨nv, rv, vv⟩ := geo_result hm ry.operand rw'.operand h5
  refine same_of (d := m.sq) ru rv fun ρ hρ => ?_
  rw [vu, vx ρ hρ, vv ρ hρ, vy, vw, CliffordAlgebra.reverse.map_mul]

/-- C40: the geometric product is associative. -/
theorem C40_geometric_assoc (hm : m.dim ≤ 8) (ha : Operand m.dim a na) (hb : Operand m.dim b nb)
    (hc : Operand m.dim c nc) (h1 : product (geoProduct m) a b = ok x) (h2 : product (geoProduct m) x c = ok u)
    (h3 : product (geoProduct m) b c = ok y) (h4 : product (geoProduct m) a y = ok v) : Same u v := by
  obtain ⟨nx, rx, vx⟩ := geo_result hm ha hb h1
  obtain ⟨nu, ru, vu⟩ := geo_result hm rx.operand hc h2
  obtain ⟨ny, ry, vy⟩ := geo_result hm hb hc h3
  obtain ⟨nv, rv, vv⟩ := geo_result hm ha ry.operand h4
  refine same_of (d := m.sq) ru rv fun ρ hρ => ?_
  rw [vu ρ hρ, vx ρ hρ, vv ρ hρ, vy ρ hρ, mul_assoc]

/-- C40: the exterior product is associative. -/
theorem C40_exterior_assoc (hn : n ≤ 8) (ha : Operand n a na) (hb : Operand n b nb)
    (hc : Operand n c nc) (h1 : product extProduct a b = ok x) (h2 : product extProduct x c = ok u)
    (h3 : product extProduct b c = ok y) (h4 : product extProduct a y = ok v) : Same u v := by
  obtain ⟨nx, rx, vx⟩ := ext_result hn ha hb h1
  obtain ⟨nu, ru, vu⟩ := ext_result hn rx.operand hc h2
  obtain ⟨ny, ry, vy⟩ := ext_result hn hb hc h3
  obtain ⟨nv, rv, vv⟩ := ext_result hn ha ry.operand h4
  refine same_of_ext ru rv fun ρ hρ => ?_
  rw [vu ρ hρ, vx ρ hρ, vv ρ hρ, vy ρ hρ, mul_assoc]

/-- C40: the geometric product distributes over sums from the left. -/
theorem C40_distrib_left (hm : m.dim ≤ 8) (ha : Operand m.dim a na) (hb : Operand m.dim b nb)
    (hc : Operand m.dim c nc) (h1 : sum b c = ok x) (h2 : product (geoProduct m) a x = ok u)
    (h3 : product (geoProduct m) a b = ok y) (h4 : product (geoProduct m) a c = ok w) (h5 : sum y w = ok v) :
    Same u v := by
  obtain ⟨nx, rx, vx⟩ := sum_result hb hc h1
  obtain ⟨nu, ru, vu⟩ := geo_result hm ha rx.operand h2
  obtain ⟨ny, ry, vy⟩ := geo_result hm ha hb h3
  obtain ⟨nw, rw', vw⟩ := geo_result hm ha hc h4
  obtain ⟨nv, rv, vv⟩ := sum_result ry.operand rw'.operand h5
  refine same_of (d := m.sq) ru rv fun ρ hρ => ?_
  rw [vu ρ hρ, vx _ _ ρ, vv _ _ ρ, vy ρ hρ, vw ρ hρ, mul_add]

/-- C40: the geometric product distributes over sums from the right. -/
theorem C40_distrib_right (hm : m.dim ≤ 8) (ha : Operand m.dim a na) (hb : Operand m.dim b nb)
    (hc : Operand m.dim c nc) (h1 : sum a b = ok x) (h2 : product (geoProduct m) x c = ok u)
    (h3 : product (geoProduct m) a c = ok y) (h4 : product (geoProduct m) b c = ok w) (h5 : sum y w = ok v) :
    Same u v := by
  obtain ⟨nx, rx, vx⟩ := sum_result ha hb h1
  obtain ⟨nu, ru, vu⟩ := geo_result hm rx.operand hc h2
  obtain ⟨ny, ry, vy⟩ := geo_result hm ha hc h3
  obtain ⟨nw, rw', vw⟩ := geo_result hm hb hc h4
  obtain ⟨nv, rv, vv⟩ := sum_result ry.operand rw'.operand h5
  refine same_of (d := m.sq) ru rv fun ρ hρ => ?_
  rw [vu ρ hρ, vx _ _ ρ, vv _ _ ρ, vy ρ hρ, vw ρ hρ, add_mul]

/-- C40: sums commute. -/
theorem C40_sum_comm (ha : Operand n a na) (hb : Operand n b nb) (h1 : sum a b = ok u) (h2 : sum b a = ok v) :
    Same u v := by
  obtain ⟨nu, ru, vu⟩ := sum_result ha hb h1
  obtain ⟨nv, rv, vv⟩ := sum_result hb ha h2
  refine same_of_ext ru rv fun ρ hρ => ?_
  rw [vu _ _ ρ, vv _ _ ρ, add_comm]

/-- C40: sums associate. -/
theorem C40_sum_assoc (ha : Operand n a na) (hb : Operand n b nb) (hc : Operand n c nc) (h1 : sum a b = ok x)
    (h2 : sum x c = ok u) (h3 : sum b c = ok y) (h4 : sum a y = ok v) : Same u v := by
  obtain ⟨nx, rx, vx⟩ := sum_result ha hb h1
  obtain ⟨nu, ru, vu⟩ := sum_result rx.operand hc h2
  obtain ⟨ny, ry, vy⟩ := sum_result hb hc h3
  obtain ⟨nv, rv, vv⟩ := sum_result ha ry.operand h4
  refine same_of_ext ru rv fun ρ hρ => ?_
  rw [vu _ _ ρ, vv _ _ ρ, vx _ _ ρ, vy _ _ ρ, add_assoc]

/-- C40: a multivector plus its negation has no terms at all. -/
theorem C40_sum_negate (ha : Result n a na) (h1 : negate a = ok x) (h2 : sum a x = ok u) : Packed u [] := by
  obtain ⟨nx, rx, vx⟩ := negate_result ha h1
  obtain ⟨nu, ru, vu⟩ := sum_result ha.operand rx.operand h2
  have : nu = [] := C23_zero_empty ru.canon fun ρ _ e => by
    unfold coeff
    rw [vu _ _ ρ, vx _ _ ρ, add_neg_cancel]
  exact this ▸ ru.packed

end laws

/-- The hypotheses are met: canonical operands for which the operations are all defined. -/
example : Result pgaMetric.dim (layout ⟨3, 3, 2⟩ exA) exA ∧ Result pgaMetric.dim (layout ⟨2, 5, 4⟩ exB) exB ∧
    (do
      let x ← product (geoProduct pgaMetric) (layout ⟨3, 3, 2⟩ exA) (layout ⟨2, 5, 4⟩ exB)
      let u ← reverse x
      let y ← reverse (layout ⟨2, 5, 4⟩ exB)
      let w ← reverse (layout ⟨3, 3, 2⟩ exA)
      let v ← product (geoProduct pgaMetric) y w
      let z ← product (geoProduct pgaMetric) x (layout ⟨3, 3, 2⟩ exA)
      let s ← sum (layout ⟨3, 3, 2⟩ exA) w
      let t ← product (geoProduct pgaMetric) s y
      let q ← product extProduct (layout ⟨3, 3, 2⟩ exA) (layout ⟨2, 5, 4⟩ exB)
      let _ ← product extProduct q (layout ⟨3, 3, 2⟩ exA)
      let n ← negate u
      let _ ← sum u n
      let _ ← sum t v
      return z : Out Mv).isOk = true :=
  ⟨⟨by decide +kernel, exA_canon, by decide +kernel⟩, ⟨by decide +kernel, exB_canon, by decide +kernel⟩,
    by decide +kernel⟩

end Gal
