import Verif.Props.MetricPolys
import Verif.Props.Incidence

/-!
# Property C60: metric geometry in the projective algebra and in the vector space algebra

Distances, feet of perpendiculars, perpendicular and parallel objects, products of reflections, volumes, and the cross product, all through
`compute`.
-/

namespace Gal

open Out
open scoped Matrix

variable {K : Type} [Field K] [CharZero K]

/-! ## Points and planes -/

/-- **C60 (foot on a plane)**: `compute([](auto p, auto a) { return (p | a) * a; }, p, a)` returns the foot of the perpendicular from `p` to the plane: it
is on the plane and its difference to `p` is normal to the plane. -/
theorem C60_foot_plane (E : Env K) (p n : Fin 3 → K) (d : K) (h0 : n ⬝ᵥ n ≠ 0) :
    ∃ (f : Fin 3 → K) (t : K),
      (projectDual.compute pgaMetric false E [pointArg [p 0, p 1, p 2], planeArg [d, n 0, n 1, n 2]] >>= single >>= vgaPointOf) = ok (List.ofFn f) ∧
      n ⬝ᵥ f + d = 0 ∧ p - f = t • n := by
  obtain ⟨t, ht⟩ : ∃ t, t * (n ⬝ᵥ n) = n ⬝ᵥ p + d := ⟨_, div_mul_cancel₀ _ h0⟩
  refine ⟨p - t • n, t, ?_, ?_, by abel⟩
  · rw [lam_polys pgaMetric E (by rfl) footPlane_polys, ok_bind, ofFn3]
    simp only [dot3] at h0 ht
    simp only [pointArg, planeArg, Pi.sub_apply, Pi.smul_apply, smul_eq_mul]
    poly_value footPlanePolys
    refine pointOf_entity (w := n 0 ^ 2 + (n 1 ^ 2 + n 2 ^ 2)) (fun h => h0 (by linear_combination h)) ?_ ?_ ?_
    · linear_combination -n 0 * ht
    · linear_combination n 1 * ht
    · linear_combination -n 2 * ht
  · rw [dotProduct_sub, dotProduct_smul, smul_eq_mul, ht]
    ring

/-- The plane `x + 2 y + 2 z = 9`. -/
example : (![1, 2, 2] : Fin 3 → ℚ) ⬝ᵥ ![1, 2, 2] ≠ 0 := by
  simp only [dot3, Matrix.cons_val_zero, Matrix.cons_val_one, Matrix.cons_val]
  norm_num

/-- **C60 (distance to a plane)**: `a & p` is the scalar `n · p + d`. -/
theorem C60_distance (E : Env K) (p n : Fin 3 → K) (d : K) :
    (joinLam.compute pgaMetric false E [planeArg [d, n 0, n 1, n 2], pointArg [p 0, p 1, p 2]] >>= single) = ok ⟨[0], [n ⬝ᵥ p + d]⟩ := by
  rw [lam_polys pgaMetric E (by rfl) distance_polys]
  simp only [dot3, pointArg, planeArg]
  poly_value distancePolys
  congr 3
  ring

/-- And for a plane with unit normal its absolute value is the distance: no point of the plane is closer, and one has this distance. -/
theorem C60_distance_least (E : Env ℝ) (p n : Fin 3 → ℝ) (d : ℝ) (h1 : n ⬝ᵥ n = 1) :
    ∃ s, (joinLam.compute pgaMetric false E [planeArg [d, n 0, n 1, n 2], pointArg [p 0, p 1, p 2]] >>= single) = ok ⟨[0], [s]⟩ ∧
      (∀ x, n ⬝ᵥ x + d = 0 → s ^ 2 ≤ (p - x) ⬝ᵥ (p - x)) ∧ ∃ x, n ⬝ᵥ x + d = 0 ∧ s ^ 2 = (p - x) ⬝ᵥ (p - x) := by
  refine ⟨_, C60_distance E p n d, fun x hx => ?_, p - (n ⬝ᵥ p + d) • n, ?_, ?_⟩
  · simp only [dot3, Pi.sub_apply] at *
    have hs : n 0 * p 0 + n 1 * p 1 + n 2 * p 2 + d = n 0 * (p 0 - x 0) + n 1 * (p 1 - x 1) + n 2 * (p 2 - x 2) := by linear_combination hx
    rw [hs]
    generalize p 0 - x 0 = u, p 1 - x 1 = v, p 2 - x 2 = w at *
    have key : (u * u + v * v + w * w) * (n 0 * n 0 + n 1 * n 1 + n 2 * n 2) - (n 0 * u + n 1 * v + n 2 * w) ^ 2 =
        (n 0 * v - n 1 * u) ^ 2 + (n 0 * w - n 2 * u) ^ 2 + (n 1 * w - n 2 * v) ^ 2 := by ring
    rw [h1, mul_one] at key
    nlinarith [sq_nonneg (n 0 * v - n 1 * u), sq_nonneg (n 0 * w - n 2 * u), sq_nonneg (n 1 * w - n 2 * v)]
  · rw [dotProduct_sub, dotProduct_smul, h1, smul_eq_mul]
    ring
  · rw [sub_sub_cancel, dotProduct_smul, smul_dotProduct, h1]
    simp only [smul_eq_mul]
    ring

/-- The plane `0.6 x + 0.8 z = d`. -/
example : (![3 / 5, 0, 4 / 5] : Fin 3 → ℝ) ⬝ᵥ ![3 / 5, 0, 4 / 5] = 1 := by
  simp only [dot3, Matrix.cons_val_zero, Matrix.cons_val_one, Matrix.cons_val]
  norm_num

/-- **C60 (angle of planes)**: `a | b` is the inner product of the normals. -/
theorem C60_planes (E : Env K) (n n' : Fin 3 → K) (d d' : K) :
    (innerLam.compute pgaMetric false E [planeArg [d, n 0, n 1, n 2], planeArg [d', n' 0, n' 1, n' 2]] >>= single) = ok ⟨[0], [n ⬝ᵥ n']⟩ := by
  rw [lam_polys pgaMetric E (by rfl) planeDot_polys]
  simp only [dot3, planeArg]
  poly_value planeDotPolys
  congr 3
  ring

/-- **C60 (perpendicular line)**: `p | a` is the line through `p` perpendicular to the plane: the line that joins `p` and `p + n`. -/
theorem C60_perpendicular_line (E : Env K) (p n : Fin 3 → K) (d : K) :
    (innerLam.compute pgaMetric false E [pointArg [p 0, p 1, p 2], planeArg [d, n 0, n 1, n 2]] >>= single) =
      (joinLam.compute pgaMetric false E [pointArg [p 0, p 1, p 2], pointArg [(p + n) 0, (p + n) 1, (p + n) 2]] >>= single) := by
  rw [C38_compute_line, lam_polys pgaMetric E (by rfl) perpLine_polys]
  simp only [pointArg, planeArg, Pi.add_apply, Pi.sub_apply, cross_apply, Matrix.cons_val_zero, Matrix.cons_val_one, Matrix.cons_val]
  poly_value perpLinePolys
  congr 2
  simp only [List.cons.injEq, and_true]
  refine ⟨?_, ?_, ?_, ?_, ?_, ?_⟩ <;> ring

/-- **C60 (parallel plane)**: `(a | p) * p` is the plane through `p` parallel to `a`. -/
theorem C60_parallel (E : Env K) (p n : Fin 3 → K) (d : K) :
    ∃ d', (projectDual.compute pgaMetric false E [planeArg [d, n 0, n 1, n 2], pointArg [p 0, p 1, p 2]] >>= single >>= pgaPlaneOf) =
        ok [d', (-n) 0, (-n) 1, (-n) 2] ∧ -n ⬝ᵥ p + d' = 0 := by
  refine ⟨n ⬝ᵥ p, ?_, by rw [neg_dotProduct]; ring⟩
  rw [lam_polys pgaMetric E (by rfl) parallel_polys, ok_bind]
  simp only [dot3, pointArg, planeArg, Pi.neg_apply]
  poly_value parallelPolys
  rw [planeOf_entity]
  congr 1
  ring_nf

/-- **C60 (planes through a line)**: if the planes are not parallel, `(a ^ b) & p` vanishes exactly for the points on both planes; otherwise it is a plane
through `p` that contains all points on both planes. -/
theorem C60_meet_join (E : Env K) (n n' p : Fin 3 → K) (d d' : K) (h0 : n ⨯₃ n' ≠ 0) :
    ∃ (u : Fin 3 → K) (c : K),
      (meetJoin.compute pgaMetric false E [planeArg [d, n 0, n 1, n 2], planeArg [d', n' 0, n' 1, n' 2], pointArg [p 0, p 1, p 2]] >>= single >>= pgaPlaneOf) =
        ok [c, u 0, u 1, u 2] ∧
      ((u = 0 ∧ c = 0) ↔ (n ⬝ᵥ p + d = 0 ∧ n' ⬝ᵥ p + d' = 0)) ∧
      u ⬝ᵥ p + c = 0 ∧ ∀ x, n ⬝ᵥ x + d = 0 → n' ⬝ᵥ x + d' = 0 → u ⬝ᵥ x + c = 0 := by
  refine ⟨(n' ⬝ᵥ p + d') • n - (n ⬝ᵥ p + d) • n', (n' ⬝ᵥ p + d') * d - (n ⬝ᵥ p + d) * d', ?_, ⟨fun h => ?_, fun h => ?_⟩, ?_, fun x h1 h2 => ?_⟩
  · rw [lam_polys pgaMetric E (by rfl) meetPoint_polys, ok_bind]
    simp only [dot3, pointArg, planeArg, Pi.sub_apply, Pi.smul_apply, smul_eq_mul]
    poly_value meetPointPolys
    rw [planeOf_entity]
    congr 1
    simp only [List.cons.injEq, and_true]
    refine ⟨?_, ?_, ?_, ?_⟩ <;> ring
  · have hu := h.1
    have e1 : ∀ i, (n' ⬝ᵥ p + d') * n i = (n ⬝ᵥ p + d) * n' i := fun i => by
      have := congrFun hu i
      simp only [Pi.sub_apply, Pi.smul_apply, smul_eq_mul, Pi.zero_apply, sub_eq_zero] at this
      exact this
    have hc : ∀ i, (n ⬝ᵥ p + d) * (n ⨯₃ n') i = 0 ∧ (n' ⬝ᵥ p + d') * (n ⨯₃ n') i = 0 := by
      generalize n ⬝ᵥ p + d = a at *
      generalize n' ⬝ᵥ p + d' = b at *
      have e0 := e1 0
      have e2 := e1 2
      have e1 := e1 1
      intro i
      fin_cases i <;> simp only [cross_apply, Fin.zero_eta, Fin.mk_one, Fin.reduceFinMk, Matrix.cons_val_zero, Matrix.cons_val_one, Matrix.cons_val] <;>
        constructor
      · linear_combination n 2 * e1 - n 1 * e2
      · linear_combination n' 2 * e1 - n' 1 * e2
      · linear_combination n 0 * e2 - n 2 * e0
      · linear_combination n' 0 * e2 - n' 2 * e0
      · linear_combination n 1 * e0 - n 0 * e1
      · linear_combination n' 1 * e0 - n' 0 * e1
    obtain ⟨i, hi⟩ := Function.ne_iff.1 h0
    exact ⟨(mul_eq_zero.1 (hc i).1).resolve_right hi, (mul_eq_zero.1 (hc i).2).resolve_right hi⟩
  · rw [h.1, h.2]; simp
  · rw [sub_dotProduct, smul_dotProduct, smul_dotProduct]
    simp only [smul_eq_mul]
    ring
  · rw [sub_dotProduct, smul_dotProduct, smul_dotProduct]
    simp only [smul_eq_mul]
    linear_combination (n' ⬝ᵥ p + d') * h1 - (n ⬝ᵥ p + d) * h2

/-- Two planes that are not parallel. -/
example : (![1, 2, 2] : Fin 3 → ℚ) ⨯₃ ![0, 1, 3] ≠ 0 := fun h => by
  have := congrFun h 0
  simp only [cross_apply, Matrix.cons_val_zero, Matrix.cons_val_one, Matrix.cons_val, Pi.zero_apply] at this
  norm_num at this

/-! ## Points and lines -/

/-- **C60 (perpendicular plane)**: `p | l` is the plane through `p` perpendicular to the line with direction `u`. -/
theorem C60_perpendicular_plane (E : Env K) (p u : Fin 3 → K) (m0 m1 m2 : K) :
    ∃ d, (innerLam.compute pgaMetric false E [pointArg [p 0, p 1, p 2], lineArg [u 0, u 1, u 2, m0, m1, m2]] >>= single >>= pgaPlaneOf) =
        ok [d, u 0, u 1, u 2] ∧ u ⬝ᵥ p + d = 0 := by
  refine ⟨-(u ⬝ᵥ p), ?_, by ring⟩
  rw [lam_polys pgaMetric E (by rfl) perpPlane_polys, ok_bind]
  simp only [dot3, pointArg, lineArg]
  poly_value perpPlanePolys
  rw [planeOf_entity]
  congr 1
  ring_nf

omit [CharZero K] in
theorem pointOf_entity5 {o a b c w x y z : K} (hw : w ≠ 0) (h1 : c = -(x * w)) (h2 : b = y * w) (h3 : a = -(z * w)) :
    vgaPointOf (⟨[1, 7, 11, 13, 14], [o, a, b, c, w]⟩ : Entity K) = ok [x, y, z] := by
  unfold vgaPointOf
  rw [select_of (k := 3) (by decide) (by decide) rfl rfl, select_of (k := 2) (by decide) (by decide) rfl rfl,
    select_of (k := 1) (by decide) (by decide) rfl rfl, select_of (k := 4) (by decide) (by decide) rfl rfl]
  simp only [ok_bind, pure_eq, h1, h2, h3]
  congr 2
  · field_simp
  · congr 1
    · field_simp
    · congr 1
      field_simp

/-- **C60 (foot on a line)**: `(p | l) * l` is the foot of the perpendicular from `p` to the line through `q` with direction `u`: it is on the line and
its difference to `p` is perpendicular to the line.  The line is stored with the moment `(m0, -m1, m2)`, see `C38_line_constructor_false`. -/
theorem C60_foot_line (E : Env K) (p q u : Fin 3 → K) (h0 : u ⬝ᵥ u ≠ 0) :
    ∃ (f : Fin 3 → K) (t : K),
      (projectDual.compute pgaMetric false E [pointArg [p 0, p 1, p 2], lineArg [u 0, u 1, u 2, (q ⨯₃ u) 0, -(q ⨯₃ u) 1, (q ⨯₃ u) 2]]
        >>= single >>= vgaPointOf) = ok (List.ofFn f) ∧ f = q + t • u ∧ u ⬝ᵥ (p - f) = 0 := by
  obtain ⟨t, ht⟩ : ∃ t, t * (u ⬝ᵥ u) = u ⬝ᵥ (p - q) := ⟨_, div_mul_cancel₀ _ h0⟩
  refine ⟨_, t, ?_, rfl, ?_⟩
  · rw [lam_polys pgaMetric E (by rfl) footLine_polys, ok_bind, ofFn3]
    simp only [dot3, Pi.sub_apply] at h0 ht
    simp only [pointArg, lineArg, Pi.add_apply, Pi.smul_apply, smul_eq_mul, cross_apply, Matrix.cons_val_zero, Matrix.cons_val_one, Matrix.cons_val]
    poly_value footLinePolys
    refine pointOf_entity5 (w := -u 0 ^ 2 + (-u 1 ^ 2 + -u 2 ^ 2)) (fun h => h0 (by linear_combination -h)) ?_ ?_ ?_
    · linear_combination -u 0 * ht
    · linear_combination u 1 * ht
    · linear_combination -u 2 * ht
  · rw [dotProduct_sub] at ht ⊢
    rw [dotProduct_add, dotProduct_smul, smul_eq_mul, ht]
    ring

/-- A line with direction `(1, -2, 3)`. -/
example : (![1, -2, 3] : Fin 3 → ℚ) ⬝ᵥ ![1, -2, 3] ≠ 0 := by
  simp only [dot3, Matrix.cons_val_zero, Matrix.cons_val_one, Matrix.cons_val]
  norm_num

/-! ## Products of reflections -/

/-- **C60 (two point reflections)**: moving by the product `p * q` of two points is the translation by `2 (p - q)`. -/
theorem C60_points (E : Env K) (p q x : Fin 3 → K) :
    ∃ r : Entity K, (productLam.compute pgaMetric false E [pointArg [p 0, p 1, p 2], pointArg [q 0, q 1, q 2]] >>= single) = ok r ∧
      (sandwichLam.compute pgaMetric false E [pointArg [x 0, x 1, x 2], r.toArg] >>= single >>= vgaPointOf) = ok (List.ofFn (x + 2 • (p - q))) := by
  have hr := lam_polys pgaMetric E (args := [pointArg [p 0, p 1, p 2], pointArg [q 0, q 1, q 2]]) (by rfl) points_polys
  simp only [pointArg] at hr
  refine ⟨_, hr, ?_⟩
  poly_value pointsPolys
  rw [lam_polys pgaMetric E (by rfl) shift_polys, ok_bind, ofFn3]
  simp only [pointArg, Entity.toArg, Pi.sub_apply, Pi.add_apply, Pi.smul_apply]
  poly_value shiftPolys
  refine pointOf_entity (by norm_num) ?_ ?_ ?_ <;> ring

/-- **C60 (two reflections)**: moving by the product `a * b` of two planes is reflecting in `b` and then in `a`. -/
theorem C60_reflections (E : Env K) (n n' x : Fin 3 → K) (d d' : K) (h0 : n ⬝ᵥ n ≠ 0) (h0' : n' ⬝ᵥ n' ≠ 0) :
    ∃ r : Entity K, (productLam.compute pgaMetric false E [planeArg [d, n 0, n 1, n 2], planeArg [d', n' 0, n' 1, n' 2]] >>= single) = ok r ∧
      (sandwichLam.compute pgaMetric false E [pointArg [x 0, x 1, x 2], r.toArg] >>= single >>= vgaPointOf) =
        ok (List.ofFn (mirror n d (mirror n' d' x))) := by
  obtain ⟨t', ht'⟩ : ∃ t', t' = (n' ⬝ᵥ x + d') / (n' ⬝ᵥ n') := ⟨_, rfl⟩
  obtain ⟨t, ht⟩ : ∃ t, t = (n ⬝ᵥ (mirror n' d' x) + d) / (n ⬝ᵥ n) := ⟨_, rfl⟩
  have hm' : mirror n' d' x = x - (2 * t') • n' := by rw [mirror, ht', mul_div_assoc]
  have hm : mirror n d (mirror n' d' x) = x - (2 * t') • n' - (2 * t) • n := by rw [mirror, mul_div_assoc, ← ht, hm']
  rw [eq_div_iff h0'] at ht'
  rw [eq_div_iff h0, hm'] at ht
  have hr := lam_polys pgaMetric E (args := [planeArg [d, n 0, n 1, n 2], planeArg [d', n' 0, n' 1, n' 2]]) (by rfl) planes_polys
  simp only [planeArg] at hr
  refine ⟨_, hr, ?_⟩
  poly_value planesPolys
  rw [lam_polys pgaMetric E (by rfl) turn_polys, ok_bind, hm, ofFn3]
  simp only [dot3, Pi.sub_apply, Pi.smul_apply, smul_eq_mul] at h0 h0' ht ht'
  simp only [pointArg, Entity.toArg, Pi.sub_apply, Pi.smul_apply, smul_eq_mul]
  poly_value turnPolys
  refine pointOf_entity ?_ ?_ ?_ ?_
  · exact fun h => mul_ne_zero h0 h0' (by linear_combination h)
  · linear_combination (-2 * n' 0 * (n 0 * n 0 + n 1 * n 1 + n 2 * n 2) + 4 * n 0 * (n 0 * n' 0 + n 1 * n' 1 + n 2 * n' 2)) * ht' -
      2 * n 0 * (n' 0 * n' 0 + n' 1 * n' 1 + n' 2 * n' 2) * ht
  · linear_combination -(-2 * n' 1 * (n 0 * n 0 + n 1 * n 1 + n 2 * n 2) + 4 * n 1 * (n 0 * n' 0 + n 1 * n' 1 + n 2 * n' 2)) * ht' +
      2 * n 1 * (n' 0 * n' 0 + n' 1 * n' 1 + n' 2 * n' 2) * ht
  · linear_combination (-2 * n' 2 * (n 0 * n 0 + n 1 * n 1 + n 2 * n 2) + 4 * n 2 * (n 0 * n' 0 + n 1 * n' 1 + n 2 * n' 2)) * ht' -
      2 * n 2 * (n' 0 * n' 0 + n' 1 * n' 1 + n' 2 * n' 2) * ht

/-- Two planes with an angle between them. -/
example : (![1, 2, 2] : Fin 3 → ℚ) ⬝ᵥ ![1, 2, 2] ≠ 0 ∧ (![0, 1, 3] : Fin 3 → ℚ) ⬝ᵥ ![0, 1, 3] ≠ 0 := by
  simp only [dot3, Matrix.cons_val_zero, Matrix.cons_val_one, Matrix.cons_val]
  norm_num

/-! ## Joins -/

/-- **C60 (volume)**: `(p & q) & (r & s)` is six times the signed volume of the tetrahedron with these corners. -/
theorem C60_volume (E : Env K) (p q r s : Fin 3 → K) :
    (joinPairs.compute pgaMetric false E [pointArg [p 0, p 1, p 2], pointArg [q 0, q 1, q 2], pointArg [r 0, r 1, r 2], pointArg [s 0, s 1, s 2]] >>= single) =
      ok ⟨[0], [Matrix.det !![q 0 - p 0, q 1 - p 1, q 2 - p 2; r 0 - p 0, r 1 - p 1, r 2 - p 2; s 0 - p 0, s 1 - p 1, s 2 - p 2]]⟩ := by
  rw [lam_polys pgaMetric E (by rfl) tetra_polys]
  simp only [pointArg, Matrix.det_fin_three, Matrix.of_apply, Matrix.cons_val_zero, Matrix.cons_val_one, Matrix.cons_val]
  poly_value tetraPolys
  congr 3
  ring

/-! ## Vectors -/

/-- **C60 (cross product)**: `!(a ^ b)` is the cross product. -/
theorem C60_cross (E : Env K) (a b : Fin 3 → K) :
    (crossLam.compute vgaMetric false E [vectorArg [a 0, a 1, a 2], vectorArg [b 0, b 1, b 2]] >>= single) =
      ok ⟨[1, 2, 4], [(a ⨯₃ b) 0, (a ⨯₃ b) 1, (a ⨯₃ b) 2]⟩ := by
  rw [lam_polys vgaMetric E (by rfl) cross_polys]
  simp only [vectorArg, cross_apply, Matrix.cons_val_zero, Matrix.cons_val_one, Matrix.cons_val]
  poly_value crossPolys
  congr 2
  simp only [List.cons.injEq, and_true]
  refine ⟨?_, ?_, ?_⟩ <;> ring

/-- **C60 (dot product)**: `a | b` is the dot product. -/
theorem C60_dot (E : Env K) (a b : Fin 3 → K) :
    (innerLam.compute vgaMetric false E [vectorArg [a 0, a 1, a 2], vectorArg [b 0, b 1, b 2]] >>= single) = ok ⟨[0], [a ⬝ᵥ b]⟩ := by
  rw [lam_polys vgaMetric E (by rfl) dotVector_polys]
  simp only [dot3, vectorArg]
  poly_value dotVectorPolys
  congr 3
  ring

/-- **C60 (determinant)**: `a ^ b ^ c` is the determinant of the three vectors. -/
theorem C60_determinant (E : Env K) (a b c : Fin 3 → K) :
    (meetLam3.compute vgaMetric false E [vectorArg [a 0, a 1, a 2], vectorArg [b 0, b 1, b 2], vectorArg [c 0, c 1, c 2]] >>= single) =
      ok ⟨[7], [Matrix.det !![a 0, a 1, a 2; b 0, b 1, b 2; c 0, c 1, c 2]]⟩ := by
  rw [lam_polys vgaMetric E (by rfl) triple_polys]
  simp only [vectorArg, Matrix.det_fin_three, Matrix.of_apply, Matrix.cons_val_zero, Matrix.cons_val_one, Matrix.cons_val]
  poly_value triplePolys
  congr 3
  ring

/-- **C60 (reflection of vectors)**: `v % a` is the vector `v` turned half around `a`: `2 (a · v) a - (a · a) v`. -/
theorem C60_reflect_vector (E : Env K) (v a : Fin 3 → K) :
    (sandwichLam.compute vgaMetric false E [vectorArg [v 0, v 1, v 2], vectorArg [a 0, a 1, a 2]] >>= single) =
      ok ⟨[1, 2, 4], List.ofFn ((2 * (a ⬝ᵥ v)) • a - (a ⬝ᵥ a) • v)⟩ := by
  rw [lam_polys vgaMetric E (by rfl) reflectVector_polys, ofFn3]
  simp only [dot3, vectorArg, Pi.sub_apply, Pi.smul_apply, smul_eq_mul]
  poly_value reflectVectorPolys
  congr 2
  simp only [List.cons.injEq, and_true]
  refine ⟨?_, ?_, ?_⟩ <;> ring

/-- **C60 (rotation of vectors)**: `v % (a * b)`, with the product computed first, is `v` reflected at `b` and then at `a`. -/
theorem C60_turn_vector (E : Env K) (v a b : Fin 3 → K) :
    ∃ r s : Entity K, (productLam.compute vgaMetric false E [vectorArg [a 0, a 1, a 2], vectorArg [b 0, b 1, b 2]] >>= single) = ok r ∧
      (sandwichLam.compute vgaMetric false E [vectorArg [v 0, v 1, v 2], vectorArg [b 0, b 1, b 2]] >>= single) = ok s ∧
      (sandwichLam.compute vgaMetric false E [vectorArg [v 0, v 1, v 2], r.toArg] >>= single) =
        (sandwichLam.compute vgaMetric false E [s.toArg, vectorArg [a 0, a 1, a 2]] >>= single) := by
  have hr := lam_polys vgaMetric E (args := [vectorArg [a 0, a 1, a 2], vectorArg [b 0, b 1, b 2]]) (by rfl) vectors_polys
  simp only [vectorArg] at hr
  refine ⟨_, _, hr, C60_reflect_vector E v b, ?_⟩
  have h2 := C60_reflect_vector E ((2 * (b ⬝ᵥ v)) • b - (b ⬝ᵥ b) • v) a
  rw [ofFn3]
  refine Eq.trans ?_ h2.symm
  poly_value vectorsPolys
  rw [lam_polys vgaMetric E (by rfl) turnVector_polys, ofFn3]
  simp only [dot3, vectorArg, Entity.toArg, Pi.sub_apply, Pi.smul_apply, smul_eq_mul]
  poly_value turnVectorPolys
  congr 2
  simp only [List.cons.injEq, and_true]
  refine ⟨?_, ?_, ?_⟩ <;> ring

end Gal
