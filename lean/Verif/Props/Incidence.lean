import Verif.Props.Sandwich

/-!
# Properties C38 and C54 through `compute`: joins, meets, and what motors preserve
-/

namespace Gal

open Out
open scoped Matrix

variable {K : Type} [Field K] [CharZero K]

omit [CharZero K] in
theorem planeOf_entity (a b c d : K) : pgaPlaneOf (⟨[1, 2, 4, 8], [a, b, c, d]⟩ : Entity K) = ok [a, b, c, d] := by
  unfold pgaPlaneOf Entity.selectMany
  rw [if_neg (by simp)]
  simp only [mapO]
  rw [select_of (k := 0) (by decide) (by decide) rfl rfl, select_of (k := 1) (by decide) (by decide) rfl rfl,
    select_of (k := 2) (by decide) (by decide) rfl rfl, select_of (k := 3) (by decide) (by decide) rfl rfl]
  rfl

omit [CharZero K] in
/-- The conversion to a point, given the point times the weight. -/
theorem pointOf_entity {a b c w x y z : K} (hw : w ≠ 0) (h1 : c = -(x * w)) (h2 : b = y * w) (h3 : a = -(z * w)) :
    vgaPointOf (⟨[7, 11, 13, 14], [a, b, c, w]⟩ : Entity K) = ok [x, y, z] := by
  unfold vgaPointOf
  rw [select_of (k := 2) (by decide) (by decide) rfl rfl, select_of (k := 1) (by decide) (by decide) rfl rfl,
    select_of (k := 0) (by decide) (by decide) rfl rfl, select_of (k := 3) (by decide) (by decide) rfl rfl]
  simp only [ok_bind, pure_eq, h1, h2, h3]
  congr 2
  · field_simp
  · congr 1
    · field_simp
    · congr 1
      field_simp

theorem ok_list3 {α : Type} {a b c a' b' c' : α} (h1 : a = a') (h2 : b = b') (h3 : c = c') : (ok [a, b, c] : Out (List α)) = ok [a', b', c'] := by
  rw [h1, h2, h3]

/-! ## C38 -/

/-- **C38 (two points)**: `compute([](auto p, auto q) { return p & q; }, p, q)` returns the line through the two points: direction `q - p` and moment
`p × q`. -/
theorem C38_compute_line (E : Env K) (p q : Fin 3 → K) :
    (joinLam.compute pgaMetric false E [pointArg [p 0, p 1, p 2], pointArg [q 0, q 1, q 2]] >>= single) = ok
      ⟨[3, 5, 6, 9, 10, 12], [(p ⨯₃ q) 0, (p ⨯₃ q) 1, (q - p) 2, (p ⨯₃ q) 2, -(q - p) 1, (q - p) 0]⟩ := by
  rw [lam_polys pgaMetric E (by rfl) join_polys]
  simp only [pointArg, Pi.sub_apply, cross_apply, Matrix.cons_val_zero, Matrix.cons_val_one, Matrix.cons_val]
  poly_value joinPolys
  congr 2
  simp only [List.cons.injEq, and_true]
  refine ⟨?_, ?_, ?_, ?_, ?_, ?_⟩ <;> ring

/-- **C38 (three points)**: `compute([](auto p, auto q, auto r) { return p & q & r; }, p, q, r)` returns a plane `n · t + d = 0`, and a point `t` is
on it exactly if the four points are coplanar. -/
theorem C38_compute_plane (E : Env K) (p q r : Fin 3 → K) :
    ∃ (n : Fin 3 → K) (d : K),
      (joinLam3.compute pgaMetric false E [pointArg [p 0, p 1, p 2], pointArg [q 0, q 1, q 2], pointArg [r 0, r 1, r 2]] >>= single >>= pgaPlaneOf) =
        ok [d, n 0, n 1, n 2] ∧
      ∀ t, n ⬝ᵥ t + d = 0 ↔ Matrix.det !![q 0 - p 0, q 1 - p 1, q 2 - p 2; r 0 - p 0, r 1 - p 1, r 2 - p 2; t 0 - p 0, t 1 - p 1, t 2 - p 2] = 0 := by
  refine ⟨-((q - p) ⨯₃ (r - p)), ((q - p) ⨯₃ (r - p)) ⬝ᵥ p, ?_, fun t => ?_⟩
  · rw [lam_polys pgaMetric E (by rfl) join_polys3, ok_bind]
    simp only [pointArg, Pi.neg_apply, dot3, cross_apply, Pi.sub_apply, Matrix.cons_val_zero, Matrix.cons_val_one, Matrix.cons_val]
    poly_value joinPolys3
    rw [planeOf_entity]
    congr 1
    simp only [List.cons.injEq, and_true]
    refine ⟨?_, ?_, ?_, ?_⟩ <;> ring
  · rw [Matrix.det_fin_three, ← neg_eq_zero]
    simp only [dot3, cross_apply, Pi.neg_apply, Pi.sub_apply, Matrix.of_apply, Matrix.cons_val_zero, Matrix.cons_val_one, Matrix.cons_val]
    exact Eq.congr (by ring) rfl

/-- **C38 (three planes)**: if the normals of three planes are independent, `compute([](auto a, auto b, auto c) { return a ^ b ^ c; }, a, b, c)`
returns the point on all three. -/
theorem C38_compute_meet (E : Env K) (n n' n'' x : Fin 3 → K) (d d' d'' : K)
    (h0 : Matrix.det !![n 0, n 1, n 2; n' 0, n' 1, n' 2; n'' 0, n'' 1, n'' 2] ≠ 0)
    (h1 : n ⬝ᵥ x + d = 0) (h2 : n' ⬝ᵥ x + d' = 0) (h3 : n'' ⬝ᵥ x + d'' = 0) :
    (meetLam3.compute pgaMetric false E [planeArg [d, n 0, n 1, n 2], planeArg [d', n' 0, n' 1, n' 2], planeArg [d'', n'' 0, n'' 1, n'' 2]]
      >>= single >>= vgaPointOf) = ok (List.ofFn x) := by
  rw [lam_polys pgaMetric E (by rfl) meet_polys3, ok_bind, ofFn3]
  rw [Matrix.det_fin_three] at h0
  simp only [dot3, Matrix.of_apply, Matrix.cons_val_zero, Matrix.cons_val_one, Matrix.cons_val] at h0 h1 h2 h3
  obtain rfl : d = -(n 0 * x 0 + n 1 * x 1 + n 2 * x 2) := by linear_combination h1
  obtain rfl : d' = -(n' 0 * x 0 + n' 1 * x 1 + n' 2 * x 2) := by linear_combination h2
  obtain rfl : d'' = -(n'' 0 * x 0 + n'' 1 * x 1 + n'' 2 * x 2) := by linear_combination h3
  simp only [planeArg]
  poly_value meetPolys3
  refine pointOf_entity (fun h => h0 (by linear_combination h)) ?_ ?_ ?_ <;> ring

/-- **C38 (a line and a plane)**: if the line through `q` with direction `u` is not parallel to the plane,
`compute([](auto l, auto a) { return l ^ a; }, l, a)` returns the point of the line on the plane.  The line is stored with the moment
`(m0, -m1, m2)`, see `C38_line_constructor_false`. -/
theorem C38_compute_line_plane (E : Env K) (n q u : Fin 3 → K) (d s : K) (h0 : n ⬝ᵥ u ≠ 0) (hs : n ⬝ᵥ (q + s • u) + d = 0) :
    (meetLam.compute pgaMetric false E [lineArg [u 0, u 1, u 2, (q ⨯₃ u) 0, -(q ⨯₃ u) 1, (q ⨯₃ u) 2], planeArg [d, n 0, n 1, n 2]]
      >>= single >>= vgaPointOf) = ok (List.ofFn (q + s • u)) := by
  rw [lam_polys pgaMetric E (by rfl) linePlane_polys, ok_bind, ofFn3]
  simp only [dot3, Pi.add_apply, Pi.smul_apply, smul_eq_mul] at h0 hs
  obtain rfl : d = -(n 0 * (q 0 + s * u 0) + n 1 * (q 1 + s * u 1) + n 2 * (q 2 + s * u 2)) := by linear_combination hs
  simp only [planeArg, lineArg, cross_apply, Pi.add_apply, Pi.smul_apply, smul_eq_mul, Matrix.cons_val_zero, Matrix.cons_val_one, Matrix.cons_val]
  poly_value linePlanePolys
  refine pointOf_entity (fun h => h0 (by linear_combination -h)) ?_ ?_ ?_ <;> ring

/-! ## C54 -/

omit [CharZero K] in
theorem div_compose {A D B N N' : K} (h : N' ≠ 0) (hD : D = N * N') (hA : A = B * N') : A / D = B / N := by
  rw [hD, hA, mul_div_mul_right _ _ h]

/-- **C54 (composition)**: moving a point by the product of two motors is moving it by the second and then by the first. -/
theorem C54_product (E : Env K) (a b c d e f g h a' b' c' d' e' f' g' h' : K) (p : Fin 3 → K)
    (_h0 : a * a + d * d + f * f + g * g ≠ 0) (h1 : a' * a' + d' * d' + f' * f' + g' * g' ≠ 0) :
    ∃ (r : Entity K) (q t : Fin 3 → K),
      (productLam.compute pgaMetric false E [motorArg [a, b, c, d, e, f, g, h], motorArg [a', b', c', d', e', f', g', h']] >>= single) = ok r ∧
      (sandwichLam.compute pgaMetric false E [pointArg [p 0, p 1, p 2], motorArg [a', b', c', d', e', f', g', h']] >>= single >>= vgaPointOf) =
        ok (List.ofFn q) ∧
      (sandwichLam.compute pgaMetric false E [pointArg [q 0, q 1, q 2], motorArg [a, b, c, d, e, f, g, h]] >>= single >>= vgaPointOf) =
        ok (List.ofFn t) ∧
      (sandwichLam.compute pgaMetric false E [pointArg [p 0, p 1, p 2], r.toArg] >>= single >>= vgaPointOf) = ok (List.ofFn t) := by
  have hr := lam_polys pgaMetric E (args := [motorArg [a, b, c, d, e, f, g, h], motorArg [a', b', c', d', e', f', g', h']]) (by rfl) motor_polys
  simp only [motorArg] at hr
  refine ⟨_, ![_, _, _], ![_, _, _], hr, move_run E (p 0) (p 1) (p 2) a' b' c' d' e' f' g' h', move_run E _ _ _ a b c d e f g h, ?_⟩
  poly_value motorPolys
  refine (move_run E (p 0) (p 1) (p 2) _ _ _ _ _ _ _ _).trans ?_
  simp only [ofFn3, Matrix.cons_val_zero, Matrix.cons_val_one, Matrix.cons_val]
  have h2 : a' ^ 2 + d' ^ 2 + f' ^ 2 + g' ^ 2 ≠ 0 := fun h => h1 (by linear_combination h)
  refine ok_list3 (div_compose h1 ?_ ?_) (div_compose h1 ?_ ?_) (div_compose h1 ?_ ?_) <;> field_simp <;> ring

/-- `q % m` for a plane. -/
theorem movePlane_run (E : Env K) (k x y z a b c d e f g h : K) :
    (sandwichLam.compute pgaMetric false E [planeArg [k, x, y, z], motorArg [a, b, c, d, e, f, g, h]] >>= single >>= pgaPlaneOf) = ok
      [(a * a + d * d + f * f + g * g) * k + 2 * (a * b - c * d - e * f + g * h) * x + 2 * (a * c + b * d - e * g - f * h) * y +
          2 * (a * e + b * f + c * g + d * h) * z,
        (a * a - d * d - f * f + g * g) * x + 2 * (a * d - f * g) * y + 2 * (a * f + d * g) * z,
        -2 * (a * d + f * g) * x + (a * a - d * d + f * f - g * g) * y + 2 * (a * g - d * f) * z,
        -2 * (a * f - d * g) * x - 2 * (a * g + d * f) * y + (a * a + d * d - f * f - g * g) * z] := by
  rw [lam_polys pgaMetric E (by rfl) movePlane_polys, ok_bind]
  simp only [motorArg, planeArg]
  poly_value movePlanePolys
  rw [planeOf_entity]
  congr 1
  simp only [List.cons.injEq, and_true]
  refine ⟨?_, ?_, ?_, ?_⟩ <;> ring

/-- **C54 (incidence)**: a motor moves points and planes alike: the moved point is on the moved plane exactly if the point is on the plane. -/
theorem C54_incidence (E : Env K) (a b c d e f g h : K) (p n : Fin 3 → K) (k : K) (h0 : a * a + d * d + f * f + g * g ≠ 0) :
    ∃ (p' n' : Fin 3 → K) (k' : K),
      (sandwichLam.compute pgaMetric false E [pointArg [p 0, p 1, p 2], motorArg [a, b, c, d, e, f, g, h]] >>= single >>= vgaPointOf) =
        ok (List.ofFn p') ∧
      (sandwichLam.compute pgaMetric false E [planeArg [k, n 0, n 1, n 2], motorArg [a, b, c, d, e, f, g, h]] >>= single >>= pgaPlaneOf) =
        ok [k', n' 0, n' 1, n' 2] ∧ (n' ⬝ᵥ p' + k' = 0 ↔ n ⬝ᵥ p + k = 0) := by
  refine ⟨![_, _, _], ![_, _, _], _, move_run E (p 0) (p 1) (p 2) a b c d e f g h, movePlane_run E k (n 0) (n 1) (n 2) a b c d e f g h, ?_⟩
  simp only [dot3, Matrix.cons_val_zero, Matrix.cons_val_one, Matrix.cons_val]
  have h2 : a ^ 2 + d ^ 2 + f ^ 2 + g ^ 2 ≠ 0 := fun h => h0 (by linear_combination h)
  rw [← mul_eq_zero_iff_left (b := n 0 * p 0 + n 1 * p 1 + n 2 * p 2 + k) h0]
  refine Eq.congr ?_ rfl
  field_simp
  ring

/-- Three planes through `(1, 2, 3)`. -/
example (E : Env ℚ) :
    (meetLam3.compute pgaMetric false E [planeArg [-1, 1, 0, 0], planeArg [-3, 1, 1, 0], planeArg [-6, 1, 1, 1]] >>= single >>= vgaPointOf) =
      ok (List.ofFn ![1, 2, 3]) :=
  C38_compute_meet E ![1, 0, 0] ![1, 1, 0] ![1, 1, 1] ![1, 2, 3] (-1) (-3) (-6) (by rw [Matrix.det_fin_three]; simp) (by rw [dot3]; simp)
    (by rw [dot3]; simp; norm_num) (by rw [dot3]; simp; norm_num)

/-- The line through `(1, 0, 0)` with direction `(1, 1, 1)` meets the plane `x + y = 5` at `(3, 2, 2)`. -/
example (E : Env ℚ) := C38_compute_line_plane E ![1, 1, 0] ![1, 0, 0] ![1, 1, 1] (-5) 2 (by rw [dot3]; simp)
  (by rw [dot3]; simp; norm_num)

/-- Two motors with non-zero rotational parts. -/
example (E : Env ℚ) (p : Fin 3 → ℚ) := C54_product E 1 2 3 1 5 0 0 7 0 1 2 3 4 5 6 7 p (by norm_num) (by norm_num)

example (E : Env ℚ) (p n : Fin 3 → ℚ) (k : ℚ) := C54_incidence E 1 2 3 1 5 0 0 7 p n k (by norm_num)

end Gal
