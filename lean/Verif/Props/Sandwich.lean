import Verif.Props.SandwichPolys
import Verif.Props.Named
import Verif.Spec.Motion

/-!
# Properties C54 and C55: rotors rotate, motors move, planes reflect
-/

namespace Gal

open Out
open scoped Matrix

variable {K : Type} [Field K] [CharZero K]

/-- Evaluates explicit polynomials. -/
macro "poly_value" ds:ident : tactic => `(tactic|
  simp only [$ds:ident, polyVal, monoVal, List.map_cons, List.map_nil, List.sum_cons, List.sum_nil, List.prod_cons, List.prod_nil, List.flatten_cons,
    List.flatten_nil, List.append_nil, List.cons_append, List.nil_append, List.getD_cons_zero, List.getD_cons_succ, pow_one, mul_one, add_zero,
    Int.cast_one, Int.cast_neg, Int.cast_ofNat, one_mul, neg_mul])

/-- `v % r`. -/
theorem rotate_run (E : Env K) (a b c w s x y z : K) :
    (sandwichLam.compute vgaMetric false E [vectorArg [a, b, c], rotorArg [w, s, x, y, z]] >>= single >>= vectorOf 3) = ok
      [a * w ^ 2 + 2 * w * s * (y * c - z * b) + s ^ 2 * (a * (x ^ 2 - y ^ 2 - z ^ 2) + 2 * x * (b * y + c * z)),
       b * w ^ 2 + 2 * w * s * (z * a - x * c) + s ^ 2 * (b * (y ^ 2 - x ^ 2 - z ^ 2) + 2 * y * (a * x + c * z)),
       c * w ^ 2 + 2 * w * s * (x * b - y * a) + s ^ 2 * (c * (z ^ 2 - x ^ 2 - y ^ 2) + 2 * z * (a * x + b * y))] := by
  rw [lam_polys vgaMetric E (by rfl) rotate_polys, ok_bind]
  unfold vectorOf Entity.selectMany
  rw [if_neg (by simp [rotatePolys])]
  simp only [mapO]
  rw [select_of (k := 0) (by decide) (by decide) rfl rfl, select_of (k := 1) (by decide) (by decide) rfl rfl,
    select_of (k := 2) (by decide) (by decide) rfl rfl]
  simp only [ok_bind, pure_eq, vectorArg, rotorArg]
  poly_value rotatePolys
  congr 2
  · ring
  · congr 1
    · ring
    · congr 1
      ring

/-- `p % m`, for every motor; the quotients are those of the conversion to a point. -/
theorem move_run (E : Env K) (x y z a b c d e f g h : K) :
    (sandwichLam.compute pgaMetric false E [pointArg [x, y, z], motorArg [a, b, c, d, e, f, g, h]] >>= single >>= vgaPointOf) = ok
      [((a * a - d * d - f * f + g * g) * x + 2 * (a * d - f * g) * y + 2 * (a * f + d * g) * z - 2 * (a * b + c * d + e * f + g * h)) /
          (a * a + d * d + f * f + g * g),
       (-2 * (a * d + f * g) * x + (a * a - d * d + f * f - g * g) * y + 2 * (a * g - d * f) * z - 2 * (a * c - b * d + e * g - f * h)) /
          (a * a + d * d + f * f + g * g),
       (-2 * (a * f - d * g) * x - 2 * (a * g + d * f) * y + (a * a + d * d - f * f - g * g) * z - 2 * (a * e - b * f - c * g + d * h)) /
          (a * a + d * d + f * f + g * g)] := by
  rw [lam_polys pgaMetric E (by rfl) move_polys, ok_bind]
  unfold vgaPointOf
  rw [select_of (k := 2) (by decide) (by decide) rfl rfl, select_of (k := 1) (by decide) (by decide) rfl rfl,
    select_of (k := 0) (by decide) (by decide) rfl rfl, select_of (k := 3) (by decide) (by decide) rfl rfl]
  simp only [ok_bind, pure_eq, pointArg, motorArg]
  poly_value movePolys
  have h1 : a ^ 2 + (d ^ 2 + (f ^ 2 + g ^ 2)) = a * a + d * d + f * f + g * g := by ring
  rw [h1]
  congr 2
  · field_simp
    ring
  · congr 1
    · field_simp
      ring
    · congr 1
      field_simp
      ring

/-- `p % q`, for a plane that is not at infinity. -/
theorem mirror_run (E : Env K) (x y z d a b c : K) (h0 : a * a + b * b + c * c ≠ 0) :
    (sandwichLam.compute pgaMetric false E [pointArg [x, y, z], planeArg [d, a, b, c]] >>= single >>= vgaPointOf) = ok
      [x - 2 * (a * x + b * y + c * z + d) / (a * a + b * b + c * c) * a, y - 2 * (a * x + b * y + c * z + d) / (a * a + b * b + c * c) * b,
       z - 2 * (a * x + b * y + c * z + d) / (a * a + b * b + c * c) * c] := by
  rw [lam_polys pgaMetric E (by rfl) mirror_polys, ok_bind]
  unfold vgaPointOf
  rw [select_of (k := 2) (by decide) (by decide) rfl rfl, select_of (k := 1) (by decide) (by decide) rfl rfl,
    select_of (k := 0) (by decide) (by decide) rfl rfl, select_of (k := 3) (by decide) (by decide) rfl rfl]
  simp only [ok_bind, pure_eq, pointArg, planeArg]
  poly_value mirrorPolys
  have h1 : a ^ 2 + (b ^ 2 + c ^ 2) = a * a + b * b + c * c := by ring
  rw [h1]
  have h2 : a ^ 2 + b ^ 2 + c ^ 2 ≠ 0 := fun h => h0 (by linear_combination h)
  congr 2
  · field_simp
    ring
  · congr 1
    · field_simp
      ring
    · congr 1
      field_simp
      ring

theorem ofFn3 {α : Type} (f : Fin 3 → α) : List.ofFn f = [f 0, f 1, f 2] := rfl

omit [CharZero K] in
theorem dot3 (u v : Fin 3 → K) : u ⬝ᵥ v = u 0 * v 0 + u 1 * v 1 + u 2 * v 2 := by
  rw [dotProduct, Fin.sum_univ_three]

/-- **C39 through `compute`**: `compute([](auto v, auto r) { return v % r; }, v, r)` for a vector `v` and the rotor constructed from an angle and a
unit axis is never undefined and returns `v` rotated by the angle about the axis. -/
theorem C39_compute (E : Env ℝ) (θ : ℝ) (k v : Fin 3 → ℝ) (hk : k ⬝ᵥ k = 1) :
    (sandwichLam.compute vgaMetric false E [vectorArg [v 0, v 1, v 2], rotorArg (rotorNew Real.cos Real.sin θ (k 0) (k 1) (k 2))]
      >>= single >>= vectorOf 3) = ok (List.ofFn (rodrigues θ k v)) := by
  unfold rotorNew
  rw [rotate_run, ofFn3]
  have hc : Real.cos θ = Real.cos (1 / 2 * θ) ^ 2 - Real.sin (1 / 2 * θ) ^ 2 := by
    rw [← Real.cos_two_mul']; congr 1; ring
  have hs : Real.sin θ = 2 * Real.sin (1 / 2 * θ) * Real.cos (1 / 2 * θ) := by
    rw [← Real.sin_two_mul]; congr 1; ring
  have h1 := Real.cos_sq_add_sin_sq (1 / 2 * θ)
  rw [dot3] at hk
  unfold rodrigues
  rw [hc, hs]
  generalize Real.cos (1 / 2 * θ) = w at *
  generalize Real.sin (1 / 2 * θ) = s at *
  simp only [Pi.add_apply, Pi.smul_apply, smul_eq_mul, cross_apply, dot3, Matrix.cons_val_zero, Matrix.cons_val_one, Matrix.cons_val]
  congr 2
  · linear_combination (-(v 0) * s ^ 2) * hk + (k 0 * v 0 + k 1 * v 1 + k 2 * v 2) * k 0 * h1
  · congr 1
    · linear_combination (-(v 1) * s ^ 2) * hk + (k 0 * v 0 + k 1 * v 1 + k 2 * v 2) * k 1 * h1
    · congr 1
      linear_combination (-(v 2) * s ^ 2) * hk + (k 0 * v 0 + k 1 * v 1 + k 2 * v 2) * k 2 * h1

/-- **C54 (motors)**: for a motor whose rotational part is not zero, `compute([](auto p, auto m) { return p % m; }, p, m)` is never undefined, and the
points it returns are the images under one rigid motion: a rotation followed by a translation. -/
theorem C54_motor (a b c d e f g h : K) (h0 : a * a + d * d + f * f + g * g ≠ 0) :
    ∃ (R : Matrix (Fin 3) (Fin 3) K) (t : Fin 3 → K), IsRotation R ∧ ∀ (E : Env K) (p : Fin 3 → K),
      (sandwichLam.compute pgaMetric false E [pointArg [p 0, p 1, p 2], motorArg [a, b, c, d, e, f, g, h]] >>= single >>= vgaPointOf) =
        ok (List.ofFn (R *ᵥ p + t)) := by
  have h2 : a ^ 2 + d ^ 2 + f ^ 2 + g ^ 2 ≠ 0 := fun h => h0 (by linear_combination h)
  refine ⟨(a * a + d * d + f * f + g * g)⁻¹ • !![a * a - d * d - f * f + g * g, 2 * (a * d - f * g), 2 * (a * f + d * g);
      -2 * (a * d + f * g), a * a - d * d + f * f - g * g, 2 * (a * g - d * f);
      -2 * (a * f - d * g), -2 * (a * g + d * f), a * a + d * d - f * f - g * g],
    (a * a + d * d + f * f + g * g)⁻¹ • ![-2 * (a * b + c * d + e * f + g * h), -2 * (a * c - b * d + e * g - f * h),
      -2 * (a * e - b * f - c * g + d * h)], ⟨?_, ?_⟩, fun E p => ?_⟩
  · ext i j
    fin_cases i <;> fin_cases j <;>
      simp [Matrix.mul_apply, Fin.sum_univ_three] <;> field_simp <;> ring
  · rw [Matrix.det_fin_three]
    simp
    field_simp
    ring
  · rw [move_run E _ _ _ a b c d e f g h, ofFn3]
    simp only [Pi.add_apply, Matrix.smul_mulVec, Pi.smul_apply, smul_eq_mul, Matrix.mulVec, dot3, Matrix.of_apply, Matrix.cons_val_zero,
      Matrix.cons_val_one, Matrix.cons_val]
    congr 2
    · field_simp
      ring
    · congr 1
      · field_simp
        ring
      · congr 1
        field_simp
        ring

/-- **C54 (planes)**: for a plane `a x + b y + c z + d = 0` with `(a, b, c)` not null, `compute([](auto p, auto q) { return p % q; }, p, q)` is never
undefined and returns the mirror image of the point. -/
theorem C54_mirror (E : Env K) (n p : Fin 3 → K) (d : K) (h0 : n ⬝ᵥ n ≠ 0) :
    (sandwichLam.compute pgaMetric false E [pointArg [p 0, p 1, p 2], planeArg [d, n 0, n 1, n 2]] >>= single >>= vgaPointOf) =
      ok (List.ofFn (mirror n d p)) := by
  rw [dot3] at h0
  rw [mirror_run E _ _ _ d _ _ _ h0, ofFn3]
  simp only [mirror, Pi.sub_apply, Pi.smul_apply, smul_eq_mul, dot3]

/-- A quarter turn about the third axis followed by a translation. -/
example : ∃ (R : Matrix (Fin 3) (Fin 3) ℚ) (t : Fin 3 → ℚ), IsRotation R ∧ ∀ (E : Env ℚ) (p : Fin 3 → ℚ),
    (sandwichLam.compute pgaMetric false E [pointArg [p 0, p 1, p 2], motorArg [1, 2, 3, 1, 5, 0, 0, 7]] >>= single >>= vgaPointOf) =
      ok (List.ofFn (R *ᵥ p + t)) :=
  C54_motor 1 2 3 1 5 0 0 7 (by norm_num)

/-- The plane `x + 2y - z = 3`. -/
example (E : Env ℚ) (p : Fin 3 → ℚ) :
    (sandwichLam.compute pgaMetric false E [pointArg [p 0, p 1, p 2], planeArg [-3, 1, 2, -1]] >>= single >>= vgaPointOf) =
      ok (List.ofFn (mirror ![1, 2, -1] (-3) p)) :=
  C54_mirror E ![1, 2, -1] p (-3) (by rw [dot3]; simp; norm_num)

/-- The axis `(2/3, 1/3, 2/3)`. -/
example (E : Env ℝ) (θ : ℝ) (v : Fin 3 → ℝ) :
    (sandwichLam.compute vgaMetric false E [vectorArg [v 0, v 1, v 2], rotorArg (rotorNew Real.cos Real.sin θ (2 / 3) (1 / 3) (2 / 3))]
      >>= single >>= vectorOf 3) = ok (List.ofFn (rodrigues θ ![2 / 3, 1 / 3, 2 / 3] v)) :=
  C39_compute E θ ![2 / 3, 1 / 3, 2 / 3] v (by rw [dot3]; simp; norm_num)

end Gal
