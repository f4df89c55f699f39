import Verif.Props.ExpRun
import Verif.Props.Log
import Verif.Props.Plane
import Verif.Props.ComputeNull
import Verif.Spec.Turn
import Mathlib.LinearAlgebra.Matrix.DotProduct

/-!
# Property C66: `exp` of a bivector in space, in the plane and in other algebras
-/

namespace Gal

open Out
open scoped Matrix

/-! ## The series -/

section

variable {A : Type} [Ring A] [Algebra ℝ A] {B : A}

theorem cube_pow {t : ℝ} (h : B * B * B = (-(t * t)) • B) (k : ℕ) :
    B ^ (2 * k + 1) = ((-1) ^ k * t ^ (2 * k)) • B ∧ B ^ (2 * (k + 1)) = ((-1) ^ k * t ^ (2 * k)) • (B * B) := by
  have step : ∀ k : ℕ, B ^ (2 * k + 1) = ((-1) ^ k * t ^ (2 * k)) • B := by
    intro k
    induction k with
    | zero => simp
    | succ k ih =>
      rw [show 2 * (k + 1) + 1 = (2 * k + 1) + 1 + 1 by ring, pow_succ, pow_succ, ih, smul_mul_assoc, smul_mul_assoc, h, smul_smul]
      congr 1
      ring
  refine ⟨step k, ?_⟩
  rw [show 2 * (k + 1) = (2 * k + 1) + 1 by ring, pow_succ, step k, smul_mul_assoc]

theorem cube_hasSum {t : ℝ} (ht : t ≠ 0) (h : B * B * B = (-(t * t)) • B) (φ : A →ₗ[ℝ] ℝ) :
    HasSum (fun k : ℕ => (k.factorial : ℝ)⁻¹ * φ (B ^ k)) (φ (1 + (Real.sin t / t) • B + ((1 - Real.cos t) / (t * t)) • (B * B))) := by
  have he : φ (1 + (Real.sin t / t) • B + ((1 - Real.cos t) / (t * t)) • (B * B)) =
      (Real.cos t * (-(φ (B * B) / (t * t))) + (φ 1 + φ (B * B) / (t * t))) + Real.sin t * (φ B / t) := by
    simp only [map_add, map_smul, smul_eq_mul]
    field_simp
    ring
  rw [he]
  refine HasSum.even_add_odd ?_ ?_
  · refine hasSum_of_eq (fun k => ?_) (((Real.hasSum_cos t).mul_right (-(φ (B * B) / (t * t)))).add (hasSum_ite_eq 0 (φ 1 + φ (B * B) / (t * t))))
    cases k with
    | zero => simp
    | succ k =>
      rw [(cube_pow h k).2, if_neg (Nat.succ_ne_zero k), map_smul, smul_eq_mul]
      have h4 : ((2 * (k + 1)).factorial : ℝ) ≠ 0 := by positivity
      field_simp
      ring
  · refine hasSum_of_eq (fun k => ?_) ((Real.hasSum_sin t).mul_right (φ B / t))
    rw [(cube_pow h k).1, map_smul, smul_eq_mul]
    have h4 : ((2 * k + 1).factorial : ℝ) ≠ 0 := by positivity
    field_simp
    ring

end

/-- The exponential of an element with `B³ = -t² B`. -/
theorem isExp_cube {n : Nat} {d : Nat → Int} {B : CliffordAlgebra (diagForm ℝ n d)} {t : ℝ} (ht : t ≠ 0) (h : B * B * B = (-(t * t)) • B) :
    IsExp B (1 + (Real.sin t / t) • B + ((1 - Real.cos t) / (t * t)) • (B * B)) := by
  intro g _
  exact cube_hasSum ht h ((Finsupp.lapply g : (Nat →₀ ℝ) →ₗ[ℝ] ℝ).comp (bladeCoords ℝ n d))

/-- The exponential of an element with `B² = -s²`. -/
theorem isExp_simple {n : Nat} {d : Nat → Int} {B : CliffordAlgebra (diagForm ℝ n d)} {s : ℝ} (hs : s ≠ 0) (h : B * B = (-(s * s)) • 1) :
    IsExp B (Real.cos s • 1 + (Real.sin s / s) • B) := by
  have := isExp_cube hs (show B * B * B = (-(s * s)) • B by rw [h, smul_mul_assoc, one_mul])
  rw [h] at this
  have e : 1 + (Real.sin s / s) • B + ((1 - Real.cos s) / (s * s)) • (-(s * s)) • (1 : CliffordAlgebra (diagForm ℝ n d)) =
      Real.cos s • 1 + (Real.sin s / s) • B := by
    match_scalars <;> field_simp
    ring
  rwa [e] at this

/-- It has norm one. -/
theorem exp_simple_unit {n : Nat} {d : Nat → Int} {B : CliffordAlgebra (diagForm ℝ n d)} {s : ℝ} (hs : s ≠ 0) (h : B * B = (-(s * s)) • 1)
    (hr : CliffordAlgebra.reverse B = -B) :
    (Real.cos s • 1 + (Real.sin s / s) • B) * CliffordAlgebra.reverse (Real.cos s • 1 + (Real.sin s / s) • B) = 1 := by
  have h3 := Real.sin_sq_add_cos_sq s
  simp only [map_add, map_smul, CliffordAlgebra.reverse.map_one, hr, add_mul, mul_add, smul_mul_smul_comm, mul_neg, one_mul, mul_one, h, smul_neg, smul_smul]
  match_scalars
  · field_simp
    linear_combination h3
  · field_simp
    ring

/-! ## Bivectors -/

/-- `a e01 + b e02 + c e12`. -/
noncomputable def biv3 (n : Nat) (d : Nat → Int) (a b c : ℝ) : CliffordAlgebra (diagForm ℝ n d) :=
  a • cliffBlade ℝ n d 3 + b • cliffBlade ℝ n d 5 + c • cliffBlade ℝ n d 6

theorem biv3_denotes {n : Nat} (hn : 3 ≤ n) (d : Nat → Int) (a b c : ℝ) : (bivArg3 [a, b, c]).Denotes n d 0 (biv3 n d a b c) := by
  have h8 : 2 ^ 3 ≤ 2 ^ n := Nat.pow_le_pow_right (by decide) hn
  have h0 := C45_entity (dim := n) d (x := ⟨[3, 5, 6], [a, b, c]⟩) (off := 0) (show [3, 5, 6].Pairwise (· < ·) by decide)
    (show ∀ e ∈ [3, 5, 6], e < 2 ^ n by intro e he; fin_cases he <;> omega) rfl (show 0 + [3, 5, 6].length ≤ 2 ^ 32 by decide)
  have e : pairsVal (cliffBlade ℝ n d) [3, 5, 6] [a, b, c] = biv3 n d a b c := by simp [pairsVal, biv3, add_assoc]
  rw [← e]
  exact h0

theorem quat_denotes {n : Nat} (hn : 3 ≤ n) (d : Nat → Int) (w k a b c : ℝ) :
    (⟨[0, 3, 5, 6], [w, a * k, b * k, c * k]⟩ : Entity ℝ).Denotes n d (w • 1 + k • biv3 n d a b c) := by
  have h8 : 2 ^ 3 ≤ 2 ^ n := Nat.pow_le_pow_right (by decide) hn
  refine ⟨rfl, show [0, 3, 5, 6].Pairwise (· < ·) by decide, show ∀ e ∈ [0, 3, 5, 6], e < 2 ^ n by intro e he; fin_cases he <;> omega, ?_⟩
  have h1 : cliffBlade ℝ n d 0 = 1 := by rw [cliffBlade, bladeOf_zero]
  simp only [pairsVal, biv3, List.zip_cons_cons, List.zip_nil_right, List.map_cons, List.map_nil, List.sum_cons, List.sum_nil, h1]
  module

theorem biv3_reverse (n : Nat) (d : Nat → Int) (h3 : gradeOf n 3 = 2) (h5 : gradeOf n 5 = 2) (h6 : gradeOf n 6 = 2) (a b c : ℝ) :
    CliffordAlgebra.reverse (biv3 n d a b c) = -biv3 n d a b c := by
  rw [biv3]
  simp only [map_add, map_smul, reverse_blade]
  rw [h3, h5, h6]
  simp only [Nat.reduceSub, Nat.reduceMul, Nat.reduceDiv, pow_one, Int.reduceNeg, Int.cast_neg, Int.cast_one]
  module

theorem space_sq (a b c : ℝ) : biv3 3 (Metric.sq vgaMetric) a b c * biv3 3 (Metric.sq vgaMetric) a b c = (-(a * a + b * b + c * c)) • 1 := by
  have h1 : cliffBlade ℝ 3 (Metric.sq vgaMetric) 0 = 1 := by rw [cliffBlade, bladeOf_zero]
  rw [biv3]
  simp only [add_mul, mul_add, smul_mul_smul_comm, blade_mul 3 (Metric.sq vgaMetric) (show 3 < 2 ^ 3 by decide),
    blade_mul 3 (Metric.sq vgaMetric) (show 5 < 2 ^ 3 by decide), blade_mul 3 (Metric.sq vgaMetric) (show 6 < 2 ^ 3 by decide),
    show sgn (Metric.sq vgaMetric) 3 3 3 = -1 by decide, show sgn (Metric.sq vgaMetric) 3 3 5 = -sgn (Metric.sq vgaMetric) 3 5 3 by decide,
    show sgn (Metric.sq vgaMetric) 3 3 6 = -sgn (Metric.sq vgaMetric) 3 6 3 by decide,
    show sgn (Metric.sq vgaMetric) 3 5 6 = -sgn (Metric.sq vgaMetric) 3 6 5 by decide,
    show sgn (Metric.sq vgaMetric) 3 5 5 = -1 by decide, show sgn (Metric.sq vgaMetric) 3 6 6 = -1 by decide]
  norm_num [h1]
  module

theorem plane_sq (a b c : ℝ) : biv3 3 (Metric.sq pga2Metric) a b c * biv3 3 (Metric.sq pga2Metric) a b c = (-(c * c)) • 1 := by
  have h1 : cliffBlade ℝ 3 (Metric.sq pga2Metric) 0 = 1 := by rw [cliffBlade, bladeOf_zero]
  rw [biv3]
  simp only [add_mul, mul_add, smul_mul_smul_comm, blade_mul 3 (Metric.sq pga2Metric) (show 3 < 2 ^ 3 by decide),
    blade_mul 3 (Metric.sq pga2Metric) (show 5 < 2 ^ 3 by decide), blade_mul 3 (Metric.sq pga2Metric) (show 6 < 2 ^ 3 by decide),
    show sgn (Metric.sq pga2Metric) 3 3 3 = 0 by decide, show sgn (Metric.sq pga2Metric) 3 3 5 = -sgn (Metric.sq pga2Metric) 3 5 3 by decide,
    show sgn (Metric.sq pga2Metric) 3 3 6 = -sgn (Metric.sq pga2Metric) 3 6 3 by decide,
    show sgn (Metric.sq pga2Metric) 3 5 6 = -sgn (Metric.sq pga2Metric) 3 6 5 by decide,
    show sgn (Metric.sq pga2Metric) 3 5 5 = 0 by decide, show sgn (Metric.sq pga2Metric) 3 6 6 = -1 by decide]
  norm_num [h1]
  module

/-! ## Space -/

theorem spaceExp_value (E : Env ℝ) (hE : RealFns E) {a b c s : ℝ} (hs : 0 < s) (h : a * a + b * b + c * c = s * s) :
    expOf vgaMetric false E (bivArg3 [a, b, c]) =
      ok ⟨[0, 3, 5, 6], [Real.cos s, a * (Real.sin s / s), b * (Real.sin s / s), c * (Real.sin s / s)]⟩ := by
  have hu : E.fn .sqrt (c * c + b * b + a * a) = s := by
    rw [hE.sqrt, show c * c + b * b + a * a = s * s by linear_combination h, Real.sqrt_mul_self hs.le]
  rw [show vgaMetric = ⟨3, 0, 0⟩ from rfl, spaceExp_run E a b c s hu, hE.cos, hE.sin]
  rfl

/-- **C66 (space)**: for a bivector of three-dimensional space that is not zero, `compute([](auto b) { return exp(b); }, b)` is never undefined and
returns the exponential of the bivector, a rotor of norm one. -/
theorem C66_space (E : Env ℝ) (hE : RealFns E) (a b c : ℝ) (h0 : a * a + b * b + c * c ≠ 0) :
    ∃ r x y, (bivArg3 [a, b, c]).Denotes 3 (Metric.sq vgaMetric) 0 x ∧ expOf vgaMetric false E (bivArg3 [a, b, c]) = ok r ∧
      r.elements = [0, 3, 5, 6] ∧ r.Denotes 3 (Metric.sq vgaMetric) y ∧ IsExp x y ∧ y * CliffordAlgebra.reverse y = 1 := by
  have hp : 0 < a * a + b * b + c * c := lt_of_le_of_ne (by linarith [mul_self_nonneg a, mul_self_nonneg b, mul_self_nonneg c]) h0.symm
  have hs := Real.sqrt_pos.2 hp
  have h1 : a * a + b * b + c * c = Real.sqrt (a * a + b * b + c * c) * Real.sqrt (a * a + b * b + c * c) := (Real.mul_self_sqrt hp.le).symm
  generalize Real.sqrt (a * a + b * b + c * c) = s at *
  have h2 := space_sq a b c
  rw [h1] at h2
  exact ⟨_, _, _, biv3_denotes le_rfl _ a b c, spaceExp_value E hE hs h1, rfl, quat_denotes le_rfl _ _ _ a b c, isExp_simple hs.ne' h2,
    exp_simple_unit hs.ne' h2 (biv3_reverse 3 _ (by decide) (by decide) (by decide) a b c)⟩

/-- `v % r` for a vector and an even element. -/
def quatPolys : List (Nat × List IntMono) :=
    [(1, [(1, [(0, 1), (3, 2)]), (-1, [(0, 1), (4, 2)]), (-1, [(0, 1), (5, 2)]), (1, [(0, 1), (6, 2)]), (2, [(1, 1), (3, 1), (4, 1)]), (-2, [(1,
    1), (5, 1), (6, 1)]), (2, [(2, 1), (3, 1), (5, 1)]), (2, [(2, 1), (4, 1), (6, 1)])]), (2, [(-2, [(0, 1), (3, 1), (4, 1)]), (-2, [(0, 1), (5,
    1), (6, 1)]), (1, [(1, 1), (3, 2)]), (-1, [(1, 1), (4, 2)]), (1, [(1, 1), (5, 2)]), (-1, [(1, 1), (6, 2)]), (2, [(2, 1), (3, 1), (6, 1)]),
    (-2, [(2, 1), (4, 1), (5, 1)])]), (4, [(-2, [(0, 1), (3, 1), (5, 1)]), (2, [(0, 1), (4, 1), (6, 1)]), (-2, [(1, 1), (3, 1), (6, 1)]), (-2,
    [(1, 1), (4, 1), (5, 1)]), (1, [(2, 1), (3, 2)]), (1, [(2, 1), (4, 2)]), (-1, [(2, 1), (5, 2)]), (-1, [(2, 1), (6, 2)])])]

theorem quat_polys : sandwichLam.polys vgaMetric [vectorArg (K := ℚ) [0, 0, 0], (⟨[0, 3, 5, 6], [0, 0, 0, 0]⟩ : Entity ℚ).toArg] = some quatPolys := by
  exact flatPolys_polys (by decide +kernel)

/-- **C66 (rotations)**: `v % exp(b)` for the bivector dual to the vector `-u` turns `v` about `u` by twice the length of `u`. -/
theorem C66_rotate (E : Env ℝ) (hE : RealFns E) (u v : Fin 3 → ℝ) (h0 : u ≠ 0) :
    ∃ r, expOf vgaMetric false E (bivArg3 [-u 2, u 1, -u 0]) = ok r ∧
      (sandwichLam.compute vgaMetric false E [vectorArg [v 0, v 1, v 2], r.toArg] >>= single >>= vectorOf 3) =
        ok (List.ofFn (rodrigues (2 * √(u ⬝ᵥ u)) ((√(u ⬝ᵥ u))⁻¹ • u) v)) := by
  have hp : 0 < u ⬝ᵥ u := by
    refine lt_of_le_of_ne ?_ fun h => h0 (dotProduct_self_eq_zero.1 h.symm)
    rw [dot3]
    linarith [mul_self_nonneg (u 0), mul_self_nonneg (u 1), mul_self_nonneg (u 2)]
  have hs := Real.sqrt_pos.2 hp
  have h1 : u ⬝ᵥ u = √(u ⬝ᵥ u) * √(u ⬝ᵥ u) := (Real.mul_self_sqrt hp.le).symm
  generalize √(u ⬝ᵥ u) = s at *
  rw [dot3] at h1
  refine ⟨_, spaceExp_value E hE (a := -u 2) (b := u 1) (c := -u 0) hs (by linear_combination h1), ?_⟩
  rw [lam_polys vgaMetric E (by rfl) quat_polys, ok_bind, ofFn3]
  unfold vectorOf Entity.selectMany
  rw [if_neg (by simp [quatPolys])]
  simp only [mapO]
  rw [select_of (k := 0) (by decide) (by decide) rfl rfl, select_of (k := 1) (by decide) (by decide) rfl rfl,
    select_of (k := 2) (by decide) (by decide) rfl rfl]
  simp only [ok_bind, pure_eq, vectorArg, Entity.toArg]
  poly_value quatPolys
  have h3 := Real.sin_sq_add_cos_sq s
  unfold rodrigues
  rw [Real.cos_two_mul', Real.sin_two_mul]
  obtain ⟨k, hk⟩ : ∃ k, k = Real.sin s / s := ⟨_, rfl⟩
  have hk' : Real.sin s = k * s := by rw [hk, div_mul_cancel₀ _ hs.ne']
  obtain ⟨i, hi⟩ : ∃ i, i = s⁻¹ := ⟨_, rfl⟩
  have hi' : s * i = 1 := by rw [hi, mul_inv_cancel₀ hs.ne']
  rw [← hk, hk', ← hi]
  rw [hk'] at h3
  generalize Real.cos s = w at *
  simp only [Pi.add_apply, Pi.smul_apply, smul_eq_mul, cross_apply, dot3, Matrix.cons_val_zero, Matrix.cons_val_one, Matrix.cons_val]
  congr 2
  · linear_combination (-(k ^ 2 * v 0)) * h1 - (2 * k * w * (u 1 * v 2 - u 2 * v 1) + (u 0 * v 0 + u 1 * v 1 + u 2 * v 2) * u 0 * (2 * k ^ 2 * (1 + s * i))) * hi' +
        (u 0 * v 0 + u 1 * v 1 + u 2 * v 2) * u 0 * i ^ 2 * h3
  · congr 1
    · linear_combination (-(k ^ 2 * v 1)) * h1 - (2 * k * w * (u 2 * v 0 - u 0 * v 2) + (u 0 * v 0 + u 1 * v 1 + u 2 * v 2) * u 1 * (2 * k ^ 2 * (1 + s * i))) * hi' +
        (u 0 * v 0 + u 1 * v 1 + u 2 * v 2) * u 1 * i ^ 2 * h3
    · congr 1
      linear_combination (-(k ^ 2 * v 2)) * h1 - (2 * k * w * (u 0 * v 1 - u 1 * v 0) + (u 0 * v 0 + u 1 * v 1 + u 2 * v 2) * u 2 * (2 * k ^ 2 * (1 + s * i))) * hi' +
        (u 0 * v 0 + u 1 * v 1 + u 2 * v 2) * u 2 * i ^ 2 * h3

/-! ## The plane -/

theorem planeExp_value (E : Env ℝ) (hE : RealFns E) (a b : ℝ) {c : ℝ} (_h0 : c ≠ 0) :
    expOf pga2Metric false E (bivArg3 [a, b, c]) =
      ok ⟨[0, 3, 5, 6], [Real.cos c, a * (Real.sin c / c), b * (Real.sin c / c), c * (Real.sin c / c)]⟩ := by
  have hu : E.fn .sqrt (c * c) = |c| := by rw [hE.sqrt, Real.sqrt_mul_self_eq_abs]
  have hk : Real.sin |c| * |c|⁻¹ = Real.sin c / c := by
    rcases abs_cases c with ⟨h, -⟩ | ⟨h, -⟩
    · rw [h]; rfl
    · rw [h, Real.sin_neg, inv_neg, neg_mul_neg]; rfl
  rw [show pga2Metric = ⟨2, 0, 1⟩ from rfl, planeExp_run E a b c _ hu, hE.cos, hE.sin, hk, Real.cos_abs]

/-- **C66 (plane)**: for a point of the plane with a weight that is not zero, `exp` is never undefined and returns the exponential of the point, a
motor of norm one. -/
theorem C66_plane (E : Env ℝ) (hE : RealFns E) (a b c : ℝ) (h0 : c ≠ 0) :
    ∃ r x y, (bivArg3 [a, b, c]).Denotes 3 (Metric.sq pga2Metric) 0 x ∧ expOf pga2Metric false E (bivArg3 [a, b, c]) = ok r ∧
      r.elements = [0, 3, 5, 6] ∧ r.Denotes 3 (Metric.sq pga2Metric) y ∧ IsExp x y ∧ y * CliffordAlgebra.reverse y = 1 :=
  ⟨_, _, _, biv3_denotes le_rfl _ a b c, planeExp_value E hE a b h0, rfl, quat_denotes le_rfl _ _ _ a b c, isExp_simple h0 (plane_sq a b c),
    exp_simple_unit h0 (plane_sq a b c) (biv3_reverse 3 _ (by decide) (by decide) (by decide) a b c)⟩

/-- **C66 (turns)**: `x % exp(q)` for the point `q` with weight `w` turns points and lines about `q` by twice `w`, clockwise. -/
theorem C66_turn (E : Env ℝ) (hE : RealFns E) (q : Fin 2 → ℝ) (w : ℝ) (h0 : w ≠ 0) :
    ∃ r, expOf pga2Metric false E (pointEnt2 (pointData2 q w)) = ok r ∧ Moves2 r.toArg (turn2 q (-(2 * w))) 1 1 := by
  refine ⟨_, planeExp_value E hE (w * q 1) (-(w * q 0)) h0, ?_⟩
  have h1 : w * q 1 * (Real.sin w / w) = q 1 * Real.sin w := by field_simp
  have h2 : -(w * q 0) * (Real.sin w / w) = -(q 0 * Real.sin w) := by field_simp
  have h3 : w * (Real.sin w / w) = Real.sin w := by field_simp
  have h4 : Real.cos w * Real.cos w + Real.sin w * Real.sin w = 1 := by linear_combination Real.sin_sq_add_cos_sq w
  rw [h1, h2, h3]
  have := motor2_moves (Real.cos w) (q 1 * Real.sin w) (-(q 0 * Real.sin w)) (Real.sin w) (by rw [h4]; exact one_ne_zero)
  rw [h4] at this
  rw [show (Entity.toArg _ : Arg ℝ) = motorEnt2 [Real.cos w, q 1 * Real.sin w, -(q 0 * Real.sin w), Real.sin w] from rfl]
  convert this using 1
  funext x i
  unfold turn2
  rw [Real.cos_neg, Real.sin_neg, Real.cos_two_mul', Real.sin_two_mul]
  generalize Real.cos w = c at *
  generalize Real.sin w = s at *
  fin_cases i
  · simp [Matrix.vecHead, Matrix.vecTail]
    linear_combination (-q 0) * h4
  · simp [Matrix.vecHead, Matrix.vecTail]
    linear_combination (-q 1) * h4

/-! ## The conformal algebra -/

/-- **C66 is false in the conformal algebra**: for a bivector of space `exp` returns its own square with the sign changed as the scalar and the bivector itself,
whatever the mathematical functions are. -/
theorem C66_null_false (E : Env ℝ) (a b c : ℝ) (h0 : a * a + b * b + c * c ≠ 0) :
    expOf cgaMetric true E (bivArg3 [a, b, c]) = ok ⟨[0, 3, 5, 6], [a * a + b * b + c * c, a, b, c]⟩ := by
  rw [show cgaMetric = ⟨4, 1, 0⟩ from rfl, nullExp_run E a b c (fun h => h0 (by linear_combination h))]
  congr 3
  ring

/-- The result is not the exponential: for `e01` it is `1 + e01`. -/
theorem C66_null_exp_false (E : Env ℝ) : ∃ r x, (bivArg3 [1, 0, 0]).DenotesNull 5 (Metric.sq cgaMetric) 0 x ∧
    expOf cgaMetric true E (bivArg3 [1, 0, 0]) = ok r ∧ ∀ y, r.DenotesNull 5 (Metric.sq cgaMetric) y → ¬ IsExp x y := by
  have e3 : nullElem ℝ 5 (Metric.sq cgaMetric) 3 = cliffBlade ℝ 5 (Metric.sq cgaMetric) 3 :=
    nullElem_unmixed (by decide) (by decide) _ (by decide) (by decide)
  have e0 : nullElem ℝ 5 (Metric.sq cgaMetric) 0 = cliffBlade ℝ 5 (Metric.sq cgaMetric) 0 :=
    nullElem_unmixed (by decide) (by decide) _ (by decide) (by decide)
  have h1 : cliffBlade ℝ 5 (Metric.sq cgaMetric) 0 = 1 := by rw [cliffBlade, bladeOf_zero]
  refine ⟨_, _, C47_entity (dim := 5) (Metric.sq cgaMetric) (x := ⟨[3, 5, 6], [1, 0, 0]⟩) (off := 0) (show [3, 5, 6].Pairwise (· < ·) by decide)
    (show ∀ e ∈ [3, 5, 6], e < 2 ^ 5 by decide) rfl (show 0 + [3, 5, 6].length ≤ 2 ^ 32 by decide), C66_null_false E 1 0 0 (by norm_num), ?_⟩
  rintro y ⟨-, -, -, rfl⟩ h
  have hB : cliffBlade ℝ 5 (Metric.sq cgaMetric) 3 * cliffBlade ℝ 5 (Metric.sq cgaMetric) 3 = (-((1 : ℝ) * 1)) • 1 := by
    rw [blade_mul 5 _ (show 3 < 2 ^ 5 by decide), show sgn (Metric.sq cgaMetric) 5 3 3 = -1 by decide]
    norm_num [h1]
  have hx : pairsVal (nullElem ℝ 5 (Metric.sq cgaMetric)) [3, 5, 6] [(1 : ℝ), 0, 0] = cliffBlade ℝ 5 (Metric.sq cgaMetric) 3 := by
    simp [pairsVal, e3]
  rw [hx] at h
  have := (isExp_simple one_ne_zero hB).unique h
  have hc := congrArg (fun z => bladeCoords ℝ 5 (Metric.sq cgaMetric) z 0) this
  simp only [pairsVal, List.zip_cons_cons, List.zip_nil_right, List.map_cons, List.map_nil, List.sum_cons, List.sum_nil, e3, e0, zero_smul, add_zero,
    map_add, map_smul, ← h1, bladeCoords_blade ℝ 5 _ 0 (by decide), bladeCoords_blade ℝ 5 _ 3 (by decide), Finsupp.add_apply, Finsupp.smul_apply] at hc
  simp at hc
  linarith [Real.cos_one_le]

/-! ## Four-dimensional space -/

/-- The metric of four-dimensional Euclidean space. -/
def fourMetric : Metric := ⟨4, 0, 0⟩

/-- A bivector of four-dimensional space. -/
def bivArg6 {K : Type} (d : List K) : Arg K := (⟨[3, 5, 6, 9, 10, 12], d⟩ : Entity K).toArg

/-- `a e01 + b e02 + c e12 + d e03 + e e13 + f e23` in four-dimensional space. -/
noncomputable def biv6 (a b c d e f : ℝ) : CliffordAlgebra (diagForm ℝ 4 (Metric.sq fourMetric)) :=
  a • cliffBlade ℝ 4 (Metric.sq fourMetric) 3 + b • cliffBlade ℝ 4 (Metric.sq fourMetric) 5 + c • cliffBlade ℝ 4 (Metric.sq fourMetric) 6 +
    d • cliffBlade ℝ 4 (Metric.sq fourMetric) 9 + e • cliffBlade ℝ 4 (Metric.sq fourMetric) 10 + f • cliffBlade ℝ 4 (Metric.sq fourMetric) 12

theorem biv6_denotes (a b c d e f : ℝ) : (bivArg6 [a, b, c, d, e, f]).Denotes 4 (Metric.sq fourMetric) 0 (biv6 a b c d e f) := by
  have h0 := C45_entity (dim := 4) (Metric.sq fourMetric) (x := ⟨[3, 5, 6, 9, 10, 12], [a, b, c, d, e, f]⟩) (off := 0)
    (show [3, 5, 6, 9, 10, 12].Pairwise (· < ·) by decide) (show ∀ e ∈ [3, 5, 6, 9, 10, 12], e < 2 ^ 4 by decide) rfl
    (show 0 + [3, 5, 6, 9, 10, 12].length ≤ 2 ^ 32 by decide)
  have e : pairsVal (cliffBlade ℝ 4 (Metric.sq fourMetric)) [3, 5, 6, 9, 10, 12] [a, b, c, d, e, f] = biv6 a b c d e f := by
    simp [pairsVal, biv6, add_assoc]
  rw [← e]
  exact h0

theorem four_sq (a b c d e f : ℝ) : biv6 a b c d e f * biv6 a b c d e f = (-(a * a + b * b + c * c + d * d + e * e + f * f)) • 1 +
    (2 * (a * f - b * e + c * d)) • cliffBlade ℝ 4 (Metric.sq fourMetric) 15 := by
  have h1 : cliffBlade ℝ 4 (Metric.sq fourMetric) 0 = 1 := by rw [cliffBlade, bladeOf_zero]
  have t :
      sgn (Metric.sq fourMetric) 4 3 3 = -1 ∧ sgn (Metric.sq fourMetric) 4 3 5 = -1 ∧ sgn (Metric.sq fourMetric) 4 3 6 = 1 ∧
      sgn (Metric.sq fourMetric) 4 3 9 = -1 ∧ sgn (Metric.sq fourMetric) 4 3 10 = 1 ∧ sgn (Metric.sq fourMetric) 4 3 12 = 1 ∧
      sgn (Metric.sq fourMetric) 4 5 3 = 1 ∧ sgn (Metric.sq fourMetric) 4 5 5 = -1 ∧ sgn (Metric.sq fourMetric) 4 5 6 = -1 ∧
      sgn (Metric.sq fourMetric) 4 5 9 = -1 ∧ sgn (Metric.sq fourMetric) 4 5 10 = -1 ∧ sgn (Metric.sq fourMetric) 4 5 12 = 1 ∧
      sgn (Metric.sq fourMetric) 4 6 3 = -1 ∧ sgn (Metric.sq fourMetric) 4 6 5 = 1 ∧ sgn (Metric.sq fourMetric) 4 6 6 = -1 ∧
      sgn (Metric.sq fourMetric) 4 6 9 = 1 ∧ sgn (Metric.sq fourMetric) 4 6 10 = -1 ∧ sgn (Metric.sq fourMetric) 4 6 12 = 1 ∧
      sgn (Metric.sq fourMetric) 4 9 3 = 1 ∧ sgn (Metric.sq fourMetric) 4 9 5 = 1 ∧ sgn (Metric.sq fourMetric) 4 9 6 = 1 ∧
      sgn (Metric.sq fourMetric) 4 9 9 = -1 ∧ sgn (Metric.sq fourMetric) 4 9 10 = -1 ∧ sgn (Metric.sq fourMetric) 4 9 12 = -1 ∧
      sgn (Metric.sq fourMetric) 4 10 3 = -1 ∧ sgn (Metric.sq fourMetric) 4 10 5 = -1 ∧ sgn (Metric.sq fourMetric) 4 10 6 = 1 ∧
      sgn (Metric.sq fourMetric) 4 10 9 = 1 ∧ sgn (Metric.sq fourMetric) 4 10 10 = -1 ∧ sgn (Metric.sq fourMetric) 4 10 12 = -1 ∧
      sgn (Metric.sq fourMetric) 4 12 3 = 1 ∧ sgn (Metric.sq fourMetric) 4 12 5 = -1 ∧ sgn (Metric.sq fourMetric) 4 12 6 = -1 ∧
      sgn (Metric.sq fourMetric) 4 12 9 = 1 ∧ sgn (Metric.sq fourMetric) 4 12 10 = 1 ∧ sgn (Metric.sq fourMetric) 4 12 12 = -1 := by decide
  have b3 := fun j => blade_mul (K := ℝ) (b := j) 4 (Metric.sq fourMetric) (show 3 < 2 ^ 4 by decide)
  have b5 := fun j => blade_mul (K := ℝ) (b := j) 4 (Metric.sq fourMetric) (show 5 < 2 ^ 4 by decide)
  have b6 := fun j => blade_mul (K := ℝ) (b := j) 4 (Metric.sq fourMetric) (show 6 < 2 ^ 4 by decide)
  have b9 := fun j => blade_mul (K := ℝ) (b := j) 4 (Metric.sq fourMetric) (show 9 < 2 ^ 4 by decide)
  have b10 := fun j => blade_mul (K := ℝ) (b := j) 4 (Metric.sq fourMetric) (show 10 < 2 ^ 4 by decide)
  have b12 := fun j => blade_mul (K := ℝ) (b := j) 4 (Metric.sq fourMetric) (show 12 < 2 ^ 4 by decide)
  rw [biv6]
  simp only [add_mul, mul_add, smul_mul_smul_comm, b3, b5, b6, b9, b10, b12, t, Nat.reduceXor, h1, Int.cast_one, Int.cast_neg, Int.reduceNeg]
  module

theorem biv6_reverse (a b c d e f : ℝ) : CliffordAlgebra.reverse (biv6 a b c d e f) = -biv6 a b c d e f := by
  rw [biv6]
  simp only [map_add, map_smul, reverse_blade]
  rw [show gradeOf 4 3 = 2 by decide, show gradeOf 4 5 = 2 by decide, show gradeOf 4 6 = 2 by decide, show gradeOf 4 9 = 2 by decide,
    show gradeOf 4 10 = 2 by decide, show gradeOf 4 12 = 2 by decide]
  simp only [Nat.reduceSub, Nat.reduceMul, Nat.reduceDiv, pow_one, Int.reduceNeg, Int.cast_neg, Int.cast_one]
  module

/-- **C66 (four dimensions, simple bivectors)**: for a bivector that is not zero and whose outer product with itself is zero, `exp` is never undefined
and returns its exponential.  Missing are the other bivectors, for which it is false. -/
theorem C66_four_partial (E : Env ℝ) (hE : RealFns E) (a b c d e f : ℝ) (h0 : a * a + b * b + c * c + d * d + e * e + f * f ≠ 0)
    (hw : a * f - b * e + c * d = 0) :
    ∃ r x y, (bivArg6 [a, b, c, d, e, f]).Denotes 4 (Metric.sq fourMetric) 0 x ∧ expOf fourMetric false E (bivArg6 [a, b, c, d, e, f]) = ok r ∧
      r.Denotes 4 (Metric.sq fourMetric) y ∧ IsExp x y ∧ y * CliffordAlgebra.reverse y = 1 := by
  have hp : 0 < a * a + b * b + c * c + d * d + e * e + f * f := by
    refine lt_of_le_of_ne ?_ h0.symm
    have := mul_self_nonneg a
    have := mul_self_nonneg b
    have := mul_self_nonneg c
    have := mul_self_nonneg d
    have := mul_self_nonneg e
    have := mul_self_nonneg f
    linarith
  have hs := Real.sqrt_pos.2 hp
  have h1 : a * a + b * b + c * c + d * d + e * e + f * f = Real.sqrt (a * a + b * b + c * c + d * d + e * e + f * f) *
    Real.sqrt (a * a + b * b + c * c + d * d + e * e + f * f) := (Real.mul_self_sqrt hp.le).symm
  generalize Real.sqrt (a * a + b * b + c * c + d * d + e * e + f * f) = s at *
  have hu : E.fn .sqrt (f * f + e * e + d * d + c * c + b * b + a * a) = s := by
    rw [hE.sqrt, show f * f + e * e + d * d + c * c + b * b + a * a = s * s by linear_combination h1, Real.sqrt_mul_self hs.le]
  have h2 := four_sq a b c d e f
  rw [h1, hw, mul_zero, zero_smul, add_zero] at h2
  have hr := fourExp_run E a b c d e f (-(s * s)) 0 s 0 (by linear_combination 2 * hw) (by linear_combination -h1) hu (by ring)
  rw [hE.cos, hE.sin] at hr
  refine ⟨_, _, _, biv6_denotes a b c d e f, hr, ⟨rfl, show [0, 3, 5, 6, 9, 10, 12, 15].Pairwise (· < ·) by decide,
    show ∀ e ∈ [0, 3, 5, 6, 9, 10, 12, 15], e < 2 ^ 4 by decide, ?_⟩, isExp_simple hs.ne' h2, exp_simple_unit hs.ne' h2 (biv6_reverse a b c d e f)⟩
  have e0 : cliffBlade ℝ 4 (Metric.sq fourMetric) 0 = 1 := by rw [cliffBlade, bladeOf_zero]
  simp only [pairsVal, biv6, List.zip_cons_cons, List.zip_nil_right, List.map_cons, List.map_nil, List.sum_cons, List.sum_nil, e0, zero_mul, mul_zero,
    neg_zero, add_zero, zero_add, zero_smul, div_eq_mul_inv]
  module

theorem cos_sqrt_two_ne : Real.cos √2 ≠ (1 + Real.cos 2) / 2 := by
  have h2 : √2 * √2 = 2 := Real.mul_self_sqrt (by norm_num)
  have hq : (√2 / 2) ^ 2 = 1 / 2 := by linear_combination h2 / 4
  have hn : 0 ≤ √2 / 2 := by positivity
  have hle : |√2 / 2| ≤ 1 := by
    rw [abs_of_nonneg hn]
    nlinarith
  have b1 := Real.cos_bound hle
  have b2 := Real.cos_bound (x := 1) (by norm_num)
  rw [abs_le] at b1 b2
  have e1 : Real.cos √2 = 2 * Real.cos (√2 / 2) ^ 2 - 1 := by rw [← Real.cos_two_mul]; congr 1; ring
  have e2 : Real.cos 2 = 2 * Real.cos 1 ^ 2 - 1 := by rw [← Real.cos_two_mul]; norm_num
  rw [show |√2 / 2| ^ 4 = 1 / 4 by rw [abs_of_nonneg hn]; linear_combination ((√2 / 2) ^ 2 + 1 / 2) * hq, hq] at b1
  norm_num at b1 b2
  rw [e1, e2]
  intro h
  nlinarith [b1.1, b1.2, b2.1, b2.2]

theorem four_cube : biv6 1 0 0 0 0 1 * biv6 1 0 0 0 0 1 * biv6 1 0 0 0 0 1 = (-((2 : ℝ) * 2)) • biv6 1 0 0 0 0 1 := by
  have h2 := four_sq 1 0 0 0 0 1
  have hI : cliffBlade ℝ 4 (Metric.sq fourMetric) 15 * biv6 1 0 0 0 0 1 = -biv6 1 0 0 0 0 1 := by
    rw [biv6]
    simp only [mul_add, mul_smul_comm, blade_mul 4 (Metric.sq fourMetric) (show 15 < 2 ^ 4 by decide),
      show sgn (Metric.sq fourMetric) 4 15 3 = -1 by decide, show sgn (Metric.sq fourMetric) 4 15 12 = -1 by decide, Nat.reduceXor, Int.cast_neg,
      Int.cast_one, Int.reduceNeg, zero_smul, mul_zero]
    module
  rw [h2, add_mul, smul_mul_assoc, smul_mul_assoc, hI, one_mul (biv6 1 0 0 0 0 1)]
  module

/-- **C66 is false for other bivectors of four-dimensional space**: for `e01 + e23` the scalar of the result is `cos √2`, and the scalar of the
exponential is `cos² 1`. -/
theorem C66_four_false (E : Env ℝ) (hE : RealFns E) : ∃ r x, (bivArg6 [1, 0, 0, 0, 0, 1]).Denotes 4 (Metric.sq fourMetric) 0 x ∧
    expOf fourMetric false E (bivArg6 [1, 0, 0, 0, 0, 1]) = ok r ∧ ∀ y, r.Denotes 4 (Metric.sq fourMetric) y → ¬ IsExp x y := by
  have hu : E.fn .sqrt (1 * 1 + 0 * 0 + 0 * 0 + 0 * 0 + 0 * 0 + 1 * 1) = √2 := by rw [hE.sqrt]; norm_num
  have hr := fourExp_run E 1 0 0 0 0 1 _ _ _ _ rfl rfl hu rfl
  refine ⟨_, _, biv6_denotes 1 0 0 0 0 1, hr, ?_⟩
  rintro y ⟨-, -, -, rfl⟩ h
  have h1 : cliffBlade ℝ 4 (Metric.sq fourMetric) 0 = 1 := by rw [cliffBlade, bladeOf_zero]
  have h2 := four_sq 1 0 0 0 0 1
  have h3 := four_cube
  have := (isExp_cube two_ne_zero h3).unique h
  have hc := congrArg (fun z => bladeCoords ℝ 4 (Metric.sq fourMetric) z 0) this
  rw [h2] at hc
  simp only [pairsVal, biv6, List.zip_cons_cons, List.zip_nil_right, List.map_cons, List.map_nil, List.sum_cons, List.sum_nil, zero_smul, add_zero,
    map_add, map_smul, ← h1, bladeCoords_blade ℝ 4 _ 0 (by decide), bladeCoords_blade ℝ 4 _ 3 (by decide), bladeCoords_blade ℝ 4 _ 5 (by decide),
    bladeCoords_blade ℝ 4 _ 6 (by decide), bladeCoords_blade ℝ 4 _ 9 (by decide), bladeCoords_blade ℝ 4 _ 10 (by decide),
    bladeCoords_blade ℝ 4 _ 12 (by decide), bladeCoords_blade ℝ 4 _ 15 (by decide), Finsupp.add_apply, Finsupp.smul_apply] at hc
  simp [hE.cos] at hc
  exact cos_sqrt_two_ne (by linear_combination -hc)

/-! ## Examples -/

/-- The motor of the exponential of a line of space is the one of C51. -/
example (E : Env ℝ) (l : Arg ℝ) : computeExp E l = expOf pgaMetric false E l := rfl

example := C66_space realEnv realEnv_fns 1 2 (-2) (by norm_num)

example (v : Fin 3 → ℝ) := C66_rotate realEnv realEnv_fns ![1, 2, -2] v (fun h => by simpa using congrFun h 0)

example := C66_plane realEnv realEnv_fns 3 4 (-1) (by norm_num)

example := C66_turn realEnv realEnv_fns ![3, 4] (Real.pi / 4) (by positivity)

example (E : Env ℝ) := C66_null_false E 1 2 (-2) (by norm_num)

example := C66_four_partial realEnv realEnv_fns 1 2 3 2 4 2 (by norm_num) (by norm_num)

end Gal
