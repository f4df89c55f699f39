import Verif.Props.ConformalPolys
import Verif.Props.ConformalVersors
import Verif.Props.ConformalInversion
import Verif.Spec.Conformal
import Verif.Spec.Motion
import Verif.Props.Sandwich

/-!
# Property C56: conformal geometry through `compute`
-/

namespace Gal

open Out
open scoped Matrix

variable {K : Type} [Field K] [CharZero K]

/-- Evaluates explicit polynomials with rational coefficients. -/
macro "rat_value" ds:ident : tactic => `(tactic|
  simp only [$ds:ident, ratPolyVal, ratMonoVal, ratVal, Rat32.one, List.map_cons, List.map_nil, List.sum_cons, List.sum_nil, List.prod_cons,
    List.prod_nil, List.flatten_cons, List.flatten_nil, List.append_nil, List.cons_append, List.nil_append, List.getD_cons_zero,
    List.getD_cons_succ, pow_one, mul_one, add_zero, Int.cast_one, Int.cast_neg, Int.cast_ofNat, div_one, one_mul, neg_mul])

/-- The argument for a point of space. -/
def cgaPt (p : Fin 3 → K) : Arg K := cgaArg [p 0, p 1, p 2]

omit [Field K] [CharZero K] in
/-- Comparison of scalars. -/
theorem scalar_ext {a a' : K} (h : a = a') : (ok ⟨[0], [a]⟩ : Out (Entity K)) = ok ⟨[0], [a']⟩ := by
  rw [h]

/-- C37 through `compute`: the product of two points is the squared distance, up to the factor `-1/2`. -/
theorem C37_compute (E : Env K) (p q : Fin 3 → K) :
    (distanceLam.compute cgaMetric true E [cgaPt p, cgaPt q] >>= single) = ok ⟨[0], [-((p - q) ⬝ᵥ (p - q)) / 2]⟩ := by
  rw [lam_ratPolys cgaMetric true E (by rfl) distance_ratPolys]
  simp only [cgaPt, cgaArg]
  rat_value distanceRatPolys
  simp only [dotProduct, Fin.sum_univ_three, Pi.sub_apply]
  refine scalar_ext ?_
  ring

/-- C37 through `compute`: `p >> p` is found to be zero at compile time, the result has no components. -/
theorem C37_compute_self (E : Env K) (p : Fin 3 → K) : (selfLam.compute cgaMetric true E [cgaPt p] >>= single) = ok ⟨[], []⟩ := by
  rw [lam_ratPolys cgaMetric true E (by rfl) selfDistance_ratPolys]
  rfl

/-- The sphere with centre `c` and squared radius `ρ`: `c + no + ½ (|c|² - ρ) ni`. -/
def cgaSphere (c : Fin 3 → K) (ρ : K) : Arg K := cgaVector [c 0, c 1, c 2, 1, (c ⬝ᵥ c - ρ) / 2]

/-- The plane `n · x = d`: `n + d ni`. -/
def cgaPlane (n : Fin 3 → K) (d : K) : Arg K := cgaVector [n 0, n 1, n 2, 0, d]

/-- C56: a point lies on a sphere if its product with the sphere is zero. -/
theorem C56_sphere (E : Env K) (p c : Fin 3 → K) (ρ : K) :
    (distanceLam.compute cgaMetric true E [cgaPt p, cgaSphere c ρ] >>= single) = ok ⟨[0], [(ρ - (p - c) ⬝ᵥ (p - c)) / 2]⟩ := by
  rw [lam_ratPolys cgaMetric true E (by rfl) incidence_ratPolys]
  simp only [cgaPt, cgaArg, cgaSphere, cgaVector, Entity.toArg]
  rat_value incidenceRatPolys
  simp only [dotProduct, Fin.sum_univ_three, Pi.sub_apply]
  refine scalar_ext ?_
  ring

/-- C56: a point lies on a plane if its product with the plane is zero. -/
theorem C56_plane (E : Env K) (p n : Fin 3 → K) (d : K) :
    (distanceLam.compute cgaMetric true E [cgaPt p, cgaPlane n d] >>= single) = ok ⟨[0], [n ⬝ᵥ p - d]⟩ := by
  rw [lam_ratPolys cgaMetric true E (by rfl) incidence_ratPolys]
  simp only [cgaPt, cgaArg, cgaPlane, cgaVector, Entity.toArg]
  rat_value incidenceRatPolys
  simp only [dotProduct, Fin.sum_univ_three]
  refine scalar_ext ?_
  ring

omit [Field K] [CharZero K] in
/-- Comparison of the five coefficients of a vector. -/
theorem vector_ext {a b c d e a' b' c' d' e' : K} (h1 : a = a') (h2 : b = b') (h3 : c = c') (h4 : d = d') (h5 : e = e') :
    (ok ⟨[1, 2, 4, 8, 16], [a, b, c, d, e]⟩ : Out (Entity K)) = ok ⟨[1, 2, 4, 8, 16], [a', b', c', d', e']⟩ := by
  rw [h1, h2, h3, h4, h5]

/-- C56: results of `compute` can be used as points: the product with a point of weight `w` is the squared distance, up to `-w/2`. -/
theorem C56_distance (E : Env K) (p q : Fin 3 → K) (w : K) :
    (distanceLam.compute cgaMetric true E [cgaPt p, (conformalPoint w q).toArg] >>= single) = ok ⟨[0], [-w * ((p - q) ⬝ᵥ (p - q)) / 2]⟩ := by
  rw [lam_ratPolys cgaMetric true E (by rfl) incidence_ratPolys]
  simp only [cgaPt, cgaArg, conformalPoint, Entity.toArg]
  rat_value incidenceRatPolys
  simp only [dotProduct, Fin.sum_univ_three, Pi.sub_apply]
  refine scalar_ext ?_
  ring

/-- The translator `1 - ½ t ni`. -/
def translator (t : Fin 3 → K) : Arg K := cgaTranslator [1, -t 0 / 2, -t 1 / 2, -t 2 / 2]

/-- C56: a translator moves a point by its vector. -/
theorem C56_translate (E : Env K) (p t : Fin 3 → K) :
    (sandwichLam.compute cgaMetric true E [cgaPt p, translator t] >>= single) = ok (conformalPoint 1 (p + t)) := by
  rw [lam_ratPolys cgaMetric true E (by rfl) translate_ratPolys]
  simp only [cgaPt, cgaArg, translator, cgaTranslator, Entity.toArg, conformalPoint]
  rat_value translateRatPolys
  simp only [dotProduct, Fin.sum_univ_three, Pi.add_apply]
  refine vector_ext ?_ ?_ ?_ ?_ ?_ <;> ring

/-- C56, reading a result as a `cga::point`, for the weight 1.  Other weights are missing: there the claim is false (`C56_point_false`). -/
theorem C56_point_partial (p : Fin 3 → K) : vectorOf 5 (conformalPoint 1 p) = ok [p 0, p 1, p 2] := by
  unfold vectorOf Entity.selectMany conformalPoint
  rw [if_neg (by simp)]
  simp only [mapO]
  rw [select_of (k := 0) (by decide) (by decide) rfl rfl, select_of (k := 1) (by decide) (by decide) rfl rfl,
    select_of (k := 2) (by decide) (by decide) rfl rfl]
  simp [ok_bind, pure_eq]

/-- C56: the translated point as a `cga::point`. -/
theorem C56_translate_point (E : Env K) (p t : Fin 3 → K) :
    (sandwichLam.compute cgaMetric true E [cgaPt p, translator t] >>= single >>= vectorOf 5) = ok [p 0 + t 0, p 1 + t 1, p 2 + t 2] := by
  rw [C56_translate, ok_bind, C56_point_partial]
  rfl

/-- The rotor `cos t - sin t (k e123)`, where `k` is the axis and `2t` the angle. -/
noncomputable def axisRotor (t : ℝ) (k : Fin 3 → ℝ) : Arg ℝ :=
  cgaRotor [Real.cos t, -(Real.sin t * k 2), Real.sin t * k 1, -(Real.sin t * k 0)]

/-- C56: a rotor rotates a point about its axis through the origin. -/
theorem C56_rotate (E : Env ℝ) (p k : Fin 3 → ℝ) (t : ℝ) (hk : k ⬝ᵥ k = 1) :
    (sandwichLam.compute cgaMetric true E [cgaPt p, axisRotor t k] >>= single) = ok (conformalPoint 1 (rodrigues (2 * t) k p)) := by
  have hcs := Real.sin_sq_add_cos_sq t
  rw [lam_ratPolys cgaMetric true E (by rfl) rotateC_ratPolys]
  simp only [cgaPt, cgaArg, axisRotor, cgaRotor, Entity.toArg, conformalPoint, rodrigues, cross_apply]
  rat_value rotateCRatPolys
  simp only [dotProduct, Fin.sum_univ_three, Pi.add_apply, Pi.smul_apply, smul_eq_mul, Real.cos_two_mul, Real.sin_two_mul,
    Matrix.cons_val_zero, Matrix.cons_val_one, Matrix.cons_val] at hk ⊢
  generalize Real.cos t = c at *
  generalize Real.sin t = s at *
  refine vector_ext ?_ ?_ ?_ ?_ ?_
  · linear_combination (2 * k 0 * (k 0 * p 0 + k 1 * p 1 + k 2 * p 2) - p 0 * (k 0 * k 0 + k 1 * k 1 + k 2 * k 2)) * hcs - p 0 * (1 - c ^ 2) * hk
  · linear_combination (2 * k 1 * (k 0 * p 0 + k 1 * p 1 + k 2 * p 2) - p 1 * (k 0 * k 0 + k 1 * k 1 + k 2 * k 2)) * hcs - p 1 * (1 - c ^ 2) * hk
  · linear_combination (2 * k 2 * (k 0 * p 0 + k 1 * p 1 + k 2 * p 2) - p 2 * (k 0 * k 0 + k 1 * k 1 + k 2 * k 2)) * hcs - p 2 * (1 - c ^ 2) * hk
  · linear_combination hcs + s ^ 2 * hk
  · linear_combination (p 0 * p 0 + p 1 * p 1 + p 2 * p 2) / 2 * (hcs + s ^ 2 * hk) -
      ((p 0 * p 0 + p 1 * p 1 + p 2 * p 2) - (k 0 * p 0 + k 1 * p 1 + k 2 * p 2) ^ 2) * (2 * c ^ 2) * hcs -
      ((2 * s * c) ^ 2 * (p 0 * p 0 + p 1 * p 1 + p 2 * p 2) + (2 - 2 * c ^ 2) ^ 2 * (k 0 * p 0 + k 1 * p 1 + k 2 * p 2) ^ 2) / 2 * hk

example : (![0, 0, 1] : Fin 3 → ℝ) ⬝ᵥ ![0, 0, 1] = 1 := by simp

/-- C56: a dilator `a + b (no ^ ni)` with `a ≠ b` stretches by the factor `(a + b) / (a - b)`; the result has the weight `(a - b)²`. -/
theorem C56_dilate (E : Env K) (p : Fin 3 → K) {a b : K} (h0 : a - b ≠ 0) :
    (sandwichLam.compute cgaMetric true E [cgaPt p, cgaDilator [a, b]] >>= single) =
      ok (conformalPoint ((a - b) ^ 2) (((a + b) / (a - b)) • p)) := by
  rw [lam_ratPolys cgaMetric true E (by rfl) dilate_ratPolys]
  simp only [cgaPt, cgaArg, cgaDilator, Entity.toArg, conformalPoint]
  rat_value dilateRatPolys
  simp only [dotProduct, Fin.sum_univ_three, Pi.smul_apply, smul_eq_mul]
  refine vector_ext ?_ ?_ ?_ ?_ ?_ <;> field_simp <;> ring

example : (3 : ℚ) - 1 ≠ 0 := by norm_num

omit [CharZero K] in
theorem weight_one {D : K} (h0 : D ≠ 0) (a r b : K) : -(D * (a + r / D * b)) = -(D * a) - r * b := by
  field_simp
  ring

theorem weight_sq {D : K} (h0 : D ≠ 0) (a b c d e f r : K) (h : d * d + e * e + f * f = D) :
    -(D * ((a + r / D * d) * (a + r / D * d) + (b + r / D * e) * (b + r / D * e) + (c + r / D * f) * (c + r / D * f))) / 2 =
      -(D * (a * a + b * b + c * c) + 2 * r * (a * d + b * e + c * f) + r ^ 2) / 2 := by
  have h' : r ^ 2 = r ^ 2 / D * (d * d + e * e + f * f) := by rw [h]; field_simp
  rw [h']
  field_simp
  ring

/-- C56: a sphere inverts a point that is not its centre; the weight is minus the squared distance from the centre. -/
theorem C56_invert (E : Env K) (p c : Fin 3 → K) (ρ : K) (h0 : (p - c) ⬝ᵥ (p - c) ≠ 0) :
    (sandwichLam.compute cgaMetric true E [cgaPt p, cgaSphere c ρ] >>= single) =
      ok (conformalPoint (-((p - c) ⬝ᵥ (p - c))) (inversion c ρ p)) := by
  rw [lam_ratPolys cgaMetric true E (by rfl) invert_ratPolys]
  simp only [cgaPt, cgaArg, cgaSphere, cgaVector, Entity.toArg, conformalPoint, inversion]
  rat_value invertRatPolys
  simp only [dotProduct, Fin.sum_univ_three, Pi.smul_apply, smul_eq_mul, Pi.add_apply, Pi.sub_apply] at h0 ⊢
  generalize hD : (p 0 - c 0) * (p 0 - c 0) + (p 1 - c 1) * (p 1 - c 1) + (p 2 - c 2) * (p 2 - c 2) = D at h0 ⊢
  rw [weight_one h0, weight_one h0, weight_one h0, weight_sq h0 _ _ _ _ _ _ _ hD]
  refine vector_ext ?_ ?_ ?_ ?_ ?_ <;> rw [← hD] <;> ring

example : ((![2, 0, 0] : Fin 3 → ℚ) - ![1, 0, 0]) ⬝ᵥ (![2, 0, 0] - ![1, 0, 0]) ≠ 0 ∧ inversion (![1, 0, 0] : Fin 3 → ℚ) 4 ![2, 0, 0] = ![5, 0, 0] := by
  constructor
  · decide +kernel
  · decide +kernel

/-- C56: a plane mirrors a point; the weight is minus the squared length of the normal vector. -/
theorem C56_mirror (E : Env K) (p n : Fin 3 → K) (d : K) (h0 : n ⬝ᵥ n ≠ 0) :
    (sandwichLam.compute cgaMetric true E [cgaPt p, cgaPlane n d] >>= single) =
      ok (conformalPoint (-(n ⬝ᵥ n)) (mirror n (-d) p)) := by
  rw [lam_ratPolys cgaMetric true E (by rfl) invert_ratPolys]
  have hm : mirror n (-d) p = p + ((-2 * (n ⬝ᵥ p - d)) / (n ⬝ᵥ n)) • n := by
    funext i
    simp only [mirror, Pi.add_apply, Pi.sub_apply, Pi.smul_apply, smul_eq_mul]
    field_simp
    ring
  rw [hm]
  simp only [cgaPt, cgaArg, cgaPlane, cgaVector, Entity.toArg, conformalPoint]
  rat_value invertRatPolys
  simp only [dotProduct, Fin.sum_univ_three, Pi.smul_apply, smul_eq_mul, Pi.add_apply] at h0 ⊢
  generalize hD : n 0 * n 0 + n 1 * n 1 + n 2 * n 2 = D at h0 ⊢
  rw [← neg_mul 2]
  rw [weight_one h0, weight_one h0, weight_one h0, weight_sq h0 _ _ _ _ _ _ _ hD]
  refine vector_ext ?_ ?_ ?_ ?_ ?_ <;> rw [← hD] <;> ring

example : (![1, 2, 2] : Fin 3 → ℚ) ⬝ᵥ ![1, 2, 2] ≠ 0 := by decide +kernel

/-- C56, the negation of what one expects of `cga::point{p % D}`: the constructor does not divide by the weight, so the coordinates of the
stretched point are wrong. -/
theorem C56_point_false (E : Env ℚ) : ∃ r, (sandwichLam.compute cgaMetric true E [cgaPt ![1, 0, 0], cgaDilator [3, 1]] >>= single) = ok r ∧
    r = conformalPoint 4 ![2, 0, 0] ∧ vectorOf 5 r = ok [8, 0, 0] := by
  have e1 : (![1, 0, 0] : Fin 3 → ℚ) 2 = 0 := rfl
  have e2 : (![2, 0, 0] : Fin 3 → ℚ) 2 = 0 := rfl
  refine ⟨_, C56_dilate E _ (by norm_num), ?_, ?_⟩
  · norm_num [conformalPoint, dotProduct, Fin.sum_univ_three, e1, e2]
  · unfold vectorOf Entity.selectMany conformalPoint
    rw [if_neg (by simp)]
    simp only [mapO]
    rw [select_of (k := 0) (by decide) (by decide) rfl rfl, select_of (k := 1) (by decide) (by decide) rfl rfl,
      select_of (k := 2) (by decide) (by decide) rfl rfl]
    norm_num [ok_bind, pure_eq, e1]

/-- C56, the negation for the literal `1_ni`: the product of a point with infinity should be `-1` for every point. -/
theorem C56_infinity_false (E : Env K) (p : Fin 3 → K) :
    (infinityLam.compute cgaMetric true E [cgaPt p] >>= single) = ok ⟨[0], [-(1 + p ⬝ᵥ p) / 2]⟩ := by
  rw [lam_ratPolys cgaMetric true E (by rfl) infinity_ratPolys]
  simp only [cgaPt, cgaArg]
  rat_value infinityRatPolys
  simp only [dotProduct, Fin.sum_univ_three]
  refine scalar_ext ?_
  ring

omit [CharZero K] in
/-- Three points lie on a line if the cross product of their differences is zero. -/
theorem collinear_cross (x p q : Fin 3 → K) : Collinear K {x, p, q} ↔ (p - x) ⨯₃ (q - x) = 0 := by
  rw [collinear_iff_of_mem (p₀ := x) (by simp)]
  constructor
  · rintro ⟨v, hv⟩
    obtain ⟨a, ha⟩ := hv p (by simp)
    obtain ⟨b, hb⟩ := hv q (by simp)
    rw [ha, hb]
    simp [vadd_eq_add]
  · intro h
    have h0 := congrFun h 0
    have h1 := congrFun h 1
    have h2 := congrFun h 2
    simp only [cross_apply, Pi.sub_apply, Matrix.cons_val_zero, Matrix.cons_val_one, Matrix.cons_val, Pi.zero_apply] at h0 h1 h2
    by_cases hp : p = x
    · refine ⟨q - x, ?_⟩
      rintro y (rfl | rfl | rfl)
      · exact ⟨0, by simp⟩
      · exact ⟨0, by simp [hp]⟩
      · exact ⟨1, by simp⟩
    · refine ⟨p - x, ?_⟩
      rintro y (rfl | rfl | rfl)
      · exact ⟨0, by simp⟩
      · exact ⟨1, by simp⟩
      · obtain ⟨i, hi⟩ := Function.ne_iff.mp hp
        have hi : p i - x i ≠ 0 := sub_ne_zero.mpr hi
        refine ⟨(y i - x i) / (p i - x i), ?_⟩
        funext j
        rw [vadd_eq_add, Pi.add_apply, Pi.smul_apply, Pi.sub_apply, smul_eq_mul]
        field_simp
        fin_cases i <;> fin_cases j <;> simp only [Fin.zero_eta, Fin.mk_one, Fin.reduceFinMk, Fin.isValue] at * <;>
          first
            | ring1
            | linear_combination h0
            | linear_combination -h0
            | linear_combination h1
            | linear_combination -h1
            | linear_combination h2
            | linear_combination -h2

/-- C56: `x ^ p ^ q ^ n`, where `n` is a multiple of infinity passed as an argument, is zero exactly if the points lie on a line. -/
theorem C56_line (E : Env K) (x p q : Fin 3 → K) {w : K} (h0 : w ≠ 0) :
    ∃ r, (wedgeLam4.compute cgaMetric true E [cgaPt x, cgaPt p, cgaPt q, cgaInfinity w] >>= single) = ok r ∧
      ((∀ v ∈ r.data, v = 0) ↔ Collinear K {x, p, q}) := by
  refine ⟨_, lam_ratPolys cgaMetric true E (by rfl) collinear_ratPolys, ?_⟩
  simp only [cgaPt, cgaArg, cgaInfinity, Entity.toArg]
  rat_value collinearRatPolys
  rw [collinear_cross]
  simp only [List.mem_cons, List.not_mem_nil, or_false, forall_eq_or_imp, forall_eq]
  constructor
  · rintro ⟨-, h1, h2, h3⟩
    funext i
    fin_cases i <;> simp only [cross_apply, Pi.sub_apply, Matrix.cons_val_zero, Matrix.cons_val_one, Matrix.cons_val, Pi.zero_apply,
      Fin.zero_eta, Fin.mk_one, Fin.reduceFinMk, Fin.isValue] <;> refine (mul_eq_zero.mp (?_ : w * _ = 0)).resolve_left h0
    · linear_combination h3
    · linear_combination -h2
    · linear_combination h1
  · intro h
    have h1 := congrFun h 0
    have h2 := congrFun h 1
    have h3 := congrFun h 2
    simp only [cross_apply, Pi.sub_apply, Matrix.cons_val_zero, Matrix.cons_val_one, Matrix.cons_val, Pi.zero_apply] at h1 h2 h3
    refine ⟨?_, ?_, ?_, ?_⟩
    · linear_combination w * (x 0 * h1 + x 1 * h2 + x 2 * h3)
    · linear_combination w * h3
    · linear_combination -w * h2
    · linear_combination w * h1

example : Collinear ℚ {(![0, 0, 0] : Fin 3 → ℚ), ![1, 2, 3], ![2, 4, 6]} ∧ ¬ Collinear ℚ {(![0, 0, 0] : Fin 3 → ℚ), ![1, 2, 3], ![2, 4, 5]} := by
  rw [collinear_cross, collinear_cross]
  decide +kernel

omit [CharZero K] in
/-- Four points lie on a plane if the determinant of their differences is zero. -/
theorem onPlane_det (P : Fin 4 → Fin 3 → K) : OnPlane P ↔ (Matrix.of ![P 1 - P 0, P 2 - P 0, P 3 - P 0]).det = 0 := by
  rw [← Matrix.exists_mulVec_eq_zero_iff]
  constructor
  · rintro ⟨a, d, h0, h⟩
    refine ⟨a, h0, ?_⟩
    funext i
    have key : ∀ j : Fin 4, (P j - P 0) ⬝ᵥ a = 0 := fun j => by
      rw [sub_dotProduct, dotProduct_comm, h, dotProduct_comm, h, sub_self]
    fin_cases i
    · exact key 1
    · exact key 2
    · exact key 3
  · rintro ⟨a, h0, h⟩
    refine ⟨a, a ⬝ᵥ P 0, h0, ?_⟩
    have key : ∀ j : Fin 4, (P j - P 0) ⬝ᵥ a = 0 → a ⬝ᵥ P j = a ⬝ᵥ P 0 := fun j hj => by
      rw [sub_dotProduct, sub_eq_zero] at hj
      rw [dotProduct_comm, hj, dotProduct_comm]
    intro i
    fin_cases i
    · rfl
    · exact key 1 (congrFun h 0)
    · exact key 2 (congrFun h 1)
    · exact key 3 (congrFun h 2)

/-- C56: `x ^ p ^ q ^ r ^ n`, where `n` is a multiple of infinity passed as an argument, is zero exactly if the points lie on a plane. -/
theorem C56_coplanar (E : Env K) (P : Fin 4 → Fin 3 → K) {w : K} (h0 : w ≠ 0) :
    ∃ v, (wedgeLam5.compute cgaMetric true E [cgaPt (P 0), cgaPt (P 1), cgaPt (P 2), cgaPt (P 3), cgaInfinity w] >>= single) = ok ⟨[31], [v]⟩ ∧
      (v = 0 ↔ OnPlane P) := by
  refine ⟨_, lam_ratPolys cgaMetric true E (by rfl) coplanar_ratPolys, ?_⟩
  simp only [cgaPt, cgaArg, cgaInfinity, Entity.toArg]
  rat_value coplanarRatPolys
  rw [onPlane_det, Matrix.det_fin_three]
  simp only [Matrix.of_apply, Matrix.cons_val_zero, Matrix.cons_val_one, Matrix.cons_val, Pi.sub_apply]
  constructor
  · intro h
    refine (mul_eq_zero.mp (?_ : w * _ = 0)).resolve_left h0
    first
      | linear_combination h
      | linear_combination -h
  · intro h
    first
      | linear_combination w * h
      | linear_combination -w * h

example : ¬ OnPlane (![![0, 0, 0], ![1, 0, 0], ![0, 1, 0], ![0, 0, 1]] : Fin 4 → Fin 3 → ℚ) := by
  rw [onPlane_det]
  decide +kernel

end Gal
