import Verif.Props.PlanePolys
import Verif.Props.Sandwich
import Verif.Spec.Plane

/-!
# Property C63: geometry of the plane through `compute`
-/

namespace Gal

open Out
open scoped Matrix

variable {K : Type} [Field K] [CharZero K]

omit [CharZero K] in
theorem dot2 (u v : Fin 2 → K) : u ⬝ᵥ v = u 0 * v 0 + u 1 * v 1 := by
  rw [dotProduct, Fin.sum_univ_two]

omit [CharZero K] in
theorem lineOf_entity2 (a b c : K) : pga2LineOf (⟨[1, 2, 4], [a, b, c]⟩ : Entity K) = ok [a, b, c] := by
  unfold pga2LineOf Entity.selectMany
  rw [if_neg (by simp)]
  simp only [mapO]
  rw [select_of (k := 0) (by decide) (by decide) rfl rfl, select_of (k := 1) (by decide) (by decide) rfl rfl,
    select_of (k := 2) (by decide) (by decide) rfl rfl]
  rfl

/-! ## Incidence -/

/-- **C63 (two lines)**: `a ^ b` is the point on both lines, with the determinant of the normals as weight. -/
theorem C63_meet (E : Env K) (n n' x : Fin 2 → K) (d d' : K) (h1 : n ⬝ᵥ x + d = 0) (h2 : n' ⬝ᵥ x + d' = 0) :
    (meetLam.compute pga2Metric false E [lineArg2 [d, n 0, n 1], lineArg2 [d', n' 0, n' 1]] >>= single) =
      ok ⟨[3, 5, 6], pointData2 x (n 0 * n' 1 - n 1 * n' 0)⟩ := by
  rw [lam_polys pga2Metric E (by rfl) meet2_polys]
  rw [dot2] at h1 h2
  simp only [lineArg2, pointData2]
  poly_value meet2Polys
  congr 2
  simp only [List.cons.injEq, and_true]
  refine ⟨?_, ?_, ?_⟩
  · linear_combination n' 0 * h1 - n 0 * h2
  · linear_combination n' 1 * h1 - n 1 * h2
  · ring

/-- **C63 (two points)**: `p & q` is the line through both points: at `x` its equation is twice the area of the triangle `p q x`. -/
theorem C63_join (E : Env K) (p q : Fin 2 → K) (w w' : K) :
    ∃ (n : Fin 2 → K) (d : K), (joinLam.compute pga2Metric false E [pointEnt2 (pointData2 p w), pointEnt2 (pointData2 q w')] >>= single >>= pga2LineOf) =
      ok [d, n 0, n 1] ∧ ∀ x, n ⬝ᵥ x + d = w * w' * area2 p q x := by
  refine ⟨![w * w' * (p 1 - q 1), w * w' * (q 0 - p 0)], w * w' * (p 0 * q 1 - p 1 * q 0), ?_, fun x => ?_⟩
  · rw [lam_polys pga2Metric E (by rfl) join2_polys, ok_bind]
    simp only [pointEnt2, Entity.toArg, pointData2]
    poly_value join2Polys
    rw [lineOf_entity2]
    simp only [Matrix.cons_val_zero, Matrix.cons_val_one]
    congr 1
    simp only [List.cons.injEq, and_true]
    refine ⟨?_, ?_, ?_⟩ <;> ring
  · simp only [dot2, area2, Matrix.cons_val_zero, Matrix.cons_val_one]
    ring

/-- **C63 (incidence)**: `a ^ p` is the equation of the line at the point. -/
theorem C63_incidence (E : Env K) (n p : Fin 2 → K) (d w : K) :
    (meetLam.compute pga2Metric false E [lineArg2 [d, n 0, n 1], pointEnt2 (pointData2 p w)] >>= single) = ok ⟨[7], [w * (n ⬝ᵥ p + d)]⟩ := by
  rw [lam_polys pga2Metric E (by rfl) incident2_polys]
  simp only [lineArg2, pointEnt2, Entity.toArg, pointData2, dot2]
  poly_value incident2Polys
  congr 3
  ring

/-- **C63 (area)**: `(p & q) & r` is twice the area of the triangle. -/
theorem C63_area (E : Env K) (p q r : Fin 2 → K) (u v w : K) :
    (joinLam3.compute pga2Metric false E [pointEnt2 (pointData2 p u), pointEnt2 (pointData2 q v), pointEnt2 (pointData2 r w)] >>= single) =
      ok ⟨[0], [u * v * w * area2 p q r]⟩ := by
  rw [lam_polys pga2Metric E (by rfl) area2_polys]
  simp only [pointEnt2, Entity.toArg, pointData2, area2]
  poly_value area2Polys
  congr 3
  ring

/-! ## Perpendiculars -/

/-- **C63 (angle)**: `a | b` is the inner product of the normals. -/
theorem C63_lines (E : Env K) (n n' : Fin 2 → K) (d d' : K) :
    (innerLam.compute pga2Metric false E [lineArg2 [d, n 0, n 1], lineArg2 [d', n' 0, n' 1]] >>= single) = ok ⟨[0], [n ⬝ᵥ n']⟩ := by
  rw [lam_polys pga2Metric E (by rfl) dotLines2_polys]
  simp only [lineArg2, dot2]
  poly_value dotLines2Polys

/-- **C63 (perpendicular)**: `p | a` is the line through `p` perpendicular to `a`. -/
theorem C63_perpendicular (E : Env K) (n p : Fin 2 → K) (d w : K) :
    ∃ (n' : Fin 2 → K) (d' : K), (innerLam.compute pga2Metric false E [pointEnt2 (pointData2 p w), lineArg2 [d, n 0, n 1]] >>= single >>= pga2LineOf) =
      ok [d', n' 0, n' 1] ∧ n' ⬝ᵥ n = 0 ∧ n' ⬝ᵥ p + d' = 0 ∧ n' ⬝ᵥ n' = w ^ 2 * (n ⬝ᵥ n) := by
  refine ⟨![w * n 1, -(w * n 0)], w * (p 1 * n 0 - p 0 * n 1), ?_, ?_, ?_, ?_⟩
  · rw [lam_polys pga2Metric E (by rfl) perp2_polys, ok_bind]
    simp only [pointEnt2, lineArg2, Entity.toArg, pointData2]
    poly_value perp2Polys
    rw [lineOf_entity2]
    simp only [Matrix.cons_val_zero, Matrix.cons_val_one]
    congr 1
    simp only [List.cons.injEq, and_true]
    ring
  all_goals
    simp only [dot2, Matrix.cons_val_zero, Matrix.cons_val_one]
    ring

/-- **C63 (parallel)**: `(a | p) * p` is the line through `p` parallel to `a`. -/
theorem C63_parallel (E : Env K) (n p : Fin 2 → K) (d w : K) :
    ∃ d', (projectDual.compute pga2Metric false E [lineArg2 [d, n 0, n 1], pointEnt2 (pointData2 p w)] >>= single >>= pga2LineOf) =
      ok [d', -w ^ 2 * n 0, -w ^ 2 * n 1] ∧ -w ^ 2 * (n ⬝ᵥ p) + d' = 0 := by
  refine ⟨w ^ 2 * (n ⬝ᵥ p), ?_, by ring⟩
  rw [lam_polys pga2Metric E (by rfl) parallel2_polys, ok_bind]
  simp only [pointEnt2, lineArg2, Entity.toArg, pointData2, dot2]
  poly_value parallel2Polys
  rw [lineOf_entity2]
  congr 1
  simp only [List.cons.injEq, and_true]
  refine ⟨?_, ?_, ?_⟩ <;> ring

/-- **C63 (foot)**: `(p | a) * a` is the foot of the perpendicular from `p` to the line. -/
theorem C63_foot (E : Env K) (n p : Fin 2 → K) (d w : K) (h0 : n ⬝ᵥ n ≠ 0) :
    ∃ (f : Fin 2 → K) (t : K), (projectDual.compute pga2Metric false E [pointEnt2 (pointData2 p w), lineArg2 [d, n 0, n 1]] >>= single) =
      ok ⟨[3, 5, 6], pointData2 f (w * (n ⬝ᵥ n))⟩ ∧ f = p + t • n ∧ n ⬝ᵥ f + d = 0 := by
  obtain ⟨t, ht⟩ : ∃ t, t * (n ⬝ᵥ n) = -(n ⬝ᵥ p + d) := ⟨_, div_mul_cancel₀ _ h0⟩
  refine ⟨_, t, ?_, rfl, ?_⟩
  · rw [lam_polys pga2Metric E (by rfl) foot2_polys]
    rw [dot2, dot2] at ht
    simp only [pointEnt2, lineArg2, Entity.toArg, pointData2, dot2, Pi.add_apply, Pi.smul_apply, smul_eq_mul]
    poly_value foot2Polys
    congr 2
    simp only [List.cons.injEq, and_true]
    refine ⟨?_, ?_, ?_⟩
    · linear_combination -w * n 1 * ht
    · linear_combination w * n 0 * ht
    · ring
  · rw [dotProduct_add, dotProduct_smul, smul_eq_mul, ht]
    ring

/-! ## Motions -/

/-- `x % v` for points and lines are the images under one map `T` of the plane; `w` and `w'` are the weights of points and lines. -/
def Moves2 (v : Arg K) (T : (Fin 2 → K) → Fin 2 → K) (w w' : K) : Prop :=
  (∀ (E : Env K) (p : Fin 2 → K) (s : K), (sandwichLam.compute pga2Metric false E [pointEnt2 (pointData2 p s), v] >>= single) =
    ok ⟨[3, 5, 6], pointData2 (T p) (w * s)⟩) ∧
  ∀ (E : Env K) (n : Fin 2 → K) (d : K), ∃ (n' : Fin 2 → K) (d' : K),
    (sandwichLam.compute pga2Metric false E [lineArg2 [d, n 0, n 1], v] >>= single >>= pga2LineOf) = ok [d', n' 0, n' 1] ∧
      ∀ x, n' ⬝ᵥ T x + d' = w' * (n ⬝ᵥ x + d)

/-- **C63 (reflections)**: `x % b` for a line `b` is the reflection in `b`. -/
theorem C63_mirror (n : Fin 2 → K) (d : K) (h0 : n ⬝ᵥ n ≠ 0) :
    Moves2 (lineArg2 [d, n 0, n 1]) (mirror2 n d) (-(n ⬝ᵥ n)) (-(n ⬝ᵥ n)) := by
  have hm : ∀ x, ∃ t, t * (n ⬝ᵥ n) = n ⬝ᵥ x + d ∧ mirror2 n d x = x - (2 * t) • n :=
    fun x => ⟨(n ⬝ᵥ x + d) / (n ⬝ᵥ n), div_mul_cancel₀ _ h0, by rw [mirror2, mul_div_assoc]⟩
  refine ⟨fun E p s => ?_, fun E a c => ⟨(2 * (a ⬝ᵥ n)) • n - (n ⬝ᵥ n) • a, 2 * (a ⬝ᵥ n) * d - (n ⬝ᵥ n) * c, ?_, fun x => ?_⟩⟩
  · obtain ⟨t, ht, hm⟩ := hm p
    rw [hm, lam_polys pga2Metric E (by rfl) pointMirror2_polys]
    rw [dot2, dot2] at ht
    simp only [pointEnt2, lineArg2, Entity.toArg, pointData2, dot2, Pi.sub_apply, Pi.smul_apply, smul_eq_mul]
    poly_value pointMirror2Polys
    congr 2
    simp only [List.cons.injEq, and_true]
    refine ⟨?_, ?_, ?_⟩
    · linear_combination -2 * s * n 1 * ht
    · linear_combination 2 * s * n 0 * ht
    · ring
  · rw [lam_polys pga2Metric E (by rfl) lineMirror2_polys, ok_bind]
    simp only [lineArg2, dot2, Pi.sub_apply, Pi.smul_apply, smul_eq_mul]
    poly_value lineMirror2Polys
    rw [lineOf_entity2]
    congr 1
    simp only [List.cons.injEq, and_true]
    refine ⟨?_, ?_, ?_⟩ <;> ring
  · obtain ⟨t, ht, hm⟩ := hm x
    rw [hm]
    simp only [dot2, Pi.sub_apply, Pi.smul_apply, smul_eq_mul] at ht ⊢
    linear_combination (-2 * (a 0 * n 0 + a 1 * n 1)) * ht

/-- **C63 (point reflections)**: `x % q` for a point `q` is the half turn about `q`. -/
theorem C63_point (q : Fin 2 → K) (r : K) : Moves2 (pointEnt2 (pointData2 q r)) (fun x => (2 : K) • q - x) (r ^ 2) (r ^ 2) := by
  refine ⟨fun E p s => ?_, fun E a c => ⟨-r ^ 2 • a, r ^ 2 * (2 * (a ⬝ᵥ q) + c), ?_, fun x => ?_⟩⟩
  · rw [lam_polys pga2Metric E (by rfl) pointCentre2_polys]
    simp only [pointEnt2, Entity.toArg, pointData2, Pi.sub_apply, Pi.smul_apply, smul_eq_mul]
    poly_value pointCentre2Polys
    congr 2
    simp only [List.cons.injEq, and_true]
    refine ⟨?_, ?_, ?_⟩ <;> ring
  · rw [lam_polys pga2Metric E (by rfl) lineCentre2_polys, ok_bind]
    simp only [lineArg2, pointEnt2, Entity.toArg, pointData2, dot2, Pi.smul_apply, smul_eq_mul]
    poly_value lineCentre2Polys
    rw [lineOf_entity2]
    congr 1
    simp only [List.cons.injEq, and_true]
    refine ⟨?_, ?_, ?_⟩ <;> ring
  · simp only [dot2, Pi.sub_apply, Pi.smul_apply, smul_eq_mul]
    ring

/-- The motion of a motor of the plane. -/
theorem motor2_moves (a b c d : K) (h0 : a * a + d * d ≠ 0) :
    Moves2 (motorEnt2 [a, b, c, d]) (fun x => ((a * a + d * d)⁻¹ • !![a * a - d * d, 2 * a * d; -2 * a * d, a * a - d * d]) *ᵥ x +
      (a * a + d * d)⁻¹ • ![-2 * (a * b + c * d), -2 * (a * c - b * d)]) (a * a + d * d) (a * a + d * d) := by
  have h2 : a ^ 2 + d ^ 2 ≠ 0 := fun h => h0 (by linear_combination h)
  refine ⟨fun E p s => ?_, fun E n k =>
    ⟨![(a * a - d * d) * n 0 + 2 * a * d * n 1, -2 * a * d * n 0 + (a * a - d * d) * n 1],
      (a * a + d * d) * k + 2 * (a * b - c * d) * n 0 + 2 * (a * c + b * d) * n 1, ?_, fun x => ?_⟩⟩
  · rw [lam_polys pga2Metric E (by rfl) pointMotor2_polys]
    simp only [pointEnt2, motorEnt2, Entity.toArg, pointData2, Pi.add_apply, Matrix.smul_mulVec, Pi.smul_apply, smul_eq_mul, Matrix.mulVec, dot2,
      Matrix.of_apply, Matrix.cons_val_zero, Matrix.cons_val_one]
    poly_value pointMotor2Polys
    congr 2
    simp only [List.cons.injEq, and_true]
    refine ⟨?_, ?_, ?_⟩ <;> field_simp <;> ring
  · rw [lam_polys pga2Metric E (by rfl) lineMotor2_polys, ok_bind]
    simp only [lineArg2, motorEnt2, Entity.toArg, Matrix.cons_val_zero, Matrix.cons_val_one]
    poly_value lineMotor2Polys
    rw [lineOf_entity2]
    congr 1
    simp only [List.cons.injEq, and_true]
    refine ⟨?_, ?_, ?_⟩ <;> ring
  · simp only [dot2, Pi.add_apply, Matrix.smul_mulVec, Pi.smul_apply, smul_eq_mul, Matrix.mulVec,
      Matrix.of_apply, Matrix.cons_val_zero, Matrix.cons_val_one]
    field_simp
    ring

/-- **C63 (motors)**: `x % m` for a motor `m` of the plane is a rotation followed by a translation. -/
theorem C63_motor (a b c d : K) (h0 : a * a + d * d ≠ 0) :
    ∃ (R : Matrix (Fin 2) (Fin 2) K) (t : Fin 2 → K), IsRotation2 R ∧
      Moves2 (motorEnt2 [a, b, c, d]) (fun x => R *ᵥ x + t) (a * a + d * d) (a * a + d * d) := by
  have h2 : a ^ 2 + d ^ 2 ≠ 0 := fun h => h0 (by linear_combination h)
  refine ⟨_, _, ⟨?_, ?_⟩, motor2_moves a b c d h0⟩
  · ext i j
    fin_cases i <;> fin_cases j <;>
      simp [Matrix.mul_apply, Fin.sum_univ_two] <;> field_simp <;> ring
  · rw [Matrix.det_fin_two]
    simp
    field_simp
    ring

/-- **C63 (two reflections)**: moving by the product `a * b` of two lines is reflecting in `b` and then in `a`. -/
theorem C63_reflections (E : Env K) (n n' x : Fin 2 → K) (d d' s : K) (h0 : n ⬝ᵥ n ≠ 0) (h0' : n' ⬝ᵥ n' ≠ 0) :
    ∃ r : Entity K, (productLam.compute pga2Metric false E [lineArg2 [d, n 0, n 1], lineArg2 [d', n' 0, n' 1]] >>= single) = ok r ∧
      (sandwichLam.compute pga2Metric false E [pointEnt2 (pointData2 x s), r.toArg] >>= single) =
        ok ⟨[3, 5, 6], pointData2 (mirror2 n d (mirror2 n' d' x)) ((n ⬝ᵥ n) * (n' ⬝ᵥ n') * s)⟩ := by
  obtain ⟨t', ht'⟩ : ∃ t', t' = (n' ⬝ᵥ x + d') / (n' ⬝ᵥ n') := ⟨_, rfl⟩
  obtain ⟨t, ht⟩ : ∃ t, t = (n ⬝ᵥ (mirror2 n' d' x) + d) / (n ⬝ᵥ n) := ⟨_, rfl⟩
  have hm' : mirror2 n' d' x = x - (2 * t') • n' := by rw [mirror2, ht', mul_div_assoc]
  have hm : mirror2 n d (mirror2 n' d' x) = x - (2 * t') • n' - (2 * t) • n := by rw [mirror2, mul_div_assoc, ← ht, hm']
  rw [eq_div_iff h0'] at ht'
  rw [eq_div_iff h0, hm'] at ht
  have hr := lam_polys pga2Metric E (args := [lineArg2 [d, n 0, n 1], lineArg2 [d', n' 0, n' 1]]) (by rfl) lines2_polys
  simp only [lineArg2] at hr
  refine ⟨_, hr, ?_⟩
  poly_value lines2Polys
  rw [show (Entity.toArg _ : Arg K) = motorEnt2 _ from rfl, lam_polys pga2Metric E (by rfl) pointMotor2_polys, hm]
  simp only [dot2, Pi.sub_apply, Pi.smul_apply, smul_eq_mul] at ht ht'
  simp only [pointEnt2, motorEnt2, Entity.toArg, pointData2, dot2, Pi.sub_apply, Pi.smul_apply, smul_eq_mul]
  poly_value pointMotor2Polys
  congr 2
  simp only [List.cons.injEq, and_true]
  refine ⟨?_, ?_, ?_⟩
  · linear_combination s * (2 * n' 1 * (n 0 * n 0 + n 1 * n 1) - 4 * n 1 * (n 0 * n' 0 + n 1 * n' 1)) * ht' +
      2 * s * n 1 * (n' 0 * n' 0 + n' 1 * n' 1) * ht
  · linear_combination -s * (2 * n' 0 * (n 0 * n 0 + n 1 * n 1) - 4 * n 0 * (n 0 * n' 0 + n 1 * n' 1)) * ht' -
      2 * s * n 0 * (n' 0 * n' 0 + n' 1 * n' 1) * ht
  · ring

/-- **C63 (composition)**: moving by the product `m * n` of two motors is moving by `n` and then by `m`. -/
theorem C63_product (E : Env K) (a b c d a' b' c' d' : K) (p : Fin 2 → K) (s : K) (h0 : a * a + d * d ≠ 0) (h1 : a' * a' + d' * d' ≠ 0) :
    ∃ (r e e' : Entity K), (productLam.compute pga2Metric false E [motorEnt2 [a, b, c, d], motorEnt2 [a', b', c', d']] >>= single) = ok r ∧
      (sandwichLam.compute pga2Metric false E [pointEnt2 (pointData2 p s), motorEnt2 [a', b', c', d']] >>= single) = ok e ∧
      (sandwichLam.compute pga2Metric false E [e.toArg, motorEnt2 [a, b, c, d]] >>= single) = ok e' ∧
      (sandwichLam.compute pga2Metric false E [pointEnt2 (pointData2 p s), r.toArg] >>= single) = ok e' := by
  have hr := lam_polys pga2Metric E (args := [motorEnt2 [a, b, c, d], motorEnt2 [a', b', c', d']]) (by rfl) motors2_polys
  simp only [motorEnt2, Entity.toArg] at hr
  obtain ⟨R, t, -, hM, -⟩ := C63_motor a b c d h0
  obtain ⟨R', t', -, hM', -⟩ := C63_motor a' b' c' d' h1
  refine ⟨_, _, _, hr, hM' E p s, hM E _ _, ?_⟩
  have e1 := hM' E p s
  have e2 := hM E (R' *ᵥ p + t') ((a' * a' + d' * d') * s)
  rw [lam_polys pga2Metric E (by rfl) pointMotor2_polys] at e1 e2
  rw [← e2]
  poly_value motors2Polys
  rw [show (Entity.toArg _ : Arg K) = motorEnt2 _ from rfl, lam_polys pga2Metric E (by rfl) pointMotor2_polys]
  rw [ok_inj] at e1
  simp only [pointEnt2, motorEnt2, Entity.toArg] at e1 ⊢
  injection e1 with _ e1
  rw [← e1]
  simp only [pointData2]
  poly_value pointMotor2Polys
  congr 2
  simp only [List.cons.injEq, and_true]
  refine ⟨?_, ?_, ?_⟩ <;> ring

/-! ## The type of points -/

/-- `pga2::point` is not a point in this sense: for the line `x = 1` and the point `(1, 2)` on it `a ^ p` is not zero. -/
theorem C63_point_type_false (E : Env ℚ) :
    (meetLam.compute pga2Metric false E [lineArg2 [-1, 1, 0], pointArg2 [1, 2]] >>= single) = ok ⟨[7], [-2]⟩ := by
  rw [lam_polys pga2Metric E (by rfl) pointType2_polys]
  simp only [lineArg2, pointArg2]
  poly_value pointType2Polys
  norm_num

/-- And the common point of the lines `x = 1` and `y = 2` is not what the constructor `pga2::point{r}` reads. -/
theorem C63_point_of_false (E : Env ℚ) :
    (meetLam.compute pga2Metric false E [lineArg2 [-1, 1, 0], lineArg2 [-2, 0, 1]] >>= single >>= pga2PointOf) = ok [1, -1] := by
  have h := C63_meet E ![1, 0] ![0, 1] ![1, 2] (-1) (-2) (by rw [dot2]; simp) (by rw [dot2]; simp)
  simp only [Matrix.cons_val_zero, Matrix.cons_val_one] at h
  rw [h, ok_bind]
  simp only [pointData2, pga2PointOf, Matrix.cons_val_zero, Matrix.cons_val_one]
  rw [select_of (k := 1) (by decide) (by decide) rfl rfl, select_of (k := 0) (by decide) (by decide) rfl rfl,
    select_of (k := 2) (by decide) (by decide) rfl rfl]
  simp only [ok_bind, pure_eq]
  norm_num

/-! ## Examples -/

/-- The lines `x + 2 y = 5` and `3 x - y = 1` meet at `(1, 2)`. -/
example (E : Env ℚ) := C63_meet E ![1, 2] ![3, -1] ![1, 2] (-5) (-1) (by rw [dot2]; simp; norm_num) (by rw [dot2]; simp; norm_num)

/-- The line `x + 2 y = 5`. -/
example (E : Env ℚ) (p : Fin 2 → ℚ) := C63_foot E ![1, 2] p (-5) 3 (by rw [dot2]; simp; norm_num)

example := C63_mirror (K := ℚ) ![1, 2] (-5) (by rw [dot2]; simp; norm_num)

example := C63_motor (K := ℚ) 1 2 3 2 (by norm_num)

example (E : Env ℚ) (x : Fin 2 → ℚ) := C63_reflections E ![1, 2] ![3, -1] x (-5) (-1) 2 (by rw [dot2]; simp; norm_num) (by rw [dot2]; simp; norm_num)

example (E : Env ℚ) (p : Fin 2 → ℚ) := C63_product E 1 2 3 2 0 4 5 1 p 2 (by norm_num) (by norm_num)

end Gal
