import Verif.Props.Metric
import Mathlib.LinearAlgebra.Matrix.DotProduct
import Mathlib.LinearAlgebra.Matrix.ToLinearEquiv

/-!
# Property C60: two lines, and a line and a plane, in the projective algebra

A line through `q` with direction `u` is stored with the moment `(m0, -m1, m2)` of `m = q × u`, see `C38_line_constructor_false`.
-/

namespace Gal

open Out
open scoped Matrix

variable {K : Type} [Field K] [CharZero K]

/-- The argument for the line through `q` with direction `u`: `p & q` of two points is stored this way, see `C38_compute_line`. -/
def lineThrough (q u : Fin 3 → K) : Arg K := lineArg [u 0, u 1, u 2, (q ⨯₃ u) 0, -(q ⨯₃ u) 1, (q ⨯₃ u) 2]

/-- `l | m` for two lines. -/
def linesDotPolys : List (Nat × List IntMono) :=
    [(0, [(-1, [(0, 1), (6, 1)]), (-1, [(1, 1), (7, 1)]), (-1, [(2, 1), (8, 1)])])]

/-- `l & m` for two lines. -/
def linesJoinPolys : List (Nat × List IntMono) :=
    [(0, [(1, [(0, 1), (9, 1)]), (-1, [(1, 1), (10, 1)]), (1, [(2, 1), (11, 1)]), (1, [(3, 1), (6, 1)]), (-1, [(4, 1), (7, 1)]), (1, [(5, 1),
    (8, 1)])])]

/-- `l | a` for a line and a plane. -/
def uprightPolys : List (Nat × List IntMono) :=
    [(1, [(-1, [(3, 1), (7, 1)]), (1, [(4, 1), (8, 1)]), (-1, [(5, 1), (9, 1)])]), (2, [(1, [(1, 1), (9, 1)]), (-1, [(2, 1), (8, 1)])]),
    (4, [(-1, [(0, 1), (9, 1)]), (1, [(2, 1), (7, 1)])]), (8, [(1, [(0, 1), (8, 1)]), (-1, [(1, 1), (7, 1)])])]

/-- `(l | a) * a` for a line and a plane. -/
def shadowPolys : List (Nat × List IntMono) :=
    [(3, [(-1, [(1, 1), (6, 1), (9, 1)]), (1, [(2, 1), (6, 1), (8, 1)]), (-1, [(3, 1), (7, 2)]), (1, [(4, 1), (7, 1), (8, 1)]), (-1, [(5, 1),
    (7, 1), (9, 1)])]), (5, [(1, [(0, 1), (6, 1), (9, 1)]), (-1, [(2, 1), (6, 1), (7, 1)]), (-1, [(3, 1), (7, 1), (8, 1)]), (1, [(4, 1), (8,
    2)]), (-1, [(5, 1), (8, 1), (9, 1)])]), (6, [(1, [(0, 1), (7, 1), (9, 1)]), (1, [(1, 1), (8, 1), (9, 1)]), (-1, [(2, 1), (7, 2)]), (-1,
    [(2, 1), (8, 2)])]), (9, [(-1, [(0, 1), (6, 1), (8, 1)]), (1, [(1, 1), (6, 1), (7, 1)]), (-1, [(3, 1), (7, 1), (9, 1)]), (1, [(4, 1),
    (8, 1), (9, 1)]), (-1, [(5, 1), (9, 2)])]), (10, [(-1, [(0, 1), (7, 1), (8, 1)]), (1, [(1, 1), (7, 2)]), (1, [(1, 1), (9, 2)]), (-1, [(2,
    1), (8, 1), (9, 1)])]), (12, [(-1, [(0, 1), (8, 2)]), (-1, [(0, 1), (9, 2)]), (1, [(1, 1), (7, 1), (8, 1)]), (1, [(2, 1), (7, 1), (9,
    1)])])]

theorem linesDot_polys : innerLam.polys pgaMetric [lineArg (K := ℚ) [0, 0, 0, 0, 0, 0], lineArg [0, 0, 0, 0, 0, 0]] = some linesDotPolys := by
  exact flatPolys_polys (by decide +kernel)

theorem linesJoin_polys : joinLam.polys pgaMetric [lineArg (K := ℚ) [0, 0, 0, 0, 0, 0], lineArg [0, 0, 0, 0, 0, 0]] = some linesJoinPolys := by
  exact flatPolys_polys (by decide +kernel)

theorem upright_polys : innerLam.polys pgaMetric [lineArg (K := ℚ) [0, 0, 0, 0, 0, 0], planeArg [0, 0, 0, 0]] = some uprightPolys := by
  exact flatPolys_polys (by decide +kernel)

theorem shadow_polys : projectDual.polys pgaMetric [lineArg (K := ℚ) [0, 0, 0, 0, 0, 0], planeArg [0, 0, 0, 0]] = some shadowPolys := by
  exact flatPolys_polys (by decide +kernel)

/-! ## Two lines -/

/-- **C60 (two lines, angle)**: `l | m` is minus the dot product of the directions. -/
theorem C60_lines_dot (E : Env K) (q u q' u' : Fin 3 → K) :
    (innerLam.compute pgaMetric false E [lineThrough q u, lineThrough q' u'] >>= single) = ok ⟨[0], [-(u ⬝ᵥ u')]⟩ := by
  unfold lineThrough
  rw [lam_polys pgaMetric E (by rfl) linesDot_polys]
  simp only [dot3, lineArg]
  poly_value linesDotPolys
  congr 3
  ring

/-- **C60 (two lines, join)**: `l & m` is the determinant of the two directions and the difference of a point of each line. -/
theorem C60_lines_join (E : Env K) (q u q' u' : Fin 3 → K) :
    (joinLam.compute pgaMetric false E [lineThrough q u, lineThrough q' u'] >>= single) = ok ⟨[0], [(q - q') ⬝ᵥ u ⨯₃ u']⟩ := by
  unfold lineThrough
  rw [lam_polys pgaMetric E (by rfl) linesJoin_polys]
  simp only [dot3, lineArg, cross_apply, Pi.sub_apply, Matrix.cons_val_zero, Matrix.cons_val_one, Matrix.cons_val]
  poly_value linesJoinPolys
  congr 3
  ring

/-- **C60 (two lines, coplanar)**: `l & m` is zero exactly if some plane contains both lines. -/
theorem C60_lines_coplanar (E : Env K) (q u q' u' : Fin 3 → K) :
    ∃ s, (joinLam.compute pgaMetric false E [lineThrough q u, lineThrough q' u'] >>= single) = ok ⟨[0], [s]⟩ ∧
      (s = 0 ↔ ∃ (n : Fin 3 → K) (d : K), n ≠ 0 ∧ ∀ t : K, n ⬝ᵥ (q + t • u) + d = 0 ∧ n ⬝ᵥ (q' + t • u') + d = 0) := by
  refine ⟨_, C60_lines_join E q u q' u', ?_⟩
  have hdet : (q - q') ⬝ᵥ u ⨯₃ u' = Matrix.det !![q 0 - q' 0, q 1 - q' 1, q 2 - q' 2; u 0, u 1, u 2; u' 0, u' 1, u' 2] := by
    simp only [Matrix.det_fin_three, dot3, cross_apply, Pi.sub_apply, Matrix.of_apply, Matrix.cons_val_zero, Matrix.cons_val_one, Matrix.cons_val]
    ring
  rw [hdet, ← Matrix.exists_mulVec_eq_zero_iff]
  have hrow : ∀ n : Fin 3 → K, !![q 0 - q' 0, q 1 - q' 1, q 2 - q' 2; u 0, u 1, u 2; u' 0, u' 1, u' 2] *ᵥ n = 0 ↔
      n ⬝ᵥ (q - q') = 0 ∧ n ⬝ᵥ u = 0 ∧ n ⬝ᵥ u' = 0 := fun n => by
    rw [funext_iff, Fin.forall_fin_succ, Fin.forall_fin_succ, Fin.forall_fin_succ]
    simp only [Matrix.mulVec, dot3, Matrix.of_apply, Pi.sub_apply, Pi.zero_apply, Fin.succ_zero_eq_one, Fin.succ_one_eq_two, Matrix.cons_val_zero,
      Matrix.cons_val_one, Matrix.cons_val, IsEmpty.forall_iff, and_true, mul_comm]
  constructor
  · rintro ⟨n, hn, h⟩
    obtain ⟨h1, h2, h3⟩ := (hrow n).mp h
    refine ⟨n, -(n ⬝ᵥ q), hn, fun t => ?_⟩
    rw [dotProduct_sub] at h1
    rw [dotProduct_add, dotProduct_add, dotProduct_smul, dotProduct_smul, h2, h3]
    exact ⟨by simp, by rw [smul_zero]; linear_combination -h1⟩
  · rintro ⟨n, d, hn, h⟩
    refine ⟨n, hn, (hrow n).mpr ?_⟩
    have h0 := h 0
    have h1 := h 1
    simp only [dotProduct_add, dotProduct_smul, smul_eq_mul, zero_mul, one_mul, add_zero] at h0 h1
    rw [dotProduct_sub]
    exact ⟨by linear_combination h0.1 - h0.2, by linear_combination h1.1 - h0.1, by linear_combination h1.2 - h0.2⟩

/-- **C60 (two lines, distance)**: the square of `l & m` is the square of the distance of the lines times the square of the length of the cross product
of the directions: no two points of the lines are closer, and two points have this distance. -/
theorem C60_lines_distance (E : Env ℝ) (q u q' u' : Fin 3 → ℝ) (h0 : u ⨯₃ u' ≠ 0) :
    ∃ s, (joinLam.compute pgaMetric false E [lineThrough q u, lineThrough q' u'] >>= single) = ok ⟨[0], [s]⟩ ∧
      (∀ a b : ℝ, s ^ 2 ≤ (u ⨯₃ u' ⬝ᵥ u ⨯₃ u') * ((q + a • u - (q' + b • u')) ⬝ᵥ (q + a • u - (q' + b • u')))) ∧
      ∃ a b : ℝ, s ^ 2 = (u ⨯₃ u' ⬝ᵥ u ⨯₃ u') * ((q + a • u - (q' + b • u')) ⬝ᵥ (q + a • u - (q' + b • u'))) := by
  refine ⟨_, C60_lines_join E q u q' u', fun a b => ?_, ?_⟩
  · have hs : (q - q') ⬝ᵥ u ⨯₃ u' = (q + a • u - (q' + b • u')) ⬝ᵥ u ⨯₃ u' := by
      simp only [dot3, cross_apply, Pi.sub_apply, Pi.add_apply, Pi.smul_apply, smul_eq_mul, Matrix.cons_val_zero, Matrix.cons_val_one, Matrix.cons_val]
      ring
    rw [hs]
    generalize q + a • u - (q' + b • u') = x, u ⨯₃ u' = w
    simp only [dot3]
    nlinarith [sq_nonneg (w 0 * x 1 - w 1 * x 0), sq_nonneg (w 0 * x 2 - w 2 * x 0), sq_nonneg (w 1 * x 2 - w 2 * x 1)]
  · have hw : u ⨯₃ u' ⬝ᵥ u ⨯₃ u' ≠ 0 := fun h => h0 (dotProduct_self_eq_zero.mp h)
    have key : (u ⨯₃ u' ⬝ᵥ u ⨯₃ u') • (q - q') + (-((q - q') ⨯₃ u' ⬝ᵥ u ⨯₃ u')) • u - (-((q - q') ⨯₃ u ⬝ᵥ u ⨯₃ u')) • u' =
        ((q - q') ⬝ᵥ u ⨯₃ u') • u ⨯₃ u' := by
      funext i
      simp only [dot3, cross_apply, Pi.add_apply, Pi.sub_apply, Pi.smul_apply, smul_eq_mul, Matrix.cons_val_zero, Matrix.cons_val_one, Matrix.cons_val]
      fin_cases i <;>
        (simp only [Fin.zero_eta, Fin.mk_one, Fin.reduceFinMk, Matrix.cons_val_zero, Matrix.cons_val_one, Matrix.cons_val]
         ring)
    obtain ⟨a, ha⟩ : ∃ a, (u ⨯₃ u' ⬝ᵥ u ⨯₃ u') * a = -((q - q') ⨯₃ u' ⬝ᵥ u ⨯₃ u') := ⟨_, mul_div_cancel₀ _ hw⟩
    obtain ⟨b, hb⟩ : ∃ b, (u ⨯₃ u' ⬝ᵥ u ⨯₃ u') * b = -((q - q') ⨯₃ u ⬝ᵥ u ⨯₃ u') := ⟨_, mul_div_cancel₀ _ hw⟩
    refine ⟨a, b, ?_⟩
    have hx : (u ⨯₃ u' ⬝ᵥ u ⨯₃ u') • (q + a • u - (q' + b • u')) = ((q - q') ⬝ᵥ u ⨯₃ u') • u ⨯₃ u' := by
      rw [← key, ← ha, ← hb, mul_smul, mul_smul, ← smul_add, ← smul_sub]
      congr 1
      abel
    have h2 := congrArg (fun v => v ⬝ᵥ v) hx
    simp only [smul_dotProduct, dotProduct_smul, smul_eq_mul] at h2
    refine mul_left_cancel₀ hw ?_
    linear_combination -h2

/-- Two lines that do not meet and are not parallel. -/
example : (![1, 0, 0] : Fin 3 → ℝ) ⨯₃ ![0, 1, 2] ≠ 0 := fun h => by
  have := congrFun h 2
  simp [cross_apply] at this

/-! ## A line and a plane -/

/-- **C60 (upright plane)**: `l | a` is the plane through the line perpendicular to the plane. -/
theorem C60_upright (E : Env K) (q u n : Fin 3 → K) (d : K) :
    ∃ (v : Fin 3 → K) (c : K), (innerLam.compute pgaMetric false E [lineThrough q u, planeArg [d, n 0, n 1, n 2]] >>= single >>= pgaPlaneOf) =
        ok [c, v 0, v 1, v 2] ∧ (∀ t : K, v ⬝ᵥ (q + t • u) + c = 0) ∧ v ⬝ᵥ n = 0 ∧ v = u ⨯₃ n := by
  refine ⟨u ⨯₃ n, -(u ⨯₃ n ⬝ᵥ q), ?_, fun t => ?_, ?_, rfl⟩
  · unfold lineThrough
    rw [lam_polys pgaMetric E (by rfl) upright_polys, ok_bind]
    simp only [dot3, lineArg, planeArg, cross_apply, Matrix.cons_val_zero, Matrix.cons_val_one, Matrix.cons_val]
    poly_value uprightPolys
    rw [planeOf_entity]
    congr 1
    simp only [List.cons.injEq, and_true]
    refine ⟨?_, ?_, ?_, ?_⟩ <;> ring
  · simp only [dot3, cross_apply, Pi.add_apply, Pi.smul_apply, smul_eq_mul, Matrix.cons_val_zero, Matrix.cons_val_one, Matrix.cons_val]
    ring
  · simp only [dot3, cross_apply, Matrix.cons_val_zero, Matrix.cons_val_one, Matrix.cons_val]
    ring

/-- **C60 (projection of a line)**: `(l | a) * a` is the line through the feet of the perpendiculars from the points of the line to the plane, with the
direction reversed and scaled. -/
theorem C60_shadow (E : Env K) (q u n : Fin 3 → K) (d : K) (h0 : n ⬝ᵥ n ≠ 0) :
    ∃ (f g : Fin 3 → K) (s t : K),
      (projectDual.compute pgaMetric false E [lineThrough q u, planeArg [d, n 0, n 1, n 2]] >>= single) =
        (joinLam.compute pgaMetric false E [pointArg [f 0, f 1, f 2], pointArg [(f - (n ⬝ᵥ n) • (g - f)) 0, (f - (n ⬝ᵥ n) • (g - f)) 1,
          (f - (n ⬝ᵥ n) • (g - f)) 2]] >>= single) ∧
      n ⬝ᵥ f + d = 0 ∧ q - f = s • n ∧ n ⬝ᵥ g + d = 0 ∧ q + u - g = t • n := by
  obtain ⟨s, hs⟩ : ∃ s, s * (n ⬝ᵥ n) = n ⬝ᵥ q + d := ⟨_, div_mul_cancel₀ _ h0⟩
  obtain ⟨t, ht⟩ : ∃ t, t * (n ⬝ᵥ n) = n ⬝ᵥ (q + u) + d := ⟨_, div_mul_cancel₀ _ h0⟩
  refine ⟨q - s • n, q + u - t • n, s, t, ?_, ?_, by abel, ?_, by abel⟩
  · rw [C38_compute_line]
    unfold lineThrough
    rw [lam_polys pgaMetric E (by rfl) shadow_polys]
    simp only [dot3, Pi.add_apply] at h0 hs ht
    simp only [dot3, lineArg, planeArg, cross_apply, Pi.add_apply, Pi.sub_apply, Pi.smul_apply, smul_eq_mul, Matrix.cons_val_zero, Matrix.cons_val_one,
      Matrix.cons_val]
    poly_value shadowPolys
    congr 2
    have hd : d = s * (n 0 * n 0 + n 1 * n 1 + n 2 * n 2) - (n 0 * q 0 + n 1 * q 1 + n 2 * q 2) := by linear_combination -hs
    have hts : (t - s) * (n 0 * n 0 + n 1 * n 1 + n 2 * n 2) = n 0 * u 0 + n 1 * u 1 + n 2 * u 2 := by linear_combination ht - hs
    simp only [List.cons.injEq, and_true]
    subst hd
    obtain ⟨r, rfl⟩ : ∃ r, t = s + r := ⟨t - s, by ring⟩
    rw [add_sub_cancel_left] at hts
    refine ⟨?_, ?_, ?_, ?_, ?_, ?_⟩
    · linear_combination -(q 1 * n 2 - q 2 * n 1) * hts
    · linear_combination -(q 2 * n 0 - q 0 * n 2) * hts
    · linear_combination -n 2 * hts
    · linear_combination -(q 0 * n 1 - q 1 * n 0) * hts
    · linear_combination n 1 * hts
    · linear_combination -n 0 * hts
  · rw [dotProduct_sub, dotProduct_smul, smul_eq_mul, hs]
    ring
  · rw [dotProduct_sub, dotProduct_smul, smul_eq_mul, ht]
    ring

/-- The plane `2 x - y + 2 z + d = 0`. -/
example : (![2, -1, 2] : Fin 3 → ℚ) ⬝ᵥ ![2, -1, 2] ≠ 0 := by
  simp only [dot3, Matrix.cons_val_zero, Matrix.cons_val_one, Matrix.cons_val]
  norm_num

end Gal
