import Verif.Props.MovePolys
import Verif.Props.Metric

/-!
# Property C62: points, lines and planes move together
-/

namespace Gal

open Out
open scoped Matrix

variable {K : Type} [Field K] [CharZero K]

/-- `x % v`, for a point, a plane and a line through two points, are the images under one map `T` of space: the plane that `compute` returns is
`{T x | n · x + d = 0}`, and the line is that through the images of the points.  `w` and `w'` are the weights of planes and lines. -/
def Moves (v : Arg K) (T : (Fin 3 → K) → Fin 3 → K) (w w' : K) : Prop :=
  (∀ (E : Env K) (p : Fin 3 → K), (sandwichLam.compute pgaMetric false E [pointArg [p 0, p 1, p 2], v] >>= single >>= vgaPointOf) =
    ok (List.ofFn (T p))) ∧
  (∀ (E : Env K) (n : Fin 3 → K) (d : K), ∃ (n' : Fin 3 → K) (d' : K),
    (sandwichLam.compute pgaMetric false E [planeArg [d, n 0, n 1, n 2], v] >>= single >>= pgaPlaneOf) = ok [d', n' 0, n' 1, n' 2] ∧
      ∀ x, n' ⬝ᵥ T x + d' = w * (n ⬝ᵥ x + d)) ∧
  ∀ (E : Env K) (p q : Fin 3 → K), ∃ l l' : Entity K,
    (joinLam.compute pgaMetric false E [pointArg [p 0, p 1, p 2], pointArg [q 0, q 1, q 2]] >>= single) = ok l ∧
    (joinLam.compute pgaMetric false E [pointArg [T p 0, T p 1, T p 2], pointArg [T q 0, T q 1, T q 2]] >>= single) = ok l' ∧
    (sandwichLam.compute pgaMetric false E [l.toArg, v] >>= single) = ok ⟨l'.elements, l'.data.map (w' * ·)⟩

/-- **C62 (points)**: `x % q` for a point `q` is the reflection in `q`. -/
theorem C62_point (q : Fin 3 → K) : Moves (pointArg [q 0, q 1, q 2]) (pointMirror q) (-1) (-1) := by
  refine ⟨fun E p => ?_, fun E n d => ⟨n, -d - 2 * (n ⬝ᵥ q), ?_, fun x => ?_⟩, fun E p r => ⟨_, _, C38_compute_line E _ _, C38_compute_line E _ _, ?_⟩⟩
  · rw [lam_polys pgaMetric E (by rfl) pointCentre_polys, ok_bind, ofFn3]
    simp only [pointArg, pointMirror, Pi.sub_apply, Pi.smul_apply, smul_eq_mul]
    poly_value pointCentrePolys
    refine pointOf_entity (by norm_num) ?_ ?_ ?_ <;> ring
  · rw [lam_polys pgaMetric E (by rfl) planeCentre_polys, ok_bind]
    simp only [dot3, pointArg, planeArg]
    poly_value planeCentrePolys
    rw [planeOf_entity]
    congr 2
    ring
  · simp only [dot3, pointMirror, Pi.sub_apply, Pi.smul_apply, smul_eq_mul]
    ring
  · rw [show (Entity.toArg _ : Arg K) = lineEnt _ from rfl, lam_polys pgaMetric E (by rfl) lineCentre_polys]
    simp only [lineEnt, Entity.toArg, pointArg, pointMirror, Pi.sub_apply, Pi.smul_apply, smul_eq_mul, cross_apply, Matrix.cons_val_zero,
      Matrix.cons_val_one, Matrix.cons_val, List.map_cons, List.map_nil]
    poly_value lineCentrePolys
    congr 2
    simp only [List.cons.injEq, and_true]
    refine ⟨?_, ?_, ?_, ?_, ?_, ?_⟩ <;> ring

omit [CharZero K] in
theorem mirror_eq (n x : Fin 3 → K) (d : K) (h0 : n ⬝ᵥ n ≠ 0) : ∃ t, t * (n ⬝ᵥ n) = n ⬝ᵥ x + d ∧ mirror n d x = x - (2 * t) • n :=
  ⟨(n ⬝ᵥ x + d) / (n ⬝ᵥ n), div_mul_cancel₀ _ h0, by rw [mirror, mul_div_assoc]⟩

omit [CharZero K] in
theorem halfTurn_eq (q u x : Fin 3 → K) (h0 : u ⬝ᵥ u ≠ 0) : ∃ t, t * (u ⬝ᵥ u) = u ⬝ᵥ (x - q) ∧ halfTurn q u x = (2 : K) • (q + t • u) - x :=
  ⟨u ⬝ᵥ (x - q) / (u ⬝ᵥ u), div_mul_cancel₀ _ h0, rfl⟩

/-- **C62 (planes)**: `x % b` for a plane `b` is the reflection in `b`. -/
theorem C62_plane (n : Fin 3 → K) (d : K) (h0 : n ⬝ᵥ n ≠ 0) :
    Moves (planeArg [d, n 0, n 1, n 2]) (mirror n d) (-(n ⬝ᵥ n)) (-(n ⬝ᵥ n)) := by
  refine ⟨fun E p => C54_mirror E n p d h0, fun E a c => ⟨(2 * (a ⬝ᵥ n)) • n - (n ⬝ᵥ n) • a, 2 * (a ⬝ᵥ n) * d - (n ⬝ᵥ n) * c, ?_, fun x => ?_⟩,
    fun E p r => ⟨_, _, C38_compute_line E _ _, C38_compute_line E _ _, ?_⟩⟩
  · rw [lam_polys pgaMetric E (by rfl) planeMirror_polys, ok_bind]
    simp only [dot3, planeArg, Pi.sub_apply, Pi.smul_apply, smul_eq_mul]
    poly_value planeMirrorPolys
    rw [planeOf_entity]
    congr 1
    simp only [List.cons.injEq, and_true]
    refine ⟨?_, ?_, ?_, ?_⟩ <;> ring
  · obtain ⟨t, ht, hm⟩ := mirror_eq n x d h0
    rw [hm]
    simp only [dot3, Pi.sub_apply, Pi.smul_apply, smul_eq_mul] at ht ⊢
    linear_combination (-2 * (a 0 * n 0 + a 1 * n 1 + a 2 * n 2)) * ht
  · obtain ⟨t, ht, hm⟩ := mirror_eq n p d h0
    obtain ⟨t', ht', hm'⟩ := mirror_eq n r d h0
    rw [hm, hm', show (Entity.toArg _ : Arg K) = lineEnt _ from rfl, lam_polys pgaMetric E (by rfl) lineMirror_polys]
    simp only [dot3] at ht ht'
    simp only [dot3, lineEnt, Entity.toArg, planeArg, Pi.sub_apply, Pi.smul_apply, smul_eq_mul, cross_apply, Matrix.cons_val_zero,
      Matrix.cons_val_one, Matrix.cons_val, List.map_cons, List.map_nil]
    poly_value lineMirrorPolys
    congr 2
    simp only [List.cons.injEq, and_true]
    refine ⟨?_, ?_, ?_, ?_, ?_, ?_⟩
    · linear_combination 2 * (r 1 * n 2 - r 2 * n 1) * ht + 2 * (p 2 * n 1 - p 1 * n 2) * ht'
    · linear_combination 2 * (r 2 * n 0 - r 0 * n 2) * ht + 2 * (p 0 * n 2 - p 2 * n 0) * ht'
    · linear_combination (-2 * n 2) * (ht' - ht)
    · linear_combination 2 * (r 0 * n 1 - r 1 * n 0) * ht + 2 * (p 1 * n 0 - p 0 * n 1) * ht'
    · linear_combination (2 * n 1) * (ht' - ht)
    · linear_combination (-2 * n 0) * (ht' - ht)

/-- **C62 (lines)**: `x % k` for the line `k` through two points is the half turn about this line. -/
theorem C62_line (a b : Fin 3 → K) (h0 : (b - a) ⬝ᵥ (b - a) ≠ 0) :
    ∃ k : Entity K, (∀ E : Env K, (joinLam.compute pgaMetric false E [pointArg [a 0, a 1, a 2], pointArg [b 0, b 1, b 2]] >>= single) = ok k) ∧
      Moves k.toArg (halfTurn a (b - a)) ((b - a) ⬝ᵥ (b - a)) ((b - a) ⬝ᵥ (b - a)) := by
  refine ⟨_, fun E => C38_compute_line E a b, ?_⟩
  obtain ⟨u, hu⟩ : ∃ u, u = b - a := ⟨_, rfl⟩
  obtain rfl : b = a + u := by rw [hu]; abel
  have hau : a ⨯₃ (a + u) = a ⨯₃ u := by rw [map_add, cross_self, zero_add]
  rw [← hu] at h0
  rw [show (Entity.toArg _ : Arg K) = lineEnt _ from rfl, hau, ← hu]
  refine ⟨fun E p => ?_, fun E n d => ⟨(2 * (n ⬝ᵥ u)) • u - (u ⬝ᵥ u) • n, (u ⬝ᵥ u) * d + 2 * ((u ⬝ᵥ u) * (n ⬝ᵥ a) - (n ⬝ᵥ u) * (u ⬝ᵥ a)), ?_,
    fun x => ?_⟩, fun E p r => ⟨_, _, C38_compute_line E _ _, C38_compute_line E _ _, ?_⟩⟩
  · obtain ⟨t, ht, hm⟩ := halfTurn_eq a u p h0
    rw [lam_polys pgaMetric E (by rfl) pointAxis_polys, ok_bind, hm, ofFn3]
    simp only [dot3, Pi.sub_apply] at h0 ht
    simp only [lineEnt, Entity.toArg, pointArg, Pi.add_apply, Pi.sub_apply, Pi.smul_apply, smul_eq_mul, cross_apply, Matrix.cons_val_zero,
      Matrix.cons_val_one, Matrix.cons_val]
    poly_value pointAxisPolys
    refine pointOf_entity (fun h => h0 (by linear_combination h)) ?_ ?_ ?_
    · linear_combination 2 * u 0 * ht
    · linear_combination -2 * u 1 * ht
    · linear_combination 2 * u 2 * ht
  · rw [lam_polys pgaMetric E (by rfl) planeAxis_polys, ok_bind]
    simp only [dot3, lineEnt, Entity.toArg, planeArg, Pi.sub_apply, Pi.smul_apply, smul_eq_mul, cross_apply, Matrix.cons_val_zero,
      Matrix.cons_val_one, Matrix.cons_val]
    poly_value planeAxisPolys
    rw [planeOf_entity]
    congr 1
    simp only [List.cons.injEq, and_true]
    refine ⟨?_, ?_, ?_, ?_⟩ <;> ring
  · obtain ⟨t, ht, hm⟩ := halfTurn_eq a u x h0
    rw [hm]
    simp only [dot3, Pi.add_apply, Pi.sub_apply, Pi.smul_apply, smul_eq_mul] at ht ⊢
    linear_combination (2 * (n 0 * u 0 + n 1 * u 1 + n 2 * u 2)) * ht
  · obtain ⟨t, ht, hm⟩ := halfTurn_eq a u p h0
    obtain ⟨t', ht', hm'⟩ := halfTurn_eq a u r h0
    rw [hm, hm', show (Entity.toArg _ : Arg K) = lineEnt _ from rfl, lam_polys pgaMetric E (by rfl) lineAxis_polys]
    simp only [dot3, Pi.sub_apply] at ht ht'
    simp only [dot3, lineEnt, Entity.toArg, Pi.add_apply, Pi.sub_apply, Pi.smul_apply, smul_eq_mul, cross_apply, Matrix.cons_val_zero,
      Matrix.cons_val_one, Matrix.cons_val, List.map_cons, List.map_nil]
    poly_value lineAxisPolys
    congr 2
    simp only [List.cons.injEq, and_true]
    refine ⟨?_, ?_, ?_, ?_, ?_, ?_⟩
    · linear_combination -2 * (u 1 * (2 * a 2 - r 2) - u 2 * (2 * a 1 - r 1)) * ht - 2 * ((2 * a 1 - p 1) * u 2 - (2 * a 2 - p 2) * u 1) * ht'
    · linear_combination -2 * (u 2 * (2 * a 0 - r 0) - u 0 * (2 * a 2 - r 2)) * ht - 2 * ((2 * a 2 - p 2) * u 0 - (2 * a 0 - p 0) * u 2) * ht'
    · linear_combination (-2 * u 2) * (ht' - ht)
    · linear_combination -2 * (u 0 * (2 * a 1 - r 1) - u 1 * (2 * a 0 - r 0)) * ht - 2 * ((2 * a 0 - p 0) * u 1 - (2 * a 1 - p 1) * u 0) * ht'
    · linear_combination (2 * u 1) * (ht' - ht)
    · linear_combination (-2 * u 0) * (ht' - ht)

/-- **C62 (motors)**: `x % m` for a motor `m` whose rotational part is not zero and for which `m * ~m` is a number is a rigid motion. -/
theorem C62_motor (a b c d e f g h : K) (h0 : a * a + d * d + f * f + g * g ≠ 0) (hs : a * h - b * g + c * f - d * e = 0) :
    ∃ (R : Matrix (Fin 3) (Fin 3) K) (t : Fin 3 → K), IsRotation R ∧
      Moves (motorArg [a, b, c, d, e, f, g, h]) (fun x => R *ᵥ x + t) (a * a + d * d + f * f + g * g) (a * a + d * d + f * f + g * g) := by
  obtain ⟨R, t, hR, hp⟩ := C54_motor a b c d e f g h h0
  refine ⟨R, t, hR, hp, fun E n k => ?_, fun E p q => ?_⟩
  · refine ⟨![_, _, _], _, movePlane_run E k (n 0) (n 1) (n 2) a b c d e f g h, fun x => ?_⟩
    have h1 := hp E x
    rw [move_run, ok_inj, ofFn3] at h1
    beta_reduce
    generalize R *ᵥ x + t = x' at *
    simp only [List.cons.injEq, and_true] at h1
    obtain ⟨x1, y1, z1⟩ := h1
    simp only [dot3, Matrix.cons_val_zero, Matrix.cons_val_one, Matrix.cons_val, ← x1, ← y1, ← z1]
    have h2 : a ^ 2 + d ^ 2 + f ^ 2 + g ^ 2 ≠ 0 := fun h => h0 (by linear_combination h)
    field_simp
    ring
  · refine ⟨_, _, C38_compute_line E _ _, C38_compute_line E _ _, ?_⟩
    have h1 := hp E p
    have h2 := hp E q
    rw [move_run, ok_inj, ofFn3] at h1 h2
    generalize R *ᵥ p + t = p' at *
    generalize R *ᵥ q + t = q' at *
    simp only [List.cons.injEq, and_true] at h1 h2
    obtain ⟨x1, y1, z1⟩ := h1
    obtain ⟨x2, y2, z2⟩ := h2
    rw [div_eq_iff h0] at x1 y1 z1 x2 y2 z2
    rw [show (Entity.toArg _ : Arg K) = lineEnt _ from rfl, lam_polys pgaMetric E (by rfl) lineMotor_polys]
    simp only [lineEnt, Entity.toArg, motorArg, Pi.sub_apply, cross_apply, Matrix.cons_val_zero,
      Matrix.cons_val_one, Matrix.cons_val, List.map_cons, List.map_nil]
    poly_value lineMotorPolys
    congr 2
    simp only [List.cons.injEq, and_true]
    refine ⟨?_, ?_, ?_, ?_, ?_, ?_⟩
    · refine mul_left_cancel₀ h0 ?_
      linear_combination (-2 * (a * d + f * g) * p 0 + (a * a - d * d + f * f - g * g) * p 1 + 2 * (a * g - d * f) * p 2 - 2 * (a * c - b * d + e
        * g - f * h)) * z2 + q' 2 * (a * a + d * d + f * f + g * g) * y1 - (-2 * (a * f - d * g) * p 0 - 2 * (a * g + d * f) * p 1 + (a * a + d *
        d - f * f - g * g) * p 2 - 2 * (a * e - b * f - c * g + d * h)) * y2 - q' 1 * (a * a + d * d + f * f + g * g) * z1 - 2 * (((a * a - d * d
        - f * f + g * g) * q 0 + 2 * (a * d - f * g) * q 1 + 2 * (a * f + d * g) * q 2 - 2 * (a * b + c * d + e * f + g * h)) - ((a * a - d * d -
        f * f + g * g) * p 0 + 2 * (a * d - f * g) * p 1 + 2 * (a * f + d * g) * p 2 - 2 * (a * b + c * d + e * f + g * h))) * hs
    · refine mul_left_cancel₀ h0 ?_
      linear_combination (-2 * (a * f - d * g) * p 0 - 2 * (a * g + d * f) * p 1 + (a * a + d * d - f * f - g * g) * p 2 - 2 * (a * e - b * f - c
        * g + d * h)) * x2 + q' 0 * (a * a + d * d + f * f + g * g) * z1 - ((a * a - d * d - f * f + g * g) * p 0 + 2 * (a * d - f * g) * p 1 + 2
        * (a * f + d * g) * p 2 - 2 * (a * b + c * d + e * f + g * h)) * z2 - q' 2 * (a * a + d * d + f * f + g * g) * x1 - 2 * ((-2 * (a * d + f
        * g) * q 0 + (a * a - d * d + f * f - g * g) * q 1 + 2 * (a * g - d * f) * q 2 - 2 * (a * c - b * d + e * g - f * h)) - (-2 * (a * d + f *
        g) * p 0 + (a * a - d * d + f * f - g * g) * p 1 + 2 * (a * g - d * f) * p 2 - 2 * (a * c - b * d + e * g - f * h))) * hs
    · linear_combination z2 - z1
    · refine mul_left_cancel₀ h0 ?_
      linear_combination ((a * a - d * d - f * f + g * g) * p 0 + 2 * (a * d - f * g) * p 1 + 2 * (a * f + d * g) * p 2 - 2 * (a * b + c * d + e *
        f + g * h)) * y2 + q' 1 * (a * a + d * d + f * f + g * g) * x1 - (-2 * (a * d + f * g) * p 0 + (a * a - d * d + f * f - g * g) * p 1 + 2 *
        (a * g - d * f) * p 2 - 2 * (a * c - b * d + e * g - f * h)) * x2 - q' 0 * (a * a + d * d + f * f + g * g) * y1 - 2 * ((-2 * (a * f - d *
        g) * q 0 - 2 * (a * g + d * f) * q 1 + (a * a + d * d - f * f - g * g) * q 2 - 2 * (a * e - b * f - c * g + d * h)) - (-2 * (a * f - d *
        g) * p 0 - 2 * (a * g + d * f) * p 1 + (a * a + d * d - f * f - g * g) * p 2 - 2 * (a * e - b * f - c * g + d * h))) * hs
    · linear_combination y1 - y2
    · linear_combination x2 - x1

/-- Without this condition lines do not move with the points: the motor `1 + e0123` does not move any point, and the line it returns for the first axis
is no multiple of the axis. -/
theorem C62_motor_false : ¬ ∀ (a b c d e f g h : ℚ), a * a + d * d + f * f + g * g ≠ 0 → ∃ (T : (Fin 3 → ℚ) → Fin 3 → ℚ) (w w' : ℚ),
    Moves (motorArg [a, b, c, d, e, f, g, h]) T w w' := by
  intro H
  obtain ⟨T, w, w', h1, -, h3⟩ := H 1 0 0 0 0 0 0 1 (by norm_num)
  have hT : ∀ p, T p = p := by
    intro p
    have := h1 ⟨[], [], fun _ _ _ => 0, fun _ _ => 0⟩ p
    rw [move_run, ok_inj, ofFn3] at this
    simp only [List.cons.injEq, and_true] at this
    obtain ⟨e1, e2, e3⟩ := this
    norm_num at e1 e2 e3
    ext i
    fin_cases i
    · exact e1.symm
    · exact e2.symm
    · exact e3.symm
  obtain ⟨l, l', hl, hl', hm⟩ := h3 ⟨[], [], fun _ _ _ => 0, fun _ _ => 0⟩ ![0, 0, 0] ![1, 0, 0]
  rw [C38_compute_line, ok_inj] at hl
  rw [hT, hT, C38_compute_line, ok_inj] at hl'
  subst hl hl'
  rw [show (Entity.toArg _ : Arg ℚ) = lineEnt _ from rfl, lam_polys pgaMetric _ (by rfl) lineMotor_polys, ok_inj] at hm
  simp only [lineEnt, Entity.toArg, motorArg, Pi.sub_apply, cross_apply, Matrix.cons_val_zero, Matrix.cons_val_one, Matrix.cons_val, List.map_cons,
    List.map_nil, Entity.mk.injEq, lineMotorPolys, polyVal, monoVal] at hm
  norm_num at hm

/-- A screw motion about an axis that is not a coordinate axis. -/
example := C62_motor (K := ℚ) 1 2 3 1 4 2 1 0 (by norm_num) (by norm_num)

/-- The plane `x + 2 y + 2 z = 9`, the line through `(1, 0, 0)` and `(0, 1, 1)`. -/
example := C62_plane (K := ℚ) ![1, 2, 2] (-9) (by rw [dot3]; simp; norm_num)

example := C62_line (K := ℚ) ![1, 0, 0] ![0, 1, 1] (by rw [dot3]; simp; norm_num)

end Gal
