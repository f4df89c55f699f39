import Verif.Props.MotorRun
import Verif.Props.Pga
import Verif.Props.Named

/-!
# Property C50: `normalize`
-/

namespace Gal

open Out

variable {K : Type} [Field K]

/-! ## Named entities as arguments -/

/-- A motor is the even element with these coefficients. -/
theorem motor_denotes [CharZero K] (a b c d e f g h : K) :
    (motorArg [a, b, c, d, e, f, g, h]).Denotes 4 (Metric.sq pgaMetric) 0 (pgaEven a b c d e f g h) := by
  have h0 := C45_entity (dim := 4) (Metric.sq pgaMetric) (x := ⟨motorElements, [a, b, c, d, e, f, g, h]⟩) (off := 0)
    (show motorElements.Pairwise (· < ·) by decide) (show ∀ e ∈ motorElements, e < 2 ^ 4 by decide) rfl
    (show 0 + motorElements.length ≤ 2 ^ 32 by decide)
  have e : pairsVal (cliffBlade K 4 (Metric.sq pgaMetric)) motorElements [a, b, c, d, e, f, g, h] = pgaEven a b c d e f g h := by
    rw [pgaEven, pgaBiv_eq, pgaPs_eq, ← pgaB_zero]
    simp [pairsVal, motorElements, pgaB, add_assoc]
  rw [← e]
  exact h0

theorem biv_value (a b c d e f : K) :
    pairsVal (cliffBlade K 4 (Metric.sq pgaMetric)) [3, 5, 6, 9, 10, 12] [a, b, c, d, e, f] = pgaBiv a b c d e f := by
  rw [pgaBiv_eq]
  simp [pairsVal, pgaB, add_assoc]

theorem even_value (a b c d e f g h : K) : pairsVal (cliffBlade K 4 (Metric.sq pgaMetric)) motorElements [a, b, c, d, e, f, g, h] =
    pgaEven a b c d e f g h := by
  rw [pgaEven, pgaBiv_eq, pgaPs_eq, ← pgaB_zero]
  simp [pairsVal, motorElements, pgaB, add_assoc]

/-- A bivector entity. -/
theorem biv_denotes [CharZero K] (a b c d e f : K) :
    (⟨[3, 5, 6, 9, 10, 12], [a, b, c, d, e, f]⟩ : Entity K).toArg.Denotes 4 (Metric.sq pgaMetric) 0 (pgaBiv a b c d e f) := by
  have h0 := C45_entity (dim := 4) (Metric.sq pgaMetric) (x := ⟨[3, 5, 6, 9, 10, 12], [a, b, c, d, e, f]⟩) (off := 0)
    (show [3, 5, 6, 9, 10, 12].Pairwise (· < ·) by decide) (show ∀ e ∈ [3, 5, 6, 9, 10, 12], e < 2 ^ 4 by decide) rfl
    (show 0 + [3, 5, 6, 9, 10, 12].length ≤ 2 ^ 32 by decide)
  rw [← biv_value]
  exact h0

/-- A line with direction `(a, b, c)` and moment `(d, e, f)`. -/
theorem line_denotes [CharZero K] (a b c d e f : K) :
    (lineArg [a, b, c, d, e, f]).Denotes 4 (Metric.sq pgaMetric) 0 (pgaBiv (-d) e (-c) (-f) b (-a)) := by
  refine ⟨pgaLineN 0, ⟨⟨pgaLine_packed (by decide), pgaLine_canon 0, by unfold ElemsLt pgaLineN; decide, ?_⟩, fun _ => rfl⟩, ?_⟩
  · intro t ht m hm i hi
    simp only [pgaLineN, List.mem_cons, List.not_mem_nil, or_false] at ht
    rcases ht with rfl | rfl | rfl | rfl | rfl | rfl <;> simp only [List.mem_cons, List.not_mem_nil, or_false] at hm <;> subst hm <;>
      simp only [List.mem_cons, List.not_mem_nil, or_false] at hi <;> subst hi <;>
      exact ⟨⟨Nat.zero_le _, by simp [lineArg]⟩, rfl, by decide⟩
  · intro ρ hρ
    have h0 := hρ 0 (by simp [lineArg])
    have h1 := hρ 1 (by simp [lineArg])
    have h2 := hρ 2 (by simp [lineArg])
    have h3 := hρ 3 (by simp [lineArg])
    have h4 := hρ 4 (by simp [lineArg])
    have h5 := hρ 5 (by simp [lineArg])
    simp only [lineArg, List.getD_cons_zero, List.getD_cons_succ, Nat.zero_add] at h0 h1 h2 h3 h4 h5
    rw [pgaBiv_eq]
    unfold pgaB
    mv_value pgaLineN
    rw [h0, h1, h2, h3, h4, h5]
    module

/-! ## Vectors -/

/-- **C50 (vectors)**: `normalize` divides by the square root of the sum of squares; the result has length one. -/
theorem C50_vector (sqrt : K → K) (x y z : K) (h0 : x * x + y * y + z * z ≠ 0)
    (hs : sqrt (x * x + y * y + z * z) * sqrt (x * x + y * y + z * z) = x * x + y * y + z * z) :
    ∃ x' y' z', normalize3 sqrt x y z = [x', y', z'] ∧ x' * x' + y' * y' + z' * z' = 1 ∧
      sqrt (x * x + y * y + z * z) * x' = x ∧ sqrt (x * x + y * y + z * z) * y' = y ∧ sqrt (x * x + y * y + z * z) * z' = z := by
  unfold normalize3
  generalize sqrt (x * x + y * y + z * z) = r at *
  have hr : r ≠ 0 := by
    rintro rfl
    exact h0 (by rw [← hs, mul_zero])
  refine ⟨_, _, _, rfl, ?_, ?_, ?_, ?_⟩
  · field_simp
    linear_combination -hs
  all_goals field_simp

example : ∃ x' y' z' : ℚ, normalize3 (fun _ => 3) 1 2 2 = [x', y', z'] ∧ x' * x' + y' * y' + z' * z' = 1 ∧ 3 * x' = 1 ∧ 3 * y' = 2 ∧ 3 * z' = 2 :=
  C50_vector (fun _ => 3) 1 2 2 (by norm_num) (by norm_num)

/-! ## Rotors of the three-dimensional Euclidean algebra -/

/-- A generator of the algebra of `vga.hpp`. -/
noncomputable def vgaGen (i : Fin 3) : CliffordAlgebra (diagForm K 3 (Metric.sq vgaMetric)) := CliffordAlgebra.ι _ (Pi.single i 1)

/-- `c - s (x e12 - y e02 + z e01)`. -/
noncomputable def vgaRot (c s x y z : K) : CliffordAlgebra (diagForm K 3 (Metric.sq vgaMetric)) :=
  c • 1 - s • (x • (vgaGen 1 * vgaGen 2) - y • (vgaGen 0 * vgaGen 2) + z • (vgaGen 0 * vgaGen 1))

theorem vgaRot_eq (c s x y z : K) : vgaRot c s x y z = c • cliffBlade K 3 (Metric.sq vgaMetric) 0 - s • (x • cliffBlade K 3 (Metric.sq vgaMetric) 6 -
    y • cliffBlade K 3 (Metric.sq vgaMetric) 5 + z • cliffBlade K 3 (Metric.sq vgaMetric) 3) := by
  have hg : ∀ (i : Nat) (h : i < 3), cliffGen K 3 (Metric.sq vgaMetric) i = vgaGen ⟨i, h⟩ := fun i h => by
    rw [cliffGen, dif_pos h, vgaGen]
  simp [vgaRot, cliffBlade, bladeOf, Nat.testBit, hg]

/-- The square of the norm of a rotor. -/
theorem vgaRot_norm (c s x y z : K) : vgaRot c s x y z * CliffordAlgebra.reverse (vgaRot c s x y z) =
    (c * c + s * s * (x * x + y * y + z * z)) • 1 := by
  have hm : ∀ (a b : Nat) (k : Int) (ha : a < 2 ^ 3), sgn (Metric.sq vgaMetric) 3 a b = k →
      cliffBlade K 3 (Metric.sq vgaMetric) a * cliffBlade K 3 (Metric.sq vgaMetric) b =
        (k : K) • cliffBlade K 3 (Metric.sq vgaMetric) (a ^^^ b) := fun a b k ha h => by
    rw [← h]
    exact blade_mul 3 _ ha
  have h0 : cliffBlade K 3 (Metric.sq vgaMetric) 0 = 1 := by rw [cliffBlade, bladeOf_zero]
  have r3 : gradeOf 3 3 = 2 := by decide
  have r5 : gradeOf 3 5 = 2 := by decide
  have r6 : gradeOf 3 6 = 2 := by decide
  rw [vgaRot_eq]
  simp only [map_add, map_sub, map_smul, reverse_blade, h0, CliffordAlgebra.reverse.map_one, r3, r5, r6]
  have m33 := hm 3 3 (-1) (by decide) (by decide +kernel)
  have m35 := hm 3 5 (-1) (by decide) (by decide +kernel)
  have m36 := hm 3 6 1 (by decide) (by decide +kernel)
  have m53 := hm 5 3 1 (by decide) (by decide +kernel)
  have m55 := hm 5 5 (-1) (by decide) (by decide +kernel)
  have m56 := hm 5 6 (-1) (by decide) (by decide +kernel)
  have m63 := hm 6 3 (-1) (by decide) (by decide +kernel)
  have m65 := hm 6 5 1 (by decide) (by decide +kernel)
  have m66 := hm 6 6 (-1) (by decide) (by decide +kernel)
  simp only [Nat.reduceXor, h0] at m33 m35 m36 m53 m55 m56 m63 m65 m66
  simp only [Nat.reduceSub, Nat.reduceMul, Nat.reduceDiv, pow_one, Int.reduceNeg, Int.cast_neg, Int.cast_one, neg_smul, one_smul] at *
  simp only [mul_add, add_mul, mul_sub, sub_mul, smul_mul_assoc, mul_smul_comm, mul_neg, mul_one, one_mul, smul_add, smul_sub, m33, m35,
    m36, m53, m55, m56, m63, m65, m66]
  module

/-- A rotor as an argument. -/
theorem vgaRotor_denotes [CharZero K] (c s x y z : K) :
    (⟨vgaRotorIe, [c, s, x, y, z]⟩ : Arg K).Denotes 3 (Metric.sq vgaMetric) 0 (vgaRot c s x y z) := by
  refine ⟨vgaRotorN 0, ⟨⟨vgaRotor_packed (by decide), vgaRotor_canon 0, by unfold ElemsLt vgaRotorN; decide, ?_⟩, fun _ => rfl⟩, ?_⟩
  · intro t ht m hm i hi
    simp only [vgaRotorN, List.mem_cons, List.not_mem_nil, or_false] at ht
    rcases ht with rfl | rfl | rfl | rfl <;> simp only [List.mem_cons, List.not_mem_nil, or_false] at hm <;> subst hm <;>
      simp only [List.mem_cons, List.not_mem_nil, or_false] at hi
    · subst hi
      exact ⟨⟨Nat.zero_le _, by simp⟩, rfl, by decide⟩
    all_goals rcases hi with rfl | rfl <;> exact ⟨⟨Nat.zero_le _, by simp⟩, rfl, by decide⟩
  · intro ρ hρ
    have h0 := hρ 0 (by simp)
    have h1 := hρ 1 (by simp)
    have h2 := hρ 2 (by simp)
    have h3 := hρ 3 (by simp)
    have h4 := hρ 4 (by simp)
    simp only [List.getD_cons_zero, List.getD_cons_succ, Nat.zero_add] at h0 h1 h2 h3 h4
    rw [vgaRot_eq]
    mv_value vgaRotorN
    rw [h0, h1, h2, h3, h4]
    module

/-- **C50 (rotors)**: a rotor built from an angle and an axis that is not null, and then normalised, denotes an element `R` with `R ~R = 1`: the
cosine of half the angle minus its sine times the bivector of the normalised axis. -/
theorem C50_rotor [CharZero K] (sqrt cos sin : K → K) (θ x y z : K) (h0 : x * x + y * y + z * z ≠ 0)
    (hs : sqrt (x * x + y * y + z * z) * sqrt (x * x + y * y + z * z) = x * x + y * y + z * z)
    (ht : cos (θ / 2) * cos (θ / 2) + sin (θ / 2) * sin (θ / 2) = 1) :
    ∃ x' y' z', normalize3 sqrt x y z = [x', y', z'] ∧ rotorNormalize sqrt (rotorNew cos sin θ x y z) = [cos (θ / 2), sin (θ / 2), x', y', z'] ∧
      (⟨vgaRotorIe, rotorNormalize sqrt (rotorNew cos sin θ x y z)⟩ : Arg K).Denotes 3 (Metric.sq vgaMetric) 0
        (vgaRot (cos (θ / 2)) (sin (θ / 2)) x' y' z') ∧
      vgaRot (cos (θ / 2)) (sin (θ / 2)) x' y' z' * CliffordAlgebra.reverse (vgaRot (cos (θ / 2)) (sin (θ / 2)) x' y' z') = 1 := by
  obtain ⟨x', y', z', h1, h2, -⟩ := C50_vector sqrt x y z h0 hs
  have e : (1 : K) / 2 * θ = θ / 2 := by ring
  have h3 : rotorNormalize sqrt (rotorNew cos sin θ x y z) = [cos (θ / 2), sin (θ / 2), x', y', z'] := by
    unfold rotorNew rotorNormalize
    dsimp only
    rw [h1, e]
  refine ⟨x', y', z', h1, h3, ?_, ?_⟩
  · rw [h3]
    exact vgaRotor_denotes _ _ _ _ _
  · rw [vgaRot_norm, h2, mul_one, ht, one_smul]

example : ∃ x' y' z' : ℚ, normalize3 (fun _ => 3) 1 2 2 = [x', y', z'] ∧
    vgaRot (3 / 5) (4 / 5) x' y' z' * CliffordAlgebra.reverse (vgaRot (3 / 5) (4 / 5) x' y' z') = 1 :=
  (C50_rotor (K := ℚ) (fun _ => 3) (fun _ => 3 / 5) (fun _ => 4 / 5) 1 1 2 2 (by norm_num) (by norm_num) (by norm_num)).imp fun _ h =>
    h.imp fun _ h => h.imp fun _ h => ⟨h.1, h.2.2.2⟩

/-! ## Motors -/

/-- The coefficients after `normalize`, for any coefficients. -/
theorem motorNormalize_eq (E : Env K) (sqrt : K → K) (a b c d e f g h u v : K) (hu : a * a + (d * d + (f * f + g * g)) = u)
    (hv : 2 * (a * h) + (-(2 * (b * g)) + (2 * (c * f) + -(2 * (d * e)))) = v) :
    motorNormalize E sqrt [a, b, c, d, e, f, g, h] =
      ok [a * (1 / sqrt u), b * (1 / sqrt u) + -(g * (-v / (2 * sqrt u * u))), c * (1 / sqrt u) + f * (-v / (2 * sqrt u * u)), d * (1 / sqrt u),
        -(d * (-v / (2 * sqrt u * u))) + e * (1 / sqrt u), f * (1 / sqrt u), g * (1 / sqrt u),
        a * (-v / (2 * sqrt u * u)) + h * (1 / sqrt u)] := by
  obtain ⟨x, hx, hx'⟩ := motorSquare_run E a b c d e f g h
  obtain ⟨y, hy, hy'⟩ := motorScale_run E a b c d e f g h (1 / sqrt u) (-v / (2 * sqrt u * u))
  rw [hu, hv] at hx'
  unfold motorNormalize
  rw [hx, ok_bind, hx', ok_bind]
  show (Out.ok u >>= _) = _
  rw [ok_bind]
  show (Out.ok v >>= _) = _
  rw [ok_bind, hy, ok_bind]
  show (computeExpr pgaMetric false 3 E [motorArg [a, b, c, d, e, f, g, h], (⟨[0, 15], [1 / sqrt u, -v / (2 * sqrt u * u)]⟩ : Entity K).toArg] y >>=
    single) >>= pgaMotorOf = _
  rw [hy', ok_bind]
  unfold pgaMotorOf Entity.selectMany
  rw [if_neg (by simp)]
  simp only [mapO, motorElements]
  rw [select_of (k := 0) (by decide) (by decide) rfl rfl, select_of (k := 1) (by decide) (by decide) rfl rfl,
    select_of (k := 2) (by decide) (by decide) rfl rfl, select_of (k := 3) (by decide) (by decide) rfl rfl,
    select_of (k := 4) (by decide) (by decide) rfl rfl, select_of (k := 5) (by decide) (by decide) rfl rfl,
    select_of (k := 6) (by decide) (by decide) rfl rfl, select_of (k := 7) (by decide) (by decide) rfl rfl]
  rfl

/-- **C50 (motors)**: for every motor `M` whose rotational part is not zero, `normalize` is never undefined and leaves a motor `M'` with
`M' ~M' = 1`.  It is `M` multiplied by a scalar plus a multiple of the pseudoscalar `I`, and `M = M' (α + β I)` for the square root
`α + β I` of `M ~M`. -/
theorem C50_motor [CharZero K] (E : Env K) (sqrt : K → K) (a b c d e f g h : K) (h0 : a * a + d * d + f * f + g * g ≠ 0)
    (hs : sqrt (a * a + d * d + f * f + g * g) * sqrt (a * a + d * d + f * f + g * g) = a * a + d * d + f * f + g * g) :
    ∃ a' b' c' d' e' f' g' h' β : K, motorNormalize E sqrt [a, b, c, d, e, f, g, h] = ok [a', b', c', d', e', f', g', h'] ∧
      pgaEven a' b' c' d' e' f' g' h' * CliffordAlgebra.reverse (pgaEven a' b' c' d' e' f' g' h') = 1 ∧
      pgaEven a b c d e f g h = pgaEven a' b' c' d' e' f' g' h' * (sqrt (a * a + d * d + f * f + g * g) • 1 + β • pgaPs) := by
  have e0 : a * a + (d * d + (f * f + g * g)) = a * a + d * d + f * f + g * g := by ring
  have e1 : 2 * (a * h) + (-(2 * (b * g)) + (2 * (c * f) + -(2 * (d * e)))) = 2 * (a * h - b * g + c * f - d * e) := by ring
  have := motorNormalize_eq E sqrt a b c d e f g h _ _ e0 e1
  refine ⟨_, _, _, _, _, _, _, _, (2 * (a * h - b * g + c * f - d * e)) / (2 * sqrt (a * a + d * d + f * f + g * g)), this, ?_, ?_⟩
  all_goals
    have hr : sqrt (a * a + d * d + f * f + g * g) ≠ 0 := fun hr => h0 (by rw [← hs, hr, mul_zero])
    generalize hu : a * a + d * d + f * f + g * g = u at *
    generalize hv : 2 * (a * h - b * g + c * f - d * e) = v at *
    generalize sqrt u = r at *
    have h2 : (2 : K) ≠ 0 := two_ne_zero
    obtain ⟨s, hs1⟩ : ∃ s, 1 / r = s := ⟨_, rfl⟩
    obtain ⟨t, ht1⟩ : ∃ t, -v / (2 * r * u) = t := ⟨_, rfl⟩
    have k1 : r * s = 1 := by rw [← hs1]; field_simp
    have k2 : 2 * r * u * t = -v := by rw [← ht1]; field_simp
    rw [hs1, ht1]
  · rw [pgaEven_norm]
    have k3 : v * s * s + 2 * u * s * t = 0 := by
      linear_combination s * s * k2 + (-2 * u * t * s) * k1
    have i1 : a * s * (a * s) + d * s * (d * s) + f * s * (f * s) + g * s * (g * s) = 1 := by
      linear_combination s * s * hu + (r * s + 1) * k1 - s * s * hs
    have i2 : 2 * (a * s * (a * t + h * s) - (b * s + -(g * t)) * (g * s) + (c * s + f * t) * (f * s) - d * s * (-(d * t) + e * s)) = 0 := by
      linear_combination s * s * hv + 2 * s * t * hu + k3
    rw [i1, i2]
    simp
  · rw [pgaEven_mul_dual]
    have k4 : t * r + s * (v / (2 * r)) = 0 := by
      rw [← hs1, ← ht1, ← hs]
      field_simp
      ring
    congr 1
    · linear_combination -a * k1
    · linear_combination -b * k1 + g * k4
    · linear_combination -c * k1 - f * k4
    · linear_combination -d * k1
    · linear_combination -e * k1 + d * k4
    · linear_combination -f * k1
    · linear_combination -g * k1
    · linear_combination -h * k1 - a * k4

/-- **C50 (motors of norm one)**: `normalize` leaves a motor with `M ~M = 1` unchanged, given `sqrt(1) = 1`. -/
theorem C50_motor_unit (E : Env K) (sqrt : K → K) (h1 : sqrt 1 = 1) (a b c d e f g h : K)
    (hM : pgaEven a b c d e f g h * CliffordAlgebra.reverse (pgaEven a b c d e f g h) = 1) :
    motorNormalize E sqrt [a, b, c, d, e, f, g, h] = ok [a, b, c, d, e, f, g, h] := by
  obtain ⟨k1, k2⟩ := pgaEven_unit.1 hM
  have e0 : a * a + (d * d + (f * f + g * g)) = 1 := by rw [← k1]; ring
  have e1 : 2 * (a * h) + (-(2 * (b * g)) + (2 * (c * f) + -(2 * (d * e)))) = 0 := by rw [← k2]; ring
  rw [motorNormalize_eq E sqrt a b c d e f g h _ _ e0 e1, h1]
  simp

example : motorNormalize (K := ℚ) ⟨[], [], fun _ _ _ => 0, fun _ _ => 0⟩ (fun _ => 1) [3 / 5, 0, 0, 4 / 5, 4, 0, 0, 16 / 3] =
    ok [3 / 5, 0, 0, 4 / 5, 4, 0, 0, 16 / 3] :=
  C50_motor_unit _ _ rfl _ _ _ _ _ _ _ _ (pgaEven_unit.2 ⟨by norm_num, by norm_num⟩)

example : ∃ a' b' c' d' e' f' g' h' β : ℚ, motorNormalize ⟨[], [], fun _ _ _ => 0, fun _ _ => 0⟩ (fun _ => 5) [3, 1, 2, 4, 5, 0, 0, 7] =
    ok [a', b', c', d', e', f', g', h'] ∧
      pgaEven a' b' c' d' e' f' g' h' * CliffordAlgebra.reverse (pgaEven a' b' c' d' e' f' g' h') = 1 ∧
      pgaEven 3 1 2 4 5 0 0 7 = pgaEven a' b' c' d' e' f' g' h' * ((5 : ℚ) • 1 + β • pgaPs) :=
  C50_motor ⟨[], [], fun _ _ _ => 0, fun _ _ => 0⟩ (fun _ => 5) 3 1 2 4 5 0 0 7 (by norm_num) (by norm_num)

end Gal
