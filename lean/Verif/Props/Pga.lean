import Verif.Spec.Pga
import Verif.Props.Sparse
import Verif.Props.Reverse
import Verif.CliffordBasis

/-!
# Products of the even elements of three-dimensional projective geometric algebra
-/

namespace Gal

variable {K : Type} [Field K]

/-- A blade. -/
noncomputable def pgaB (g : Nat) : Pga K := cliffBlade K 4 (Metric.sq pgaMetric) g

theorem pgaB_zero : (pgaB 0 : Pga K) = 1 := by
  rw [pgaB, cliffBlade, bladeOf_zero]

theorem pgaB_mul (a b c : Nat) (s : Int) (ha : a < 2 ^ 4) (hc : a ^^^ b = c) (hs : sgn (Metric.sq pgaMetric) 4 a b = s) {x : Pga K}
    (hx : (s : K) • pgaB c = x) : (pgaB a : Pga K) * pgaB b = x := by
  rw [← hx, ← hc, ← hs]
  exact blade_mul 4 _ ha

theorem pgaB_table :
    (pgaB 3 : Pga K) * pgaB 3 = 0 ∧
    (pgaB 3 : Pga K) * pgaB 5 = 0 ∧
    (pgaB 3 : Pga K) * pgaB 6 = pgaB 5 ∧
    (pgaB 3 : Pga K) * pgaB 9 = 0 ∧
    (pgaB 3 : Pga K) * pgaB 10 = pgaB 9 ∧
    (pgaB 3 : Pga K) * pgaB 12 = pgaB 15 ∧
    (pgaB 5 : Pga K) * pgaB 3 = 0 ∧
    (pgaB 5 : Pga K) * pgaB 5 = 0 ∧
    (pgaB 5 : Pga K) * pgaB 6 = -pgaB 3 ∧
    (pgaB 5 : Pga K) * pgaB 9 = 0 ∧
    (pgaB 5 : Pga K) * pgaB 10 = -pgaB 15 ∧
    (pgaB 5 : Pga K) * pgaB 12 = pgaB 9 ∧
    (pgaB 6 : Pga K) * pgaB 3 = -pgaB 5 ∧
    (pgaB 6 : Pga K) * pgaB 5 = pgaB 3 ∧
    (pgaB 6 : Pga K) * pgaB 6 = -1 ∧
    (pgaB 6 : Pga K) * pgaB 9 = pgaB 15 ∧
    (pgaB 6 : Pga K) * pgaB 10 = -pgaB 12 ∧
    (pgaB 6 : Pga K) * pgaB 12 = pgaB 10 ∧
    (pgaB 9 : Pga K) * pgaB 3 = 0 ∧
    (pgaB 9 : Pga K) * pgaB 5 = 0 ∧
    (pgaB 9 : Pga K) * pgaB 6 = pgaB 15 ∧
    (pgaB 9 : Pga K) * pgaB 9 = 0 ∧
    (pgaB 9 : Pga K) * pgaB 10 = -pgaB 3 ∧
    (pgaB 9 : Pga K) * pgaB 12 = -pgaB 5 ∧
    (pgaB 10 : Pga K) * pgaB 3 = -pgaB 9 ∧
    (pgaB 10 : Pga K) * pgaB 5 = -pgaB 15 ∧
    (pgaB 10 : Pga K) * pgaB 6 = pgaB 12 ∧
    (pgaB 10 : Pga K) * pgaB 9 = pgaB 3 ∧
    (pgaB 10 : Pga K) * pgaB 10 = -1 ∧
    (pgaB 10 : Pga K) * pgaB 12 = -pgaB 6 ∧
    (pgaB 12 : Pga K) * pgaB 3 = pgaB 15 ∧
    (pgaB 12 : Pga K) * pgaB 5 = -pgaB 9 ∧
    (pgaB 12 : Pga K) * pgaB 6 = -pgaB 10 ∧
    (pgaB 12 : Pga K) * pgaB 9 = pgaB 5 ∧
    (pgaB 12 : Pga K) * pgaB 10 = pgaB 6 ∧
    (pgaB 12 : Pga K) * pgaB 12 = -1 ∧
    (pgaB 15 : Pga K) * pgaB 3 = 0 ∧
    (pgaB 15 : Pga K) * pgaB 5 = 0 ∧
    (pgaB 15 : Pga K) * pgaB 6 = -pgaB 9 ∧
    (pgaB 15 : Pga K) * pgaB 9 = 0 ∧
    (pgaB 15 : Pga K) * pgaB 10 = pgaB 5 ∧
    (pgaB 15 : Pga K) * pgaB 12 = -pgaB 3 ∧
    (pgaB 3 : Pga K) * pgaB 15 = 0 ∧
    (pgaB 5 : Pga K) * pgaB 15 = 0 ∧
    (pgaB 6 : Pga K) * pgaB 15 = -pgaB 9 ∧
    (pgaB 9 : Pga K) * pgaB 15 = 0 ∧
    (pgaB 10 : Pga K) * pgaB 15 = pgaB 5 ∧
    (pgaB 12 : Pga K) * pgaB 15 = -pgaB 3 ∧
    (pgaB 15 : Pga K) * pgaB 15 = 0 := by
  refine ⟨?_, ?_, ?_, ?_, ?_, ?_, ?_, ?_, ?_, ?_, ?_, ?_, ?_, ?_, ?_, ?_, ?_, ?_, ?_, ?_, ?_, ?_, ?_, ?_, ?_, ?_, ?_, ?_, ?_, ?_, ?_, ?_, ?_, ?_, ?_, ?_, ?_, ?_, ?_, ?_, ?_, ?_, ?_, ?_, ?_, ?_, ?_, ?_, ?_⟩
  · exact pgaB_mul 3 3 0 0 (by decide) (by decide) (by decide +kernel) (by simp [pgaB_zero])
  · exact pgaB_mul 3 5 6 0 (by decide) (by decide) (by decide +kernel) (by simp)
  · exact pgaB_mul 3 6 5 1 (by decide) (by decide) (by decide +kernel) (by simp)
  · exact pgaB_mul 3 9 10 0 (by decide) (by decide) (by decide +kernel) (by simp)
  · exact pgaB_mul 3 10 9 1 (by decide) (by decide) (by decide +kernel) (by simp)
  · exact pgaB_mul 3 12 15 1 (by decide) (by decide) (by decide +kernel) (by simp)
  · exact pgaB_mul 5 3 6 0 (by decide) (by decide) (by decide +kernel) (by simp)
  · exact pgaB_mul 5 5 0 0 (by decide) (by decide) (by decide +kernel) (by simp [pgaB_zero])
  · exact pgaB_mul 5 6 3 (-1) (by decide) (by decide) (by decide +kernel) (by simp)
  · exact pgaB_mul 5 9 12 0 (by decide) (by decide) (by decide +kernel) (by simp)
  · exact pgaB_mul 5 10 15 (-1) (by decide) (by decide) (by decide +kernel) (by simp)
  · exact pgaB_mul 5 12 9 1 (by decide) (by decide) (by decide +kernel) (by simp)
  · exact pgaB_mul 6 3 5 (-1) (by decide) (by decide) (by decide +kernel) (by simp)
  · exact pgaB_mul 6 5 3 1 (by decide) (by decide) (by decide +kernel) (by simp)
  · exact pgaB_mul 6 6 0 (-1) (by decide) (by decide) (by decide +kernel) (by simp [pgaB_zero])
  · exact pgaB_mul 6 9 15 1 (by decide) (by decide) (by decide +kernel) (by simp)
  · exact pgaB_mul 6 10 12 (-1) (by decide) (by decide) (by decide +kernel) (by simp)
  · exact pgaB_mul 6 12 10 1 (by decide) (by decide) (by decide +kernel) (by simp)
  · exact pgaB_mul 9 3 10 0 (by decide) (by decide) (by decide +kernel) (by simp)
  · exact pgaB_mul 9 5 12 0 (by decide) (by decide) (by decide +kernel) (by simp)
  · exact pgaB_mul 9 6 15 1 (by decide) (by decide) (by decide +kernel) (by simp)
  · exact pgaB_mul 9 9 0 0 (by decide) (by decide) (by decide +kernel) (by simp [pgaB_zero])
  · exact pgaB_mul 9 10 3 (-1) (by decide) (by decide) (by decide +kernel) (by simp)
  · exact pgaB_mul 9 12 5 (-1) (by decide) (by decide) (by decide +kernel) (by simp)
  · exact pgaB_mul 10 3 9 (-1) (by decide) (by decide) (by decide +kernel) (by simp)
  · exact pgaB_mul 10 5 15 (-1) (by decide) (by decide) (by decide +kernel) (by simp)
  · exact pgaB_mul 10 6 12 1 (by decide) (by decide) (by decide +kernel) (by simp)
  · exact pgaB_mul 10 9 3 1 (by decide) (by decide) (by decide +kernel) (by simp)
  · exact pgaB_mul 10 10 0 (-1) (by decide) (by decide) (by decide +kernel) (by simp [pgaB_zero])
  · exact pgaB_mul 10 12 6 (-1) (by decide) (by decide) (by decide +kernel) (by simp)
  · exact pgaB_mul 12 3 15 1 (by decide) (by decide) (by decide +kernel) (by simp)
  · exact pgaB_mul 12 5 9 (-1) (by decide) (by decide) (by decide +kernel) (by simp)
  · exact pgaB_mul 12 6 10 (-1) (by decide) (by decide) (by decide +kernel) (by simp)
  · exact pgaB_mul 12 9 5 1 (by decide) (by decide) (by decide +kernel) (by simp)
  · exact pgaB_mul 12 10 6 1 (by decide) (by decide) (by decide +kernel) (by simp)
  · exact pgaB_mul 12 12 0 (-1) (by decide) (by decide) (by decide +kernel) (by simp [pgaB_zero])
  · exact pgaB_mul 15 3 12 0 (by decide) (by decide) (by decide +kernel) (by simp)
  · exact pgaB_mul 15 5 10 0 (by decide) (by decide) (by decide +kernel) (by simp)
  · exact pgaB_mul 15 6 9 (-1) (by decide) (by decide) (by decide +kernel) (by simp)
  · exact pgaB_mul 15 9 6 0 (by decide) (by decide) (by decide +kernel) (by simp)
  · exact pgaB_mul 15 10 5 1 (by decide) (by decide) (by decide +kernel) (by simp)
  · exact pgaB_mul 15 12 3 (-1) (by decide) (by decide) (by decide +kernel) (by simp)
  · exact pgaB_mul 3 15 12 0 (by decide) (by decide) (by decide +kernel) (by simp)
  · exact pgaB_mul 5 15 10 0 (by decide) (by decide) (by decide +kernel) (by simp)
  · exact pgaB_mul 6 15 9 (-1) (by decide) (by decide) (by decide +kernel) (by simp)
  · exact pgaB_mul 9 15 6 0 (by decide) (by decide) (by decide +kernel) (by simp)
  · exact pgaB_mul 10 15 5 1 (by decide) (by decide) (by decide +kernel) (by simp)
  · exact pgaB_mul 12 15 3 (-1) (by decide) (by decide) (by decide +kernel) (by simp)
  · exact pgaB_mul 15 15 0 0 (by decide) (by decide) (by decide +kernel) (by simp [pgaB_zero])

theorem pgaGen_eq (i : Nat) (h : i < 4) : cliffGen K 4 (Metric.sq pgaMetric) i = pgaGen ⟨i, h⟩ := by
  rw [cliffGen, dif_pos h, pgaGen]

theorem pgaBiv_eq (a b c d e f : K) :
    pgaBiv a b c d e f = a • pgaB 3 + b • pgaB 5 + c • pgaB 6 + d • pgaB 9 + e • pgaB 10 + f • pgaB 12 := by
  simp [pgaBiv, pgaB, cliffBlade, bladeOf, Nat.testBit, pgaGen_eq]

theorem pgaPs_eq : (pgaPs : Pga K) = pgaB 15 := by
  simp [pgaPs, pgaB, cliffBlade, bladeOf, Nat.testBit, pgaGen_eq]

theorem pgaPs_sq : (pgaPs : Pga K) * pgaPs = 0 := by
  rw [pgaPs_eq]
  exact pgaB_table.2.2.2.2.2.2.2.2.2.2.2.2.2.2.2.2.2.2.2.2.2.2.2.2.2.2.2.2.2.2.2.2.2.2.2.2.2.2.2.2.2.2.2.2.2.2.2.2

theorem pgaPs_biv (a b c d e f : K) : pgaPs * pgaBiv a b c d e f = pgaBiv (-f) e 0 (-c) 0 0 := by
  rw [pgaPs_eq, pgaBiv_eq, pgaBiv_eq]
  simp only [mul_add, mul_smul_comm, pgaB_table]
  module

theorem pgaBiv_ps (a b c d e f : K) : pgaBiv a b c d e f * pgaPs = pgaBiv (-f) e 0 (-c) 0 0 := by
  rw [pgaPs_eq, pgaBiv_eq, pgaBiv_eq]
  simp only [add_mul, smul_mul_assoc, pgaB_table]
  module

theorem pgaBiv_mul (a b c d e f a' b' c' d' e' f' : K) : pgaBiv a b c d e f * pgaBiv a' b' c' d' e' f' =
    pgaEven (-(c * c') - e * e' - f * f')
      (c * b' - b * c' + e * d' - d * e') (a * c' - c * a' + f * d' - d * f') (f * e' - e * f')
      (a * e' - e * a' + b * f' - f * b') (c * f' - f * c') (e * c' - c * e')
      (a * f' + f * a' - b * e' - e * b' + c * d' + d * c') := by
  rw [pgaEven, pgaPs_eq, pgaBiv_eq, pgaBiv_eq, pgaBiv_eq]
  simp only [add_mul, mul_add, smul_mul_smul_comm, pgaB_table]
  module

theorem pgaBiv_sq (a b c d e f : K) :
    pgaBiv a b c d e f * pgaBiv a b c d e f = (-(c * c) - e * e - f * f) • 1 + (2 * (a * f - b * e + c * d)) • pgaPs := by
  rw [pgaBiv_mul, pgaEven, pgaBiv_eq]
  module

theorem pgaBiv_reverse (a b c d e f : K) : CliffordAlgebra.reverse (pgaBiv a b c d e f) = -pgaBiv a b c d e f := by
  rw [pgaBiv_eq]
  unfold pgaB
  simp only [map_add, map_smul, reverse_blade]
  have h3 : gradeOf 4 3 = 2 := by decide
  have h5 : gradeOf 4 5 = 2 := by decide
  have h6 : gradeOf 4 6 = 2 := by decide
  have h9 : gradeOf 4 9 = 2 := by decide
  have h10 : gradeOf 4 10 = 2 := by decide
  have h12 : gradeOf 4 12 = 2 := by decide
  rw [h3, h5, h6, h9, h10, h12]
  simp only [Nat.reduceSub, Nat.reduceMul, Nat.reduceDiv, pow_one, Int.reduceNeg, Int.cast_neg, Int.cast_one]
  module

theorem pgaPs_reverse : CliffordAlgebra.reverse (pgaPs : Pga K) = pgaPs := by
  rw [pgaPs_eq, pgaB, reverse_blade]
  have h : gradeOf 4 15 = 4 := by decide
  rw [h]
  simp

theorem pgaEven_reverse (a b c d e f g h : K) :
    CliffordAlgebra.reverse (pgaEven a b c d e f g h) = pgaEven a (-b) (-c) (-d) (-e) (-f) (-g) h := by
  rw [pgaEven, map_add, map_add, map_smul, map_smul, pgaBiv_reverse, pgaPs_reverse, CliffordAlgebra.reverse.map_one, pgaEven, pgaBiv_eq,
    pgaBiv_eq]
  module

theorem pgaEven_mul_dual (a b c d e f g h u v : K) :
    pgaEven a b c d e f g h * (u • 1 + v • pgaPs) =
      pgaEven (a * u) (b * u - g * v) (c * u + f * v) (d * u) (e * u - d * v) (f * u) (g * u) (a * v + h * u) := by
  have : pgaEven a b c d e f g h * (u • 1 + v • pgaPs) = u • pgaEven a b c d e f g h + v • (a • pgaPs + pgaBiv b c d e f g * pgaPs +
      h • (pgaPs * pgaPs)) := by
    simp only [pgaEven, mul_add, add_mul, smul_mul_assoc, mul_smul_comm, mul_one, one_mul]
  rw [this, pgaPs_sq, pgaBiv_ps, pgaEven, pgaEven, pgaBiv_eq, pgaBiv_eq, pgaBiv_eq]
  module

/-- The square of the norm of an even element. -/
theorem pgaEven_norm (a b c d e f g h : K) : pgaEven a b c d e f g h * CliffordAlgebra.reverse (pgaEven a b c d e f g h) =
    (a * a + d * d + f * f + g * g) • 1 + (2 * (a * h - b * g + c * f - d * e)) • pgaPs := by
  have h1 : pgaEven a b c d e f g h * CliffordAlgebra.reverse (pgaEven a b c d e f g h) =
      (a * a) • 1 + (2 * a * h) • pgaPs + (h * h) • (pgaPs * pgaPs) - pgaBiv b c d e f g * pgaBiv b c d e f g +
        h • (pgaBiv b c d e f g * pgaPs - pgaPs * pgaBiv b c d e f g) := by
    rw [pgaEven, map_add, map_add, map_smul, map_smul, pgaBiv_reverse, pgaPs_reverse, CliffordAlgebra.reverse.map_one]
    simp only [mul_add, add_mul, smul_mul_assoc, mul_smul_comm, mul_one, one_mul, mul_neg]
    module
  rw [h1, pgaPs_sq, pgaBiv_sq, pgaBiv_ps, pgaPs_biv]
  module

/-- The coefficients of an even element. -/
theorem pgaEven_coords (a b c d e f g h : K) : bladeCoords K 4 (Metric.sq pgaMetric) (pgaEven a b c d e f g h) =
    Finsupp.single 0 a + (Finsupp.single 3 b + Finsupp.single 5 c + Finsupp.single 6 d + Finsupp.single 9 e + Finsupp.single 10 f +
      Finsupp.single 12 g) + Finsupp.single 15 h := by
  rw [pgaEven, pgaBiv_eq, pgaPs_eq, ← pgaB_zero]
  unfold pgaB
  simp only [map_add, map_smul]
  rw [bladeCoords_blade K 4 _ 0 (by decide), bladeCoords_blade K 4 _ 3 (by decide), bladeCoords_blade K 4 _ 5 (by decide),
    bladeCoords_blade K 4 _ 6 (by decide), bladeCoords_blade K 4 _ 9 (by decide), bladeCoords_blade K 4 _ 10 (by decide),
    bladeCoords_blade K 4 _ 12 (by decide), bladeCoords_blade K 4 _ 15 (by decide)]
  simp only [Finsupp.smul_single, smul_eq_mul, mul_one]

/-- An even element determines its coefficients. -/
theorem pgaEven_inj {a b c d e f g h a' b' c' d' e' f' g' h' : K} (hx : pgaEven a b c d e f g h = pgaEven a' b' c' d' e' f' g' h') :
    a = a' ∧ b = b' ∧ c = c' ∧ d = d' ∧ e = e' ∧ f = f' ∧ g = g' ∧ h = h' := by
  have k := congrArg (bladeCoords K 4 (Metric.sq pgaMetric)) hx
  rw [pgaEven_coords, pgaEven_coords] at k
  have k0 := DFunLike.congr_fun k 0
  have k3 := DFunLike.congr_fun k 3
  have k5 := DFunLike.congr_fun k 5
  have k6 := DFunLike.congr_fun k 6
  have k9 := DFunLike.congr_fun k 9
  have k10 := DFunLike.congr_fun k 10
  have k12 := DFunLike.congr_fun k 12
  have k15 := DFunLike.congr_fun k 15
  simp at k0 k3 k5 k6 k9 k10 k12 k15
  exact ⟨k0, k3, k5, k6, k9, k10, k12, k15⟩

theorem pgaDual_eq (x y : K) : x • (1 : Pga K) + y • pgaPs = pgaEven x 0 0 0 0 0 0 y := by
  rw [pgaEven, pgaBiv_eq]
  module

/-- `M ~M = 1` for an even element, in coefficients. -/
theorem pgaEven_unit {a b c d e f g h : K} :
    pgaEven a b c d e f g h * CliffordAlgebra.reverse (pgaEven a b c d e f g h) = 1 ↔
      a * a + d * d + f * f + g * g = 1 ∧ 2 * (a * h - b * g + c * f - d * e) = 0 := by
  rw [pgaEven_norm, pgaDual_eq, show (1 : Pga K) = pgaEven 1 0 0 0 0 0 0 0 by rw [← pgaDual_eq]; module]
  constructor
  · intro k
    have := pgaEven_inj k
    exact ⟨this.1, this.2.2.2.2.2.2.2⟩
  · rintro ⟨k1, k2⟩
    rw [k1, k2]

end Gal
