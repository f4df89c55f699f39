import Verif.Props.Motor
import Verif.Props.ExpSeries
import Mathlib.Analysis.SpecialFunctions.Complex.Arg
import Mathlib.Analysis.SpecialFunctions.Trigonometric.Bounds

/-!
# Properties C51 and C52: `exp` of a line and `log` of a motor
-/

namespace Gal

open Out

/-- `std::atan2(y, x)` on the real numbers: the angle of the point `(x, y)`, and 0 for `(0, 0)`. -/
noncomputable def atan2 (y x : ℝ) : ℝ := Complex.arg ⟨x, y⟩

theorem atan2_spec {x y r : ℝ} (hr : 0 < r) (h : x * x + y * y = r * r) : Real.cos (atan2 y x) * r = x ∧ Real.sin (atan2 y x) * r = y := by
  have hn : ‖(⟨x, y⟩ : ℂ)‖ = r := by
    rw [Complex.norm_def, Complex.normSq_mk, h]
    exact Real.sqrt_mul_self hr.le
  have h0 : (⟨x, y⟩ : ℂ) ≠ 0 := by
    intro hz
    rw [hz, norm_zero] at hn
    exact hr.ne hn
  constructor
  · rw [atan2, Complex.cos_arg h0, hn]
    exact div_mul_cancel₀ _ hr.ne'
  · rw [atan2, Complex.sin_arg, hn]
    exact div_mul_cancel₀ _ hr.ne'

/-- A bivector with direction of length `s > 0` is `(s + p I) N` with `N² = -1`, for the number `p` with `2 s p = -L²|_I`. -/
theorem biv_polar (a b c d e f s p : ℝ) (hs : 0 < s) (h1 : c * c + e * e + f * f = s * s) (h2 : a * f - b * e + c * d = -(s * p)) :
    ∃ N : Pga ℝ, N = (s⁻¹ • 1 - (p / (s * s)) • pgaPs) * pgaBiv a b c d e f ∧ N * N = -1 ∧ Commute pgaPs N ∧
      (s • 1 + p • pgaPs) * N = pgaBiv a b c d e f := by
  refine ⟨_, rfl, ?_, ?_, ?_⟩
  all_goals
    set L := pgaBiv a b c d e f with hL
    have hc : Commute pgaPs L := by rw [Commute, SemiconjBy, hL, pgaPs_biv, pgaBiv_ps]
    have hI : (pgaPs : Pga ℝ) * pgaPs = 0 := pgaPs_sq
    have hQ : L * L = (-(s * s)) • 1 + (2 * -(s * p)) • pgaPs := by
      rw [hL, pgaBiv_sq, ← h1, ← h2]
      congr 2
      ring
    have hs0 := hs.ne'
    have hD : Commute (s⁻¹ • 1 - (p / (s * s)) • pgaPs : Pga ℝ) L :=
      ((Commute.one_left L).smul_left _).sub_left (hc.smul_left _)
  · rw [hD.symm.mul_mul_mul_comm, hQ]
    simp only [sub_mul, mul_sub, mul_add, smul_mul_assoc, mul_smul_comm, one_mul, mul_one, hI, smul_zero, sub_zero, smul_sub]
    match_scalars <;> field_simp
    ring
  · exact ((Commute.one_right pgaPs).smul_right _).sub_right ((Commute.refl pgaPs).smul_right _) |>.mul_right hc
  · rw [← mul_assoc]
    have : (s • 1 + p • pgaPs : Pga ℝ) * (s⁻¹ • 1 - (p / (s * s)) • pgaPs) = 1 := by
      simp only [add_mul, mul_sub, smul_mul_assoc, mul_smul_comm, one_mul, mul_one, hI, smul_zero, smul_add]
      match_scalars <;> field_simp
      ring
    rw [this, one_mul]

theorem dual_biv {K : Type} [Field K] (x y a b c d e f : K) : (x • 1 + y • pgaPs) * pgaBiv a b c d e f =
    pgaBiv (a * x - f * y) (b * x + e * y) (c * x) (d * x - c * y) (e * x) (f * x) := by
  rw [add_mul, smul_mul_assoc, smul_mul_assoc, pgaPs_biv, one_mul, pgaBiv_eq, pgaBiv_eq, pgaBiv_eq]
  module

/-- The exponential of a bivector in coefficients. -/
theorem isExp_biv (a b c d e f s p α β : ℝ) (hs : 0 < s) (h1 : c * c + e * e + f * f = s * s) (h2 : a * f - b * e + c * d = -(s * p))
    (hα : α = Real.sin s / s) (hβ : β = p * Real.cos s / s - p * Real.sin s / (s * s)) :
    IsExp (pgaBiv a b c d e f) (pgaEven (Real.cos s) (a * α - f * β) (b * α + e * β) (c * α) (d * α - c * β) (e * α) (f * α)
      (-(p * Real.sin s))) := by
  obtain ⟨N, hN, h3, h4, h5⟩ := biv_polar a b c d e f s p hs h1 h2
  have := isExp_dualLine pgaPs_sq h3 h4 s p
  rw [h5] at this
  have hs0 := hs.ne'
  have e1 : (Real.sin s • 1 + (p * Real.cos s) • pgaPs) * N = (α • 1 + β • pgaPs) * pgaBiv a b c d e f := by
    rw [hN, ← mul_assoc]
    congr 1
    simp only [add_mul, mul_sub, smul_mul_assoc, mul_smul_comm, one_mul, mul_one, pgaPs_sq, smul_zero, smul_add]
    rw [hα, hβ]
    match_scalars <;> field_simp
  rw [e1, dual_biv] at this
  have e2 : pgaEven (Real.cos s) (a * α - f * β) (b * α + e * β) (c * α) (d * α - c * β) (e * α) (f * α) (-(p * Real.sin s)) =
      Real.cos s • 1 - (p * Real.sin s) • pgaPs + pgaBiv (a * α - f * β) (b * α + e * β) (c * α) (d * α - c * β) (e * α) (f * α) := by
    rw [pgaEven]
    module
  rw [e2]
  exact this

/-- The mathematical functions of the environment. -/
structure RealFns (E : Env ℝ) : Prop where
  sqrt : ∀ x, E.fn .sqrt x = Real.sqrt x
  cos : ∀ x, E.fn .cos x = Real.cos x
  sin : ∀ x, E.fn .sin x = Real.sin x

/-- The exponential of a bivector has norm one. -/
theorem exp_unit (a b c d e f s p α β : ℝ) (hs : 0 < s) (h1 : c * c + e * e + f * f = s * s) (h2 : a * f - b * e + c * d = -(s * p))
    (hα : α = Real.sin s / s) (hβ : β = p * Real.cos s / s - p * Real.sin s / (s * s)) {y : Pga ℝ}
    (hy : y = pgaEven (Real.cos s) (a * α - f * β) (b * α + e * β) (c * α) (d * α - c * β) (e * α) (f * α) (-(p * Real.sin s))) :
    y * CliffordAlgebra.reverse y = 1 := by
  have hs0 := hs.ne'
  have k1 : s * α = Real.sin s := by rw [hα]; field_simp
  have k2 : s * β = p * Real.cos s - p * α := by rw [hα, hβ]; field_simp
  have k3 := Real.sin_sq_add_cos_sq s
  rw [hy, pgaEven_unit]
  constructor
  · linear_combination (α * α) * h1 + (s * α + Real.sin s) * k1 + k3
  · linear_combination (-2 * α * α) * h2 + (2 * α * β) * h1 + 2 * α * s * k2 + 2 * p * Real.cos s * k1

theorem even_denotes (a b c d e f g h : ℝ) :
    (⟨[0, 3, 5, 6, 9, 10, 12, 15], [a, b, c, d, e, f, g, h]⟩ : Entity ℝ).Denotes 4 (Metric.sq pgaMetric) (pgaEven a b c d e f g h) :=
  ⟨rfl, show [0, 3, 5, 6, 9, 10, 12, 15].Pairwise (· < ·) by decide, show ∀ e ∈ [0, 3, 5, 6, 9, 10, 12, 15], e < 2 ^ 4 by decide,
    even_value _ _ _ _ _ _ _ _⟩

/-- The result of `exp` in terms of the length `s` of the direction and of `p`. -/
theorem computeExp_biv (E : Env ℝ) (hE : RealFns E) (a b c d e f s p α β : ℝ) (hs : 0 < s) (h1 : c * c + e * e + f * f = s * s)
    (h2 : a * f - b * e + c * d = -(s * p)) (hα : α = Real.sin s / s) (hβ : β = p * Real.cos s / s - p * Real.sin s / (s * s)) :
    computeExp E (⟨[3, 5, 6, 9, 10, 12], [a, b, c, d, e, f]⟩ : Entity ℝ).toArg = ok ⟨[0, 3, 5, 6, 9, 10, 12, 15],
      [Real.cos s, a * α - f * β, b * α + e * β, c * α, d * α - c * β, e * α, f * α, -(p * Real.sin s)]⟩ := by
  have hs0 := hs.ne'
  have hu : E.fn .sqrt (f * f + e * e + c * c) = s := by
    rw [hE.sqrt, show f * f + e * e + c * c = s * s by linear_combination h1, Real.sqrt_mul_self hs.le]
  have hv : -1 / 2 * ((-2 * (s * p)) * s⁻¹) = p := by
    field_simp
  obtain ⟨x, hx, hx'⟩ := bivExp_run E a b c d e f (-(s * s)) (-2 * (s * p)) s p (by linear_combination 2 * h2) (by linear_combination -h1) hu hv
  unfold computeExp
  rw [hx, ok_bind, hx', hE.cos, hE.sin]
  congr 2
  have k1 : Real.sin s * s⁻¹ = α := hα.symm
  have k2 : Real.sin s * ((-(s * s))⁻¹ * p) + p * Real.cos s * s⁻¹ = β := by
    rw [hβ, inv_neg]
    field_simp
    ring
  rw [k1, ← k2]
  simp only [List.cons.injEq, and_true, true_and]
  refine ⟨?_, ?_, ?_⟩ <;> ring

/-- The same for a line. -/
theorem computeExp_line (E : Env ℝ) (hE : RealFns E) (a b c d e f s p α β : ℝ) (hs : 0 < s) (h1 : a * a + b * b + c * c = s * s)
    (h2 : a * d - b * e + c * f = -(s * p)) (hα : α = Real.sin s / s) (hβ : β = p * Real.cos s / s - p * Real.sin s / (s * s)) :
    computeExp E (lineArg [a, b, c, d, e, f]) = ok ⟨[0, 3, 5, 6, 9, 10, 12, 15],
      [Real.cos s, -d * α - -a * β, e * α + b * β, -c * α, -f * α - -c * β, b * α, -a * α, -(p * Real.sin s)]⟩ := by
  have hs0 := hs.ne'
  have hu : E.fn .sqrt (c * c + b * b + a * a) = s := by
    rw [hE.sqrt, show c * c + b * b + a * a = s * s by linear_combination h1, Real.sqrt_mul_self hs.le]
  have hv : -1 / 2 * ((-2 * (s * p)) * s⁻¹) = p := by
    field_simp
  obtain ⟨x, hx, hx'⟩ := lineExp_run E a b c d e f (-(s * s)) (-2 * (s * p)) s p (by linear_combination 2 * h2) (by linear_combination -h1) hu hv
  unfold computeExp
  rw [hx, ok_bind, hx', hE.cos, hE.sin]
  congr 2
  have k1 : Real.sin s * s⁻¹ = α := hα.symm
  have k2 : Real.sin s * ((-(s * s))⁻¹ * p) + p * Real.cos s * s⁻¹ = β := by
    rw [hβ, inv_neg]
    field_simp
    ring
  rw [k1, ← k2]
  simp only [List.cons.injEq, and_true, true_and]
  refine ⟨?_, ?_, ?_, ?_, ?_⟩ <;> ring

/-- **C51 (bivectors)**: for a bivector `L` of the projective algebra whose Euclidean part is not zero, `compute([](auto l) { return exp(l); }, l)`
is never undefined and returns the exponential `Σ Lᵏ/k!`, a motor of norm one. -/
theorem C51_exp_biv (E : Env ℝ) (hE : RealFns E) (a b c d e f : ℝ) (h0 : c * c + e * e + f * f ≠ 0) :
    ∃ r y, computeExp E (⟨[3, 5, 6, 9, 10, 12], [a, b, c, d, e, f]⟩ : Entity ℝ).toArg = ok r ∧ r.elements = motorElements ∧
      r.Denotes 4 (Metric.sq pgaMetric) y ∧ IsExp (pgaBiv a b c d e f) y ∧ y * CliffordAlgebra.reverse y = 1 := by
  have hp : 0 < c * c + e * e + f * f := lt_of_le_of_ne (by linarith [mul_self_nonneg c, mul_self_nonneg e, mul_self_nonneg f]) h0.symm
  have hs := Real.sqrt_pos.2 hp
  have h1 : c * c + e * e + f * f = Real.sqrt (c * c + e * e + f * f) * Real.sqrt (c * c + e * e + f * f) := (Real.mul_self_sqrt hp.le).symm
  generalize Real.sqrt (c * c + e * e + f * f) = s at *
  have h2 : a * f - b * e + c * d = -(s * (-(a * f - b * e + c * d) / s)) := by
    have := hs.ne'
    field_simp
  generalize -(a * f - b * e + c * d) / s = p at *
  exact ⟨_, _, computeExp_biv E hE a b c d e f s p _ _ hs h1 h2 rfl rfl, rfl, even_denotes _ _ _ _ _ _ _ _,
    isExp_biv a b c d e f s p _ _ hs h1 h2 rfl rfl, exp_unit a b c d e f s p _ _ hs h1 h2 rfl rfl rfl⟩

/-- **C51 (lines)**: for a line with direction `(a, b, c) ≠ 0` and moment `(d, e, f)`, `compute([](auto l) { return exp(l); }, l)` is never
undefined and returns the exponential of the bivector the line denotes, a motor of norm one. -/
theorem C51_exp_line (E : Env ℝ) (hE : RealFns E) (a b c d e f : ℝ) (h0 : a * a + b * b + c * c ≠ 0) :
    ∃ r x y, (lineArg [a, b, c, d, e, f]).Denotes 4 (Metric.sq pgaMetric) 0 x ∧ computeExp E (lineArg [a, b, c, d, e, f]) = ok r ∧
      r.elements = motorElements ∧ r.Denotes 4 (Metric.sq pgaMetric) y ∧ IsExp x y ∧ y * CliffordAlgebra.reverse y = 1 := by
  have hp : 0 < a * a + b * b + c * c := lt_of_le_of_ne (by linarith [mul_self_nonneg a, mul_self_nonneg b, mul_self_nonneg c]) h0.symm
  have hs := Real.sqrt_pos.2 hp
  have h1 : a * a + b * b + c * c = Real.sqrt (a * a + b * b + c * c) * Real.sqrt (a * a + b * b + c * c) := (Real.mul_self_sqrt hp.le).symm
  generalize Real.sqrt (a * a + b * b + c * c) = s at *
  have h2 : a * d - b * e + c * f = -(s * (-(a * d - b * e + c * f) / s)) := by
    have := hs.ne'
    field_simp
  generalize -(a * d - b * e + c * f) / s = p at *
  have g1 : -c * -c + b * b + -a * -a = s * s := by rw [← h1]; ring
  have g2 : -d * -a - e * b + -c * -f = -(s * p) := by rw [← h2]; ring
  exact ⟨_, _, _, line_denotes a b c d e f, computeExp_line E hE a b c d e f s p _ _ hs h1 h2 rfl rfl, rfl, even_denotes _ _ _ _ _ _ _ _,
    isExp_biv _ _ _ _ _ _ s p _ _ hs g1 g2 rfl rfl, exp_unit _ _ _ _ _ _ s p _ _ hs g1 g2 rfl rfl rfl⟩

/-- The mathematical functions exist. -/
noncomputable def realEnv : Env ℝ := ⟨[], [], fun _ _ _ => 0, fun o => match o with
  | .sqrt => Real.sqrt
  | .cos => Real.cos
  | .sin => Real.sin
  | _ => id⟩

theorem realEnv_fns : RealFns realEnv := ⟨fun _ => rfl, fun _ => rfl, fun _ => rfl⟩

example : ∃ r x y, (lineArg [1, 2, 3, 4, 5, 6]).Denotes 4 (Metric.sq pgaMetric) 0 x ∧ computeExp realEnv (lineArg [1, 2, 3, 4, 5, 6]) = ok r ∧
    r.elements = motorElements ∧ r.Denotes 4 (Metric.sq pgaMetric) y ∧ IsExp x y ∧ y * CliffordAlgebra.reverse y = 1 :=
  C51_exp_line realEnv realEnv_fns 1 2 3 4 5 6 (by norm_num)

/-! ## The logarithm -/

/-- The result of `log` in terms of the two numbers `u` and `v` computed from `s1`, `p1`, `s2` and `p2`. -/
theorem motorLog_eq (E : Env ℝ) (atan2 : ℝ → ℝ → ℝ) (small : ℝ → Bool) (a b c d e f g h s p u v : ℝ) (hs : 0 < s)
    (h1 : d * d + f * f + g * g = s * s) (h2 : b * g - c * f + d * e = -(s * p))
    (hu : u = if small a then atan2 (-h) p else atan2 s a) (hv : v = if small a then -h / s else p / a) :
    ∃ r, motorLog E Real.sqrt atan2 small [a, b, c, d, e, f, g, h] = ok r ∧ r.elements = [3, 5, 6, 9, 10, 12] ∧
      r.Denotes 4 (Metric.sq pgaMetric) ((u • 1 + v • pgaPs) * ((s⁻¹ • 1 - (p / (s * s)) • pgaPs) * pgaBiv b c d e f g)) := by
  have hs0 := hs.ne'
  obtain ⟨x, hx, hx'⟩ := lineSquare_run E b c d e f g
  have k1 : -(d * d) + (-(f * f) + -(g * g)) = -(s * s) := by linear_combination -h1
  have k2 : 2 * (b * g) + (-(2 * (c * f)) + 2 * (d * e)) = -(2 * (s * p)) := by linear_combination 2 * h2
  rw [k1, k2] at hx'
  have k3 : Real.sqrt (- -(s * s)) = s := by rw [neg_neg, Real.sqrt_mul_self hs.le]
  have k4 : - -(2 * (s * p)) / (2 * s) = p := by field_simp
  obtain ⟨y, hy, hy'⟩ := log_run E u v b c d e f g (1 / s) (p / -(s * s))
  have hf : motorLog E Real.sqrt atan2 small [a, b, c, d, e, f, g, h] = computeExpr pgaMetric false 11 E [numArg u, numArg v,
      (⟨[3, 5, 6, 9, 10, 12], [b, c, d, e, f, g]⟩ : Entity ℝ).toArg, (⟨[0, 15], [1 / s, p / -(s * s)]⟩ : Entity ℝ).toArg] y >>= single := by
    have l1 : (⟨[0, 15], [-(s * s), -(2 * (s * p))]⟩ : Entity ℝ).select 4 0 = ok (-(s * s)) :=
      select_of (k := 0) (by decide) (by decide) rfl rfl
    have l2 : (⟨[0, 15], [-(s * s), -(2 * (s * p))]⟩ : Entity ℝ).select 4 15 = ok (-(2 * (s * p))) :=
      select_of (k := 1) (by decide) (by decide) rfl rfl
    unfold motorLog
    rw [show (⟨motorElements, [a, b, c, d, e, f, g, h]⟩ : Entity ℝ).at 0 = ok a from rfl,
      show (⟨motorElements, [a, b, c, d, e, f, g, h]⟩ : Entity ℝ).at 7 = ok h from rfl, ok_bind, ok_bind, hx, ok_bind,
      show motorBivector [a, b, c, d, e, f, g, h] = ⟨[3, 5, 6, 9, 10, 12], [b, c, d, e, f, g]⟩ from rfl]
    dsimp only
    rw [hx', ok_bind, l1, l2, ok_bind, ok_bind, hy, ok_bind, k3, k4, ← hu, ← hv]
  refine ⟨_, hf.trans hy', rfl, rfl, show [3, 5, 6, 9, 10, 12].Pairwise (· < ·) by decide,
    show ∀ e ∈ [3, 5, 6, 9, 10, 12], e < 2 ^ 4 by decide, ?_⟩
  rw [biv_value, ← mul_assoc (u • 1 + v • pgaPs : Pga ℝ)]
  have e1 : (u • 1 + v • pgaPs : Pga ℝ) * (s⁻¹ • 1 - (p / (s * s)) • pgaPs) = (u / s) • 1 + (v / s - u * p / (s * s)) • pgaPs := by
    simp only [add_mul, mul_sub, smul_mul_assoc, mul_smul_comm, one_mul, mul_one, pgaPs_sq, smul_zero, smul_add]
    match_scalars <;> field_simp
  rw [e1, dual_biv]
  congr 1 <;> field_simp <;> ring

/-- A unit motor in terms of `s1 = a`, `p1 = h`, `s2` and `p2`. -/
theorem unit_motor {a b c d e f g h : ℝ} (h0 : d * d + f * f + g * g ≠ 0)
    (hM : pgaEven a b c d e f g h * CliffordAlgebra.reverse (pgaEven a b c d e f g h) = 1) :
    ∃ s p, 0 < s ∧ d * d + f * f + g * g = s * s ∧ b * g - c * f + d * e = -(s * p) ∧ a * a + s * s = 1 ∧ a * h + s * p = 0 := by
  obtain ⟨k1, k2⟩ := pgaEven_unit.1 hM
  have hp : 0 < d * d + f * f + g * g := lt_of_le_of_ne (by linarith [mul_self_nonneg d, mul_self_nonneg f, mul_self_nonneg g]) h0.symm
  have hs := Real.sqrt_pos.2 hp
  have h1 : d * d + f * f + g * g = Real.sqrt (d * d + f * f + g * g) * Real.sqrt (d * d + f * f + g * g) := (Real.mul_self_sqrt hp.le).symm
  generalize Real.sqrt (d * d + f * f + g * g) = s at *
  have h2 : b * g - c * f + d * e = -(s * (-(b * g - c * f + d * e) / s)) := by
    have := hs.ne'
    field_simp
  generalize -(b * g - c * f + d * e) / s = p at *
  exact ⟨s, p, hs, h1, h2, by linear_combination k1 - h1, by linear_combination k2 / 2 + h2⟩

/-- The exponential of `(u + v I) N`, where `L = (s + p I) N`, if `u` and `v` are right up to a sign `σ`. -/
theorem isExp_log {a b c d e f g h s p u v σ : ℝ} (hs : 0 < s) (h1 : d * d + f * f + g * g = s * s) (h2 : b * g - c * f + d * e = -(s * p))
    (hc : Real.cos u = σ * a) (hn : Real.sin u = σ * s) (hv1 : v * a = p) (hv2 : v * s = -h) :
    IsExp ((u • 1 + v • pgaPs) * ((s⁻¹ • 1 - (p / (s * s)) • pgaPs) * pgaBiv b c d e f g)) (σ • pgaEven a b c d e f g h) := by
  obtain ⟨N, hN, h3, h4, h5⟩ := biv_polar b c d e f g s p hs h1 h2
  have := isExp_dualLine pgaPs_sq h3 h4 u v
  rw [← hN]
  have e1 : σ • pgaEven a b c d e f g h =
      Real.cos u • 1 - (v * Real.sin u) • pgaPs + (Real.sin u • 1 + (v * Real.cos u) • pgaPs) * N := by
    rw [pgaEven, ← h5, hc, hn, show (σ * s) • (1 : Pga ℝ) + (v * (σ * a)) • pgaPs = σ • (s • 1 + p • pgaPs) by rw [← hv1]; module,
      show h = -(v * s) by linear_combination hv2, smul_mul_assoc]
    module
  rw [e1]
  exact this

theorem isExp_zero {n : Nat} {d : Nat → Int} : IsExp (0 : CliffordAlgebra (diagForm ℝ n d)) 1 := by
  intro g _
  have := hasSum_single (f := fun k : ℕ => (k.factorial : ℝ)⁻¹ * bladeCoords ℝ n d ((0 : CliffordAlgebra (diagForm ℝ n d)) ^ k) g) 0
    (fun k hk => by simp [hk])
  simpa using this

/-- **C52 (logarithm)**: for every motor `M` with `M ~M = 1` whose rotational part is not `±1` and whose scalar part is at least `10⁻⁶` in
absolute value, `M.log()` is never undefined and returns a bivector whose exponential is `M`. -/
theorem C52_log (E : Env ℝ) (small : ℝ → Bool) (hsm : ∀ x, small x = true ↔ |x| < 1 / 1000000) (a b c d e f g h : ℝ)
    (h0 : d * d + f * f + g * g ≠ 0) (hM : pgaEven a b c d e f g h * CliffordAlgebra.reverse (pgaEven a b c d e f g h) = 1)
    (ha : 1 / 1000000 ≤ |a|) :
    ∃ r l, motorLog E Real.sqrt atan2 small [a, b, c, d, e, f, g, h] = ok r ∧ r.elements = [3, 5, 6, 9, 10, 12] ∧
      r.Denotes 4 (Metric.sq pgaMetric) l ∧ IsExp l (pgaEven a b c d e f g h) := by
  obtain ⟨s, p, hs, h1, h2, h3, h4⟩ := unit_motor h0 hM
  have hns : ¬ small a = true := fun hh => absurd ((hsm a).1 hh) (not_lt.2 ha)
  have ha0 : a ≠ 0 := by
    rintro rfl
    rw [abs_zero] at ha
    norm_num at ha
  obtain ⟨r, hr, hr1, hr2⟩ := motorLog_eq E atan2 small a b c d e f g h s p (atan2 s a) (p / a) hs h1 h2 (by rw [if_neg hns]) (by rw [if_neg hns])
  obtain ⟨k1, k2⟩ := atan2_spec (x := a) (y := s) (r := 1) one_pos (by rw [h3, one_mul])
  have := isExp_log (h := h) (u := atan2 s a) (v := p / a) (σ := 1) hs h1 h2 (by rw [one_mul, ← mul_one (Real.cos _), k1])
    (by rw [one_mul, ← mul_one (Real.sin _), k2]) (by field_simp) (by field_simp; linear_combination h4)
  rw [one_smul] at this
  exact ⟨r, _, hr, hr1, hr2, this⟩

/-- **C52 (logarithm, scalar part below `10⁻⁶`)**: if the scalar part is smaller than `10⁻⁶` in absolute value, the exponential of `M.log()` is
`M` if the coefficient of `e0123` is negative, `-M` if it is positive, and 1 if it is zero.  Missing from the full statement: the exponential is
`M` in all cases. -/
theorem C52_log_small_partial (E : Env ℝ) (small : ℝ → Bool) (hsm : ∀ x, small x = true ↔ |x| < 1 / 1000000) (a b c d e f g h : ℝ)
    (h0 : d * d + f * f + g * g ≠ 0) (hM : pgaEven a b c d e f g h * CliffordAlgebra.reverse (pgaEven a b c d e f g h) = 1)
    (ha : |a| < 1 / 1000000) :
    ∃ r l, motorLog E Real.sqrt atan2 small [a, b, c, d, e, f, g, h] = ok r ∧ r.elements = [3, 5, 6, 9, 10, 12] ∧
      r.Denotes 4 (Metric.sq pgaMetric) l ∧ (h < 0 → IsExp l (pgaEven a b c d e f g h)) ∧ (0 < h → IsExp l (-pgaEven a b c d e f g h)) ∧
      (h = 0 → l = 0 ∧ IsExp l 1) := by
  obtain ⟨s, p, hs, h1, h2, h3, h4⟩ := unit_motor h0 hM
  have hs0 := hs.ne'
  have hsm' := (hsm a).2 ha
  obtain ⟨r, hr, hr1, hr2⟩ := motorLog_eq E atan2 small a b c d e f g h s p (atan2 (-h) p) (-h / s) hs h1 h2 (by rw [if_pos hsm'])
    (by rw [if_pos hsm'])
  have hp : p = -(a * h) / s := by
    field_simp
    linear_combination h4
  have hq : p * p + -h * -h = (h / s) * (h / s) := by
    rw [hp]
    field_simp
    linear_combination h * h * h3
  refine ⟨r, _, hr, hr1, hr2, fun hh => ?_, fun hh => ?_, fun hh => ?_⟩
  · obtain ⟨k1, k2⟩ := atan2_spec (x := p) (y := -h) (r := -h / s) (div_pos (by linarith) hs) (by rw [hq]; ring)
    have := isExp_log (a := a) (h := h) (u := atan2 (-h) p) (v := -h / s) (σ := 1) hs h1 h2
      (by
        apply mul_right_cancel₀ (b := -h / s) (div_ne_zero (by linarith) hs0)
        rw [k1, hp]
        field_simp)
      (by
        apply mul_right_cancel₀ (b := -h / s) (div_ne_zero (by linarith) hs0)
        rw [k2]
        field_simp)
      (by rw [hp]; field_simp) (by field_simp)
    rw [one_smul] at this
    exact this
  · obtain ⟨k1, k2⟩ := atan2_spec (x := p) (y := -h) (r := h / s) (div_pos hh hs) hq
    have := isExp_log (a := a) (h := h) (u := atan2 (-h) p) (v := -h / s) (σ := -1) hs h1 h2
      (by
        apply mul_right_cancel₀ (b := h / s) (div_ne_zero (by linarith) hs0)
        rw [k1, hp]
        field_simp)
      (by
        apply mul_right_cancel₀ (b := h / s) (div_ne_zero (by linarith) hs0)
        rw [k2]
        field_simp)
      (by rw [hp]; field_simp) (by field_simp)
    rw [neg_one_smul] at this
    exact this
  · have hp0 : p = 0 := by rw [hp, hh, mul_zero, neg_zero, zero_div]
    have hu : atan2 (-h) p = 0 := by
      rw [hh, hp0, neg_zero, atan2]
      exact Complex.arg_zero
    have hl : (atan2 (-h) p • 1 + (-h / s) • pgaPs) * ((s⁻¹ • 1 - (p / (s * s)) • pgaPs) * pgaBiv b c d e f g) = 0 := by
      rw [hu, hh, neg_zero, zero_div, zero_smul, zero_smul, zero_add, zero_mul]
    rw [hl]
    exact ⟨rfl, isExp_zero⟩

/-- The full statement fails for a half turn about the third axis: its logarithm is computed as zero. -/
theorem C52_log_false (E : Env ℝ) (small : ℝ → Bool) (hsm : ∀ x, small x = true ↔ |x| < 1 / 1000000) :
    pgaEven (0 : ℝ) 0 0 1 0 0 0 0 * CliffordAlgebra.reverse (pgaEven (0 : ℝ) 0 0 1 0 0 0 0) = 1 ∧
    ∃ r l, motorLog E Real.sqrt atan2 small [0, 0, 0, 1, 0, 0, 0, 0] = ok r ∧ r.Denotes 4 (Metric.sq pgaMetric) l ∧
      ¬ IsExp l (pgaEven 0 0 0 1 0 0 0 0) ∧ ¬ IsExp l (-pgaEven 0 0 0 1 0 0 0 0) := by
  have hM : pgaEven (0 : ℝ) 0 0 1 0 0 0 0 * CliffordAlgebra.reverse (pgaEven (0 : ℝ) 0 0 1 0 0 0 0) = 1 :=
    pgaEven_unit.2 ⟨by norm_num, by norm_num⟩
  obtain ⟨r, l, h1, -, h2, -, -, h3⟩ := C52_log_small_partial E small hsm 0 0 0 1 0 0 0 0 (by norm_num) hM (by norm_num)
  have h4 := (h3 rfl).2
  have e1 : (1 : Pga ℝ) = pgaEven 1 0 0 0 0 0 0 0 := by rw [← pgaDual_eq]; module
  refine ⟨hM, r, l, h1, h2, fun h => ?_, fun h => ?_⟩
  · have := h4.unique h
    rw [e1] at this
    exact one_ne_zero (pgaEven_inj this).1
  · have := h4.unique h
    rw [e1, show -pgaEven (0 : ℝ) 0 0 1 0 0 0 0 = pgaEven 0 0 0 (-1) 0 0 0 0 by simp only [pgaEven, pgaBiv_eq]; module] at this
    exact one_ne_zero (pgaEven_inj this).1

/-! ## The logarithm of an exponential -/

theorem biv_entity_eq {r : Entity ℝ} {a b c d e f : ℝ} (h1 : r.elements = [3, 5, 6, 9, 10, 12])
    (h2 : r.Denotes 4 (Metric.sq pgaMetric) (pgaBiv a b c d e f)) : r = ⟨[3, 5, 6, 9, 10, 12], [a, b, c, d, e, f]⟩ := by
  have hl := h2.size
  have hv := h2.value
  obtain ⟨es, vs⟩ := r
  simp only at h1 hl hv
  subst h1
  match vs, hl with
  | [a', b', c', d', e', f'], _ =>
    rw [biv_value] at hv
    have : ∀ a b c d e f : ℝ, pgaBiv a b c d e f = pgaEven 0 a b c d e f 0 := fun a b c d e f => by rw [pgaEven]; module
    rw [this, this a] at hv
    obtain ⟨-, k1, k2, k3, k4, k5, k6, -⟩ := pgaEven_inj hv
    rw [k1, k2, k3, k4, k5, k6]

theorem atan2_sin_cos {s : ℝ} (h1 : 0 < s) (h2 : s < Real.pi) : atan2 (Real.sin s) (Real.cos s) = s := by
  have := Complex.arg_cos_add_sin_mul_I (θ := s) ⟨by linarith [Real.pi_pos], h2.le⟩
  rwa [← Complex.ofReal_cos, ← Complex.ofReal_sin, ← Complex.mk_eq_add_mul_I] at this

/-- **C52 (round trip)**: for a bivector `L` whose Euclidean part has length `0 < |L| < π` with `|cos |L|| ≥ 10⁻⁶`, the logarithm of the motor
computed by `exp(l)` is `L` again. -/
theorem C52_log_exp (E : Env ℝ) (hE : RealFns E) (small : ℝ → Bool) (hsm : ∀ x, small x = true ↔ |x| < 1 / 1000000) (a b c d e f s : ℝ)
    (hs : 0 < s) (hpi : s < Real.pi) (h1 : c * c + e * e + f * f = s * s) (hc : 1 / 1000000 ≤ |Real.cos s|) :
    (do
      let r ← computeExp E (⟨[3, 5, 6, 9, 10, 12], [a, b, c, d, e, f]⟩ : Entity ℝ).toArg
      let m ← pgaMotorOf r
      motorLog E Real.sqrt atan2 small m) = ok ⟨[3, 5, 6, 9, 10, 12], [a, b, c, d, e, f]⟩ := by
  have hs0 := hs.ne'
  obtain ⟨p, h2⟩ : ∃ p, a * f - b * e + c * d = -(s * p) := ⟨-(a * f - b * e + c * d) / s, by field_simp⟩
  obtain ⟨α, hα⟩ : ∃ α, α = Real.sin s / s := ⟨_, rfl⟩
  obtain ⟨β, hβ⟩ : ∃ β, β = p * Real.cos s / s - p * Real.sin s / (s * s) := ⟨_, rfl⟩
  have hn := Real.sin_pos_of_pos_of_lt_pi hs hpi
  have hn0 := hn.ne'
  have hc0 : Real.cos s ≠ 0 := by
    intro h
    rw [h, abs_zero] at hc
    norm_num at hc
  have hns : ¬ small (Real.cos s) = true := fun hh => absurd ((hsm _).1 hh) (not_lt.2 hc)
  have k1 : s * α = Real.sin s := by rw [hα]; field_simp
  have k2 : s * β = p * Real.cos s - p * α := by rw [hα, hβ]; field_simp
  rw [computeExp_biv E hE a b c d e f s p α β hs h1 h2 hα hβ, ok_bind]
  have hm : pgaMotorOf (⟨[0, 3, 5, 6, 9, 10, 12, 15], [Real.cos s, a * α - f * β, b * α + e * β, c * α, d * α - c * β, e * α, f * α,
      -(p * Real.sin s)]⟩ : Entity ℝ) = ok [Real.cos s, a * α - f * β, b * α + e * β, c * α, d * α - c * β, e * α, f * α,
      -(p * Real.sin s)] := by
    unfold pgaMotorOf Entity.selectMany
    rw [if_neg (by simp)]
    simp only [mapO, motorElements]
    rw [select_of (k := 0) (by decide) (by decide) rfl rfl, select_of (k := 1) (by decide) (by decide) rfl rfl,
      select_of (k := 2) (by decide) (by decide) rfl rfl, select_of (k := 3) (by decide) (by decide) rfl rfl,
      select_of (k := 4) (by decide) (by decide) rfl rfl, select_of (k := 5) (by decide) (by decide) rfl rfl,
      select_of (k := 6) (by decide) (by decide) rfl rfl, select_of (k := 7) (by decide) (by decide) rfl rfl]
    rfl
  rw [hm, ok_bind]
  obtain ⟨r, hr, hr1, hr2⟩ := motorLog_eq E atan2 small (Real.cos s) (a * α - f * β) (b * α + e * β) (c * α) (d * α - c * β) (e * α) (f * α)
    (-(p * Real.sin s)) (Real.sin s) (p * Real.cos s) s p hn (by linear_combination α * α * h1 + (s * α + Real.sin s) * k1)
    (by linear_combination (α * α) * h2 - α * β * h1 - α * s * k2 - p * Real.cos s * k1)
    (by rw [if_neg hns, atan2_sin_cos hs hpi]) (by rw [if_neg hns]; field_simp)
  rw [hr]
  congr 1
  apply biv_entity_eq hr1
  rw [← dual_biv, ← mul_assoc, ← mul_assoc] at hr2
  have e1 : (s • 1 + p • pgaPs : Pga ℝ) * ((Real.sin s)⁻¹ • 1 - (p * Real.cos s / (Real.sin s * Real.sin s)) • pgaPs) *
      (α • 1 + β • pgaPs) = 1 := by
    simp only [add_mul, mul_add, mul_sub, sub_mul, smul_mul_assoc, mul_smul_comm, one_mul, mul_one, pgaPs_sq, smul_zero, smul_add, smul_sub, add_zero,
      sub_zero]
    rw [hα, hβ]
    match_scalars <;> field_simp
    ring
  rwa [e1, one_mul] at hr2

/-- The hypotheses of C52 hold for instance for a screw motion with cosine `3/5`, and a comparison as needed exists. -/
example : ∃ r l, motorLog realEnv Real.sqrt atan2 (fun x => decide (|x| < 1 / 1000000)) [3 / 5, 1, 2, 4 / 5, 3, 0, 0, 4] = ok r ∧
    r.elements = [3, 5, 6, 9, 10, 12] ∧ r.Denotes 4 (Metric.sq pgaMetric) l ∧ IsExp l (pgaEven (3 / 5) 1 2 (4 / 5) 3 0 0 4) :=
  C52_log realEnv (fun x => decide (|x| < 1 / 1000000)) (fun x => by simp) (3 / 5) 1 2 (4 / 5) 3 0 0 4 (by norm_num)
    (pgaEven_unit.2 ⟨by norm_num, by norm_num⟩) (by rw [abs_of_pos] <;> norm_num)

/-- The two signs in the case of a small scalar part occur: half turns with a translation along the axis in one or the other direction. -/
example : (∃ r l, motorLog realEnv Real.sqrt atan2 (fun x => decide (|x| < 1 / 1000000)) [0, 0, 0, 1, 0, 0, 0, -2] = ok r ∧
    r.Denotes 4 (Metric.sq pgaMetric) l ∧ IsExp l (pgaEven 0 0 0 1 0 0 0 (-2))) ∧
    ∃ r l, motorLog realEnv Real.sqrt atan2 (fun x => decide (|x| < 1 / 1000000)) [0, 0, 0, 1, 0, 0, 0, 2] = ok r ∧
    r.Denotes 4 (Metric.sq pgaMetric) l ∧ IsExp l (-pgaEven 0 0 0 1 0 0 0 2) := by
  constructor
  · obtain ⟨r, l, h1, -, h2, h3, -⟩ := C52_log_small_partial realEnv (fun x => decide (|x| < 1 / 1000000)) (fun x => by simp) 0 0 0 1 0 0 0 (-2)
      (by norm_num) (pgaEven_unit.2 ⟨by norm_num, by norm_num⟩) (by norm_num)
    exact ⟨r, l, h1, h2, h3 (by norm_num)⟩
  · obtain ⟨r, l, h1, -, h2, -, h3, -⟩ := C52_log_small_partial realEnv (fun x => decide (|x| < 1 / 1000000)) (fun x => by simp) 0 0 0 1 0 0 0 2
      (by norm_num) (pgaEven_unit.2 ⟨by norm_num, by norm_num⟩) (by norm_num)
    exact ⟨r, l, h1, h2, h3 (by norm_num)⟩

example : (do
      let r ← computeExp realEnv (⟨[3, 5, 6, 9, 10, 12], [7, 8, 1, 9, 0, 0]⟩ : Entity ℝ).toArg
      let m ← pgaMotorOf r
      motorLog realEnv Real.sqrt atan2 (fun x => decide (|x| < 1 / 1000000)) m) = ok ⟨[3, 5, 6, 9, 10, 12], [7, 8, 1, 9, 0, 0]⟩ :=
  C52_log_exp realEnv realEnv_fns _ (fun x => by simp) 7 8 1 9 0 0 1 one_pos (by linarith [Real.two_le_pi]) (by norm_num)
    (by
      have := Real.cos_one_pos
      have h2 : 1 / 2 ≤ Real.cos 1 := by
        have := Real.one_sub_sq_div_two_le_cos (x := 1)
        norm_num at this ⊢
        exact this
      rw [abs_of_pos this]
      linarith)

end Gal
