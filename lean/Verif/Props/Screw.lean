import Verif.Props.Incidence
import Verif.Props.Log

/-!
# Property C55: the exponential of a line is the screw motion about it
-/

namespace Gal

open Out
open scoped Matrix

/-- `compute([](auto l) { return exp(l); }, l)` and then `compute([](auto p, auto m) { return p % m; }, p, m)`. -/
noncomputable def expMove (E : Env ℝ) (l : Arg ℝ) (p : Fin 3 → ℝ) : Out (List ℝ) :=
  computeExp E l >>= fun m => sandwichLam.compute pgaMetric false E [pointArg [p 0, p 1, p 2], m.toArg] >>= single >>= vgaPointOf

/-- The motor `exp` returns moves points along the screw. -/
theorem screw_move (E : Env ℝ) (u q m p : Fin 3 → ℝ) (h s α β : ℝ) (hs : 0 < s) (h1 : u ⬝ᵥ u = s * s) (hm : m = q ⨯₃ u + h • u)
    (hα : α = Real.sin s / s) (hβ : β = -(h * s) * Real.cos s / s - -(h * s) * Real.sin s / (s * s)) :
    (sandwichLam.compute pgaMetric false E [pointArg [p 0, p 1, p 2], motorArg [Real.cos s, -m 0 * α + u 0 * β, -m 1 * α + u 1 * β, -u 2 * α,
      -m 2 * α + u 2 * β, u 1 * α, -u 0 * α, h * s * Real.sin s]] >>= single >>= vgaPointOf) = ok (List.ofFn (screw u q h p)) := by
  have hs0 := hs.ne'
  have hS : Real.sin s = s * α := by rw [hα]; field_simp
  have hB : β = -h * Real.cos s + h * α := by rw [hβ, hS]; field_simp; ring
  have hsq : √(u ⬝ᵥ u) = s := by rw [h1]; exact Real.sqrt_mul_self hs.le
  have hu := Real.cos_sq_add_sin_sq s
  rw [move_run, ofFn3]
  simp only [screw, rodrigues, hsq, Real.cos_two_mul', Real.sin_two_mul, hS, hB, hm] at *
  generalize Real.cos s = c at *
  clear hα hβ hB hS hsq hm
  rw [dot3] at h1
  have hN : c * c + -u 2 * α * (-u 2 * α) + u 1 * α * (u 1 * α) + -u 0 * α * (-u 0 * α) = 1 := by
    linear_combination hu + α ^ 2 * h1
  rw [hN]
  have e1 : 1 - (c ^ 2 - (s * α) ^ 2) = 2 * (s * α) ^ 2 := by linear_combination -hu
  have e2 : h * s * (s * α) = h * α * (u 0 * u 0 + u 1 * u 1 + u 2 * u 2) := by rw [h1]; ring
  have e3 : (s * α) ^ 2 = α ^ 2 * (u 0 * u 0 + u 1 * u 1 + u 2 * u 2) := by rw [h1]; ring
  have e4 : ∀ x y z w : ℝ, 2 * (s * α) * c * (s⁻¹ * x * y - s⁻¹ * z * w) = 2 * α * c * (x * y - z * w) := by intros; field_simp
  have e5 : ∀ x y z x' y' z' w : ℝ, 2 * (s * α) ^ 2 * (s⁻¹ * x * x' + s⁻¹ * y * y' + s⁻¹ * z * z') * (s⁻¹ * w) =
      2 * α ^ 2 * (x * x' + y * y' + z * z') * w := by intros; field_simp
  simp only [div_one, Pi.add_apply, Pi.sub_apply, Pi.smul_apply, smul_eq_mul, cross_apply, dot3, Matrix.cons_val_zero, Matrix.cons_val_one,
    Matrix.cons_val, e1, e2, e4, e5]
  rw [e3] at hu ⊢
  clear e1 e2 e3 e4 e5 hN h1
  refine ok_list3 ?_ ?_ ?_
  · linear_combination (q 0 + 2 * h * u 0) * hu
  · linear_combination (q 1 + 2 * h * u 1) * hu
  · linear_combination (q 2 + 2 * h * u 2) * hu

theorem dot3_pos {u : Fin 3 → ℝ} (hu : u ≠ 0) : 0 < u ⬝ᵥ u := by
  rw [dot3]
  have h0 : ¬ (u 0 = 0 ∧ u 1 = 0 ∧ u 2 = 0) := fun h => hu (by
    funext i
    fin_cases i
    · exact h.1
    · exact h.2.1
    · exact h.2.2)
  by_contra hc
  have := mul_self_nonneg (u 0)
  have := mul_self_nonneg (u 1)
  have := mul_self_nonneg (u 2)
  exact h0 ⟨mul_self_eq_zero.1 (by linarith), mul_self_eq_zero.1 (by linarith), mul_self_eq_zero.1 (by linarith)⟩

/-- **C55 (bivectors)**: a bivector whose Euclidean part is not zero has an axis through some `q` with direction `u` and a pitch `h`, and its exponential
moves points along the screw.  Nothing is undefined. -/
theorem C55_bivector (E : Env ℝ) (hE : RealFns E) (u q p : Fin 3 → ℝ) (h : ℝ) (hu : u ≠ 0) :
    expMove E (⟨[3, 5, 6, 9, 10, 12], [-(q ⨯₃ u + h • u) 0, -(q ⨯₃ u + h • u) 1, -u 2, -(q ⨯₃ u + h • u) 2, u 1, -u 0]⟩ : Entity ℝ).toArg p =
      ok (List.ofFn (screw u q h p)) := by
  have hp := dot3_pos hu
  have hs := Real.sqrt_pos.2 hp
  have h1 : u ⬝ᵥ u = √(u ⬝ᵥ u) * √(u ⬝ᵥ u) := (Real.mul_self_sqrt hp.le).symm
  have key := fun s hs h1 => screw_move E u q _ p h s _ _ hs h1 rfl rfl rfl
  generalize √(u ⬝ᵥ u) = s at *
  have h2 : -(q ⨯₃ u + h • u) 0 * -u 0 - -(q ⨯₃ u + h • u) 1 * u 1 + -u 2 * -(q ⨯₃ u + h • u) 2 = -(s * -(h * s)) := by
    rw [dot3] at h1
    simp only [Pi.add_apply, Pi.smul_apply, smul_eq_mul, cross_apply, Matrix.cons_val_zero, Matrix.cons_val_one, Matrix.cons_val]
    linear_combination h * h1
  unfold expMove
  rw [computeExp_biv E hE _ _ _ _ _ _ s (-(h * s)) _ _ hs (by rw [dot3] at h1; linear_combination h1) h2 rfl rfl, ok_bind]
  rw [← key s hs h1]
  refine congrArg (fun l => sandwichLam.compute pgaMetric false E [pointArg [p 0, p 1, p 2], motorArg l] >>= single >>= vgaPointOf) ?_
  simp only [List.cons.injEq, and_true, true_and]
  repeat' apply And.intro
  all_goals ring

/-- **C55 (lines)**: the same for `pga::line`, which stores the moment as `(m0, -m1, m2)` (see `C38_line_constructor_false`). -/
theorem C55_line (E : Env ℝ) (hE : RealFns E) (u q p : Fin 3 → ℝ) (h : ℝ) (hu : u ≠ 0) :
    expMove E (lineArg [u 0, u 1, u 2, (q ⨯₃ u + h • u) 0, -(q ⨯₃ u + h • u) 1, (q ⨯₃ u + h • u) 2]) p = ok (List.ofFn (screw u q h p)) := by
  have hp := dot3_pos hu
  have hs := Real.sqrt_pos.2 hp
  have h1 : u ⬝ᵥ u = √(u ⬝ᵥ u) * √(u ⬝ᵥ u) := (Real.mul_self_sqrt hp.le).symm
  have key := fun s hs h1 => screw_move E u q _ p h s _ _ hs h1 rfl rfl rfl
  generalize √(u ⬝ᵥ u) = s at *
  have h2 : u 0 * (q ⨯₃ u + h • u) 0 - u 1 * -(q ⨯₃ u + h • u) 1 + u 2 * (q ⨯₃ u + h • u) 2 = -(s * -(h * s)) := by
    rw [dot3] at h1
    simp only [Pi.add_apply, Pi.smul_apply, smul_eq_mul, cross_apply, Matrix.cons_val_zero, Matrix.cons_val_one, Matrix.cons_val]
    linear_combination h * h1
  unfold expMove
  rw [computeExp_line E hE _ _ _ _ _ _ s (-(h * s)) _ _ hs (by rw [dot3] at h1; linear_combination h1) h2 rfl rfl, ok_bind]
  rw [← key s hs h1]
  refine congrArg (fun l => sandwichLam.compute pgaMetric false E [pointArg [p 0, p 1, p 2], motorArg l] >>= single >>= vgaPointOf) ?_
  simp only [List.cons.injEq, and_true, true_and]
  repeat' apply And.intro
  all_goals ring

/-- **C55 (joins)**: `exp(a & b)` for two different points rotates about the line through them, by twice their distance, clockwise seen from `b`. -/
theorem C55_join (E : Env ℝ) (hE : RealFns E) (a b p : Fin 3 → ℝ) (h : a ≠ b) :
    (joinLam.compute pgaMetric false E [pointArg [a 0, a 1, a 2], pointArg [b 0, b 1, b 2]] >>= single >>= fun l => expMove E l.toArg p) =
      ok (List.ofFn (screw (a - b) a 0 p)) := by
  rw [C38_compute_line, ok_bind, ← C55_bivector E hE (a - b) a p 0 (sub_ne_zero.2 h)]
  refine congrArg (fun l => expMove E (⟨[3, 5, 6, 9, 10, 12], l⟩ : Entity ℝ).toArg p) ?_
  simp only [List.cons.injEq, and_true, zero_smul, add_zero, Pi.sub_apply, cross_apply, Matrix.cons_val_zero, Matrix.cons_val_one, Matrix.cons_val]
  refine ⟨?_, ?_, ?_, ?_, ?_, ?_⟩ <;> ring

/-- `C55_bivector` covers all bivectors whose Euclidean part is not zero: each has an axis and a pitch. -/
theorem C55_axis (u m : Fin 3 → ℝ) (hu : u ≠ 0) : ∃ (q : Fin 3 → ℝ) (h : ℝ), q ⨯₃ u + h • u = m := by
  have hp := (dot3_pos hu).ne'
  refine ⟨(u ⬝ᵥ u)⁻¹ • (u ⨯₃ m), (u ⬝ᵥ m) / (u ⬝ᵥ u), ?_⟩
  rw [dot3] at hp
  have hp' : u 0 ^ 2 + u 1 ^ 2 + u 2 ^ 2 ≠ 0 := fun h => hp (by linear_combination h)
  funext i
  simp only [Pi.add_apply, Pi.smul_apply, smul_eq_mul, cross_apply, dot3]
  fin_cases i <;>
    simp only [Fin.zero_eta, Fin.mk_one, Fin.reduceFinMk, Matrix.cons_val_zero, Matrix.cons_val_one, Matrix.cons_val] <;> field_simp <;> ring

/-- The join of two points and a motor. -/
example : (joinLam.compute pgaMetric false realEnv [pointArg [1, 2, 3], pointArg [4, 5, 7]] >>= single >>= fun l => expMove realEnv l.toArg ![1, 0, 0]) =
    ok (List.ofFn (screw (![1, 2, 3] - ![4, 5, 7]) ![1, 2, 3] 0 ![1, 0, 0])) :=
  C55_join realEnv realEnv_fns ![1, 2, 3] ![4, 5, 7] ![1, 0, 0] (fun h => by simpa using congrFun h 0)

end Gal
