import Verif.Spec.Exp
import Verif.Spec.CliffValue
import Mathlib.Analysis.SpecialFunctions.Trigonometric.Series

/-!
# The exponential of `(u + v I) L` with `L² = -1` and `I² = 0`
-/

namespace Gal

section

variable {A : Type} [Ring A] [Algebra ℝ A] {I L : A}

theorem dual_pow (hI : I * I = 0) (u v : ℝ) : ∀ n : ℕ, (u • (1 : A) + v • I) ^ n = u ^ n • (1 : A) + ((n : ℝ) * u ^ (n - 1) * v) • I
  | 0 => by simp
  | n + 1 => by
    rw [pow_succ, dual_pow hI u v n]
    simp only [add_mul, mul_add, smul_mul_smul_comm, hI, mul_one, one_mul, smul_zero, add_zero, add_assoc, ← add_smul]
    congr 2
    · cases n with
      | zero => simp
      | succ n => simp only [Nat.add_sub_cancel, Nat.cast_add, Nat.cast_one]; ring

theorem dualLine_pow (hL : L * L = -1) (hc : Commute I L) (u v : ℝ) (k : ℕ) :
    ((u • (1 : A) + v • I) * L) ^ (2 * k) = (-1 : ℝ) ^ k • (u • (1 : A) + v • I) ^ (2 * k) ∧
    ((u • (1 : A) + v • I) * L) ^ (2 * k + 1) = (-1 : ℝ) ^ k • ((u • (1 : A) + v • I) ^ (2 * k + 1) * L) := by
  have hx : Commute (u • (1 : A) + v • I) L := (Commute.smul_left (Commute.one_left _) _).add_left (hc.smul_left _)
  have hk : L ^ (2 * k) = (-1 : ℝ) ^ k • (1 : A) := by
    rw [pow_mul, pow_two, hL, neg_one_pow_eq_pow_mod_two]
    rcases Nat.mod_two_eq_zero_or_one k with h | h
    · rw [h, neg_one_pow_eq_pow_mod_two k (R := ℝ), h]; simp
    · rw [h, neg_one_pow_eq_pow_mod_two k (R := ℝ), h]; simp
  rw [hx.mul_pow, hx.mul_pow, hk, pow_succ L, hk]
  simp

theorem hasSum_of_eq {f g : ℕ → ℝ} {a : ℝ} (h : ∀ k, f k = g k) (hf : HasSum f a) : HasSum g a := by
  rwa [← funext h]

theorem hasSum_sin_shift (u : ℝ) :
    HasSum (fun k : ℕ => (-1 : ℝ) ^ k * ((2 * k : ℕ) : ℝ) * u ^ (2 * k - 1) / ((2 * k).factorial : ℝ)) (-Real.sin u) := by
  rw [← hasSum_nat_add_iff' 1]
  simp only [Finset.range_one, Finset.sum_singleton, Nat.cast_zero, mul_zero, zero_mul, zero_div, sub_zero]
  refine hasSum_of_eq (fun k => ?_) (Real.hasSum_sin u).neg
  have : ((2 * (k + 1)).factorial : ℝ) = ((2 * (k + 1) : ℕ) : ℝ) * ((2 * k + 1).factorial : ℝ) := by
    rw [← Nat.cast_mul, show 2 * (k + 1) = (2 * k + 1) + 1 by ring, Nat.factorial_succ]
  rw [this, show 2 * (k + 1) - 1 = 2 * k + 1 by omega, pow_succ (-1 : ℝ)]
  have h0 : ((2 * (k + 1) : ℕ) : ℝ) ≠ 0 := by positivity
  have h4 : ((2 * k + 1).factorial : ℝ) ≠ 0 := by positivity
  field_simp

theorem hasSum_cos_shift (u : ℝ) :
    HasSum (fun k : ℕ => (-1 : ℝ) ^ k * ((2 * k + 1 : ℕ) : ℝ) * u ^ (2 * k) / ((2 * k + 1).factorial : ℝ)) (Real.cos u) := by
  refine hasSum_of_eq (fun k => ?_) (Real.hasSum_cos u)
  rw [Nat.factorial_succ, Nat.cast_mul]
  have h0 : ((2 * k + 1 : ℕ) : ℝ) ≠ 0 := by positivity
  have h4 : ((2 * k).factorial : ℝ) ≠ 0 := by positivity
  field_simp

theorem dualLine_even (hI : I * I = 0) (hL : L * L = -1) (hc : Commute I L) (u v : ℝ) (φ : A →ₗ[ℝ] ℝ) :
    HasSum (fun k : ℕ => ((2 * k).factorial : ℝ)⁻¹ * φ (((u • (1 : A) + v • I) * L) ^ (2 * k)))
      (Real.cos u * φ 1 + -Real.sin u * (v * φ I)) := by
  refine hasSum_of_eq (fun k => ?_) (((Real.hasSum_cos u).mul_right (φ 1)).add ((hasSum_sin_shift u).mul_right (v * φ I)))
  rw [(dualLine_pow hL hc u v k).1, dual_pow hI]
  simp only [map_smul, map_add, smul_eq_mul]
  ring

theorem dualLine_odd (hI : I * I = 0) (hL : L * L = -1) (hc : Commute I L) (u v : ℝ) (φ : A →ₗ[ℝ] ℝ) :
    HasSum (fun k : ℕ => ((2 * k + 1).factorial : ℝ)⁻¹ * φ (((u • (1 : A) + v • I) * L) ^ (2 * k + 1)))
      (Real.sin u * φ L + Real.cos u * (v * φ (I * L))) := by
  refine hasSum_of_eq (fun k => ?_) (((Real.hasSum_sin u).mul_right (φ L)).add ((hasSum_cos_shift u).mul_right (v * φ (I * L))))
  rw [(dualLine_pow hL hc u v k).2, dual_pow hI]
  simp only [map_smul, map_add, smul_eq_mul, add_mul, smul_mul_assoc, one_mul, Nat.add_sub_cancel]
  ring

/-- The series at any linear functional. -/
theorem dualLine_hasSum (hI : I * I = 0) (hL : L * L = -1) (hc : Commute I L) (u v : ℝ) (φ : A →ₗ[ℝ] ℝ) :
    HasSum (fun k : ℕ => (k.factorial : ℝ)⁻¹ * φ (((u • (1 : A) + v • I) * L) ^ k))
      (φ (Real.cos u • (1 : A) - (v * Real.sin u) • I + (Real.sin u • (1 : A) + (v * Real.cos u) • I) * L)) := by
  have h : φ (Real.cos u • (1 : A) - (v * Real.sin u) • I + (Real.sin u • (1 : A) + (v * Real.cos u) • I) * L) =
      Real.cos u * φ 1 + -Real.sin u * (v * φ I) + (Real.sin u * φ L + Real.cos u * (v * φ (I * L))) := by
    simp only [map_add, map_sub, map_smul, smul_eq_mul, add_mul, smul_mul_assoc, one_mul]
    ring
  rw [h]
  exact HasSum.even_add_odd (dualLine_even hI hL hc u v φ) (dualLine_odd hI hL hc u v φ)

end

/-- The exponential of `(u + v I) L`. -/
theorem isExp_dualLine {n : Nat} {d : Nat → Int} {I L : CliffordAlgebra (diagForm ℝ n d)} (hI : I * I = 0) (hL : L * L = -1) (hc : Commute I L)
    (u v : ℝ) : IsExp ((u • 1 + v • I) * L) (Real.cos u • 1 - (v * Real.sin u) • I + (Real.sin u • 1 + (v * Real.cos u) • I) * L) := by
  intro g _
  exact dualLine_hasSum hI hL hc u v ((Finsupp.lapply g : (Nat →₀ ℝ) →ₗ[ℝ] ℝ).comp (bladeCoords ℝ n d))

theorem bladeCoords_sum {K : Type} [Field K] (n : Nat) (d : Nat → Int) (x : CliffordAlgebra (diagForm K n d)) :
    x = ∑ g ∈ Finset.range (2 ^ n), bladeCoords K n d x g • cliffBlade K n d g := by
  have := cliffBlade_span K n d x
  induction this using Submodule.span_induction with
  | mem x hx =>
    obtain ⟨a, ha, rfl⟩ := hx
    rw [bladeCoords_blade K n d a ha, Finset.sum_eq_single a]
    · simp
    · intro b _ hb
      rw [Finsupp.single_eq_of_ne hb, zero_smul]
    · intro h
      exact absurd (Finset.mem_range.2 ha) h
  | zero => simp
  | add x y _ _ hx hy =>
    simp only [map_add, Finsupp.add_apply, add_smul, Finset.sum_add_distrib]
    rw [← hx, ← hy]
  | smul c x _ hx =>
    simp only [map_smul, Finsupp.smul_apply, smul_eq_mul, mul_smul, ← Finset.smul_sum]
    rw [← hx]

/-- There is at most one exponential. -/
theorem IsExp.unique {n : Nat} {d : Nat → Int} {x y z : CliffordAlgebra (diagForm ℝ n d)} (h1 : IsExp x y) (h2 : IsExp x z) : y = z := by
  rw [bladeCoords_sum n d y, bladeCoords_sum n d z]
  refine Finset.sum_congr rfl fun g hg => ?_
  rw [(h1 g (Finset.mem_range.1 hg)).unique (h2 g (Finset.mem_range.1 hg))]

end Gal
