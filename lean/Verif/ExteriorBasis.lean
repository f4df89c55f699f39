import Verif.Props.Blade
import Verif.CliffordBasis

/-!
# Coordinates in the exterior algebra

As `Verif.CliffordBasis`, for Mathlib's exterior algebra.
-/

namespace Gal

variable (K : Type) [Field K]

/-- Basis blade of the exterior algebra. -/
noncomputable def extBlade (n g : Nat) : ExteriorAlgebra K (Fin n → K) := bladeOf (extGen K n) n g

/-- Any algebra with anticommuting square-zero generators receives a homomorphism from the exterior algebra. -/
noncomputable def extLift {A : Type*} [Ring A] [Algebra K A] {n : Nat} {e : Nat → A} (H : Gens A n e (fun _ => 0)) :
    ExteriorAlgebra K (Fin n → K) →ₐ[K] A :=
  ExteriorAlgebra.lift K ⟨genMap n e, fun v => by
    rw [genMap_sq H]
    unfold diagForm
    rw [QuadraticMap.weightedSumSquares_apply]
    simp⟩

theorem extLift_gen {A : Type*} [Ring A] [Algebra K A] {n : Nat} {e : Nat → A} (H : Gens A n e (fun _ => 0)) (i : Nat)
    (hi : i < n) : extLift K H (extGen K n i) = e i := by
  unfold extLift extGen
  rw [dif_pos hi, ExteriorAlgebra.lift_ι_apply, genMap_apply, Finset.sum_eq_single ⟨i, hi⟩]
  · simp
  · intro j _ hj; simp [hj]
  · simp

theorem extLift_blade {A : Type*} [Ring A] [Algebra K A] {n : Nat} {e : Nat → A} (H : Gens A n e (fun _ => 0)) (g : Nat) :
    extLift K H (extBlade K n g) = bladeOf e n g := by
  unfold extBlade
  have : ∀ k, k ≤ n → extLift K H (bladeOf (extGen K n) k g) = bladeOf e k g := by
    intro k
    induction k with
    | zero => intro _; simp [bladeOf]
    | succ k ih =>
      intro hk
      rw [bladeOf, map_mul, ih (by omega), bladeOf]
      split
      · rw [extLift_gen K H k (by omega)]
      · rw [map_one]
  exact this n le_rfl

/-- Coefficients of the blades. -/
noncomputable def extCoords (n : Nat) : ExteriorAlgebra K (Fin n → K) →ₗ[K] (Nat →₀ K) :=
  (LinearMap.applyₗ (Finsupp.single 0 (1 : K))).comp (extLift K (regGens K n (fun _ => 0))).toLinearMap

theorem extCoords_blade (n : Nat) (g : Nat) (hg : g < 2 ^ n) : extCoords K n (extBlade K n g) = Finsupp.single g 1 := by
  unfold extCoords
  simp only [LinearMap.coe_comp, Function.comp_apply, AlgHom.toLinearMap_apply, LinearMap.applyₗ_apply_apply]
  rw [extLift_blade, regBlade K n _ g n 0 (by simp), Nat.mod_eq_of_lt hg, Nat.zero_xor]

theorem extBlade_ne_zero (n : Nat) (g : Nat) (hg : g < 2 ^ n) : extBlade K n g ≠ 0 := by
  intro h
  have := extCoords_blade K n g hg
  rw [h, map_zero] at this
  exact absurd (DFunLike.congr_fun this g) (by simp)

end Gal
