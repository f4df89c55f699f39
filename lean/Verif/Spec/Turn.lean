import Mathlib.LinearAlgebra.Matrix.Notation
import Mathlib.Analysis.SpecialFunctions.Trigonometric.Basic

/-!
# Specification: turns of the plane
-/

namespace Gal

open scoped Matrix

/-- The counterclockwise rotation of the plane by the angle `θ` about the point `q`. -/
noncomputable def turn2 (q : Fin 2 → ℝ) (θ : ℝ) (x : Fin 2 → ℝ) : Fin 2 → ℝ :=
  q + !![Real.cos θ, -Real.sin θ; Real.sin θ, Real.cos θ] *ᵥ (x - q)

end Gal
