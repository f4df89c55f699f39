import Mathlib.LinearAlgebra.CrossProduct
import Mathlib.LinearAlgebra.Matrix.Determinant.Basic
import Mathlib.Analysis.SpecialFunctions.Trigonometric.Basic

/-!
# Specification: rotations, rigid motions and reflections of three-dimensional space
-/

namespace Gal

open scoped Matrix

/-- The rotation by the angle `θ` about the axis with unit vector `k`, counterclockwise seen from the tip of `k` (Rodrigues). -/
noncomputable def rodrigues (θ : ℝ) (k v : Fin 3 → ℝ) : Fin 3 → ℝ :=
  Real.cos θ • v + Real.sin θ • (k ⨯₃ v) + ((1 - Real.cos θ) * (k ⬝ᵥ v)) • k

/-- The screw motion about the line through `q` with direction `u ≠ 0`: the rotation by twice the length of `u`, counterclockwise seen from the tip
of `u`, and a translation along the line by `2 h u`. -/
noncomputable def screw (u q : Fin 3 → ℝ) (h : ℝ) (p : Fin 3 → ℝ) : Fin 3 → ℝ :=
  q + rodrigues (2 * √(u ⬝ᵥ u)) ((√(u ⬝ᵥ u))⁻¹ • u) (p - q) + (2 * h) • u

variable {K : Type} [Field K]

/-- The matrix of a rotation: orthogonal with determinant one. -/
def IsRotation (R : Matrix (Fin 3) (Fin 3) K) : Prop := R * Rᵀ = 1 ∧ R.det = 1

/-- The mirror image of `p` in the plane `n · p + d = 0`. -/
def mirror (n : Fin 3 → K) (d : K) (p : Fin 3 → K) : Fin 3 → K := p - (2 * (n ⬝ᵥ p + d) / (n ⬝ᵥ n)) • n

/-- The half turn about the line through `q` with direction `u`: the image of `x` is on the other side of the foot of the perpendicular. -/
def halfTurn (q u x : Fin 3 → K) : Fin 3 → K := (2 : K) • (q + (u ⬝ᵥ (x - q) / (u ⬝ᵥ u)) • u) - x

/-- The reflection in the point `q`. -/
def pointMirror (q x : Fin 3 → K) : Fin 3 → K := (2 : K) • q - x

end Gal
