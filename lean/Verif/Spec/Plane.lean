import Mathlib.LinearAlgebra.Matrix.Determinant.Basic

/-!
# Specification: geometry of the plane
-/

namespace Gal

open scoped Matrix

variable {K : Type} [Field K]

/-- The coordinates of the point `p` with weight `w`: `w (p_y e01 - p_x e02 + e12)`. -/
def pointData2 (p : Fin 2 → K) (w : K) : List K := [w * p 1, -(w * p 0), w]

/-- Twice the signed area of a triangle, positive if the corners are in counterclockwise order. -/
def area2 (p q r : Fin 2 → K) : K := (q 0 - p 0) * (r 1 - p 1) - (q 1 - p 1) * (r 0 - p 0)

/-- The mirror image of `p` in the line `n · p + d = 0` of the plane. -/
def mirror2 (n : Fin 2 → K) (d : K) (p : Fin 2 → K) : Fin 2 → K := p - (2 * (n ⬝ᵥ p + d) / (n ⬝ᵥ n)) • n

/-- The matrix of a rotation of the plane: orthogonal with determinant one. -/
def IsRotation2 (R : Matrix (Fin 2) (Fin 2) K) : Prop := R * Rᵀ = 1 ∧ R.det = 1

end Gal
