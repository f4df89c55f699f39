import Verif.Engine
import Mathlib.Data.Matrix.Mul
import Mathlib.LinearAlgebra.AffineSpace.FiniteDimensional

/-!
# Specification: conformal points, spheres and planes

A point `p` of space is represented in the null basis by `w (p + no + ½ |p|² ni)` with a weight `w ≠ 0`.
-/

namespace Gal

open scoped Matrix

variable {K : Type} [Field K]

/-- The representation of a point with a weight, as returned by `compute`: coefficients of `e1, e2, e3, no, ni`. -/
def conformalPoint (w : K) (p : Fin 3 → K) : Entity K := ⟨[1, 2, 4, 8, 16], [w * p 0, w * p 1, w * p 2, w, w * (p ⬝ᵥ p) / 2]⟩

/-- The image of `p` under the inversion in the sphere with centre `c` and squared radius `ρ`: on the ray from `c` through `p`, with the product of
the distances `ρ`. -/
def inversion (c : Fin 3 → K) (ρ : K) (p : Fin 3 → K) : Fin 3 → K := c + (ρ / ((p - c) ⬝ᵥ (p - c))) • (p - c)

/-- The points lie on a plane. -/
def OnPlane {n : Nat} (P : Fin n → Fin 3 → K) : Prop := ∃ (a : Fin 3 → K) (d : K), a ≠ 0 ∧ ∀ i, a ⬝ᵥ P i = d

end Gal
