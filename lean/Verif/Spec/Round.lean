import Mathlib.Data.Matrix.Mul
import Mathlib.Algebra.Field.Basic

/-!
# Specification: spheres, planes and circles through points
-/

namespace Gal

open scoped Matrix

variable {K : Type} [Field K]

/-- The point `x` lies on the sphere (`a ≠ 0`) or plane (`a = 0`) with the equation `a |x|² + n · x + c = 0`. -/
def OnRound (a : K) (n : Fin 3 → K) (c : K) (x : Fin 3 → K) : Prop := a * (x ⬝ᵥ x) + n ⬝ᵥ x + c = 0

/-- The points lie on one sphere or plane. -/
def Cospherical {k : Nat} (P : Fin k → Fin 3 → K) : Prop := ∃ a n c, (a ≠ 0 ∨ n ≠ 0) ∧ ∀ i, OnRound a n c (P i)

/-- The point `x` lies on the circle or line through the points: on every sphere and plane that contains them. -/
def OnCircle {k : Nat} (P : Fin k → Fin 3 → K) (x : Fin 3 → K) : Prop := ∀ a n c, (∀ i, OnRound a n c (P i)) → OnRound a n c x

/-- The points lie on one plane. -/
def OnePlane {k : Nat} (P : Fin k → Fin 3 → K) : Prop := ∃ n d, n ≠ 0 ∧ ∀ i, n ⬝ᵥ P i = d

end Gal
