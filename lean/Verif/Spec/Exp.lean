import Verif.CliffordBasis
import Mathlib.Topology.Algebra.InfiniteSum.Basic
import Mathlib.Topology.Instances.Real.Lemmas

/-!
# Specification: the exponential in a Clifford algebra over the real numbers
-/

namespace Gal

/-- `y` is the exponential of `x`: each coefficient of `y` is the sum of the series `Σ xᵏ / k!` at that blade. -/
def IsExp {n : Nat} {d : Nat → Int} (x y : CliffordAlgebra (diagForm ℝ n d)) : Prop :=
  ∀ g, g < 2 ^ n → HasSum (fun k : ℕ => (k.factorial : ℝ)⁻¹ * bladeCoords ℝ n d (x ^ k) g) (bladeCoords ℝ n d y g)

end Gal
