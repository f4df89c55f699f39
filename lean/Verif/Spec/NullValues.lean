import Verif.Spec.Values
import Verif.Props.ComputeNull

/-!
# Specification: what an expression in an algebra with a null basis may evaluate to
-/

namespace Gal

variable {K : Type} [Field K]

/-- Values the arguments have for some coefficients, where the elements are those of the null basis. -/
def MayBeNull (m : Metric) (args : List (Arg K)) (w : Nat → CliffordAlgebra (diagForm K m.dim m.sq)) : Prop :=
  ∃ args', SameTypes args args' ∧ ∀ (k : Nat) (a : Arg K), args'[k]? = some a → a.DenotesNull m.dim m.sq (argOffset args' k) (w k)

end Gal
