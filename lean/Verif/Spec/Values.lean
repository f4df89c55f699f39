import Verif.Props.Compute

/-!
# Specification: what an expression may evaluate to

The types of the arguments are known when an expression is compiled, their coefficients are not.
-/

namespace Gal

variable {K : Type} [Field K]

/-- The arguments have the same types; their coefficients may differ. -/
def SameTypes (args args' : List (Arg K)) : Prop :=
  args'.map (fun a => (a.ie, a.data.length)) = args.map fun a => (a.ie, a.data.length)

/-- Values the arguments have for some coefficients. -/
def MayBe (m : Metric) (args : List (Arg K)) (w : Nat → CliffordAlgebra (diagForm K m.dim m.sq)) : Prop :=
  ∃ args', SameTypes args args' ∧ ∀ (k : Nat) (a : Arg K), args'[k]? = some a → a.Denotes m.dim m.sq (argOffset args' k) (w k)

end Gal
