import Verif.Versor

/-!
# `compute` of the exponential in any algebra
-/

namespace Gal

open Out

variable {K : Type} [Field K]

/-- `compute([](auto x) { return exp(x); }, x)` (expr.hpp:904-919, engine.hpp:455-518) in the algebra with metric `m`; `null` says whether the algebra
uses the null basis.  95 is the capacity of the expression, which does not depend on the algebra. -/
def expOf (m : Metric) (null : Bool) (E : Env K) (x : Arg K) : Out (Entity K) := do
  let e ← expExpr m.dim (entityExpr 0 0)
  computeExpr m null 95 E [x] e >>= single

end Gal
