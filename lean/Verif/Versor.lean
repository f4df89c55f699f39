import Verif.Compute
import Verif.Named

/-!
# Members of the named entities that compute with square roots and angles (public/gal/vga.hpp, pga.hpp)

`std::sqrt`, `std::cos`, `std::sin`, `std::atan2` and the comparison of `std::abs` with `1e-6` are parameters.  The results of `compute` inside
the members are obtained through the model of `compute`: the expression of the lambda, compiled and evaluated.
-/

namespace Gal

open Out

variable {K : Type} [Field K]

/-- `vga::vector::normalize` (vga.hpp:126-132); `vga::rotor::normalize` (vga.hpp:257-263), `pga::rotor::normalize` (pga.hpp:152-158) and
`pga::translator::normalize` (pga.hpp:224-230) do the same with the fields `x`, `y`, `z`. -/
def normalize3 (sqrt : K → K) (x y z : K) : List K :=
  let inv := 1 / sqrt (x * x + y * y + z * z)
  [x * inv, y * inv, z * inv]

/-- The constructor of `vga::rotor` (vga.hpp:247-253) and `pga::rotor` (pga.hpp:142-148); `T{0.5}` is one half. -/
def rotorNew (cos sin : K → K) (theta x y z : K) : List K := [cos (1 / 2 * theta), sin (1 / 2 * theta), x, y, z]

/-- `normalize` of a rotor (vga.hpp:257-263, pga.hpp:152-158): the first two fields stay. -/
def rotorNormalize (sqrt : K → K) : List K → List K
  | [c, s, x, y, z] => c :: s :: normalize3 sqrt x y z
  | d => d

/-- `normalize` of a translator (pga.hpp:224-230): the distance stays. -/
def translatorNormalize (sqrt : K → K) : List K → List K
  | [d, x, y, z] => d :: normalize3 sqrt x y z
  | d => d

/-- `auto r = compute(…)` for a lambda with one result; the branch for one result returns the entity itself (engine.hpp:502-507). -/
def single : List (Entity K) → Out (Entity K)
  | [x] => ok x
  | _ => .ub

/-- A motor as an argument (pga.hpp:274-285). -/
def motorArg (d : List K) : Arg K := ⟨pgaMotorIe, d⟩

/-- A line as an argument (pga.hpp:477-509). -/
def lineArg (d : List K) : Arg K := ⟨pgaLineIe, d⟩

/-- `[](auto m) { return m * ~m; }` (pga.hpp:308). -/
def motorSquareExpr : Out Rpne := do
  let r ← revExpr (entityExpr 0 0)
  gpExpr (entityExpr 0 0) r

/-- `[](auto m, auto inv_norm) { return m * inv_norm; }` (pga.hpp:314). -/
def motorScaleExpr : Out Rpne := gpExpr (entityExpr 0 0) (entityExpr 8 1)

/-- `motor::normalize` (pga.hpp:306-315): the new `data`.  4 and 3 are the capacities of the two expressions. -/
def motorNormalize (E : Env K) (sqrt : K → K) (d : List K) : Out (List K) := do
  let e ← motorSquareExpr
  let m2 ← computeExpr pgaMetric false 4 E [motorArg d] e >>= single
  let u ← m2.at 0
  let v ← m2.at 1
  let m2 := m2.put 0 (1 / sqrt u)
  let m2 := m2.put 1 (-v / (2 * sqrt u * u))
  let e ← motorScaleExpr
  let r ← computeExpr pgaMetric false 3 E [motorArg d, m2.toArg] e >>= single
  pgaMotorOf r

/-- `[](auto l) { return (l | l) + (l ^ l); }` (pga.hpp:554). -/
def lineSquareExpr : Out Rpne := do
  let a ← sipExpr (entityExpr 0 0) (entityExpr 0 0)
  let b ← epExpr (entityExpr 0 0) (entityExpr 0 0)
  addExpr a b

/-- `[](auto u, auto v, auto l, auto inv_norm) { return (u + v * 1_ps) * l * inv_norm; }` (pga.hpp:565). -/
def logExpr : Out Rpne := do
  let a ← gpExpr (entityExpr 1 1) (elementExpr 15 1)
  let b ← addExpr (entityExpr 0 0) a
  let c ← gpExpr b (entityExpr 2 2)
  gpExpr c (entityExpr 8 3)

/-- `motor::log` (pga.hpp:545-570).  `small s1` is `std::abs(s1) < T{1e-6}`; a `scalar` is an argument like a plain number
(entity.hpp:196-207).  11 is the capacity of both expressions. -/
def motorLog (E : Env K) (sqrt : K → K) (atan2 : K → K → K) (small : K → Bool) (d : List K) : Out (Entity K) := do
  let s1 ← (⟨motorElements, d⟩ : Entity K).at 0
  let p1 ← (⟨motorElements, d⟩ : Entity K).at 7
  let l := motorBivector d
  let e ← lineSquareExpr
  let l2 ← computeExpr pgaMetric false 11 E [l.toArg] e >>= single
  let a ← l2.select 4 0
  let b ← l2.select 4 15
  let s2 := sqrt (-a)
  let p2 := -b / (2 * s2)
  let inv : Entity K := ⟨[0, 15], [1 / s2, p2 / a]⟩
  let u := if small s1 then atan2 (-p1) p2 else atan2 s2 s1
  let v := if small s1 then -p1 / s2 else p2 / s1
  let e ← logExpr
  computeExpr pgaMetric false 11 E [numArg u, numArg v, l.toArg, inv.toArg] e >>= single

/-- `compute([](auto l) { return exp(l); }, l)` for an argument with six coefficients (expr.hpp:904-919); 95 is the capacity of the
expression. -/
def computeExp (E : Env K) (l : Arg K) : Out (Entity K) := do
  let e ← expExpr 4 (entityExpr 0 0)
  computeExpr pgaMetric false 95 E [l] e >>= single

end Gal
