import Verif.Base
import Mathlib.Algebra.Field.Defs

/-!
# Compile-time powers (numeric.hpp:18-91)

`T` is an arbitrary field here (run-time floating point is not modelled).  Only integer exponents (`D <= 1`) are
modelled: with `D > 1` the code calls `std::pow`.
-/

namespace Gal

open Out

variable {K : Type} [Field K]

/-- The square-and-multiply loop (numeric.hpp:77-89): `temp1`, `temp2`, `e`; `fuel` bounds the iterations (the callers
pass `e`, which decreases each time). -/
def powLoop : Nat → K → K → Nat → K
  | 0, t1, t2, _ => t1 * t2
  | fuel + 1, t1, t2, e =>
    if e > 1 then powLoop fuel (if e % 2 = 1 then t1 * t2 else t1) (t2 * t2) (e / 2)
    else t1 * t2

/-- The cases `N >= 0` of `pow<T, N, D>` (numeric.hpp:26-29 and 39-90).  `N == 0` has no case of its own and ends in
the loop. -/
def powNat (s : K) : Nat → K
  | 1 => s
  | 2 => s * s
  | 3 => s * s * s
  | 4 => (s * s) * (s * s)
  | 5 => (s * s) * (s * s) * s
  | 6 => ((s * s) * s) * ((s * s) * s)
  | 7 => ((s * s) * (s * s)) * (s * s) * s
  | 8 => ((s * s) * (s * s)) * ((s * s) * (s * s))
  | n => powLoop n 1 s n

/-- `gal::pow` for `D <= 1` (numeric.hpp:18-91).  `-N` is a constant expression, so its overflow (`N = INT_MIN`) is
reported as `ub`. -/
def pow (s : K) (N : Int) : Out K :=
  if N = 1 then ok s
  else if N = -1 then ok (1 / s)
  else if N < 0 then do
    let m ← chk (-N)
    return 1 / powNat s m.toNat
  else ok (powNat s N.toNat)

end Gal
