import Verif.Clifford
import Verif.BladeLemmas
import Verif.Metrics

/-!
# Specification: rotors, motors and lines of three-dimensional projective geometric algebra

The generators are `e0` with square 0 and `e1`, `e2`, `e3` with square 1.
-/

namespace Gal

variable {K : Type} [Field K]

/-- The algebra of `pga.hpp`. -/
abbrev Pga (K : Type) [Field K] : Type := CliffordAlgebra (diagForm K 4 (Metric.sq pgaMetric))

/-- The generators. -/
noncomputable def pgaGen (i : Fin 4) : Pga K := CliffordAlgebra.ι _ (Pi.single i 1)

/-- The bivector with coefficients at `e01`, `e02`, `e12`, `e03`, `e13`, `e23`. -/
noncomputable def pgaBiv (a b c d e f : K) : Pga K :=
  a • (pgaGen 0 * pgaGen 1) + b • (pgaGen 0 * pgaGen 2) + c • (pgaGen 1 * pgaGen 2) + d • (pgaGen 0 * pgaGen 3) + e • (pgaGen 1 * pgaGen 3) +
    f • (pgaGen 2 * pgaGen 3)

/-- The pseudoscalar `e0123`. -/
noncomputable def pgaPs : Pga K := pgaGen 0 * pgaGen 1 * pgaGen 2 * pgaGen 3

/-- The even element with coefficients at `1`, `e01`, `e02`, `e12`, `e03`, `e13`, `e23`, `e0123`. -/
noncomputable def pgaEven (a b c d e f g h : K) : Pga K := a • 1 + pgaBiv b c d e f g + h • pgaPs

end Gal
