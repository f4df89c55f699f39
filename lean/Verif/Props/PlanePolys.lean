import Verif.Props.MetricPolys

/-!
# The polynomials of the constructions of plane geometry (pga2.hpp)
-/

namespace Gal

open Out

/-- The argument `pga2::line{d, x, y}` (pga2.hpp:71-119). -/
def lineArg2 {K : Type} (d : List K) : Arg K := ⟨pga2LineIe, d⟩

/-- A point of the plane as `compute` returns it. -/
def pointEnt2 {K : Type} (d : List K) : Arg K := (⟨[3, 5, 6], d⟩ : Entity K).toArg

/-- The argument `pga2::point{x, y}` (pga2.hpp:121-193). -/
def pointArg2 {K : Type} (d : List K) : Arg K := ⟨pga2PointIe, d⟩

/-- A motor of the plane: a product of two lines as `compute` returns it. -/
def motorEnt2 {K : Type} (d : List K) : Arg K := (⟨[0, 3, 5, 6], d⟩ : Entity K).toArg

/-- `a ^ b` for two lines. -/
def meet2Polys : List (Nat × List IntMono) :=
    [(3, [(1, [(0, 1), (4, 1)]), (-1, [(1, 1), (3, 1)])]), (5, [(1, [(0, 1), (5, 1)]), (-1, [(2, 1), (3, 1)])]), (6, [(1, [(1, 1), (5, 1)]),
    (-1, [(2, 1), (4, 1)])])]

/-- `p & q` for two points. -/
def join2Polys : List (Nat × List IntMono) :=
    [(1, [(1, [(0, 1), (4, 1)]), (-1, [(1, 1), (3, 1)])]), (2, [(1, [(0, 1), (5, 1)]), (-1, [(2, 1), (3, 1)])]), (4, [(1, [(1, 1), (5, 1)]),
    (-1, [(2, 1), (4, 1)])])]

/-- `a ^ p` for a line and a point. -/
def incident2Polys : List (Nat × List IntMono) :=
    [(7, [(1, [(0, 1), (5, 1)]), (-1, [(1, 1), (4, 1)]), (1, [(2, 1), (3, 1)])])]

/-- `a ^ p` for a line and a `pga2::point`. -/
def pointType2Polys : List (Nat × List IntMono) :=
    [(7, [(1, [(0, 1)]), (-1, [(2, 1)]), (-1, [(1, 1), (3, 1)])])]

/-- `a | b` for two lines. -/
def dotLines2Polys : List (Nat × List IntMono) :=
    [(0, [(1, [(1, 1), (4, 1)]), (1, [(2, 1), (5, 1)])])]

/-- `p | a` for a point and a line. -/
def perp2Polys : List (Nat × List IntMono) :=
    [(1, [(1, [(0, 1), (4, 1)]), (1, [(1, 1), (5, 1)])]), (2, [(1, [(2, 1), (5, 1)])]), (4, [(-1, [(2, 1), (4, 1)])])]

/-- `(p | a) * a` for a point and a line. -/
def foot2Polys : List (Nat × List IntMono) :=
    [(3, [(1, [(0, 1), (4, 2)]), (1, [(1, 1), (4, 1), (5, 1)]), (-1, [(2, 1), (3, 1), (5, 1)])]), (5, [(1, [(0, 1), (4, 1), (5, 1)]), (1, [(1,
    1), (5, 2)]), (1, [(2, 1), (3, 1), (4, 1)])]), (6, [(1, [(2, 1), (4, 2)]), (1, [(2, 1), (5, 2)])])]

/-- `(a | p) * p` for a line and a point. -/
def parallel2Polys : List (Nat × List IntMono) :=
    [(1, [(-1, [(1, 1), (4, 1), (5, 1)]), (1, [(2, 1), (3, 1), (5, 1)])]), (2, [(-1, [(1, 1), (5, 2)])]), (4, [(-1, [(2, 1), (5, 2)])])]

/-- `a * b` for two lines. -/
def lines2Polys : List (Nat × List IntMono) :=
    [(0, [(1, [(1, 1), (4, 1)]), (1, [(2, 1), (5, 1)])]), (3, [(1, [(0, 1), (4, 1)]), (-1, [(1, 1), (3, 1)])]), (5, [(1, [(0, 1), (5, 1)]), (-1,
    [(2, 1), (3, 1)])]), (6, [(1, [(1, 1), (5, 1)]), (-1, [(2, 1), (4, 1)])])]

/-- `m * n` for two motors. -/
def motors2Polys : List (Nat × List IntMono) :=
    [(0, [(1, [(0, 1), (4, 1)]), (-1, [(3, 1), (7, 1)])]), (3, [(1, [(0, 1), (5, 1)]), (1, [(1, 1), (4, 1)]), (-1, [(2, 1), (7, 1)]), (1, [(3,
    1), (6, 1)])]), (5, [(1, [(0, 1), (6, 1)]), (1, [(1, 1), (7, 1)]), (1, [(2, 1), (4, 1)]), (-1, [(3, 1), (5, 1)])]), (6, [(1, [(0, 1), (7,
    1)]), (1, [(3, 1), (4, 1)])])]

/-- `(p & q) & r` for three points. -/
def area2Polys : List (Nat × List IntMono) :=
    [(0, [(1, [(0, 1), (4, 1), (8, 1)]), (-1, [(0, 1), (5, 1), (7, 1)]), (-1, [(1, 1), (3, 1), (8, 1)]), (1, [(1, 1), (5, 1), (6, 1)]), (1, [(2,
    1), (3, 1), (7, 1)]), (-1, [(2, 1), (4, 1), (6, 1)])])]

/-- `p % m` for a point and a motor. -/
def pointMotor2Polys : List (Nat × List IntMono) :=
    [(3, [(1, [(0, 1), (3, 2)]), (-1, [(0, 1), (6, 2)]), (2, [(1, 1), (3, 1), (6, 1)]), (-2, [(2, 1), (3, 1), (5, 1)]), (2, [(2, 1), (4, 1), (6,
    1)])]), (5, [(-2, [(0, 1), (3, 1), (6, 1)]), (1, [(1, 1), (3, 2)]), (-1, [(1, 1), (6, 2)]), (2, [(2, 1), (3, 1), (4, 1)]), (2, [(2, 1), (5,
    1), (6, 1)])]), (6, [(1, [(2, 1), (3, 2)]), (1, [(2, 1), (6, 2)])])]

/-- `a % m` for a line and a motor. -/
def lineMotor2Polys : List (Nat × List IntMono) :=
    [(1, [(1, [(0, 1), (3, 2)]), (1, [(0, 1), (6, 2)]), (2, [(1, 1), (3, 1), (4, 1)]), (-2, [(1, 1), (5, 1), (6, 1)]), (2, [(2, 1), (3, 1), (5,
    1)]), (2, [(2, 1), (4, 1), (6, 1)])]), (2, [(1, [(1, 1), (3, 2)]), (-1, [(1, 1), (6, 2)]), (2, [(2, 1), (3, 1), (6, 1)])]), (4, [(-2, [(1,
    1), (3, 1), (6, 1)]), (1, [(2, 1), (3, 2)]), (-1, [(2, 1), (6, 2)])])]

/-- `p % b` for a point and a line. -/
def pointMirror2Polys : List (Nat × List IntMono) :=
    [(3, [(-1, [(0, 1), (4, 2)]), (1, [(0, 1), (5, 2)]), (-2, [(1, 1), (4, 1), (5, 1)]), (2, [(2, 1), (3, 1), (5, 1)])]), (5, [(-2, [(0, 1), (4,
    1), (5, 1)]), (1, [(1, 1), (4, 2)]), (-1, [(1, 1), (5, 2)]), (-2, [(2, 1), (3, 1), (4, 1)])]), (6, [(-1, [(2, 1), (4, 2)]), (-1, [(2, 1),
    (5, 2)])])]

/-- `a % b` for two lines. -/
def lineMirror2Polys : List (Nat × List IntMono) :=
    [(1, [(-1, [(0, 1), (4, 2)]), (-1, [(0, 1), (5, 2)]), (2, [(1, 1), (3, 1), (4, 1)]), (2, [(2, 1), (3, 1), (5, 1)])]), (2, [(1, [(1, 1), (4,
    2)]), (-1, [(1, 1), (5, 2)]), (2, [(2, 1), (4, 1), (5, 1)])]), (4, [(2, [(1, 1), (4, 1), (5, 1)]), (-1, [(2, 1), (4, 2)]), (1, [(2, 1), (5,
    2)])])]

/-- `p % q` for two points. -/
def pointCentre2Polys : List (Nat × List IntMono) :=
    [(3, [(-1, [(0, 1), (5, 2)]), (2, [(2, 1), (3, 1), (5, 1)])]), (5, [(-1, [(1, 1), (5, 2)]), (2, [(2, 1), (4, 1), (5, 1)])]), (6, [(1, [(2,
    1), (5, 2)])])]

/-- `a % q` for a line and a point. -/
def lineCentre2Polys : List (Nat × List IntMono) :=
    [(1, [(1, [(0, 1), (5, 2)]), (-2, [(1, 1), (4, 1), (5, 1)]), (2, [(2, 1), (3, 1), (5, 1)])]), (2, [(-1, [(1, 1), (5, 2)])]), (4, [(-1, [(2,
    1), (5, 2)])])]

theorem meet2_polys : meetLam.polys pga2Metric [lineArg2 (K := ℚ) [0, 0, 0], lineArg2 (K := ℚ) [0, 0, 0]] = some meet2Polys := by
  exact flatPolys_polys (by decide +kernel)

theorem join2_polys : joinLam.polys pga2Metric [pointEnt2 (K := ℚ) [0, 0, 0], pointEnt2 (K := ℚ) [0, 0, 0]] = some join2Polys := by
  exact flatPolys_polys (by decide +kernel)

theorem incident2_polys : meetLam.polys pga2Metric [lineArg2 (K := ℚ) [0, 0, 0], pointEnt2 (K := ℚ) [0, 0, 0]] = some incident2Polys := by
  exact flatPolys_polys (by decide +kernel)

theorem pointType2_polys : meetLam.polys pga2Metric [lineArg2 (K := ℚ) [0, 0, 0], pointArg2 (K := ℚ) [0, 0]] = some pointType2Polys := by
  decide +kernel

theorem dotLines2_polys : innerLam.polys pga2Metric [lineArg2 (K := ℚ) [0, 0, 0], lineArg2 (K := ℚ) [0, 0, 0]] = some dotLines2Polys := by
  exact flatPolys_polys (by decide +kernel)

theorem perp2_polys : innerLam.polys pga2Metric [pointEnt2 (K := ℚ) [0, 0, 0], lineArg2 (K := ℚ) [0, 0, 0]] = some perp2Polys := by
  exact flatPolys_polys (by decide +kernel)

theorem foot2_polys : projectDual.polys pga2Metric [pointEnt2 (K := ℚ) [0, 0, 0], lineArg2 (K := ℚ) [0, 0, 0]] = some foot2Polys := by
  exact flatPolys_polys (by decide +kernel)

theorem parallel2_polys : projectDual.polys pga2Metric [lineArg2 (K := ℚ) [0, 0, 0], pointEnt2 (K := ℚ) [0, 0, 0]] = some parallel2Polys := by
  exact flatPolys_polys (by decide +kernel)

theorem lines2_polys : productLam.polys pga2Metric [lineArg2 (K := ℚ) [0, 0, 0], lineArg2 (K := ℚ) [0, 0, 0]] = some lines2Polys := by
  exact flatPolys_polys (by decide +kernel)

theorem motors2_polys : productLam.polys pga2Metric [motorEnt2 (K := ℚ) [0, 0, 0, 0], motorEnt2 (K := ℚ) [0, 0, 0, 0]] = some motors2Polys := by
  exact flatPolys_polys (by decide +kernel)

theorem area2_polys : joinLam3.polys pga2Metric [pointEnt2 (K := ℚ) [0, 0, 0], pointEnt2 (K := ℚ) [0, 0, 0], pointEnt2 (K := ℚ) [0, 0, 0]] = some area2Polys := by
  exact flatPolys_polys (by decide +kernel)

theorem pointMotor2_polys : sandwichLam.polys pga2Metric [pointEnt2 (K := ℚ) [0, 0, 0], motorEnt2 (K := ℚ) [0, 0, 0, 0]] = some pointMotor2Polys := by
  exact flatPolys_polys (by decide +kernel)

theorem lineMotor2_polys : sandwichLam.polys pga2Metric [lineArg2 (K := ℚ) [0, 0, 0], motorEnt2 (K := ℚ) [0, 0, 0, 0]] = some lineMotor2Polys := by
  exact flatPolys_polys (by decide +kernel)

theorem pointMirror2_polys : sandwichLam.polys pga2Metric [pointEnt2 (K := ℚ) [0, 0, 0], lineArg2 (K := ℚ) [0, 0, 0]] = some pointMirror2Polys := by
  exact flatPolys_polys (by decide +kernel)

theorem lineMirror2_polys : sandwichLam.polys pga2Metric [lineArg2 (K := ℚ) [0, 0, 0], lineArg2 (K := ℚ) [0, 0, 0]] = some lineMirror2Polys := by
  exact flatPolys_polys (by decide +kernel)

theorem pointCentre2_polys : sandwichLam.polys pga2Metric [pointEnt2 (K := ℚ) [0, 0, 0], pointEnt2 (K := ℚ) [0, 0, 0]] = some pointCentre2Polys := by
  exact flatPolys_polys (by decide +kernel)

theorem lineCentre2_polys : sandwichLam.polys pga2Metric [lineArg2 (K := ℚ) [0, 0, 0], pointEnt2 (K := ℚ) [0, 0, 0]] = some lineCentre2Polys := by
  exact flatPolys_polys (by decide +kernel)

end Gal
