import Verif.Props.MetricPolys

/-!
# The polynomials of sandwich products of points, lines and planes
-/

namespace Gal

open Out

/-- A line as `compute` returns it for the join of two points. -/
def lineEnt {K : Type} (d : List K) : Arg K := (⟨[3, 5, 6, 9, 10, 12], d⟩ : Entity K).toArg

/-- `l % m` for a line and a motor. -/
def lineMotorPolys : List (Nat × List IntMono) :=
    [(3, [(1, [(0, 1), (6, 2)]), (-1, [(0, 1), (9, 2)]), (-1, [(0, 1), (11, 2)]), (1, [(0, 1), (12, 2)]), (2, [(1, 1), (6, 1), (9, 1)]), (-2,
    [(1, 1), (11, 1), (12, 1)]), (-2, [(2, 1), (6, 1), (8, 1)]), (2, [(2, 1), (7, 1), (9, 1)]), (2, [(2, 1), (10, 1), (12, 1)]), (-2, [(2, 1),
    (11, 1), (13, 1)]), (2, [(3, 1), (6, 1), (11, 1)]), (2, [(3, 1), (9, 1), (12, 1)]), (-2, [(4, 1), (6, 1), (10, 1)]), (2, [(4, 1), (7, 1),
    (11, 1)]), (-2, [(4, 1), (8, 1), (12, 1)]), (2, [(4, 1), (9, 1), (13, 1)]), (-2, [(5, 1), (6, 1), (13, 1)]), (2, [(5, 1), (7, 1), (12, 1)]),
    (2, [(5, 1), (8, 1), (11, 1)]), (-2, [(5, 1), (9, 1), (10, 1)])]), (5, [(-2, [(0, 1), (6, 1), (9, 1)]), (-2, [(0, 1), (11, 1), (12, 1)]),
    (1, [(1, 1), (6, 2)]), (-1, [(1, 1), (9, 2)]), (1, [(1, 1), (11, 2)]), (-1, [(1, 1), (12, 2)]), (2, [(2, 1), (6, 1), (7, 1)]), (2, [(2, 1),
    (8, 1), (9, 1)]), (-2, [(2, 1), (10, 1), (11, 1)]), (-2, [(2, 1), (12, 1), (13, 1)]), (2, [(3, 1), (6, 1), (12, 1)]), (-2, [(3, 1), (9, 1),
    (11, 1)]), (2, [(4, 1), (6, 1), (13, 1)]), (2, [(4, 1), (7, 1), (12, 1)]), (2, [(4, 1), (8, 1), (11, 1)]), (2, [(4, 1), (9, 1), (10, 1)]),
    (-2, [(5, 1), (6, 1), (10, 1)]), (-2, [(5, 1), (7, 1), (11, 1)]), (2, [(5, 1), (8, 1), (12, 1)]), (2, [(5, 1), (9, 1), (13, 1)])]), (6, [(1,
    [(2, 1), (6, 2)]), (1, [(2, 1), (9, 2)]), (-1, [(2, 1), (11, 2)]), (-1, [(2, 1), (12, 2)]), (2, [(4, 1), (6, 1), (12, 1)]), (2, [(4, 1), (9,
    1), (11, 1)]), (-2, [(5, 1), (6, 1), (11, 1)]), (2, [(5, 1), (9, 1), (12, 1)])]), (9, [(-2, [(0, 1), (6, 1), (11, 1)]), (2, [(0, 1), (9, 1),
    (12, 1)]), (-2, [(1, 1), (6, 1), (12, 1)]), (-2, [(1, 1), (9, 1), (11, 1)]), (-2, [(2, 1), (6, 1), (13, 1)]), (-2, [(2, 1), (7, 1), (12,
    1)]), (2, [(2, 1), (8, 1), (11, 1)]), (2, [(2, 1), (9, 1), (10, 1)]), (1, [(3, 1), (6, 2)]), (1, [(3, 1), (9, 2)]), (-1, [(3, 1), (11, 2)]),
    (-1, [(3, 1), (12, 2)]), (2, [(4, 1), (6, 1), (7, 1)]), (-2, [(4, 1), (8, 1), (9, 1)]), (2, [(4, 1), (10, 1), (11, 1)]), (-2, [(4, 1), (12,
    1), (13, 1)]), (2, [(5, 1), (6, 1), (8, 1)]), (2, [(5, 1), (7, 1), (9, 1)]), (2, [(5, 1), (10, 1), (12, 1)]), (2, [(5, 1), (11, 1), (13,
    1)])]), (10, [(-2, [(2, 1), (6, 1), (12, 1)]), (2, [(2, 1), (9, 1), (11, 1)]), (1, [(4, 1), (6, 2)]), (-1, [(4, 1), (9, 2)]), (1, [(4, 1),
    (11, 2)]), (-1, [(4, 1), (12, 2)]), (2, [(5, 1), (6, 1), (9, 1)]), (2, [(5, 1), (11, 1), (12, 1)])]), (12, [(2, [(2, 1), (6, 1), (11, 1)]),
    (2, [(2, 1), (9, 1), (12, 1)]), (-2, [(4, 1), (6, 1), (9, 1)]), (2, [(4, 1), (11, 1), (12, 1)]), (1, [(5, 1), (6, 2)]), (-1, [(5, 1), (9,
    2)]), (-1, [(5, 1), (11, 2)]), (1, [(5, 1), (12, 2)])])]

/-- `a % b` for two planes. -/
def planeMirrorPolys : List (Nat × List IntMono) :=
    [(1, [(-1, [(0, 1), (5, 2)]), (-1, [(0, 1), (6, 2)]), (-1, [(0, 1), (7, 2)]), (2, [(1, 1), (4, 1), (5, 1)]), (2, [(2, 1), (4, 1), (6, 1)]),
    (2, [(3, 1), (4, 1), (7, 1)])]), (2, [(1, [(1, 1), (5, 2)]), (-1, [(1, 1), (6, 2)]), (-1, [(1, 1), (7, 2)]), (2, [(2, 1), (5, 1), (6, 1)]),
    (2, [(3, 1), (5, 1), (7, 1)])]), (4, [(2, [(1, 1), (5, 1), (6, 1)]), (-1, [(2, 1), (5, 2)]), (1, [(2, 1), (6, 2)]), (-1, [(2, 1), (7, 2)]),
    (2, [(3, 1), (6, 1), (7, 1)])]), (8, [(2, [(1, 1), (5, 1), (7, 1)]), (2, [(2, 1), (6, 1), (7, 1)]), (-1, [(3, 1), (5, 2)]), (-1, [(3, 1),
    (6, 2)]), (1, [(3, 1), (7, 2)])])]

/-- `l % b` for a line and a plane. -/
def lineMirrorPolys : List (Nat × List IntMono) :=
    [(3, [(-1, [(0, 1), (7, 2)]), (1, [(0, 1), (8, 2)]), (1, [(0, 1), (9, 2)]), (-2, [(1, 1), (7, 1), (8, 1)]), (2, [(2, 1), (6, 1), (8, 1)]),
    (-2, [(3, 1), (7, 1), (9, 1)]), (2, [(4, 1), (6, 1), (9, 1)])]), (5, [(-2, [(0, 1), (7, 1), (8, 1)]), (1, [(1, 1), (7, 2)]), (-1, [(1, 1),
    (8, 2)]), (1, [(1, 1), (9, 2)]), (-2, [(2, 1), (6, 1), (7, 1)]), (-2, [(3, 1), (8, 1), (9, 1)]), (2, [(5, 1), (6, 1), (9, 1)])]), (6, [(-1,
    [(2, 1), (7, 2)]), (-1, [(2, 1), (8, 2)]), (1, [(2, 1), (9, 2)]), (-2, [(4, 1), (8, 1), (9, 1)]), (2, [(5, 1), (7, 1), (9, 1)])]), (9, [(-2,
    [(0, 1), (7, 1), (9, 1)]), (-2, [(1, 1), (8, 1), (9, 1)]), (1, [(3, 1), (7, 2)]), (1, [(3, 1), (8, 2)]), (-1, [(3, 1), (9, 2)]), (-2, [(4,
    1), (6, 1), (7, 1)]), (-2, [(5, 1), (6, 1), (8, 1)])]), (10, [(-2, [(2, 1), (8, 1), (9, 1)]), (-1, [(4, 1), (7, 2)]), (1, [(4, 1), (8, 2)]),
    (-1, [(4, 1), (9, 2)]), (-2, [(5, 1), (7, 1), (8, 1)])]), (12, [(2, [(2, 1), (7, 1), (9, 1)]), (-2, [(4, 1), (7, 1), (8, 1)]), (1, [(5, 1),
    (7, 2)]), (-1, [(5, 1), (8, 2)]), (-1, [(5, 1), (9, 2)])])]

/-- `p % k` for a point and a line. -/
def pointAxisPolys : List (Nat × List IntMono) :=
    [(7, [(-2, [(3, 1), (7, 1)]), (-2, [(4, 1), (8, 1)]), (-2, [(0, 1), (5, 1), (8, 1)]), (2, [(1, 1), (5, 1), (7, 1)]), (-1, [(2, 1), (5, 2)]),
    (1, [(2, 1), (7, 2)]), (1, [(2, 1), (8, 2)])]), (11, [(2, [(3, 1), (5, 1)]), (-2, [(6, 1), (8, 1)]), (-2, [(0, 1), (7, 1), (8, 1)]), (-1,
    [(1, 1), (5, 2)]), (1, [(1, 1), (7, 2)]), (-1, [(1, 1), (8, 2)]), (-2, [(2, 1), (5, 1), (7, 1)])]), (13, [(2, [(4, 1), (5, 1)]), (2, [(6,
    1), (7, 1)]), (1, [(0, 1), (5, 2)]), (1, [(0, 1), (7, 2)]), (-1, [(0, 1), (8, 2)]), (2, [(1, 1), (7, 1), (8, 1)]), (-2, [(2, 1), (5, 1), (8,
    1)])]), (14, [(1, [(5, 2)]), (1, [(7, 2)]), (1, [(8, 2)])])]

/-- `a % k` for a plane and a line. -/
def planeAxisPolys : List (Nat × List IntMono) :=
    [(1, [(1, [(0, 1), (6, 2)]), (1, [(0, 1), (8, 2)]), (1, [(0, 1), (9, 2)]), (-2, [(1, 1), (5, 1), (6, 1)]), (-2, [(1, 1), (7, 1), (8, 1)]),
    (2, [(2, 1), (4, 1), (6, 1)]), (-2, [(2, 1), (7, 1), (9, 1)]), (2, [(3, 1), (4, 1), (8, 1)]), (2, [(3, 1), (5, 1), (9, 1)])]), (2, [(-1,
    [(1, 1), (6, 2)]), (-1, [(1, 1), (8, 2)]), (1, [(1, 1), (9, 2)]), (-2, [(2, 1), (8, 1), (9, 1)]), (2, [(3, 1), (6, 1), (9, 1)])]), (4, [(-2,
    [(1, 1), (8, 1), (9, 1)]), (-1, [(2, 1), (6, 2)]), (1, [(2, 1), (8, 2)]), (-1, [(2, 1), (9, 2)]), (-2, [(3, 1), (6, 1), (8, 1)])]), (8, [(2,
    [(1, 1), (6, 1), (9, 1)]), (-2, [(2, 1), (6, 1), (8, 1)]), (1, [(3, 1), (6, 2)]), (-1, [(3, 1), (8, 2)]), (-1, [(3, 1), (9, 2)])])]

/-- `l % k` for two lines. -/
def lineAxisPolys : List (Nat × List IntMono) :=
    [(3, [(-1, [(0, 1), (8, 2)]), (-1, [(0, 1), (10, 2)]), (1, [(0, 1), (11, 2)]), (-2, [(1, 1), (10, 1), (11, 1)]), (2, [(2, 1), (6, 1), (8,
    1)]), (2, [(2, 1), (9, 1), (11, 1)]), (2, [(3, 1), (8, 1), (11, 1)]), (2, [(4, 1), (6, 1), (10, 1)]), (-2, [(4, 1), (7, 1), (11, 1)]), (2,
    [(5, 1), (6, 1), (11, 1)]), (2, [(5, 1), (7, 1), (10, 1)]), (-2, [(5, 1), (8, 1), (9, 1)])]), (5, [(-2, [(0, 1), (10, 1), (11, 1)]), (-1,
    [(1, 1), (8, 2)]), (1, [(1, 1), (10, 2)]), (-1, [(1, 1), (11, 2)]), (2, [(2, 1), (7, 1), (8, 1)]), (-2, [(2, 1), (9, 1), (10, 1)]), (-2,
    [(3, 1), (8, 1), (10, 1)]), (2, [(4, 1), (6, 1), (11, 1)]), (2, [(4, 1), (7, 1), (10, 1)]), (2, [(4, 1), (8, 1), (9, 1)]), (-2, [(5, 1), (6,
    1), (10, 1)]), (2, [(5, 1), (7, 1), (11, 1)])]), (6, [(1, [(2, 1), (8, 2)]), (-1, [(2, 1), (10, 2)]), (-1, [(2, 1), (11, 2)]), (2, [(4, 1),
    (8, 1), (10, 1)]), (2, [(5, 1), (8, 1), (11, 1)])]), (9, [(2, [(0, 1), (8, 1), (11, 1)]), (-2, [(1, 1), (8, 1), (10, 1)]), (-2, [(2, 1), (6,
    1), (11, 1)]), (2, [(2, 1), (7, 1), (10, 1)]), (2, [(2, 1), (8, 1), (9, 1)]), (1, [(3, 1), (8, 2)]), (-1, [(3, 1), (10, 2)]), (-1, [(3, 1),
    (11, 2)]), (-2, [(4, 1), (7, 1), (8, 1)]), (2, [(4, 1), (9, 1), (10, 1)]), (2, [(5, 1), (6, 1), (8, 1)]), (2, [(5, 1), (9, 1), (11, 1)])]),
    (10, [(2, [(2, 1), (8, 1), (10, 1)]), (-1, [(4, 1), (8, 2)]), (1, [(4, 1), (10, 2)]), (-1, [(4, 1), (11, 2)]), (2, [(5, 1), (10, 1), (11,
    1)])]), (12, [(2, [(2, 1), (8, 1), (11, 1)]), (2, [(4, 1), (10, 1), (11, 1)]), (-1, [(5, 1), (8, 2)]), (-1, [(5, 1), (10, 2)]), (1, [(5, 1),
    (11, 2)])])]

/-- `p % q` for two points. -/
def pointCentrePolys : List (Nat × List IntMono) :=
    [(7, [(1, [(2, 1)]), (-2, [(5, 1)])]), (11, [(-1, [(1, 1)]), (2, [(4, 1)])]), (13, [(1, [(0, 1)]), (-2, [(3, 1)])]), (14, [(1, [])])]

/-- `a % q` for a plane and a point. -/
def planeCentrePolys : List (Nat × List IntMono) :=
    [(1, [(-1, [(0, 1)]), (-2, [(1, 1), (4, 1)]), (-2, [(2, 1), (5, 1)]), (-2, [(3, 1), (6, 1)])]), (2, [(1, [(1, 1)])]), (4, [(1, [(2, 1)])]),
    (8, [(1, [(3, 1)])])]

/-- `l % q` for a line and a point. -/
def lineCentrePolys : List (Nat × List IntMono) :=
    [(3, [(-1, [(0, 1)]), (2, [(2, 1), (7, 1)]), (2, [(4, 1), (8, 1)])]), (5, [(-1, [(1, 1)]), (-2, [(2, 1), (6, 1)]), (2, [(5, 1), (8, 1)])]),
    (6, [(1, [(2, 1)])]), (9, [(-1, [(3, 1)]), (-2, [(4, 1), (6, 1)]), (-2, [(5, 1), (7, 1)])]), (10, [(1, [(4, 1)])]), (12, [(1, [(5, 1)])])]

theorem lineMotor_polys : sandwichLam.polys pgaMetric [lineEnt (K := ℚ) [0, 0, 0, 0, 0, 0], motorArg (K := ℚ) [0, 0, 0, 0, 0, 0, 0, 0]] = some lineMotorPolys := by
  exact flatPolys_polys (by decide +kernel)

theorem planeMirror_polys : sandwichLam.polys pgaMetric [planeArg (K := ℚ) [0, 0, 0, 0], planeArg (K := ℚ) [0, 0, 0, 0]] = some planeMirrorPolys := by
  exact flatPolys_polys (by decide +kernel)

theorem lineMirror_polys : sandwichLam.polys pgaMetric [lineEnt (K := ℚ) [0, 0, 0, 0, 0, 0], planeArg (K := ℚ) [0, 0, 0, 0]] = some lineMirrorPolys := by
  exact flatPolys_polys (by decide +kernel)

theorem pointAxis_polys : sandwichLam.polys pgaMetric [pointArg (K := ℚ) [0, 0, 0], lineEnt (K := ℚ) [0, 0, 0, 0, 0, 0]] = some pointAxisPolys := by
  exact flatPolys_polys (by decide +kernel)

theorem planeAxis_polys : sandwichLam.polys pgaMetric [planeArg (K := ℚ) [0, 0, 0, 0], lineEnt (K := ℚ) [0, 0, 0, 0, 0, 0]] = some planeAxisPolys := by
  exact flatPolys_polys (by decide +kernel)

theorem lineAxis_polys : sandwichLam.polys pgaMetric [lineEnt (K := ℚ) [0, 0, 0, 0, 0, 0], lineEnt (K := ℚ) [0, 0, 0, 0, 0, 0]] = some lineAxisPolys := by
  exact flatPolys_polys (by decide +kernel)

theorem pointCentre_polys : sandwichLam.polys pgaMetric [pointArg (K := ℚ) [0, 0, 0], pointArg (K := ℚ) [0, 0, 0]] = some pointCentrePolys := by
  exact flatPolys_polys (by decide +kernel)

theorem planeCentre_polys : sandwichLam.polys pgaMetric [planeArg (K := ℚ) [0, 0, 0, 0], pointArg (K := ℚ) [0, 0, 0]] = some planeCentrePolys := by
  exact flatPolys_polys (by decide +kernel)

theorem lineCentre_polys : sandwichLam.polys pgaMetric [lineEnt (K := ℚ) [0, 0, 0, 0, 0, 0], pointArg (K := ℚ) [0, 0, 0]] = some lineCentrePolys := by
  exact flatPolys_polys (by decide +kernel)

end Gal
