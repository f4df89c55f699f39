import Verif.Props.SandwichPolys

/-!
# The polynomials of the constructions of metric geometry
-/

namespace Gal

open Out

/-- `[](auto a, auto b) { return a | b; }`. -/
def innerLam : Lam := .sip (.arg 0) (.arg 1)

/-- `[](auto a, auto b) { return (a | b) * b; }`. -/
def projectDual : Lam := .gp (.sip (.arg 0) (.arg 1)) (.arg 1)

/-- `[](auto a, auto b, auto c, auto d) { return (a & b) & (c & d); }`. -/
def joinPairs : Lam := .join (.join (.arg 0) (.arg 1)) (.join (.arg 2) (.arg 3))

/-- `[](auto a, auto b, auto c) { return (a ^ b) & c; }`. -/
def meetJoin : Lam := .join (.ep (.arg 0) (.arg 1)) (.arg 2)

/-- `[](auto a, auto b) { return !(a ^ b); }`. -/
def crossLam : Lam := .dual (.ep (.arg 0) (.arg 1))

/-- `(p | a) * a` for a point and a plane. -/
def footPlanePolys : List (Nat × List IntMono) :=
    [(7, [(1, [(3, 1), (6, 1)]), (1, [(0, 1), (4, 1), (6, 1)]), (1, [(1, 1), (5, 1), (6, 1)]), (-1, [(2, 1), (4, 2)]), (-1, [(2, 1), (5,
    2)])]), (11, [(-1, [(3, 1), (5, 1)]), (-1, [(0, 1), (4, 1), (5, 1)]), (1, [(1, 1), (4, 2)]), (1, [(1, 1), (6, 2)]), (-1, [(2, 1), (5,
    1), (6, 1)])]), (13, [(1, [(3, 1), (4, 1)]), (-1, [(0, 1), (5, 2)]), (-1, [(0, 1), (6, 2)]), (1, [(1, 1), (4, 1), (5, 1)]), (1, [(2, 1),
    (4, 1), (6, 1)])]), (14, [(1, [(4, 2)]), (1, [(5, 2)]), (1, [(6, 2)])])]

/-- `p | a` for a point and a plane. -/
def perpLinePolys : List (Nat × List IntMono) :=
    [(3, [(1, [(1, 1), (6, 1)]), (-1, [(2, 1), (5, 1)])]), (5, [(-1, [(0, 1), (6, 1)]), (1, [(2, 1), (4, 1)])]), (6, [(1, [(6, 1)])]), (9,
    [(1, [(0, 1), (5, 1)]), (-1, [(1, 1), (4, 1)])]), (10, [(-1, [(5, 1)])]), (12, [(1, [(4, 1)])])]

/-- `a & p` for a plane and a point. -/
def distancePolys : List (Nat × List IntMono) :=
    [(0, [(1, [(0, 1)]), (1, [(1, 1), (4, 1)]), (1, [(2, 1), (5, 1)]), (1, [(3, 1), (6, 1)])])]

/-- `a | b` for two planes. -/
def planeDotPolys : List (Nat × List IntMono) :=
    [(0, [(1, [(1, 1), (5, 1)]), (1, [(2, 1), (6, 1)]), (1, [(3, 1), (7, 1)])])]

/-- `(p | l) * l` for a point and a line. -/
def footLinePolys : List (Nat × List IntMono) :=
    [(1, [(1, [(3, 1), (6, 1)]), (-1, [(4, 1), (7, 1)]), (1, [(5, 1), (8, 1)])]), (7, [(-1, [(3, 1), (7, 1)]), (-1, [(4, 1), (6, 1)]), (1,
    [(0, 1), (3, 1), (5, 1)]), (1, [(1, 1), (4, 1), (5, 1)]), (1, [(2, 1), (5, 2)])]), (11, [(1, [(3, 1), (8, 1)]), (-1, [(5, 1), (6, 1)]),
    (-1, [(0, 1), (3, 1), (4, 1)]), (-1, [(1, 1), (4, 2)]), (-1, [(2, 1), (4, 1), (5, 1)])]), (13, [(1, [(4, 1), (8, 1)]), (1, [(5, 1), (7,
    1)]), (1, [(0, 1), (3, 2)]), (1, [(1, 1), (3, 1), (4, 1)]), (1, [(2, 1), (3, 1), (5, 1)])]), (14, [(-1, [(3, 2)]), (-1, [(4, 2)]), (-1,
    [(5, 2)])])]

/-- `p | l` for a point and a line. -/
def perpPlanePolys : List (Nat × List IntMono) :=
    [(1, [(-1, [(0, 1), (3, 1)]), (-1, [(1, 1), (4, 1)]), (-1, [(2, 1), (5, 1)])]), (2, [(1, [(3, 1)])]), (4, [(1, [(4, 1)])]), (8, [(1,
    [(5, 1)])])]

/-- `(a | p) * p` for a plane and a point. -/
def parallelPolys : List (Nat × List IntMono) :=
    [(1, [(1, [(1, 1), (4, 1)]), (1, [(2, 1), (5, 1)]), (1, [(3, 1), (6, 1)])]), (2, [(-1, [(1, 1)])]), (4, [(-1, [(2, 1)])]), (8, [(-1,
    [(3, 1)])])]

/-- `p * q` for two points. -/
def pointsPolys : List (Nat × List IntMono) :=
    [(0, [(-1, [])]), (3, [(1, [(0, 1)]), (-1, [(3, 1)])]), (5, [(1, [(1, 1)]), (-1, [(4, 1)])]), (9, [(1, [(2, 1)]), (-1, [(5, 1)])])]

/-- `p % r` for a point and the product of two points. -/
def shiftPolys : List (Nat × List IntMono) :=
    [(7, [(2, [(3, 1), (6, 1)]), (-1, [(2, 1), (3, 2)])]), (11, [(-2, [(3, 1), (5, 1)]), (1, [(1, 1), (3, 2)])]), (13, [(2, [(3, 1), (4,
    1)]), (-1, [(0, 1), (3, 2)])]), (14, [(1, [(3, 2)])])]

/-- `a * b` for two planes. -/
def planesPolys : List (Nat × List IntMono) :=
    [(0, [(1, [(1, 1), (5, 1)]), (1, [(2, 1), (6, 1)]), (1, [(3, 1), (7, 1)])]), (3, [(1, [(0, 1), (5, 1)]), (-1, [(1, 1), (4, 1)])]), (5,
    [(1, [(0, 1), (6, 1)]), (-1, [(2, 1), (4, 1)])]), (6, [(1, [(1, 1), (6, 1)]), (-1, [(2, 1), (5, 1)])]), (9, [(1, [(0, 1), (7, 1)]), (-1,
    [(3, 1), (4, 1)])]), (10, [(1, [(1, 1), (7, 1)]), (-1, [(3, 1), (5, 1)])]), (12, [(1, [(2, 1), (7, 1)]), (-1, [(3, 1), (6, 1)])])]

/-- `p % r` for a point and the product of two planes. -/
def turnPolys : List (Nat × List IntMono) :=
    [(7, [(2, [(3, 1), (7, 1)]), (-2, [(4, 1), (8, 1)]), (-2, [(5, 1), (9, 1)]), (2, [(0, 1), (3, 1), (8, 1)]), (-2, [(0, 1), (6, 1), (9,
    1)]), (2, [(1, 1), (3, 1), (9, 1)]), (2, [(1, 1), (6, 1), (8, 1)]), (-1, [(2, 1), (3, 2)]), (-1, [(2, 1), (6, 2)]), (1, [(2, 1), (8,
    2)]), (1, [(2, 1), (9, 2)])]), (11, [(-2, [(3, 1), (5, 1)]), (2, [(4, 1), (6, 1)]), (-2, [(7, 1), (9, 1)]), (-2, [(0, 1), (3, 1), (6,
    1)]), (-2, [(0, 1), (8, 1), (9, 1)]), (1, [(1, 1), (3, 2)]), (-1, [(1, 1), (6, 2)]), (1, [(1, 1), (8, 2)]), (-1, [(1, 1), (9, 2)]), (2,
    [(2, 1), (3, 1), (9, 1)]), (-2, [(2, 1), (6, 1), (8, 1)])]), (13, [(2, [(3, 1), (4, 1)]), (2, [(5, 1), (6, 1)]), (2, [(7, 1), (8, 1)]),
    (-1, [(0, 1), (3, 2)]), (1, [(0, 1), (6, 2)]), (1, [(0, 1), (8, 2)]), (-1, [(0, 1), (9, 2)]), (-2, [(1, 1), (3, 1), (6, 1)]), (2, [(1,
    1), (8, 1), (9, 1)]), (-2, [(2, 1), (3, 1), (8, 1)]), (-2, [(2, 1), (6, 1), (9, 1)])]), (14, [(1, [(3, 2)]), (1, [(6, 2)]), (1, [(8,
    2)]), (1, [(9, 2)])])]

/-- `(p & q) & (r & s)` for four points. -/
def tetraPolys : List (Nat × List IntMono) :=
    [(0, [(-1, [(0, 1), (4, 1), (8, 1)]), (1, [(0, 1), (4, 1), (11, 1)]), (1, [(0, 1), (5, 1), (7, 1)]), (-1, [(0, 1), (5, 1), (10, 1)]),
    (-1, [(0, 1), (7, 1), (11, 1)]), (1, [(0, 1), (8, 1), (10, 1)]), (1, [(1, 1), (3, 1), (8, 1)]), (-1, [(1, 1), (3, 1), (11, 1)]), (-1,
    [(1, 1), (5, 1), (6, 1)]), (1, [(1, 1), (5, 1), (9, 1)]), (1, [(1, 1), (6, 1), (11, 1)]), (-1, [(1, 1), (8, 1), (9, 1)]), (-1, [(2, 1),
    (3, 1), (7, 1)]), (1, [(2, 1), (3, 1), (10, 1)]), (1, [(2, 1), (4, 1), (6, 1)]), (-1, [(2, 1), (4, 1), (9, 1)]), (-1, [(2, 1), (6, 1),
    (10, 1)]), (1, [(2, 1), (7, 1), (9, 1)]), (1, [(3, 1), (7, 1), (11, 1)]), (-1, [(3, 1), (8, 1), (10, 1)]), (-1, [(4, 1), (6, 1), (11,
    1)]), (1, [(4, 1), (8, 1), (9, 1)]), (1, [(5, 1), (6, 1), (10, 1)]), (-1, [(5, 1), (7, 1), (9, 1)])])]

/-- `(a ^ b) & p` for two planes and a point. -/
def meetPointPolys : List (Nat × List IntMono) :=
    [(1, [(1, [(0, 1), (5, 1), (8, 1)]), (1, [(0, 1), (6, 1), (9, 1)]), (1, [(0, 1), (7, 1), (10, 1)]), (-1, [(1, 1), (4, 1), (8, 1)]), (-1,
    [(2, 1), (4, 1), (9, 1)]), (-1, [(3, 1), (4, 1), (10, 1)])]), (2, [(-1, [(0, 1), (5, 1)]), (1, [(1, 1), (4, 1)]), (1, [(1, 1), (6, 1),
    (9, 1)]), (1, [(1, 1), (7, 1), (10, 1)]), (-1, [(2, 1), (5, 1), (9, 1)]), (-1, [(3, 1), (5, 1), (10, 1)])]), (4, [(-1, [(0, 1), (6,
    1)]), (1, [(2, 1), (4, 1)]), (-1, [(1, 1), (6, 1), (8, 1)]), (1, [(2, 1), (5, 1), (8, 1)]), (1, [(2, 1), (7, 1), (10, 1)]), (-1, [(3,
    1), (6, 1), (10, 1)])]), (8, [(-1, [(0, 1), (7, 1)]), (1, [(3, 1), (4, 1)]), (-1, [(1, 1), (7, 1), (8, 1)]), (-1, [(2, 1), (7, 1), (9,
    1)]), (1, [(3, 1), (5, 1), (8, 1)]), (1, [(3, 1), (6, 1), (9, 1)])])]

/-- `!(a ^ b)` for two vectors. -/
def crossPolys : List (Nat × List IntMono) :=
    [(1, [(1, [(1, 1), (5, 1)]), (-1, [(2, 1), (4, 1)])]), (2, [(-1, [(0, 1), (5, 1)]), (1, [(2, 1), (3, 1)])]), (4, [(1, [(0, 1), (4, 1)]),
    (-1, [(1, 1), (3, 1)])])]

/-- `a | b` for two vectors. -/
def dotVectorPolys : List (Nat × List IntMono) :=
    [(0, [(1, [(0, 1), (3, 1)]), (1, [(1, 1), (4, 1)]), (1, [(2, 1), (5, 1)])])]

/-- `a ^ b ^ c` for three vectors. -/
def triplePolys : List (Nat × List IntMono) :=
    [(7, [(1, [(0, 1), (4, 1), (8, 1)]), (-1, [(0, 1), (5, 1), (7, 1)]), (-1, [(1, 1), (3, 1), (8, 1)]), (1, [(1, 1), (5, 1), (6, 1)]), (1,
    [(2, 1), (3, 1), (7, 1)]), (-1, [(2, 1), (4, 1), (6, 1)])])]

/-- `a * b` for two vectors. -/
def vectorsPolys : List (Nat × List IntMono) :=
    [(0, [(1, [(0, 1), (3, 1)]), (1, [(1, 1), (4, 1)]), (1, [(2, 1), (5, 1)])]), (3, [(1, [(0, 1), (4, 1)]), (-1, [(1, 1), (3, 1)])]), (5,
    [(1, [(0, 1), (5, 1)]), (-1, [(2, 1), (3, 1)])]), (6, [(1, [(1, 1), (5, 1)]), (-1, [(2, 1), (4, 1)])])]

/-- `v % r` for a vector and the product of two vectors. -/
def turnVectorPolys : List (Nat × List IntMono) :=
    [(1, [(1, [(0, 1), (3, 2)]), (-1, [(0, 1), (4, 2)]), (-1, [(0, 1), (5, 2)]), (1, [(0, 1), (6, 2)]), (2, [(1, 1), (3, 1), (4, 1)]), (-2,
    [(1, 1), (5, 1), (6, 1)]), (2, [(2, 1), (3, 1), (5, 1)]), (2, [(2, 1), (4, 1), (6, 1)])]), (2, [(-2, [(0, 1), (3, 1), (4, 1)]), (-2,
    [(0, 1), (5, 1), (6, 1)]), (1, [(1, 1), (3, 2)]), (-1, [(1, 1), (4, 2)]), (1, [(1, 1), (5, 2)]), (-1, [(1, 1), (6, 2)]), (2, [(2, 1),
    (3, 1), (6, 1)]), (-2, [(2, 1), (4, 1), (5, 1)])]), (4, [(-2, [(0, 1), (3, 1), (5, 1)]), (2, [(0, 1), (4, 1), (6, 1)]), (-2, [(1, 1),
    (3, 1), (6, 1)]), (-2, [(1, 1), (4, 1), (5, 1)]), (1, [(2, 1), (3, 2)]), (1, [(2, 1), (4, 2)]), (-1, [(2, 1), (5, 2)]), (-1, [(2, 1),
    (6, 2)])])]

/-- `v % a` for two vectors. -/
def reflectVectorPolys : List (Nat × List IntMono) :=
    [(1, [(1, [(0, 1), (3, 2)]), (-1, [(0, 1), (4, 2)]), (-1, [(0, 1), (5, 2)]), (2, [(1, 1), (3, 1), (4, 1)]), (2, [(2, 1), (3, 1), (5,
    1)])]), (2, [(2, [(0, 1), (3, 1), (4, 1)]), (-1, [(1, 1), (3, 2)]), (1, [(1, 1), (4, 2)]), (-1, [(1, 1), (5, 2)]), (2, [(2, 1), (4, 1),
    (5, 1)])]), (4, [(2, [(0, 1), (3, 1), (5, 1)]), (2, [(1, 1), (4, 1), (5, 1)]), (-1, [(2, 1), (3, 2)]), (-1, [(2, 1), (4, 2)]), (1, [(2,
    1), (5, 2)])])]

theorem footPlane_polys : projectDual.polys pgaMetric [pointArg (K := ℚ) [0, 0, 0], planeArg [0, 0, 0, 0]] = some footPlanePolys := by
  exact flatPolys_polys (by decide +kernel)

theorem perpLine_polys : innerLam.polys pgaMetric [pointArg (K := ℚ) [0, 0, 0], planeArg [0, 0, 0, 0]] = some perpLinePolys := by
  exact flatPolys_polys (by decide +kernel)

theorem distance_polys : joinLam.polys pgaMetric [planeArg (K := ℚ) [0, 0, 0, 0], pointArg [0, 0, 0]] = some distancePolys := by
  exact flatPolys_polys (by decide +kernel)

theorem planeDot_polys : innerLam.polys pgaMetric [planeArg (K := ℚ) [0, 0, 0, 0], planeArg [0, 0, 0, 0]] = some planeDotPolys := by
  exact flatPolys_polys (by decide +kernel)

theorem footLine_polys : projectDual.polys pgaMetric [pointArg (K := ℚ) [0, 0, 0], lineArg [0, 0, 0, 0, 0, 0]] = some footLinePolys := by
  exact flatPolys_polys (by decide +kernel)

theorem perpPlane_polys : innerLam.polys pgaMetric [pointArg (K := ℚ) [0, 0, 0], lineArg [0, 0, 0, 0, 0, 0]] = some perpPlanePolys := by
  exact flatPolys_polys (by decide +kernel)

theorem parallel_polys : projectDual.polys pgaMetric [planeArg (K := ℚ) [0, 0, 0, 0], pointArg [0, 0, 0]] = some parallelPolys := by
  exact flatPolys_polys (by decide +kernel)

theorem points_polys : productLam.polys pgaMetric [pointArg (K := ℚ) [0, 0, 0], pointArg [0, 0, 0]] = some pointsPolys := by
  exact flatPolys_polys (by decide +kernel)

theorem shift_polys : sandwichLam.polys pgaMetric [pointArg (K := ℚ) [0, 0, 0], (⟨[0, 3, 5, 9], [0, 0, 0, 0]⟩ : Entity ℚ).toArg] = some shiftPolys := by
  exact flatPolys_polys (by decide +kernel)

theorem planes_polys : productLam.polys pgaMetric [planeArg (K := ℚ) [0, 0, 0, 0], planeArg [0, 0, 0, 0]] = some planesPolys := by
  exact flatPolys_polys (by decide +kernel)

theorem turn_polys : sandwichLam.polys pgaMetric [pointArg (K := ℚ) [0, 0, 0], (⟨[0, 3, 5, 6, 9, 10, 12], [0, 0, 0, 0, 0, 0, 0]⟩ : Entity ℚ).toArg] = some turnPolys := by
  exact flatPolys_polys (by decide +kernel)

theorem tetra_polys : joinPairs.polys pgaMetric [pointArg (K := ℚ) [0, 0, 0], pointArg [0, 0, 0], pointArg [0, 0, 0], pointArg [0, 0, 0]] = some tetraPolys := by
  exact flatPolys_polys (by decide +kernel)

theorem meetPoint_polys : meetJoin.polys pgaMetric [planeArg (K := ℚ) [0, 0, 0, 0], planeArg [0, 0, 0, 0], pointArg [0, 0, 0]] = some meetPointPolys := by
  exact flatPolys_polys (by decide +kernel)

theorem cross_polys : crossLam.polys vgaMetric [vectorArg (K := ℚ) [0, 0, 0], vectorArg [0, 0, 0]] = some crossPolys := by
  exact flatPolys_polys (by decide +kernel)

theorem dotVector_polys : innerLam.polys vgaMetric [vectorArg (K := ℚ) [0, 0, 0], vectorArg [0, 0, 0]] = some dotVectorPolys := by
  exact flatPolys_polys (by decide +kernel)

theorem triple_polys : meetLam3.polys vgaMetric [vectorArg (K := ℚ) [0, 0, 0], vectorArg [0, 0, 0], vectorArg [0, 0, 0]] = some triplePolys := by
  exact flatPolys_polys (by decide +kernel)

theorem vectors_polys : productLam.polys vgaMetric [vectorArg (K := ℚ) [0, 0, 0], vectorArg [0, 0, 0]] = some vectorsPolys := by
  exact flatPolys_polys (by decide +kernel)

theorem turnVector_polys : sandwichLam.polys vgaMetric [vectorArg (K := ℚ) [0, 0, 0], (⟨[0, 3, 5, 6], [0, 0, 0, 0]⟩ : Entity ℚ).toArg] = some turnVectorPolys := by
  exact flatPolys_polys (by decide +kernel)

theorem reflectVector_polys : sandwichLam.polys vgaMetric [vectorArg (K := ℚ) [0, 0, 0], vectorArg [0, 0, 0]] = some reflectVectorPolys := by
  exact flatPolys_polys (by decide +kernel)

end Gal
