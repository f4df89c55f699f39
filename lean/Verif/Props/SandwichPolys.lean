import Verif.Props.FlatRun

/-!
# The polynomials of products of the named entities
-/

namespace Gal

open Out

/-- The argument `vga::vector{x, y, z}` (vga.hpp:75-143). -/
def vectorArg {K : Type} (d : List K) : Arg K := ⟨vgaVectorIe, d⟩

/-- The argument `vga::rotor` with the given stored numbers (vga.hpp:227-300). -/
def rotorArg {K : Type} (d : List K) : Arg K := ⟨vgaRotorIe, d⟩

/-- The argument `vga::point{x, y, z}` in the projective algebra (vga.hpp:151-225, dfa.hpp:82-97). -/
def pointArg {K : Type} (d : List K) : Arg K := ⟨vgaPointIe, d⟩

/-- The argument `pga::plane` with the given stored numbers (pga.hpp:332-382). -/
def planeArg {K : Type} (d : List K) : Arg K := ⟨pgaPlaneIe, d⟩

/-- `[](auto a, auto b) { return a % b; }`. -/
def sandwichLam : Lam := .sandwich (.arg 0) (.arg 1)

/-- `[](auto a, auto b) { return a * b; }`. -/
def productLam : Lam := .gp (.arg 0) (.arg 1)

/-- `[](auto a, auto b) { return a & b; }`. -/
def joinLam : Lam := .join (.arg 0) (.arg 1)

/-- `[](auto a, auto b, auto c) { return a & b & c; }`. -/
def joinLam3 : Lam := .join (.join (.arg 0) (.arg 1)) (.arg 2)

/-- `[](auto a, auto b, auto c) { return a ^ b ^ c; }`. -/
def meetLam3 : Lam := .ep (.ep (.arg 0) (.arg 1)) (.arg 2)

/-- `[](auto a, auto b) { return a ^ b; }`. -/
def meetLam : Lam := .ep (.arg 0) (.arg 1)

/-- `v % r` for a vector and a rotor. -/
def rotatePolys : List (Nat × List IntMono) :=
    [(1, [(1, [(0, 1), (3, 2)]), (-2, [(1, 1), (3, 1), (4, 1), (7, 1)]), (2, [(2, 1), (3, 1), (4, 1), (6, 1)]), (1, [(0, 1), (4, 2), (5, 2)]),
    (-1, [(0, 1), (4, 2), (6, 2)]), (-1, [(0, 1), (4, 2), (7, 2)]), (2, [(1, 1), (4, 2), (5, 1), (6, 1)]), (2, [(2, 1), (4, 2), (5, 1), (7,
    1)])]), (2, [(1, [(1, 1), (3, 2)]), (2, [(0, 1), (3, 1), (4, 1), (7, 1)]), (-2, [(2, 1), (3, 1), (4, 1), (5, 1)]), (2, [(0, 1), (4, 2), (5,
    1), (6, 1)]), (-1, [(1, 1), (4, 2), (5, 2)]), (1, [(1, 1), (4, 2), (6, 2)]), (-1, [(1, 1), (4, 2), (7, 2)]), (2, [(2, 1), (4, 2), (6, 1),
    (7, 1)])]), (4, [(1, [(2, 1), (3, 2)]), (-2, [(0, 1), (3, 1), (4, 1), (6, 1)]), (2, [(1, 1), (3, 1), (4, 1), (5, 1)]), (2, [(0, 1), (4, 2),
    (5, 1), (7, 1)]), (2, [(1, 1), (4, 2), (6, 1), (7, 1)]), (-1, [(2, 1), (4, 2), (5, 2)]), (-1, [(2, 1), (4, 2), (6, 2)]), (1, [(2, 1), (4,
    2), (7, 2)])])]

/-- `p % m` for a point and a motor. -/
def movePolys : List (Nat × List IntMono) :=
    [(7, [(2, [(3, 1), (7, 1)]), (-2, [(4, 1), (8, 1)]), (-2, [(5, 1), (9, 1)]), (2, [(6, 1), (10, 1)]), (2, [(0, 1), (3, 1), (8, 1)]), (-2,
    [(0, 1), (6, 1), (9, 1)]), (2, [(1, 1), (3, 1), (9, 1)]), (2, [(1, 1), (6, 1), (8, 1)]), (-1, [(2, 1), (3, 2)]), (-1, [(2, 1), (6, 2)]),
    (1, [(2, 1), (8, 2)]), (1, [(2, 1), (9, 2)])]), (11, [(-2, [(3, 1), (5, 1)]), (2, [(4, 1), (6, 1)]), (-2, [(7, 1), (9, 1)]), (2, [(8, 1),
    (10, 1)]), (-2, [(0, 1), (3, 1), (6, 1)]), (-2, [(0, 1), (8, 1), (9, 1)]), (1, [(1, 1), (3, 2)]), (-1, [(1, 1), (6, 2)]), (1, [(1, 1), (8,
    2)]), (-1, [(1, 1), (9, 2)]), (2, [(2, 1), (3, 1), (9, 1)]), (-2, [(2, 1), (6, 1), (8, 1)])]), (13, [(2, [(3, 1), (4, 1)]), (2, [(5, 1),
    (6, 1)]), (2, [(7, 1), (8, 1)]), (2, [(9, 1), (10, 1)]), (-1, [(0, 1), (3, 2)]), (1, [(0, 1), (6, 2)]), (1, [(0, 1), (8, 2)]), (-1, [(0,
    1), (9, 2)]), (-2, [(1, 1), (3, 1), (6, 1)]), (2, [(1, 1), (8, 1), (9, 1)]), (-2, [(2, 1), (3, 1), (8, 1)]), (-2, [(2, 1), (6, 1), (9,
    1)])]), (14, [(1, [(3, 2)]), (1, [(6, 2)]), (1, [(8, 2)]), (1, [(9, 2)])])]

/-- `p % q` for a point and a plane. -/
def mirrorPolys : List (Nat × List IntMono) :=
    [(7, [(2, [(3, 1), (6, 1)]), (2, [(0, 1), (4, 1), (6, 1)]), (2, [(1, 1), (5, 1), (6, 1)]), (-1, [(2, 1), (4, 2)]), (-1, [(2, 1), (5, 2)]),
    (1, [(2, 1), (6, 2)])]), (11, [(-2, [(3, 1), (5, 1)]), (-2, [(0, 1), (4, 1), (5, 1)]), (1, [(1, 1), (4, 2)]), (-1, [(1, 1), (5, 2)]), (1,
    [(1, 1), (6, 2)]), (-2, [(2, 1), (5, 1), (6, 1)])]), (13, [(2, [(3, 1), (4, 1)]), (1, [(0, 1), (4, 2)]), (-1, [(0, 1), (5, 2)]), (-1, [(0,
    1), (6, 2)]), (2, [(1, 1), (4, 1), (5, 1)]), (2, [(2, 1), (4, 1), (6, 1)])]), (14, [(1, [(4, 2)]), (1, [(5, 2)]), (1, [(6, 2)])])]

/-- `q % m` for a plane and a motor. -/
def movePlanePolys : List (Nat × List IntMono) :=
    [(1, [(1, [(0, 1), (4, 2)]), (1, [(0, 1), (7, 2)]), (1, [(0, 1), (9, 2)]), (1, [(0, 1), (10, 2)]), (2, [(1, 1), (4, 1), (5, 1)]), (-2, [(1,
    1), (6, 1), (7, 1)]), (-2, [(1, 1), (8, 1), (9, 1)]), (2, [(1, 1), (10, 1), (11, 1)]), (2, [(2, 1), (4, 1), (6, 1)]), (2, [(2, 1), (5, 1),
    (7, 1)]), (-2, [(2, 1), (8, 1), (10, 1)]), (-2, [(2, 1), (9, 1), (11, 1)]), (2, [(3, 1), (4, 1), (8, 1)]), (2, [(3, 1), (5, 1), (9, 1)]),
    (2, [(3, 1), (6, 1), (10, 1)]), (2, [(3, 1), (7, 1), (11, 1)])]), (2, [(1, [(1, 1), (4, 2)]), (-1, [(1, 1), (7, 2)]), (-1, [(1, 1), (9,
    2)]), (1, [(1, 1), (10, 2)]), (2, [(2, 1), (4, 1), (7, 1)]), (-2, [(2, 1), (9, 1), (10, 1)]), (2, [(3, 1), (4, 1), (9, 1)]), (2, [(3, 1),
    (7, 1), (10, 1)])]), (4, [(-2, [(1, 1), (4, 1), (7, 1)]), (-2, [(1, 1), (9, 1), (10, 1)]), (1, [(2, 1), (4, 2)]), (-1, [(2, 1), (7, 2)]),
    (1, [(2, 1), (9, 2)]), (-1, [(2, 1), (10, 2)]), (2, [(3, 1), (4, 1), (10, 1)]), (-2, [(3, 1), (7, 1), (9, 1)])]), (8, [(-2, [(1, 1), (4,
    1), (9, 1)]), (2, [(1, 1), (7, 1), (10, 1)]), (-2, [(2, 1), (4, 1), (10, 1)]), (-2, [(2, 1), (7, 1), (9, 1)]), (1, [(3, 1), (4, 2)]), (1,
    [(3, 1), (7, 2)]), (-1, [(3, 1), (9, 2)]), (-1, [(3, 1), (10, 2)])])]

/-- `m * n` for two motors. -/
def motorPolys : List (Nat × List IntMono) :=
    [(0, [(1, [(0, 1), (8, 1)]), (-1, [(3, 1), (11, 1)]), (-1, [(5, 1), (13, 1)]), (-1, [(6, 1), (14, 1)])]), (3, [(1, [(0, 1), (9, 1)]), (1,
    [(1, 1), (8, 1)]), (-1, [(2, 1), (11, 1)]), (1, [(3, 1), (10, 1)]), (-1, [(4, 1), (13, 1)]), (1, [(5, 1), (12, 1)]), (-1, [(6, 1), (15,
    1)]), (-1, [(7, 1), (14, 1)])]), (5, [(1, [(0, 1), (10, 1)]), (1, [(1, 1), (11, 1)]), (1, [(2, 1), (8, 1)]), (-1, [(3, 1), (9, 1)]), (-1,
    [(4, 1), (14, 1)]), (1, [(5, 1), (15, 1)]), (1, [(6, 1), (12, 1)]), (1, [(7, 1), (13, 1)])]), (6, [(1, [(0, 1), (11, 1)]), (1, [(3, 1), (8,
    1)]), (-1, [(5, 1), (14, 1)]), (1, [(6, 1), (13, 1)])]), (9, [(1, [(0, 1), (12, 1)]), (1, [(1, 1), (13, 1)]), (1, [(2, 1), (14, 1)]), (-1,
    [(3, 1), (15, 1)]), (1, [(4, 1), (8, 1)]), (-1, [(5, 1), (9, 1)]), (-1, [(6, 1), (10, 1)]), (-1, [(7, 1), (11, 1)])]), (10, [(1, [(0, 1),
    (13, 1)]), (1, [(3, 1), (14, 1)]), (1, [(5, 1), (8, 1)]), (-1, [(6, 1), (11, 1)])]), (12, [(1, [(0, 1), (14, 1)]), (-1, [(3, 1), (13, 1)]),
    (1, [(5, 1), (11, 1)]), (1, [(6, 1), (8, 1)])]), (15, [(1, [(0, 1), (15, 1)]), (1, [(1, 1), (14, 1)]), (-1, [(2, 1), (13, 1)]), (1, [(3,
    1), (12, 1)]), (1, [(4, 1), (11, 1)]), (-1, [(5, 1), (10, 1)]), (1, [(6, 1), (9, 1)]), (1, [(7, 1), (8, 1)])])]

/-- `p & q` for two points. -/
def joinPolys : List (Nat × List IntMono) :=
    [(3, [(1, [(1, 1), (5, 1)]), (-1, [(2, 1), (4, 1)])]), (5, [(-1, [(0, 1), (5, 1)]), (1, [(2, 1), (3, 1)])]), (6, [(-1, [(2, 1)]), (1, [(5,
    1)])]), (9, [(1, [(0, 1), (4, 1)]), (-1, [(1, 1), (3, 1)])]), (10, [(1, [(1, 1)]), (-1, [(4, 1)])]), (12, [(-1, [(0, 1)]), (1, [(3, 1)])])]

/-- `p & q & r` for three points. -/
def joinPolys3 : List (Nat × List IntMono) :=
    [(1, [(1, [(0, 1), (4, 1), (8, 1)]), (-1, [(0, 1), (5, 1), (7, 1)]), (-1, [(1, 1), (3, 1), (8, 1)]), (1, [(1, 1), (5, 1), (6, 1)]), (1,
    [(2, 1), (3, 1), (7, 1)]), (-1, [(2, 1), (4, 1), (6, 1)])]), (2, [(-1, [(1, 1), (5, 1)]), (1, [(1, 1), (8, 1)]), (1, [(2, 1), (4, 1)]),
    (-1, [(2, 1), (7, 1)]), (-1, [(4, 1), (8, 1)]), (1, [(5, 1), (7, 1)])]), (4, [(1, [(0, 1), (5, 1)]), (-1, [(0, 1), (8, 1)]), (-1, [(2, 1),
    (3, 1)]), (1, [(2, 1), (6, 1)]), (1, [(3, 1), (8, 1)]), (-1, [(5, 1), (6, 1)])]), (8, [(-1, [(0, 1), (4, 1)]), (1, [(0, 1), (7, 1)]), (1,
    [(1, 1), (3, 1)]), (-1, [(1, 1), (6, 1)]), (-1, [(3, 1), (7, 1)]), (1, [(4, 1), (6, 1)])])]

/-- `p ^ q ^ r` for three planes. -/
def meetPolys3 : List (Nat × List IntMono) :=
    [(7, [(1, [(0, 1), (5, 1), (10, 1)]), (-1, [(0, 1), (6, 1), (9, 1)]), (-1, [(1, 1), (4, 1), (10, 1)]), (1, [(1, 1), (6, 1), (8, 1)]), (1,
    [(2, 1), (4, 1), (9, 1)]), (-1, [(2, 1), (5, 1), (8, 1)])]), (11, [(1, [(0, 1), (5, 1), (11, 1)]), (-1, [(0, 1), (7, 1), (9, 1)]), (-1,
    [(1, 1), (4, 1), (11, 1)]), (1, [(1, 1), (7, 1), (8, 1)]), (1, [(3, 1), (4, 1), (9, 1)]), (-1, [(3, 1), (5, 1), (8, 1)])]), (13, [(1, [(0,
    1), (6, 1), (11, 1)]), (-1, [(0, 1), (7, 1), (10, 1)]), (-1, [(2, 1), (4, 1), (11, 1)]), (1, [(2, 1), (7, 1), (8, 1)]), (1, [(3, 1), (4,
    1), (10, 1)]), (-1, [(3, 1), (6, 1), (8, 1)])]), (14, [(1, [(1, 1), (6, 1), (11, 1)]), (-1, [(1, 1), (7, 1), (10, 1)]), (-1, [(2, 1), (5,
    1), (11, 1)]), (1, [(2, 1), (7, 1), (9, 1)]), (1, [(3, 1), (5, 1), (10, 1)]), (-1, [(3, 1), (6, 1), (9, 1)])])]

/-- `l ^ q` for a line and a plane. -/
def linePlanePolys : List (Nat × List IntMono) :=
    [(7, [(-1, [(2, 1), (6, 1)]), (-1, [(3, 1), (8, 1)]), (-1, [(4, 1), (7, 1)])]), (11, [(1, [(1, 1), (6, 1)]), (-1, [(3, 1), (9, 1)]), (1,
    [(5, 1), (7, 1)])]), (13, [(-1, [(0, 1), (6, 1)]), (1, [(4, 1), (9, 1)]), (1, [(5, 1), (8, 1)])]), (14, [(-1, [(0, 1), (7, 1)]), (-1, [(1,
    1), (8, 1)]), (-1, [(2, 1), (9, 1)])])]

theorem rotate_polys : sandwichLam.polys vgaMetric [vectorArg (K := ℚ) [0, 0, 0], rotorArg [0, 0, 0, 0, 0]] = some rotatePolys := by
  exact flatPolys_polys (by decide +kernel)

theorem move_polys : sandwichLam.polys pgaMetric [pointArg (K := ℚ) [0, 0, 0], motorArg [0, 0, 0, 0, 0, 0, 0, 0]] = some movePolys := by
  exact flatPolys_polys (by decide +kernel)

theorem mirror_polys : sandwichLam.polys pgaMetric [pointArg (K := ℚ) [0, 0, 0], planeArg [0, 0, 0, 0]] = some mirrorPolys := by
  exact flatPolys_polys (by decide +kernel)

theorem movePlane_polys : sandwichLam.polys pgaMetric [planeArg (K := ℚ) [0, 0, 0, 0], motorArg [0, 0, 0, 0, 0, 0, 0, 0]] = some movePlanePolys := by
  exact flatPolys_polys (by decide +kernel)

theorem motor_polys : productLam.polys pgaMetric [motorArg (K := ℚ) [0, 0, 0, 0, 0, 0, 0, 0], motorArg [0, 0, 0, 0, 0, 0, 0, 0]] = some motorPolys := by
  exact flatPolys_polys (by decide +kernel)

theorem join_polys : joinLam.polys pgaMetric [pointArg (K := ℚ) [0, 0, 0], pointArg [0, 0, 0]] = some joinPolys := by
  exact flatPolys_polys (by decide +kernel)

theorem join_polys3 : joinLam3.polys pgaMetric [pointArg (K := ℚ) [0, 0, 0], pointArg [0, 0, 0], pointArg [0, 0, 0]] = some joinPolys3 := by
  exact flatPolys_polys (by decide +kernel)

theorem meet_polys3 : meetLam3.polys pgaMetric [planeArg (K := ℚ) [0, 0, 0, 0], planeArg [0, 0, 0, 0], planeArg [0, 0, 0, 0]] = some meetPolys3 := by
  exact flatPolys_polys (by decide +kernel)

theorem linePlane_polys : meetLam.polys pgaMetric [lineArg (K := ℚ) [0, 0, 0, 0, 0, 0], planeArg [0, 0, 0, 0]] = some linePlanePolys := by
  exact flatPolys_polys (by decide +kernel)

end Gal
