import Verif.Props.NestedRun
import Verif.Props.SandwichPolys
import Verif.Metrics

/-!
# The polynomials of products in the conformal algebra
-/

namespace Gal

open Out

/-- The argument `cga::point{x, y, z}` (cga.hpp:84-173). -/
def cgaArg {K : Type} (d : List K) : Arg K := ⟨cgaPointIe, d⟩

/-- An entity of the conformal algebra with the elements `e1, e2, e3, no, ni` of the null basis (entity.hpp:57-158). -/
def cgaVector {K : Type} (d : List K) : Arg K := Entity.toArg ⟨[1, 2, 4, 8, 16], d⟩

/-- An entity with the elements `1, e1 ni, e2 ni, e3 ni` (entity.hpp:57-158). -/
def cgaTranslator {K : Type} (d : List K) : Arg K := Entity.toArg ⟨[0, 17, 18, 20], d⟩

/-- An entity with the elements `1, e1 e2, e1 e3, e2 e3` (entity.hpp:57-158). -/
def cgaRotor {K : Type} (d : List K) : Arg K := Entity.toArg ⟨[0, 3, 5, 6], d⟩

/-- An entity with the elements `1, no ^ ni` (entity.hpp:57-158). -/
def cgaDilator {K : Type} (d : List K) : Arg K := Entity.toArg ⟨[0, 24], d⟩

/-- A multiple of infinity (entity.hpp:57-158). -/
def cgaInfinity {K : Type} (w : K) : Arg K := Entity.toArg ⟨[16], [w]⟩

/-- `[](auto p, auto q) { return p >> q; }`. -/
def distanceLam : Lam := .lc (.arg 0) (.arg 1)

/-- `[](auto p) { return p >> p; }`. -/
def selfLam : Lam := .lc (.arg 0) (.arg 0)

/-- `[](auto a, auto b, auto c, auto d) { return a ^ b ^ c ^ d; }`. -/
def wedgeLam4 : Lam := .ep (.ep (.ep (.arg 0) (.arg 1)) (.arg 2)) (.arg 3)

/-- `[](auto p) { return p >> 1_ni; }`. -/
def infinityLam : Lam := .lc (.arg 0) (.elem 16 1)

/-- `[](auto a, auto b, auto c, auto d, auto e) { return a ^ b ^ c ^ d ^ e; }`. -/
def wedgeLam5 : Lam := .ep (.ep (.ep (.ep (.arg 0) (.arg 1)) (.arg 2)) (.arg 3)) (.arg 4)

/-- `p >> q for two points`. -/
def distanceRatPolys : List (Nat × List RatMono) :=
    [(0, [(⟨1, 1⟩, [(0, 1), (3, 1)]), (⟨-1, 2⟩, [(0, 2)]), (⟨1, 1⟩, [(1, 1), (4, 1)]), (⟨-1, 2⟩, [(1, 2)]), (⟨1, 1⟩, [(2, 1), (5, 1)]), (⟨-1, 2⟩,
    [(2, 2)]), (⟨-1, 2⟩, [(3, 2)]), (⟨-1, 2⟩, [(4, 2)]), (⟨-1, 2⟩, [(5, 2)])])]

theorem distance_ratPolys : distanceLam.ratPolys (L := ℚ) cgaMetric true [cgaArg [0, 0, 0], cgaArg [0, 0, 0]] = some (.one, distanceRatPolys) := by
  exact nestPolys_ratPolys (by decide +kernel)

/-- `p >> p`. -/
def selfDistanceRatPolys : List (Nat × List RatMono) :=
    []

theorem selfDistance_ratPolys : selfLam.ratPolys (L := ℚ) cgaMetric true [cgaArg [0, 0, 0]] = some (.one, selfDistanceRatPolys) := by
  exact nestPolys_ratPolys (by decide +kernel)

/-- `p >> s for a point and a vector of the null basis`. -/
def incidenceRatPolys : List (Nat × List RatMono) :=
    [(0, [(⟨-1, 1⟩, [(7, 1)]), (⟨1, 1⟩, [(0, 1), (3, 1)]), (⟨1, 1⟩, [(1, 1), (4, 1)]), (⟨1, 1⟩, [(2, 1), (5, 1)]), (⟨-1, 2⟩, [(0, 2), (6, 1)]),
    (⟨-1, 2⟩, [(1, 2), (6, 1)]), (⟨-1, 2⟩, [(2, 2), (6, 1)])])]

theorem incidence_ratPolys : distanceLam.ratPolys (L := ℚ) cgaMetric true [cgaArg [0, 0, 0], cgaVector [0, 0, 0, 0, 0]] = some (.one, incidenceRatPolys) := by
  exact nestPolys_ratPolys (by decide +kernel)

/-- `p >> 1_ni`. -/
def infinityRatPolys : List (Nat × List RatMono) :=
    [(0, [(⟨-1, 2⟩, []), (⟨-1, 2⟩, [(0, 2)]), (⟨-1, 2⟩, [(1, 2)]), (⟨-1, 2⟩, [(2, 2)])])]

theorem infinity_ratPolys : infinityLam.ratPolys (L := ℚ) cgaMetric true [cgaArg [0, 0, 0]] = some (.one, infinityRatPolys) := by
  exact nestPolys_ratPolys (by decide +kernel)

/-- `p % D for a point and a dilator`. -/
def dilateRatPolys : List (Nat × List RatMono) :=
    [(1, [(⟨1, 1⟩, [(0, 1), (3, 2)]), (⟨-1, 1⟩, [(0, 1), (4, 2)])]), (2, [(⟨1, 1⟩, [(1, 1), (3, 2)]), (⟨-1, 1⟩, [(1, 1), (4, 2)])]), (4, [(⟨1, 1⟩,
    [(2, 1), (3, 2)]), (⟨-1, 1⟩, [(2, 1), (4, 2)])]), (8, [(⟨-2, 1⟩, [(3, 1), (4, 1)]), (⟨1, 1⟩, [(3, 2)]), (⟨1, 1⟩, [(4, 2)])]), (16, [(⟨1, 1⟩,
    [(0, 2), (3, 1), (4, 1)]), (⟨1, 2⟩, [(0, 2), (3, 2)]), (⟨1, 2⟩, [(0, 2), (4, 2)]), (⟨1, 1⟩, [(1, 2), (3, 1), (4, 1)]), (⟨1, 2⟩, [(1, 2), (3,
    2)]), (⟨1, 2⟩, [(1, 2), (4, 2)]), (⟨1, 1⟩, [(2, 2), (3, 1), (4, 1)]), (⟨1, 2⟩, [(2, 2), (3, 2)]), (⟨1, 2⟩, [(2, 2), (4, 2)])])]

theorem dilate_ratPolys : sandwichLam.ratPolys (L := ℚ) cgaMetric true [cgaArg [0, 0, 0], cgaDilator [0, 0]] = some (.one, dilateRatPolys) := by
  exact nestPolys_ratPolys (by decide +kernel)

/-- `x ^ p ^ q ^ n for points and infinity`. -/
def collinearRatPolys : List (Nat × List RatMono) :=
    [(23, [(⟨1, 1⟩, [(0, 1), (4, 1), (8, 1), (9, 1)]), (⟨-1, 1⟩, [(0, 1), (5, 1), (7, 1), (9, 1)]), (⟨-1, 1⟩, [(1, 1), (3, 1), (8, 1), (9, 1)]),
    (⟨1, 1⟩, [(1, 1), (5, 1), (6, 1), (9, 1)]), (⟨1, 1⟩, [(2, 1), (3, 1), (7, 1), (9, 1)]), (⟨-1, 1⟩, [(2, 1), (4, 1), (6, 1), (9, 1)])]), (27,
    [(⟨1, 1⟩, [(0, 1), (4, 1), (9, 1)]), (⟨-1, 1⟩, [(0, 1), (7, 1), (9, 1)]), (⟨-1, 1⟩, [(1, 1), (3, 1), (9, 1)]), (⟨1, 1⟩, [(1, 1), (6, 1), (9,
    1)]), (⟨1, 1⟩, [(3, 1), (7, 1), (9, 1)]), (⟨-1, 1⟩, [(4, 1), (6, 1), (9, 1)])]), (29, [(⟨1, 1⟩, [(0, 1), (5, 1), (9, 1)]), (⟨-1, 1⟩, [(0, 1),
    (8, 1), (9, 1)]), (⟨-1, 1⟩, [(2, 1), (3, 1), (9, 1)]), (⟨1, 1⟩, [(2, 1), (6, 1), (9, 1)]), (⟨1, 1⟩, [(3, 1), (8, 1), (9, 1)]), (⟨-1, 1⟩, [(5,
    1), (6, 1), (9, 1)])]), (30, [(⟨1, 1⟩, [(1, 1), (5, 1), (9, 1)]), (⟨-1, 1⟩, [(1, 1), (8, 1), (9, 1)]), (⟨-1, 1⟩, [(2, 1), (4, 1), (9, 1)]),
    (⟨1, 1⟩, [(2, 1), (7, 1), (9, 1)]), (⟨1, 1⟩, [(4, 1), (8, 1), (9, 1)]), (⟨-1, 1⟩, [(5, 1), (7, 1), (9, 1)])])]

theorem collinear_ratPolys : wedgeLam4.ratPolys (L := ℚ) cgaMetric true [cgaArg [0, 0, 0], cgaArg [0, 0, 0], cgaArg [0, 0, 0], cgaInfinity 0] = some (.one, collinearRatPolys) := by
  exact nestPolys_ratPolys (by decide +kernel)

/-- `x ^ p ^ q ^ r ^ n for points and infinity`. -/
def coplanarRatPolys : List (Nat × List RatMono) :=
    [(31, [(⟨1, 1⟩, [(0, 1), (4, 1), (8, 1), (12, 1)]), (⟨-1, 1⟩, [(0, 1), (4, 1), (11, 1), (12, 1)]), (⟨-1, 1⟩, [(0, 1), (5, 1), (7, 1), (12,
    1)]), (⟨1, 1⟩, [(0, 1), (5, 1), (10, 1), (12, 1)]), (⟨1, 1⟩, [(0, 1), (7, 1), (11, 1), (12, 1)]), (⟨-1, 1⟩, [(0, 1), (8, 1), (10, 1), (12,
    1)]), (⟨-1, 1⟩, [(1, 1), (3, 1), (8, 1), (12, 1)]), (⟨1, 1⟩, [(1, 1), (3, 1), (11, 1), (12, 1)]), (⟨1, 1⟩, [(1, 1), (5, 1), (6, 1), (12, 1)]),
    (⟨-1, 1⟩, [(1, 1), (5, 1), (9, 1), (12, 1)]), (⟨-1, 1⟩, [(1, 1), (6, 1), (11, 1), (12, 1)]), (⟨1, 1⟩, [(1, 1), (8, 1), (9, 1), (12, 1)]), (⟨1,
    1⟩, [(2, 1), (3, 1), (7, 1), (12, 1)]), (⟨-1, 1⟩, [(2, 1), (3, 1), (10, 1), (12, 1)]), (⟨-1, 1⟩, [(2, 1), (4, 1), (6, 1), (12, 1)]), (⟨1, 1⟩,
    [(2, 1), (4, 1), (9, 1), (12, 1)]), (⟨1, 1⟩, [(2, 1), (6, 1), (10, 1), (12, 1)]), (⟨-1, 1⟩, [(2, 1), (7, 1), (9, 1), (12, 1)]), (⟨-1, 1⟩, [(3,
    1), (7, 1), (11, 1), (12, 1)]), (⟨1, 1⟩, [(3, 1), (8, 1), (10, 1), (12, 1)]), (⟨1, 1⟩, [(4, 1), (6, 1), (11, 1), (12, 1)]), (⟨-1, 1⟩, [(4, 1),
    (8, 1), (9, 1), (12, 1)]), (⟨-1, 1⟩, [(5, 1), (6, 1), (10, 1), (12, 1)]), (⟨1, 1⟩, [(5, 1), (7, 1), (9, 1), (12, 1)])])]

theorem coplanar_ratPolys : wedgeLam5.ratPolys (L := ℚ) cgaMetric true [cgaArg [0, 0, 0], cgaArg [0, 0, 0], cgaArg [0, 0, 0], cgaArg [0, 0, 0], cgaInfinity 0] = some (.one, coplanarRatPolys) := by
  exact nestPolys_ratPolys (by decide +kernel)

end Gal
