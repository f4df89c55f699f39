import Verif.Props.ConformalPolys
import Verif.Props.SandwichPolys

/-!
# Property C68: the programs that join conformal points
-/

namespace Gal

open Out

/-- An entity with the elements of the pair of points `p ^ q` (entity.hpp:57-158). -/
def cgaDuo {K : Type} (d : List K) : Arg K := Entity.toArg ⟨[3, 5, 6, 9, 10, 12, 17, 18, 20, 24], d⟩

/-- An entity with the elements of the circle `p ^ q ^ r` (entity.hpp:57-158). -/
def cgaTrio {K : Type} (d : List K) : Arg K := Entity.toArg ⟨[7, 11, 13, 14, 19, 21, 22, 25, 26, 28], d⟩

/-- An entity with the elements of the sphere `p ^ q ^ r ^ s` (entity.hpp:57-158). -/
def cgaQuad {K : Type} (d : List K) : Arg K := Entity.toArg ⟨[15, 23, 27, 29, 30], d⟩

/-- `p ^ q` for two points. -/
def pairRatPolys : List (Nat × List RatMono) :=
    [(3, [(⟨1, 1⟩, [(0, 1), (4, 1)]), (⟨-1, 1⟩, [(1, 1), (3, 1)])]), (5, [(⟨1, 1⟩, [(0, 1), (5, 1)]), (⟨-1, 1⟩, [(2, 1), (3, 1)])]), (6, [(⟨1,
    1⟩, [(1, 1), (5, 1)]), (⟨-1, 1⟩, [(2, 1), (4, 1)])]), (9, [(⟨1, 1⟩, [(0, 1)]), (⟨-1, 1⟩, [(3, 1)])]), (10, [(⟨1, 1⟩, [(1, 1)]), (⟨-1, 1⟩,
    [(4, 1)])]), (12, [(⟨1, 1⟩, [(2, 1)]), (⟨-1, 1⟩, [(5, 1)])]), (17, [(⟨1, 2⟩, [(0, 1), (3, 2)]), (⟨1, 2⟩, [(0, 1), (4, 2)]), (⟨1, 2⟩, [(0,
    1), (5, 2)]), (⟨-1, 2⟩, [(0, 2), (3, 1)]), (⟨-1, 2⟩, [(1, 2), (3, 1)]), (⟨-1, 2⟩, [(2, 2), (3, 1)])]), (18, [(⟨-1, 2⟩, [(0, 2), (4, 1)]),
    (⟨1, 2⟩, [(1, 1), (3, 2)]), (⟨1, 2⟩, [(1, 1), (4, 2)]), (⟨1, 2⟩, [(1, 1), (5, 2)]), (⟨-1, 2⟩, [(1, 2), (4, 1)]), (⟨-1, 2⟩, [(2, 2), (4,
    1)])]), (20, [(⟨-1, 2⟩, [(0, 2), (5, 1)]), (⟨-1, 2⟩, [(1, 2), (5, 1)]), (⟨1, 2⟩, [(2, 1), (3, 2)]), (⟨1, 2⟩, [(2, 1), (4, 2)]), (⟨1, 2⟩,
    [(2, 1), (5, 2)]), (⟨-1, 2⟩, [(2, 2), (5, 1)])]), (24, [(⟨-1, 2⟩, [(0, 2)]), (⟨-1, 2⟩, [(1, 2)]), (⟨-1, 2⟩, [(2, 2)]), (⟨1, 2⟩, [(3, 2)]),
    (⟨1, 2⟩, [(4, 2)]), (⟨1, 2⟩, [(5, 2)])])]

theorem pair_ratPolys :
    meetLam.ratPolys (L := ℚ) cgaMetric true [cgaArg [0, 0, 0], cgaArg [0, 0, 0]] = some (.one, pairRatPolys) := by
  exact nestPolys_ratPolys (by decide +kernel)

/-- `p ^ b` for a point and a pair. -/
def joinPairRatPolys : List (Nat × List RatMono) :=
    [(7, [(⟨1, 1⟩, [(0, 1), (5, 1)]), (⟨-1, 1⟩, [(1, 1), (4, 1)]), (⟨1, 1⟩, [(2, 1), (3, 1)])]), (11, [(⟨1, 1⟩, [(3, 1)]), (⟨1, 1⟩, [(0, 1), (7,
    1)]), (⟨-1, 1⟩, [(1, 1), (6, 1)])]), (13, [(⟨1, 1⟩, [(4, 1)]), (⟨1, 1⟩, [(0, 1), (8, 1)]), (⟨-1, 1⟩, [(2, 1), (6, 1)])]), (14, [(⟨1, 1⟩,
    [(5, 1)]), (⟨1, 1⟩, [(1, 1), (8, 1)]), (⟨-1, 1⟩, [(2, 1), (7, 1)])]), (19, [(⟨1, 1⟩, [(0, 1), (10, 1)]), (⟨-1, 1⟩, [(1, 1), (9, 1)]), (⟨1,
    2⟩, [(0, 2), (3, 1)]), (⟨1, 2⟩, [(1, 2), (3, 1)]), (⟨1, 2⟩, [(2, 2), (3, 1)])]), (21, [(⟨1, 1⟩, [(0, 1), (11, 1)]), (⟨-1, 1⟩, [(2, 1), (9,
    1)]), (⟨1, 2⟩, [(0, 2), (4, 1)]), (⟨1, 2⟩, [(1, 2), (4, 1)]), (⟨1, 2⟩, [(2, 2), (4, 1)])]), (22, [(⟨1, 1⟩, [(1, 1), (11, 1)]), (⟨-1, 1⟩,
    [(2, 1), (10, 1)]), (⟨1, 2⟩, [(0, 2), (5, 1)]), (⟨1, 2⟩, [(1, 2), (5, 1)]), (⟨1, 2⟩, [(2, 2), (5, 1)])]), (25, [(⟨-1, 1⟩, [(9, 1)]), (⟨1,
    1⟩, [(0, 1), (12, 1)]), (⟨1, 2⟩, [(0, 2), (6, 1)]), (⟨1, 2⟩, [(1, 2), (6, 1)]), (⟨1, 2⟩, [(2, 2), (6, 1)])]), (26, [(⟨-1, 1⟩, [(10, 1)]),
    (⟨1, 1⟩, [(1, 1), (12, 1)]), (⟨1, 2⟩, [(0, 2), (7, 1)]), (⟨1, 2⟩, [(1, 2), (7, 1)]), (⟨1, 2⟩, [(2, 2), (7, 1)])]), (28, [(⟨-1, 1⟩, [(11,
    1)]), (⟨1, 1⟩, [(2, 1), (12, 1)]), (⟨1, 2⟩, [(0, 2), (8, 1)]), (⟨1, 2⟩, [(1, 2), (8, 1)]), (⟨1, 2⟩, [(2, 2), (8, 1)])])]

theorem joinPair_ratPolys :
    meetLam.ratPolys (L := ℚ) cgaMetric true [cgaArg [0, 0, 0], cgaDuo [0, 0, 0, 0, 0, 0, 0, 0, 0, 0]] = some (.one, joinPairRatPolys) := by
  exact nestPolys_ratPolys (by decide +kernel)

/-- `p ^ c` for a point and a circle. -/
def joinCircleRatPolys : List (Nat × List RatMono) :=
    [(15, [(⟨-1, 1⟩, [(3, 1)]), (⟨1, 1⟩, [(0, 1), (6, 1)]), (⟨-1, 1⟩, [(1, 1), (5, 1)]), (⟨1, 1⟩, [(2, 1), (4, 1)])]), (23, [(⟨1, 1⟩, [(0, 1),
    (9, 1)]), (⟨-1, 1⟩, [(1, 1), (8, 1)]), (⟨1, 1⟩, [(2, 1), (7, 1)]), (⟨-1, 2⟩, [(0, 2), (3, 1)]), (⟨-1, 2⟩, [(1, 2), (3, 1)]), (⟨-1, 2⟩, [(2,
    2), (3, 1)])]), (27, [(⟨1, 1⟩, [(7, 1)]), (⟨1, 1⟩, [(0, 1), (11, 1)]), (⟨-1, 1⟩, [(1, 1), (10, 1)]), (⟨-1, 2⟩, [(0, 2), (4, 1)]), (⟨-1, 2⟩,
    [(1, 2), (4, 1)]), (⟨-1, 2⟩, [(2, 2), (4, 1)])]), (29, [(⟨1, 1⟩, [(8, 1)]), (⟨1, 1⟩, [(0, 1), (12, 1)]), (⟨-1, 1⟩, [(2, 1), (10, 1)]), (⟨-1,
    2⟩, [(0, 2), (5, 1)]), (⟨-1, 2⟩, [(1, 2), (5, 1)]), (⟨-1, 2⟩, [(2, 2), (5, 1)])]), (30, [(⟨1, 1⟩, [(9, 1)]), (⟨1, 1⟩, [(1, 1), (12, 1)]),
    (⟨-1, 1⟩, [(2, 1), (11, 1)]), (⟨-1, 2⟩, [(0, 2), (6, 1)]), (⟨-1, 2⟩, [(1, 2), (6, 1)]), (⟨-1, 2⟩, [(2, 2), (6, 1)])])]

theorem joinCircle_ratPolys :
    meetLam.ratPolys (L := ℚ) cgaMetric true [cgaArg [0, 0, 0], cgaTrio [0, 0, 0, 0, 0, 0, 0, 0, 0, 0]] = some (.one, joinCircleRatPolys) := by
  exact nestPolys_ratPolys (by decide +kernel)

/-- `p ^ s` for a point and a sphere. -/
def joinSphereRatPolys : List (Nat × List RatMono) :=
    [(31, [(⟨-1, 1⟩, [(4, 1)]), (⟨1, 1⟩, [(0, 1), (7, 1)]), (⟨-1, 1⟩, [(1, 1), (6, 1)]), (⟨1, 1⟩, [(2, 1), (5, 1)]), (⟨1, 2⟩, [(0, 2), (3, 1)]),
    (⟨1, 2⟩, [(1, 2), (3, 1)]), (⟨1, 2⟩, [(2, 2), (3, 1)])])]

theorem joinSphere_ratPolys :
    meetLam.ratPolys (L := ℚ) cgaMetric true [cgaArg [0, 0, 0], cgaQuad [0, 0, 0, 0, 0]] = some (.one, joinSphereRatPolys) := by
  exact nestPolys_ratPolys (by decide +kernel)

/-- An entity with the elements of the flat point `p ^ ni` (entity.hpp:57-158). -/
def cgaFlat1 {K : Type} (d : List K) : Arg K := Entity.toArg ⟨[17, 18, 20, 24], d⟩

/-- An entity with the elements of the line `p ^ q ^ ni` (entity.hpp:57-158). -/
def cgaFlat2 {K : Type} (d : List K) : Arg K := Entity.toArg ⟨[19, 21, 22, 25, 26, 28], d⟩

/-- An entity with the elements of the plane `p ^ q ^ r ^ ni` (entity.hpp:57-158). -/
def cgaFlat3 {K : Type} (d : List K) : Arg K := Entity.toArg ⟨[23, 27, 29, 30], d⟩

/-- `p ^ ni` for a point. -/
def flatRatPolys : List (Nat × List RatMono) :=
    [(17, [(⟨1, 1⟩, [(0, 1), (3, 1)])]), (18, [(⟨1, 1⟩, [(1, 1), (3, 1)])]), (20, [(⟨1, 1⟩, [(2, 1), (3, 1)])]), (24, [(⟨1, 1⟩, [(3, 1)])])]

theorem flat_ratPolys :
    meetLam.ratPolys (L := ℚ) cgaMetric true [cgaArg [0, 0, 0], cgaInfinity 0] = some (.one, flatRatPolys) := by
  exact nestPolys_ratPolys (by decide +kernel)

/-- `p ^ f` for a point and a flat point. -/
def joinFlat1RatPolys : List (Nat × List RatMono) :=
    [(19, [(⟨1, 1⟩, [(0, 1), (4, 1)]), (⟨-1, 1⟩, [(1, 1), (3, 1)])]), (21, [(⟨1, 1⟩, [(0, 1), (5, 1)]), (⟨-1, 1⟩, [(2, 1), (3, 1)])]), (22,
    [(⟨1, 1⟩, [(1, 1), (5, 1)]), (⟨-1, 1⟩, [(2, 1), (4, 1)])]), (25, [(⟨-1, 1⟩, [(3, 1)]), (⟨1, 1⟩, [(0, 1), (6, 1)])]), (26, [(⟨-1, 1⟩, [(4,
    1)]), (⟨1, 1⟩, [(1, 1), (6, 1)])]), (28, [(⟨-1, 1⟩, [(5, 1)]), (⟨1, 1⟩, [(2, 1), (6, 1)])])]

theorem joinFlat1_ratPolys :
    meetLam.ratPolys (L := ℚ) cgaMetric true [cgaArg [0, 0, 0], cgaFlat1 [0, 0, 0, 0]] = some (.one, joinFlat1RatPolys) := by
  exact nestPolys_ratPolys (by decide +kernel)

/-- `p ^ l` for a point and a line. -/
def joinFlat2RatPolys : List (Nat × List RatMono) :=
    [(23, [(⟨1, 1⟩, [(0, 1), (5, 1)]), (⟨-1, 1⟩, [(1, 1), (4, 1)]), (⟨1, 1⟩, [(2, 1), (3, 1)])]), (27, [(⟨1, 1⟩, [(3, 1)]), (⟨1, 1⟩, [(0, 1),
    (7, 1)]), (⟨-1, 1⟩, [(1, 1), (6, 1)])]), (29, [(⟨1, 1⟩, [(4, 1)]), (⟨1, 1⟩, [(0, 1), (8, 1)]), (⟨-1, 1⟩, [(2, 1), (6, 1)])]), (30, [(⟨1, 1⟩,
    [(5, 1)]), (⟨1, 1⟩, [(1, 1), (8, 1)]), (⟨-1, 1⟩, [(2, 1), (7, 1)])])]

theorem joinFlat2_ratPolys :
    meetLam.ratPolys (L := ℚ) cgaMetric true [cgaArg [0, 0, 0], cgaFlat2 [0, 0, 0, 0, 0, 0]] = some (.one, joinFlat2RatPolys) := by
  exact nestPolys_ratPolys (by decide +kernel)

/-- `p ^ e` for a point and a plane. -/
def joinFlat3RatPolys : List (Nat × List RatMono) :=
    [(31, [(⟨-1, 1⟩, [(3, 1)]), (⟨1, 1⟩, [(0, 1), (6, 1)]), (⟨-1, 1⟩, [(1, 1), (5, 1)]), (⟨1, 1⟩, [(2, 1), (4, 1)])])]

theorem joinFlat3_ratPolys :
    meetLam.ratPolys (L := ℚ) cgaMetric true [cgaArg [0, 0, 0], cgaFlat3 [0, 0, 0, 0]] = some (.one, joinFlat3RatPolys) := by
  exact nestPolys_ratPolys (by decide +kernel)

/-- `[](auto p, auto q) { return p ^ q ^ 1_ni; }` (cga.hpp:50-60 for the literal). -/
def lineLiteralLam : Lam := .ep (.ep (.arg 0) (.arg 1)) (.elem 16 1)

/-- `p ^ q ^ 1_ni` for two points. -/
def lineLiteralRatPolys : List (Nat × List RatMono) :=
    [(11, [(⟨1, 1⟩, [(0, 1), (4, 1)]), (⟨-1, 1⟩, [(1, 1), (3, 1)])]), (13, [(⟨1, 1⟩, [(0, 1), (5, 1)]), (⟨-1, 1⟩, [(2, 1), (3, 1)])]), (14,
    [(⟨1, 1⟩, [(1, 1), (5, 1)]), (⟨-1, 1⟩, [(2, 1), (4, 1)])]), (19, [(⟨1, 2⟩, [(0, 1), (4, 1)]), (⟨-1, 2⟩, [(1, 1), (3, 1)])]), (21, [(⟨1, 2⟩,
    [(0, 1), (5, 1)]), (⟨-1, 2⟩, [(2, 1), (3, 1)])]), (22, [(⟨1, 2⟩, [(1, 1), (5, 1)]), (⟨-1, 2⟩, [(2, 1), (4, 1)])]), (25, [(⟨1, 2⟩, [(0, 1)]),
    (⟨-1, 2⟩, [(3, 1)]), (⟨-1, 2⟩, [(0, 1), (3, 2)]), (⟨-1, 2⟩, [(0, 1), (4, 2)]), (⟨-1, 2⟩, [(0, 1), (5, 2)]), (⟨1, 2⟩, [(0, 2), (3, 1)]), (⟨1,
    2⟩, [(1, 2), (3, 1)]), (⟨1, 2⟩, [(2, 2), (3, 1)])]), (26, [(⟨1, 2⟩, [(1, 1)]), (⟨-1, 2⟩, [(4, 1)]), (⟨1, 2⟩, [(0, 2), (4, 1)]), (⟨-1, 2⟩,
    [(1, 1), (3, 2)]), (⟨-1, 2⟩, [(1, 1), (4, 2)]), (⟨-1, 2⟩, [(1, 1), (5, 2)]), (⟨1, 2⟩, [(1, 2), (4, 1)]), (⟨1, 2⟩, [(2, 2), (4, 1)])]), (28,
    [(⟨1, 2⟩, [(2, 1)]), (⟨-1, 2⟩, [(5, 1)]), (⟨1, 2⟩, [(0, 2), (5, 1)]), (⟨1, 2⟩, [(1, 2), (5, 1)]), (⟨-1, 2⟩, [(2, 1), (3, 2)]), (⟨-1, 2⟩,
    [(2, 1), (4, 2)]), (⟨-1, 2⟩, [(2, 1), (5, 2)]), (⟨1, 2⟩, [(2, 2), (5, 1)])])]

theorem lineLiteral_ratPolys :
    lineLiteralLam.ratPolys (L := ℚ) cgaMetric true [cgaArg [0, 0, 0], cgaArg [0, 0, 0]] = some (.one, lineLiteralRatPolys) := by
  exact nestPolys_ratPolys (by decide +kernel)

/-- An entity with the elements that `p ^ q ^ 1_ni` has (entity.hpp:57-158). -/
def cgaLiteralLine {K : Type} (d : List K) : Arg K := Entity.toArg ⟨[11, 13, 14, 19, 21, 22, 25, 26, 28], d⟩

/-- `x ^ l` for a point and such an entity. -/
def joinLiteralRatPolys : List (Nat × List RatMono) :=
    [(15, [(⟨1, 1⟩, [(0, 1), (5, 1)]), (⟨-1, 1⟩, [(1, 1), (4, 1)]), (⟨1, 1⟩, [(2, 1), (3, 1)])]), (23, [(⟨1, 1⟩, [(0, 1), (8, 1)]), (⟨-1, 1⟩,
    [(1, 1), (7, 1)]), (⟨1, 1⟩, [(2, 1), (6, 1)])]), (27, [(⟨1, 1⟩, [(6, 1)]), (⟨1, 1⟩, [(0, 1), (10, 1)]), (⟨-1, 1⟩, [(1, 1), (9, 1)]), (⟨-1,
    2⟩, [(0, 2), (3, 1)]), (⟨-1, 2⟩, [(1, 2), (3, 1)]), (⟨-1, 2⟩, [(2, 2), (3, 1)])]), (29, [(⟨1, 1⟩, [(7, 1)]), (⟨1, 1⟩, [(0, 1), (11, 1)]),
    (⟨-1, 1⟩, [(2, 1), (9, 1)]), (⟨-1, 2⟩, [(0, 2), (4, 1)]), (⟨-1, 2⟩, [(1, 2), (4, 1)]), (⟨-1, 2⟩, [(2, 2), (4, 1)])]), (30, [(⟨1, 1⟩, [(8,
    1)]), (⟨1, 1⟩, [(1, 1), (11, 1)]), (⟨-1, 1⟩, [(2, 1), (10, 1)]), (⟨-1, 2⟩, [(0, 2), (5, 1)]), (⟨-1, 2⟩, [(1, 2), (5, 1)]), (⟨-1, 2⟩, [(2,
    2), (5, 1)])])]

theorem joinLiteral_ratPolys :
    meetLam.ratPolys (L := ℚ) cgaMetric true [cgaArg [0, 0, 0], cgaLiteralLine [0, 0, 0, 0, 0, 0, 0, 0, 0]] = some (.one, joinLiteralRatPolys) := by
  exact nestPolys_ratPolys (by decide +kernel)

end Gal
