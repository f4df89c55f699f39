import Verif.Props.ConformalPolys

/-!
# The polynomials of the inversion of a conformal point in a sphere
-/

namespace Gal

open Out

/-- `p % s for a point and a sphere`. -/
def invertRatPolys : List (Nat × List RatMono) :=
    [(1, [(⟨-2, 1⟩, [(3, 1), (7, 1)]), (⟨1, 1⟩, [(0, 1), (3, 2)]), (⟨-1, 1⟩, [(0, 1), (4, 2)]), (⟨-1, 1⟩, [(0, 1), (5, 2)]), (⟨2, 1⟩, [(0, 1), (6,
    1), (7, 1)]), (⟨2, 1⟩, [(1, 1), (3, 1), (4, 1)]), (⟨2, 1⟩, [(2, 1), (3, 1), (5, 1)]), (⟨-1, 1⟩, [(0, 2), (3, 1), (6, 1)]), (⟨-1, 1⟩, [(1, 2),
    (3, 1), (6, 1)]), (⟨-1, 1⟩, [(2, 2), (3, 1), (6, 1)])]), (2, [(⟨-2, 1⟩, [(4, 1), (7, 1)]), (⟨2, 1⟩, [(0, 1), (3, 1), (4, 1)]), (⟨-1, 1⟩, [(1,
    1), (3, 2)]), (⟨1, 1⟩, [(1, 1), (4, 2)]), (⟨-1, 1⟩, [(1, 1), (5, 2)]), (⟨2, 1⟩, [(1, 1), (6, 1), (7, 1)]), (⟨2, 1⟩, [(2, 1), (4, 1), (5, 1)]),
    (⟨-1, 1⟩, [(0, 2), (4, 1), (6, 1)]), (⟨-1, 1⟩, [(1, 2), (4, 1), (6, 1)]), (⟨-1, 1⟩, [(2, 2), (4, 1), (6, 1)])]), (4, [(⟨-2, 1⟩, [(5, 1), (7,
    1)]), (⟨2, 1⟩, [(0, 1), (3, 1), (5, 1)]), (⟨2, 1⟩, [(1, 1), (4, 1), (5, 1)]), (⟨-1, 1⟩, [(2, 1), (3, 2)]), (⟨-1, 1⟩, [(2, 1), (4, 2)]), (⟨1,
    1⟩, [(2, 1), (5, 2)]), (⟨2, 1⟩, [(2, 1), (6, 1), (7, 1)]), (⟨-1, 1⟩, [(0, 2), (5, 1), (6, 1)]), (⟨-1, 1⟩, [(1, 2), (5, 1), (6, 1)]), (⟨-1, 1⟩,
    [(2, 2), (5, 1), (6, 1)])]), (8, [(⟨-1, 1⟩, [(3, 2)]), (⟨-1, 1⟩, [(4, 2)]), (⟨-1, 1⟩, [(5, 2)]), (⟨2, 1⟩, [(0, 1), (3, 1), (6, 1)]), (⟨2, 1⟩,
    [(1, 1), (4, 1), (6, 1)]), (⟨2, 1⟩, [(2, 1), (5, 1), (6, 1)]), (⟨-1, 1⟩, [(0, 2), (6, 2)]), (⟨-1, 1⟩, [(1, 2), (6, 2)]), (⟨-1, 1⟩, [(2, 2),
    (6, 2)])]), (16, [(⟨-2, 1⟩, [(7, 2)]), (⟨2, 1⟩, [(0, 1), (3, 1), (7, 1)]), (⟨2, 1⟩, [(1, 1), (4, 1), (7, 1)]), (⟨2, 1⟩, [(2, 1), (5, 1), (7,
    1)]), (⟨-1, 2⟩, [(0, 2), (3, 2)]), (⟨-1, 2⟩, [(0, 2), (4, 2)]), (⟨-1, 2⟩, [(0, 2), (5, 2)]), (⟨-1, 2⟩, [(1, 2), (3, 2)]), (⟨-1, 2⟩, [(1, 2),
    (4, 2)]), (⟨-1, 2⟩, [(1, 2), (5, 2)]), (⟨-1, 2⟩, [(2, 2), (3, 2)]), (⟨-1, 2⟩, [(2, 2), (4, 2)]), (⟨-1, 2⟩, [(2, 2), (5, 2)])])]

theorem invert_ratPolys : sandwichLam.ratPolys (L := ℚ) cgaMetric true [cgaArg [0, 0, 0], cgaVector [0, 0, 0, 0, 0]] = some (.one, invertRatPolys) := by
  exact nestPolys_ratPolys (by decide +kernel)

end Gal
