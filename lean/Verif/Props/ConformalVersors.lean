import Verif.Props.ConformalPolys

/-!
# The polynomials of translators and rotors acting on conformal points
-/

namespace Gal

open Out

/-- `p % T for a point and a translator`. -/
def translateRatPolys : List (Nat × List RatMono) :=
    [(1, [(⟨-2, 1⟩, [(3, 1), (4, 1)]), (⟨1, 1⟩, [(0, 1), (3, 2)])]), (2, [(⟨-2, 1⟩, [(3, 1), (5, 1)]), (⟨1, 1⟩, [(1, 1), (3, 2)])]), (4, [(⟨-2,
    1⟩, [(3, 1), (6, 1)]), (⟨1, 1⟩, [(2, 1), (3, 2)])]), (8, [(⟨1, 1⟩, [(3, 2)])]), (16, [(⟨2, 1⟩, [(4, 2)]), (⟨2, 1⟩, [(5, 2)]), (⟨2, 1⟩, [(6,
    2)]), (⟨-2, 1⟩, [(0, 1), (3, 1), (4, 1)]), (⟨-2, 1⟩, [(1, 1), (3, 1), (5, 1)]), (⟨-2, 1⟩, [(2, 1), (3, 1), (6, 1)]), (⟨1, 2⟩, [(0, 2), (3,
    2)]), (⟨1, 2⟩, [(1, 2), (3, 2)]), (⟨1, 2⟩, [(2, 2), (3, 2)])])]

theorem translate_ratPolys : sandwichLam.ratPolys (L := ℚ) cgaMetric true [cgaArg [0, 0, 0], cgaTranslator [0, 0, 0, 0]] = some (.one, translateRatPolys) := by
  exact nestPolys_ratPolys (by decide +kernel)

/-- `p % R for a point and a rotor`. -/
def rotateCRatPolys : List (Nat × List RatMono) :=
    [(1, [(⟨1, 1⟩, [(0, 1), (3, 2)]), (⟨-1, 1⟩, [(0, 1), (4, 2)]), (⟨-1, 1⟩, [(0, 1), (5, 2)]), (⟨1, 1⟩, [(0, 1), (6, 2)]), (⟨2, 1⟩, [(1, 1), (3,
    1), (4, 1)]), (⟨-2, 1⟩, [(1, 1), (5, 1), (6, 1)]), (⟨2, 1⟩, [(2, 1), (3, 1), (5, 1)]), (⟨2, 1⟩, [(2, 1), (4, 1), (6, 1)])]), (2, [(⟨-2, 1⟩,
    [(0, 1), (3, 1), (4, 1)]), (⟨-2, 1⟩, [(0, 1), (5, 1), (6, 1)]), (⟨1, 1⟩, [(1, 1), (3, 2)]), (⟨-1, 1⟩, [(1, 1), (4, 2)]), (⟨1, 1⟩, [(1, 1), (5,
    2)]), (⟨-1, 1⟩, [(1, 1), (6, 2)]), (⟨2, 1⟩, [(2, 1), (3, 1), (6, 1)]), (⟨-2, 1⟩, [(2, 1), (4, 1), (5, 1)])]), (4, [(⟨-2, 1⟩, [(0, 1), (3, 1),
    (5, 1)]), (⟨2, 1⟩, [(0, 1), (4, 1), (6, 1)]), (⟨-2, 1⟩, [(1, 1), (3, 1), (6, 1)]), (⟨-2, 1⟩, [(1, 1), (4, 1), (5, 1)]), (⟨1, 1⟩, [(2, 1), (3,
    2)]), (⟨1, 1⟩, [(2, 1), (4, 2)]), (⟨-1, 1⟩, [(2, 1), (5, 2)]), (⟨-1, 1⟩, [(2, 1), (6, 2)])]), (8, [(⟨1, 1⟩, [(3, 2)]), (⟨1, 1⟩, [(4, 2)]),
    (⟨1, 1⟩, [(5, 2)]), (⟨1, 1⟩, [(6, 2)])]), (16, [(⟨1, 2⟩, [(0, 2), (3, 2)]), (⟨1, 2⟩, [(0, 2), (4, 2)]), (⟨1, 2⟩, [(0, 2), (5, 2)]), (⟨1, 2⟩,
    [(0, 2), (6, 2)]), (⟨1, 2⟩, [(1, 2), (3, 2)]), (⟨1, 2⟩, [(1, 2), (4, 2)]), (⟨1, 2⟩, [(1, 2), (5, 2)]), (⟨1, 2⟩, [(1, 2), (6, 2)]), (⟨1, 2⟩,
    [(2, 2), (3, 2)]), (⟨1, 2⟩, [(2, 2), (4, 2)]), (⟨1, 2⟩, [(2, 2), (5, 2)]), (⟨1, 2⟩, [(2, 2), (6, 2)])])]

theorem rotateC_ratPolys : sandwichLam.ratPolys (L := ℚ) cgaMetric true [cgaArg [0, 0, 0], cgaRotor [0, 0, 0, 0]] = some (.one, rotateCRatPolys) := by
  exact nestPolys_ratPolys (by decide +kernel)

end Gal
