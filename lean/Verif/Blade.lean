import Verif.Bits

/-!
# Products of basis elements (geometric_algebra.hpp)

A basis element (`elem_t`, an 8-bit word) is a natural number whose bit `i` says whether generator `i` is present.
`swaps` is an `elem_t` in the code, hence the explicit `% 256`.  Each `while (g1 > 0)` loop is given fuel; `g1` itself is
enough because every iteration clears a bit of it.
-/

namespace Gal

/-- `metric<P, V, R>` (geometric_algebra.hpp:27-38). -/
structure Metric where
  p : Nat
  v : Nat
  r : Nat
deriving DecidableEq, Repr

namespace Metric

/-- `metric::dimension` (geometric_algebra.hpp:38). -/
def dim (m : Metric) : Nat := m.p + m.v + m.r

/-- `metric::dot` (geometric_algebra.hpp:43-58). -/
def dot (m : Metric) (lhs rhs : Nat) : Int :=
  if lhs ≠ rhs ∨ lhs < m.r then 0
  else if lhs ≥ m.r + m.p then -1
  else 1

/-- `metric::intercept` (geometric_algebra.hpp:64-75); the pair `{-1, 0}` is `none`, the pair `{e, dot}` is
`some (e, dot)`. -/
def intercept (m : Metric) (e blade : Nat) : Option (Nat × Int) :=
  if blade &&& (1 <<< e) ≠ 0 then some (e, m.dot e e) else none

end Metric

/-- `g & ~(1 << i)` on 32-bit words (geometric_algebra.hpp:178, 181, 216, 252-253). -/
def clearBit (g i : Nat) : Nat := g &&& (0xffffffff ^^^ (1 <<< i))

/-- `swaps % 2 == 0 ? 1 : -1` (geometric_algebra.hpp:183, 219, 261). -/
def swapSign (swaps : Nat) : Int := if swaps % 2 = 0 then 1 else -1

/-- Loop of `geometric::product` (geometric_algebra.hpp:156-183). -/
def geoLoop (m : Metric) (g : Nat) : Nat → Nat → Nat → Nat → Nat × Int
  | 0, _, _, swaps => (g, swapSign swaps)
  | fuel + 1, g1, g2, swaps =>
    if g1 > 0 then
      let l := lsi g1
      match m.intercept l g2 with
      | none => geoLoop m g fuel (clearBit g1 l) (g2 ||| (1 <<< l)) ((swaps + popCount (g2 &&& ((1 <<< l) - 1))) % 256)
      | some (index, dot) =>
        let swaps := (swaps + popCount (g2 &&& ((1 <<< index) - 1))) % 256
        if dot = 0 then (0, 0)
        else
          let swaps := if dot = -1 then (swaps + 1) % 256 else swaps
          geoLoop m g fuel (clearBit g1 l) (clearBit g2 index) swaps
    else (g, swapSign swaps)

/-- `geometric::product` (geometric_algebra.hpp:139-185). -/
def geoProduct (m : Metric) (g1 g2 : Nat) : Nat × Int :=
  if g1 = 0 then (g2, 1)
  else if g2 = 0 then (g1, 1)
  else geoLoop m (g1 ^^^ g2) g1 g1 g2 0

/-- Loop of `exterior::product` (geometric_algebra.hpp:212-219). -/
def extLoop (g : Nat) : Nat → Nat → Nat → Nat → Nat × Int
  | 0, _, _, swaps => (g, swapSign swaps)
  | fuel + 1, g1, g2, swaps =>
    if g1 > 0 then
      let l := lsi g1
      extLoop g fuel (clearBit g1 l) (g2 ||| (1 <<< l)) ((swaps + popCount (g2 &&& ((1 <<< l) - 1))) % 256)
    else (g, swapSign swaps)

/-- `exterior::product` (geometric_algebra.hpp:190-222). -/
def extProduct (g1 g2 : Nat) : Nat × Int :=
  if g1 = 0 then (g2, 1)
  else if g2 = 0 then (g1, 1)
  else if g1 &&& g2 ≠ 0 then (0, 0)
  else extLoop (g1 ||| g2) g1 g1 g2 0

/-- Loop of `contract::product` (geometric_algebra.hpp:241-261). -/
def conLoop (m : Metric) : Nat → Nat → Nat → Nat → Nat × Int
  | 0, _, g2, swaps => (g2, swapSign swaps)
  | fuel + 1, g1, g2, swaps =>
    if g1 > 0 then
      let l := lsi g1
      match m.intercept l g2 with
      | none => (0, 0)
      | some (index, dot) =>
        if dot = 0 then (0, 0)
        else
          let swaps := (swaps + popCount (g2 &&& ((1 <<< index) - 1))) % 256
          let swaps' := if dot = -1 then (swaps + 1) % 256 else swaps
          conLoop m fuel (clearBit g1 l) (clearBit g2 index) swaps'
    else (g2, swapSign swaps)

/-- `contract::product` (geometric_algebra.hpp:227-263). -/
def conProduct (m : Metric) (g1 g2 : Nat) : Nat × Int :=
  if g1 = 0 then (g2, 1)
  else if popCount g1 > popCount g2 then (0, 0)
  else conLoop m g1 g1 g2 0

/-- `symmetric_inner::product` (geometric_algebra.hpp:268-296). -/
def symProduct (m : Metric) (g1 g2 : Nat) : Nat × Int :=
  if g1 = 0 ∨ g2 = 0 then (0, 0)
  else
    let (g, multiplier) := geoProduct m g1 g2
    if multiplier = 0 then (0, 0)
    else
      let targetGrade := ((popCount g1 : Int) - popCount g2).natAbs
      if popCount g = targetGrade then (g, multiplier) else (0, 0)

end Gal
