import Verif.Clifford

/-!
# Specification: names of basis elements and texts of numbers
-/

namespace Gal

/-- The product of the generators with the given digits, in order. -/
def namedProduct {A : Type} [Ring A] (gen : Nat → A) (digits : List Char) : A := (digits.map fun c => gen (c.toNat - 48)).prod

/-- The text of a number as a stream writes it: it has no spaces, and no `e` in it is followed by a digit or the end (the exponent of
`1e+05` has a sign; `inf` and `nan` have no `e`). -/
def NumberText (t : List Char) : Prop := ' ' ∉ t ∧ ∀ u v, t = u ++ 'e' :: v → ∃ c w, v = c :: w ∧ c.isDigit = false

end Gal
