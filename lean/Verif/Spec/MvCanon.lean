import Verif.Spec.MvVal
import Verif.Props.RationalCmp
import Mathlib.Data.Prod.Lex
import Mathlib.Data.List.Lex
import Mathlib.Order.Lex

/-!
# Specification: canonical symbolic multivectors

Terms strictly ascending by element; monomials of a term strictly ascending by degree and then lexicographically by
(id, degree); indeterminates of a monomial strictly ascending by id with non-zero integer degrees; coefficients non-zero
and in lowest terms; no empty term.
-/

namespace Gal

/-- Sort key of an indeterminate: id, then degree. -/
def indKey (i : Ind) : ℕ ×ₗ ℤ := toLex (i.id, i.deg.num)

/-- Sort key of a monomial: total degree, then the keys of its indeterminates lexicographically. -/
def monKey (m : NMon) : ℤ ×ₗ List (ℕ ×ₗ ℤ) := toLex (m.degree.num, m.inds.map indKey)

/-- A power of an indeterminate with a non-zero integer exponent. -/
structure CanonInd (i : Ind) : Prop where
  den : i.deg.den = 1
  rep : InI32 i.deg.num
  nz : i.deg.num ≠ 0

/-- A monomial whose indeterminates and degree are in normal form; the coefficient is in lowest terms. -/
structure PreMon (m : NMon) : Prop where
  q : m.q.Canon
  inds : ∀ i ∈ m.inds, CanonInd i
  asc : m.inds.Pairwise (fun x y => x.id < y.id)
  deg : m.degree = ⟨(m.inds.map (fun i => i.deg.num)).sum, 1⟩
  degOk : InI32 m.degree.num

/-- A canonical monomial. -/
structure CanonMon (m : NMon) : Prop extends PreMon m where
  nz : m.q.num ≠ 0

/-- Canonical list of monomials. -/
structure CanonMons (ms : List NMon) : Prop where
  mons : ∀ m ∈ ms, CanonMon m
  asc : ms.Pairwise (fun x y => monKey x < monKey y)

/-- Canonical multivector. -/
structure CanonMv (a : NMv) : Prop where
  terms : ∀ t ∈ a, CanonMons t.mons ∧ t.mons ≠ []
  asc : a.Pairwise (fun x y => x.element < y.element)

end Gal
