import Verif.MvFlat

/-!
# Specification: which arrays represent which multivector
-/

namespace Gal

open Out

/-- Number of indeterminate entries of a list of monomials. -/
def nIndsM (ms : List NMon) : Nat := (ms.map (fun m => m.inds.length)).sum
/-- Number of monomial entries. -/
def nMons (a : NMv) : Nat := (a.map (fun t => t.mons.length)).sum
/-- Number of indeterminate entries. -/
def nInds (a : NMv) : Nat := (a.map (fun t => nIndsM t.mons)).sum

/-- The entries fit into arrays of the given capacities. -/
structure Fits (c : Caps) (a : NMv) : Prop where
  i : nInds a ≤ c.i
  m : nMons a ≤ c.m
  t : a.length ≤ c.t

/-- What the library's well-formedness amounts to: the iterators stay inside the arrays and enumerate no more entries
than the capacities. -/
def Represents (a : Mv) (n : NMv) : Prop := a.view = ok n ∧ Fits a.caps n

/-! ## Packed arrays -/

/-- All monomials in order. -/
def allMons (a : NMv) : List NMon := a.flatMap (fun t => t.mons)
/-- All indeterminates in order. -/
def indsOf (ms : List NMon) : List Ind := ms.flatMap (fun m => m.inds)

/-- Monomial headers with consecutive offsets. -/
def layMons : Nat → List NMon → List Mon
  | _, [] => []
  | o, m :: ms => ⟨m.q, m.degree, m.inds.length, o⟩ :: layMons (o + m.inds.length) ms

/-- Term headers with consecutive offsets. -/
def layTerms : Nat → NMv → List Term
  | _, [] => []
  | o, t :: ts => ⟨t.mons.length, o, t.element⟩ :: layTerms (o + t.mons.length) ts

/-- Packed arrays. -/
def layout (caps : Caps) (a : NMv) : Mv :=
  ⟨caps, nInds a, nMons a, a.length, indsOf (allMons a), layMons 0 (allMons a), layTerms 0 a, .id⟩

/-- The arrays are packed: entries are consecutive and no two terms share storage.  All results of the library's functions
are of this form. -/
structure Packed (a : Mv) (n : NMv) : Prop where
  eq : a = layout a.caps n
  fits : Fits a.caps n

end Gal
