import Verif.MvNested
import Verif.Rat32Lemmas
import Mathlib.Algebra.Module.BigOperators
import Mathlib.Algebra.BigOperators.Group.List.Basic
import Mathlib.Data.Rat.Cast.CharZero

/-!
# Specification: the value of a symbolic multivector

`pw id d` is the value of indeterminate `id` raised to the rational power `d`.  `β e` is the vector that basis element `e`
stands for, in any module `V` over any field `K` of characteristic zero.
-/

namespace Gal

variable {K V : Type} [Field K] [AddCommGroup V] [Module K V]

/-- Value of an indeterminate raised to its degree. -/
def Ind.val (pw : Nat → ℚ → K) (i : Ind) : K := pw i.id i.deg.toQ

/-- Value of a product of powers of indeterminates. -/
def indsVal (pw : Nat → ℚ → K) (l : List Ind) : K := (l.map (Ind.val pw)).prod

/-- Value of a monomial. -/
def NMon.val (pw : Nat → ℚ → K) (m : NMon) : K := (m.q.toQ : K) * indsVal pw m.inds

/-- Value of a polynomial. -/
def monsVal (pw : Nat → ℚ → K) (ms : List NMon) : K := (ms.map (NMon.val pw)).sum

/-- Value of a term. -/
def NTerm.val (pw : Nat → ℚ → K) (β : Nat → V) (t : NTerm) : V := monsVal pw t.mons • β t.element

/-- Value of a multivector. -/
def mvVal (pw : Nat → ℚ → K) (β : Nat → V) (a : NMv) : V := (a.map (NTerm.val pw β)).sum

/-- Integer powers of given values; the power function for indeterminates of integer degree. -/
def intPow (ρ : Nat → K) (id : Nat) (d : ℚ) : K := ρ id ^ d.num

/-- Coefficient and degrees are valid rationals (representable, positive denominator). -/
structure NMon.WF (m : NMon) : Prop where
  q : m.q.WF
  inds : ∀ i ∈ m.inds, i.deg.WF

/-- All rationals in a multivector are valid. -/
def MvWF (a : NMv) : Prop := ∀ t ∈ a, ∀ m ∈ t.mons, m.WF

/-- All degrees of indeterminates are integers. -/
def IntDegs (a : NMv) : Prop := ∀ t ∈ a, ∀ m ∈ t.mons, ∀ i ∈ m.inds, i.deg.den = 1

/-- Elements are representable as `elem_t`. -/
def ElemsLt (n : Nat) (a : NMv) : Prop := ∀ t ∈ a, t.element < n

/-- `pw` turns sums of degrees into products, for degrees occurring in `a` and `b`. -/
structure PowOn (pw : Nat → ℚ → K) (a b : NMv) : Prop where
  zero : ∀ id, pw id 0 = 1
  add : ∀ t ∈ a, ∀ m ∈ t.mons, ∀ i ∈ m.inds, ∀ u ∈ b, ∀ n ∈ u.mons, ∀ j ∈ n.inds, i.id = j.id →
    pw i.id (i.deg.toQ + j.deg.toQ) = pw i.id i.deg.toQ * pw i.id j.deg.toQ

/-- No indeterminate with a negative exponent is assigned zero. -/
def NoPole (ρ : Nat → K) (a : NMv) : Prop := ∀ t ∈ a, ∀ m ∈ t.mons, ∀ i ∈ m.inds, i.deg.num < 0 → ρ i.id ≠ 0

/-- Coefficient of basis element `e`. -/
def coeff (pw : Nat → ℚ → K) (a : NMv) (e : Nat) : K := mvVal pw (fun x => if x = e then (1 : K) else 0) a

section simps
variable (pw : Nat → ℚ → K) (β : Nat → V)

@[simp] theorem indsVal_nil : indsVal pw [] = 1 := rfl
@[simp] theorem indsVal_cons (i : Ind) (l : List Ind) : indsVal pw (i :: l) = i.val pw * indsVal pw l := by
  simp [indsVal]
@[simp] theorem monsVal_nil : monsVal pw [] = 0 := rfl
@[simp] theorem monsVal_cons (m : NMon) (l : List NMon) : monsVal pw (m :: l) = m.val pw + monsVal pw l := by
  simp [monsVal]
@[simp] theorem monsVal_append (l r : List NMon) : monsVal pw (l ++ r) = monsVal pw l + monsVal pw r := by
  simp [monsVal]
@[simp] theorem mvVal_nil : mvVal pw β [] = 0 := rfl
@[simp] theorem mvVal_cons (t : NTerm) (l : NMv) : mvVal pw β (t :: l) = t.val pw β + mvVal pw β l := by
  simp [mvVal]
@[simp] theorem mvVal_append (l r : NMv) : mvVal pw β (l ++ r) = mvVal pw β l + mvVal pw β r := by
  simp [mvVal]

theorem monsVal_perm {l r : List NMon} (h : l.Perm r) : monsVal pw l = monsVal pw r :=
  (h.map _).sum_eq
theorem mvVal_perm {l r : NMv} (h : l.Perm r) : mvVal pw β l = mvVal pw β r :=
  (h.map _).sum_eq
end simps

theorem intPow_zero (ρ : Nat → K) (id : Nat) : intPow ρ id 0 = 1 := by simp [intPow]

end Gal
