import Verif.Rounded
import Mathlib.Data.Real.Basic
import Mathlib.Algebra.Order.Archimedean.Real.Basic
import Mathlib.Data.Int.Log
import Mathlib.Algebra.Order.Round

/-!
# Specification: floating-point arithmetic and error bounds

The standard model of floating-point arithmetic (IEEE 754 without overflow and underflow): each operation returns the exact result times `1 + δ`
with `|δ| ≤ u`.  An error bound counts roundings.
-/

namespace Gal

/-- The standard model with unit roundoff `u`. -/
structure Arith.Standard (A : Arith ℝ) (u : ℝ) : Prop where
  add : ∀ x y, ∃ δ, |δ| ≤ u ∧ A.add x y = (x + y) * (1 + δ)
  mul : ∀ x y, ∃ δ, |δ| ≤ u ∧ A.mul x y = x * y * (1 + δ)
  div : ∀ x y, ∃ δ, |δ| ≤ u ∧ A.div x y = x / y * (1 + δ)
  int : ∀ n : Int, ∃ δ, |δ| ≤ u ∧ A.int n = n * (1 + δ)

/-- The largest relative error of a product of `k` factors `1 + δ` or `1 / (1 + δ)`. -/
noncomputable def gam (u : ℝ) (k : Nat) : ℝ := 1 / (1 - u) ^ k - 1

/-- Roundings in a power with a positive exponent. -/
def powCost (n : Nat) : Nat := if n ≤ 8 then n - 1 else n

/-- Roundings in a power of an indeterminate; a negative exponent costs a division. -/
def indCost (i : Ind) : Nat := powCost i.deg.num.natAbs + if i.deg.num < 0 then 1 else 0

/-- Roundings in a product of powers. -/
def indsCost : List Ind → Nat
  | [] => 0
  | [i] => indCost i
  | i :: is => indCost i + indsCost is + 1

/-- Roundings in the multiplication with a rational number: conversions count. -/
def factorCost (q : Rat32) : Nat :=
  if q.den.natAbs > 1 then if q.num.natAbs > 1 ∨ q.num = -1 then 4 else 2 else if q.num.natAbs > 1 ∨ q.num = -1 then 2 else 0

/-- Roundings in a monomial. -/
def monCost (m : NMon) : Nat := if m.inds = [] then 3 else indsCost m.inds + factorCost m.q

/-- Roundings that affect a monomial of a sum, at most. -/
def termCost : List NMon → Nat
  | [] => 0
  | [m] => monCost m
  | m :: ms => max (monCost m) (termCost ms) + 1

section binary
variable {K : Type} [Field K] [LinearOrder K] [IsStrictOrderedRing K] [FloorRing K]

/-- The nearest integer; of two, the even one. -/
def nearestEven (y : K) : Int := if y - ⌊y⌋ = 1 / 2 ∧ ⌊y⌋ % 2 = 0 then ⌊y⌋ else round y

/-- Rounding to the nearest number with `p` significant binary digits, ties to even; the exponent is unbounded. -/
def roundBits (p : Nat) (x : K) : K := nearestEven (x / 2 ^ (Int.log 2 |x| + 1 - p)) * 2 ^ (Int.log 2 |x| + 1 - p)

/-- Binary floating-point arithmetic with `p` significant digits: `p = 24` is `float` and `p = 53` is `double`, as long as nothing overflows
or underflows. -/
def binaryArith (K : Type) [Field K] [LinearOrder K] [IsStrictOrderedRing K] [FloorRing K] (p : Nat) : Arith K :=
  ⟨fun x y => roundBits p (x + y), fun x y => roundBits p (x * y), fun x y => roundBits p (x / y), fun n => roundBits p n⟩

end binary

end Gal
