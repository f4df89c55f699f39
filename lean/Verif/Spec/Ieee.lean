import Verif.Spec.RoundedLimit
import Verif.Props.PolyNull
import Mathlib.Data.Nat.Log

/-!
# Specification: the numbers of a format of IEEE 754
-/

namespace Gal

/-- A number of the format: an integer with at most `p` digits times a power of two. -/
def IeeeNumber (p : Nat) (emin emax : Int) (y : ℝ) : Prop := ∃ m e : Int, |m| < 2 ^ p ∧ emin ≤ e ∧ y = m * (2 : ℝ) ^ e ∧ |y| < 2 ^ emax

/-- A number that is zero, or neither smaller than `2⁻ᵃ` nor larger than `2ᵃ` in absolute value. -/
def InRange (a : Nat) (x : ℝ) : Prop := x = 0 ∨ (2 : ℝ)⁻¹ ^ a ≤ |x| ∧ |x| ≤ 2 ^ a

/-- The smallest `k` with `|n| ≤ 2ᵏ`. -/
def intSize (n : Int) : Nat := Nat.clog 2 n.natAbs

/-- What a monomial adds to the exponent of two, at most, when the indeterminates are between `2⁻ᵃ` and `2ᵃ`: `a` times its degree and the sizes of the
numerator and denominator of its coefficient. -/
def ratMonoSize (a : Nat) (m : RatMono) : Nat := a * (m.2.map Prod.snd).sum + intSize m.1.num + intSize m.1.den

/-- The same for a sum: each addition may double the larger summand. -/
def ratPolySize (a : Nat) : List RatMono → Nat
  | [] => 0
  | [m] => ratMonoSize a m
  | m :: ms => max (ratMonoSize a m) (ratPolySize a ms) + 1

end Gal
