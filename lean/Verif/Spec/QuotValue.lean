import Verif.Spec.CliffValue
import Verif.Subtree

/-!
# Specification: the value of expressions with quotients and functions

Divisors and arguments of functions are meant to be scalars, that is multiples of one.
-/

namespace Gal

section

variable (K : Type) [Field K]

/-- The coefficient of one. -/
noncomputable def scalarPart (n : Nat) (d : Nat → Int) : CliffordAlgebra (diagForm K n d) →ₗ[K] K :=
  (Finsupp.lapply 0 : (Nat →₀ K) →ₗ[K] K).comp (bladeCoords K n d)

theorem cliffBlade_zero (n : Nat) (d : Nat → Int) : cliffBlade K n d 0 = 1 := by rw [cliffBlade, bladeOf_zero]

theorem scalarPart_smul_one (n : Nat) (d : Nat → Int) (c : K) : scalarPart K n d (c • 1) = c := by
  unfold scalarPart
  rw [LinearMap.comp_apply, ← cliffBlade_zero, map_smul, bladeCoords_blade K n d 0 (Nat.two_pow_pos n)]
  simp

/-- As `cliffInterp`, with a value for quotients and functions: the quotient by a scalar multiplies with its inverse, and a function of a
scalar is a scalar. -/
noncomputable def fullInterp [CharZero K] (n : Nat) (d : Nat → Int) (named : Nat → K)
    (D : CliffordAlgebra (diagForm K n d) →ₗ[K] CliffordAlgebra (diagForm K n d))
    (w : Nat → CliffordAlgebra (diagForm K n d)) (f : Nat → K → K) : Interp (CliffordAlgebra (diagForm K n d)) :=
  { cliffInterp K n d named D w with
    quot := fun x y => (scalarPart K n d y)⁻¹ • x
    fn := fun o x => f o (scalarPart K n d x) • 1
    quot_smul := by
      intro a b x y hb
      rw [← Rat.cast_smul_eq_qsmul K b y, map_smul, ← Rat.cast_smul_eq_qsmul K a x, ← Rat.cast_smul_eq_qsmul K (a / b), smul_smul, smul_smul]
      congr 1
      have : (b : K) ≠ 0 := by exact_mod_cast hb
      rw [smul_eq_mul, mul_inv]
      push_cast
      ring }

variable {K}

/-- The divisors are not zero. -/
def Divisors [CharZero K] {n : Nat} {d : Nat → Int} (I : Interp (CliffordAlgebra (diagForm K n d))) (T : Tree) : Prop :=
  ∀ p x l r, T.At p (.bin x l r) → x.o = Op.div → scalarPart K n d (r.val I) ≠ 0

/-- The functions are applied to numbers that satisfy `Φ`. -/
def FnArgs [CharZero K] {n : Nat} {d : Nat → Int} (Φ : MvOp → K → Prop) (I : Interp (CliffordAlgebra (diagForm K n d))) (T : Tree) : Prop :=
  ∀ p x l, T.At p (.un x l) → IsFun x.o → Φ (fnOp x.o) (scalarPart K n d (x.q.toQ • l.val I))

theorem fnArgs_true [CharZero K] {n : Nat} {d : Nat → Int} (I : Interp (CliffordAlgebra (diagForm K n d))) (T : Tree) :
    FnArgs (fun _ _ => True) I T := fun _ _ _ _ _ => trivial

end

end Gal
