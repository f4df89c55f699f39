import Verif.Spec.Values
import Verif.Spec.QuotValue
import Verif.Spec.Fine

/-!
# Specification: expressions whose divisors and arguments of functions are scalars
-/

namespace Gal

variable {K : Type} [Field K]

section

variable [CharZero K] (m : Metric) (args : List (Arg K))
  (D : CliffordAlgebra (diagForm K m.dim m.sq) →ₗ[K] CliffordAlgebra (diagForm K m.dim m.sq))

/-- The tree has neither quotients nor functions and its value is a scalar, whatever the coefficients of the arguments. -/
def AlwaysScalar (u : Tree) : Prop :=
  (∀ n ∈ u.post, NotQuot n) ∧ ∀ (named : Nat → K) (w' : Nat → CliffordAlgebra (diagForm K m.dim m.sq)), MayBe m args w' →
    ∃ s : K, u.val (cliffInterp K m.dim m.sq named D w') = s • 1

/-- The tree has neither quotients nor functions and its value is not zero for all coefficients of the arguments. -/
def SometimesNonzero (u : Tree) : Prop :=
  (∀ n ∈ u.post, NotQuot n) ∧ ∃ (named : Nat → K) (w' : Nat → CliffordAlgebra (diagForm K m.dim m.sq)), MayBe m args w' ∧
    u.val (cliffInterp K m.dim m.sq named D w') ≠ 0

/-- Trees that are scalars: those without quotients and functions whose value is, functions, selected coefficients, quotients of scalars, and
the other operations (but the dual) on scalars. -/
inductive ScalarTree : Tree → Prop
  | exact {u : Tree} : AlwaysScalar m args D u → ScalarTree u
  | fn {n : Node} {t : Tree} : IsFun n.o → ScalarTree (.un n t)
  | comp {n : Node} {t : Tree} : n.o = Op.comp → ScalarTree (.un n t)
  | rev {n : Node} {t : Tree} : n.o = Op.rev → ScalarTree t → ScalarTree (.un n t)
  | quot {n : Node} {l r : Tree} : n.o = Op.div → ScalarTree l → ScalarTree (.bin n l r)
  | bin {n : Node} {l r : Tree} : n.o ≠ Op.div → ScalarTree l → ScalarTree r → ScalarTree (.bin n l r)
  | poly {n : Node} {f : Forest} : (∀ t ∈ f.terms, ScalarTree t) → ScalarTree (.poly n f)

/-- Every divisor is a scalar argument or constant that does not occur in the dividend, or a scalar operation; every argument of a function is a
scalar argument or constant, or a scalar operation that is not zero or at least not always zero.  The conditions on the position say when
`rpn_reshape` makes the operation a temporary: the id of the first argument of the divisor must not equal the position of the quotient, and the
argument of a function must not be at the very beginning.  `I` gives the values. -/
structure QuotFine (nc : Nat) (I : Interp (CliffordAlgebra (diagForm K m.dim m.sq))) (T : Tree) : Prop where
  div : ∀ p d l r, T.At p (.bin d l r) → d.o = Op.div →
    (∃ x, r = .leaf x ∧ ScalarLeaf args [] nc x ∧ (x.o ≠ Op.cscalar → ∀ k ∈ l.post, ¬ SameLeaf k x)) ∨
    (IsShared r.lastNode.o ∧ ScalarTree m args D r ∧
      (r.post.length = 2 ∨ ∀ n, r.post[0]? = some n → n.checksum ≠ p + l.post.length + r.post.length))
  fn : ∀ p d t, T.At p (.un d t) → IsFun d.o → d.q.num ≠ 0 ∧
    ((∃ x, t = .leaf x ∧ ScalarLeaf args [] nc x) ∨
    (IsShared t.lastNode.o ∧ ScalarTree m args D t ∧ 2 < p + t.post.length ∧
      (scalarPart K m.dim m.sq (t.val I) ≠ 0 ∨ SometimesNonzero m args D t)))

end

end Gal
