import Verif.Spec.Tree
import Verif.Rat32Lemmas
import Mathlib.Algebra.Module.LinearMap.Basic
import Mathlib.Algebra.Module.Rat
import Mathlib.LinearAlgebra.BilinearMap
import Mathlib.Algebra.BigOperators.Group.List.Basic

/-!
# Specification: the value of an expression

`Interp` collects what an algebra has to provide so that an expression has a value: linear and bilinear operations, a quotient
and arbitrary functions.  `Tree.val` is the value of a tree, `Means e v` says that the flat expression `e` built by the operators
has the value `v`.
-/

namespace Gal

/-- An algebra over the rationals with the operations an expression may use. -/
structure Interp (V : Type) [AddCommGroup V] [Module ℚ V] where
  /-- Arguments of the lambda: index and first id. -/
  arg : Nat → Nat → V
  /-- Constants: operation of the node. -/
  const : Nat → V
  rev : V →ₗ[ℚ] V
  pd : V →ₗ[ℚ] V
  comp : Nat → V →ₗ[ℚ] V
  grd : Nat → V →ₗ[ℚ] V
  gp : V →ₗ[ℚ] V →ₗ[ℚ] V
  lc : V →ₗ[ℚ] V →ₗ[ℚ] V
  sip : V →ₗ[ℚ] V →ₗ[ℚ] V
  ep : V →ₗ[ℚ] V →ₗ[ℚ] V
  quot : V → V → V
  fn : Nat → V → V
  rev_rev : ∀ x, rev (rev x) = x
  ep_assoc : ∀ x y z, ep (ep x y) z = ep x (ep y z)
  quot_smul : ∀ (a b : ℚ) x y, b ≠ 0 → quot (a • x) (b • y) = (a / b) • quot x y

/-- The constant one. -/
def Interp.one {V : Type} [AddCommGroup V] [Module ℚ V] (I : Interp V) : V := I.const Op.cscalar

/-- Functions applied coefficient by coefficient. -/
def IsFun (o : Nat) : Prop := o = Op.sqrt ∨ o = Op.sin ∨ o = Op.cos ∨ o = Op.tan

mutual

/-- A tree as the operators build it: the right arities and counts, summands with a nonzero factor, factors of exterior products
without a factor, and a proper fraction at each quotient and function. -/
def Tree.Good : Tree → Prop
  | .leaf n => n.o = Op.id ∨ Op.czero ≤ n.o
  | .un n t => IsUn n.o ∧ (IsFun n.o → n.q.WF) ∧ t.Good
  | .bin n l r => IsBin n.o ∧ (n.o = Op.div → n.q.WF) ∧ l.Good ∧ r.Good
  | .poly n f => IsPoly n.o ∧ n.ex = f.length ∧ 0 < f.length ∧
      f.Good (fun q => if n.o = Op.sum then q.WF ∧ q.num ≠ 0 else q.num = 0)

/-- Operands whose factors satisfy `P`. -/
def Forest.Good : Forest → (Rat32 → Prop) → Prop
  | .nil, _ => True
  | .cons se t f, P => se.o = Op.se ∧ se.ex = t.post.length ∧ P se.q ∧ t.Good ∧ f.Good P

end

section

variable {V : Type} [AddCommGroup V] [Module ℚ V] (I : Interp V)

/-- The exterior product of a list, from the right. -/
def Interp.wedge : List V → V
  | [] => I.one
  | [x] => x
  | x :: y :: ys => I.ep x (Interp.wedge (y :: ys))

mutual

/-- The value of a tree. -/
def Tree.val : Tree → V
  | .leaf n => if n.o = Op.id then I.arg n.ex n.checksum else I.const n.o
  | .un n t =>
    if n.o = Op.rev then I.rev t.val
    else if n.o = Op.pd then I.pd t.val
    else if n.o = Op.comp then I.comp n.ex t.val
    else if n.o = Op.grd then I.grd n.ex t.val
    else I.fn n.o (n.q.toQ • t.val)
  | .bin n l r =>
    if n.o = Op.gp then I.gp l.val r.val
    else if n.o = Op.lc then I.lc l.val r.val
    else if n.o = Op.sip then I.sip l.val r.val
    else n.q.toQ • I.quot l.val r.val
  | .poly n f => if n.o = Op.sum then f.vals.sum else I.wedge f.vals

/-- The values of the operands of a sum or exterior product; a factor with numerator zero stands for one. -/
def Forest.vals : Forest → List V
  | .nil => []
  | .cons se t f => (if se.q.num = 0 then t.val else se.q.toQ • t.val) :: f.vals

end

/-- The expression has the value `v`: it is empty and `v` is zero, or it is the postfix form of a tree times a nonzero factor. -/
def Means (e : Rpne) (v : V) : Prop :=
  (e.nodes = [] ∧ v = 0) ∨
    ∃ t : Tree, t.Good ∧ e.nodes = t.post ∧ e.q.WF ∧ e.q.num ≠ 0 ∧ v = e.q.toQ • t.val I

end

/-- The factor stored in the node does not matter or is one: quotients, functions and operands of inner sums. -/
def Node.Unscaled (n : Node) : Prop :=
  (n.o = Op.se → n.q.num = 0 ∨ n.q.toQ = 1) ∧ (n.o = Op.div ∨ IsFun n.o → n.q.toQ = 1)

/-- No node of the tree carries a factor. -/
def Tree.Unscaled (t : Tree) : Prop := ∀ n ∈ t.post, n.Unscaled

/-- The terms of an expression: the operands of a sum, or the expression itself. -/
def Forest.terms : Forest → List Tree
  | .nil => []
  | .cons _ t f => t :: f.terms

/-- See `Forest.terms`. -/
def Tree.terms : Tree → List Tree
  | .poly n f => if n.o = Op.sum then f.terms else [.poly n f]
  | t => [t]

/-- `Means`, and the terms of the expression carry no factors inside. -/
def MeansU {V : Type} [AddCommGroup V] [Module ℚ V] (I : Interp V) (e : Rpne) (v : V) : Prop :=
  (e.nodes = [] ∧ v = 0) ∨
    ∃ t : Tree, t.Good ∧ e.nodes = t.post ∧ e.q.WF ∧ e.q.num ≠ 0 ∧ v = e.q.toQ • t.val I ∧ ∀ x ∈ t.terms, x.Unscaled

end Gal
