import Verif.Spec.Value

/-!
# Specification: when a machine computes the operations of an algebra
-/

namespace Gal

open Out

/-- The operations `M` on representations compute the operations of `I`, where `R x v` says that `x` represents `v`.  Nodes outside `A`
are not constrained: `A` may exclude inputs, constants, selections of an element or grade, quotients and functions. -/
structure Refines {α V : Type} [AddCommGroup V] [Module ℚ V] (M : Ops α) (ie : Nat → Nat → α) (I : Interp V) (R : α → V → Prop)
    (A : Node → Prop) : Prop where
  input : ∀ n, A n → n.o = Op.id → ∀ x, M.input (ie n.ex n.checksum) = ok x → R x (I.arg n.ex n.checksum)
  const : ∀ n, A n → Op.czero ≤ n.o → ∀ x, M.const n.o = ok x → R x (I.const n.o)
  scale : ∀ q a x v, q.WF → q.num ≠ 0 → R a v → M.scale q a = ok x → R x (q.toQ • v)
  rev : ∀ a x v, R a v → M.rev a = ok x → R x (I.rev v)
  pd : ∀ a x v, R a v → M.pd a = ok x → R x (I.pd v)
  comp : ∀ n, A n → n.o = Op.comp → ∀ a x v, R a v → M.comp n.ex a = ok x → R x (I.comp n.ex v)
  grd : ∀ n, A n → n.o = Op.grd → ∀ a x v, R a v → M.grd n.ex a = ok x → R x (I.grd n.ex v)
  gp : ∀ a b x v w, R a v → R b w → M.gp a b = ok x → R x (I.gp v w)
  lc : ∀ a b x v w, R a v → R b w → M.lc a b = ok x → R x (I.lc v w)
  sip : ∀ a b x v w, R a v → R b w → M.sip a b = ok x → R x (I.sip v w)
  sums : ∀ as vs x, as ≠ [] → List.Forall₂ R as vs → M.sums as.reverse = ok x → R x vs.sum
  eps : ∀ as vs x, as ≠ [] → List.Forall₂ R as vs → M.eps as = ok x → R x (I.wedge vs)
  div : ∀ n, A n → n.o = Op.div → ∀ a b x v w, n.q.WF → R a v → R b w → M.div a b n.q = ok x → R x (n.q.toQ • I.quot v w)
  fn : ∀ n, A n → IsFun n.o → ∀ a x v, n.q.WF → R a v → M.fn n.o n.q a = ok x → R x (I.fn n.o (n.q.toQ • v))

end Gal
