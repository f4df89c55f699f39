import Verif.Expr
import Verif.Blade
import Verif.Engine

/-!
# The stack machine that evaluates expressions symbolically (dfa.hpp)

`rpn_ctx` is a recursive template over the nodes of an expression.  The machine is written once over an arbitrary type of values
(`Ops`); `mvOps` is the instance the library uses.  Everything the compiler would reject (a stack underflow, an empty fold) is
`ub` here.
-/

namespace Gal

open Out

/-- The operations on stack entries used by `rpn_ctx::compute_state` (dfa.hpp:615-845). -/
structure Ops (α : Type) where
  /-- Conversion of an input before it is pushed (dfa.hpp:617-636). -/
  input : α → Out α
  /-- `temp.ie.create_ref(temp.id)` (dfa.hpp:639-642). -/
  ref : α → Nat → Out α
  /-- `size.term` of a temporary (dfa.hpp:675). -/
  size : α → Nat
  /-- Constants, by node operation (dfa.hpp:816-844). -/
  const : Nat → Out α
  /-- `next_arg.scale(n.q)` (dfa.hpp:653). -/
  scale : Rat32 → α → Out α
  /-- `reverse` (dfa.hpp:682). -/
  rev : α → Out α
  /-- `poincare_dual` (dfa.hpp:689). -/
  pd : α → Out α
  /-- The fold of `op_sum` and the resize (dfa.hpp:692-703). -/
  sums : List α → Out α
  /-- The fold of `op_ep` and the resize (dfa.hpp:717-728). -/
  eps : List α → Out α
  /-- `op_gp` (dfa.hpp:704-716). -/
  gp : α → α → Out α
  /-- `op_lc` (dfa.hpp:729-741). -/
  lc : α → α → Out α
  /-- `op_sip` (dfa.hpp:742-754). -/
  sip : α → α → Out α
  /-- `op_div` (dfa.hpp:755-764). -/
  div : α → α → Rat32 → Out α
  /-- `op_sqrt`, `op_sin`, `op_cos`, `op_tan` (dfa.hpp:765-792). -/
  fn : Nat → Rat32 → α → Out α
  /-- `op_comp` (dfa.hpp:793-804). -/
  comp : Nat → α → Out α
  /-- `op_grd` (dfa.hpp:805-815). -/
  grd : Nat → α → Out α

/-- `rpn_state` (dfa.hpp:591-598).  The checksum that accompanies each stack entry is never read and is left out.  Temporaries
are kept as pairs of expression and id (`rpn_temp`, dfa.hpp:111-118). -/
structure RState (α : Type) where
  inputs : List α
  temps : List (α × Nat)
  args : List α
  nextId : Nat

/-- Split off the top `n` entries of the stack, `State.args.split<n>()` (dfa.hpp:694, 719); see C28 for `split`. -/
def splitArgs {α : Type} (n : Nat) (args : List α) : Out (List α × List α) :=
  if n = 0 ∨ args.length < n then .ub else ok (args.take n, args.drop n)

/-- `rpn_ctx::compute_state` for every node but `op_se` (dfa.hpp:617-845).  The top of the stack is the head of the list; the
exterior product is folded over the reversed arguments. -/
def stepNode {α : Type} (M : Ops α) (n : Node) (s : RState α) : Out (RState α) :=
  if n.o = Op.id then
    match s.inputs with
    | [] => .ub
    | x :: xs => do
      let v ← M.input x
      return { s with inputs := xs, args := v :: s.args }
  else if n.o = Op.cse then
    match s.temps[n.ex]? with
    | none => .ub
    | some (t, id) => do
      let v ← M.ref t id
      return { s with args := v :: s.args }
  else if n.o = Op.noop then
    match s.args with
    | [] => .ub
    | v :: rest => ok { s with temps := s.temps ++ [(v, s.nextId)], args := rest, nextId := s.nextId + M.size v }
  else if n.o = Op.sum then do
    let (xs, rest) ← splitArgs n.ex s.args
    let v ← M.sums xs
    return { s with args := v :: rest }
  else if n.o = Op.ep then do
    let (xs, rest) ← splitArgs n.ex s.args
    let v ← M.eps xs.reverse
    return { s with args := v :: rest }
  else if n.o = Op.gp ∨ n.o = Op.lc ∨ n.o = Op.sip ∨ n.o = Op.div then
    match s.args with
    | y :: x :: rest => do
      let v ← if n.o = Op.gp then M.gp x y else if n.o = Op.lc then M.lc x y else if n.o = Op.sip then M.sip x y else M.div x y n.q
      return { s with args := v :: rest }
    | _ => .ub
  else if Op.rev ≤ n.o ∧ n.o ≤ Op.tan then
    match s.args with
    | x :: rest => do
      let v ← if n.o = Op.rev then M.rev x else if n.o = Op.pd then M.pd x else if n.o = Op.comp then M.comp n.ex x
        else if n.o = Op.grd then M.grd n.ex x else M.fn n.o n.q x
      return { s with args := v :: rest }
    | [] => .ub
  else do
    let v ← M.const n.o
    return { s with args := v :: s.args }

/-- The result of an `op_se` node (dfa.hpp:645-666): the top of the stack left by the sub-expression, scaled unless the
numerator of the factor is zero. -/
def seValue {α : Type} (M : Ops α) (n : Node) : List α → Out α
  | [] => .ub
  | v :: _ => if n.q.num ≠ 0 then M.scale n.q v else ok v

/-- `rpn_ctx<exp, i, l, State>::state` (dfa.hpp:605-883).  An `op_se` node evaluates the nodes it spans on an empty stack, keeps
the inputs and temporaries left by it, and continues behind it.  A span past the end is `ub`; the length is enough fuel. -/
def runNodes {α : Type} (M : Ops α) : Nat → List Node → RState α → Out (RState α)
  | _, [], s => ok s
  | 0, _ :: _, _ => .ub
  | fuel + 1, n :: ns, s =>
    if n.o = Op.se then
      if ns.length < n.ex then .ub
      else do
        let sub ← runNodes M fuel (ns.take n.ex) { s with args := [] }
        let v ← seValue M n sub.args
        runNodes M fuel (ns.drop n.ex) { inputs := sub.inputs, temps := sub.temps, args := v :: s.args, nextId := s.nextId }
    else do
      let s' ← stepNode M n s
      runNodes M fuel ns s'

/-! ## The instance used by the library -/

/-- The resize after every operation (dfa.hpp:701, 714, 726, …). -/
def shrink (a : Mv) : Out Mv := resize a ⟨a.szI, a.szM, a.szT⟩

/-- A right fold `(args.second + ...)` or `(args.second ^ ...)` (dfa.hpp:696, 721); ill-formed for an empty pack. -/
def foldArgs (f : Mv → Mv → Out Mv) : List Mv → Out Mv
  | [] => .ub
  | [x] => ok x
  | x :: y :: rest => do
    let r ← foldArgs f (y :: rest)
    f x r

/-- The multivector of a constant node (dfa.hpp:816-844): the empty multivector, a named constant, or a basis element.  The
element is `n.o - c_scalar`, with no change of basis.  Every other value of `o` also ends in the last branch and is rejected as a
basis element out of range; `c_const_end` itself wraps to a negative element. -/
def constMv (o : Nat) : Out Mv :=
  if o = Op.czero then ok ⟨⟨0, 0, 0⟩, 0, 0, 0, [], [], [], .id⟩
  else if o < Op.czero then .ub
  else if o < Op.cend then
    ok ⟨⟨1, 1, 1⟩, 1, 1, 1, [⟨o - Op.cpi + indConstantStart, Rat32.one⟩], [⟨Rat32.one, Rat32.one, 1, 0⟩], [⟨1, 0, 0⟩], .id⟩
  else if o < Op.cscalar then .ub
  else ok ⟨⟨0, 1, 1⟩, 0, 1, 1, [], [⟨Rat32.one, Rat32.zero, 0, 0⟩], [⟨1, 0, o - Op.cscalar⟩], .id⟩

/-- The function selected by a node (dfa.hpp:765-792). -/
def fnOp (o : Nat) : MvOp :=
  if o = Op.sqrt then .sqrt else if o = Op.sin then .sin else if o = Op.cos then .cos else .tan

/-- `mv::sqrt(q)`, `mv::sin(q)`, `mv::cos(q)`, `mv::tan(q)` (algebra.hpp:522-552). -/
def applyFn (o : MvOp) (q : Rat32) (a : Mv) : Out Mv := scale q { a with op := o }

/-- The operations of `rpn_ctx` on multivectors (dfa.hpp:615-845).  `null` says whether the algebra uses the null basis. -/
def mvOps (m : Metric) (null : Bool) : Ops Mv where
  input a := if null then toNaturalBasis m.dim a else ok a
  ref a id := ok (createRef a id)
  size a := a.szT
  const := constMv
  scale q a := scale q a
  rev := reverse
  pd := poincareDual m.dim
  sums xs := do let r ← foldArgs sum xs; shrink r
  eps xs := do let r ← foldArgs (product extProduct) xs; shrink r
  gp x y := do let r ← product (geoProduct m) x y; shrink r
  lc x y := do let r ← product (conProduct m) x y; shrink r
  sip x y := do let r ← product (symProduct m) x y; shrink r
  div := divide
  fn o q a := applyFn (fnOp o) q a
  comp e a := do let r ← component a e; shrink r
  grd g a := do let r ← selectGrade a g; shrink r

/-- `rpn_ids` and `rpn_inputs` (dfa.hpp:50-98): the inputs in the order of the `op_id` nodes; `ie i id` is the multivector of
argument `i` with first indeterminate `id`. -/
def gatherInputs {α : Type} (ie : Nat → Nat → α) (ns : List Node) : List α :=
  (ns.filter fun n => n.o == Op.id).map fun n => ie n.ex n.checksum

end Gal
