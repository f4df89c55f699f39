import Verif.Spec.Lambda
import Verif.Spec.QuotValue
import Verif.Spec.Fine

/-!
# Specification: lambdas with quotients, lambdas that return tuples, and lambdas in null bases

What C53 needs beyond `Spec/Lambda`: the condition that no divisor is zero, stated on the lambda, and the checks at compile time for the other
ways to evaluate a lambda.  The checks are functions that can be evaluated; they look at the types of the arguments only.
-/

namespace Gal

open Out

/-- The value of each divisor in the lambda satisfies `nz`. -/
def Lam.Divides {V : Type} [AddCommGroup V] [Module ℚ V] (nz : V → Prop) (I : Interp V) (off : Nat → Nat) : Lam → Prop
  | .arg _ | .num _ _ | .pi _ _ | .elem _ _ => True
  | .scale _ a | .divInt a _ | .neg a | .rev a | .dual a | .comp a _ | .grade a _ | .fn _ a | .addInt _ a | .intSub _ a | .subInt a _ =>
    a.Divides nz I off
  | .add a b | .sub a b | .gp a b | .lc a b | .sip a b | .ep a b | .join a b | .sandwich a b | .sprod a b =>
    a.Divides nz I off ∧ b.Divides nz I off
  | .div a b => a.Divides nz I off ∧ b.Divides nz I off ∧ nz (b.val I off)
  | .inv a => a.Divides nz I off ∧ nz (a.val I off)

/-- The value to which each function in the lambda is applied satisfies `fa`. -/
def Lam.Applies {V : Type} [AddCommGroup V] [Module ℚ V] (fa : Nat → V → Prop) (I : Interp V) (off : Nat → Nat) : Lam → Prop
  | .arg _ | .num _ _ | .pi _ _ | .elem _ _ => True
  | .scale _ a | .divInt a _ | .neg a | .rev a | .dual a | .comp a _ | .grade a _ | .addInt _ a | .intSub _ a | .subInt a _ | .inv a =>
    a.Applies fa I off
  | .add a b | .sub a b | .gp a b | .lc a b | .sip a b | .ep a b | .join a b | .sandwich a b | .sprod a b | .div a b =>
    a.Applies fa I off ∧ b.Applies fa I off
  | .fn o a => a.Applies fa I off ∧ fa o (a.val I off)

/-! ## Quotients -/

/-- Whether the node is neither a quotient nor a function. -/
def notQuot (n : Node) : Bool := !([Op.div, Op.sqrt, Op.sin, Op.cos, Op.tan].contains n.o)

/-- Whether the node is a scalar argument, a reference to a scalar temporary or the constant one. -/
def scalarLeaf {K : Type} (args : List (Arg K)) (temps : List (Mv × Nat)) (n : Node) : Bool :=
  (n.o == Op.id && match args[n.ex]? with
    | some a => a.ie (argOffset args n.ex) == scalarIe (argOffset args n.ex) && a.data.length == 1
    | none => false) ||
  (n.o == Op.cse && match temps[n.ex]? with
    | some p => p.1.szT == 1 && (p.1.terms.getD 0 default).element == 0
    | none => false) ||
  n.o == Op.cscalar

/-- Whether the leaves are the same argument, the same temporary or the same constant. -/
def sameLeaf (k x : Node) : Bool := k.o == x.o && (!(k.o == Op.id || k.o == Op.cse) || k.ex == x.ex)

/-- `BlockFine`, decided. -/
def blockFine {K : Type} (args : List (Arg K)) (temps : List (Mv × Nat)) (ns : List Node) : Bool :=
  ns.all notQuot ||
  match ns.reverse with
  | d :: x :: l => l.all notQuot && scalarLeaf args temps x &&
      ((d.o == Op.div && (x.o == Op.cscalar || l.all fun k => !(sameLeaf k x))) ||
       ([Op.sqrt, Op.sin, Op.cos, Op.tan].contains d.o && d.q.num != 0))
  | _ => false

/-- The nodes between the `op_noop` nodes, and those after the last one. -/
def splitNoop : List Node → List (List Node) × List Node
  | [] => ([], [])
  | n :: ns =>
    if n = ⟨Op.noop, 0, 0, Rat32.zero⟩ then ([] :: (splitNoop ns).1, (splitNoop ns).2)
    else match (splitNoop ns).1 with
      | [] => ([], n :: (splitNoop ns).2)
      | b :: bs => ((n :: b) :: bs, (splitNoop ns).2)

/-- `ProgramFine`, decided. -/
def programFine {K : Type} (args : List (Arg K)) (temps : List (Mv × Nat)) (ns : List Node) : Bool :=
  ((splitNoop ns).1.all fun b => blockFine args temps b && b.all fun n => n.o != Op.noop) &&
  (splitNoop ns).2.all fun n => notQuot n && n.o != Op.noop

/-- All that has to be checked at compile time for a lambda with quotients and functions. -/
def Lam.checkQuot {K : Type} (m : Metric) (args : List (Arg K)) (f : Lam) : Bool :=
  match f.build (argOffset args) with
  | .val e false => f.regular (argOffset args) && shareable f.cap e &&
    match compileExpr m false f.cap args e, reshape f.cap e with
    | .val c false, .val r false => decide (c.state.nextId ≤ indConstantStart) && programFine args c.state.temps r.nodes
    | _, _ => false
  | _ => false

/-! ## Null bases -/

/-- All that has to be checked at compile time for a lambda in an algebra with a null basis. -/
def Lam.checkNull {K : Type} (m : Metric) (args : List (Arg K)) (f : Lam) : Bool :=
  match f.build (argOffset args) with
  | .val e false => f.regular (argOffset args) && noRepeat e.nodes && decide (argsSize args ≤ indConstantStart) &&
    match compileExpr m true f.cap args e with
    | .val c false => c.state.args.all fun a => (toNullBasis m.dim a).isOk
    | _ => false
  | _ => false

/-! ## Tuples -/

/-- `compute(f, args...)` for a lambda that returns a tuple (expr.hpp:340-361, engine.hpp:455-518).  The capacity is the sum of the
capacities of the components and their number (expr.hpp:347-349). -/
def Lam.computeTuple {K : Type} [Field K] (m : Metric) (null : Bool) (E : Env K) (args : List (Arg K)) (fs : List Lam) : Out (List (Entity K)) :=
  mapO (Lam.build (argOffset args)) fs >>= fun es => computeExpr m null ((fs.map Lam.cap).sum + fs.length) E args (concatExpr es)

/-- All that has to be checked at compile time for a lambda that returns a tuple. -/
def Lam.checkTuple {K : Type} (m : Metric) (null : Bool) (args : List (Arg K)) (fs : List Lam) : Bool :=
  match mapO (Lam.build (argOffset args)) fs with
  | .val es false => (fs.all fun f => f.regular (argOffset args)) && (es.all Rpne.nonzero) && noRepeat (concatExpr es).nodes &&
    decide (argsSize args ≤ indConstantStart) &&
    match compileExpr m null ((fs.map Lam.cap).sum + fs.length) args (concatExpr es) with
    | .val c false => !null || c.state.args.all fun a => (toNullBasis m.dim a).isOk
    | _ => false
  | _ => false

end Gal
