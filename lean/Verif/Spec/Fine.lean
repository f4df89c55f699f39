import Verif.Compute
import Verif.Spec.Program

/-!
# Specification: programs with quotients and functions

Quotients and functions are computed correctly at the end of a temporary, for a divisor or argument that is a single scalar.
-/

namespace Gal

variable {K : Type} [Field K]

/-- The functions by the operation of their node. -/
def Env.named (E : Env K) (o : Nat) : K → K :=
  if o = Op.sqrt then E.fn .sqrt else if o = Op.sin then E.fn .sin else if o = Op.cos then E.fn .cos else E.fn .tan

/-- The argument, with its first indeterminate `off`, is a scalar. -/
def Arg.Scalar (a : Arg K) (off : Nat) : Prop := a.ie off = scalarIe off ∧ a.data.length = 1

/-- The temporary has no element but the scalar. -/
def ScalarTemp (a : Mv) : Prop := a.szT = 1 ∧ (a.terms.getD 0 default).element = 0

/-- A scalar argument, a reference to a scalar temporary, the constant one or a named constant. -/
def ScalarLeaf (args : List (Arg K)) (temps : List (Mv × Nat)) (nc : Nat) (n : Node) : Prop :=
  (n.o = Op.id ∧ ∃ a, args[n.ex]? = some a ∧ a.Scalar (argOffset args n.ex)) ∨
  (n.o = Op.cse ∧ ∃ p, temps[n.ex]? = some p ∧ ScalarTemp p.1) ∨
  n.o = Op.cscalar ∨ (Op.czero < n.o ∧ n.o < Op.cend ∧ n.o - Op.cpi < nc)

/-- The leaves are the same argument, the same temporary or the same constant. -/
def SameLeaf (k x : Node) : Prop := k.o = x.o ∧ (k.o = Op.id ∨ k.o = Op.cse → k.ex = x.ex)

/-- Neither a quotient nor a function. -/
def NotQuot (n : Node) : Prop := n.o ≠ Op.div ∧ ¬ IsFun n.o

/-- The nodes of a temporary: at most the last one is a quotient or function.  Then the one before it is a scalar leaf; for a quotient it
does not occur in the dividend, unless it is the constant one. -/
def BlockFine (args : List (Arg K)) (temps : List (Mv × Nat)) (nc : Nat) (ns : List Node) : Prop :=
  (∀ n ∈ ns, NotQuot n) ∨
  ∃ l x d, ns = l ++ [x, d] ∧ (∀ n ∈ l, NotQuot n) ∧ ScalarLeaf args temps nc x ∧
    ((d.o = Op.div ∧ (x.o ≠ Op.cscalar → ∀ k ∈ l, ¬ SameLeaf k x)) ∨ (IsFun d.o ∧ d.q.num ≠ 0))

/-- The program is a sequence of such temporaries, each followed by `op_noop`, and a main expression without quotients and functions. -/
def ProgramFine (args : List (Arg K)) (temps : List (Mv × Nat)) (nc : Nat) (ns : List Node) : Prop :=
  ∃ (bs : List (List Node)) (m : List Node), ns = (bs.flatMap fun b => b ++ [⟨Op.noop, 0, 0, Rat32.zero⟩]) ++ m ∧
    (∀ b ∈ bs, BlockFine args temps nc b ∧ ∀ n ∈ b, n.o ≠ Op.noop) ∧ ∀ n ∈ m, NotQuot n ∧ n.o ≠ Op.noop

end Gal
