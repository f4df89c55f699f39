import Verif.Spec.Value
import Verif.Compute
import Verif.Spec.Grade

/-!
# Specification: lambdas

`Lam` is the syntax of the lambdas a user passes to `compute`; `Lam.val` is what they mean, operator by operator, in the algebra.  Nothing in
`Lam.val` refers to expressions or nodes.  `Lam.build` is what the overloaded operators make of the lambda, and `Lam.regular` collects the
conditions under which C33 and C34 hold for every operator in it; it can be evaluated.
-/

namespace Gal

open Out

/-- The body of a lambda: the operators of `expr.hpp` applied to parameters and constants.  Left out are `E` (C33), `exp`, and integers
divided by expressions other than `1 / e`. -/
inductive Lam where
  /-- The parameter with the given index. -/
  | arg (k : Nat)
  /-- The rational `n / d`. -/
  | num (n d : Int)
  /-- `n * PI / d` as an operand; in C++ the constant can only be an operand of `*` and `/`. -/
  | pi (n d : Int)
  /-- The basis element `e` times `n`. -/
  | elem (e : Nat) (n : Int)
  /-- `n * a`. -/
  | scale (n : Int) (a : Lam)
  /-- `a / d`. -/
  | divInt (a : Lam) (d : Int)
  /-- `-a`. -/
  | neg (a : Lam)
  /-- `~a`. -/
  | rev (a : Lam)
  /-- `!a`. -/
  | dual (a : Lam)
  /-- `a[e]`. -/
  | comp (a : Lam) (e : Nat)
  /-- `a.select_grade(g)`. -/
  | grade (a : Lam) (g : Nat)
  /-- `sqrt(a)`, `sin(a)`, `cos(a)`, `tan(a)`. -/
  | fn (o : Nat) (a : Lam)
  /-- `a + b`. -/
  | add (a b : Lam)
  /-- `a - b`. -/
  | sub (a b : Lam)
  /-- `n + a` and `a + n`. -/
  | addInt (n : Int) (a : Lam)
  /-- `n - a`. -/
  | intSub (n : Int) (a : Lam)
  /-- `a - n`. -/
  | subInt (a : Lam) (n : Int)
  /-- `a * b`. -/
  | gp (a b : Lam)
  /-- `a >> b`. -/
  | lc (a b : Lam)
  /-- `a | b`. -/
  | sip (a b : Lam)
  /-- `a ^ b`. -/
  | ep (a b : Lam)
  /-- `a & b`. -/
  | join (a b : Lam)
  /-- `a % b`. -/
  | sandwich (a b : Lam)
  /-- `scalar_product(a, b)`. -/
  | sprod (a b : Lam)
  /-- `a / b`. -/
  | div (a b : Lam)
  /-- `1 / a`. -/
  | inv (a : Lam)

/-- The value of a lambda: every operator means the operation of the algebra. -/
def Lam.val {V : Type} [AddCommGroup V] [Module ℚ V] (I : Interp V) (off : Nat → Nat) : Lam → V
  | .arg k => I.arg k (off k)
  | .num n d => ((n : ℚ) / d) • I.one
  | .pi n d => ((n : ℚ) / d) • I.const Op.cpi
  | .elem e n => (n : ℚ) • I.const (Op.cscalar + e)
  | .scale n a => (n : ℚ) • a.val I off
  | .divInt a d => (d : ℚ)⁻¹ • a.val I off
  | .neg a => -a.val I off
  | .rev a => I.rev (a.val I off)
  | .dual a => I.pd (a.val I off)
  | .comp a e => I.comp e (a.val I off)
  | .grade a g => I.grd g (a.val I off)
  | .fn o a => I.fn o (a.val I off)
  | .add a b => a.val I off + b.val I off
  | .sub a b => a.val I off - b.val I off
  | .addInt n a => (n : ℚ) • I.one + a.val I off
  | .intSub n a => (n : ℚ) • I.one - a.val I off
  | .subInt a n => a.val I off - (n : ℚ) • I.one
  | .gp a b => I.gp (a.val I off) (b.val I off)
  | .lc a b => I.lc (a.val I off) (b.val I off)
  | .sip a b => I.sip (a.val I off) (b.val I off)
  | .ep a b => I.ep (a.val I off) (b.val I off)
  | .join a b => I.pd (I.ep (I.pd (a.val I off)) (I.pd (b.val I off)))
  | .sandwich a b => I.gp (I.gp (b.val I off) (a.val I off)) (I.rev (b.val I off))
  | .sprod a b => I.comp 0 (I.sip (a.val I off) (b.val I off))
  | .div a b => I.quot (a.val I off) (b.val I off)
  | .inv a => I.quot I.one (a.val I off)

/-- The expression the lambda returns when it is applied to `rpne_entities` (expr.hpp:142-160, 379-1179), where `off k` is the first
indeterminate of argument `k`. -/
def Lam.build (off : Nat → Nat) : Lam → Out Rpne
  | .arg k => ok (entityExpr (off k) k)
  | .num n d => ok (constExpr n d)
  | .pi n d => imulConst n ⟨0, Rat32.one⟩ >>= (idivConst · d) >>= fun c => ok c.convert
  | .elem e n => ok (elementExpr e n)
  | .scale n a => a.build off >>= imulExpr n
  | .divInt a d => a.build off >>= (divIntExpr · d)
  | .neg a => a.build off >>= negExpr
  | .rev a => a.build off >>= revExpr
  | .dual a => a.build off >>= dualExpr
  | .comp a e => a.build off >>= (compExpr · e)
  | .grade a g => a.build off >>= (gradeExpr · g)
  | .fn o a => a.build off >>= funExpr o
  | .add a b => a.build off >>= fun l => b.build off >>= addExpr l
  | .sub a b => a.build off >>= fun l => b.build off >>= subExpr l
  | .addInt n a => a.build off >>= addIntExpr n
  | .intSub n a => a.build off >>= intSubExpr n
  | .subInt a n => a.build off >>= (subIntExpr · n)
  | .gp a b => a.build off >>= fun l => b.build off >>= gpExpr l
  | .lc a b => a.build off >>= fun l => b.build off >>= lcExpr l
  | .sip a b => a.build off >>= fun l => b.build off >>= sipExpr l
  | .ep a b => a.build off >>= fun l => b.build off >>= epExpr l
  | .join a b => a.build off >>= fun l => b.build off >>= joinExpr l
  | .sandwich a b => a.build off >>= fun l => b.build off >>= sandwichExpr l
  | .sprod a b => a.build off >>= fun l => b.build off >>= scalarProductExpr l
  | .div a b => a.build off >>= fun l => b.build off >>= divExpr l
  | .inv a => a.build off >>= intDivExpr 1

/-- The capacity in the type of the expression a lambda builds (expr.hpp:144, 155, 310, 325, 386, 706, 739, 749, 755, 767, 779, 801-821, 827,
849, 863-896, 935, 977, 1056, 1062, 1092, 1130, 1136). -/
def Lam.cap : Lam → Nat
  | .arg _ | .num _ _ | .pi _ _ | .elem _ _ => 1
  | .scale _ a | .divInt a _ | .neg a => a.cap
  | .rev a | .dual a | .comp a _ | .grade a _ | .fn _ a => a.cap + 1
  | .add a b | .sub a b | .ep a b => a.cap + b.cap + 3
  | .addInt _ a | .intSub _ a | .subInt a _ => 1 + a.cap + 3
  | .gp a b | .lc a b | .sip a b | .div a b => a.cap + b.cap + 1
  | .join a b => (a.cap + 1) + (b.cap + 1) + 3 + 1
  | .sandwich a b => (b.cap + a.cap + 1) + (b.cap + 1) + 1
  | .sprod a b => a.cap + b.cap + 2
  | .inv a => a.cap + 2

/-! ## The conditions -/

/-- A condition on a result, if there is one. -/
def Out.holds {α : Type} (p : α → Bool) : Out α → Bool
  | .val a false => p a
  | _ => true

/-- The factor is one. -/
def Rpne.unit (e : Rpne) : Bool := e.q.den != 0 && e.q.num == e.q.den

/-- The expression is not the zero expression. -/
def Rpne.nonzero (e : Rpne) : Bool := !e.nodes.isEmpty

/-- The last operation. -/
def Rpne.lastOp (e : Rpne) : Option Nat := e.nodes.getLast?.map Node.o

/-- The terms of an expression: the summands without their factors, or the expression itself. -/
def Rpne.termNodes (e : Rpne) : List (List Node) :=
  if e.lastOp = some Op.sum then
    match summands e with
    | .val bs false => bs.map Block.body
    | _ => []
  else [e.nodes]

/-- Terms of two expressions that the library takes for like terms are the same; the comparison does not look at factors inside terms. -/
def likeTerms (l r : Rpne) : Bool := l.termNodes.all fun x => r.termNodes.all fun y => !(nodesSame x y) || x == y

/-- `l + r` is treated by C34: no operand is the zero expression, like terms are the same, two sums have the same factor, and the sum does
not end up without summands. -/
def sumRegular (l r : Rpne) : Bool :=
  l.nonzero && r.nonzero && likeTerms l r &&
  (!(l.lastOp == some Op.sum && r.lastOp == some Op.sum) || l.q.num * r.q.den == r.q.num * l.q.den) &&
  (addExpr l r).holds fun e => e.nodes != [⟨Op.sum, 0, 0, ⟨0, 1⟩⟩]

/-- `l ^ r` is treated by C33: the factors cancel if an operand is an exterior product already. -/
def epRegular (l r : Rpne) : Bool :=
  !(l.lastOp == some Op.ep || r.lastOp == some Op.ep) ||
    (l.q.den != 0 && r.q.den != 0 && l.q.num * r.q.num == l.q.den * r.q.den)

/-- A condition on the expressions of two operands. -/
def both (p : Rpne → Rpne → Bool) (l r : Out Rpne) : Bool := l.holds fun x => r.holds fun y => p x y

/-- The integer fits `int` and is not zero. -/
def intRegular (n : Int) : Bool := decide (InI32 n) && n != 0

/-- The conditions of C33 and C34 for every operator of the lambda. -/
def Lam.regular (off : Nat → Nat) : Lam → Bool
  | .arg _ => true
  | .num n d | .pi n d => intRegular n && decide (InI32 d) && decide (0 < d)
  | .elem _ n => intRegular n
  | .scale n a => a.regular off && decide (InI32 n)
  | .divInt a d => a.regular off && decide (InI32 d) && decide (0 < d)
  | .neg a => a.regular off
  | .rev a => a.regular off && (a.build off).holds Rpne.unit
  | .dual a => a.regular off && (a.build off).holds Rpne.unit
  | .comp a _ => a.regular off
  | .grade a _ => a.regular off
  | .fn o a => a.regular off && (o == Op.sqrt || o == Op.sin || o == Op.cos || o == Op.tan)
  | .add a b => a.regular off && b.regular off && both sumRegular (a.build off) (b.build off)
  | .sub a b => a.regular off && b.regular off && both sumRegular (a.build off) (b.build off >>= negExpr)
  | .addInt n a => a.regular off && intRegular n && (a.build off).holds (sumRegular (constExpr n 1))
  | .intSub n a => a.regular off && intRegular n && (a.build off >>= negExpr).holds (sumRegular (constExpr n 1))
  | .subInt a n => a.regular off && intRegular (-n) && (a.build off).holds (sumRegular (constExpr (-n) 1))
  | .gp a b => a.regular off && b.regular off && both (fun l r => l.nonzero && r.nonzero) (a.build off) (b.build off)
  | .lc a b => a.regular off && b.regular off && both (fun l r => l.nonzero && r.nonzero) (a.build off) (b.build off)
  | .sip a b => a.regular off && b.regular off && both (fun l r => l.nonzero && r.nonzero) (a.build off) (b.build off)
  | .ep a b => a.regular off && b.regular off && both epRegular (a.build off) (b.build off)
  | .join a b => a.regular off && b.regular off && both (fun l r => l.unit && r.unit) (a.build off) (b.build off)
  | .sandwich a b => a.regular off && b.regular off && both (fun l r => l.nonzero && r.nonzero && r.unit) (a.build off) (b.build off)
  | .sprod a b => a.regular off && b.regular off && both (fun l r => l.nonzero && r.nonzero) (a.build off) (b.build off)
  | .div a b => a.regular off && b.regular off && both (fun l r => l.nonzero && r.nonzero) (a.build off) (b.build off)
  | .inv a => a.regular off && (a.build off).holds fun e => e.nonzero && decide (0 < e.q.num)

/-- The operands of `|` are in the order in which the library multiplies them. -/
def inOrder (l r : Rpne) : Bool :=
  l.nodes == r.nodes ||
  match l.nodes.getLast?, r.nodes.getLast? with
  | some x, some y => decide (x.checksum < y.checksum)
  | _, _ => true

/-- For each inner product in the lambda the library keeps the order of the operands, or the order does not matter. -/
def Lam.Ordered {V : Type} [AddCommGroup V] [Module ℚ V] (I : Interp V) (off : Nat → Nat) : Lam → Prop
  | .arg _ | .num _ _ | .pi _ _ | .elem _ _ => True
  | .scale _ a | .divInt a _ | .neg a | .rev a | .dual a | .comp a _ | .grade a _ | .fn _ a | .addInt _ a | .intSub _ a | .subInt a _ | .inv a =>
    a.Ordered I off
  | .add a b | .sub a b | .gp a b | .lc a b | .ep a b | .join a b | .sandwich a b | .div a b => a.Ordered I off ∧ b.Ordered I off
  | .sip a b | .sprod a b => a.Ordered I off ∧ b.Ordered I off ∧
      (both inOrder (a.build off) (b.build off) = true ∨ I.sip (a.val I off) (b.val I off) = I.sip (b.val I off) (a.val I off))

/-- Parameters, basis elements, components and grades exist, as does the value of `PI` if it is used, and there are no quotients and functions.  As in C29, grade `g` can be
selected if no element of grade `g` comes after one of a higher grade. -/
def Lam.InRange (dim nargs nc : Nat) : Lam → Prop
  | .arg k => k < nargs
  | .num _ _ => True
  | .pi _ _ => 0 < nc
  | .elem e _ => e < 2 ^ dim
  | .scale _ a | .divInt a _ | .neg a | .rev a | .dual a | .addInt _ a | .intSub _ a | .subInt a _ => a.InRange dim nargs nc
  | .comp a e => e < 2 ^ dim ∧ a.InRange dim nargs nc
  | .grade a g => (∀ x y, x < y → y < 2 ^ dim → g < gradeOf dim x → gradeOf dim y ≠ g) ∧ a.InRange dim nargs nc
  | .add a b | .sub a b | .gp a b | .lc a b | .sip a b | .ep a b | .join a b | .sandwich a b | .sprod a b =>
    a.InRange dim nargs nc ∧ b.InRange dim nargs nc
  | .fn _ _ | .div _ _ | .inv _ => False

/-- Parameters and the value of `PI` exist, basis elements and components satisfy `el`, grades satisfy `gr`, and quotients and functions occur only if `quot`. -/
def Lam.Parts (el gr : Nat → Prop) (quot : Prop) (nargs nc : Nat) : Lam → Prop
  | .arg k => k < nargs
  | .num _ _ => True
  | .pi _ _ => 0 < nc
  | .elem e _ => el e
  | .scale _ a | .divInt a _ | .neg a | .rev a | .dual a | .addInt _ a | .intSub _ a | .subInt a _ => a.Parts el gr quot nargs nc
  | .comp a e => el e ∧ a.Parts el gr quot nargs nc
  | .grade a g => gr g ∧ a.Parts el gr quot nargs nc
  | .add a b | .sub a b | .gp a b | .lc a b | .sip a b | .ep a b | .join a b | .sandwich a b | .sprod a b =>
    a.Parts el gr quot nargs nc ∧ b.Parts el gr quot nargs nc
  | .fn o a => (quot ∧ (o = Op.sqrt ∨ o = Op.sin ∨ o = Op.cos ∨ o = Op.tan)) ∧ a.Parts el gr quot nargs nc
  | .div a b => quot ∧ a.Parts el gr quot nargs nc ∧ b.Parts el gr quot nargs nc
  | .inv a => quot ∧ a.Parts el gr quot nargs nc

/-! ## Computing a lambda -/

/-- `compute(f, args...)` (engine.hpp:455-518): the lambda is applied to the expressions of the arguments and the result is evaluated. -/
def Lam.compute {K : Type} [Field K] (m : Metric) (null : Bool) (E : Env K) (args : List (Arg K)) (f : Lam) : Out (List (Entity K)) :=
  f.build (argOffset args) >>= computeExpr m null f.cap E args

/-- The operations the extraction of common subexpressions looks at. -/
def sharedOp (o : Nat) : Bool :=
  [Op.rev, Op.pd, Op.sqrt, Op.sin, Op.cos, Op.tan, Op.gp, Op.lc, Op.sip, Op.div, Op.sum, Op.ep].contains o

/-- No operation occurs twice with the same checksum and count. -/
def noRepeat : List Node → Bool
  | [] => true
  | n :: ns => (ns.all fun m => !(n.same m) || !(sharedOp n.o)) && noRepeat ns

/-- Nodes that the extraction does not tell apart have the same factor. -/
def factorsAgree (ns : List Node) : Bool := ns.all fun a => ns.all fun b => !(a.same b) || a.q == b.q

/-- Every reference is to a temporary that was written. -/
def refsWritten : Out (List Cse × List Node) → Bool
  | .val (known, out) false => out.all fun n => n.o != Op.cse ||
      match known[n.ex]? with
      | some c => decide (c.refs > 1) || c.required
      | none => false
  | _ => false

/-- Common subexpressions do no harm: there are none, or they are recognised correctly (C36). -/
def shareable (cap : Nat) (e : Rpne) : Bool := noRepeat e.nodes || (factorsAgree e.nodes && refsWritten (reshapeRaw cap e))

/-- All that has to be checked at compile time, for arguments of the given types. -/
def Lam.check {K : Type} (m : Metric) (args : List (Arg K)) (f : Lam) : Bool :=
  match f.build (argOffset args) with
  | .val e false => f.regular (argOffset args) && shareable f.cap e &&
    match compileExpr m false f.cap args e with
    | .val c false => decide (c.state.nextId ≤ indConstantStart)
    | _ => false
  | _ => false

end Gal
