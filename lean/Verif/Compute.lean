import Verif.Engine
import Verif.Machine
import Verif.Reshape

/-!
# `compute`, from the expression to the result (engine.hpp)

The lambda has already been applied to the expressions of the arguments (`argExprs`), which gives an expression or, for a lambda that
returns a tuple, the concatenation of several (`concatExpr`).
-/

namespace Gal

open Out

variable {K : Type} [Field K]

/-- An argument of `compute` (engine.hpp:455-456): its indeterminate expression `D::ie(id)` and its coefficients.  `D::size()` is the
number of coefficients; a plain number has one (engine.hpp:358-369). -/
structure Arg (K : Type) where
  ie : Nat → Mv
  data : List K

/-- An entity as an argument (entity.hpp:70-75). -/
def Entity.toArg (x : Entity K) : Arg K := ⟨fun id => constructIe id x.elements, x.data⟩

/-- A floating-point number as an argument (dfa.hpp:83-87, engine.hpp:45-48). -/
def numArg (v : K) : Arg K := ⟨scalarIe, [v]⟩

/-- `entities.second.first` (engine.hpp:465, expr.hpp:277-313): the number of coefficients of all arguments.  Ids are `uint32_t` in the
code and plain numbers here. -/
def argsSize (args : List (Arg K)) : Nat := (args.map fun a => a.data.length).sum

/-- `current_id` for argument `i` in `rpne_entities` (expr.hpp:277-305). -/
def argOffset (args : List (Arg K)) (i : Nat) : Nat := argsSize (args.take i)

/-- `entities.first` (engine.hpp:465, expr.hpp:277-313): what the lambda is applied to. -/
def argExprs (args : List (Arg K)) : List Rpne := (List.range args.length).map fun i => entityExpr (argOffset args i) i

/-- One entry of `rpn_inputs` (dfa.hpp:72-98).  An index that is not an argument does not compile and does not arise. -/
def argMv (args : List (Arg K)) (i id : Nat) : Mv :=
  match args[i]? with
  | some a => a.ie id
  | none => ⟨⟨0, 0, 0⟩, 0, 0, 0, [], [], [], .id⟩

/-- What `compute` determines at compile time (engine.hpp:464-485): `processed` and `scale_factor`. -/
structure Compiled where
  state : RState Mv
  q : Rat32

/-- The compile-time part of `compute` (engine.hpp:458-485); `cap` is the capacity of the expression.  Without arguments it does not compile
(engine.hpp:459). -/
def compileExpr (m : Metric) (null : Bool) (cap : Nat) (args : List (Arg K)) (e : Rpne) : Out Compiled :=
  if args.isEmpty then .ub
  else do
    let r ← reshape cap e
    let s ← runNodes (mvOps m null) r.nodes.length r.nodes ⟨gatherInputs (argMv args) r.nodes, [], [], argsSize args⟩
    return ⟨s, r.q⟩

theorem compileExpr_eq_ok {m : Metric} {null : Bool} {cap : Nat} {args : List (Arg K)} {e : Rpne} {c : Compiled} :
    compileExpr m null cap args e = ok c ↔ args ≠ [] ∧ ∃ r, reshape cap e = ok r ∧ ∃ s,
      runNodes (mvOps m null) r.nodes.length r.nodes ⟨gatherInputs (argMv args) r.nodes, [], [], argsSize args⟩ = ok s ∧ (⟨s, r.q⟩ : Compiled) = c := by
  unfold compileExpr
  cases args with
  | nil => simp
  | cons a l => simp [bind_eq_ok, pure_eq, ok_inj]

/-- The dimension for the conversion of results (engine.hpp:268, 291). -/
def nullDim (m : Metric) (null : Bool) : Option Nat := if null then some m.dim else none

/-- The branches on the number of results (engine.hpp:496-517). -/
def finishCompute (nd : Option Nat) (E : Env K) (q : Rat32) : List Mv → Out (List (Entity K))
  | [] => ok [⟨[], []⟩]
  | [a] => do
    let x ← finalizeEntity nd E a q.num q.den
    return [x]
  | as => finalizeEntities nd E as q.num q.den

/-- The run-time part of `compute` (engine.hpp:486-517).  `E` supplies the named constants and the functions; its data are replaced by a
zero-initialised array for the arguments and temporaries. -/
def runCompiled (m : Metric) (null : Bool) (E : Env K) (args : List (Arg K)) (c : Compiled) : Out (List (Entity K)) := do
  let data ← fill (List.replicate (argsSize args + c.state.nextId - argsSize args) 0) 0 (args.map fun a => a.data)
  let E ← finalizeTemps (nullDim m null) { E with data := data } c.state.temps
  finishCompute (nullDim m null) E c.q c.state.args

/-- `compute` (engine.hpp:455-518) for the expression `e` of capacity `cap`. -/
def computeExpr (m : Metric) (null : Bool) (cap : Nat) (E : Env K) (args : List (Arg K)) (e : Rpne) : Out (List (Entity K)) := do
  let c ← compileExpr m null cap args e
  runCompiled m null E args c

end Gal
