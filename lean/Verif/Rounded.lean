import Verif.Compute
import Verif.Spec.Lambda

/-!
# Run-time evaluation with an arithmetic that may round (engine.hpp, numeric.hpp)

The same functions as in `Engine`, `Pow` and `Compute`, with the four arithmetic operations of the number type as parameters.  Each function performs
its operations in the order in which the code performs them, so that a statement about the results can take rounding into account.  The compiler
is taken not to contract or reassociate them (no `-ffast-math`, no fused multiply-add).  The functions of `Engine` are the case of exact
arithmetic (`Props/Rounded.lean`).
-/

namespace Gal

open Out

/-- The operations of the number type `F`: `+`, `*`, `/` and `static_cast<F>` of an integer (engine.hpp:126-168, numeric.hpp:245-251). -/
structure Arith (K : Type) where
  add : K → K → K
  mul : K → K → K
  div : K → K → K
  int : Int → K

variable {K : Type} [Field K] (A : Arith K)

/-- Exact arithmetic. -/
def Arith.exact : Arith K := ⟨(· + ·), (· * ·), (· / ·), fun n => (n : K)⟩

/-- The square-and-multiply loop (numeric.hpp:77-89), as `powLoop`. -/
def Arith.powLoop : Nat → K → K → Nat → K
  | 0, t1, t2, _ => A.mul t1 t2
  | fuel + 1, t1, t2, e =>
    if e > 1 then Arith.powLoop fuel (if e % 2 = 1 then A.mul t1 t2 else t1) (A.mul t2 t2) (e / 2)
    else A.mul t1 t2

/-- The cases `N >= 0` of `pow<T, N, D>` (numeric.hpp:26-29 and 39-90), as `powNat`. -/
def Arith.powNat (s : K) : Nat → K
  | 1 => s
  | 2 => A.mul s s
  | 3 => A.mul (A.mul s s) s
  | 4 => A.mul (A.mul s s) (A.mul s s)
  | 5 => A.mul (A.mul (A.mul s s) (A.mul s s)) s
  | 6 => A.mul (A.mul (A.mul s s) s) (A.mul (A.mul s s) s)
  | 7 => A.mul (A.mul (A.mul (A.mul s s) (A.mul s s)) (A.mul s s)) s
  | 8 => A.mul (A.mul (A.mul s s) (A.mul s s)) (A.mul (A.mul s s) (A.mul s s))
  | n => A.powLoop n 1 s n

/-- `gal::pow` for `D <= 1` (numeric.hpp:18-91), as `pow`. -/
def Arith.ipow (s : K) (N : Int) : Out K :=
  if N = 1 then ok s
  else if N = -1 then ok (A.div 1 s)
  else if N < 0 then do
    let m ← chk (-N)
    return A.div 1 (A.powNat s m.toNat)
  else ok (A.powNat s N.toNat)

/-- One factor of the fold expression (engine.hpp:134-137, numeric.hpp:18-91). -/
def Arith.factor (E : Env K) (i : Ind) : Out K := do
  let s ← E.get i.id
  if i.deg.den > 1 then ok (E.fpow s i.deg.num i.deg.den) else A.ipow s i.deg.num

/-- The right fold `(… * ...)` over the indeterminates (engine.hpp:134-138). -/
def Arith.prod (E : Env K) : List Ind → Out K
  | [] => .ub
  | [i] => A.factor E i
  | i :: is => do
    let x ← A.factor E i
    let y ← Arith.prod E is
    return A.mul x y

/-- `static_cast<F>(q)` (numeric.hpp:245-251). -/
def Arith.cast (q : Rat32) : K := A.div (A.int q.num) (A.int q.den)

/-- `cmon::value` (engine.hpp:114-171). -/
def Arith.mon (E : Env K) (o : MvOp) (m : NMon) : Out K :=
  if m.q.num = 0 then ok 0
  else if m.inds = [] then ok (E.app o (A.cast m.q))
  else if m.q.den.natAbs > 1 then
    if m.q.num.natAbs > 1 ∨ m.q.num = -1 then do
      let p ← A.prod E m.inds
      return E.app o (A.mul (A.cast m.q) p)
    else do
      let p ← A.prod E m.inds
      return E.app o (A.div p (A.int m.q.den))
  else if m.q.num.natAbs > 1 ∨ m.q.num = -1 then do
    let p ← A.prod E m.inds
    return E.app o (A.mul (A.int m.q.num) p)
  else do
    let p ← A.prod E m.inds
    return E.app o p

/-- `cterm::value` (engine.hpp:178-188). -/
def Arith.term (E : Env K) (o : MvOp) : List NMon → Out K
  | [] => .ub
  | [m] => A.mon E o m
  | m :: ms => do
    let x ← A.mon E o m
    let y ← Arith.term E o ms
    return A.add x y

/-- The scaling of `compute_entity` (engine.hpp:203-235). -/
def Arith.scaleBy (num den : Int) (v : K) : K :=
  if den.natAbs > 1 then
    if num.natAbs > 1 ∨ num = -1 then A.mul (A.div (A.int num) (A.int den)) v else A.div v (A.int den)
  else if num.natAbs > 1 ∨ num = -1 then A.mul (A.int num) v
  else v

/-- `compute_entity` (engine.hpp:190-237). -/
def Arith.computeEntity (E : Env K) (a : Mv) (num den : Int) : Out (Entity K) := do
  let n ← a.view
  let vs ← mapO (fun t => A.term E a.op t.mons) n
  return ⟨n.map (·.element), vs.map (A.scaleBy num den)⟩

/-- The comma fold of `compute_temp` (engine.hpp:249-252). -/
def Arith.tempLoop (o : MvOp) : Env K → Nat → NMv → Out (Env K)
  | E, _, [] => ok E
  | E, i, t :: ts => do
    let v ← A.term E o t.mons
    let E ← E.write i v
    Arith.tempLoop o E (i + 1) ts

/-- `compute_temp` (engine.hpp:239-254). -/
def Arith.computeTemp (E : Env K) (a : Mv) (offset : Nat) : Out (Env K) := do
  let n ← a.view
  A.tempLoop a.op E offset n

/-- `finalize_temps` (engine.hpp:256-284). -/
def Arith.finalizeTemps (nullDim : Option Nat) : Env K → List (Mv × Nat) → Out (Env K)
  | E, [] => ok E
  | E, (a, id) :: ts => do
    let a ← toOutput nullDim a
    let E ← A.computeTemp E a id
    Arith.finalizeTemps nullDim E ts

/-- `finalize_entity` (engine.hpp:286-302). -/
def Arith.finalizeEntity (nullDim : Option Nat) (E : Env K) (a : Mv) (num den : Int) : Out (Entity K) := do
  let a ← toOutput nullDim a
  A.computeEntity E a num den

/-- `finalize_entities` (engine.hpp:318-339). -/
def Arith.finalizeEntities (nullDim : Option Nat) (E : Env K) (args : List Mv) (num den : Int) : Out (List (Entity K)) :=
  mapO (fun a => A.finalizeEntity nullDim E a num den) args.reverse

/-- The branches on the number of results (engine.hpp:496-517). -/
def Arith.finishCompute (nd : Option Nat) (E : Env K) (q : Rat32) : List Mv → Out (List (Entity K))
  | [] => ok [⟨[], []⟩]
  | [a] => do
    let x ← A.finalizeEntity nd E a q.num q.den
    return [x]
  | as => A.finalizeEntities nd E as q.num q.den

/-- The run-time part of `compute` (engine.hpp:486-517).  The arguments are numbers of the type `F` already; storing them does not round. -/
def Arith.runCompiled (m : Metric) (null : Bool) (E : Env K) (args : List (Arg K)) (c : Compiled) : Out (List (Entity K)) := do
  let data ← fill (List.replicate (argsSize args + c.state.nextId - argsSize args) 0) 0 (args.map fun a => a.data)
  let E ← A.finalizeTemps (nullDim m null) { E with data := data } c.state.temps
  A.finishCompute (nullDim m null) E c.q c.state.args

/-- `compute` (engine.hpp:455-518) for the expression `e` of capacity `cap`. -/
def Arith.computeExpr (m : Metric) (null : Bool) (cap : Nat) (E : Env K) (args : List (Arg K)) (e : Rpne) : Out (List (Entity K)) := do
  let c ← compileExpr m null cap args e
  A.runCompiled m null E args c

/-- `compute(f, args...)` (engine.hpp:455-518). -/
def Arith.compute (m : Metric) (null : Bool) (E : Env K) (args : List (Arg K)) (f : Lam) : Out (List (Entity K)) :=
  f.build (argOffset args) >>= A.computeExpr m null f.cap E args

/-- `compute(f, args...)` for a lambda that returns a tuple (expr.hpp:340-361, engine.hpp:455-518). -/
def Arith.computeTuple (m : Metric) (null : Bool) (E : Env K) (args : List (Arg K)) (fs : List Lam) : Out (List (Entity K)) :=
  mapO (Lam.build (argOffset args)) fs >>= fun es => A.computeExpr m null ((fs.map Lam.cap).sum + fs.length) E args (concatExpr es)

/-- `vga::point(entity)` (vga.hpp:196-207); the signs do not round. -/
def Arith.vgaPointOf (x : Entity K) : Out (List K) := do
  let a ← x.select 4 13
  let b ← x.select 4 11
  let c ← x.select 4 7
  let w ← x.select 4 14
  let wInv := A.div 1 w
  return [A.mul a (-wInv), A.mul b wInv, A.mul c (-wInv)]

/-- `vga::vector::normalize` (vga.hpp:126-132) and the same lines for rotors and translators, as `normalize3`. -/
def Arith.normalize3 (sqrt : K → K) (x y z : K) : List K :=
  let inv := A.div 1 (sqrt (A.add (A.add (A.mul x x) (A.mul y y)) (A.mul z z)))
  [A.mul x inv, A.mul y inv, A.mul z inv]

end Gal
