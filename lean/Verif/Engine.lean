import Verif.MvFlat
import Verif.Pow
import Verif.Entity

/-!
# Run-time evaluation (public/gal/engine.hpp)

Run-time numbers are elements of a field `K`.  `std::pow` with a fractional exponent and the functions `std::sin`,
`std::cos`, `std::tan`, `std::sqrt` are parameters.  Expressions are reached through the iterators (`Mv.view`), which read
the same array entries as the index sequences of the code.
-/

namespace Gal

open Out

variable {K : Type} [Field K]

/-- `ind_constant_start` (algebra.hpp:15-20). -/
def indConstantStart : Nat := 4294967167

/-- What evaluation depends on: the array `data` (an `ind_value` is a number or a pointer to one, engine.hpp:14-36; only
the number is kept), `ind_constants` (algebra.hpp:22-23), `std::pow(s, N / D)` (numeric.hpp:21-24) and the functions of
`apply_mv_op` (engine.hpp:74-97). -/
structure Env (K : Type) where
  data : List K
  consts : List K
  fpow : K → Int → Int → K
  fn : MvOp → K → K

/-- `data_value` (engine.hpp:102-112). -/
def Env.get (E : Env K) (id : Nat) : Out K :=
  if id ≥ indConstantStart then
    match E.consts[id - indConstantStart]? with
    | none => .ub
    | some v => ok v
  else
    match E.data[id]? with
    | none => .ub
    | some v => ok v

/-- `apply_mv_op` (engine.hpp:74-97). -/
def Env.app (E : Env K) (o : MvOp) (v : K) : K := if o = .id then v else E.fn o v

/-- `gal::pow` on both template parameters (numeric.hpp:18-91). -/
def Env.pow (E : Env K) (s : K) (d : Rat32) : Out K :=
  if d.den > 1 then ok (E.fpow s d.num d.den) else Gal.pow s d.num

/-- One factor of the fold expression (engine.hpp:134-137). -/
def Env.factor (E : Env K) (i : Ind) : Out K := do
  let s ← E.get i.id
  E.pow s i.deg

/-- The right fold `(… * ...)` over the indeterminates (engine.hpp:134-138).  A fold over an empty pack does not occur. -/
def Env.prod (E : Env K) : List Ind → Out K
  | [] => .ub
  | [i] => E.factor i
  | i :: is => do
    let x ← E.factor i
    let y ← E.prod is
    return x * y

/-- `static_cast<F>(q)` (numeric.hpp:245-251). -/
def Rat32.cast (q : Rat32) : K := (q.num : K) / (q.den : K)

/-- `cmon::value` (engine.hpp:114-171). -/
def Env.mon (E : Env K) (o : MvOp) (m : NMon) : Out K :=
  if m.q.num = 0 then ok 0
  else if m.inds = [] then ok (E.app o (m.q.cast))
  else if m.q.den.natAbs > 1 then
    if m.q.num.natAbs > 1 ∨ m.q.num = -1 then do
      let p ← E.prod m.inds
      return E.app o (m.q.cast * p)
    else do
      let p ← E.prod m.inds
      return E.app o (p / (m.q.den : K))
  else if m.q.num.natAbs > 1 ∨ m.q.num = -1 then do
    let p ← E.prod m.inds
    return E.app o ((m.q.num : K) * p)
  else do
    let p ← E.prod m.inds
    return E.app o p

/-- `cterm::value` (engine.hpp:178-188); a fold of `+` over an empty pack does not compile. -/
def Env.term (E : Env K) (o : MvOp) : List NMon → Out K
  | [] => .ub
  | [m] => E.mon o m
  | m :: ms => do
    let x ← E.mon o m
    let y ← E.term o ms
    return x + y

/-- The scaling shared by the four branches of `compute_entity` (engine.hpp:203-235). -/
def scaleBy (num den : Int) (v : K) : K :=
  if den.natAbs > 1 then
    if num.natAbs > 1 ∨ num = -1 then (num : K) / (den : K) * v else v / (den : K)
  else if num.natAbs > 1 ∨ num = -1 then (num : K) * v
  else v

/-- `compute_entity` (engine.hpp:190-237). -/
def computeEntity (E : Env K) (a : Mv) (num den : Int) : Out (Entity K) := do
  let n ← a.view
  let vs ← mapO (fun t => E.term a.op t.mons) n
  return ⟨n.map (·.element), vs.map (scaleBy num den)⟩

/-- `data[i] = v` with the array bound (engine.hpp:249). -/
def Env.write (E : Env K) (i : Nat) (v : K) : Out (Env K) :=
  if i < E.data.length then ok { E with data := E.data.set i v } else .ub

/-- The comma fold of `compute_temp` (engine.hpp:249-252): each term is evaluated on the array as left by the previous
assignments. -/
def tempLoop (o : MvOp) : Env K → Nat → NMv → Out (Env K)
  | E, _, [] => ok E
  | E, i, t :: ts => do
    let v ← E.term o t.mons
    let E ← E.write i v
    tempLoop o E (i + 1) ts

/-- `compute_temp` (engine.hpp:239-254). -/
def computeTemp (E : Env K) (a : Mv) (offset : Nat) : Out (Env K) := do
  let n ← a.view
  tempLoop a.op E offset n

/-- The conversion in `finalize_temps` and `finalize_entity` (engine.hpp:268-277, 291-301).  `nullDim` is the dimension if
the algebra uses the null basis. -/
def toOutput (nullDim : Option Nat) (a : Mv) : Out Mv :=
  match nullDim with
  | none => ok a
  | some d => toNullBasis d a

/-- `finalize_temps` (engine.hpp:256-284): temporaries as (expression, id). -/
def finalizeTemps (nullDim : Option Nat) : Env K → List (Mv × Nat) → Out (Env K)
  | E, [] => ok E
  | E, (a, id) :: ts => do
    let a ← toOutput nullDim a
    let E ← computeTemp E a id
    finalizeTemps nullDim E ts

/-- `finalize_entity` (engine.hpp:286-302). -/
def finalizeEntity (nullDim : Option Nat) (E : Env K) (a : Mv) (num den : Int) : Out (Entity K) := do
  let a ← toOutput nullDim a
  computeEntity E a num den

/-- `finalize_entities` (engine.hpp:318-339): the results lie on the stack with the last one first; they are returned in
reverse. -/
def finalizeEntities (nullDim : Option Nat) (E : Env K) (args : List Mv) (num den : Int) : Out (List (Entity K)) :=
  mapO (fun a => finalizeEntity nullDim E a num den) args.reverse

/-- `fill` (engine.hpp:38-68) into a zero-initialised array of `data` (engine.hpp:489-492): the coefficients of the inputs
one after the other, starting at `i`. -/
def fill : List K → Nat → List (List K) → Out (List K)
  | data, _, [] => ok data
  | data, i, d :: ds => do
    let data ← fillOne data i d
    fill data (i + d.length) ds
where
  /-- One input (engine.hpp:41-55). -/
  fillOne : List K → Nat → List K → Out (List K)
  | data, _, [] => ok data
  | data, i, v :: vs => if i < data.length then fillOne (data.set i v) (i + 1) vs else .ub

end Gal
