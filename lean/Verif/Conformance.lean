import Verif.Compute
import Verif.Crc
import Verif.Metrics
import Verif.Named
import Verif.Sort
import Mathlib.Algebra.Field.Rat

/-!
# The library's own unit tests, run on the model

**These are tests of the model, not theorems about it.**  Each `example` transcribes one assertion of `/repo/test`, so a difference between
the model and the code that the authors' expectations can see shows up here.  No claim of `MANIFEST.json` rests on this file.

Coefficients are rational numbers.  `π` and the values of `sin`, `cos` and `sqrt` are rational approximations looked up in a table (`env`): an
argument that is not in the table gives the absurd value 1000, so the tests also check which arguments are passed to the functions.
-/

namespace Gal.Conformance

open Out

/-- An approximation of `π` (algebra.hpp:22-23 holds the constant). -/
def pi : ℚ := 3141592653 / 1000000000

/-- An approximation of the sine and cosine of `π / 4` and of the reciprocal of the square root of two. -/
def r2 : ℚ := 70710678 / 100000000

/-- `sin` (engine.hpp:81-84) at the arguments the tests use. -/
def tSin (v : ℚ) : ℚ := if v = pi / 4 then r2 else if v = -pi / 2 then -1 else if v = pi / 2 then 1 else if v = 3 * pi / 2 then -1 else 1000

/-- `cos` (engine.hpp:85-88) at the arguments the tests use. -/
def tCos (v : ℚ) : ℚ := if v = pi / 4 then r2 else if v = 2 * pi then 1 else if v = 3 * pi / 2 then 0 else 1000

/-- `sqrt` (engine.hpp:93-96) at the arguments the tests use. -/
def tSqrt (v : ℚ) : ℚ := if v = 1 then 1 else if v = 2 then 2 * r2 else if v = pi / 4 * (pi / 4) then pi / 4 else 1000

/-- The functions and constants (engine.hpp:74-97, algebra.hpp:22-23). -/
def env : Env ℚ :=
  ⟨[], [pi, 271828 / 100000], fun s n d => if (n, d) = (1, 2) then tSqrt s else if (n, d) = (-1, 2) then 1 / tSqrt s else 1000,
    fun o v => match o with
      | .sin => tSin v
      | .cos => tCos v
      | .sqrt => tSqrt v
      | _ => 1000⟩

/-! ## Writing lambdas (expr.hpp:142-160, 379-1179) -/

/-- A lambda under construction. -/
abbrev Ex := Out Rpne

/-- Apply a binary operator (expr.hpp:379-1179) to two lambdas. -/
def both (f : Rpne → Rpne → Ex) (a b : Ex) : Ex := a >>= fun x => b >>= fun y => f x y

scoped instance : Add Ex := ⟨both addExpr⟩
scoped instance : Sub Ex := ⟨both subExpr⟩
scoped instance : Mul Ex := ⟨both gpExpr⟩
scoped instance : Div Ex := ⟨both divExpr⟩
scoped instance : Neg Ex := ⟨(· >>= negExpr)⟩
scoped instance : HXor Ex Ex Ex := ⟨both epExpr⟩
scoped instance : AndOp Ex := ⟨both joinExpr⟩
scoped instance : ShiftRight Ex := ⟨both lcExpr⟩

/-- `n_e…` (pga.hpp:23-124, vga.hpp:16-72, cga.hpp:28-72). -/
def el (e : Nat) (n : Int := 1) : Ex := ok (elementExpr e n)
/-- `1_ps` (pga.hpp:113-117). -/
def ps : Ex := ok (pseudoscalarExpr 4 1)
/-- `a % b` (expr.hpp:1127-1131). -/
def sw (a b : Ex) : Ex := both sandwichExpr a b
/-- `~a` (expr.hpp:825-845). -/
def rv (a : Ex) : Ex := a >>= revExpr
/-- `a[e]` (expr.hpp:142-151). -/
def at' (a : Ex) (e : Nat) : Ex := a >>= (compExpr · e)
/-- `sqrt(a)` (expr.hpp:861-869). -/
def sqrt' (a : Ex) : Ex := a >>= funExpr Op.sqrt
/-- `sin(a)` (expr.hpp:872-880). -/
def sin' (a : Ex) : Ex := a >>= funExpr Op.sin
/-- `cos(a)` (expr.hpp:883-891). -/
def cos' (a : Ex) : Ex := a >>= funExpr Op.cos
/-- `a / n` (expr.hpp:755-762). -/
def over (a : Ex) (n : Int) : Ex := a >>= (divIntExpr · n)
/-- `n * a` (expr.hpp:706-717). -/
def times (n : Int) (a : Ex) : Ex := a >>= imulExpr n
/-- `n + a` (expr.hpp:801-804). -/
def plus (n : Int) (a : Ex) : Ex := a >>= addIntExpr n
/-- `n * PI * a` (expr.hpp:720-736, 962-972). -/
def timesPi (n : Int) (a : Ex) : Ex := a >>= fun x => imulConst n ⟨0, Rat32.one⟩ >>= gpConst x

/-- `compute` (engine.hpp:455-518) of a lambda with one result, with a capacity that is never reached. -/
def run (m : Metric) (null : Bool) (args : List (Arg ℚ)) (f : (Nat → Ex) → Ex) : Out (List (Entity ℚ)) :=
  f (fun i => ok (entityExpr (argOffset args i) i)) >>= computeExpr m null 1000 env args

/-- `CHECK_EQ(…, doctest::Approx(…))` for all coefficients: the elements of the only result, and its coefficients up to 1/1000000. -/
def gives (x : Out (List (Entity ℚ))) (es : List Nat) (vs : List ℚ) : Bool :=
  match x with
  | .val [z] false => z.elements == es && z.data.length == vs.length && (z.data.zip vs).all fun (a, b) => a - b < 1 / 1000000 && b - a < 1 / 1000000
  | _ => false

/-- `scalar` (entity.hpp:193-231). -/
def sc (v : ℚ) : Arg ℚ := ⟨scalarIe, [v]⟩
/-- `vga::point` in the projective algebra (vga.hpp:156-175). -/
def pt (x y z : ℚ) : Arg ℚ := ⟨vgaPointIe, [x, y, z]⟩
/-- `pga::plane` (pga.hpp:332-400). -/
def plane (d x y z : ℚ) : Arg ℚ := ⟨pgaPlaneIe, [d, x, y, z]⟩
/-- The motor of test_dfa.cpp:227. -/
def motor : Arg ℚ := ⟨pgaMotorIe, [1, 2, -pi / 2, 2 * pi, 5, 6, 7, 8]⟩

/-! ## test_algebra.cpp -/

example : gives (run pgaMetric false [sc 1, sc 2] fun a => a 0 + a 1) [0] [3] = true := by decide +kernel
example : gives (run pgaMetric false [sc 2] fun a => -a 0) [0] [-2] = true := by decide +kernel
example : gives (run pgaMetric false [sc 1] fun a => a 0 + -a 0) [] [] = true := by decide +kernel
example : gives (run pgaMetric false [sc 1, sc 2] fun a => a 0 - a 1) [0] [-1] = true := by decide +kernel
example : gives (run pgaMetric false [sc 1, sc 2] fun a => a 1 - a 0 + a 0) [0] [2] = true := by decide +kernel
example : gives (run pgaMetric false [sc 1, (⟨[1], [1]⟩ : Entity ℚ).toArg] fun a => a 0 + a 1) [0, 1] [1, 1] = true := by decide +kernel

/-- `evaluate<…>::ie` (engine.hpp:412-430) for an expression: the polynomials before they are evaluated. -/
def polys (args : List (Arg ℚ)) (f : (Nat → Ex) → Ex) : Out (List Mv) := do
  let e ← f (fun i => ok (entityExpr (argOffset args i) i))
  let s ← runNodes (mvOps pgaMetric false) e.nodes.length e.nodes ⟨gatherInputs (argMv args) e.nodes, [], [], argsSize args⟩
  return s.args

/-- The layout of one multivector: `(id, degree)`, `(q, count, ind_offset, degree)`, `(element, count, mon_offset)` (algebra.hpp:52-154). -/
structure Layout where
  inds : List (Nat × Int)
  mons : List (Int × Nat × Nat × Int)
  terms : List (Nat × Nat × Nat)
  deriving DecidableEq

/-- The layout of a multivector (algebra.hpp:472-496). -/
def layout (a : Mv) : Layout :=
  ⟨a.inds.map fun i => (i.id, i.deg.num), a.mons.map fun m => (m.q.num, m.count, m.off, m.degree.num), a.terms.map fun t => (t.element, t.count, t.off)⟩

/-- The layout of the only result. -/
def layoutOf (x : Out (List Mv)) : Option Layout :=
  match x with
  | .val [a] false => some (layout a)
  | _ => none

/-- Entities with the elements `0b0, 0b1` (test_algebra.cpp:65) or others. -/
def ent (es : List Nat) : Arg ℚ := (⟨es, es.map fun _ => 1⟩ : Entity ℚ).toArg

example : layoutOf (polys [ent [0, 1], ent [0, 1]] fun a => a 0 + a 1) =
    some ⟨[(0, 1), (2, 1), (1, 1), (3, 1)], [(1, 1, 0, 1), (1, 1, 1, 1), (1, 1, 2, 1), (1, 1, 3, 1)], [(0, 2, 0), (1, 2, 2)]⟩ := by decide +kernel
example : layoutOf (polys [ent [0, 1], ent [0, 1]] fun a => plus 1 (a 0) + a 1) =
    some ⟨[(0, 1), (2, 1), (1, 1), (3, 1)], [(1, 0, 0, 0), (1, 1, 0, 1), (1, 1, 1, 1), (1, 1, 2, 1), (1, 1, 3, 1)], [(0, 3, 0), (1, 2, 3)]⟩ := by
  decide +kernel
example : layoutOf (polys [ent [1, 2]] fun a => plus 2 (a 0)) =
    some ⟨[(0, 1), (1, 1)], [(2, 0, 0, 0), (1, 1, 0, 1), (1, 1, 1, 1)], [(0, 1, 0), (1, 1, 1), (2, 1, 2)]⟩ := by decide +kernel

/-- `product(sa{}, …)` with the algebra of scalars (test_algebra.cpp:138-146). -/
def scalarProduct (a b : Mv) : Option Layout :=
  match product (fun _ _ => (0, 1)) a b with
  | .val c false => some (layout c)
  | _ => none

/-- A multivector literal with one scalar term: each monomial is one indeterminate (test_algebra.cpp:154-161). -/
def poly (is : List (Nat × Int × Int)) : Mv :=
  ⟨⟨is.length, is.length, 1⟩, is.length, is.length, 1, is.map fun (i, d, _) => ⟨i, ⟨d, 1⟩⟩,
    (is.zip (List.range is.length)).map fun ((_, d, q), k) => ⟨⟨q, 1⟩, ⟨d, 1⟩, 1, k⟩, [⟨is.length, 0, 0⟩], .id⟩

example : scalarProduct (poly [(0, 1, 1), (1, 2, 1)]) (poly [(2, 1, 1), (3, 1, 1)]) =
    some ⟨[(0, 1), (2, 1), (0, 1), (3, 1), (1, 2), (2, 1), (1, 2), (3, 1)], [(1, 2, 0, 2), (1, 2, 2, 2), (1, 2, 4, 3), (1, 2, 6, 3)], [(0, 4, 0)]⟩ := by
  decide +kernel
example : scalarProduct (poly [(0, 1, 1), (1, 1, 1)]) (poly [(0, 1, 1), (1, 1, -1)]) =
    some ⟨[(0, 2), (1, 2)], [(1, 1, 0, 2), (-1, 1, 1, 2)], [(0, 2, 0)]⟩ := by decide +kernel
example : scalarProduct (poly [(0, 1, 1)]) (poly [(0, -1, 1)]) = some ⟨[], [(1, 0, 0, 0)], [(0, 1, 0)]⟩ := by decide +kernel
example : scalarProduct (poly [(1, 1, 1)]) (poly [(1, 2, 1)]) = some ⟨[(1, 3)], [(1, 1, 0, 3)], [(0, 1, 0)]⟩ := by decide +kernel

/-! ## test_algorithm.cpp -/

/-- `sort(a.begin(), a.end())` for `int`s (algorithm.hpp:47-122). -/
def sorted (l : List Nat) : Bool :=
  match sortAll (fun a b => ok (decide (a < b))) l with
  | .val r false => r == (List.range l.length).map (· + 1)
  | _ => false

example : ([[1], [1, 2], [2, 1], [1, 2, 3], [2, 1, 3], [1, 3, 2], [3, 1, 2], [3, 2, 1], [2, 3, 1], [2, 4, 3, 1], [9, 2, 6, 4, 8, 5, 3, 1, 7]].all sorted) = true := by
  decide +kernel
example : crc32 0xDEADBEEF = some 0x1A5A601F := by decide +kernel

/-! ## test_dfa.cpp -/

/-- `evaluate<…>::rpnf` (engine.hpp:377-383): the expression, when it is built without overflow. -/
def rpnf (args : List (Arg ℚ)) (f : (Nat → Ex) → Ex) : Rpne :=
  match f (fun i => ok (entityExpr (argOffset args i) i)) with
  | .val e false => e
  | _ => {}

example : let e := rpnf [plane 1 2 3 4] fun a => plus 1 (a 0)
    e.nodes.length = 5 ∧ (e.nodes.map Node.o)[3]? = some Op.cscalar ∧ (e.nodes.map Node.q)[2]? = some ⟨1, 1⟩ := by decide +kernel
example : let e := rpnf [plane 1 2 3 4] fun a => plus 1 (a 0) + ok (constExpr 2 1)
    (e.nodes.map Node.o)[3]? = some Op.cscalar ∧ (e.nodes.map Node.q)[2]? = some ⟨3, 1⟩ := by decide +kernel
example : let e := rpnf [plane 1 2 3 4] fun a => plus 1 (times 2 (a 0)) >>= (subIntExpr · 1)
    e.nodes.length = 1 ∧ e.q.num = 2 := by decide +kernel
example : (rpnf [plane 1 2 3 4] fun a => over (times 2 (a 0)) 3).q = ⟨2, 3⟩ := by decide +kernel
example : let e := rpnf [plane 1 2 3 4] fun a => over (a 0) 3 + over (times 2 (a 0)) 3
    e.q = ⟨1, 1⟩ ∧ (e.nodes.map fun n => (n.o, n.checksum)) = [(Op.id, 0)] := by decide +kernel
example : (rpnf [plane 1 2 3 4, plane 1 2 3 4, plane 1 2 3 4, plane 1 2 3 4] fun a => a 0 + a 1 + a 2 + a 3).nodes.length = 9 := by decide +kernel
example : (rpnf [plane 1 2 3 4] fun a => a 0 >>= dualExpr).nodes.length = 2 := by decide +kernel
example : (rpnf [plane 1 2 3 4] fun a => rv (rv (a 0))).nodes.length = 1 := by decide +kernel
example : ((rpnf [plane 1 2 3 4, plane 1 2 3 4] fun a => a 0 * a 1).nodes.map Node.checksum)[1]? ≠
    ((rpnf [plane 1 2 3 4, plane 1 2 3 4] fun a => a 1 * a 0).nodes.map Node.checksum)[1]? := by decide +kernel
example : (rpnf [pt 1 2 3, ⟨pgaLineIe, [1, 2, 3, 4, 5, 6]⟩] fun a => a 0 >>> a 1).nodes.getLast?.map Node.checksum ≠
    (rpnf [pt 1 2 3, ⟨pgaLineIe, [1, 2, 3, 4, 5, 6]⟩] fun a => a 1 >>> a 0).nodes.getLast?.map Node.checksum := by decide +kernel
example : layoutOf (polys [pt 1 2 3] fun _ => plus 1 (el 2 2)) = some ⟨[], [(1, 0, 0, 0), (2, 0, 0, 0)], [(0, 1, 0), (2, 1, 1)]⟩ := by decide +kernel
example : layoutOf (polys [pt 1 2 3] fun _ => el 2 2) = some ⟨[], [(1, 0, 0, 0)], [(2, 1, 0)]⟩ := by decide +kernel
example : layoutOf (polys [pt 1 2 3] fun _ => el 2 2 + el 1 3) = some ⟨[], [(3, 0, 0, 0), (2, 0, 0, 0)], [(1, 1, 0), (2, 1, 1)]⟩ := by decide +kernel
example : gives (run pgaMetric false [plane 1 2 3 4] fun a => times 2 (a 0)) [1, 2, 4, 8] [2, 4, 6, 8] = true := by decide +kernel
example : gives (run pgaMetric false [⟨pgaLineIe, [1, 2, 3, 4, 5, 6]⟩] fun _ => ps) [15] [1] = true := by decide +kernel
example : gives (run pgaMetric false [⟨pgaMotorIe, [1, 2, 3, 4, 5, 6, 7, 8]⟩] fun a => at' (a 0) 0 + at' (a 0) 15 * ps) [0, 15] [1, 8] = true := by
  decide +kernel
example : gives (run pgaMetric false [motor] fun a => sqrt' (at' (a 0) 3)) [0] [2 * r2] = true := by decide +kernel
example : gives (run pgaMetric false [motor] fun a => sin' (at' (a 0) 5) + cos' (at' (a 0) 6) * ps) [0, 15] [-1, 1] = true := by decide +kernel
example : (layoutOf (polys [⟨pgaLineIe, [1, 2, 3, 4, 5, 6]⟩] fun _ => (el 1 + el 2) ^^^ (el 1 + el 2))).map (·.terms) = some [] := by decide +kernel
example : (layoutOf (polys [⟨pgaLineIe, [1, 2, 3, 4, 5, 6]⟩] fun _ => (el 3 + el 12) ^^^ (el 3 + el 12))).map (fun x => (x.mons, x.terms)) =
    some ([(2, 0, 0, 0)], [(15, 1, 0)]) := by decide +kernel

/-- `compute` of a lambda that returns `gal::tuple{p, 2 * p}` (test_dfa.cpp:308). -/
def variadic : Out (List (List Nat × List ℚ)) := do
  let e := entityExpr 0 0
  let d ← imulExpr 2 e
  let xs ← computeExpr pgaMetric false 4 env [plane 1 2 3 4] (concatExpr [e, d])
  return xs.map fun x => (x.elements, x.data)

example : variadic = ok [([1, 2, 4, 8], [1, 2, 3, 4]), ([1, 2, 4, 8], [2, 4, 6, 8])] := by decide +kernel
example : gives (run pgaMetric false [plane 1 2 3 4, numArg (23 / 10)] fun a => a 0 * a 1) [1, 2, 4, 8] [23 / 10, 46 / 10, 69 / 10, 92 / 10] = true := by
  decide +kernel
example : gives (run pgaMetric false [plane 1 2 3 4] fun a => a 0 / at' (over (el 6) 2) 6) [1, 2, 4, 8] [2, 4, 6, 8] = true := by decide +kernel
example : gives (run pgaMetric false [sc 2] fun a => over (a 0) 2) [0] [1] = true := by decide +kernel
example : gives (run pgaMetric false [sc pi] fun a => sin' (over (a 0) 2)) [0] [1] = true := by decide +kernel
example : gives (run pgaMetric false [sc 2] fun a => timesPi 1 (a 0)) [0] [2 * pi] = true := by decide +kernel
example : gives (run pgaMetric false [sc 2] fun a => sin' (over (timesPi 3 (a 0)) 4)) [0] [-1] = true := by decide +kernel
example : gives (run pgaMetric false [sc 2] fun a => cos' (over (timesPi 3 (a 0)) 4) + sin' (over (timesPi 3 (a 0)) 4)) [0] [-1] = true := by
  decide +kernel
example : gives (run pgaMetric false [sc 2] fun a => (plus 1 (a 0 * el 6) + el 9 3 + el 15 2) >>= (gradeExpr · 2)) [6, 9] [2, 3] = true := by
  decide +kernel

/-! ## test_pga.cpp -/

/-- test_pga.cpp:29-33. -/
def normalizedLine (l : Ex) : Ex := l / sqrt' (at' l 6 * at' l 6 + at' l 10 * at' l 10 + at' l 12 * at' l 12)
/-- test_pga.cpp:35-39. -/
def rotor (a l : Ex) : Ex := cos' (over a 2) + sin' (over a 2) * normalizedLine l
/-- test_pga.cpp:41-45. -/
def translator (d l : Ex) : Ex := plus 1 (over d 2 * l)
/-- The points of the tests: `pt p = compute(…)` (vga.hpp:196-207) up to 1/1000000. -/
def point (x : Out (List (Entity ℚ))) (vs : List ℚ) : Bool :=
  match x with
  | .val [z] false => match vgaPointOf z with
    | .val d false => d.length == vs.length && (d.zip vs).all fun (a, b) => a - b < 1 / 1000000 && b - a < 1 / 1000000
    | _ => false
  | _ => false

example : point (run pgaMetric false [pt 0 0 0, sc 2] fun a => translator (a 1) (-el 3) * a 0 * rv (translator (a 1) (-el 3))) [2, 0, 0] = true := by
  decide +kernel
example : gives (run pgaMetric false [sc (pi / 2)] fun _ => normalizedLine (el 6 + el 10)) [6, 10] [r2, r2] = true := by decide +kernel
example : gives (run pgaMetric false [sc (pi / 2)] fun a => rotor (a 0) (el 6)) [0, 6] [r2, r2] = true := by decide +kernel
example : gives (run pgaMetric false [sc (pi / 2)] fun a => rv (rotor (a 0) (el 6))) [0, 6] [r2, -r2] = true := by decide +kernel
example : point (run pgaMetric false [pt 1 0 0, sc (pi / 2)] fun a => rotor (a 1) (el 6) * a 0 * rv (rotor (a 1) (el 6))) [0, -1, 0] = true := by
  decide +kernel
example : gives (run pgaMetric false [sc (pi / 2)] fun a => rotor (a 0) (el 6) * (el 14 &&& (el 14 - el 13)) * rv (rotor (a 0) (el 6))) [10, 12] [1, 0] =
    true := by decide +kernel
example : gives (run pgaMetric false [sc (pi / 2), plane (-3) 2 0 1] fun a => rotor (a 0) (el 6) * a 1 * rv (rotor (a 0) (el 6)))
    [1, 2, 4, 8] [-3, 0, -2, 1] = true := by decide +kernel
example : ((layoutOf (polys [⟨pgaLineIe, [1, 2, 3, 4, 5, 6]⟩] fun a => both sipExpr (a 0) (a 0) + (a 0 ^^^ a 0))).map fun x => x.terms.length) = some 2 := by
  decide +kernel

/-- The motor of test_pga.cpp:275-281: `exp` of the line through two points. -/
def simpleMotor : Out (List (Entity ℚ)) := run pgaMetric false [pt 0 0 0, pt 0 0 (pi / 4)] fun a => (a 1 &&& a 0) >>= expExpr 4

example : gives simpleMotor [0, 3, 5, 6, 9, 10, 12, 15] [r2, 0, 0, -r2, 0, 0, 0, 0] = true := by decide +kernel
example : point (run pgaMetric false [pt 1 0 0, (⟨[0, 3, 5, 6, 9, 10, 12, 15], [r2, 0, 0, -r2, 0, 0, 0, 0]⟩ : Entity ℚ).toArg] fun a => sw (a 0) (a 1))
    [0, 1, 0] = true := by decide +kernel

/-! ## test_vga.cpp -/

example : gives (run vgaMetric false [⟨vgaVectorIe, [1, 1, 0]⟩, ⟨vgaVectorIe, [1, 0, 0]⟩] fun a => sw (a 0) (a 1)) [1, 2, 4] [1, -1, 0] = true := by
  decide +kernel
example : gives (run vgaMetric false [⟨vgaRotorIe, [1, 2, 3, 4, 5]⟩] fun _ => rv (el 3)) [3] [-1] = true := by decide +kernel
example : gives (run vgaMetric false [⟨vgaRotorIe, [r2, r2, 0, 0, 1]⟩, ⟨vgaVectorIe, [1, 0, 0]⟩] fun a => a 0 * a 1 * rv (a 0)) [1, 2, 4] [0, 1, 0] =
    true := by decide +kernel

/-- The rotor and the vector of test_vga.cpp:41-57. -/
def componentRotor : Mv := ⟨⟨2, 2, 2⟩, 2, 2, 2, [⟨0, .one⟩, ⟨1, .one⟩], [⟨.one, .one, 1, 0⟩, ⟨.one, .one, 1, 1⟩], [⟨1, 0, 0⟩, ⟨1, 1, 3⟩], .id⟩

example : (match (do
      let rr ← reverse componentRotor
      let v ← product (geoProduct vgaMetric) (basisMv 1 1 1) rr
      product (geoProduct vgaMetric) componentRotor v) with
    | .val c false => some (layout c)
    | _ => none) =
    some ⟨[(0, 2), (1, 2), (0, 1), (1, 1)], [(1, 1, 0, 2), (-1, 1, 1, 2), (-2, 2, 2, 2)], [(1, 2, 0), (2, 1, 2)]⟩ := by decide +kernel

/-! ## test_cga.cpp -/

example : gives (run cgaMetric true [⟨cgaPointIe, [39 / 10, 12 / 10, -29]⟩] fun a => a 0 >>> a 0) [] [] = true := by decide +kernel

end Gal.Conformance
