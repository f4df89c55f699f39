import Verif.Props.Screw
import Verif.Props.MotorRun

/-!
# Property C55: `exp(a & b)` in one program

`C55_join` computes the line first and its exponential in a second program.  A single lambda gives a different program: the line and its
second dual are common subexpressions, and the square root and the sine are computed twice.  It returns the same.
-/

namespace Gal

open Out
open scoped Matrix

/-- `[](auto a, auto b) { return exp(a & b); }` for two points (expr.hpp:906-919, 1053-1057). -/
def expJoinExpr : Out Rpne := do
  let l ← joinExpr (entityExpr 0 0) (entityExpr 3 1)
  expExpr 4 l

/-- The temporaries for `!a` and `a & b`. -/
def joinTemps : List (MvOp × NMv × Nat) :=
    [(.id, [⟨1, [⟨⟨-1, 1⟩, ⟨0, 1⟩, []⟩]⟩, ⟨2, [⟨⟨-1, 1⟩, .one, [⟨0, .one⟩]⟩]⟩, ⟨4, [⟨⟨-1, 1⟩, .one, [⟨1, .one⟩]⟩]⟩, ⟨8, [⟨⟨-1, 1⟩, .one, [⟨2,
    .one⟩]⟩]⟩], 6),
    (.id, [⟨3, [⟨.one, ⟨2, 1⟩, [⟨4, .one⟩, ⟨9, .one⟩]⟩, ⟨⟨-1, 1⟩, ⟨2, 1⟩, [⟨5, .one⟩, ⟨8, .one⟩]⟩]⟩, ⟨5, [⟨⟨-1, 1⟩, ⟨2, 1⟩, [⟨3, .one⟩, ⟨9,
    .one⟩]⟩, ⟨.one, ⟨2, 1⟩, [⟨5, .one⟩, ⟨7, .one⟩]⟩]⟩, ⟨6, [⟨.one, .one, [⟨9, .one⟩]⟩, ⟨⟨-1, 1⟩, ⟨2, 1⟩, [⟨5, .one⟩, ⟨6, .one⟩]⟩]⟩, ⟨9, [⟨.one,
    ⟨2, 1⟩, [⟨3, .one⟩, ⟨8, .one⟩]⟩, ⟨⟨-1, 1⟩, ⟨2, 1⟩, [⟨4, .one⟩, ⟨7, .one⟩]⟩]⟩, ⟨10, [⟨⟨-1, 1⟩, .one, [⟨8, .one⟩]⟩, ⟨.one, ⟨2, 1⟩, [⟨4, .one⟩,
    ⟨6, .one⟩]⟩]⟩, ⟨12, [⟨.one, .one, [⟨7, .one⟩]⟩, ⟨⟨-1, 1⟩, ⟨2, 1⟩, [⟨3, .one⟩, ⟨6, .one⟩]⟩]⟩], 10)]

/-- The temporaries for the exponential. -/
def expTemps : List (MvOp × NMv × Nat) :=
    [(.id, [⟨15, [⟨⟨2, 1⟩, ⟨2, 1⟩, [⟨10, .one⟩, ⟨15, .one⟩]⟩, ⟨⟨-2, 1⟩, ⟨2, 1⟩, [⟨11, .one⟩, ⟨14, .one⟩]⟩, ⟨⟨2, 1⟩, ⟨2, 1⟩, [⟨12, .one⟩, ⟨13,
    .one⟩]⟩]⟩], 16),
    (.id, [⟨0, [⟨⟨-1, 1⟩, ⟨2, 1⟩, [⟨12, ⟨2, 1⟩⟩]⟩, ⟨⟨-1, 1⟩, ⟨2, 1⟩, [⟨14, ⟨2, 1⟩⟩]⟩, ⟨⟨-1, 1⟩, ⟨2, 1⟩, [⟨15, ⟨2, 1⟩⟩]⟩]⟩], 17),
    (.sqrt, [⟨0, [⟨⟨-1, 1⟩, .one, [⟨17, .one⟩]⟩]⟩], 18),
    (.id, [⟨0, [⟨⟨-1, 2⟩, ⟨2, 1⟩, [⟨16, .one⟩, ⟨18, ⟨-1, 1⟩⟩]⟩]⟩], 19),
    (.sqrt, [⟨0, [⟨⟨-1, 1⟩, .one, [⟨17, .one⟩]⟩]⟩], 20),
    (.sin, [⟨0, [⟨.one, .one, [⟨20, .one⟩]⟩]⟩], 21),
    (.id, [⟨15, [⟨.one, ⟨2, 1⟩, [⟨19, .one⟩, ⟨21, .one⟩]⟩]⟩], 22),
    (.cos, [⟨0, [⟨.one, .one, [⟨20, .one⟩]⟩]⟩], 23),
    (.id, [⟨0, [⟨⟨-1, 2⟩, ⟨2, 1⟩, [⟨16, .one⟩, ⟨20, ⟨-1, 1⟩⟩]⟩]⟩], 24),
    (.id, [⟨15, [⟨.one, ⟨2, 1⟩, [⟨23, .one⟩, ⟨24, .one⟩]⟩]⟩], 25),
    (.sin, [⟨0, [⟨.one, .one, [⟨20, .one⟩]⟩]⟩], 26),
    (.id, [⟨0, [⟨.one, .one, [⟨26, .one⟩]⟩]⟩, ⟨15, [⟨.one, .one, [⟨25, .one⟩]⟩]⟩], 27),
    (.id, [⟨0, [⟨.one, .one, [⟨20, ⟨-1, 1⟩⟩]⟩]⟩], 29),
    (.id, [⟨0, [⟨.one, ⟨2, 1⟩, [⟨17, ⟨-1, 1⟩⟩, ⟨24, .one⟩]⟩]⟩], 30)]

/-- The result. -/
def expResult : NMv :=
    [⟨0, [⟨.one, .one, [⟨23, .one⟩]⟩]⟩, ⟨3, [⟨.one, ⟨3, 1⟩, [⟨10, .one⟩, ⟨27, .one⟩, ⟨29, .one⟩]⟩, ⟨⟨-1, 1⟩, ⟨3, 1⟩, [⟨15, .one⟩, ⟨27, .one⟩,
    ⟨30, .one⟩]⟩, ⟨⟨-1, 1⟩, ⟨3, 1⟩, [⟨15, .one⟩, ⟨28, .one⟩, ⟨29, .one⟩]⟩]⟩, ⟨5, [⟨.one, ⟨3, 1⟩, [⟨11, .one⟩, ⟨27, .one⟩, ⟨29, .one⟩]⟩, ⟨.one,
    ⟨3, 1⟩, [⟨14, .one⟩, ⟨27, .one⟩, ⟨30, .one⟩]⟩, ⟨.one, ⟨3, 1⟩, [⟨14, .one⟩, ⟨28, .one⟩, ⟨29, .one⟩]⟩]⟩, ⟨6, [⟨.one, ⟨3, 1⟩, [⟨12, .one⟩, ⟨27,
    .one⟩, ⟨29, .one⟩]⟩]⟩, ⟨9, [⟨⟨-1, 1⟩, ⟨3, 1⟩, [⟨12, .one⟩, ⟨27, .one⟩, ⟨30, .one⟩]⟩, ⟨⟨-1, 1⟩, ⟨3, 1⟩, [⟨12, .one⟩, ⟨28, .one⟩, ⟨29, .one⟩]⟩,
    ⟨.one, ⟨3, 1⟩, [⟨13, .one⟩, ⟨27, .one⟩, ⟨29, .one⟩]⟩]⟩, ⟨10, [⟨.one, ⟨3, 1⟩, [⟨14, .one⟩, ⟨27, .one⟩, ⟨29, .one⟩]⟩]⟩, ⟨12, [⟨.one, ⟨3, 1⟩,
    [⟨15, .one⟩, ⟨27, .one⟩, ⟨29, .one⟩]⟩]⟩, ⟨15, [⟨⟨-1, 1⟩, .one, [⟨22, .one⟩]⟩]⟩]

theorem expJoin_viewed : (do
    let e ← expJoinExpr
    let c ← compileExpr pgaMetric false 270 [pointArg (K := ℚ) [0, 0, 0], pointArg [0, 0, 0]] e
    c.viewed) = ok ⟨joinTemps ++ expTemps, [(.id, expResult)], 31, .one⟩ := by decide +kernel

variable {K : Type} [Field K]

/-- `compute([](auto a, auto b) { return exp(a & b); }, a, b)`.  270 is the capacity of the expression: `a & b` has capacity 8, and `exp` of an expression of
capacity `S` has capacity `25 S + 70` (expr.hpp:310, 380, 765-779, 849, 863, 907, 935, 977, 1092). -/
def computeExpJoin (E : Env K) (a b : Fin 3 → K) : Out (Entity K) := do
  let e ← expJoinExpr
  computeExpr pgaMetric false 270 E [pointArg [a 0, a 1, a 2], pointArg [b 0, b 1, b 2]] e >>= single

theorem viewTemps_append : ∀ (l l' : List (MvOp × NMv × Nat)) (E : Env K), viewTemps E (l ++ l') = viewTemps E l >>= fun E => viewTemps E l'
  | [], l', E => by
    rw [List.nil_append]
    show _ = ok E >>= fun E => viewTemps E l'
    rw [ok_bind]
  | (o, n, id) :: l, l', E => by
    show (tempLoop o E id n >>= fun E => viewTemps E (l ++ l')) = (tempLoop o E id n >>= fun E => viewTemps E l) >>= fun E => viewTemps E l'
    cases tempLoop o E id n with
    | ub => rfl
    | val E' b =>
      simp only [bind_assoc]
      congr 1
      funext E
      exact viewTemps_append l l' E

theorem joinTemps_run (E : Env K) (x y z x' y' z' : K) :
    viewTemps { E with data := [x, y, z, x', y', z', 0, 0, 0, 0, 0, 0, 0, 0, 0, 0, 0, 0, 0, 0, 0, 0, 0, 0, 0, 0, 0, 0, 0, 0, 0] } joinTemps = ok
      { E with data := [x, y, z, x', y', z', -1, -x, -y, -z, y' * -z + -(z' * -y), -(x' * -z) + z' * -x, -z + -(z' * -1), x' * -y + -(y' * -x),
        -(-y) + y' * -1, -x + -(x' * -1), 0, 0, 0, 0, 0, 0, 0, 0, 0, 0, 0, 0, 0, 0, 0] } := by
  simp [joinTemps, viewTemps, tempLoop, Env.write, Env.term, Env.mon, Env.prod, Env.factor,
    Env.get, Env.pow, Gal.pow, Env.app, indConstantStart, Rat32.one, Rat32.cast, pure_eq, ok_bind]

theorem expTemps_run (E : Env K) (g0 g1 g2 g3 g4 g5 g6 g7 g8 g9 a b c d e f s p u v : K)
    (hp : 2 * (a * f) + (-(2 * (b * e)) + 2 * (c * d)) = p)
    (hs : -(c * c) + (-(e * e) + -(f * f)) = s) (hu : E.fn .sqrt (f * f + e * e + c * c) = u) (hv : -1 / 2 * (p * u⁻¹) = v) :
    viewTemps { E with data := [g0, g1, g2, g3, g4, g5, g6, g7, g8, g9, a, b, c, d, e, f, 0, 0, 0, 0, 0, 0, 0, 0, 0, 0, 0, 0, 0, 0, 0] } expTemps = ok
      { E with data := [g0, g1, g2, g3, g4, g5, g6, g7, g8, g9, a, b, c, d, e, f, p, s, u, v, u, E.fn .sin u, v * E.fn .sin u, E.fn .cos u, v,
        E.fn .cos u * v, E.fn .sin u, E.fn .sin u, E.fn .cos u * v, u⁻¹, s⁻¹ * v] } := by
  simp [expTemps, viewTemps, tempLoop, Env.write, Env.term, Env.mon, Env.prod, Env.factor,
    Env.get, Env.pow, Gal.pow, powNat, Env.app, indConstantStart, Rat32.one, Rat32.cast, pure_eq, ok_bind, hp, hs, hu, hv]

theorem expResult_run (E : Env K) (g0 g1 g2 g3 g4 g5 g6 g7 g8 g9 a b c d e f p s u v si co : K) :
    viewEntity { E with data := [g0, g1, g2, g3, g4, g5, g6, g7, g8, g9, a, b, c, d, e, f, p, s, u, v, u, si, v * si, co, v, co * v, si, si, co * v,
        u⁻¹, s⁻¹ * v] } .id expResult .one = ok
      ⟨[0, 3, 5, 6, 9, 10, 12, 15], [co, a * (si * u⁻¹) + (-(f * (si * (s⁻¹ * v))) + -(f * (v * co * u⁻¹))),
          b * (si * u⁻¹) + (e * (si * (s⁻¹ * v)) + e * (v * co * u⁻¹)), c * (si * u⁻¹),
          -(c * (si * (s⁻¹ * v))) + (-(c * (v * co * u⁻¹)) + d * (si * u⁻¹)), e * (si * u⁻¹), f * (si * u⁻¹), -(v * si)]⟩ := by
  simp [expResult, viewEntity, mapO, Env.term, Env.mon, Env.prod, Env.factor, Env.get, Env.pow, Gal.pow, Env.app, indConstantStart, scaleBy,
    Rat32.one, pure_eq, ok_bind, mul_comm co v]

/-- **C55 (one program)**: `compute([](auto a, auto b) { return exp(a & b); }, a, b)` returns the same as the exponential of the line computed first,
whatever the functions are. -/
theorem C55_exp_join [CharZero K] (E : Env K) (a b : Fin 3 → K) :
    computeExpJoin E a b =
      (joinLam.compute pgaMetric false E [pointArg [a 0, a 1, a 2], pointArg [b 0, b 1, b 2]] >>= single >>= fun l => computeExp E l.toArg) := by
  rw [C38_compute_line, ok_bind]
  have h0 : (a ⨯₃ b) 0 = b 1 * -a 2 + -(b 2 * -a 1) := by simp only [cross_apply, Matrix.cons_val_zero]; ring
  have h1 : (a ⨯₃ b) 1 = -(b 0 * -a 2) + b 2 * -a 0 := by simp only [cross_apply, Matrix.cons_val_one, Matrix.cons_val_zero]; ring
  have h2 : (b - a) 2 = -a 2 + -(b 2 * -1) := by simp only [Pi.sub_apply]; ring
  have h3 : (a ⨯₃ b) 2 = b 0 * -a 1 + -(b 1 * -a 0) := by simp only [cross_apply, Matrix.cons_val]; ring
  have h4 : -(b - a) 1 = -(-a 1) + b 1 * -1 := by simp only [Pi.sub_apply]; ring
  have h5 : (b - a) 0 = -a 0 + -(b 0 * -1) := by simp only [Pi.sub_apply]; ring
  rw [h0, h1, h2, h3, h4, h5]
  obtain ⟨x, hx, hr⟩ := bivExp_run E (b 1 * -a 2 + -(b 2 * -a 1)) (-(b 0 * -a 2) + b 2 * -a 0) (-a 2 + -(b 2 * -1)) (b 0 * -a 1 + -(b 1 * -a 0))
    (-(-a 1) + b 1 * -1) (-a 0 + -(b 0 * -1)) _ _ _ _ rfl rfl rfl rfl
  unfold computeExp computeExpJoin
  rw [hx, ok_bind, hr]
  obtain ⟨y, hy, hr'⟩ := built_viewed pgaMetric E (args := [pointArg [a 0, a 1, a 2], pointArg [b 0, b 1, b 2]]) (by rfl) expJoin_viewed (by
    have hfill : fill (List.replicate (argsSize [pointArg [a 0, a 1, a 2], pointArg [b 0, b 1, b 2]] + 31 -
        argsSize [pointArg [a 0, a 1, a 2], pointArg [b 0, b 1, b 2]]) 0) 0 ([pointArg [a 0, a 1, a 2], pointArg [b 0, b 1, b 2]].map fun a => a.data) =
        ok [a 0, a 1, a 2, b 0, b 1, b 2, 0, 0, 0, 0, 0, 0, 0, 0, 0, 0, 0, 0, 0, 0, 0, 0, 0, 0, 0, 0, 0, 0, 0, 0, 0] := by
      simp [argsSize, pointArg, fill, fill.fillOne, ok_bind]
    rw [hfill, ok_bind, viewTemps_append, joinTemps_run, ok_bind, expTemps_run E _ _ _ _ _ _ _ _ _ _ _ _ _ _ _ _ _ _ _ _ rfl rfl rfl rfl, ok_bind]
    exact expResult_run E _ _ _ _ _ _ _ _ _ _ _ _ _ _ _ _ _ _ _ _ _ _)
  rw [hy, ok_bind, hr']

/-- **C55 (one program, motion)**: `exp(a & b)` in one program for two different points rotates about the line through them, by twice their distance,
clockwise seen from `b`. -/
theorem C55_exp_join_move (E : Env ℝ) (hE : RealFns E) (a b p : Fin 3 → ℝ) (h : a ≠ b) :
    (computeExpJoin E a b >>= fun m => sandwichLam.compute pgaMetric false E [pointArg [p 0, p 1, p 2], m.toArg] >>= single >>= vgaPointOf) =
      ok (List.ofFn (screw (a - b) a 0 p)) := by
  rw [← C55_join E hE a b p h, C55_exp_join, C38_compute_line, ok_bind, ok_bind]
  rfl

/-- The test `simple-motor` (test_pga.cpp:264-287): the points of the vertical axis are not the same. -/
example : (![0, 0, Real.pi / 4] : Fin 3 → ℝ) ≠ ![0, 0, 0] := fun h => by
  have := congrFun h 2
  simp [Real.pi_ne_zero] at this

/-! ## The other order -/

/-- `[](auto a, auto b) { return exp(b & a); }` for two points (expr.hpp:906-919, 1053-1057), as in the test `simple-motor` (test_pga.cpp:274-281). -/
def expJoinSwapExpr : Out Rpne := do
  let l ← joinExpr (entityExpr 3 1) (entityExpr 0 0)
  expExpr 4 l

/-- The temporaries for `!b` and `b & a`. -/
def joinSwapTemps : List (MvOp × NMv × Nat) :=
    [(.id, [⟨1, [⟨⟨-1, 1⟩, ⟨0, 1⟩, []⟩]⟩, ⟨2, [⟨⟨-1, 1⟩, .one, [⟨3, .one⟩]⟩]⟩, ⟨4, [⟨⟨-1, 1⟩, .one, [⟨4, .one⟩]⟩]⟩, ⟨8, [⟨⟨-1, 1⟩, .one, [⟨5,
    .one⟩]⟩]⟩], 6),
    (.id, [⟨3, [⟨.one, ⟨2, 1⟩, [⟨1, .one⟩, ⟨9, .one⟩]⟩, ⟨⟨-1, 1⟩, ⟨2, 1⟩, [⟨2, .one⟩, ⟨8, .one⟩]⟩]⟩, ⟨5, [⟨⟨-1, 1⟩, ⟨2, 1⟩, [⟨0, .one⟩, ⟨9,
    .one⟩]⟩, ⟨.one, ⟨2, 1⟩, [⟨2, .one⟩, ⟨7, .one⟩]⟩]⟩, ⟨6, [⟨.one, .one, [⟨9, .one⟩]⟩, ⟨⟨-1, 1⟩, ⟨2, 1⟩, [⟨2, .one⟩, ⟨6, .one⟩]⟩]⟩, ⟨9, [⟨.one,
    ⟨2, 1⟩, [⟨0, .one⟩, ⟨8, .one⟩]⟩, ⟨⟨-1, 1⟩, ⟨2, 1⟩, [⟨1, .one⟩, ⟨7, .one⟩]⟩]⟩, ⟨10, [⟨⟨-1, 1⟩, .one, [⟨8, .one⟩]⟩, ⟨.one, ⟨2, 1⟩, [⟨1, .one⟩,
    ⟨6, .one⟩]⟩]⟩, ⟨12, [⟨.one, .one, [⟨7, .one⟩]⟩, ⟨⟨-1, 1⟩, ⟨2, 1⟩, [⟨0, .one⟩, ⟨6, .one⟩]⟩]⟩], 10)]

/-- The temporaries for the exponential.  The operands of a sum are in the order of their checksums, so these are others than `expTemps`. -/
def expSwapTemps : List (MvOp × NMv × Nat) :=
    [(.id, [⟨0, [⟨⟨-1, 1⟩, ⟨2, 1⟩, [⟨12, ⟨2, 1⟩⟩]⟩, ⟨⟨-1, 1⟩, ⟨2, 1⟩, [⟨14, ⟨2, 1⟩⟩]⟩, ⟨⟨-1, 1⟩, ⟨2, 1⟩, [⟨15, ⟨2, 1⟩⟩]⟩]⟩], 16),
    (.sqrt, [⟨0, [⟨⟨-1, 1⟩, .one, [⟨16, .one⟩]⟩]⟩], 17),
    (.cos, [⟨0, [⟨.one, .one, [⟨17, .one⟩]⟩]⟩], 18),
    (.sin, [⟨0, [⟨.one, .one, [⟨17, .one⟩]⟩]⟩], 19),
    (.id, [⟨15, [⟨⟨2, 1⟩, ⟨2, 1⟩, [⟨10, .one⟩, ⟨15, .one⟩]⟩, ⟨⟨-2, 1⟩, ⟨2, 1⟩, [⟨11, .one⟩, ⟨14, .one⟩]⟩, ⟨⟨2, 1⟩, ⟨2, 1⟩, [⟨12, .one⟩, ⟨13,
    .one⟩]⟩]⟩], 20),
    (.id, [⟨0, [⟨⟨-1, 2⟩, ⟨2, 1⟩, [⟨17, ⟨-1, 1⟩⟩, ⟨20, .one⟩]⟩]⟩], 21),
    (.id, [⟨0, [⟨.one, .one, [⟨19, .one⟩]⟩]⟩, ⟨15, [⟨.one, ⟨2, 1⟩, [⟨18, .one⟩, ⟨21, .one⟩]⟩]⟩], 22),
    (.id, [⟨0, [⟨.one, .one, [⟨17, ⟨-1, 1⟩⟩]⟩]⟩], 24),
    (.id, [⟨0, [⟨.one, ⟨2, 1⟩, [⟨16, ⟨-1, 1⟩⟩, ⟨21, .one⟩]⟩]⟩], 25),
    (.id, [⟨3, [⟨.one, ⟨3, 1⟩, [⟨10, .one⟩, ⟨22, .one⟩, ⟨24, .one⟩]⟩, ⟨⟨-1, 1⟩, ⟨3, 1⟩, [⟨15, .one⟩, ⟨22, .one⟩, ⟨25, .one⟩]⟩, ⟨⟨-1, 1⟩, ⟨3, 1⟩,
    [⟨15, .one⟩, ⟨23, .one⟩, ⟨24, .one⟩]⟩]⟩, ⟨5, [⟨.one, ⟨3, 1⟩, [⟨11, .one⟩, ⟨22, .one⟩, ⟨24, .one⟩]⟩, ⟨.one, ⟨3, 1⟩, [⟨14, .one⟩, ⟨22, .one⟩,
    ⟨25, .one⟩]⟩, ⟨.one, ⟨3, 1⟩, [⟨14, .one⟩, ⟨23, .one⟩, ⟨24, .one⟩]⟩]⟩, ⟨6, [⟨.one, ⟨3, 1⟩, [⟨12, .one⟩, ⟨22, .one⟩, ⟨24, .one⟩]⟩]⟩, ⟨9, [⟨⟨-1,
    1⟩, ⟨3, 1⟩, [⟨12, .one⟩, ⟨22, .one⟩, ⟨25, .one⟩]⟩, ⟨⟨-1, 1⟩, ⟨3, 1⟩, [⟨12, .one⟩, ⟨23, .one⟩, ⟨24, .one⟩]⟩, ⟨.one, ⟨3, 1⟩, [⟨13, .one⟩, ⟨22,
    .one⟩, ⟨24, .one⟩]⟩]⟩, ⟨10, [⟨.one, ⟨3, 1⟩, [⟨14, .one⟩, ⟨22, .one⟩, ⟨24, .one⟩]⟩]⟩, ⟨12, [⟨.one, ⟨3, 1⟩, [⟨15, .one⟩, ⟨22, .one⟩, ⟨24,
    .one⟩]⟩]⟩], 26)]

/-- The result. -/
def expSwapResult : NMv :=
    [⟨0, [⟨.one, .one, [⟨18, .one⟩]⟩]⟩, ⟨3, [⟨.one, .one, [⟨26, .one⟩]⟩]⟩, ⟨5, [⟨.one, .one, [⟨27, .one⟩]⟩]⟩, ⟨6, [⟨.one, .one, [⟨28, .one⟩]⟩]⟩,
    ⟨9, [⟨.one, .one, [⟨29, .one⟩]⟩]⟩, ⟨10, [⟨.one, .one, [⟨30, .one⟩]⟩]⟩, ⟨12, [⟨.one, .one, [⟨31, .one⟩]⟩]⟩, ⟨15, [⟨⟨-1, 1⟩, ⟨2, 1⟩, [⟨19,
    .one⟩, ⟨21, .one⟩]⟩]⟩]

theorem expJoinSwap_viewed : (do
    let e ← expJoinSwapExpr
    let c ← compileExpr pgaMetric false 270 [pointArg (K := ℚ) [0, 0, 0], pointArg [0, 0, 0]] e
    c.viewed) = ok ⟨joinSwapTemps ++ expSwapTemps, [(.id, expSwapResult)], 32, .one⟩ := by decide +kernel

/-- `compute([](auto a, auto b) { return exp(b & a); }, a, b)`; the capacity is that of `computeExpJoin` (expr.hpp:310, 380, 765-779, 849, 863, 907, 935,
977, 1092). -/
def computeExpJoinSwap (E : Env K) (a b : Fin 3 → K) : Out (Entity K) := do
  let e ← expJoinSwapExpr
  computeExpr pgaMetric false 270 E [pointArg [a 0, a 1, a 2], pointArg [b 0, b 1, b 2]] e >>= single

theorem joinSwapTemps_run (E : Env K) (x y z x' y' z' : K) :
    viewTemps { E with data := [x', y', z', x, y, z, 0, 0, 0, 0, 0, 0, 0, 0, 0, 0, 0, 0, 0, 0, 0, 0, 0, 0, 0, 0, 0, 0, 0, 0, 0, 0] } joinSwapTemps = ok
      { E with data := [x', y', z', x, y, z, -1, -x, -y, -z, y' * -z + -(z' * -y), -(x' * -z) + z' * -x, -z + -(z' * -1), x' * -y + -(y' * -x),
        -(-y) + y' * -1, -x + -(x' * -1), 0, 0, 0, 0, 0, 0, 0, 0, 0, 0, 0, 0, 0, 0, 0, 0] } := by
  simp [joinSwapTemps, viewTemps, tempLoop, Env.write, Env.term, Env.mon, Env.prod, Env.factor,
    Env.get, Env.pow, Gal.pow, Env.app, indConstantStart, Rat32.one, Rat32.cast, pure_eq, ok_bind]

theorem expSwapTemps_run (E : Env K) (g0 g1 g2 g3 g4 g5 g6 g7 g8 g9 a b c d e f s p u v si co : K)
    (hp : 2 * (a * f) + (-(2 * (b * e)) + 2 * (c * d)) = p)
    (hs : -(c * c) + (-(e * e) + -(f * f)) = s) (hu : E.fn .sqrt (f * f + e * e + c * c) = u) (hv : -1 / 2 * (u⁻¹ * p) = v)
    (hsi : E.fn .sin u = si) (hco : E.fn .cos u = co) :
    viewTemps { E with data := [g0, g1, g2, g3, g4, g5, g6, g7, g8, g9, a, b, c, d, e, f, 0, 0, 0, 0, 0, 0, 0, 0, 0, 0, 0, 0, 0, 0, 0, 0] } expSwapTemps =
      ok { E with data := [g0, g1, g2, g3, g4, g5, g6, g7, g8, g9, a, b, c, d, e, f, s, u, co, si, p, v, si, co * v, u⁻¹, s⁻¹ * v,
        a * (si * u⁻¹) + (-(f * (si * (s⁻¹ * v))) + -(f * (co * v * u⁻¹))), b * (si * u⁻¹) + (e * (si * (s⁻¹ * v)) + e * (co * v * u⁻¹)), c * (si * u⁻¹),
        -(c * (si * (s⁻¹ * v))) + (-(c * (co * v * u⁻¹)) + d * (si * u⁻¹)), e * (si * u⁻¹), f * (si * u⁻¹)] } := by
  have hu' : E.fn .sqrt (-s) = u := by
    rw [← hs, ← hu]
    congr 1
    ring
  simp [expSwapTemps, viewTemps, tempLoop, Env.write, Env.term, Env.mon, Env.prod, Env.factor,
    Env.get, Env.pow, Gal.pow, powNat, Env.app, indConstantStart, Rat32.one, Rat32.cast, pure_eq, ok_bind, hp, hs, hu', hv, hsi, hco]

theorem expSwapResult_run (E : Env K) (g0 g1 g2 g3 g4 g5 g6 g7 g8 g9 a b c d e f g16 g17 co si g20 v g22 g23 g24 g25 r3 r5 r6 r9 r10 r12 : K) :
    viewEntity { E with data := [g0, g1, g2, g3, g4, g5, g6, g7, g8, g9, a, b, c, d, e, f, g16, g17, co, si, g20, v, g22, g23, g24, g25, r3, r5, r6, r9,
        r10, r12] } .id expSwapResult .one = ok ⟨[0, 3, 5, 6, 9, 10, 12, 15], [co, r3, r5, r6, r9, r10, r12, -(v * si)]⟩ := by
  simp [expSwapResult, viewEntity, mapO, Env.term, Env.mon, Env.prod, Env.factor, Env.get, Env.pow, Gal.pow, Env.app, indConstantStart, scaleBy,
    Rat32.one, pure_eq, ok_bind, mul_comm si v]

/-- **C55 (one program, other order)**: `compute([](auto a, auto b) { return exp(b & a); }, a, b)` returns the same as the exponential of the line computed
first. -/
theorem C55_exp_join_swap [CharZero K] (E : Env K) (a b : Fin 3 → K) :
    computeExpJoinSwap E b a =
      (joinLam.compute pgaMetric false E [pointArg [a 0, a 1, a 2], pointArg [b 0, b 1, b 2]] >>= single >>= fun l => computeExp E l.toArg) := by
  rw [C38_compute_line, ok_bind]
  have h0 : (a ⨯₃ b) 0 = b 1 * -a 2 + -(b 2 * -a 1) := by simp only [cross_apply, Matrix.cons_val_zero]; ring
  have h1 : (a ⨯₃ b) 1 = -(b 0 * -a 2) + b 2 * -a 0 := by simp only [cross_apply, Matrix.cons_val_one, Matrix.cons_val_zero]; ring
  have h2 : (b - a) 2 = -a 2 + -(b 2 * -1) := by simp only [Pi.sub_apply]; ring
  have h3 : (a ⨯₃ b) 2 = b 0 * -a 1 + -(b 1 * -a 0) := by simp only [cross_apply, Matrix.cons_val]; ring
  have h4 : -(b - a) 1 = -(-a 1) + b 1 * -1 := by simp only [Pi.sub_apply]; ring
  have h5 : (b - a) 0 = -a 0 + -(b 0 * -1) := by simp only [Pi.sub_apply]; ring
  rw [h0, h1, h2, h3, h4, h5]
  obtain ⟨x, hx, hr⟩ := bivExp_run E (b 1 * -a 2 + -(b 2 * -a 1)) (-(b 0 * -a 2) + b 2 * -a 0) (-a 2 + -(b 2 * -1)) (b 0 * -a 1 + -(b 1 * -a 0))
    (-(-a 1) + b 1 * -1) (-a 0 + -(b 0 * -1)) _ _ _ _ rfl rfl rfl rfl
  unfold computeExp computeExpJoinSwap
  rw [hx, ok_bind, hr]
  obtain ⟨y, hy, hr'⟩ := built_viewed pgaMetric E (args := [pointArg [b 0, b 1, b 2], pointArg [a 0, a 1, a 2]]) (by rfl) expJoinSwap_viewed (by
    have hfill : fill (List.replicate (argsSize [pointArg [b 0, b 1, b 2], pointArg [a 0, a 1, a 2]] + 32 -
        argsSize [pointArg [b 0, b 1, b 2], pointArg [a 0, a 1, a 2]]) 0) 0 ([pointArg [b 0, b 1, b 2], pointArg [a 0, a 1, a 2]].map fun a => a.data) =
        ok [b 0, b 1, b 2, a 0, a 1, a 2, 0, 0, 0, 0, 0, 0, 0, 0, 0, 0, 0, 0, 0, 0, 0, 0, 0, 0, 0, 0, 0, 0, 0, 0, 0, 0] := by
      simp [argsSize, pointArg, fill, fill.fillOne, ok_bind]
    rw [hfill, ok_bind, viewTemps_append, joinSwapTemps_run, ok_bind, expSwapTemps_run E _ _ _ _ _ _ _ _ _ _ _ _ _ _ _ _ _ _ _ _ _ _ rfl rfl rfl
      (congrArg (-1 / 2 * ·) (mul_comm _ _)) rfl rfl, ok_bind]
    rw [mul_comm (E.fn .cos _) (-1 / 2 * _)]
    exact expSwapResult_run E _ _ _ _ _ _ _ _ _ _ _ _ _ _ _ _ _ _ _ _ _ _ _ _ _ _ _ _ _ _ _ _)
  rw [hy, ok_bind, hr']

end Gal
