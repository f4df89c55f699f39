import Verif.Props.RunView

/-!
# What `compute` returns for the expressions of `motor::normalize`, `motor::log` and `exp`

The compile-time part is evaluated once (it does not depend on the coefficients); the run-time part is evaluated for arbitrary coefficients.
-/

namespace Gal

open Out

theorem motorSquare_viewed : (do
    let e ← motorSquareExpr
    let c ← compileExpr pgaMetric false 4 [motorArg (K := ℚ) [0, 0, 0, 0, 0, 0, 0, 0]] e
    c.viewed) = ok
    ⟨[],
    [(.id, [⟨0, [⟨.one, ⟨2, 1⟩, [⟨0, ⟨2, 1⟩⟩]⟩, ⟨.one, ⟨2, 1⟩, [⟨3, ⟨2, 1⟩⟩]⟩, ⟨.one, ⟨2, 1⟩, [⟨5, ⟨2, 1⟩⟩]⟩, ⟨.one, ⟨2, 1⟩, [⟨6, ⟨2,
    1⟩⟩]⟩]⟩, ⟨15, [⟨⟨2, 1⟩, ⟨2, 1⟩, [⟨0, .one⟩, ⟨7, .one⟩]⟩, ⟨⟨-2, 1⟩, ⟨2, 1⟩, [⟨1, .one⟩, ⟨6, .one⟩]⟩, ⟨⟨2, 1⟩, ⟨2, 1⟩, [⟨2, .one⟩,
    ⟨5, .one⟩]⟩, ⟨⟨-2, 1⟩, ⟨2, 1⟩, [⟨3, .one⟩, ⟨4, .one⟩]⟩]⟩])], 8, .one⟩ := by decide +kernel

theorem motorScale_viewed : (do
    let e ← motorScaleExpr
    let c ← compileExpr pgaMetric false 3 [motorArg (K := ℚ) [0, 0, 0, 0, 0, 0, 0, 0], (⟨[0, 15], [0, 0]⟩ : Entity ℚ).toArg] e
    c.viewed) = ok
    ⟨[],
    [(.id, [⟨0, [⟨.one, ⟨2, 1⟩, [⟨0, .one⟩, ⟨8, .one⟩]⟩]⟩, ⟨3, [⟨.one, ⟨2, 1⟩, [⟨1, .one⟩, ⟨8, .one⟩]⟩, ⟨⟨-1, 1⟩, ⟨2, 1⟩, [⟨6, .one⟩,
    ⟨9, .one⟩]⟩]⟩, ⟨5, [⟨.one, ⟨2, 1⟩, [⟨2, .one⟩, ⟨8, .one⟩]⟩, ⟨.one, ⟨2, 1⟩, [⟨5, .one⟩, ⟨9, .one⟩]⟩]⟩, ⟨6, [⟨.one, ⟨2, 1⟩, [⟨3,
    .one⟩, ⟨8, .one⟩]⟩]⟩, ⟨9, [⟨⟨-1, 1⟩, ⟨2, 1⟩, [⟨3, .one⟩, ⟨9, .one⟩]⟩, ⟨.one, ⟨2, 1⟩, [⟨4, .one⟩, ⟨8, .one⟩]⟩]⟩, ⟨10, [⟨.one, ⟨2,
    1⟩, [⟨5, .one⟩, ⟨8, .one⟩]⟩]⟩, ⟨12, [⟨.one, ⟨2, 1⟩, [⟨6, .one⟩, ⟨8, .one⟩]⟩]⟩, ⟨15, [⟨.one, ⟨2, 1⟩, [⟨0, .one⟩, ⟨9, .one⟩]⟩,
    ⟨.one, ⟨2, 1⟩, [⟨7, .one⟩, ⟨8, .one⟩]⟩]⟩])], 10, .one⟩ := by decide +kernel

theorem lineSquare_viewed : (do
    let e ← lineSquareExpr
    let c ← compileExpr pgaMetric false 11 [(⟨[3, 5, 6, 9, 10, 12], [0, 0, 0, 0, 0, 0]⟩ : Entity ℚ).toArg] e
    c.viewed) = ok
    ⟨[],
    [(.id, [⟨0, [⟨⟨-1, 1⟩, ⟨2, 1⟩, [⟨2, ⟨2, 1⟩⟩]⟩, ⟨⟨-1, 1⟩, ⟨2, 1⟩, [⟨4, ⟨2, 1⟩⟩]⟩, ⟨⟨-1, 1⟩, ⟨2, 1⟩, [⟨5, ⟨2, 1⟩⟩]⟩]⟩, ⟨15, [⟨⟨2,
    1⟩, ⟨2, 1⟩, [⟨0, .one⟩, ⟨5, .one⟩]⟩, ⟨⟨-2, 1⟩, ⟨2, 1⟩, [⟨1, .one⟩, ⟨4, .one⟩]⟩, ⟨⟨2, 1⟩, ⟨2, 1⟩, [⟨2, .one⟩, ⟨3, .one⟩]⟩]⟩])], 6,
    .one⟩ := by decide +kernel

theorem log_viewed : (do
    let e ← logExpr
    let c ← compileExpr pgaMetric false 11 [numArg (K := ℚ) 0, numArg 0, (⟨[3, 5, 6, 9, 10, 12], [0, 0, 0, 0, 0, 0]⟩ : Entity ℚ).toArg, (⟨[0, 15], [0, 0]⟩ : Entity ℚ).toArg] e
    c.viewed) = ok
    ⟨[],
    [(.id, [⟨3, [⟨.one, ⟨3, 1⟩, [⟨0, .one⟩, ⟨2, .one⟩, ⟨8, .one⟩]⟩, ⟨⟨-1, 1⟩, ⟨3, 1⟩, [⟨0, .one⟩, ⟨7, .one⟩, ⟨9, .one⟩]⟩, ⟨⟨-1, 1⟩,
    ⟨3, 1⟩, [⟨1, .one⟩, ⟨7, .one⟩, ⟨8, .one⟩]⟩]⟩, ⟨5, [⟨.one, ⟨3, 1⟩, [⟨0, .one⟩, ⟨3, .one⟩, ⟨8, .one⟩]⟩, ⟨.one, ⟨3, 1⟩, [⟨0, .one⟩,
    ⟨6, .one⟩, ⟨9, .one⟩]⟩, ⟨.one, ⟨3, 1⟩, [⟨1, .one⟩, ⟨6, .one⟩, ⟨8, .one⟩]⟩]⟩, ⟨6, [⟨.one, ⟨3, 1⟩, [⟨0, .one⟩, ⟨4, .one⟩, ⟨8,
    .one⟩]⟩]⟩, ⟨9, [⟨⟨-1, 1⟩, ⟨3, 1⟩, [⟨0, .one⟩, ⟨4, .one⟩, ⟨9, .one⟩]⟩, ⟨.one, ⟨3, 1⟩, [⟨0, .one⟩, ⟨5, .one⟩, ⟨8, .one⟩]⟩, ⟨⟨-1, 1⟩,
    ⟨3, 1⟩, [⟨1, .one⟩, ⟨4, .one⟩, ⟨8, .one⟩]⟩]⟩, ⟨10, [⟨.one, ⟨3, 1⟩, [⟨0, .one⟩, ⟨6, .one⟩, ⟨8, .one⟩]⟩]⟩, ⟨12, [⟨.one, ⟨3, 1⟩, [⟨0,
    .one⟩, ⟨7, .one⟩, ⟨8, .one⟩]⟩]⟩])], 10, .one⟩ := by decide +kernel

theorem lineExp_viewed : (do
    let e ← expExpr 4 (entityExpr 0 0)
    let c ← compileExpr pgaMetric false 95 [lineArg (K := ℚ) [0, 0, 0, 0, 0, 0]] e
    c.viewed) = ok
    ⟨[(.id, [⟨15, [⟨⟨2, 1⟩, ⟨2, 1⟩, [⟨0, .one⟩, ⟨3, .one⟩]⟩, ⟨⟨-2, 1⟩, ⟨2, 1⟩, [⟨1, .one⟩, ⟨4, .one⟩]⟩, ⟨⟨2, 1⟩, ⟨2, 1⟩, [⟨2, .one⟩,
    ⟨5, .one⟩]⟩]⟩], 6),
    (.id, [⟨0, [⟨⟨-1, 1⟩, ⟨2, 1⟩, [⟨0, ⟨2, 1⟩⟩]⟩, ⟨⟨-1, 1⟩, ⟨2, 1⟩, [⟨1, ⟨2, 1⟩⟩]⟩, ⟨⟨-1, 1⟩, ⟨2, 1⟩, [⟨2, ⟨2, 1⟩⟩]⟩]⟩], 7),
    (.sqrt, [⟨0, [⟨⟨-1, 1⟩, .one, [⟨7, .one⟩]⟩]⟩], 8),
    (.id, [⟨0, [⟨⟨-1, 2⟩, ⟨2, 1⟩, [⟨6, .one⟩, ⟨8, ⟨-1, 1⟩⟩]⟩]⟩], 9),
    (.sin, [⟨0, [⟨.one, .one, [⟨8, .one⟩]⟩]⟩], 10),
    (.id, [⟨15, [⟨.one, ⟨2, 1⟩, [⟨9, .one⟩, ⟨10, .one⟩]⟩]⟩], 11),
    (.cos, [⟨0, [⟨.one, .one, [⟨8, .one⟩]⟩]⟩], 12),
    (.id, [⟨15, [⟨.one, ⟨2, 1⟩, [⟨9, .one⟩, ⟨12, .one⟩]⟩]⟩], 13),
    (.id, [⟨0, [⟨.one, .one, [⟨10, .one⟩]⟩]⟩, ⟨15, [⟨.one, .one, [⟨13, .one⟩]⟩]⟩], 14),
    (.id, [⟨0, [⟨.one, .one, [⟨8, ⟨-1, 1⟩⟩]⟩]⟩], 16),
    (.id, [⟨0, [⟨.one, ⟨2, 1⟩, [⟨7, ⟨-1, 1⟩⟩, ⟨9, .one⟩]⟩]⟩], 17),
    (.id, [⟨3, [⟨.one, ⟨3, 1⟩, [⟨0, .one⟩, ⟨14, .one⟩, ⟨17, .one⟩]⟩, ⟨.one, ⟨3, 1⟩, [⟨0, .one⟩, ⟨15, .one⟩, ⟨16, .one⟩]⟩, ⟨⟨-1, 1⟩,
    ⟨3, 1⟩, [⟨3, .one⟩, ⟨14, .one⟩, ⟨16, .one⟩]⟩]⟩, ⟨5, [⟨.one, ⟨3, 1⟩, [⟨1, .one⟩, ⟨14, .one⟩, ⟨17, .one⟩]⟩, ⟨.one, ⟨3, 1⟩, [⟨1,
    .one⟩, ⟨15, .one⟩, ⟨16, .one⟩]⟩, ⟨.one, ⟨3, 1⟩, [⟨4, .one⟩, ⟨14, .one⟩, ⟨16, .one⟩]⟩]⟩, ⟨6, [⟨⟨-1, 1⟩, ⟨3, 1⟩, [⟨2, .one⟩, ⟨14,
    .one⟩, ⟨16, .one⟩]⟩]⟩, ⟨9, [⟨.one, ⟨3, 1⟩, [⟨2, .one⟩, ⟨14, .one⟩, ⟨17, .one⟩]⟩, ⟨.one, ⟨3, 1⟩, [⟨2, .one⟩, ⟨15, .one⟩, ⟨16,
    .one⟩]⟩, ⟨⟨-1, 1⟩, ⟨3, 1⟩, [⟨5, .one⟩, ⟨14, .one⟩, ⟨16, .one⟩]⟩]⟩, ⟨10, [⟨.one, ⟨3, 1⟩, [⟨1, .one⟩, ⟨14, .one⟩, ⟨16, .one⟩]⟩]⟩,
    ⟨12, [⟨⟨-1, 1⟩, ⟨3, 1⟩, [⟨0, .one⟩, ⟨14, .one⟩, ⟨16, .one⟩]⟩]⟩], 18)],
    [(.id, [⟨0, [⟨.one, .one, [⟨12, .one⟩]⟩]⟩, ⟨3, [⟨.one, .one, [⟨18, .one⟩]⟩]⟩, ⟨5, [⟨.one, .one, [⟨19, .one⟩]⟩]⟩, ⟨6, [⟨.one, .one,
    [⟨20, .one⟩]⟩]⟩, ⟨9, [⟨.one, .one, [⟨21, .one⟩]⟩]⟩, ⟨10, [⟨.one, .one, [⟨22, .one⟩]⟩]⟩, ⟨12, [⟨.one, .one, [⟨23, .one⟩]⟩]⟩, ⟨15,
    [⟨⟨-1, 1⟩, .one, [⟨11, .one⟩]⟩]⟩])], 24, .one⟩ := by decide +kernel

theorem bivExp_viewed : (do
    let e ← expExpr 4 (entityExpr 0 0)
    let c ← compileExpr pgaMetric false 95 [(⟨[3, 5, 6, 9, 10, 12], [0, 0, 0, 0, 0, 0]⟩ : Entity ℚ).toArg] e
    c.viewed) = ok
    ⟨[(.id, [⟨15, [⟨⟨2, 1⟩, ⟨2, 1⟩, [⟨0, .one⟩, ⟨5, .one⟩]⟩, ⟨⟨-2, 1⟩, ⟨2, 1⟩, [⟨1, .one⟩, ⟨4, .one⟩]⟩, ⟨⟨2, 1⟩, ⟨2, 1⟩, [⟨2, .one⟩,
    ⟨3, .one⟩]⟩]⟩], 6),
    (.id, [⟨0, [⟨⟨-1, 1⟩, ⟨2, 1⟩, [⟨2, ⟨2, 1⟩⟩]⟩, ⟨⟨-1, 1⟩, ⟨2, 1⟩, [⟨4, ⟨2, 1⟩⟩]⟩, ⟨⟨-1, 1⟩, ⟨2, 1⟩, [⟨5, ⟨2, 1⟩⟩]⟩]⟩], 7),
    (.sqrt, [⟨0, [⟨⟨-1, 1⟩, .one, [⟨7, .one⟩]⟩]⟩], 8),
    (.id, [⟨0, [⟨⟨-1, 2⟩, ⟨2, 1⟩, [⟨6, .one⟩, ⟨8, ⟨-1, 1⟩⟩]⟩]⟩], 9),
    (.sin, [⟨0, [⟨.one, .one, [⟨8, .one⟩]⟩]⟩], 10),
    (.id, [⟨15, [⟨.one, ⟨2, 1⟩, [⟨9, .one⟩, ⟨10, .one⟩]⟩]⟩], 11),
    (.cos, [⟨0, [⟨.one, .one, [⟨8, .one⟩]⟩]⟩], 12),
    (.id, [⟨15, [⟨.one, ⟨2, 1⟩, [⟨9, .one⟩, ⟨12, .one⟩]⟩]⟩], 13),
    (.id, [⟨0, [⟨.one, .one, [⟨10, .one⟩]⟩]⟩, ⟨15, [⟨.one, .one, [⟨13, .one⟩]⟩]⟩], 14),
    (.id, [⟨0, [⟨.one, .one, [⟨8, ⟨-1, 1⟩⟩]⟩]⟩], 16),
    (.id, [⟨0, [⟨.one, ⟨2, 1⟩, [⟨7, ⟨-1, 1⟩⟩, ⟨9, .one⟩]⟩]⟩], 17),
    (.id, [⟨3, [⟨.one, ⟨3, 1⟩, [⟨0, .one⟩, ⟨14, .one⟩, ⟨16, .one⟩]⟩, ⟨⟨-1, 1⟩, ⟨3, 1⟩, [⟨5, .one⟩, ⟨14, .one⟩, ⟨17, .one⟩]⟩, ⟨⟨-1, 1⟩,
    ⟨3, 1⟩, [⟨5, .one⟩, ⟨15, .one⟩, ⟨16, .one⟩]⟩]⟩, ⟨5, [⟨.one, ⟨3, 1⟩, [⟨1, .one⟩, ⟨14, .one⟩, ⟨16, .one⟩]⟩, ⟨.one, ⟨3, 1⟩, [⟨4,
    .one⟩, ⟨14, .one⟩, ⟨17, .one⟩]⟩, ⟨.one, ⟨3, 1⟩, [⟨4, .one⟩, ⟨15, .one⟩, ⟨16, .one⟩]⟩]⟩, ⟨6, [⟨.one, ⟨3, 1⟩, [⟨2, .one⟩, ⟨14,
    .one⟩, ⟨16, .one⟩]⟩]⟩, ⟨9, [⟨⟨-1, 1⟩, ⟨3, 1⟩, [⟨2, .one⟩, ⟨14, .one⟩, ⟨17, .one⟩]⟩, ⟨⟨-1, 1⟩, ⟨3, 1⟩, [⟨2, .one⟩, ⟨15, .one⟩, ⟨16,
    .one⟩]⟩, ⟨.one, ⟨3, 1⟩, [⟨3, .one⟩, ⟨14, .one⟩, ⟨16, .one⟩]⟩]⟩, ⟨10, [⟨.one, ⟨3, 1⟩, [⟨4, .one⟩, ⟨14, .one⟩, ⟨16, .one⟩]⟩]⟩, ⟨12,
    [⟨.one, ⟨3, 1⟩, [⟨5, .one⟩, ⟨14, .one⟩, ⟨16, .one⟩]⟩]⟩], 18)],
    [(.id, [⟨0, [⟨.one, .one, [⟨12, .one⟩]⟩]⟩, ⟨3, [⟨.one, .one, [⟨18, .one⟩]⟩]⟩, ⟨5, [⟨.one, .one, [⟨19, .one⟩]⟩]⟩, ⟨6, [⟨.one, .one,
    [⟨20, .one⟩]⟩]⟩, ⟨9, [⟨.one, .one, [⟨21, .one⟩]⟩]⟩, ⟨10, [⟨.one, .one, [⟨22, .one⟩]⟩]⟩, ⟨12, [⟨.one, .one, [⟨23, .one⟩]⟩]⟩, ⟨15,
    [⟨⟨-1, 1⟩, .one, [⟨11, .one⟩]⟩]⟩])], 24, .one⟩ := by decide +kernel

variable {K : Type} [Field K]

/-- `compute_viewed`, with the construction of the expression. -/
theorem built_viewed {L : Type} (m : Metric) (E : Env K) {args : List (Arg K)} {args' : List (Arg L)}
    (ht : args.map (fun a => (a.ie, a.data.length)) = args'.map fun a => (a.ie, a.data.length)) {cap : Nat} {x : Out Rpne}
    {ts : List (MvOp × NMv × Nat)} {o : MvOp} {n : NMv} {k : Nat} {q : Rat32}
    (h : (do
      let e ← x
      let c ← compileExpr m false cap args' e
      c.viewed) = ok ⟨ts, [(o, n)], k, q⟩) {r : Entity K}
    (hr : (do
      let data ← fill (List.replicate (argsSize args + k - argsSize args) 0) 0 (args.map fun a => a.data)
      let E ← viewTemps { E with data := data } ts
      viewEntity E o n q) = ok r) :
    ∃ e, x = ok e ∧ (computeExpr m false cap E args e >>= single) = ok r := by
  rw [bind_eq_ok] at h
  obtain ⟨e, he, h⟩ := h
  exact ⟨e, he, (compute_viewed m E ht h).trans hr⟩

/-- `m * ~m` for a motor. -/
theorem motorSquare_run (E : Env K) (a b c d e f g h : K) :
    ∃ x, motorSquareExpr = ok x ∧ (computeExpr pgaMetric false 4 E [motorArg [a, b, c, d, e, f, g, h]] x >>= single) = ok
      ⟨[0, 15], [a * a + (d * d + (f * f + g * g)), 2 * (a * h) + (-(2 * (b * g)) + (2 * (c * f) + -(2 * (d * e))))]⟩ := by
  refine built_viewed pgaMetric E (by rfl) motorSquare_viewed ?_
  simp [argsSize, motorArg, fill, fill.fillOne, viewTemps, viewEntity, mapO, Env.term, Env.mon, Env.prod, Env.factor, Env.get, Env.pow, Gal.pow,
    powNat, Env.app, indConstantStart, scaleBy, Rat32.one, pure_eq, ok_bind]

/-- `m * inv_norm` for a motor. -/
theorem motorScale_run (E : Env K) (a b c d e f g h u v : K) :
    ∃ x, motorScaleExpr = ok x ∧
      (computeExpr pgaMetric false 3 E [motorArg [a, b, c, d, e, f, g, h], (⟨[0, 15], [u, v]⟩ : Entity K).toArg] x >>= single) = ok
      ⟨[0, 3, 5, 6, 9, 10, 12, 15], [a * u, b * u + -(g * v), c * u + f * v, d * u, -(d * v) + e * u, f * u, g * u, a * v + h * u]⟩ := by
  refine built_viewed pgaMetric E (by rfl) motorScale_viewed ?_
  simp [argsSize, motorArg, Entity.toArg, fill, fill.fillOne, viewTemps, viewEntity, mapO, Env.term, Env.mon, Env.prod, Env.factor, Env.get,
    Env.pow, Gal.pow, Env.app, indConstantStart, scaleBy, Rat32.one, pure_eq, ok_bind]

/-- `(l | l) + (l ^ l)` for a bivector. -/
theorem lineSquare_run (E : Env K) (a b c d e f : K) :
    ∃ x, lineSquareExpr = ok x ∧
      (computeExpr pgaMetric false 11 E [(⟨[3, 5, 6, 9, 10, 12], [a, b, c, d, e, f]⟩ : Entity K).toArg] x >>= single) = ok
      ⟨[0, 15], [-(c * c) + (-(e * e) + -(f * f)), 2 * (a * f) + (-(2 * (b * e)) + 2 * (c * d))]⟩ := by
  refine built_viewed pgaMetric E (by rfl) lineSquare_viewed ?_
  simp [argsSize, Entity.toArg, fill, fill.fillOne, viewTemps, viewEntity, mapO, Env.term, Env.mon, Env.prod, Env.factor, Env.get, Env.pow, Gal.pow,
    powNat, Env.app, indConstantStart, scaleBy, Rat32.one, pure_eq, ok_bind]

/-- `(u + v * 1_ps) * l * inv_norm` for a bivector. -/
theorem log_run (E : Env K) (u v a b c d e f g h : K) :
    ∃ x, logExpr = ok x ∧
      (computeExpr pgaMetric false 11 E [numArg u, numArg v, (⟨[3, 5, 6, 9, 10, 12], [a, b, c, d, e, f]⟩ : Entity K).toArg,
        (⟨[0, 15], [g, h]⟩ : Entity K).toArg] x >>= single) = ok
      ⟨[3, 5, 6, 9, 10, 12], [u * (a * g) + (-(u * (f * h)) + -(v * (f * g))), u * (b * g) + (u * (e * h) + v * (e * g)), u * (c * g),
        -(u * (c * h)) + (u * (d * g) + -(v * (c * g))), u * (e * g), u * (f * g)]⟩ := by
  refine built_viewed pgaMetric E (by rfl) log_viewed ?_
  simp [argsSize, Entity.toArg, numArg, fill, fill.fillOne, viewTemps, viewEntity, mapO, Env.term, Env.mon, Env.prod, Env.factor, Env.get, Env.pow,
    Gal.pow, Env.app, indConstantStart, scaleBy, Rat32.one, pure_eq, ok_bind]

/-- `exp(l)` for a bivector. -/
theorem bivExp_run (E : Env K) (a b c d e f s p u v : K) (hp : 2 * (a * f) + (-(2 * (b * e)) + 2 * (c * d)) = p)
    (hs : -(c * c) + (-(e * e) + -(f * f)) = s) (hu : E.fn .sqrt (f * f + e * e + c * c) = u) (hv : -1 / 2 * (p * u⁻¹) = v) :
    ∃ x, expExpr 4 (entityExpr 0 0) = ok x ∧
      (computeExpr pgaMetric false 95 E [(⟨[3, 5, 6, 9, 10, 12], [a, b, c, d, e, f]⟩ : Entity K).toArg] x >>= single) = ok
      ⟨[0, 3, 5, 6, 9, 10, 12, 15], [E.fn .cos u,
          a * (E.fn .sin u * u⁻¹) + (-(f * (E.fn .sin u * (s⁻¹ * v))) + -(f * (v * E.fn .cos u * u⁻¹))),
          b * (E.fn .sin u * u⁻¹) + (e * (E.fn .sin u * (s⁻¹ * v)) + e * (v * E.fn .cos u * u⁻¹)),
          c * (E.fn .sin u * u⁻¹),
          -(c * (E.fn .sin u * (s⁻¹ * v))) + (-(c * (v * E.fn .cos u * u⁻¹)) + d * (E.fn .sin u * u⁻¹)),
          e * (E.fn .sin u * u⁻¹), f * (E.fn .sin u * u⁻¹), -(v * E.fn .sin u)]⟩ := by
  refine built_viewed pgaMetric E (by rfl) bivExp_viewed ?_
  simp [argsSize, Entity.toArg, fill, fill.fillOne, viewTemps, tempLoop, Env.write, viewEntity, mapO, Env.term, Env.mon, Env.prod, Env.factor,
    Env.get, Env.pow, Gal.pow, powNat, Env.app, indConstantStart, scaleBy, Rat32.one, Rat32.cast, pure_eq, ok_bind, hp, hs, hu, hv]

/-- `exp(l)` for a line. -/
theorem lineExp_run (E : Env K) (a b c d e f s p u v : K) (hp : 2 * (a * d) + (-(2 * (b * e)) + 2 * (c * f)) = p)
    (hs : -(a * a) + (-(b * b) + -(c * c)) = s) (hu : E.fn .sqrt (c * c + b * b + a * a) = u) (hv : -1 / 2 * (p * u⁻¹) = v) :
    ∃ x, expExpr 4 (entityExpr 0 0) = ok x ∧ (computeExpr pgaMetric false 95 E [lineArg [a, b, c, d, e, f]] x >>= single) = ok
      ⟨[0, 3, 5, 6, 9, 10, 12, 15], [E.fn .cos u,
          a * (E.fn .sin u * (s⁻¹ * v)) + (a * (v * E.fn .cos u * u⁻¹) + -(d * (E.fn .sin u * u⁻¹))),
          b * (E.fn .sin u * (s⁻¹ * v)) + (b * (v * E.fn .cos u * u⁻¹) + e * (E.fn .sin u * u⁻¹)),
          -(c * (E.fn .sin u * u⁻¹)),
          c * (E.fn .sin u * (s⁻¹ * v)) + (c * (v * E.fn .cos u * u⁻¹) + -(f * (E.fn .sin u * u⁻¹))),
          b * (E.fn .sin u * u⁻¹), -(a * (E.fn .sin u * u⁻¹)), -(v * E.fn .sin u)]⟩ := by
  refine built_viewed pgaMetric E (by rfl) lineExp_viewed ?_
  simp [argsSize, lineArg, fill, fill.fillOne, viewTemps, tempLoop, Env.write, viewEntity, mapO, Env.term, Env.mon, Env.prod, Env.factor, Env.get,
    Env.pow, Gal.pow, powNat, Env.app, indConstantStart, scaleBy, Rat32.one, Rat32.cast, pure_eq, ok_bind, hp, hs, hu, hv]

end Gal
