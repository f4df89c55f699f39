import Verif.Props.TupleQuot

/-!
# C49: quotients and functions

They become temporaries, so the code does not see what cancels.
-/

namespace Gal

open Out

variable {K : Type} [Field K]

omit [Field K] in
theorem pair_types (a b : K) : [numArg a, numArg b].map (fun a => (a.ie, a.data.length)) =
    [numArg (2 : ℚ), numArg 3].map fun a => (a.ie, a.data.length) := rfl

/-- `compute` for a lambda whose compilation, for some coefficients of the same types, has been checked. -/
theorem lambda_viewed {L : Type} (m : Metric) (E : Env K) {args : List (Arg K)} {args' : List (Arg L)}
    (ht : args.map (fun a => (a.ie, a.data.length)) = args'.map fun a => (a.ie, a.data.length)) {f : Lam}
    {ts : List (MvOp × NMv × Nat)} {o : MvOp} {n : NMv} {k : Nat} {q : Rat32}
    (h : (f.build (argOffset args') >>= fun e => compileExpr m false f.cap args' e >>= Compiled.viewed) = ok ⟨ts, [(o, n)], k, q⟩) :
    f.compute m false E args = (do
      let data ← fill (List.replicate (argsSize args + k - argsSize args) 0) 0 (args.map fun a => a.data)
      let E ← viewTemps { E with data := data } ts
      let x ← viewEntity E o n q
      return [x]) := by
  rw [bind_eq_ok] at h
  obtain ⟨e, he, h⟩ := h
  rw [bind_eq_ok] at h
  obtain ⟨c, hc, hv⟩ := h
  unfold Lam.compute computeExpr
  rw [← offset_types ht, he, ok_bind, compile_types ht, hc, ok_bind, run_viewed m E args hv]

set_option linter.unusedSimpArgs false in
/-- **C49 fails for quotients**: for all numbers `a` and `b` other than zero, `compute([](auto a, auto b) { return a / b * b - a; }, a, b)` is zero, but
the returned type has a scalar component. -/
theorem C49_quotient_false (E : Env K) (a : K) {b : K} (hb : b ≠ 0) :
    (Lam.sub (.gp (.div (.arg 0) (.arg 1)) (.arg 1)) (.arg 0)).compute ⟨1, 0, 0⟩ false E [numArg a, numArg b] = ok [⟨[0], [0]⟩] := by
  rw [lambda_viewed ⟨1, 0, 0⟩ E (pair_types a b) (ts := [(.id, [⟨0, [⟨⟨1, 1⟩, ⟨2, 1⟩, [⟨0, ⟨1, 1⟩⟩, ⟨1, ⟨-1, 1⟩⟩]⟩]⟩], 2)]) (o := .id)
    (n := [⟨0, [⟨⟨-1, 1⟩, ⟨1, 1⟩, [⟨0, ⟨1, 1⟩⟩]⟩, ⟨⟨1, 1⟩, ⟨2, 1⟩, [⟨1, ⟨1, 1⟩⟩, ⟨2, ⟨1, 1⟩⟩]⟩]⟩]) (k := 3) (q := ⟨1, 1⟩) (by decide +kernel)]
  simp [argsSize, numArg, fill, fill.fillOne, viewTemps, viewEntity, tempLoop, Env.write, Env.term, Env.mon, Env.prod, Env.factor, Env.get, Env.pow,
    Gal.pow, Env.app, indConstantStart, Rat32.cast, scaleBy, mapO, pure_eq, ok_bind, ok_inj]
  field_simp
  ring

set_option linter.unusedSimpArgs false in
/-- **C49 fails for functions**: `sqrt(a) * sqrt(a) - a` is zero for all numbers `a` that have a square root, but the returned type has a scalar
component. -/
theorem C49_function_false (E : Env K) {a : K} (ha : E.fn .sqrt a * E.fn .sqrt a = a) (b : K) :
    (Lam.sub (.gp (.fn Op.sqrt (.arg 0)) (.fn Op.sqrt (.arg 0))) (.arg 0)).compute ⟨1, 0, 0⟩ false E [numArg a, numArg b] = ok [⟨[0], [0]⟩] := by
  rw [lambda_viewed ⟨1, 0, 0⟩ E (pair_types a b) (ts := [(.sqrt, [⟨0, [⟨⟨1, 1⟩, ⟨1, 1⟩, [⟨0, ⟨1, 1⟩⟩]⟩]⟩], 2)]) (o := .id)
    (n := [⟨0, [⟨⟨-1, 1⟩, ⟨1, 1⟩, [⟨0, ⟨1, 1⟩⟩]⟩, ⟨⟨1, 1⟩, ⟨2, 1⟩, [⟨2, ⟨2, 1⟩⟩]⟩]⟩]) (k := 3) (q := ⟨1, 1⟩) (by decide +kernel)]
  simp [argsSize, numArg, fill, fill.fillOne, viewTemps, viewEntity, tempLoop, Env.write, Env.term, Env.mon, Env.prod, Env.factor, Env.get, Env.pow,
    Gal.pow, powNat, Env.app, indConstantStart, Rat32.cast, scaleBy, mapO, pure_eq, ok_bind, ok_inj, ha]

example : (2 : ℚ) ≠ 0 ∧ rootEnv.fn .sqrt 4 * rootEnv.fn .sqrt 4 = 4 := ⟨by decide, by decide +kernel⟩

end Gal
