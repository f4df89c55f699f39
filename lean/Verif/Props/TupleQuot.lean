import Verif.Props.NullQuot
import Verif.Props.RunView

/-!
# Property C46: quotients and functions in tuples

They do not work.  A quotient or function is stored as a temporary, and its place in the expression is taken by one node that refers to it; the
recorded length of the component stays, as in `C46_false`.
-/

namespace Gal

open Out

variable {K : Type} [Field K]

theorem tuple_compile {L : Type} (m : Metric) (null : Bool) (E : Env K) {args : List (Arg K)} {args' : List (Arg L)}
    (ht : args.map (fun a => (a.ie, a.data.length)) = args'.map fun a => (a.ie, a.data.length)) (fs : List Lam) :
    Lam.computeTuple m null E args fs = (mapO (Lam.build (argOffset args')) fs >>= fun es =>
      compileExpr m null ((fs.map Lam.cap).sum + fs.length) args' (concatExpr es)) >>= runCompiled m null E args := by
  unfold Lam.computeTuple computeExpr
  simp only [compile_types ht, offset_types ht, bind_assoc]

omit [Field K] in
theorem scalars_types (a b c : K) : [numArg a, numArg b, numArg c].map (fun a => (a.ie, a.data.length)) =
    [numArg (2 : ℚ), numArg 3, numArg 5].map fun a => (a.ie, a.data.length) := rfl

set_option linter.unusedSimpArgs false in
/-- **C46 fails for quotients**: for any numbers `a`, `b` and `c`, `tuple{a / b, c}` compiles and returns one result, `c`. -/
theorem C46_quotient_false (E : Env K) (a b c : K) :
    Lam.computeTuple ⟨1, 0, 0⟩ false E [numArg a, numArg b, numArg c] [.div (.arg 0) (.arg 1), .arg 2] = ok [⟨[0], [c]⟩] := by
  rw [tuple_compile _ _ E (scalars_types a b c)]
  have h : ((mapO (Lam.build (argOffset [numArg (2 : ℚ), numArg 3, numArg 5])) [.div (.arg 0) (.arg 1), .arg 2] >>= fun es =>
      compileExpr ⟨1, 0, 0⟩ false (([.div (.arg 0) (.arg 1), .arg 2] : List Lam).map Lam.cap |>.sum.add 2)
        [numArg (2 : ℚ), numArg 3, numArg 5] (concatExpr es)) >>= Compiled.viewed) =
      ok ⟨[(.id, [⟨0, [⟨⟨1, 1⟩, ⟨2, 1⟩, [⟨0, ⟨1, 1⟩⟩, ⟨1, ⟨-1, 1⟩⟩]⟩]⟩], 3)], [(.id, [⟨0, [⟨⟨1, 1⟩, ⟨1, 1⟩, [⟨2, ⟨1, 1⟩⟩]⟩]⟩])], 4, ⟨1, 1⟩⟩ := by
    decide +kernel
  rw [bind_eq_ok] at h
  obtain ⟨p, hp, h⟩ := h
  rw [show (([.div (.arg 0) (.arg 1), .arg 2] : List Lam).map Lam.cap).sum + ([.div (.arg 0) (.arg 1), .arg 2] : List Lam).length =
    (([.div (.arg 0) (.arg 1), .arg 2] : List Lam).map Lam.cap |>.sum.add 2) from rfl, hp, ok_bind, run_viewed _ E _ h]
  simp [argsSize, numArg, fill, fill.fillOne, viewTemps, viewEntity, tempLoop, Env.write, Env.term, Env.mon, Env.prod, Env.factor, Env.get, Env.pow,
    Gal.pow, Env.app, indConstantStart, Rat32.cast, scaleBy, mapO, pure_eq, ok_bind, ok_inj]

/-- The quotient alone is computed. -/
example : Lam.compute ⟨1, 0, 0⟩ false numEnv [numArg 2, numArg 3, numArg 5] (.div (.arg 0) (.arg 1)) = ok [⟨[0], [2 / 3]⟩] :=
  oneResult_eq (by decide +kernel)

/-- **A quotient that is not the first component does not compile**: `tuple{c, a / b}`. -/
theorem C46_quotient_last_false (E : Env K) (a b c : K) :
    Lam.computeTuple ⟨1, 0, 0⟩ false E [numArg a, numArg b, numArg c] [.arg 2, .div (.arg 0) (.arg 1)] = .ub := by
  rw [tuple_compile _ _ E (scalars_types a b c), ub_of_isUb (x := mapO _ _ >>= _) (by decide +kernel)]
  rfl

/-- **Functions in tuples do not compile**: neither `tuple{sqrt(a), c}` nor `tuple{c, sqrt(a)}`. -/
theorem C46_function_false (E : Env K) (a b c : K) :
    Lam.computeTuple ⟨1, 0, 0⟩ false E [numArg a, numArg b, numArg c] [.fn Op.sqrt (.arg 0), .arg 2] = .ub ∧
    Lam.computeTuple ⟨1, 0, 0⟩ false E [numArg a, numArg b, numArg c] [.arg 2, .fn Op.sqrt (.arg 0)] = .ub := by
  refine ⟨?_, ?_⟩ <;> rw [tuple_compile _ _ E (scalars_types a b c), ub_of_isUb (x := mapO _ _ >>= _) (by decide +kernel)] <;> rfl

end Gal
