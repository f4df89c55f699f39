import Verif.Props.LambdaExamples
import Verif.Props.NullShared

/-!
# Property C53: common subexpressions of lambdas in an algebra with a null basis
-/

namespace Gal

open Out

variable {K : Type} [Field K]

/-- What is checked at compile time for a lambda with common subexpressions in an algebra with a null basis. -/
def Lam.checkNullShared {K : Type} (m : Metric) (args : List (Arg K)) (f : Lam) : Bool :=
  match f.build (argOffset args) with
  | .val e false => f.regular (argOffset args) && shareable f.cap e &&
    match compileExpr m true f.cap args e with
    | .val c false => decide (c.state.nextId ≤ indConstantStart) && (c.state.temps.all fun p => safeTemp m.dim p.1) &&
      c.state.args.all fun a => (toNullBasis m.dim a).isOk
    | _ => false
  | _ => false

/-- **C53 in algebras with a null basis, with common subexpressions.**  `compute(f, args...)` for a lambda that passes the check for the types of
the arguments returns, for all coefficients in the null basis, the value of `f`, again in the null basis. -/
theorem C53_null_shared_partial {L : Type} [CharZero K] {m : Metric} (h2 : 2 ≤ m.dim) (hm : m.dim ≤ 8) (E : Env K) (args : List (Arg K))
    {w : Nat → CliffordAlgebra (diagForm K m.dim m.sq)}
    (hw : ∀ (k : Nat) (a : Arg K), args[k]? = some a → a.DenotesNull m.dim m.sq (argOffset args k) (w k))
    {D : CliffordAlgebra (diagForm K m.dim m.sq) →ₗ[K] CliffordAlgebra (diagForm K m.dim m.sq)} (hD : IsDual K m.dim m.sq D)
    {C : Nat → CliffordAlgebra (diagForm K m.dim m.sq) →ₗ[K] CliffordAlgebra (diagForm K m.dim m.sq)} (hC : IsNullCoeff K m.dim m.sq C)
    (f : Lam) (ho : f.Ordered (nullInterp K m.dim m.sq (fun k => E.consts.getD k 0) D C w) (argOffset args))
    (hr : f.Parts (NullElement m.dim) (GradeSafe m.dim) False args.length E.consts.length)
    {args' : List (Arg L)} (ht : args.map (fun a => (a.ie, a.data.length)) = args'.map fun a => (a.ie, a.data.length))
    (hcap : f.cap < 2 ^ 64) (hk : f.checkNullShared m args' = true) :
    ∃ x, f.compute m true E args = ok [x] ∧
      x.DenotesNull m.dim m.sq (f.val (nullInterp K m.dim m.sq (fun k => E.consts.getD k 0) D C w) (argOffset args)) := by
  unfold Lam.checkNullShared at hk
  rw [offset_types ht] at hk
  match he : f.build (argOffset args) with
  | .ub => rw [he] at hk; cases hk
  | .val e true => rw [he] at hk; cases hk
  | .val e false =>
    rw [he] at hk
    simp only [Bool.and_eq_true] at hk
    obtain ⟨⟨h1, h2'⟩, h3⟩ := hk
    match hc : compileExpr m true f.cap args' e with
    | .ub => rw [hc] at h3; cases h3
    | .val c true => rw [hc] at h3; cases h3
    | .val c false =>
      rw [hc] at h3
      simp only [Bool.and_eq_true, decide_eq_true_eq, List.all_eq_true] at h3
      obtain ⟨⟨h3, h4⟩, h5⟩ := h3
      rw [← compile_types ht] at hc
      have he' : f.build (argOffset args) = ok e := he
      have hc' : compileExpr m true f.cap args e = ok c := hc
      obtain ⟨x, x1, x2⟩ := C47_shared_partial h2 hm E hw hD hC (C53_value_partial _ _ f h1 ho he) (build_supportedNull hr he)
        (shareable_extracts hcap h2') hc' h3 (fun p hp => safeTemp_sound (h4 p hp)) fun a ha => Out.exists_of_isOk (h5 a ha)
      refine ⟨x, ?_, x2⟩
      unfold Lam.compute computeExpr
      rw [he', ok_bind, hc', ok_bind, x1]

/-! ## A rotor acts on conformal points -/

/-- Two vectors of space and a vector of the conformal algebra in the null basis. -/
def rotorArgs (a b : Fin 3 → ℚ) (p : Fin 5 → ℚ) : List (Arg ℚ) :=
  [(⟨[1, 2, 4], [a 0, a 1, a 2]⟩ : Entity ℚ).toArg, (⟨[1, 2, 4], [b 0, b 1, b 2]⟩ : Entity ℚ).toArg,
    (⟨[1, 2, 4, 8, 16], [p 0, p 1, p 2, p 3, p 4]⟩ : Entity ℚ).toArg]

/-- And the elements they stand for. -/
noncomputable def rotorVals (a b : Fin 3 → ℚ) (p : Fin 5 → ℚ) : Nat → CliffordAlgebra (diagForm ℚ 5 (Metric.sq ⟨4, 1, 0⟩))
  | 0 => pairsVal (nullElem ℚ 5 (Metric.sq ⟨4, 1, 0⟩)) [1, 2, 4] [a 0, a 1, a 2]
  | 1 => pairsVal (nullElem ℚ 5 (Metric.sq ⟨4, 1, 0⟩)) [1, 2, 4] [b 0, b 1, b 2]
  | _ => pairsVal (nullElem ℚ 5 (Metric.sq ⟨4, 1, 0⟩)) [1, 2, 4, 8, 16] [p 0, p 1, p 2, p 3, p 4]

theorem rotorArgs_denote (a b : Fin 3 → ℚ) (p : Fin 5 → ℚ) (k : Nat) (x : Arg ℚ) (h : (rotorArgs a b p)[k]? = some x) :
    x.DenotesNull 5 (Metric.sq ⟨4, 1, 0⟩) (argOffset (rotorArgs a b p) k) (rotorVals a b p k) := by
  match k with
  | 0 =>
    simp [rotorArgs] at h; subst h
    exact C47_entity (dim := 5) (Metric.sq ⟨4, 1, 0⟩) (x := ⟨[1, 2, 4], [a 0, a 1, a 2]⟩) (off := 0) (by simp) (by simp) rfl (by simp)
  | 1 =>
    simp [rotorArgs] at h; subst h
    exact C47_entity (dim := 5) (Metric.sq ⟨4, 1, 0⟩) (x := ⟨[1, 2, 4], [b 0, b 1, b 2]⟩) (off := 3) (by simp) (by simp) rfl (by simp)
  | 2 =>
    simp [rotorArgs] at h; subst h
    exact C47_entity (dim := 5) (Metric.sq ⟨4, 1, 0⟩) (x := ⟨[1, 2, 4, 8, 16], [p 0, p 1, p 2, p 3, p 4]⟩) (off := 6) (by simp) (by simp) rfl
      (by simp)
  | k + 3 => simp [rotorArgs] at h

theorem rotor_check : (Lam.sandwich (.arg 2) (.gp (.arg 0) (.arg 1))).checkNullShared ⟨4, 1, 0⟩ (rotorArgs ![1, 2, 3] ![5, 7, 11] ![1, 2, 3, 4, 5]) =
    true := by decide +kernel

theorem rotor_types (a b a' b' : Fin 3 → ℚ) (p p' : Fin 5 → ℚ) : (rotorArgs a b p).map (fun a => (a.ie, a.data.length)) =
    (rotorArgs a' b' p').map fun a => (a.ie, a.data.length) := rfl

/-- `compute([](auto a, auto b, auto p) { return p % (a * b); }, a, b, p)` is `(a b) p ~(a b)` for all vectors `a`, `b` of space and all vectors
`p` of the conformal algebra.  The rotor is a temporary. -/
theorem C53_null_rotor {m : Metric} (hm : m = ⟨4, 1, 0⟩) (a b : Fin 3 → ℚ) (p : Fin 5 → ℚ) {w : Nat → CliffordAlgebra (diagForm ℚ m.dim m.sq)}
    (hw : ∀ (k : Nat) (x : Arg ℚ), (rotorArgs a b p)[k]? = some x → x.DenotesNull m.dim m.sq (argOffset (rotorArgs a b p) k) (w k)) :
    ∃ x, (Lam.sandwich (.arg 2) (.gp (.arg 0) (.arg 1))).compute m true numEnv (rotorArgs a b p) = ok [x] ∧
      x.DenotesNull m.dim m.sq (w 0 * w 1 * w 2 * CliffordAlgebra.reverse (w 0 * w 1)) := by
  have hd : m.dim = 5 := by rw [hm]; rfl
  have hk : (Lam.sandwich (.arg 2) (.gp (.arg 0) (.arg 1))).checkNullShared m (rotorArgs ![1, 2, 3] ![5, 7, 11] ![1, 2, 3, 4, 5]) = true := by
    rw [hm]; exact rotor_check
  clear hm
  obtain ⟨D, hD⟩ := exists_isDual ℚ m.dim (by omega) m.sq
  obtain ⟨C, hC⟩ := exists_isNullCoeff ℚ m.dim (by omega) (by omega) m.sq
  obtain ⟨x, h1, h2⟩ := C53_null_shared_partial (by omega) (by omega) numEnv (rotorArgs a b p) hw hD hC
    (.sandwich (.arg 2) (.gp (.arg 0) (.arg 1))) (by simp [Lam.Ordered]) (by simp [Lam.Parts, rotorArgs]) (rotor_types a b _ _ p _)
    (by decide) hk
  exact ⟨x, h1, h2⟩

/-- The hypothesis of `C53_null_rotor` holds for all coefficients. -/
example (a b : Fin 3 → ℚ) (p : Fin 5 → ℚ) : ∃ w : Nat → CliffordAlgebra (diagForm ℚ (Metric.dim ⟨4, 1, 0⟩) (Metric.sq ⟨4, 1, 0⟩)),
    ∀ (k : Nat) (x : Arg ℚ), (rotorArgs a b p)[k]? = some x →
      x.DenotesNull (Metric.dim ⟨4, 1, 0⟩) (Metric.sq ⟨4, 1, 0⟩) (argOffset (rotorArgs a b p) k) (w k) := ⟨rotorVals a b p, rotorArgs_denote a b p⟩

end Gal
