import Verif.Props.LambdaExamples
import Verif.Props.SparseNull

/-!
# C49 for lambdas

The components of the entities that `compute(f, args...)` returns (engine.hpp:455-518) are, for a lambda that passes the check of C53, exactly those that are
not zero for some coefficients of the arguments.  The value of the lambda is that of `Lam.val` in the Clifford algebra.  As in C49, values of named
constants count as unknowns.
-/

namespace Gal

open Out

variable {K : Type} [Field K]

/-- Only the value of the lambda is a meaning of its expression. -/
theorem means_build {V : Type} [AddCommGroup V] [Module ℚ V] {I : Interp V} {off : Nat → Nat} {f : Lam} {e : Rpne} (h1 : f.regular off = true)
    (ho : f.Ordered I off) (he : f.build off = ok e) {v : V} : Means I e v ↔ v = f.val I off :=
  ⟨fun h => means_unique h (C53_value_partial I off f h1 ho he), fun h => h ▸ C53_value_partial I off f h1 ho he⟩

theorem build_forall₂ {off : Nat → Nat} : ∀ {fs : List Lam} {es : List Rpne}, mapO (Lam.build off) fs = ok es →
    List.Forall₂ (fun e f => f.build off = ok e ∧ f ∈ fs) es fs
  | [], es, h => by rw [mapO_nil_ok.1 h]; exact .nil
  | f :: fs, es, h => by
    obtain ⟨y, ys, hy, hys, rfl⟩ := mapO_cons_ok.1 h
    exact .cons ⟨hy, by simp⟩ ((build_forall₂ hys).imp fun _ _ h => ⟨h.1, List.mem_cons_of_mem _ h.2⟩)

theorem forall₂_comp {α β γ : Type} {R : α → β → Prop} {S : β → γ → Prop} {T : α → γ → Prop} (h : ∀ a b c, R a b → S b c → T a c) :
    ∀ {l : List α} {l' : List β} {l'' : List γ}, List.Forall₂ R l l' → List.Forall₂ S l' l'' → List.Forall₂ T l l''
  | [], [], [], .nil, .nil => .nil
  | _ :: _, _ :: _, _ :: _, .cons h1 h2, .cons h3 h4 => .cons (h _ _ _ h1 h3) (forall₂_comp h h2 h4)

/-- No operation occurs twice in the expression of the lambda, so that there are no common subexpressions (dfa.hpp:235-586). -/
def Lam.distinct (off : Nat → Nat) (f : Lam) : Bool :=
  match f.build off with
  | .val e _ => noRepeat e.nodes
  | .ub => false

/-- **C49 for lambdas.**  An element is listed in the result if and only if its coefficient in the value of the lambda is not zero for some coefficients of
the arguments.  The hypothesis on the order of the operands of `|` is for all coefficients here. -/
theorem C49_lambda_partial {L : Type} [CharZero K] (m : Metric) (hm : m.dim ≤ 8) (E : Env K) (args : List (Arg K))
    {w : Nat → CliffordAlgebra (diagForm K m.dim m.sq)}
    (hw : ∀ (k : Nat) (a : Arg K), args[k]? = some a → a.Denotes m.dim m.sq (argOffset args k) (w k))
    {D : CliffordAlgebra (diagForm K m.dim m.sq) →ₗ[K] CliffordAlgebra (diagForm K m.dim m.sq)} (hD : IsDual K m.dim m.sq D)
    (f : Lam) (ho : ∀ named w', f.Ordered (cliffInterp K m.dim m.sq named D w') (argOffset args)) (hr : f.InRange m.dim args.length E.consts.length)
    {args' : List (Arg L)} (ht : args.map (fun a => (a.ie, a.data.length)) = args'.map fun a => (a.ie, a.data.length))
    (hcap : f.cap < 2 ^ 64) (hk : f.check m args' = true) (hn : f.distinct (argOffset args') = true) :
    ∃ x, f.compute m false E args = ok [x] ∧
      x.Denotes m.dim m.sq (f.val (cliffInterp K m.dim m.sq (fun k => E.consts.getD k 0) D w) (argOffset args)) ∧
      ∀ g, g ∈ x.elements ↔ ∃ (named : Nat → K) (w' : Nat → CliffordAlgebra (diagForm K m.dim m.sq)),
        MayBe m args w' ∧ bladeCoords K m.dim m.sq (f.val (cliffInterp K m.dim m.sq named D w') (argOffset args)) g ≠ 0 := by
  unfold Lam.check at hk
  unfold Lam.distinct at hn
  rw [offset_types ht] at hk hn
  match he : f.build (argOffset args) with
  | .ub => rw [he] at hk; cases hk
  | .val e true => rw [he] at hk; cases hk
  | .val e false =>
    rw [he] at hk hn
    simp only [Bool.and_eq_true] at hk
    obtain ⟨⟨h1, -⟩, h3⟩ := hk
    match hc : compileExpr m false f.cap args' e with
    | .ub => rw [hc] at h3; cases h3
    | .val c true => rw [hc] at h3; cases h3
    | .val c false =>
      rw [hc] at h3
      rw [← compile_types ht] at hc
      have he' : f.build (argOffset args) = ok e := he
      have hc' : compileExpr m false f.cap args e = ok c := hc
      obtain ⟨x, x1, x2, x3⟩ := C49_sparse_partial m hm E args hw hD (C53_value_partial _ _ f h1 (ho _ w) he') (build_supported hr he')
        (noRepeat_sound hn) hcap hc' (by simpa using h3)
      refine ⟨x, ?_, x2, fun g => ?_⟩
      · unfold Lam.compute computeExpr
        rw [he', ok_bind, hc', ok_bind, x1]
      · simp only [x3, means_build h1 (ho _ _) he']
        constructor
        · rintro ⟨named, w', v', k1, rfl, k3⟩
          exact ⟨named, w', k1, k3⟩
        · rintro ⟨named, w', k1, k3⟩
          exact ⟨named, w', _, k1, rfl, k3⟩

/-- **C49 for lambdas that return tuples.** -/
theorem C49_lambda_tuple_partial {L : Type} [CharZero K] (m : Metric) (hm : m.dim ≤ 8) (E : Env K) (args : List (Arg K))
    {w : Nat → CliffordAlgebra (diagForm K m.dim m.sq)}
    (hw : ∀ (k : Nat) (a : Arg K), args[k]? = some a → a.Denotes m.dim m.sq (argOffset args k) (w k))
    {D : CliffordAlgebra (diagForm K m.dim m.sq) →ₗ[K] CliffordAlgebra (diagForm K m.dim m.sq)} (hD : IsDual K m.dim m.sq D)
    (fs : List Lam) (hne : fs ≠ [])
    (ho : ∀ f ∈ fs, ∀ named w', f.Ordered (cliffInterp K m.dim m.sq named D w') (argOffset args))
    (hr : ∀ f ∈ fs, f.InRange m.dim args.length E.consts.length)
    {args' : List (Arg L)} (ht : args.map (fun a => (a.ie, a.data.length)) = args'.map fun a => (a.ie, a.data.length))
    (hk : Lam.checkTuple m false args' fs = true) :
    ∃ xs, Lam.computeTuple m false E args fs = ok xs ∧
      List.Forall₂ (fun x f => ∀ g, g ∈ x.elements ↔ ∃ (named : Nat → K) (w' : Nat → CliffordAlgebra (diagForm K m.dim m.sq)),
        MayBe m args w' ∧ bladeCoords K m.dim m.sq (f.val (cliffInterp K m.dim m.sq named D w') (argOffset args)) g ≠ 0) xs fs := by
  obtain ⟨es, c, he, h1, h2, h3, h4, hc, -⟩ := checkTuple_ok ht hk
  have hes : es ≠ [] := fun h => by
    have := build_forall₂ he
    rw [h] at this
    cases this
    exact hne rfl
  obtain ⟨xs, x1, -, x3⟩ := C49_tuple_partial m hm E args hw hD hes (build_forall h1 (fun f hf => ho f hf _ w) he) h2
    (build_each (fun f hf e h => build_supported (hr f hf) h) he) (noRepeat_sound h3) hc h4
  refine ⟨xs, ?_, forall₂_comp (fun x e f hx hf g => ?_) x3 (build_forall₂ he)⟩
  · unfold Lam.computeTuple computeExpr
    rw [he, ok_bind, hc, ok_bind, x1]
  · simp only [hx, means_build (h1 f hf.2) (ho f hf.2 _ _) hf.1]
    constructor
    · rintro ⟨named, w', v', k1, rfl, k3⟩
      exact ⟨named, w', k1, k3⟩
    · rintro ⟨named, w', k1, k3⟩
      exact ⟨named, w', _, k1, rfl, k3⟩

/-- **C49 for lambdas, null bases.** -/
theorem C49_lambda_null_partial {L : Type} [CharZero K] {m : Metric} (h2 : 2 ≤ m.dim) (hm : m.dim ≤ 8) (E : Env K) (args : List (Arg K))
    {w : Nat → CliffordAlgebra (diagForm K m.dim m.sq)}
    (hw : ∀ (k : Nat) (a : Arg K), args[k]? = some a → a.DenotesNull m.dim m.sq (argOffset args k) (w k))
    {D : CliffordAlgebra (diagForm K m.dim m.sq) →ₗ[K] CliffordAlgebra (diagForm K m.dim m.sq)} (hD : IsDual K m.dim m.sq D)
    {C : Nat → CliffordAlgebra (diagForm K m.dim m.sq) →ₗ[K] CliffordAlgebra (diagForm K m.dim m.sq)} (hC : IsNullCoeff K m.dim m.sq C)
    (f : Lam) (ho : ∀ named w', f.Ordered (nullInterp K m.dim m.sq named D C w') (argOffset args))
    (hr : f.Parts (NullElement m.dim) (GradeSafe m.dim) False args.length E.consts.length)
    {args' : List (Arg L)} (ht : args.map (fun a => (a.ie, a.data.length)) = args'.map fun a => (a.ie, a.data.length))
    (hk : f.checkNull m args' = true) :
    ∃ x, f.compute m true E args = ok [x] ∧
      x.DenotesNull m.dim m.sq (f.val (nullInterp K m.dim m.sq (fun k => E.consts.getD k 0) D C w) (argOffset args)) ∧
      ∀ g, g ∈ x.elements ↔ g < 2 ^ m.dim ∧ ∃ (named : Nat → K) (w' : Nat → CliffordAlgebra (diagForm K m.dim m.sq)),
        MayBeNull m args w' ∧ C g (f.val (nullInterp K m.dim m.sq named D C w') (argOffset args)) ≠ 0 := by
  unfold Lam.checkNull at hk
  rw [offset_types ht, size_types ht] at hk
  match he : f.build (argOffset args) with
  | .ub => rw [he] at hk; cases hk
  | .val e true => rw [he] at hk; cases hk
  | .val e false =>
    rw [he] at hk
    simp only [Bool.and_eq_true, decide_eq_true_eq] at hk
    obtain ⟨⟨⟨h1, h2'⟩, h4⟩, h3⟩ := hk
    match hc : compileExpr m true f.cap args' e with
    | .ub => rw [hc] at h3; cases h3
    | .val c true => rw [hc] at h3; cases h3
    | .val c false =>
      rw [hc] at h3
      rw [← compile_types ht] at hc
      have he' : f.build (argOffset args) = ok e := he
      have hc' : compileExpr m true f.cap args e = ok c := hc
      obtain ⟨x, x1, x2, x3⟩ := C49_null_partial h2 hm E hw hD hC (C53_value_partial _ _ f h1 (ho _ w) he') (build_supportedNull hr he')
        (noRepeat_sound h2') hc' h4 (toNull_exists h3)
      refine ⟨x, ?_, x2, fun g => ?_⟩
      · unfold Lam.compute computeExpr
        rw [he', ok_bind, hc', ok_bind, x1]
      · simp only [x3, means_build h1 (ho _ _) he']
        constructor
        · rintro ⟨k0, named, w', v', k1, rfl, k3⟩
          exact ⟨k0, named, w', k1, k3⟩
        · rintro ⟨k0, named, w', k1, k3⟩
          exact ⟨k0, named, w', _, k1, rfl, k3⟩

/-- **C49 for lambdas that return tuples, null bases.** -/
theorem C49_lambda_null_tuple_partial {L : Type} [CharZero K] {m : Metric} (h2 : 2 ≤ m.dim) (hm : m.dim ≤ 8) (E : Env K) (args : List (Arg K))
    {w : Nat → CliffordAlgebra (diagForm K m.dim m.sq)}
    (hw : ∀ (k : Nat) (a : Arg K), args[k]? = some a → a.DenotesNull m.dim m.sq (argOffset args k) (w k))
    {D : CliffordAlgebra (diagForm K m.dim m.sq) →ₗ[K] CliffordAlgebra (diagForm K m.dim m.sq)} (hD : IsDual K m.dim m.sq D)
    {C : Nat → CliffordAlgebra (diagForm K m.dim m.sq) →ₗ[K] CliffordAlgebra (diagForm K m.dim m.sq)} (hC : IsNullCoeff K m.dim m.sq C)
    (fs : List Lam) (hne : fs ≠ [])
    (ho : ∀ f ∈ fs, ∀ named w', f.Ordered (nullInterp K m.dim m.sq named D C w') (argOffset args))
    (hr : ∀ f ∈ fs, f.Parts (NullElement m.dim) (GradeSafe m.dim) False args.length E.consts.length)
    {args' : List (Arg L)} (ht : args.map (fun a => (a.ie, a.data.length)) = args'.map fun a => (a.ie, a.data.length))
    (hk : Lam.checkTuple m true args' fs = true) :
    ∃ xs, Lam.computeTuple m true E args fs = ok xs ∧
      List.Forall₂ (fun x f => ∀ g, g ∈ x.elements ↔ g < 2 ^ m.dim ∧ ∃ (named : Nat → K) (w' : Nat → CliffordAlgebra (diagForm K m.dim m.sq)),
        MayBeNull m args w' ∧ C g (f.val (nullInterp K m.dim m.sq named D C w') (argOffset args)) ≠ 0) xs fs := by
  obtain ⟨es, c, he, h1, h2', h3, h4, hc, h5⟩ := checkTuple_ok ht hk
  have hes : es ≠ [] := fun h => by
    have := build_forall₂ he
    rw [h] at this
    cases this
    exact hne rfl
  obtain ⟨xs, x1, -, x3⟩ := C49_null_tuple_partial h2 hm E hw hD hC hes (build_forall h1 (fun f hf => ho f hf _ w) he) h2'
    (build_each (fun f hf e h => build_supportedNull (hr f hf) h) he) (noRepeat_sound h3) hc h4 (h5 rfl)
  refine ⟨xs, ?_, forall₂_comp (fun x e f hx hf g => ?_) x3 (build_forall₂ he)⟩
  · unfold Lam.computeTuple computeExpr
    rw [he, ok_bind, hc, ok_bind, x1]
  · simp only [hx, means_build (h1 f hf.2) (ho f hf.2 _ _) hf.1]
    constructor
    · rintro ⟨k0, named, w', v', k1, rfl, k3⟩
      exact ⟨k0, named, w', k1, k3⟩
    · rintro ⟨k0, named, w', k1, k3⟩
      exact ⟨k0, named, w', _, k1, rfl, k3⟩

/-! ## The hypotheses hold -/

/-- `a * b` and `a ^ b` for two vectors in space, for all coefficients. -/
example (E : Env ℚ) (a b : Fin 3 → ℚ) : ∃ xs, Lam.computeTuple ⟨3, 0, 0⟩ false E (spaceArgs a b) [.gp (.arg 0) (.arg 1), .ep (.arg 0) (.arg 1)] = ok xs ∧
    xs.length = 2 := by
  obtain ⟨D, hD⟩ := exists_isDual ℚ 3 (by decide) (Metric.sq ⟨3, 0, 0⟩)
  obtain ⟨r, h, h2⟩ := C49_lambda_tuple_partial ⟨3, 0, 0⟩ (by decide) E (spaceArgs a b) (spaceArgs_denote a b) hD
    [.gp (.arg 0) (.arg 1), .ep (.arg 0) (.arg 1)] (by simp) (by simp [Lam.Ordered]) (by simp [Lam.InRange, spaceArgs])
    (args' := spaceArgs (K := ℚ) 1 1) rfl (by decide +kernel)
  exact ⟨r, h, h2.length_eq⟩

/-- `a * b` for two vectors in space, for all coefficients. -/
example (E : Env ℚ) (a b : Fin 3 → ℚ) : ∃ x, (Lam.gp (.arg 0) (.arg 1)).compute ⟨3, 0, 0⟩ false E (spaceArgs a b) = ok [x] := by
  obtain ⟨D, hD⟩ := exists_isDual ℚ 3 (by decide) (Metric.sq ⟨3, 0, 0⟩)
  obtain ⟨x, h, -⟩ := C49_lambda_partial ⟨3, 0, 0⟩ (by decide) E (spaceArgs a b) (spaceArgs_denote a b) hD
    (.gp (.arg 0) (.arg 1)) (fun _ _ => ⟨trivial, trivial⟩) (by simp [Lam.InRange, spaceArgs])
    (args' := spaceArgs (K := ℚ) 1 1) rfl (by decide) (by decide +kernel) (by decide +kernel)
  exact ⟨x, h⟩

/-- `a * b + 3 * e_no_ni` in the conformal algebra, for all coefficients. -/
example (x y : ℚ × ℚ × ℚ) : ∃ r, (Lam.add (.gp (.arg 0) (.arg 1)) (.elem 24 3)).compute ⟨4, 1, 0⟩ true numEnv (nullArgs x y) = ok [r] := by
  obtain ⟨D, hD⟩ := exists_isDual ℚ 5 (by decide) (Metric.sq ⟨4, 1, 0⟩)
  obtain ⟨C, hC⟩ := exists_isNullCoeff ℚ 5 (by decide) (by decide) (Metric.sq ⟨4, 1, 0⟩)
  obtain ⟨r, h, -⟩ := C49_lambda_null_partial (m := ⟨4, 1, 0⟩) (by decide) (by decide) numEnv (nullArgs x y) (nullArgs_denote x y) hD hC
    (.add (.gp (.arg 0) (.arg 1)) (.elem 24 3)) (fun _ _ => ⟨⟨trivial, trivial⟩, trivial⟩)
    ⟨⟨Nat.zero_lt_succ _, Nat.lt_succ_self _⟩, by decide, by decide⟩ (args' := nullArgs (1, 2, 3) (5, 7, 11)) rfl (by decide +kernel)
  exact ⟨r, h⟩

/-- `a * b` and `a ^ b` in the conformal algebra, for all coefficients. -/
example (x y : ℚ × ℚ × ℚ) : ∃ xs, Lam.computeTuple ⟨4, 1, 0⟩ true numEnv (nullArgs x y) [.gp (.arg 0) (.arg 1), .ep (.arg 0) (.arg 1)] = ok xs ∧
    xs.length = 2 := by
  obtain ⟨D, hD⟩ := exists_isDual ℚ 5 (by decide) (Metric.sq ⟨4, 1, 0⟩)
  obtain ⟨C, hC⟩ := exists_isNullCoeff ℚ 5 (by decide) (by decide) (Metric.sq ⟨4, 1, 0⟩)
  obtain ⟨r, h, h2⟩ := C49_lambda_null_tuple_partial (m := ⟨4, 1, 0⟩) (by decide) (by decide) numEnv (nullArgs x y) (nullArgs_denote x y) hD hC
    [.gp (.arg 0) (.arg 1), .ep (.arg 0) (.arg 1)] (by simp) (by simp [Lam.Ordered]) (by simp [Lam.Parts, nullArgs])
    (args' := nullArgs (1, 2, 3) (5, 7, 11)) rfl (by decide +kernel)
  exact ⟨r, h, h2.length_eq⟩

end Gal
