import Verif.Props.LambdaQuot
import Verif.Props.LambdaFalse

/-!
# Property C53: lambdas with quotients, tuples and null bases
-/

namespace Gal

open Out

/-! ## Projection of a vector -/

section

variable {K : Type} [Field K]

/-- `((a >> b) * b) / (b >> b)`. -/
def projectLam : Lam := .div (.gp (.lc (.arg 0) (.arg 1)) (.arg 1)) (.lc (.arg 1) (.arg 1))

/-- Two vectors of three-dimensional space. -/
def spaceArgs (a b : Fin 3 → K) : List (Arg K) :=
  [(⟨[1, 2, 4], [a 0, a 1, a 2]⟩ : Entity K).toArg, (⟨[1, 2, 4], [b 0, b 1, b 2]⟩ : Entity K).toArg]

/-- The vector with the given coordinates. -/
noncomputable def spaceVector (a : Fin 3 → K) : CliffordAlgebra (diagForm K 3 (Metric.sq ⟨3, 0, 0⟩)) :=
  pairsVal (cliffBlade K 3 (Metric.sq ⟨3, 0, 0⟩)) [1, 2, 4] [a 0, a 1, a 2]

theorem spaceArgs_denote [CharZero K] (a b : Fin 3 → K) (k : Nat) (y : Arg K) (h : (spaceArgs a b)[k]? = some y) :
    y.Denotes 3 (Metric.sq ⟨3, 0, 0⟩) (argOffset (spaceArgs a b) k) (if k = 0 then spaceVector a else spaceVector b) := by
  match k with
  | 0 =>
    simp [spaceArgs] at h; subst h
    exact C45_entity (dim := 3) (Metric.sq ⟨3, 0, 0⟩) (x := ⟨[1, 2, 4], [a 0, a 1, a 2]⟩) (off := 0) (by simp) (by simp) rfl (by simp)
  | 1 =>
    simp [spaceArgs] at h; subst h
    exact C45_entity (dim := 3) (Metric.sq ⟨3, 0, 0⟩) (x := ⟨[1, 2, 4], [b 0, b 1, b 2]⟩) (off := 3) (by simp) (by simp) rfl (by simp)
  | k + 2 => simp [spaceArgs] at h

theorem contract_units [CharZero K] {i j : Nat} (hi : i ∈ [1, 2, 4]) (hj : j ∈ [1, 2, 4]) :
    leftContraction K 3 (Metric.sq ⟨3, 0, 0⟩) (cliffBlade K 3 (Metric.sq ⟨3, 0, 0⟩) i) (cliffBlade K 3 (Metric.sq ⟨3, 0, 0⟩) j) =
      (if i = j then (1 : K) else 0) • 1 := by
  have c : ∀ i ∈ [1, 2, 4], ∀ j ∈ [1, 2, 4], i < 8 ∧ j < 8 ∧ (conProduct ⟨3, 0, 0⟩ i j).2 = (if i = j then 1 else 0) ∧
      (i = j → (conProduct ⟨3, 0, 0⟩ i j).1 = 0) := by decide +kernel
  obtain ⟨h1, h2, h3, h4⟩ := c i hi j hj
  refine (leftContraction_conProduct K ⟨3, 0, 0⟩ (by decide) i j h1 h2).trans ?_
  rw [h3]
  by_cases h : i = j
  · rw [if_pos h, if_pos h, h4 h, Int.cast_one]
    exact congrArg ((1 : K) • ·) (cliffBlade_zero (K := K) 3 (Metric.sq ⟨3, 0, 0⟩))
  · rw [if_neg h, if_neg h, Int.cast_zero, zero_smul, zero_smul]; rfl

theorem contract_vectors [CharZero K] (a b : Fin 3 → K) :
    leftContraction K 3 (Metric.sq ⟨3, 0, 0⟩) (spaceVector a) (spaceVector b) = (a 0 * b 0 + a 1 * b 1 + a 2 * b 2) • 1 := by
  have e : ∀ x : Fin 3 → K, spaceVector x = x 0 • cliffBlade K 3 (Metric.sq ⟨3, 0, 0⟩) 1 + (x 1 • cliffBlade K 3 (Metric.sq ⟨3, 0, 0⟩) 2 +
      x 2 • cliffBlade K 3 (Metric.sq ⟨3, 0, 0⟩) 4) := by
    intro x
    simp only [spaceVector, pairsVal, List.zip_cons_cons, List.zip_nil_left, List.map_cons, List.map_nil, List.sum_cons, List.sum_nil, add_zero]
  rw [e a, e b]
  generalize hu : cliffBlade K 3 (Metric.sq ⟨3, 0, 0⟩) 1 = u
  generalize hv : cliffBlade K 3 (Metric.sq ⟨3, 0, 0⟩) 2 = v
  generalize hw : cliffBlade K 3 (Metric.sq ⟨3, 0, 0⟩) 4 = w
  have t11 := contract_units (K := K) (i := 1) (j := 1) (by decide) (by decide)
  have t12 := contract_units (K := K) (i := 1) (j := 2) (by decide) (by decide)
  have t14 := contract_units (K := K) (i := 1) (j := 4) (by decide) (by decide)
  have t21 := contract_units (K := K) (i := 2) (j := 1) (by decide) (by decide)
  have t22 := contract_units (K := K) (i := 2) (j := 2) (by decide) (by decide)
  have t24 := contract_units (K := K) (i := 2) (j := 4) (by decide) (by decide)
  have t41 := contract_units (K := K) (i := 4) (j := 1) (by decide) (by decide)
  have t42 := contract_units (K := K) (i := 4) (j := 2) (by decide) (by decide)
  have t44 := contract_units (K := K) (i := 4) (j := 4) (by decide) (by decide)
  rw [hu] at t11 t12 t14 t21 t41
  rw [hv] at t12 t21 t22 t24 t42
  rw [hw] at t14 t24 t41 t42 t44
  simp only [map_add, map_smul, LinearMap.add_apply, LinearMap.smul_apply, t11, t12, t14, t21, t22, t24, t41, t42, t44]
  norm_num
  module

theorem projectLam_val [CharZero K] {n : Nat} {d : Nat → Int} {named : Nat → K}
    {D : CliffordAlgebra (diagForm K n d) →ₗ[K] CliffordAlgebra (diagForm K n d)} {w : Nat → CliffordAlgebra (diagForm K n d)} {f : Nat → K → K}
    {off : Nat → Nat} : projectLam.val (fullInterp K n d named D w f) off =
      (scalarPart K n d (leftContraction K n d (w 1) (w 1)))⁻¹ • (leftContraction K n d (w 0) (w 1) * w 1) := rfl

/-- **C53: projection of a vector.**  `compute([](auto a, auto b) { return ((a >> b) * b) / (b >> b); }, a, b)` returns `(a·b / b·b) b` for all
vectors `a` and all `b` with `b·b` other than zero. -/
theorem C53_projection [CharZero K] (E : Env K) (a b : Fin 3 → K) (h0 : b 0 * b 0 + b 1 * b 1 + b 2 * b 2 ≠ 0) :
    ∃ x, projectLam.compute ⟨3, 0, 0⟩ false E (spaceArgs a b) = ok [x] ∧ x.Denotes 3 (Metric.sq ⟨3, 0, 0⟩)
      (((a 0 * b 0 + a 1 * b 1 + a 2 * b 2) / (b 0 * b 0 + b 1 * b 1 + b 2 * b 2)) • spaceVector b) := by
  obtain ⟨D, hD⟩ := exists_isDual K 3 (by decide) (Metric.sq ⟨3, 0, 0⟩)
  obtain ⟨x, h1, h2⟩ := C53_quot_partial ⟨3, 0, 0⟩ (by decide) E (spaceArgs a b) (spaceArgs_denote a b) hD projectLam
    ⟨⟨⟨trivial, trivial⟩, trivial⟩, trivial, trivial⟩ (by simp [projectLam, Lam.Parts, spaceArgs])
    ⟨⟨⟨trivial, trivial⟩, trivial⟩, ⟨trivial, trivial⟩, by
      show scalarPart K 3 _ (leftContraction K 3 (Metric.sq ⟨3, 0, 0⟩) (spaceVector b) (spaceVector b)) ≠ 0
      rw [contract_vectors, scalarPart_smul_one]
      exact h0⟩
    (args' := spaceArgs (K := ℚ) ![1, 2, 3] ![5, 7, 11]) rfl (by decide) (by decide +kernel)
  refine ⟨x, h1, ?_⟩
  have hv : (((a 0 * b 0 + a 1 * b 1 + a 2 * b 2) / (b 0 * b 0 + b 1 * b 1 + b 2 * b 2)) • spaceVector b) =
      projectLam.val (fullInterp K 3 (Metric.sq ⟨3, 0, 0⟩) (fun k => E.consts.getD k 0) D (fun k => if k = 0 then spaceVector a else spaceVector b) E.named)
        (argOffset (spaceArgs a b)) := ?_
  · rw [hv]; exact h2
  rw [projectLam_val, if_pos rfl, if_neg Nat.one_ne_zero, contract_vectors, contract_vectors, scalarPart_smul_one, smul_mul_assoc, one_mul, smul_smul]
  congr 1
  rw [div_eq_inv_mul]

/-- The hypothesis of `C53_projection` holds for a vector with whole coordinates. -/
example : ![(1 : ℚ), 2, 2] 0 * ![(1 : ℚ), 2, 2] 0 + ![(1 : ℚ), 2, 2] 1 * ![(1 : ℚ), 2, 2] 1 + ![(1 : ℚ), 2, 2] 2 * ![(1 : ℚ), 2, 2] 2 ≠ 0 := by
  simp; norm_num

end

/-! ## Examples -/

/-- `C53_tuple_partial` applies to a lambda that returns four entities, for all coefficients. -/
example (x y z : ℚ × ℚ) : ∃ xs, Lam.computeTuple ⟨2, 0, 0⟩ false numEnv (plainArgs x y z)
    [.gp (.arg 0) (.arg 1), .ep (.arg 0) (.arg 1), .sandwich (.arg 0) (.arg 2), .sub (.arg 0) (.arg 1)] = ok xs ∧ xs.length = 4 := by
  obtain ⟨D, hD⟩ := exists_isDual ℚ 2 (by decide) (Metric.sq ⟨2, 0, 0⟩)
  obtain ⟨r, h, h2⟩ := C53_tuple_partial ⟨2, 0, 0⟩ (by decide) numEnv (plainArgs x y z) (plainArgs_denote x y z) hD
    [.gp (.arg 0) (.arg 1), .ep (.arg 0) (.arg 1), .sandwich (.arg 0) (.arg 2), .sub (.arg 0) (.arg 1)] (by simp)
    (by simp [Lam.Ordered]) (by simp [Lam.InRange, plainArgs]) (args' := plainArgs (1, 2) (3, 5) (7, 11)) rfl (by decide +kernel)
  exact ⟨r, h, h2.length_eq⟩

/-- Two vectors of the conformal algebra in the null basis, with coefficients of `e0`, `no` and `ni`. -/
def nullArgs (x y : ℚ × ℚ × ℚ) : List (Arg ℚ) :=
  [(⟨[1, 8, 16], [x.1, x.2.1, x.2.2]⟩ : Entity ℚ).toArg, (⟨[1, 8, 16], [y.1, y.2.1, y.2.2]⟩ : Entity ℚ).toArg]

/-- And the elements they stand for. -/
noncomputable def nullVals (x y : ℚ × ℚ × ℚ) : Nat → CliffordAlgebra (diagForm ℚ 5 (Metric.sq ⟨4, 1, 0⟩))
  | 0 => pairsVal (nullElem ℚ 5 (Metric.sq ⟨4, 1, 0⟩)) [1, 8, 16] [x.1, x.2.1, x.2.2]
  | _ => pairsVal (nullElem ℚ 5 (Metric.sq ⟨4, 1, 0⟩)) [1, 8, 16] [y.1, y.2.1, y.2.2]

theorem nullArgs_denote (x y : ℚ × ℚ × ℚ) (k : Nat) (a : Arg ℚ) (h : (nullArgs x y)[k]? = some a) :
    a.DenotesNull 5 (Metric.sq ⟨4, 1, 0⟩) (argOffset (nullArgs x y) k) (nullVals x y k) := by
  match k with
  | 0 =>
    simp [nullArgs] at h; subst h
    exact C47_entity (dim := 5) (Metric.sq ⟨4, 1, 0⟩) (x := ⟨[1, 8, 16], [x.1, x.2.1, x.2.2]⟩) (off := 0) (by simp) (by simp) rfl (by simp)
  | 1 =>
    simp [nullArgs] at h; subst h
    exact C47_entity (dim := 5) (Metric.sq ⟨4, 1, 0⟩) (x := ⟨[1, 8, 16], [y.1, y.2.1, y.2.2]⟩) (off := 3) (by simp) (by simp) rfl (by simp)
  | k + 2 => simp [nullArgs] at h

/-- `C53_null_partial` applies to `a * b + 3 * e_no_ni`, for all coefficients. -/
example (x y : ℚ × ℚ × ℚ) : ∃ r, (Lam.add (.gp (.arg 0) (.arg 1)) (.elem 24 3)).compute ⟨4, 1, 0⟩ true numEnv (nullArgs x y) = ok [r] := by
  obtain ⟨D, hD⟩ := exists_isDual ℚ 5 (by decide) (Metric.sq ⟨4, 1, 0⟩)
  obtain ⟨C, hC⟩ := exists_isNullCoeff ℚ 5 (by decide) (by decide) (Metric.sq ⟨4, 1, 0⟩)
  obtain ⟨r, h, -⟩ := C53_null_partial (m := ⟨4, 1, 0⟩) (by decide) (by decide) numEnv (nullArgs x y) (nullArgs_denote x y) hD hC
    (.add (.gp (.arg 0) (.arg 1)) (.elem 24 3)) ⟨⟨trivial, trivial⟩, trivial⟩
    ⟨⟨Nat.zero_lt_succ _, Nat.lt_succ_self _⟩, by decide, by decide⟩ (args' := nullArgs (1, 2, 3) (5, 7, 11)) rfl (by decide +kernel)
  exact ⟨r, h⟩

/-- `C53_null_tuple_partial` applies to a lambda that returns `a * b` and `a ^ b`, for all coefficients. -/
example (x y : ℚ × ℚ × ℚ) : ∃ xs, Lam.computeTuple ⟨4, 1, 0⟩ true numEnv (nullArgs x y) [.gp (.arg 0) (.arg 1), .ep (.arg 0) (.arg 1)] = ok xs ∧
    xs.length = 2 := by
  obtain ⟨D, hD⟩ := exists_isDual ℚ 5 (by decide) (Metric.sq ⟨4, 1, 0⟩)
  obtain ⟨C, hC⟩ := exists_isNullCoeff ℚ 5 (by decide) (by decide) (Metric.sq ⟨4, 1, 0⟩)
  obtain ⟨r, h, h2⟩ := C53_null_tuple_partial (m := ⟨4, 1, 0⟩) (by decide) (by decide) numEnv (nullArgs x y) (nullArgs_denote x y) hD hC
    [.gp (.arg 0) (.arg 1), .ep (.arg 0) (.arg 1)] (by simp) (by simp [Lam.Ordered]) (by simp [Lam.Parts, nullArgs])
    (args' := nullArgs (1, 2, 3) (5, 7, 11)) rfl (by decide +kernel)
  exact ⟨r, h, h2.length_eq⟩

end Gal
