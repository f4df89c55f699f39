import Verif.Props.RoundedQuot

/-!
# Properties C53 and C65: the unit vector

`a / sqrt(a >> a)` uses a product, a function and a quotient, each stored in a temporary.
-/

namespace Gal

open Out Filter Topology

/-- `a / sqrt(a >> a)`. -/
def unitLam : Lam := .div (.arg 0) (.fn Op.sqrt (.lc (.arg 0) (.arg 0)))

section

variable {K : Type} [Field K]

/-- A vector of three-dimensional space. -/
def spaceArg (a : Fin 3 → K) : List (Arg K) := [(⟨[1, 2, 4], [a 0, a 1, a 2]⟩ : Entity K).toArg]

/-- The square of the length. -/
def normSquare (a : Fin 3 → K) : K := a 0 * a 0 + a 1 * a 1 + a 2 * a 2

theorem spaceArg_denote [CharZero K] (a : Fin 3 → K) (k : Nat) (y : Arg K) (h : (spaceArg a)[k]? = some y) :
    y.Denotes 3 (Metric.sq ⟨3, 0, 0⟩) (argOffset (spaceArg a) k) (spaceVector a) := by
  match k with
  | 0 =>
    simp [spaceArg] at h; subst h
    exact C45_entity (dim := 3) (Metric.sq ⟨3, 0, 0⟩) (x := ⟨[1, 2, 4], [a 0, a 1, a 2]⟩) (off := 0) (by simp) (by simp) rfl (by simp)
  | k + 1 => simp [spaceArg] at h

theorem unitLam_val [CharZero K] {n : Nat} {d : Nat → Int} {named : Nat → K}
    {D : CliffordAlgebra (diagForm K n d) →ₗ[K] CliffordAlgebra (diagForm K n d)} {w : Nat → CliffordAlgebra (diagForm K n d)} {f : Nat → K → K}
    {off : Nat → Nat} : unitLam.val (fullInterp K n d named D w f) off =
      (scalarPart K n d (f Op.sqrt (scalarPart K n d (leftContraction K n d (w 0) (w 0))) • 1))⁻¹ • w 0 := rfl

theorem unit_divides [CharZero K] {E : Env K} {a : Fin 3 → K} (h0 : E.fn .sqrt (normSquare a) ≠ 0)
    {D : CliffordAlgebra (diagForm K 3 (Metric.sq ⟨3, 0, 0⟩)) →ₗ[K] CliffordAlgebra (diagForm K 3 (Metric.sq ⟨3, 0, 0⟩))} :
    unitLam.Divides (fun v => scalarPart K 3 (Metric.sq ⟨3, 0, 0⟩) v ≠ 0)
      (fullInterp K 3 (Metric.sq ⟨3, 0, 0⟩) (fun k => E.consts.getD k 0) D (fun _ => spaceVector a) E.named) (argOffset (spaceArg a)) := by
  refine ⟨trivial, ⟨trivial, trivial⟩, ?_⟩
  show scalarPart K 3 _ (E.named Op.sqrt (scalarPart K 3 _ (leftContraction K 3 (Metric.sq ⟨3, 0, 0⟩) (spaceVector a) (spaceVector a))) • 1) ≠ 0
  rw [contract_vectors, scalarPart_smul_one, scalarPart_smul_one]
  exact h0

theorem unit_value [CharZero K] {E : Env K} {a : Fin 3 → K}
    {D : CliffordAlgebra (diagForm K 3 (Metric.sq ⟨3, 0, 0⟩)) →ₗ[K] CliffordAlgebra (diagForm K 3 (Metric.sq ⟨3, 0, 0⟩))} :
    unitLam.val (fullInterp K 3 (Metric.sq ⟨3, 0, 0⟩) (fun k => E.consts.getD k 0) D (fun _ => spaceVector a) E.named) (argOffset (spaceArg a)) =
      (E.fn .sqrt (normSquare a))⁻¹ • spaceVector a := by
  rw [unitLam_val, contract_vectors, scalarPart_smul_one, scalarPart_smul_one]
  rfl

/-- **C53: the unit vector.**  `compute([](auto a) { return a / sqrt(a >> a); }, a)` returns `a` divided by the square root of `a·a`, whatever function is
used for the square root, for all vectors for which that is not zero. -/
theorem C53_unit [CharZero K] (E : Env K) (a : Fin 3 → K) (h0 : E.fn .sqrt (normSquare a) ≠ 0) :
    ∃ x, unitLam.compute ⟨3, 0, 0⟩ false E (spaceArg a) = ok [x] ∧
      x.Denotes 3 (Metric.sq ⟨3, 0, 0⟩) ((E.fn .sqrt (normSquare a))⁻¹ • spaceVector a) := by
  obtain ⟨D, hD⟩ := exists_isDual K 3 (by decide) (Metric.sq ⟨3, 0, 0⟩)
  obtain ⟨x, h1, h2⟩ := C53_quot_partial ⟨3, 0, 0⟩ (by decide) E (spaceArg a) (spaceArg_denote a) hD unitLam
    ⟨trivial, trivial, trivial⟩ (by simp [unitLam, Lam.Parts, spaceArg]) (unit_divides h0)
    (args' := spaceArg (K := ℚ) ![1, 2, 3]) rfl (by decide) (by decide +kernel)
  exact ⟨x, h1, by rw [← unit_value (D := D)]; exact h2⟩

end

/-- The unit vector has length one. -/
theorem unit_norm {a : Fin 3 → ℝ} (h0 : normSquare a ≠ 0) : normSquare ((Real.sqrt (normSquare a))⁻¹ • a) = 1 := by
  have hn : 0 ≤ normSquare a := by unfold normSquare; nlinarith [mul_self_nonneg (a 0), mul_self_nonneg (a 1), mul_self_nonneg (a 2)]
  have hs := Real.mul_self_sqrt hn
  have h1 : Real.sqrt (normSquare a) ≠ 0 := fun h => h0 (by rw [← hs, h, zero_mul])
  have : normSquare ((Real.sqrt (normSquare a))⁻¹ • a) = (Real.sqrt (normSquare a))⁻¹ * (Real.sqrt (normSquare a))⁻¹ * normSquare a := by
    simp only [normSquare, Pi.smul_apply, smul_eq_mul]
    ring
  rw [this]
  nth_rewrite 3 [← hs]
  field_simp

theorem spaceVector_smul {K : Type} [Field K] (c : K) (a : Fin 3 → K) : spaceVector (c • a) = c • spaceVector a := by
  simp only [spaceVector, pairsVal, List.zip_cons_cons, List.zip_nil_left, List.map_cons, List.map_nil, List.sum_cons, List.sum_nil, add_zero,
    Pi.smul_apply, smul_add, smul_smul, smul_eq_mul]

variable {ι : Type} {l : Filter ι} {N : (ι → ℝ) → ℝ → Prop}

theorem near_unit {A : ι → Arith ℝ} (hN : Stable A N) {E : Env ℝ} (hE : E.fn .sqrt = Real.sqrt) {Es : ι → Env ℝ}
    (hc : ListTends N (fun k => (Es k).consts) E.consts) {a : Fin 3 → ℝ} (h0 : normSquare a ≠ 0)
    (hs : TendsAt N (fun k => (Es k).fn .sqrt) Real.sqrt (normSquare a)) {as : ι → Fin 3 → ℝ} (ha : ∀ i, N (fun k => as k i) (a i)) :
    ∃ (ys : ι → Entity ℝ) (x : Entity ℝ), (∀ k, (A k).compute ⟨3, 0, 0⟩ false (Es k) (spaceArg (as k)) unitLam = ok [ys k]) ∧
      EntityTends N ys x ∧ x.Denotes 3 (Metric.sq ⟨3, 0, 0⟩) (spaceVector ((Real.sqrt (normSquare a))⁻¹ • a)) := by
  obtain ⟨D, hD⟩ := exists_isDual ℝ 3 (by decide) (Metric.sq ⟨3, 0, 0⟩)
  have hn : 0 ≤ normSquare a := by unfold normSquare; nlinarith [mul_self_nonneg (a 0), mul_self_nonneg (a 1), mul_self_nonneg (a 2)]
  obtain ⟨ys, x, h1, h2, h3⟩ := near_lambda hN ⟨3, 0, 0⟩ (by decide) E (spaceArg a) (spaceArg_denote a) hD unitLam
    ⟨trivial, trivial, trivial⟩ (by simp [unitLam, Lam.Parts, spaceArg])
    (unit_divides (by rw [hE]; exact (Real.sqrt_pos.2 (lt_of_le_of_ne hn h0.symm)).ne'))
    (args' := spaceArg (K := ℚ) ![1, 2, 3]) rfl (by decide) (by decide +kernel)
    (Es := Es) (as := fun k => spaceArg (as k)) (fun _ => rfl)
    ⟨fun _ => rfl, fun j => match j with
      | 0 => ha 0
      | 1 => ha 1
      | 2 => ha 2
      | _ + 3 => hN.const _⟩
    hc ⟨trivial, ⟨trivial, trivial⟩, by
      show TendsAt N (fun k => (Es k).fn .sqrt) (E.fn .sqrt)
        (scalarPart ℝ 3 _ (leftContraction ℝ 3 (Metric.sq ⟨3, 0, 0⟩) (spaceVector a) (spaceVector a)))
      rw [contract_vectors, scalarPart_smul_one, hE]
      exact hs⟩
  refine ⟨ys, x, h1, h2, ?_⟩
  rw [spaceVector_smul, ← hE, ← unit_value (D := D)]
  exact h3

/-- **C65 (unit vector)**: `a / sqrt(a >> a)` computed with rounding, with a square root that converges at `a·a`, converges to the unit vector in the
direction of `a`, for all vectors other than zero, also for vectors that are only approximately `a`. -/
theorem C65_unit {A : ι → Arith ℝ} {u : ι → ℝ} (hA : Improving l A u) {Es : ι → Env ℝ}
    (hc : ∀ k, (Es k).consts = []) {a : Fin 3 → ℝ} (h0 : normSquare a ≠ 0)
    (hs : TendsAt (Limit l) (fun k => (Es k).fn .sqrt) Real.sqrt (normSquare a)) {as : ι → Fin 3 → ℝ} (ha : ∀ i, Limit l (fun k => as k i) (a i)) :
    ∃ (ys : ι → Entity ℝ) (x : Entity ℝ) (n : Fin 3 → ℝ), (∀ k, (A k).compute ⟨3, 0, 0⟩ false (Es k) (spaceArg (as k)) unitLam = ok [ys k]) ∧
      EntityTends (Limit l) ys x ∧ x.Denotes 3 (Metric.sq ⟨3, 0, 0⟩) (spaceVector n) ∧ n 0 * n 0 + n 1 * n 1 + n 2 * n 2 = 1 ∧
      ∃ c : ℝ, 0 < c ∧ a = c • n := by
  have hn : 0 ≤ normSquare a := by unfold normSquare; nlinarith [mul_self_nonneg (a 0), mul_self_nonneg (a 1), mul_self_nonneg (a 2)]
  have hp := Real.sqrt_pos.2 (lt_of_le_of_ne hn h0.symm)
  obtain ⟨ys, x, h1, h2, h3⟩ := near_unit (near_limit hA) (E := realEnv) (funext realEnv_fns.sqrt)
    ⟨fun k => by rw [hc]; rfl, fun j => by simp only [hc]; exact (near_limit hA).const _⟩ h0 hs ha
  exact ⟨ys, x, _, h1, h2, h3, unit_norm h0, _, hp, by rw [smul_smul, mul_inv_cancel₀ hp.ne', one_smul]⟩

/-- **C65 (unit vector, binary)**: in binary floating-point arithmetic with `p` digits, with a correctly rounded square root and correctly rounded
coordinates, every coordinate of the unit vector is computed with an error of at most a multiple of `2⁻ᵖ`, for all `p`. -/
theorem C65_unit_binary {a : Fin 3 → ℝ} (h0 : a ≠ 0) :
    ∃ (ys : Nat → Entity ℝ) (x : Entity ℝ) (n : Fin 3 → ℝ) (C : ℝ),
      (∀ p, (binaryArith ℝ p).compute ⟨3, 0, 0⟩ false (binaryEnv p) (spaceArg fun i => roundBits p (a i)) unitLam = ok [ys p]) ∧
      (∀ p, (ys p).elements = x.elements) ∧ (∀ p, (ys p).data.length = x.data.length) ∧
      (∀ p j, |(ys p).data.getD j 0 - x.data.getD j 0| ≤ C * (2 : ℝ)⁻¹ ^ p) ∧ x.Denotes 3 (Metric.sq ⟨3, 0, 0⟩) (spaceVector n) ∧
      n 0 * n 0 + n 1 * n 1 + n 2 * n 2 = 1 ∧ ∃ c : ℝ, 0 < c ∧ a = c • n := by
  have hn : 0 ≤ normSquare a := by unfold normSquare; nlinarith [mul_self_nonneg (a 0), mul_self_nonneg (a 1), mul_self_nonneg (a 2)]
  have h1 : normSquare a ≠ 0 := by
    intro h
    unfold normSquare at h
    refine h0 (funext fun i => ?_)
    have e0 := mul_self_nonneg (a 0)
    have e1 := mul_self_nonneg (a 1)
    have e2 := mul_self_nonneg (a 2)
    fin_cases i
    · exact mul_self_eq_zero.1 (by show a 0 * a 0 = 0; linarith)
    · exact mul_self_eq_zero.1 (by show a 1 * a 1 = 0; linarith)
    · exact mul_self_eq_zero.1 (by show a 2 * a 2 = 0; linarith)
  have hp := Real.sqrt_pos.2 (lt_of_le_of_ne hn h1.symm)
  obtain ⟨ys, x, h2, h3, h4⟩ := near_unit (near_rate binary_improving) (E := realEnv) (Es := binaryEnv) (funext realEnv_fns.sqrt)
    ⟨fun _ => rfl, fun _ => (near_rate binary_improving).const _⟩ h1 (tendsAt_round (Real.hasDerivAt_sqrt h1).differentiableAt)
    fun i => rate_roundBits (a i)
  obtain ⟨C, hC⟩ := h3.data.bound
  exact ⟨ys, x, _, C, h2, h3.elements, h3.data.len, hC, h4, unit_norm h1, _, hp, by rw [smul_smul, mul_inv_cancel₀ hp.ne', one_smul]⟩

/-- The hypotheses hold for a vector of whole numbers. -/
example : normSquare ![(1 : ℝ), 2, 2] ≠ 0 ∧ realEnv.fn .sqrt (normSquare ![(1 : ℝ), 2, 2]) ≠ 0 ∧ ![(1 : ℝ), 2, 2] ≠ 0 := by
  have h : normSquare ![(1 : ℝ), 2, 2] = 9 := by
    show (1 : ℝ) * 1 + 2 * 2 + 2 * 2 = 9
    norm_num
  refine ⟨by rw [h]; norm_num, ?_, fun h => by simpa using congrFun h 0⟩
  rw [realEnv_fns.sqrt, h]
  exact (Real.sqrt_pos.2 (by norm_num)).ne'

end Gal
