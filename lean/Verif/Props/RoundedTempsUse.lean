import Verif.Props.RoundedTemps
import Verif.Props.RoundedUnit

/-!
# Property C57: error bounds of the unit vector and of the projection

Both lambdas store a sum of squares in a temporary and divide by it, or by its square root.
-/

namespace Gal

open Out

/-- A product of powers of stored numbers, as the program contains it. -/
def powersMon (degree : Int) (is : List (Nat × Int)) : NMon := ⟨⟨1, 1⟩, ⟨degree, 1⟩, is.map fun i => ⟨i.1, ⟨i.2, 1⟩⟩⟩

/-- The temporaries of the unit vector. -/
def unitTemps : List (MvOp × NMv × Nat) :=
  [(.id, [⟨0, [powersMon 2 [(0, 2)], powersMon 2 [(1, 2)], powersMon 2 [(2, 2)]]⟩], 3), (.sqrt, [⟨0, [powersMon 1 [(3, 1)]]⟩], 4),
    (.id, [⟨1, [powersMon 2 [(0, 1), (4, -1)]]⟩, ⟨2, [powersMon 2 [(1, 1), (4, -1)]]⟩, ⟨4, [powersMon 2 [(2, 1), (4, -1)]]⟩], 5)]

/-- The result of the unit vector. -/
def unitResult : NMv := [⟨1, [powersMon 1 [(5, 1)]]⟩, ⟨2, [powersMon 1 [(6, 1)]]⟩, ⟨4, [powersMon 1 [(7, 1)]]⟩]

theorem unit_program : unitLam.viewedProgram vgaMetric (spaceArg (K := ℚ) ![1, 2, 3]) = some ⟨unitTemps, [(.id, unitResult)], 8, ⟨1, 1⟩⟩ := by
  decide +kernel

/-- The temporaries of the projection. -/
def projectTemps : List (MvOp × NMv × Nat) :=
  [(.id, [⟨0, [powersMon 2 [(3, 2)], powersMon 2 [(4, 2)], powersMon 2 [(5, 2)]]⟩], 6),
    (.id, [⟨1, [powersMon 4 [(0, 1), (3, 2), (6, -1)], powersMon 4 [(1, 1), (3, 1), (4, 1), (6, -1)], powersMon 4 [(2, 1), (3, 1), (5, 1), (6, -1)]]⟩,
      ⟨2, [powersMon 4 [(0, 1), (3, 1), (4, 1), (6, -1)], powersMon 4 [(1, 1), (4, 2), (6, -1)], powersMon 4 [(2, 1), (4, 1), (5, 1), (6, -1)]]⟩,
      ⟨4, [powersMon 4 [(0, 1), (3, 1), (5, 1), (6, -1)], powersMon 4 [(1, 1), (4, 1), (5, 1), (6, -1)], powersMon 4 [(2, 1), (5, 2), (6, -1)]]⟩], 7)]

/-- The result of the projection. -/
def projectResult : NMv := [⟨1, [powersMon 1 [(7, 1)]]⟩, ⟨2, [powersMon 1 [(8, 1)]]⟩, ⟨4, [powersMon 1 [(9, 1)]]⟩]

theorem project_program : projectLam.viewedProgram vgaMetric (spaceArgs (K := ℚ) ![1, 2, 3] ![5, 7, 11]) =
    some ⟨projectTemps, [(.id, projectResult)], 10, ⟨1, 1⟩⟩ := by
  decide +kernel

section
variable {u : ℝ} (h0 : 0 ≤ u) (h1 : u < 1) {A : Arith ℝ} (hA : A.Standard u)
include h0 h1 hA

/-- **C57 (unit vector)**: every coordinate of `a / sqrt(a >> a)` has a relative error of at most `γ₆`, in every standard arithmetic with a square root
that is accurate up to one rounding. -/
theorem C57_unit {E : Env ℝ} (hs : E.RoundedFns u) {a : Fin 3 → ℝ} (ha : a ≠ 0) :
    ∃ x y z, (A.compute vgaMetric false E (spaceArg a) unitLam >>= single) = ok ⟨[1, 2, 4], [x, y, z]⟩ ∧
      |x - a 0 / Real.sqrt (normSquare a)| ≤ gam u 6 * |a 0 / Real.sqrt (normSquare a)| ∧
      |y - a 1 / Real.sqrt (normSquare a)| ≤ gam u 6 * |a 1 / Real.sqrt (normSquare a)| ∧
      |z - a 2 / Real.sqrt (normSquare a)| ≤ gam u 6 * |a 2 / Real.sqrt (normSquare a)| := by
  have hn : Real.sqrt (a 0 ^ 2 + (a 1 ^ 2 + a 2 ^ 2)) ≠ 0 := by
    rw [Ne, Real.sqrt_eq_zero (by positivity)]
    intro h
    refine ha (funext fun i => ?_)
    have e0 := sq_nonneg (a 0)
    have e1 := sq_nonneg (a 1)
    have e2 := sq_nonneg (a 2)
    fin_cases i <;> refine pow_eq_zero_iff two_ne_zero |>.1 ?_ <;> simp <;> nlinarith
  have hd : startData (spaceArg a) 8 = [a 0, a 1, a 2, 0, 0, 0, 0, 0] := rfl
  obtain ⟨xs, vs, -, h2, -, h3, h4⟩ := C57_temps h0 h1 hA vgaMetric (E := realEnv) realEnv_fns hs (args := spaceArg a)
    (args' := spaceArg (K := ℚ) ![1, 2, 3]) rfl unit_program (show 3 ≤ 8 by decide) ⟨by decide, by decide⟩
    (I := [⟨0, true, false, false⟩, ⟨0, true, false, false⟩, ⟨0, true, false, false⟩, ⟨3, true, true, false⟩, ⟨4, true, true, false⟩, ⟨6, true, false, false⟩, ⟨6, true, false, false⟩, ⟨6, true, false, false⟩])
    (by decide +kernel) (ss := [⟨6, true, false, false⟩, ⟨6, true, false, false⟩, ⟨6, true, false, false⟩]) (by decide +kernel)
    (by
      rw [hd]
      simp [PoleFreeTemps, PoleFreeTerms, PoleFree, unitTemps, powersMon, storeTerms, storedTerm, opVal, storedMon, Rat32.toQ, hn])
    (by simp [PoleFree, unitResult, powersMon])
  have hr : ratVal ℝ (⟨1, 1⟩ : Rat32) = 1 := by simp [ratVal]
  have hc : factorCost (⟨1, 1⟩ : Rat32) = 0 := by decide
  rw [hr, hc, hd] at h4
  have g0 := h4 0 _ _ rfl rfl
  have g1 := h4 1 _ _ rfl rfl
  have g2 := h4 2 _ _ rfl rfl
  simp [unitTemps, powersMon, storeTemps, storeTerms, storedTerm, opVal, storedMon, majorantTerm, opMajorant, majorantMon, Rat32.toQ] at g0 g1 g2
  match vs, h3 with
  | [x, y, z], _ =>
    have e : normSquare a = a 0 ^ 2 + (a 1 ^ 2 + a 2 ^ 2) := by unfold normSquare; ring
    simp only [e, div_eq_mul_inv, abs_of_nonneg (Real.sqrt_nonneg _), abs_mul, abs_inv]
    refine ⟨x, y, z, h2, ?_, ?_, ?_⟩
    · rw [← g0.1]; exact g0.2
    · rw [← g1.1]; exact g1.2
    · rw [← g2.1]; exact g2.2

/-- **C57 (length of the unit vector)**: the square of the length of the computed vector differs from one by at most `γ₁₂`. -/
theorem C57_unit_length {E : Env ℝ} (hs : E.RoundedFns u) {a : Fin 3 → ℝ} (ha : a ≠ 0) :
    ∃ x y z, (A.compute vgaMetric false E (spaceArg a) unitLam >>= single) = ok ⟨[1, 2, 4], [x, y, z]⟩ ∧ |x * x + y * y + z * z - 1| ≤ gam u 12 := by
  obtain ⟨x, y, z, h, hx, hy, hz⟩ := C57_unit h0 h1 hA hs ha
  have hn : normSquare a ≠ 0 := by
    intro h
    unfold normSquare at h
    refine ha (funext fun i => ?_)
    have e0 := mul_self_nonneg (a 0)
    have e1 := mul_self_nonneg (a 1)
    have e2 := mul_self_nonneg (a 2)
    fin_cases i
    · exact mul_self_eq_zero.1 (by show a 0 * a 0 = 0; linarith)
    · exact mul_self_eq_zero.1 (by show a 1 * a 1 = 0; linarith)
    · exact mul_self_eq_zero.1 (by show a 2 * a 2 = 0; linarith)
  have hu := unit_norm hn
  simp only [normSquare, Pi.smul_apply, smul_eq_mul] at hu
  set s := (Real.sqrt (a 0 * a 0 + a 1 * a 1 + a 2 * a 2))⁻¹ with hs
  have es : ∀ i, a i / Real.sqrt (normSquare a) = s * a i := fun i => by rw [div_eq_mul_inv, mul_comm]; rfl
  rw [es] at hx hy hz
  have key : ∀ v w : ℝ, |v - w| ≤ gam u 6 * |w| → |v * v - w * w| ≤ gam u 12 * (w * w) := by
    intro v w hv
    have g0 := gam_nonneg h0 h1 6
    have g12 : gam u 12 = 2 * gam u 6 + gam u 6 * gam u 6 := by linarith [gam_add h0 h1 6 6]
    have : v * v - w * w = (v - w) * (2 * w + (v - w)) := by ring
    rw [this, abs_mul, g12]
    have : |2 * w + (v - w)| ≤ 2 * |w| + gam u 6 * |w| := (abs_add_le _ _).trans (add_le_add (by rw [abs_mul, abs_two]) hv)
    calc _ ≤ (gam u 6 * |w|) * (2 * |w| + gam u 6 * |w|) := mul_le_mul hv this (abs_nonneg _) (by positivity)
      _ = (2 * gam u 6 + gam u 6 * gam u 6) * (|w| * |w|) := by ring
      _ = _ := by rw [abs_mul_abs_self]
  refine ⟨x, y, z, h, ?_⟩
  have := abs_add_three (x * x - s * a 0 * (s * a 0)) (y * y - s * a 1 * (s * a 1)) (z * z - s * a 2 * (s * a 2))
  have e : x * x + y * y + z * z - 1 = (x * x - s * a 0 * (s * a 0)) + (y * y - s * a 1 * (s * a 1)) + (z * z - s * a 2 * (s * a 2)) := by linarith
  rw [e]
  calc _ ≤ _ := this
    _ ≤ gam u 12 * (s * a 0 * (s * a 0)) + gam u 12 * (s * a 1 * (s * a 1)) + gam u 12 * (s * a 2 * (s * a 2)) :=
      add_le_add_three (key _ _ hx) (key _ _ hy) (key _ _ hz)
    _ = gam u 12 := by rw [← mul_add, ← mul_add, hu, mul_one]

/-- **C57 (projection)**: the error of every coordinate of `((a >> b) * b) / (b >> b)` is at most `γ₉` times the coordinate for absolute values of all
numbers, in every standard arithmetic and for all vectors `b ≠ 0`. -/
theorem C57_project {E : Env ℝ} (hs : E.RoundedFns u) {a b : Fin 3 → ℝ} (hb : b ≠ 0) :
    ∃ x y z, (A.compute vgaMetric false E (spaceArgs a b) projectLam >>= single) = ok ⟨[1, 2, 4], [x, y, z]⟩ ∧
      ∀ i, |![x, y, z] i - (a 0 * b 0 + a 1 * b 1 + a 2 * b 2) / normSquare b * b i| ≤
        gam u 9 * ((|a 0 * b 0| + |a 1 * b 1| + |a 2 * b 2|) / normSquare b * |b i|) := by
  have hn : b 0 ^ 2 + (b 1 ^ 2 + b 2 ^ 2) ≠ 0 := by
    intro h
    refine hb (funext fun i => ?_)
    have e0 := sq_nonneg (b 0)
    have e1 := sq_nonneg (b 1)
    have e2 := sq_nonneg (b 2)
    fin_cases i <;> refine pow_eq_zero_iff two_ne_zero |>.1 ?_ <;> simp <;> nlinarith
  have hd : startData (spaceArgs a b) 10 = [a 0, a 1, a 2, b 0, b 1, b 2, 0, 0, 0, 0] := rfl
  obtain ⟨xs, vs, -, h2, -, h3, h4⟩ := C57_temps h0 h1 hA vgaMetric (E := realEnv) realEnv_fns hs (args := spaceArgs a b)
    (args' := spaceArgs (K := ℚ) ![1, 2, 3] ![5, 7, 11]) rfl project_program (show 6 ≤ 10 by decide) ⟨by decide, by decide⟩
    (I := List.replicate 6 ⟨0, true, false, false⟩ ++ [⟨3, true, true, false⟩, ⟨9, false, false, false⟩, ⟨9, false, false, false⟩, ⟨9, false, false, false⟩])
    (by decide +kernel) (ss := [⟨9, false, false, false⟩, ⟨9, false, false, false⟩, ⟨9, false, false, false⟩]) (by decide +kernel)
    (by
      rw [hd]
      simp [PoleFreeTemps, PoleFreeTerms, PoleFree, projectTemps, powersMon, storeTerms, storedTerm, opVal, storedMon, Rat32.toQ, hn])
    (by simp [PoleFree, projectResult, powersMon])
  have hr : ratVal ℝ (⟨1, 1⟩ : Rat32) = 1 := by simp [ratVal]
  have hc : factorCost (⟨1, 1⟩ : Rat32) = 0 := by decide
  rw [hr, hc, hd] at h4
  have g0 := h4 0 _ _ rfl rfl
  have g1 := h4 1 _ _ rfl rfl
  have g2 := h4 2 _ _ rfl rfl
  simp [projectTemps, powersMon, storeTemps, storeTerms, storedTerm, opVal, storedMon, majorantTerm, opMajorant, majorantMon, Rat32.toQ] at g0 g1 g2
  match vs, h3 with
  | [x, y, z], _ =>
    have e : normSquare b = b 0 ^ 2 + (b 1 ^ 2 + b 2 ^ 2) := by unfold normSquare; ring
    refine ⟨x, y, z, h2, fun i => ?_⟩
    simp only [e, div_eq_mul_inv, abs_mul]
    fin_cases i
    · have := g0.2
      rw [g0.1] at this
      convert this using 2
      · simp; ring_nf
      · simp; ring_nf; simp only [sq_abs]
    · have := g1.2
      rw [g1.1] at this
      convert this using 2
      · simp; ring_nf
      · simp; ring_nf; simp only [sq_abs]
    · have := g2.2
      rw [g2.1] at this
      convert this using 2
      · simp; ring_nf
      · simp; ring_nf; simp only [sq_abs]

end

/-- The functions of binary arithmetic are accurate up to one rounding. -/
theorem binary_roundedFns (p : Nat) : (binaryEnv p).RoundedFns ((2 : ℝ)⁻¹ ^ p) where
  sqrt x _ := by
    show ∃ δ, _ ∧ roundBits p (realEnv.fn .sqrt x) = _
    rw [realEnv_fns.sqrt]
    exact roundBits_delta p _
  sin x := by
    show ∃ δ, _ ∧ roundBits p (realEnv.fn .sin x) = _
    rw [realEnv_fns.sin]
    exact roundBits_delta p _
  cos x := by
    show ∃ δ, _ ∧ roundBits p (realEnv.fn .cos x) = _
    rw [realEnv_fns.cos]
    exact roundBits_delta p _

/-- **C57 (unit vector, binary)**: in binary arithmetic with `p ≥ 4` digits the square of the length of the computed unit vector differs from one by at
most `12·2⁻ᵖ / (1 − 12·2⁻ᵖ)`. -/
theorem C57_unit_binary {p : Nat} (hp : 4 ≤ p) {a : Fin 3 → ℝ} (ha : a ≠ 0) :
    ∃ x y z, ((binaryArith ℝ p).compute vgaMetric false (binaryEnv p) (spaceArg a) unitLam >>= single) = ok ⟨[1, 2, 4], [x, y, z]⟩ ∧
      |x * x + y * y + z * z - 1| ≤ 12 * (2 : ℝ)⁻¹ ^ p / (1 - 12 * (2 : ℝ)⁻¹ ^ p) := by
  have h1 : (2 : ℝ)⁻¹ ^ p ≤ (2 : ℝ)⁻¹ ^ 4 := pow_le_pow_of_le_one (by norm_num) (by norm_num) hp
  have h2 : (2 : ℝ)⁻¹ ^ 4 = 1 / 16 := by norm_num
  obtain ⟨x, y, z, h, hl⟩ := C57_unit_length (u := (2 : ℝ)⁻¹ ^ p) (by positivity) (by linarith) (C57_binary p) (binary_roundedFns p) ha
  refine ⟨x, y, z, h, hl.trans ?_⟩
  have := gam_le (u := (2 : ℝ)⁻¹ ^ p) (by linarith) (k := 12) (by push_cast; linarith)
  exact_mod_cast this

/-- For the vector `(3, -4, 12)` in single precision. -/
example : ∃ x y z, ((binaryArith ℝ 24).compute vgaMetric false (binaryEnv 24) (spaceArg ![3, -4, 12]) unitLam >>= single) = ok ⟨[1, 2, 4], [x, y, z]⟩ ∧
    |x * x + y * y + z * z - 1| ≤ 12 * (2 : ℝ)⁻¹ ^ 24 / (1 - 12 * (2 : ℝ)⁻¹ ^ 24) :=
  C57_unit_binary (by norm_num) fun h => by simpa using congrFun h 0

/-- The hypotheses of `C57_unit` hold in single precision. -/
example : ∃ x y z, ((binaryArith ℝ 24).compute vgaMetric false (binaryEnv 24) (spaceArg ![3, -4, 12]) unitLam >>= single) = ok ⟨[1, 2, 4], [x, y, z]⟩ ∧
    |x - 3 / 13| ≤ gam ((2 : ℝ)⁻¹ ^ 24) 6 * (3 / 13) := by
  obtain ⟨x, y, z, h, hx, -⟩ := C57_unit (u := (2 : ℝ)⁻¹ ^ 24) (by positivity) (by norm_num) (C57_binary 24) (binary_roundedFns 24)
    (a := ![3, -4, 12]) fun h => by simpa using congrFun h 0
  have : Real.sqrt (normSquare ![(3 : ℝ), -4, 12]) = 13 := by
    rw [show normSquare ![(3 : ℝ), -4, 12] = 13 ^ 2 by simp [normSquare]; norm_num]
    exact Real.sqrt_sq (by norm_num)
  rw [this] at hx
  refine ⟨x, y, z, h, ?_⟩
  rw [abs_of_nonneg (show (0 : ℝ) ≤ ![(3 : ℝ), -4, 12] 0 / 13 by norm_num)] at hx
  exact hx

/-- The hypotheses of `C57_project` hold in double precision. -/
example : ∃ x y z, ((binaryArith ℝ 53).compute vgaMetric false (binaryEnv 53) (spaceArgs ![1, 2, -3] ![2, -1, 2]) projectLam >>= single) =
      ok ⟨[1, 2, 4], [x, y, z]⟩ ∧ |x + 4 / 3| ≤ gam ((2 : ℝ)⁻¹ ^ 53) 9 * (20 / 9) := by
  obtain ⟨x, y, z, h, hx⟩ := C57_project (u := (2 : ℝ)⁻¹ ^ 53) (by positivity) (by norm_num) (C57_binary 53) (binary_roundedFns 53)
    (a := ![1, 2, -3]) (b := ![2, -1, 2]) fun h => by simpa using congrFun h 0
  refine ⟨x, y, z, h, ?_⟩
  have := hx 0
  simp [normSquare] at this
  norm_num at this ⊢
  exact this

end Gal
