import Verif.Props.Conformal

/-!
# Property C67: rotors and translators of `pga` through `compute`
-/

namespace Gal

open Out
open scoped Matrix

/-- The argument `pga::rotor` with the given stored numbers (pga.hpp:122-193). -/
def pgaRotorArg {K : Type} (d : List K) : Arg K := ⟨pgaRotorIe, d⟩

/-- The argument `pga::translator` with the given stored numbers (pga.hpp:195-260). -/
def pgaTranslatorArg {K : Type} (d : List K) : Arg K := ⟨pgaTranslatorIe, d⟩

/-- `p % r` for a point and a rotor. -/
def pgaRotateRatPolys : List (Nat × List RatMono) :=
    [(7, [(⟨-1, 1⟩, [(2, 1), (3, 2)]), (⟨-1, 1⟩, [(2, 1), (4, 2)]), (⟨-2, 1⟩, [(0, 1), (3, 1), (7, 1), (4, 1)]), (⟨-2, 1⟩, [(0, 1), (4, 2), (6,
    1)]), (⟨2, 1⟩, [(1, 1), (3, 1), (4, 1), (6, 1)]), (⟨-2, 1⟩, [(1, 1), (4, 1), (7, 1), (4, 1)]), (⟨1, 1⟩, [(2, 1), (4, 2), (6, 2)]), (⟨1, 1⟩,
    [(2, 1), (7, 2), (4, 2)])]), (11, [(⟨-2, 1⟩, [(0, 1), (3, 1), (4, 1)]), (⟨1, 1⟩, [(1, 1), (3, 2)]), (⟨-1, 1⟩, [(1, 1), (4, 2)]), (⟨2, 1⟩,
    [(2, 1), (3, 1), (4, 1), (6, 1)]), (⟨2, 1⟩, [(2, 1), (4, 1), (7, 1), (4, 1)]), (⟨2, 1⟩, [(0, 1), (4, 1), (6, 1), (7, 1), (4, 1)]), (⟨-1, 1⟩,
    [(1, 1), (4, 2), (6, 2)]), (⟨1, 1⟩, [(1, 1), (7, 2), (4, 2)])]), (13, [(⟨-1, 1⟩, [(0, 1), (3, 2)]), (⟨1, 1⟩, [(0, 1), (4, 2)]), (⟨-2, 1⟩,
    [(1, 1), (3, 1), (4, 1)]), (⟨2, 1⟩, [(2, 1), (3, 1), (7, 1), (4, 1)]), (⟨-2, 1⟩, [(2, 1), (4, 2), (6, 1)]), (⟨-1, 1⟩, [(0, 1), (4, 2), (6,
    2)]), (⟨1, 1⟩, [(0, 1), (7, 2), (4, 2)]), (⟨-2, 1⟩, [(1, 1), (4, 1), (6, 1), (7, 1), (4, 1)])]), (14, [(⟨1, 1⟩, [(3, 2)]), (⟨1, 1⟩, [(4,
    2)]), (⟨1, 1⟩, [(4, 2), (6, 2)]), (⟨1, 1⟩, [(7, 2), (4, 2)])])]

theorem pgaRotate_ratPolys : sandwichLam.ratPolys (L := ℚ) pgaMetric false [pointArg [0, 0, 0], pgaRotorArg [0, 0, 0, 0, 0]] =
    some (.one, pgaRotateRatPolys) := by
  decide +kernel

/-- `p % t` for a point and a translator. -/
def pgaTranslateRatPolys : List (Nat × List RatMono) :=
    [(7, [(⟨-1, 1⟩, [(2, 1)]), (⟨-1, 1⟩, [(4, 1), (3, 1)])]), (11, [(⟨1, 1⟩, [(1, 1)]), (⟨1, 1⟩, [(3, 1), (4, 1)])]), (13, [(⟨-1, 1⟩, [(0, 1)]),
    (⟨-1, 1⟩, [(4, 1), (3, 1)])]), (14, [(⟨1, 1⟩, [])])]

theorem pgaTranslate_ratPolys : sandwichLam.ratPolys (L := ℚ) pgaMetric false [pointArg [0, 0, 0], pgaTranslatorArg [0, 0, 0, 0]] =
    some (.one, pgaTranslateRatPolys) := by
  decide +kernel

section

variable {K : Type} [Field K] [CharZero K]

/-- **C67 (translators)**: `p % t` for the translator with the stored numbers `d, x, y, z` moves every point by `d x (1, 1, 1)`. -/
theorem C67_translate (E : Env K) (d x y z : K) (p : Fin 3 → K) :
    (sandwichLam.compute pgaMetric false E [pointArg [p 0, p 1, p 2], pgaTranslatorArg [d, x, y, z]] >>= single >>= vgaPointOf) =
      ok (List.ofFn (p + (d * x) • ![1, 1, 1])) := by
  rw [lam_ratPolys pgaMetric false E (by rfl) pgaTranslate_ratPolys, ok_bind, ofFn3]
  unfold vgaPointOf
  rw [select_of (k := 2) (by decide) (by decide) rfl rfl, select_of (k := 1) (by decide) (by decide) rfl rfl,
    select_of (k := 0) (by decide) (by decide) rfl rfl, select_of (k := 3) (by decide) (by decide) rfl rfl]
  simp only [ok_bind, pure_eq, pointArg, pgaTranslatorArg]
  rat_value pgaTranslateRatPolys
  simp only [Pi.add_apply, Pi.smul_apply, smul_eq_mul, Matrix.cons_val_zero, Matrix.cons_val_one, Matrix.cons_val]
  congr 2
  · ring
  · congr 1
    · ring
    · congr 1
      ring

/-- **C67 is false for translators** other than those along `(1, 1, 1)`: `p % t` is `p + d (x, y, z)`, for any one point or for all, only if
`d (x, y, z)` has equal coordinates. -/
theorem C67_translate_false (E : Env K) (d x y z : K) (p : Fin 3 → K) :
    (sandwichLam.compute pgaMetric false E [pointArg [p 0, p 1, p 2], pgaTranslatorArg [d, x, y, z]] >>= single >>= vgaPointOf) =
      ok (List.ofFn (p + d • ![x, y, z])) ↔ d * y = d * x ∧ d * z = d * x := by
  rw [C67_translate, ok_inj, ofFn3, ofFn3]
  simp only [Pi.add_apply, Pi.smul_apply, smul_eq_mul, Matrix.cons_val_zero, Matrix.cons_val_one, Matrix.cons_val, List.cons.injEq, and_true,
    add_right_inj, mul_one, true_and]
  exact ⟨fun h => ⟨h.1.symm, h.2.symm⟩, fun h => ⟨h.1.symm, h.2.symm⟩⟩

/-- `p % r` for the rotor with the stored numbers `c, s, x, y, z`: the number `x` is not used. -/
theorem pgaRotate_run (E : Env K) (c s x y z : K) (_h0 : c * c + s * s * (y * y + z * z + 1) ≠ 0) (p : Fin 3 → K) :
    (sandwichLam.compute pgaMetric false E [pointArg [p 0, p 1, p 2], pgaRotorArg [c, s, x, y, z]] >>= single >>= vgaPointOf) =
      ok (List.ofFn (((c * c + s * s * (y * y + z * z + 1))⁻¹ • ((c * c - s * s * (y * y + z * z + 1)) • p -
        (2 * c * s) • (![y, z, 1] ⨯₃ p) + (2 * s * s * (![y, z, 1] ⬝ᵥ p)) • ![y, z, 1]))) ) := by
  rw [lam_ratPolys pgaMetric false E (by rfl) pgaRotate_ratPolys, ok_bind, ofFn3]
  unfold vgaPointOf
  rw [select_of (k := 2) (by decide) (by decide) rfl rfl, select_of (k := 1) (by decide) (by decide) rfl rfl,
    select_of (k := 0) (by decide) (by decide) rfl rfl, select_of (k := 3) (by decide) (by decide) rfl rfl]
  simp only [ok_bind, pure_eq, pointArg, pgaRotorArg]
  rat_value pgaRotateRatPolys
  simp only [Pi.add_apply, Pi.sub_apply, Pi.smul_apply, smul_eq_mul, cross_apply, dot3, Matrix.cons_val_zero, Matrix.cons_val_one, Matrix.cons_val]
  have h1 : c ^ 2 + (s ^ 2 + (s ^ 2 * y ^ 2 + z ^ 2 * s ^ 2)) = c * c + s * s * (y * y + z * z + 1) := by ring
  rw [h1]
  congr 2
  · field_simp
    ring
  · congr 1
    · field_simp
      ring
    · congr 1
      field_simp
      ring

/-- **C67 (rotors)**: `p % r` for a rotor with the stored numbers `c, s, x, y, z` is a rotation of the points about the axis `(y, z, 1)`, whatever
`x` is. -/
theorem C67_rotate (c s y z : K) (h0 : c * c + s * s * (y * y + z * z + 1) ≠ 0) :
    ∃ R : Matrix (Fin 3) (Fin 3) K, IsRotation R ∧ R *ᵥ ![y, z, 1] = ![y, z, 1] ∧ ∀ (E : Env K) (x : K) (p : Fin 3 → K),
      (sandwichLam.compute pgaMetric false E [pointArg [p 0, p 1, p 2], pgaRotorArg [c, s, x, y, z]] >>= single >>= vgaPointOf) =
        ok (List.ofFn (R *ᵥ p)) := by
  have h2 : c ^ 2 + s ^ 2 * (y ^ 2 + z ^ 2 + 1) ≠ 0 := fun h => h0 (by linear_combination h)
  refine ⟨(c * c + s * s * (y * y + z * z + 1))⁻¹ • !![c * c - s * s * (y * y + z * z + 1) + 2 * s * s * y * y, 2 * c * s + 2 * s * s * y * z,
      -(2 * c * s * z) + 2 * s * s * y;
      -(2 * c * s) + 2 * s * s * y * z, c * c - s * s * (y * y + z * z + 1) + 2 * s * s * z * z, 2 * c * s * y + 2 * s * s * z;
      2 * c * s * z + 2 * s * s * y, -(2 * c * s * y) + 2 * s * s * z, c * c - s * s * (y * y + z * z + 1) + 2 * s * s], ⟨?_, ?_⟩, ?_, fun E x p => ?_⟩
  · ext i j
    fin_cases i <;> fin_cases j <;>
      simp [Matrix.mul_apply, Fin.sum_univ_three] <;> field_simp <;> ring
  · rw [Matrix.det_fin_three]
    simp
    field_simp
    ring
  · ext i
    fin_cases i <;>
      simp only [Matrix.smul_apply, smul_eq_mul, Matrix.mulVec, dot3, Matrix.of_apply, Matrix.cons_val_zero, Matrix.cons_val_one,
        Matrix.cons_val, Fin.zero_eta, Fin.mk_one, Fin.reduceFinMk] <;> field_simp <;> ring
  · rw [pgaRotate_run E c s x y z h0, ok_inj]
    congr 1
    ext i
    fin_cases i <;>
      simp only [Pi.add_apply, Pi.sub_apply, Matrix.smul_apply, Pi.smul_apply, smul_eq_mul, Matrix.mulVec, dot3, cross_apply, Matrix.of_apply,
        Matrix.cons_val_zero, Matrix.cons_val_one, Matrix.cons_val, Fin.zero_eta, Fin.mk_one, Fin.reduceFinMk] <;> ring

end

/-- The weight of the image is not zero for a rotor made by the constructor. -/
theorem pgaRotor_weight (θ y z : ℝ) : Real.cos (1 / 2 * θ) * Real.cos (1 / 2 * θ) +
    Real.sin (1 / 2 * θ) * Real.sin (1 / 2 * θ) * (y * y + z * z + 1) ≠ 0 := by
  have h := Real.cos_sq_add_sin_sq (1 / 2 * θ)
  have h1 : 0 ≤ Real.sin (1 / 2 * θ) * Real.sin (1 / 2 * θ) * (y * y + z * z) :=
    mul_nonneg (mul_self_nonneg _) (add_nonneg (mul_self_nonneg _) (mul_self_nonneg _))
  nlinarith

/-- **C67 is false for rotors**: for every unit axis and every angle that is not a multiple of `π`, the rotor made from them by the constructor turns
some point otherwise than the rotation by the angle about the axis does, counted either way round. -/
theorem C67_rotate_false (E : Env ℝ) (θ φ : ℝ) (k : Fin 3 → ℝ) (hk : k ⬝ᵥ k = 1) (hθ : Real.sin θ ≠ 0) (hφ : φ = θ ∨ φ = -θ) :
    ∃ p : Fin 3 → ℝ,
      (sandwichLam.compute pgaMetric false E [pointArg [p 0, p 1, p 2], pgaRotorArg (rotorNew Real.cos Real.sin θ (k 0) (k 1) (k 2))]
        >>= single >>= vgaPointOf) ≠ ok (List.ofFn (rodrigues φ k p)) := by
  by_contra hcon
  push Not at hcon
  have hc : Real.cos φ = Real.cos (1 / 2 * θ) ^ 2 - Real.sin (1 / 2 * θ) ^ 2 := by
    have : Real.cos φ = Real.cos θ := by
      rcases hφ with h | h
      · rw [h]
      · rw [h, Real.cos_neg]
    rw [this, ← Real.cos_two_mul']; congr 1; ring
  have hs : Real.sin θ = 2 * Real.sin (1 / 2 * θ) * Real.cos (1 / 2 * θ) := by
    rw [← Real.sin_two_mul]; congr 1; ring
  have h1 := Real.cos_sq_add_sin_sq (1 / 2 * θ)
  have hw := pgaRotor_weight θ (k 1) (k 2)
  have key : ∀ p : Fin 3 → ℝ, _ := fun p => by
    have := hcon p
    unfold rotorNew at this
    rw [pgaRotate_run E _ _ _ _ _ hw, ok_inj] at this
    exact List.ofFn_injective this
  have e0 := congrFun (key ![1, 0, 0]) 0
  have e1 := congrFun (key ![0, 1, 0]) 1
  have e2 := congrFun (key ![0, 0, 1]) 2
  clear key hcon
  rw [hs] at hθ
  rw [dot3] at hk
  unfold rodrigues at e0 e1 e2
  rw [hc] at e0 e1 e2
  simp only [Pi.add_apply, Pi.sub_apply, Pi.smul_apply, smul_eq_mul, cross_apply, dot3, Matrix.cons_val_zero, Matrix.cons_val_one,
    Matrix.cons_val] at e0 e1 e2
  generalize Real.cos (1 / 2 * θ) = c at *
  generalize Real.sin (1 / 2 * θ) = s at *
  generalize k 0 = x at *
  generalize k 1 = y at *
  generalize k 2 = z at *
  rw [inv_mul_eq_iff_eq_mul₀ hw] at e0 e1 e2
  have hcs : c ^ 2 * s ^ 2 ≠ 0 := by
    intro h
    apply hθ
    have : (c * s) ^ 2 = 0 := by linear_combination h
    have := pow_eq_zero_iff (two_ne_zero) |>.1 this
    linear_combination 2 * this
  have hm : y ^ 2 + z ^ 2 = 0 := by
    have ht : 3 * c ^ 2 - s ^ 2 * (y ^ 2 + z ^ 2 + 1) = (c ^ 2 + s ^ 2 * (y ^ 2 + z ^ 2 + 1)) * (1 + 2 * (c ^ 2 - s ^ 2)) := by
      linear_combination e0 + e1 + e2 + (c ^ 2 + s ^ 2 * (y ^ 2 + z ^ 2 + 1)) * (1 - c ^ 2 + s ^ 2) * hk
    have : c ^ 2 * s ^ 2 * (y ^ 2 + z ^ 2) = 0 := by
      linear_combination (-1 / 4) * ht - (1 / 4) * (2 * c ^ 2 - 2 * s ^ 2 * (y ^ 2 + z ^ 2 + 1)) * h1
    exact (mul_eq_zero.1 this).resolve_left hcs
  have hy : y = 0 := by nlinarith [sq_nonneg y, sq_nonneg z]
  have hz : z = 0 := by nlinarith [sq_nonneg y, sq_nonneg z]
  subst hy hz
  apply hcs
  linear_combination (-(c ^ 2) / 2) * e0 - (c ^ 2 / 2) * (c ^ 2 + s ^ 2) * (1 - c ^ 2 + s ^ 2) * hk

/-- **C67 (half turns)**: for a unit axis and an odd multiple of `π` the rotor made by the constructor turns every point as it should exactly if the axis
is `(z³, z², z)`. -/
theorem C67_half_turn (E : Env ℝ) (θ : ℝ) (k : Fin 3 → ℝ) (hk : k ⬝ᵥ k = 1) (hθ : Real.cos (1 / 2 * θ) = 0) :
    (∀ p : Fin 3 → ℝ,
      (sandwichLam.compute pgaMetric false E [pointArg [p 0, p 1, p 2], pgaRotorArg (rotorNew Real.cos Real.sin θ (k 0) (k 1) (k 2))]
        >>= single >>= vgaPointOf) = ok (List.ofFn (rodrigues θ k p))) ↔ k 0 = k 2 ^ 3 ∧ k 1 = k 2 ^ 2 := by
  have hc : Real.cos θ = Real.cos (1 / 2 * θ) ^ 2 - Real.sin (1 / 2 * θ) ^ 2 := by
    rw [← Real.cos_two_mul']; congr 1; ring
  have hs : Real.sin θ = 2 * Real.sin (1 / 2 * θ) * Real.cos (1 / 2 * θ) := by
    rw [← Real.sin_two_mul]; congr 1; ring
  have h1 := Real.cos_sq_add_sin_sq (1 / 2 * θ)
  rw [hθ] at hc hs h1
  have hs1 : Real.sin (1 / 2 * θ) ^ 2 = 1 := by linear_combination h1
  rw [hs1] at hc
  rw [mul_zero] at hs
  have hw := pgaRotor_weight θ (k 1) (k 2)
  have n0 : k 1 * k 1 + k 2 * k 2 + 1 ≠ 0 := by nlinarith [mul_self_nonneg (k 1), mul_self_nonneg (k 2)]
  rw [dot3] at hk
  have run : ∀ p : Fin 3 → ℝ, ((sandwichLam.compute pgaMetric false E [pointArg [p 0, p 1, p 2],
      pgaRotorArg (rotorNew Real.cos Real.sin θ (k 0) (k 1) (k 2))] >>= single >>= vgaPointOf) = ok (List.ofFn (rodrigues θ k p))) ↔
      ∀ i, (k 1 * k 1 + k 2 * k 2 + 1) * (k i * (k 0 * p 0 + k 1 * p 1 + k 2 * p 2)) = (![k 1, k 2, 1] : Fin 3 → ℝ) i *
        (k 1 * p 0 + k 2 * p 1 + p 2) := fun p => by
    unfold rotorNew
    rw [pgaRotate_run E _ _ _ _ _ hw, ok_inj, List.ofFn_inj, funext_iff]
    refine forall_congr' fun i => ?_
    unfold rodrigues
    rw [hc, hs, hθ]
    simp only [Pi.add_apply, Pi.sub_apply, Pi.smul_apply, smul_eq_mul, dot3, Matrix.cons_val_zero, Matrix.cons_val_one, Matrix.cons_val]
    have e : (0 : ℝ) * 0 + Real.sin (1 / 2 * θ) * Real.sin (1 / 2 * θ) * (k 1 * k 1 + k 2 * k 2 + 1) = k 1 * k 1 + k 2 * k 2 + 1 := by
      linear_combination (k 1 * k 1 + k 2 * k 2 + 1) * hs1
    rw [e, inv_mul_eq_iff_eq_mul₀ n0]
    constructor
    · intro h
      linear_combination (-1 / 2) * h + (![k 1, k 2, 1] i * (k 1 * p 0 + k 2 * p 1 + p 2) - (1 / 2) * (k 1 * k 1 + k 2 * k 2 + 1) * p i) * hs1
    · intro h
      linear_combination (-2) * h + (2 * ![k 1, k 2, 1] i * (k 1 * p 0 + k 2 * p 1 + p 2) - (k 1 * k 1 + k 2 * k 2 + 1) * p i) * hs1
  constructor
  · intro h
    have e := (run ![0, 0, 1]).1 (h _)
    have e0 := e 0
    have e1 := e 1
    have e2 := e 2
    simp only [Matrix.cons_val_zero, Matrix.cons_val_one, Matrix.cons_val, mul_zero, zero_add, mul_one] at e0 e1 e2
    have z0 : k 2 ≠ 0 := by
      intro hz
      rw [hz] at e2
      norm_num at e2
    have hy : k 1 = k 2 ^ 2 := by
      refine mul_left_cancel₀ z0 ?_
      linear_combination (-(k 1 * k 2)) * e2 + k 2 ^ 2 * e1
    refine ⟨mul_left_cancel₀ z0 ?_, hy⟩
    linear_combination (-(k 0 * k 2)) * e2 + k 2 ^ 2 * e0 + k 2 ^ 2 * hy
  · rintro ⟨hx, hy⟩ p
    refine (run p).2 fun i => ?_
    have e2 : (k 1 * k 1 + k 2 * k 2 + 1) * k 2 ^ 2 = 1 := by
      rw [hx, hy] at hk
      rw [hy]
      linear_combination hk
    fin_cases i <;> simp only [Matrix.cons_val_zero, Matrix.cons_val_one, Matrix.cons_val, Fin.zero_eta, Fin.mk_one, Fin.reduceFinMk]
    · rw [hx, hy] at *
      linear_combination (k 2 ^ 2 * (k 2 ^ 2 * p 0 + k 2 * p 1 + p 2)) * e2
    · rw [hx, hy] at *
      linear_combination (k 2 * (k 2 ^ 2 * p 0 + k 2 * p 1 + p 2)) * e2
    · rw [hx, hy] at *
      linear_combination (k 2 ^ 2 * p 0 + k 2 * p 1 + p 2) * e2

/-- There is a unit axis of this form, and the third axis is not of this form. -/
example : Real.cos (1 / 2 * Real.pi) = 0 ∧ (∃ z : ℝ, ![z ^ 3, z ^ 2, z] ⬝ᵥ ![z ^ 3, z ^ 2, z] = 1) ∧
    ![(0 : ℝ), 0, 1] ⬝ᵥ ![0, 0, 1] = 1 ∧ ¬(![(0 : ℝ), 0, 1] 1 = ![(0 : ℝ), 0, 1] 2 ^ 2) := by
  refine ⟨by rw [one_div, inv_mul_eq_div, Real.cos_pi_div_two], ?_, by simp, by simp⟩
  have hcont : ContinuousOn (fun z : ℝ => z ^ 6 + z ^ 4 + z ^ 2) (Set.Icc 0 1) := by fun_prop
  obtain ⟨z, _, hz⟩ := intermediate_value_Icc (zero_le_one' ℝ) hcont (show (1 : ℝ) ∈ _ by norm_num)
  refine ⟨z, ?_⟩
  rw [dot3]
  simp only [Matrix.cons_val_zero, Matrix.cons_val_one, Matrix.cons_val]
  simp only at hz
  linear_combination hz

/-- **C67 (rotors), partial**: the rotor of a multiple of the full turn leaves every point in place. Half turns are in
`C67_half_turn`; every other angle is missing, because the statement is false there (`C67_rotate_false`). -/
theorem C67_rotate_partial (E : Env ℝ) (θ : ℝ) (k p : Fin 3 → ℝ) (hθ : Real.sin (1 / 2 * θ) = 0) :
    (sandwichLam.compute pgaMetric false E [pointArg [p 0, p 1, p 2], pgaRotorArg (rotorNew Real.cos Real.sin θ (k 0) (k 1) (k 2))]
      >>= single >>= vgaPointOf) = ok (List.ofFn (rodrigues θ k p)) := by
  have hc : Real.cos θ = Real.cos (1 / 2 * θ) ^ 2 - Real.sin (1 / 2 * θ) ^ 2 := by
    rw [← Real.cos_two_mul']; congr 1; ring
  have hs : Real.sin θ = 2 * Real.sin (1 / 2 * θ) * Real.cos (1 / 2 * θ) := by
    rw [← Real.sin_two_mul]; congr 1; ring
  have h1 := Real.cos_sq_add_sin_sq (1 / 2 * θ)
  rw [hθ] at hc hs h1
  unfold rotorNew
  rw [pgaRotate_run E _ _ _ _ _ (pgaRotor_weight θ _ _), ok_inj, hθ]
  have hc1 : Real.cos (1 / 2 * θ) ^ 2 = 1 := by linear_combination h1
  have hc2 : Real.cos (1 / 2 * θ) * Real.cos (1 / 2 * θ) = 1 := by linear_combination h1
  congr 1
  unfold rodrigues
  rw [hc, hs, hc1, hc2]
  ext i
  simp

/-- The hypotheses are met: a quarter turn about the first axis, and the full turn. -/
example : Real.sin (Real.pi / 2) ≠ 0 ∧ ![(1 : ℝ), 0, 0] ⬝ᵥ ![1, 0, 0] = 1 ∧ Real.sin (1 / 2 * (2 * Real.pi)) = 0 := by
  refine ⟨by rw [Real.sin_pi_div_two]; norm_num, by simp, ?_⟩
  rw [show 1 / 2 * (2 * Real.pi) = Real.pi by ring, Real.sin_pi]

/-- The hypothesis of `C67_rotate` is met, and the rotor made for the quarter turn about the first axis turns the first axis. -/
example (E : Env ℝ) : ((1 : ℝ) * 1 + 1 * 1 * (0 * 0 + 0 * 0 + 1) ≠ 0) ∧
    (sandwichLam.compute pgaMetric false E [pointArg [1, 0, 0], pgaRotorArg [1, 1, 1, 0, 0]] >>= single >>= vgaPointOf) = ok [0, -1, (0 : ℝ)] := by
  refine ⟨by norm_num, ?_⟩
  refine (pgaRotate_run E (1 : ℝ) 1 1 0 0 (by norm_num) ![1, 0, 0]).trans ?_
  rw [ok_inj, ofFn3]
  simp only [Pi.add_apply, Pi.sub_apply, Pi.smul_apply, smul_eq_mul, cross_apply, dot3, Matrix.cons_val_zero, Matrix.cons_val_one,
    Matrix.cons_val]
  norm_num

/-- The translator by one along the first axis moves the origin to `(1, 1, 1)`, the one along the second axis does not move it. -/
example (E : Env ℚ) : (sandwichLam.compute pgaMetric false E [pointArg [0, 0, 0], pgaTranslatorArg [1, 1, 0, 0]] >>= single >>= vgaPointOf) =
      ok [1, 1, 1] ∧
    (sandwichLam.compute pgaMetric false E [pointArg [0, 0, 0], pgaTranslatorArg [1, 0, 1, 0]] >>= single >>= vgaPointOf) = ok [0, 0, 0] := by
  have h := C67_translate E (1 : ℚ) 1 0 0 ![0, 0, 0]
  have h' := C67_translate E (1 : ℚ) 0 1 0 ![0, 0, 0]
  rw [ofFn3] at h h'
  simp only [Pi.add_apply, Pi.smul_apply, smul_eq_mul, Matrix.cons_val_zero, Matrix.cons_val_one, Matrix.cons_val] at h h'
  norm_num at h h'
  exact ⟨h, h'⟩

end Gal
