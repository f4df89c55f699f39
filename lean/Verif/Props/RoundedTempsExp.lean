import Verif.Props.RoundedTempsUse
import Verif.Props.ExpAlgebras

/-!
# Property C57: error bounds of the exponential

The exponential divides by the length of the bivector and takes its sine and cosine.
-/

namespace Gal

open Out

/-- `compute([](auto x) { return exp(x); }, x)` with rounding (expr.hpp:904-919, engine.hpp:455-518), in algebras without null basis. -/
def Arith.expOf {K : Type} [Field K] (A : Arith K) (m : Metric) (E : Env K) (x : Arg K) : Out (Entity K) := do
  let e ← expExpr m.dim (entityExpr 0 0)
  A.computeExpr m false 95 E [x] e >>= single

/-- The temporaries of the exponential in space. -/
def spaceExpTemps : List (MvOp × NMv × Nat) :=
  [(.id, [], 3), (.id, [⟨0, [⟨⟨-1, 1⟩, ⟨2, 1⟩, [⟨0, ⟨2, 1⟩⟩]⟩, ⟨⟨-1, 1⟩, ⟨2, 1⟩, [⟨1, ⟨2, 1⟩⟩]⟩, ⟨⟨-1, 1⟩, ⟨2, 1⟩, [⟨2, ⟨2, 1⟩⟩]⟩]⟩], 3),
    (.sqrt, [⟨0, [⟨⟨-1, 1⟩, .one, [⟨3, .one⟩]⟩]⟩], 4), (.id, [], 5), (.cos, [⟨0, [⟨.one, .one, [⟨4, .one⟩]⟩]⟩], 5), (.id, [], 6),
    (.sin, [⟨0, [⟨.one, .one, [⟨4, .one⟩]⟩]⟩], 6), (.id, [⟨0, [⟨.one, .one, [⟨6, .one⟩]⟩]⟩], 7), (.id, [], 8), (.id, [], 8),
    (.id, [⟨0, [⟨.one, .one, [⟨4, ⟨-1, 1⟩⟩]⟩]⟩], 8),
    (.id, [⟨3, [⟨.one, ⟨3, 1⟩, [⟨0, .one⟩, ⟨7, .one⟩, ⟨8, .one⟩]⟩]⟩, ⟨5, [⟨.one, ⟨3, 1⟩, [⟨1, .one⟩, ⟨7, .one⟩, ⟨8, .one⟩]⟩]⟩,
      ⟨6, [⟨.one, ⟨3, 1⟩, [⟨2, .one⟩, ⟨7, .one⟩, ⟨8, .one⟩]⟩]⟩], 9), (.id, [], 12)]

/-- The result of the exponential in space. -/
def spaceExpResult : NMv :=
  [⟨0, [⟨.one, .one, [⟨5, .one⟩]⟩]⟩, ⟨3, [⟨.one, .one, [⟨9, .one⟩]⟩]⟩, ⟨5, [⟨.one, .one, [⟨10, .one⟩]⟩]⟩, ⟨6, [⟨.one, .one, [⟨11, .one⟩]⟩]⟩]

theorem spaceExp_program : viewedExpr vgaMetric 95 [bivArg3 (K := ℚ) [0, 0, 0]] (expExpr 3 (entityExpr 0 0)) =
    some ⟨spaceExpTemps, [(.id, spaceExpResult)], 12, .one⟩ := by
  decide +kernel

/-- The temporaries of the exponential of a bivector of PGA. -/
def bivExpTemps : List (MvOp × NMv × Nat) :=
  [(.id, [⟨15, [⟨⟨2, 1⟩, ⟨2, 1⟩, [⟨0, .one⟩, ⟨5, .one⟩]⟩, ⟨⟨-2, 1⟩, ⟨2, 1⟩, [⟨1, .one⟩, ⟨4, .one⟩]⟩, ⟨⟨2, 1⟩, ⟨2, 1⟩, [⟨2, .one⟩, ⟨3, .one⟩]⟩]⟩], 6),
    (.id, [⟨0, [⟨⟨-1, 1⟩, ⟨2, 1⟩, [⟨2, ⟨2, 1⟩⟩]⟩, ⟨⟨-1, 1⟩, ⟨2, 1⟩, [⟨4, ⟨2, 1⟩⟩]⟩, ⟨⟨-1, 1⟩, ⟨2, 1⟩, [⟨5, ⟨2, 1⟩⟩]⟩]⟩], 7),
    (.sqrt, [⟨0, [⟨⟨-1, 1⟩, .one, [⟨7, .one⟩]⟩]⟩], 8), (.id, [⟨0, [⟨⟨-1, 2⟩, ⟨2, 1⟩, [⟨6, .one⟩, ⟨8, ⟨-1, 1⟩⟩]⟩]⟩], 9),
    (.sin, [⟨0, [⟨.one, .one, [⟨8, .one⟩]⟩]⟩], 10), (.id, [⟨15, [⟨.one, ⟨2, 1⟩, [⟨9, .one⟩, ⟨10, .one⟩]⟩]⟩], 11),
    (.cos, [⟨0, [⟨.one, .one, [⟨8, .one⟩]⟩]⟩], 12), (.id, [⟨15, [⟨.one, ⟨2, 1⟩, [⟨9, .one⟩, ⟨12, .one⟩]⟩]⟩], 13),
    (.id, [⟨0, [⟨.one, .one, [⟨10, .one⟩]⟩]⟩, ⟨15, [⟨.one, .one, [⟨13, .one⟩]⟩]⟩], 14), (.id, [⟨0, [⟨.one, .one, [⟨8, ⟨-1, 1⟩⟩]⟩]⟩], 16),
    (.id, [⟨0, [⟨.one, ⟨2, 1⟩, [⟨7, ⟨-1, 1⟩⟩, ⟨9, .one⟩]⟩]⟩], 17),
    (.id, [⟨3, [⟨.one, ⟨3, 1⟩, [⟨0, .one⟩, ⟨14, .one⟩, ⟨16, .one⟩]⟩, ⟨⟨-1, 1⟩, ⟨3, 1⟩, [⟨5, .one⟩, ⟨14, .one⟩, ⟨17, .one⟩]⟩,
        ⟨⟨-1, 1⟩, ⟨3, 1⟩, [⟨5, .one⟩, ⟨15, .one⟩, ⟨16, .one⟩]⟩]⟩,
      ⟨5, [⟨.one, ⟨3, 1⟩, [⟨1, .one⟩, ⟨14, .one⟩, ⟨16, .one⟩]⟩, ⟨.one, ⟨3, 1⟩, [⟨4, .one⟩, ⟨14, .one⟩, ⟨17, .one⟩]⟩,
        ⟨.one, ⟨3, 1⟩, [⟨4, .one⟩, ⟨15, .one⟩, ⟨16, .one⟩]⟩]⟩,
      ⟨6, [⟨.one, ⟨3, 1⟩, [⟨2, .one⟩, ⟨14, .one⟩, ⟨16, .one⟩]⟩]⟩,
      ⟨9, [⟨⟨-1, 1⟩, ⟨3, 1⟩, [⟨2, .one⟩, ⟨14, .one⟩, ⟨17, .one⟩]⟩, ⟨⟨-1, 1⟩, ⟨3, 1⟩, [⟨2, .one⟩, ⟨15, .one⟩, ⟨16, .one⟩]⟩,
        ⟨.one, ⟨3, 1⟩, [⟨3, .one⟩, ⟨14, .one⟩, ⟨16, .one⟩]⟩]⟩,
      ⟨10, [⟨.one, ⟨3, 1⟩, [⟨4, .one⟩, ⟨14, .one⟩, ⟨16, .one⟩]⟩]⟩, ⟨12, [⟨.one, ⟨3, 1⟩, [⟨5, .one⟩, ⟨14, .one⟩, ⟨16, .one⟩]⟩]⟩], 18)]

/-- The result of the exponential of a bivector of PGA. -/
def bivExpResult : NMv :=
  [⟨0, [⟨.one, .one, [⟨12, .one⟩]⟩]⟩, ⟨3, [⟨.one, .one, [⟨18, .one⟩]⟩]⟩, ⟨5, [⟨.one, .one, [⟨19, .one⟩]⟩]⟩, ⟨6, [⟨.one, .one, [⟨20, .one⟩]⟩]⟩,
    ⟨9, [⟨.one, .one, [⟨21, .one⟩]⟩]⟩, ⟨10, [⟨.one, .one, [⟨22, .one⟩]⟩]⟩, ⟨12, [⟨.one, .one, [⟨23, .one⟩]⟩]⟩, ⟨15, [⟨⟨-1, 1⟩, .one, [⟨11, .one⟩]⟩]⟩]

theorem bivExp_program : viewedExpr pgaMetric 95 [(⟨[3, 5, 6, 9, 10, 12], [0, 0, 0, 0, 0, 0]⟩ : Entity ℚ).toArg] (expExpr 4 (entityExpr 0 0)) =
    some ⟨bivExpTemps, [(.id, bivExpResult)], 24, .one⟩ := by
  unfold viewedExpr
  rw [bivExp_viewed]
  rfl

section
variable {u : ℝ} (h0 : 0 ≤ u) (h1 : u < 1) {A : Arith ℝ} (hA : A.Standard u)
include h0 h1 hA

/-- **C57 (exponential in space)**: for a bivector of length `s ≠ 0`, the scalar part of `exp(b)` is `cos s` up to `γ₉ (1 + s)`, and each coefficient of
the bivector part is `(sin s / s)` times the one of `b` up to `γ₂₀` times that one, in every standard arithmetic with functions that are accurate up to one
rounding. -/
theorem C57_exp_space {E : Env ℝ} (hs : E.RoundedFns u) (a b c : ℝ) (hn : a ^ 2 + (b ^ 2 + c ^ 2) ≠ 0) :
    ∃ w x y z, A.expOf vgaMetric E (bivArg3 [a, b, c]) = ok ⟨[0, 3, 5, 6], [w, x, y, z]⟩ ∧
      let s := Real.sqrt (a ^ 2 + (b ^ 2 + c ^ 2))
      |w - Real.cos s| ≤ gam u 9 * (1 + s) ∧ |x - a * (Real.sin s / s)| ≤ gam u 20 * |a| ∧ |y - b * (Real.sin s / s)| ≤ gam u 20 * |b| ∧
        |z - c * (Real.sin s / s)| ≤ gam u 20 * |c| := by
  have hn' : Real.sqrt (a ^ 2 + (b ^ 2 + c ^ 2)) ≠ 0 := by rwa [Ne, Real.sqrt_eq_zero (by positivity)]
  have hd : startData [bivArg3 [a, b, c]] 12 = [a, b, c, 0, 0, 0, 0, 0, 0, 0, 0, 0] := rfl
  have hr : ratVal ℝ Rat32.one = 1 := by simp [ratVal, Rat32.one]
  have hc : factorCost Rat32.one = 0 := by decide
  have hr' : c ^ 2 + b ^ 2 + a ^ 2 = a ^ 2 + (b ^ 2 + c ^ 2) := by ring
  obtain ⟨xs, vs, -, h2, -, h3, h4⟩ := C57_temps_expr h0 h1 hA vgaMetric (E := realEnv) realEnv_fns hs (args := [bivArg3 [a, b, c]])
    (args' := [bivArg3 (K := ℚ) [0, 0, 0]]) rfl spaceExp_program (show 3 ≤ 12 by decide) ⟨by decide, by decide⟩
    (I := [⟨0, true, false, false⟩, ⟨0, true, false, false⟩, ⟨0, true, false, false⟩, ⟨5, true, false, true⟩, ⟨8, true, true, false⟩,
      ⟨9, false, false, false⟩, ⟨9, false, false, false⟩, ⟨9, false, false, false⟩, ⟨9, true, true, false⟩, ⟨20, false, false, false⟩,
      ⟨20, false, false, false⟩, ⟨20, false, false, false⟩])
    (by decide +kernel)
    (ss := [⟨9, false, false, false⟩, ⟨20, false, false, false⟩, ⟨20, false, false, false⟩, ⟨20, false, false, false⟩]) (by decide +kernel)
    (by
      rw [hd]
      simp [PoleFreeTemps, PoleFreeTerms, PoleFree, spaceExpTemps, storeTerms, storedTerm, opVal, storedMon, Rat32.toQ, Rat32.one, hr', hn'])
    (by simp [PoleFree, spaceExpResult, Rat32.one])
  rw [hr, hc, hd] at h4
  have g0 := h4 0 _ _ rfl rfl
  have g1 := h4 1 _ _ rfl rfl
  have g2 := h4 2 _ _ rfl rfl
  have g3 := h4 3 _ _ rfl rfl
  simp [spaceExpTemps, storeTemps, storeTerms, storedTerm, opVal, storedMon, majorantTerm, opMajorant, majorantMon, Rat32.toQ, Rat32.one,
    hr', hn'] at g0 g1 g2 g3
  have h5 : A.expOf vgaMetric E (bivArg3 [a, b, c]) = ok ⟨[0, 3, 5, 6], vs⟩ := by
    rw [bind_assoc] at h2
    exact h2
  match vs, h3 with
  | [w, x, y, z], _ =>
    refine ⟨w, x, y, z, h5, ?_, ?_, ?_, ?_⟩
    · rw [← g0.1]; exact g0.2
    · rw [div_eq_mul_inv, ← g1.1]; exact g1.2
    · rw [div_eq_mul_inv, ← g2.1]; exact g2.2
    · rw [div_eq_mul_inv, ← g3.1]; exact g3.2

/-- **C57 (exponential of a bivector of PGA)**: the error of each coefficient of `exp(b)`, for a bivector with direction of length `s ≠ 0`.  The exact values
are those of C51. -/
theorem C57_exp_biv {E E' : Env ℝ} (he : RealFns E) (hs : E'.RoundedFns u) (a b c d e f : ℝ) (hn : c ^ 2 + (e ^ 2 + f ^ 2) ≠ 0) :
    ∃ xs vs, computeExp E (⟨[3, 5, 6, 9, 10, 12], [a, b, c, d, e, f]⟩ : Entity ℝ).toArg = ok ⟨motorElements, xs⟩ ∧
      A.computeExp E' (⟨[3, 5, 6, 9, 10, 12], [a, b, c, d, e, f]⟩ : Entity ℝ).toArg = ok ⟨motorElements, vs⟩ ∧ xs.length = 8 ∧ vs.length = 8 ∧
      let s := Real.sqrt (c ^ 2 + (e ^ 2 + f ^ 2))
      let p := |a * f| + |b * e| + |c * d|
      let t := p * (2 + s) / s ^ 2
      ∀ i, |vs.getD i 0 - xs.getD i 0| ≤ gam u 44 *
        [1 + s, |a| + |f| * t, |b| + |e| * t, |c|, |d| + |c| * t, |e|, |f|, p].getD i 0 := by
  have hn' : Real.sqrt (c ^ 2 + (e ^ 2 + f ^ 2)) ≠ 0 := by rwa [Ne, Real.sqrt_eq_zero (by positivity)]
  have hd : startData [(⟨[3, 5, 6, 9, 10, 12], [a, b, c, d, e, f]⟩ : Entity ℝ).toArg] 24 = [a, b, c, d, e, f, 0, 0, 0, 0, 0, 0, 0, 0, 0, 0, 0, 0, 0, 0,
    0, 0, 0, 0] := rfl
  have hr : ratVal ℝ Rat32.one = 1 := by simp [ratVal, Rat32.one]
  have hc : factorCost Rat32.one = 0 := by decide
  have hr2 : -c ^ 2 + (-e ^ 2 + -f ^ 2) = -(c ^ 2 + (e ^ 2 + f ^ 2)) := by ring
  obtain ⟨xs, vs, h2, h3, h4, h5, h6⟩ := C57_temps_expr h0 h1 hA pgaMetric he hs
    (args := [(⟨[3, 5, 6, 9, 10, 12], [a, b, c, d, e, f]⟩ : Entity ℝ).toArg])
    (args' := [(⟨[3, 5, 6, 9, 10, 12], [0, 0, 0, 0, 0, 0]⟩ : Entity ℚ).toArg]) rfl bivExp_program (show 6 ≤ 24 by decide) ⟨by decide, by decide⟩
    (I := List.replicate 6 ⟨0, true, false, false⟩ ++ [⟨5, false, false, false⟩, ⟨5, true, false, true⟩, ⟨8, true, true, false⟩,
      ⟨19, false, false, false⟩, ⟨9, false, false, false⟩, ⟨29, false, false, false⟩, ⟨9, false, false, false⟩, ⟨29, false, false, false⟩,
      ⟨9, false, false, false⟩, ⟨29, false, false, false⟩, ⟨9, true, true, false⟩, ⟨26, false, false, false⟩, ⟨44, false, false, false⟩,
      ⟨42, false, false, false⟩, ⟨20, false, false, false⟩, ⟨44, false, false, false⟩, ⟨20, false, false, false⟩, ⟨20, false, false, false⟩])
    (by decide +kernel)
    (ss := [9, 44, 42, 20, 44, 20, 20, 31].map fun k => ⟨k, false, false, false⟩) (by decide +kernel)
    (by
      rw [hd]
      simp [PoleFreeTemps, PoleFreeTerms, PoleFree, bivExpTemps, storeTerms, storedTerm, opVal, storedMon, Rat32.toQ, Rat32.one, hn', hr2]
      exact fun h => hn (by linarith))
    (by simp [PoleFree, bivExpResult, Rat32.one])
  rw [hr, hc, hd] at h6
  refine ⟨xs, vs, ?_, ?_, h4, h5, ?_⟩
  · rw [bind_assoc] at h2
    exact h2
  · rw [bind_assoc] at h3
    exact h3
  intro s p t i
  have hsq : c ^ 2 + (e ^ 2 + f ^ 2) = s ^ 2 := (Real.sq_sqrt (by positivity)).symm
  have hs0 : 0 ≤ s := Real.sqrt_nonneg _
  have hsn : s ≠ 0 := hn'
  have hp0 : 0 ≤ p := by positivity
  have ht0 : 0 ≤ t := by positivity
  have ha : |(-1 : ℝ) / 2| = 1 / 2 := by rw [abs_div, abs_neg, abs_one, abs_two]
  have hS : Real.sqrt (c ^ 2 + (e ^ 2 + f ^ 2)) = s := rfl
  obtain ⟨M, hM⟩ : ∃ M, M = storeTemps majorantTerm (([a, b, c, d, e, f, 0, 0, 0, 0, 0, 0, 0, 0, 0, 0, 0, 0, 0, 0, 0, 0, 0, 0] : List ℝ).map fun x => |x|)
    bivExpTemps := ⟨_, rfl⟩
  rw [← hM] at h6
  simp [bivExpTemps, storeTemps, storeTerms, majorantTerm, opMajorant, majorantMon, Rat32.toQ, Rat32.one] at hM
  rw [ha, hS, hsq] at hM
  have bound : ∀ {k : Nat} {y B N : ℝ}, |y| ≤ gam u (k + 0) * (|1| * B) → k ≤ 44 → 0 ≤ N → B = N → |y| ≤ gam u 44 * N := by
    rintro k y B N h hk h0' rfl
    rw [abs_one, one_mul] at h
    exact h.trans (mul_le_mul_of_nonneg_right (gam_mono h0 h1 hk) h0')
  match i with
  | 0 =>
    refine bound (h6 0 _ _ rfl rfl).2 (by decide) (show 0 ≤ 1 + s by positivity) ?_
    simp [hM, majorantTerm, opMajorant, majorantMon, Rat32.toQ, Rat32.one]
  | 1 =>
    refine bound (h6 1 _ _ rfl rfl).2 (by decide) (show 0 ≤ |a| + |f| * t by positivity) ?_
    simp [hM, majorantTerm, opMajorant, majorantMon, Rat32.toQ, Rat32.one, t, p, abs_mul]
    field_simp
    ring
  | 2 =>
    refine bound (h6 2 _ _ rfl rfl).2 (by decide) (show 0 ≤ |b| + |e| * t by positivity) ?_
    simp [hM, majorantTerm, opMajorant, majorantMon, Rat32.toQ, Rat32.one, t, p, abs_mul]
    field_simp
    ring
  | 3 =>
    refine bound (h6 3 _ _ rfl rfl).2 (by decide) (abs_nonneg c) ?_
    simp [hM, majorantTerm, opMajorant, majorantMon, Rat32.toQ, Rat32.one]
    field_simp
  | 4 =>
    refine bound (h6 4 _ _ rfl rfl).2 (by decide) (show 0 ≤ |d| + |c| * t by positivity) ?_
    simp [hM, majorantTerm, opMajorant, majorantMon, Rat32.toQ, Rat32.one, t, p, abs_mul]
    field_simp
    ring
  | 5 =>
    refine bound (h6 5 _ _ rfl rfl).2 (by decide) (abs_nonneg e) ?_
    simp [hM, majorantTerm, opMajorant, majorantMon, Rat32.toQ, Rat32.one]
    field_simp
  | 6 =>
    refine bound (h6 6 _ _ rfl rfl).2 (by decide) (abs_nonneg f) ?_
    simp [hM, majorantTerm, opMajorant, majorantMon, Rat32.toQ, Rat32.one]
    field_simp
  | 7 =>
    refine bound (h6 7 _ _ rfl rfl).2 (by decide) hp0 ?_
    simp [hM, majorantTerm, opMajorant, majorantMon, Rat32.toQ, Rat32.one, p, abs_mul]
    field_simp
    ring
  | i + 8 =>
    rw [List.getD_eq_default _ _ (by rw [h5]; exact Nat.le_add_left _ _), List.getD_eq_default _ _ (by rw [h4]; exact Nat.le_add_left _ _)]
    simp

end

/-- The hypotheses hold in single precision for the bivector of length 3. -/
example : ∃ w x y z, (binaryArith ℝ 24).expOf vgaMetric (binaryEnv 24) (bivArg3 [1, 2, -2]) = ok ⟨[0, 3, 5, 6], [w, x, y, z]⟩ ∧
    |w - Real.cos 3| ≤ gam ((2 : ℝ)⁻¹ ^ 24) 9 * 4 ∧ |z - -2 * (Real.sin 3 / 3)| ≤ gam ((2 : ℝ)⁻¹ ^ 24) 20 * 2 := by
  obtain ⟨w, x, y, z, h, h1, -, -, h2⟩ := C57_exp_space (u := (2 : ℝ)⁻¹ ^ 24) (by positivity) (by norm_num) (C57_binary 24) (binary_roundedFns 24)
    1 2 (-2) (by norm_num)
  have : Real.sqrt (1 ^ 2 + (2 ^ 2 + (-2) ^ 2)) = 3 := by
    rw [show (1 : ℝ) ^ 2 + (2 ^ 2 + (-2) ^ 2) = 3 ^ 2 by norm_num]
    exact Real.sqrt_sq (by norm_num)
  rw [this] at h1 h2
  refine ⟨w, x, y, z, h, by norm_num at h1 ⊢; exact h1, ?_⟩
  rw [abs_neg, abs_two] at h2
  exact h2

/-- The hypotheses hold in double precision for the bivector of a screw. -/
example := C57_exp_biv (u := (2 : ℝ)⁻¹ ^ 53) (by positivity) (by norm_num) (C57_binary 53) realEnv_fns (binary_roundedFns 53) 1 2 3 4 5 6 (by norm_num)

end Gal
