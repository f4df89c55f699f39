import Verif.Props.RoundedExp
import Verif.Props.RoundedUnit

/-!
# Property C65 in formats of IEEE 754, with overflow and underflow
-/

namespace Gal

open Out Filter Topology

/-- Rounding in a format with gradual underflow, as long as nothing overflows. -/
theorem roundIeee_error (p : Nat) (emin emax : Int) (inf x : ℝ) (h : |x| + ((2 : ℝ)⁻¹ ^ p * |x| + 2 ^ (emin - 1)) < 2 ^ emax) :
    |roundIeee p emin emax inf x - x| ≤ (2 : ℝ)⁻¹ ^ p * |x| + 2 ^ (emin - 1) := by
  unfold roundIeee
  set e : Int := max (Int.log 2 |x| + 1 - p) emin with he
  have hp : (0 : ℝ) < 2 ^ e := zpow_pos (by norm_num) _
  have hm : (0 : ℝ) < 2 ^ (emin - 1) := zpow_pos (by norm_num) _
  have h1 := nearestEven_error (x / 2 ^ e)
  have h2 : (nearestEven (x / 2 ^ e) : ℝ) * 2 ^ e - x = -((x / 2 ^ e - nearestEven (x / 2 ^ e)) * 2 ^ e) := by
    field_simp
    ring
  have key : |(nearestEven (x / 2 ^ e) : ℝ) * 2 ^ e - x| ≤ (2 : ℝ)⁻¹ ^ p * |x| + 2 ^ (emin - 1) := by
    rw [h2, abs_neg, abs_mul, abs_of_pos hp]
    rcases eq_or_ne x 0 with rfl | hx
    · simp [nearestEven, hm.le]
    refine (mul_le_mul_of_nonneg_right h1 hp.le).trans ?_
    rcases max_cases (Int.log 2 |x| + 1 - p) emin with ⟨h3, _⟩ | ⟨h3, _⟩
    · have h4 : (2 : ℝ) ^ Int.log 2 |x| ≤ |x| := by
        have := Int.zpow_log_le_self (b := 2) (r := |x|) (by norm_num) (abs_pos.2 hx)
        exact_mod_cast this
      have h5 : (2 : ℝ) ^ e = 2 ^ Int.log 2 |x| * 2 * 2⁻¹ ^ p := by
        rw [he, h3, zpow_sub₀ (by norm_num), zpow_add₀ (by norm_num), zpow_one, zpow_natCast, div_eq_mul_inv, inv_pow]
      calc 1 / 2 * (2 : ℝ) ^ e = 2⁻¹ ^ p * 2 ^ Int.log 2 |x| := by rw [h5]; ring
        _ ≤ 2⁻¹ ^ p * |x| := mul_le_mul_of_nonneg_left h4 (by positivity)
        _ ≤ _ := le_add_of_nonneg_right hm.le
    · have h5 : (2 : ℝ) ^ e = 2 * 2 ^ (emin - 1) := by
        rw [he, h3, zpow_sub₀ (by norm_num), zpow_one]
        ring
      rw [h5, ← mul_assoc, one_div, inv_mul_cancel₀ (by norm_num), one_mul]
      exact le_add_of_nonneg_left (by positivity)
  have hr : |(nearestEven (x / 2 ^ e) : ℝ) * 2 ^ e| < 2 ^ emax := by
    have := abs_sub_abs_le_abs_sub ((nearestEven (x / 2 ^ e) : ℝ) * 2 ^ e) x
    linarith
  dsimp only
  rw [if_pos hr]
  exact key

/-- In the normal range the formats of IEEE 754 round like the arithmetic of C57. -/
theorem roundIeee_normal (p : Nat) (emin emax : Int) (inf x : ℝ) (h1 : (2 : ℝ) ^ (emin + p - 1) ≤ |x|) (h2 : |roundBits p x| < 2 ^ emax) :
    roundIeee p emin emax inf x = roundBits p x := by
  have hx : 0 < |x| := lt_of_lt_of_le (zpow_pos (by norm_num) _) h1
  have h3 : emin + p - 1 ≤ Int.log 2 |x| := by
    rw [← Int.zpow_le_iff_le_log (by norm_num) hx]
    exact_mod_cast h1
  unfold roundIeee roundBits at *
  dsimp only
  rw [max_eq_left (by omega), if_pos h2]

section formats
variable {ι : Type} {l : Filter ι} {p : ι → Nat} {emin emax : ι → Int} {inf : ι → ℝ}

/-- Rounded numbers in a bounded range, in formats with more and more digits and larger and larger exponents. -/
theorem ieee_step (h1 : ∀ k, emin k ≤ 1 - p k) (h2 : Tendsto emax l atTop) (B : ℝ) :
    ∃ C, ∀ᶠ k in l, ∀ z, |z| ≤ B → |roundIeee (p k) (emin k) (emax k) (inf k) z - z| ≤ C * (2 : ℝ)⁻¹ ^ p k := by
  refine ⟨B + 1, ?_⟩
  obtain ⟨N, hN⟩ := pow_unbounded_of_one_lt (B + (B + 1)) (one_lt_two : (1 : ℝ) < 2)
  filter_upwards [h2.eventually_ge_atTop (N : Int)] with k hk z hz
  replace hk : B + (B + 1) < (2 : ℝ) ^ emax k := by
    refine hN.trans_le ?_
    rw [← zpow_natCast]
    exact zpow_le_zpow_right₀ (by norm_num) hk
  have hB : 0 ≤ B := (abs_nonneg z).trans hz
  have h4 : (2 : ℝ) ^ (emin k - 1) ≤ 2⁻¹ ^ p k := by
    rw [inv_pow, ← zpow_natCast, ← zpow_neg]
    exact zpow_le_zpow_right₀ (by norm_num) (by have := h1 k; omega)
  have h5 : (2 : ℝ)⁻¹ ^ p k ≤ 1 := pow_le_one₀ (by norm_num) (by norm_num)
  have h6 : (2 : ℝ)⁻¹ ^ p k * |z| + 2 ^ (emin k - 1) ≤ (B + 1) * 2⁻¹ ^ p k := by
    rw [add_mul, one_mul, mul_comm B]
    exact add_le_add (mul_le_mul_of_nonneg_left hz (by positivity)) h4
  refine (roundIeee_error _ _ _ _ _ (lt_of_le_of_lt (add_le_add hz (h6.trans ?_)) hk)).trans h6
  exact mul_le_of_le_one_right (by linarith) h5

/-- **C65 (IEEE 754)**: the formats of IEEE 754 with more and more digits and a larger and larger range get better and better, whatever an overflow or a
division by zero returns. -/
theorem C65_ieee (hp : Tendsto p l atTop) (h1 : ∀ k, emin k ≤ 1 - p k) (h2 : Tendsto emax l atTop) :
    Improving l (fun k => ieeeArith (p k) (emin k) (emax k) (inf k)) fun k => (2 : ℝ)⁻¹ ^ p k where
  nonneg _ := by positivity
  small := tendsto_half.comp hp
  add B := (ieee_step h1 h2 B).imp fun C h => h.mono fun k hk x y => hk _
  mul B := (ieee_step h1 h2 B).imp fun C h => h.mono fun k hk x y => hk _
  div B := (ieee_step h1 h2 B).imp fun C h => h.mono fun k hk x y hy hb => by
    simp only [ieeeArith, if_neg hy]
    exact hk _ hb
  int n := (ieee_step h1 h2 |(n : ℝ)|).imp fun C h => h.mono fun k hk => hk _ le_rfl

/-- The environment of a format of IEEE 754 with correctly rounded functions. -/
noncomputable def ieeeEnv (p : Nat) (emin emax : Int) (inf : ℝ) : Env ℝ :=
  ⟨[], [], fun _ _ _ => 0, fun o x => roundIeee p emin emax inf (realEnv.fn o x)⟩

/-- **C65 (exponential, IEEE 754)**: `exp` of a line whose direction is not zero, in formats of IEEE 754 with correctly rounded functions and inputs: the
error of every coefficient is at most a multiple of `2⁻ᵖ`, from some format on. -/
theorem C65_exp_ieee (hp : Tendsto p l atTop) (h1 : ∀ k, emin k ≤ 1 - p k) (h2 : Tendsto emax l atTop) {a b c d e f : ℝ}
    (h0 : a * a + b * b + c * c ≠ 0) :
    ∃ (ys : ι → List ℝ) (r : Entity ℝ) (x y : Pga ℝ),
      (∀ k, (ieeeArith (p k) (emin k) (emax k) (inf k)).computeExp (ieeeEnv (p k) (emin k) (emax k) (inf k))
        (lineArg ([a, b, c, d, e, f].map (roundIeee (p k) (emin k) (emax k) (inf k)))) = ok ⟨motorElements, ys k⟩) ∧
      ListTends (Rate l fun k => (2 : ℝ)⁻¹ ^ p k) ys r.data ∧ r.elements = motorElements ∧ r.Denotes 4 (Metric.sq pgaMetric) y ∧
      (lineArg [a, b, c, d, e, f]).Denotes 4 (Metric.sq pgaMetric) 0 x ∧ IsExp x y := by
  have hA := C65_ieee (inf := inf) hp h1 h2
  have hr : ∀ x : ℝ, Rate l (fun k => (2 : ℝ)⁻¹ ^ p k) (fun k => roundIeee (p k) (emin k) (emax k) (inf k) x) x := fun x =>
    (ieee_step h1 h2 |x|).imp fun C h => h.mono fun k hk => hk _ le_rfl
  have hg : ∀ {g : ℝ → ℝ} {x : ℝ}, DifferentiableAt ℝ g x →
      TendsAt (Rate l fun k => (2 : ℝ)⁻¹ ^ p k) (fun k t => roundIeee (p k) (emin k) (emax k) (inf k) (g t)) g x := fun hg =>
    rate_fn hA.small hA.nonneg hg fun B => (ieee_step h1 h2 B).imp fun C h => h.mono fun k hk y => hk _
  refine C65_exp_rate (Es := fun k => ieeeEnv (p k) (emin k) (emax k) (inf k)) hA h0 ?_ (fun _ => rfl)
    (fun x hx => hg (Real.hasDerivAt_sqrt hx.ne').differentiableAt) (fun x => hg Real.differentiableAt_sin) fun x => hg Real.differentiableAt_cos
  exact ⟨fun _ => rfl, fun j => match j with
    | 0 => hr a
    | 1 => hr b
    | 2 => hr c
    | 3 => hr d
    | 4 => hr e
    | 5 => hr f
    | _ + 6 => (near_rate hA).const 0⟩

end formats

/-- The hypotheses are met: formats with `n` digits and exponents up to `n`. -/
example : Tendsto (fun n : Nat => n) atTop atTop ∧ (∀ n : Nat, (1 : Int) - n ≤ 1 - n) ∧ Tendsto (fun n : Nat => (n : Int)) atTop atTop :=
  ⟨tendsto_id, fun _ => le_rfl, tendsto_natCast_atTop_atTop⟩

/-- `roundIeee_normal` and `roundIeee_error` apply to one in single precision. -/
example (inf : ℝ) : roundIeee 24 (-149) 128 inf 1 = 1 ∧ |roundIeee 24 (-149) 128 inf 1 - 1| ≤ (2 : ℝ)⁻¹ ^ 24 * |1| + 2 ^ ((-149 : Int) - 1) := by
  have h1 : roundBits 24 (1 : ℝ) = 1 := by
    unfold roundBits nearestEven
    rw [abs_one, Int.log_one_right]
    norm_num
  refine ⟨?_, roundIeee_error _ _ _ _ _ ?_⟩
  · rw [roundIeee_normal, h1]
    · rw [abs_one]; norm_num
    · rw [h1, abs_one]; norm_num
  · rw [abs_one]; norm_num

end Gal
