import Verif.Props.RoundedIeee
import Verif.Spec.Ieee

/-!
# Property C65: what rounding in a format of IEEE 754 returns

The function `roundIeee` used in the theorems about IEEE 754 returns the nearest number of the format, and overflows where the standard says.
-/

namespace Gal

/-- Rounding to the nearest integer, ties to even. -/
theorem nearestEven_spec (y : ℝ) : |y - nearestEven y| ≤ 1 / 2 ∧ (|y - nearestEven y| = 1 / 2 → nearestEven y % 2 = 0) := by
  refine ⟨nearestEven_error y, ?_⟩
  have hf := Int.fract_nonneg y
  have hf1 := Int.fract_lt_one y
  have hy := Int.floor_add_fract y
  unfold nearestEven
  split
  · next h => exact fun _ => h.2
  · next h =>
    intro h1
    rw [abs_sub_round_eq_min] at h1
    have h2 : Int.fract y = 1 / 2 := by
      rcases min_cases (Int.fract y) (1 - Int.fract y) with ⟨h3, _⟩ | ⟨h3, _⟩ <;> rw [h3] at h1 <;> linarith
    have h3 : ¬ ⌊y⌋ % 2 = 0 := fun h4 => h ⟨by rw [← h2]; rfl, h4⟩
    have h4 : round y = ⌊y⌋ + 1 := by
      rw [round_eq, Int.floor_eq_iff]
      push_cast
      constructor <;> linarith
    omega

/-- Only one integer has this property. -/
theorem nearestEven_unique {y : ℝ} {n : Int} (h1 : |y - n| ≤ 1 / 2) (h2 : |y - n| = 1 / 2 → n % 2 = 0) : nearestEven y = n := by
  obtain ⟨h3, h4⟩ := nearestEven_spec y
  generalize nearestEven y = k at h3 h4
  obtain ⟨a1, a2⟩ := abs_le.1 h1
  obtain ⟨b1, b2⟩ := abs_le.1 h3
  have c1 : (k : ℝ) ≤ n + 1 := by linarith
  have c2 : (n : ℝ) ≤ k + 1 := by linarith
  have d1 : k ≤ n + 1 := by exact_mod_cast c1
  have d2 : n ≤ k + 1 := by exact_mod_cast c2
  rcases (show k = n ∨ k = n + 1 ∨ k = n - 1 by omega) with h | h | h
  · exact h
  · have e : (k : ℝ) = n + 1 := by rw [h]; push_cast; ring
    have e1 : y - n = 1 / 2 := by linarith
    have e2 : y - k = -(1 / 2) := by linarith
    rw [e1] at h2
    rw [e2] at h4
    have := h2 (by norm_num)
    have := h4 (by norm_num)
    omega
  · have e : (k : ℝ) = n - 1 := by rw [h]; push_cast; ring
    have e1 : y - n = -(1 / 2) := by linarith
    have e2 : y - k = 1 / 2 := by linarith
    rw [e1] at h2
    rw [e2] at h4
    have := h2 (by norm_num)
    have := h4 (by norm_num)
    omega

theorem nearestEven_neg (y : ℝ) : nearestEven (-y) = -nearestEven y := by
  obtain ⟨h3, h4⟩ := nearestEven_spec y
  have e : |-y - ((-nearestEven y : Int) : ℝ)| = |y - nearestEven y| := by
    rw [← abs_neg]
    congr 1
    push_cast
    ring
  refine nearestEven_unique (e.trans_le h3) fun h => ?_
  have := h4 (e.symm.trans h)
  omega

/-- No integer is nearer. -/
theorem nearestEven_le (y : ℝ) (n : Int) : |nearestEven y - y| ≤ |n - y| := by
  rw [abs_sub_comm _ y, abs_sub_comm _ y]
  unfold nearestEven
  split
  · next h =>
    refine le_trans (le_of_eq ?_) (round_le y n)
    have h1 : Int.fract y = 1 / 2 := h.1
    have h2 : y - (⌊y⌋ : ℝ) = 1 / 2 := h.1
    rw [abs_sub_round_eq_min, h2, h1]
    norm_num
  · exact round_le y n

theorem log_bounds {x : ℝ} (hx : x ≠ 0) : (2 : ℝ) ^ Int.log 2 |x| ≤ |x| ∧ |x| < 2 ^ (Int.log 2 |x| + 1) := by
  have h1 := Int.zpow_log_le_self (b := 2) (r := |x|) (by norm_num) (abs_pos.2 hx)
  have h2 := Int.lt_zpow_succ_log_self (b := 2) (by norm_num) |x|
  exact ⟨by exact_mod_cast h1, by exact_mod_cast h2⟩

variable {p : Nat} {emin emax : Int} {inf x : ℝ}

/-- The rounded number, without regard to overflow. -/
noncomputable def ieeeRaw (p : Nat) (emin : Int) (x : ℝ) : ℝ :=
  nearestEven (x / (2 : ℝ) ^ max (Int.log 2 |x| + 1 - p) emin) * (2 : ℝ) ^ max (Int.log 2 |x| + 1 - p) emin

theorem ieeeRaw_number (hp : 1 ≤ p) (hr : |ieeeRaw p emin x| < 2 ^ emax) : IeeeNumber p emin emax (ieeeRaw p emin x) := by
  unfold ieeeRaw at *
  set q : Int := max (Int.log 2 |x| + 1 - p) emin with hq
  have hpos : (0 : ℝ) < 2 ^ q := zpow_pos (by norm_num) _
  have hn : |nearestEven (x / 2 ^ q)| ≤ 2 ^ p := by
    rcases eq_or_ne x 0 with rfl | hx
    · simp [nearestEven]
    have h1 : |x / 2 ^ q| ≤ 2 ^ p := by
      rw [abs_div, abs_of_pos hpos, div_le_iff₀ hpos, ← zpow_natCast, ← zpow_add₀ (by norm_num)]
      exact (log_bounds hx).2.le.trans (zpow_le_zpow_right₀ (by norm_num) (by omega))
    have h2 : ∀ s : Int, |((s * 2 ^ p : Int) : ℝ)| = |(s : ℝ)| * 2 ^ p := fun s => by push_cast; rw [abs_mul, abs_of_pos (by positivity : (0:ℝ) < 2 ^ p)]
    have h3 := abs_le.1 h1
    have h4 := nearestEven_le (x / 2 ^ q)
    rw [abs_le]
    constructor
    · by_contra hc
      push Not at hc
      have h5 := h4 (-2 ^ p)
      have h6 : (nearestEven (x / 2 ^ q) : ℝ) < -2 ^ p := by exact_mod_cast hc
      push_cast at h5
      rw [abs_of_nonpos (by linarith), abs_of_nonpos (by linarith)] at h5
      linarith
    · by_contra hc
      push Not at hc
      have h5 := h4 (2 ^ p)
      have h6 : (2 : ℝ) ^ p < nearestEven (x / 2 ^ q) := by exact_mod_cast hc
      push_cast at h5
      rw [abs_of_nonneg (by linarith), abs_of_nonneg (by linarith)] at h5
      linarith
  rcases hn.lt_or_eq with h | h
  · exact ⟨_, q, h, le_max_right _ _, rfl, hr⟩
  · obtain ⟨p, rfl⟩ : ∃ p', p = p' + 1 := ⟨p - 1, by omega⟩
    have hd : (2 : Int) ∣ nearestEven (x / 2 ^ q) := by
      rw [← dvd_abs, h, pow_succ]
      exact dvd_mul_left _ _
    obtain ⟨m, hm⟩ := hd
    refine ⟨m, q + 1, ?_, by omega, ?_, hr⟩
    · rw [hm, abs_mul, abs_two, pow_succ] at h
      rw [pow_succ]
      have : (0 : Int) < 2 ^ p := by positivity
      omega
    · rw [hm, zpow_add₀ (by norm_num)]
      push_cast
      ring

theorem ieeeRaw_nearest (hp : 1 ≤ p) {y : ℝ} (hy : IeeeNumber p emin emax y) : |ieeeRaw p emin x - x| ≤ |y - x| := by
  unfold ieeeRaw
  set q : Int := max (Int.log 2 |x| + 1 - p) emin with hq
  have hpos : (0 : ℝ) < 2 ^ q := zpow_pos (by norm_num) _
  have key : ∀ n : Int, |nearestEven (x / 2 ^ q) * 2 ^ q - x| ≤ |n * 2 ^ q - x| := fun n => by
    have e : ∀ k : Int, |(k : ℝ) * 2 ^ q - x| = |k - x / 2 ^ q| * 2 ^ q := fun k => by
      rw [← abs_of_pos hpos, ← abs_mul, abs_of_pos hpos, sub_mul, div_mul_cancel₀ _ hpos.ne']
    rw [e, e]
    exact mul_le_mul_of_nonneg_right (nearestEven_le _ n) hpos.le
  obtain ⟨m, e, hm, he, rfl, hy⟩ := hy
  rcases le_or_gt q e with h | h
  · obtain ⟨d, hd⟩ := Int.eq_ofNat_of_zero_le (Int.sub_nonneg.2 h)
    have : (m : ℝ) * 2 ^ e = ((m * 2 ^ d : Int) : ℝ) * 2 ^ q := by
      rw [show e = d + q by omega, zpow_add₀ (by norm_num), zpow_natCast]
      push_cast
      ring
    rw [this]
    exact key _
  · have hq1 : q = Int.log 2 |x| + 1 - p := by
      rcases max_cases (Int.log 2 |x| + 1 - p) emin with ⟨h3, _⟩ | ⟨h3, _⟩
      · exact h3
      · omega
    rcases eq_or_ne x 0 with rfl | hx
    · refine (key 0).trans ?_
      rw [Int.cast_zero, zero_mul, sub_self, abs_zero]
      exact abs_nonneg _
    have h1 := (log_bounds hx).1
    have h2 : |(m : ℝ) * 2 ^ e| ≤ 2 ^ Int.log 2 |x| := by
      rw [abs_mul, abs_of_pos (zpow_pos (by norm_num : (0 : ℝ) < 2) e)]
      have h3 : |(m : ℝ)| ≤ 2 ^ p := by exact_mod_cast hm.le
      refine (mul_le_mul_of_nonneg_right h3 (zpow_pos (by norm_num : (0 : ℝ) < 2) e).le).trans ?_
      rw [← zpow_natCast, ← zpow_add₀ (by norm_num)]
      exact zpow_le_zpow_right₀ (by norm_num) (by omega)
    have h4 : (2 : ℝ) ^ Int.log 2 |x| = ((2 ^ (p - 1) : Int) : ℝ) * 2 ^ q := by
      push_cast
      rw [← zpow_natCast, ← zpow_add₀ (by norm_num), hq1]
      congr 1
      omega
    rcases lt_or_gt_of_ne hx with hx | hx
    · have h5 := key (-2 ^ (p - 1))
      refine h5.trans ?_
      have h6 : (((-2 ^ (p - 1) : Int)) : ℝ) * 2 ^ q = -2 ^ Int.log 2 |x| := by rw [h4]; push_cast; ring
      rw [h6]
      rw [abs_of_neg hx] at h1
      have h7 := (abs_le.1 h2).1
      rw [abs_of_neg hx] at *
      rw [abs_of_nonneg (by linarith), abs_of_nonneg (by linarith)]
      linarith
    · have h5 := key (2 ^ (p - 1))
      refine h5.trans ?_
      rw [← h4]
      rw [abs_of_pos hx] at *
      have h7 := (abs_le.1 h2).2
      rw [abs_of_nonpos (by linarith), abs_of_nonpos (by linarith)]
      linarith

/-- **C65 (rounding to nearest)**: unless an operation overflows, the rounded number is a number of the format, and no number of the format is
nearer to the exact result. -/
theorem C65_ieee_nearest (hp : 1 ≤ p) (h : roundIeee p emin emax inf x ≠ inf) :
    IeeeNumber p emin emax (roundIeee p emin emax inf x) ∧
      ∀ y, IeeeNumber p emin emax y → |roundIeee p emin emax inf x - x| ≤ |y - x| := by
  have e : roundIeee p emin emax inf x = if |ieeeRaw p emin x| < 2 ^ emax then ieeeRaw p emin x else inf := rfl
  rw [e] at h ⊢
  split at h
  · next hr =>
    rw [if_pos hr]
    exact ⟨ieeeRaw_number hp hr, fun y hy => ieeeRaw_nearest hp hy⟩
  · exact absurd rfl h

/-- **C65 (exact results)**: numbers of the format are not changed by rounding, whatever an overflow returns. -/
theorem C65_ieee_exact (hp : 1 ≤ p) (hx : IeeeNumber p emin emax x) : roundIeee p emin emax inf x = x := by
  have h := ieeeRaw_nearest (x := x) hp hx
  rw [sub_self, abs_zero] at h
  have h1 : ieeeRaw p emin x = x := sub_eq_zero.1 (abs_eq_zero.1 (le_antisymm h (abs_nonneg _)))
  have e : roundIeee p emin emax inf x = if |ieeeRaw p emin x| < 2 ^ emax then ieeeRaw p emin x else inf := rfl
  obtain ⟨_, _, _, _, _, hb⟩ := hx
  rw [e, h1, if_pos hb]

theorem ieeeRaw_neg : ieeeRaw p emin (-x) = -ieeeRaw p emin x := by
  unfold ieeeRaw
  rw [abs_neg, neg_div, nearestEven_neg]
  push_cast
  ring

/-- The largest number of the format. -/
theorem ieee_max (hp : 1 ≤ p) (hE : emin + p ≤ emax) : IeeeNumber p emin emax (2 ^ emax - 2 ^ (emax - p)) := by
  have e : (2 : ℝ) ^ emax = 2 ^ p * 2 ^ (emax - p) := by
    rw [← zpow_natCast, ← zpow_add₀ (by norm_num)]
    congr 1
    omega
  have h1 : (0 : ℝ) < 2 ^ (emax - p) := zpow_pos (by norm_num) _
  have h2 : (2 : ℝ) ≤ 2 ^ p := by
    calc (2 : ℝ) = 2 ^ 1 := (pow_one _).symm
      _ ≤ 2 ^ p := pow_le_pow_right₀ (by norm_num) hp
  refine ⟨2 ^ p - 1, emax - p, ?_, by omega, ?_, ?_⟩
  · have : (0 : Int) < 2 ^ p := by positivity
    rw [abs_of_nonneg (by omega)]
    omega
  · rw [e]
    push_cast
    ring
  · rw [abs_of_nonneg (by rw [e]; nlinarith)]
    linarith

theorem ieeeRaw_big (hp : 1 ≤ p) (hE : emin + p ≤ emax) (hx : (2 : ℝ) ^ emax - 2 ^ (emax - p - 1) ≤ x) : 2 ^ emax ≤ ieeeRaw p emin x := by
  have h0 : (0 : ℝ) < 2 ^ (emax - p - 1) := zpow_pos (by norm_num) _
  have h1 : (2 : ℝ) ^ (emax - p - 1) ≤ 2 ^ (emax - 1) := zpow_le_zpow_right₀ (by norm_num) (by omega)
  have h2 : (2 : ℝ) ^ emax = 2 * 2 ^ (emax - 1) := by
    rw [zpow_sub₀ (by norm_num), zpow_one]
    ring
  have h3 : (0 : ℝ) < 2 ^ (emax - 1) := zpow_pos (by norm_num) _
  have hx1 : 2 ^ (emax - 1) ≤ x := by linarith
  have hx0 : 0 < x := by linarith
  have h4 : emax - 1 ≤ Int.log 2 |x| := by
    rw [← Int.zpow_le_iff_le_log (by norm_num) (abs_pos.2 hx0.ne'), abs_of_pos hx0]
    exact_mod_cast hx1
  unfold ieeeRaw
  rw [max_eq_left (by omega)]
  obtain ⟨l1, l2⟩ := log_bounds hx0.ne'
  rw [abs_of_pos hx0] at *
  set q : Int := Int.log 2 x + 1 - p with hq
  have hpos : (0 : ℝ) < 2 ^ q := zpow_pos (by norm_num) _
  rcases h4.lt_or_eq with h4 | h4
  · have e : (2 : ℝ) ^ Int.log 2 x = ((2 ^ (p - 1) : Int) : ℝ) * 2 ^ q := by
      push_cast
      rw [← zpow_natCast, ← zpow_add₀ (by norm_num)]
      congr 1
      omega
    have h5 : (2 ^ (p - 1) : Int) ≤ nearestEven (x / 2 ^ q) := by
      by_contra hc
      push Not at hc
      have h6 := nearestEven_le (x / 2 ^ q) (2 ^ (p - 1))
      have h7 : ((2 ^ (p - 1) : Int) : ℝ) ≤ x / 2 ^ q := by rw [le_div_iff₀ hpos, ← e]; exact l1
      have h8 : (nearestEven (x / 2 ^ q) : ℝ) < ((2 ^ (p - 1) : Int) : ℝ) := by exact_mod_cast hc
      rw [abs_of_nonpos (by linarith), abs_of_nonpos (by linarith)] at h6
      linarith
    calc (2 : ℝ) ^ emax ≤ 2 ^ Int.log 2 x := zpow_le_zpow_right₀ (by norm_num) (by omega)
      _ = ((2 ^ (p - 1) : Int) : ℝ) * 2 ^ q := e
      _ ≤ _ := mul_le_mul_of_nonneg_right (by exact_mod_cast h5) hpos.le
  · have e : (2 : ℝ) ^ emax = ((2 ^ p : Int) : ℝ) * 2 ^ q := by
      push_cast
      rw [← zpow_natCast, ← zpow_add₀ (by norm_num)]
      congr 1
      omega
    have e1 : (2 : ℝ) ^ (emax - p - 1) = 1 / 2 * 2 ^ q := by
      rw [show emax - p - 1 = q - 1 by omega, zpow_sub₀ (by norm_num), zpow_one]
      ring
    have e2 : Int.log 2 x + 1 = emax := by omega
    rw [e2] at l2
    have h5 : nearestEven (x / 2 ^ q) = 2 ^ p := by
      have h6 : ((2 ^ p : Int) : ℝ) - 1 / 2 ≤ x / 2 ^ q := by
        rw [le_div_iff₀ hpos, sub_mul, ← e, ← e1]
        exact hx
      have h7 : x / 2 ^ q < ((2 ^ p : Int) : ℝ) := by rw [div_lt_iff₀ hpos, ← e]; exact l2
      refine nearestEven_unique ?_ fun _ => ?_
      · rw [abs_le]
        constructor <;> linarith
      · obtain ⟨k, rfl⟩ : ∃ k, p = k + 1 := ⟨p - 1, by omega⟩
        rw [pow_succ]
        omega
    rw [h5, e]

theorem ieeeRaw_small (hp : 1 ≤ p) (hE : emin + p ≤ emax) (hx : x < (2 : ℝ) ^ emax - 2 ^ (emax - p - 1)) : ieeeRaw p emin x < 2 ^ emax := by
  by_contra hc
  push Not at hc
  have h := ieeeRaw_nearest (x := x) hp (ieee_max hp hE)
  have h0 : (0 : ℝ) < 2 ^ (emax - p - 1) := zpow_pos (by norm_num) _
  have e : (2 : ℝ) ^ (emax - p) = 2 * 2 ^ (emax - p - 1) := by
    rw [zpow_sub₀ (by norm_num) (emax - p), zpow_one]
    ring
  rw [e, abs_of_pos (by linarith)] at h
  rcases abs_cases ((2 : ℝ) ^ emax - 2 * 2 ^ (emax - p - 1) - x) with ⟨h1, _⟩ | ⟨h1, _⟩ <;> rw [h1] at h <;> linarith

/-- **C65 (overflow)**: an operation overflows exactly if the exact result is at least the largest number of the format plus half of the distance to
the next. -/
theorem C65_ieee_overflow (hp : 1 ≤ p) (hE : emin + p ≤ emax) :
    (∀ inf, roundIeee p emin emax inf x = inf) ↔ (2 : ℝ) ^ emax - 2 ^ (emax - p - 1) ≤ |x| := by
  have e : ∀ inf, roundIeee p emin emax inf x = if |ieeeRaw p emin x| < 2 ^ emax then ieeeRaw p emin x else inf := fun _ => rfl
  have h1 : |ieeeRaw p emin x| < 2 ^ emax ↔ |x| < (2 : ℝ) ^ emax - 2 ^ (emax - p - 1) := by
    constructor
    · intro h
      by_contra hc
      push Not at hc
      rcases abs_cases x with ⟨h2, _⟩ | ⟨h2, _⟩ <;> rw [h2] at hc
      · have := ieeeRaw_big hp hE hc
        linarith [(abs_lt.1 h).2]
      · have := ieeeRaw_big hp hE hc
        rw [ieeeRaw_neg] at this
        linarith [(abs_lt.1 h).1]
    · intro h
      obtain ⟨h2, h3⟩ := abs_lt.1 h
      have h4 := ieeeRaw_small (x := x) hp hE h3
      have h5 := ieeeRaw_small (x := -x) hp hE (by linarith)
      rw [ieeeRaw_neg] at h5
      exact abs_lt.2 ⟨by linarith, h4⟩
  rw [← not_lt, ← h1]
  constructor
  · intro h hc
    have h2 := h (ieeeRaw p emin x + 1)
    rw [e, if_pos hc] at h2
    linarith
  · intro h inf
    rw [e, if_neg h]

/-- The largest numbers of single and double precision, and the hypotheses of the theorems. -/
example : IeeeNumber 24 (-149) 128 (2 ^ (128 : Int) - 2 ^ (104 : Int)) ∧ IeeeNumber 53 (-1074) 1024 (2 ^ (1024 : Int) - 2 ^ (971 : Int)) :=
  ⟨ieee_max (by norm_num) (by norm_num), ieee_max (by norm_num) (by norm_num)⟩

end Gal
