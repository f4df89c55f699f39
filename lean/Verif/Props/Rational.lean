import Verif.Rat32Lemmas
import Mathlib.Data.Rat.Lemmas
import Mathlib.Tactic.NormNum.GCD

/-!
# Properties C01–C04: rational coefficients (numeric.hpp)

Specification side: `toQ`, `WF`, `Lowest` from `Rat32Lemmas` (value in ℚ, documented invariant, lowest terms).
-/

namespace Gal
namespace Rat32

open Out

/-! ## C01: exactness -/

/-- "The two's complement machine can hold this and negate it". -/
def Fits (x : Int) : Prop := i32Min < x ∧ x ≤ i32Max

instance (x : Int) : Decidable (Fits x) := inferInstanceAs (Decidable (_ ∧ _))

theorem Fits.inI32 {x : Int} (h : Fits x) : InI32 x := ⟨by have := h.1; omega, h.2⟩
theorem Fits.ne {x : Int} (h : Fits x) : x ≠ i32Min := by have := h.1; omega

/-- C01 (`operator+`): exact and well formed whenever the intermediates fit and the product of denominators is below
the gate threshold. -/
theorem C01_add (a b : Rat32) (ha : a.WF) (hb : b.WF)
    (h1 : Fits (a.num * b.den)) (h2 : Fits (b.num * a.den)) (h3 : Fits (a.num * b.den + b.num * a.den))
    (hd : a.den * b.den < 1024) :
    ∃ r, add a b = ok r ∧ toQ r = toQ a + toQ b ∧ r.WF := by
  have hp : 0 < a.den * b.den := Int.mul_pos ha.pos hb.pos
  have hdi : InI32 (a.den * b.den) := ⟨by unfold i32Min; omega, by unfold i32Max; omega⟩
  have : ∃ r, add a b = ok r := by
    unfold add
    simp only [chk_of h1.inI32, chk_of h2.inI32, chk_of h3.inI32, chk_of hdi, ok_bind]
    split
    · simp
    · split
      · exact gate_defined_small hp hd h3.ne
      · simp
  obtain ⟨r, hr⟩ := this
  exact ⟨r, hr, add_spec ha hb hr⟩

example : ∃ a b : Rat32, a.WF ∧ b.WF ∧ Fits (a.num * b.den) ∧ Fits (b.num * a.den) ∧
    Fits (a.num * b.den + b.num * a.den) ∧ a.den * b.den < 1024 ∧ a.den ≠ 1 ∧ b.den ≠ 1 :=
  ⟨⟨7, 12⟩, ⟨-5, 18⟩, by decide, by decide, by decide, by decide, by decide, by decide, by decide, by decide⟩

/-- C01 (`operator-`, binary). -/
theorem C01_sub (a b : Rat32) (ha : a.WF) (hb : b.WF) (h0 : Fits b.num)
    (h1 : Fits (a.num * b.den)) (h2 : Fits (b.num * a.den)) (h3 : Fits (a.num * b.den - b.num * a.den))
    (hd : a.den * b.den < 1024) :
    ∃ r, sub a b = ok r ∧ toQ r = toQ a - toQ b ∧ r.WF := by
  have hn : InI32 (-b.num) := by
    unfold Fits at h0; unfold InI32; unfold i32Min i32Max at *; omega
  have hneg : neg b = ok ⟨-b.num, b.den⟩ := by simp [neg, chk_of hn]
  have hb' : (⟨-b.num, b.den⟩ : Rat32).WF := ⟨hn, hb.den, hb.pos⟩
  have h2' : Fits (-b.num * a.den) := by
    have e : -b.num * a.den = -(b.num * a.den) := by ring
    rw [e]; unfold Fits at h2 ⊢; unfold i32Min i32Max at *; omega
  have h3' : Fits (a.num * b.den + -b.num * a.den) := by
    have e : a.num * b.den + -b.num * a.den = a.num * b.den - b.num * a.den := by ring
    rw [e]; exact h3
  obtain ⟨r, hr, -, -⟩ := C01_add a ⟨-b.num, b.den⟩ ha hb' h1 h2' h3' hd
  have hs : sub a b = ok r := by unfold sub; rw [hneg, ok_bind]; exact hr
  exact ⟨r, hs, sub_spec ha hb hs⟩

example : ∃ a b : Rat32, a.WF ∧ b.WF ∧ Fits b.num ∧ Fits (a.num * b.den) ∧ Fits (b.num * a.den) ∧
    Fits (a.num * b.den - b.num * a.den) ∧ a.den * b.den < 1024 :=
  ⟨⟨7, 12⟩, ⟨-5, 18⟩, by decide, by decide, by decide, by decide, by decide, by decide, by decide⟩

/-- C01 (`operator*`, rational by rational). -/
theorem C01_mul (a b : Rat32) (ha : a.WF) (hb : b.WF)
    (h1 : Fits (a.num * b.num)) (hd : a.den * b.den < 1024) :
    ∃ r, mul a b = ok r ∧ toQ r = toQ a * toQ b ∧ r.WF := by
  have hp : 0 < a.den * b.den := Int.mul_pos ha.pos hb.pos
  have hdi : InI32 (a.den * b.den) := ⟨by unfold i32Min; omega, by unfold i32Max; omega⟩
  have : ∃ r, mul a b = ok r := by
    unfold mul
    simp only [chk_of h1.inI32, chk_of hdi, ok_bind]
    split
    · simp
    · split
      · exact gate_defined_small hp hd h1.ne
      · simp
  obtain ⟨r, hr⟩ := this
  exact ⟨r, hr, mul_spec ha hb hr⟩

example : ∃ a b : Rat32, a.WF ∧ b.WF ∧ Fits (a.num * b.num) ∧ a.den * b.den < 1024 ∧ a.den ≠ 1 ∧ b.den ≠ 1 :=
  ⟨⟨7, 12⟩, ⟨-5, 18⟩, by decide, by decide, by decide, by decide, by decide, by decide⟩

/-- C01 (`operator*`, integer by rational): no denominator bound is needed. -/
theorem C01_imul (k : Int) (a : Rat32) (ha : a.WF) (h1 : InI32 (a.num * k)) :
    ∃ r, imul k a = ok r ∧ toQ r = k * toQ a ∧ r.WF := by
  have : ∃ r, imul k a = ok r := by
    unfold imul
    split
    · simp
    · simp [chk_of h1]
  obtain ⟨r, hr⟩ := this
  exact ⟨r, hr, imul_spec ha hr⟩

example : ∃ (k : Int) (a : Rat32), a.WF ∧ InI32 (a.num * k) ∧ k ≠ 0 := ⟨-3, ⟨7, 12⟩, by decide, by decide, by decide⟩

/-- C01 (unary minus). -/
theorem C01_neg (a : Rat32) (ha : a.WF) (h : Fits a.num) :
    ∃ r, neg a = ok r ∧ toQ r = -toQ a ∧ r.WF := by
  have hn : InI32 (-a.num) := by
    unfold Fits at h; unfold InI32; unfold i32Min i32Max at *; omega
  have hr : neg a = ok ⟨-a.num, a.den⟩ := by simp [neg, chk_of hn]
  exact ⟨_, hr, neg_spec ha hr⟩

example : ∃ a : Rat32, a.WF ∧ Fits a.num ∧ a.num ≠ 0 := ⟨⟨7, 12⟩, by decide, by decide, by decide⟩

/-- C01 (`operator/`, rational by non-zero integer). -/
theorem C01_divInt (a : Rat32) (k : Int) (ha : a.WF) (hn : Fits a.num) (hk : k ≠ 0)
    (hd : a.den * k.natAbs < 1024) :
    ∃ r, divInt a k = ok r ∧ toQ r = toQ a / k ∧ r.WF := by
  have hpa := ha.pos
  have hka : 0 < (k.natAbs : Int) := by omega
  have hp : 0 < a.den * k.natAbs := Int.mul_pos hpa hka
  have hkb : (k.natAbs : Int) < 1024 := by nlinarith
  have : ∃ r, divInt a k = ok r := by
    unfold divInt
    split
    · have e : -k = (k.natAbs : Int) := by omega
      have i1 : InI32 (-a.num) := by
        unfold Fits at hn; unfold InI32; unfold i32Min i32Max at *; omega
      have i2 : InI32 (-k) := by unfold InI32 i32Min i32Max; omega
      have i3 : InI32 (a.den * -k) := by rw [e]; unfold InI32 i32Min i32Max; omega
      simp only [chk_of i1, chk_of i2, chk_of i3, ok_bind]
      refine gate_defined_small (r := ⟨-a.num, a.den * -k⟩) (by rw [e]; exact hp) (by rw [e]; exact hd) ?_
      show -a.num ≠ i32Min
      unfold Fits at hn; unfold i32Min i32Max at *; omega
    · have e : k = (k.natAbs : Int) := by omega
      have i3 : InI32 (a.den * k) := by rw [e]; unfold InI32 i32Min i32Max; omega
      simp only [chk_of i3, ok_bind]
      exact gate_defined_small (r := ⟨a.num, a.den * k⟩) (by rw [e]; exact hp) (by rw [e]; exact hd) hn.ne
  obtain ⟨r, hr⟩ := this
  exact ⟨r, hr, divInt_spec ha hk hr⟩

example : ∃ (a : Rat32) (k : Int), a.WF ∧ Fits a.num ∧ k ≠ 0 ∧ a.den * k.natAbs < 1024 :=
  ⟨⟨7, 12⟩, -4, by decide, by decide, by decide, by decide⟩

/-- C01 (`operator/`, rational by non-zero rational; either sign). -/
theorem C01_div (a b : Rat32) (ha : a.WF) (hb : b.WF) (hb0 : b.num ≠ 0)
    (h1 : Fits (a.num * b.den)) (h2 : Fits (b.num * a.den)) (hd : (b.num * a.den).natAbs < 1024) :
    ∃ r, div a b = ok r ∧ toQ r = toQ a / toQ b ∧ r.WF := by
  have hne : b.num * a.den ≠ 0 := mul_ne_zero hb0 (by have := ha.pos; omega)
  have i1 : InI32 (-(a.num * b.den)) := by
    unfold Fits at h1; unfold InI32; unfold i32Min i32Max at *; omega
  have i2 : InI32 (-(b.num * a.den)) := by
    unfold Fits at h2; unfold InI32; unfold i32Min i32Max at *; omega
  have hne1 : -(a.num * b.den) ≠ i32Min := by
    unfold Fits at h1; unfold i32Min i32Max at *; omega
  have : ∃ r, div a b = ok r := by
    unfold div
    simp only [chk_of h1.inI32, chk_of h2.inI32, ok_bind]
    split
    · simp
    · have hc : ∃ c, cabs (b.num * a.den) = ok c := by
        unfold cabs; split
        · exact ⟨_, chk_of i2⟩
        · exact ⟨_, rfl⟩
      obtain ⟨c, hc⟩ := hc
      simp only [hc, ok_bind]
      split
      · split
        · simp only [chk_of i1, chk_of i2, ok_bind]
          exact gate_defined_small (r := ⟨-(a.num * b.den), -(b.num * a.den)⟩)
            (by show 0 < -(b.num * a.den); omega) (by show -(b.num * a.den) < 1024; omega) hne1
        · exact gate_defined_small (r := ⟨a.num * b.den, b.num * a.den⟩)
            (by show 0 < b.num * a.den; omega) (by show b.num * a.den < 1024; omega) h1.ne
      · split
        · simp only [chk_of i1, chk_of i2, ok_bind]; simp
        · simp
  obtain ⟨r, hr⟩ := this
  exact ⟨r, hr, div_spec ha hb hb0 hr⟩

example : ∃ a b : Rat32, a.WF ∧ b.WF ∧ b.num ≠ 0 ∧ Fits (a.num * b.den) ∧ Fits (b.num * a.den) ∧
    (b.num * a.den).natAbs < 1024 :=
  ⟨⟨7, 12⟩, ⟨-5, 18⟩, by decide, by decide, by decide, by decide, by decide, by decide⟩

/-- C01 (`operator*=`): no denominator bound beyond representability. -/
theorem C01_mulAssign (a b : Rat32) (ha : a.WF) (hb : b.WF)
    (h1 : Fits (a.num * b.num)) (hd : Fits (a.den * b.den)) :
    ∃ r, mulAssign a b = ok r ∧ toQ r = toQ a * toQ b ∧ r.WF := by
  have : ∃ r, mulAssign a b = ok r := by
    unfold mulAssign
    simp only [chk_of h1.inI32, chk_of hd.inI32, ok_bind]
    split
    · simp
    · split
      · exact reduce_defined h1.ne hd.ne
      · simp
  obtain ⟨r, hr⟩ := this
  exact ⟨r, hr, mulAssign_spec ha hb hr⟩

example : ∃ a b : Rat32, a.WF ∧ b.WF ∧ Fits (a.num * b.num) ∧ Fits (a.den * b.den) ∧ 1024 ≤ a.den * b.den :=
  ⟨⟨7, 1200⟩, ⟨-5, 1800⟩, by decide, by decide, by decide, by decide, by decide⟩

/-- C01 (`operator+=`): no denominator bound beyond representability. -/
theorem C01_addAssign (a b : Rat32) (ha : a.WF) (hb : b.WF)
    (h1 : Fits (a.num * b.den)) (h2 : Fits (b.num * a.den)) (h3 : Fits (a.num * b.den + b.num * a.den))
    (hd : Fits (a.den * b.den)) :
    ∃ r, addAssign a b = ok r ∧ toQ r = toQ a + toQ b ∧ r.WF := by
  have : ∃ r, addAssign a b = ok r := by
    unfold addAssign
    simp only [chk_of h1.inI32, chk_of h2.inI32, chk_of h3.inI32, chk_of hd.inI32, ok_bind]
    split
    · simp
    · split
      · exact reduce_defined h3.ne hd.ne
      · simp
  obtain ⟨r, hr⟩ := this
  exact ⟨r, hr, addAssign_spec ha hb hr⟩

example : ∃ a b : Rat32, a.WF ∧ b.WF ∧ Fits (a.num * b.den) ∧ Fits (b.num * a.den) ∧
    Fits (a.num * b.den + b.num * a.den) ∧ Fits (a.den * b.den) ∧ 1024 ≤ a.den * b.den :=
  ⟨⟨7, 1200⟩, ⟨-5, 1800⟩, by decide, by decide, by decide, by decide, by decide, by decide, by decide⟩

/-- C01 (`operator/=`), partial: exact and well formed only for a *positive* divisor.  For a negative divisor
`reciprocal` leaves a negative denominator behind, see `C01_divAssign_negative`. -/
theorem C01_divAssign_partial (a b : Rat32) (ha : a.WF) (hb : b.WF) (hb0 : 0 < b.num)
    (h1 : Fits (a.num * b.den)) (hd : Fits (a.den * b.num)) :
    ∃ r, divAssign a b = ok r ∧ toQ r = toQ a / toQ b ∧ r.WF := by
  have hr' : (reciprocal b).WF := ⟨hb.den, hb.num, hb0⟩
  obtain ⟨r, h, e, w⟩ := C01_mulAssign a (reciprocal b) ha hr' h1 hd
  refine ⟨r, h, ?_, w⟩
  rw [e]
  simp only [toQ, reciprocal]
  have h1 := ha.den_ne
  have h2 := hb.den_ne
  have h3 : (b.num : ℚ) ≠ 0 := by exact_mod_cast (by omega : b.num ≠ 0)
  field_simp

example : ∃ a b : Rat32, a.WF ∧ b.WF ∧ 0 < b.num ∧ Fits (a.num * b.den) ∧ Fits (a.den * b.num) :=
  ⟨⟨7, 12⟩, ⟨5, 18⟩, by decide, by decide, by decide, by decide, by decide⟩

/-- The invariant "denominator greater than zero" (numeric.hpp:164) is broken by `/=` with *every* negative divisor
and non-zero dividend. -/
theorem C01_divAssign_negative (a b r : Rat32) (ha : a.WF) (ha0 : a.num ≠ 0) (hb : b.WF) (hb0 : b.num < 0)
    (h : divAssign a b = ok r) : r.den < 0 := by
  have hbp := hb.pos
  unfold divAssign mulAssign reciprocal at h
  simp only [bind_eq_ok, chk_eq_ok] at h
  obtain ⟨n, ⟨hn, rfl⟩, d, ⟨hd, rfl⟩, h⟩ := h
  have hneg : a.den * b.num < 0 := Int.mul_neg_of_pos_of_neg ha.pos hb0
  split at h
  · rename_i h0
    rcases Int.mul_eq_zero.1 h0 with h0 | h0 <;> omega
  · rw [if_neg (by omega)] at h
    simp only [pure_eq, ok_inj] at h
    subst h
    exact hneg

example : ∃ r, divAssign ⟨1, 2⟩ ⟨-3, 1⟩ = ok r := ⟨⟨1, -6⟩, by decide⟩

/-! ## C02: rounding in the gate -/

theorem abs_toQ_sub_lt {n d n' d' : Int} {B : ℚ} (hd : 0 < d) (hd' : 0 < d')
    (h : ((n' * d - n * d').natAbs : ℚ) < B * (d * d')) :
    |((n' : ℚ) / d') - ((n : ℚ) / d)| < B := by
  have h1 : (0 : ℚ) < d := by exact_mod_cast hd
  have h2 : (0 : ℚ) < d' := by exact_mod_cast hd'
  have e : ((n' : ℚ) / d') - ((n : ℚ) / d) = ((n' * d - n * d' : Int) : ℚ) / (d * d') := by
    push_cast; field_simp
  rw [e, abs_div, abs_of_pos (mul_pos h1 h2), div_lt_iff₀ (mul_pos h1 h2)]
  have : (|((n' * d - n * d' : Int) : ℚ)|) = ((n' * d - n * d').natAbs : ℚ) := by
    rw [← Int.cast_abs, Int.abs_eq_natAbs]; rfl
  rw [this]; exact h

/-- C02, true bound: for every representable fraction with positive denominator the gate's answer is within 1/3000 of
its argument, with a positive denominator that is not larger. -/
theorem C02_gate_error (r s : Rat32) (l : Bool) (hr : r.WF) (h : gate r = .val s l) :
    |toQ s - toQ r| < 1 / 3000 ∧ 0 < s.den ∧ s.den ≤ r.den := by
  cases l with
  | false =>
    obtain ⟨e, hp, hle, _⟩ := gate_spec (s := s) h hr.pos
    rw [e]; simp; exact ⟨hp, hle⟩
  | true =>
    unfold gate at h
    have hd0 := hr.pos
    split at h
    · exfalso
      unfold reduce cgcd at h
      split at h
      · cases h
      · rw [ok_bind] at h
        split at h <;> cases h
    · rename_i hbig
      obtain ⟨n, d⟩ := r
      simp only at h hbig hd0
      have hgc : ∃ g, cgcd n d = ok g := by
        unfold cgcd at h ⊢
        split at h
        · cases h
        · rename_i hc; exact ⟨_, by rw [if_neg hc]⟩
      obtain ⟨g, hg⟩ := hgc
      rw [hg, ok_bind] at h
      obtain ⟨_, _, hgcd⟩ := cgcd_eq_ok.1 hg
      split at h
      · cases h
      · rename_i hg1
        have hg1' : Int.gcd n d = 1 := by
          have := Int.gcd_pos_of_ne_zero_right n (show d ≠ 0 by omega)
          omega
        have hn0 : n ≠ 0 := by
          rintro rfl
          simp at hg1'
          omega
        -- `reduce` step gives a fraction equal to the mediant
        have red : ∀ n2 d2 : Int, 0 < d2 → d2 ≤ d →
            (reduce n2 d2 >>= fun r' => Out.val r' true) = Out.val s true →
            toQ s = (n2 : ℚ) / d2 ∧ 0 < s.den ∧ s.den ≤ d := by
          intro n2 d2 h2 h2' hh
          have hd' : ∃ t, reduce n2 d2 = ok t := by
            unfold reduce cgcd at hh ⊢
            split at hh
            · cases hh
            · rename_i hc
              rw [if_neg hc, ok_bind]
              split <;> simp
          obtain ⟨t, ht⟩ := hd'
          rw [ht, ok_bind] at hh
          have hts : t = s := by injection hh
          subst hts
          obtain ⟨e1, e2, e3, _⟩ := reduce_spec ht h2
          exact ⟨e1, e2, by omega⟩
        split at h
        · rename_i hsm
          have : zero = s := by injection h
          subst this
          refine ⟨?_, by decide, by show (1 : Int) ≤ d; omega⟩
          refine abs_toQ_sub_lt (n' := 0) (d' := 1) (B := 1/3000) hd0 (by decide) ?_
          have : ((n.natAbs : Int) : ℚ) * 10000000 < d := by exact_mod_cast hsm
          have e : ((0 * d - n * 1 : Int).natAbs : ℚ) = ((n.natAbs : Int) : ℚ) := by
            simp
          rw [e]; push_cast at this ⊢; linarith [abs_nonneg (n : ℚ)]
        · split at h
          · rename_i hns hmed
            -- denominators are at least 3163 here
            have hd3 : 3163 ≤ d := by
              have : (1 : Int) ≤ n.natAbs := by omega
              by_contra hc
              have : d * d ≤ 3162 * 3162 := by nlinarith
              omega
            have fin : ∀ n2 d2 : Int, 0 < d2 → d2 ≤ d → toQ s = (n2 : ℚ) / d2 → 0 < s.den → s.den ≤ d →
                ((n2 * d - n * d2).natAbs : Int) * 3000 < d * d2 →
                |toQ s - toQ ⟨n, d⟩| < 1 / 3000 ∧ 0 < s.den ∧ s.den ≤ d := by
              intro n2 d2 a1 a2 a3 a4 a5 a6
              refine ⟨?_, a4, a5⟩
              rw [a3]
              refine abs_toQ_sub_lt hd0 a1 ?_
              have : (((n2 * d - n * d2).natAbs : Int) : ℚ) * 3000 < d * d2 := by exact_mod_cast a6
              simp only [Int.cast_natCast] at this
              linarith
            split at h
            · rename_i hodd
              have hnpos : 0 < n := by
                by_contra hc
                have : n.tmod 2 = -((-n) % 2) := by
                  rw [← Int.tmod_eq_emod_of_nonneg (by omega : 0 ≤ -n), Int.neg_tmod, neg_neg]
                omega
              obtain ⟨m, hm⟩ : ∃ m, n = 2 * m + 1 := ⟨n / 2, by
                rw [Int.tmod_eq_emod_of_nonneg (by omega)] at hodd; omega⟩
              have hm0 : 0 ≤ m := by omega
              have e1 : (n - 1).tdiv 2 = m := by
                rw [Int.tdiv_eq_ediv_of_nonneg (by omega)]; omega
              rw [e1] at h
              rcases Int.even_or_odd' d with ⟨k, hk | hk⟩
              · have e2 : d.tdiv 2 = k := by rw [Int.tdiv_eq_ediv_of_nonneg (by omega)]; omega
                rw [e2] at h
                obtain ⟨r1, r2, r3⟩ := red m k (by omega) (by omega) h
                refine fin m k (by omega) (by omega) r1 r2 r3 ?_
                have : m * d - n * k = -k := by rw [hm, hk]; ring
                rw [this]
                have : ((-k).natAbs : Int) = k := by omega
                rw [this, hk]; nlinarith
              · have e2 : d.tdiv 2 = k := by rw [Int.tdiv_eq_ediv_of_nonneg (by omega)]; omega
                rw [e2] at h
                obtain ⟨r1, r2, r3⟩ := red m k (by omega) (by omega) h
                refine fin m k (by omega) (by omega) r1 r2 r3 ?_
                have : m * d - n * k = m - k := by rw [hm, hk]; ring
                rw [this]
                have hk0 : 1581 ≤ k := by omega
                have hmb : m * 20000000 < d * d := by omega
                have b1 : ((m - k).natAbs : Int) ≤ m + k := by omega
                have : (m + k) * 3000 < d * k := by
                  have : d * d = (2 * k + 1) * (2 * k + 1) := by rw [hk]
                  have : d * k = (2 * k + 1) * k := by rw [hk]
                  nlinarith
                omega
            · rename_i hodd
              rcases Int.even_or_odd' d with ⟨k, hk | hk⟩
              · -- denominator even, hence numerator odd and negative
                have hnodd : ¬ (2 ∣ n) := by
                  intro h2
                  have : (2 : Int) ∣ (Int.gcd n d : Int) := Int.dvd_coe_gcd h2 ⟨k, hk⟩
                  omega
                have hnneg : n < 0 := by
                  by_contra hc
                  rw [Int.tmod_eq_emod_of_nonneg (by omega)] at hodd
                  omega
                obtain ⟨m, hm⟩ : ∃ m, -n = 2 * m + 1 := ⟨(-n) / 2, by omega⟩
                have e1 : n.tdiv 2 = -m := by
                  have : n = -(2 * m + 1) := by omega
                  rw [this, Int.neg_tdiv, Int.tdiv_eq_ediv_of_nonneg (by omega)]; omega
                have e2 : (d - 1).tdiv 2 = k - 1 := by
                  rw [Int.tdiv_eq_ediv_of_nonneg (by omega)]; omega
                rw [e1, e2] at h
                obtain ⟨r1, r2, r3⟩ := red (-m) (k - 1) (by omega) (by omega) h
                refine fin (-m) (k - 1) (by omega) (by omega) r1 r2 r3 ?_
                have hn' : n = -(2 * m + 1) := by omega
                have : -m * d - n * (k - 1) = k - 2 * m - 1 := by rw [hn', hk]; ring
                rw [this]
                have hmb : m * 20000000 < d * d := by omega
                have hk0 : 1582 ≤ k := by omega
                have b1 : ((k - 2 * m - 1).natAbs : Int) ≤ k + 2 * m + 1 := by omega
                have : (k + 2 * m + 1) * 3000 < d * (k - 1) := by
                  have : d * d = (2 * k) * (2 * k) := by rw [hk]
                  have : d * (k - 1) = (2 * k) * (k - 1) := by rw [hk]
                  nlinarith
                omega
              · have e2 : (d - 1).tdiv 2 = k := by
                  rw [Int.tdiv_eq_ediv_of_nonneg (by omega)]; omega
                rw [e2] at h
                obtain ⟨r1, r2, r3⟩ := red (n.tdiv 2) k (by omega) (by omega) h
                refine fin (n.tdiv 2) k (by omega) (by omega) r1 r2 r3 ?_
                have hk0 : 1581 ≤ k := by omega
                have hdd : d * d = (2 * k + 1) * (2 * k + 1) := by rw [hk]
                have hdk : d * k = (2 * k + 1) * k := by rw [hk]
                have hq : n.tdiv 2 * 2 = n ∨ n.tdiv 2 * 2 = n + 1 ∨ n.tdiv 2 * 2 = n - 1 := by
                  have := Int.mul_tdiv_add_tmod n 2
                  have h3 : n.tmod 2 = 0 ∨ n.tmod 2 = -1 ∨ n.tmod 2 = 1 := by
                    rcases Int.tmod_two_eq n with h | h | h <;> omega
                  omega
                generalize n.tdiv 2 = t at *
                have e3 : t * d - n * k = (2 * t - n) * k + t := by rw [hk]; ring
                rw [e3]
                have hb : ((2 * t - n) * k + t).natAbs ≤ k + (t.natAbs : Int) := by
                  rcases hq with h | h | h
                  · rw [show 2 * t - n = 0 by omega]; omega
                  · rw [show 2 * t - n = 1 by omega]; omega
                  · rw [show 2 * t - n = -1 by omega]; omega
                have htb : (t.natAbs : Int) * 20000000 < d * d + 20000000 := by omega
                have : (k + (t.natAbs : Int)) * 3000 < d * k := by nlinarith
                omega
          · cases h

example : ∃ r s l, r.WF ∧ gate r = .val s l ∧ l = true := ⟨⟨1, 4096⟩, ⟨0, 1⟩, true, by decide, by decide, rfl⟩

/-- C02 is false as advertised: the perturbation can exceed 1e-7 (here 1/4096 is replaced by 0, off by more than
2e-4). -/
theorem C02_advertised_bound_fails :
    ∃ r s l, r.WF ∧ gate r = .val s l ∧ (1 : ℚ) / 5000 < |toQ s - toQ r| := by
  refine ⟨⟨1, 4096⟩, ⟨0, 1⟩, true, by decide, by decide, ?_⟩
  simp only [toQ]
  norm_num

/-- The failure is not isolated: *every* unit fraction with denominator from 3163 to ten million is flushed to zero. -/
theorem C02_unit_fractions_flushed (d : Int) (h1 : 3163 ≤ d) (h2 : d ≤ 10000000) :
    gate ⟨1, d⟩ = .val zero true := by
  unfold gate
  have hg : cgcd 1 d = ok 1 := by
    rw [cgcd_eq_ok]
    refine ⟨by decide, by unfold i32Min; omega, by simp⟩
  rw [if_neg (by show ¬ d < 1024; omega)]
  simp only [hg, ok_bind]
  rw [if_neg (by decide), if_neg (by omega), if_pos (by simp; nlinarith), if_pos (by decide)]
  have hg' : cgcd ((1 - 1 : Int).tdiv 2) (d.tdiv 2) = ok (d.tdiv 2) := by
    rw [cgcd_eq_ok, Int.tdiv_eq_ediv_of_nonneg (by omega : 0 ≤ d)]
    refine ⟨by decide, by unfold i32Min; omega, ?_⟩
    simp; omega
  unfold reduce
  rw [hg', ok_bind, Int.tdiv_eq_ediv_of_nonneg (by omega : 0 ≤ d), if_pos (by omega)]
  simp only [pure_eq, ok_bind]
  have : (d / 2).tdiv (d / 2) = 1 := Int.tdiv_self (by omega)
  rw [this]; simp [zero]

example : ∃ d : Int, 3163 ≤ d ∧ d ≤ 10000000 := ⟨5000, by decide, by decide⟩

/-- C02, partial: for *even* numerators the advertised size is right up to the factor d/(d-1).  Missing for the full
statement: odd numerators (refuted above). -/
theorem C02_even_partial (r s : Rat32) (l : Bool) (hr : r.WF) (he : 2 ∣ r.num) (h : gate r = .val s l) :
    |toQ s - toQ r| < (1 / 10000000 : ℚ) * ((r.den : ℚ) / (r.den - 1)) ∨ toQ s = toQ r := by
  cases l with
  | false => right; exact (gate_spec (s := s) h hr.pos).1
  | true =>
    left
    unfold gate at h
    have hd0 := hr.pos
    split at h
    · exfalso
      unfold reduce cgcd at h
      split at h
      · cases h
      · rw [ok_bind] at h
        split at h <;> cases h
    · rename_i hbig
      obtain ⟨n, d⟩ := r
      simp only at h hbig hd0 he ⊢
      have hgc : ∃ g, cgcd n d = ok g := by
        unfold cgcd at h ⊢
        split at h
        · cases h
        · rename_i hc; exact ⟨_, by rw [if_neg hc]⟩
      obtain ⟨g, hg⟩ := hgc
      rw [hg, ok_bind] at h
      obtain ⟨_, _, hgcd⟩ := cgcd_eq_ok.1 hg
      have hdq : (0 : ℚ) < d - 1 := by
        have : (1024 : ℚ) ≤ d := by exact_mod_cast (by omega : (1024 : Int) ≤ d)
        linarith
      split at h
      · cases h
      · rename_i hg1
        split at h
        · rename_i hsm
          have : zero = s := by injection h
          subst this
          have h1 : |toQ zero - toQ ⟨n, d⟩| < 1 / 10000000 := by
            refine abs_toQ_sub_lt (n' := 0) (d' := 1) hd0 (by decide) ?_
            have : ((n.natAbs : Int) : ℚ) * 10000000 < d := by exact_mod_cast hsm
            have e : ((0 * d - n * 1 : Int).natAbs : ℚ) = ((n.natAbs : Int) : ℚ) := by simp
            rw [e]; push_cast at this ⊢; linarith [abs_nonneg (n : ℚ)]
          have h2 : (1 : ℚ) ≤ (d : ℚ) / (d - 1) := by
            rw [le_div_iff₀ hdq]; linarith
          nlinarith
        · split at h
          · rename_i hns hmed
            obtain ⟨m, hm⟩ := he
            have hne : ¬ n.tmod 2 = 1 := by
              rw [hm, Int.mul_tmod_right]; decide
            rw [if_neg hne] at h
            have hdodd : ¬ (2 ∣ d) := by
              intro h2
              have : (2 : Int) ∣ (Int.gcd n d : Int) := Int.dvd_coe_gcd ⟨m, hm⟩ h2
              have := Int.gcd_pos_of_ne_zero_right n (show d ≠ 0 by omega)
              omega
            obtain ⟨k, hk⟩ : ∃ k, d = 2 * k + 1 := ⟨d / 2, by omega⟩
            have e1 : n.tdiv 2 = m := by rw [hm]; exact Int.mul_tdiv_cancel_left m (by decide)
            have e2 : (d - 1).tdiv 2 = k := by
              rw [Int.tdiv_eq_ediv_of_nonneg (by omega)]; omega
            rw [e1, e2] at h
            have hd' : ∃ t, reduce m k = ok t := by
              unfold reduce cgcd at h ⊢
              split at h
              · cases h
              · rename_i hc
                rw [if_neg hc, ok_bind]
                split <;> simp
            obtain ⟨t, ht⟩ := hd'
            rw [ht, ok_bind] at h
            have hts : t = s := by injection h
            subst hts
            obtain ⟨e3, _⟩ := reduce_spec ht (by omega)
            rw [e3]
            refine abs_toQ_sub_lt hd0 (by omega) ?_
            have e4 : m * d - n * k = m := by rw [hm, hk]; ring
            rw [e4]
            have hmb : ((m.natAbs : Int)) * 20000000 < d * d := by omega
            have hmb' : ((m.natAbs : Int) : ℚ) * 20000000 < d * d := by exact_mod_cast hmb
            have hkq : (k : ℚ) = ((d : ℚ) - 1) / 2 := by
              rw [hk]; push_cast; ring
            rw [hkq]
            have : (1 / 10000000 : ℚ) * ((d : ℚ) / (d - 1)) * (d * ((d - 1) / 2)) = d * d / 20000000 := by
              field_simp; norm_num
            rw [this]
            simp only [Int.cast_natCast] at hmb'
            linarith
          · cases h

example : ∃ r s l, r.WF ∧ 2 ∣ r.num ∧ gate r = .val s l ∧ l = true :=
  ⟨⟨2, 5001⟩, ⟨1, 2500⟩, true, by decide, by decide, by decide, rfl⟩

end Rat32
end Gal
