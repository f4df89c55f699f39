import Verif.Props.Rational
import Mathlib.RingTheory.Coprime.Lemmas

/-!
# Properties C03 and C04: comparing rational coefficients (numeric.hpp:374-399)
-/

namespace Gal
namespace Rat32

open Out

/-- Representable, positive denominator, lowest terms. -/
def Canon (r : Rat32) : Prop := r.WF ∧ r.Lowest

instance (r : Rat32) : Decidable r.Canon := inferInstanceAs (Decidable (_ ∧ _))

theorem toQ_eq_iff {a b : Rat32} (ha : a.WF) (hb : b.WF) :
    toQ a = toQ b ↔ a.num * b.den = b.num * a.den := by
  unfold toQ
  rw [div_eq_div_iff ha.den_ne hb.den_ne]
  exact_mod_cast Iff.rfl

theorem tdiv_self_gcd {d : Int} (hd : 0 < d) : (Int.gcd d d : Int) = d := by
  rw [Int.gcd_self]; omega

theorem inI32_tdiv {a b : Int} (ha : InI32 a) (hb : 0 < b) : InI32 (a.tdiv b) := by
  unfold InI32 i32Min i32Max at *
  rcases Int.le_total 0 a with h | h
  · rw [Int.tdiv_eq_ediv_of_nonneg h]
    have h1 := Int.ediv_nonneg h hb.le
    have h2 : a / b ≤ a := Int.ediv_le_self b h
    omega
  · obtain ⟨c, rfl⟩ : ∃ c, a = -c := ⟨-a, by omega⟩
    have hc : 0 ≤ c := by omega
    rw [Int.neg_tdiv, Int.tdiv_eq_ediv_of_nonneg hc]
    have h1 := Int.ediv_nonneg hc hb.le
    have h2 : c / b ≤ c := Int.ediv_le_self b hc
    omega

/-- Exact behaviour of `==`: it compares the left operand with the *truncation towards zero* of the right operand.
(`gcd2` on line 377 is computed from the denominator alone.) -/
theorem C03_eq_characterisation (a b : Rat32) (ha : a.WF) (hb : b.WF) (hm : a.num ≠ i32Min) :
    eq a b = ok (decide (toQ a = ((b.num.tdiv b.den : Int) : ℚ))) := by
  have hap := ha.pos
  have hbp := hb.pos
  have h1 : cgcd a.num a.den = ok (Int.gcd a.num a.den : Int) := by
    rw [cgcd_eq_ok]; refine ⟨hm, ?_, rfl⟩; unfold i32Min; omega
  have h2 : cgcd b.den b.den = ok b.den := by
    rw [cgcd_eq_ok]; refine ⟨?_, ?_, tdiv_self_gcd hbp⟩ <;> (unfold i32Min; omega)
  have hgpos : 0 < Int.gcd a.num a.den := Int.gcd_pos_of_ne_zero_right _ (by omega)
  generalize hg : (Int.gcd a.num a.den : Int) = g at *
  have hg0 : 0 < g := by omega
  have hgn : g ∣ a.num := hg ▸ Int.gcd_dvd_left ..
  have hgd : g ∣ a.den := hg ▸ Int.gcd_dvd_right ..
  obtain ⟨n, hn⟩ := hgn
  obtain ⟨d, hd⟩ := hgd
  have hcop : Int.gcd n d = 1 := by
    have := hg
    rw [hn, hd, Int.gcd_mul_left] at this
    have hga : ((g.natAbs : Nat) : Int) = g := by omega
    rw [Nat.cast_mul, hga] at this
    have h3 : g * (Int.gcd n d : Int) = g * 1 := by rw [mul_one]; exact this
    have := Int.eq_of_mul_eq_mul_left (by omega) h3
    omega
  have hdpos : 0 < d := by
    rw [hd] at hap; exact (by by_contra hc; nlinarith)
  have e1 : a.num.tdiv g = n := by rw [hn]; exact Int.mul_tdiv_cancel_left n (by omega)
  have e2 : a.den.tdiv g = d := by rw [hd]; exact Int.mul_tdiv_cancel_left d (by omega)
  have e3 : b.den.tdiv b.den = 1 := Int.tdiv_self (by omega)
  have c1 : cdiv a.num g = ok n := cdiv_eq_ok.2 ⟨by omega, inI32_tdiv ha.num hg0, e1⟩
  have c2 : cdiv b.num b.den = ok (b.num.tdiv b.den) := cdiv_eq_ok.2 ⟨by omega, inI32_tdiv hb.num hbp, rfl⟩
  have c3 : cdiv a.den g = ok d := cdiv_eq_ok.2 ⟨by omega, inI32_tdiv ha.den hg0, e2⟩
  have c4 : cdiv b.den b.den = ok 1 := cdiv_eq_ok.2 ⟨by omega, inI32_tdiv hb.den hbp, e3⟩
  unfold eq
  simp only [h1, h2, c1, c2, c3, c4, ok_bind, pure_eq]
  have key : toQ a = ((b.num.tdiv b.den : Int) : ℚ) ↔ (n = b.num.tdiv b.den ∧ d = 1) := by
    have hdq : (a.den : ℚ) ≠ 0 := ha.den_ne
    unfold toQ
    rw [div_eq_iff hdq]
    constructor
    · intro h
      have h' : a.num = b.num.tdiv b.den * a.den := by exact_mod_cast h
      rw [hn, hd] at h'
      have h4 : n = b.num.tdiv b.den * d := by
        apply Int.eq_of_mul_eq_mul_left (by omega : g ≠ 0)
        rw [h']; ring
      have hdn : d ∣ n := ⟨_, by rw [h4]; ring⟩
      have : (d : Int) ∣ (Int.gcd n d : Int) := Int.dvd_coe_gcd hdn (dvd_refl d)
      rw [hcop] at this
      have hd1 : d = 1 := by
        have := Int.le_of_dvd (by decide) this
        omega
      exact ⟨by rw [h4, hd1, mul_one], hd1⟩
    · rintro ⟨h, h'⟩
      have : a.num = b.num.tdiv b.den * a.den := by rw [hn, hd, h', h]; ring
      exact_mod_cast this
  by_cases h : n = b.num.tdiv b.den
  · rw [if_pos h]
    congr 1
    rw [Bool.eq_iff_iff, beq_iff_eq, decide_eq_true_iff, key]
    exact ⟨fun h' => ⟨h, h'⟩, And.right⟩
  · rw [if_neg h]
    congr 1
    rw [Bool.eq_iff_iff, decide_eq_true_iff, key]
    simp [h]

/-- C03, partial: `==` decides equality of values when the *right* operand is an integer.  Missing: fractional right
operands, refuted by `C03_eq_not_reflexive` and `C03_eq_confuses`. -/
theorem C03_eq_partial (a b : Rat32) (ha : a.WF) (hb : b.WF) (hm : a.num ≠ i32Min) (hi : b.den = 1) :
    eq a b = ok (decide (toQ a = toQ b)) := by
  rw [C03_eq_characterisation a b ha hb hm]
  have : toQ b = ((b.num.tdiv b.den : Int) : ℚ) := by
    unfold toQ; rw [hi]; simp
  rw [this]

example : ∃ a b : Rat32, a.WF ∧ b.WF ∧ a.num ≠ i32Min ∧ b.den = 1 ∧ eq a b = ok true ∧ a ≠ b :=
  ⟨⟨6, 2⟩, ⟨3, 1⟩, by decide, by decide, by decide, rfl, by decide, by decide⟩

/-- No proper fraction in lowest terms is ever equal to itself. -/
theorem C03_eq_not_reflexive (a : Rat32) (ha : a.Canon) (hm : a.num ≠ i32Min) (hd : a.den ≠ 1) :
    eq a a = ok false := by
  rw [C03_eq_characterisation a a ha.1 ha.1 hm]
  congr 1
  rw [decide_eq_false_iff_not]
  intro h
  have hap := ha.1.pos
  have hdq : (a.den : ℚ) ≠ 0 := ha.1.den_ne
  unfold toQ at h
  rw [div_eq_iff hdq] at h
  have h' : a.num = a.num.tdiv a.den * a.den := by exact_mod_cast h
  have hdn : a.den ∣ a.num := ⟨a.num.tdiv a.den, by rw [Int.mul_comm]; exact h'⟩
  have : (a.den : Int) ∣ (Int.gcd a.num a.den : Int) := Int.dvd_coe_gcd hdn (dvd_refl _)
  rw [(show Int.gcd a.num a.den = 1 from ha.2)] at this
  have := Int.le_of_dvd (by decide) this
  omega

example : ∃ a : Rat32, a.Canon ∧ a.num ≠ i32Min ∧ a.den ≠ 1 := ⟨⟨1, 2⟩, by decide, by decide, by decide⟩

/-- `==` reports two different numbers as equal: 1 == 3/2. -/
theorem C03_eq_confuses : ∃ a b : Rat32, a.Canon ∧ b.Canon ∧ eq a b = ok true ∧ toQ a ≠ toQ b := by
  refine ⟨⟨1, 1⟩, ⟨3, 2⟩, by decide, by decide, by decide, ?_⟩
  simp only [toQ]; norm_num

/-- The negation of C03 for `==`. -/
theorem C03_eq_fails : ¬ ∀ a b : Rat32, a.Canon → b.Canon → eq a b = ok (decide (toQ a = toQ b)) := by
  intro h
  have := h ⟨1, 2⟩ ⟨1, 2⟩ (by decide) (by decide)
  rw [show eq ⟨1, 2⟩ ⟨1, 2⟩ = ok false by decide] at this
  simp at this

theorem lowest_unique {a b : Rat32} (ha : a.Canon) (hb : b.Canon) (h : toQ a = toQ b) : a = b := by
  rw [toQ_eq_iff ha.1 hb.1] at h
  have hap := ha.1.pos
  have hbp := hb.1.pos
  have c1 : IsCoprime a.num a.den := Int.isCoprime_iff_gcd_eq_one.2 (show Int.gcd a.num a.den = 1 from ha.2)
  have c2 : IsCoprime b.num b.den := Int.isCoprime_iff_gcd_eq_one.2 (show Int.gcd b.num b.den = 1 from hb.2)
  have d1 : a.den ∣ b.den := by
    have : a.den ∣ a.num * b.den := ⟨b.num, by rw [h]; ring⟩
    exact c1.symm.dvd_of_dvd_mul_left this
  have d2 : b.den ∣ a.den := by
    have : b.den ∣ b.num * a.den := ⟨a.num, by rw [← h]; ring⟩
    exact c2.symm.dvd_of_dvd_mul_left this
  have hd : a.den = b.den := Int.le_antisymm (Int.le_of_dvd hbp d1) (Int.le_of_dvd hap d2)
  have hn : a.num = b.num := by
    rw [hd] at h
    exact Int.eq_of_mul_eq_mul_right (by omega) h
  cases a; cases b; simp_all

/-- C03 (`operator!=`, rational): correct on operands in lowest terms. -/
theorem C03_ne (a b : Rat32) (ha : a.Canon) (hb : b.Canon) : ne a b = true ↔ toQ a ≠ toQ b := by
  constructor
  · intro h e
    rw [lowest_unique ha hb e] at h
    simp [ne] at h
  · intro h
    by_contra hc
    apply h
    simp only [ne, Bool.or_eq_true, bne_iff_ne, not_or, not_not] at hc
    unfold toQ; rw [hc.1, hc.2]

example : ∃ a b : Rat32, a.Canon ∧ b.Canon ∧ a ≠ b ∧ a.den ≠ 1 := ⟨⟨1, 2⟩, ⟨-3, 4⟩, by decide, by decide, by decide, by decide⟩

/-- Lowest terms is needed: 2/4 != 1/2 is reported. -/
theorem C03_ne_needs_lowest : ∃ a b : Rat32, a.WF ∧ b.WF ∧ ne a b = true ∧ toQ a = toQ b := by
  refine ⟨⟨2, 4⟩, ⟨1, 2⟩, by decide, by decide, by decide, ?_⟩
  simp only [toQ]; norm_num

/-- C03 (`operator!=` with an integer): correct on operands in lowest terms. -/
theorem C03_neInt (a : Rat32) (n : Int) (ha : a.Canon) : neInt a n = true ↔ toQ a ≠ (n : ℚ) := by
  have key : toQ a = (n : ℚ) ↔ a.den = 1 ∧ a.num = n := by
    unfold toQ
    rw [div_eq_iff ha.1.den_ne]
    constructor
    · intro h
      have h' : a.num = n * a.den := by exact_mod_cast h
      have hdn : a.den ∣ a.num := ⟨n, by rw [h']; ring⟩
      have : (a.den : Int) ∣ (Int.gcd a.num a.den : Int) := Int.dvd_coe_gcd hdn (dvd_refl _)
      rw [(show Int.gcd a.num a.den = 1 from ha.2)] at this
      have hle := Int.le_of_dvd (by decide) this
      have := ha.1.pos
      have h1 : a.den = 1 := by omega
      exact ⟨h1, by rw [h', h1, mul_one]⟩
    · rintro ⟨h1, h2⟩
      rw [h1, h2]; simp
  rw [ne_eq, key]
  simp only [neInt, Bool.or_eq_true, bne_iff_ne]
  tauto

example : ∃ (a : Rat32), a.Canon ∧ neInt a 0 = true ∧ a.den ≠ 1 := ⟨⟨1, 2⟩, by decide, by decide, by decide⟩

/-- `==` and `!=` contradict each other: on 1/2 both answer "no". -/
theorem C03_eq_ne_inconsistent : eq ⟨1, 2⟩ ⟨1, 2⟩ = ok false ∧ ne ⟨1, 2⟩ ⟨1, 2⟩ = false := by decide

/-- C04 (`operator<`): agrees with the order of ℚ whenever the cross products are representable. -/
theorem C04_lt (a b : Rat32) (ha : a.WF) (hb : b.WF)
    (h1 : InI32 (a.num * b.den)) (h2 : InI32 (b.num * a.den)) :
    lt a b = ok (decide (toQ a < toQ b)) := by
  unfold lt
  simp only [chk_of h1, chk_of h2, ok_bind, pure_eq]
  congr 1
  rw [Bool.eq_iff_iff, decide_eq_true_iff, decide_eq_true_iff]
  unfold toQ
  have p1 : (0 : ℚ) < a.den := by exact_mod_cast ha.pos
  have p2 : (0 : ℚ) < b.den := by exact_mod_cast hb.pos
  rw [div_lt_div_iff₀ p1 p2]
  exact_mod_cast Iff.rfl

/-- C04 (`operator>`). -/
theorem C04_gt (a b : Rat32) (ha : a.WF) (hb : b.WF)
    (h1 : InI32 (a.num * b.den)) (h2 : InI32 (b.num * a.den)) :
    gt a b = ok (decide (toQ b < toQ a)) := by
  unfold gt
  simp only [chk_of h1, chk_of h2, ok_bind, pure_eq]
  congr 1
  rw [Bool.eq_iff_iff, decide_eq_true_iff, decide_eq_true_iff]
  unfold toQ
  have p1 : (0 : ℚ) < a.den := by exact_mod_cast ha.pos
  have p2 : (0 : ℚ) < b.den := by exact_mod_cast hb.pos
  rw [div_lt_div_iff₀ p2 p1]
  exact_mod_cast Iff.rfl

example : ∃ a b : Rat32, a.WF ∧ b.WF ∧ InI32 (a.num * b.den) ∧ InI32 (b.num * a.den) ∧ a.den ≠ b.den :=
  ⟨⟨-7, 3⟩, ⟨2, 5⟩, by decide, by decide, by decide, by decide, by decide⟩

/-- C04, trichotomy: exactly one of `a < b`, `a > b`, equal values. -/
theorem C04_trichotomy (a b : Rat32) (ha : a.WF) (hb : b.WF)
    (h1 : InI32 (a.num * b.den)) (h2 : InI32 (b.num * a.den)) :
    (lt a b = ok true ∧ gt a b = ok false ∧ toQ a ≠ toQ b) ∨
    (lt a b = ok false ∧ gt a b = ok true ∧ toQ a ≠ toQ b) ∨
    (lt a b = ok false ∧ gt a b = ok false ∧ toQ a = toQ b) := by
  rw [C04_lt a b ha hb h1 h2, C04_gt a b ha hb h1 h2]
  rcases lt_trichotomy (toQ a) (toQ b) with h | h | h
  · left; simp [h, h.le, h.ne]
  · right; right; simp [h]
  · right; left; simp [h, h.le, h.ne']

/-- C04: the representability hypothesis is necessary — cross products outside 32 bits are undefined behaviour. -/
theorem C04_lt_overflow (a b : Rat32) (h : ¬ InI32 (a.num * b.den) ∨ ¬ InI32 (b.num * a.den)) :
    lt a b = .ub := by
  unfold lt
  by_cases h1 : InI32 (a.num * b.den)
  · have h2 := h.resolve_left (not_not.2 h1)
    rw [chk_of h1, ok_bind]
    simp [chk, h2]
  · simp [chk, h1]

example : ¬ InI32 ((⟨2147483647, 2⟩ : Rat32).num * (⟨1, 3⟩ : Rat32).den) := by decide

end Rat32
end Gal
