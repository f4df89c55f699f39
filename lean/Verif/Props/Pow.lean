import Verif.Pow
import Mathlib.Tactic.Ring
import Mathlib.Algebra.Field.Rat
import Mathlib.Algebra.GroupWithZero.Basic
import Mathlib.Tactic.NormNum

/-! # Property C05: compile-time powers -/

namespace Gal

open Out

variable {K : Type} [Field K]

theorem powLoop_eq (fuel : Nat) : ∀ (t1 t2 : K) (e : Nat), 1 ≤ e → e ≤ fuel + 1 → powLoop fuel t1 t2 e = t1 * t2 ^ e := by
  induction fuel with
  | zero => intro t1 t2 e h1 h2; obtain rfl : e = 1 := by omega
            simp [powLoop]
  | succ f ih =>
    intro t1 t2 e h1 h2
    unfold powLoop
    split
    · rename_i h
      rw [ih _ _ _ (by omega) (by omega)]
      have h3 : (t2 * t2) ^ (e / 2) = t2 ^ (2 * (e / 2)) := by rw [← pow_two, ← pow_mul]
      rw [h3]
      split
      · rename_i ho
        conv_rhs => rw [show e = 2 * (e / 2) + 1 by omega, pow_succ]
        ring
      · rename_i ho
        conv_rhs => rw [show e = 2 * (e / 2) by omega]
    · obtain rfl : e = 1 := by omega
      simp

theorem powNat_eq (s : K) (n : Nat) (h : n ≠ 0) : powNat s n = s ^ n := by
  unfold powNat
  split <;> try ring
  rw [powLoop_eq _ _ _ _ (by omega) (by omega), one_mul]

/-- C05, partial: for every exponent except 0 (and `INT_MIN`, whose negation overflows) the result is the mathematical
power.  Missing: exponent 0, refuted by `C05_zero`. -/
theorem C05_pow_partial (s : K) (N : Int) (h0 : N ≠ 0) (hmin : i32Min < N) (hmax : N ≤ i32Max) (_hs : N < 0 → s ≠ 0) :
    pow s N = ok (s ^ N) := by
  unfold pow
  split
  · rename_i h; rw [h]; simp
  · split
    · rename_i h; rw [h]; simp
    · split
      · rename_i h
        have hn : InI32 (-N) := by unfold InI32; unfold i32Min i32Max at *; omega
        rw [chk_of hn, ok_bind, pure_eq, powNat_eq _ _ (by omega)]
        congr 1
        obtain ⟨m, hm⟩ : ∃ m : Nat, N = -(m : Int) := ⟨N.natAbs, by omega⟩
        subst hm
        simp
      · rename_i h
        rw [powNat_eq _ _ (by omega)]
        congr 1
        obtain ⟨m, hm⟩ : ∃ m : Nat, N = (m : Int) := ⟨N.natAbs, by omega⟩
        subst hm
        simp

example : ∃ (s : ℚ) (N : Int), N ≠ 0 ∧ i32Min < N ∧ N ≤ i32Max ∧ (N < 0 → s ≠ 0) ∧ N < -8 :=
  ⟨3, -13, by decide, by decide, by decide, by norm_num, by decide⟩

/-- Exponent 0 returns the base instead of 1. -/
theorem C05_zero (s : K) : pow s 0 = ok s := by
  simp [pow, powNat, powLoop]

/-- The negation of C05 at exponent 0. -/
theorem C05_fails : ∃ s : ℚ, s ≠ 0 ∧ pow s 0 ≠ ok (s ^ (0 : Int)) := by
  refine ⟨2, by norm_num, ?_⟩
  rw [C05_zero]
  simp

end Gal
