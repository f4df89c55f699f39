import Verif.BladeLemmas
import Mathlib.LinearAlgebra.CliffordAlgebra.Basic
import Mathlib.LinearAlgebra.CliffordAlgebra.Conjugation
import Mathlib.LinearAlgebra.CliffordAlgebra.Contraction
import Mathlib.LinearAlgebra.QuadraticForm.Basic
import Mathlib.Tactic.NoncommRing
import Mathlib.Algebra.Ring.Commute

/-!
# Specification: blades in a Clifford algebra

`bladeOf e n g` is the ordered product of the generators `e i` over the set bits `i < n` of `g`.  `Gens` are the defining
relations of orthogonal generators with squares `d`.  They hold in Mathlib's `CliffordAlgebra` of the diagonal form with
those squares (`cliffordGens`).
-/

namespace Gal

open Finset

/-- Orthogonal generators with integer squares. -/
structure Gens (A : Type*) [Ring A] (n : Nat) (e : Nat → A) (d : Nat → Int) : Prop where
  sq : ∀ i, i < n → e i * e i = (d i : A)
  anti : ∀ i j, i < n → j < n → i ≠ j → e i * e j = -(e j * e i)

/-- Ordered product of the generators present in `g`, lowest index first. -/
def bladeOf {A : Type*} [Ring A] (e : Nat → A) : Nat → Nat → A
  | 0, _ => 1
  | n + 1, g => bladeOf e n g * (if g.testBit n then e n else 1)

section

variable {A : Type*} [Ring A] {n : Nat} {e : Nat → A} {d : Nat → Int}

theorem bladeOf_congr (e : Nat → A) (n : Nat) {g h : Nat} (hb : ∀ j, j < n → g.testBit j = h.testBit j) :
    bladeOf e n g = bladeOf e n h := by
  induction n with
  | zero => rfl
  | succ n ih =>
    unfold bladeOf
    rw [ih (fun j hj => hb j (by omega)), hb n (by omega)]

theorem bladeOf_zero (e : Nat → A) (n : Nat) : bladeOf e n 0 = 1 := by
  induction n with
  | zero => rfl
  | succ n ih => simp [bladeOf, ih]

theorem chi_succ (b i : Nat) : chi b (i + 1) = chi b i * (if b.testBit i then -1 else 1) := by
  unfold chi; rw [Finset.prod_range_succ]

/-- Moving a generator past lower generators. -/
theorem gen_comm (H : Gens A n e d) (l : Nat) (hl : l < n) :
    ∀ k, k ≤ l → ∀ g, e l * bladeOf e k g = (chi g k : A) * (bladeOf e k g * e l) := by
  intro k
  induction k with
  | zero => intro _ g; simp [bladeOf, chi]
  | succ k ih =>
    intro hk g
    have ih := ih (by omega) g
    rw [bladeOf, chi_succ, ← mul_assoc, ih]
    have hc : ∀ z : Int, ∀ x : A, (z : A) * x = x * (z : A) := fun z x => (Int.cast_commute z x).eq
    cases h : g.testBit k
    · simp [mul_assoc]
    · have ha := H.anti l k hl (by omega) (by omega)
      simp only [if_true, mul_assoc, ha]
      push_cast
      noncomm_ring

/-- Multiplying a blade by one generator from the left. -/
theorem gen_mul_blade (H : Gens A n e d) (l : Nat) (hl : l < n) :
    ∀ k, l < k → k ≤ n → ∀ g,
      e l * bladeOf e k g = ((chi g l * (if g.testBit l then d l else 1) : Int) : A) * bladeOf e k (g ^^^ 2 ^ l) := by
  intro k
  induction k with
  | zero => intro h; omega
  | succ k ih =>
    intro hlk hkn g
    by_cases h : l < k
    · rw [bladeOf, ← mul_assoc, ih h (by omega) g, bladeOf]
      have : (g ^^^ 2 ^ l).testBit k = g.testBit k := by rw [testBit_xor_two_pow, if_neg (by omega)]
      rw [this, mul_assoc]
    · obtain rfl : l = k := by omega
      rw [bladeOf, ← mul_assoc, gen_comm H l hl l le_rfl g, bladeOf]
      have h1 : bladeOf e l (g ^^^ 2 ^ l) = bladeOf e l g := by
        apply bladeOf_congr
        intro j hj
        rw [testBit_xor_two_pow, if_neg (by omega)]
      have h2 : (g ^^^ 2 ^ l).testBit l = !g.testBit l := by rw [testBit_xor_two_pow, if_pos rfl]
      rw [h1, h2]
      cases hg : g.testBit l
      · simp [mul_assoc]
      · simp only [if_true, mul_assoc, H.sq l hl, Bool.not_true]
        push_cast
        have : (d l : A) * bladeOf e l g = bladeOf e l g * (d l : A) := (Int.cast_commute _ _).eq
        simp [this, mul_assoc]

theorem bladeOf_mul_aux (H : Gens A n e d) (b : Nat) (a : Nat) :
    ∀ k, k ≤ n → ∀ b, bladeOf e k a * bladeOf e n b = (sgn d k a b : A) * bladeOf e n ((a % 2 ^ k) ^^^ b) := by
  intro k
  induction k with
  | zero => intro _ b; simp [bladeOf, sgn, Nat.mod_one]
  | succ k ih =>
    intro hk b
    have hs : ∀ b, sgn d (k + 1) a b = sgn d k a b * fac d a b k := by
      intro b; unfold sgn; rw [Finset.prod_range_succ]
    rw [bladeOf, hs, mul_assoc]
    cases ha : a.testBit k
    · have e1 : a % 2 ^ (k + 1) = a % 2 ^ k := by
        apply Nat.eq_of_testBit_eq
        intro j
        rw [Nat.testBit_mod_two_pow, Nat.testBit_mod_two_pow]
        by_cases h1 : j < k
        · simp [h1, show j < k + 1 by omega]
        · by_cases h2 : j = k
          · subst h2; simp [ha]
          · simp [h1, show ¬ j < k + 1 by omega]
      simp only [Bool.false_eq_true, if_false, one_mul]
      rw [ih (by omega) b, e1]
      simp [fac, ha]
    · have e1 : a % 2 ^ (k + 1) = a % 2 ^ k ^^^ 2 ^ k := by
        apply Nat.eq_of_testBit_eq
        intro j
        rw [testBit_xor_two_pow, Nat.testBit_mod_two_pow, Nat.testBit_mod_two_pow]
        by_cases h1 : j < k
        · simp [h1, show j < k + 1 by omega, show ¬ k = j by omega]
        · by_cases h2 : k = j
          · subst h2; simp [ha]
          · simp [h1, h2, show ¬ j < k + 1 by omega]
      simp only [if_true]
      rw [gen_mul_blade H k (by omega) n (by omega) le_rfl b, ← mul_assoc,
        ← (Int.cast_commute _ (bladeOf e k a)).eq, mul_assoc, ih (by omega), e1]
      have h2 : sgn d k a (b ^^^ 2 ^ k) = sgn d k a b := by
        unfold sgn
        apply Finset.prod_congr rfl
        intro i hi
        have hik := Finset.mem_range.1 hi
        unfold fac
        have hb1 : (b ^^^ 2 ^ k).testBit i = b.testBit i := by rw [testBit_xor_two_pow, if_neg (by omega)]
        have hb2 : chi (b ^^^ 2 ^ k) i = chi b i := by
          apply chi_congr
          intro j hj
          rw [testBit_xor_two_pow, if_neg (by omega)]
        rw [hb1, hb2]
      rw [h2, Nat.xor_comm b, ← Nat.xor_assoc]
      simp only [fac, ha, if_true]
      rw [← mul_assoc, ← Int.cast_mul]
      congr 2
      ring

/-- The product of two blades in any algebra with these generators. -/
theorem bladeOf_mul (H : Gens A n e d) (a b : Nat) (ha : a < 2 ^ n) :
    bladeOf e n a * bladeOf e n b = (sgn d n a b : A) * bladeOf e n (a ^^^ b) := by
  rw [bladeOf_mul_aux H b a n le_rfl b, Nat.mod_eq_of_lt ha]

end

/-! ## Mathlib's Clifford algebra of a diagonal form -/

section Clifford

variable (K : Type) [Field K]

/-- The diagonal quadratic form on `K^n` with squares `d`. -/
noncomputable def diagForm (n : Nat) (d : Nat → Int) : QuadraticForm K (Fin n → K) :=
  QuadraticMap.weightedSumSquares K (fun i : Fin n => (d i : K))

/-- The generator `i` of the Clifford algebra. -/
noncomputable def cliffGen (n : Nat) (d : Nat → Int) (i : Nat) : CliffordAlgebra (diagForm K n d) :=
  if h : i < n then CliffordAlgebra.ι _ (Pi.single (⟨i, h⟩ : Fin n) (1 : K)) else 0

theorem diagForm_single (n : Nat) (d : Nat → Int) (i : Fin n) (c : K) :
    diagForm K n d (Pi.single i c) = (d i : K) * (c * c) := by
  unfold diagForm
  rw [QuadraticMap.weightedSumSquares_apply, Finset.sum_eq_single i]
  · simp
  · intro j _ hj; simp [hj]
  · simp

theorem diagForm_ortho (n : Nat) (d : Nat → Int) (i j : Fin n) (hij : i ≠ j) :
    (diagForm K n d).IsOrtho (Pi.single i (1 : K)) (Pi.single j (1 : K)) := by
  rw [QuadraticMap.isOrtho_def, diagForm_single, diagForm_single]
  unfold diagForm
  rw [QuadraticMap.weightedSumSquares_apply]
  simp only [Pi.add_apply, Pi.single_apply, smul_eq_mul]
  have : ∀ x : Fin n, (d x : K) * (((if x = i then (1 : K) else 0) + if x = j then 1 else 0) *
      ((if x = i then 1 else 0) + if x = j then 1 else 0)) =
      (if x = i then (d x : K) else 0) + (if x = j then (d x : K) else 0) := by
    intro x
    by_cases h1 : x = i
    · subst h1; simp [hij]
    · by_cases h2 : x = j
      · subst h2; simp [h1]
      · simp [h1, h2]
  simp only [this, Finset.sum_add_distrib, Finset.sum_ite_eq', Finset.mem_univ, if_true]
  ring

/-- The generators of Mathlib's Clifford algebra satisfy the relations. -/
theorem cliffordGens (n : Nat) (d : Nat → Int) :
    Gens (CliffordAlgebra (diagForm K n d)) n (cliffGen K n d) d where
  sq i hi := by
    unfold cliffGen
    rw [dif_pos hi, CliffordAlgebra.ι_sq_scalar, diagForm_single]
    simp
  anti i j hi hj hij := by
    unfold cliffGen
    rw [dif_pos hi, dif_pos hj]
    exact CliffordAlgebra.ι_mul_ι_comm_of_isOrtho (diagForm_ortho K n d _ _ (by simpa [Fin.ext_iff] using hij))

/-- Basis blade `g` in Mathlib's Clifford algebra. -/
noncomputable def cliffBlade (n : Nat) (d : Nat → Int) (g : Nat) : CliffordAlgebra (diagForm K n d) :=
  bladeOf (cliffGen K n d) n g

end Clifford

end Gal
