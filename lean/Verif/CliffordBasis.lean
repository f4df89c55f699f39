import Verif.Clifford
import Mathlib.LinearAlgebra.Finsupp.LinearCombination
import Mathlib.LinearAlgebra.LinearIndependent.Lemmas
import Mathlib.LinearAlgebra.LinearIndependent.Basic
import Mathlib.LinearAlgebra.Finsupp.VectorSpace

/-!
# Blades are linearly independent in Mathlib's Clifford algebra

Shown with the left regular representation: generators act on formal combinations of blades by the sign rule.
Consequently an equation in the Clifford algebra determines the coefficients of all blades.
-/

namespace Gal

open Finset

section lift

variable {K : Type} [Field K] {A : Type*} [Ring A] [Algebra K A]

theorem sum_antisymm {ι' : Type*} [DecidableEq ι'] (s : Finset ι') (T : ι' → ι' → A)
    (h : ∀ i ∈ s, ∀ j ∈ s, i ≠ j → T i j + T j i = 0) : ∑ i ∈ s, ∑ j ∈ s, T i j = ∑ i ∈ s, T i i := by
  induction s using Finset.induction_on with
  | empty => simp
  | insert a s ha ih =>
    rw [Finset.sum_insert ha, Finset.sum_insert ha, Finset.sum_insert ha]
    have ih := ih (fun i hi j hj => h i (Finset.mem_insert_of_mem hi) j (Finset.mem_insert_of_mem hj))
    have h1 : ∑ x ∈ s, ∑ j ∈ insert a s, T x j = ∑ x ∈ s, T x a + ∑ x ∈ s, ∑ j ∈ s, T x j := by
      rw [← Finset.sum_add_distrib]
      apply Finset.sum_congr rfl
      intro x _
      rw [Finset.sum_insert ha]
    rw [h1, ih]
    have h2 : ∑ j ∈ s, T a j + ∑ x ∈ s, T x a = 0 := by
      rw [← Finset.sum_add_distrib]
      apply Finset.sum_eq_zero
      intro j hj
      exact h a (Finset.mem_insert_self _ _) j (Finset.mem_insert_of_mem hj) (fun h => ha (h ▸ hj))
    calc T a a + ∑ j ∈ s, T a j + (∑ x ∈ s, T x a + ∑ i ∈ s, T i i)
        = T a a + ((∑ j ∈ s, T a j + ∑ x ∈ s, T x a) + ∑ i ∈ s, T i i) := by abel
      _ = T a a + ∑ i ∈ s, T i i := by rw [h2, zero_add]

/-- The linear map sending the `i`-th unit vector to `e i`. -/
noncomputable def genMap (n : Nat) (e : Nat → A) : (Fin n → K) →ₗ[K] A :=
  ∑ i : Fin n, (LinearMap.proj i : (Fin n → K) →ₗ[K] K).smulRight (e i)

theorem genMap_apply (n : Nat) (e : Nat → A) (v : Fin n → K) : genMap n e v = ∑ i : Fin n, v i • e i := by
  simp [genMap]

theorem genMap_sq {n : Nat} {e : Nat → A} {d : Nat → Int} (H : Gens A n e d) (v : Fin n → K) :
    genMap n e v * genMap n e v = algebraMap K A (diagForm K n d v) := by
  rw [genMap_apply, Finset.sum_mul_sum, sum_antisymm]
  · unfold diagForm
    rw [QuadraticMap.weightedSumSquares_apply, map_sum]
    apply Finset.sum_congr rfl
    intro i _
    rw [smul_mul_smul_comm, H.sq i i.isLt, Algebra.smul_def, smul_eq_mul, map_mul (algebraMap K A) (d i : K),
      map_intCast]
    exact (Int.cast_commute _ _).eq.symm
  · intro i _ j _ hij
    rw [smul_mul_smul_comm, smul_mul_smul_comm,
      H.anti i j i.isLt j.isLt (fun h => hij (Fin.ext h)), mul_comm (v j), smul_neg]
    simp

/-- Any algebra with such generators receives a homomorphism from the Clifford algebra. -/
noncomputable def cliffLift {n : Nat} {e : Nat → A} {d : Nat → Int} (H : Gens A n e d) :
    CliffordAlgebra (diagForm K n d) →ₐ[K] A :=
  CliffordAlgebra.lift _ ⟨genMap n e, genMap_sq H⟩

theorem cliffLift_gen {n : Nat} {e : Nat → A} {d : Nat → Int} (H : Gens A n e d) (i : Nat) (hi : i < n) :
    cliffLift (K := K) H (cliffGen K n d i) = e i := by
  unfold cliffLift cliffGen
  rw [dif_pos hi, CliffordAlgebra.lift_ι_apply, genMap_apply, Finset.sum_eq_single ⟨i, hi⟩]
  · simp
  · intro j _ hj; simp [hj]
  · simp

theorem cliffLift_blade {n : Nat} {e : Nat → A} {d : Nat → Int} (H : Gens A n e d) (g : Nat) :
    cliffLift (K := K) H (cliffBlade K n d g) = bladeOf e n g := by
  unfold cliffBlade
  have : ∀ k, k ≤ n → cliffLift (K := K) H (bladeOf (cliffGen K n d) k g) = bladeOf e k g := by
    intro k
    induction k with
    | zero => intro _; simp [bladeOf]
    | succ k ih =>
      intro hk
      rw [bladeOf, map_mul, ih (by omega), bladeOf]
      split
      · rw [cliffLift_gen H k (by omega)]
      · rw [map_one]
  exact this n le_rfl

end lift

section regular

variable (K : Type) [Field K]

/-- Action of generator `l` on formal combinations of blades. -/
noncomputable def regGen (d : Nat → Int) (l : Nat) : Module.End K (Nat →₀ K) :=
  Finsupp.linearCombination K
    (fun b : Nat => Finsupp.single (b ^^^ 2 ^ l) ((chi b l * (if b.testBit l then d l else 1) : Int) : K))

theorem regGen_single (d : Nat → Int) (l b : Nat) (c : K) :
    regGen K d l (Finsupp.single b c) =
      Finsupp.single (b ^^^ 2 ^ l) (c * ((chi b l * (if b.testBit l then d l else 1) : Int) : K)) := by
  unfold regGen
  rw [Finsupp.linearCombination_single, Finsupp.smul_single, smul_eq_mul]

theorem chi_xor_two_pow (b i j : Nat) : chi (b ^^^ 2 ^ j) i = chi b i * (if j < i then -1 else 1) := by
  rw [chi_xor]
  congr 1
  unfold chi
  by_cases h : j < i
  · rw [if_pos h, Finset.prod_eq_single j]
    · simp
    · intro k _ hk
      rw [Nat.testBit_two_pow]; simp [Ne.symm hk]
    · simp [h]
  · rw [if_neg h]
    apply Finset.prod_eq_one
    intro k hk
    rw [Nat.testBit_two_pow]
    have := Finset.mem_range.1 hk
    simp [show j ≠ k by omega]

theorem regGens (n : Nat) (d : Nat → Int) : Gens (Module.End K (Nat →₀ K)) n (regGen K d) d where
  sq i _ := by
    refine Finsupp.lhom_ext fun b c => ?_
    rw [Module.End.mul_apply, regGen_single, regGen_single]
    have h0 : b ^^^ 2 ^ i ^^^ 2 ^ i = b := by rw [Nat.xor_assoc, Nat.xor_self, Nat.xor_zero]
    have h1 : chi (b ^^^ 2 ^ i) i = chi b i := by rw [chi_xor_two_pow]; simp
    have h2 : (b ^^^ 2 ^ i).testBit i = !b.testBit i := by rw [testBit_xor_two_pow, if_pos rfl]
    rw [h0, h1, h2]
    have h3 : ((d i : Module.End K (Nat →₀ K))) (Finsupp.single b c) = Finsupp.single b (c * (d i : K)) := by
      have : ((d i : Module.End K (Nat →₀ K))) = (d i : K) • 1 := by
        have := map_intCast (algebraMap K (Module.End K (Nat →₀ K))) (d i)
        rw [← this, Algebra.algebraMap_eq_smul_one]
      rw [this, LinearMap.smul_apply, Module.End.one_apply, Finsupp.smul_single, smul_eq_mul, mul_comm]
    rw [h3]
    congr 1
    have h4 : ((chi b i : Int) : K) * (chi b i : K) = 1 := by exact_mod_cast congrArg (Int.cast (R := K)) (chi_sq b i)
    cases b.testBit i
    · simp only [Bool.false_eq_true, if_false, Bool.not_false, if_true]
      push_cast
      linear_combination (c * (d i : K)) * h4
    · simp only [Bool.false_eq_true, if_false, Bool.not_true, if_true]
      push_cast
      linear_combination (c * (d i : K)) * h4
  anti i j _ _ hij := by
    refine Finsupp.lhom_ext fun b c => ?_
    rw [Module.End.mul_apply, LinearMap.neg_apply, Module.End.mul_apply, regGen_single, regGen_single, regGen_single,
      regGen_single, ← Finsupp.single_neg]
    have h0 : b ^^^ 2 ^ j ^^^ 2 ^ i = b ^^^ 2 ^ i ^^^ 2 ^ j := by
      rw [Nat.xor_assoc, Nat.xor_comm (2 ^ j), ← Nat.xor_assoc]
    have h2 : (b ^^^ 2 ^ j).testBit i = b.testBit i := by rw [testBit_xor_two_pow, if_neg (Ne.symm hij)]
    have h3 : (b ^^^ 2 ^ i).testBit j = b.testBit j := by rw [testBit_xor_two_pow, if_neg hij]
    rw [h0, h2, h3, chi_xor_two_pow, chi_xor_two_pow]
    congr 1
    rcases Nat.lt_or_gt_of_ne hij with h | h
    · simp only [h, Nat.lt_asymm h, if_true, if_false]; push_cast; ring
    · simp only [h, Nat.lt_asymm h, if_true, if_false]; push_cast; ring

theorem regBlade (n : Nat) (d : Nat → Int) (g : Nat) :
    ∀ k b, (∀ j, j < k → b.testBit j = false) →
      bladeOf (regGen K d) k g (Finsupp.single b 1) = Finsupp.single (b ^^^ (g % 2 ^ k)) 1 := by
  intro k
  induction k with
  | zero => intro b _; simp [bladeOf, Nat.mod_one]
  | succ k ih =>
    intro b hb
    rw [bladeOf, Module.End.mul_apply]
    cases hg : g.testBit k
    · have e1 : g % 2 ^ (k + 1) = g % 2 ^ k := by
        apply Nat.eq_of_testBit_eq
        intro j
        rw [Nat.testBit_mod_two_pow, Nat.testBit_mod_two_pow]
        by_cases h1 : j < k
        · simp [h1, show j < k + 1 by omega]
        · by_cases h2 : j = k
          · subst h2; simp [hg]
          · simp [h1, show ¬ j < k + 1 by omega]
      simp only [Bool.false_eq_true, if_false, Module.End.one_apply]
      rw [ih b (fun j hj => hb j (by omega)), e1]
    · have e1 : g % 2 ^ (k + 1) = 2 ^ k ^^^ g % 2 ^ k := by
        apply Nat.eq_of_testBit_eq
        intro j
        rw [Nat.xor_comm, testBit_xor_two_pow, Nat.testBit_mod_two_pow, Nat.testBit_mod_two_pow]
        by_cases h1 : j < k
        · simp [h1, show j < k + 1 by omega, show ¬ k = j by omega]
        · by_cases h2 : k = j
          · subst h2; simp [hg]
          · simp [h1, h2, show ¬ j < k + 1 by omega]
      simp only [if_true]
      have hchi : chi b k = 1 := by
        rw [chi_congr (b := 0), chi_zero]
        intro j hj; rw [hb j (by omega)]; simp
      rw [regGen_single, hchi, hb k (by omega), e1, ← Nat.xor_assoc]
      simp only [Bool.false_eq_true, if_false]
      have : ((1 : K) * (((1 : Int) * 1 : Int) : K)) = 1 := by simp
      rw [this]
      apply ih
      intro j hj
      rw [testBit_xor_two_pow, if_neg (by omega)]
      exact hb j (by omega)

/-- Reading off the coefficient of each blade: a linear map from the Clifford algebra to formal combinations that sends
blade `g` to the unit vector `g`. -/
noncomputable def bladeCoords (n : Nat) (d : Nat → Int) : CliffordAlgebra (diagForm K n d) →ₗ[K] (Nat →₀ K) :=
  (LinearMap.applyₗ (Finsupp.single 0 (1 : K))).comp (cliffLift (K := K) (regGens K n d)).toLinearMap

theorem bladeCoords_blade (n : Nat) (d : Nat → Int) (g : Nat) (hg : g < 2 ^ n) :
    bladeCoords K n d (cliffBlade K n d g) = Finsupp.single g 1 := by
  unfold bladeCoords
  simp only [LinearMap.coe_comp, Function.comp_apply, AlgHom.toLinearMap_apply, LinearMap.applyₗ_apply_apply]
  rw [cliffLift_blade, regBlade K n d g n 0 (by simp), Nat.mod_eq_of_lt hg, Nat.zero_xor]

/-- The `2^n` blades are linearly independent. -/
theorem cliffBlade_linearIndependent (n : Nat) (d : Nat → Int) :
    LinearIndependent K (fun g : Fin (2 ^ n) => cliffBlade K n d g) := by
  apply LinearIndependent.of_comp (bladeCoords K n d)
  have : (⇑(bladeCoords K n d) ∘ fun g : Fin (2 ^ n) => cliffBlade K n d g) =
      (fun i : Nat => Finsupp.single i (1 : K)) ∘ (fun g : Fin (2 ^ n) => (g : Nat)) := by
    funext g
    exact bladeCoords_blade K n d g g.isLt
  rw [this]
  exact (Finsupp.linearIndependent_single_one K Nat).comp _ Fin.val_injective

end regular

end Gal
