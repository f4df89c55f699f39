import Verif.CliffordBasis
import Mathlib.LinearAlgebra.BilinearMap

/-!
# Specification: grades in a Clifford algebra, contraction and inner product

Textbook definitions on arbitrary elements, by projecting the geometric product to a grade.
-/

namespace Gal

open Finset

/-- Grade of a basis element: number of generators below `n` it contains. -/
def gradeOf (n g : Nat) : Nat := ((range n).filter fun i => g.testBit i = true).card

variable (K : Type) [Field K]

/-- Projection to the grade `k` part. -/
noncomputable def gradePart (n : Nat) (d : Nat → Int) (k : Nat) :
    CliffordAlgebra (diagForm K n d) →ₗ[K] CliffordAlgebra (diagForm K n d) :=
  ∑ g ∈ (range (2 ^ n)).filter (fun g => gradeOf n g = k),
    ((Finsupp.lapply g : (Nat →₀ K) →ₗ[K] K).comp (bladeCoords K n d)).smulRight (cliffBlade K n d g)

/-- `⟨⟨x⟩ᵣ ⟨y⟩ₛ⟩ₖ`. -/
noncomputable def gradeMul (n : Nat) (d : Nat → Int) (r s k : Nat) :
    CliffordAlgebra (diagForm K n d) →ₗ[K] CliffordAlgebra (diagForm K n d) →ₗ[K] CliffordAlgebra (diagForm K n d) :=
  ((LinearMap.mul K _).compl₁₂ (gradePart K n d r) (gradePart K n d s)).compr₂ (gradePart K n d k)

/-- Left contraction: `Σ_{r ≤ s} ⟨⟨x⟩ᵣ ⟨y⟩ₛ⟩_{s-r}`. -/
noncomputable def leftContraction (n : Nat) (d : Nat → Int) :
    CliffordAlgebra (diagForm K n d) →ₗ[K] CliffordAlgebra (diagForm K n d) →ₗ[K] CliffordAlgebra (diagForm K n d) :=
  ∑ r ∈ range (n + 1), ∑ s ∈ range (n + 1), if r ≤ s then gradeMul K n d r s (s - r) else 0

/-- Hestenes' inner product: `Σ_{r,s>0} ⟨⟨x⟩ᵣ ⟨y⟩ₛ⟩_{|s-r|}`. -/
noncomputable def innerProd (n : Nat) (d : Nat → Int) :
    CliffordAlgebra (diagForm K n d) →ₗ[K] CliffordAlgebra (diagForm K n d) →ₗ[K] CliffordAlgebra (diagForm K n d) :=
  ∑ r ∈ range (n + 1), ∑ s ∈ range (n + 1),
    if 0 < r ∧ 0 < s then gradeMul K n d r s ((s - r) + (r - s)) else 0

theorem gradeOf_le (n g : Nat) : gradeOf n g ≤ n := by
  unfold gradeOf
  exact (Finset.card_filter_le _ _).trans (by simp)

theorem gradePart_blade (n : Nat) (d : Nat → Int) (k g : Nat) (hg : g < 2 ^ n) :
    gradePart K n d k (cliffBlade K n d g) = if gradeOf n g = k then cliffBlade K n d g else 0 := by
  unfold gradePart
  rw [LinearMap.sum_apply]
  simp only [LinearMap.smulRight_apply, LinearMap.comp_apply, bladeCoords_blade K n d g hg, Finsupp.lapply_apply,
    Finsupp.single_apply, ite_smul, one_smul, zero_smul]
  by_cases h : gradeOf n g = k
  · rw [if_pos h, Finset.sum_eq_single g]
    · simp
    · intro b _ hb; simp [Ne.symm hb]
    · intro hn; exact absurd (by simp [hg, h]) hn
  · rw [if_neg h]
    apply Finset.sum_eq_zero
    intro b hb
    rw [if_neg]
    rintro rfl
    exact h (Finset.mem_filter.1 hb).2

theorem gradeMul_blade (n : Nat) (d : Nat → Int) (r s k a b : Nat) (ha : a < 2 ^ n) (hb : b < 2 ^ n) :
    gradeMul K n d r s k (cliffBlade K n d a) (cliffBlade K n d b) =
      if gradeOf n a = r ∧ gradeOf n b = s then
        gradePart K n d k (cliffBlade K n d a * cliffBlade K n d b) else 0 := by
  unfold gradeMul
  simp only [LinearMap.compr₂_apply, LinearMap.compl₁₂_apply, gradePart_blade K n d _ _ ha, gradePart_blade K n d _ _ hb,
    LinearMap.mul_apply']
  by_cases h1 : gradeOf n a = r <;> by_cases h2 : gradeOf n b = s <;> simp [h1, h2]

theorem leftContraction_blade (n : Nat) (d : Nat → Int) (a b : Nat) (ha : a < 2 ^ n) (hb : b < 2 ^ n) :
    leftContraction K n d (cliffBlade K n d a) (cliffBlade K n d b) =
      if gradeOf n a ≤ gradeOf n b then
        gradePart K n d (gradeOf n b - gradeOf n a) (cliffBlade K n d a * cliffBlade K n d b) else 0 := by
  unfold leftContraction
  simp only [LinearMap.sum_apply]
  have la := gradeOf_le n a
  have lb := gradeOf_le n b
  rw [Finset.sum_eq_single (gradeOf n a), Finset.sum_eq_single (gradeOf n b)]
  · by_cases h : gradeOf n a ≤ gradeOf n b
    · simp only [if_pos h, gradeMul_blade K n d _ _ _ a b ha hb, and_self, if_true]
    · simp only [if_neg h, LinearMap.zero_apply]
  · intro s _ hs
    by_cases h : gradeOf n a ≤ s
    · simp [if_pos h, gradeMul_blade K n d _ _ _ a b ha hb, Ne.symm hs]
    · simp [if_neg h]
  · intro hn; exact absurd (Finset.mem_range.2 (by omega)) hn
  · intro r _ hr
    apply Finset.sum_eq_zero
    intro s _
    by_cases h : r ≤ s
    · simp [if_pos h, gradeMul_blade K n d _ _ _ a b ha hb, Ne.symm hr]
    · simp [if_neg h]
  · intro hn; exact absurd (Finset.mem_range.2 (by omega)) hn

theorem innerProd_blade (n : Nat) (d : Nat → Int) (a b : Nat) (ha : a < 2 ^ n) (hb : b < 2 ^ n) :
    innerProd K n d (cliffBlade K n d a) (cliffBlade K n d b) =
      if 0 < gradeOf n a ∧ 0 < gradeOf n b then
        gradePart K n d ((gradeOf n b - gradeOf n a) + (gradeOf n a - gradeOf n b))
          (cliffBlade K n d a * cliffBlade K n d b) else 0 := by
  unfold innerProd
  simp only [LinearMap.sum_apply]
  have la := gradeOf_le n a
  have lb := gradeOf_le n b
  rw [Finset.sum_eq_single (gradeOf n a), Finset.sum_eq_single (gradeOf n b)]
  · by_cases h : 0 < gradeOf n a ∧ 0 < gradeOf n b
    · simp only [if_pos h, gradeMul_blade K n d _ _ _ a b ha hb, and_self, if_true]
    · simp only [if_neg h, LinearMap.zero_apply]
  · intro s _ hs
    by_cases h : 0 < gradeOf n a ∧ 0 < s
    · simp [if_pos h, gradeMul_blade K n d _ _ _ a b ha hb, Ne.symm hs]
    · simp [if_neg h]
  · intro hn; exact absurd (Finset.mem_range.2 (by omega)) hn
  · intro r _ hr
    apply Finset.sum_eq_zero
    intro s _
    by_cases h : 0 < r ∧ 0 < s
    · simp [if_pos h, gradeMul_blade K n d _ _ _ a b ha hb, Ne.symm hr]
    · simp [if_neg h]
  · intro hn; exact absurd (Finset.mem_range.2 (by omega)) hn

end Gal
