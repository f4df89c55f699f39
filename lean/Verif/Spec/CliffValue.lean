import Verif.Spec.Grade
import Verif.Spec.Value
import Verif.Props.Reverse
import Verif.Props.Dual
import Mathlib.LinearAlgebra.CliffordAlgebra.Conjugation
import Mathlib.Algebra.Algebra.Rat
import Mathlib.Algebra.Module.Rat

/-!
# Specification: expressions denote elements of a Clifford algebra

The operations of an expression on elements of Mathlib's Clifford algebra: the outer product and the dual are defined as in textbooks, by grade
projection and by complements.
-/

namespace Gal

open Finset

section

theorem bladeOf_two_pow {A : Type*} [Ring A] (e : Nat → A) (i : Nat) : ∀ n, bladeOf e n (2 ^ i) = if i < n then e i else 1
  | 0 => by simp [bladeOf]
  | n + 1 => by
    rw [bladeOf, bladeOf_two_pow e i n, Nat.testBit_two_pow]
    by_cases h : i = n
    · subst h; simp
    · by_cases h2 : i < n
      · simp [h, h2, show i < n + 1 by omega]
      · simp [h, h2, show ¬ i < n + 1 by omega]

variable (K : Type) [Field K]

/-- Blades span the Clifford algebra. -/
theorem cliffBlade_span (n : Nat) (d : Nat → Int) (x : CliffordAlgebra (diagForm K n d)) :
    x ∈ Submodule.span K (cliffBlade K n d '' {g | g < 2 ^ n}) := by
  have hpos := Nat.two_pow_pos n
  have hb : ∀ g, g < 2 ^ n → cliffBlade K n d g ∈ Submodule.span K (cliffBlade K n d '' {g | g < 2 ^ n}) :=
    fun g hg => Submodule.subset_span ⟨g, hg, rfl⟩
  have h1 : (1 : CliffordAlgebra (diagForm K n d)) ∈ Submodule.span K (cliffBlade K n d '' {g | g < 2 ^ n}) := by
    have := hb 0 hpos
    rwa [cliffBlade, bladeOf_zero] at this
  induction x using CliffordAlgebra.induction with
  | algebraMap r => rw [Algebra.algebraMap_eq_smul_one]; exact Submodule.smul_mem _ _ h1
  | ι v =>
    have hv : v = ∑ i : Fin n, v i • (Pi.single i (1 : K) : Fin n → K) := by
      funext j
      simp [Finset.sum_apply, Pi.single_apply]
    rw [hv, map_sum]
    refine Submodule.sum_mem _ fun i _ => ?_
    rw [map_smul]
    refine Submodule.smul_mem _ _ ?_
    have hi := hb (2 ^ i.val) (Nat.pow_lt_pow_right (by decide) i.isLt)
    rw [cliffBlade, bladeOf_two_pow, if_pos i.isLt, cliffGen, dif_pos i.isLt] at hi
    exact hi
  | mul a b ha hb' =>
    have key : Submodule.span K (cliffBlade K n d '' {g | g < 2 ^ n}) * Submodule.span K (cliffBlade K n d '' {g | g < 2 ^ n}) ≤
        Submodule.span K (cliffBlade K n d '' {g | g < 2 ^ n}) := by
      rw [Submodule.span_mul_span, Submodule.span_le]
      rintro _ ⟨_, ⟨g, hg, rfl⟩, _, ⟨k, hk, rfl⟩, rfl⟩
      change cliffBlade K n d g * cliffBlade K n d k ∈ _
      rw [cliffBlade, cliffBlade, bladeOf_mul (cliffordGens K n d) g k hg, ← map_intCast (algebraMap K (CliffordAlgebra (diagForm K n d))),
        ← Algebra.smul_def]
      exact Submodule.smul_mem _ _ (hb _ (Nat.xor_lt_two_pow hg hk))
    exact key (Submodule.mul_mem_mul ha hb')
  | add a b ha hb' => exact Submodule.add_mem _ ha hb'

/-- Two linear maps that agree on blades are equal. -/
theorem cliff_ext {n : Nat} {d : Nat → Int} {M : Type*} [AddCommGroup M] [Module K M]
    {f g : CliffordAlgebra (diagForm K n d) →ₗ[K] M}
    (h : ∀ a, a < 2 ^ n → f (cliffBlade K n d a) = g (cliffBlade K n d a)) : f = g := by
  ext1 x
  have := cliffBlade_span K n d x
  induction this using Submodule.span_induction with
  | mem x hx => obtain ⟨a, ha, rfl⟩ := hx; exact h a ha
  | zero => simp
  | add x y _ _ hx hy => rw [map_add, map_add, hx, hy]
  | smul c x _ hx => rw [map_smul, map_smul, hx]

/-- Outer product: `Σ_{r,s} ⟨⟨x⟩ᵣ ⟨y⟩ₛ⟩_{r+s}`. -/
noncomputable def outerProd (n : Nat) (d : Nat → Int) :
    CliffordAlgebra (diagForm K n d) →ₗ[K] CliffordAlgebra (diagForm K n d) →ₗ[K] CliffordAlgebra (diagForm K n d) :=
  ∑ r ∈ range (n + 1), ∑ s ∈ range (n + 1), gradeMul K n d r s (r + s)

theorem gradeOf_xor (n a b : Nat) : gradeOf n (a ^^^ b) + 2 * gradeOf n (a &&& b) = gradeOf n a + gradeOf n b := by
  induction n with
  | zero => simp [gradeOf]
  | succ n ih =>
    rw [gradeOf_succ, gradeOf_succ, gradeOf_succ, gradeOf_succ, Nat.testBit_xor, Nat.testBit_and]
    cases a.testBit n <;> cases b.testBit n <;> simp <;> omega

theorem gradeOf_eq_zero {n g : Nat} (hg : g < 2 ^ n) : gradeOf n g = 0 ↔ g = 0 := by
  constructor
  · intro h
    by_contra hz
    obtain ⟨i, hi⟩ := Nat.exists_testBit_of_ne_zero hz
    unfold gradeOf at h
    rw [Finset.card_eq_zero] at h
    have : i ∈ (∅ : Finset Nat) := by
      rw [← h, Finset.mem_filter, Finset.mem_range]
      refine ⟨?_, hi⟩
      by_contra hn
      have : g.testBit i = false := Nat.testBit_lt_two_pow (lt_of_lt_of_le hg (Nat.pow_le_pow_right (by decide) (by omega)))
      rw [this] at hi; cases hi
    simp at this
  · rintro rfl
    simp [gradeOf]

theorem outerProd_blade_grade (n : Nat) (d : Nat → Int) (a b : Nat) (ha : a < 2 ^ n) (hb : b < 2 ^ n) :
    outerProd K n d (cliffBlade K n d a) (cliffBlade K n d b) =
      gradePart K n d (gradeOf n a + gradeOf n b) (cliffBlade K n d a * cliffBlade K n d b) := by
  unfold outerProd
  simp only [LinearMap.sum_apply]
  have la := gradeOf_le n a
  have lb := gradeOf_le n b
  rw [Finset.sum_eq_single (gradeOf n a), Finset.sum_eq_single (gradeOf n b)]
  · simp only [gradeMul_blade K n d _ _ _ a b ha hb, and_self, if_true]
  · intro s _ hs
    simp [gradeMul_blade K n d _ _ _ a b ha hb, Ne.symm hs]
  · intro hn; exact absurd (Finset.mem_range.2 (by omega)) hn
  · intro r _ hr
    apply Finset.sum_eq_zero
    intro s _
    simp [gradeMul_blade K n d _ _ _ a b ha hb, Ne.symm hr]
  · intro hn; exact absurd (Finset.mem_range.2 (by omega)) hn

/-- The outer product of blades does not depend on the metric. -/
theorem outerProd_blade (n : Nat) (d : Nat → Int) (a b : Nat) (ha : a < 2 ^ n) (hb : b < 2 ^ n) :
    outerProd K n d (cliffBlade K n d a) (cliffBlade K n d b) = (sgn (fun _ => 0) n a b : K) • cliffBlade K n d (a ^^^ b) := by
  rw [outerProd_blade_grade K n d a b ha hb]
  have hmul : cliffBlade K n d a * cliffBlade K n d b = (sgn d n a b : K) • cliffBlade K n d (a ^^^ b) := by
    rw [cliffBlade, cliffBlade, bladeOf_mul (cliffordGens K n d) a b ha,
      ← map_intCast (algebraMap K (CliffordAlgebra (diagForm K n d))), ← Algebra.smul_def]
    rfl
  rw [hmul, map_smul, gradePart_blade K n d _ _ (Nat.xor_lt_two_pow ha hb)]
  have hx := gradeOf_xor n a b
  have hz := gradeOf_eq_zero (n := n) (g := a &&& b) (Nat.and_lt_two_pow _ hb)
  by_cases h : a &&& b = 0
  · rw [if_pos (by rw [hz.2 h] at hx; omega)]
    congr 2
    unfold sgn
    apply Finset.prod_congr rfl
    intro i _
    unfold fac
    have hbit : (a.testBit i && b.testBit i) = false := by rw [← Nat.testBit_and, h]; simp
    cases ha : a.testBit i
    · rfl
    · have : b.testBit i = false := by simpa [ha] using hbit
      simp [this]
  · rw [sgn_zero_of_meet n a b ha h, if_neg (by have := mt hz.1 h; omega)]
    simp

theorem outerProd_assoc (n : Nat) (d : Nat → Int) (x y z : CliffordAlgebra (diagForm K n d)) :
    outerProd K n d (outerProd K n d x y) z = outerProd K n d x (outerProd K n d y z) := by
  have h : (outerProd K n d).flip z ∘ₗ (outerProd K n d).flip y = (outerProd K n d).flip (outerProd K n d y z) := by
    refine cliff_ext K fun a ha => ?_
    have h : (outerProd K n d).flip z ∘ₗ outerProd K n d (cliffBlade K n d a) =
        outerProd K n d (cliffBlade K n d a) ∘ₗ (outerProd K n d).flip z := by
      refine cliff_ext K fun b hb => ?_
      have h : outerProd K n d (outerProd K n d (cliffBlade K n d a) (cliffBlade K n d b)) =
          outerProd K n d (cliffBlade K n d a) ∘ₗ outerProd K n d (cliffBlade K n d b) := by
        refine cliff_ext K fun c hc => ?_
        rw [LinearMap.comp_apply, outerProd_blade K n d a b ha hb, outerProd_blade K n d b c hb hc, map_smul, map_smul,
          LinearMap.smul_apply, outerProd_blade K n d _ c (Nat.xor_lt_two_pow ha hb) hc,
          outerProd_blade K n d a _ ha (Nat.xor_lt_two_pow hb hc), smul_smul, smul_smul, Nat.xor_assoc,
          ← Int.cast_mul, ← Int.cast_mul, sgn_assoc]
      exact LinearMap.congr_fun h z
    exact LinearMap.congr_fun h y
  exact LinearMap.congr_fun h x

/-- A linear map is a dual when blade `g` is sent to a multiple of the complementary blade and the outer product of the two is the
pseudoscalar. -/
structure IsDual (n : Nat) (d : Nat → Int) (D : CliffordAlgebra (diagForm K n d) →ₗ[K] CliffordAlgebra (diagForm K n d)) : Prop where
  compl : ∀ g, g < 2 ^ n → ∃ c : K, D (cliffBlade K n d g) = c • cliffBlade K n d (2 ^ n - 1 - g)
  pairs : ∀ g, g < 2 ^ n → outerProd K n d (cliffBlade K n d g) (D (cliffBlade K n d g)) = cliffBlade K n d (2 ^ n - 1)

theorem outerProd_ext {n : Nat} (hn : n ≤ 8) (d : Nat → Int) (a b : Nat) (ha : a < 2 ^ n) (hb : b < 2 ^ n) :
    outerProd K n d (cliffBlade K n d a) (cliffBlade K n d b) =
      ((extProduct a b).2 : K) • cliffBlade K n d (extProduct a b).1 := by
  rw [outerProd_blade K n d a b ha hb, extProduct_eq n a b (by omega) ha hb]
  split
  · rename_i h; rw [h]; simp
  · rfl

theorem cliffBlade_ne_zero (n : Nat) (d : Nat → Int) (g : Nat) (hg : g < 2 ^ n) : cliffBlade K n d g ≠ 0 := by
  intro h
  have := bladeCoords_blade K n d g hg
  rw [h, map_zero] at this
  exact one_ne_zero (Finsupp.single_eq_zero.1 this.symm)

theorem IsDual.blade {n : Nat} (hn : n ≤ 8) {d : Nat → Int}
    {D : CliffordAlgebra (diagForm K n d) →ₗ[K] CliffordAlgebra (diagForm K n d)} (H : IsDual K n d D) (g : Nat)
    (hg : g < 2 ^ n) :
    D (cliffBlade K n d g) = ((poincareComplement g n).2 : K) • cliffBlade K n d (poincareComplement g n).1 := by
  obtain ⟨c, hc⟩ := H.compl g hg
  have hp := Nat.two_pow_pos n
  have h3 := H.pairs g hg
  obtain ⟨t1, t2, t3, _⟩ := complement_table ⟨n, by omega⟩ ⟨g, hg⟩
  simp only at t1 t2 t3
  rw [hc, map_smul, outerProd_ext K hn d g _ hg (by omega), t2, smul_smul] at h3
  have hz : (c * ((poincareComplement g n).2 : K) - 1) • cliffBlade K n d (2 ^ n - 1) = 0 := by
    rw [sub_smul, h3, one_smul, sub_self]
  have hc1 : c * ((poincareComplement g n).2 : K) = 1 := by
    rcases smul_eq_zero.1 hz with h | h
    · exact sub_eq_zero.1 h
    · exact absurd h (cliffBlade_ne_zero K n d _ (by omega))
  rw [hc, t1]
  congr 1
  rcases t3 with t | t <;> rw [t] at hc1 ⊢ <;> simp at hc1 ⊢
  · exact hc1
  · rw [← hc1]; ring

/-- There is such a map in every dimension up to 8. -/
theorem exists_isDual (n : Nat) (hn : n ≤ 8) (d : Nat → Int) : ∃ D, IsDual K n d D := by
  have hp := Nat.two_pow_pos n
  refine ⟨(Finsupp.linearCombination K fun g : Nat =>
    ((poincareComplement g n).2 : K) • cliffBlade K n d (poincareComplement g n).1).comp (bladeCoords K n d), ?_, ?_⟩
  · intro g hg
    refine ⟨((poincareComplement g n).2 : K), ?_⟩
    rw [LinearMap.comp_apply, bladeCoords_blade K n d g hg, Finsupp.linearCombination_single, one_smul,
      (C16_complement K n hn g hg).1]
  · intro g hg
    obtain ⟨t1, t2, t3, _⟩ := complement_table ⟨n, by omega⟩ ⟨g, hg⟩
    simp only at t1 t2 t3
    rw [LinearMap.comp_apply, bladeCoords_blade K n d g hg, Finsupp.linearCombination_single, one_smul, map_smul, t1,
      outerProd_ext K hn d g _ hg (by omega), t2, smul_smul]
    rcases t3 with h3 | h3 <;> rw [h3] <;> simp

/-- The coefficient of blade `e`, as a scalar. -/
noncomputable def coefficient (n : Nat) (d : Nat → Int) (e : Nat) :
    CliffordAlgebra (diagForm K n d) →ₗ[K] CliffordAlgebra (diagForm K n d) :=
  ((Finsupp.lapply e : (Nat →₀ K) →ₗ[K] K).comp (bladeCoords K n d)).smulRight 1

theorem coefficient_blade (n : Nat) (d : Nat → Int) (e g : Nat) (hg : g < 2 ^ n) :
    coefficient K n d e (cliffBlade K n d g) = if g = e then 1 else 0 := by
  unfold coefficient
  rw [LinearMap.smulRight_apply, LinearMap.comp_apply, bladeCoords_blade K n d g hg, Finsupp.lapply_apply, Finsupp.single_apply]
  split <;> simp

/-- A bilinear map, over the rationals. -/
def ratBilin [CharZero K] {V : Type} [AddCommGroup V] [Module K V] [Module ℚ V] (B : V →ₗ[K] V →ₗ[K] V) : V →ₗ[ℚ] V →ₗ[ℚ] V :=
  LinearMap.mk₂ ℚ (fun x y => B x y) (by simp) (by intro c x y; rw [← Rat.cast_smul_eq_qsmul K, map_smul]; simp [Rat.cast_smul_eq_qsmul])
    (by simp) (by intro c x y; rw [← Rat.cast_smul_eq_qsmul K, map_smul, Rat.cast_smul_eq_qsmul])

/-- The value of a constant node: zero, the named constants, and the basis elements. -/
noncomputable def cliffConst (n : Nat) (d : Nat → Int) (named : Nat → K) (o : Nat) : CliffordAlgebra (diagForm K n d) :=
  if o = Op.czero then 0 else if o < Op.cend then named (o - Op.cpi) • 1 else cliffBlade K n d (o - Op.cscalar)

/-- The operations of an expression on the elements of the Clifford algebra with `n` generators squaring to `d`: `named` are the named
constants, `D` is the dual and `w` are the arguments.  Quotients and functions have no value here. -/
noncomputable def cliffInterp [CharZero K] (n : Nat) (d : Nat → Int) (named : Nat → K)
    (D : CliffordAlgebra (diagForm K n d) →ₗ[K] CliffordAlgebra (diagForm K n d))
    (w : Nat → CliffordAlgebra (diagForm K n d)) : Interp (CliffordAlgebra (diagForm K n d)) where
  arg i _ := w i
  const := cliffConst K n d named
  rev := CliffordAlgebra.reverse.restrictScalars ℚ
  pd := D.restrictScalars ℚ
  comp e := (coefficient K n d e).restrictScalars ℚ
  grd g := (gradePart K n d g).restrictScalars ℚ
  gp := ratBilin K (LinearMap.mul K _)
  lc := ratBilin K (leftContraction K n d)
  sip := ratBilin K (innerProd K n d)
  ep := ratBilin K (outerProd K n d)
  quot _ _ := 0
  fn _ _ := 0
  rev_rev x := CliffordAlgebra.reverse_reverse x
  ep_assoc x y z := outerProd_assoc K n d x y z
  quot_smul _ _ _ _ _ := by simp

end

end Gal
