import Verif.Spec.CliffValue
import Verif.Props.Null

/-!
# Specification: values in an algebra with a null basis

Elements are outer products of the null generators `no = (ep + en) / 2` and `ni = en - ep` and the other generators.
-/

namespace Gal

open Finset

section

variable (K : Type) [Field K]

/-- The outer product of the generators `e i` whose bit is set in `g`, in ascending order. -/
noncomputable def outerBlade (n : Nat) (d : Nat → Int) (e : Nat → CliffordAlgebra (diagForm K n d)) : Nat → Nat → CliffordAlgebra (diagForm K n d)
  | 0, _ => 1
  | k + 1, g => outerProd K n d (outerBlade n d e k g) (if g.testBit k then e k else 1)

/-- Element `g` of the null basis. -/
noncomputable def nullElem (n : Nat) (d : Nat → Int) (g : Nat) : CliffordAlgebra (diagForm K n d) :=
  outerBlade K n d (nullGen (K := K) n (cliffGen K n d)) n g

/-- `C e` is the coefficient of element `e` of the null basis. -/
def IsNullCoeff (n : Nat) (d : Nat → Int) (C : Nat → CliffordAlgebra (diagForm K n d) →ₗ[K] CliffordAlgebra (diagForm K n d)) : Prop :=
  ∀ e, e < 2 ^ n → ∀ g, g < 2 ^ n → C e (nullElem K n d g) = if g = e then 1 else 0

/-- The value of a constant node. -/
noncomputable def nullConst (n : Nat) (d : Nat → Int) (named : Nat → K) (o : Nat) : CliffordAlgebra (diagForm K n d) :=
  if o = Op.czero then 0 else if o < Op.cend then named (o - Op.cpi) • 1 else nullElem K n d (o - Op.cscalar)

/-- The operations of an expression in an algebra with a null basis: constants and selected elements refer to the null basis. -/
noncomputable def nullInterp [CharZero K] (n : Nat) (d : Nat → Int) (named : Nat → K)
    (D : CliffordAlgebra (diagForm K n d) →ₗ[K] CliffordAlgebra (diagForm K n d))
    (C : Nat → CliffordAlgebra (diagForm K n d) →ₗ[K] CliffordAlgebra (diagForm K n d))
    (w : Nat → CliffordAlgebra (diagForm K n d)) : Interp (CliffordAlgebra (diagForm K n d)) :=
  { cliffInterp K n d named D w with
    const := nullConst K n d named
    comp := fun e => (C e).restrictScalars ℚ }

/-- The element contains both of the last two generators or neither. -/
def Unmixed (n e : Nat) : Prop := e.testBit (n - 2) = e.testBit (n - 1)

instance (n e : Nat) : Decidable (Unmixed n e) := inferInstanceAs (Decidable (_ = _))

/-! ## The null basis and the natural basis -/

theorem outer_table : ∀ k : Fin 8, ∀ x : Fin (2 ^ k.val), extProduct x.val (2 ^ k.val) = (x.val + 2 ^ k.val, 1) ∧
    extProduct x.val 0 = (x.val, 1) := by decide +kernel

theorem outer_table2 : ∀ k : Fin 7, ∀ x : Fin (2 ^ k.val), extProduct x.val (2 ^ (k.val + 1)) = (x.val + 2 ^ (k.val + 1), 1) ∧
    extProduct (x.val + 2 ^ k.val) (2 ^ (k.val + 1)) = (x.val + 2 ^ k.val + 2 ^ (k.val + 1), 1) ∧
    extProduct (x.val + 2 ^ (k.val + 1)) (2 ^ k.val) = (x.val + 2 ^ k.val + 2 ^ (k.val + 1), -1) ∧
    (extProduct (x.val + 2 ^ k.val) (2 ^ k.val)).2 = 0 ∧ (extProduct (x.val + 2 ^ (k.val + 1)) (2 ^ (k.val + 1))).2 = 0 ∧
    extProduct (x.val + 2 ^ k.val) 0 = (x.val + 2 ^ k.val, 1) ∧
    extProduct (x.val + 2 ^ (k.val + 1)) 0 = (x.val + 2 ^ (k.val + 1), 1) := by decide +kernel

theorem bits_split : ∀ k : Fin 7, ∀ g : Fin (2 ^ (k.val + 2)),
    g.val = g.val % 2 ^ k.val + (if g.val.testBit k then 2 ^ k.val else 0) + (if g.val.testBit (k + 1) then 2 ^ (k.val + 1) else 0) ∧
    g.val ^^^ (1 <<< k.val ^^^ 1 <<< (k.val + 1)) =
      g.val % 2 ^ k.val + (if g.val.testBit k then 0 else 2 ^ k.val) + (if g.val.testBit (k + 1) then 0 else 2 ^ (k.val + 1)) := by
  decide +kernel

variable {K}

theorem cliffBlade_zero (n : Nat) (d : Nat → Int) : cliffBlade K n d 0 = 1 := by rw [cliffBlade, bladeOf_zero]

theorem cliffBlade_gen {n : Nat} (d : Nat → Int) {i : Nat} (hi : i < n) : cliffBlade K n d (2 ^ i) = cliffGen K n d i := by
  rw [cliffBlade, bladeOf_two_pow, if_pos hi]

theorem outerBlade_congr {n : Nat} {d : Nat → Int} {e f : Nat → CliffordAlgebra (diagForm K n d)} (g : Nat) : ∀ k, (∀ i, i < k → e i = f i) →
    outerBlade K n d e k g = outerBlade K n d f k g
  | 0, _ => rfl
  | k + 1, h => by
    rw [outerBlade, outerBlade, outerBlade_congr g k (fun i hi => h i (by omega)), h k (by omega)]

theorem outerBlade_gen {n : Nat} (hn : n ≤ 8) (d : Nat → Int) (g : Nat) : ∀ k, k ≤ n →
    outerBlade K n d (cliffGen K n d) k g = cliffBlade K n d (g % 2 ^ k)
  | 0, _ => by rw [outerBlade, pow_zero, Nat.mod_one, cliffBlade_zero]
  | k + 1, h => by
    have hlt : g % 2 ^ k < 2 ^ k := Nat.mod_lt _ (Nat.two_pow_pos _)
    have hle : 2 ^ (k + 1) ≤ 2 ^ n := Nat.pow_le_pow_right (by decide) h
    have h1 : 2 ^ (k + 1) = 2 ^ k * 2 := pow_succ _ _
    obtain ⟨t1, t2⟩ := outer_table ⟨k, by omega⟩ ⟨_, hlt⟩
    simp only at t1 t2
    rw [outerBlade, outerBlade_gen hn d g k (by omega)]
    have hm : g % 2 ^ (k + 1) = g % 2 ^ k + 2 ^ k * (g.testBit k).toNat := by
      rw [Nat.mod_pow_succ, Nat.testBit_eq_decide_div_mod_eq]
      congr 2
      rcases Nat.mod_two_eq_zero_or_one (g / 2 ^ k) with h | h <;> simp [h]
    cases hb : g.testBit k
    · rw [hb] at hm
      simp only [Bool.false_eq_true, if_false, Bool.toNat_false, mul_zero, add_zero] at hm ⊢
      rw [hm, ← cliffBlade_zero (K := K) n d, outerProd_ext K hn d _ _ (by omega) (Nat.two_pow_pos _), t2]
      simp
    · rw [hb] at hm
      simp only [if_true, Bool.toNat_true, mul_one] at hm ⊢
      rw [hm, ← cliffBlade_gen (K := K) d (show k < n by omega), outerProd_ext K hn d _ _ (by omega) (by omega), t1]
      simp

theorem natTarget_cliff [CharZero K] {n : Nat} (h2 : 2 ≤ n) (h8 : n ≤ 8) (d : Nat → Int) {g : Nat} (hg : g < 2 ^ n) :
    natTarget (K := K) n (cliffBlade K n d) g = nullElem K n d g := by
  obtain ⟨k, rfl⟩ : ∃ k, n = k + 2 := ⟨n - 2, by omega⟩
  obtain ⟨t1, t2, t3, t4, -⟩ := bits_table ⟨k, by omega⟩ ⟨g, hg⟩
  obtain ⟨s1, s2⟩ := bits_split ⟨k, by omega⟩ ⟨g, hg⟩
  have hlt : g % 2 ^ k < 2 ^ k := Nat.mod_lt _ (Nat.two_pow_pos _)
  obtain ⟨u1, u0⟩ := outer_table ⟨k, by omega⟩ ⟨_, hlt⟩
  obtain ⟨u2, u3, u4, u5, u6, u7, u8⟩ := outer_table2 ⟨k, by omega⟩ ⟨_, hlt⟩
  simp only at t1 t2 t3 t4 s1 s2 u0 u1 u2 u3 u4 u5 u6 u7 u8
  have hlow : outerBlade K (k + 2) d (nullGen (K := K) (k + 2) (cliffGen K (k + 2) d)) k g = cliffBlade K (k + 2) d (g % 2 ^ k) := by
    rw [outerBlade_congr g k (f := cliffGen K (k + 2) d), outerBlade_gen h8 d g k (by omega)]
    intro i hi
    unfold nullGen
    rw [if_neg (by omega), if_neg (by omega)]
  have hno : nullGen (K := K) (k + 2) (cliffGen K (k + 2) d) k =
      (2 : K)⁻¹ • (cliffBlade K (k + 2) d (2 ^ k) + cliffBlade K (k + 2) d (2 ^ (k + 1))) := by
    rw [cliffBlade_gen d (by omega), cliffBlade_gen d (by omega)]
    exact if_pos rfl
  have hni : nullGen (K := K) (k + 2) (cliffGen K (k + 2) d) (k + 1) = cliffBlade K (k + 2) d (2 ^ (k + 1)) - cliffBlade K (k + 2) d (2 ^ k) := by
    rw [cliffBlade_gen d (by omega), cliffBlade_gen d (by omega)]
    unfold nullGen
    rw [if_neg (by omega), if_pos (by omega)]
    rfl
  have p1 : 2 ^ (k + 1) = 2 ^ k * 2 := pow_succ _ _
  have p2 : 2 ^ (k + 2) = 2 ^ (k + 1) * 2 := pow_succ _ _
  have hone := cliffBlade_zero (K := K) (k + 2) d
  have hW : ∀ a b, a < 2 ^ (k + 2) → b < 2 ^ (k + 2) → outerProd K (k + 2) d (cliffBlade K (k + 2) d a) (cliffBlade K (k + 2) d b) =
      ((extProduct a b).2 : K) • cliffBlade K (k + 2) d (extProduct a b).1 := fun a b ha hb => outerProd_ext K h8 d a b ha hb
  have hx := Nat.two_pow_pos k
  generalize hX : g % 2 ^ k = x at *
  have w0 := hW x 0 (by omega) (by omega)
  have w1 := hW x (2 ^ k) (by omega) (by omega)
  have w2 := hW x (2 ^ (k + 1)) (by omega) (by omega)
  have w3 := hW (x + 2 ^ k) (2 ^ (k + 1)) (by omega) (by omega)
  have w4 := hW (x + 2 ^ (k + 1)) (2 ^ k) (by omega) (by omega)
  have w5 := hW (x + 2 ^ k) (2 ^ k) (by omega) (by omega)
  have w6 := hW (x + 2 ^ (k + 1)) (2 ^ (k + 1)) (by omega) (by omega)
  have w7 := hW (x + 2 ^ k) 0 (by omega) (by omega)
  have w8 := hW (x + 2 ^ (k + 1)) 0 (by omega) (by omega)
  rw [u0] at w0; rw [u1] at w1; rw [u2] at w2; rw [u3] at w3; rw [u4] at w4; rw [u5] at w5; rw [u6] at w6; rw [u7] at w7; rw [u8] at w8
  simp only [Int.cast_one, Int.cast_neg, Int.cast_zero, one_smul, neg_smul, zero_smul, hone] at w0 w1 w2 w3 w4 w5 w6 w7 w8
  unfold natTarget nullElem
  rw [outerBlade, outerBlade, hlow, hno, hni]
  simp only [Nat.add_sub_cancel, show k + 2 - 1 = k + 1 by omega, t1, t2, t3, s2]
  have hg' := congrArg (cliffBlade K (k + 2) d) s1
  cases h0 : g.testBit k <;> cases h1 : g.testBit (k + 1) <;>
    simp only [h0, h1, Bool.false_eq_true, if_true, if_false, add_zero] at hg' <;>
    simp [hg', w0, w1, w2, w3, w4, w5, w6, w7, w8]
  · abel
  · module

theorem nullTarget_null [CharZero K] {n : Nat} (h2 : 2 ≤ n) (h8 : n ≤ 8) (d : Nat → Int) {g : Nat} (hg : g < 2 ^ n) :
    nullTarget (K := K) n (nullElem K n d) g = cliffBlade K n d g := by
  have hx : g ^^^ (1 <<< (n - 2) ^^^ 1 <<< (n - 1)) < 2 ^ n := by
    obtain ⟨k, rfl⟩ : ∃ k, n = k + 2 := ⟨n - 2, by omega⟩
    exact (bits_table ⟨k, by omega⟩ ⟨g, hg⟩).2.2.2.1
  rw [← (nullTarget_natTarget (K := K) h2 h8 (cliffBlade K n d) hg).1]
  unfold nullTarget
  simp only [natTarget_cliff (K := K) h2 h8 d hg, natTarget_cliff (K := K) h2 h8 d hx]

theorem nullTarget_map {V W : Type} [AddCommGroup V] [Module K V] [AddCommGroup W] [Module K W] (n : Nat) (β : Nat → V) (f : V →ₗ[K] W) (g : Nat) :
    f (nullTarget (K := K) n β g) = nullTarget (K := K) n (fun i => f (β i)) g := by
  unfold nullTarget
  dsimp only
  split_ifs <;> simp

theorem natTarget_map {V W : Type} [AddCommGroup V] [Module K V] [AddCommGroup W] [Module K W] (n : Nat) (β : Nat → V) (f : V →ₗ[K] W) (g : Nat) :
    f (natTarget (K := K) n β g) = natTarget (K := K) n (fun i => f (β i)) g := by
  unfold natTarget
  dsimp only
  split_ifs <;> simp

theorem natTarget_congr {V : Type} [AddCommGroup V] [Module K V] {n : Nat} (h2 : 2 ≤ n) (h8 : n ≤ 8) {β γ : Nat → V} (h : ∀ i, i < 2 ^ n → β i = γ i)
    {g : Nat} (hg : g < 2 ^ n) : natTarget (K := K) n β g = natTarget (K := K) n γ g := by
  have hx : g ^^^ (1 <<< (n - 2) ^^^ 1 <<< (n - 1)) < 2 ^ n := by
    obtain ⟨k, rfl⟩ : ∃ k, n = k + 2 := ⟨n - 2, by omega⟩
    exact (bits_table ⟨k, by omega⟩ ⟨g, hg⟩).2.2.2.1
  unfold natTarget
  simp only [h _ hg, h _ hx]

/-- Elements with both or neither of the null generators are the same in both bases. -/
theorem nullElem_unmixed [CharZero K] {n : Nat} (h2 : 2 ≤ n) (h8 : n ≤ 8) (d : Nat → Int) {e : Nat} (he : e < 2 ^ n) (hu : Unmixed n e) :
    nullElem K n d e = cliffBlade K n d e := by
  rw [← natTarget_cliff h2 h8 d he]
  obtain ⟨k, rfl⟩ : ∃ k, n = k + 2 := ⟨n - 2, by omega⟩
  obtain ⟨t1, t2, t3, -, -⟩ := bits_table ⟨k, by omega⟩ ⟨e, he⟩
  unfold Unmixed at hu
  simp only [Nat.add_sub_cancel, show k + 2 - 1 = k + 1 by omega] at hu
  unfold natTarget
  simp only [Nat.add_sub_cancel, show k + 2 - 1 = k + 1 by omega, t1, t2, t3]
  rw [hu]
  cases e.testBit (k + 1) <;> simp

/-- There are such coefficient maps. -/
theorem exists_isNullCoeff (K : Type) [Field K] [CharZero K] (n : Nat) (h2 : 2 ≤ n) (h8 : n ≤ 8) (d : Nat → Int) : ∃ C, IsNullCoeff K n d C := by
  refine ⟨fun e => (Finsupp.linearCombination K fun g : Nat =>
    nullTarget (K := K) n (fun i => if i = e then (1 : CliffordAlgebra (diagForm K n d)) else 0) g).comp (bladeCoords K n d), fun e he g hg => ?_⟩
  rw [← natTarget_cliff h2 h8 d hg, natTarget_map, natTarget_congr h2 h8 (γ := nullTarget (K := K) n
    (fun i => if i = e then (1 : CliffordAlgebra (diagForm K n d)) else 0)) _ hg, (nullTarget_natTarget h2 h8 _ hg).2]
  intro i hi
  rw [LinearMap.comp_apply, bladeCoords_blade K n d i hi, Finsupp.linearCombination_single, one_smul]

/-- For elements with both or neither of the null generators, the coefficients are the same in both bases. -/
theorem IsNullCoeff.unmixed [CharZero K] {n : Nat} (h2 : 2 ≤ n) (h8 : n ≤ 8) {d : Nat → Int}
    {C : Nat → CliffordAlgebra (diagForm K n d) →ₗ[K] CliffordAlgebra (diagForm K n d)} (h : IsNullCoeff K n d C) {e : Nat} (he : e < 2 ^ n)
    (hu : Unmixed n e) : C e = coefficient K n d e := by
  refine cliff_ext K fun g hg => ?_
  have hx : g ^^^ (1 <<< (n - 2) ^^^ 1 <<< (n - 1)) < 2 ^ n := by
    obtain ⟨k, rfl⟩ : ∃ k, n = k + 2 := ⟨n - 2, by omega⟩
    exact (bits_table ⟨k, by omega⟩ ⟨g, hg⟩).2.2.2.1
  rw [coefficient_blade K n d e g hg, ← nullTarget_null h2 h8 d hg, nullTarget_map]
  unfold nullTarget
  simp only [h e he g hg, h e he _ hx]
  obtain ⟨k, rfl⟩ : ∃ k, n = k + 2 := ⟨n - 2, by omega⟩
  obtain ⟨t1, t2, t3, t4, t5⟩ := bits_table ⟨k, by omega⟩ ⟨g, hg⟩
  simp only at t1 t2 t3 t4 t5
  have hxk := t5 ⟨k, by omega⟩
  have hxk1 := t5 ⟨k + 1, by omega⟩
  simp only [lt_irrefl, if_false] at hxk
  rw [if_neg (by simp)] at hxk1
  simp only at hxk hxk1
  unfold Unmixed at hu
  simp only [Nat.add_sub_cancel, show k + 2 - 1 = k + 1 by omega] at hu ⊢
  simp only [t1, t2, t3]
  have key : g.testBit k ≠ g.testBit (k + 1) → ¬ g = e ∧ ¬ g ^^^ (1 <<< k ^^^ 1 <<< (k + 1)) = e := by
    intro hne
    constructor
    · rintro rfl
      exact hne hu
    · intro h'
      rw [← h', hxk, hxk1] at hu
      apply hne
      simpa using hu
  cases h0 : g.testBit k <;> cases h1 : g.testBit (k + 1) <;> simp
  · obtain ⟨a, b⟩ := key (by rw [h0, h1]; decide)
    simp [a, b]
  · obtain ⟨a, b⟩ := key (by rw [h0, h1]; decide)
    simp [a, b]

end

end Gal
