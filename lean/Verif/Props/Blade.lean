import Verif.Metrics
import Verif.CliffordBasis
import Mathlib.LinearAlgebra.ExteriorAlgebra.Basic
import Mathlib.Algebra.Order.Ring.Int

/-!
# Properties C10–C14: products of basis elements

`m.dim ≤ 8` everywhere because `elem_t` has eight bits.
-/

namespace Gal

open Finset

attribute [local irreducible] popCount

/-! ## C10 -/

/-- C10: the geometric product of basis elements is the product in Mathlib's Clifford algebra of the metric. -/
theorem C10_geometric (K : Type) [Field K] (m : Metric) (hm : m.dim ≤ 8) (a b : Nat)
    (ha : a < 2 ^ m.dim) (hb : b < 2 ^ m.dim) :
    cliffBlade K m.dim m.sq a * cliffBlade K m.dim m.sq b =
      ((geoProduct m a b).2 : K) • cliffBlade K m.dim m.sq (geoProduct m a b).1 := by
  unfold cliffBlade
  rw [bladeOf_mul (cliffordGens K m.dim m.sq) a b ha, geoProduct_eq m m.dim a b (by omega) ha hb]
  split
  · rename_i h; rw [h]; simp
  · rw [Algebra.smul_def, map_intCast]

example : ∃ (m : Metric) (a b : Nat), m.dim ≤ 8 ∧ a < 2 ^ m.dim ∧ b < 2 ^ m.dim ∧ geoProduct m a b = (0b11001, 1) :=
  ⟨cgaMetric, 0b10011, 0b01010, by decide +kernel, by decide +kernel, by decide +kernel, by decide +kernel⟩

/-- C10: the multiplier is always −1, 0 or 1, the resulting element stays in range, and the value is determined: no other
pair (element in range, non-zero multiplier) denotes the same product. -/
theorem C10_geometric_range (m : Metric) (hm : m.dim ≤ 8) (a b : Nat) (ha : a < 2 ^ m.dim) (hb : b < 2 ^ m.dim) :
    ((geoProduct m a b).2 = 0 ∨ (geoProduct m a b).2 = 1 ∨ (geoProduct m a b).2 = -1) ∧
      (geoProduct m a b).1 < 2 ^ m.dim := by
  rw [geoProduct_eq m m.dim a b (by omega) ha hb]
  split
  · exact ⟨Or.inl rfl, Nat.two_pow_pos _⟩
  · refine ⟨?_, Nat.xor_lt_two_pow ha hb⟩
    right
    rename_i h
    have hall : ∀ s : Finset Nat, (∏ i ∈ s, fac m.sq a b i) = 0 ∨ (∏ i ∈ s, fac m.sq a b i) = 1 ∨
        (∏ i ∈ s, fac m.sq a b i) = -1 := by
      intro s
      induction s using Finset.induction_on with
      | empty => simp
      | insert x s hx ih =>
        rw [Finset.prod_insert hx]
        have hf : fac m.sq a b x = 0 ∨ fac m.sq a b x = 1 ∨ fac m.sq a b x = -1 := by
          unfold fac
          split
          · split
            · rcases chi_cases b x with h1 | h1 <;> rcases m.sq_cases x with h2 | h2 | h2 <;> simp [h1, h2]
            · rcases chi_cases b x with h1 | h1 <;> simp [h1]
          · simp
        rcases hf with h1 | h1 | h1 <;> rcases ih with h2 | h2 | h2 <;> simp [h1, h2]
    exact (hall (range m.dim)).resolve_left h

/-- C10: uniqueness of the answer — if any pair `(g, k)` with `k ≠ 0` in range describes the product in the Clifford
algebra over ℚ-like fields, it is the pair returned. -/
theorem C10_geometric_unique (K : Type) [Field K] [CharZero K] (m : Metric) (hm : m.dim ≤ 8) (a b g : Nat) (k : Int)
    (ha : a < 2 ^ m.dim) (hb : b < 2 ^ m.dim) (hg : g < 2 ^ m.dim) (hk : k ≠ 0)
    (h : cliffBlade K m.dim m.sq a * cliffBlade K m.dim m.sq b = (k : K) • cliffBlade K m.dim m.sq g) :
    geoProduct m a b = (g, k) := by
  rw [C10_geometric K m hm a b ha hb] at h
  have h1 := congrArg (bladeCoords K m.dim m.sq) h
  rw [map_smul, map_smul, bladeCoords_blade K _ _ _ (C10_geometric_range m hm a b ha hb).2,
    bladeCoords_blade K _ _ _ hg] at h1
  have hkk : (k : K) ≠ 0 := by exact_mod_cast hk
  have h2 := DFunLike.congr_fun h1 g
  simp only [Finsupp.smul_apply, Finsupp.single_apply, smul_eq_mul, if_true, mul_one] at h2
  by_cases he : (geoProduct m a b).1 = g
  · rw [if_pos he, mul_one] at h2
    have : (geoProduct m a b).2 = k := by exact_mod_cast h2
    exact Prod.ext he this
  · rw [if_neg he, mul_zero] at h2
    exact absurd h2.symm hkk

/-! ## C11 -/

/-- C11: the scalar 1 is a two-sided unit. -/
theorem C11_unit (m : Metric) (a : Nat) : geoProduct m 0 a = (a, 1) ∧ geoProduct m a 0 = (a, 1) := by
  constructor
  · simp [geoProduct]
  · unfold geoProduct
    split
    · rename_i h; rw [h]
    · simp

theorem fac_assoc (d : Nat → Int) (a b c i : Nat) :
    fac d a b i * fac d (a ^^^ b) c i = fac d b c i * fac d a (b ^^^ c) i := by
  unfold fac
  rw [Nat.testBit_xor, Nat.testBit_xor, chi_xor]
  have h1 := chi_sq b i
  have h2 := chi_sq c i
  cases a.testBit i <;> cases b.testBit i <;> cases c.testBit i <;> simp
  all_goals first
    | done
    | (linear_combination (-(chi b i * d i)) * h2)
    | ring

theorem sgn_assoc (d : Nat → Int) (n a b c : Nat) :
    sgn d n a b * sgn d n (a ^^^ b) c = sgn d n b c * sgn d n a (b ^^^ c) := by
  unfold sgn
  rw [← Finset.prod_mul_distrib, ← Finset.prod_mul_distrib]
  exact Finset.prod_congr rfl (fun i _ => fac_assoc d a b c i)

/-- C11: the geometric product of basis elements is associative for every metric: multipliers multiply to the same value
and, when that is non-zero, the resulting elements agree. -/
theorem C11_assoc (m : Metric) (hm : m.dim ≤ 8) (a b c : Nat)
    (ha : a < 2 ^ m.dim) (hb : b < 2 ^ m.dim) (hc : c < 2 ^ m.dim) :
    let ab := geoProduct m a b
    let abc := geoProduct m ab.1 c
    let bc := geoProduct m b c
    let abc' := geoProduct m a bc.1
    ab.2 * abc.2 = bc.2 * abc'.2 ∧ (ab.2 * abc.2 ≠ 0 → abc.1 = abc'.1) := by
  have key : ∀ x y, x < 2 ^ m.dim → y < 2 ^ m.dim →
      geoProduct m x y = if sgn m.sq m.dim x y = 0 then (0, 0) else (x ^^^ y, sgn m.sq m.dim x y) :=
    fun x y hx hy => geoProduct_eq m m.dim x y (by omega) hx hy
  have hs := sgn_assoc m.sq m.dim a b c
  have hx1 : a ^^^ b < 2 ^ m.dim := Nat.xor_lt_two_pow ha hb
  have hx2 : b ^^^ c < 2 ^ m.dim := Nat.xor_lt_two_pow hb hc
  have h0 : (0 : Nat) < 2 ^ m.dim := Nat.two_pow_pos _
  dsimp only
  rw [key a b ha hb, key b c hb hc]
  by_cases h1 : sgn m.sq m.dim a b = 0
  · rw [if_pos h1]
    rw [h1, zero_mul] at hs
    by_cases h2 : sgn m.sq m.dim b c = 0
    · rw [if_pos h2]; simp
    · rw [if_neg h2, key a _ ha hx2]
      have h3 : sgn m.sq m.dim a (b ^^^ c) = 0 := by
        rcases Int.mul_eq_zero.1 hs.symm with h | h
        · exact absurd h h2
        · exact h
      rw [if_pos h3]; simp
  · rw [if_neg h1, key _ c hx1 hc]
    by_cases h2 : sgn m.sq m.dim b c = 0
    · rw [if_pos h2]
      rw [h2, zero_mul] at hs
      have h3 : sgn m.sq m.dim (a ^^^ b) c = 0 := by
        rcases Int.mul_eq_zero.1 hs with h | h
        · exact absurd h h1
        · exact h
      rw [if_pos h3]; simp
    · rw [if_neg h2, key a _ ha hx2]
      by_cases h3 : sgn m.sq m.dim (a ^^^ b) c = 0
      · rw [h3, mul_zero] at hs
        have h4 : sgn m.sq m.dim a (b ^^^ c) = 0 := by
          rcases Int.mul_eq_zero.1 hs.symm with h | h
          · exact absurd h h2
          · exact h
        rw [if_pos h3, if_pos h4]; simp
      · have h4 : sgn m.sq m.dim a (b ^^^ c) ≠ 0 := by
          intro h
          rw [h, mul_zero] at hs
          rcases Int.mul_eq_zero.1 hs with h' | h'
          · exact h1 h'
          · exact h3 h'
        rw [if_neg h3, if_neg h4]
        exact ⟨hs, fun _ => Nat.xor_assoc a b c⟩

example : ∃ (m : Metric) (a b c : Nat), m.dim ≤ 8 ∧ a < 2 ^ m.dim ∧ b < 2 ^ m.dim ∧ c < 2 ^ m.dim ∧
    (geoProduct m a b).2 * (geoProduct m (geoProduct m a b).1 c).2 ≠ 0 :=
  ⟨cgaMetric, 0b10011, 0b01010, 0b11100, by decide +kernel, by decide +kernel, by decide +kernel, by decide +kernel, by decide +kernel⟩

theorem sgn_gens (d : Nat → Int) (n i j : Nat) (hi : i < n) :
    sgn d n (2 ^ i) (2 ^ j) = (if j < i then -1 else 1) * (if i = j then d i else 1) := by
  unfold sgn
  rw [Finset.prod_eq_single i]
  · unfold fac
    rw [Nat.testBit_two_pow, Nat.testBit_two_pow]
    have : chi (2 ^ j) i = if j < i then -1 else 1 := by
      have := chi_xor_two_pow 0 i j
      rw [Nat.zero_xor, chi_zero, one_mul] at this
      exact this
    rw [this]
    by_cases h : i = j
    · simp [h]
    · simp [h, Ne.symm h]
  · intro k _ hk
    unfold fac
    rw [Nat.testBit_two_pow]; simp [Ne.symm hk]
  · simp [hi]

/-- C11: a generator squares to its metric value: +1 for the first `p` after the `r` degenerate ones, −1 for the last
`v`, 0 for the first `r`. -/
theorem C11_square (m : Metric) (hm : m.dim ≤ 8) (i : Nat) (hi : i < m.dim) :
    geoProduct m (2 ^ i) (2 ^ i) = (0, if i < m.r then 0 else if i < m.r + m.p then 1 else -1) := by
  have hp : 2 ^ i < 2 ^ m.dim := Nat.pow_lt_pow_right (by decide) hi
  rw [geoProduct_eq m m.dim _ _ (by omega) hp hp, sgn_gens _ _ _ _ hi]
  simp only [Nat.lt_irrefl, if_false, if_true, Nat.xor_self, one_mul]
  unfold Metric.sq Metric.dot
  by_cases h1 : i < m.r
  · simp [h1]
  · by_cases h2 : i < m.r + m.p
    · simp [h1, h2, show ¬ (i ≥ m.r + m.p) by omega]
    · simp [h1, h2, show i ≥ m.r + m.p by omega]

/-- C11: distinct generators anticommute. -/
theorem C11_anticommute (m : Metric) (hm : m.dim ≤ 8) (i j : Nat) (hi : i < m.dim) (hj : j < m.dim) (hij : i ≠ j) :
    (geoProduct m (2 ^ i) (2 ^ j)).1 = 2 ^ i + 2 ^ j ∧ (geoProduct m (2 ^ j) (2 ^ i)).1 = 2 ^ i + 2 ^ j ∧
    (geoProduct m (2 ^ i) (2 ^ j)).2 = -(geoProduct m (2 ^ j) (2 ^ i)).2 ∧ (geoProduct m (2 ^ i) (2 ^ j)).2 ≠ 0 := by
  have hp : 2 ^ i < 2 ^ m.dim := Nat.pow_lt_pow_right (by decide) hi
  have hq : 2 ^ j < 2 ^ m.dim := Nat.pow_lt_pow_right (by decide) hj
  have hx : ∀ i j : Nat, i < j → 2 ^ i ^^^ 2 ^ j = 2 ^ i + 2 ^ j := by
    intro i j hij
    have h1 : (2 : Nat) ^ i < 2 ^ j := Nat.pow_lt_pow_right (by decide) hij
    have h2 := Nat.two_pow_add_eq_or_of_lt h1 1
    rw [mul_one] at h2
    have h3 : 2 ^ j &&& 2 ^ i = 0 := by
      apply Nat.eq_of_testBit_eq
      intro k
      rw [Nat.testBit_and, Nat.testBit_two_pow, Nat.testBit_two_pow]
      by_cases h : j = k
      · subst h; simp [show ¬ i = j by omega]
      · simp [h]
    rw [or_eq_xor_of_disjoint h3] at h2
    rw [Nat.xor_comm, ← h2, Nat.add_comm]
  rw [geoProduct_eq m m.dim _ _ (by omega) hp hq, geoProduct_eq m m.dim _ _ (by omega) hq hp, sgn_gens _ _ _ _ hi,
    sgn_gens _ _ _ _ hj]
  simp only [hij, Ne.symm hij, if_false, mul_one]
  rcases Nat.lt_or_gt_of_ne hij with h | h
  · simp [h, Nat.lt_asymm h, hx i j h, Nat.xor_comm (2 ^ j)]
  · simp [h, Nat.lt_asymm h, hx j i h, Nat.xor_comm (2 ^ i), Nat.add_comm]

example : geoProduct pgaMetric 0b0010 0b0100 = (0b0110, 1) ∧ geoProduct pgaMetric 0b0100 0b0010 = (0b0110, -1) := by
  decide +kernel

/-! ## C12 -/

/-- Generator `i` of Mathlib's exterior algebra of `K^n`. -/
noncomputable def extGen (K : Type) [Field K] (n : Nat) (i : Nat) : ExteriorAlgebra K (Fin n → K) :=
  if h : i < n then ExteriorAlgebra.ι K (Pi.single (⟨i, h⟩ : Fin n) (1 : K)) else 0

theorem exteriorGens (K : Type) [Field K] (n : Nat) :
    Gens (ExteriorAlgebra K (Fin n → K)) n (extGen K n) (fun _ => 0) where
  sq i hi := by
    unfold extGen
    rw [dif_pos hi, ExteriorAlgebra.ι_sq_zero]; simp
  anti i j hi hj hij := by
    unfold extGen
    rw [dif_pos hi, dif_pos hj]
    exact eq_neg_of_add_eq_zero_left (ExteriorAlgebra.ι_add_mul_swap _ _)

/-- C12: the exterior product of basis elements is the product in Mathlib's exterior algebra. -/
theorem C12_exterior (K : Type) [Field K] (n : Nat) (hn : n ≤ 8) (a b : Nat) (ha : a < 2 ^ n) (hb : b < 2 ^ n) :
    bladeOf (extGen K n) n a * bladeOf (extGen K n) n b =
      ((extProduct a b).2 : K) • bladeOf (extGen K n) n (extProduct a b).1 := by
  rw [bladeOf_mul (exteriorGens K n) a b ha, extProduct_eq n a b (by omega) ha hb]
  split
  · rename_i h; rw [h]; simp
  · rw [Algebra.smul_def, map_intCast]

/-- C12: the exterior product vanishes exactly when the operands share a generator. -/
theorem C12_exterior_zero_iff (n : Nat) (hn : n ≤ 8) (a b : Nat) (ha : a < 2 ^ n) (hb : b < 2 ^ n) :
    (extProduct a b).2 = 0 ↔ a &&& b ≠ 0 := by
  rw [extProduct_eq n a b (by omega) ha hb]
  constructor
  · intro h h'
    rw [if_neg (sgn_ext_ne_zero n a b h')] at h
    exact sgn_ext_ne_zero n a b h' h
  · intro h
    rw [if_pos (sgn_zero_of_meet n a b ha h)]

/-- C12: when non-zero, the exterior product is the grade-additive part of the geometric product for *every* metric. -/
theorem C12_exterior_of_geometric (m : Metric) (hm : m.dim ≤ 8) (a b : Nat) (ha : a < 2 ^ m.dim) (hb : b < 2 ^ m.dim)
    (h : a &&& b = 0) : extProduct a b = geoProduct m a b := by
  rw [extProduct_eq m.dim a b (by omega) ha hb, geoProduct_eq m m.dim a b (by omega) ha hb]
  have : sgn m.sq m.dim a b = sgn (fun _ => 0) m.dim a b := by
    unfold sgn
    apply Finset.prod_congr rfl
    intro i _
    unfold fac
    have hbit : (a.testBit i && b.testBit i) = false := by rw [← Nat.testBit_and, h]; simp
    cases ha : a.testBit i
    · rfl
    · have : b.testBit i = false := by simpa [ha] using hbit
      simp [this]
  rw [this]

example : ∃ (m : Metric) (a b : Nat), m.dim ≤ 8 ∧ a < 2 ^ m.dim ∧ b < 2 ^ m.dim ∧ a &&& b = 0 ∧
    extProduct a b = (0b11111, 1) :=
  ⟨cgaMetric, 0b10010, 0b01101, by decide +kernel, by decide +kernel, by decide +kernel, by decide +kernel, by decide +kernel⟩

/-- C12: associativity. -/
theorem C12_assoc (n : Nat) (hn : n ≤ 8) (a b c : Nat) (ha : a < 2 ^ n) (hb : b < 2 ^ n) (hc : c < 2 ^ n) :
    (extProduct a b).2 * (extProduct (extProduct a b).1 c).2 = (extProduct b c).2 * (extProduct a (extProduct b c).1).2 ∧
    ((extProduct a b).2 * (extProduct (extProduct a b).1 c).2 ≠ 0 →
      (extProduct (extProduct a b).1 c).1 = (extProduct a (extProduct b c).1).1) := by
  have key : ∀ x y, x < 2 ^ n → y < 2 ^ n →
      extProduct x y = if sgn (fun _ => 0) n x y = 0 then (0, 0) else (x ^^^ y, sgn (fun _ => 0) n x y) :=
    fun x y hx hy => extProduct_eq n x y (by omega) hx hy
  have hs := sgn_assoc (fun _ => 0) n a b c
  have hx1 : a ^^^ b < 2 ^ n := Nat.xor_lt_two_pow ha hb
  have hx2 : b ^^^ c < 2 ^ n := Nat.xor_lt_two_pow hb hc
  rw [key a b ha hb, key b c hb hc]
  by_cases h1 : sgn (fun _ => 0) n a b = 0
  · rw [if_pos h1]
    rw [h1, zero_mul] at hs
    by_cases h2 : sgn (fun _ => 0) n b c = 0
    · rw [if_pos h2]; simp
    · rw [if_neg h2, key a _ ha hx2]
      have h3 : sgn (fun _ => 0) n a (b ^^^ c) = 0 := (Int.mul_eq_zero.1 hs.symm).resolve_left h2
      rw [if_pos h3]; simp
  · rw [if_neg h1, key _ c hx1 hc]
    by_cases h2 : sgn (fun _ => 0) n b c = 0
    · rw [if_pos h2]
      rw [h2, zero_mul] at hs
      have h3 : sgn (fun _ => 0) n (a ^^^ b) c = 0 := (Int.mul_eq_zero.1 hs).resolve_left h1
      rw [if_pos h3]; simp
    · rw [if_neg h2, key a _ ha hx2]
      by_cases h3 : sgn (fun _ => 0) n (a ^^^ b) c = 0
      · rw [h3, mul_zero] at hs
        have h4 : sgn (fun _ => 0) n a (b ^^^ c) = 0 := (Int.mul_eq_zero.1 hs.symm).resolve_left h2
        rw [if_pos h3, if_pos h4]; simp
      · have h4 : sgn (fun _ => 0) n a (b ^^^ c) ≠ 0 := by
          intro h
          rw [h, mul_zero] at hs
          rcases Int.mul_eq_zero.1 hs with h' | h'
          · exact h1 h'
          · exact h3 h'
        rw [if_neg h3, if_neg h4]
        exact ⟨hs, fun _ => Nat.xor_assoc a b c⟩

/-! ## C13 -/

section contraction

variable (K : Type) [Field K]

/-- The linear form `v ↦ e_l · v` of the diagonal metric. -/
noncomputable def dualGen (n : Nat) (d : Nat → Int) (l : Nat) : Module.Dual K (Fin n → K) :=
  if h : l < n then (d l : K) • LinearMap.proj (⟨l, h⟩ : Fin n) else 0

theorem dualGen_single (n : Nat) (d : Nat → Int) (l : Nat) (hl : l < n) (i : Fin n) :
    dualGen K n d l (Pi.single i 1) = if i.val = l then (d l : K) else 0 := by
  unfold dualGen
  rw [dif_pos hl]
  simp only [LinearMap.smul_apply, LinearMap.proj_apply, Pi.single_apply, smul_eq_mul]
  by_cases h : i.val = l
  · subst h; simp
  · rw [if_neg h, if_neg (by intro h'; exact h (by rw [← h'])), mul_zero]

open CliffordAlgebra

theorem contract_gen_mul (n : Nat) (d : Nat → Int) (l j : Nat) (hl : l < n) (hj : j < n)
    (x : CliffordAlgebra (diagForm K n d)) :
    contractLeft (dualGen K n d l) (cliffGen K n d j * x) =
      (if j = l then (d l : K) else 0) • x - cliffGen K n d j * contractLeft (dualGen K n d l) x := by
  unfold cliffGen
  rw [dif_pos hj, contractLeft_ι_mul, dualGen_single K n d l hl]

/-- A blade with top generator `j` is that generator times the rest, up to sign. -/
theorem blade_eq_gen_mul (n : Nat) (d : Nat → Int) (g j : Nat) (hj : j < n) (hg : g.testBit j = true) :
    cliffBlade K n d g = (chi g j : K) • (cliffGen K n d j * cliffBlade K n d (g ^^^ 2 ^ j)) := by
  unfold cliffBlade
  rw [gen_mul_blade (cliffordGens K n d) j hj n hj le_rfl]
  have h1 : (g ^^^ 2 ^ j).testBit j = false := by rw [testBit_xor_two_pow, if_pos rfl, hg]; rfl
  have h2 : g ^^^ 2 ^ j ^^^ 2 ^ j = g := by rw [Nat.xor_assoc, Nat.xor_self, Nat.xor_zero]
  have h3 : chi (g ^^^ 2 ^ j) j = chi g j := by rw [chi_xor_two_pow]; simp
  rw [h1, h2, h3]
  simp only [Bool.false_eq_true, if_false, mul_one]
  have h4 : ∀ x : CliffordAlgebra (diagForm K n d), (chi g j : K) • ((chi g j : CliffordAlgebra (diagForm K n d)) * x) = x := by
    intro x
    have : (chi g j : CliffordAlgebra (diagForm K n d)) = algebraMap K _ (chi g j : K) := (map_intCast _ _).symm
    rw [this, ← Algebra.smul_def, smul_smul]
    have h5 : ((chi g j : Int) : K) * (chi g j : K) = 1 := by
      exact_mod_cast congrArg (Int.cast (R := K)) (chi_sq g j)
    rw [h5, one_smul]
  rw [h4]

theorem contract_absent (n : Nat) (d : Nat → Int) (l : Nat) (hl : l < n) :
    ∀ g, g < 2 ^ n → g.testBit l = false → contractLeft (dualGen K n d l) (cliffBlade K n d g) = 0 := by
  intro g
  induction g using Nat.strong_induction_on with
  | _ g ih =>
    intro hg hgl
    by_cases h0 : g = 0
    · subst h0
      unfold cliffBlade
      rw [bladeOf_zero, contractLeft_one]
    · obtain ⟨j, hj, hlow⟩ := Nat.exists_most_significant_bit h0
      have hjn := lt_of_testBit hg hj
      have hjl : j ≠ l := by rintro rfl; simp [hj] at hgl
      have hlt := xor_lt_self hj hlow
      rw [blade_eq_gen_mul K n d g j hjn hj, map_smul, contract_gen_mul K n d l j hl hjn, if_neg hjl,
        ih _ hlt (by omega) (by rw [testBit_xor_two_pow, if_neg hjl]; exact hgl)]
      simp

/-- Contracting one generator out of a blade. -/
theorem contract_blade (n : Nat) (d : Nat → Int) (l g : Nat) (hl : l < n) (hg : g < 2 ^ n) :
    contractLeft (dualGen K n d l) (cliffBlade K n d g) =
      (if g.testBit l then ((chi g l * d l : Int) : K) else 0) • cliffBlade K n d (g ^^^ 2 ^ l) := by
  cases hb : g.testBit l
  · rw [contract_absent K n d l hl g hg hb]; simp
  · have hp : 2 ^ l < 2 ^ n := Nat.pow_lt_pow_right (by decide) hl
    rw [blade_eq_gen_mul K n d g l hl hb, map_smul, contract_gen_mul K n d l l hl hl,
      contract_absent K n d l hl _ (Nat.xor_lt_two_pow hg hp) (by rw [testBit_xor_two_pow, if_pos rfl, hb]; rfl)]
    simp only [if_true, mul_zero, sub_zero, smul_smul]
    push_cast
    rfl

/-- Left contraction by a blade: `(e_i ∧ … ∧ e_k) ⌋ x = e_i ⌋ (… ⌋ (e_k ⌋ x))`, built from Mathlib's contraction by
vectors. -/
noncomputable def contractBlade (n : Nat) (d : Nat → Int) : Nat → Nat → CliffordAlgebra (diagForm K n d) →
    CliffordAlgebra (diagForm K n d)
  | 0, _, x => x
  | k + 1, a, x => contractBlade n d k a (if a.testBit k then contractLeft (dualGen K n d k) x else x)

theorem contractBlade_smul (n : Nat) (d : Nat → Int) (a k : Nat) (c : K) (x : CliffordAlgebra (diagForm K n d)) :
    contractBlade K n d k a (c • x) = c • contractBlade K n d k a x := by
  induction k generalizing x with
  | zero => rfl
  | succ k ih =>
    unfold contractBlade
    split
    · rw [map_smul, ih]
    · rw [ih]

/-- Closed form of iterated contraction. -/
theorem contractBlade_eq (n : Nat) (d : Nat → Int) (a : Nat) :
    ∀ k, k ≤ n → ∀ b, b < 2 ^ n → contractBlade K n d k a (cliffBlade K n d b) =
      (if SubBlade (a % 2 ^ k) b then (sgn d k a b : K) else 0) • cliffBlade K n d ((a % 2 ^ k) ^^^ b) := by
  intro k
  induction k with
  | zero =>
    intro _ b _
    simp [contractBlade, Nat.mod_one, SubBlade, sgn]
  | succ k ih =>
    intro hk b hb
    have hs : ∀ b, sgn d (k + 1) a b = sgn d k a b * fac d a b k := by
      intro b; unfold sgn; rw [Finset.prod_range_succ]
    unfold contractBlade
    have hbits : ∀ j, (a % 2 ^ (k + 1)).testBit j = if k = j then a.testBit k else (a % 2 ^ k).testBit j := by
      intro j
      rw [Nat.testBit_mod_two_pow, Nat.testBit_mod_two_pow]
      by_cases h2 : k = j
      · subst h2; simp
      · by_cases h1 : j < k
        · simp [h1, h2, show j < k + 1 by omega]
        · simp [h1, h2, show ¬ j < k + 1 by omega]
    have hkbit : (a % 2 ^ k).testBit k = false := by rw [Nat.testBit_mod_two_pow]; simp
    cases ha : a.testBit k
    · simp only [Bool.false_eq_true, if_false]
      have e1 : a % 2 ^ (k + 1) = a % 2 ^ k := by
        apply Nat.eq_of_testBit_eq
        intro j
        rw [hbits]
        by_cases h : k = j
        · subst h; simp [ha]
        · rw [if_neg h]
      rw [ih (by omega) b hb, e1, hs]
      simp [fac, ha]
    · simp only [if_true]
      have e1 : a % 2 ^ (k + 1) = a % 2 ^ k ^^^ 2 ^ k := by
        apply Nat.eq_of_testBit_eq
        intro j
        rw [hbits, testBit_xor_two_pow]
        by_cases h : k = j
        · subst h; simp [ha, hkbit]
        · rw [if_neg h, if_neg h]
      have hp : 2 ^ k < 2 ^ n := Nat.pow_lt_pow_right (by decide) (by omega)
      rw [contract_blade K n d k b (by omega) hb, contractBlade_smul, ih (by omega) _ (Nat.xor_lt_two_pow hb hp),
        smul_smul]
      have hx : a % 2 ^ k ^^^ (b ^^^ 2 ^ k) = a % 2 ^ (k + 1) ^^^ b := by
        rw [e1, Nat.xor_comm b, Nat.xor_assoc]
      rw [hx]
      congr 1
      have h2 : sgn d k a (b ^^^ 2 ^ k) = sgn d k a b := by
        unfold sgn
        apply Finset.prod_congr rfl
        intro i hi
        have hik := Finset.mem_range.1 hi
        unfold fac
        have hb1 : (b ^^^ 2 ^ k).testBit i = b.testBit i := by rw [testBit_xor_two_pow, if_neg (by omega)]
        have hb2 : chi (b ^^^ 2 ^ k) i = chi b i := by
          apply chi_congr
          intro j hj
          rw [testBit_xor_two_pow, if_neg (by omega)]
        rw [hb1, hb2]
      rw [h2, hs]
      have hsub : SubBlade (a % 2 ^ (k + 1)) b ↔ b.testBit k = true ∧ SubBlade (a % 2 ^ k) (b ^^^ 2 ^ k) := by
        rw [subBlade_iff, subBlade_iff]
        constructor
        · intro h
          refine ⟨h k (by rw [hbits, if_pos rfl, ha]), ?_⟩
          intro j hj
          by_cases hjk : k = j
          · subst hjk; simp [hkbit] at hj
          · rw [testBit_xor_two_pow, if_neg hjk]
            exact h j (by rw [hbits, if_neg hjk]; exact hj)
        · rintro ⟨h1, h⟩ j hj
          rw [hbits] at hj
          by_cases hjk : k = j
          · subst hjk; exact h1
          · rw [if_neg hjk] at hj
            have := h j hj
            rwa [testBit_xor_two_pow, if_neg hjk] at this
      cases hbk : b.testBit k
      · simp [hsub, hbk]
      · simp only [if_true]
        by_cases h : SubBlade (a % 2 ^ k) (b ^^^ 2 ^ k)
        · rw [if_pos h, if_pos (hsub.2 ⟨hbk, h⟩)]
          simp only [fac, ha, hbk, if_true]
          push_cast
          ring
        · rw [if_neg h, if_neg (fun h' => h (hsub.1 h').2)]
          simp

/-- C13: the contraction of basis elements is the left contraction of the Clifford algebra. -/
theorem C13_contraction (m : Metric) (hm : m.dim ≤ 8) (a b : Nat) (ha : a < 2 ^ m.dim) (hb : b < 2 ^ m.dim) :
    contractBlade K m.dim m.sq m.dim a (cliffBlade K m.dim m.sq b) =
      ((conProduct m a b).2 : K) • cliffBlade K m.dim m.sq (conProduct m a b).1 := by
  rw [contractBlade_eq K m.dim m.sq a m.dim le_rfl b hb, conProduct_eq m m.dim a b (by omega) ha hb,
    Nat.mod_eq_of_lt ha]
  by_cases h1 : SubBlade a b
  · by_cases h2 : sgn m.sq m.dim a b = 0
    · rw [if_pos h1, if_neg (by simp [h2]), h2]; simp
    · rw [if_pos h1, if_pos ⟨h1, h2⟩]
  · rw [if_neg h1, if_neg (by simp [h1])]; simp

end contraction

theorem popCount_xor (n a b : Nat) (hn : n ≤ 32) (ha : a < 2 ^ n) (hb : b < 2 ^ n) :
    (popCount (a ^^^ b) : Int) = popCount a + popCount b - 2 * popCount (a &&& b) := by
  rw [popCount_eq_card n _ hn (Nat.xor_lt_two_pow ha hb), popCount_eq_card n a hn ha, popCount_eq_card n b hn hb,
    popCount_eq_card n _ hn (Nat.and_lt_two_pow a hb)]
  simp only [Finset.card_filter]
  push_cast
  rw [Finset.mul_sum, ← Finset.sum_add_distrib, ← Finset.sum_sub_distrib]
  apply Finset.sum_congr rfl
  intro i _
  rw [Nat.testBit_xor, Nat.testBit_and]
  cases a.testBit i <;> cases b.testBit i <;> simp

theorem popCount_and_eq_iff (n a b : Nat) (hn : n ≤ 32) (ha : a < 2 ^ n) :
    popCount (a &&& b) = popCount a ↔ SubBlade a b := by
  constructor
  · intro h
    rw [popCount_eq_card n _ hn (lt_of_le_of_lt Nat.and_le_left ha), popCount_eq_card n a hn ha] at h
    have hsub : ((range n).filter fun i => (a &&& b).testBit i = true) ⊆ (range n).filter fun i => a.testBit i = true := by
      intro i
      simp only [Finset.mem_filter, Nat.testBit_and, Bool.and_eq_true]
      tauto
    have := Finset.eq_of_subset_of_card_le hsub (by omega)
    rw [subBlade_iff]
    intro j hj
    have hmem : j ∈ (range n).filter fun i => a.testBit i = true := by
      simp [hj, lt_of_testBit ha hj]
    rw [← this] at hmem
    simp only [Finset.mem_filter, Nat.testBit_and, Bool.and_eq_true] at hmem
    exact hmem.2.2
  · intro h
    rw [show a &&& b = a from h]

/-- C13: equivalently, contraction is the part of the geometric product whose grade is the difference of the grades. -/
theorem C13_contraction_grade (m : Metric) (hm : m.dim ≤ 8) (a b : Nat) (ha : a < 2 ^ m.dim) (hb : b < 2 ^ m.dim) :
    conProduct m a b =
      if (popCount (a ^^^ b) : Int) = popCount b - popCount a then geoProduct m a b else (0, 0) := by
  have hx := popCount_xor m.dim a b (by omega) ha hb
  have hiff := popCount_and_eq_iff m.dim a b (by omega) ha
  rw [conProduct_eq m m.dim a b (by omega) ha hb, geoProduct_eq m m.dim a b (by omega) ha hb]
  by_cases h : SubBlade a b
  · have h' := hiff.2 h
    rw [if_pos (by omega : (popCount (a ^^^ b) : Int) = popCount b - popCount a)]
    by_cases h2 : sgn m.sq m.dim a b = 0
    · simp [h2]
    · simp [h, h2]
  · have h' : ¬ popCount (a &&& b) = popCount a := fun h'' => h (hiff.1 h'')
    rw [if_neg (by simp [h]), if_neg (by omega)]

example : ∃ (m : Metric) (a b : Nat), m.dim ≤ 8 ∧ a < 2 ^ m.dim ∧ b < 2 ^ m.dim ∧ conProduct m a b = (0b00011, 1) ∧ a ≠ 0 :=
  ⟨cgaMetric, 0b11000, 0b11011, by decide +kernel, by decide +kernel, by decide +kernel, by decide +kernel, by decide +kernel⟩

/-! ## C14 -/

/-- C14: the inner product of basis elements is the grade `|grade a − grade b|` part of the geometric product, and zero
when either operand is a scalar (Hestenes' convention). -/
theorem C14_inner (m : Metric) (hm : m.dim ≤ 8) (a b : Nat) (ha : a < 2 ^ m.dim) (hb : b < 2 ^ m.dim) :
    symProduct m a b =
      if a ≠ 0 ∧ b ≠ 0 ∧ (popCount (a ^^^ b) : Int) = |(popCount a : Int) - popCount b| then geoProduct m a b
      else (0, 0) := by
  have hg := geoProduct_eq m m.dim a b (by omega) ha hb
  unfold symProduct
  by_cases h0 : a = 0 ∨ b = 0
  · rw [if_pos h0, if_neg (by tauto)]
  · rw [if_neg h0]
    have h0' : a ≠ 0 ∧ b ≠ 0 := by tauto
    rw [hg]
    have habs : ((((popCount a : Int) - popCount b).natAbs : Nat) : Int) = |(popCount a : Int) - popCount b| :=
      Int.natCast_natAbs _
    by_cases h2 : sgn m.sq m.dim a b = 0
    · simp [h2]
    · simp only [if_neg h2]
      by_cases h3 : popCount (a ^^^ b) = ((popCount a : Int) - popCount b).natAbs
      · rw [if_pos h3, if_pos ⟨h0'.1, h0'.2, by rw [← habs, ← h3]⟩]
      · rw [if_neg h3, if_neg (by rw [← habs]; intro h; exact h3 (by exact_mod_cast h.2.2))]

/-- Number of generators of `a` below `k`. -/
theorem chi_eq_pow_card (a k : Nat) : chi a k = (-1) ^ ((range k).filter fun i => a.testBit i = true).card := by
  unfold chi
  rw [Finset.prod_ite]; simp

/-- Exchanging the operands of a product of blades. -/
theorem sgn_swap (d : Nat → Int) (n a b : Nat) :
    sgn d n b a = (-1) ^ (((range n).filter fun i => a.testBit i = true).card *
      ((range n).filter fun i => b.testBit i = true).card +
      ((range n).filter fun i => (a &&& b).testBit i = true).card) * sgn d n a b := by
  induction n with
  | zero => simp [sgn]
  | succ n ih =>
    have hs : ∀ a b, sgn d (n + 1) a b = sgn d n a b * fac d a b n := by
      intro a b; unfold sgn; rw [Finset.prod_range_succ]
    have hc : ∀ x : Nat, ((range (n + 1)).filter fun i => x.testBit i = true).card =
        ((range n).filter fun i => x.testBit i = true).card + if x.testBit n then 1 else 0 := by
      intro x
      rw [Finset.card_filter, Finset.card_filter, Finset.sum_range_succ]
    rw [hs, hs, ih, hc, hc, hc, Nat.testBit_and]
    unfold fac
    rw [chi_eq_pow_card a n, chi_eq_pow_card b n]
    generalize ((range n).filter fun i => a.testBit i = true).card = x
    generalize ((range n).filter fun i => b.testBit i = true).card = y
    generalize ((range n).filter fun i => (a &&& b).testBit i = true).card = z
    have hy : ((-1 : Int) ^ y) ^ 2 = 1 := by rw [← pow_mul, mul_comm, pow_mul]; simp
    cases a.testBit n <;> cases b.testBit n
    · simp
    · simp only [Bool.false_eq_true, if_false, if_true, Nat.add_zero, Bool.false_and]
      rw [show x * (y + 1) + z = (x * y + z) + x by ring, pow_add _ (x * y + z) x]; ring
    · simp only [Bool.false_eq_true, if_false, if_true, Bool.and_false, Nat.add_zero]
      rw [show (x + 1) * y + z = (x * y + z) + y by ring, pow_add _ (x * y + z) y]
      linear_combination (-((-1) ^ (x * y + z) * sgn d n a b)) * hy
    · simp only [if_true, Bool.and_self]
      rw [show (x + 1) * (y + 1) + (z + 1) = (x * y + z) + x + y + 2 by ring, pow_add, pow_add, pow_add]
      linear_combination (-((-1) ^ (x * y + z) * (-1) ^ x * sgn d n a b * d n)) * hy

/-- C14: exchanging the operands multiplies the inner product by `(-1)^(lo * (hi - lo))` where `lo`, `hi` are the smaller
and larger grade; the element is unchanged. -/
theorem C14_swap (m : Metric) (hm : m.dim ≤ 8) (a b : Nat) (ha : a < 2 ^ m.dim) (hb : b < 2 ^ m.dim) :
    (symProduct m b a).1 = (symProduct m a b).1 ∧
    (symProduct m b a).2 = (-1) ^ (min (popCount a) (popCount b) *
      (max (popCount a) (popCount b) - min (popCount a) (popCount b))) * (symProduct m a b).2 := by
  have hx := popCount_xor m.dim a b (by omega) ha hb
  have hsw := sgn_swap m.sq m.dim a b
  rw [← popCount_eq_card m.dim a (by omega) ha, ← popCount_eq_card m.dim b (by omega) hb,
    ← popCount_eq_card m.dim (a &&& b) (by omega) (Nat.and_lt_two_pow a hb)] at hsw
  rw [C14_inner m hm a b ha hb, C14_inner m hm b a hb ha, abs_sub_comm (popCount b : Int), Nat.xor_comm b a]
  by_cases hc : a ≠ 0 ∧ b ≠ 0 ∧ (popCount (a ^^^ b) : Int) = |(popCount a : Int) - popCount b|
  · rw [if_pos hc, if_pos ⟨hc.2.1, hc.1, hc.2.2⟩, geoProduct_eq m m.dim a b (by omega) ha hb,
      geoProduct_eq m m.dim b a (by omega) hb ha, Nat.xor_comm b a]
    obtain ⟨_, _, h3⟩ := hc
    generalize popCount a = x at *
    generalize popCount b = y at *
    generalize popCount (a &&& b) = z at *
    generalize popCount (a ^^^ b) = w at *
    have hz : z = min x y := by
      rcases le_total x y with h | h
      · rw [abs_of_nonpos (by omega)] at h3
        rw [min_eq_left h]; omega
      · rw [abs_of_nonneg (by omega)] at h3
        rw [min_eq_right h]; omega
    have hsign : ((-1 : Int)) ^ (x * y + z) = (-1) ^ (min x y * (max x y - min x y)) := by
      have key : ∀ lo k : Nat, ((-1 : Int)) ^ (lo * (lo + k) + lo) = (-1) ^ (lo * k) := by
        intro lo k
        rw [show lo * (lo + k) + lo = lo * (lo + 1) + lo * k by ring, pow_add]
        have : Even (lo * (lo + 1)) := Nat.even_mul_succ_self lo
        rw [this.neg_one_pow, one_mul]
      rcases le_total x y with h | h
      · obtain ⟨k, rfl⟩ := Nat.exists_eq_add_of_le h
        rw [hz, min_eq_left h, max_eq_right h, Nat.add_sub_cancel_left]
        exact key x k
      · obtain ⟨k, rfl⟩ := Nat.exists_eq_add_of_le h
        rw [hz, min_eq_right h, max_eq_left h, Nat.add_sub_cancel_left, Nat.mul_comm (y + k) y]
        exact key y k
    rw [hsign] at hsw
    by_cases h0 : sgn m.sq m.dim a b = 0
    · rw [h0, mul_zero] at hsw
      rw [if_pos h0, if_pos hsw]
      exact ⟨rfl, (mul_zero _).symm⟩
    · have h1 : sgn m.sq m.dim b a ≠ 0 := by
        rw [hsw]
        exact mul_ne_zero (pow_ne_zero _ (by decide)) h0
      rw [if_neg h0, if_neg h1]
      exact ⟨rfl, hsw⟩
  · rw [if_neg hc, if_neg (by tauto)]
    exact ⟨rfl, (mul_zero _).symm⟩

/-- C14: exchanging the operands is *not* harmless: the expression layer sorts the operands of `|` by checksum
(expr.hpp:1089-1125), and already a vector against a bivector changes sign. -/
theorem C14_not_symmetric : ∃ (m : Metric) (a b : Nat), m.dim ≤ 8 ∧ a < 2 ^ m.dim ∧ b < 2 ^ m.dim ∧
    symProduct m a b ≠ symProduct m b a :=
  ⟨vgaMetric, 0b001, 0b011, by decide +kernel, by decide +kernel, by decide +kernel, by decide +kernel⟩

example : symProduct cgaMetric 0b00001 0b00011 = (0b00010, 1) ∧ symProduct cgaMetric 0b00011 0b00001 = (0b00010, -1) := by
  decide +kernel

end Gal
