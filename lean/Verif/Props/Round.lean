import Verif.Props.Conformal
import Verif.Props.RoundPolys
import Verif.Spec.Round
import Mathlib.LinearAlgebra.Matrix.ToLinearEquiv
import Mathlib.LinearAlgebra.Matrix.DotProduct
import Mathlib.LinearAlgebra.Dimension.RankNullity
import Mathlib.LinearAlgebra.Basis.VectorSpace

/-!
# Property C68: spheres and circles through conformal points
-/

namespace Gal

open Out
open scoped Matrix

variable {K : Type} [Field K] [CharZero K]

/-- The coefficients of the equation of a sphere or plane are applied to these numbers. -/
def liftPoint (x : Fin 3 → K) : Fin 5 → K := ![x 0, x 1, x 2, 1, (x ⬝ᵥ x) / 2]

theorem onRound_lift (a : K) (n : Fin 3 → K) (c : K) (x : Fin 3 → K) : OnRound a n c x ↔ liftPoint x ⬝ᵥ ![n 0, n 1, n 2, c, 2 * a] = 0 := by
  unfold OnRound liftPoint
  have : ![x 0, x 1, x 2, 1, (x ⬝ᵥ x) / 2] ⬝ᵥ ![n 0, n 1, n 2, c, 2 * a] = a * (x ⬝ᵥ x) + n ⬝ᵥ x + c := by
    rw [dot3 n x]
    simp only [dotProduct, Fin.sum_univ_five, Matrix.cons_val_zero, Matrix.cons_val_one, Matrix.cons_val]
    ring
  rw [this]

/-- Five points lie on a sphere or plane if the determinant of their coordinates and squares is zero. -/
theorem cospherical_det (P : Fin 5 → Fin 3 → K) : Cospherical P ↔ (Matrix.of fun i => liftPoint (P i)).det = 0 := by
  rw [← Matrix.exists_mulVec_eq_zero_iff]
  constructor
  · rintro ⟨a, n, c, h0, h⟩
    refine ⟨![n 0, n 1, n 2, c, 2 * a], fun h1 => ?_, funext fun i => (onRound_lift _ _ _ _).1 (h i)⟩
    rcases h0 with h0 | h0
    · exact (mul_ne_zero two_ne_zero h0) (congrFun h1 4)
    · refine h0 (funext fun i => ?_)
      fin_cases i
      · exact congrFun h1 0
      · exact congrFun h1 1
      · exact congrFun h1 2
  · rintro ⟨v, h0, h⟩
    have hv : v = ![v 0, v 1, v 2, v 3, v 4] := by
      funext i
      fin_cases i <;> rfl
    have h1 : ∀ i, OnRound (v 4 / 2) ![v 0, v 1, v 2] (v 3) (P i) := fun i => by
      rw [onRound_lift, mul_div_cancel₀ _ two_ne_zero]
      have := congrFun h i
      rw [hv] at this
      exact this
    refine ⟨v 4 / 2, ![v 0, v 1, v 2], v 3, ?_, h1⟩
    by_contra hc
    push Not at hc
    obtain ⟨h4, h5⟩ := hc
    have h6 := h1 0
    unfold OnRound at h6
    rw [h4, h5, zero_mul, zero_dotProduct, zero_add, zero_add] at h6
    apply h0
    rw [div_eq_zero_iff, or_iff_left two_ne_zero] at h4
    rw [hv, h6, h4]
    have e0 := congrFun h5 0
    have e1 := congrFun h5 1
    have e2 := congrFun h5 2
    simp only [Matrix.cons_val_zero, Matrix.cons_val_one, Matrix.cons_val, Pi.zero_apply] at e0 e1 e2
    rw [e0, e1, e2]
    funext i
    fin_cases i <;> rfl

omit [CharZero K] in
/-- Four vectors of a space with five dimensions are dependent if every determinant with a fifth vector is zero. -/
theorem dependent_det (v : Fin 4 → Fin 5 → K) : (∀ y, (Matrix.of (Fin.cons y v : Fin 5 → Fin 5 → K)).det = 0) ↔ ¬ LinearIndependent K v := by
  constructor
  · intro h hv
    obtain ⟨y, hy⟩ := exists_linearIndependent_cons_of_lt_finrank (R := K) (v := v) hv (by simp)
    have h1 := Matrix.linearIndependent_rows_iff_isUnit.1 (show LinearIndependent K (Matrix.of (Fin.cons y v : Fin 5 → Fin 5 → K)).row from hy)
    rw [Matrix.isUnit_iff_isUnit_det, h y] at h1
    exact not_isUnit_zero h1
  · intro h y
    refine Matrix.det_eq_zero_of_not_linearIndependent_rows fun hc => h ?_
    exact (linearIndependent_finCons.1 (show LinearIndependent K (Fin.cons y v : Fin 5 → Fin 5 → K) from hc)).1

/-- A point is on the circle through others if its numbers are a linear combination of theirs. -/
theorem onCircle_span {k : Nat} (P : Fin k → Fin 3 → K) (x : Fin 3 → K) :
    OnCircle P x ↔ liftPoint x ∈ Submodule.span K (Set.range fun i => liftPoint (P i)) := by
  constructor
  · intro h
    by_contra hc
    obtain ⟨f, hf, hk⟩ := Submodule.exists_le_ker_of_notMem hc
    have key : ∀ z, f (liftPoint z) = liftPoint z ⬝ᵥ ![f (Pi.single 0 1), f (Pi.single 1 1), f (Pi.single 2 1), f (Pi.single 3 1), f (Pi.single 4 1)] :=
      fun z => by
        have e : ∀ i : Fin 5, (fun j => if i = j then (1 : K) else 0) = Pi.single i 1 := fun i => by
          funext j
          rw [Pi.single_apply]
          simp only [eq_comm]
        rw [LinearMap.pi_apply_eq_sum_univ f (liftPoint z)]
        simp only [dotProduct, Fin.sum_univ_five, smul_eq_mul, Matrix.cons_val_zero, Matrix.cons_val_one, Matrix.cons_val, e]
    apply hf
    rw [key]
    have := h (f (Pi.single 4 1) / 2) ![f (Pi.single 0 1), f (Pi.single 1 1), f (Pi.single 2 1)] (f (Pi.single 3 1))
    simp only [onRound_lift, mul_div_cancel₀ _ (two_ne_zero' K)] at this
    refine this fun i => ?_
    have h2 := hk (Submodule.subset_span ⟨i, rfl⟩)
    rw [LinearMap.mem_ker, key] at h2
    exact h2
  · intro h a n c hP
    rw [onRound_lift]
    refine Submodule.span_induction (p := fun v _ => v ⬝ᵥ ![n 0, n 1, n 2, c, 2 * a] = 0) ?_ ?_ ?_ ?_ h
    · rintro _ ⟨i, rfl⟩
      exact (onRound_lift _ _ _ _).1 (hP i)
    · exact zero_dotProduct _
    · intro u v _ _ hu hv
      rw [add_dotProduct, hu, hv, add_zero]
    · intro t u _ hu
      rw [smul_dotProduct, hu, smul_zero]

/-- Three points of which no two are the same are independent. -/
theorem distinct_independent [LinearOrder K] [IsStrictOrderedRing K] {p q r : Fin 3 → K} (h1 : p ≠ q) (h2 : p ≠ r) (h3 : q ≠ r) :
    LinearIndependent K ![liftPoint p, liftPoint q, liftPoint r] := by
  rw [Fintype.linearIndependent_iff]
  intro g hg
  have e : ∀ j, g 0 * liftPoint p j + g 1 * liftPoint q j + g 2 * liftPoint r j = 0 := fun j => by
    have := congrFun hg j
    simpa [Fin.sum_univ_three] using this
  have e3 := e 3
  have e4 := e 4
  have e0 : ∀ i : Fin 3, g 0 * p i + g 1 * q i + g 2 * r i = 0 := fun i => by
    fin_cases i
    · exact e 0
    · exact e 1
    · exact e 2
  simp only [liftPoint, Matrix.cons_val] at e3 e4
  clear e hg
  have a0 : g 0 = -g 1 - g 2 := by linear_combination e3
  have hv : g 1 • (q - p) = -(g 2 • (r - p)) := by
    funext i
    have := e0 i
    rw [a0] at this
    simp only [Pi.smul_apply, Pi.sub_apply, Pi.neg_apply, smul_eq_mul]
    linear_combination this
  have hs : g 1 * ((q - p) ⬝ᵥ (q - p)) = -(g 2 * ((r - p) ⬝ᵥ (r - p))) := by
    have c0 := e0 0
    have c1 := e0 1
    have c2 := e0 2
    rw [a0] at c0 c1 c2 e4
    rw [dot3, dot3, dot3] at e4
    rw [dot3, dot3]
    simp only [Pi.sub_apply]
    linear_combination 2 * e4 - 2 * p 0 * c0 - 2 * p 1 * c1 - 2 * p 2 * c2
  have hu0 : (q - p) ⬝ᵥ (q - p) ≠ 0 := fun h => h1 (sub_eq_zero.1 (dotProduct_self_eq_zero.1 h)).symm
  have hw0 : (r - p) ⬝ᵥ (r - p) ≠ 0 := fun h => h2 (sub_eq_zero.1 (dotProduct_self_eq_zero.1 h)).symm
  have g1 : g 1 = 0 := by
    by_contra hb
    have h4 : g 1 * (g 1 * ((q - p) ⬝ᵥ (q - p))) = g 2 * (g 2 * ((r - p) ⬝ᵥ (r - p))) := by
      have := congrArg (fun u => u ⬝ᵥ u) hv
      simp only [smul_dotProduct, dotProduct_smul, neg_dotProduct, dotProduct_neg, smul_eq_mul] at this
      rw [this]
      ring
    rw [hs] at h4
    have h5 : g 2 * ((g 1 + g 2) * ((r - p) ⬝ᵥ (r - p))) = 0 := by linear_combination -h4
    rcases mul_eq_zero.1 h5 with h6 | h6
    · rw [h6, zero_mul, neg_zero] at hs
      exact (mul_ne_zero hb hu0) hs
    · have h7 : g 2 = -g 1 := by
        have := (mul_eq_zero.1 h6).resolve_right hw0
        linear_combination this
      rw [h7, neg_smul, neg_neg] at hv
      have := smul_right_injective _ hb hv
      exact h3 (sub_left_injective this)
  have g2 : g 2 = 0 := by
    rw [g1, zero_mul] at hs
    exact (mul_eq_zero.1 (neg_eq_zero.1 hs.symm)).resolve_right hw0
  intro i
  fin_cases i
  · show g 0 = 0
    rw [a0, g1, g2]
    ring
  · exact g1
  · exact g2

/-! ## Exterior products of five-dimensional vectors -/

/-- The coefficients of `u ^ v`, in the order of the elements of the library. -/
def wedge2 (u v : Fin 5 → K) : Fin 10 → K :=
  ![u 0 * v 1 - u 1 * v 0, u 0 * v 2 - u 2 * v 0, u 1 * v 2 - u 2 * v 1, u 0 * v 3 - u 3 * v 0, u 1 * v 3 - u 3 * v 1, u 2 * v 3 - u 3 * v 2,
    u 0 * v 4 - u 4 * v 0, u 1 * v 4 - u 4 * v 1, u 2 * v 4 - u 4 * v 2, u 3 * v 4 - u 4 * v 3]

/-- The coefficients of the product of a vector and a bivector. -/
def wedge3 (u : Fin 5 → K) (b : Fin 10 → K) : Fin 10 → K :=
  ![u 0 * b 2 - u 1 * b 1 + u 2 * b 0, u 0 * b 4 - u 1 * b 3 + u 3 * b 0, u 0 * b 5 - u 2 * b 3 + u 3 * b 1, u 1 * b 5 - u 2 * b 4 + u 3 * b 2,
    u 0 * b 7 - u 1 * b 6 + u 4 * b 0, u 0 * b 8 - u 2 * b 6 + u 4 * b 1, u 1 * b 8 - u 2 * b 7 + u 4 * b 2, u 0 * b 9 - u 3 * b 6 + u 4 * b 3,
    u 1 * b 9 - u 3 * b 7 + u 4 * b 4, u 2 * b 9 - u 3 * b 8 + u 4 * b 5]

/-- The coefficients of the product of a vector and a trivector. -/
def wedge4 (u : Fin 5 → K) (c : Fin 10 → K) : Fin 5 → K :=
  ![u 0 * c 3 - u 1 * c 2 + u 2 * c 1 - u 3 * c 0, u 0 * c 6 - u 1 * c 5 + u 2 * c 4 - u 4 * c 0, u 0 * c 8 - u 1 * c 7 + u 3 * c 4 - u 4 * c 1,
    u 0 * c 9 - u 2 * c 7 + u 3 * c 5 - u 4 * c 2, u 1 * c 9 - u 2 * c 8 + u 3 * c 6 - u 4 * c 3]

/-- The coefficient of the product of a vector and a vector of grade four. -/
def wedge5 (u : Fin 5 → K) (s : Fin 5 → K) : K := u 0 * s 4 - u 1 * s 3 + u 2 * s 2 - u 3 * s 1 + u 4 * s 0

omit [CharZero K] in
/-- Expansion along the first row. -/
theorem det4 (A : Matrix (Fin 4) (Fin 4) K) : A.det =
    A 0 0 * (A.submatrix Fin.succ ![1, 2, 3]).det - A 0 1 * (A.submatrix Fin.succ ![0, 2, 3]).det + A 0 2 * (A.submatrix Fin.succ ![0, 1, 3]).det
     - A 0 3 * (A.submatrix Fin.succ ![0, 1, 2]).det := by
  have e : ∀ i : Fin 4, (i.succAbove : Fin 3 → Fin 4) = (![![1, 2, 3], ![0, 2, 3], ![0, 1, 3], ![0, 1, 2]] : Fin 4 → Fin 3 → Fin 4) i := by decide
  rw [Matrix.det_succ_row_zero]
  simp only [Fin.sum_univ_four, e, Matrix.cons_val_zero, Matrix.cons_val_one, Matrix.cons_val, Fin.val_zero, Fin.val_one, Fin.val_two, pow_zero, pow_one]
  have : ((3 : Fin 4) : Nat) = 3 := rfl
  rw [this]
  ring

omit [CharZero K] in
/-- Expansion along the first row. -/
theorem det5 (A : Matrix (Fin 5) (Fin 5) K) : A.det =
    A 0 0 * (A.submatrix Fin.succ ![1, 2, 3, 4]).det - A 0 1 * (A.submatrix Fin.succ ![0, 2, 3, 4]).det + A 0 2 * (A.submatrix Fin.succ ![0, 1, 3, 4]).det
     - A 0 3 * (A.submatrix Fin.succ ![0, 1, 2, 4]).det + A 0 4 * (A.submatrix Fin.succ ![0, 1, 2, 3]).det := by
  have e : ∀ i : Fin 5, (i.succAbove : Fin 4 → Fin 5) = (![![1, 2, 3, 4], ![0, 2, 3, 4], ![0, 1, 3, 4], ![0, 1, 2, 4], ![0, 1, 2, 3]] : Fin 5 → Fin 4 → Fin 5) i := by decide
  rw [Matrix.det_succ_row_zero]
  simp only [Fin.sum_univ_five, e, Matrix.cons_val_zero, Matrix.cons_val_one, Matrix.cons_val, Fin.val_zero, Fin.val_one, Fin.val_two, pow_zero, pow_one]
  have : ((3 : Fin 5) : Nat) = 3 := rfl
  have h : ((4 : Fin 5) : Nat) = 4 := rfl
  rw [this, h]
  ring

omit [CharZero K] in
theorem det4_rows (v : Fin 4 → Fin 5 → K) (a b c d : Fin 5) :
    (Matrix.of fun (i : Fin 4) (j : Fin 4) => v i ((![a, b, c, d] : Fin 4 → Fin 5) j)).det =
      v 0 a * (v 1 b * (v 2 c * v 3 d - v 2 d * v 3 c) - v 1 c * (v 2 b * v 3 d - v 2 d * v 3 b) + v 1 d * (v 2 b * v 3 c - v 2 c * v 3 b)) -
      v 0 b * (v 1 a * (v 2 c * v 3 d - v 2 d * v 3 c) - v 1 c * (v 2 a * v 3 d - v 2 d * v 3 a) + v 1 d * (v 2 a * v 3 c - v 2 c * v 3 a)) +
      v 0 c * (v 1 a * (v 2 b * v 3 d - v 2 d * v 3 b) - v 1 b * (v 2 a * v 3 d - v 2 d * v 3 a) + v 1 d * (v 2 a * v 3 b - v 2 b * v 3 a)) -
      v 0 d * (v 1 a * (v 2 b * v 3 c - v 2 c * v 3 b) - v 1 b * (v 2 a * v 3 c - v 2 c * v 3 a) + v 1 c * (v 2 a * v 3 b - v 2 b * v 3 a)) := by
  rw [det4]
  simp only [Matrix.det_fin_three, Matrix.submatrix_apply, Matrix.of_apply, Fin.succ_zero_eq_one, Fin.succ_one_eq_two, Matrix.cons_val_zero,
    Matrix.cons_val_one, Matrix.cons_val, show Fin.succ (2 : Fin 3) = 3 from rfl]
  ring

omit [CharZero K] in
theorem wedge5_det (y : Fin 5 → K) (v : Fin 4 → Fin 5 → K) :
    (Matrix.of (Fin.cons y v : Fin 5 → Fin 5 → K)).det = wedge5 y (wedge4 (v 0) (wedge3 (v 1) (wedge2 (v 2) (v 3)))) := by
  have e : ∀ f : Fin 4 → Fin 5, (Matrix.of (Fin.cons y v : Fin 5 → Fin 5 → K)).submatrix Fin.succ f = Matrix.of fun i j => v i (f j) := fun f => rfl
  rw [det5]
  simp only [e, det4_rows, wedge2, wedge3, wedge4, wedge5, Matrix.cons_val_zero, Matrix.cons_val_one, Matrix.cons_val]
  simp only [Matrix.of_apply, Fin.cons_zero]

omit [CharZero K] in
/-- Four vectors are dependent if their product is zero. -/
theorem wedge4_zero (u v w z : Fin 5 → K) : wedge4 u (wedge3 v (wedge2 w z)) = 0 ↔ ¬ LinearIndependent K ![u, v, w, z] := by
  rw [← dependent_det]
  constructor
  · intro h y
    rw [wedge5_det]
    show wedge5 y (wedge4 u (wedge3 v (wedge2 w z))) = 0
    rw [h]
    simp only [wedge5, Pi.zero_apply]
    ring
  · intro h
    have h1 : ∀ y, wedge5 y (wedge4 u (wedge3 v (wedge2 w z))) = 0 := fun y => by
      have := h y
      rw [wedge5_det] at this
      exact this
    generalize wedge4 u (wedge3 v (wedge2 w z)) = s at h1
    have e : ∀ y : Fin 5 → K, y 0 * s 4 - y 1 * s 3 + y 2 * s 2 - y 3 * s 1 + y 4 * s 0 = 0 := h1
    funext i
    fin_cases i
    · simpa using e ![0, 0, 0, 0, 1]
    · simpa using e ![0, 0, 0, 1, 0]
    · simpa using e ![0, 0, 1, 0, 0]
    · simpa using e ![0, 1, 0, 0, 0]
    · simpa using e ![1, 0, 0, 0, 0]

/-- The product of three points is zero if two are the same. -/
theorem wedge3_zero [LinearOrder K] [IsStrictOrderedRing K] (p q r : Fin 3 → K) :
    wedge3 (liftPoint p) (wedge2 (liftPoint q) (liftPoint r)) = 0 ↔ p = q ∨ p = r ∨ q = r := by
  constructor
  · intro h
    by_contra hc
    push Not at hc
    have h1 := distinct_independent hc.1 hc.2.1 hc.2.2
    obtain ⟨y, hy⟩ := exists_linearIndependent_cons_of_lt_finrank (R := K) h1 (by simp)
    refine (wedge4_zero y (liftPoint p) (liftPoint q) (liftPoint r)).1 ?_ hy
    rw [h]
    funext i
    fin_cases i <;> simp [wedge4]
  · have e : ∀ u v : Fin 5 → K, wedge3 u (wedge2 u v) = 0 ∧ wedge3 v (wedge2 u v) = 0 ∧ wedge2 u u = 0 := fun u v => by
      refine ⟨?_, ?_, ?_⟩ <;> funext i <;> fin_cases i <;>
        simp only [wedge3, wedge2, Matrix.cons_val_zero, Matrix.cons_val_one, Matrix.cons_val, Fin.zero_eta, Fin.mk_one, Fin.reduceFinMk,
          Pi.zero_apply] <;> ring
    rintro (rfl | rfl | rfl)
    · exact (e _ _).1
    · exact (e _ _).2.1
    · rw [(e _ (liftPoint q)).2.2]
      funext i
      fin_cases i <;> simp [wedge3]

/-! ## Programs -/

/-- `compute([](auto p, auto e) { return p ^ e; }, cga::point{...}, e)` for an entity `e` (engine.hpp:500-516). -/
def joinPoint (E : Env K) (p : Fin 3 → K) (e : Entity K) : Out (Entity K) := meetLam.compute cgaMetric true E [cgaPt p, e.toArg] >>= single

/-- `compute([](auto p, auto q) { return p ^ q; }, cga::point{...}, cga::point{...})` (engine.hpp:500-516). -/
def joinPoints (E : Env K) (p q : Fin 3 → K) : Out (Entity K) := meetLam.compute cgaMetric true E [cgaPt p, cgaPt q] >>= single

/-- The entity of grade two with these coefficients. -/
def duo (b : Fin 10 → K) : Entity K := ⟨[3, 5, 6, 9, 10, 12, 17, 18, 20, 24], [b 0, b 1, b 2, b 3, b 4, b 5, b 6, b 7, b 8, b 9]⟩

/-- The entity of grade three with these coefficients. -/
def trio (c : Fin 10 → K) : Entity K := ⟨[7, 11, 13, 14, 19, 21, 22, 25, 26, 28], [c 0, c 1, c 2, c 3, c 4, c 5, c 6, c 7, c 8, c 9]⟩

/-- The entity of grade four with these coefficients. -/
def quad (s : Fin 5 → K) : Entity K := ⟨[15, 23, 27, 29, 30], [s 0, s 1, s 2, s 3, s 4]⟩

theorem joinPoints_run (E : Env K) (p q : Fin 3 → K) : joinPoints E p q = ok (duo (wedge2 (liftPoint p) (liftPoint q))) := by
  refine (lam_ratPolys cgaMetric true E (by rfl) pair_ratPolys).trans (congrArg ok ?_)
  simp only [cgaPt, cgaArg]
  rat_value pairRatPolys
  simp only [duo, wedge2, liftPoint, dot3, Matrix.cons_val_zero, Matrix.cons_val_one, Matrix.cons_val]
  simp only [Entity.mk.injEq, List.cons.injEq, and_true, true_and]
  refine ⟨?_, ?_, ?_, ?_, ?_, ?_, ?_, ?_, ?_, ?_⟩ <;> ring

theorem joinDuo_run (E : Env K) (p : Fin 3 → K) (b : Fin 10 → K) : joinPoint E p (duo b) = ok (trio (wedge3 (liftPoint p) b)) := by
  refine (lam_ratPolys cgaMetric true E (by rfl) joinPair_ratPolys).trans (congrArg ok ?_)
  simp only [cgaPt, cgaArg, duo, Entity.toArg]
  rat_value joinPairRatPolys
  simp only [trio, wedge3, liftPoint, dot3, Matrix.cons_val_zero, Matrix.cons_val_one, Matrix.cons_val]
  simp only [Entity.mk.injEq, List.cons.injEq, and_true, true_and]
  refine ⟨?_, ?_, ?_, ?_, ?_, ?_, ?_, ?_, ?_, ?_⟩ <;> ring

theorem joinTrio_run (E : Env K) (p : Fin 3 → K) (c : Fin 10 → K) : joinPoint E p (trio c) = ok (quad (wedge4 (liftPoint p) c)) := by
  refine (lam_ratPolys cgaMetric true E (by rfl) joinCircle_ratPolys).trans (congrArg ok ?_)
  simp only [cgaPt, cgaArg, trio, Entity.toArg]
  rat_value joinCircleRatPolys
  simp only [quad, wedge4, liftPoint, dot3, Matrix.cons_val_zero, Matrix.cons_val_one, Matrix.cons_val]
  simp only [Entity.mk.injEq, List.cons.injEq, and_true, true_and]
  refine ⟨?_, ?_, ?_, ?_, ?_⟩ <;> ring

theorem joinQuad_run (E : Env K) (p : Fin 3 → K) (s : Fin 5 → K) : joinPoint E p (quad s) = ok ⟨[31], [wedge5 (liftPoint p) s]⟩ := by
  refine (lam_ratPolys cgaMetric true E (by rfl) joinSphere_ratPolys).trans (congrArg ok ?_)
  simp only [cgaPt, cgaArg, quad, Entity.toArg]
  rat_value joinSphereRatPolys
  simp only [wedge5, liftPoint, dot3, Matrix.cons_val_zero, Matrix.cons_val_one, Matrix.cons_val]
  simp only [Entity.mk.injEq, List.cons.injEq, and_true, true_and]
  ring

/-! ## Property C68 -/

/-- **C68 (pairs)**: `p ^ q` for two points is zero exactly if they are the same. -/
theorem C68_pair (E : Env K) (p q : Fin 3 → K) : ∃ b, joinPoints E p q = ok b ∧ ((∀ v ∈ b.data, v = 0) ↔ p = q) := by
  refine ⟨_, joinPoints_run E p q, ?_⟩
  simp only [duo, List.mem_cons, List.not_mem_nil, or_false, forall_eq_or_imp, forall_eq, wedge2, liftPoint, Matrix.cons_val_zero,
    Matrix.cons_val_one, Matrix.cons_val]
  constructor
  · rintro ⟨-, -, -, h1, h2, h3, -⟩
    funext i
    fin_cases i
    · show p 0 = q 0
      linear_combination h1
    · show p 1 = q 1
      linear_combination h2
    · show p 2 = q 2
      linear_combination h3
  · rintro rfl
    refine ⟨?_, ?_, ?_, ?_, ?_, ?_, ?_, ?_, ?_, ?_⟩ <;> ring

/-- Two different points. -/
example (E : Env ℚ) : ∃ b, joinPoints E ![1, 2, 3] ![1, 2, 4] = ok b ∧ ¬ ∀ v ∈ b.data, v = 0 := by
  obtain ⟨b, h1, h2⟩ := C68_pair E ![1, 2, 3] ![1, 2, 4]
  exact ⟨b, h1, fun h => absurd (congrFun (h2.1 h) 2) (by simp [Matrix.cons_val])⟩

/-- **C68 (circles)**: the entity computed by joining the point `p` to the pair `q ^ r` is zero exactly if two of the points are the same. -/
theorem C68_circle [LinearOrder K] [IsStrictOrderedRing K] (E : Env K) (p q r : Fin 3 → K) :
    ∃ c, (joinPoints E q r >>= joinPoint E p) = ok c ∧ ((∀ v ∈ c.data, v = 0) ↔ p = q ∨ p = r ∨ q = r) := by
  refine ⟨_, by rw [joinPoints_run, ok_bind, joinDuo_run], ?_⟩
  rw [← wedge3_zero]
  generalize wedge3 (liftPoint p) (wedge2 (liftPoint q) (liftPoint r)) = c
  simp only [trio, List.mem_cons, List.not_mem_nil, or_false, forall_eq_or_imp, forall_eq]
  constructor
  · rintro ⟨h0, h1, h2, h3, h4, h5, h6, h7, h8, h9⟩
    funext i
    fin_cases i <;> assumption
  · rintro rfl
    simp

/-- **C68 (points of circles)**: joined to the circle of three points, of which no two are the same, a point gives zero exactly if it lies on this
circle (on this line if the points lie on a line). -/
theorem C68_onCircle [LinearOrder K] [IsStrictOrderedRing K] (E : Env K) {p q r : Fin 3 → K} (h1 : p ≠ q) (h2 : p ≠ r) (h3 : q ≠ r)
    (x : Fin 3 → K) :
    ∃ s, (joinPoints E q r >>= joinPoint E p >>= joinPoint E x) = ok s ∧ ((∀ v ∈ s.data, v = 0) ↔ OnCircle ![p, q, r] x) := by
  refine ⟨_, by rw [joinPoints_run, ok_bind, joinDuo_run, ok_bind, joinTrio_run], ?_⟩
  have e : (fun i => liftPoint ((![p, q, r] : Fin 3 → Fin 3 → K) i)) = ![liftPoint p, liftPoint q, liftPoint r] := by
    funext i
    fin_cases i <;> rfl
  have h4 : OnCircle ![p, q, r] x ↔ wedge4 (liftPoint x) (wedge3 (liftPoint p) (wedge2 (liftPoint q) (liftPoint r))) = 0 := by
    rw [wedge4_zero, onCircle_span, e]
    have := linearIndependent_finCons (K := K) (x := liftPoint x) (v := ![liftPoint p, liftPoint q, liftPoint r])
    rw [show (![liftPoint x, liftPoint p, liftPoint q, liftPoint r] : Fin 4 → Fin 5 → K) = Fin.cons (liftPoint x) ![liftPoint p, liftPoint q, liftPoint r]
      from rfl, this]
    simp only [distinct_independent h1 h2 h3, true_and, not_not]
  rw [h4]
  generalize wedge4 (liftPoint x) (wedge3 (liftPoint p) (wedge2 (liftPoint q) (liftPoint r))) = c
  simp only [quad, List.mem_cons, List.not_mem_nil, or_false, forall_eq_or_imp, forall_eq]
  constructor
  · rintro ⟨h0, h1, h2, h3, h4⟩
    funext i
    fin_cases i <;> assumption
  · rintro rfl
    simp

/-- The points of the unit circle in the plane of the first two axes. -/
example (x : Fin 3 → ℚ) (h : x 0 * x 0 + x 1 * x 1 = 1) (hz : x 2 = 0) : OnCircle ![![1, 0, 0], ![0, 1, 0], ![-1, 0, 0]] x := by
  intro a n c hP
  have h1 := hP 0
  have h2 := hP 1
  have h3 := hP 2
  simp only [OnRound, dot3, Matrix.cons_val_zero, Matrix.cons_val_one, Matrix.cons_val] at h1 h2 h3 ⊢
  have e1 : n 0 = 0 := by linarith
  have e2 : n 1 = 0 := by linarith
  have e3 : c = -a := by linarith
  rw [e1, e2, e3, hz]
  linear_combination a * h

/-- A point above the plane of the circle. -/
example : ¬ OnCircle ![![1, 0, 0], ![0, 1, 0], ![-1, 0, 0]] (![0, 0, 1] : Fin 3 → ℚ) := by
  intro h
  have := h 0 ![0, 0, 1] 0 (fun i => by fin_cases i <;> simp [OnRound])
  simp [OnRound] at this

/-- **C68 (spheres)**: joined to the sphere computed from four points, a point gives zero exactly if the five points lie on one sphere or plane. -/
theorem C68_sphere (E : Env K) (P : Fin 5 → Fin 3 → K) :
    ∃ v, (joinPoints E (P 3) (P 4) >>= joinPoint E (P 2) >>= joinPoint E (P 1) >>= joinPoint E (P 0)) = ok ⟨[31], [v]⟩ ∧
      (v = 0 ↔ Cospherical P) := by
  refine ⟨_, by rw [joinPoints_run, ok_bind, joinDuo_run, ok_bind, joinTrio_run, ok_bind, joinQuad_run], ?_⟩
  rw [cospherical_det]
  have := wedge5_det (liftPoint (P 0)) ![liftPoint (P 1), liftPoint (P 2), liftPoint (P 3), liftPoint (P 4)]
  have e : (Matrix.of fun i => liftPoint (P i)) =
      Matrix.of (Fin.cons (liftPoint (P 0)) ![liftPoint (P 1), liftPoint (P 2), liftPoint (P 3), liftPoint (P 4)] : Fin 5 → Fin 5 → K) := by
    funext i
    fin_cases i <;> rfl
  rw [e, this]
  exact Iff.rfl

/-- Points of the unit sphere. -/
example : Cospherical ![![1, 0, 0], ![0, 1, 0], ![0, 0, 1], ![-1, 0, 0], (![3 / 5, 4 / 5, 0] : Fin 3 → ℚ)] := by
  refine ⟨1, 0, -1, Or.inl one_ne_zero, fun i => ?_⟩
  fin_cases i <;> simp [OnRound]; norm_num

/-- The centre is not on the sphere of four points. -/
example : ¬ Cospherical ![![1, 0, 0], ![0, 1, 0], ![0, 0, 1], ![-1, 0, 0], (![0, 0, 0] : Fin 3 → ℚ)] := by
  rintro ⟨a, n, c, h0, h⟩
  have h1 := h 0
  have h2 := h 1
  have h3 := h 2
  have h4 := h 3
  have h5 := h 4
  simp only [OnRound, dot3, Matrix.cons_val_zero, Matrix.cons_val_one, Matrix.cons_val] at h1 h2 h3 h4 h5
  have e0 : n 0 = 0 := by linarith
  have ea : a = 0 := by linarith
  have e1 : n 1 = 0 := by linarith
  have e2 : n 2 = 0 := by linarith
  rcases h0 with h0 | h0
  · exact h0 ea
  · refine h0 (funext fun i => ?_)
    fin_cases i <;> assumption

/-! ## Lines and planes -/

/-- Infinity, `ni` (entity.hpp:57-158). -/
def infinityOne : Entity K := ⟨[16], [1]⟩

theorem joinInfinity_run (E : Env K) (p : Fin 3 → K) : joinPoint E p infinityOne = ok ⟨[17, 18, 20, 24], [p 0, p 1, p 2, 1]⟩ := by
  refine (lam_ratPolys cgaMetric true E (by rfl) flat_ratPolys).trans (congrArg ok ?_)
  simp only [cgaPt, cgaArg, infinityOne, Entity.toArg]
  rat_value flatRatPolys

theorem joinFlat1_run (E : Env K) (p q : Fin 3 → K) :
    joinPoint E p ⟨[17, 18, 20, 24], [q 0, q 1, q 2, 1]⟩ =
      ok ⟨[19, 21, 22, 25, 26, 28],
        [p 0 * q 1 - p 1 * q 0, p 0 * q 2 - p 2 * q 0, p 1 * q 2 - p 2 * q 1, p 0 - q 0, p 1 - q 1, p 2 - q 2]⟩ := by
  refine (lam_ratPolys cgaMetric true E (by rfl) joinFlat1_ratPolys).trans (congrArg ok ?_)
  simp only [cgaPt, cgaArg, Entity.toArg]
  rat_value joinFlat1RatPolys
  simp only [Entity.mk.injEq, List.cons.injEq, and_true, true_and]
  refine ⟨?_, ?_, ?_, ?_, ?_, ?_⟩ <;> ring

theorem joinFlat2_run (E : Env K) (x : Fin 3 → K) (a b c d e f : K) :
    joinPoint E x ⟨[19, 21, 22, 25, 26, 28], [a, b, c, d, e, f]⟩ =
      ok ⟨[23, 27, 29, 30], [x 0 * c - x 1 * b + x 2 * a, a + x 0 * e - x 1 * d, b + x 0 * f - x 2 * d, c + x 1 * f - x 2 * e]⟩ := by
  refine (lam_ratPolys cgaMetric true E (by rfl) joinFlat2_ratPolys).trans (congrArg ok ?_)
  simp only [cgaPt, cgaArg, Entity.toArg]
  rat_value joinFlat2RatPolys
  simp only [Entity.mk.injEq, List.cons.injEq, and_true, true_and]
  refine ⟨?_, ?_, ?_, ?_⟩ <;> ring

theorem joinFlat3_run (E : Env K) (x : Fin 3 → K) (a b c d : K) :
    joinPoint E x ⟨[23, 27, 29, 30], [a, b, c, d]⟩ = ok ⟨[31], [x 0 * d - x 1 * c + x 2 * b - a]⟩ := by
  refine (lam_ratPolys cgaMetric true E (by rfl) joinFlat3_ratPolys).trans (congrArg ok ?_)
  simp only [cgaPt, cgaArg, Entity.toArg]
  rat_value joinFlat3RatPolys
  simp only [Entity.mk.injEq, List.cons.injEq, and_true, true_and]
  ring

/-- **C68 (lines)**: joined to the line `p ^ q ^ ni` of two different points, a point gives zero exactly if it lies on the line. -/
theorem C68_line (E : Env K) {p q : Fin 3 → K} (h0 : p ≠ q) (x : Fin 3 → K) :
    ∃ s, (joinPoint E q infinityOne >>= joinPoint E p >>= joinPoint E x) = ok s ∧ ((∀ v ∈ s.data, v = 0) ↔ ∃ t : K, x = p + t • (q - p)) := by
  refine ⟨_, by rw [joinInfinity_run, ok_bind, joinFlat1_run, ok_bind, joinFlat2_run], ?_⟩
  simp only [List.mem_cons, List.not_mem_nil, or_false, forall_eq_or_imp, forall_eq]
  constructor
  · rintro ⟨-, h1, h2, h3⟩
    have e : ∀ i j : Fin 3, (x i - p i) * (q j - p j) = (x j - p j) * (q i - p i) := by
      intro i j
      fin_cases i <;> fin_cases j <;> simp only [Fin.zero_eta, Fin.mk_one, Fin.reduceFinMk] <;> first
        | rfl
        | linear_combination -h1
        | linear_combination h1
        | linear_combination -h2
        | linear_combination h2
        | linear_combination -h3
        | linear_combination h3
    obtain ⟨i, hi⟩ := Function.ne_iff.1 h0
    have hi0 : q i - p i ≠ 0 := sub_ne_zero.2 (Ne.symm hi)
    refine ⟨(x i - p i) / (q i - p i), funext fun j => ?_⟩
    simp only [Pi.add_apply, Pi.smul_apply, Pi.sub_apply, smul_eq_mul]
    have := e i j
    field_simp
    linear_combination -this
  · rintro ⟨t, rfl⟩
    simp only [Pi.add_apply, Pi.smul_apply, Pi.sub_apply, smul_eq_mul]
    refine ⟨?_, ?_, ?_, ?_⟩ <;> ring

/-- A point of a line. -/
example (E : Env ℚ) : ∃ s, (joinPoint E ![1, 1, 0] infinityOne >>= joinPoint E ![0, 1, 0] >>= joinPoint E ![5, 1, 0]) = ok s ∧ ∀ v ∈ s.data, v = 0 := by
  obtain ⟨s, h1, h2⟩ := C68_line E (p := ![0, 1, 0]) (q := ![1, 1, 0]) (fun h => absurd (congrFun h 0) (by simp)) ![5, 1, 0]
  refine ⟨s, h1, h2.2 ⟨5, funext fun i => ?_⟩⟩
  fin_cases i <;> simp

/-- **C68 (planes)**: joined to the plane `q ^ r ^ s ^ ni` computed from three points, a point gives zero exactly if the four points lie on one
plane. -/
theorem C68_plane (E : Env K) (P : Fin 4 → Fin 3 → K) :
    ∃ v, (joinPoint E (P 3) infinityOne >>= joinPoint E (P 2) >>= joinPoint E (P 1) >>= joinPoint E (P 0)) = ok ⟨[31], [v]⟩ ∧
      (v = 0 ↔ OnePlane P) := by
  refine ⟨_, by rw [joinInfinity_run, ok_bind, joinFlat1_run, ok_bind, joinFlat2_run, ok_bind, joinFlat3_run], ?_⟩
  have h1 : OnePlane P ↔ (Matrix.of fun i => ![P i 0, P i 1, P i 2, 1]).det = 0 := by
    rw [← Matrix.exists_mulVec_eq_zero_iff]
    have e : ∀ (x : Fin 3 → K) (v : Fin 4 → K), ![x 0, x 1, x 2, 1] ⬝ᵥ v = ![v 0, v 1, v 2] ⬝ᵥ x + v 3 := fun x v => by
      rw [dot3]
      simp only [dotProduct, Fin.sum_univ_four, Matrix.cons_val_zero, Matrix.cons_val_one, Matrix.cons_val]
      ring
    constructor
    · rintro ⟨n, d, hn, h⟩
      refine ⟨![n 0, n 1, n 2, -d], fun hc => hn (funext fun i => ?_), funext fun i => ?_⟩
      · fin_cases i
        · exact congrFun hc 0
        · exact congrFun hc 1
        · exact congrFun hc 2
      · refine (e (P i) _).trans ?_
        have h2 : (![n 0, n 1, n 2] : Fin 3 → K) = n := by
          funext i
          fin_cases i <;> rfl
        simp only [Matrix.cons_val_zero, Matrix.cons_val_one, Matrix.cons_val, h2, h i]
        exact add_neg_cancel d
    · rintro ⟨v, hv, h⟩
      have h2 : ∀ i, ![v 0, v 1, v 2] ⬝ᵥ P i = -v 3 := fun i => eq_neg_of_add_eq_zero_left ((e (P i) v).symm.trans (congrFun h i))
      refine ⟨![v 0, v 1, v 2], -v 3, fun hc => hv ?_, h2⟩
      have h3 := h2 0
      rw [hc, zero_dotProduct] at h3
      funext i
      fin_cases i
      · exact congrFun hc 0
      · exact congrFun hc 1
      · exact congrFun hc 2
      · exact neg_eq_zero.1 h3.symm
  rw [h1, det4]
  simp only [Matrix.det_fin_three, Matrix.submatrix_apply, Matrix.of_apply, Fin.succ_zero_eq_one, Fin.succ_one_eq_two, Matrix.cons_val_zero,
    Matrix.cons_val_one, Matrix.cons_val, show Fin.succ (2 : Fin 3) = 3 from rfl]
  constructor
  · intro h
    linear_combination h
  · intro h
    linear_combination h

/-- Points on a plane, and points that are not. -/
example : OnePlane ![![1, 0, 0], ![0, 1, 0], ![0, 0, 1], (![1, 1, -1] : Fin 3 → ℚ)] ∧
    ¬ OnePlane ![![1, 0, 0], ![0, 1, 0], ![0, 0, 1], (![0, 0, 0] : Fin 3 → ℚ)] := by
  constructor
  · refine ⟨![1, 1, 1], 1, fun h => ?_, fun i => ?_⟩
    · have := congrFun h 0
      simp at this
    · fin_cases i <;> simp
  · rintro ⟨n, d, h0, h⟩
    have h1 := h 0
    have h2 := h 1
    have h3 := h 2
    have h4 := h 3
    simp at h1 h2 h3 h4
    refine h0 (funext fun i => ?_)
    fin_cases i
    · exact h1.trans h4.symm
    · exact h2.trans h4.symm
    · exact h3.trans h4.symm

/-! ## The literal `1_ni` -/

theorem lineLiteral_run (E : Env K) (p q : Fin 3 → K) :
    (lineLiteralLam.compute cgaMetric true E [cgaPt p, cgaPt q] >>= single) =
      ok ⟨[11, 13, 14, 19, 21, 22, 25, 26, 28],
        [p 0 * q 1 - p 1 * q 0, p 0 * q 2 - p 2 * q 0, p 1 * q 2 - p 2 * q 1, (p 0 * q 1 - p 1 * q 0) / 2, (p 0 * q 2 - p 2 * q 0) / 2,
          (p 1 * q 2 - p 2 * q 1) / 2, (p 0 * (1 - q ⬝ᵥ q) - q 0 * (1 - p ⬝ᵥ p)) / 2, (p 1 * (1 - q ⬝ᵥ q) - q 1 * (1 - p ⬝ᵥ p)) / 2,
          (p 2 * (1 - q ⬝ᵥ q) - q 2 * (1 - p ⬝ᵥ p)) / 2]⟩ := by
  refine (lam_ratPolys cgaMetric true E (by rfl) lineLiteral_ratPolys).trans (congrArg ok ?_)
  simp only [cgaPt, cgaArg, dot3]
  rat_value lineLiteralRatPolys
  simp only [Entity.mk.injEq, List.cons.injEq, and_true, true_and]
  refine ⟨?_, ?_, ?_, ?_, ?_, ?_, ?_, ?_, ?_⟩ <;> ring

theorem joinLiteral_run (E : Env K) (x : Fin 3 → K) (a b c d e f g h i : K) :
    joinPoint E x ⟨[11, 13, 14, 19, 21, 22, 25, 26, 28], [a, b, c, d, e, f, g, h, i]⟩ =
      ok ⟨[15, 23, 27, 29, 30], [x 0 * c - x 1 * b + x 2 * a, x 0 * f - x 1 * e + x 2 * d, d + x 0 * h - x 1 * g - (x ⬝ᵥ x) / 2 * a,
        e + x 0 * i - x 2 * g - (x ⬝ᵥ x) / 2 * b, f + x 1 * i - x 2 * h - (x ⬝ᵥ x) / 2 * c]⟩ := by
  refine (lam_ratPolys cgaMetric true E (by rfl) joinLiteral_ratPolys).trans (congrArg ok ?_)
  simp only [cgaPt, cgaArg, Entity.toArg, dot3]
  rat_value joinLiteralRatPolys
  simp only [Entity.mk.injEq, List.cons.injEq, and_true, true_and]
  refine ⟨?_, ?_, ?_, ?_, ?_⟩ <;> ring

/-- **C68, the negation for the literal `1_ni`**: joined to `p ^ q ^ 1_ni`, the points `p + t (q - p)` of the line give zero only if they are `p` or `q`,
or the line passes through the origin. -/
theorem C68_literal_false [LinearOrder K] [IsStrictOrderedRing K] (E : Env K) {p q : Fin 3 → K} (h0 : p ≠ q) (t : K) :
    ∃ s, (lineLiteralLam.compute cgaMetric true E [cgaPt p, cgaPt q] >>= single >>= joinPoint E (p + t • (q - p))) = ok s ∧
      ((∀ v ∈ s.data, v = 0) ↔ t = 0 ∨ t = 1 ∨ p ⨯₃ q = 0) := by
  refine ⟨_, by rw [lineLiteral_run, ok_bind, joinLiteral_run], ?_⟩
  have hn : (q - p) ⬝ᵥ (q - p) ≠ 0 := fun h => h0 (sub_eq_zero.1 (dotProduct_self_eq_zero.1 h)).symm
  rw [dot3] at hn
  simp only [List.mem_cons, List.not_mem_nil, or_false, forall_eq_or_imp, forall_eq]
  have hc : p ⨯₃ q = 0 ↔ p 0 * q 1 - p 1 * q 0 = 0 ∧ p 0 * q 2 - p 2 * q 0 = 0 ∧ p 1 * q 2 - p 2 * q 1 = 0 := by
    rw [cross_apply]
    constructor
    · intro h
      have a0 := congrFun h 0
      have a1 := congrFun h 1
      have a2 := congrFun h 2
      simp only [Matrix.cons_val_zero, Matrix.cons_val_one, Matrix.cons_val, Pi.zero_apply] at a0 a1 a2
      exact ⟨a2, by linear_combination -a1, a0⟩
    · rintro ⟨a0, a1, a2⟩
      funext i
      fin_cases i
      · exact a2
      · show p 2 * q 0 - p 0 * q 2 = 0
        linear_combination -a1
      · exact a0
  have key : ∀ a : K, a * (t * (1 - t) * ((q - p) 0 * (q - p) 0 + (q - p) 1 * (q - p) 1 + (q - p) 2 * (q - p) 2)) = 0 → t = 0 ∨ t = 1 ∨ a = 0 := by
    intro a h
    rcases mul_eq_zero.1 h with h | h
    · exact Or.inr (Or.inr h)
    rcases mul_eq_zero.1 h with h | h
    · rcases mul_eq_zero.1 h with h | h
      · exact Or.inl h
      · exact Or.inr (Or.inl (by linear_combination -h))
    · exact absurd h hn
  simp only [dot3, Pi.add_apply, Pi.smul_apply, Pi.sub_apply, smul_eq_mul] at key ⊢
  constructor
  · rintro ⟨-, -, h1, h2, h3⟩
    rw [hc]
    have k1 := key (p 0 * q 1 - p 1 * q 0) (by linear_combination 2 * h1)
    have k2 := key (p 0 * q 2 - p 2 * q 0) (by linear_combination 2 * h2)
    have k3 := key (p 1 * q 2 - p 2 * q 1) (by linear_combination 2 * h3)
    tauto
  · intro h
    rw [hc] at h
    rcases h with rfl | rfl | ⟨e1, e2, e3⟩
    · refine ⟨?_, ?_, ?_, ?_, ?_⟩ <;> ring
    · refine ⟨?_, ?_, ?_, ?_, ?_⟩ <;> ring
    · refine ⟨by ring, by ring, ?_, ?_, ?_⟩
      · linear_combination (t * (1 - t) * ((q 0 - p 0) * (q 0 - p 0) + (q 1 - p 1) * (q 1 - p 1) + (q 2 - p 2) * (q 2 - p 2))) / 2 * e1
      · linear_combination (t * (1 - t) * ((q 0 - p 0) * (q 0 - p 0) + (q 1 - p 1) * (q 1 - p 1) + (q 2 - p 2) * (q 2 - p 2))) / 2 * e2
      · linear_combination (t * (1 - t) * ((q 0 - p 0) * (q 0 - p 0) + (q 1 - p 1) * (q 1 - p 1) + (q 2 - p 2) * (q 2 - p 2))) / 2 * e3

/-- A line that does not pass through the origin. -/
example : ¬ ((![0, 1, 0] : Fin 3 → ℚ) ⨯₃ ![1, 1, 0] = 0) ∧ (![0, 1, 0] : Fin 3 → ℚ) ≠ ![1, 1, 0] :=
  ⟨fun h => absurd (congrFun h 2) (by simp [cross_apply]), fun h => absurd (congrFun h 0) (by simp)⟩

end Gal
