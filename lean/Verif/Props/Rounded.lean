import Verif.Spec.Rounding
import Verif.Props.PolyRun
import Mathlib.Algebra.Order.Field.Basic
import Mathlib.Algebra.Order.BigOperators.Group.List
import Mathlib.Tactic.Linarith
import Mathlib.Tactic.Positivity
import Mathlib.Tactic.GCongr

/-!
# Property C57: rounding errors of `compute`

With exact arithmetic the functions of `Rounded` are those of `Engine`.  In the standard model, a coefficient is a sum of monomials each of which is
off by a factor close to one.
-/

namespace Gal

open Out

/-! ## Exact arithmetic -/

section exact
variable {K : Type} [Field K]

theorem exact_powLoop : ∀ (fuel : Nat) (x y : K) (e : Nat), Arith.exact.powLoop fuel x y e = powLoop fuel x y e
  | 0, _, _, _ => rfl
  | fuel + 1, x, y, e => by
    unfold Arith.powLoop powLoop
    split
    · rw [exact_powLoop fuel]; rfl
    · rfl

theorem exact_powNat (s : K) : ∀ n : Nat, Arith.exact.powNat s n = powNat s n
  | 0 => exact_powLoop 0 1 s 0
  | 1 | 2 | 3 | 4 | 5 | 6 | 7 | 8 => rfl
  | n + 9 => exact_powLoop (n + 9) 1 s (n + 9)

theorem exact_ipow (s : K) (N : Int) : Arith.exact.ipow s N = pow s N := by
  unfold Arith.ipow pow
  simp only [exact_powNat]
  rfl

theorem exact_factor (E : Env K) (i : Ind) : Arith.exact.factor E i = E.factor i := by
  unfold Arith.factor Env.factor Env.pow
  simp only [exact_ipow]

theorem exact_prod (E : Env K) : ∀ l : List Ind, Arith.exact.prod E l = E.prod l
  | [] => rfl
  | [i] => exact_factor E i
  | i :: j :: l => by
    unfold Arith.prod Env.prod
    rw [exact_factor, exact_prod E (j :: l)]
    rfl

theorem exact_mon (E : Env K) (o : MvOp) (m : NMon) : Arith.exact.mon E o m = E.mon o m := by
  unfold Arith.mon Env.mon
  simp only [exact_prod]
  rfl

theorem exact_term (E : Env K) (o : MvOp) : ∀ l : List NMon, Arith.exact.term E o l = E.term o l
  | [] => rfl
  | [m] => exact_mon E o m
  | m :: n :: l => by
    unfold Arith.term Env.term
    rw [exact_mon, exact_term E o (n :: l)]
    rfl

theorem exact_computeEntity (E : Env K) (a : Mv) (num den : Int) : Arith.exact.computeEntity E a num den = computeEntity E a num den := by
  unfold Arith.computeEntity computeEntity
  simp only [exact_term]
  rfl

theorem exact_tempLoop (o : MvOp) : ∀ (n : NMv) (E : Env K) (i : Nat), Arith.exact.tempLoop o E i n = tempLoop o E i n
  | [], _, _ => rfl
  | t :: ts, E, i => by
    unfold Arith.tempLoop tempLoop
    simp only [exact_term, exact_tempLoop o ts]

theorem exact_finalizeTemps (nd : Option Nat) : ∀ (ts : List (Mv × Nat)) (E : Env K), Arith.exact.finalizeTemps nd E ts = finalizeTemps nd E ts
  | [], _ => rfl
  | (a, id) :: ts, E => by
    unfold Arith.finalizeTemps finalizeTemps Arith.computeTemp computeTemp
    simp only [exact_tempLoop, exact_finalizeTemps nd ts]

theorem exact_finishCompute (nd : Option Nat) (E : Env K) (q : Rat32) : ∀ l : List Mv, Arith.exact.finishCompute nd E q l = finishCompute nd E q l
  | [] => rfl
  | [a] => by
    unfold Arith.finishCompute finishCompute Arith.finalizeEntity finalizeEntity
    simp only [exact_computeEntity]
  | a :: b :: l => by
    unfold Arith.finishCompute finishCompute Arith.finalizeEntities finalizeEntities Arith.finalizeEntity finalizeEntity
    simp only [exact_computeEntity]

theorem exact_computeExpr (m : Metric) (null : Bool) (cap : Nat) (E : Env K) (args : List (Arg K)) (e : Rpne) :
    Arith.exact.computeExpr m null cap E args e = computeExpr m null cap E args e := by
  unfold Arith.computeExpr computeExpr
  congr 1
  funext c
  unfold Arith.runCompiled runCompiled
  simp only [exact_finalizeTemps]
  congr 1
  funext data
  congr 1
  funext E'
  exact exact_finishCompute _ _ _ _

/-- C57: with exact arithmetic, `compute` is the `compute` of the other properties. -/
theorem C57_exact (m : Metric) (null : Bool) (E : Env K) (args : List (Arg K)) (f : Lam) :
    Arith.exact.compute m null E args f = f.compute m null E args := by
  unfold Arith.compute Lam.compute
  congr 1
  funext e
  exact exact_computeExpr m null _ E args e

end exact

/-! ## Factors close to one -/

/-- A product of `k` factors `1 + δ` or `1 / (1 + δ)`. -/
structure CloseToOne (u : ℝ) (k : Nat) (t : ℝ) : Prop where
  lo : (1 - u) ^ k ≤ t
  hi : t * (1 - u) ^ k ≤ 1

/-- `y` is `x` up to `k` roundings. -/
def Near (u : ℝ) (k : Nat) (y x : ℝ) : Prop := ∃ t, CloseToOne u k t ∧ y = x * t

/-- `y` is the sum of `xs`, each up to `k` roundings. -/
inductive NearSum (u : ℝ) (k : Nat) : ℝ → List ℝ → Prop
  | nil : NearSum u k 0 []
  | cons {x t y : ℝ} {xs : List ℝ} : CloseToOne u k t → NearSum u k y xs → NearSum u k (x * t + y) (x :: xs)

section near
variable {u : ℝ}

theorem CloseToOne.zero : CloseToOne u 0 1 := ⟨by simp, by simp⟩

variable (h0 : 0 ≤ u) (h1 : u < 1)
include h0 h1

theorem one_sub_pow_pos (k : Nat) : 0 < (1 - u) ^ k := pow_pos (by linarith) k

theorem one_sub_pow_le (k : Nat) : (1 - u) ^ k ≤ 1 := pow_le_one₀ (by linarith) (by linarith)

theorem CloseToOne.pos {k : Nat} {t : ℝ} (h : CloseToOne u k t) : 0 < t := (one_sub_pow_pos h0 h1 k).trans_le h.lo

theorem CloseToOne.mul {k l : Nat} {s t : ℝ} (hs : CloseToOne u k s) (ht : CloseToOne u l t) : CloseToOne u (k + l) (s * t) := by
  have p1 := one_sub_pow_pos h0 h1 k
  have p2 := one_sub_pow_pos h0 h1 l
  have q1 := hs.pos h0 h1
  have q2 := ht.pos h0 h1
  constructor
  · rw [pow_add]
    exact mul_le_mul hs.lo ht.lo p2.le q1.le
  · rw [pow_add, mul_mul_mul_comm]
    exact mul_le_one₀ hs.hi (by positivity) ht.hi

theorem CloseToOne.inv {k : Nat} {t : ℝ} (h : CloseToOne u k t) : CloseToOne u k t⁻¹ := by
  have q := h.pos h0 h1
  constructor
  · rw [le_inv_comm₀ (one_sub_pow_pos h0 h1 k) q, ← one_div, le_div_iff₀ (one_sub_pow_pos h0 h1 k)]
    exact h.hi
  · rw [inv_mul_le_iff₀ q, mul_one]
    exact h.lo

theorem CloseToOne.mono {k l : Nat} {t : ℝ} (hkl : k ≤ l) (h : CloseToOne u k t) : CloseToOne u l t := by
  have hp : (1 - u) ^ l ≤ (1 - u) ^ k := pow_le_pow_of_le_one (by linarith) (by linarith) hkl
  exact ⟨hp.trans h.lo, (mul_le_mul_of_nonneg_left hp (h.pos h0 h1).le).trans h.hi⟩

theorem closeToOne_delta {δ : ℝ} (h : |δ| ≤ u) : CloseToOne u 1 (1 + δ) := by
  rw [abs_le] at h
  constructor
  · rw [pow_one]; linarith
  · rw [pow_one]
    nlinarith

theorem CloseToOne.abs_sub {k : Nat} {t : ℝ} (h : CloseToOne u k t) : |t - 1| ≤ gam u k := by
  have p := one_sub_pow_pos h0 h1 k
  have p1 := one_sub_pow_le h0 h1 k
  have h2 : t ≤ 1 / (1 - u) ^ k := by rw [le_div_iff₀ p]; exact h.hi
  have h3 : 2 - (1 - u) ^ k ≤ 1 / (1 - u) ^ k := by
    rw [le_div_iff₀ p]
    nlinarith [sq_nonneg ((1 - u) ^ k - 1)]
  unfold gam
  rw [abs_le]
  constructor <;> linarith [h.lo]

theorem gam_nonneg (k : Nat) : 0 ≤ gam u k := (abs_nonneg _).trans ((CloseToOne.zero.mono h0 h1 (Nat.zero_le k)).abs_sub h0 h1)

theorem gam_mono {k l : Nat} (h : k ≤ l) : gam u k ≤ gam u l := by
  unfold gam
  have hp : (1 - u) ^ l ≤ (1 - u) ^ k := pow_le_pow_of_le_one (by linarith) (by linarith) h
  have := one_div_le_one_div_of_le (one_sub_pow_pos h0 h1 l) hp
  linarith

omit h0 in
/-- The usual bound for the error of `k` roundings. -/
theorem gam_le {k : Nat} (hk : k * u < 1) : gam u k ≤ k * u / (1 - k * u) := by
  have hb := one_add_mul_le_pow (a := -u) (by linarith) k
  have h2 : 1 - k * u ≤ (1 - u) ^ k := by
    have e : 1 + (k : ℝ) * -u = 1 - k * u := by ring
    rw [e] at hb
    exact hb
  have h3 := one_div_le_one_div_of_le (by linarith : 0 < 1 - k * u) h2
  unfold gam
  have e : k * u / (1 - k * u) = 1 / (1 - k * u) - 1 := by
    have : 1 - k * u ≠ 0 := by linarith
    field_simp
    ring
  rw [e]
  linarith

omit h0 h1 in
theorem Near.rfl' (x : ℝ) : Near u 0 x x := ⟨1, CloseToOne.zero, by ring⟩

theorem Near.mono {k l : Nat} {y x : ℝ} (hkl : k ≤ l) (h : Near u k y x) : Near u l y x := by
  obtain ⟨t, h2, h3⟩ := h
  exact ⟨t, h2.mono h0 h1 hkl, h3⟩

theorem NearSum.mono {k l : Nat} {y : ℝ} {xs : List ℝ} (hkl : k ≤ l) (h : NearSum u k y xs) : NearSum u l y xs := by
  induction h with
  | nil => exact .nil
  | cons h2 _ ih => exact .cons (h2.mono h0 h1 hkl) ih

theorem NearSum.mul_right {k l : Nat} {y s : ℝ} {xs : List ℝ} (h : NearSum u k y xs) (hs : CloseToOne u l s) : NearSum u (k + l) (y * s) xs := by
  induction h with
  | nil => rw [zero_mul]; exact .nil
  | @cons x t y xs h2 _ ih =>
    have e : (x * t + y) * s = x * (t * s) + y * s := by ring
    rw [e]
    exact .cons (h2.mul h0 h1 hs) ih

/-- A sum of perturbed numbers is close to the sum. -/
theorem NearSum.abs_sub {k : Nat} {y : ℝ} {xs : List ℝ} (h : NearSum u k y xs) : |y - xs.sum| ≤ gam u k * (xs.map fun x => |x|).sum := by
  induction h with
  | nil => simp
  | @cons x t y xs h2 _ ih =>
    rw [List.sum_cons, List.map_cons, List.sum_cons]
    have e : x * t + y - (x + xs.sum) = x * (t - 1) + (y - xs.sum) := by ring
    rw [e, mul_add]
    refine (abs_add_le _ _).trans (add_le_add ?_ ih)
    rw [abs_mul, mul_comm]
    exact mul_le_mul_of_nonneg_right (h2.abs_sub h0 h1) (abs_nonneg x)

omit h0 h1 in
theorem Near.sum {k : Nat} {y x : ℝ} (h : Near u k y x) : NearSum u k y [x] := by
  obtain ⟨t, h2, rfl⟩ := h
  have := NearSum.cons (x := x) h2 .nil
  rwa [add_zero] at this

/-- A sum of numbers of one sign is computed with a small relative error. -/
theorem NearSum.near {k : Nat} {y : ℝ} {xs : List ℝ} (h : NearSum u k y xs) (hp : ∀ x ∈ xs, 0 ≤ x) : Near u k y xs.sum := by
  have key : (1 - u) ^ k * xs.sum ≤ y ∧ y * (1 - u) ^ k ≤ xs.sum := by
    induction h with
    | nil => simp
    | @cons x t y xs h2 _ ih =>
      obtain ⟨i1, i2⟩ := ih fun x hx => hp x (List.mem_cons_of_mem _ hx)
      have hx := hp x (by simp)
      rw [List.sum_cons]
      constructor
      · nlinarith [mul_le_mul_of_nonneg_left h2.lo hx]
      · nlinarith [mul_le_mul_of_nonneg_left h2.hi hx]
  have hs : 0 ≤ xs.sum := List.sum_nonneg hp
  rcases hs.eq_or_lt with h2 | h2
  · rw [← h2] at key ⊢
    have p := one_sub_pow_pos h0 h1 k
    have : y = 0 := le_antisymm (by nlinarith) (by linarith)
    exact ⟨1, CloseToOne.zero.mono h0 h1 (Nat.zero_le k), by rw [this]; ring⟩
  · refine ⟨y / xs.sum, ⟨?_, ?_⟩, by field_simp⟩
    · rw [le_div_iff₀ h2]; exact key.1
    · rw [div_mul_eq_mul_div, div_le_one h2]; exact key.2

end near

/-! ## Arithmetic -/

section arith
variable {u : ℝ} (h0 : 0 ≤ u) (h1 : u < 1) {A : Arith ℝ} (hA : A.Standard u)
include h0 h1 hA

theorem near_mul {k l : Nat} {a b x y : ℝ} (ha : Near u k a x) (hb : Near u l b y) : Near u (k + l + 1) (A.mul a b) (x * y) := by
  obtain ⟨s, hs, rfl⟩ := ha
  obtain ⟨t, ht, rfl⟩ := hb
  obtain ⟨δ, hd, e⟩ := hA.mul (x * s) (y * t)
  exact ⟨s * t * (1 + δ), (hs.mul h0 h1 ht).mul h0 h1 (closeToOne_delta h0 h1 hd), by rw [e]; ring⟩

theorem near_div {k l : Nat} {a b x y : ℝ} (ha : Near u k a x) (hb : Near u l b y) : Near u (k + l + 1) (A.div a b) (x / y) := by
  obtain ⟨s, hs, rfl⟩ := ha
  obtain ⟨t, ht, rfl⟩ := hb
  obtain ⟨δ, hd, e⟩ := hA.div (x * s) (y * t)
  exact ⟨s * t⁻¹ * (1 + δ), (hs.mul h0 h1 (ht.inv h0 h1)).mul h0 h1 (closeToOne_delta h0 h1 hd), by rw [e, mul_div_mul_comm]; ring⟩

theorem near_int (n : Int) : Near u 1 (A.int n) n := by
  obtain ⟨δ, hd, e⟩ := hA.int n
  exact ⟨1 + δ, closeToOne_delta h0 h1 hd, e⟩

theorem nearSum_add {k l : Nat} {a b x : ℝ} {xs : List ℝ} (ha : Near u k a x) (hb : NearSum u l b xs) :
    NearSum u (max k l + 1) (A.add a b) (x :: xs) := by
  obtain ⟨s, hs, rfl⟩ := ha
  obtain ⟨δ, hd, e⟩ := hA.add (x * s) b
  rw [e, add_mul]
  have h2 := closeToOne_delta h0 h1 hd
  have e2 : x * s * (1 + δ) = x * (s * (1 + δ)) := by ring
  rw [e2]
  exact .cons ((hs.mono h0 h1 (le_max_left k l)).mul h0 h1 h2) ((hb.mono h0 h1 (le_max_right k l)).mul_right h0 h1 h2)

theorem nearSum_mul {k l : Nat} {a b c : ℝ} {xs : List ℝ} (ha : Near u k a c) (hb : NearSum u l b xs) :
    NearSum u (k + l + 1) (A.mul a b) (xs.map fun x => c * x) := by
  obtain ⟨s, hs, rfl⟩ := ha
  obtain ⟨δ, hd, e⟩ := hA.mul (c * s) b
  rw [e]
  have h2 := hs.mul h0 h1 (closeToOne_delta h0 h1 hd)
  have h3 := hb.mul_right h0 h1 h2
  have key : ∀ {n : Nat} {y : ℝ} {xs : List ℝ}, NearSum u n y xs → NearSum u n (c * y) (xs.map fun x => c * x) := by
    intro n y xs h
    induction h with
    | nil => rw [mul_zero]; exact .nil
    | @cons x t y xs h2 _ ih =>
      have e : c * (x * t + y) = c * x * t + c * y := by ring
      rw [e]
      exact .cons h2 ih
  have e2 : c * s * b * (1 + δ) = c * (b * (s * (1 + δ))) := by ring
  rw [e2]
  exact (key h3).mono h0 h1 (by omega)

theorem nearSum_div {k l : Nat} {a b c : ℝ} {xs : List ℝ} (ha : Near u k a c) (hb : NearSum u l b xs) :
    NearSum u (k + l + 1) (A.div b a) (xs.map fun x => x / c) := by
  obtain ⟨s, hs, rfl⟩ := ha
  obtain ⟨δ, hd, e⟩ := hA.div b (c * s)
  rw [e]
  have h2 := (hs.inv h0 h1).mul h0 h1 (closeToOne_delta h0 h1 hd)
  have h3 := hb.mul_right h0 h1 h2
  have key : ∀ {n : Nat} {y : ℝ} {xs : List ℝ}, NearSum u n y xs → NearSum u n (y / c) (xs.map fun x => x / c) := by
    intro n y xs h
    induction h with
    | nil => rw [zero_div]; exact .nil
    | @cons x t y xs h2 _ ih =>
      have e : (x * t + y) / c = x / c * t + y / c := by ring
      rw [e]
      exact .cons h2 ih
  have e2 : b / (c * s) * (1 + δ) = b * (s⁻¹ * (1 + δ)) / c := by
    rw [div_mul_eq_div_div, div_eq_mul_inv (b / c) s]
    ring
  rw [e2]
  exact (key h3).mono h0 h1 (by omega)

/-! ## Powers -/

theorem near_powLoop : ∀ (fuel : Nat) {a b e : Nat} {s t x y : ℝ}, 1 ≤ e → e ≤ fuel + 1 → Near u a s x → Near u b t y →
    Near u (a + e * (b + 1)) (A.powLoop fuel s t e) (x * y ^ e)
  | 0, a, b, e, s, t, x, y, he, hf, hs, ht => by
    obtain rfl : e = 1 := by omega
    unfold Arith.powLoop
    rw [pow_one, one_mul]
    exact near_mul h0 h1 hA hs ht
  | fuel + 1, a, b, e, s, t, x, y, he, hf, hs, ht => by
    unfold Arith.powLoop
    by_cases h2 : e > 1
    · rw [if_pos h2]
      have ht2 := near_mul h0 h1 hA ht ht
      by_cases hodd : e % 2 = 1
      · rw [if_pos hodd]
        have := near_powLoop fuel (e := e / 2) (by omega) (by omega) (near_mul h0 h1 hA hs ht) ht2
        obtain ⟨m, rfl⟩ : ∃ m, e = 2 * m + 1 := ⟨e / 2, by omega⟩
        have e1 : (2 * m + 1) / 2 = m := by omega
        rw [e1] at this ⊢
        have e2 : x * y * (y * y) ^ m = x * y ^ (2 * m + 1) := by rw [pow_succ, pow_mul, sq]; ring
        rw [e2] at this
        exact this.mono h0 h1 (le_of_eq (by ring))
      · rw [if_neg hodd]
        have := near_powLoop fuel (e := e / 2) (by omega) (by omega) hs ht2
        obtain ⟨m, rfl⟩ : ∃ m, e = 2 * m := ⟨e / 2, by omega⟩
        have e1 : 2 * m / 2 = m := by omega
        rw [e1] at this ⊢
        have e2 : x * (y * y) ^ m = x * y ^ (2 * m) := by rw [pow_mul, sq]
        rw [e2] at this
        exact this.mono h0 h1 (le_of_eq (by ring))
    · obtain rfl : e = 1 := by omega
      rw [if_neg h2, pow_one, one_mul]
      exact near_mul h0 h1 hA hs ht

end arith

section pow
variable {u : ℝ} (h0 : 0 ≤ u) (h1 : u < 1) {A : Arith ℝ} (hA : A.Standard u)
include h0 h1 hA

theorem near_powNat (s : ℝ) {n : Nat} (hn : 1 ≤ n) : Near u (powCost n) (A.powNat s n) (s ^ n) := by
  have e1 : Near u 0 s s := Near.rfl' s
  have m := fun {k l : Nat} {a b x y : ℝ} (ha : Near u k a x) (hb : Near u l b y) => near_mul h0 h1 hA ha hb
  have e2 := m e1 e1
  have e3 := m e2 e1
  have e4 := m e2 e2
  have e5 := m e4 e1
  have e6 := m e3 e3
  have e7 := m (m e4 e2) e1
  have e8 := m e4 e4
  unfold Arith.powNat
  split
  · rw [pow_one]; exact e1
  · rw [sq]; exact e2
  · have : s ^ 3 = s * s * s := by ring
    rw [this]; exact e3
  · have : s ^ 4 = s * s * (s * s) := by ring
    rw [this]; exact e4
  · have : s ^ 5 = s * s * (s * s) * s := by ring
    rw [this]; exact e5
  · have : s ^ 6 = s * s * s * (s * s * s) := by ring
    rw [this]; exact e6
  · have : s ^ 7 = s * s * (s * s) * (s * s) * s := by ring
    rw [this]; exact e7
  · have : s ^ 8 = s * s * (s * s) * (s * s * (s * s)) := by ring
    rw [this]; exact e8
  · rename_i c1 c2 c3 c4 c5 c6 c7 c8
    have h9 : 9 ≤ n := by
      by_contra hlt
      have : n = 1 ∨ n = 2 ∨ n = 3 ∨ n = 4 ∨ n = 5 ∨ n = 6 ∨ n = 7 ∨ n = 8 := by omega
      rcases this with h | h | h | h | h | h | h | h
      · exact c1 h
      · exact c2 h
      · exact c3 h
      · exact c4 h
      · exact c5 h
      · exact c6 h
      · exact c7 h
      · exact c8 h
    have := near_powLoop h0 h1 hA n (e := n) hn (by omega) (Near.rfl' 1) e1
    rw [one_mul] at this
    unfold powCost
    rw [if_neg (by omega)]
    exact this.mono h0 h1 (by omega)

theorem near_ipow (s : ℝ) {N : Int} (hz : N ≠ 0) (hmin : i32Min < N) (hmax : N ≤ i32Max) :
    ∃ v, A.ipow s N = ok v ∧ Near u (powCost N.natAbs + if N < 0 then 1 else 0) v (s ^ N) := by
  unfold Arith.ipow
  by_cases c1 : N = 1
  · subst c1
    rw [if_pos rfl]
    exact ⟨_, rfl, by rw [zpow_one]; exact Near.rfl' s⟩
  rw [if_neg c1]
  by_cases c2 : N = -1
  · subst c2
    rw [if_pos rfl]
    refine ⟨_, rfl, ?_⟩
    rw [zpow_neg_one, ← one_div]
    exact near_div h0 h1 hA (Near.rfl' 1) (Near.rfl' s)
  rw [if_neg c2]
  by_cases c3 : N < 0
  · rw [if_pos c3, if_pos c3]
    obtain ⟨n, rfl⟩ : ∃ n : Nat, N = -(n : Int) := ⟨N.natAbs, by omega⟩
    have hc : chk (- -(n : Int)) = ok (n : Int) := by
      rw [neg_neg]
      exact chk_eq_ok.2 ⟨⟨by unfold i32Min; omega, by unfold i32Min i32Max at *; omega⟩, rfl⟩
    rw [hc, ok_bind]
    refine ⟨_, rfl, ?_⟩
    have := near_div h0 h1 hA (Near.rfl' 1) (near_powNat h0 h1 hA s (n := n) (by omega))
    rw [one_div, ← zpow_natCast, ← zpow_neg] at this
    rw [Int.toNat_natCast, Int.natAbs_neg, Int.natAbs_natCast]
    exact this.mono h0 h1 (by omega)
  · rw [if_neg c3, if_neg c3]
    obtain ⟨n, rfl⟩ : ∃ n : Nat, N = (n : Int) := ⟨N.natAbs, by omega⟩
    refine ⟨_, rfl, ?_⟩
    rw [Int.toNat_natCast, Int.natAbs_natCast, zpow_natCast]
    exact near_powNat h0 h1 hA s (by omega)

/-! ## Monomials and sums -/

theorem near_factor {E : Env ℝ} {i : Ind} (h : EvalInd E i) (hd : i.deg.den = 1) :
    ∃ v, A.factor E i = ok v ∧ Near u (indCost i) v (i.val E.pw) := by
  unfold Arith.factor
  rw [Env.get_ok h.has, ok_bind, if_neg (by omega)]
  obtain ⟨e1, e2⟩ := Rat32.toQ_num_den h.canon
  obtain ⟨v, h2, h3⟩ := near_ipow h0 h1 hA (E.rho i.id) h.nz h.min h.canon.1.num.2
  refine ⟨v, h2, ?_⟩
  unfold Ind.val Env.pw
  rw [if_pos (by omega), e1]
  exact h3

theorem near_prod {E : Env ℝ} : ∀ {l : List Ind}, l ≠ [] → (∀ i ∈ l, EvalInd E i ∧ i.deg.den = 1) →
    ∃ v, A.prod E l = ok v ∧ Near u (indsCost l) v (indsVal E.pw l)
  | [], h, _ => (h rfl).elim
  | [i], _, h => by
    obtain ⟨v, h2, h3⟩ := near_factor h0 h1 hA (h i (by simp)).1 (h i (by simp)).2
    refine ⟨v, h2, ?_⟩
    simpa [indsVal, indsCost] using h3
  | i :: j :: l, _, h => by
    obtain ⟨v, h2, h3⟩ := near_factor h0 h1 hA (h i (by simp)).1 (h i (by simp)).2
    obtain ⟨w, h4, h5⟩ := near_prod (l := j :: l) (by simp) fun k hk => h k (List.mem_cons_of_mem _ hk)
    unfold Arith.prod
    rw [h2, ok_bind, h4, ok_bind]
    refine ⟨_, rfl, ?_⟩
    rw [indsVal_cons]
    exact near_mul h0 h1 hA h3 h5

theorem near_cast (q : Rat32) : Near u 3 (A.cast q) (q.toQ : ℝ) := by
  have := near_div h0 h1 hA (near_int h0 h1 hA q.num) (near_int h0 h1 hA q.den)
  unfold Rat32.toQ
  push_cast
  exact this

theorem near_mon {E : Env ℝ} {m : NMon} (hq : m.q.WF) (hi : ∀ i ∈ m.inds, EvalInd E i ∧ i.deg.den = 1) :
    ∃ v, A.mon E .id m = ok v ∧ Near u (monCost m) v (m.val E.pw) := by
  have hp := hq.pos
  have happ : ∀ v, E.app .id v = v := fun v => by unfold Env.app; rw [if_pos rfl]
  unfold Arith.mon NMon.val monCost
  by_cases c1 : m.q.num = 0
  · rw [if_pos c1]
    refine ⟨0, rfl, 1, CloseToOne.zero.mono h0 h1 (Nat.zero_le _), ?_⟩
    unfold Rat32.toQ
    rw [c1]
    simp
  rw [if_neg c1]
  by_cases c2 : m.inds = []
  · rw [if_pos c2, if_pos c2, happ, c2, indsVal_nil, mul_one]
    exact ⟨_, rfl, near_cast h0 h1 hA m.q⟩
  rw [if_neg c2, if_neg c2]
  obtain ⟨p, h2, h3⟩ := near_prod h0 h1 hA c2 hi
  simp only [h2, ok_bind, happ, pure_eq]
  have hone : ¬(m.q.num.natAbs > 1 ∨ m.q.num = -1) → m.q.num = 1 := by omega
  unfold factorCost
  by_cases c3 : m.q.den.natAbs > 1
  · rw [if_pos c3, if_pos c3]
    by_cases c4 : m.q.num.natAbs > 1 ∨ m.q.num = -1
    · rw [if_pos c4, if_pos c4]
      exact ⟨_, rfl, (near_mul h0 h1 hA (near_cast h0 h1 hA m.q) h3).mono h0 h1 (by omega)⟩
    · rw [if_neg c4, if_neg c4]
      refine ⟨_, rfl, ?_⟩
      have e : (m.q.toQ : ℝ) * indsVal E.pw m.inds = indsVal E.pw m.inds / (m.q.den : ℝ) := by
        unfold Rat32.toQ
        rw [hone c4]
        push_cast
        ring
      rw [e]
      exact (near_div h0 h1 hA h3 (near_int h0 h1 hA m.q.den)).mono h0 h1 (by omega)
  · rw [if_neg c3, if_neg c3]
    have hd : m.q.den = 1 := by omega
    have e : (m.q.toQ : ℝ) = (m.q.num : ℝ) := by
      unfold Rat32.toQ
      rw [hd]
      push_cast
      ring
    rw [e]
    by_cases c4 : m.q.num.natAbs > 1 ∨ m.q.num = -1
    · rw [if_pos c4, if_pos c4]
      exact ⟨_, rfl, (near_mul h0 h1 hA (near_int h0 h1 hA m.q.num) h3).mono h0 h1 (by omega)⟩
    · rw [if_neg c4, if_neg c4, hone c4]
      refine ⟨_, rfl, ?_⟩
      rw [Int.cast_one, one_mul]
      exact h3.mono h0 h1 (by omega)

theorem near_term {E : Env ℝ} : ∀ {ms : List NMon}, ms ≠ [] → (∀ m ∈ ms, m.q.WF ∧ ∀ i ∈ m.inds, EvalInd E i ∧ i.deg.den = 1) →
    ∃ v, A.term E .id ms = ok v ∧ NearSum u (termCost ms) v (ms.map (NMon.val E.pw))
  | [], h, _ => (h rfl).elim
  | [m], _, h => by
    obtain ⟨v, h2, h3⟩ := near_mon h0 h1 hA (h m (by simp)).1 (h m (by simp)).2
    exact ⟨v, h2, h3.sum⟩
  | m :: n :: l, _, h => by
    obtain ⟨v, h2, h3⟩ := near_mon h0 h1 hA (h m (by simp)).1 (h m (by simp)).2
    obtain ⟨w, h4, h5⟩ := near_term (ms := n :: l) (by simp) fun k hk => h k (List.mem_cons_of_mem _ hk)
    unfold Arith.term
    rw [h2, ok_bind, h4, ok_bind]
    exact ⟨_, rfl, nearSum_add h0 h1 hA h3 h5⟩

theorem near_scaleBy {num den : Int} (hn : num ≠ 0) (hd : 0 < den) {k : Nat} {v : ℝ} {xs : List ℝ} (hv : NearSum u k v xs) :
    NearSum u (k + factorCost ⟨num, den⟩) (A.scaleBy num den v) (xs.map fun x => (num : ℝ) / den * x) := by
  have hone : ¬(num.natAbs > 1 ∨ num = -1) → num = 1 := by omega
  unfold Arith.scaleBy factorCost
  by_cases c3 : den.natAbs > 1
  · rw [if_pos c3, if_pos c3]
    by_cases c4 : num.natAbs > 1 ∨ num = -1
    · rw [if_pos c4, if_pos c4]
      have := near_div h0 h1 hA (near_int h0 h1 hA num) (near_int h0 h1 hA den)
      exact (nearSum_mul h0 h1 hA this hv).mono h0 h1 (by omega)
    · rw [if_neg c4, if_neg c4, hone c4]
      have := (nearSum_div h0 h1 hA (near_int h0 h1 hA den) hv).mono h0 h1 (show _ ≤ k + 2 by omega)
      have e : (xs.map fun x => x / (den : ℝ)) = xs.map fun x => ((1 : Int) : ℝ) / den * x := List.map_congr_left fun x _ => by push_cast; ring
      rwa [e] at this
  · rw [if_neg c3, if_neg c3]
    obtain rfl : den = 1 := by omega
    by_cases c4 : num.natAbs > 1 ∨ num = -1
    · rw [if_pos c4, if_pos c4]
      have := (nearSum_mul h0 h1 hA (near_int h0 h1 hA num) hv).mono h0 h1 (show _ ≤ k + 2 by omega)
      have e : (xs.map fun x => (num : ℝ) * x) = xs.map fun x => (num : ℝ) / ((1 : Int) : ℝ) * x := List.map_congr_left fun x _ => by push_cast; ring
      rwa [e] at this
    · rw [if_neg c4, if_neg c4, hone c4]
      have e : (xs.map fun x => ((1 : Int) : ℝ) / ((1 : Int) : ℝ) * x) = xs := by simp
      rw [e]
      exact hv

/-- **C57**: in the standard model, the coefficient that `cterm::value` computes is off by at most `gam u k` times the sum of the absolute values of
its monomials, where `k` counts roundings. -/
theorem C57_coefficient (E : Env ℝ) (ms : List NMon) (hne : ms ≠ []) (hw : ∀ m ∈ ms, m.q.WF ∧ ∀ i ∈ m.inds, EvalInd E i ∧ i.deg.den = 1) :
    ∃ v, A.term E .id ms = ok v ∧ |v - monsVal E.pw ms| ≤ gam u (termCost ms) * (ms.map fun m => |m.val E.pw|).sum := by
  obtain ⟨v, h2, h3⟩ := near_term h0 h1 hA hne hw
  refine ⟨v, h2, ?_⟩
  have := h3.abs_sub h0 h1
  rwa [List.map_map] at this

end pow

end Gal
