import Verif.Props.IeeeFormat
import Verif.Props.RoundedGeometry

/-!
# Property C57 in formats of IEEE 754, with overflow and underflow

As long as the numbers given are not too small and not too large, no monomial underflows and no sum overflows, and the formats of IEEE 754 compute what
the arithmetic without bounds for the exponent computes.  Sums may become small by cancellation, but sums of numbers of the format that are small are exact.
-/

namespace Gal

open Out

theorem roundBits_raw (p : Nat) (x : ℝ) : roundBits p x = ieeeRaw p (Int.log 2 |x| + 1 - p) x := by
  unfold roundBits ieeeRaw
  rw [max_self]

theorem roundBits_zero (p : Nat) : roundBits p (0 : ℝ) = 0 := by
  simp [roundBits, nearestEven]

theorem pow_number {p : Nat} (hp : 1 ≤ p) {g k : Int} (h : g ≤ k) (s : Int) (hs : |s| = 1) : IeeeNumber p g (k + 1) (s * (2 : ℝ) ^ k) := by
  refine ⟨s, k, ?_, h, rfl, ?_⟩
  · rw [hs]
    exact one_lt_pow₀ (by norm_num) (by omega)
  · rw [abs_mul, ← Int.cast_abs, hs, Int.cast_one, one_mul, abs_of_pos (zpow_pos (by norm_num) _)]
    exact zpow_lt_zpow_right₀ (by norm_num) (by omega)

/-- Rounding does not step over a power of two. -/
theorem roundBits_upper {p : Nat} (hp : 1 ≤ p) {x : ℝ} {k : Int} (h : |x| ≤ 2 ^ k) : |roundBits p x| ≤ 2 ^ k := by
  have hk : (0 : ℝ) < 2 ^ k := zpow_pos (by norm_num) _
  rcases eq_or_ne x 0 with rfl | hx
  · rw [roundBits_zero, abs_zero]; exact hk.le
  have h1 : (2 : ℝ) ^ Int.log 2 |x| ≤ 2 ^ k := (log_bounds hx).1.trans h
  have h2 : Int.log 2 |x| ≤ k := (zpow_le_zpow_iff_right₀ (by norm_num)).1 h1
  rw [roundBits_raw]
  have key := fun s hs => ieeeRaw_nearest (x := x) hp (pow_number hp (g := Int.log 2 |x| + 1 - p) (k := k) (by omega) s hs)
  rcases lt_or_gt_of_ne hx with hx | hx
  · have := key (-1) (by norm_num)
    rw [abs_of_neg hx] at h
    push_cast at this
    rw [abs_of_nonpos (by linarith : -1 * (2 : ℝ) ^ k - x ≤ 0)] at this
    obtain ⟨a, b⟩ := abs_le.1 this
    rw [abs_le]
    constructor <;> linarith
  · have := key 1 (by norm_num)
    rw [abs_of_pos hx] at h
    push_cast at this
    rw [abs_of_nonneg (by linarith : 0 ≤ 1 * (2 : ℝ) ^ k - x)] at this
    obtain ⟨a, b⟩ := abs_le.1 this
    rw [abs_le]
    constructor <;> linarith

theorem roundBits_lower {p : Nat} (hp : 1 ≤ p) {x : ℝ} {k : Int} (h : 2 ^ k ≤ |x|) : 2 ^ k ≤ |roundBits p x| := by
  have hk : (0 : ℝ) < 2 ^ k := zpow_pos (by norm_num) _
  have hx : x ≠ 0 := abs_pos.1 (hk.trans_le h)
  have h2 : k ≤ Int.log 2 |x| := by
    rw [← Int.zpow_le_iff_le_log (by norm_num) (abs_pos.2 hx)]
    exact_mod_cast h
  refine (zpow_le_zpow_right₀ (by norm_num : (1 : ℝ) ≤ 2) h2).trans ?_
  have hb := (log_bounds hx).1
  rw [roundBits_raw]
  have key := fun s hs => ieeeRaw_nearest (x := x) hp
    (pow_number hp (g := Int.log 2 |x| + 1 - p) (k := Int.log 2 |x|) (by omega) s hs)
  rcases lt_or_gt_of_ne hx with hx | hx
  · have := key (-1) (by norm_num)
    have e : |x| = -x := abs_of_neg hx
    push_cast at this
    rw [abs_of_nonneg (by linarith : 0 ≤ -1 * (2 : ℝ) ^ Int.log 2 |x| - x)] at this
    obtain ⟨a, b⟩ := abs_le.1 this
    refine le_trans ?_ (neg_le_abs _)
    linarith
  · have := key 1 (by norm_num)
    have e : |x| = x := abs_of_pos hx
    push_cast at this
    rw [abs_of_nonpos (by linarith : 1 * (2 : ℝ) ^ Int.log 2 |x| - x ≤ 0)] at this
    obtain ⟨a, b⟩ := abs_le.1 this
    refine le_trans ?_ (le_abs_self _)
    linarith

/-- A multiple of `2 ^ g`. -/
def OnGrid (g : Int) (x : ℝ) : Prop := ∃ m : Int, x = m * (2 : ℝ) ^ g

theorem OnGrid.mono {g g' : Int} (h : g' ≤ g) {x : ℝ} : OnGrid g x → OnGrid g' x := by
  rintro ⟨m, rfl⟩
  obtain ⟨d, hd⟩ := Int.eq_ofNat_of_zero_le (Int.sub_nonneg.2 h)
  refine ⟨m * 2 ^ d, ?_⟩
  rw [show g = d + g' by omega, zpow_add₀ (by norm_num), zpow_natCast]
  push_cast
  ring

theorem OnGrid.add {g : Int} {x y : ℝ} : OnGrid g x → OnGrid g y → OnGrid g (x + y) := by
  rintro ⟨m, rfl⟩ ⟨n, rfl⟩
  exact ⟨m + n, by push_cast; ring⟩

theorem nearestEven_grid {g e : Int} (h : e ≤ g) {x : ℝ} (hx : OnGrid g x) : (nearestEven (x / (2 : ℝ) ^ e) : ℝ) * 2 ^ e = x := by
  obtain ⟨m, rfl⟩ := hx.mono h
  have hp : (2 : ℝ) ^ e ≠ 0 := (zpow_pos (by norm_num) _).ne'
  rw [mul_div_cancel_right₀ _ hp]
  congr 2
  refine nearestEven_unique ?_ ?_ <;> rw [sub_self, abs_zero]
  · norm_num
  · intro h; norm_num at h

theorem roundBits_grid (p : Nat) {g : Int} {x : ℝ} (hx : OnGrid g x) : OnGrid g (roundBits p x) := by
  unfold roundBits
  rcases le_total (Int.log 2 |x| + 1 - p) g with h | h
  · rw [nearestEven_grid h hx]; exact hx
  · exact OnGrid.mono h ⟨_, rfl⟩

section format
variable {p : Nat} (hp : 1 ≤ p) {emin emax : Int} {inf : ℝ}
include hp

/-- Multiples of the smallest positive number are rounded alike, also where the format underflows. -/
theorem roundIeee_grid {x : ℝ} (hx : OnGrid emin x) {k : Int} (h : |x| ≤ 2 ^ k) (hk : k < emax) :
    roundIeee p emin emax inf x = roundBits p x := by
  have h2 : |roundBits p x| < 2 ^ emax := (roundBits_upper hp h).trans_lt (zpow_lt_zpow_right₀ (by norm_num) hk)
  unfold roundIeee
  dsimp only
  rcases le_total emin (Int.log 2 |x| + 1 - p) with h1 | h1
  · rw [max_eq_left h1]
    exact if_pos h2
  · rw [max_eq_right h1, nearestEven_grid le_rfl hx]
    unfold roundBits at *
    rw [nearestEven_grid h1 hx] at *
    exact if_pos h2

/-- A number in the normal range and on the grid. -/
def FitsIn (emin : Int) (a : Nat) (x : ℝ) : Prop := InRange a x ∧ OnGrid emin x

omit hp in
theorem InRange.upper {a : Nat} {x : ℝ} (h : InRange a x) : |x| ≤ 2 ^ (a : Int) := by
  rw [zpow_natCast]
  rcases h with rfl | h
  · rw [abs_zero]; positivity
  · exact h.2

omit hp in
theorem InRange.lower {a : Nat} {x : ℝ} (h : InRange a x) (hx : x ≠ 0) : 2 ^ (-(a : Int)) ≤ |x| := by
  rw [zpow_neg, zpow_natCast, ← inv_pow]
  rcases h with rfl | h
  · exact (hx rfl).elim
  · exact h.1

omit hp in
theorem InRange.of {a : Nat} {x : ℝ} (h1 : |x| ≤ 2 ^ (a : Int)) (h2 : x ≠ 0 → 2 ^ (-(a : Int)) ≤ |x|) : InRange a x := by
  rw [zpow_neg, zpow_natCast, ← inv_pow] at h2
  rw [zpow_natCast] at h1
  rcases eq_or_ne x 0 with h | h
  · exact .inl h
  · exact .inr ⟨h2 h, h1⟩

omit hp in
theorem InRange.mono {a b : Nat} (h : a ≤ b) {x : ℝ} (hx : InRange a x) : InRange b x :=
  .of (hx.upper.trans (zpow_le_zpow_right₀ (by norm_num) (by omega)))
    fun h0 => (zpow_le_zpow_right₀ (by norm_num) (by omega)).trans (hx.lower h0)

omit hp in
theorem InRange.mul {a b : Nat} {x y : ℝ} (hx : InRange a x) (hy : InRange b y) : InRange (a + b) (x * y) := by
  refine .of ?_ fun h => ?_
  · rw [abs_mul, Nat.cast_add, zpow_add₀ (by norm_num)]
    exact mul_le_mul hx.upper hy.upper (abs_nonneg _) (by positivity)
  · rw [abs_mul, Nat.cast_add, neg_add, zpow_add₀ (by norm_num)]
    exact mul_le_mul (hx.lower (left_ne_zero_of_mul h)) (hy.lower (right_ne_zero_of_mul h)) (by positivity) (abs_nonneg _)

omit hp in
theorem InRange.div {a b : Nat} {x y : ℝ} (hx : InRange a x) (hy : InRange b y) : InRange (a + b) (x / y) := by
  rw [div_eq_mul_inv]
  refine hx.mul ?_
  rcases eq_or_ne y 0 with rfl | h0
  · rw [inv_zero]; exact .inl rfl
  have hpos := abs_pos.2 h0
  refine .of ?_ fun _ => ?_
  · rw [abs_inv, inv_le_comm₀ hpos (by positivity), ← zpow_neg]
    exact hy.lower h0
  · rw [abs_inv, zpow_neg]
    exact inv_anti₀ hpos hy.upper

omit hp in
theorem inRange_int (n : Int) : InRange (intSize n) (n : ℝ) := by
  have h1 : n.natAbs ≤ 2 ^ intSize n := Nat.le_pow_clog (by norm_num) _
  have h2 : |(n : ℝ)| = (n.natAbs : ℝ) := by rw [← Int.cast_abs, Int.abs_eq_natAbs]; rfl
  refine .of ?_ fun h => ?_
  · rw [h2, zpow_natCast]
    exact_mod_cast h1
  · have h3 : (1 : ℝ) ≤ |(n : ℝ)| := by
      rw [← Int.cast_abs]
      exact_mod_cast Int.one_le_abs (by exact_mod_cast h)
    exact (zpow_le_one_of_nonpos₀ (by norm_num) (by omega)).trans h3

theorem inRange_round {a : Nat} {x : ℝ} (h : InRange a x) : InRange a (roundBits p x) := by
  refine .of (roundBits_upper hp h.upper) fun h0 => roundBits_lower hp (h.lower ?_)
  rintro rfl
  exact h0 (roundBits_zero p)

theorem round_ne_zero {x : ℝ} (h : x ≠ 0) : roundBits p x ≠ 0 :=
  abs_pos.1 ((zpow_pos (by norm_num) _).trans_le (roundBits_lower hp (log_bounds h).1))

variable {L : Nat} (hmin : (L : Int) ≤ 1 - emin - p) (hmax : (L : Int) < emax)

omit hp in
include hmin in
theorem normal_grid {a : Nat} (ha : a ≤ L) {x : ℝ} (h : InRange a x) : OnGrid emin (roundBits p x) := by
  rcases eq_or_ne x 0 with rfl | hx
  · rw [roundBits_zero]; exact ⟨0, by simp⟩
  · have h1 := h.lower hx
    have h2 : -(a : Int) ≤ Int.log 2 |x| := by
      rw [← Int.zpow_le_iff_le_log (by norm_num) (abs_pos.2 hx)]
      exact_mod_cast h1
    exact OnGrid.mono (g := Int.log 2 |x| + 1 - p) (by omega) ⟨_, rfl⟩

include hmin hmax in
/-- In the normal range nothing underflows or overflows. -/
theorem roundIeee_range {a : Nat} (ha : a ≤ L) {x : ℝ} (h : InRange a x) :
    roundIeee p emin emax inf x = roundBits p x ∧ FitsIn emin a (roundBits p x) := by
  refine ⟨?_, inRange_round hp h, normal_grid hmin ha h⟩
  rcases eq_or_ne x 0 with rfl | hx
  · exact roundIeee_grid hp ⟨0, by simp⟩ h.upper (by omega)
  · refine roundIeee_normal p emin emax inf x ?_ ((roundBits_upper hp h.upper).trans_lt (zpow_lt_zpow_right₀ (by norm_num) (by omega)))
    exact (zpow_le_zpow_right₀ (by norm_num) (by omega)).trans (h.lower hx)

/-- The two arithmetics have computed the same number, and it fits. -/
def SameNum (emin : Int) (a : Nat) (x y : ℝ) : Prop := x = y ∧ FitsIn emin a y

omit hp in
theorem SameNum.mono {a b : Nat} (h : a ≤ b) {x y : ℝ} (hx : SameNum emin a x y) : SameNum emin b x y := ⟨hx.1, hx.2.1.mono h, hx.2.2⟩

include hmin hmax in
theorem sameNum_mul {a b : Nat} {x y x' y' : ℝ} (h : SameNum emin a x y) (h' : SameNum emin b x' y') (hL : a + b ≤ L) :
    SameNum emin (a + b) ((ieeeArith p emin emax inf).mul x x') ((binaryArith ℝ p).mul y y') := by
  obtain ⟨rfl, h⟩ := h
  obtain ⟨rfl, h'⟩ := h'
  exact roundIeee_range hp hmin hmax hL (h.1.mul h'.1)

include hmin hmax in
theorem sameNum_div {a b : Nat} {x y x' y' : ℝ} (h : SameNum emin a x y) (h' : SameNum emin b x' y') (h0 : y' ≠ 0) (hL : a + b ≤ L) :
    SameNum emin (a + b) ((ieeeArith p emin emax inf).div x x') ((binaryArith ℝ p).div y y') := by
  obtain ⟨rfl, h⟩ := h
  obtain ⟨rfl, h'⟩ := h'
  unfold ieeeArith
  dsimp only
  rw [if_neg h0]
  exact roundIeee_range hp hmin hmax hL (h.1.div h'.1)

include hmin hmax in
theorem sameNum_int {n : Int} (hL : intSize n ≤ L) :
    SameNum emin (intSize n) ((ieeeArith p emin emax inf).int n) ((binaryArith ℝ p).int n) :=
  roundIeee_range hp hmin hmax hL (inRange_int n)

include hmin hmax in
theorem sameNum_powLoop : ∀ (fuel : Nat) {a b e : Nat} {s s' t t' : ℝ}, 1 ≤ e → SameNum emin a s s' → SameNum emin b t t' → a + b * e ≤ L →
    SameNum emin (a + b * e) ((ieeeArith p emin emax inf).powLoop fuel s t e) ((binaryArith ℝ p).powLoop fuel s' t' e)
  | 0, a, b, e, s, s', t, t', he, hs, ht, hL => by
    unfold Arith.powLoop
    have : b ≤ b * e := Nat.le_mul_of_pos_right b he
    exact (sameNum_mul hp hmin hmax hs ht (by omega)).mono (by omega)
  | fuel + 1, a, b, e, s, s', t, t', he, hs, ht, hL => by
    have hb : b ≤ b * e := Nat.le_mul_of_pos_right b he
    unfold Arith.powLoop
    by_cases h2 : e > 1
    · rw [if_pos h2, if_pos h2]
      have hb2 : b * 2 ≤ b * e := Nat.mul_le_mul_left b h2
      have ht2 := sameNum_mul hp hmin hmax ht ht (inf := inf) (by omega)
      by_cases hodd : e % 2 = 1
      · rw [if_pos hodd, if_pos hodd]
        obtain ⟨m, rfl⟩ : ∃ m, e = 2 * m + 1 := ⟨e / 2, by omega⟩
        have e1 : (2 * m + 1) / 2 = m := by omega
        have e2 : a + b + (b + b) * m = a + b * (2 * m + 1) := by ring
        rw [e1, ← e2]
        exact sameNum_powLoop fuel (by omega) (sameNum_mul hp hmin hmax hs ht (by omega)) ht2 (by omega)
      · rw [if_neg hodd, if_neg hodd]
        obtain ⟨m, rfl⟩ : ∃ m, e = 2 * m := ⟨e / 2, by omega⟩
        have e1 : 2 * m / 2 = m := by omega
        have e2 : a + (b + b) * m = a + b * (2 * m) := by ring
        rw [e1, ← e2]
        exact sameNum_powLoop fuel (by omega) hs ht2 (by omega)
    · rw [if_neg h2, if_neg h2]
      exact (sameNum_mul hp hmin hmax hs ht (by omega)).mono (by omega)

include hmin hmax in
theorem sameNum_powNat {a : Nat} {s : ℝ} (hs : FitsIn emin a s) {n : Nat} (hn : 1 ≤ n) (hL : a * n ≤ L) :
    SameNum emin (a * n) ((ieeeArith p emin emax inf).powNat s n) ((binaryArith ℝ p).powNat s n) := by
  have e1 : SameNum emin a s s := ⟨rfl, hs⟩
  have m := fun {a b : Nat} {x y x' y' : ℝ} (h : SameNum emin a x y) (h' : SameNum emin b x' y') hL =>
    sameNum_mul (inf := inf) hp hmin hmax h h' hL
  unfold Arith.powNat
  split
  · exact e1.mono (by omega)
  · exact (m e1 e1 (by omega)).mono (by omega)
  · exact (m (m e1 e1 (by omega)) e1 (by omega)).mono (by omega)
  · exact (m (m e1 e1 (by omega)) (m e1 e1 (by omega)) (by omega)).mono (by omega)
  · exact (m (m (m e1 e1 (by omega)) (m e1 e1 (by omega)) (by omega)) e1 (by omega)).mono (by omega)
  · exact (m (m (m e1 e1 (by omega)) e1 (by omega)) (m (m e1 e1 (by omega)) e1 (by omega)) (by omega)).mono (by omega)
  · exact (m (m (m (m e1 e1 (by omega)) (m e1 e1 (by omega)) (by omega)) (m e1 e1 (by omega)) (by omega)) e1 (by omega)).mono (by omega)
  · exact (m (m (m e1 e1 (by omega)) (m e1 e1 (by omega)) (by omega)) (m (m e1 e1 (by omega)) (m e1 e1 (by omega)) (by omega))
      (by omega)).mono (by omega)
  · have h1 : SameNum emin 0 (1 : ℝ) 1 := by
      refine ⟨rfl, .inr ⟨by simp, by simp⟩, OnGrid.mono (g := 0) (by omega) ⟨1, by simp⟩⟩
    exact (sameNum_powLoop hp hmin hmax n hn h1 e1 (by omega)).mono (by omega)

/-- Both return the same number, and it fits. -/
def SameOut (emin : Int) (a : Nat) (x y : Out ℝ) : Prop := ∃ v, x = ok v ∧ y = ok v ∧ FitsIn emin a v

omit hp in
theorem SameNum.out {a : Nat} {x y : ℝ} (h : SameNum emin a x y) : SameOut emin a (ok x) (ok y) := ⟨y, by rw [h.1], rfl, h.2⟩

include hmin hmax in
theorem sameNum_factor {a : Nat} {E : Env ℝ} {k : Nat} (hk : k ≤ E.data.length) (hE : ∀ x ∈ E.data, FitsIn emin a x) {i : Ind} {q : Nat × Nat}
    (h : readInd k i = some q) (hL : a * q.2 ≤ L) :
    SameOut emin (a * q.2) ((ieeeArith p emin emax inf).factor E i) ((binaryArith ℝ p).factor E i) := by
  have hev := (readInd_ok hk h).1
  unfold readInd at h
  split at h
  · rename_i hc
    obtain ⟨h1, h2, h3, h4, h5⟩ := hc
    simp only [Option.some.injEq] at h
    subst h
    have hfit : FitsIn emin a (E.rho i.id) := by
      unfold Env.rho
      rw [if_neg (by omega), List.getD_eq_getElem _ _ (by omega)]
      exact hE _ (List.getElem_mem _)
    have key := sameNum_powNat (inf := inf) hp hmin hmax hfit (n := i.deg.num.toNat) (by omega) hL
    unfold Arith.factor
    rw [Env.get_ok hev.has, ok_bind, ok_bind, if_neg (by omega), if_neg (by omega)]
    unfold Arith.ipow
    by_cases c1 : i.deg.num = 1
    · rw [if_pos c1, if_pos c1]
      have e : a * i.deg.num.toNat = a := by rw [c1]; exact Nat.mul_one a
      rw [e]
      exact ⟨_, rfl, rfl, hfit⟩
    · rw [if_neg c1, if_neg (by omega), if_neg (by omega), if_neg c1, if_neg (by omega), if_neg (by omega)]
      exact key.out
  · cases h

include hmin hmax in
theorem sameNum_prod {a : Nat} {E : Env ℝ} {k : Nat} (hk : k ≤ E.data.length) (hE : ∀ x ∈ E.data, FitsIn emin a x) :
    ∀ {is : List Ind} {qs : List (Nat × Nat)}, List.Forall₂ (fun a b => readInd k a = some b) is qs → is ≠ [] →
    a * (qs.map Prod.snd).sum ≤ L →
    SameOut emin (a * (qs.map Prod.snd).sum) ((ieeeArith p emin emax inf).prod E is) ((binaryArith ℝ p).prod E is)
  | _, _, .nil, hne, _ => (hne rfl).elim
  | [i], [q], .cons h .nil, _, hL => by
    have e : a * ([q].map Prod.snd).sum = a * q.2 := by simp
    rw [e] at hL ⊢
    exact sameNum_factor hp hmin hmax hk hE h hL
  | i :: j :: is, q :: r :: qs, .cons h (.cons h2 t), _, hL => by
    have e : a * ((q :: r :: qs).map Prod.snd).sum = a * q.2 + a * ((r :: qs).map Prod.snd).sum := by simp [Nat.mul_add]
    rw [e] at hL ⊢
    obtain ⟨v, k1, k2, k3⟩ := sameNum_factor (inf := inf) hp hmin hmax hk hE h (by omega)
    obtain ⟨w, k4, k5, k6⟩ := sameNum_prod hk hE (.cons h2 t) (by simp) (by omega)
    unfold Arith.prod
    rw [k1, k2, ok_bind, ok_bind, k4, k5, ok_bind, ok_bind]
    exact (sameNum_mul hp hmin hmax ⟨rfl, k3⟩ ⟨rfl, k6⟩ hL).out

include hmin hmax in
theorem sameNum_mon {a : Nat} {E : Env ℝ} {k : Nat} (hk : k ≤ E.data.length) (hE : ∀ x ∈ E.data, FitsIn emin a x) {m : NMon} {q : RatMono}
    (h : readRatMon k m = some q) (hL : ratMonoSize a q ≤ L) :
    SameOut emin (ratMonoSize a q) ((ieeeArith p emin emax inf).mon E .id m) ((binaryArith ℝ p).mon E .id m) := by
  have happ : ∀ v, E.app .id v = v := fun v => by unfold Env.app; rw [if_pos rfl]
  unfold readRatMon at h
  split at h
  case isFalse => cases h
  rename_i hq
  simp only [Option.map_eq_some_iff] at h
  obtain ⟨is, h1, rfl⟩ := h
  have h2 := mapM_some h1
  unfold ratMonoSize at *
  dsimp only at *
  have hd : ((m.q.den : Int) : ℝ) ≠ 0 := by
    have := hq.pos
    exact_mod_cast this.ne'
  have n1 := sameNum_int (inf := inf) hp hmin hmax (n := m.q.num) (by omega)
  have n2 := sameNum_int (inf := inf) hp hmin hmax (n := m.q.den) (by omega)
  have n3 : SameNum emin (intSize m.q.num + intSize m.q.den) ((ieeeArith p emin emax inf).cast m.q) ((binaryArith ℝ p).cast m.q) :=
    sameNum_div hp hmin hmax n1 n2 (round_ne_zero hp hd) (by omega)
  unfold Arith.mon
  by_cases c1 : m.q.num = 0
  · rw [if_pos c1, if_pos c1]
    exact ⟨0, rfl, rfl, .inl rfl, 0, by simp⟩
  rw [if_neg c1, if_neg c1]
  by_cases c2 : m.inds = []
  · rw [if_pos c2, if_pos c2, happ, happ]
    exact (n3.mono (by omega)).out
  rw [if_neg c2, if_neg c2]
  obtain ⟨v, k1, k2, k3⟩ := sameNum_prod (inf := inf) hp hmin hmax hk hE h2 c2 (by omega)
  have kv : SameNum emin _ v v := ⟨rfl, k3⟩
  simp only [k1, k2, ok_bind, happ, pure_eq]
  by_cases c3 : m.q.den.natAbs > 1
  · rw [if_pos c3, if_pos c3]
    by_cases c4 : m.q.num.natAbs > 1 ∨ m.q.num = -1
    · rw [if_pos c4, if_pos c4]
      exact ((sameNum_mul hp hmin hmax n3 kv (by omega)).mono (by omega)).out
    · rw [if_neg c4, if_neg c4]
      exact ((sameNum_div hp hmin hmax kv n2 (round_ne_zero hp hd) (by omega)).mono (by omega)).out
  · rw [if_neg c3, if_neg c3]
    by_cases c4 : m.q.num.natAbs > 1 ∨ m.q.num = -1
    · rw [if_pos c4, if_pos c4]
      exact ((sameNum_mul hp hmin hmax n1 kv (by omega)).mono (by omega)).out
    · rw [if_neg c4, if_neg c4]
      exact (kv.mono (by omega)).out

include hmin hmax in
theorem sameNum_term {a : Nat} {E : Env ℝ} {k : Nat} (hk : k ≤ E.data.length) (hE : ∀ x ∈ E.data, FitsIn emin a x) :
    ∀ {ms : List NMon} {qs : List RatMono}, List.Forall₂ (fun a b => readRatMon k a = some b) ms qs → ms ≠ [] →
    (∀ q ∈ qs, ratMonoSize a q ≤ L) → (ratPolySize a qs : Int) < emax →
    ∃ v, (ieeeArith p emin emax inf).term E .id ms = ok v ∧ (binaryArith ℝ p).term E .id ms = ok v ∧
      |v| ≤ 2 ^ (ratPolySize a qs : Int) ∧ OnGrid emin v
  | _, _, .nil, hne, _, _ => (hne rfl).elim
  | [m], [q], .cons h .nil, _, hL, _ => by
    obtain ⟨v, k1, k2, k3⟩ := sameNum_mon (inf := inf) hp hmin hmax hk hE h (hL _ (by simp))
    exact ⟨v, k1, k2, k3.1.upper, k3.2⟩
  | m :: n :: ms, q :: r :: qs, .cons h (.cons h2 t), _, hL, hs => by
    have e : ratPolySize a (q :: r :: qs) = max (ratMonoSize a q) (ratPolySize a (r :: qs)) + 1 := rfl
    rw [e] at hs ⊢
    obtain ⟨v, k1, k2, k3⟩ := sameNum_mon (inf := inf) hp hmin hmax hk hE h (hL _ (by simp))
    obtain ⟨w, k4, k5, k6, k7⟩ := sameNum_term hk hE (.cons h2 t) (by simp) (fun q hq => hL q (List.mem_cons_of_mem _ hq)) (by omega)
    have hv := k3.1.upper
    have h1 : |v + w| ≤ 2 ^ ((max (ratMonoSize a q) (ratPolySize a (r :: qs)) + 1 : Nat) : Int) := by
      refine (abs_add_le v w).trans ?_
      rw [Nat.cast_add, zpow_add₀ (by norm_num), Nat.cast_one, zpow_one, mul_two]
      exact add_le_add (hv.trans (zpow_le_zpow_right₀ (by norm_num) (by omega))) (k6.trans (zpow_le_zpow_right₀ (by norm_num) (by omega)))
    have h3 := k3.2.add k7
    unfold Arith.term
    rw [k1, k2, ok_bind, ok_bind, k4, k5, ok_bind, ok_bind]
    refine ⟨_, ?_, rfl, roundBits_upper hp h1, roundBits_grid p h3⟩
    exact congrArg ok (roundIeee_grid hp h3 h1 hs)

omit hmin hmax in
theorem sameNum_scaleBy (hmin : emin ≤ 0) {num : Int} {k : Nat} {v : ℝ} (hv : |v| ≤ 2 ^ (k : Int)) (hg : OnGrid emin v)
    (hk : (k : Int) + intSize num < emax) :
    (ieeeArith p emin emax inf).scaleBy num 1 v = (binaryArith ℝ p).scaleBy num 1 v := by
  unfold Arith.scaleBy
  have c3 : ¬Int.natAbs 1 > 1 := by decide
  rw [if_neg c3, if_neg c3]
  by_cases c4 : num.natAbs > 1 ∨ num = -1
  · rw [if_pos c4, if_pos c4]
    have hn : OnGrid 0 (num : ℝ) := ⟨num, by simp⟩
    have e1 : roundIeee p emin emax inf num = roundBits p (num : ℝ) := roundIeee_grid hp (hn.mono hmin) (inRange_int num).upper (by omega)
    have e2 : OnGrid emin (roundBits p (num : ℝ) * v) := by
      obtain ⟨m, h1⟩ := roundBits_grid p hn
      obtain ⟨n, rfl⟩ := hg
      rw [h1]
      exact ⟨m * n, by push_cast; rw [zpow_zero]; ring⟩
    have e3 : |roundBits p (num : ℝ) * v| ≤ 2 ^ ((k : Int) + intSize num) := by
      rw [abs_mul, add_comm, zpow_add₀ (by norm_num)]
      exact mul_le_mul (roundBits_upper hp (inRange_int num).upper) hv (abs_nonneg _) (by positivity)
    show roundIeee p emin emax inf (roundIeee p emin emax inf num * v) = roundBits p (roundBits p (num : ℝ) * v)
    rw [e1]
    exact roundIeee_grid hp e2 e3 hk
  · rw [if_neg c4, if_neg c4]

omit hp in
theorem ratMonoSize_le {a : Nat} : ∀ {qs : List RatMono}, ∀ q ∈ qs, ratMonoSize a q ≤ ratPolySize a qs
  | [], q, h => by simp at h
  | [r], q, h => by
    obtain rfl : q = r := by simpa using h
    exact le_rfl
  | r :: s :: qs, q, h => by
    show ratMonoSize a q ≤ max (ratMonoSize a r) (ratPolySize a (s :: qs)) + 1
    rcases List.mem_cons.1 h with rfl | h
    · omega
    · have := ratMonoSize_le (a := a) q h
      omega

theorem sameNum_ratTerm {a : Nat} {E : Env ℝ} {k : Nat} (hk : k ≤ E.data.length) (hE : ∀ x ∈ E.data, FitsIn emin a x) {t : NTerm}
    {r : Nat × List RatMono} (h : readRatTerm k t = some r) (hlow : ∀ q ∈ r.2, (ratMonoSize a q : Int) ≤ 1 - emin - p)
    (hup : (ratPolySize a r.2 : Int) < emax) :
    ∃ v, (ieeeArith p emin emax inf).term E .id t.mons = ok v ∧ (binaryArith ℝ p).term E .id t.mons = ok v ∧
      |v| ≤ 2 ^ (ratPolySize a r.2 : Int) ∧ OnGrid emin v := by
  unfold readRatTerm at h
  split at h
  · cases h
  · rename_i hne
    simp only [Option.map_eq_some_iff] at h
    obtain ⟨ms, h2, rfl⟩ := h
    have h3 := mapM_some h2
    have hms : ∃ q, q ∈ ms := by
      have h4 := h3.length_eq
      have h5 := List.length_pos_iff.2 hne
      exact List.exists_mem_of_length_pos (by omega)
    obtain ⟨q0, hq0⟩ := hms
    have := hlow q0 hq0
    refine sameNum_term hp (L := min (1 - emin - p).toNat (ratPolySize a ms)) (by omega) (by dsimp only at hup; omega) hk hE h3 hne
      (fun q hq => ?_) hup
    have h4 := hlow q hq
    have h5 : ratMonoSize a q ≤ ratPolySize a ms := ratMonoSize_le q hq
    omega

/-- Before the multiplication with the factor of the result, both arithmetics have computed the same numbers. -/
theorem ieee_runs {L : Type} (m : Metric) (null : Bool) (E : Env ℝ) {args : List (Arg ℝ)} {args' : List (Arg L)}
    (ht : args.map (fun a => (a.ie, a.data.length)) = args'.map fun a => (a.ie, a.data.length)) {f : Lam} {q : Rat32}
    {ps : List (Nat × List RatMono)} (h : f.ratPolys m null args' = some (q, ps)) {a : Nat}
    (hd : ∀ x ∈ (args.map fun a => a.data).flatten, IeeeNumber p emin emax x ∧ InRange a x)
    (hlow : ∀ r ∈ ps, ∀ t ∈ r.2, (ratMonoSize a t : Int) ≤ 1 - emin - p) (hup : ∀ r ∈ ps, (ratPolySize a r.2 : Int) < emax) :
    ∃ es vs, (ieeeArith p emin emax inf).compute m null E args f = ok [⟨es, vs.map ((ieeeArith p emin emax inf).scaleBy q.num q.den)⟩] ∧
      (binaryArith ℝ p).compute m null E args f = ok [⟨es, vs.map ((binaryArith ℝ p).scaleBy q.num q.den)⟩] ∧ 0 < q.den ∧
      List.Forall₂ (fun v r => |v| ≤ 2 ^ (ratPolySize a r.2 : Int) ∧ OnGrid emin v) vs ps := by
  have hoff : argOffset args' = argOffset args := by
    funext k
    have := congrArg (fun l => ((l.take k).map Prod.snd).sum) ht
    simp only [← List.map_take, List.map_map] at this
    exact this.symm
  have hsize : argsSize args' = argsSize args := by
    have := congrArg (fun l => (l.map Prod.snd).sum) ht
    simp only [List.map_map] at this
    exact this.symm
  unfold Lam.ratPolys at h
  rw [hoff, hsize] at h
  unfold readOutView at h
  split at h
  · rename_i n k q' hv
    split at h
    · rename_i hk
      obtain ⟨rfl, hq1, hq2⟩ := hk
      simp only [Option.map_eq_some_iff, Prod.mk.injEq] at h
      obtain ⟨ps', h, rfl, rfl⟩ := h
      have hv' : (do
        let e ← f.build (argOffset args)
        let c ← compileExpr m null f.cap args' e
        c.outView (nullDim m null)) = ok (.id, n, argsSize args, q') := hv
      have hlen : (args.map fun a => a.data).flatten.length = argsSize args := by
        rw [List.length_flatten, List.map_map]
        rfl
      rw [bind_eq_ok] at hv'
      obtain ⟨e, he', hv'⟩ := hv'
      rw [bind_eq_ok] at hv'
      obtain ⟨c, hc, hv'⟩ := hv'
      rw [← compile_types ht] at hc
      unfold Compiled.outView at hv'
      split at hv'
      · rename_i x ht' ha
        rw [bind_eq_ok] at hv'
        obtain ⟨b, hb, hv'⟩ := hv'
        rw [bind_eq_ok] at hv'
        obtain ⟨n', hn, hv'⟩ := hv'
        rw [pure_eq, ok_inj] at hv'
        obtain ⟨h1', h2⟩ := Prod.mk.inj hv'
        obtain ⟨h2, h3⟩ := Prod.mk.inj h2
        obtain ⟨h5, h4⟩ := Prod.mk.inj h3
        subst h2 h4
        have hrun : ∀ A : Arith ℝ, A.compute m null E args f =
            (mapO (fun t : NTerm => A.term ({ E with data := (args.map fun a => a.data).flatten } : Env ℝ) .id t.mons) n' >>=
              fun vs => ok [⟨n'.map (·.element), vs.map (A.scaleBy c.q.num c.q.den)⟩]) := fun A => by
          unfold Arith.compute
          rw [he', ok_bind]
          unfold Arith.computeExpr
          rw [hc, ok_bind]
          unfold Arith.runCompiled
          rw [ha, ht', h5, C41_fill _ _ (by rw [hlen, List.length_replicate]; omega), ok_bind,
            List.drop_eq_nil_of_le (by rw [hlen, List.length_replicate]; omega), List.append_nil, Arith.finalizeTemps, ok_bind, Arith.finishCompute,
            Arith.finalizeEntity, hb, ok_bind, Arith.computeEntity, hn, ok_bind, h1']
          cases mapO (fun t : NTerm => A.term ({ E with data := (args.map fun a => a.data).flatten } : Env ℝ) .id t.mons) n' with
          | ub => rfl
          | val v b => cases b <;> rfl
        have hfit : ∀ x ∈ (args.map fun a => a.data).flatten, FitsIn emin a x := fun x hx => by
          obtain ⟨⟨k, e, _, h7, h8, _⟩, h9⟩ := hd x hx
          exact ⟨h9, OnGrid.mono h7 ⟨k, h8⟩⟩
        have key : ∀ {n : NMv} {ps : List (Nat × List RatMono)}, List.Forall₂ (fun a b => readRatTerm (argsSize args) a = some b) n ps →
            (∀ r ∈ ps, ∀ t ∈ r.2, (ratMonoSize a t : Int) ≤ 1 - emin - p) → (∀ r ∈ ps, (ratPolySize a r.2 : Int) < emax) →
            ∃ vs, mapO (fun t : NTerm => (ieeeArith p emin emax inf).term ({ E with data := (args.map fun a => a.data).flatten } : Env ℝ) .id t.mons) n =
                ok vs ∧
              mapO (fun t : NTerm => (binaryArith ℝ p).term ({ E with data := (args.map fun a => a.data).flatten } : Env ℝ) .id t.mons) n = ok vs ∧
              List.Forall₂ (fun v r => |v| ≤ 2 ^ (ratPolySize a r.2 : Int) ∧ OnGrid emin v) vs ps := by
          intro n ps h
          induction h with
          | nil => exact fun _ _ => ⟨[], rfl, rfl, .nil⟩
          | @cons t r _ _ h6 _ ih =>
            intro hl hu
            obtain ⟨v, a1, a2, a3⟩ := sameNum_ratTerm (inf := inf) hp (E := { E with data := (args.map fun a => a.data).flatten })
              (by rw [hlen]) hfit h6 (hl r (by simp)) (hu r (by simp))
            obtain ⟨vs, i1, i2, i3⟩ := ih (fun r hr => hl r (by simp [hr])) (fun r hr => hu r (by simp [hr]))
            refine ⟨v :: vs, ?_, ?_, .cons a3 i3⟩
            · rw [mapO, a1, ok_bind, i1, ok_bind]; rfl
            · rw [mapO, a2, ok_bind, i2, ok_bind]; rfl
        obtain ⟨vs, k1, k2, k3⟩ := key (mapM_some h) hlow hup
        refine ⟨n'.map (·.element), vs, ?_, ?_, hq2, k3⟩
        · rw [hrun, k1, ok_bind]
        · rw [hrun, k2, ok_bind]
      · cases hv'
    · cases h
  · cases h

/-- **C57 (formats of IEEE 754)**: in a format of IEEE 754, `compute` returns what it returns in the arithmetic without bounds for the exponent, if the
numbers given are numbers of the format between `2⁻ᵃ` and `2ᵃ` in absolute value, or zero, and the degrees are such that no monomial can leave the
normal range and no sum can overflow. -/
theorem C57_ieee_same {L : Type} (m : Metric) (null : Bool) (E : Env ℝ) {args : List (Arg ℝ)} {args' : List (Arg L)}
    (ht : args.map (fun a => (a.ie, a.data.length)) = args'.map fun a => (a.ie, a.data.length)) {f : Lam} {q : Rat32}
    {ps : List (Nat × List RatMono)} (h : f.ratPolys m null args' = some (q, ps)) (hq : q.den = 1) (he : emin ≤ 0) {a : Nat}
    (hd : ∀ x ∈ (args.map fun a => a.data).flatten, IeeeNumber p emin emax x ∧ InRange a x)
    (hlow : ∀ r ∈ ps, ∀ t ∈ r.2, (ratMonoSize a t : Int) ≤ 1 - emin - p)
    (hup : ∀ r ∈ ps, (ratPolySize a r.2 : Int) + intSize q.num < emax) :
    (ieeeArith p emin emax inf).compute m null E args f = (binaryArith ℝ p).compute m null E args f := by
  obtain ⟨es, vs, h1, h2, _, h3⟩ := ieee_runs (inf := inf) hp m null E ht h hd hlow fun r hr => by have := hup r hr; omega
  rw [h1, h2, hq]
  congr 3
  have key : ∀ {vs : List ℝ} {ps : List (Nat × List RatMono)},
      List.Forall₂ (fun v r => |v| ≤ 2 ^ (ratPolySize a r.2 : Int) ∧ OnGrid emin v) vs ps →
      (∀ r ∈ ps, (ratPolySize a r.2 : Int) + intSize q.num < emax) →
      vs.map ((ieeeArith p emin emax inf).scaleBy q.num 1) = vs.map ((binaryArith ℝ p).scaleBy q.num 1) := by
    intro vs ps h
    induction h with
    | nil => exact fun _ => rfl
    | @cons v r _ _ h6 _ ih =>
      intro hu
      rw [List.map_cons, List.map_cons, ih fun r hr => hu r (by simp [hr]), sameNum_scaleBy hp he h6.1 h6.2 (hu r (by simp))]
  exact key h3 hup

/-- **C57 (error bounds in formats of IEEE 754)**: in a format of IEEE 754 with `p` digits, with its overflow and gradual underflow, each component that
`compute` returns is off by at most `gam 2⁻ᵖ k` times the sum of the absolute values of its monomials, where `k` counts roundings, under the assumptions of
`C57_ieee_same` about the sizes of the numbers given. -/
theorem C57_ieee {L : Type} (m : Metric) (null : Bool) (E : Env ℝ) {args : List (Arg ℝ)} {args' : List (Arg L)}
    (ht : args.map (fun a => (a.ie, a.data.length)) = args'.map fun a => (a.ie, a.data.length)) {f : Lam} {q : Rat32}
    {ps : List (Nat × List RatMono)} (h : f.ratPolys m null args' = some (q, ps)) (hq : q.den = 1) (he : emin ≤ 0) {a : Nat}
    (hd : ∀ x ∈ (args.map fun a => a.data).flatten, IeeeNumber p emin emax x ∧ InRange a x)
    (hlow : ∀ r ∈ ps, ∀ t ∈ r.2, (ratMonoSize a t : Int) ≤ 1 - emin - p)
    (hup : ∀ r ∈ ps, (ratPolySize a r.2 : Int) + intSize q.num < emax) :
    ∃ es xs vs, (f.compute m null E args >>= single) = ok ⟨es, xs⟩ ∧
      ((ieeeArith p emin emax inf).compute m null E args f >>= single) = ok ⟨es, vs⟩ ∧
      vs.length = ps.length ∧ xs.length = ps.length ∧ ∀ i (r : Nat × List RatMono), ps[i]? = some r → |vs.getD i 0 - xs.getD i 0| ≤
        gam ((2 : ℝ)⁻¹ ^ p) (ratPolyCost r.2 + factorCost q) *
          (r.2.map fun x => |ratVal ℝ q * ratMonoVal (args.map fun a => a.data).flatten x|).sum := by
  rw [C57_ieee_same hp m null E ht h hq he hd hlow hup]
  exact C57_lambda (by positivity) (pow_lt_one₀ (by norm_num) (by norm_num) (by omega)) (C57_binary p) m null E ht h

end format

/-- A number of single precision that is zero, or between `2⁻ᵃ` and `2ᵃ` in absolute value. -/
def FloatIn (a : Nat) (x : ℝ) : Prop := IeeeNumber 24 (-149) 128 x ∧ InRange a x

/-- A number of double precision that is zero, or between `2⁻ᵃ` and `2ᵃ` in absolute value. -/
def DoubleIn (a : Nat) (x : ℝ) : Prop := IeeeNumber 53 (-1074) 1024 x ∧ InRange a x

/-- **C57 (lengths in single precision)**: `v * v` has a relative error below 2e-7 for every vector whose coordinates are zero or of a size between `2⁻⁶²` and
`2⁶²`, whatever an overflow would return. -/
theorem C57_float_square (E : Env ℝ) (inf a b c : ℝ) (ha : FloatIn 62 a) (hb : FloatIn 62 b) (hc : FloatIn 62 c) :
    ∃ v, ((ieeeArith 24 (-149) 128 inf).compute vgaMetric false E [vectorArg [a, b, c]] squareLam >>= single) = ok ⟨[0], [v]⟩ ∧
      |v - (a ^ 2 + b ^ 2 + c ^ 2)| ≤ 2e-7 * (a ^ 2 + b ^ 2 + c ^ 2) := by
  rw [C57_ieee_same (by norm_num) vgaMetric false E (args := [vectorArg [a, b, c]]) (by rfl) (polys_ratPolys square_polys) rfl (by norm_num) (a := 62)
    (by simpa [vectorArg] using ⟨ha, hb, hc⟩) (by decide +kernel) (by decide +kernel)]
  obtain ⟨v, h2, h3⟩ := (C57_square (by positivity) (by norm_num) (C57_binary 24) E a b c).2
  refine ⟨v, h2, h3.trans (mul_le_mul_of_nonneg_right ?_ (by positivity))⟩
  refine (gam_le (by norm_num) (by norm_num)).trans ?_
  norm_num

/-- **C57 (rotations in double precision)**: no coordinate of `v % r` is off by more than 2e-15 `(w² + s² |(x, y, z)|²) (|a| + |b| + |c|)`, if all numbers
are zero or of a size between `2⁻²⁰⁰` and `2²⁰⁰`, whatever an overflow would return. -/
theorem C57_double_rotate (E : Env ℝ) (inf a b c w s x y z : ℝ) (h : ∀ t ∈ [a, b, c, w, s, x, y, z], DoubleIn 200 t) :
    ∃ p v : Fin 3 → ℝ,
      (sandwichLam.compute vgaMetric false E [vectorArg [a, b, c], rotorArg [w, s, x, y, z]] >>= single >>= vectorOf 3) = ok (List.ofFn p) ∧
      ((ieeeArith 53 (-1074) 1024 inf).compute vgaMetric false E [vectorArg [a, b, c], rotorArg [w, s, x, y, z]] sandwichLam >>= single >>= vectorOf 3) =
        ok (List.ofFn v) ∧
      ∀ i, |v i - p i| ≤ 2e-15 * ((w ^ 2 + s ^ 2 * (x ^ 2 + y ^ 2 + z ^ 2)) * (|a| + |b| + |c|)) := by
  rw [C57_ieee_same (by norm_num) vgaMetric false E (args := [vectorArg [a, b, c], rotorArg [w, s, x, y, z]]) (by rfl) (polys_ratPolys rotate_polys) rfl
    (by norm_num) (a := 200) h (by decide +kernel) (by decide +kernel)]
  obtain ⟨p, v, h2, h3, h4⟩ := C57_rotate (by positivity) (by norm_num) (C57_binary 53) E a b c w s x y z
  refine ⟨p, v, h2, h3, fun i => (h4 i).trans (mul_le_mul_of_nonneg_right ((gam_le (by norm_num) (by norm_num)).trans ?_) (by positivity))⟩
  norm_num

/-- **C57 (conformal distances in single precision)**: `p >> q` is off by at most 1e-6 `(|p|² + |q|²)`, if all coordinates are zero or of a size between
`2⁻⁵⁸` and `2⁵⁸`. -/
theorem C57_float_distance (E : Env ℝ) (inf a b c x y z : ℝ) (h : ∀ t ∈ [a, b, c, x, y, z], FloatIn 58 t) :
    ∃ v, ((ieeeArith 24 (-149) 128 inf).compute cgaMetric true E [cgaArg [a, b, c], cgaArg [x, y, z]] distanceLam >>= single) = ok ⟨[0], [v]⟩ ∧
      |v - -(1 / 2) * ((a - x) ^ 2 + (b - y) ^ 2 + (c - z) ^ 2)| ≤ 1e-6 * ((a ^ 2 + b ^ 2 + c ^ 2) + (x ^ 2 + y ^ 2 + z ^ 2)) := by
  rw [C57_ieee_same (by norm_num) cgaMetric true E (args := [cgaArg [a, b, c], cgaArg [x, y, z]]) (by rfl) distance_ratPolys rfl
    (by norm_num) (a := 58) h (by decide +kernel) (by decide +kernel)]
  obtain ⟨v, h2, h3⟩ := (C57_distance (by positivity) (by norm_num) (C57_binary 24) E a b c x y z).2
  refine ⟨v, h2, h3.trans (mul_le_mul_of_nonneg_right ((gam_le (by norm_num) (by norm_num)).trans ?_) (by positivity))⟩
  norm_num

/-- The numbers `0`, `3`, `-5 / 2` and `2⁻⁴⁰` are numbers of single and double precision in the range of the theorems. -/
theorem format_samples : ∀ t ∈ ([0, 3, -5 / 2, 2⁻¹ ^ 40] : List ℝ), FloatIn 58 t ∧ DoubleIn 200 t := by
  have big : ∀ y : ℝ, |y| ≤ 2 ^ (2 : Int) → |y| < 2 ^ (1024 : Int) := fun y hy =>
    hy.trans_lt (zpow_lt_zpow_right₀ (by norm_num) (by norm_num))
  intro t ht
  simp only [List.mem_cons, List.not_mem_nil, or_false] at ht
  rcases ht with rfl | rfl | rfl | rfl
  · exact ⟨⟨⟨0, 0, by norm_num, by norm_num, by norm_num, by norm_num⟩, .inl rfl⟩, ⟨0, 0, by norm_num, by norm_num, by norm_num, big _ (by norm_num)⟩, .inl rfl⟩
  · exact ⟨⟨⟨3, 0, by norm_num, by norm_num, by norm_num, by norm_num⟩, .inr (by norm_num [abs_of_pos])⟩,
      ⟨3, 0, by norm_num, by norm_num, by norm_num, big _ (by norm_num)⟩, .inr (by norm_num [abs_of_pos])⟩
  · exact ⟨⟨⟨-5, -1, by norm_num, by norm_num, by norm_num, by norm_num [abs_of_neg]⟩, .inr (by norm_num [abs_of_neg])⟩,
      ⟨-5, -1, by norm_num, by norm_num, by norm_num, big _ (by norm_num [abs_of_neg])⟩, .inr (by norm_num [abs_of_neg])⟩
  · exact ⟨⟨⟨1, -40, by norm_num, by norm_num, by norm_num, by norm_num [abs_of_pos]⟩, .inr (by norm_num [abs_of_pos])⟩,
      ⟨1, -40, by norm_num, by norm_num, by norm_num, big _ (by norm_num [abs_of_pos])⟩, .inr (by norm_num [abs_of_pos])⟩

/-- The hypotheses of the three theorems at concrete vectors, rotors and points. -/
example (E : Env ℝ) (inf : ℝ) :=
  C57_float_square E inf 3 (-5 / 2) (2⁻¹ ^ 40)
    ⟨(format_samples _ (by simp)).1.1, (format_samples 3 (by simp)).1.2.mono (by norm_num)⟩
    ⟨(format_samples _ (by simp)).1.1, (format_samples (-5 / 2) (by simp)).1.2.mono (by norm_num)⟩
    ⟨(format_samples _ (by simp)).1.1, (format_samples (2⁻¹ ^ 40) (by simp)).1.2.mono (by norm_num)⟩

example (E : Env ℝ) (inf : ℝ) :=
  C57_double_rotate E inf 3 (-5 / 2) 0 3 (2⁻¹ ^ 40) 0 0 3 fun t ht => (format_samples t (by
    simp only [List.mem_cons, List.not_mem_nil, or_false] at ht ⊢
    tauto)).2

example (E : Env ℝ) (inf : ℝ) :=
  C57_float_distance E inf 3 (-5 / 2) 0 (2⁻¹ ^ 40) 3 0 fun t ht => (format_samples t (by
    simp only [List.mem_cons, List.not_mem_nil, or_false] at ht ⊢
    tauto)).1

/-- The hypotheses of `C57_ieee` for the distance of these points. -/
example (E : Env ℝ) (inf : ℝ) :=
  C57_ieee (p := 24) (emin := -149) (emax := 128) (inf := inf) (by norm_num) cgaMetric true E (args := [cgaArg [3, -5 / 2, 0], cgaArg [2⁻¹ ^ 40, 3, 0]])
    (by rfl) distance_ratPolys rfl (by norm_num) (a := 58) (fun t ht => (format_samples t (by
      simp [cgaArg] at ht ⊢
      tauto)).1) (by decide +kernel) (by decide +kernel)

/-- The range matters: in single precision the square of `2⁻⁸⁰` is zero, and the square of `2⁷⁰` overflows. -/
theorem C57_range_false (inf : ℝ) :
    FloatIn 80 ((2 : ℝ)⁻¹ ^ 80) ∧ (ieeeArith 24 (-149) 128 inf).mul (2⁻¹ ^ 80) (2⁻¹ ^ 80) = 0 ∧
    FloatIn 70 ((2 : ℝ) ^ 70) ∧ (ieeeArith 24 (-149) 128 inf).mul (2 ^ 70) (2 ^ 70) = inf := by
  have l1 : Int.log 2 |(2 : ℝ)⁻¹ ^ 80 * 2⁻¹ ^ 80| = -160 := by
    rw [abs_of_pos (by positivity), show (2 : ℝ)⁻¹ ^ 80 * 2⁻¹ ^ 80 = ((2 : ℕ) : ℝ) ^ (-160 : Int) by norm_num]
    exact Int.log_zpow (by norm_num) _
  have l2 : Int.log 2 |(2 : ℝ) ^ 70 * 2 ^ 70| = 140 := by
    rw [abs_of_pos (by positivity), show (2 : ℝ) ^ 70 * 2 ^ 70 = ((2 : ℕ) : ℝ) ^ (140 : Int) by norm_num]
    exact Int.log_zpow (by norm_num) _
  refine ⟨⟨⟨1, -80, by norm_num, by norm_num, by norm_num, by norm_num [abs_of_pos]⟩, .inr (by norm_num [abs_of_pos])⟩, ?_,
    ⟨⟨1, 70, by norm_num, by norm_num, by norm_num, by norm_num [abs_of_pos]⟩, .inr (by norm_num [abs_of_pos])⟩, ?_⟩
  · show roundIeee 24 (-149) 128 inf _ = 0
    unfold roundIeee
    rw [l1]
    have : nearestEven ((2 : ℝ)⁻¹ ^ 80 * 2⁻¹ ^ 80 / 2 ^ max (-160 + 1 - ((24 : ℕ) : Int)) (-149)) = 0 :=
      nearestEven_unique (by norm_num) (by norm_num)
    simp only [this]
    norm_num
  · show roundIeee 24 (-149) 128 inf _ = inf
    unfold roundIeee
    rw [l2]
    have : nearestEven ((2 : ℝ) ^ 70 * 2 ^ 70 / 2 ^ max (140 + 1 - ((24 : ℕ) : Int)) (-149)) = 2 ^ 23 :=
      nearestEven_unique (by norm_num) (by norm_num)
    simp only [this]
    rw [if_neg]
    norm_num [abs_of_pos]

end Gal
