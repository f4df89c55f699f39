import Verif.Props.IeeeRun

/-!
# Property C57 in formats of IEEE 754: factors of the result, unit vectors and rigid motions

A factor that is not an integer, or the division by the weight of a point, may underflow after cancellation.  Gradual underflow then costs at most the
smallest positive number of the format.
-/

namespace Gal

open Out

section format
variable {p : Nat} (hp : 1 ≤ p) {emin emax : Int} {inf : ℝ}
include hp

/-- Gradual underflow costs at most the smallest positive number. -/
theorem roundIeee_gap (he : emin + p ≤ emax) {x : ℝ} {k : Int} (h : |x| ≤ 2 ^ k) (hk : k < emax) :
    |roundIeee p emin emax inf x - roundBits p x| ≤ 2 ^ emin := by
  rcases le_or_gt ((2 : ℝ) ^ (emin + p - 1)) |x| with h1 | h1
  · rw [roundIeee_normal p emin emax inf x h1 ((roundBits_upper hp h).trans_lt (zpow_lt_zpow_right₀ (by norm_num) hk)), sub_self, abs_zero]
    exact (zpow_pos (by norm_num) _).le
  rcases eq_or_ne x 0 with rfl | hx
  · rw [roundIeee_grid hp ⟨0, by simp⟩ h hk, sub_self, abs_zero]
    exact (zpow_pos (by norm_num) _).le
  have hpos : (0 : ℝ) < 2 ^ emin := zpow_pos (by norm_num) _
  have h2 : Int.log 2 |x| < emin + p - 1 := (zpow_lt_zpow_iff_right₀ (by norm_num : (1 : ℝ) < 2)).1 ((log_bounds hx).1.trans_lt h1)
  have h3 : |nearestEven (x / 2 ^ emin) * (2 : ℝ) ^ emin - x| ≤ 1 / 2 * 2 ^ emin := by
    have e : nearestEven (x / 2 ^ emin) * (2 : ℝ) ^ emin - x = -((x / 2 ^ emin - nearestEven (x / 2 ^ emin)) * 2 ^ emin) := by
      field_simp
      ring
    rw [e, abs_neg, abs_mul, abs_of_pos hpos]
    exact mul_le_mul_of_nonneg_right (nearestEven_error _) hpos.le
  have h4 : |roundBits p x - x| ≤ 1 / 2 * 2 ^ emin := by
    refine (roundBits_error p x).trans ?_
    refine (mul_le_mul_of_nonneg_left h1.le (by positivity)).trans (le_of_eq ?_)
    rw [show emin + p - 1 = emin + ((p : Int) - 1) by ring, zpow_add₀ (by norm_num), zpow_sub₀ (by norm_num), zpow_natCast, inv_pow, zpow_one]
    field_simp
  have h5 : |nearestEven (x / 2 ^ emin) * (2 : ℝ) ^ emin| < 2 ^ emax := by
    have h6 := abs_sub_abs_le_abs_sub (nearestEven (x / 2 ^ emin) * (2 : ℝ) ^ emin) x
    have h7 : (2 : ℝ) ^ (emin + p - 1) + 2 ^ emin ≤ 2 ^ emax := by
      have h8 : (2 : ℝ) ^ emin ≤ 2 ^ (emin + p - 1) := zpow_le_zpow_right₀ (by norm_num) (by omega)
      have h9 : (2 : ℝ) ^ (emin + p - 1) * 2 ≤ 2 ^ emax := by
        rw [← zpow_add_one₀ (by norm_num)]
        exact zpow_le_zpow_right₀ (by norm_num) (by omega)
      linarith
    linarith
  have h6 : roundIeee p emin emax inf x = nearestEven (x / 2 ^ emin) * (2 : ℝ) ^ emin := by
    unfold roundIeee
    dsimp only
    rw [max_eq_right (by omega)]
    exact if_pos h5
  rw [h6]
  have h7 := abs_sub_le (nearestEven (x / 2 ^ emin) * (2 : ℝ) ^ emin) x (roundBits p x)
  rw [abs_sub_comm x] at h7
  linarith

/-! ## Factors of the result -/

theorem gap_scaleBy (he : emin + p ≤ emax) {num den : Int} (hd : 0 < den) (hlow : ((intSize num + intSize den : Nat) : Int) ≤ 1 - emin - p) {k : Nat}
    {v : ℝ} (hv : |v| ≤ 2 ^ (k : Int)) (hk : ((k + intSize num + intSize den : Nat) : Int) < emax) :
    |(ieeeArith p emin emax inf).scaleBy num den v - (binaryArith ℝ p).scaleBy num den v| ≤ 2 ^ emin := by
  have hden : ((den : Int) : ℝ) ≠ 0 := by exact_mod_cast hd.ne'
  have n1 := sameNum_int (inf := inf) (emin := emin) (emax := emax) hp (L := intSize num + intSize den) (by omega) (by omega) (n := num) (by omega)
  have n2 := sameNum_int (inf := inf) (emin := emin) (emax := emax) hp (L := intSize num + intSize den) (by omega) (by omega) (n := den) (by omega)
  have n3 := sameNum_div (inf := inf) (emin := emin) (emax := emax) hp (L := intSize num + intSize den) (by omega) (by omega) n1 n2
    (round_ne_zero hp hden) (by omega)
  have hm : ∀ {j : Nat} {s t : ℝ}, SameNum emin j s t → j + k ≤ k + intSize num + intSize den →
      |(ieeeArith p emin emax inf).mul s v - (binaryArith ℝ p).mul t v| ≤ 2 ^ emin := fun {j s t} h hj => by
    obtain ⟨rfl, h, _⟩ := h
    refine roundIeee_gap (inf := inf) hp he (k := ((j + k : Nat) : Int)) ?_ (by omega)
    rw [abs_mul, Nat.cast_add, zpow_add₀ (by norm_num)]
    exact mul_le_mul h.upper hv (abs_nonneg _) (by positivity)
  unfold Arith.scaleBy
  by_cases c3 : den.natAbs > 1
  · rw [if_pos c3, if_pos c3]
    by_cases c4 : num.natAbs > 1 ∨ num = -1
    · rw [if_pos c4, if_pos c4]
      exact hm n3 (by omega)
    · rw [if_neg c4, if_neg c4]
      obtain ⟨e1, h, _⟩ := n2
      rw [e1]
      have h0 : (binaryArith ℝ p).int den ≠ 0 := round_ne_zero hp hden
      show |(if (binaryArith ℝ p).int den = 0 then inf else _) - _| ≤ _
      rw [if_neg h0]
      refine roundIeee_gap (inf := inf) hp he (k := ((k + intSize den : Nat) : Int)) ?_ (by omega)
      rw [div_eq_mul_inv, abs_mul, abs_inv, Nat.cast_add, zpow_add₀ (by norm_num)]
      refine mul_le_mul hv ?_ (by positivity) (by positivity)
      rw [inv_le_comm₀ (abs_pos.2 h0) (by positivity), ← zpow_neg]
      exact h.lower h0
  · rw [if_neg c3, if_neg c3]
    by_cases c4 : num.natAbs > 1 ∨ num = -1
    · rw [if_pos c4, if_pos c4]
      exact hm n1 (by omega)
    · rw [if_neg c4, if_neg c4, sub_self, abs_zero]
      exact (zpow_pos (by norm_num) _).le

/-- **C57 (any factor, formats of IEEE 754)**: as `C57_ieee`, also if the result has a factor that is not an integer; the multiplication with the factor may
underflow after cancellation, which costs at most the smallest positive number of the format. -/
theorem C57_ieee_factor {L : Type} (m : Metric) (null : Bool) (E : Env ℝ) {args : List (Arg ℝ)} {args' : List (Arg L)}
    (ht : args.map (fun a => (a.ie, a.data.length)) = args'.map fun a => (a.ie, a.data.length)) {f : Lam} {q : Rat32}
    {ps : List (Nat × List RatMono)} (h : f.ratPolys m null args' = some (q, ps)) (he : emin + p ≤ emax) {a : Nat}
    (hd : ∀ x ∈ (args.map fun a => a.data).flatten, IeeeNumber p emin emax x ∧ InRange a x)
    (hq : ((intSize q.num + intSize q.den : Nat) : Int) ≤ 1 - emin - p)
    (hlow : ∀ r ∈ ps, ∀ t ∈ r.2, (ratMonoSize a t : Int) ≤ 1 - emin - p)
    (hup : ∀ r ∈ ps, ((ratPolySize a r.2 + intSize q.num + intSize q.den : Nat) : Int) < emax) :
    ∃ es xs vs, (f.compute m null E args >>= single) = ok ⟨es, xs⟩ ∧
      ((ieeeArith p emin emax inf).compute m null E args f >>= single) = ok ⟨es, vs⟩ ∧
      vs.length = ps.length ∧ xs.length = ps.length ∧ ∀ i (r : Nat × List RatMono), ps[i]? = some r → |vs.getD i 0 - xs.getD i 0| ≤
        gam ((2 : ℝ)⁻¹ ^ p) (ratPolyCost r.2 + factorCost q) *
          (r.2.map fun x => |ratVal ℝ q * ratMonoVal (args.map fun a => a.data).flatten x|).sum + 2 ^ emin := by
  obtain ⟨es, us, r1, r2, hden, r3⟩ := ieee_runs (inf := inf) hp m null E ht h hd hlow fun r hr => by have := hup r hr; omega
  obtain ⟨es', xs, vs, h1, h2, h3, h4, h5⟩ := C57_lambda (by positivity) (pow_lt_one₀ (by norm_num) (by norm_num) (by omega)) (C57_binary p) m null E ht h
  rw [r2, ok_bind] at h2
  obtain ⟨rfl, rfl⟩ : es = es' ∧ us.map ((binaryArith ℝ p).scaleBy q.num q.den) = vs := by
    have := ok_inj.1 h2
    exact ⟨congrArg Entity.elements this, congrArg Entity.data this⟩
  refine ⟨es, xs, us.map ((ieeeArith p emin emax inf).scaleBy q.num q.den), h1, by rw [r1, ok_bind]; rfl, by simpa using h3, h4, fun i r hr => ?_⟩
  have hi : i < ps.length := (List.getElem?_eq_some_iff.1 hr).1
  have hpe : ps[i] = r := (List.getElem?_eq_some_iff.1 hr).2
  have hu : i < us.length := by rw [r3.length_eq]; exact hi
  have h6 := List.Forall₂.get r3 hu hi
  rw [List.get_eq_getElem, List.get_eq_getElem, hpe] at h6
  have h7 := h5 i r hr
  have hrm : r ∈ ps := hpe ▸ List.getElem_mem hi
  rw [List.getD_eq_getElem _ _ (by simpa using hu), List.getElem_map] at h7 ⊢
  have h8 := gap_scaleBy (inf := inf) hp he hden hq h6.1 (hup r hrm)
  have h9 := abs_sub_le ((ieeeArith p emin emax inf).scaleBy q.num q.den us[i]) ((binaryArith ℝ p).scaleBy q.num q.den us[i]) (xs.getD i 0)
  linarith

/-! ## Unit vectors -/

omit hp in
theorem InRange.add_nonneg {a b : Nat} {x y : ℝ} (hx : InRange a x) (hy : InRange b y) (h0 : 0 ≤ x) (h1 : 0 ≤ y) :
    InRange (max a b + 1) (x + y) := by
  have hx' := hx.mono (le_max_left a b)
  have hy' := hy.mono (le_max_right a b)
  refine .of ?_ fun h => ?_
  · rw [Nat.cast_add, zpow_add₀ (by norm_num), Nat.cast_one, zpow_one, mul_two]
    exact (abs_add_le x y).trans (add_le_add hx'.upper hy'.upper)
  · rw [abs_of_nonneg (by linarith)]
    refine (zpow_le_zpow_right₀ (by norm_num) (by omega : -((max a b + 1 : Nat) : Int) ≤ -((max a b : Nat) : Int))).trans ?_
    by_cases hx0 : x = 0
    · have := hy'.lower (by rintro rfl; simp [hx0] at h)
      rw [abs_of_nonneg h1] at this
      linarith
    · have := hx'.lower hx0
      rw [abs_of_nonneg h0] at this
      linarith

omit hp in
theorem InRange.sqrt {a : Nat} {x : ℝ} (hx : InRange (2 * a) x) : InRange a (Real.sqrt x) := by
  rcases le_or_gt x 0 with h | h
  · rw [Real.sqrt_eq_zero_of_nonpos h]; exact .inl rfl
  · rcases hx with rfl | ⟨h1, h2⟩
    · exact (lt_irrefl _ h).elim
    · rw [abs_of_pos h] at h1 h2
      refine .inr ⟨?_, ?_⟩
      · rw [abs_of_nonneg (Real.sqrt_nonneg _)]
        refine Real.le_sqrt_of_sq_le ?_
        rwa [← pow_mul, mul_comm]
      · rw [abs_of_nonneg (Real.sqrt_nonneg _), Real.sqrt_le_left (by positivity), ← pow_mul, mul_comm]
        exact h2

omit hp in
theorem roundBits_nonneg {x : ℝ} (h : 0 ≤ x) : 0 ≤ roundBits p x := by
  obtain ⟨δ, hd, e⟩ := roundBits_delta p x
  have h1 : (2 : ℝ)⁻¹ ^ p ≤ 1 := pow_le_one₀ (by norm_num) (by norm_num)
  rw [e]
  have := (abs_le.1 hd).1
  exact mul_nonneg h (by linarith)

/-- **C57 (normalize, formats of IEEE 754)**: `normalize` of a vector computes what it computes without bounds for the exponent, if its coordinates are zero
or between `2⁻ᵃ` and `2ᵃ` and `2 a + 2` does not exceed the exponents of the normal range. -/
theorem C57_ieee_normalize {a : Nat} (hmin : ((2 * a + 2 : Nat) : Int) ≤ 1 - emin - p) (hmax : ((2 * a + 2 : Nat) : Int) < emax) {x y z : ℝ}
    (hx : IeeeNumber p emin emax x ∧ InRange a x) (hy : IeeeNumber p emin emax y ∧ InRange a y) (hz : IeeeNumber p emin emax z ∧ InRange a z)
    (hne : x ^ 2 + y ^ 2 + z ^ 2 ≠ 0) :
    (ieeeArith p emin emax inf).normalize3 (fun s => roundIeee p emin emax inf (Real.sqrt s)) x y z =
      (binaryArith ℝ p).normalize3 (fun s => roundBits p (Real.sqrt s)) x y z := by
  have fit : ∀ {t : ℝ}, IeeeNumber p emin emax t ∧ InRange a t → SameNum emin a t t := fun {t} ⟨⟨k, e, _, h1, h2, _⟩, h3⟩ =>
    ⟨rfl, h3, OnGrid.mono h1 ⟨k, h2⟩⟩
  have sx := fit hx
  have sy := fit hy
  have sz := fit hz
  have add : ∀ {j k : Nat} {s s' t t' : ℝ}, SameNum emin j s s' → SameNum emin k t t' → 0 ≤ s' → 0 ≤ t' → max j k + 1 ≤ 2 * a + 2 →
      SameNum emin (max j k + 1) ((ieeeArith p emin emax inf).add s t) ((binaryArith ℝ p).add s' t') := by
    rintro j k s s' t t' ⟨rfl, h1⟩ ⟨rfl, h2⟩ h3 h4 hL
    exact roundIeee_range hp hmin hmax hL (h1.1.add_nonneg h2.1 h3 h4)
  have m1 := sameNum_mul (inf := inf) hp hmin hmax sx sx (by omega)
  have m2 := sameNum_mul (inf := inf) hp hmin hmax sy sy (by omega)
  have m3 := sameNum_mul (inf := inf) hp hmin hmax sz sz (by omega)
  have q : ∀ t : ℝ, 0 ≤ (binaryArith ℝ p).mul t t := fun t => roundBits_nonneg (mul_self_nonneg t)
  have q1 : 0 ≤ (binaryArith ℝ p).add ((binaryArith ℝ p).mul x x) ((binaryArith ℝ p).mul y y) := roundBits_nonneg (add_nonneg (q x) (q y))
  have s1 := add m1 m2 (q x) (q y) (by omega)
  have s2 := (add s1 m3 q1 (q z) (by omega)).mono (show _ ≤ 2 * (a + 1) by omega)
  have q2 : 0 < (binaryArith ℝ p).add ((binaryArith ℝ p).mul x x) ((binaryArith ℝ p).mul y y) + (binaryArith ℝ p).mul z z := by
    refine lt_of_le_of_ne (add_nonneg q1 (q z)) fun h => hne ?_
    have z1 : ∀ t : ℝ, (binaryArith ℝ p).mul t t = 0 → t = 0 := fun t ht => by
      by_contra hc
      exact round_ne_zero hp (mul_self_ne_zero.2 hc) ht
    have h3 : (binaryArith ℝ p).mul z z = 0 := by linarith [q z]
    have h4 : (binaryArith ℝ p).add ((binaryArith ℝ p).mul x x) ((binaryArith ℝ p).mul y y) = 0 := by linarith [q z]
    have h5 : (binaryArith ℝ p).mul x x + (binaryArith ℝ p).mul y y = 0 := by
      by_contra hc
      exact round_ne_zero hp hc h4
    rw [z1 z h3, z1 x (by linarith [q x, q y]), z1 y (by linarith [q x, q y])]
    norm_num
  have q3 := lt_of_le_of_ne (roundBits_nonneg q2.le) (round_ne_zero hp q2.ne').symm
  obtain ⟨e2, f2⟩ := s2
  have rt := roundIeee_range (inf := inf) hp hmin hmax (a := a + 1) (by omega) f2.1.sqrt
  have rt' : SameNum emin (a + 1) (roundIeee p emin emax inf (Real.sqrt ((ieeeArith p emin emax inf).add ((ieeeArith p emin emax inf).add
      ((ieeeArith p emin emax inf).mul x x) ((ieeeArith p emin emax inf).mul y y)) ((ieeeArith p emin emax inf).mul z z))))
      (roundBits p (Real.sqrt ((binaryArith ℝ p).add ((binaryArith ℝ p).add ((binaryArith ℝ p).mul x x) ((binaryArith ℝ p).mul y y))
        ((binaryArith ℝ p).mul z z)))) := by
    rw [e2]
    exact rt
  have one : SameNum emin 0 (1 : ℝ) 1 := ⟨rfl, .inr ⟨by simp, by simp⟩, OnGrid.mono (g := 0) (by omega) ⟨1, by simp⟩⟩
  have inv := sameNum_div (inf := inf) hp hmin hmax one rt' (round_ne_zero hp (Real.sqrt_pos.2 q3).ne') (by omega)
  unfold Arith.normalize3
  dsimp only
  rw [(sameNum_mul (inf := inf) hp hmin hmax sx inv (by omega)).1, (sameNum_mul (inf := inf) hp hmin hmax sy inv (by omega)).1,
    (sameNum_mul (inf := inf) hp hmin hmax sz inv (by omega)).1]

/-! ## Rigid motions -/

omit hp in
theorem vgaPointOf_run (A : Arith ℝ) (v0 v1 v2 v3 : ℝ) :
    A.vgaPointOf ⟨[7, 11, 13, 14], [v0, v1, v2, v3]⟩ = ok [A.mul v2 (-(A.div 1 v3)), A.mul v1 (A.div 1 v3), A.mul v0 (-(A.div 1 v3))] := by
  unfold Arith.vgaPointOf
  rw [select_of (k := 2) (by decide) (by decide) rfl rfl, select_of (k := 1) (by decide) (by decide) rfl rfl,
    select_of (k := 0) (by decide) (by decide) rfl rfl, select_of (k := 3) (by decide) (by decide) rfl rfl]
  rfl

/-- **C57 (rigid motions, formats of IEEE 754)**: each coordinate of `p % m`, for a point and a motor whose rotational part is not zero, is off by at most 21
roundings of `|x| + |y| + |z| + 2 T` and the smallest positive number of the format, if all numbers are zero or between `2⁻ᵏ` and `2ᵏ` and the range of
exponents is large enough for that. -/
theorem C57_ieee_move (h3 : 3 ≤ p) (E : Env ℝ) {k N : Nat} (hN : ∀ r ∈ toRatPolys movePolys, ratPolySize k r.2 ≤ N) (h2N : 2 * k + 4 ≤ N)
    (hmin : (N : Int) ≤ 1 - emin - p) (hmax : ((N + (2 * k + 4) : Nat) : Int) < emax) (x y z a b c d e f g h T : ℝ)
    (hd : ∀ t ∈ [x, y, z, a, b, c, d, e, f, g, h], IeeeNumber p emin emax t ∧ InRange k t)
    (hw : a ^ 2 + d ^ 2 + f ^ 2 + g ^ 2 ≠ 0) (hT : 0 ≤ T) (ht : b ^ 2 + c ^ 2 + e ^ 2 + h ^ 2 ≤ T ^ 2 * (a ^ 2 + d ^ 2 + f ^ 2 + g ^ 2)) :
    ∃ r v : Fin 3 → ℝ,
      (sandwichLam.compute pgaMetric false E [pointArg [x, y, z], motorArg [a, b, c, d, e, f, g, h]] >>= single >>= vgaPointOf) = ok (List.ofFn r) ∧
      ((ieeeArith p emin emax inf).compute pgaMetric false E [pointArg [x, y, z], motorArg [a, b, c, d, e, f, g, h]] sandwichLam >>= single >>=
        (ieeeArith p emin emax inf).vgaPointOf) = ok (List.ofFn v) ∧
      ∀ i, |v i - r i| ≤ gam ((2 : ℝ)⁻¹ ^ p) 21 * (|x| + |y| + |z| + 2 * T) + 2 ^ emin := by
  have u0 : (0 : ℝ) ≤ 2⁻¹ ^ p := by positivity
  have u1 : (2 : ℝ)⁻¹ ^ p < 1 := pow_lt_one₀ (by norm_num) (by norm_num) (by omega)
  have u2 : (2 : ℝ)⁻¹ ^ p ≤ 1 / 8 := (pow_le_pow_of_le_one (by norm_num) (by norm_num) h3).trans (by norm_num)
  have hlow : ∀ r ∈ toRatPolys movePolys, ∀ t ∈ r.2, (ratMonoSize k t : Int) ≤ 1 - emin - p := fun r hr t ht => by
    have h1 := hN r hr
    have h2 := ratMonoSize_le (a := k) t ht
    omega
  obtain ⟨es, us, r1, r2, _, r3⟩ := ieee_runs (inf := inf) hp pgaMetric false E (args := [pointArg [x, y, z], motorArg [a, b, c, d, e, f, g, h]])
    (by rfl) (polys_ratPolys move_polys) (a := k) hd hlow fun r hr => by have := hN r hr; omega
  obtain ⟨vs, n1, n2⟩ := rounded_intPolys u0 u1 (C57_binary p) pgaMetric E (args := [pointArg [x, y, z], motorArg [a, b, c, d, e, f, g, h]])
    (by rfl) move_polys
  have sc : ∀ A : Arith ℝ, us.map (A.scaleBy 1 1) = us := fun A => by
    conv_rhs => rw [← List.map_id us]
    exact List.map_congr_left fun t _ => by unfold Arith.scaleBy; rw [if_neg (by decide), if_neg (by decide)]; rfl
  rw [sc] at r1 r2
  rw [r2, ok_bind] at n1
  obtain ⟨rfl, rfl⟩ : es = movePolys.map Prod.fst ∧ us = vs := by
    have := ok_inj.1 n1
    exact ⟨congrArg Entity.elements this, congrArg Entity.data this⟩
  obtain ⟨r, v, m1, m2, m3⟩ := C57_move u0 u1 (C57_binary p) E x y z a b c d e f g h T hw hT ht
  have hall : ∀ {us : List ℝ} {ps : List (Nat × List RatMono)},
      List.Forall₂ (fun v r => |v| ≤ 2 ^ (ratPolySize k r.2 : Int) ∧ OnGrid emin v) us ps → (∀ r ∈ ps, ratPolySize k r.2 ≤ N) →
      ∀ v ∈ us, |v| ≤ 2 ^ (N : Int) ∧ OnGrid emin v := by
    intro us ps h
    induction h with
    | nil => exact fun _ v hv => by simp at hv
    | @cons s q _ _ h6 _ ih =>
      intro hn v hv
      rcases List.mem_cons.1 hv with rfl | hv
      · exact ⟨h6.1.trans (zpow_le_zpow_right₀ (by norm_num) (by exact_mod_cast hn q (by simp))), h6.2⟩
      · exact ih (fun r hr => hn r (by simp [hr])) v hv
  have hu := hall r3 hN
  unfold movePolys at n2
  rcases n2 with _ | ⟨k0, _ | ⟨k1, _ | ⟨k2, _ | ⟨n3, _ | _⟩⟩⟩⟩
  rename_i v0 v1 v2 v3
  have g0 := hu v0 (by simp)
  have g1 := hu v1 (by simp)
  have g2 := hu v2 (by simp)
  have g3 := hu v3 (by simp)
  have h8 : Near ((2 : ℝ)⁻¹ ^ p) 4 v3 (a ^ 2 + d ^ 2 + f ^ 2 + g ^ 2) := by
    have := (n3.mono u0 u1 (show _ ≤ 4 by decide)).near u0 u1 (by
      intro t
      simp only [pointArg, motorArg]
      poly_value movePolys
      simp only [List.mem_cons, List.not_mem_nil, or_false]
      rintro (rfl | rfl | rfl | rfl) <;> positivity)
    refine this.imp fun t k => ⟨k.1, k.2.trans ?_⟩
    simp only [pointArg, motorArg]
    poly_value movePolys
    ring
  have sq : ∀ t ∈ [x, y, z, a, b, c, d, e, f, g, h], InRange (2 * k) (t ^ 2) := fun t ht => by
    have := (hd t ht).2.mul (hd t ht).2
    rw [two_mul, pow_two]
    exact this
  have w1 : InRange (2 * k + 3) (a ^ 2 + d ^ 2 + f ^ 2 + g ^ 2) := by
    have := (((sq a (by simp)).add_nonneg (sq d (by simp)) (by positivity) (by positivity)).add_nonneg (sq f (by simp)) (by positivity)
      (by positivity)).add_nonneg (sq g (by simp)) (by positivity) (by positivity)
    exact this.mono (by omega)
  obtain ⟨t, tc, rfl⟩ := h8
  have q4 : (1 : ℝ) / 2 ≤ (1 - 2⁻¹ ^ p) ^ 4 := by
    have : (7 / 8 : ℝ) ^ 4 ≤ (1 - 2⁻¹ ^ p) ^ 4 := pow_le_pow_left₀ (by norm_num) (by linarith) 4
    refine le_trans (by norm_num) this
  have t1 : InRange 1 t := by
    have h1 := tc.lo
    have h2 := tc.hi
    have h5 : 0 < t := by linarith
    refine .inr ⟨?_, ?_⟩ <;> rw [abs_of_pos h5]
    · rw [pow_one]; linarith
    · rw [pow_one]
      nlinarith
  have t0 : (a ^ 2 + d ^ 2 + f ^ 2 + g ^ 2) * t ≠ 0 := mul_ne_zero hw (by have := tc.lo; intro h; rw [h] at this; linarith)
  set w := (a ^ 2 + d ^ 2 + f ^ 2 + g ^ 2) * t with hwdef
  have sw : SameNum emin (2 * k + 4) w w := ⟨rfl, w1.mul t1, g3.2⟩
  have one : SameNum emin 0 (1 : ℝ) 1 := ⟨rfl, .inr ⟨by simp, by simp⟩, OnGrid.mono (g := 0) (by omega) ⟨1, by simp⟩⟩
  have inv := sameNum_div (inf := inf) (emax := emax) (L := N) hp hmin (by omega) one sw t0 (by omega)
  rw [Nat.zero_add] at inv
  have hgap : ∀ {s i : ℝ}, |s| ≤ 2 ^ (N : Int) → |i| ≤ 2 ^ ((2 * k + 4 : Nat) : Int) →
      |(ieeeArith p emin emax inf).mul s i - (binaryArith ℝ p).mul s i| ≤ 2 ^ emin := fun {s i} hs hi => by
    refine roundIeee_gap (inf := inf) hp (by omega) (k := ((N + (2 * k + 4) : Nat) : Int)) ?_ hmax
    rw [abs_mul, Nat.cast_add, zpow_add₀ (by norm_num)]
    exact mul_le_mul hs hi (abs_nonneg _) (by positivity)
  have iu := inv.2.1.upper
  have iu' : |-(binaryArith ℝ p).div 1 w| ≤ 2 ^ ((2 * k + 4 : Nat) : Int) := by rw [abs_neg]; exact iu
  rw [r2, ok_bind] at m2
  rw [r1, ok_bind]
  have e1 : (single [(⟨movePolys.map Prod.fst, [v0, v1, v2, w]⟩ : Entity ℝ)]) = ok ⟨[7, 11, 13, 14], [v0, v1, v2, w]⟩ := rfl
  rw [e1, ok_bind, vgaPointOf_run] at m2 ⊢
  have m4 := ok_inj.1 m2
  rw [inv.1]
  refine ⟨r, ![_, _, _], m1, rfl, fun i => ?_⟩
  have hvi : ∀ i, v i = (![(binaryArith ℝ p).mul v2 (-((binaryArith ℝ p).div 1 w)), (binaryArith ℝ p).mul v1 ((binaryArith ℝ p).div 1 w),
      (binaryArith ℝ p).mul v0 (-((binaryArith ℝ p).div 1 w))] : Fin 3 → ℝ) i := by
    have : List.ofFn v = List.ofFn (![(binaryArith ℝ p).mul v2 (-((binaryArith ℝ p).div 1 w)), (binaryArith ℝ p).mul v1 ((binaryArith ℝ p).div 1 w),
      (binaryArith ℝ p).mul v0 (-((binaryArith ℝ p).div 1 w))] : Fin 3 → ℝ) := m4.symm.trans rfl
    exact congrFun (List.ofFn_injective this)
  have fin : ∀ {s : ℝ}, |s - v i| ≤ 2 ^ emin → |s - r i| ≤ gam ((2 : ℝ)⁻¹ ^ p) 21 * (|x| + |y| + |z| + 2 * T) + 2 ^ emin := fun {s} hs => by
    have h1 := abs_sub_le s (v i) (r i)
    have h2 := m3 i
    linarith
  refine fin ?_
  rw [hvi]
  fin_cases i
  · exact hgap g2.1 iu'
  · exact hgap g1.1 iu
  · exact hgap g0.1 iu'

end format

/-- **C57 (normalize in single precision)**: the squared length of the result differs from one by less than 1e-6, for every vector other than zero whose
coordinates are zero or of a size between `2⁻⁶²` and `2⁶²`. -/
theorem C57_float_normalize (inf x y z : ℝ) (hx : FloatIn 62 x) (hy : FloatIn 62 y) (hz : FloatIn 62 z) (hne : x ^ 2 + y ^ 2 + z ^ 2 ≠ 0) :
    ∃ a b c, (ieeeArith 24 (-149) 128 inf).normalize3 (fun s => roundIeee 24 (-149) 128 inf (Real.sqrt s)) x y z = [a, b, c] ∧
      |a ^ 2 + b ^ 2 + c ^ 2 - 1| ≤ 1e-6 := by
  rw [C57_ieee_normalize (by norm_num) (by norm_num) (by norm_num) hx hy hz hne]
  obtain ⟨a, b, c, h2, _, _, _, h3⟩ := C57_normalize (u := (2 : ℝ)⁻¹ ^ 24) (by positivity) (by norm_num) (C57_binary 24)
    (fsqrt := fun s => roundBits 24 (Real.sqrt s)) (fun s _ => roundBits_delta 24 _) x y z hne
  exact ⟨a, b, c, h2, h3.trans ((gam_le (by norm_num) (by norm_num)).trans (by norm_num))⟩

/-- **C57 (rigid motions in single precision)**: no coordinate of `p % m` is off by more than 2e-6 `(|x| + |y| + |z| + 2 T)` and the smallest positive
number, if all numbers are zero or of a size between `2⁻²⁰` and `2²⁰`. -/
theorem C57_float_move (E : Env ℝ) (inf x y z a b c d e f g h T : ℝ) (hd : ∀ t ∈ [x, y, z, a, b, c, d, e, f, g, h], FloatIn 20 t)
    (hw : a ^ 2 + d ^ 2 + f ^ 2 + g ^ 2 ≠ 0) (hT : 0 ≤ T) (ht : b ^ 2 + c ^ 2 + e ^ 2 + h ^ 2 ≤ T ^ 2 * (a ^ 2 + d ^ 2 + f ^ 2 + g ^ 2)) :
    ∃ r v : Fin 3 → ℝ,
      (sandwichLam.compute pgaMetric false E [pointArg [x, y, z], motorArg [a, b, c, d, e, f, g, h]] >>= single >>= vgaPointOf) = ok (List.ofFn r) ∧
      ((ieeeArith 24 (-149) 128 inf).compute pgaMetric false E [pointArg [x, y, z], motorArg [a, b, c, d, e, f, g, h]] sandwichLam >>= single >>=
        (ieeeArith 24 (-149) 128 inf).vgaPointOf) = ok (List.ofFn v) ∧
      ∀ i, |v i - r i| ≤ 2e-6 * (|x| + |y| + |z| + 2 * T) + 2 ^ (-149 : Int) := by
  obtain ⟨r, v, h1, h2, h3⟩ := C57_ieee_move (inf := inf) (by norm_num) (by norm_num) E (k := 20) (N := 74) (by decide +kernel) (by norm_num) (by norm_num)
    (by norm_num) x y z a b c d e f g h T hd hw hT ht
  refine ⟨r, v, h1, h2, fun i => (h3 i).trans (add_le_add (mul_le_mul_of_nonneg_right ?_ (by positivity)) le_rfl)⟩
  exact (gam_le (by norm_num) (by norm_num)).trans (by norm_num)

/-! ## Concrete numbers -/

/-- `[](auto v) { return v * v / 3; }` has the factor 1/3. -/
theorem third_ratPolys :
    (Lam.divInt squareLam 3).ratPolys (L := ℚ) vgaMetric false [vectorArg [0, 0, 0]] = some (⟨1, 3⟩, toRatPolys squarePolys) := by
  decide +kernel

/-- The hypotheses of `C57_ieee_factor` for a third of the square of a vector. -/
example (E : Env ℝ) (inf : ℝ) :=
  C57_ieee_factor (p := 24) (emin := -149) (emax := 128) (inf := inf) (by norm_num) vgaMetric false E (args := [vectorArg [3, -5 / 2, 2⁻¹ ^ 40]])
    (by rfl) third_ratPolys (by norm_num) (a := 58) (fun t ht => (format_samples t (by
      simp [vectorArg] at ht ⊢
      tauto)).1) (by decide +kernel) (by decide +kernel) (by decide +kernel)

/-- The hypotheses of `C57_float_normalize`, and with them those of `C57_ieee_normalize`, at a concrete vector. -/
example (inf : ℝ) :=
  C57_float_normalize inf 3 (-5 / 2) (2⁻¹ ^ 40)
    ⟨(format_samples _ (by simp)).1.1, (format_samples 3 (by simp)).1.2.mono (by norm_num)⟩
    ⟨(format_samples _ (by simp)).1.1, (format_samples (-5 / 2) (by simp)).1.2.mono (by norm_num)⟩
    ⟨(format_samples _ (by simp)).1.1, (format_samples (2⁻¹ ^ 40) (by simp)).1.2.mono (by norm_num)⟩ (by norm_num)

theorem small_samples : ∀ t ∈ ([0, 3, 4, 5] : List ℝ), FloatIn 20 t := by
  intro t ht
  simp only [List.mem_cons, List.not_mem_nil, or_false] at ht
  rcases ht with rfl | rfl | rfl | rfl
  · exact ⟨⟨0, 0, by norm_num, by norm_num, by norm_num, by norm_num⟩, .inl rfl⟩
  · exact ⟨⟨3, 0, by norm_num, by norm_num, by norm_num, by norm_num⟩, .inr (by norm_num [abs_of_pos])⟩
  · exact ⟨⟨4, 0, by norm_num, by norm_num, by norm_num, by norm_num⟩, .inr (by norm_num [abs_of_pos])⟩
  · exact ⟨⟨5, 0, by norm_num, by norm_num, by norm_num, by norm_num⟩, .inr (by norm_num [abs_of_pos])⟩

/-- The hypotheses of `C57_float_move`, and with them those of `C57_ieee_move`, at a screw motion. -/
example (E : Env ℝ) (inf : ℝ) :=
  C57_float_move E inf 3 4 5 3 0 0 4 5 0 0 5 2 (fun t ht => small_samples t (by
    simp only [List.mem_cons, List.not_mem_nil, or_false] at ht ⊢
    tauto)) (by norm_num) (by norm_num) (by norm_num)

end Gal
