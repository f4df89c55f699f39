import Verif.Props.MvOps
import Mathlib.LinearAlgebra.CliffordAlgebra.Conjugation

/-!
# Property C15: reversion

`CliffordAlgebra.reverse` is Mathlib's anti-automorphism that fixes vectors.
-/

namespace Gal

open Out Finset

attribute [local irreducible] popCount

section
variable (K : Type) [Field K]

theorem gradeOf_succ (k g : Nat) : gradeOf (k + 1) g = gradeOf k g + (if g.testBit k then 1 else 0) := by
  unfold gradeOf
  rw [Finset.range_add_one, Finset.filter_insert]
  split
  · rw [Finset.card_insert_of_notMem (by simp)]
  · rfl

theorem chi_eq_grade (g k : Nat) : chi g k = (-1) ^ gradeOf k g := chi_eq_pow_card g k

theorem tri_succ (k : Nat) : (k + 1) * (k + 1 - 1) / 2 = k * (k - 1) / 2 + k := by
  cases k with
  | zero => rfl
  | succ j =>
    simp only [Nat.add_sub_cancel]
    have h : (j + 1 + 1) * (j + 1) = (j + 1) * j + (j + 1) * 2 := by ring
    rw [h, Nat.add_mul_div_right _ _ (by decide)]

/-- Reversing a blade of grade `k` multiplies it by `(-1)^(k(k-1)/2)`. -/
theorem reverse_blade (n : Nat) (d : Nat → Int) (g : Nat) :
    CliffordAlgebra.reverse (cliffBlade K n d g) =
      (((-1 : Int) ^ (gradeOf n g * (gradeOf n g - 1) / 2) : Int) : K) • cliffBlade K n d g := by
  unfold cliffBlade
  have : ∀ k, k ≤ n → CliffordAlgebra.reverse (bladeOf (cliffGen K n d) k g) =
      (((-1 : Int) ^ (gradeOf k g * (gradeOf k g - 1) / 2) : Int) : K) • bladeOf (cliffGen K n d) k g := by
    intro k
    induction k with
    | zero => intro _; simp [bladeOf, gradeOf]
    | succ k ih =>
      intro hk
      unfold bladeOf
      rw [CliffordAlgebra.reverse.map_mul, ih (by omega), gradeOf_succ]
      split
      · have hr : CliffordAlgebra.reverse (cliffGen K n d k) = cliffGen K n d k := by
          unfold cliffGen
          rw [dif_pos (by omega), CliffordAlgebra.reverse_ι]
        rw [hr, mul_smul_comm, gen_comm (cliffordGens K n d) k (by omega) k le_rfl g, tri_succ, pow_add, chi_eq_grade]
        push_cast
        rw [mul_smul]
        congr 1
        rw [Algebra.smul_def]
        simp
      · simp
  exact this n le_rfl

end

/-- Coefficient `1` or `-1` as an operation on coefficients. -/
theorem reverseTermN_spec {K V : Type} [Field K] [CharZero K] [AddCommGroup V] [Module K V] (pw : Nat → ℚ → K)
    (β : Nat → V) {t u : NTerm} (hw : ∀ m ∈ t.mons, m.WF) (h : reverseTermN t = ok u) :
    u.val pw β = ((-1 : Int) ^ (popCount t.element * (popCount t.element - 1) / 2) : Int) • t.val pw β ∧
      u.element = t.element ∧ ∀ m ∈ u.mons, m.WF := by
  unfold reverseTermN at h
  have h0 : popCount 0 = 0 := by decide +kernel
  split at h
  · rename_i h0'
    rw [ok_inj] at h; subst h
    rw [h0', h0]
    exact ⟨by simp, h0'.symm ▸ rfl, hw⟩
  · dsimp only at h
    split at h
    · rename_i hodd
      obtain ⟨e1, e2, e3⟩ := mapQ_term_val pw (c := -1) (fun x y hx hy => by
        obtain ⟨e, w⟩ := Rat32.neg_spec hx hy
        exact ⟨by rw [e]; ring, w⟩) hw h
      refine ⟨?_, e2, e3⟩
      rw [Odd.neg_one_pow (Nat.odd_iff.2 hodd)]
      simp only [NTerm.val, e1, e2]
      simp
    · rename_i heven
      rw [ok_inj] at h; subst h
      rw [Even.neg_one_pow (Nat.even_iff.2 (by omega))]
      exact ⟨by simp, rfl, hw⟩

theorem reverseN_val {K : Type} [Field K] [CharZero K] (pw : Nat → ℚ → K) (n : Nat) (hn : n ≤ 8) (d : Nat → Int)
    {a r : NMv} (hw : MvWF a) (he : ElemsLt (2 ^ n) a) (h : reverseN a = ok r) :
    mvVal pw (cliffBlade K n d) r = CliffordAlgebra.reverse (mvVal pw (cliffBlade K n d) a) := by
  unfold reverseN at h
  induction a generalizing r with
  | nil => rw [mapO_nil_ok] at h; subst h; simp
  | cons t ts ih =>
    rw [mapO_cons_ok] at h
    obtain ⟨u, us, h1, h2, rfl⟩ := h
    rw [mvVal_cons, mvVal_cons, map_add, ih (fun x hx => hw x (by simp [hx])) (fun x hx => he x (by simp [hx])) h2,
      (reverseTermN_spec pw (cliffBlade K n d) (hw t (by simp)) h1).1]
    congr 1
    unfold NTerm.val
    rw [map_smul, reverse_blade, popCount_eq_gradeOf hn (he t (by simp)), smul_comm, Int.cast_smul_eq_zsmul]

/-- C15: `reverse(m)` denotes the reverse of the value in the Clifford algebra, and keeps canonical form. -/
theorem C15_reverse (m : Metric) (hm : m.dim ≤ 8) {a r : Mv} {na : NMv} (ha : Packed a na) (wa : MvWF na)
    (ea : ElemsLt (2 ^ m.dim) na) (h : reverse a = ok r) :
    ∃ nr, Packed r nr ∧ (CanonMv na → CanonMv nr) ∧ nr.map (·.element) = na.map (·.element) ∧
      ∀ (K : Type) [Field K] [CharZero K] (pw : Nat → ℚ → K),
        mvVal pw (cliffBlade K m.dim m.sq) nr = CliffordAlgebra.reverse (mvVal pw (cliffBlade K m.dim m.sq) na) := by
  rw [ha.eq, reverse_layout ha.fits.t] at h
  obtain ⟨nr, hn, rfl⟩ := map_eq_ok h
  refine ⟨nr, packed_layout ((mapO_fits reverseTermN_size ha.fits).of_ok hn), fun ca => reverseN_canon ca hn, ?_, ?_⟩
  · clear h ha ea
    unfold reverseN at hn
    induction na generalizing nr with
    | nil => rw [mapO_nil_ok] at hn; subst hn; rfl
    | cons t ts ih =>
      rw [mapO_cons_ok] at hn
      obtain ⟨u, us, h1, h2, rfl⟩ := hn
      rw [List.map_cons, List.map_cons, ih (fun x hx => wa x (by simp [hx])) us h2,
        (reverseTermN_spec (K := ℚ) (V := ℚ) (fun _ _ => 0) (fun _ => 0) (wa t (by simp)) h1).2.1]
  · intro K _ _ pw
    exact reverseN_val pw _ hm _ wa ea hn

example : Packed (layout ⟨2, 5, 4⟩ exB) exB ∧ MvWF exB ∧ ElemsLt (2 ^ pgaMetric.dim) exB ∧
    ∃ r, reverse (layout ⟨2, 5, 4⟩ exB) = ok r :=
  ⟨by decide +kernel, exB_canon.wf, by decide +kernel, Out.exists_of_isOk (by decide +kernel)⟩

theorem neg_neg_ok {x y : Rat32} (hx : x.WF) (h : x.neg = ok y) : y.neg = ok x := by
  unfold Rat32.neg at h ⊢
  simp only [bind_eq_ok, chk_eq_ok, pure_eq, ok_inj] at h
  obtain ⟨n, ⟨h1, rfl⟩, rfl⟩ := h
  simp only [neg_neg]
  rw [chk_of hx.num]
  rfl

theorem mapQ_inv {f g : Rat32 → Out Rat32} (hfg : ∀ x y, x.WF → f x = ok y → g y = ok x) {t u : NTerm}
    (hw : ∀ m ∈ t.mons, m.WF) (h : t.mapQ f = ok u) : u.mapQ g = ok t := by
  unfold NTerm.mapQ at h
  simp only [bind_eq_ok, pure_eq, ok_inj] at h
  obtain ⟨ms, h1, rfl⟩ := h
  have : mapO (NMon.mapQ g) ms = ok t.mons := by
    generalize ht : t.mons = l at h1 hw ⊢
    clear ht
    induction l generalizing ms with
    | nil => rw [mapO_nil_ok] at h1; subst h1; rfl
    | cons m l ih =>
      rw [mapO_cons_ok] at h1
      obtain ⟨m', l', e1, e2, rfl⟩ := h1
      unfold NMon.mapQ at e1
      simp only [bind_eq_ok, pure_eq, ok_inj] at e1
      obtain ⟨q, e1, rfl⟩ := e1
      rw [mapO_cons_ok]
      refine ⟨m, l, ?_, ih l' e2 (fun x hx => hw x (by simp [hx])), rfl⟩
      unfold NMon.mapQ
      simp only
      rw [hfg _ _ (hw m (by simp)).q e1]
      rfl
  unfold NTerm.mapQ
  rw [this]
  rfl

/-- C15: reversing twice restores the multivector, entry by entry, including its arrays. -/
theorem C15_involution {a r : Mv} {na : NMv} (ha : Packed a na) (wa : MvWF na) (h : reverse a = ok r) :
    reverse r = ok a := by
  have e := ha.eq
  rw [e, reverse_layout ha.fits.t] at h
  obtain ⟨nr, hn, rfl⟩ := map_eq_ok h
  have hl : nr.length ≤ a.caps.t := by
    rw [show nr.length = na.length from mapO_length hn]; exact ha.fits.t
  rw [reverse_layout hl]
  have : reverseN nr = ok na := by
    clear h e ha hl
    unfold reverseN at hn ⊢
    induction na generalizing nr with
    | nil => rw [mapO_nil_ok] at hn; subst hn; rfl
    | cons t ts ih =>
      rw [mapO_cons_ok] at hn
      obtain ⟨u, us, h1, h2, rfl⟩ := hn
      rw [mapO_cons_ok]
      refine ⟨t, ts, ?_, ih (fun x hx => wa x (by simp [hx])) us h2, rfl⟩
      have he := (reverseTermN_spec (K := ℚ) (V := ℚ) (fun _ _ => 0) (fun _ => 0) (wa t (by simp)) h1).2.1
      unfold reverseTermN at h1 ⊢
      rw [he]
      split
      · rename_i h0; rw [if_pos h0, ok_inj] at h1; rw [h1]
      · rename_i h0
        rw [if_neg h0] at h1
        dsimp only at h1 ⊢
        split
        · rename_i h2; rw [if_pos h2] at h1
          exact mapQ_inv (fun x y hx hy => neg_neg_ok hx hy) (wa t (by simp)) h1
        · rename_i h2; rw [if_neg h2, ok_inj] at h1; rw [h1]
  rw [this]
  exact (congrArg ok e).symm

end Gal
