import Verif.Spec.RoundedTemps
import Verif.Props.RoundedGeometry
import Verif.Props.RoundedLimit
import Verif.Props.Log
import Mathlib.Analysis.SpecialFunctions.Trigonometric.Bounds

/-!
# Property C57 for programs with temporaries

The error of each stored number is bounded by a multiple of its majorant; the errors of divisors and arguments of square roots are relative.
-/

namespace Gal

open Out

/-! ## Errors relative to a majorant -/

/-- `y` is `x` up to `k` roundings of numbers bounded by `B`. -/
structure MajNear (u : ℝ) (k : Nat) (y x B : ℝ) : Prop where
  le : |x| ≤ B
  err : |y - x| ≤ gam u k * B

/-- What is known of a stored number is true of the computed number `y`, the exact number `x` and the majorant `B`. -/
structure SlotFits (u : ℝ) (s : SlotInfo) (y x B : ℝ) : Prop where
  near : MajNear u s.cost y x B
  rel : s.rel = true → Near u s.cost y x ∧ B = |x|
  pos : s.pos = true → 0 ≤ x
  neg : s.neg = true → x ≤ 0

section near
variable {u : ℝ} (h0 : 0 ≤ u) (h1 : u < 1)
include h0 h1

theorem gam_add (k l : Nat) : (1 + gam u k) * (1 + gam u l) = 1 + gam u (k + l) := by
  unfold gam
  have p1 := (one_sub_pow_pos h0 h1 k).ne'
  have p2 := (one_sub_pow_pos h0 h1 l).ne'
  rw [pow_add]
  field_simp
  ring

theorem MajNear.mono {k l : Nat} {y x B : ℝ} (h : MajNear u k y x B) (hkl : k ≤ l) : MajNear u l y x B :=
  ⟨h.le, h.err.trans (mul_le_mul_of_nonneg_right (gam_mono h0 h1 hkl) ((abs_nonneg _).trans h.le))⟩

theorem MajNear.mul {k l : Nat} {y x B z w C : ℝ} (h : MajNear u k y x B) (h' : MajNear u l z w C) : MajNear u (k + l) (y * z) (x * w) (B * C) := by
  have b0 := (abs_nonneg _).trans h.le
  have c0 := (abs_nonneg _).trans h'.le
  have g1 := gam_nonneg h0 h1 k
  have g2 := gam_nonneg h0 h1 l
  refine ⟨by rw [abs_mul]; exact mul_le_mul h.le h'.le (abs_nonneg _) b0, ?_⟩
  have e : y * z - x * w = (y - x) * (z - w) + (y - x) * w + x * (z - w) := by ring
  have t1 : |(y - x) * (z - w)| ≤ gam u k * B * (gam u l * C) := by
    rw [abs_mul]; exact mul_le_mul h.err h'.err (abs_nonneg _) (mul_nonneg g1 b0)
  have t2 : |(y - x) * w| ≤ gam u k * B * C := by
    rw [abs_mul]; exact mul_le_mul h.err h'.le (abs_nonneg _) (mul_nonneg g1 b0)
  have t3 : |x * (z - w)| ≤ B * (gam u l * C) := by
    rw [abs_mul]; exact mul_le_mul h.le h'.err (abs_nonneg _) b0
  have e2 : gam u (k + l) = (1 + gam u k) * (1 + gam u l) - 1 := by rw [gam_add h0 h1]; ring
  rw [e, e2]
  refine (abs_add_le _ _).trans ((add_le_add_left (abs_add_le _ _) _).trans ?_)
  nlinarith

theorem Near.maj {k : Nat} {y x : ℝ} (h : Near u k y x) : MajNear u k y x |x| := by
  obtain ⟨t, ht, rfl⟩ := h
  refine ⟨le_rfl, ?_⟩
  have := ht.abs_sub h0 h1
  rw [show x * t - x = (t - 1) * x by ring, abs_mul]
  exact mul_le_mul_of_nonneg_right this (abs_nonneg _)

theorem CloseToOne.maj {k : Nat} {t : ℝ} (h : CloseToOne u k t) : MajNear u k t 1 1 :=
  ⟨by simp, by rw [mul_one]; exact h.abs_sub h0 h1⟩

theorem Near.mul {k l : Nat} {y x z w : ℝ} (h : Near u k y x) (h' : Near u l z w) : Near u (k + l) (y * z) (x * w) := by
  obtain ⟨s, hs, rfl⟩ := h
  obtain ⟨t, ht, rfl⟩ := h'
  exact ⟨s * t, hs.mul h0 h1 ht, by ring⟩

theorem Near.inv {k : Nat} {y x : ℝ} (h : Near u k y x) : Near u k y⁻¹ x⁻¹ := by
  obtain ⟨s, hs, rfl⟩ := h
  exact ⟨s⁻¹, hs.inv h0 h1, by rw [mul_inv]⟩

theorem Near.pow {k : Nat} {y x : ℝ} (h : Near u k y x) : ∀ n : Nat, Near u (k * n) (y ^ n) (x ^ n)
  | 0 => by simpa using Near.rfl' (u := u) 1
  | n + 1 => by
    have := (Near.pow h n).mul h0 h1 h
    rwa [← pow_succ, ← pow_succ, ← Nat.mul_succ] at this

theorem MajNear.pow {k : Nat} {y x B : ℝ} (h : MajNear u k y x B) : ∀ n : Nat, MajNear u (k * n) (y ^ n) (x ^ n) (B ^ n)
  | 0 => by
    simp only [Nat.mul_zero, pow_zero]
    exact CloseToOne.zero.maj h0 h1
  | n + 1 => by
    have := (MajNear.pow h n).mul h0 h1 h
    rwa [← pow_succ, ← pow_succ, ← pow_succ, ← Nat.mul_succ] at this

omit h0 h1 in
theorem NearSum.neg {k : Nat} {v : ℝ} {xs : List ℝ} (h : NearSum u k v xs) : NearSum u k (-v) (xs.map fun x => -x) := by
  induction h with
  | nil => rw [neg_zero]; exact .nil
  | @cons x t y xs h2 _ ih =>
    have := NearSum.cons (x := -x) h2 ih
    rwa [show -x * t + -y = -(x * t + y) by ring] at this

omit h0 h1 in
theorem sum_nonpos_of {xs : List ℝ} (h : ∀ x ∈ xs, x ≤ 0) : xs.sum ≤ 0 := by
  induction xs with
  | nil => simp
  | cons x xs ih =>
    rw [List.sum_cons]
    exact add_nonpos (h x (by simp)) (ih fun y hy => h y (by simp [hy]))

omit h0 h1 in
theorem sum_neg_map (xs : List ℝ) : (xs.map fun x => -x).sum = -xs.sum := by
  induction xs with
  | nil => simp
  | cons x xs ih => simp [ih, add_comm]

theorem NearSum.near_neg {k : Nat} {v : ℝ} {xs : List ℝ} (h : NearSum u k v xs) (hn : ∀ x ∈ xs, x ≤ 0) : Near u k v xs.sum := by
  obtain ⟨t, ht, e⟩ := h.neg.near h0 h1 fun x hx => by
    obtain ⟨y, hy, rfl⟩ := List.mem_map.1 hx
    exact neg_nonneg.2 (hn y hy)
  refine ⟨t, ht, ?_⟩
  rw [sum_neg_map] at e
  linarith

theorem SlotFits.given {p n : Bool} {x : ℝ} (hp : p = true → 0 ≤ x) (hn : n = true → x ≤ 0) : SlotFits u (.given p n) x x |x| :=
  ⟨(Near.rfl' x).maj h0 h1, fun _ => ⟨Near.rfl' x, rfl⟩, hp, hn⟩

theorem SlotFits.mul {s t : SlotInfo} {y x B z w C : ℝ} (h : SlotFits u s y x B) (h' : SlotFits u t z w C) :
    SlotFits u (s.mul t) (y * z) (x * w) (B * C) := by
  refine ⟨h.near.mul h0 h1 h'.near, fun hr => ?_, fun hp => ?_, fun hp => ?_⟩
  · simp only [SlotInfo.mul, Bool.and_eq_true] at hr
    obtain ⟨a1, a2⟩ := h.rel hr.1
    obtain ⟨b1, b2⟩ := h'.rel hr.2
    exact ⟨a1.mul h0 h1 b1, by rw [a2, b2, abs_mul]⟩
  · simp only [SlotInfo.mul, Bool.or_eq_true, Bool.and_eq_true] at hp
    rcases hp with hp | hp
    · exact mul_nonneg (h.pos hp.1) (h'.pos hp.2)
    · exact mul_nonneg_of_nonpos_of_nonpos (h.neg hp.1) (h'.neg hp.2)
  · simp only [SlotInfo.mul, Bool.or_eq_true, Bool.and_eq_true] at hp
    rcases hp with hp | hp
    · exact mul_nonpos_of_nonneg_of_nonpos (h.pos hp.1) (h'.neg hp.2)
    · exact mul_nonpos_of_nonpos_of_nonneg (h.neg hp.1) (h'.pos hp.2)

theorem SlotFits.pow {s : SlotInfo} {y x B : ℝ} (h : SlotFits u s y x B) {n : Int} (hn : 0 < n ∨ s.rel = true) :
    SlotFits u (s.pow n) (y ^ n) (x ^ n) (B ^ n) := by
  have hpos : (s.pow n).pos = true → 0 ≤ x ^ n := fun hp => by
    simp only [SlotInfo.pow, Bool.or_eq_true, decide_eq_true_eq] at hp
    rcases hp with hp | hp
    · exact zpow_nonneg (h.pos hp) n
    · exact (Int.even_iff.2 hp).zpow_nonneg x
  have hneg : (s.pow n).neg = true → x ^ n ≤ 0 := fun hp => by
    simp only [SlotInfo.pow, Bool.and_eq_true, decide_eq_true_eq] at hp
    exact (Int.odd_iff.2 hp.2).zpow_nonpos_iff.2 (h.neg hp.1)
  have hrel : s.rel = true → Near u (s.cost * n.natAbs) (y ^ n) (x ^ n) ∧ B ^ n = |x ^ n| := fun hr => by
    obtain ⟨a1, a2⟩ := h.rel hr
    refine ⟨?_, by rw [a2, abs_zpow]⟩
    obtain ⟨k, rfl | rfl⟩ := n.eq_nat_or_neg
    · simpa using a1.pow h0 h1 k
    · simpa using (a1.pow h0 h1 k).inv h0 h1
  refine ⟨?_, hrel, hpos, hneg⟩
  rcases hn with hn | hn
  · obtain ⟨k, rfl⟩ := Int.eq_ofNat_of_zero_le hn.le
    have := h.near.pow h0 h1 k
    simpa [SlotInfo.pow] using this
  · obtain ⟨a1, a2⟩ := hrel hn
    have := a1.maj h0 h1
    rw [← a2] at this
    exact this

/-! ## Monomials and sums -/

/-- What is known of the stored numbers is true. -/
structure DataFits (u : ℝ) (I : List SlotInfo) (Y X M : List ℝ) : Prop where
  leny : Y.length = I.length
  lenx : X.length = I.length
  lenm : M.length = I.length
  slot : ∀ j, SlotFits u (I.getD j (.given true true)) (Y.getD j 0) (X.getD j 0) (M.getD j 0)

theorem DataFits.mon {I : List SlotInfo} {Y X M : List ℝ} (h : DataFits u I Y X M) {m : NMon} (hm : m.q.WF) (hi : ∀ i ∈ m.inds, goodInd I i) :
    SlotFits u (monInfo I m) (storedMon Y m) (storedMon X m) (majorantMon M m) := by
  unfold monInfo storedMon majorantMon
  obtain ⟨q, dg, is⟩ := m
  dsimp only at *
  induction is with
  | nil =>
    simp only [List.foldr_nil, List.map_nil, List.prod_nil, mul_one]
    refine SlotFits.given h0 h1 (fun hp => ?_) fun hp => ?_
    · rw [decide_eq_true_eq] at hp
      have := hm.pos
      have : 0 ≤ q.toQ := by unfold Rat32.toQ; positivity
      exact_mod_cast this
    · rw [decide_eq_true_eq] at hp
      have hd := hm.pos
      have : q.toQ ≤ 0 := by
        unfold Rat32.toQ
        exact div_nonpos_of_nonpos_of_nonneg (by exact_mod_cast hp.le) (by exact_mod_cast hd.le)
      exact_mod_cast this
  | cons i is ih =>
    have ih := ih fun j hj => hi j (by simp [hj])
    have hg := hi i (by simp)
    unfold goodInd at hg
    simp only [Bool.and_eq_true, Bool.or_eq_true, decide_eq_true_eq] at hg
    have := ((h.slot i.id).pow h0 h1 hg.2).mul h0 h1 ih
    simp only [List.foldr_cons, List.map_cons, List.prod_cons]
    convert this using 1 <;> ring

theorem nearSum_maj {I : List SlotInfo} {Y X M : List ℝ} (h : DataFits u I Y X M) {k : Nat} : ∀ {ms : List NMon} {v : ℝ},
    (∀ m ∈ ms, m.q.WF ∧ ∀ i ∈ m.inds, goodInd I i) → NearSum u k v (ms.map (storedMon Y)) →
    MajNear u (k + monsCost I ms) v (ms.map (storedMon X)).sum (ms.map (majorantMon M)).sum ∧
    ((ms.all fun m => (monInfo I m).rel) = true → NearSum u (k + monsCost I ms) v (ms.map (storedMon X)) ∧
      (ms.map (majorantMon M)).sum = (ms.map fun m => |storedMon X m|).sum)
  | [], v, _, hv => by
    cases hv
    exact ⟨⟨by simp, by simp⟩, fun _ => ⟨.nil, by simp⟩⟩
  | m :: ms, v, hm, hv => by
    rw [List.map_cons] at hv
    cases hv with
    | @cons _ t y _ ht hy =>
      obtain ⟨i1, i2⟩ := nearSum_maj h (fun n hn => hm n (by simp [hn])) hy
      have hf := h.mon h0 h1 (hm m (by simp)).1 (hm m (by simp)).2
      have c1 : k + monsCost I ms ≤ k + monsCost I (m :: ms) := by simp [monsCost]
      have c2 : (monInfo I m).cost + k ≤ k + monsCost I (m :: ms) := by
        rw [Nat.add_comm]; simp [monsCost]
      have a1 := (hf.near.mul h0 h1 (ht.maj h0 h1)).mono h0 h1 c2
      have a2 := i1.mono h0 h1 c1
      rw [mul_one, mul_one] at a1
      simp only [List.map_cons, List.sum_cons]
      refine ⟨⟨(abs_add_le _ _).trans (add_le_add a1.le a2.le), ?_⟩, fun hr => ?_⟩
      · have e : storedMon Y m * t + y - (storedMon X m + (ms.map (storedMon X)).sum) =
            (storedMon Y m * t - storedMon X m) + (y - (ms.map (storedMon X)).sum) := by ring
        rw [e, mul_add]
        exact (abs_add_le _ _).trans (add_le_add a1.err a2.err)
      · rw [List.all_cons, Bool.and_eq_true] at hr
        obtain ⟨b1, b2⟩ := i2 hr.2
        obtain ⟨⟨s, b3, b4⟩, b5⟩ := hf.rel hr.1
        refine ⟨?_, by rw [b2, b5]⟩
        rw [b4, mul_assoc]
        exact .cons ((b3.mul h0 h1 ht).mono h0 h1 c2) (b1.mono h0 h1 c1)

end near

theorem storedMon_val {E : Env ℝ} {I : List SlotInfo} {m : NMon} (hi : ∀ i ∈ m.inds, goodInd I i) : m.val E.pw = storedMon E.data m := by
  unfold NMon.val storedMon indsVal
  congr 2
  refine List.map_congr_left fun i h => ?_
  have hg := hi i h
  unfold goodInd at hg
  simp only [Bool.and_eq_true, decide_eq_true_eq] at hg
  have hq : i.deg.toQ = (i.deg.num : ℚ) := by
    unfold Rat32.toQ
    rw [hg.1.1.1.1.2]
    simp
  unfold Ind.val Env.pw
  rw [hq, if_pos (Rat.den_intCast _), Rat.num_intCast, Env.rho, if_neg (by have := hg.1.1.1.1.1.2; omega)]

theorem good_evalInd {E : Env ℝ} {I : List SlotInfo} (hl : E.data.length = I.length) {i : Ind} (h : goodInd I i)
    (hp : i.deg.num < 0 → E.data.getD i.id 0 ≠ 0) : EvalInd E i ∧ i.deg.den = 1 := by
  unfold goodInd at h
  simp only [Bool.and_eq_true, decide_eq_true_eq] at h
  obtain ⟨⟨⟨⟨⟨⟨g1, g2⟩, g3⟩, g4⟩, g5⟩, g6⟩, g7⟩ := h
  refine ⟨⟨Or.inr ⟨g2, by omega⟩, ⟨⟨⟨g5.le, g6⟩, by rw [g3]; decide, by omega⟩, by show Nat.Coprime _ _; rw [g3]; simp⟩, g4, g5, fun hn => ?_⟩, g3⟩
  unfold Env.rho
  rw [if_neg (by omega)]
  exact hp hn

/-- Functions with a relative error of one rounding. -/
structure Env.RoundedFns (u : ℝ) (E : Env ℝ) : Prop where
  sqrt : ∀ x, 0 ≤ x → ∃ δ, |δ| ≤ u ∧ E.fn .sqrt x = Real.sqrt x * (1 + δ)
  sin : ∀ x, ∃ δ, |δ| ≤ u ∧ E.fn .sin x = Real.sin x * (1 + δ)
  cos : ∀ x, ∃ δ, |δ| ≤ u ∧ E.fn .cos x = Real.cos x * (1 + δ)

section run
variable {u : ℝ} (h0 : 0 ≤ u) (h1 : u < 1) {A : Arith ℝ} (hA : A.Standard u)
include h0 h1 hA

omit hA in
/-- One more rounding of a number `w` that is off by the error of `v`. -/
theorem MajNear.round {k : Nat} {v x B : ℝ} (h : MajNear u k v x B) {w z C δ : ℝ} (hw : |w - z| ≤ |v - x|) (hz : |z| ≤ C) (hBC : B ≤ C) (hd : |δ| ≤ u) :
    MajNear u (k + 1) (w * (1 + δ)) z C := by
  have g := gam_nonneg h0 h1 k
  have b0 : 0 ≤ B := (abs_nonneg _).trans h.le
  have c0 : 0 ≤ C := (abs_nonneg _).trans hz
  have e1 : |w - z| ≤ gam u k * C := hw.trans (h.err.trans (mul_le_mul_of_nonneg_left hBC g))
  have e2 : |w| ≤ (1 + gam u k) * C := by
    have := abs_add_le (w - z) z
    rw [sub_add_cancel] at this
    linarith
  have e3 : u ≤ gam u 1 := by
    unfold gam
    rw [pow_one, le_sub_iff_add_le, le_div_iff₀ (by linarith)]
    nlinarith
  have e4 := gam_add h0 h1 k 1
  refine ⟨hz, ?_⟩
  rw [show w * (1 + δ) - z = (w - z) + δ * w by ring]
  refine (abs_add_le _ _).trans ?_
  have e5 : |δ * w| ≤ gam u 1 * ((1 + gam u k) * C) := by
    rw [abs_mul]
    exact mul_le_mul (hd.trans e3) e2 (abs_nonneg _) (gam_nonneg h0 h1 1)
  nlinarith

theorem term_fits {E E' : Env ℝ} (he : RealFns E) (hs : E'.RoundedFns u) {I : List SlotInfo} {M : List ℝ} (h : DataFits u I E'.data E.data M)
    {o : MvOp} {ms : List NMon} {s : SlotInfo} (ht : termInfo I o ms = some s) (hp : PoleFree E.data ms) :
    E.term o ms = ok (storedTerm o E.data ms) ∧ ∃ v, A.term E' o ms = ok v ∧ SlotFits u s v (storedTerm o E.data ms) (majorantTerm o M ms) := by
  unfold termInfo at ht
  split at ht
  · rename_i hc
    obtain ⟨hne, hc⟩ := hc
    have pole : ∀ m ∈ ms, ∀ i ∈ m.inds, i.deg.num < 0 → E'.data.getD i.id 0 ≠ 0 := fun m hm i hi hn => by
      have hg := (hc m hm).2 i hi
      unfold goodInd at hg
      simp only [Bool.and_eq_true, Bool.or_eq_true, decide_eq_true_eq] at hg
      obtain ⟨⟨t, k1, k2⟩, _⟩ := (h.slot i.id).rel (hg.2.resolve_left (by omega))
      rw [k2]
      exact mul_ne_zero (hp m hm i hi hn) (k1.pos h0 h1).ne'
    have ev : ∀ m ∈ ms, m.q.WF ∧ ∀ i ∈ m.inds, EvalInd E i := fun m hm =>
      ⟨(hc m hm).1, fun i hi => (good_evalInd h.lenx ((hc m hm).2 i hi) (hp m hm i hi)).1⟩
    have ev' : ∀ m ∈ ms, m.q.WF ∧ ∀ i ∈ m.inds, EvalInd E' i ∧ i.deg.den = 1 := fun m hm =>
      ⟨(hc m hm).1, fun i hi => good_evalInd h.leny ((hc m hm).2 i hi) (pole m hm i hi)⟩
    have e1 : monsVal E.pw ms = (ms.map (storedMon E.data)).sum := by
      unfold monsVal
      rw [List.map_congr_left fun m hm => storedMon_val (hc m hm).2]
    obtain ⟨v, k1, k2⟩ := near_term h0 h1 hA hne ev'
    rw [List.map_congr_left fun m hm => storedMon_val (hc m hm).2] at k2
    obtain ⟨j1, j2⟩ := nearSum_maj h0 h1 h hc k2
    have hpos : (ms.all fun m => (monInfo I m).pos) = true → ∀ x ∈ ms.map (storedMon E.data), 0 ≤ x := fun hp x hx => by
      obtain ⟨m, hm, rfl⟩ := List.mem_map.1 hx
      exact (h.mon h0 h1 (hc m hm).1 (hc m hm).2).pos (List.all_eq_true.1 hp m hm)
    have hneg : (ms.all fun m => (monInfo I m).neg) = true → ∀ x ∈ ms.map (storedMon E.data), x ≤ 0 := fun hp x hx => by
      obtain ⟨m, hm, rfl⟩ := List.mem_map.1 hx
      exact (h.mon h0 h1 (hc m hm).1 (hc m hm).2).neg (List.all_eq_true.1 hp m hm)
    dsimp only at ht
    split at ht
    · rename_i ho
      subst ho
      rw [Option.some.injEq] at ht
      subst ht
      refine ⟨by rw [C31_term E _ hne ev, e1]; rfl, v, k1, j1, fun hr => ?_, fun hp => List.sum_nonneg (hpos hp), fun hp => sum_nonpos_of (hneg hp)⟩
      show Near u _ _ (ms.map (storedMon E.data)).sum ∧ (ms.map (majorantMon M)).sum = |(ms.map (storedMon E.data)).sum|
      rw [Bool.and_eq_true, Bool.or_eq_true, Bool.or_eq_true, decide_eq_true_eq] at hr
      obtain ⟨i1, i2⟩ := j2 hr.1
      rcases hr.2 with (hr | hr) | hr
      · refine ⟨i1.near h0 h1 (hpos hr), ?_⟩
        rw [i2, abs_of_nonneg (List.sum_nonneg (hpos hr))]
        congr 1
        exact List.map_congr_left fun m hm => abs_of_nonneg (hpos hr _ (List.mem_map_of_mem hm))
      · refine ⟨i1.near_neg h0 h1 (hneg hr), ?_⟩
        rw [i2, abs_of_nonpos (sum_nonpos_of (hneg hr)), ← sum_neg_map, List.map_map]
        congr 1
        exact List.map_congr_left fun m hm => abs_of_nonpos (hneg hr _ (List.mem_map_of_mem hm))
      · obtain ⟨m, rfl⟩ := List.length_eq_one_iff.1 hr
        rw [i2]
        simp only [List.map_cons, List.map_nil, List.sum_cons, List.sum_nil, add_zero, and_true]
        cases i1 with
        | @cons _ t y _ c1 c2 =>
          cases c2
          exact ⟨t, c1, by ring⟩
    · rename_i ho
      split at ht
      · rename_i hl
        obtain ⟨hl, hnum⟩ := hl
        obtain ⟨m, rfl⟩ := List.length_eq_one_iff.1 hl
        have hn := hnum m (by simp)
        have x1 : E.term o [m] = ok (E.fn o (storedMon E.data m)) := by
          unfold Env.term
          rw [Env.mon_ok _ (ev m (by simp)).1 (ev m (by simp)).2 hn, storedMon_val (hc m (by simp)).2, Env.app, if_neg ho]
        have y1 : A.term E' o [m] = ok (E'.fn o v) := by
          unfold Arith.term at k1 ⊢
          rw [arith_mon_app A E' o m hn, k1, ok_bind, Env.app, if_neg ho]
        have s1 : storedTerm o E.data [m] = opVal o (storedMon E.data m) := by simp [storedTerm]
        have s2 : majorantTerm o M [m] = opMajorant o (majorantMon M m) := by simp [majorantTerm]
        simp only [List.map_cons, List.map_nil, List.sum_cons, List.sum_nil, add_zero] at j1
        rw [x1, s1, s2]
        split at ht
        · rename_i ho
          obtain ⟨rfl, hr, hq⟩ := ho
          rw [Option.some.injEq] at ht
          subst ht
          have x0 := hpos hq (storedMon E.data m) (by simp)
          obtain ⟨i1, i2⟩ := j2 hr
          have n1 : Near u (termCost [m] + monsCost I [m]) v (storedMon E.data m) := by
            cases i1 with
            | @cons _ t y _ c1 c2 =>
              cases c2
              exact ⟨t, c1, by ring⟩
          simp only [List.map_cons, List.map_nil, List.sum_cons, List.sum_nil, add_zero] at i2
          have n2 := near_sqrt h0 h1 hs.sqrt x0 n1
          have b : Real.sqrt (majorantMon M m) = |Real.sqrt (storedMon E.data m)| := by
            rw [i2, abs_of_nonneg x0, abs_of_nonneg (Real.sqrt_nonneg _)]
          refine ⟨by rw [he.sqrt]; rfl, E'.fn .sqrt v, y1, ?_, fun _ => ⟨n2, b⟩, fun _ => Real.sqrt_nonneg _, fun h => by cases h⟩
          show MajNear u _ _ (Real.sqrt (storedMon E.data m)) (Real.sqrt (majorantMon M m))
          rw [b]
          exact n2.maj h0 h1
        · split at ht
          · rename_i ho
            rw [Option.some.injEq] at ht
            subst ht
            rcases ho with rfl | rfl
            · obtain ⟨δ, d1, d2⟩ := hs.sin v
              refine ⟨by rw [he.sin]; rfl, _, y1, ?_, (fun h => by cases h), (fun h => by cases h), fun h => by cases h⟩
              rw [d2]
              exact j1.round h0 h1 (Real.abs_sin_sub_sin_le _ _) (Real.abs_sin_le_abs.trans j1.le) le_rfl d1
            · obtain ⟨δ, d1, d2⟩ := hs.cos v
              refine ⟨by rw [he.cos]; rfl, _, y1, ?_, (fun h => by cases h), (fun h => by cases h), fun h => by cases h⟩
              rw [d2]
              have b0 := (abs_nonneg _).trans j1.le
              exact j1.round h0 h1 (Real.abs_cos_sub_cos_le _ _) ((Real.abs_cos_le_one _).trans (by show 1 ≤ 1 + majorantMon M m; linarith))
                (by show majorantMon M m ≤ 1 + majorantMon M m; linarith) d1
          · cases ht
      · cases ht
  · cases ht

omit hA in
theorem DataFits.set {I : List SlotInfo} {Y X M : List ℝ} (h : DataFits u I Y X M) {s : SlotInfo} {y x B : ℝ} (hs : SlotFits u s y x B) (i : Nat) :
    DataFits u (I.set i s) (Y.set i y) (X.set i x) (M.set i B) := by
  refine ⟨by simp [h.leny], by simp [h.lenx], by simp [h.lenm], fun j => ?_⟩
  have hj := h.slot j
  simp only [List.getD_eq_getElem?_getD, List.getElem?_set, h.leny, h.lenx, h.lenm] at hj ⊢
  by_cases hij : i = j
  · subst hij
    simp only [if_true]
    split
    · exact hs
    · simpa using SlotFits.given h0 h1 (p := true) (n := true) (x := 0) (fun _ => le_rfl) fun _ => le_rfl
  · simp only [hij, if_false]
    exact hj

theorem terms_fit {o : MvOp} : ∀ {n : NMv} {E E' : Env ℝ} {I I' : List SlotInfo} {M : List ℝ} {i : Nat}, RealFns E → E'.RoundedFns u →
    DataFits u I E'.data E.data M → infoTerms o I i n = some I' → PoleFreeTerms o E.data i n →
    tempLoop o E i n = ok { E with data := storeTerms (storedTerm o) E.data i n } ∧
    ∃ Y, A.tempLoop o E' i n = ok { E' with data := Y } ∧ DataFits u I' Y (storeTerms (storedTerm o) E.data i n) (storeTerms (majorantTerm o) M i n)
  | [], E, E', I, I', M, i, he, hs, h, hi, hp => by
    simp only [infoTerms, Option.some.injEq] at hi
    subst hi
    exact ⟨rfl, E'.data, rfl, h⟩
  | t :: ts, E, E', I, I', M, i, he, hs, h, hi, hp => by
    rw [infoTerms, Option.bind_eq_some_iff] at hi
    obtain ⟨s, h2, h3⟩ := hi
    split at h3
    · rename_i hlt
      obtain ⟨k1, v, k2, k3⟩ := term_fits h0 h1 hA he hs h h2 hp.1
      obtain ⟨j1, Y, j2, j3⟩ := terms_fit (n := ts) (E := { E with data := E.data.set i (storedTerm o E.data t.mons) })
        (E' := { E' with data := E'.data.set i v }) ⟨he.sqrt, he.cos, he.sin⟩ ⟨hs.sqrt, hs.sin, hs.cos⟩ (h.set h0 h1 k3 i) h3 hp.2
      refine ⟨?_, Y, ?_, j3⟩
      · rw [tempLoop, k1, ok_bind, Env.write, if_pos (by rw [h.lenx]; exact hlt), ok_bind]
        exact j1
      · rw [Arith.tempLoop, k2, ok_bind, Env.write, if_pos (by rw [h.leny]; exact hlt), ok_bind]
        exact j2
    · cases h3

end run

/-! ## Programs -/

section program
variable {K : Type} [Field K]

/-- The temporaries, with rounding. -/
def Arith.viewTemps (A : Arith K) : Env K → List (MvOp × NMv × Nat) → Out (Env K)
  | E, [] => ok E
  | E, (o, n, id) :: ts => do
    let E ← A.tempLoop o E id n
    Arith.viewTemps A E ts

/-- One result, with rounding. -/
def Arith.viewEntity (A : Arith K) (E : Env K) (o : MvOp) (n : NMv) (q : Rat32) : Out (Entity K) := do
  let vs ← mapO (fun t => A.term E o t.mons) n
  return ⟨n.map (·.element), vs.map (A.scaleBy q.num q.den)⟩

theorem arith_viewTemps_eq (A : Arith K) : ∀ (ts : List (Mv × Nat)) (vs : List (MvOp × NMv × Nat)) (E : Env K),
    mapO (fun p : Mv × Nat => do
      let n ← p.1.view
      return (p.1.op, n, p.2)) ts = ok vs → A.finalizeTemps none E ts = A.viewTemps E vs
  | [], vs, E, h => by
    simp only [mapO, ok_inj] at h
    subst h
    rfl
  | (a, id) :: ts, vs, E, h => by
    simp only [mapO, bind_eq_ok, pure_eq, ok_inj] at h
    obtain ⟨_, ⟨n, h1, rfl⟩, ys, h2, rfl⟩ := h
    rw [Arith.finalizeTemps, Arith.viewTemps]
    simp only [toOutput, ok_bind, Arith.computeTemp, h1]
    congr 1
    funext E'
    exact arith_viewTemps_eq A ts ys E' h2

theorem arith_run_viewed (A : Arith K) (m : Metric) (E : Env K) (args : List (Arg K)) {c : Compiled} {ts : List (MvOp × NMv × Nat)} {o : MvOp}
    {n : NMv} {k : Nat} {q : Rat32} (h : c.viewed = ok ⟨ts, [(o, n)], k, q⟩) :
    A.runCompiled m false E args c = (do
      let data ← fill (List.replicate (argsSize args + k - argsSize args) 0) 0 (args.map fun a => a.data)
      let E ← A.viewTemps { E with data := data } ts
      let x ← A.viewEntity E o n q
      return [x]) := by
  simp only [Compiled.viewed, bind_eq_ok, pure_eq, ok_inj] at h
  obtain ⟨vs, h1, rs, h2, h3⟩ := h
  injection h3 with h4 h5 h6 h7
  subst h4 h6 h7
  obtain ⟨a, ha, hv⟩ : ∃ a, c.state.args = [a] ∧ a.op = o ∧ a.view = ok n := by
    match hc : c.state.args with
    | [] => rw [hc] at h2; simp [mapO, ok_inj] at h2; rw [← h2] at h5; cases h5
    | [a] =>
      rw [hc] at h2
      simp only [mapO, bind_eq_ok, pure_eq, ok_inj] at h2
      obtain ⟨_, ⟨n', h8, rfl⟩, ys, rfl, rfl⟩ := h2
      injection h5 with h9
      injection h9 with h10 h11
      subst h10 h11
      exact ⟨a, rfl, rfl, h8⟩
    | a :: b :: l =>
      rw [hc] at h2
      simp only [mapO, bind_eq_ok, pure_eq, ok_inj] at h2
      obtain ⟨_, ⟨n', h8, rfl⟩, ys, ⟨_, ⟨n'', h9, rfl⟩, zs, h10, rfl⟩, rfl⟩ := h2
      cases h5
  obtain ⟨rfl, hv⟩ := hv
  unfold Arith.runCompiled
  rw [ha]
  simp only [nullDim, Bool.false_eq_true, if_false, Arith.finishCompute, Arith.finalizeEntity, toOutput, ok_bind, Arith.computeEntity, hv,
    Arith.viewEntity, bind_assoc, pure_bind]
  congr 1
  funext data
  rw [arith_viewTemps_eq A _ _ _ h1]

end program

section bound
variable {u : ℝ} (h0 : 0 ≤ u) (h1 : u < 1) {A : Arith ℝ} (hA : A.Standard u)
include h0 h1 hA

theorem temps_fit : ∀ {ts : List (MvOp × NMv × Nat)} {E E' : Env ℝ} {I I' : List SlotInfo} {M : List ℝ}, RealFns E → E'.RoundedFns u →
    DataFits u I E'.data E.data M → infoTemps I ts = some I' → PoleFreeTemps E.data ts →
    viewTemps E ts = ok { E with data := storeTemps storedTerm E.data ts } ∧
    ∃ Y, A.viewTemps E' ts = ok { E' with data := Y } ∧ DataFits u I' Y (storeTemps storedTerm E.data ts) (storeTemps majorantTerm M ts)
  | [], E, E', I, I', M, he, hs, h, hi, hp => by
    simp only [infoTemps, Option.some.injEq] at hi
    subst hi
    exact ⟨rfl, E'.data, rfl, h⟩
  | (o, n, id) :: ts, E, E', I, I', M, he, hs, h, hi, hp => by
    rw [infoTemps, Option.bind_eq_some_iff] at hi
    obtain ⟨J, h2, h3⟩ := hi
    obtain ⟨k1, Y, k2, k3⟩ := terms_fit h0 h1 hA he hs h h2 hp.1
    obtain ⟨j1, Z, j2, j3⟩ := temps_fit (ts := ts) (E := { E with data := storeTerms (storedTerm o) E.data id n }) (E' := { E' with data := Y })
      ⟨he.sqrt, he.cos, he.sin⟩ ⟨hs.sqrt, hs.sin, hs.cos⟩ k3 h3 hp.2
    refine ⟨?_, Z, ?_, j3⟩
    · rw [Gal.viewTemps, k1, ok_bind]
      exact j1
    · rw [Arith.viewTemps, k2, ok_bind]
      exact j2

omit hA in
theorem startData_fits (args : List (Arg ℝ)) (size : Nat) :
    DataFits u ((startData args size).map fun _ => .given false false) (startData args size) (startData args size) ((startData args size).map fun x => |x|) := by
  refine ⟨by simp, by simp, by simp, fun j => ?_⟩
  by_cases hj : j < (startData args size).length
  · rw [List.getD_eq_getElem _ _ (by simpa using hj), List.getD_eq_getElem _ _ hj, List.getD_eq_getElem _ _ (by simpa using hj), List.getElem_map,
      List.getElem_map]
    exact SlotFits.given h0 h1 (fun h => by cases h) fun h => by cases h
  · rw [List.getD_eq_default _ _ (by simpa using hj), List.getD_eq_default _ _ (by simpa using hj), List.getD_eq_default _ _ (by simpa using hj)]
    simpa using SlotFits.given h0 h1 (p := true) (n := true) (x := 0) (fun _ => le_rfl) fun _ => le_rfl

/-- `C57_temps` for expressions. -/
theorem C57_temps_expr {L : Type} (m : Metric) {E E' : Env ℝ} (he : RealFns E) (hs : E'.RoundedFns u) {args : List (Arg ℝ)} {args' : List (Arg L)}
    (ht : args.map (fun a => (a.ie, a.data.length)) = args'.map fun a => (a.ie, a.data.length)) {cap : Nat} {x : Out Rpne}
    {ts : List (MvOp × NMv × Nat)} {n : NMv} {k : Nat} {q : Rat32} (h : viewedExpr m cap args' x = some ⟨ts, [(.id, n)], k, q⟩) (hk : argsSize args ≤ k) (hq : q.num ≠ 0 ∧ 0 < q.den)
    {I : List SlotInfo} (hI : infoTemps (List.replicate k (.given false false)) ts = some I) {ss : List SlotInfo}
    (hn : n.mapM (fun t => termInfo I .id t.mons) = some ss) (hp : PoleFreeTemps (startData args k) ts)
    (hp' : ∀ t ∈ n, PoleFree (storeTemps storedTerm (startData args k) ts) t.mons) :
    ∃ xs vs, (x >>= computeExpr m false cap E args >>= single) = ok ⟨n.map (·.element), xs⟩ ∧
      (x >>= A.computeExpr m false cap E' args >>= single) = ok ⟨n.map (·.element), vs⟩ ∧ xs.length = n.length ∧ vs.length = n.length ∧
      ∀ i t s, n[i]? = some t → ss[i]? = some s →
        xs.getD i 0 = ratVal ℝ q * storedTerm .id (storeTemps storedTerm (startData args k) ts) t.mons ∧
        |vs.getD i 0 - xs.getD i 0| ≤ gam u (s.cost + factorCost q) *
          (|ratVal ℝ q| * majorantTerm .id (storeTemps majorantTerm ((startData args k).map fun x => |x|) ts) t.mons) := by
  have hlen : (args.map fun a => a.data).flatten.length = argsSize args := by
    rw [List.length_flatten, List.map_map]
    rfl
  have hsl : (startData args k).length = k := by
    unfold startData
    rw [List.length_append, List.length_replicate, hlen]
    omega
  unfold viewedExpr at h
  split at h
  · rename_i w hv
    rw [Option.some.injEq] at h
    subst h
    have hv' : (do
      let e ← x
      let c ← compileExpr m false cap args' e
      c.viewed) = ok ⟨ts, [(.id, n)], k, q⟩ := hv
    rw [bind_eq_ok] at hv'
    obtain ⟨e, hb, hv'⟩ := hv'
    have hx := compute_viewed m E ht hv'
    rw [bind_eq_ok] at hv'
    obtain ⟨c, hc, hv'⟩ := hv'
    rw [← compile_types ht] at hc
    have hfill : fill (List.replicate (argsSize args + k - argsSize args) 0) 0 (args.map fun a => a.data) = ok (startData args k) := by
      rw [C41_fill _ _ (by rw [hlen, List.length_replicate]; omega)]
      unfold startData
      rw [List.drop_replicate]
      congr 4
      omega
    have hfit := startData_fits (u := u) h0 h1 args k
    have hI' : (startData args k).map (fun _ => SlotInfo.given false false) = List.replicate k (.given false false) := by
      rw [List.map_const', hsl]
    rw [hI'] at hfit
    obtain ⟨r1, Y, r2, r3⟩ := temps_fit h0 h1 hA (E := { E with data := startData args k }) (E' := { E' with data := startData args k }) ⟨he.sqrt, he.cos, he.sin⟩ ⟨hs.sqrt, hs.sin, hs.cos⟩ hfit hI hp
    have key : ∀ {n : NMv} {ss : List SlotInfo}, List.Forall₂ (fun t s => termInfo I .id t.mons = some s) n ss →
        (∀ t ∈ n, PoleFree (storeTemps storedTerm (startData args k) ts) t.mons) →
        mapO (fun t : NTerm => ({ E with data := storeTemps storedTerm (startData args k) ts } : Env ℝ).term .id t.mons) n =
          ok (n.map fun t => storedTerm .id (storeTemps storedTerm (startData args k) ts) t.mons) ∧
        ∃ vs, mapO (fun t : NTerm => A.term ({ E' with data := Y } : Env ℝ) .id t.mons) n = ok vs ∧ vs.length = n.length ∧
          ∀ i t s, n[i]? = some t → ss[i]? = some s → SlotFits u s (vs.getD i 0)
            (storedTerm .id (storeTemps storedTerm (startData args k) ts) t.mons)
            (majorantTerm .id (storeTemps majorantTerm ((startData args k).map fun x => |x|) ts) t.mons) := by
      intro n ss hns
      induction hns with
      | nil => exact fun _ => ⟨rfl, [], rfl, rfl, fun i t s h => by simp at h⟩
      | @cons t s n ss a _ ih =>
        intro hp
        obtain ⟨i1, vs, i2, i3, i4⟩ := ih fun t ht => hp t (by simp [ht])
        obtain ⟨j1, v, j2, j3⟩ := term_fits h0 h1 hA (E := { E with data := storeTemps storedTerm (startData args k) ts })
          (E' := { E' with data := Y }) ⟨he.sqrt, he.cos, he.sin⟩ ⟨hs.sqrt, hs.sin, hs.cos⟩ r3 a (hp t (by simp))
        refine ⟨?_, v :: vs, ?_, by simp [i3], fun i t' s' ht' hs' => ?_⟩
        · rw [mapO, j1, ok_bind, i1, ok_bind]
          rfl
        · rw [mapO, j2, ok_bind, i2, ok_bind]
          rfl
        · cases i with
          | zero =>
            simp only [List.getElem?_cons_zero, Option.some.injEq] at ht' hs'
            subst ht' hs'
            exact j3
          | succ i => exact i4 i t' s' ht' hs'
    obtain ⟨k1, vs, k2, k3, k4⟩ := key (mapM_some hn) hp'
    refine ⟨(n.map fun t => storedTerm .id (storeTemps storedTerm (startData args k) ts) t.mons).map (scaleBy q.num q.den),
      vs.map (A.scaleBy q.num q.den), ?_, ?_, by simp, by simpa using k3, fun i t s hi hsi => ?_⟩
    · rw [hb, ok_bind, hx, hfill, ok_bind, r1, ok_bind, Gal.viewEntity, k1, ok_bind]
      rfl
    · rw [hb, ok_bind]
      unfold Arith.computeExpr
      rw [hc, ok_bind, arith_run_viewed A m E' args hv', hfill, ok_bind, r2, ok_bind, Arith.viewEntity, k2, ok_bind]
      rfl
    · have hin : i < n.length := (List.getElem?_eq_some_iff.1 hi).1
      have hie : n[i] = t := (List.getElem?_eq_some_iff.1 hi).2
      have hf := (k4 i t s hi hsi).near
      have hsc := near_scaleBy h0 h1 hA hq.1 hq.2 (Near.rfl' (u := u) (vs.getD i 0)).sum
      have e1 : ((n.map fun t => storedTerm .id (storeTemps storedTerm (startData args k) ts) t.mons).map (scaleBy q.num q.den)).getD i 0 =
          ratVal ℝ q * storedTerm .id (storeTemps storedTerm (startData args k) ts) t.mons := by
        rw [List.getD_eq_getElem _ _ (by simpa using hin), List.getElem_map, List.getElem_map, hie, scaleBy_eq hq.1 hq.2]
        rfl
      have e2 : (vs.map (A.scaleBy q.num q.den)).getD i 0 = A.scaleBy q.num q.den (vs.getD i 0) := by
        rw [List.getD_eq_getElem _ _ (by simpa [k3] using hin), List.getElem_map, List.getD_eq_getElem _ _ (by rw [k3]; exact hin)]
      rw [e1, e2]
      refine ⟨rfl, ?_⟩
      obtain ⟨t', c1, c2⟩ : Near u (factorCost q) (A.scaleBy q.num q.den (vs.getD i 0)) (ratVal ℝ q * vs.getD i 0) := by
        simp only [Nat.zero_add, List.map_cons, List.map_nil] at hsc
        generalize A.scaleBy q.num q.den (vs.getD i 0) = z at hsc ⊢
        cases hsc with
        | @cons _ t y _ c1 c2 =>
          cases c2
          exact ⟨t, c1, by unfold ratVal; ring⟩
      have r := ((Near.rfl' (u := u) (ratVal ℝ q)).maj h0 h1).mul h0 h1 (hf.mul h0 h1 (c1.maj h0 h1))
      rw [c2, mul_assoc]
      have := r.err
      rw [mul_one, mul_one, Nat.zero_add] at this
      exact this
  · cases h

/-- **C57 (programs with temporaries)**: for a lambda that compiles to temporaries, with quotients, square roots, sines and cosines, each component that `compute` returns is
off by at most `gam u k` times its majorant, the value of the same program with absolute values, where `k` counts roundings.  What is checked at compile
time (`infoTemps`, `termInfo`) is that divisors and arguments of square roots are sums without cancellation; at run time no divisor may be zero. -/
theorem C57_temps {L : Type} (m : Metric) {E E' : Env ℝ} (he : RealFns E) (hs : E'.RoundedFns u) {args : List (Arg ℝ)} {args' : List (Arg L)}
    (ht : args.map (fun a => (a.ie, a.data.length)) = args'.map fun a => (a.ie, a.data.length)) {f : Lam} {ts : List (MvOp × NMv × Nat)} {n : NMv}
    {k : Nat} {q : Rat32} (h : f.viewedProgram m args' = some ⟨ts, [(.id, n)], k, q⟩) (hk : argsSize args ≤ k) (hq : q.num ≠ 0 ∧ 0 < q.den)
    {I : List SlotInfo} (hI : infoTemps (List.replicate k (.given false false)) ts = some I) {ss : List SlotInfo}
    (hn : n.mapM (fun t => termInfo I .id t.mons) = some ss) (hp : PoleFreeTemps (startData args k) ts)
    (hp' : ∀ t ∈ n, PoleFree (storeTemps storedTerm (startData args k) ts) t.mons) :
    ∃ xs vs, (f.compute m false E args >>= single) = ok ⟨n.map (·.element), xs⟩ ∧
      (A.compute m false E' args f >>= single) = ok ⟨n.map (·.element), vs⟩ ∧ xs.length = n.length ∧ vs.length = n.length ∧
      ∀ i t s, n[i]? = some t → ss[i]? = some s →
        xs.getD i 0 = ratVal ℝ q * storedTerm .id (storeTemps storedTerm (startData args k) ts) t.mons ∧
        |vs.getD i 0 - xs.getD i 0| ≤ gam u (s.cost + factorCost q) *
          (|ratVal ℝ q| * majorantTerm .id (storeTemps majorantTerm ((startData args k).map fun x => |x|) ts) t.mons) := by
  have hoff : argOffset args' = argOffset args := by
    funext k
    have := congrArg (fun l => ((l.take k).map Prod.snd).sum) ht
    simp only [← List.map_take, List.map_map] at this
    exact this.symm
  unfold Lam.viewedProgram at h
  rw [hoff] at h
  exact C57_temps_expr h0 h1 hA m he hs ht h hk hq hI hn hp hp'

end bound

end Gal
