import Verif.Props.Sparse

/-!
# C49: where the returned type has a component that is always zero
-/

namespace Gal

open Out

/-- `(a b) (a b) - (b a) (b a)`. -/
def squaresT : Tree := sumT 2147483648 4224492895 4224492895 (-1)
  (gpT 4224492895 (gpT 604752281 (argT 1) (argT 0)) (gpT 604752281 (argT 1) (argT 0)))
  (gpT 4224492895 (gpT 1131463226 (argT 0) (argT 1)) (gpT 1131463226 (argT 0) (argT 1)))

theorem squaresT_value {V : Type} [AddCommGroup V] [Module ℚ V] (I : Interp V) :
    squaresT.val I = (-1 : ℚ) • I.gp (I.gp (I.arg 1 1) (I.arg 0 0)) (I.gp (I.arg 1 1) (I.arg 0 0)) +
      I.gp (I.gp (I.arg 0 0) (I.arg 1 1)) (I.gp (I.arg 0 0) (I.arg 1 1)) := by
  simp [squaresT, sumT, gpT, argT, Tree.val, Forest.vals, Rat32.toQ, Op.gp, Op.sum]

theorem mayBe_scalars {w : Nat → CliffordAlgebra (diagForm ℚ 1 (Metric.sq ⟨1, 0, 0⟩))} {x y : ℚ}
    (h : MayBe (K := ℚ) ⟨1, 0, 0⟩ [scalarArg x, scalarArg y] w) : ∃ a b : ℚ, w 0 = algebraMap ℚ _ a ∧ w 1 = algebraMap ℚ _ b := by
  obtain ⟨args', h1, h2⟩ := h
  have key : ∀ (k : Nat) (v : ℚ), k < 2 → [scalarArg x, scalarArg y][k]? = some (scalarArg v) → ∃ a : ℚ, w k = algebraMap ℚ _ a := by
    intro k v hk e
    obtain ⟨a0, g0, g1, g2⟩ := h1.get e
    have g3 := h2 k a0 g0
    rw [h1.offset] at g3
    obtain ⟨c, hc⟩ := List.length_eq_one_iff.1 (g2.trans (show (scalarArg v).data.length = 1 from rfl))
    have e0 : a0 = scalarArg c := by
      cases a0
      dsimp only at g1 hc
      subst g1 hc
      rfl
    rw [e0] at g3
    have ho : argOffset [scalarArg x, scalarArg y] k + 1 ≤ 2 ^ 32 := by
      match k with
      | 0 => show 0 + 1 ≤ _; decide
      | 1 => show 1 + 1 ≤ _; decide
      | k + 2 => omega
    exact ⟨c, denotes_unique g3 (scalarArg_denotes _ c ho)⟩
  obtain ⟨a, ha⟩ := key 0 x (by decide) rfl
  obtain ⟨b, hb⟩ := key 1 y (by decide) rfl
  exact ⟨a, b, ha, hb⟩

/-- **C49 fails when operations are shared**: `compute([](auto a, auto b) { return a * b * (a * b) - b * a * (b * a); }, …)` with scalars is zero
whatever their values, but the two products become temporaries with coefficients of their own, so the code does not see that they are equal:
it returns a scalar component, here 0, where the type should have none. -/
theorem C49_shared_false : ∃ (e : Rpne) (D : CliffordAlgebra (diagForm ℚ 1 (Metric.sq ⟨1, 0, 0⟩)) →ₗ[ℚ] CliffordAlgebra (diagForm ℚ 1 (Metric.sq ⟨1, 0, 0⟩)))
    (w : Nat → CliffordAlgebra (diagForm ℚ 1 (Metric.sq ⟨1, 0, 0⟩))),
    IsDual ℚ 1 (Metric.sq ⟨1, 0, 0⟩) D ∧
    (∀ (k : Nat) (a : Arg ℚ), [scalarArg 3, scalarArg 5][k]? = some a →
      a.Denotes 1 (Metric.sq ⟨1, 0, 0⟩) (argOffset [scalarArg 3, scalarArg 5] k) (w k)) ∧
    (do
      let ab ← gpExpr (entityExpr 0 0) (entityExpr 1 1)
      let ba ← gpExpr (entityExpr 1 1) (entityExpr 0 0)
      let s ← gpExpr ab ab
      let t ← gpExpr ba ba
      subExpr s t) = ok e ∧
    (∀ named w' v', MayBe (K := ℚ) ⟨1, 0, 0⟩ [scalarArg 3, scalarArg 5] w' →
      Means (cliffInterp ℚ 1 (Metric.sq ⟨1, 0, 0⟩) named D w') e v' → v' = 0) ∧
    computeExpr ⟨1, 0, 0⟩ false 17 numEnv [scalarArg 3, scalarArg 5] e = ok [⟨[0], [0]⟩] := by
  obtain ⟨D, hD⟩ := exists_isDual ℚ 1 (by decide) (Metric.sq ⟨1, 0, 0⟩)
  refine ⟨⟨squaresT.post, Rat32.one⟩, D, fun k => algebraMap ℚ _ (if k = 0 then 3 else 5), hD, ?_, by decide +kernel, ?_,
    scalarResult_eq (by decide +kernel)⟩
  · intro k a hk
    match k with
    | 0 => simp at hk; subst hk; exact scalarArg_denotes _ 3 (off := 0) (by decide)
    | 1 => simp at hk; subst hk; exact scalarArg_denotes _ 5 (off := 1) (by decide)
    | k + 2 => simp at hk
  · intro named w' v' h1 h2
    obtain ⟨a, b, ha, hb⟩ := mayBe_scalars h1
    have hg : squaresT.Good := sumT_good (by decide) (by decide) (gpT_good (gpT_good (argT_good _) (argT_good _)) (gpT_good (argT_good _) (argT_good _)))
      (gpT_good (gpT_good (argT_good _) (argT_good _)) (gpT_good (argT_good _) (argT_good _)))
    have h3 : Means (cliffInterp ℚ 1 (Metric.sq ⟨1, 0, 0⟩) named D w') ⟨squaresT.post, Rat32.one⟩
        (Rat32.one.toQ • squaresT.val (cliffInterp ℚ 1 (Metric.sq ⟨1, 0, 0⟩) named D w')) :=
      Or.inr ⟨squaresT, hg, rfl, Rat32.one_wf, by show (1 : Int) ≠ 0; decide, rfl⟩
    rw [means_unique h2 h3, one_toQ_smul, squaresT_value]
    show (-1 : ℚ) • (w' 1 * w' 0 * (w' 1 * w' 0)) + w' 0 * w' 1 * (w' 0 * w' 1) = 0
    have hc : ∀ x y : CliffordAlgebra (diagForm ℚ 1 (Metric.sq ⟨1, 0, 0⟩)), x = algebraMap ℚ _ a → y = algebraMap ℚ _ b →
        (-1 : ℚ) • (y * x * (y * x)) + x * y * (x * y) = 0 := by
      rintro x y rfl rfl
      rw [← map_mul, ← map_mul, ← map_mul, ← map_mul, mul_comm a b, neg_one_smul, neg_add_cancel]
    exact hc _ _ ha hb

end Gal
