import Verif.Props.QuotTree
import Verif.Props.QuotFalse

/-!
# Property C48: a vector divided by its norm
-/

namespace Gal

open Out

variable {K : Type} [Field K]

/-- What is determined at compile time depends on the types of the arguments only, also across number types. -/
theorem compile_types {K L : Type} {args : List (Arg K)} {args' : List (Arg L)}
    (h : args.map (fun a => (a.ie, a.data.length)) = args'.map fun a => (a.ie, a.data.length)) (m : Metric) (null : Bool) (cap : Nat) (e : Rpne) :
    compileExpr m null cap args e = compileExpr m null cap args' e := by
  have h1 : argMv args = argMv args' := by
    funext k id
    have := congrArg (fun l => (l[k]?).map Prod.fst) h
    simp only [List.getElem?_map, Option.map_map] at this
    unfold argMv
    cases ha : args[k]? <;> cases hb : args'[k]? <;> rw [ha, hb] at this <;> simp at this ⊢
    rw [this]
  have h2 : argsSize args = argsSize args' := by
    have := congrArg (fun l => (l.map Prod.snd).sum) h
    simp only [List.map_map] at this
    exact this
  have h3 : args.isEmpty = args'.isEmpty := by
    have := congrArg List.isEmpty h
    rwa [List.isEmpty_map, List.isEmpty_map] at this
  unfold compileExpr
  rw [h1, h2, h3]

/-- The vector with coefficients `x`, `y`, `z`. -/
noncomputable def vec3 (x y z : K) : CliffordAlgebra (diagForm K 3 (Metric.sq ⟨3, 0, 0⟩)) :=
  pairsVal (cliffBlade K 3 (Metric.sq ⟨3, 0, 0⟩)) [1, 2, 4] [x, y, z]

theorem vec3_sq (x y z : K) : vec3 x y z * vec3 x y z = (x * x + y * y + z * z) • 1 := by
  have hb : ∀ i : Fin 3, cliffBlade K 3 (Metric.sq ⟨3, 0, 0⟩) (2 ^ i.val) = CliffordAlgebra.ι _ (Pi.single i (1 : K)) := by
    intro i
    rw [cliffBlade, bladeOf_two_pow, if_pos i.isLt, cliffGen, dif_pos i.isLt]
  have h : vec3 x y z = CliffordAlgebra.ι _ ![x, y, z] := by
    have e : (![x, y, z] : Fin 3 → K) = x • Pi.single 0 1 + y • Pi.single 1 1 + z • Pi.single 2 1 := by
      funext j
      fin_cases j <;> simp
    rw [e, map_add, map_add, map_smul, map_smul, map_smul, ← hb, ← hb, ← hb]
    simp [vec3, pairsVal, add_assoc]
  rw [h, CliffordAlgebra.ι_sq_scalar, Algebra.algebraMap_eq_smul_one]
  congr 1
  rw [diagForm, QuadraticMap.weightedSumSquares_apply, Fin.sum_univ_three]
  have h0 : ∀ i : Fin 3, Metric.sq ⟨3, 0, 0⟩ i = 1 := by decide
  simp only [h0]
  simp

/-- `a / sqrt(a a)`. -/
def normT : Tree := .bin ⟨Op.div, 2825727449, 0, ⟨1, 1⟩⟩ (argT 0) (.un ⟨Op.sqrt, 940716919, 0, ⟨1, 1⟩⟩ (gpT 4224492895 (argT 0) (argT 0)))

theorem normT_good : normT.Good := by
  have hw : Rat32.WF ⟨1, 1⟩ := ⟨by show InI32 1; decide, by show InI32 1; decide, by show (0 : Int) < 1; decide⟩
  rw [normT, Tree.Good, Tree.Good, gpT, Tree.Good]
  exact ⟨Or.inr (Or.inr (Or.inr rfl)), fun _ => hw, argT_good _, Or.inr (Or.inr (Or.inr (Or.inr (Or.inl rfl)))), fun _ => hw, Or.inl rfl,
    fun h => absurd h (by decide), argT_good _, argT_good _⟩

theorem normT_div {p : Nat} {n : Node} {l r : Tree} (h : normT.At p (.bin n l r)) (hd : n.o = Op.div) :
    p = 0 ∧ l = argT 0 ∧ r = .un ⟨Op.sqrt, 940716919, 0, ⟨1, 1⟩⟩ (gpT 4224492895 (argT 0) (argT 0)) := by
  unfold normT gpT argT at h
  simp only [Tree.At] at h
  rcases h with ⟨rfl, h⟩ | h | ⟨-, h | ⟨-, h⟩ | h⟩
  · injection h with h1 h2 h3
    exact ⟨rfl, h2, h3⟩
  · simp at h
  · simp at h
  · injection h with h1 h2 h3
    subst h1
    cases hd
  · simp at h

theorem normT_fn {p : Nat} {n : Node} {t : Tree} (h : normT.At p (.un n t)) :
    p = 1 ∧ n = ⟨Op.sqrt, 940716919, 0, ⟨1, 1⟩⟩ ∧ t = gpT 4224492895 (argT 0) (argT 0) := by
  unfold normT gpT argT at h
  simp only [Tree.At] at h
  rcases h with ⟨-, h⟩ | h | ⟨h1, ⟨h2, h⟩ | ⟨-, h⟩ | h⟩
  · cases h
  · simp at h
  · injection h with h3 h4
    refine ⟨?_, h3, h4⟩
    simp [Tree.post] at h1 h2
    omega
  · cases h
  · simp at h

theorem vec3_denotes [CharZero K] (x y z : K) : (⟨[1, 2, 4], [x, y, z]⟩ : Entity K).toArg.Denotes 3 (Metric.sq ⟨3, 0, 0⟩) 0 (vec3 x y z) :=
  C45_entity (dim := 3) (Metric.sq ⟨3, 0, 0⟩) (x := ⟨[1, 2, 4], [x, y, z]⟩) (off := 0) (show [1, 2, 4].Pairwise (· < ·) by decide)
    (show ∀ e ∈ [1, 2, 4], e < 2 ^ 3 by decide) rfl (show 0 + [1, 2, 4].length ≤ 2 ^ 32 by decide)

/-- The arguments of the same type. -/
theorem mayBe_vec3 [CharZero K] {x y z : K} {w : Nat → CliffordAlgebra (diagForm K 3 (Metric.sq ⟨3, 0, 0⟩))} :
    MayBe ⟨3, 0, 0⟩ [(⟨[1, 2, 4], [x, y, z]⟩ : Entity K).toArg] w ↔ ∃ a b c : K, w 0 = vec3 a b c := by
  have key : ∀ a b c : K, (⟨[1, 2, 4], [a, b, c]⟩ : Entity K).toArg.Denotes 3 (Metric.sq ⟨3, 0, 0⟩) 0 (vec3 a b c) := fun a b c =>
    vec3_denotes a b c
  constructor
  · rintro ⟨args', h1, h2⟩
    obtain ⟨a0, g0, g1, g2⟩ := h1.get (k := 0) (a := (⟨[1, 2, 4], [x, y, z]⟩ : Entity K).toArg) rfl
    have g3 := h2 0 a0 g0
    obtain ⟨a, b, c, hd⟩ := List.length_eq_three.1 (g2.trans (show _ = 3 from rfl))
    have e0 : a0 = (⟨[1, 2, 4], [a, b, c]⟩ : Entity K).toArg := by
      cases a0
      dsimp only at g1 hd
      subst g1 hd
      rfl
    rw [e0] at g3
    exact ⟨a, b, c, denotes_unique g3 (key a b c)⟩
  · rintro ⟨a, b, c, hw⟩
    refine ⟨[(⟨[1, 2, 4], [a, b, c]⟩ : Entity K).toArg], rfl, fun k a' hk => ?_⟩
    match k with
    | 0 =>
      simp at hk
      subst hk
      rw [hw]
      exact key a b c
    | k + 1 => simp at hk

/-- **C48 for the norm of a vector**: `compute([](auto a) { return a / sqrt(a * a); }, vector{x, y, z})` in three dimensions compiles, is never
undefined and returns the vector divided by the square root of `x² + y² + z²`, for all coefficients whose square root is not zero. -/
theorem C48_normalize [CharZero K] (E : Env K) (x y z : K) (h : E.named Op.sqrt (x * x + y * y + z * z) ≠ 0) :
    ∃ s r e c, gpExpr (entityExpr 0 0) (entityExpr 0 0) = ok s ∧ funExpr Op.sqrt s = ok r ∧ divExpr (entityExpr 0 0) r = ok e ∧
      compileExpr ⟨3, 0, 0⟩ false e.nodes.length [(⟨[1, 2, 4], [x, y, z]⟩ : Entity K).toArg] e = ok c ∧
      ∃ u : Entity K, runCompiled ⟨3, 0, 0⟩ false E [(⟨[1, 2, 4], [x, y, z]⟩ : Entity K).toArg] c = ok [u] ∧
        u.Denotes 3 (Metric.sq ⟨3, 0, 0⟩) ((E.named Op.sqrt (x * x + y * y + z * z))⁻¹ • vec3 x y z) := by
  obtain ⟨c, hc, u, hu⟩ := Out.chain_of_isOk
    (x := compileExpr ⟨3, 0, 0⟩ false 6 [(⟨[1, 2, 4], [0, 0, 0]⟩ : Entity ℚ).toArg] ⟨normT.post, Rat32.one⟩)
    (f := fun c => if c.state.nextId ≤ indConstantStart then ok () else .ub) (by decide +kernel)
  have hi : c.state.nextId ≤ indConstantStart := by
    split at hu
    · assumption
    · cases hu
  rw [compile_types (args' := [(⟨[1, 2, 4], [x, y, z]⟩ : Entity K).toArg]) (by rfl)] at hc
  obtain ⟨D, hD⟩ := exists_isDual K 3 (by decide) (Metric.sq ⟨3, 0, 0⟩)
  refine ⟨⟨[⟨Op.id, 0, 0, ⟨0, 0⟩⟩, ⟨Op.id, 0, 0, ⟨0, 0⟩⟩, ⟨Op.gp, 4224492895, 0, ⟨0, 0⟩⟩], Rat32.one⟩,
    ⟨[⟨Op.id, 0, 0, ⟨0, 0⟩⟩, ⟨Op.id, 0, 0, ⟨0, 0⟩⟩, ⟨Op.gp, 4224492895, 0, ⟨0, 0⟩⟩, ⟨Op.sqrt, 940716919, 0, ⟨1, 1⟩⟩], Rat32.one⟩,
    ⟨normT.post, Rat32.one⟩, c, by decide +kernel, by decide +kernel, by decide +kernel, hc, ?_⟩
  have hval : ∀ I : Interp (CliffordAlgebra (diagForm K 3 (Metric.sq ⟨3, 0, 0⟩))),
      (gpT 4224492895 (argT 0) (argT 0)).val I = I.gp (I.arg 0 0) (I.arg 0 0) := by
    intro I
    simp [gpT, argT, Tree.val, Op.gp]
  have hfn : ∀ I : Interp (CliffordAlgebra (diagForm K 3 (Metric.sq ⟨3, 0, 0⟩))),
      (Tree.un ⟨Op.sqrt, 940716919, 0, ⟨1, 1⟩⟩ (gpT 4224492895 (argT 0) (argT 0))).val I = I.fn Op.sqrt (I.gp (I.arg 0 0) (I.arg 0 0)) := by
    intro I
    rw [← hval, Tree.val]
    simp [Rat32.toQ, Op.rev, Op.pd, Op.comp, Op.grd, Op.sqrt]
  have hq : ∀ I : Interp (CliffordAlgebra (diagForm K 3 (Metric.sq ⟨3, 0, 0⟩))),
      normT.val I = I.quot (I.arg 0 0) (I.fn Op.sqrt (I.gp (I.arg 0 0) (I.arg 0 0))) := by
    intro I
    rw [← hfn, normT, Tree.val]
    simp [Rat32.toQ, Op.gp, Op.lc, Op.sip, Op.div, argT, Tree.val]
  have hs : (fullInterp K 3 (Metric.sq ⟨3, 0, 0⟩) (fun k => E.consts.getD k 0) D (fun _ => vec3 x y z) E.named).fn Op.sqrt
      ((fullInterp K 3 (Metric.sq ⟨3, 0, 0⟩) (fun k => E.consts.getD k 0) D (fun _ => vec3 x y z) E.named).gp (vec3 x y z) (vec3 x y z)) =
      E.named Op.sqrt (x * x + y * y + z * z) • 1 := by
    show E.named Op.sqrt (scalarPart K 3 (Metric.sq ⟨3, 0, 0⟩) (vec3 x y z * vec3 x y z)) • 1 = _
    rw [vec3_sq, scalarPart_smul_one]
  have hv : normT.val (fullInterp K 3 (Metric.sq ⟨3, 0, 0⟩) (fun k => E.consts.getD k 0) D (fun _ => vec3 x y z) E.named) =
      (E.named Op.sqrt (x * x + y * y + z * z))⁻¹ • vec3 x y z := by
    rw [hq]
    refine Eq.trans (congrArg _ hs) ?_
    rw [← Algebra.algebraMap_eq_smul_one]
    exact quot_scalar _ _ _ _
  have fin : ∀ u : Entity K, u.Denotes 3 (Metric.sq ⟨3, 0, 0⟩) (Rat32.one.toQ • normT.val
      (fullInterp K 3 (Metric.sq ⟨3, 0, 0⟩) (fun k => E.consts.getD k 0) D (fun _ => vec3 x y z) E.named)) →
      u.Denotes 3 (Metric.sq ⟨3, 0, 0⟩) ((E.named Op.sqrt (x * x + y * y + z * z))⁻¹ • vec3 x y z) := by
    intro u hu
    rw [one_toQ_smul, hv] at hu
    exact hu
  refine (C48_tree_partial ⟨3, 0, 0⟩ (by decide) E [(⟨[1, 2, 4], [x, y, z]⟩ : Entity K).toArg] (w := fun _ => vec3 x y z) ?_ hD
    (T := normT) (q := Rat32.one) normT_good Rat32.one_wf (by show (1 : Int) ≠ 0; decide) ?_ (distinct_of_check (by decide +kernel)) ?_ ?_
    (cap := 6) (by decide) hc hi).imp fun u hu => ⟨hu.1, fin u hu.2⟩
  · intro k a hk
    match k with
    | 0 =>
      simp at hk
      subst hk
      exact vec3_denotes x y z
    | k + 1 => simp at hk
  · intro n hn
    have h1 : ∀ n ∈ normT.post, (n.o < Op.comp ∨ n.o = Op.div ∨ n.o = Op.sqrt) ∧ (n.o = Op.id → n.ex = 0 ∧ n.checksum = 0) := by decide +kernel
    obtain ⟨h2, h3⟩ := h1 n hn
    refine ⟨fun hq => plain_of_lt ?_, fun ho => ?_⟩
    · rcases h2 with h2 | h2 | h2
      · exact h2
      · exact absurd h2 hq.1
      · exact absurd (Or.inl h2) hq.2
    · obtain ⟨h4, h5⟩ := h3 ho
      rw [h4, h5]
      exact ⟨by simp, rfl⟩
  · intro p n l r ha hd
    obtain ⟨-, -, rfl⟩ := normT_div ha hd
    have := scalarPart_smul_one K 3 (Metric.sq ⟨3, 0, 0⟩) (E.named Op.sqrt (x * x + y * y + z * z))
    rw [← hs] at this
    intro h0
    exact h (this.symm.trans ((congrArg _ (hfn _).symm).trans h0))
  · refine ⟨fun p n l r ha hd => Or.inr ?_, fun p n t ha _ => ?_⟩
    · obtain ⟨rfl, rfl, rfl⟩ := normT_div ha hd
      exact ⟨Or.inr (Or.inr (Or.inl (Or.inl rfl))), .fn (Or.inl rfl), Or.inr (by
        intro n hn
        simp [gpT, argT, Tree.post] at hn
        subst hn
        simp [gpT, argT, Tree.post])⟩
    · obtain ⟨rfl, rfl, rfl⟩ := normT_fn ha
      have hnq : ∀ n ∈ (gpT 4224492895 (argT 0) (argT 0)).post, NotQuot n := by unfold NotQuot; decide
      refine ⟨by show (1 : Int) ≠ 0; decide, Or.inr ⟨Or.inr (Or.inr (Or.inr (Or.inl (Or.inl rfl)))), .exact ⟨hnq, fun named w' hw' => ?_⟩,
        by simp [gpT, argT, Tree.post], Or.inr ⟨hnq, fun _ => 0, fun _ => vec3 1 0 0, mayBe_vec3.2 ⟨1, 0, 0, rfl⟩, ?_⟩⟩⟩
      · obtain ⟨a, b, c, hw'⟩ := mayBe_vec3.1 hw'
        refine ⟨a * a + b * b + c * c, ?_⟩
        refine (hval _).trans ?_
        show w' 0 * w' 0 = _
        rw [hw']
        exact vec3_sq a b c
      · intro h0
        replace h0 : vec3 (1 : K) 0 0 * vec3 1 0 0 = 0 := (hval _).symm.trans h0
        rw [vec3_sq] at h0
        have := scalarPart_smul_one K 3 (Metric.sq ⟨3, 0, 0⟩) (1 * 1 + 0 * 0 + 0 * 0)
        rw [h0, map_zero] at this
        simp at this

/-- The hypothesis of `C48_normalize` holds for the vector `(3, 4, 12)` and the square root 13, and the result is a unit vector. -/
example : ∃ E : Env ℚ, E.named Op.sqrt (3 * 3 + 4 * 4 + 12 * 12) ≠ 0 ∧
    ((E.named Op.sqrt (3 * 3 + 4 * 4 + 12 * 12))⁻¹ • vec3 (3 : ℚ) 4 12) * ((E.named Op.sqrt (3 * 3 + 4 * 4 + 12 * 12))⁻¹ • vec3 3 4 12) = 1 := by
  refine ⟨⟨[], [], fun _ _ _ => 1, fun _ v => if v = 169 then 13 else 0⟩, ?_, ?_⟩
  all_goals rw [show (3 * 3 + 4 * 4 + 12 * 12 : ℚ) = 169 by norm_num]
  · show (if (169 : ℚ) = 169 then (13 : ℚ) else 0) ≠ 0
    norm_num
  · have : (⟨[], [], fun _ _ _ => 1, fun _ v => if v = 169 then 13 else 0⟩ : Env ℚ).named Op.sqrt 169 = 13 := by
      show (if (169 : ℚ) = 169 then (13 : ℚ) else 0) = 13
      norm_num
    rw [this, smul_mul_smul_comm, vec3_sq, smul_smul]
    norm_num

end Gal
