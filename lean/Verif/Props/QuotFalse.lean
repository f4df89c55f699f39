import Verif.Props.QuotCompute

/-!
# C48: quotients: an instance and counterexamples
-/

namespace Gal

open Out

/-- The result of a computation with one result. -/
def oneResult (x : Out (List (Entity ℚ))) : Option (List Nat × List ℚ) :=
  match x with
  | .val [z] false => some (z.elements, z.data)
  | _ => none

theorem oneResult_eq {x : Out (List (Entity ℚ))} {es : List Nat} {vs : List ℚ} (h : oneResult x = some (es, vs)) : x = ok [⟨es, vs⟩] := by
  unfold oneResult at h
  split at h
  · rename_i z
    simp only [Option.some.injEq, Prod.mk.injEq] at h
    obtain ⟨es', vs'⟩ := z
    obtain ⟨rfl, rfl⟩ := h
    rfl
  · cases h

theorem ratioT_value {V : Type} [AddCommGroup V] [Module ℚ V] (I : Interp V) :
    ratioT.val I = I.quot (I.arg 0 0) (I.arg 1 1 + I.arg 2 2) := by
  simp [ratioT, sumT, argT, Tree.val, Forest.vals, Rat32.toQ, Op.sum, Op.gp, Op.lc, Op.sip, Op.div]

theorem ratio_divisor {V : Type} [AddCommGroup V] [Module ℚ V] (I : Interp V) :
    (sumT 6 1 2 1 (argT 1) (argT 2)).val I = I.arg 1 1 + I.arg 2 2 := by
  simp [sumT, argT, Tree.val, Forest.vals, Rat32.toQ, Op.sum]

/-- In `a / (b + c)` there is one divisor. -/
theorem ratioT_at {p : Nat} {n : Node} {l r : Tree} (h : ratioT.At p (.bin n l r)) : r = sumT 6 1 2 1 (argT 1) (argT 2) := by
  unfold ratioT sumT argT at h
  simp only [Tree.At, Forest.At] at h
  rcases h with h | h | h
  · injection h.2
  · simp at h
  · simp at h

variable {K : Type} [Field K] [CharZero K]

theorem quot_scalar (n : Nat) (d : Nat → Int) {named : Nat → K} {D : CliffordAlgebra (diagForm K n d) →ₗ[K] CliffordAlgebra (diagForm K n d)}
    {w : Nat → CliffordAlgebra (diagForm K n d)} {f : Nat → K → K} (x : CliffordAlgebra (diagForm K n d)) (a : K) :
    (fullInterp K n d named D w f).quot x (algebraMap K _ a) = a⁻¹ • x := by
  show (scalarPart K n d (algebraMap K _ a))⁻¹ • x = _
  rw [Algebra.algebraMap_eq_smul_one, scalarPart_smul_one]

/-- The arguments of the instance: twice the first basis vector, 3 and 4. -/
def ratioArgs : List (Arg ℚ) := [(⟨[1], [2]⟩ : Entity ℚ).toArg, scalarArg 3, scalarArg 4]

/-- Their values. -/
noncomputable def ratioVals : Nat → CliffordAlgebra (diagForm ℚ 2 (Metric.sq ⟨2, 0, 0⟩))
  | 0 => pairsVal (K := ℚ) (cliffBlade ℚ 2 (Metric.sq ⟨2, 0, 0⟩)) [1] [2]
  | 1 => algebraMap ℚ _ 3
  | _ => algebraMap ℚ _ 4

/-- The hypotheses of `C48_compute_partial` and `C48_distinct_partial` hold for `a / (b + c)` with the vector `2 e0` and the scalars 3 and 4. -/
example : ∃ (D : CliffordAlgebra (diagForm ℚ 2 (Metric.sq ⟨2, 0, 0⟩)) →ₗ[ℚ] CliffordAlgebra (diagForm ℚ 2 (Metric.sq ⟨2, 0, 0⟩))) (c : Compiled),
    IsDual ℚ 2 (Metric.sq ⟨2, 0, 0⟩) D ∧
    (∀ (k : Nat) (a : Arg ℚ), ratioArgs[k]? = some a → a.Denotes 2 (Metric.sq ⟨2, 0, 0⟩) (argOffset ratioArgs k) (ratioVals k)) ∧
    Means (fullInterp ℚ 2 (Metric.sq ⟨2, 0, 0⟩) (fun k => numEnv.consts.getD k 0) D ratioVals numEnv.named)
      ⟨ratioT.post, Rat32.one⟩ ((7 : ℚ)⁻¹ • pairsVal (K := ℚ) (cliffBlade ℚ 2 (Metric.sq ⟨2, 0, 0⟩)) [1] [2]) ∧
    (∀ n ∈ ratioT.post, (NotQuot n → Plain 2 numEnv.consts.length n) ∧ ArgNode ratioArgs n) ∧
    (∀ T : Tree, T.Good → ratioT.post = T.post → Divisors
      (fullInterp ℚ 2 (Metric.sq ⟨2, 0, 0⟩) (fun k => numEnv.consts.getD k 0) D ratioVals numEnv.named) T) ∧
    ratioT.Distinct ∧ compileExpr ⟨2, 0, 0⟩ false 7 ratioArgs ⟨ratioT.post, Rat32.one⟩ = ok c ∧ c.state.nextId ≤ indConstantStart ∧
    (∀ r, reshape 7 ⟨ratioT.post, Rat32.one⟩ = ok r → ProgramFine ratioArgs c.state.temps numEnv.consts.length r.nodes) ∧
    c.state.temps.length = 2 := by
  obtain ⟨D, hD⟩ := exists_isDual ℚ 2 (by decide) (Metric.sq ⟨2, 0, 0⟩)
  obtain ⟨c, hc, u, hu⟩ := Out.chain_of_isOk (x := compileExpr ⟨2, 0, 0⟩ false 7 ratioArgs ⟨ratioT.post, Rat32.one⟩)
    (f := fun c => if c.state.nextId ≤ indConstantStart ∧ c.state.temps.length = 2 ∧ (c.state.temps.getD 0 (Mv.mk ⟨0, 0, 0⟩ 0 0 0 [] [] [] .id, 0)).1.szT = 1 ∧
      ((c.state.temps.getD 0 (Mv.mk ⟨0, 0, 0⟩ 0 0 0 [] [] [] .id, 0)).1.terms.getD 0 default).element = 0 then ok () else .ub) (by decide +kernel)
  have hc2 : c.state.nextId ≤ indConstantStart ∧ c.state.temps.length = 2 ∧ (c.state.temps.getD 0 (Mv.mk ⟨0, 0, 0⟩ 0 0 0 [] [] [] .id, 0)).1.szT = 1 ∧
      ((c.state.temps.getD 0 (Mv.mk ⟨0, 0, 0⟩ 0 0 0 [] [] [] .id, 0)).1.terms.getD 0 default).element = 0 := by
    split at hu
    · assumption
    · cases hu
  obtain ⟨h1, h2, h3, h4⟩ := hc2
  have hsum : ratioVals 1 + ratioVals 2 = algebraMap ℚ _ 7 := by
    show algebraMap ℚ _ 3 + algebraMap ℚ _ 4 = _
    rw [← map_add]
    norm_num
  refine ⟨D, c, hD, ?_, ?_, ?_, ?_, distinct_of_check (by decide +kernel), hc, h1, ?_, h2⟩
  · intro k a hk
    match k with
    | 0 =>
      simp [ratioArgs] at hk
      subst hk
      exact C45_entity (dim := 2) (Metric.sq ⟨2, 0, 0⟩) (x := ⟨[1], [2]⟩) (off := 0) (by decide) (by decide) rfl (by decide)
    | 1 => simp [ratioArgs] at hk; subst hk; exact scalarArg_denotes _ 3 (off := 1) (by decide)
    | 2 => simp [ratioArgs] at hk; subst hk; exact scalarArg_denotes _ 4 (off := 2) (by decide)
    | k + 3 => simp [ratioArgs] at hk
  · refine Or.inr ⟨ratioT, ratioT_good, rfl, Rat32.one_wf, by show (1 : Int) ≠ 0; decide, ?_⟩
    rw [ratioT_value]
    refine Eq.trans ?_ (one_toQ_smul _).symm
    have := quot_scalar (K := ℚ) 2 (Metric.sq ⟨2, 0, 0⟩) (named := fun k => numEnv.consts.getD k 0) (D := D) (w := ratioVals)
      (f := numEnv.named) (ratioVals 0) 7
    refine Eq.trans this.symm ?_
    rw [← hsum]
    rfl
  · intro n hn
    have h1 : ∀ n ∈ ratioT.post, (n.o < Op.comp ∨ n.o = Op.div) ∧ (n.o = Op.id → n.ex < 3 ∧ n.checksum = n.ex) := by decide +kernel
    obtain ⟨h2, h3⟩ := h1 n hn
    refine ⟨fun hq => plain_of_lt (h2.resolve_right hq.1), fun ho => ?_⟩
    obtain ⟨h4, h5⟩ := h3 ho
    refine ⟨h4, ?_⟩
    rw [h5]
    have : ∀ k, k < 3 → k = argOffset ratioArgs k := by decide
    exact this _ h4
  · intro T hT hp p n l r ha _
    obtain rfl := Tree.post_inj ratioT_good.shape hT.shape hp
    rw [ratioT_at ha]
    have : (sumT 6 1 2 1 (argT 1) (argT 2)).val (fullInterp ℚ 2 (Metric.sq ⟨2, 0, 0⟩) (fun k => numEnv.consts.getD k 0) D ratioVals
        numEnv.named) = ratioVals 1 + ratioVals 2 := by
      rw [ratio_divisor]
      rfl
    rw [this, hsum, Algebra.algebraMap_eq_smul_one]
    have h7 := scalarPart_smul_one (K := ℚ) 2 (Metric.sq ⟨2, 0, 0⟩) 7
    exact fun h => absurd (h7.symm.trans h) (by norm_num)
  · intro r hr
    have he : reshape 7 ⟨ratioT.post, Rat32.one⟩ = ok ⟨
      [⟨Op.se, 1, 1, ⟨1, 1⟩⟩, ⟨Op.id, 1, 1, ⟨0, 0⟩⟩, ⟨Op.se, 2, 1, ⟨1, 1⟩⟩, ⟨Op.id, 2, 2, ⟨0, 0⟩⟩, ⟨Op.sum, 6, 2, ⟨0, 3⟩⟩, ⟨Op.noop, 0, 0, Rat32.zero⟩,
       ⟨Op.id, 0, 0, ⟨0, 0⟩⟩, ⟨Op.cse, 6, 0, ⟨1, 1⟩⟩, ⟨Op.div, 221608356, 0, ⟨1, 1⟩⟩, ⟨Op.noop, 0, 0, Rat32.zero⟩,
       ⟨Op.cse, 7, 1, ⟨0, 0⟩⟩], Rat32.one⟩ := by decide +kernel
    rw [he, ok_inj] at hr
    subst hr
    refine ⟨[[⟨Op.se, 1, 1, ⟨1, 1⟩⟩, ⟨Op.id, 1, 1, ⟨0, 0⟩⟩, ⟨Op.se, 2, 1, ⟨1, 1⟩⟩, ⟨Op.id, 2, 2, ⟨0, 0⟩⟩, ⟨Op.sum, 6, 2, ⟨0, 3⟩⟩],
      [⟨Op.id, 0, 0, ⟨0, 0⟩⟩, ⟨Op.cse, 6, 0, ⟨1, 1⟩⟩, ⟨Op.div, 221608356, 0, ⟨1, 1⟩⟩]], [⟨Op.cse, 7, 1, ⟨0, 0⟩⟩], rfl, ?_, ?_⟩
    · intro b hb
      rw [List.mem_cons, List.mem_singleton] at hb
      rcases hb with rfl | rfl
      · exact ⟨Or.inl (by unfold NotQuot; decide), by decide⟩
      · refine ⟨Or.inr ⟨[⟨Op.id, 0, 0, ⟨0, 0⟩⟩], ⟨Op.cse, 6, 0, ⟨1, 1⟩⟩, ⟨Op.div, 221608356, 0, ⟨1, 1⟩⟩, rfl, by unfold NotQuot; decide,
          Or.inr (Or.inl ⟨rfl, ?_⟩), Or.inl ⟨rfl, fun _ => by unfold SameLeaf; decide⟩⟩, by decide⟩
        refine ⟨c.state.temps.getD 0 _, ?_, h3, h4⟩
        rw [List.getD_eq_getElem?_getD]
        show c.state.temps[0]? = _
        rw [List.getElem?_eq_getElem (by rw [h2]; decide)]
        rfl
    · unfold NotQuot; decide

/-- `(a a) / a`. -/
def occursT : Tree := .bin ⟨Op.div, 677258872, 0, ⟨1, 1⟩⟩ (gpT 4224492895 (argT 0) (argT 0)) (argT 0)

theorem occursT_value {V : Type} [AddCommGroup V] [Module ℚ V] (I : Interp V) :
    occursT.val I = I.quot (I.gp (I.arg 0 0) (I.arg 0 0)) (I.arg 0 0) := by
  simp [occursT, gpT, argT, Tree.val, Rat32.toQ, Op.gp, Op.lc, Op.sip, Op.div]

/-- **C48 fails when the divisor occurs in the dividend**: `compute([](auto a) { return a * a / a; }, …)` with the scalar 3 returns 1. -/
theorem C48_occurs_false : ∃ (e : Rpne) (args : List (Arg ℚ)) (w : Nat → CliffordAlgebra (diagForm ℚ 1 (Metric.sq ⟨1, 0, 0⟩)))
    (D : CliffordAlgebra (diagForm ℚ 1 (Metric.sq ⟨1, 0, 0⟩)) →ₗ[ℚ] CliffordAlgebra (diagForm ℚ 1 (Metric.sq ⟨1, 0, 0⟩)))
    (v : CliffordAlgebra (diagForm ℚ 1 (Metric.sq ⟨1, 0, 0⟩))) (x : Entity ℚ),
    IsDual ℚ 1 (Metric.sq ⟨1, 0, 0⟩) D ∧ (∀ (k : Nat) (a : Arg ℚ), args[k]? = some a → a.Denotes 1 (Metric.sq ⟨1, 0, 0⟩) (argOffset args k) (w k)) ∧
    (do
      let aa ← gpExpr (entityExpr 0 0) (entityExpr 0 0)
      divExpr aa (entityExpr 0 0)) = ok e ∧
    Means (fullInterp ℚ 1 (Metric.sq ⟨1, 0, 0⟩) (fun _ => 0) D w fun _ => id) e v ∧ w 0 = algebraMap ℚ _ 3 ∧
    computeExpr ⟨1, 0, 0⟩ false 5 numEnv args e = ok [x] ∧ ¬ x.Denotes 1 (Metric.sq ⟨1, 0, 0⟩) v := by
  obtain ⟨D, hD⟩ := exists_isDual ℚ 1 (by decide) (Metric.sq ⟨1, 0, 0⟩)
  refine ⟨⟨occursT.post, Rat32.one⟩, [scalarArg 3], fun _ => algebraMap ℚ _ 3, D, algebraMap ℚ _ 3, ⟨[0], [1]⟩, hD, ?_, by decide +kernel, ?_,
    rfl, scalarResult_eq (by decide +kernel), ?_⟩
  · intro k a hk
    match k with
    | 0 => simp at hk; subst hk; exact scalarArg_denotes _ 3 (off := 0) (by decide)
    | k + 1 => simp at hk
  · have hg : occursT.Good := by
      rw [occursT, Tree.Good]
      exact ⟨Or.inr (Or.inr (Or.inr rfl)), fun _ => ⟨by show InI32 1; decide, by show InI32 1; decide, by show (0 : Int) < 1; decide⟩,
        gpT_good (argT_good _) (argT_good _), argT_good _⟩
    refine Or.inr ⟨occursT, hg, rfl, Rat32.one_wf, by show (1 : Int) ≠ 0; decide, ?_⟩
    rw [occursT_value]
    refine Eq.trans ?_ (one_toQ_smul _).symm
    have := quot_scalar (K := ℚ) 1 (Metric.sq ⟨1, 0, 0⟩) (named := fun _ => 0) (D := D) (w := fun _ => algebraMap ℚ _ 3) (f := fun _ => id)
      (algebraMap ℚ _ 3 * algebraMap ℚ _ 3) 3
    refine Eq.trans ?_ this.symm
    rw [Algebra.smul_def, ← map_mul, ← map_mul]
    norm_num
  · intro h
    have h1 := C45_select h (e := 0) (by decide)
    have h2 : algebraMap ℚ (CliffordAlgebra (diagForm ℚ 1 (Metric.sq ⟨1, 0, 0⟩))) 3 =
        (3 : ℚ) • cliffBlade ℚ 1 (Metric.sq ⟨1, 0, 0⟩) 0 := by
      rw [cliffBlade_zero, Algebra.algebraMap_eq_smul_one]
    rw [h2, map_smul, bladeCoords_blade _ _ _ _ (by decide)] at h1
    have h3 : (⟨[0], [1]⟩ : Entity ℚ).select 1 0 = ok 1 := C29_select_listed (k := 0) _ (by decide) (by simp) rfl rfl
    rw [h3, ok_inj] at h1
    simp at h1

/-- `a / (b + 1)` where `a` has six coefficients. -/
def accidentT : Tree := .bin ⟨Op.div, 3813878234, 0, ⟨1, 1⟩⟩ (argT 0)
  (.poly ⟨Op.sum, 80, 2, ⟨0, 5⟩⟩ (.cons ⟨Op.se, 6, 1, ⟨1, 1⟩⟩ (.leaf ⟨Op.id, 6, 1, ⟨0, 0⟩⟩)
    (.cons ⟨Op.se, Op.cscalar, 1, ⟨1, 1⟩⟩ (.leaf ⟨Op.cscalar, Op.cscalar, 0, ⟨0, 0⟩⟩) .nil)))

theorem accidentT_value {V : Type} [AddCommGroup V] [Module ℚ V] (I : Interp V) :
    accidentT.val I = I.quot (I.arg 0 0) (I.arg 1 6 + I.const Op.cscalar) := by
  simp [accidentT, argT, Tree.val, Forest.vals, Rat32.toQ, Op.gp, Op.lc, Op.sip, Op.div, Op.sum, Op.cscalar, Op.id]

/-- An argument with six coefficients. -/
def sixArg : Entity ℚ := ⟨[0, 1, 2, 3, 4, 5], [10, 20, 30, 40, 50, 60]⟩

/-- **C48 fails by accident of numbering**: `compute([](auto a, auto b) { return a / (b + 1); }, …)` with an `a` of six coefficients and the
scalar 4 returns `a / 4`.  The id of `b`, which is 6, equals the position of the quotient among the nodes, so the test at dfa.hpp:310 takes
the divisor for one that has been seen. -/
theorem C48_accident_false : ∃ (e : Rpne) (w : Nat → CliffordAlgebra (diagForm ℚ 3 (Metric.sq ⟨3, 0, 0⟩)))
    (D : CliffordAlgebra (diagForm ℚ 3 (Metric.sq ⟨3, 0, 0⟩)) →ₗ[ℚ] CliffordAlgebra (diagForm ℚ 3 (Metric.sq ⟨3, 0, 0⟩))) (x : Entity ℚ),
    IsDual ℚ 3 (Metric.sq ⟨3, 0, 0⟩) D ∧ w 0 = pairsVal (cliffBlade ℚ 3 (Metric.sq ⟨3, 0, 0⟩)) sixArg.elements sixArg.data ∧
    w 1 = algebraMap ℚ _ 4 ∧ (∀ (k : Nat) (a : Arg ℚ), [sixArg.toArg, scalarArg 4][k]? = some a →
      a.Denotes 3 (Metric.sq ⟨3, 0, 0⟩) (argOffset [sixArg.toArg, scalarArg 4] k) (w k)) ∧
    (do
      let s ← addIntExpr 1 (entityExpr 6 1)
      divExpr (entityExpr 0 0) s) = ok e ∧
    Means (fullInterp ℚ 3 (Metric.sq ⟨3, 0, 0⟩) (fun _ => 0) D w fun _ => id) e ((5 : ℚ)⁻¹ • w 0) ∧
    computeExpr ⟨3, 0, 0⟩ false 7 numEnv [sixArg.toArg, scalarArg 4] e = ok [x] ∧ x.Denotes 3 (Metric.sq ⟨3, 0, 0⟩) ((4 : ℚ)⁻¹ • w 0) ∧
    ¬ x.Denotes 3 (Metric.sq ⟨3, 0, 0⟩) ((5 : ℚ)⁻¹ • w 0) := by
  obtain ⟨D, hD⟩ := exists_isDual ℚ 3 (by decide) (Metric.sq ⟨3, 0, 0⟩)
  let w : Nat → CliffordAlgebra (diagForm ℚ 3 (Metric.sq ⟨3, 0, 0⟩)) := fun k =>
    if k = 0 then pairsVal (cliffBlade ℚ 3 (Metric.sq ⟨3, 0, 0⟩)) sixArg.elements sixArg.data else algebraMap ℚ _ 4
  have hx : (⟨[0, 1, 2, 3, 4, 5], [5 / 2, 5, 15 / 2, 10, 25 / 2, 15]⟩ : Entity ℚ).Denotes 3 (Metric.sq ⟨3, 0, 0⟩) ((4 : ℚ)⁻¹ • w 0) := by
    refine ⟨rfl, by decide, by decide, ?_⟩
    show pairsVal (K := ℚ) (cliffBlade ℚ 3 (Metric.sq ⟨3, 0, 0⟩)) [0, 1, 2, 3, 4, 5] [5 / 2, 5, 15 / 2, 10, 25 / 2, 15] =
      (4 : ℚ)⁻¹ • pairsVal (K := ℚ) (cliffBlade ℚ 3 (Metric.sq ⟨3, 0, 0⟩)) [0, 1, 2, 3, 4, 5] [10, 20, 30, 40, 50, 60]
    norm_num [pairsVal, smul_smul]
  refine ⟨⟨accidentT.post, Rat32.one⟩, w, D, ⟨[0, 1, 2, 3, 4, 5], [5 / 2, 5, 15 / 2, 10, 25 / 2, 15]⟩, hD, rfl, rfl, ?_,
    by decide +kernel, ?_, oneResult_eq (by decide +kernel), hx, ?_⟩
  · intro k a hk
    match k with
    | 0 =>
      simp at hk
      subst hk
      exact C45_entity (dim := 3) (Metric.sq ⟨3, 0, 0⟩) (x := sixArg) (off := 0) (by decide) (by decide) rfl (by decide)
    | 1 => simp at hk; subst hk; exact scalarArg_denotes _ 4 (off := 6) (by decide)
    | k + 2 => simp at hk
  · have hg : accidentT.Good := by
      rw [accidentT, Tree.Good]
      refine ⟨Or.inr (Or.inr (Or.inr rfl)), fun _ => ⟨by show InI32 1; decide, by show InI32 1; decide, by show (0 : Int) < 1; decide⟩,
        argT_good _, ?_⟩
      have h1 : Rat32.WF ⟨1, 1⟩ := ⟨by show InI32 1; decide, by show InI32 1; decide, by show (0 : Int) < 1; decide⟩
      rw [Tree.Good, Forest.Good, Forest.Good, Forest.Good, Tree.Good, Tree.Good]
      refine ⟨Or.inl rfl, rfl, by decide, rfl, rfl, ?_, Or.inl rfl, rfl, rfl, ?_, Or.inr (by decide), trivial⟩
      · exact ⟨h1, by show (1 : Int) ≠ 0; decide⟩
      · exact ⟨h1, by show (1 : Int) ≠ 0; decide⟩
    refine Or.inr ⟨accidentT, hg, rfl, Rat32.one_wf, by show (1 : Int) ≠ 0; decide, ?_⟩
    rw [accidentT_value]
    refine Eq.trans ?_ (one_toQ_smul _).symm
    have := quot_scalar (K := ℚ) 3 (Metric.sq ⟨3, 0, 0⟩) (named := fun _ => 0) (D := D) (w := w) (f := fun _ => id) (w 0) 5
    refine Eq.trans this.symm ?_
    have h5 : algebraMap ℚ (CliffordAlgebra (diagForm ℚ 3 (Metric.sq ⟨3, 0, 0⟩))) 5 =
        w 1 + (fullInterp ℚ 3 (Metric.sq ⟨3, 0, 0⟩) (fun _ => 0) D w fun _ => id).const Op.cscalar := by
      rw [full_const]
      unfold cliffConst
      rw [if_neg (by decide), if_neg (by decide), Nat.sub_self, cliffBlade_zero]
      show _ = algebraMap ℚ _ 4 + 1
      rw [← map_one (algebraMap ℚ _), ← map_add]
      norm_num
    rw [h5]
    rfl
  · intro h
    have h1 := C45_select h (e := 0) (by decide)
    have h2 := C45_select hx (e := 0) (by decide)
    rw [map_smul] at h1 h2
    have h3 : (⟨[0, 1, 2, 3, 4, 5], [5 / 2, 5, 15 / 2, 10, 25 / 2, 15]⟩ : Entity ℚ).select 3 0 = ok (5 / 2) :=
      C29_select_listed (k := 0) _ (by decide) (by simp) rfl rfl
    rw [h3, ok_inj] at h1 h2
    simp only [Finsupp.smul_apply, smul_eq_mul] at h1 h2
    rw [← mul_right_inj' (show (5 : ℚ) ≠ 0 by norm_num), ← mul_assoc] at h1
    rw [← mul_right_inj' (show (4 : ℚ) ≠ 0 by norm_num), ← mul_assoc] at h2
    norm_num at h1 h2
    rw [← h1] at h2
    norm_num at h2

end Gal
