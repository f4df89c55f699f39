import Verif.Props.LambdaCompute

/-!
# Property C53: examples, and the order of the operands of `|`
-/

namespace Gal

open Out

/-- The vector `a e0 + b e1` as an argument. -/
def plainVec (a b : ℚ) : Arg ℚ := (⟨[1, 2], [a, b]⟩ : Entity ℚ).toArg

/-- `a + b e01` as an argument. -/
def plainEven (a b : ℚ) : Arg ℚ := (⟨[0, 3], [a, b]⟩ : Entity ℚ).toArg

/-- `(a + 2 * b) % r - (a | b) * !b`. -/
def exampleLam : Lam :=
  .sub (.sandwich (.add (.arg 0) (.scale 2 (.arg 1))) (.arg 2)) (.gp (.sip (.arg 0) (.arg 1)) (.dual (.arg 1)))

/-- `(a + b) * r * ((a + b) * r)`. -/
def exampleSquare : Lam := .gp (.gp (.add (.arg 0) (.arg 1)) (.arg 2)) (.gp (.add (.arg 0) (.arg 1)) (.arg 2))

/-- The three arguments of the examples. -/
def plainArgs (x y z : ℚ × ℚ) : List (Arg ℚ) := [plainVec x.1 x.2, plainVec y.1 y.2, plainEven z.1 z.2]

/-- And the elements they stand for. -/
noncomputable def plainVals (x y z : ℚ × ℚ) : Nat → CliffordAlgebra (diagForm ℚ 2 (Metric.sq ⟨2, 0, 0⟩))
  | 0 => pairsVal (cliffBlade ℚ 2 (Metric.sq ⟨2, 0, 0⟩)) [1, 2] [x.1, x.2]
  | 1 => pairsVal (cliffBlade ℚ 2 (Metric.sq ⟨2, 0, 0⟩)) [1, 2] [y.1, y.2]
  | _ => pairsVal (cliffBlade ℚ 2 (Metric.sq ⟨2, 0, 0⟩)) [0, 3] [z.1, z.2]

theorem plainArgs_denote (x y z : ℚ × ℚ) (k : Nat) (a : Arg ℚ) (h : (plainArgs x y z)[k]? = some a) :
    a.Denotes 2 (Metric.sq ⟨2, 0, 0⟩) (argOffset (plainArgs x y z) k) (plainVals x y z k) := by
  match k with
  | 0 =>
    simp [plainArgs] at h; subst h
    exact C45_entity (dim := 2) (Metric.sq ⟨2, 0, 0⟩) (x := ⟨[1, 2], [x.1, x.2]⟩) (off := 0) (by simp) (by simp) rfl (by simp)
  | 1 =>
    simp [plainArgs] at h; subst h
    exact C45_entity (dim := 2) (Metric.sq ⟨2, 0, 0⟩) (x := ⟨[1, 2], [y.1, y.2]⟩) (off := 2) (by simp) (by simp) rfl (by simp)
  | 2 =>
    simp [plainArgs] at h; subst h
    exact C45_entity (dim := 2) (Metric.sq ⟨2, 0, 0⟩) (x := ⟨[0, 3], [z.1, z.2]⟩) (off := 4) (by simp) (by simp) rfl (by simp)
  | k + 3 => simp [plainArgs] at h

theorem exampleOrder (x y z : ℚ × ℚ) :
    both inOrder ((Lam.arg 0).build (argOffset (plainArgs x y z))) ((Lam.arg 1).build (argOffset (plainArgs x y z))) = true := by
  show both inOrder ((Lam.arg 0).build (argOffset (plainArgs (1, 2) (3, 5) (7, 11)))) ((Lam.arg 1).build (argOffset (plainArgs (1, 2) (3, 5) (7, 11)))) = true
  decide +kernel

/-- `C53_compute_partial` applies to the first lambda, for all coefficients. -/
example (x y z : ℚ × ℚ) : ∃ r, exampleLam.compute ⟨2, 0, 0⟩ false numEnv (plainArgs x y z) = ok [r] := by
  obtain ⟨D, hD⟩ := exists_isDual ℚ 2 (by decide) (Metric.sq ⟨2, 0, 0⟩)
  obtain ⟨r, h, -⟩ := C53_compute_partial ⟨2, 0, 0⟩ (by decide) numEnv (plainArgs x y z) (plainArgs_denote x y z) hD exampleLam
    (by refine ⟨⟨⟨trivial, trivial⟩, trivial⟩, ⟨trivial, trivial, Or.inl ?_⟩, trivial⟩; exact exampleOrder x y z)
    (by simp [exampleLam, Lam.InRange, plainArgs]) (args' := plainArgs (1, 2) (3, 5) (7, 11)) rfl (by decide) (by decide +kernel)
  exact ⟨r, h⟩

/-- And to the second, where a subexpression occurs twice. -/
example (x y z : ℚ × ℚ) : ∃ r, exampleSquare.compute ⟨2, 0, 0⟩ false numEnv (plainArgs x y z) = ok [r] := by
  obtain ⟨D, hD⟩ := exists_isDual ℚ 2 (by decide) (Metric.sq ⟨2, 0, 0⟩)
  obtain ⟨r, h, -⟩ := C53_compute_partial ⟨2, 0, 0⟩ (by decide) numEnv (plainArgs x y z) (plainArgs_denote x y z) hD exampleSquare
    (by refine ⟨⟨⟨trivial, trivial⟩, trivial⟩, ⟨trivial, trivial⟩, trivial⟩)
    (by simp [exampleSquare, Lam.InRange, plainArgs]) (args' := plainArgs (1, 2) (3, 5) (7, 11)) rfl (by decide) (by decide +kernel)
  exact ⟨r, h⟩

/-- An environment in which the named constants have the values `p` and `q`. -/
def constEnv (p q : ℚ) : Env ℚ := ⟨[], [p, q], fun _ _ _ => 1, fun _ v => v⟩

/-- `compute([](auto a, auto b, auto) { return a * (3 * PI / 2) + b; }, …)` returns `3/2 p a + b`, where `p` is the value of `PI`. -/
example (p q : ℚ) (x y z : ℚ × ℚ) : ∃ r, (Lam.add (.gp (.arg 0) (.pi 3 2)) (.arg 1)).compute ⟨2, 0, 0⟩ false (constEnv p q) (plainArgs x y z) = ok [r] ∧
    r.Denotes 2 (Metric.sq ⟨2, 0, 0⟩) ((3 / 2 * p) • plainVals x y z 0 + plainVals x y z 1) := by
  obtain ⟨D, hD⟩ := exists_isDual ℚ 2 (by decide) (Metric.sq ⟨2, 0, 0⟩)
  obtain ⟨r, h, h2⟩ := C53_compute_partial ⟨2, 0, 0⟩ (by decide) (constEnv p q) (plainArgs x y z) (plainArgs_denote x y z) hD
    (.add (.gp (.arg 0) (.pi 3 2)) (.arg 1)) ⟨⟨trivial, trivial⟩, trivial⟩
    (by simp [Lam.InRange, plainArgs, constEnv]) (args' := plainArgs (1, 2) (3, 5) (7, 11)) rfl (by decide) (by decide +kernel)
  refine ⟨r, h, ?_⟩
  have hv : (3 / 2 * p) • plainVals x y z 0 + plainVals x y z 1 = (Lam.add (.gp (.arg 0) (.pi 3 2)) (.arg 1)).val
      (cliffInterp ℚ 2 (Metric.sq ⟨2, 0, 0⟩) (fun k => (constEnv p q).consts.getD k 0) D (plainVals x y z)) (argOffset (plainArgs x y z)) := by
    show _ = plainVals x y z 0 * ((((3 : ℤ) : ℚ) / ((2 : ℤ) : ℚ)) • (p • 1)) + plainVals x y z 1
    rw [smul_smul, mul_smul_comm, mul_one]
    norm_num
  rw [hv]; exact h2

/-- `C53_value_partial` applies to both, in every interpretation with a symmetric inner product. -/
example {V : Type} [AddCommGroup V] [Module ℚ V] (I : Interp V) : ∃ e, exampleSquare.build (fun k => 2 * k) = ok e ∧
    Means I e (exampleSquare.val I fun k => 2 * k) := by
  obtain ⟨e, he⟩ := Out.exists_of_isOk (x := exampleSquare.build fun k => 2 * k) (by decide +kernel)
  exact ⟨e, he, C53_value_partial I _ exampleSquare (by decide +kernel) ⟨⟨⟨trivial, trivial⟩, trivial⟩, ⟨trivial, trivial⟩, trivial⟩ he⟩

/-- `C34_like_partial` applies to `2 * a * b + a * b`, whose like terms are the same. -/
example {V : Type} [AddCommGroup V] [Module ℚ V] (I : Interp V) {l r e : Rpne} {v w : V} (hl : Means I l v) (hr : Means I r w)
    (h1 : (imulExpr 2 (entityExpr 0 0) >>= fun x => gpExpr x (entityExpr 1 1)) = ok l) (h2 : gpExpr (entityExpr 0 0) (entityExpr 1 1) = ok r)
    (he : addExpr l r = ok e) : Means I e (v + w) := by
  refine C34_like_partial hl hr ?_ he
  have h3 : (both sumRegular (imulExpr 2 (entityExpr 0 0) >>= fun x => gpExpr x (entityExpr 1 1)) (gpExpr (entityExpr 0 0) (entityExpr 1 1))) = true := by
    decide +kernel
  rw [h1, h2] at h3
  exact h3

/-! ## The inner product with the operands in the other order -/

/-- A blade with a coefficient as an argument. -/
def bladeArg (e : Nat) (a : ℚ) : Arg ℚ := (⟨[e], [a]⟩ : Entity ℚ).toArg

/-- The arguments `b e01` and `a e0`. -/
def bladeArgs (a b : ℚ) : List (Arg ℚ) := [bladeArg 3 b, bladeArg 1 a]

/-- And the elements they stand for. -/
noncomputable def bladeVals (a b : ℚ) : Nat → CliffordAlgebra (diagForm ℚ 3 (Metric.sq ⟨3, 0, 0⟩))
  | 0 => b • cliffBlade ℚ 3 (Metric.sq ⟨3, 0, 0⟩) 3
  | _ => a • cliffBlade ℚ 3 (Metric.sq ⟨3, 0, 0⟩) 1

theorem bladeArgs_denote (a b : ℚ) (k : Nat) (y : Arg ℚ) (h : (bladeArgs a b)[k]? = some y) :
    y.Denotes 3 (Metric.sq ⟨3, 0, 0⟩) (argOffset (bladeArgs a b) k) (bladeVals a b k) := by
  match k with
  | 0 =>
    simp [bladeArgs] at h; subst h
    have := C45_entity (dim := 3) (Metric.sq ⟨3, 0, 0⟩) (x := (⟨[3], [b]⟩ : Entity ℚ)) (off := 0) (by simp) (by simp) rfl (by simp)
    simp only [pairsVal, List.zip_cons_cons, List.zip_nil_left, List.map_cons, List.map_nil, List.sum_cons, List.sum_nil, add_zero] at this
    exact this
  | 1 =>
    simp [bladeArgs] at h; subst h
    have := C45_entity (dim := 3) (Metric.sq ⟨3, 0, 0⟩) (x := (⟨[1], [a]⟩ : Entity ℚ)) (off := 1) (by simp) (by simp) rfl (by simp)
    simp only [pairsVal, List.zip_cons_cons, List.zip_nil_left, List.map_cons, List.map_nil, List.sum_cons, List.sum_nil, add_zero] at this
    exact this
  | k + 2 => simp [bladeArgs] at h

/-- **C53 fails for `|`**: `compute([](auto B, auto v) { return v | B; }, B, v)` with a bivector `B = b e01` and a vector `v = a e0` is computed as
`B | v`, which is the negative of the value, for all `a` and `b` other than zero. -/
theorem C53_inner_false (a b : ℚ) (ha : a ≠ 0) (hb : b ≠ 0) : ∃ (w : Nat → CliffordAlgebra (diagForm ℚ 3 (Metric.sq ⟨3, 0, 0⟩)))
    (D : CliffordAlgebra (diagForm ℚ 3 (Metric.sq ⟨3, 0, 0⟩)) →ₗ[ℚ] CliffordAlgebra (diagForm ℚ 3 (Metric.sq ⟨3, 0, 0⟩))) (x : Entity ℚ),
    IsDual ℚ 3 (Metric.sq ⟨3, 0, 0⟩) D ∧
    (∀ (k : Nat) (y : Arg ℚ), (bladeArgs a b)[k]? = some y →
      y.Denotes 3 (Metric.sq ⟨3, 0, 0⟩) (argOffset (bladeArgs a b) k) (w k)) ∧
    (Lam.sip (.arg 1) (.arg 0)).compute ⟨3, 0, 0⟩ false numEnv (bladeArgs a b) = ok [x] ∧
    x.Denotes 3 (Metric.sq ⟨3, 0, 0⟩) ((-(a * b)) • cliffBlade ℚ 3 (Metric.sq ⟨3, 0, 0⟩) 2) ∧
    (Lam.sip (.arg 1) (.arg 0)).val (cliffInterp ℚ 3 (Metric.sq ⟨3, 0, 0⟩) (fun _ => 0) D w) (argOffset (bladeArgs a b)) =
      (a * b) • cliffBlade ℚ 3 (Metric.sq ⟨3, 0, 0⟩) 2 ∧
    ¬ x.Denotes 3 (Metric.sq ⟨3, 0, 0⟩) ((Lam.sip (.arg 1) (.arg 0)).val (cliffInterp ℚ 3 (Metric.sq ⟨3, 0, 0⟩) (fun _ => 0) D w)
      (argOffset (bladeArgs a b))) := by
  obtain ⟨D, hD⟩ := exists_isDual ℚ 3 (by decide) (Metric.sq ⟨3, 0, 0⟩)
  have hw := bladeArgs_denote a b
  have hb0 : (Lam.sip (.arg 0) (.arg 1)).val (cliffInterp ℚ 3 (Metric.sq ⟨3, 0, 0⟩) (fun _ => 0) D (bladeVals a b)) (argOffset (bladeArgs a b)) =
      (-(a * b)) • cliffBlade ℚ 3 (Metric.sq ⟨3, 0, 0⟩) 2 := by
    show innerProd ℚ 3 _ (b • cliffBlade ℚ 3 (Metric.sq ⟨3, 0, 0⟩) 3) (a • cliffBlade ℚ 3 (Metric.sq ⟨3, 0, 0⟩) 1) = _
    rw [map_smul, LinearMap.map_smul₂, innerProd_blade _ _ _ _ _ (by decide) (by decide), if_pos (by decide), blade_mul _ _ (by decide), map_smul,
      gradePart_blade _ _ _ _ _ (by decide), if_pos (by decide), show sgn (Metric.sq ⟨3, 0, 0⟩) 3 3 1 = -1 by decide +kernel, smul_smul, smul_smul]
    congr 1
    push_cast; ring
  have hb1 : (Lam.sip (.arg 1) (.arg 0)).val (cliffInterp ℚ 3 (Metric.sq ⟨3, 0, 0⟩) (fun _ => 0) D (bladeVals a b)) (argOffset (bladeArgs a b)) =
      (a * b) • cliffBlade ℚ 3 (Metric.sq ⟨3, 0, 0⟩) 2 := by
    show innerProd ℚ 3 _ (a • cliffBlade ℚ 3 (Metric.sq ⟨3, 0, 0⟩) 1) (b • cliffBlade ℚ 3 (Metric.sq ⟨3, 0, 0⟩) 3) = _
    rw [map_smul, LinearMap.map_smul₂, innerProd_blade _ _ _ _ _ (by decide) (by decide), if_pos (by decide), blade_mul _ _ (by decide), map_smul,
      gradePart_blade _ _ _ _ _ (by decide), if_pos (by decide), show sgn (Metric.sq ⟨3, 0, 0⟩) 3 1 3 = 1 by decide +kernel, smul_smul, smul_smul]
    congr 1
    push_cast; ring
  obtain ⟨x, h1, h2⟩ := C53_compute_partial ⟨3, 0, 0⟩ (by decide) numEnv (bladeArgs a b) hw hD (.sip (.arg 0) (.arg 1))
    (by refine ⟨trivial, trivial, Or.inl ?_⟩
        show both inOrder ((Lam.arg 0).build (argOffset (bladeArgs 1 1))) ((Lam.arg 1).build (argOffset (bladeArgs 1 1))) = true
        decide +kernel)
    (by simp [Lam.InRange, bladeArgs]) (args' := bladeArgs 1 1) rfl (by decide) (by decide +kernel)
  have h3 : (Lam.sip (.arg 1) (.arg 0)).build (argOffset (bladeArgs a b)) = (Lam.sip (.arg 0) (.arg 1)).build (argOffset (bladeArgs a b)) := by
    show (Lam.sip (.arg 1) (.arg 0)).build (argOffset (bladeArgs 1 1)) = (Lam.sip (.arg 0) (.arg 1)).build (argOffset (bladeArgs 1 1))
    decide +kernel
  have h2' : x.Denotes 3 (Metric.sq ⟨3, 0, 0⟩) ((-(a * b)) • cliffBlade ℚ 3 (Metric.sq ⟨3, 0, 0⟩) 2) := by
    rw [← hb0]; exact h2
  refine ⟨bladeVals a b, D, x, hD, hw, ?_, h2', hb1, ?_⟩
  · unfold Lam.compute at h1 ⊢
    rw [← h1, ← h3]
    rfl
  · intro h
    rw [hb1] at h
    have k1 := C45_select h (e := 2) (by decide)
    rw [C45_select h2' (e := 2) (by decide), ok_inj, map_smul, map_smul, bladeCoords_blade _ _ _ _ (by decide)] at k1
    simp at k1
    have : a * b ≠ 0 := mul_ne_zero ha hb
    apply this
    linarith

end Gal
