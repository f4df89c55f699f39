import Verif.Props.Machine
import Verif.Spec.RatValue
import Verif.Props.Mv

/-!
# Properties C33 and C34: the operators of the lambda build expressions with the right value
-/

namespace Gal

open Out

variable {V : Type} [AddCommGroup V] [Module ℚ V] {I : Interp V}

/-! ## Trees and their last node -/

/-- The node of the root, which is the last one in postfix order. -/
def Tree.root : Tree → Node
  | .leaf n => n
  | .un n _ => n
  | .bin n _ _ => n
  | .poly n _ => n

/-- The nodes before the last one. -/
def Tree.init : Tree → List Node
  | .leaf _ => []
  | .un _ t => t.post
  | .bin _ l r => l.post ++ r.post
  | .poly _ f => f.post

theorem post_eq (t : Tree) : t.post = t.init ++ [t.root] := by
  cases t <;> simp [Tree.post, Tree.init, Tree.root]

theorem post_ne_nil (t : Tree) : t.post ≠ [] := by rw [post_eq]; simp

theorem backOf_append (ns : List Node) (n : Node) : backOf (ns ++ [n]) = ok n := by
  simp [backOf]

theorem backOf_post (t : Tree) : backOf t.post = ok t.root := by rw [post_eq, backOf_append]

theorem dropLast_post (t : Tree) : t.post.dropLast = t.init := by rw [post_eq, List.dropLast_concat]

theorem root_sum {t : Tree} (h : t.Good) (hr : t.root.o = Op.sum) : ∃ n f, t = .poly n f ∧ n.o = Op.sum := by
  cases t with
  | leaf n =>
    unfold Tree.Good at h; unfold Tree.root at hr; dsimp only at hr
    rw [hr] at h; exact absurd h (by decide)
  | un n t =>
    unfold Tree.Good at h; unfold Tree.root at hr; dsimp only at hr
    rw [hr] at h; exact absurd h.1 (by unfold IsUn; decide)
  | bin n l r =>
    unfold Tree.Good at h; unfold Tree.root at hr; dsimp only at hr
    rw [hr] at h; exact absurd h.1 (by unfold IsBin; decide)
  | poly n f => exact ⟨n, f, rfl, hr⟩

theorem root_ep {t : Tree} (h : t.Good) (hr : t.root.o = Op.ep) : ∃ n f, t = .poly n f ∧ n.o = Op.ep := by
  cases t with
  | leaf n =>
    unfold Tree.Good at h; unfold Tree.root at hr; dsimp only at hr
    rw [hr] at h; exact absurd h (by decide)
  | un n t =>
    unfold Tree.Good at h; unfold Tree.root at hr; dsimp only at hr
    rw [hr] at h; exact absurd h.1 (by unfold IsUn; decide)
  | bin n l r =>
    unfold Tree.Good at h; unfold Tree.root at hr; dsimp only at hr
    rw [hr] at h; exact absurd h.1 (by unfold IsBin; decide)
  | poly n f => exact ⟨n, f, rfl, hr⟩

theorem root_rev {t : Tree} (h : t.Good) (hr : t.root.o = Op.rev) : ∃ n s, t = .un n s ∧ n.o = Op.rev := by
  cases t with
  | leaf n =>
    unfold Tree.Good at h; unfold Tree.root at hr; dsimp only at hr
    rw [hr] at h; exact absurd h (by decide)
  | un n t => exact ⟨n, t, rfl, hr⟩
  | bin n l r =>
    unfold Tree.Good at h; unfold Tree.root at hr; dsimp only at hr
    rw [hr] at h; exact absurd h.1 (by unfold IsBin; decide)
  | poly n f =>
    unfold Tree.Good at h; unfold Tree.root at hr; dsimp only at hr
    rw [hr] at h; exact absurd h.1 (by unfold IsPoly; decide)

theorem appendOp_ok {t : List Node} {o : Nat} {ns : List Node} (h : appendOp t o = ok ns) :
    ∃ c, ns = t ++ [⟨o, c, 0, ⟨0, 0⟩⟩] := by
  unfold appendOp at h
  simp only [bind_eq_ok, pure_eq, ok_inj] at h
  obtain ⟨_, _, c, _, h⟩ := h
  exact ⟨c, h.symm⟩

theorem setLast (t : List Node) (n : Node) (g : Node → Node) :
    (t ++ [n]).dropLast ++ (t ++ [n]).getLast?.toList.map g = t ++ [g n] := by
  simp

mutual

theorem Tree.Good.shape : ∀ {t : Tree}, t.Good → t.Shape
  | .leaf _, h => by unfold Tree.Good at h; unfold Tree.Shape; exact h.imp_right Or.inr
  | .un _ _, h => by unfold Tree.Good at h; unfold Tree.Shape; exact ⟨h.1, h.2.2.shape⟩
  | .bin _ _ _, h => by unfold Tree.Good at h; unfold Tree.Shape; exact ⟨h.1, h.2.2.1.shape, h.2.2.2.shape⟩
  | .poly _ _, h => by unfold Tree.Good at h; unfold Tree.Shape; exact ⟨h.1, h.2.1, h.2.2.1, h.2.2.2.shape⟩

theorem Forest.Good.shape : ∀ {f : Forest} {P : Rat32 → Prop}, f.Good P → f.Shape
  | .nil, _, _ => by unfold Forest.Shape; trivial
  | .cons _ _ _, _, h => by
    unfold Forest.Good at h; unfold Forest.Shape; exact ⟨h.1, h.2.1, h.2.2.2.1.shape, h.2.2.2.2.shape⟩

end

/-! ## Factors -/

theorem one_num : Rat32.one.num ≠ 0 := by decide

theorem num_ne_of {r : Rat32} (h : r.WF) (hz : r.toQ ≠ 0) : r.num ≠ 0 := fun e => hz ((Rat32.toQ_eq_zero h).2 e)
theorem toQ_ne_of {r : Rat32} (h : r.WF) (hz : r.num ≠ 0) : r.toQ ≠ 0 := fun e => hz ((Rat32.toQ_eq_zero h).1 e)

theorem means_scale {e : Rpne} {v : V} {p q : Rat32} (h : Means I e v) (hne : e.nodes ≠ []) (hp : p.WF) (hp0 : p.num ≠ 0)
    (hq : e.q.mulAssign p = ok q) : Means I { e with q := q } (p.toQ • v) := by
  rcases h with ⟨h, _⟩ | ⟨t, hg, hn, hw, h0, hv⟩
  · exact absurd h hne
  · obtain ⟨e1, w1⟩ := Rat32.mulAssign_spec hw hp hq
    refine Or.inr ⟨t, hg, hn, w1, num_ne_of w1 ?_, ?_⟩
    · rw [e1]; exact mul_ne_zero (toQ_ne_of hw h0) (toQ_ne_of hp hp0)
    · rw [hv, smul_smul, e1, mul_comm]

theorem means_tree {e : Rpne} {v : V} (h : Means I e v) (hne : e.nodes ≠ []) :
    ∃ t : Tree, t.Good ∧ e.nodes = t.post ∧ e.q.WF ∧ e.q.num ≠ 0 ∧ v = e.q.toQ • t.val I := by
  rcases h with ⟨h, _⟩ | h
  · exact absurd h hne
  · exact h

/-! ## C33: operands -/

/-- An argument of the lambda stands for that argument. -/
theorem C33_argument (I : Interp V) (id i : Nat) : Means I (entityExpr id i) (I.arg i id) := by
  refine Or.inr ⟨.leaf ⟨Op.id, id, i, ⟨0, 0⟩⟩, ?_, ?_, Rat32.one_wf, one_num, ?_⟩
  · unfold Tree.Good; exact Or.inl rfl
  · unfold Tree.post; rfl
  · unfold Tree.val; simp [entityExpr]

example : Means ratInterp (entityExpr 4 1) 6 := by
  have := C33_argument ratInterp 4 1
  norm_num [ratInterp] at this; exact this

/-- A nonzero rational constant stands for that multiple of one. -/
theorem C33_constant (I : Interp V) {n d : Int} (hn : InI32 n) (hd : InI32 d) (hn0 : n ≠ 0) (hd0 : 0 < d) :
    Means I (constExpr n d) (((n : ℚ) / d) • I.one) := by
  refine Or.inr ⟨.leaf ⟨Op.cscalar, Op.cscalar, 0, ⟨0, 0⟩⟩, ?_, ?_, ⟨hn, hd, hd0⟩, hn0, ?_⟩
  · unfold Tree.Good; right; decide
  · unfold Tree.post; rfl
  · unfold Tree.val; simp [constExpr, Rat32.toQ, Interp.one]

example : Means ratInterp (constExpr (-3) 2) (((-3 : ℤ) / (2 : ℤ) : ℚ) • ratInterp.one) :=
  C33_constant ratInterp (by decide) (by decide) (by decide) (by decide)

/-- A basis element times a nonzero integer. -/
theorem C33_element (I : Interp V) (e : Nat) {n : Int} (hn : InI32 n) (hn0 : n ≠ 0) :
    Means I (elementExpr e n) ((n : ℚ) • I.const (Op.cscalar + e)) := by
  refine Or.inr ⟨.leaf ⟨Op.cscalar + e, Op.cscalar + e, 0, ⟨0, 0⟩⟩, ?_, ?_, ⟨hn, by show InI32 1; decide, by show (0 : Int) < 1; decide⟩, hn0, ?_⟩
  · unfold Tree.Good Op.czero Op.cscalar; right; dsimp only; omega
  · unfold Tree.post; rfl
  · unfold Tree.val; simp [elementExpr, Rat32.toQ, Op.cscalar, Op.id]

example : Means ratInterp (elementExpr 5 (-3)) (((-3 : ℤ) : ℚ) • ratInterp.const (Op.cscalar + 5)) :=
  C33_element ratInterp 5 (by decide) (by decide)

/-- `n * PI / d`, converted to an expression. -/
theorem C33_pi (I : Interp V) {n d : Int} {i : Nat} {e : Rpne} (hn : InI32 n) (hd : InI32 d) (hn0 : n ≠ 0) (hd0 : 0 < d)
    (he : ∃ c, (∃ b, imulConst n ⟨i, Rat32.one⟩ = ok b ∧ idivConst b d = ok c) ∧ c.convert = e) : Means I e (((n : ℚ) / d) • I.const Op.cpi) := by
  simp only [imulConst, idivConst, bind_eq_ok, pure_eq, ok_inj] at he
  obtain ⟨_, ⟨_, ⟨q, hq, rfl⟩, r, hr, rfl⟩, rfl⟩ := he
  have h1 := Rat32.mulAssign_spec (by decide) ⟨hn, by show InI32 1; decide, by show (0 : Int) < 1; decide⟩ hq
  have h2 := Rat32.mulAssign_spec h1.2 ⟨by show InI32 1; decide, hd, hd0⟩ hr
  have hv : r.toQ = (n : ℚ) / d := by rw [h2.1, h1.1]; simp [Rat32.toQ, Rat32.one, div_eq_mul_inv]
  refine Or.inr ⟨.leaf ⟨Op.cpi, Op.cpi, 0, ⟨0, 0⟩⟩, ?_, ?_, h2.2, ?_, ?_⟩
  · unfold Tree.Good; right; dsimp only; decide
  · unfold Tree.post; rfl
  · intro h
    have hd' : (d : ℚ) ≠ 0 := by exact_mod_cast hd0.ne'
    have hn' : (n : ℚ) ≠ 0 := by exact_mod_cast hn0
    refine div_ne_zero hn' hd' ?_
    rw [← hv, Rat32.toQ]
    have h' : r.num = 0 := h
    rw [h']; simp
  · show _ = r.toQ • _
    rw [hv]; unfold Tree.val; simp [Op.cpi, Op.id]

example : ∃ e, Means ratInterp e ((((-3 : ℤ) : ℚ) / ((2 : ℤ) : ℚ)) • ratInterp.const Op.cpi) :=
  ⟨⟨[⟨Op.cpi, Op.cpi, 0, ⟨0, 0⟩⟩], ⟨-3, 2⟩⟩, C33_pi ratInterp (i := 0) (by decide) (by decide) (by decide) (by decide)
    ⟨⟨0, ⟨-3, 2⟩⟩, ⟨⟨0, ⟨-3, 1⟩⟩, by decide +kernel, by decide +kernel⟩, rfl⟩⟩

/-! ## C33: factors -/

theorem int_wf {n : Int} (hn : InI32 n) : (⟨n, 1⟩ : Rat32).WF := ⟨hn, by show InI32 1; decide, by show (0 : Int) < 1; decide⟩

/-- `n * e`. -/
theorem C33_scale {e e' : Rpne} {v : V} {n : Int} (hn : InI32 n) (h : Means I e v) (he : imulExpr n e = ok e') :
    Means I e' ((n : ℚ) • v) := by
  unfold imulExpr at he
  split at he
  · rename_i h0
    rw [ok_inj] at he; subst he
    refine Or.inl ⟨rfl, ?_⟩
    rcases h0 with rfl | h0
    · simp
    · rcases h with ⟨_, rfl⟩ | ⟨t, _, hp, _⟩
      · simp
      · exact absurd (hp.symm.trans h0) (post_ne_nil t)
  · rename_i h0
    push Not at h0
    simp only [bind_eq_ok, pure_eq, ok_inj] at he
    obtain ⟨q, hq, rfl⟩ := he
    have := means_scale h h0.2 (int_wf hn) h0.1 hq
    simpa [Rat32.toQ] using this

example : ∃ e', imulExpr (-3) (argE 0) = ok e' ∧ Means ratInterp e' (((-3 : ℤ) : ℚ) • (((0 : ℕ) : ℚ) + 2)) := by
  obtain ⟨e', h⟩ := Out.exists_of_isOk (x := imulExpr (-3) (argE 0)) (by decide +kernel)
  exact ⟨e', h, C33_scale (by decide) (argE_means 0) h⟩

/-- `-e`. -/
theorem C33_neg {e e' : Rpne} {v : V} (h : Means I e v) (he : negExpr e = ok e') : Means I e' (-v) := by
  unfold negExpr at he
  split at he
  · rename_i h0
    rw [ok_inj] at he; subst he
    rcases h with ⟨h, rfl⟩ | ⟨t, _, hp, _⟩
    · exact Or.inl ⟨h, by simp⟩
    · exact absurd (hp.symm.trans h0) (post_ne_nil t)
  · rename_i h0
    simp only [bind_eq_ok, pure_eq, ok_inj] at he
    obtain ⟨q, hq, rfl⟩ := he
    have := means_scale h h0 (p := Rat32.minusOne) (by decide) (by decide) hq
    simpa using this

example : ∃ e', negExpr (timesE 2 (argE 0)) = ok e' ∧ Means ratInterp e' (-(((2 : ℤ) : ℚ) * (((0 : ℕ) : ℚ) + 2))) := by
  obtain ⟨e', h⟩ := Out.exists_of_isOk (x := negExpr (timesE 2 (argE 0))) (by decide +kernel)
  exact ⟨e', h, C33_neg (timesE_means 2 (by decide) (by decide) 0) h⟩

/-- `e / d` for a positive integer. -/
theorem C33_divInt_partial {e e' : Rpne} {v : V} {d : Int} (hd : InI32 d) (hd0 : 0 < d) (h : Means I e v)
    (he : divIntExpr e d = ok e') : Means I e' ((d : ℚ)⁻¹ • v) := by
  unfold divIntExpr at he
  split at he
  · rename_i h0
    rw [ok_inj] at he; subst he
    rcases h with ⟨h, rfl⟩ | ⟨t, _, hp, _⟩
    · exact Or.inl ⟨h, by simp⟩
    · exact absurd (hp.symm.trans h0) (post_ne_nil t)
  · rename_i h0
    simp only [bind_eq_ok, pure_eq, ok_inj] at he
    obtain ⟨q, hq, rfl⟩ := he
    have := means_scale h h0 (p := ⟨1, d⟩) ⟨by show InI32 1; decide, hd, hd0⟩ (by show (1 : Int) ≠ 0; decide) hq
    simpa [Rat32.toQ] using this

example : ∃ e', divIntExpr (timesE 2 (argE 0)) 3 = ok e' ∧ Means ratInterp e' (((3 : ℤ) : ℚ)⁻¹ • (((2 : ℤ) : ℚ) * (((0 : ℕ) : ℚ) + 2))) := by
  obtain ⟨e', h⟩ := Out.exists_of_isOk (x := divIntExpr (timesE 2 (argE 0)) 3) (by decide +kernel)
  exact ⟨e', h, C33_divInt_partial (by decide) (by decide) (timesE_means 2 (by decide) (by decide) 0) h⟩

/-! ## C33: operators with one operand -/

/-- `~e`, for an operand whose factor is one. -/
theorem C33_rev_partial {e e' : Rpne} {v : V} (h : Means I e v) (h1 : e.q.toQ = 1) (he : revExpr e = ok e') :
    Means I e' (I.rev v) := by
  unfold revExpr at he
  split at he
  · rename_i h0
    rw [ok_inj] at he; subst he
    rcases h with ⟨h, rfl⟩ | ⟨t, _, hp, _⟩
    · exact Or.inl ⟨rfl, by simp⟩
    · exact absurd (hp.symm.trans h0) (post_ne_nil t)
  · rename_i h0
    obtain ⟨t, hg, hp, hw, hn, rfl⟩ := means_tree h h0
    rw [hp, backOf_post, ok_bind] at he
    rw [h1, one_smul]
    split at he
    · rename_i hr
      obtain ⟨n, s, rfl, hn⟩ := root_rev hg hr
      simp only [pure_eq, ok_inj, dropLast_post] at he; subst he
      unfold Tree.Good at hg
      refine Or.inr ⟨s, hg.2.2, by unfold Tree.init; rfl, Rat32.one_wf, one_num, ?_⟩
      rw [Tree.val, if_pos hn, I.rev_rev]; simp
    · simp only [bind_eq_ok, pure_eq, ok_inj] at he
      obtain ⟨ns, hns, rfl⟩ := he
      obtain ⟨c, rfl⟩ := appendOp_ok hns
      refine Or.inr ⟨.un ⟨Op.rev, c, 0, ⟨0, 0⟩⟩ t, ?_, by rw [Tree.post], Rat32.one_wf, one_num, ?_⟩
      · unfold Tree.Good
        exact ⟨Or.inl rfl, fun h => absurd h (by unfold IsFun; dsimp only; decide), hg⟩
      · rw [Tree.val, if_pos rfl]; simp

example : ∃ e', revExpr (argE 3) = ok e' ∧ Means ratInterp e' (ratInterp.rev (((3 : ℕ) : ℚ) + 2)) := by
  obtain ⟨e', h⟩ := Out.exists_of_isOk (x := revExpr (argE 3)) (by decide +kernel)
  exact ⟨e', h, C33_rev_partial (argE_means 3) Rat32.toQ_one h⟩

/-- `!e`, for an operand whose factor is one. -/
theorem C33_dual_partial {e e' : Rpne} {v : V} (h : Means I e v) (h1 : e.q.toQ = 1) (he : dualExpr e = ok e') :
    Means I e' (I.pd v) := by
  unfold dualExpr at he
  split at he
  · rename_i h0
    rw [ok_inj] at he; subst he
    rcases h with ⟨h, rfl⟩ | ⟨t, _, hp, _⟩
    · exact Or.inl ⟨rfl, by simp⟩
    · exact absurd (hp.symm.trans h0) (post_ne_nil t)
  · rename_i h0
    obtain ⟨t, hg, hp, hw, hn, rfl⟩ := means_tree h h0
    simp only [bind_eq_ok, pure_eq, ok_inj] at he
    obtain ⟨ns, hns, rfl⟩ := he
    obtain ⟨c, rfl⟩ := appendOp_ok hns
    rw [h1, one_smul]
    refine Or.inr ⟨.un ⟨Op.pd, c, 0, ⟨0, 0⟩⟩ t, ?_, by rw [Tree.post, hp], Rat32.one_wf, one_num, ?_⟩
    · unfold Tree.Good
      exact ⟨Or.inr (Or.inl rfl), fun h => absurd h (by unfold IsFun; dsimp only; decide), hg⟩
    · rw [Tree.val, if_neg (by dsimp only; decide), if_pos rfl]; simp

example : ∃ e', dualExpr (argE 3) = ok e' ∧ Means ratInterp e' (ratInterp.pd (((3 : ℕ) : ℚ) + 2)) := by
  obtain ⟨e', h⟩ := Out.exists_of_isOk (x := dualExpr (argE 3)) (by decide +kernel)
  exact ⟨e', h, C33_dual_partial (argE_means 3) Rat32.toQ_one h⟩

/-- `e[i]`, the component of one basis element. -/
theorem C33_component {e e' : Rpne} {v : V} {i : Nat} (h : Means I e v) (he : compExpr e i = ok e') :
    Means I e' (I.comp i v) := by
  unfold compExpr at he
  simp only [bind_eq_ok, pure_eq, ok_inj] at he
  obtain ⟨b, hb, rfl⟩ := he
  have h0 : e.nodes ≠ [] := by intro h0; rw [h0] at hb; cases hb
  obtain ⟨t, hg, hp, hw, hn, rfl⟩ := means_tree h h0
  refine Or.inr ⟨.un ⟨Op.comp, _, i, ⟨0, 0⟩⟩ t, ?_, by rw [Tree.post, hp], hw, hn, ?_⟩
  · unfold Tree.Good
    exact ⟨Or.inr (Or.inr (Or.inl rfl)), fun h => absurd h (by unfold IsFun; dsimp only; decide), hg⟩
  · rw [Tree.val, if_neg (by dsimp only; decide), if_neg (by dsimp only; decide), if_pos rfl, map_smul]

example : ∃ e', compExpr (timesE 2 (argE 3)) 5 = ok e' ∧ Means ratInterp e' (ratInterp.comp 5 (((2 : ℤ) : ℚ) * (((3 : ℕ) : ℚ) + 2))) := by
  obtain ⟨e', h⟩ := Out.exists_of_isOk (x := compExpr (timesE 2 (argE 3)) 5) (by decide +kernel)
  exact ⟨e', h, C33_component (timesE_means 2 (by decide) (by decide) 3) h⟩

/-- `e.select_grade(g)`. -/
theorem C33_grade {e e' : Rpne} {v : V} {g : Nat} (h : Means I e v) (he : gradeExpr e g = ok e') :
    Means I e' (I.grd g v) := by
  unfold gradeExpr at he
  simp only [bind_eq_ok, pure_eq, ok_inj] at he
  obtain ⟨b, hb, rfl⟩ := he
  have h0 : e.nodes ≠ [] := by intro h0; rw [h0] at hb; cases hb
  obtain ⟨t, hg, hp, hw, hn, rfl⟩ := means_tree h h0
  refine Or.inr ⟨.un ⟨Op.grd, _, g, ⟨0, 0⟩⟩ t, ?_, by rw [Tree.post, hp], hw, hn, ?_⟩
  · unfold Tree.Good
    exact ⟨Or.inr (Or.inr (Or.inr (Or.inl rfl))), fun h => absurd h (by unfold IsFun; dsimp only; decide), hg⟩
  · rw [Tree.val, if_neg (by dsimp only; decide), if_neg (by dsimp only; decide), if_neg (by dsimp only; decide), if_pos rfl, map_smul]

example : ∃ e', gradeExpr (timesE 2 (argE 3)) 2 = ok e' ∧ Means ratInterp e' (ratInterp.grd 2 (((2 : ℤ) : ℚ) * (((3 : ℕ) : ℚ) + 2))) := by
  obtain ⟨e', h⟩ := Out.exists_of_isOk (x := gradeExpr (timesE 2 (argE 3)) 2) (by decide +kernel)
  exact ⟨e', h, C33_grade (timesE_means 2 (by decide) (by decide) 3) h⟩

/-- `sqrt`, `sin`, `cos` and `tan`. -/
theorem C33_function {e e' : Rpne} {v : V} {o : Nat} (ho : IsFun o) (h : Means I e v) (he : funExpr o e = ok e') :
    Means I e' (I.fn o v) := by
  unfold funExpr at he
  simp only [bind_eq_ok, pure_eq, ok_inj] at he
  obtain ⟨ns, hns, rfl⟩ := he
  have h0 : e.nodes ≠ [] := by intro h0; rw [h0] at hns; cases hns
  obtain ⟨t, hg, hp, hw, hn, rfl⟩ := means_tree h h0
  obtain ⟨c, rfl⟩ := appendOp_ok hns
  rw [setLast]
  refine Or.inr ⟨.un ⟨o, c, 0, e.q⟩ t, ?_, by rw [Tree.post, hp], Rat32.one_wf, one_num, ?_⟩
  · unfold Tree.Good
    refine ⟨?_, fun _ => hw, hg⟩
    rcases ho with rfl | rfl | rfl | rfl <;> (unfold IsUn; dsimp only; decide)
  · have hb : o ≠ Op.rev ∧ o ≠ Op.pd ∧ o ≠ Op.comp ∧ o ≠ Op.grd := by
      rcases ho with rfl | rfl | rfl | rfl <;> decide
    rw [Tree.val, if_neg hb.1, if_neg hb.2.1, if_neg hb.2.2.1, if_neg hb.2.2.2]; simp

example : ∃ e', funExpr Op.cos (timesE 2 (argE 3)) = ok e' ∧ Means ratInterp e' (ratInterp.fn Op.cos (((2 : ℤ) : ℚ) * (((3 : ℕ) : ℚ) + 2))) := by
  obtain ⟨e', h⟩ := Out.exists_of_isOk (x := funExpr Op.cos (timesE 2 (argE 3))) (by decide +kernel)
  exact ⟨e', h, C33_function (Or.inr (Or.inr (Or.inl rfl))) (timesE_means 2 (by decide) (by decide) 3) h⟩

/-! ## C33: operators with two operands -/

theorem productExpr_means {l r e' : Rpne} {tl tr : Tree} {o c : Nat} {first second : List Node} {f : V →ₗ[ℚ] V →ₗ[ℚ] V}
    (hl : tl.Good) (hr : tr.Good) (hf : first = tl.post) (hs : second = tr.post) (wl : l.q.WF) (wr : r.q.WF)
    (nl : l.q.num ≠ 0) (nr : r.q.num ≠ 0) (ho : IsBin o) (hd : o ≠ Op.div)
    (hv : ∀ n, n.o = o → (Tree.bin n tl tr).val I = f (tl.val I) (tr.val I))
    (he : productExpr o l r first second c = ok e') :
    Means I e' ((l.q.toQ * r.q.toQ) • f (tl.val I) (tr.val I)) := by
  unfold productExpr at he
  simp only [bind_eq_ok] at he
  obtain ⟨q, hq, he⟩ := he
  obtain ⟨e1, w1⟩ := Rat32.mul_spec wl wr hq
  have hz : q.toQ ≠ 0 := by rw [e1]; exact mul_ne_zero (toQ_ne_of wl nl) (toQ_ne_of wr nr)
  rw [if_neg (by rw [Rat32.isZero_iff w1]; exact hz)] at he
  simp only [bind_eq_ok, pure_eq, ok_inj] at he
  obtain ⟨c', _, rfl⟩ := he
  refine Or.inr ⟨.bin ⟨o, c', 0, ⟨0, 0⟩⟩ tl tr, ?_, by rw [Tree.post, hf, hs], w1, num_ne_of w1 hz, ?_⟩
  · unfold Tree.Good
    exact ⟨ho, fun h => absurd h hd, hl, hr⟩
  · rw [hv _ rfl, e1]

/-- `l * r`, unless an operand is the zero expression. -/
theorem C33_gp_partial {l r e' : Rpne} {v w : V} (hl : Means I l v) (hr : Means I r w) (l0 : l.nodes ≠ []) (r0 : r.nodes ≠ [])
    (he : gpExpr l r = ok e') : Means I e' (I.gp v w) := by
  unfold gpExpr at he
  rw [if_neg l0, if_neg r0] at he
  simp only [bind_eq_ok] at he
  obtain ⟨lb, _, rb, _, he⟩ := he
  obtain ⟨tl, gl, pl, wl, nl, rfl⟩ := means_tree hl l0
  obtain ⟨tr, gr, pr, wr, nr, rfl⟩ := means_tree hr r0
  have := productExpr_means (I := I) (f := I.gp) gl gr pl pr wl wr nl nr (Or.inl rfl) (by decide)
    (fun n hn => by rw [Tree.val, if_pos hn]) he
  simpa [smul_smul, mul_comm] using this

example : ∃ e', gpExpr (timesE 2 (argE 0)) (argE 1) = ok e' ∧ Means ratInterp e' (ratInterp.gp (((2 : ℤ) : ℚ) * (((0 : ℕ) : ℚ) + 2)) (((1 : ℕ) : ℚ) + 2)) := by
  obtain ⟨e', h⟩ := Out.exists_of_isOk (x := gpExpr (timesE 2 (argE 0)) (argE 1)) (by decide +kernel)
  exact ⟨e', h, C33_gp_partial (timesE_means 2 (by decide) (by decide) 0) (argE_means 1) (by simp [timesE, argE, entityExpr]) (by simp [argE, entityExpr]) h⟩

/-- `l >> r`, unless an operand is the zero expression. -/
theorem C33_lc_partial {l r e' : Rpne} {v w : V} (hl : Means I l v) (hr : Means I r w) (l0 : l.nodes ≠ []) (r0 : r.nodes ≠ [])
    (he : lcExpr l r = ok e') : Means I e' (I.lc v w) := by
  unfold lcExpr at he
  rw [if_neg l0, if_neg r0] at he
  simp only [bind_eq_ok] at he
  obtain ⟨lb, _, rb, _, he⟩ := he
  obtain ⟨tl, gl, pl, wl, nl, rfl⟩ := means_tree hl l0
  obtain ⟨tr, gr, pr, wr, nr, rfl⟩ := means_tree hr r0
  have := productExpr_means (I := I) (f := I.lc) gl gr pl pr wl wr nl nr (Or.inr (Or.inl rfl)) (by decide)
    (fun n hn => by rw [Tree.val, if_neg (by rw [hn]; decide), if_pos hn]) he
  simpa [smul_smul, mul_comm] using this

example : ∃ e', lcExpr (timesE 2 (argE 0)) (argE 1) = ok e' ∧ Means ratInterp e' (ratInterp.lc (((2 : ℤ) : ℚ) * (((0 : ℕ) : ℚ) + 2)) (((1 : ℕ) : ℚ) + 2)) := by
  obtain ⟨e', h⟩ := Out.exists_of_isOk (x := lcExpr (timesE 2 (argE 0)) (argE 1)) (by decide +kernel)
  exact ⟨e', h, C33_lc_partial (timesE_means 2 (by decide) (by decide) 0) (argE_means 1) (by simp [timesE, argE, entityExpr]) (by simp [argE, entityExpr]) h⟩

/-- `l | r`, unless an operand is the zero expression; the operands may be exchanged. -/
theorem C33_sip_partial {l r e' : Rpne} {v w : V} (hl : Means I l v) (hr : Means I r w) (l0 : l.nodes ≠ []) (r0 : r.nodes ≠ [])
    (he : sipExpr l r = ok e') : Means I e' (I.sip v w) ∨ Means I e' (I.sip w v) := by
  unfold sipExpr at he
  rw [if_neg l0, if_neg r0] at he
  simp only [bind_eq_ok] at he
  obtain ⟨lb, _, rb, _, he⟩ := he
  obtain ⟨tl, gl, pl, wl, nl, rfl⟩ := means_tree hl l0
  obtain ⟨tr, gr, pr, wr, nr, rfl⟩ := means_tree hr r0
  split at he
  · left
    have := productExpr_means (I := I) (f := I.sip) gl gr pl pr wl wr nl nr (Or.inr (Or.inr (Or.inl rfl))) (by decide)
      (fun n hn => by rw [Tree.val, if_neg (by rw [hn]; decide), if_neg (by rw [hn]; decide), if_pos hn]) he
    simpa [smul_smul, mul_comm] using this
  · right
    have := productExpr_means (I := I) (f := I.sip) gr gl pr pl wl wr nl nr (Or.inr (Or.inr (Or.inl rfl))) (by decide)
      (fun n hn => by rw [Tree.val, if_neg (by rw [hn]; decide), if_neg (by rw [hn]; decide), if_pos hn]) he
    simpa [smul_smul, mul_comm] using this

example : ∃ e', sipExpr (timesE 2 (argE 0)) (argE 1) = ok e' ∧
    (Means ratInterp e' (ratInterp.sip (((2 : ℤ) : ℚ) * (((0 : ℕ) : ℚ) + 2)) (((1 : ℕ) : ℚ) + 2)) ∨ Means ratInterp e' (ratInterp.sip (((1 : ℕ) : ℚ) + 2) (((2 : ℤ) : ℚ) * (((0 : ℕ) : ℚ) + 2)))) := by
  obtain ⟨e', h⟩ := Out.exists_of_isOk (x := sipExpr (timesE 2 (argE 0)) (argE 1)) (by decide +kernel)
  exact ⟨e', h, C33_sip_partial (timesE_means 2 (by decide) (by decide) 0) (argE_means 1) (by simp [timesE, argE, entityExpr]) (by simp [argE, entityExpr]) h⟩

/-- `l / r`, for operands that are not the zero expression. -/
theorem C33_div {l r e' : Rpne} {v w : V} (hl : Means I l v) (hr : Means I r w) (l0 : l.nodes ≠ []) (r0 : r.nodes ≠ [])
    (he : divExpr l r = ok e') : Means I e' (I.quot v w) := by
  unfold divExpr at he
  simp only [bind_eq_ok, pure_eq, ok_inj] at he
  obtain ⟨ns, hns, q, hq, rfl⟩ := he
  obtain ⟨tl, gl, pl, wl, nl, rfl⟩ := means_tree hl l0
  obtain ⟨tr, gr, pr, wr, nr, rfl⟩ := means_tree hr r0
  obtain ⟨c, rfl⟩ := appendOp_ok hns
  obtain ⟨e1, w1⟩ := Rat32.div_spec wl wr nr hq
  rw [setLast]
  refine Or.inr ⟨.bin ⟨Op.div, c, 0, q⟩ tl tr, ?_, by rw [Tree.post, pl, pr], Rat32.one_wf, one_num, ?_⟩
  · unfold Tree.Good
    exact ⟨Or.inr (Or.inr (Or.inr rfl)), fun _ => w1, gl, gr⟩
  · rw [Tree.val, if_neg (by dsimp only; decide), if_neg (by dsimp only; decide), if_neg (by dsimp only; decide), I.quot_smul _ _ _ _ (toQ_ne_of wr nr), e1]
    simp

example : ∃ e', divExpr (timesE 2 (argE 0)) (argE 1) = ok e' ∧ Means ratInterp e' (ratInterp.quot (((2 : ℤ) : ℚ) * (((0 : ℕ) : ℚ) + 2)) (((1 : ℕ) : ℚ) + 2)) := by
  obtain ⟨e', h⟩ := Out.exists_of_isOk (x := divExpr (timesE 2 (argE 0)) (argE 1)) (by decide +kernel)
  exact ⟨e', h, C33_div (timesE_means 2 (by decide) (by decide) 0) (argE_means 1) (by simp [timesE, argE, entityExpr]) (by simp [argE, entityExpr]) h⟩

/-- `1 / e`, for an operand with a positive factor. -/
theorem C33_intDiv_partial {e e' : Rpne} {v : V} (h : Means I e v) (h0 : e.nodes ≠ []) (hp : 0 < e.q.num)
    (he : intDivExpr 1 e = ok e') : Means I e' (I.quot I.one v) := by
  unfold intDivExpr at he
  simp only [bind_eq_ok, pure_eq, ok_inj] at he
  obtain ⟨ns, hns, rfl⟩ := he
  obtain ⟨t, hg, pt, hw, hn, rfl⟩ := means_tree h h0
  obtain ⟨c, rfl⟩ := appendOp_ok hns
  rw [setLast]
  refine Or.inr ⟨.bin ⟨Op.div, c, 0, e.q.reciprocal⟩ (.leaf ⟨Op.cscalar, Op.cscalar, 0, ⟨0, 0⟩⟩) t, ?_,
    by rw [Tree.post, Tree.post, pt]; rfl, Rat32.one_wf, one_num, ?_⟩
  · unfold Tree.Good
    refine ⟨Or.inr (Or.inr (Or.inr rfl)), fun _ => ⟨hw.den, hw.num, hp⟩, ?_, hg⟩
    unfold Tree.Good; right; dsimp only; decide
  · rw [Tree.val, if_neg (by dsimp only; decide), if_neg (by dsimp only; decide), if_neg (by dsimp only; decide)]
    have := I.quot_smul 1 e.q.toQ I.one (t.val I) (toQ_ne_of hw hn)
    rw [one_smul] at this
    rw [this, Tree.val, Rat32.toQ_one, one_smul]
    simp [Rat32.reciprocal, Rat32.toQ, Interp.one, Op.cscalar, Op.id]

example : ∃ e', intDivExpr 1 (timesE 2 (argE 0)) = ok e' ∧ Means ratInterp e' (ratInterp.quot ratInterp.one (((2 : ℤ) : ℚ) * (((0 : ℕ) : ℚ) + 2))) := by
  obtain ⟨e', h⟩ := Out.exists_of_isOk (x := intDivExpr 1 (timesE 2 (argE 0))) (by decide +kernel)
  exact ⟨e', h, C33_intDiv_partial (timesE_means 2 (by decide) (by decide) 0) (by simp [timesE, argE, entityExpr]) (by decide) h⟩

/-! ## Operands of sums and exterior products as lists -/

/-- An operand: its `op_se` node and its tree. -/
abbrev Opd := Node × Tree

/-- The operands of a forest. -/
def Forest.toList : Forest → List Opd
  | .nil => []
  | .cons se t f => (se, t) :: f.toList

/-- The forest of some operands. -/
def Forest.ofList : List Opd → Forest
  | [] => .nil
  | x :: xs => .cons x.1 x.2 (Forest.ofList xs)

/-- The nodes of an operand. -/
def blk (x : Opd) : Block := ⟨x.1, x.2.post⟩

/-- An operand as the operators build it. -/
def OpdGood (P : Rat32 → Prop) (x : Opd) : Prop :=
  x.1.o = Op.se ∧ x.1.ex = x.2.post.length ∧ P x.1.q ∧ x.2.Good

/-- The condition on the factors of summands. -/
def SumQ (q : Rat32) : Prop := q.WF ∧ q.num ≠ 0

@[simp] theorem ofList_toList : ∀ f : Forest, Forest.ofList f.toList = f
  | .nil => rfl
  | .cons _ _ f => by simp [Forest.toList, Forest.ofList, ofList_toList f]

theorem ofList_post : ∀ xs : List Opd, (Forest.ofList xs).post = flatBlocks (xs.map blk)
  | [] => by simp [Forest.ofList, Forest.post, flatBlocks]
  | x :: xs => by
    rw [Forest.ofList, Forest.post, ofList_post xs]
    simp [flatBlocks, Block.flat, blk]

theorem ofList_length : ∀ xs : List Opd, (Forest.ofList xs).length = xs.length
  | [] => rfl
  | x :: xs => by simp [Forest.ofList, Forest.length, ofList_length xs]

theorem ofList_good {P : Rat32 → Prop} : ∀ xs : List Opd, (Forest.ofList xs).Good P ↔ ∀ x ∈ xs, OpdGood P x
  | [] => by simp [Forest.ofList, Forest.Good]
  | x :: xs => by
    rw [Forest.ofList, Forest.Good, ofList_good xs]
    simp [OpdGood, and_assoc]

theorem ofList_terms : ∀ xs : List Opd, (Forest.ofList xs).terms = xs.map Prod.snd
  | [] => rfl
  | x :: xs => by simp [Forest.ofList, Forest.terms, ofList_terms xs]

/-- The value of an operand of an exterior product or sum. -/
def termVal (I : Interp V) (x : Opd) : V := if x.1.q.num = 0 then x.2.val I else x.1.q.toQ • x.2.val I

theorem ofList_vals : ∀ xs : List Opd, (Forest.ofList xs).vals I = xs.map (termVal I)
  | [] => by simp [Forest.ofList, Forest.vals]
  | x :: xs => by
    rw [Forest.ofList, Forest.vals, ofList_vals xs]
    simp [termVal]

/-- The sum of some summands. -/
def tsum (I : Interp V) (xs : List Opd) : V := (xs.map (termVal I)).sum

@[simp] theorem tsum_nil : tsum I [] = 0 := rfl
@[simp] theorem tsum_cons (x : Opd) (xs : List Opd) : tsum I (x :: xs) = termVal I x + tsum I xs := by simp [tsum]

theorem termVal_sum {x : Opd} (h : OpdGood SumQ x) : termVal I x = x.1.q.toQ • x.2.val I := by
  unfold termVal; rw [if_neg h.2.2.1.2]

theorem cutBlocks_flat : ∀ (k : Nat) (xs : List Opd), (∀ x ∈ xs, x.1.ex = x.2.post.length) →
    (flatBlocks (xs.map blk)).length ≤ k → cutBlocks k (flatBlocks (xs.map blk)) = ok (xs.map blk)
  | k, [], _, _ => by cases k <;> rfl
  | 0, x :: xs, _, h => by simp [flatBlocks, Block.flat] at h
  | k + 1, x :: xs, hx, h => by
    have hf : flatBlocks ((x :: xs).map blk) = x.1 :: (x.2.post ++ flatBlocks (xs.map blk)) := by
      simp [flatBlocks, Block.flat, blk]
    rw [hf] at h ⊢
    have he := hx x (by simp)
    simp only [List.length_cons, List.length_append] at h
    rw [cutBlocks, if_neg (by simp [he]), he, List.drop_left, List.take_left,
      cutBlocks_flat k xs (fun y hy => hx y (by simp [hy])) (by omega)]
    simp [blk]

/-- The operands of a sum, as the operators see them. -/
theorem summands_eq {e : Rpne} {n : Node} {f : Forest} {P : Rat32 → Prop} (hf : f.Good P) (he : e.nodes = (Tree.poly n f).post) :
    summands e = ok (f.toList.map blk) := by
  have h1 : f.post = flatBlocks (f.toList.map blk) := by rw [← ofList_post, ofList_toList]
  have h2 := (ofList_good (P := P) f.toList).1 (by rwa [ofList_toList])
  unfold summands
  rw [he, dropLast_post, Tree.init, h1]
  refine cutBlocks_flat _ _ (fun x hx => (h2 x hx).2.1) ?_
  rw [Tree.post, h1]; simp

/-! ## Merging sums -/

theorem scale_ok {x : Opd} {q : Rat32} {b : Block} (h : OpdGood SumQ x) (hq : SumQ q) (hb : (blk x).scale q = ok b) :
    ∃ y : Opd, b = blk y ∧ OpdGood SumQ y ∧ termVal I y = q.toQ • termVal I x := by
  unfold Block.scale at hb
  simp only [bind_eq_ok, pure_eq, ok_inj, blk] at hb
  obtain ⟨q', hq', rfl⟩ := hb
  obtain ⟨e1, w1⟩ := Rat32.mulAssign_spec h.2.2.1.1 hq.1 hq'
  have hz : q'.toQ ≠ 0 := by rw [e1]; exact mul_ne_zero (toQ_ne_of h.2.2.1.1 h.2.2.1.2) (toQ_ne_of hq.1 hq.2)
  have hg : OpdGood SumQ ({ x.1 with q := q' }, x.2) := ⟨h.1, h.2.1, ⟨w1, num_ne_of w1 hz⟩, h.2.2.2⟩
  refine ⟨({ x.1 with q := q' }, x.2), rfl, hg, ?_⟩
  rw [termVal_sum hg, termVal_sum h, smul_smul, mul_comm]
  dsimp only
  rw [e1]

theorem mapScale_ok {q : Rat32} (hq : SumQ q) : ∀ {xs : List Opd} {bs : List Block}, (∀ x ∈ xs, OpdGood SumQ x) →
    mapO (Block.scale q) (xs.map blk) = ok bs →
    ∃ ys : List Opd, bs = ys.map blk ∧ (∀ y ∈ ys, OpdGood SumQ y) ∧ tsum I ys = q.toQ • tsum I xs
  | [], bs, _, h => by
    rw [List.map_nil, mapO, ok_inj] at h
    exact ⟨[], by simp [← h], by simp, by simp⟩
  | x :: xs, bs, hx, h => by
    rw [List.map_cons, mapO] at h
    simp only [bind_eq_ok, pure_eq, ok_inj] at h
    obtain ⟨b, hb, bs', hbs, rfl⟩ := h
    obtain ⟨y, rfl, gy, vy⟩ := scale_ok (I := I) (hx x (by simp)) hq hb
    obtain ⟨ys, rfl, gys, vys⟩ := mapScale_ok hq (fun z hz => hx z (by simp [hz])) hbs
    refine ⟨y :: ys, rfl, ?_, ?_⟩
    · intro z hz
      rcases List.mem_cons.1 hz with rfl | hz
      · exact gy
      · exact gys z hz
    · simp [vy, vys, smul_add]

theorem nodesSame_length : ∀ {a b : List Node}, nodesSame a b = true → a.length = b.length
  | [], [], _ => rfl
  | [], _ :: _, h => by simp [nodesSame] at h
  | _ :: _, [], h => by simp [nodesSame] at h
  | _ :: a, _ :: b, h => by
    simp only [nodesSame, Bool.and_eq_true] at h
    simp [nodesSame_length h.2]

theorem mergeSums_ok {lq rq : Rat32} (hl : SumQ lq) (hr : SumQ rq) (hlr : lq.toQ = rq.toQ) :
    ∀ {k : Nat} {ls rs : List Opd} {bs : List Block}, (∀ x ∈ ls, OpdGood SumQ x) → (∀ x ∈ rs, OpdGood SumQ x) →
    (∀ x ∈ ls, ∀ y ∈ rs, nodesSame x.2.post y.2.post = true → x.2.val I = y.2.val I) →
    mergeSums lq rq k (ls.map blk) (rs.map blk) = ok bs →
    ∃ ts : List Opd, bs = ts.map blk ∧ (∀ t ∈ ts, OpdGood SumQ t) ∧ tsum I ts = lq.toQ • tsum I ls + rq.toQ • tsum I rs
  | k, [], rs, bs, _, gr, _, h => by
    rw [List.map_nil, mergeSums] at h
    obtain ⟨ys, e, g, v⟩ := mapScale_ok (I := I) hr gr h
    exact ⟨ys, e, g, by simp [v]⟩
  | k, x :: ls, [], bs, gl, _, _, h => by
    rw [List.map_nil, List.map_cons, mergeSums, ← List.map_cons] at h
    obtain ⟨ys, e, g, v⟩ := mapScale_ok (I := I) hr gl h
    exact ⟨ys, e, g, by rw [v, hlr]; simp⟩
  | 0, x :: ls, y :: rs, bs, _, _, _, h => by
    rw [List.map_cons, List.map_cons, mergeSums] at h; cases h
  | k + 1, x :: ls, y :: rs, bs, gl, gr, hs, h => by
    rw [List.map_cons, List.map_cons, mergeSums] at h
    have gx := gl x (by simp)
    have gy := gr y (by simp)
    have gl' : ∀ z ∈ ls, OpdGood SumQ z := fun z hz => gl z (by simp [hz])
    have gr' : ∀ z ∈ rs, OpdGood SumQ z := fun z hz => gr z (by simp [hz])
    split at h
    · rename_i hsame
      simp only [bind_eq_ok] at h
      obtain ⟨a, ha, b, hb, q, hq, out, hout, h⟩ := h
      obtain ⟨e1, w1⟩ := Rat32.mul_spec gx.2.2.1.1 hl.1 ha
      obtain ⟨e2, w2⟩ := Rat32.mul_spec gy.2.2.1.1 hr.1 hb
      obtain ⟨e3, w3⟩ := Rat32.add_spec w1 w2 hq
      obtain ⟨ts, rfl, gts, vts⟩ := mergeSums_ok hl hr hlr gl' gr'
        (fun z hz w hw => hs z (by simp [hz]) w (by simp [hw])) hout
      have hv : x.2.val I = y.2.val I := by
        refine hs x (by simp) y (by simp) ?_
        simp only [Block.same, blk, Bool.and_eq_true] at hsame
        exact hsame.2
      have key : lq.toQ • termVal I x + rq.toQ • termVal I y = q.toQ • x.2.val I := by
        rw [termVal_sum gx, termVal_sum gy, ← hv, smul_smul, smul_smul, ← add_smul, e3, e1, e2, mul_comm lq.toQ, mul_comm rq.toQ]
      split at h
      · rename_i hz
        rw [pure_eq, ok_inj] at h; subst h
        refine ⟨ts, rfl, gts, ?_⟩
        rw [Rat32.isZero_iff w3] at hz
        rw [hz, zero_smul] at key
        rw [vts, tsum_cons, tsum_cons, smul_add, smul_add, add_add_add_comm, key, zero_add]
      · rename_i hz
        rw [pure_eq, ok_inj] at h; subst h
        rw [Rat32.isZero_iff w3] at hz
        have gt : OpdGood SumQ (⟨Op.se, x.1.checksum, x.1.ex, q⟩, x.2) := ⟨rfl, gx.2.1, ⟨w3, num_ne_of w3 hz⟩, gx.2.2.2⟩
        refine ⟨(⟨Op.se, x.1.checksum, x.1.ex, q⟩, x.2) :: ts, rfl, ?_, ?_⟩
        · intro z hz
          rcases List.mem_cons.1 hz with rfl | hz
          · exact gt
          · exact gts z hz
        · rw [tsum_cons, termVal_sum gt, vts, tsum_cons, tsum_cons, smul_add, smul_add, add_add_add_comm, key]
    · split at h
      · simp only [bind_eq_ok, pure_eq, ok_inj] at h
        obtain ⟨b, hb, out, hout, rfl⟩ := h
        obtain ⟨z, rfl, gz, vz⟩ := scale_ok (I := I) gx hl hb
        rw [← List.map_cons] at hout
        obtain ⟨ts, rfl, gts, vts⟩ := mergeSums_ok hl hr hlr gl' gr
          (fun z hz w hw => hs z (by simp [hz]) w hw) hout
        refine ⟨z :: ts, rfl, ?_, ?_⟩
        · intro t ht
          rcases List.mem_cons.1 ht with rfl | ht
          · exact gz
          · exact gts t ht
        · rw [tsum_cons, vz, vts, tsum_cons x, smul_add, add_assoc]
      · simp only [bind_eq_ok, pure_eq, ok_inj] at h
        obtain ⟨b, hb, out, hout, rfl⟩ := h
        obtain ⟨z, rfl, gz, vz⟩ := scale_ok (I := I) gy hr hb
        rw [← List.map_cons] at hout
        obtain ⟨ts, rfl, gts, vts⟩ := mergeSums_ok hl hr hlr gl gr'
          (fun z hz w hw => hs z hz w (by simp [hw])) hout
        refine ⟨z :: ts, rfl, ?_, ?_⟩
        · intro t ht
          rcases List.mem_cons.1 ht with rfl | ht
          · exact gz
          · exact gts t ht
        · rw [tsum_cons, vz, vts, tsum_cons y, smul_add, add_left_comm]

theorem mergeTerm_ok {sq : Rat32} (hq : SumQ sq) {x : Opd} (gx : OpdGood SumQ x) :
    ∀ {ls : List Opd} {bs : List Block}, (∀ y ∈ ls, OpdGood SumQ y) →
    (∀ y ∈ ls, nodesSame y.2.post x.2.post = true → y.2.val I = x.2.val I) →
    mergeTerm sq (blk x) (ls.map blk) = ok bs →
    ∃ ts : List Opd, bs = ts.map blk ∧ (∀ t ∈ ts, OpdGood SumQ t) ∧ tsum I ts = sq.toQ • tsum I ls + termVal I x
  | [], bs, _, _, h => by
    rw [List.map_nil, mergeTerm, ok_inj] at h
    exact ⟨[x], by simp [← h], by simpa using gx, by simp⟩
  | y :: ls, bs, gl, hs, h => by
    rw [List.map_cons, mergeTerm] at h
    have gy := gl y (by simp)
    have gl' : ∀ z ∈ ls, OpdGood SumQ z := fun z hz => gl z (by simp [hz])
    split at h
    · rename_i hsame
      simp only [bind_eq_ok] at h
      obtain ⟨a, ha, q, hq', rest, hrest, h⟩ := h
      obtain ⟨e1, w1⟩ := Rat32.mul_spec gy.2.2.1.1 hq.1 ha
      obtain ⟨e2, w2⟩ := Rat32.add_spec w1 gx.2.2.1.1 hq'
      obtain ⟨ts, rfl, gts, vts⟩ := mapScale_ok (I := I) hq gl' hrest
      have hv : y.2.val I = x.2.val I := by
        refine hs y (by simp) ?_
        simp only [blk, Bool.and_eq_true] at hsame
        exact hsame.2
      have key : sq.toQ • termVal I y + termVal I x = q.toQ • x.2.val I := by
        rw [termVal_sum gx, termVal_sum gy, hv, smul_smul, ← add_smul, e2, e1, mul_comm sq.toQ]
      split at h
      · rename_i hz
        rw [pure_eq, ok_inj] at h; subst h
        refine ⟨ts, rfl, gts, ?_⟩
        rw [Rat32.isZero_iff w2] at hz
        rw [hz, zero_smul] at key
        rw [vts, tsum_cons, smul_add, add_right_comm, key, zero_add]
      · rename_i hz
        rw [pure_eq, ok_inj] at h; subst h
        rw [Rat32.isZero_iff w2] at hz
        have gt : OpdGood SumQ ({ x.1 with q := q }, x.2) := ⟨gx.1, gx.2.1, ⟨w2, num_ne_of w2 hz⟩, gx.2.2.2⟩
        refine ⟨({ x.1 with q := q }, x.2) :: ts, rfl, ?_, ?_⟩
        · intro z hz
          rcases List.mem_cons.1 hz with rfl | hz
          · exact gt
          · exact gts z hz
        · rw [tsum_cons, termVal_sum gt, vts, tsum_cons, smul_add, add_right_comm, key]
    · split at h
      · simp only [bind_eq_ok, pure_eq, ok_inj] at h
        obtain ⟨rest, hrest, rfl⟩ := h
        rw [← List.map_cons] at hrest
        obtain ⟨ts, rfl, gts, vts⟩ := mapScale_ok (I := I) hq gl hrest
        refine ⟨x :: ts, rfl, ?_, ?_⟩
        · intro z hz
          rcases List.mem_cons.1 hz with rfl | hz
          · exact gx
          · exact gts z hz
        · rw [tsum_cons, vts, add_comm]
      · simp only [bind_eq_ok, pure_eq, ok_inj] at h
        obtain ⟨b, hb, rest, hrest, rfl⟩ := h
        obtain ⟨z, rfl, gz, vz⟩ := scale_ok (I := I) gy hq hb
        obtain ⟨ts, rfl, gts, vts⟩ := mergeTerm_ok hq gx gl' (fun w hw => hs w (by simp [hw])) hrest
        refine ⟨z :: ts, rfl, ?_, ?_⟩
        · intro t ht
          rcases List.mem_cons.1 ht with rfl | ht
          · exact gz
          · exact gts t ht
        · rw [tsum_cons, vz, vts, tsum_cons, smul_add, add_assoc]

/-- `Means`, and every node of every term satisfies `N`. -/
def MeansN (I : Interp V) (N : Node → Prop) (e : Rpne) (v : V) : Prop :=
  (e.nodes = [] ∧ v = 0) ∨
    ∃ t : Tree, t.Good ∧ e.nodes = t.post ∧ e.q.WF ∧ e.q.num ≠ 0 ∧ v = e.q.toQ • t.val I ∧ ∀ x ∈ t.terms, ∀ n ∈ x.post, N n

theorem MeansN.means {N : Node → Prop} {e : Rpne} {v : V} (h : MeansN I N e v) : Means I e v := by
  rcases h with h | ⟨t, g, p, w, n, v, _⟩
  · exact Or.inl h
  · exact Or.inr ⟨t, g, p, w, n, v⟩

theorem terms_of_ne {t : Tree} (h : t.root.o ≠ Op.sum) : t.terms = [t] := by
  cases t <;> simp only [Tree.terms, Tree.root] at h ⊢
  rw [if_neg h]

theorem forest_terms_post : ∀ {f : Forest} {x : Tree}, x ∈ f.terms → ∀ n ∈ x.post, n ∈ f.post
  | .nil, x, h, n, hn => by simp [Forest.terms] at h
  | .cons se t f, x, h, n, hn => by
    rw [Forest.terms, List.mem_cons] at h
    rw [Forest.post, List.mem_cons, List.mem_append]
    rcases h with rfl | h
    · exact Or.inr (Or.inl hn)
    · exact Or.inr (Or.inr (forest_terms_post h n hn))

/-- The nodes of the terms are nodes of the expression. -/
theorem terms_post {t x : Tree} (h : x ∈ t.terms) : ∀ n ∈ x.post, n ∈ t.post := by
  intro n hn
  by_cases hr : t.root.o = Op.sum
  · cases t with
    | poly m f =>
      have hm : m.o = Op.sum := hr
      rw [Tree.terms, if_pos hm] at h
      rw [Tree.post, List.mem_append]
      exact Or.inl (forest_terms_post h n hn)
    | leaf m => simp only [Tree.terms, List.mem_singleton] at h; rw [← h]; exact hn
    | un m t => simp only [Tree.terms, List.mem_singleton] at h; rw [← h]; exact hn
    | bin m l r => simp only [Tree.terms, List.mem_singleton] at h; rw [← h]; exact hn
  · rw [terms_of_ne hr, List.mem_singleton] at h; rw [← h]; exact hn

theorem mapScale_bodies {q : Rat32} : ∀ {ls bs : List Block}, mapO (Block.scale q) ls = ok bs →
    ∀ b ∈ bs, ∃ c ∈ ls, b.body = c.body
  | [], bs, h, b, hb => by rw [mapO, ok_inj] at h; subst h; simp at hb
  | l :: ls, bs, h, b, hb => by
    rw [mapO] at h
    simp only [bind_eq_ok, pure_eq, ok_inj] at h
    obtain ⟨b', hb', bs', hbs, rfl⟩ := h
    rcases List.mem_cons.1 hb with rfl | hb
    · unfold Block.scale at hb'
      simp only [bind_eq_ok, pure_eq, ok_inj] at hb'
      obtain ⟨q', _, rfl⟩ := hb'
      exact ⟨l, by simp, rfl⟩
    · obtain ⟨c, hc, e⟩ := mapScale_bodies hbs b hb
      exact ⟨c, by simp [hc], e⟩

theorem scale_body {q : Rat32} {l b : Block} (h : l.scale q = ok b) : b.body = l.body := by
  unfold Block.scale at h
  simp only [bind_eq_ok, pure_eq, ok_inj] at h
  obtain ⟨q', _, rfl⟩ := h
  rfl

/-- Merging makes up no new summands. -/
theorem mergeSums_bodies {lq rq : Rat32} : ∀ {k : Nat} {ls rs bs : List Block}, mergeSums lq rq k ls rs = ok bs →
    ∀ b ∈ bs, ∃ c ∈ ls ++ rs, b.body = c.body
  | k, [], rs, bs, h, b, hb => by
    rw [mergeSums] at h
    obtain ⟨c, hc, e⟩ := mapScale_bodies h b hb
    exact ⟨c, by simpa using hc, e⟩
  | k, l :: ls, [], bs, h, b, hb => by
    rw [mergeSums] at h
    obtain ⟨c, hc, e⟩ := mapScale_bodies h b hb
    exact ⟨c, by simpa using hc, e⟩
  | 0, l :: ls, r :: rs, bs, h, b, hb => by rw [mergeSums] at h; cases h
  | k + 1, l :: ls, r :: rs, bs, h, b, hb => by
    rw [mergeSums] at h
    split at h
    · simp only [bind_eq_ok] at h
      obtain ⟨_, _, _, _, q, _, out, hout, h⟩ := h
      have ih := mergeSums_bodies hout
      split at h
      · rw [pure_eq, ok_inj] at h; subst h
        obtain ⟨c, hc, e⟩ := ih b hb
        refine ⟨c, ?_, e⟩
        simp only [List.mem_append, List.mem_cons] at hc ⊢; tauto
      · rw [pure_eq, ok_inj] at h; subst h
        rcases List.mem_cons.1 hb with rfl | hb
        · exact ⟨l, by simp, rfl⟩
        · obtain ⟨c, hc, e⟩ := ih b hb
          refine ⟨c, ?_, e⟩
          simp only [List.mem_append, List.mem_cons] at hc ⊢; tauto
    · split at h
      · simp only [bind_eq_ok, pure_eq, ok_inj] at h
        obtain ⟨b', hb', out, hout, rfl⟩ := h
        rcases List.mem_cons.1 hb with rfl | hb
        · exact ⟨l, by simp, scale_body hb'⟩
        · obtain ⟨c, hc, e⟩ := mergeSums_bodies hout b hb
          refine ⟨c, ?_, e⟩
          simp only [List.mem_append, List.mem_cons] at hc ⊢; tauto
      · simp only [bind_eq_ok, pure_eq, ok_inj] at h
        obtain ⟨b', hb', out, hout, rfl⟩ := h
        rcases List.mem_cons.1 hb with rfl | hb
        · exact ⟨r, by simp, scale_body hb'⟩
        · obtain ⟨c, hc, e⟩ := mergeSums_bodies hout b hb
          refine ⟨c, ?_, e⟩
          simp only [List.mem_append, List.mem_cons] at hc ⊢; tauto

theorem mergeTerm_bodies {sq : Rat32} {x : Block} : ∀ {ls bs : List Block}, mergeTerm sq x ls = ok bs →
    ∀ b ∈ bs, ∃ c ∈ x :: ls, b.body = c.body
  | [], bs, h, b, hb => by
    rw [mergeTerm, ok_inj] at h; subst h
    exact ⟨x, by simp, by rw [List.mem_singleton.1 hb]⟩
  | l :: ls, bs, h, b, hb => by
    rw [mergeTerm] at h
    split at h
    · simp only [bind_eq_ok] at h
      obtain ⟨_, _, q, _, rest, hrest, h⟩ := h
      have ih := mapScale_bodies hrest
      split at h
      · rw [pure_eq, ok_inj] at h; subst h
        obtain ⟨c, hc, e⟩ := ih b hb
        exact ⟨c, by simp [hc], e⟩
      · rw [pure_eq, ok_inj] at h; subst h
        rcases List.mem_cons.1 hb with rfl | hb
        · exact ⟨x, by simp, rfl⟩
        · obtain ⟨c, hc, e⟩ := ih b hb
          exact ⟨c, by simp [hc], e⟩
    · split at h
      · simp only [bind_eq_ok, pure_eq, ok_inj] at h
        obtain ⟨rest, hrest, rfl⟩ := h
        rcases List.mem_cons.1 hb with rfl | hb
        · exact ⟨b, by simp, rfl⟩
        · obtain ⟨c, hc, e⟩ := mapScale_bodies hrest b hb
          exact ⟨c, by simp only [List.mem_cons] at hc ⊢; tauto, e⟩
      · simp only [bind_eq_ok, pure_eq, ok_inj] at h
        obtain ⟨b', hb', out, hout, rfl⟩ := h
        rcases List.mem_cons.1 hb with rfl | hb
        · exact ⟨l, by simp, scale_body hb'⟩
        · obtain ⟨c, hc, e⟩ := mergeTerm_bodies hout b hb
          refine ⟨c, ?_, e⟩
          simp only [List.mem_cons] at hc ⊢; tauto

theorem sumTree_means {N : Node → Prop} {xs : List Opd} (hN : ∀ t ∈ xs, ∀ n ∈ t.2.post, N n) (h : ∀ t ∈ xs, OpdGood SumQ t) (hx : 0 < xs.length) (c : Nat) (q : Rat32) :
    MeansN I N ⟨flatBlocks (xs.map blk) ++ [⟨Op.sum, c, xs.length, q⟩], Rat32.one⟩ (tsum I xs) := by
  refine Or.inr ⟨.poly ⟨Op.sum, c, xs.length, q⟩ (Forest.ofList xs), ?_, ?_, Rat32.one_wf, one_num, ?_, ?_⟩
  · unfold Tree.Good
    refine ⟨Or.inl rfl, by rw [ofList_length], by rw [ofList_length]; exact hx, ?_⟩
    rw [ofList_good]
    intro z hz
    have := h z hz; unfold SumQ at this; simpa using this
  · rw [Tree.post, ofList_post]
  · rw [Tree.val, if_pos rfl, ofList_vals, Rat32.toQ_one, one_smul]; rfl
  · rw [Tree.terms, if_pos rfl, ofList_terms]
    intro x hx
    obtain ⟨y, hy, rfl⟩ := List.mem_map.1 hx
    exact hN y hy

/-- The end of `operator+`: either an expression of the right value, or the sum node without summands. -/
theorem finishSum_means {N : Node → Prop} {ts : List Opd} (hN : ∀ t ∈ ts, ∀ n ∈ t.2.post, N n)
    (h : ∀ t ∈ ts, OpdGood SumQ t) :
    MeansN I N (finishSum (ts.map blk)) (tsum I ts) ∨
      (tsum I ts = 0 ∧ (finishSum (ts.map blk)).nodes = [⟨Op.sum, 0, 0, ⟨0, 1⟩⟩]) := by
  match ts, h, hN with
  | [], _, _ => right; exact ⟨rfl, rfl⟩
  | [x], h, hN =>
    left
    have gx := h x (by simp)
    refine Or.inr ⟨x.2, gx.2.2.2, rfl, gx.2.2.1.1, gx.2.2.1.2, ?_, ?_⟩
    · rw [tsum_cons, tsum_nil, add_zero, termVal_sum gx]; rfl
    · exact fun y hy n hn => hN x (by simp) n (terms_post hy n hn)
  | x :: y :: ts, h, hN =>
    left
    have := sumTree_means (I := I) hN h (by simp) (bloom (flatBlocks ((x :: y :: ts).map blk)).length (flatBlocks ((x :: y :: ts).map blk)) 0)
      ⟨0, (flatBlocks ((x :: y :: ts).map blk)).length + 1⟩
    rw [← List.length_map (f := blk)] at this
    exact this

/-! ## Comparison of expressions -/

/-- A step of a machine that ignores all factors (used only to compare expressions). -/
def flatStep (I : Interp V) (st : List V) (n : Node) : List V :=
  if n.o = Op.se then st
  else if n.o = Op.sum then (st.take n.ex).reverse.sum :: st.drop n.ex
  else if n.o = Op.ep then I.wedge (st.take n.ex).reverse :: st.drop n.ex
  else if n.o = Op.gp ∨ n.o = Op.lc ∨ n.o = Op.sip ∨ n.o = Op.div then
    match st with
    | y :: x :: rest =>
      (if n.o = Op.gp then I.gp x y else if n.o = Op.lc then I.lc x y else if n.o = Op.sip then I.sip x y else I.quot x y) :: rest
    | _ => []
  else if Op.rev ≤ n.o ∧ n.o ≤ Op.tan then
    match st with
    | x :: rest =>
      (if n.o = Op.rev then I.rev x else if n.o = Op.pd then I.pd x else if n.o = Op.comp then I.comp n.ex x
        else if n.o = Op.grd then I.grd n.ex x else I.fn n.o x) :: rest
    | [] => []
  else (if n.o = Op.id then I.arg n.ex n.checksum else I.const n.o) :: st

theorem flatStep_same {a b : Node} (h : a.same b = true) (st : List V) : flatStep I st a = flatStep I st b := by
  simp only [Node.same, Bool.and_eq_true, beq_iff_eq] at h
  obtain ⟨⟨h1, h2⟩, h3⟩ := h
  unfold flatStep
  rw [h1, h2, h3]

theorem flat_same : ∀ {a b : List Node}, nodesSame a b = true → ∀ st : List V, a.foldl (flatStep I) st = b.foldl (flatStep I) st
  | [], [], _, _ => rfl
  | [], _ :: _, h, _ => by simp [nodesSame] at h
  | _ :: _, [], h, _ => by simp [nodesSame] at h
  | x :: a, y :: b, h, st => by
    simp only [nodesSame, Bool.and_eq_true] at h
    rw [List.foldl_cons, List.foldl_cons, flatStep_same h.1, flat_same h.2]

theorem vals_length : ∀ f : Forest, (f.vals I).length = f.length
  | .nil => by simp [Forest.vals, Forest.length]
  | .cons _ _ f => by simp [Forest.vals, Forest.length, vals_length f]

mutual

theorem flat_tree : ∀ {t : Tree}, t.Good → t.Unscaled → ∀ st : List V, t.post.foldl (flatStep I) st = t.val I :: st
  | .leaf n, h, _, st => by
    unfold Tree.Good at h
    unfold Tree.post Tree.val
    have hb : n.o ≠ Op.se ∧ n.o ≠ Op.sum ∧ n.o ≠ Op.ep ∧ ¬(n.o = Op.gp ∨ n.o = Op.lc ∨ n.o = Op.sip ∨ n.o = Op.div) ∧
        ¬(Op.rev ≤ n.o ∧ n.o ≤ Op.tan) := by
      rcases h with h | h
      · rw [h]; decide
      · simp only [Op.czero, Op.se, Op.sum, Op.ep, Op.gp, Op.lc, Op.sip, Op.div, Op.rev, Op.tan] at h ⊢; omega
    rw [List.foldl_cons, List.foldl_nil, flatStep.eq_def, if_neg hb.1, if_neg hb.2.1, if_neg hb.2.2.1, if_neg hb.2.2.2.1,
      if_neg hb.2.2.2.2]
  | .un n t, h, u, st => by
    unfold Tree.Good at h
    have u : (IsFun n.o → n.q.toQ = 1) ∧ t.Unscaled :=
      ⟨fun hf => (u n (by rw [Tree.post]; simp)).2 (Or.inr hf), fun m hm => u m (by rw [Tree.post]; simp [hm])⟩
    have hb : n.o ≠ Op.se ∧ n.o ≠ Op.sum ∧ n.o ≠ Op.ep ∧ ¬(n.o = Op.gp ∨ n.o = Op.lc ∨ n.o = Op.sip ∨ n.o = Op.div) ∧
        (Op.rev ≤ n.o ∧ n.o ≤ Op.tan) := by
      rcases h.1 with h | h | h | h | h | h | h | h <;> rw [h] <;> decide
    rw [Tree.post, List.foldl_append, flat_tree h.2.2 u.2, List.foldl_cons, List.foldl_nil, flatStep.eq_def, if_neg hb.1,
      if_neg hb.2.1, if_neg hb.2.2.1, if_neg hb.2.2.2.1, if_pos hb.2.2.2.2, Tree.val]
    by_cases hf : IsFun n.o
    · rw [u.1 hf, one_smul]
    · rcases h.1 with h | h | h | h | h | h | h | h
      · simp [h]
      · simp [h]
      · simp [h]
      · simp [h]
      all_goals exact absurd (by rw [h]; unfold IsFun; decide) hf
  | .bin n l r, h, u, st => by
    unfold Tree.Good at h
    have u : (n.o = Op.div → n.q.toQ = 1) ∧ l.Unscaled ∧ r.Unscaled :=
      ⟨fun hf => (u n (by rw [Tree.post]; simp)).2 (Or.inl hf), fun m hm => u m (by rw [Tree.post]; simp [hm]),
        fun m hm => u m (by rw [Tree.post]; simp [hm])⟩
    have hb : n.o ≠ Op.se ∧ n.o ≠ Op.sum ∧ n.o ≠ Op.ep := by
      rcases h.1 with h | h | h | h <;> rw [h] <;> decide
    have hb2 : n.o = Op.gp ∨ n.o = Op.lc ∨ n.o = Op.sip ∨ n.o = Op.div := h.1
    rw [Tree.post, List.foldl_append, List.foldl_append, flat_tree h.2.2.1 u.2.1, flat_tree h.2.2.2 u.2.2, List.foldl_cons,
      List.foldl_nil, flatStep.eq_def, if_neg hb.1, if_neg hb.2.1, if_neg hb.2.2, if_pos hb2, Tree.val]
    by_cases hf : n.o = Op.div
    · rw [u.1 hf, one_smul]
    · rcases h.1 with h | h | h | h
      · simp [h]
      · simp [h]
      · simp [h]
      · exact absurd h hf
  | .poly n f, h, u, st => by
    unfold Tree.Good at h
    have hb : n.o ≠ Op.se := h.1.ne.2
    have key : f.post.foldl (flatStep I) st = (f.vals I).reverse ++ st :=
      flat_forest h.2.2.2 (fun m hm => u m (by rw [Tree.post]; simp [hm])) st
    rw [Tree.post, List.foldl_append, key, List.foldl_cons, List.foldl_nil, flatStep.eq_def, if_neg hb, Tree.val, h.2.1,
      ← vals_length (I := I) f, ← List.length_reverse (as := f.vals I), List.take_left, List.drop_left, List.reverse_reverse]
    split
    · rfl
    · rw [if_pos (by rcases h.1 with h | h; exact absurd h (by assumption); exact h)]

theorem flat_forest : ∀ {f : Forest} {P : Rat32 → Prop}, f.Good P → (∀ n ∈ f.post, n.Unscaled) →
    ∀ st : List V, f.post.foldl (flatStep I) st = (f.vals I).reverse ++ st
  | .nil, _, _, _, st => by simp [Forest.post, Forest.vals]
  | .cons se t f, P, h, u, st => by
    unfold Forest.Good at h
    have hv : (if se.q.num = 0 then t.val I else se.q.toQ • t.val I) = t.val I := by
      rcases (u se (by rw [Forest.post]; simp)).1 h.1 with hq | hq
      · rw [if_pos hq]
      · rw [hq, one_smul, ite_self]
    rw [Forest.post, List.foldl_cons, flatStep.eq_def, if_pos h.1, List.foldl_append, flat_tree h.2.2.2.1 (fun m hm => u m (by rw [Forest.post]; simp [hm])),
      flat_forest h.2.2.2.2 (fun m hm => u m (by rw [Forest.post]; simp [hm])), Forest.vals, hv]
    simp

end

/-- Expressions that compare equal have the same value, if no inner factor matters. -/
theorem same_val {s t : Tree} (hs : s.Good) (ht : t.Good) (us : s.Unscaled) (ut : t.Unscaled)
    (h : nodesSame s.post t.post = true) : s.val I = t.val I := by
  have := flat_same (I := I) h []
  rw [flat_tree hs us, flat_tree ht ut] at this
  exact (List.cons.inj this).1

/-! ## C34: sums -/

theorem asBlock_ok {e : Rpne} {t : Tree} {b : Block} (hg : t.Good) (hp : e.nodes = t.post) (hq : SumQ e.q)
    (h : asBlock e = ok b) : ∃ x : Opd, b = blk x ∧ OpdGood SumQ x ∧ termVal I x = e.q.toQ • t.val I ∧ x.2 = t := by
  unfold asBlock at h
  simp only [bind_eq_ok, pure_eq, ok_inj] at h
  obtain ⟨c, _, rfl⟩ := h
  have gx : OpdGood SumQ (⟨Op.se, c.checksum, e.nodes.length, e.q⟩, t) := ⟨rfl, by dsimp only; rw [hp], hq, hg⟩
  exact ⟨(⟨Op.se, c.checksum, e.nodes.length, e.q⟩, t), by unfold blk; rw [hp], gx, termVal_sum gx, rfl⟩

/-- What is true of an addition when the two operands are trees. -/
theorem add_trees {N : Node → Prop} {l r e : Rpne} {tl tr : Tree} (gl : tl.Good) (gr : tr.Good) (pl : l.nodes = tl.post) (pr : r.nodes = tr.post)
    (ql : SumQ l.q) (qr : SumQ r.q)
    (hs : ∀ x ∈ tl.terms, ∀ y ∈ tr.terms, (nodesSame x.post y.post = true ∨ nodesSame y.post x.post = true) → x.val I = y.val I)
    (hlr : tl.root.o = Op.sum → tr.root.o = Op.sum → l.q.toQ = r.q.toQ)
    (hN : ∀ x ∈ tl.terms ++ tr.terms, ∀ n ∈ x.post, N n)
    (he : addExpr l r = ok e) :
    MeansN I N e (l.q.toQ • tl.val I + r.q.toQ • tr.val I) ∨
      (l.q.toQ • tl.val I + r.q.toQ • tr.val I = 0 ∧ e.nodes = [⟨Op.sum, 0, 0, ⟨0, 1⟩⟩]) := by
  have term_of : ∀ {t : Tree}, t.root.o ≠ Op.sum → t.terms = [t] := terms_of_ne
  have bodies : ∀ {ts cs : List Opd}, (∀ b ∈ ts.map blk, ∃ c ∈ cs.map blk, b.body = c.body) →
      (∀ c ∈ cs, c.2 ∈ tl.terms ++ tr.terms) → ∀ t ∈ ts, ∀ n ∈ t.2.post, N n := by
    intro ts cs h1 h2 t ht n hn
    obtain ⟨c, hc, e⟩ := h1 (blk t) (List.mem_map_of_mem ht)
    obtain ⟨d, hd, rfl⟩ := List.mem_map.1 hc
    refine hN d.2 (h2 d hd) n ?_
    have : t.2.post = d.2.post := e
    rw [← this]; exact hn
  have opds : ∀ {n : Node} {f : Forest}, n.o = Op.sum → (Tree.poly n f).Good → (∀ x ∈ f.toList, OpdGood SumQ x) ∧
      (Tree.poly n f).terms = f.toList.map Prod.snd ∧ (Tree.poly n f).val I = tsum I f.toList := by
    intro n f hn h
    unfold Tree.Good at h
    refine ⟨?_, ?_, ?_⟩
    · rw [← ofList_good, ofList_toList]
      have := h.2.2.2
      simp only [if_pos hn] at this
      exact this
    · rw [Tree.terms, if_pos hn, ← ofList_terms, ofList_toList]
    · rw [Tree.val, if_pos hn, tsum, ← ofList_vals, ofList_toList]
  unfold addExpr at he
  rw [if_neg (by rw [pl]; exact post_ne_nil _), if_neg (by rw [pr]; exact post_ne_nil _)] at he
  rw [pl, pr, backOf_post, backOf_post, ok_bind, ok_bind] at he
  by_cases hl : tl.root.o = Op.sum
  · obtain ⟨nl, fl, rfl, hnl⟩ := root_sum gl hl
    obtain ⟨ol, tml, vl⟩ := opds hnl gl
    have sl := summands_eq (e := l) (by unfold Tree.Good at gl; exact gl.2.2.2) pl
    rw [if_pos hl] at he
    by_cases hr : tr.root.o = Op.sum
    · obtain ⟨nr, fr, rfl, hnr⟩ := root_sum gr hr
      obtain ⟨or', tmr, vr⟩ := opds hnr gr
      have sr := summands_eq (e := r) (by unfold Tree.Good at gr; exact gr.2.2.2) pr
      rw [if_pos hr, sl, sr, ok_bind, ok_bind] at he
      simp only [bind_eq_ok, pure_eq, ok_inj] at he
      obtain ⟨bs, hbs, rfl⟩ := he
      obtain ⟨ts, rfl, gts, vts⟩ := mergeSums_ok (I := I) ql qr (hlr hl hr) ol or' (fun x hx y hy h =>
        hs x.2 (by rw [tml]; exact List.mem_map_of_mem hx) y.2 (by rw [tmr]; exact List.mem_map_of_mem hy) (Or.inl h)) hbs
      rw [vl, vr, ← vts]
      refine finishSum_means (bodies (cs := fl.toList ++ fr.toList) ?_ ?_) gts
      · rw [List.map_append]; exact mergeSums_bodies hbs
      · intro c hc
        rw [tml, tmr, ← List.map_append]; exact List.mem_map_of_mem hc
    · rw [if_neg hr, sl, ok_bind] at he
      simp only [bind_eq_ok, pure_eq, ok_inj] at he
      obtain ⟨b, hb, bs, hbs, rfl⟩ := he
      obtain ⟨x, rfl, gx, vx, rfl⟩ := asBlock_ok (I := I) gr pr qr hb
      obtain ⟨ts, rfl, gts, vts⟩ := mergeTerm_ok (I := I) ql gx ol (fun y hy h =>
        hs y.2 (by rw [tml]; exact List.mem_map_of_mem hy) x.2 (by rw [term_of hr]; simp) (Or.inl h)) hbs
      rw [vl, ← vx, ← vts]
      refine finishSum_means (bodies (cs := x :: fl.toList) (mergeTerm_bodies hbs) ?_) gts
      intro c hc
      rw [tml, term_of hr, List.mem_append]
      rcases List.mem_cons.1 hc with rfl | hc
      · exact Or.inr (by simp)
      · exact Or.inl (List.mem_map_of_mem hc)
  · rw [if_neg hl] at he
    by_cases hr : tr.root.o = Op.sum
    · obtain ⟨nr, fr, rfl, hnr⟩ := root_sum gr hr
      obtain ⟨or', tmr, vr⟩ := opds hnr gr
      have sr := summands_eq (e := r) (by unfold Tree.Good at gr; exact gr.2.2.2) pr
      rw [if_pos hr, sr, ok_bind] at he
      simp only [bind_eq_ok, pure_eq, ok_inj] at he
      obtain ⟨b, hb, bs, hbs, rfl⟩ := he
      obtain ⟨x, rfl, gx, vx, rfl⟩ := asBlock_ok (I := I) gl pl ql hb
      obtain ⟨ts, rfl, gts, vts⟩ := mergeTerm_ok (I := I) qr gx or' (fun y hy h =>
        (hs x.2 (by rw [term_of hl]; simp) y.2 (by rw [tmr]; exact List.mem_map_of_mem hy) (Or.inr h)).symm) hbs
      rw [vr, ← vx, add_comm, ← vts]
      refine finishSum_means (bodies (cs := x :: fr.toList) (mergeTerm_bodies hbs) ?_) gts
      intro c hc
      rw [tmr, term_of hl, List.mem_append]
      rcases List.mem_cons.1 hc with rfl | hc
      · exact Or.inl (by simp)
      · exact Or.inr (List.mem_map_of_mem hc)
    · rw [if_neg hr] at he
      split at he
      · rename_i hsame
        have hv : tl.val I = tr.val I := hs tl (by rw [term_of hl]; simp) tr (by rw [term_of hr]; simp) (Or.inl hsame.2)
        simp only [bind_eq_ok] at he
        obtain ⟨q, hq, he⟩ := he
        obtain ⟨e1, w1⟩ := Rat32.add_spec ql.1 qr.1 hq
        left
        rw [← hv, ← add_smul, ← e1]
        split at he
        · rename_i hz
          rw [pure_eq, ok_inj] at he; subst he
          rw [Rat32.isZero_iff w1] at hz
          exact Or.inl ⟨rfl, by rw [hz, zero_smul]⟩
        · rename_i hz
          rw [pure_eq, ok_inj] at he; subst he
          rw [Rat32.isZero_iff w1] at hz
          exact Or.inr ⟨tl, gl, rfl, w1, num_ne_of w1 hz, rfl, fun x hx => hN x (by simp [hx])⟩
      · simp only [bind_eq_ok] at he
        obtain ⟨x, hx, y, hy, he⟩ := he
        obtain ⟨x, rfl, gx, vx, rfl⟩ := asBlock_ok (I := I) gl pl ql hx
        obtain ⟨y, rfl, gy, vy, rfl⟩ := asBlock_ok (I := I) gr pr qr hy
        split at he
        · rw [pure_eq, ok_inj] at he; subst he
          have hN' : ∀ t ∈ [x, y], ∀ n ∈ t.2.post, N n := bodies (cs := [x, y]) (fun b hb => ⟨b, hb, rfl⟩) (by simp [term_of hl, term_of hr])
          have := finishSum_means (I := I) (N := N) (ts := [x, y]) hN' (by simp [gx, gy])
          simpa [vx, vy] using this
        · rw [pure_eq, ok_inj] at he; subst he
          have hN' : ∀ t ∈ [x, y], ∀ n ∈ t.2.post, N n := bodies (cs := [x, y]) (fun b hb => ⟨b, hb, rfl⟩) (by simp [term_of hl, term_of hr])
          have := finishSum_means (I := I) (N := N) (ts := [y, x]) (fun t ht => hN' t (by simp only [List.mem_cons] at ht ⊢; tauto)) (by simp [gx, gy])
          rw [tsum_cons, tsum_cons, tsum_nil, add_zero, add_comm, vx, vy] at this
          exact this

/-- The last operation of an expression is a sum. -/
def EndsInSum (e : Rpne) : Prop := e.nodes.getLast?.map Node.o = some Op.sum

theorem endsInSum_iff {e : Rpne} {t : Tree} (h : e.nodes = t.post) : EndsInSum e ↔ t.root.o = Op.sum := by
  unfold EndsInSum
  rw [h, post_eq]; simp

/-- **C34.**  The sum of two expressions has the sum of the values, and like terms are merged without changing it: for terms
without inner factors, two nonzero operands, and equal factors if both operands are sums.  If everything cancels, two sums leave
a sum node without summands, which the library rejects when it evaluates it. -/
theorem C34_sum_partial {l r e : Rpne} {v w : V} (hl : MeansU I l v) (hr : MeansU I r w) (l0 : l.nodes ≠ []) (r0 : r.nodes ≠ [])
    (hq : EndsInSum l → EndsInSum r → l.q.toQ = r.q.toQ) (he : addExpr l r = ok e) :
    MeansU I e (v + w) ∨ (v + w = 0 ∧ e.nodes = [⟨Op.sum, 0, 0, ⟨0, 1⟩⟩]) := by
  rcases hl with ⟨h, _⟩ | ⟨tl, gl, pl, wl, nl, rfl, ul⟩
  · exact absurd h l0
  rcases hr with ⟨h, _⟩ | ⟨tr, gr, pr, wr, nr, rfl, ur⟩
  · exact absurd h r0
  have good : ∀ {t : Tree}, t.Good → ∀ x ∈ t.terms, x.Good := by
    intro t g x hx
    by_cases h : t.root.o = Op.sum
    · obtain ⟨n, f, rfl, hn⟩ := root_sum g h
      unfold Tree.Good at g
      rw [Tree.terms, if_pos hn, ← ofList_toList f, ofList_terms] at hx
      obtain ⟨y, hy, rfl⟩ := List.mem_map.1 hx
      exact ((ofList_good f.toList).1 (by rw [ofList_toList]; exact g.2.2.2) y hy).2.2.2
    · rw [terms_of_ne h, List.mem_singleton] at hx; rw [hx]; exact g
  refine add_trees (N := Node.Unscaled) gl gr pl pr ⟨wl, nl⟩ ⟨wr, nr⟩ ?_ ?_ ?_ he
  · intro x hx y hy h
    rcases h with h | h
    · exact same_val (good gl x hx) (good gr y hy) (ul x hx) (ur y hy) h
    · exact (same_val (good gr y hy) (good gl x hx) (ur y hy) (ul x hx) h).symm
  · intro h1 h2; exact hq ((endsInSum_iff pl).2 h1) ((endsInSum_iff pr).2 h2)
  · intro x hx
    rcases List.mem_append.1 hx with hx | hx
    · exact ul x hx
    · exact ur x hx

example : ∃ e', addExpr (argE 0) (argE 1) = ok e' ∧
    (MeansU ratInterp e' ((((0 : ℕ) : ℚ) + 2) + (((1 : ℕ) : ℚ) + 2)) ∨ (((0 : ℕ) : ℚ) + 2) + (((1 : ℕ) : ℚ) + 2) = 0 ∧ e'.nodes = [⟨Op.sum, 0, 0, ⟨0, 1⟩⟩]) := by
  obtain ⟨e', h⟩ := Out.exists_of_isOk (x := addExpr (argE 0) (argE 1)) (by decide +kernel)
  exact ⟨e', h, C34_sum_partial (argE_meansU 0) (argE_meansU 1) (by simp [argE, entityExpr]) (by simp [argE, entityExpr])
    (fun h => absurd h (by unfold EndsInSum; simp [argE, entityExpr, Op.id, Op.sum])) h⟩

theorem negExpr_meansU {e e' : Rpne} {v : V} (h : MeansU I e v) (he : negExpr e = ok e') :
    MeansU I e' (-v) ∧ e'.nodes = e.nodes ∧ (e.nodes ≠ [] → e'.q.toQ = -e.q.toQ) := by
  unfold negExpr at he
  split at he
  · rename_i h0
    rw [ok_inj] at he; subst he
    rcases h with ⟨h, rfl⟩ | ⟨t, _, hp, _⟩
    · exact ⟨Or.inl ⟨h, by simp⟩, rfl, fun h' => absurd h0 h'⟩
    · exact absurd (hp.symm.trans h0) (post_ne_nil t)
  · rename_i h0
    simp only [bind_eq_ok, pure_eq, ok_inj] at he
    obtain ⟨q, hq, rfl⟩ := he
    rcases h with ⟨h, _⟩ | ⟨t, g, p, w, n, rfl, u⟩
    · exact absurd h h0
    · obtain ⟨e1, w1⟩ := Rat32.mulAssign_spec w (by decide : Rat32.minusOne.WF) hq
      rw [Rat32.toQ_minusOne, mul_neg_one] at e1
      refine ⟨Or.inr ⟨t, g, p, w1, num_ne_of w1 ?_, ?_, u⟩, rfl, fun _ => e1⟩
      · rw [e1]; exact neg_ne_zero.2 (toQ_ne_of w n)
      · rw [e1, neg_smul]

/-- `l - r`, as `C34_sum_partial`. -/
theorem C34_difference_partial {l r e : Rpne} {v w : V} (hl : MeansU I l v) (hr : MeansU I r w) (l0 : l.nodes ≠ [])
    (r0 : r.nodes ≠ []) (hq : EndsInSum l → EndsInSum r → l.q.toQ = -r.q.toQ) (he : subExpr l r = ok e) :
    MeansU I e (v - w) ∨ (v = w ∧ e.nodes = [⟨Op.sum, 0, 0, ⟨0, 1⟩⟩]) := by
  unfold subExpr at he
  rw [bind_eq_ok] at he
  obtain ⟨r', hr', he⟩ := he
  obtain ⟨m, n, q⟩ := negExpr_meansU hr hr'
  have := C34_sum_partial hl m l0 (by rw [n]; exact r0)
    (fun h1 h2 => by rw [q r0]; exact hq h1 (by unfold EndsInSum at h2 ⊢; rwa [n] at h2)) he
  rw [← sub_eq_add_neg] at this
  rcases this with h | ⟨h, h'⟩
  · exact Or.inl h
  · exact Or.inr ⟨sub_eq_zero.1 h, h'⟩

example : ∃ e', subExpr (argE 0) (argE 1) = ok e' ∧
    (MeansU ratInterp e' ((((0 : ℕ) : ℚ) + 2) - (((1 : ℕ) : ℚ) + 2)) ∨ (((0 : ℕ) : ℚ) + 2) = (((1 : ℕ) : ℚ) + 2) ∧ e'.nodes = [⟨Op.sum, 0, 0, ⟨0, 1⟩⟩]) := by
  obtain ⟨e', h⟩ := Out.exists_of_isOk (x := subExpr (argE 0) (argE 1)) (by decide +kernel)
  exact ⟨e', h, C34_difference_partial (argE_meansU 0) (argE_meansU 1) (by simp [argE, entityExpr]) (by simp [argE, entityExpr])
    (fun h => absurd h (by unfold EndsInSum; simp [argE, entityExpr, Op.id, Op.sum])) h⟩

/-! ## C34: integers as summands -/

/-- `MeansU` of an integer constant. -/
theorem const_meansU {n : Int} (hn : InI32 n) (hn0 : n ≠ 0) : MeansU I (constExpr n 1) ((n : ℚ) • I.one) := by
  refine Or.inr ⟨.leaf ⟨Op.cscalar, Op.cscalar, 0, ⟨0, 0⟩⟩, ?_, ?_, int_wf hn, hn0, ?_, ?_⟩
  · unfold Tree.Good; right; decide
  · unfold Tree.post; rfl
  · unfold Tree.val; simp [constExpr, Rat32.toQ, Interp.one]
  · intro x hx n hn
    simp only [Tree.terms, List.mem_singleton] at hx
    subst hx
    simp only [Tree.post, List.mem_singleton] at hn
    subst hn
    exact ⟨fun h => absurd h (by decide), fun h => absurd h (by unfold IsFun; decide)⟩

theorem const_not_sum (n : Int) : ¬ EndsInSum (constExpr n 1) := by unfold EndsInSum; simp [constExpr, Op.cscalar, Op.sum]

/-- `n + a` and `a + n` for a nonzero integer `n`. -/
theorem C34_add_integer_partial {e e' : Rpne} {v : V} {n : Int} (hn : InI32 n) (hn0 : n ≠ 0) (h : MeansU I e v) (h0 : e.nodes ≠ [])
    (he : addIntExpr n e = ok e') : MeansU I e' ((n : ℚ) • I.one + v) ∨ ((n : ℚ) • I.one + v = 0 ∧ e'.nodes = [⟨Op.sum, 0, 0, ⟨0, 1⟩⟩]) :=
  C34_sum_partial (const_meansU hn hn0) h (by simp [constExpr]) h0 (fun h => absurd h (const_not_sum n)) he

/-- `n - a` for a nonzero integer `n`. -/
theorem C34_integer_sub_partial {e e' : Rpne} {v : V} {n : Int} (hn : InI32 n) (hn0 : n ≠ 0) (h : MeansU I e v) (h0 : e.nodes ≠ [])
    (he : intSubExpr n e = ok e') : MeansU I e' ((n : ℚ) • I.one - v) ∨ ((n : ℚ) • I.one = v ∧ e'.nodes = [⟨Op.sum, 0, 0, ⟨0, 1⟩⟩]) :=
  C34_difference_partial (const_meansU hn hn0) h (by simp [constExpr]) h0 (fun h => absurd h (const_not_sum n)) he

/-- `a - n` for a nonzero integer `n`. -/
theorem C34_sub_integer_partial {e e' : Rpne} {v : V} {n : Int} (hn0 : n ≠ 0) (h : MeansU I e v) (h0 : e.nodes ≠ [])
    (he : subIntExpr e n = ok e') : MeansU I e' (v - (n : ℚ) • I.one) ∨ (v = (n : ℚ) • I.one ∧ e'.nodes = [⟨Op.sum, 0, 0, ⟨0, 1⟩⟩]) := by
  simp only [subIntExpr, bind_eq_ok, chk_eq_ok] at he
  obtain ⟨m, ⟨hm, rfl⟩, he⟩ := he
  have := C34_sum_partial (const_meansU hm (by omega)) h (by simp [constExpr]) h0 (fun h => absurd h (const_not_sum (-n))) he
  have e1 : (((-n : Int) : ℚ) • I.one + v) = v - (n : ℚ) • I.one := by push_cast; rw [neg_smul]; abel
  rw [e1] at this
  exact this.imp id (fun h => ⟨sub_eq_zero.1 h.1, h.2⟩)

example : ∃ e₁ e₂ e₃, addIntExpr 7 (argE 0) = ok e₁ ∧ intSubExpr 7 (argE 0) = ok e₂ ∧ subIntExpr (argE 0) 7 = ok e₃ ∧ (argE 0).nodes ≠ [] ∧
    MeansU ratInterp (argE 0) ((((0 : ℕ) : ℚ) + 2)) := by
  obtain ⟨e₁, h₁⟩ := Out.exists_of_isOk (x := addIntExpr 7 (argE 0)) (by decide +kernel)
  obtain ⟨e₂, h₂⟩ := Out.exists_of_isOk (x := intSubExpr 7 (argE 0)) (by decide +kernel)
  obtain ⟨e₃, h₃⟩ := Out.exists_of_isOk (x := subIntExpr (argE 0) 7) (by decide +kernel)
  exact ⟨e₁, e₂, e₃, h₁, h₂, h₃, by simp [argE, entityExpr], argE_meansU 0⟩

/-! ## C33: exterior products -/

theorem wedge_append : ∀ {xs ys : List V}, xs ≠ [] → ys ≠ [] → I.wedge (xs ++ ys) = I.ep (I.wedge xs) (I.wedge ys)
  | [], _, h, _ => absurd rfl h
  | [x], [], _, h => absurd rfl h
  | [x], y :: ys, _, _ => by simp [Interp.wedge]
  | x :: x' :: xs, ys, _, h => by
    have ih := wedge_append (xs := x' :: xs) (ys := ys) (by simp) h
    rw [List.cons_append, List.cons_append, Interp.wedge, ← List.cons_append, ih, Interp.wedge, I.ep_assoc]

/-- The condition on the factors of an exterior product. -/
def EpQ (q : Rat32) : Prop := q.num = 0

theorem termVal_ep {x : Opd} (h : OpdGood EpQ x) : termVal I x = x.2.val I := by
  unfold termVal; rw [if_pos (show x.1.q.num = 0 from h.2.2.1)]

/-- The end of `operator^`. -/
theorem finishEp_means {xs : List Opd} (h : ∀ t ∈ xs, OpdGood EpQ t) (hx : 0 < xs.length) {q : Rat32} (hq : SumQ q)
    {ns : List Node} (hns : ns = flatBlocks (xs.map blk)) {k : Nat} (hk : k = xs.length) :
    Means I (finishEp ns k q) (q.toQ • I.wedge (xs.map fun x => x.2.val I)) := by
  subst hns hk
  refine Or.inr ⟨.poly ⟨Op.ep, bloom (flatBlocks (xs.map blk)).length ((flatBlocks (xs.map blk)).drop 1) 0, xs.length,
    ⟨0, (flatBlocks (xs.map blk)).length + 1⟩⟩ (Forest.ofList xs), ?_, ?_, hq.1, hq.2, ?_⟩
  · unfold Tree.Good
    refine ⟨Or.inr rfl, by rw [ofList_length], by rw [ofList_length]; exact hx, ?_⟩
    rw [ofList_good]
    intro z hz
    have := h z hz
    unfold EpQ at this
    simpa using this
  · rw [Tree.post, ofList_post]; rfl
  · rw [Tree.val, if_neg (by dsimp only; decide), ofList_vals]
    have : xs.map (termVal I) = xs.map fun x => x.2.val I := List.map_congr_left fun x hx => termVal_ep (h x hx)
    rw [this]; rfl

/-- The last operation of an expression is an exterior product. -/
def EndsInEp (e : Rpne) : Prop := e.nodes.getLast?.map Node.o = some Op.ep

theorem endsInEp_iff {e : Rpne} {t : Tree} (h : e.nodes = t.post) : EndsInEp e ↔ t.root.o = Op.ep := by
  unfold EndsInEp
  rw [h, post_eq]; simp

theorem factorNodes_ok {e : Rpne} {t : Tree} {ns : List Node} (hg : t.Good) (hp : e.nodes = t.post)
    (h : factorNodes e = ok ns) : ∃ x : Opd, ns = flatBlocks [blk x] ∧ OpdGood EpQ x ∧ x.2 = t := by
  unfold factorNodes at h
  simp only [bind_eq_ok, pure_eq, ok_inj] at h
  obtain ⟨c, _, rfl⟩ := h
  exact ⟨(⟨Op.se, c.checksum, e.nodes.length, Rat32.zero⟩, t), by rw [hp]; simp [flatBlocks, blk, Block.flat],
    ⟨rfl, by dsimp only; rw [hp], rfl, hg⟩, rfl⟩

/-- `l ^ r`.  If an operand is already an exterior product the two factors have to cancel. -/
theorem C33_ep_partial {l r e : Rpne} {v w : V} (hl : Means I l v) (hr : Means I r w)
    (hq : EndsInEp l ∨ EndsInEp r → l.q.toQ * r.q.toQ = 1) (he : epExpr l r = ok e) : Means I e (I.ep v w) := by
  unfold epExpr at he
  split at he
  · rename_i h0
    rw [ok_inj] at he; subst he
    refine Or.inl ⟨rfl, ?_⟩
    rcases hl with ⟨_, rfl⟩ | ⟨tl, gl, pl, wl, nl, rfl⟩
    · simp
    rcases hr with ⟨_, rfl⟩ | ⟨tr, gr, pr, wr, nr, rfl⟩
    · simp
    rcases h0 with h | h | h | h
    · exact absurd (pl.symm.trans h) (post_ne_nil _)
    · exact absurd (pr.symm.trans h) (post_ne_nil _)
    · rw [Rat32.isZero_iff wr] at h; simp [h]
    · rw [Rat32.isZero_iff wl] at h; simp [h]
  · rename_i h0
    push Not at h0
    obtain ⟨tl, gl, pl, wl, nl, rfl⟩ := means_tree hl h0.1
    obtain ⟨tr, gr, pr, wr, nr, rfl⟩ := means_tree hr h0.2.1
    have opds : ∀ {n : Node} {f : Forest}, n.o = Op.ep → (Tree.poly n f).Good → (∀ x ∈ f.toList, OpdGood EpQ x) ∧
        f.post = flatBlocks (f.toList.map blk) ∧ n.ex = f.toList.length ∧ 0 < f.toList.length ∧
        (Tree.poly n f).val I = I.wedge (f.toList.map fun x => x.2.val I) := by
      intro n f hn h
      unfold Tree.Good at h
      have hs : n.o ≠ Op.sum := by rw [hn]; decide
      have h1 : ∀ x ∈ f.toList, OpdGood EpQ x := by
        rw [← ofList_good, ofList_toList]
        have := h.2.2.2
        simp only [if_neg hs] at this
        exact this
      refine ⟨h1, ?_, ?_, ?_, ?_⟩
      · rw [← ofList_post, ofList_toList]
      · rw [h.2.1, ← ofList_length, ofList_toList]
      · rw [← ofList_length, ofList_toList]; exact h.2.2.1
      · rw [Tree.val, if_neg hs]
        have : f.toList.map (termVal I) = f.toList.map fun x => x.2.val I := List.map_congr_left fun x hx => termVal_ep (h1 x hx)
        rw [← this, ← ofList_vals, ofList_toList]
    have finish : ∀ {xs ys : List Opd} {q : Rat32}, (∀ x ∈ xs, OpdGood EpQ x) → (∀ x ∈ ys, OpdGood EpQ x) → 0 < xs.length →
        0 < ys.length → SumQ q → ∀ {ns : List Node} {k : Nat}, ns = flatBlocks (xs.map blk) ++ flatBlocks (ys.map blk) →
        k = xs.length + ys.length →
        Means I (finishEp ns k q) (q.toQ • I.ep (I.wedge (xs.map fun x => x.2.val I)) (I.wedge (ys.map fun x => x.2.val I))) := by
      intro xs ys q gx gy lx ly hq ns k hns hk
      have hne : ∀ {zs : List Opd}, 0 < zs.length → zs.map (fun x => x.2.val I) ≠ [] := by
        intro zs hz e; rw [List.map_eq_nil_iff] at e; rw [e] at hz; simp at hz
      rw [← wedge_append (hne lx) (hne ly), ← List.map_append]
      refine finishEp_means ?_ (by simp; omega) hq (by rw [hns]; simp [flatBlocks]) (by rw [hk]; simp)
      intro x hx
      rcases List.mem_append.1 hx with hx | hx
      · exact gx x hx
      · exact gy x hx
    have goal_eq : I.ep (l.q.toQ • tl.val I) (r.q.toQ • tr.val I) = (l.q.toQ * r.q.toQ) • I.ep (tl.val I) (tr.val I) := by
      simp [smul_smul, mul_comm]
    rw [goal_eq]
    have one : SumQ Rat32.one := ⟨Rat32.one_wf, one_num⟩
    rw [pl, pr, backOf_post, backOf_post, ok_bind, ok_bind] at he
    by_cases hel : tl.root.o = Op.ep
    · rw [hq (Or.inl ((endsInEp_iff pl).2 hel))]
      obtain ⟨n, f, rfl, hn⟩ := root_ep gl hel
      obtain ⟨ol, fl, el, ll, vl⟩ := opds hn gl
      rw [if_pos hel] at he
      by_cases her : tr.root.o = Op.ep
      · obtain ⟨m, g, rfl, hm⟩ := root_ep gr her
        obtain ⟨or', fr, er, lr, vr⟩ := opds hm gr
        rw [if_pos her, pure_eq, ok_inj] at he; subst he
        rw [vl, vr]
        have := finish ol or' ll lr one (ns := f.post ++ g.post) (k := n.ex + m.ex) (by rw [fl, fr]) (by rw [el, er])
        rw [Rat32.toQ_one] at this
        rw [dropLast_post, dropLast_post]
        exact this
      · rw [if_neg her] at he
        simp only [bind_eq_ok, pure_eq, ok_inj] at he
        obtain ⟨ns, hns, rfl⟩ := he
        obtain ⟨x, rfl, gx, rfl⟩ := factorNodes_ok gr pr hns
        rw [vl]
        have := finish ol (ys := [x]) (by simpa using gx) ll (by simp) one (ns := f.post ++ flatBlocks [blk x]) (k := n.ex + 1)
          (by rw [fl]; rfl) (by rw [el]; rfl)
        rw [Rat32.toQ_one] at this
        rw [dropLast_post]
        exact this
    · rw [if_neg hel] at he
      by_cases her : tr.root.o = Op.ep
      · rw [hq (Or.inr ((endsInEp_iff pr).2 her))]
        obtain ⟨m, g, rfl, hm⟩ := root_ep gr her
        obtain ⟨or', fr, er, lr, vr⟩ := opds hm gr
        rw [if_pos her] at he
        simp only [bind_eq_ok, pure_eq, ok_inj] at he
        obtain ⟨ns, hns, rfl⟩ := he
        obtain ⟨x, rfl, gx, rfl⟩ := factorNodes_ok gl pl hns
        rw [vr]
        have := finish (xs := [x]) (by simpa using gx) or' (by simp) lr one (ns := flatBlocks [blk x] ++ g.post) (k := m.ex + 1)
          (by rw [fr]; rfl) (by rw [er]; simp; omega)
        rw [Rat32.toQ_one] at this
        rw [dropLast_post]
        exact this
      · rw [if_neg her] at he
        simp only [bind_eq_ok, pure_eq, ok_inj] at he
        obtain ⟨ns, hns, ms, hms, q, hq', rfl⟩ := he
        obtain ⟨x, rfl, gx, rfl⟩ := factorNodes_ok gl pl hns
        obtain ⟨y, rfl, gy, rfl⟩ := factorNodes_ok gr pr hms
        obtain ⟨e1, w1⟩ := Rat32.mul_spec wl wr hq'
        rw [← e1]
        exact finish (xs := [x]) (ys := [y]) (by simpa using gx) (by simpa using gy) (by simp) (by simp)
          ⟨w1, num_ne_of w1 (by rw [e1]; exact mul_ne_zero (toQ_ne_of wl nl) (toQ_ne_of wr nr))⟩ rfl rfl

example : ∃ e', epExpr (timesE 2 (argE 0)) (argE 1) = ok e' ∧ Means ratInterp e' (ratInterp.ep (((2 : ℤ) : ℚ) * (((0 : ℕ) : ℚ) + 2)) (((1 : ℕ) : ℚ) + 2)) := by
  obtain ⟨e', h⟩ := Out.exists_of_isOk (x := epExpr (timesE 2 (argE 0)) (argE 1)) (by decide +kernel)
  exact ⟨e', h, C33_ep_partial (timesE_means 2 (by decide) (by decide) 0) (argE_means 1) (fun h => absurd h (by unfold EndsInEp; simp [timesE, argE, entityExpr, Op.id, Op.ep])) h⟩

/-! ## C33: composite operators -/

theorem revExpr_q {e e' : Rpne} (he : revExpr e = ok e') : e'.q = Rat32.one := by
  unfold revExpr at he
  split at he
  · rw [ok_inj] at he; subst he; rfl
  · simp only [bind_eq_ok] at he
    obtain ⟨b, _, he⟩ := he
    split at he
    · rw [pure_eq, ok_inj] at he; subst he; rfl
    · simp only [bind_eq_ok, pure_eq, ok_inj] at he
      obtain ⟨_, _, rfl⟩ := he; rfl

theorem dualExpr_q {e e' : Rpne} (he : dualExpr e = ok e') : e'.q = Rat32.one := by
  unfold dualExpr at he
  split at he
  · rw [ok_inj] at he; subst he; rfl
  · simp only [bind_eq_ok, pure_eq, ok_inj] at he
    obtain ⟨_, _, rfl⟩ := he; rfl

/-- `l & r`, the dual of the exterior product of the duals, for operands whose factors are one. -/
theorem C33_join_partial {l r e : Rpne} {v w : V} (hl : Means I l v) (hr : Means I r w) (ql : l.q.toQ = 1) (qr : r.q.toQ = 1)
    (he : joinExpr l r = ok e) : Means I e (I.pd (I.ep (I.pd v) (I.pd w))) := by
  unfold joinExpr at he
  simp only [bind_eq_ok] at he
  obtain ⟨x, hx, y, hy, z, hz, he⟩ := he
  have mx := C33_dual_partial hl ql hx
  have my := C33_dual_partial hr qr hy
  have mz := C33_ep_partial mx my (fun _ => by rw [dualExpr_q hx, dualExpr_q hy, Rat32.toQ_one, one_mul]) hz
  refine C33_dual_partial mz ?_ he
  unfold epExpr at hz
  split at hz
  · rw [ok_inj] at hz; subst hz; exact Rat32.toQ_one
  · simp only [bind_eq_ok] at hz
    obtain ⟨_, _, _, _, hz⟩ := hz
    split at hz
    · split at hz
      · rw [pure_eq, ok_inj] at hz; subst hz; exact Rat32.toQ_one
      · simp only [bind_eq_ok, pure_eq, ok_inj] at hz
        obtain ⟨_, _, rfl⟩ := hz; exact Rat32.toQ_one
    · split at hz
      · simp only [bind_eq_ok, pure_eq, ok_inj] at hz
        obtain ⟨_, _, rfl⟩ := hz; exact Rat32.toQ_one
      · simp only [bind_eq_ok, pure_eq, ok_inj] at hz
        obtain ⟨_, _, _, _, q, hq, rfl⟩ := hz
        rw [dualExpr_q hx, dualExpr_q hy] at hq
        rw [show q = Rat32.one from (ok_inj.1 (hq.symm.trans (by decide +kernel)))]
        exact Rat32.toQ_one

example : ∃ e', joinExpr (argE 0) (argE 1) = ok e' ∧ Means ratInterp e' (ratInterp.pd (ratInterp.ep (ratInterp.pd (((0 : ℕ) : ℚ) + 2)) (ratInterp.pd (((1 : ℕ) : ℚ) + 2)))) := by
  obtain ⟨e', h⟩ := Out.exists_of_isOk (x := joinExpr (argE 0) (argE 1)) (by decide +kernel)
  exact ⟨e', h, C33_join_partial (argE_means 0) (argE_means 1) Rat32.toQ_one Rat32.toQ_one h⟩

theorem gpExpr_ne {l r e : Rpne} {v w : V} (hl : Means I l v) (hr : Means I r w) (l0 : l.nodes ≠ []) (r0 : r.nodes ≠ [])
    (he : gpExpr l r = ok e) : e.nodes ≠ [] := by
  unfold gpExpr at he
  rw [if_neg l0, if_neg r0] at he
  simp only [bind_eq_ok] at he
  obtain ⟨lb, _, rb, _, he⟩ := he
  obtain ⟨tl, gl, pl, wl, nl, rfl⟩ := means_tree hl l0
  obtain ⟨tr, gr, pr, wr, nr, rfl⟩ := means_tree hr r0
  unfold productExpr at he
  simp only [bind_eq_ok] at he
  obtain ⟨q, hq, he⟩ := he
  obtain ⟨e1, w1⟩ := Rat32.mul_spec wl wr hq
  rw [if_neg (by rw [Rat32.isZero_iff w1, e1]; exact mul_ne_zero (toQ_ne_of wl nl) (toQ_ne_of wr nr))] at he
  simp only [bind_eq_ok, pure_eq, ok_inj] at he
  obtain ⟨_, _, rfl⟩ := he
  simp

/-- `l % r`, the sandwich `r l ~r`, unless an operand is the zero expression, for a versor whose factor is one. -/
theorem C33_sandwich_partial {l r e : Rpne} {v w : V} (hl : Means I l v) (hr : Means I r w) (l0 : l.nodes ≠ []) (r0 : r.nodes ≠ [])
    (qr : r.q.toQ = 1) (he : sandwichExpr l r = ok e) : Means I e (I.gp (I.gp w v) (I.rev w)) := by
  unfold sandwichExpr at he
  simp only [bind_eq_ok] at he
  obtain ⟨x, hx, y, hy, he⟩ := he
  refine C33_gp_partial (C33_gp_partial hr hl r0 l0 hx) (C33_rev_partial hr qr hy) (gpExpr_ne hr hl r0 l0 hx) ?_ he
  intro hn
  rcases C33_rev_partial hr qr hy with ⟨_, hv⟩ | ⟨t, _, hp, _⟩
  · unfold revExpr at hy
    rw [if_neg r0] at hy
    simp only [bind_eq_ok] at hy
    obtain ⟨b, hb, hy⟩ := hy
    split at hy
    · rename_i hr'
      obtain ⟨t, g, p, _⟩ := means_tree hr r0
      rw [p, backOf_post, ok_inj] at hb; subst hb
      obtain ⟨n, s, rfl, _⟩ := root_rev g hr'
      rw [p, dropLast_post, pure_eq, ok_inj] at hy; subst hy
      exact post_ne_nil s hn
    · simp only [bind_eq_ok, pure_eq, ok_inj] at hy
      obtain ⟨ns, hns, rfl⟩ := hy
      obtain ⟨c, rfl⟩ := appendOp_ok hns
      simp at hn
  · exact post_ne_nil t (hp.symm.trans hn)

example : ∃ e', sandwichExpr (timesE 2 (argE 0)) (argE 1) = ok e' ∧ Means ratInterp e' (ratInterp.gp (ratInterp.gp (((1 : ℕ) : ℚ) + 2) (((2 : ℤ) : ℚ) * (((0 : ℕ) : ℚ) + 2))) (ratInterp.rev (((1 : ℕ) : ℚ) + 2))) := by
  obtain ⟨e', h⟩ := Out.exists_of_isOk (x := sandwichExpr (timesE 2 (argE 0)) (argE 1)) (by decide +kernel)
  exact ⟨e', h, C33_sandwich_partial (timesE_means 2 (by decide) (by decide) 0) (argE_means 1) (by simp [timesE, argE, entityExpr]) (by simp [argE, entityExpr]) Rat32.toQ_one h⟩

/-- `scalar_product(l, r)`: the scalar component of the inner product, whose operands may be exchanged. -/
theorem C33_scalarProduct_partial {l r e : Rpne} {v w : V} (hl : Means I l v) (hr : Means I r w) (l0 : l.nodes ≠ [])
    (r0 : r.nodes ≠ []) (he : scalarProductExpr l r = ok e) :
    Means I e (I.comp 0 (I.sip v w)) ∨ Means I e (I.comp 0 (I.sip w v)) := by
  unfold scalarProductExpr at he
  rw [if_neg l0, if_neg r0] at he
  simp only [bind_eq_ok] at he
  obtain ⟨x, hx, he⟩ := he
  have key : ∀ u, Means I x u → Means I e (I.comp 0 u) := by
    intro u mu
    split at he
    · rename_i h0
      rw [pure_eq, ok_inj] at he; subst he
      rcases mu with ⟨_, rfl⟩ | ⟨t, _, hp, _⟩
      · exact Or.inl ⟨h0, by simp⟩
      · exact absurd (hp.symm.trans h0) (post_ne_nil t)
    · rename_i h0
      simp only [bind_eq_ok, pure_eq, ok_inj] at he
      obtain ⟨b, _, rfl⟩ := he
      obtain ⟨t, hg, hp, hw, hn, rfl⟩ := means_tree mu h0
      refine Or.inr ⟨.un ⟨Op.comp, _, 0, ⟨0, 0⟩⟩ t, ?_, by rw [Tree.post, hp], hw, hn, ?_⟩
      · unfold Tree.Good
        exact ⟨Or.inr (Or.inr (Or.inl rfl)), fun h => absurd h (by unfold IsFun; dsimp only; decide), hg⟩
      · rw [Tree.val, if_neg (by dsimp only; decide), if_neg (by dsimp only; decide), if_pos rfl, map_smul]
  rcases C33_sip_partial hl hr l0 r0 hx with h | h
  · exact Or.inl (key _ h)
  · exact Or.inr (key _ h)

example : ∃ e', scalarProductExpr (timesE 2 (argE 0)) (argE 1) = ok e' ∧
    (Means ratInterp e' (ratInterp.comp 0 (ratInterp.sip (((2 : ℤ) : ℚ) * (((0 : ℕ) : ℚ) + 2)) (((1 : ℕ) : ℚ) + 2))) ∨ Means ratInterp e' (ratInterp.comp 0 (ratInterp.sip (((1 : ℕ) : ℚ) + 2) (((2 : ℤ) : ℚ) * (((0 : ℕ) : ℚ) + 2))))) := by
  obtain ⟨e', h⟩ := Out.exists_of_isOk (x := scalarProductExpr (timesE 2 (argE 0)) (argE 1)) (by decide +kernel)
  exact ⟨e', h, C33_scalarProduct_partial (timesE_means 2 (by decide) (by decide) 0) (argE_means 1) (by simp [timesE, argE, entityExpr]) (by simp [argE, entityExpr]) h⟩

end Gal
