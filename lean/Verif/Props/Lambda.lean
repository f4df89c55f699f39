import Verif.Spec.Lambda
import Verif.Props.Expr
import Verif.Props.Quotient

/-!
# Property C53: a lambda means what its operators mean

The operators of C33 and C34 put together: the expression a regular lambda builds has the value of the lambda.
-/

namespace Gal

open Out

variable {V : Type} [AddCommGroup V] [Module ℚ V] {I : Interp V}

/-! ## Conditions -/

theorem holds_ok {α : Type} {p : α → Bool} {x : α} : (ok x).holds p = p x := rfl

theorem both_ok {p : Rpne → Rpne → Bool} {l r : Rpne} : both p (ok l) (ok r) = p l r := rfl

theorem Rpne.nonzero_iff {e : Rpne} : e.nonzero = true ↔ e.nodes ≠ [] := by
  unfold Rpne.nonzero; simp

theorem Rpne.unit_toQ {e : Rpne} (h : e.unit = true) : e.q.toQ = 1 := by
  simp only [Rpne.unit, Bool.and_eq_true, bne_iff_ne, beq_iff_eq, ne_eq] at h
  unfold Rat32.toQ
  rw [h.2]
  exact div_self (by exact_mod_cast h.1)

theorem node_same_comm (a b : Node) : a.same b = b.same a := by
  unfold Node.same
  rw [Bool.beq_comm (a := a.o), Bool.beq_comm (a := a.checksum), Bool.beq_comm (a := a.ex)]

theorem nodesSame_comm : ∀ xs ys : List Node, nodesSame xs ys = nodesSame ys xs
  | [], [] => rfl
  | [], _ :: _ => rfl
  | _ :: _, [] => rfl
  | a :: as, b :: bs => by rw [nodesSame, nodesSame, node_same_comm, nodesSame_comm as bs]

theorem lastOp_post {e : Rpne} {t : Tree} (h : e.nodes = t.post) : e.lastOp = some t.root.o := by
  unfold Rpne.lastOp
  rw [h, post_eq]; simp

theorem termNodes_post {e : Rpne} {t : Tree} (g : t.Good) (h : e.nodes = t.post) : e.termNodes = t.terms.map Tree.post := by
  unfold Rpne.termNodes
  rw [lastOp_post h]
  by_cases hs : t.root.o = Op.sum
  · obtain ⟨n, f, rfl, hn⟩ := root_sum g hs
    rw [if_pos (by rw [hs])]
    unfold Tree.Good at g
    rw [summands_eq g.2.2.2 h]
    rw [Tree.terms, if_pos hn]
    have : f.terms = f.toList.map Prod.snd := by rw [← ofList_toList f, ofList_terms, ofList_toList]
    rw [this]
    simp [blk, Function.comp_def]
  · rw [if_neg (by simpa using hs), terms_of_ne hs, h]; rfl

theorem terms_good {t : Tree} (g : t.Good) : ∀ x ∈ t.terms, x.Good := by
  intro x hx
  by_cases h : t.root.o = Op.sum
  · obtain ⟨n, f, rfl, hn⟩ := root_sum g h
    unfold Tree.Good at g
    rw [Tree.terms, if_pos hn, ← ofList_toList f, ofList_terms] at hx
    obtain ⟨y, hy, rfl⟩ := List.mem_map.1 hx
    exact ((ofList_good f.toList).1 (by rw [ofList_toList]; exact g.2.2.2) y hy).2.2.2
  · rw [terms_of_ne h, List.mem_singleton] at hx; rw [hx]; exact g

theorem toQ_eq_of_cross {a b : Rat32} (ha : a.WF) (hb : b.WF) (h : a.num * b.den = b.num * a.den) : a.toQ = b.toQ := by
  unfold Rat32.toQ
  have h1 : (a.den : ℚ) ≠ 0 := by exact_mod_cast ha.pos.ne'
  have h2 : (b.den : ℚ) ≠ 0 := by exact_mod_cast hb.pos.ne'
  rw [div_eq_div_iff h1 h2]
  exact_mod_cast h

/-- **C34**, for expressions with factors inside their terms: like terms have to be the same. -/
theorem C34_like_partial {l r e : Rpne} {v w : V} (hl : Means I l v) (hr : Means I r w) (h : sumRegular l r = true) (he : addExpr l r = ok e) :
    Means I e (v + w) := by
  simp only [sumRegular, Bool.and_eq_true, Rpne.nonzero_iff] at h
  obtain ⟨⟨⟨⟨l0, r0⟩, hlike⟩, hq⟩, hz⟩ := h
  obtain ⟨tl, gl, pl, wl, nl, rfl⟩ := means_tree hl l0
  obtain ⟨tr, gr, pr, wr, nr, rfl⟩ := means_tree hr r0
  rw [likeTerms, termNodes_post gl pl, termNodes_post gr pr] at hlike
  have hsame : ∀ x ∈ tl.terms, ∀ y ∈ tr.terms, nodesSame x.post y.post = true → x = y := by
    intro x hx y hy hxy
    have := List.all_eq_true.1 hlike x.post (List.mem_map_of_mem hx)
    have := List.all_eq_true.1 this y.post (List.mem_map_of_mem hy)
    rw [hxy] at this
    exact Tree.post_inj (terms_good gl x hx).shape (terms_good gr y hy).shape (by simpa using this)
  have key := add_trees (I := I) (N := fun _ => True) gl gr pl pr ⟨wl, nl⟩ ⟨wr, nr⟩ ?_ ?_ (fun _ _ _ _ => trivial) he
  · rcases key with h | ⟨-, h⟩
    · exact h.means
    · rw [he, holds_ok, h] at hz
      simp at hz
  · intro x hx y hy h
    rw [nodesSame_comm y.post, or_self] at h
    rw [hsame x hx y hy h]
  · intro h1 h2
    rw [lastOp_post pl, lastOp_post pr, h1, h2] at hq
    exact toQ_eq_of_cross wl wr (by simpa using hq)

/-- The inner product, if the operands are in the order of the library. -/
theorem sip_ordered {l r e : Rpne} {v w : V} (hl : Means I l v) (hr : Means I r w) (l0 : l.nodes ≠ []) (r0 : r.nodes ≠ [])
    (ho : inOrder l r = true ∨ I.sip v w = I.sip w v) (he : sipExpr l r = ok e) : Means I e (I.sip v w) := by
  rcases ho with ho | ho
  · simp only [inOrder, Bool.or_eq_true, beq_iff_eq] at ho
    rcases ho with ho | ho
    · have hs : I.sip v w = I.sip w v := by
        obtain ⟨tl, gl, pl, wl, nl, rfl⟩ := means_tree hl l0
        obtain ⟨tr, gr, pr, wr, nr, rfl⟩ := means_tree hr r0
        have : tl = tr := Tree.post_inj gl.shape gr.shape (by rw [← pl, ← pr, ho])
        subst this
        simp [smul_smul, mul_comm]
      rcases C33_sip_partial hl hr l0 r0 he with h | h
      · exact h
      · rw [hs]; exact h
    · unfold sipExpr at he
      rw [if_neg l0, if_neg r0] at he
      simp only [bind_eq_ok] at he
      obtain ⟨lb, hlb, rb, hrb, he⟩ := he
      have h1 : l.nodes.getLast? = some lb := by
        unfold backOf at hlb
        cases h : l.nodes.getLast? <;> rw [h] at hlb <;> simp_all
      have h2 : r.nodes.getLast? = some rb := by
        unfold backOf at hrb
        cases h : r.nodes.getLast? <;> rw [h] at hrb <;> simp_all
      rw [h1, h2] at ho
      rw [if_pos (by simpa using ho)] at he
      obtain ⟨tl, gl, pl, wl, nl, rfl⟩ := means_tree hl l0
      obtain ⟨tr, gr, pr, wr, nr, rfl⟩ := means_tree hr r0
      have := productExpr_means (I := I) (f := I.sip) gl gr pl pr wl wr nl nr (Or.inr (Or.inr (Or.inl rfl))) (by decide)
        (fun n hn => by rw [Tree.val, if_neg (by rw [hn]; decide), if_neg (by rw [hn]; decide), if_pos hn]) he
      simpa [smul_smul, mul_comm] using this
  · rcases C33_sip_partial hl hr l0 r0 he with h | h
    · exact h
    · rw [ho]; exact h

theorem sprod_ordered {l r e : Rpne} {v w : V} (hl : Means I l v) (hr : Means I r w) (l0 : l.nodes ≠ []) (r0 : r.nodes ≠ [])
    (ho : inOrder l r = true ∨ I.sip v w = I.sip w v) (he : scalarProductExpr l r = ok e) : Means I e (I.comp 0 (I.sip v w)) := by
  unfold scalarProductExpr at he
  rw [if_neg l0, if_neg r0] at he
  simp only [bind_eq_ok] at he
  obtain ⟨x, hx, he⟩ := he
  have mu := sip_ordered hl hr l0 r0 ho hx
  split at he
  · rename_i h0
    rw [pure_eq, ok_inj] at he; subst he
    rcases mu with ⟨_, hv⟩ | ⟨t, _, hp, _⟩
    · exact Or.inl ⟨h0, by rw [hv]; simp⟩
    · exact absurd (hp.symm.trans h0) (post_ne_nil t)
  · rename_i h0
    simp only [bind_eq_ok, pure_eq, ok_inj] at he
    obtain ⟨b, _, rfl⟩ := he
    obtain ⟨t, hg, hp, hw, hn, hv⟩ := means_tree mu h0
    rw [hv]
    refine Or.inr ⟨.un ⟨Op.comp, _, 0, ⟨0, 0⟩⟩ t, ?_, by rw [Tree.post, hp], hw, hn, ?_⟩
    · unfold Tree.Good
      exact ⟨Or.inr (Or.inr (Or.inl rfl)), fun h => absurd h (by unfold IsFun; dsimp only; decide), hg⟩
    · rw [Tree.val, if_neg (by dsimp only; decide), if_neg (by dsimp only; decide), if_pos rfl, map_smul]

/-! ## C53 -/

/-- **C53.**  The expression that a regular lambda builds has the value of the lambda. -/
theorem C53_value_partial (I : Interp V) (off : Nat → Nat) : ∀ (f : Lam) {e : Rpne}, f.regular off = true → f.Ordered I off → f.build off = ok e →
    Means I e (f.val I off)
  | .arg k, e, _, _, he => by
    rw [Lam.build, ok_inj] at he; subst he
    exact C33_argument I _ _
  | .num n d, e, hr, _, he => by
    rw [Lam.build, ok_inj] at he; subst he
    simp only [Lam.regular, intRegular, Bool.and_eq_true, decide_eq_true_eq, bne_iff_ne] at hr
    exact C33_constant I hr.1.1.1 hr.1.2 hr.1.1.2 hr.2
  | .pi n d, e, hr, _, he => by
    simp only [Lam.regular, intRegular, Bool.and_eq_true, decide_eq_true_eq, bne_iff_ne] at hr
    exact C33_pi I hr.1.1.1 hr.1.2 hr.1.1.2 hr.2 (by simpa only [Lam.build, bind_eq_ok, ok_inj] using he)
  | .elem g n, e, hr, _, he => by
    rw [Lam.build, ok_inj] at he; subst he
    simp only [Lam.regular, intRegular, Bool.and_eq_true, decide_eq_true_eq, bne_iff_ne] at hr
    exact C33_element I g hr.1 hr.2
  | .scale n a, e, hr, ho, he => by
    simp only [Lam.build, bind_eq_ok] at he
    obtain ⟨x, hx, he⟩ := he
    simp only [Lam.regular, Bool.and_eq_true, decide_eq_true_eq] at hr
    exact C33_scale hr.2 (C53_value_partial I off a hr.1 ho hx) he
  | .divInt a d, e, hr, ho, he => by
    simp only [Lam.build, bind_eq_ok] at he
    obtain ⟨x, hx, he⟩ := he
    simp only [Lam.regular, Bool.and_eq_true, decide_eq_true_eq] at hr
    exact C33_divInt_partial hr.1.2 hr.2 (C53_value_partial I off a hr.1.1 ho hx) he
  | .neg a, e, hr, ho, he => by
    simp only [Lam.build, bind_eq_ok] at he
    obtain ⟨x, hx, he⟩ := he
    exact C33_neg (C53_value_partial I off a hr ho hx) he
  | .rev a, e, hr, ho, he => by
    simp only [Lam.build, bind_eq_ok] at he
    obtain ⟨x, hx, he⟩ := he
    simp only [Lam.regular, Bool.and_eq_true, hx, holds_ok] at hr
    exact C33_rev_partial (C53_value_partial I off a hr.1 ho hx) (Rpne.unit_toQ hr.2) he
  | .dual a, e, hr, ho, he => by
    simp only [Lam.build, bind_eq_ok] at he
    obtain ⟨x, hx, he⟩ := he
    simp only [Lam.regular, Bool.and_eq_true, hx, holds_ok] at hr
    exact C33_dual_partial (C53_value_partial I off a hr.1 ho hx) (Rpne.unit_toQ hr.2) he
  | .comp a g, e, hr, ho, he => by
    simp only [Lam.build, bind_eq_ok] at he
    obtain ⟨x, hx, he⟩ := he
    exact C33_component (C53_value_partial I off a hr ho hx) he
  | .grade a g, e, hr, ho, he => by
    simp only [Lam.build, bind_eq_ok] at he
    obtain ⟨x, hx, he⟩ := he
    exact C33_grade (C53_value_partial I off a hr ho hx) he
  | .fn o a, e, hr, ho, he => by
    simp only [Lam.build, bind_eq_ok] at he
    obtain ⟨x, hx, he⟩ := he
    simp only [Lam.regular, Bool.and_eq_true, Bool.or_eq_true, beq_iff_eq] at hr
    exact C33_function (by unfold IsFun; tauto) (C53_value_partial I off a hr.1 ho hx) he
  | .add a b, e, hr, ho, he => by
    simp only [Lam.build, bind_eq_ok] at he
    obtain ⟨x, hx, y, hy, he⟩ := he
    simp only [Lam.regular, Bool.and_eq_true, hx, hy, both_ok] at hr
    exact C34_like_partial (C53_value_partial I off a hr.1.1 ho.1 hx) (C53_value_partial I off b hr.1.2 ho.2 hy) hr.2 he
  | .sub a b, e, hr, ho, he => by
    simp only [Lam.build, subExpr, bind_eq_ok] at he
    obtain ⟨x, hx, y, hy, z, hz, he⟩ := he
    simp only [Lam.regular, Bool.and_eq_true, hx, hy, ok_bind, hz, both_ok] at hr
    rw [Lam.val, sub_eq_add_neg]
    exact C34_like_partial (C53_value_partial I off a hr.1.1 ho.1 hx) (C33_neg (C53_value_partial I off b hr.1.2 ho.2 hy) hz) hr.2 he
  | .addInt n a, e, hr, ho, he => by
    simp only [Lam.build, addIntExpr, bind_eq_ok] at he
    obtain ⟨x, hx, he⟩ := he
    simp only [Lam.regular, intRegular, Bool.and_eq_true, decide_eq_true_eq, bne_iff_ne, hx, holds_ok] at hr
    have := C33_constant I hr.1.2.1 (by decide : InI32 1) hr.1.2.2 (by decide)
    rw [Int.cast_one, div_one] at this
    exact C34_like_partial this (C53_value_partial I off a hr.1.1 ho hx) hr.2 he
  | .intSub n a, e, hr, ho, he => by
    simp only [Lam.build, intSubExpr, bind_eq_ok] at he
    obtain ⟨x, hx, y, hy, he⟩ := he
    simp only [Lam.regular, intRegular, Bool.and_eq_true, decide_eq_true_eq, bne_iff_ne, hx, ok_bind, hy, holds_ok] at hr
    have := C33_constant I hr.1.2.1 (by decide : InI32 1) hr.1.2.2 (by decide)
    rw [Int.cast_one, div_one] at this
    rw [Lam.val, sub_eq_add_neg]
    exact C34_like_partial this (C33_neg (C53_value_partial I off a hr.1.1 ho hx) hy) hr.2 he
  | .subInt a n, e, hr, ho, he => by
    simp only [Lam.build, subIntExpr, bind_eq_ok, chk_eq_ok] at he
    obtain ⟨x, hx, m, ⟨hm, rfl⟩, he⟩ := he
    simp only [Lam.regular, intRegular, Bool.and_eq_true, decide_eq_true_eq, bne_iff_ne, hx, holds_ok] at hr
    have := C33_constant I hr.1.2.1 (by decide : InI32 1) hr.1.2.2 (by decide)
    rw [Int.cast_one, div_one] at this
    have e1 : (Lam.subInt a n).val I off = (((-n : Int) : ℚ) • I.one + a.val I off) := by rw [Lam.val]; push_cast; rw [neg_smul]; abel
    rw [e1]
    exact C34_like_partial this (C53_value_partial I off a hr.1.1 ho hx) hr.2 he
  | .gp a b, e, hr, ho, he => by
    simp only [Lam.build, bind_eq_ok] at he
    obtain ⟨x, hx, y, hy, he⟩ := he
    simp only [Lam.regular, Bool.and_eq_true, hx, hy, both_ok, Rpne.nonzero_iff] at hr
    exact C33_gp_partial (C53_value_partial I off a hr.1.1 ho.1 hx) (C53_value_partial I off b hr.1.2 ho.2 hy) hr.2.1 hr.2.2 he
  | .lc a b, e, hr, ho, he => by
    simp only [Lam.build, bind_eq_ok] at he
    obtain ⟨x, hx, y, hy, he⟩ := he
    simp only [Lam.regular, Bool.and_eq_true, hx, hy, both_ok, Rpne.nonzero_iff] at hr
    exact C33_lc_partial (C53_value_partial I off a hr.1.1 ho.1 hx) (C53_value_partial I off b hr.1.2 ho.2 hy) hr.2.1 hr.2.2 he
  | .sip a b, e, hr, ho, he => by
    simp only [Lam.build, bind_eq_ok] at he
    obtain ⟨x, hx, y, hy, he⟩ := he
    simp only [Lam.regular, Bool.and_eq_true, hx, hy, both_ok, Rpne.nonzero_iff] at hr
    simp only [Lam.Ordered, hx, hy, both_ok] at ho
    exact sip_ordered (C53_value_partial I off a hr.1.1 ho.1 hx) (C53_value_partial I off b hr.1.2 ho.2.1 hy) hr.2.1 hr.2.2 ho.2.2 he
  | .ep a b, e, hr, ho, he => by
    simp only [Lam.build, bind_eq_ok] at he
    obtain ⟨x, hx, y, hy, he⟩ := he
    simp only [Lam.regular, Bool.and_eq_true, hx, hy, both_ok] at hr
    refine C33_ep_partial (C53_value_partial I off a hr.1.1 ho.1 hx) (C53_value_partial I off b hr.1.2 ho.2 hy) (fun h => ?_) he
    have h1 := hr.2
    simp only [epRegular, Bool.or_eq_true, Bool.not_eq_true', Bool.or_eq_false_iff, Bool.and_eq_true, bne_iff_ne, beq_iff_eq] at h1
    rcases h1 with h1 | h1
    · rcases h with h | h
      · simp [Rpne.lastOp, EndsInEp] at h h1; exact absurd h (by simpa using h1.1)
      · simp [Rpne.lastOp, EndsInEp] at h h1; exact absurd h (by simpa using h1.2)
    · unfold Rat32.toQ
      have h2 : (x.q.den : ℚ) ≠ 0 := by exact_mod_cast h1.1.1
      have h3 : (y.q.den : ℚ) ≠ 0 := by exact_mod_cast h1.1.2
      rw [div_mul_div_comm, div_eq_one_iff_eq (mul_ne_zero h2 h3)]
      exact_mod_cast h1.2
  | .join a b, e, hr, ho, he => by
    simp only [Lam.build, bind_eq_ok] at he
    obtain ⟨x, hx, y, hy, he⟩ := he
    simp only [Lam.regular, Bool.and_eq_true, hx, hy, both_ok] at hr
    exact C33_join_partial (C53_value_partial I off a hr.1.1 ho.1 hx) (C53_value_partial I off b hr.1.2 ho.2 hy) (Rpne.unit_toQ hr.2.1)
      (Rpne.unit_toQ hr.2.2) he
  | .sandwich a b, e, hr, ho, he => by
    simp only [Lam.build, bind_eq_ok] at he
    obtain ⟨x, hx, y, hy, he⟩ := he
    simp only [Lam.regular, Bool.and_eq_true, hx, hy, both_ok, Rpne.nonzero_iff] at hr
    exact C33_sandwich_partial (C53_value_partial I off a hr.1.1 ho.1 hx) (C53_value_partial I off b hr.1.2 ho.2 hy) hr.2.1.1 hr.2.1.2
      (Rpne.unit_toQ hr.2.2) he
  | .sprod a b, e, hr, ho, he => by
    simp only [Lam.build, bind_eq_ok] at he
    obtain ⟨x, hx, y, hy, he⟩ := he
    simp only [Lam.regular, Bool.and_eq_true, hx, hy, both_ok, Rpne.nonzero_iff] at hr
    simp only [Lam.Ordered, hx, hy, both_ok] at ho
    exact sprod_ordered (C53_value_partial I off a hr.1.1 ho.1 hx) (C53_value_partial I off b hr.1.2 ho.2.1 hy) hr.2.1 hr.2.2 ho.2.2 he
  | .div a b, e, hr, ho, he => by
    simp only [Lam.build, bind_eq_ok] at he
    obtain ⟨x, hx, y, hy, he⟩ := he
    simp only [Lam.regular, Bool.and_eq_true, hx, hy, both_ok, Rpne.nonzero_iff] at hr
    exact C33_div (C53_value_partial I off a hr.1.1 ho.1 hx) (C53_value_partial I off b hr.1.2 ho.2 hy) hr.2.1 hr.2.2 he
  | .inv a, e, hr, ho, he => by
    simp only [Lam.build, bind_eq_ok] at he
    obtain ⟨x, hx, he⟩ := he
    simp only [Lam.regular, Bool.and_eq_true, hx, holds_ok, Rpne.nonzero_iff, decide_eq_true_eq] at hr
    exact C33_intDiv_partial (C53_value_partial I off a hr.1 ho hx) hr.2.1 hr.2.2 he

end Gal
