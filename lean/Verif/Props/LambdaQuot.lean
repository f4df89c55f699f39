import Verif.Props.LambdaMore
import Verif.Props.QuotCompute

/-!
# Property C53: lambdas with quotients and functions

The divisors in the expression a lambda builds are the divisors in the lambda, up to a factor.
-/

namespace Gal

open Out

/-! ## Divisors in a list of nodes -/

section

variable {V : Type} [AddCommGroup V] [Module ℚ V] {I : Interp V} {ck : Node → V → Prop}

instance (o : Nat) : Decidable (IsQuot o) := by unfold IsQuot; infer_instance

/-- Before each quotient or function in the list are the nodes of a divisor or operand whose value satisfies `ck`. -/
def DivP (ck : Node → V → Prop) (I : Interp V) (ns : List Node) : Prop :=
  ∀ a d b, ns = a ++ d :: b → IsQuot d.o → ∃ a' r, a = a' ++ Tree.post r ∧ r.Shape ∧ ck d (r.val I)

theorem append_cons_cases {α : Type} {x y a b : List α} {d : α} (h : x ++ y = a ++ d :: b) :
    (∃ b', x = a ++ d :: b') ∨ ∃ a', a = x ++ a' ∧ y = a' ++ d :: b := by
  rcases List.append_eq_append_iff.1 h with ⟨a', h1, h2⟩ | ⟨c, h1, h2⟩
  · exact Or.inr ⟨a', h1, h2⟩
  · cases c with
    | nil =>
      simp only [List.nil_append] at h2
      simp only [List.append_nil] at h1
      exact Or.inr ⟨[], by simp [h1], by simp [h2]⟩
    | cons z c =>
      simp only [List.cons_append, List.cons.injEq] at h2
      exact Or.inl ⟨c, by rw [h1, h2.1]⟩

theorem divP_nil : DivP ck I [] := by
  intro a d b h
  simp at h

theorem divP_append {x y : List Node} (hx : DivP ck I x) (hy : DivP ck I y) : DivP ck I (x ++ y) := by
  intro a d b h hd
  rcases append_cons_cases h with ⟨b', h⟩ | ⟨a', rfl, k⟩
  · exact hx a d b' h hd
  · obtain ⟨a2, r, rfl, h1, h2⟩ := hy a' d b k hd
    exact ⟨x ++ a2, r, by simp, h1, h2⟩

theorem divP_one {n : Node} (h : ¬ IsQuot n.o) : DivP ck I [n] := by
  intro a d b e hd
  have := List.append_eq_cons_iff.1 e.symm
  rcases this with ⟨_, h2⟩ | ⟨_, _, h2⟩
  · simp only [List.cons.injEq] at h2
    exact absurd (h2.1 ▸ hd) h
  · simp at h2

theorem divP_cons {n : Node} {ns : List Node} (h : ¬ IsQuot n.o) (hn : DivP ck I ns) : DivP ck I (n :: ns) :=
  divP_append (x := [n]) (divP_one h) hn

theorem divP_prefix {x y : List Node} (h : DivP ck I (x ++ y)) : DivP ck I x := by
  intro a d b e hd
  exact h a d (b ++ y) (by rw [e]; simp) hd

theorem divP_dropLast {ns : List Node} (h : DivP ck I ns) : DivP ck I ns.dropLast := by
  rcases List.eq_nil_or_concat ns with rfl | ⟨l, x, rfl⟩
  · exact divP_nil
  · rw [List.concat_eq_append, List.dropLast_concat]
    rw [List.concat_eq_append] at h
    exact divP_prefix h

mutual

/-- Before each quotient or function in a tree are the nodes of a tree that belongs to it. -/
theorem Tree.divisor : ∀ {t : Tree} {a b : List Node} {d : Node}, t.Shape → t.post = a ++ d :: b → IsQuot d.o →
    ∃ a' r, a = a' ++ Tree.post r ∧ r.Shape
  | .leaf n, a, b, d, ht, h, hd => by
    rw [Tree.post] at h
    rw [Tree.Shape] at ht
    rcases List.append_eq_cons_iff.1 h.symm with ⟨_, h2⟩ | ⟨_, _, h2⟩
    · simp only [List.cons.injEq] at h2
      rcases h2.1 ▸ hd with hd | hd
      · exact (ht.not_bin (Or.inr (Or.inr (Or.inr hd)))).elim
      · exact (ht.not_un (Or.inr (Or.inr (Or.inr (Or.inr hd))))).elim
    · simp at h2
  | .un n t, a, b, d, ht, h, hd => by
    rw [Tree.post] at h
    rw [Tree.Shape] at ht
    rcases append_cons_cases h with ⟨b', h⟩ | ⟨a', rfl, k⟩
    · exact Tree.divisor ht.2 h hd
    · rcases List.append_eq_cons_iff.1 k.symm with ⟨rfl, h2⟩ | ⟨_, _, h2⟩
      · exact ⟨[], t, by simp, ht.2⟩
      · simp at h2
  | .bin n l r, a, b, d, ht, h, hd => by
    rw [Tree.post] at h
    rw [Tree.Shape] at ht
    rcases append_cons_cases h with ⟨b', h⟩ | ⟨a', rfl, k⟩
    · rcases append_cons_cases h with ⟨b', h⟩ | ⟨a', rfl, k⟩
      · exact Tree.divisor ht.2.1 h hd
      · obtain ⟨a2, r', rfl, h1⟩ := Tree.divisor ht.2.2 k hd
        exact ⟨l.post ++ a2, r', by simp, h1⟩
    · rcases List.append_eq_cons_iff.1 k.symm with ⟨rfl, h2⟩ | ⟨_, _, h2⟩
      · exact ⟨l.post, r, by simp, ht.2.2⟩
      · simp at h2
  | .poly n f, a, b, d, ht, h, hd => by
    rw [Tree.post] at h
    rw [Tree.Shape] at ht
    rcases append_cons_cases h with ⟨b', h⟩ | ⟨a', rfl, k⟩
    · exact Forest.divisor ht.2.2.2 h hd
    · rcases List.append_eq_cons_iff.1 k.symm with ⟨_, h2⟩ | ⟨_, _, h2⟩
      · simp only [List.cons.injEq] at h2
        rw [h2.1] at hd
        exact absurd hd (by rcases ht.1 with h | h <;> rw [h] <;> decide)
      · simp at h2

theorem Forest.divisor : ∀ {f : Forest} {a b : List Node} {d : Node}, f.Shape → f.post = a ++ d :: b → IsQuot d.o →
    ∃ a' r, a = a' ++ Tree.post r ∧ r.Shape
  | .nil, a, b, d, _, h, _ => by rw [Forest.post] at h; simp at h
  | .cons se t f, a, b, d, hf, h, hd => by
    rw [Forest.post] at h
    rw [Forest.Shape] at hf
    have h : [se] ++ (t.post ++ f.post) = a ++ d :: b := h
    rcases append_cons_cases h with ⟨b', h⟩ | ⟨a', rfl, k⟩
    · rcases List.append_eq_cons_iff.1 h.symm with ⟨_, h2⟩ | ⟨_, _, h2⟩
      · simp only [List.cons.injEq] at h2
        rw [h2.1, hf.1] at hd
        exact absurd hd (by decide)
      · simp at h2
    · rcases append_cons_cases k with ⟨b', h⟩ | ⟨a2, rfl, j⟩
      · obtain ⟨a3, r, rfl, h1⟩ := Tree.divisor hf.2.2.1 h hd
        exact ⟨[se] ++ a3, r, by simp, h1⟩
      · obtain ⟨a3, r, rfl, h1⟩ := Forest.divisor hf.2.2.2 j hd
        exact ⟨[se] ++ (t.post ++ a3), r, by simp, h1⟩

end

theorem divP_infix {t : Tree} (ht : t.Shape) {x y : List Node} (h : DivP ck I (x ++ t.post ++ y)) : DivP ck I t.post := by
  intro a d b e hd
  obtain ⟨a', r, rfl, hr⟩ := Tree.divisor ht e hd
  obtain ⟨a2, r2, h1, h2, h3⟩ := h (x ++ (a' ++ r.post)) d (b ++ y) (by rw [e]; simp) hd
  rw [← List.append_assoc] at h1
  obtain ⟨rfl, _⟩ := Tree.post_suffix hr h2 h1
  exact ⟨a', r, rfl, hr, h3⟩

/-- The divisors in the tree satisfy `ck`. -/
theorem divP_tree {T : Tree} (hT : T.Good) (h : DivP ck I T.post) {p : Nat} {x : Node} {l r : Tree} (hp : T.At p (.bin x l r)) (hx : x.o = Op.div) :
    ck x (r.val I) := by
  obtain ⟨a, b, e, -⟩ := hp.split
  have hs := (hp.good hT).shape
  rw [Tree.Shape] at hs
  rw [Tree.post] at e
  obtain ⟨a', r', h1, h2, h3⟩ := h (a ++ l.post ++ r.post) x b (by rw [e]; simp) (Or.inl hx)
  obtain ⟨rfl, _⟩ := Tree.post_suffix hs.2.2 h2 h1
  exact h3

/-- The operands of functions in the tree satisfy `ck`. -/
theorem fnP_tree {T : Tree} (hT : T.Good) (h : DivP ck I T.post) {p : Nat} {x : Node} {l : Tree} (hp : T.At p (.un x l)) (hx : IsFun x.o) :
    ck x (l.val I) := by
  obtain ⟨a, b, e, -⟩ := hp.split
  have hs := (hp.good hT).shape
  rw [Tree.Shape] at hs
  rw [Tree.post] at e
  obtain ⟨a', r', h1, h2, h3⟩ := h (a ++ l.post) x b (by rw [e]; simp) (Or.inr hx)
  obtain ⟨rfl, _⟩ := Tree.post_suffix hs.2 h2 h1
  exact h3

/-! ## Sums -/

/-- The operand of a sum or exterior product. -/
def BlockD (ck : Node → V → Prop) (I : Interp V) (b : Block) : Prop := ¬ IsQuot b.se.o ∧ DivP ck I b.body

theorem scale_divs {q : Rat32} {b c : Block} (hb : BlockD ck I b) (h : b.scale q = ok c) : BlockD ck I c := by
  unfold Block.scale at h
  simp only [bind_eq_ok, pure_eq, ok_inj] at h
  obtain ⟨q', _, rfl⟩ := h
  exact hb

theorem scaleAll_divs {q : Rat32} : ∀ {bs cs : List Block}, (∀ b ∈ bs, BlockD ck I b) → mapO (Block.scale q) bs = ok cs → ∀ c ∈ cs, BlockD ck I c
  | [], cs, _, h => by rw [mapO_nil_ok.1 h]; simp
  | b :: bs, cs, hb, h => by
    obtain ⟨y, ys, h1, h2, rfl⟩ := mapO_cons_ok.1 h
    rw [List.forall_mem_cons] at hb ⊢
    exact ⟨scale_divs hb.1 h1, scaleAll_divs hb.2 h2⟩

theorem mergeSums_divs {lq rq : Rat32} : ∀ (k : Nat) {ls rs bs : List Block}, (∀ b ∈ ls, BlockD ck I b) → (∀ b ∈ rs, BlockD ck I b) →
    mergeSums lq rq k ls rs = ok bs → ∀ b ∈ bs, BlockD ck I b
  | k, [], rs, bs, _, hr, h => by
    rw [mergeSums] at h
    exact scaleAll_divs hr h
  | k, l :: ls, [], bs, hl, _, h => by
    rw [mergeSums] at h
    exact scaleAll_divs hl h
  | 0, _ :: _, _ :: _, _, _, _, h => by cases h
  | k + 1, l :: ls, r :: rs, bs, hl, hr, h => by
    rw [mergeSums] at h
    have hl' := List.forall_mem_cons.1 hl
    have hr' := List.forall_mem_cons.1 hr
    split at h
    · simp only [bind_eq_ok] at h
      obtain ⟨x, _, y, _, q, _, out, ho, h⟩ := h
      have ih := mergeSums_divs k hl'.2 hr'.2 ho
      split at h
      · rw [pure_eq, ok_inj] at h; subst h; exact ih
      · rw [pure_eq, ok_inj] at h; subst h
        exact List.forall_mem_cons.2 ⟨⟨by show ¬ IsQuot Op.se; decide, hl'.1.2⟩, ih⟩
    · split at h
      · simp only [bind_eq_ok, pure_eq, ok_inj] at h
        obtain ⟨b, hb, out, ho, rfl⟩ := h
        exact List.forall_mem_cons.2 ⟨scale_divs hl'.1 hb, mergeSums_divs k hl'.2 hr ho⟩
      · simp only [bind_eq_ok, pure_eq, ok_inj] at h
        obtain ⟨b, hb, out, ho, rfl⟩ := h
        exact List.forall_mem_cons.2 ⟨scale_divs hr'.1 hb, mergeSums_divs k hl hr'.2 ho⟩

theorem mergeTerm_divs {sq : Rat32} {x : Block} (hx : BlockD ck I x) : ∀ {bs cs : List Block}, (∀ b ∈ bs, BlockD ck I b) →
    mergeTerm sq x bs = ok cs → ∀ c ∈ cs, BlockD ck I c
  | [], cs, _, h => by
    rw [mergeTerm, ok_inj] at h; subst h
    simpa using hx
  | b :: bs, cs, hb, h => by
    rw [mergeTerm] at h
    have hb' := List.forall_mem_cons.1 hb
    split at h
    · simp only [bind_eq_ok] at h
      obtain ⟨_, _, q, _, rest, hr, h⟩ := h
      have ih := scaleAll_divs hb'.2 hr
      split at h
      · rw [pure_eq, ok_inj] at h; subst h; exact ih
      · rw [pure_eq, ok_inj] at h; subst h
        exact List.forall_mem_cons.2 ⟨hx, ih⟩
    · split at h
      · simp only [bind_eq_ok, pure_eq, ok_inj] at h
        obtain ⟨rest, hr, rfl⟩ := h
        exact List.forall_mem_cons.2 ⟨hx, scaleAll_divs hb hr⟩
      · simp only [bind_eq_ok, pure_eq, ok_inj] at h
        obtain ⟨b', hb1, rest, hr, rfl⟩ := h
        exact List.forall_mem_cons.2 ⟨scale_divs hb'.1 hb1, mergeTerm_divs hx hb'.2 hr⟩

theorem flat_divs : ∀ {bs : List Block}, (∀ b ∈ bs, BlockD ck I b) → DivP ck I (flatBlocks bs)
  | [], _ => divP_nil
  | b :: bs, h => by
    rw [List.forall_mem_cons] at h
    exact divP_append (x := b.flat) (divP_cons h.1.1 h.1.2) (flat_divs h.2)

theorem finishSum_divs {bs : List Block} (h : ∀ b ∈ bs, BlockD ck I b) : DivP ck I (finishSum bs).nodes := by
  have flat := flat_divs h
  have sum : ∀ c k q, DivP ck I [⟨Op.sum, c, k, q⟩] := fun _ _ _ => divP_one (by show ¬ IsQuot Op.sum; decide)
  match bs, h, flat with
  | [], _, _ => exact sum _ _ _
  | [b], h, _ => exact (h b (by simp)).2
  | b :: c :: bs, _, flat => exact divP_append flat (sum _ _ _)

theorem asBlock_divs {e : Rpne} {b : Block} (h : DivP ck I e.nodes) (hb : asBlock e = ok b) : BlockD ck I b := by
  unfold asBlock at hb
  simp only [bind_eq_ok, pure_eq, ok_inj] at hb
  obtain ⟨c, _, rfl⟩ := hb
  exact ⟨by show ¬ IsQuot Op.se; decide, h⟩

theorem toList_infix : ∀ {f : Forest} {x : Opd}, x ∈ f.toList → ∃ a b, f.post = a ++ x.2.post ++ b
  | .nil, x, h => by cases h
  | .cons se t f, x, h => by
    rw [Forest.toList] at h
    rw [Forest.post]
    rcases List.mem_cons.1 h with rfl | h
    · exact ⟨[se], f.post, by simp⟩
    · obtain ⟨a, b, e⟩ := toList_infix h
      exact ⟨se :: (t.post ++ a), b, by rw [e]; simp⟩

/-- The summands of a sum. -/
theorem summands_divs {v : V} {e : Rpne} {bs : List Block} {n : Node} (hv : Means I e v) (h : DivP ck I e.nodes) (hn : backOf e.nodes = ok n)
    (ho : n.o = Op.sum) (hb : summands e = ok bs) : ∀ b ∈ bs, BlockD ck I b := by
  obtain ⟨t, g, p, -⟩ := means_tree hv (by intro h0; rw [h0] at hn; cases hn)
  rw [p, backOf_post, ok_inj] at hn
  obtain ⟨m, f, rfl, -⟩ := root_sum g (by rw [hn]; exact ho)
  rw [Tree.Good] at g
  rw [summands_eq g.2.2.2 p, ok_inj] at hb
  subst hb
  have hg := (ofList_good f.toList).1 (by rw [ofList_toList]; exact g.2.2.2)
  intro b hb
  obtain ⟨x, hx, rfl⟩ := List.mem_map.1 hb
  obtain ⟨a, b, e⟩ := toList_infix hx
  obtain ⟨h1, -, -, h4⟩ := hg x hx
  refine ⟨by show ¬ IsQuot x.1.o; rw [h1]; decide, ?_⟩
  rw [p, Tree.post, e] at h
  exact divP_infix h4.shape (divP_prefix h)

theorem addExpr_divs {l r e : Rpne} {vl vr : V} (ml : Means I l vl) (mr : Means I r vr) (hl : DivP ck I l.nodes) (hr : DivP ck I r.nodes)
    (he : addExpr l r = ok e) : DivP ck I e.nodes := by
  unfold addExpr at he
  split at he
  · rw [ok_inj] at he; subst he; exact hr
  split at he
  · rw [ok_inj] at he; subst he; exact hl
  simp only [bind_eq_ok] at he
  obtain ⟨lb, hlb, rb, hrb, he⟩ := he
  split at he
  · rename_i hs
    split at he
    · rename_i hs'
      simp only [bind_eq_ok, pure_eq, ok_inj] at he
      obtain ⟨ls, h1, rs, h2, bs, h3, rfl⟩ := he
      exact finishSum_divs (mergeSums_divs _ (summands_divs ml hl hlb hs h1) (summands_divs mr hr hrb hs' h2) h3)
    · simp only [bind_eq_ok, pure_eq, ok_inj] at he
      obtain ⟨ls, h1, b, h2, bs, h3, rfl⟩ := he
      exact finishSum_divs (mergeTerm_divs (asBlock_divs hr h2) (summands_divs ml hl hlb hs h1) h3)
  · split at he
    · rename_i hs'
      simp only [bind_eq_ok, pure_eq, ok_inj] at he
      obtain ⟨rs, h1, b, h2, bs, h3, rfl⟩ := he
      exact finishSum_divs (mergeTerm_divs (asBlock_divs hl h2) (summands_divs mr hr hrb hs' h1) h3)
    · split at he
      · simp only [bind_eq_ok] at he
        obtain ⟨q, _, he⟩ := he
        split at he
        · rw [pure_eq, ok_inj] at he; subst he; exact divP_nil
        · rw [pure_eq, ok_inj] at he; subst he; exact hl
      · simp only [bind_eq_ok] at he
        obtain ⟨x, hx, y, hy, he⟩ := he
        have bx := asBlock_divs hl hx
        have by' := asBlock_divs hr hy
        split at he
        · rw [pure_eq, ok_inj] at he; subst he
          exact finishSum_divs (by simpa using ⟨bx, by'⟩)
        · rw [pure_eq, ok_inj] at he; subst he
          exact finishSum_divs (by simpa using ⟨by', bx⟩)

/-! ## The other operators -/

theorem negExpr_divs {e e' : Rpne} (h : DivP ck I e.nodes) (he : negExpr e = ok e') : DivP ck I e'.nodes := by
  unfold negExpr at he
  split at he
  · rw [ok_inj] at he; subst he; exact h
  · simp only [bind_eq_ok, pure_eq, ok_inj] at he
    obtain ⟨_, _, rfl⟩ := he; exact h

theorem appendOp_divs {ns ms : List Node} {o : Nat} (h : DivP ck I ns) (h1 : ¬ IsQuot o) (he : appendOp ns o = ok ms) : DivP ck I ms := by
  obtain ⟨c, rfl⟩ := appendOp_ok he
  exact divP_append h (divP_one h1)

theorem revExpr_divs {e e' : Rpne} (h : DivP ck I e.nodes) (he : revExpr e = ok e') : DivP ck I e'.nodes := by
  unfold revExpr at he
  split at he
  · rw [ok_inj] at he; subst he; exact divP_nil
  · simp only [bind_eq_ok] at he
    obtain ⟨b, _, he⟩ := he
    split at he
    · rw [pure_eq, ok_inj] at he; subst he; exact divP_dropLast h
    · simp only [bind_eq_ok, pure_eq, ok_inj] at he
      obtain ⟨_, h1, rfl⟩ := he
      exact appendOp_divs h (by decide) h1

theorem dualExpr_divs {e e' : Rpne} (h : DivP ck I e.nodes) (he : dualExpr e = ok e') : DivP ck I e'.nodes := by
  unfold dualExpr at he
  split at he
  · rw [ok_inj] at he; subst he; exact divP_nil
  · simp only [bind_eq_ok, pure_eq, ok_inj] at he
    obtain ⟨_, h1, rfl⟩ := he
    exact appendOp_divs h (by decide) h1

theorem productExpr_divs {o c : Nat} {l r e : Rpne} {x y : List Node} (hx : DivP ck I x) (hy : DivP ck I y) (h1 : ¬ IsQuot o)
    (he : productExpr o l r x y c = ok e) : DivP ck I e.nodes := by
  unfold productExpr at he
  simp only [bind_eq_ok] at he
  obtain ⟨q, _, he⟩ := he
  split at he
  · rw [pure_eq, ok_inj] at he; subst he; exact divP_nil
  · simp only [bind_eq_ok, pure_eq, ok_inj] at he
    obtain ⟨_, _, rfl⟩ := he
    exact divP_append (divP_append hx hy) (divP_one h1)

theorem gpExpr_divs {l r e : Rpne} (hl : DivP ck I l.nodes) (hr : DivP ck I r.nodes) (he : gpExpr l r = ok e) : DivP ck I e.nodes := by
  unfold gpExpr at he
  split at he
  · rw [ok_inj] at he; subst he; exact hr
  split at he
  · rw [ok_inj] at he; subst he; exact hl
  simp only [bind_eq_ok] at he
  obtain ⟨_, _, _, _, he⟩ := he
  exact productExpr_divs hl hr (by decide) he

theorem lcExpr_divs {l r e : Rpne} (hl : DivP ck I l.nodes) (hr : DivP ck I r.nodes) (he : lcExpr l r = ok e) : DivP ck I e.nodes := by
  unfold lcExpr at he
  split at he
  · rw [ok_inj] at he; subst he; exact hr
  split at he
  · rw [ok_inj] at he; subst he; exact hl
  simp only [bind_eq_ok] at he
  obtain ⟨_, _, _, _, he⟩ := he
  exact productExpr_divs hl hr (by decide) he

theorem sipExpr_divs {l r e : Rpne} (hl : DivP ck I l.nodes) (hr : DivP ck I r.nodes) (he : sipExpr l r = ok e) : DivP ck I e.nodes := by
  unfold sipExpr at he
  split at he
  · rw [ok_inj] at he; subst he; exact hr
  split at he
  · rw [ok_inj] at he; subst he; exact hl
  simp only [bind_eq_ok] at he
  obtain ⟨_, _, _, _, he⟩ := he
  split at he
  · exact productExpr_divs hl hr (by decide) he
  · exact productExpr_divs hr hl (by decide) he

theorem factorNodes_divs {e : Rpne} {ns : List Node} (h : DivP ck I e.nodes) (he : factorNodes e = ok ns) : DivP ck I ns := by
  unfold factorNodes at he
  simp only [bind_eq_ok, pure_eq, ok_inj] at he
  obtain ⟨_, _, rfl⟩ := he
  exact divP_cons (by show ¬ IsQuot Op.se; decide) h

theorem epExpr_divs {l r e : Rpne} (hl : DivP ck I l.nodes) (hr : DivP ck I r.nodes) (he : epExpr l r = ok e) : DivP ck I e.nodes := by
  have fin : ∀ {ns : List Node} {k : Nat} {q : Rat32}, DivP ck I ns → DivP ck I (finishEp ns k q).nodes := fun h =>
    divP_append h (divP_one (by show ¬ IsQuot Op.ep; decide))
  unfold epExpr at he
  split at he
  · rw [ok_inj] at he; subst he; exact divP_nil
  simp only [bind_eq_ok] at he
  obtain ⟨_, _, _, _, he⟩ := he
  split at he
  · split at he
    · rw [pure_eq, ok_inj] at he; subst he
      exact fin (divP_append (divP_dropLast hl) (divP_dropLast hr))
    · simp only [bind_eq_ok, pure_eq, ok_inj] at he
      obtain ⟨f, hf, rfl⟩ := he
      exact fin (divP_append (divP_dropLast hl) (factorNodes_divs hr hf))
  · split at he
    · simp only [bind_eq_ok, pure_eq, ok_inj] at he
      obtain ⟨f, hf, rfl⟩ := he
      exact fin (divP_append (factorNodes_divs hl hf) (divP_dropLast hr))
    · simp only [bind_eq_ok, pure_eq, ok_inj] at he
      obtain ⟨f, hf, g, hg, q, _, rfl⟩ := he
      exact fin (divP_append (factorNodes_divs hl hf) (factorNodes_divs hr hg))

/-- The quotient or function itself. -/
theorem quot_divs {o : Nat} {xs ms : List Node} {e : Rpne} {v : V} {q : Rat32} (hx : DivP ck I xs) (hv : Means I e v)
    (he : DivP ck I e.nodes) (h0 : e.nodes ≠ [])
    (hn : ∀ (t : Tree) (c : Nat), v = e.q.toQ • t.val I → ck ⟨o, c, 0, q⟩ (t.val I)) (hm : appendOp (xs ++ e.nodes) o = ok ms) :
    DivP ck I (ms.dropLast ++ ms.getLast?.toList.map fun d => { d with q := q }) := by
  obtain ⟨c, rfl⟩ := appendOp_ok hm
  rw [List.dropLast_concat, List.getLast?_concat]
  obtain ⟨t, g, p, -, -, ht⟩ := means_tree hv h0
  intro a d b h hd
  rcases append_cons_cases h with ⟨b', h⟩ | ⟨a', rfl, k⟩
  · exact divP_append hx he a d b' h hd
  · rcases List.append_eq_cons_iff.1 k.symm with ⟨rfl, h2⟩ | ⟨_, _, h2⟩
    · simp only [List.cons.injEq] at h2
      exact ⟨xs, t, by rw [p]; simp, g.shape, by rw [h2.1]; exact hn t c ht⟩
    · simp at h2

/-- Divisors satisfy `nz`, and functions are applied to values that satisfy `fa`. -/
def OperandCheck (nz : V → Prop) (fa : Nat → V → Prop) (d : Node) (v : V) : Prop := (d.o = Op.div → nz v) ∧ (IsFun d.o → fa d.o (d.q.toQ • v))

/-- The divisors and the arguments of functions in the expression a lambda builds are those in the lambda. -/
theorem build_divs {nz : V → Prop} {fa : Nat → V → Prop} (hnz : ∀ (q : ℚ) v, nz (q • v) → nz v) {off : Nat → Nat} : ∀ (f : Lam) {e : Rpne}, f.regular off = true → f.Ordered I off →
    f.Divides nz I off → f.Applies fa I off → f.build off = ok e → DivP (OperandCheck nz fa) I e.nodes
  | .arg k, e, _, _, _, _, he => by
    rw [Lam.build, ok_inj] at he; subst he
    exact divP_one (by show ¬ IsQuot Op.id; decide)
  | .num n d, e, _, _, _, _, he => by
    rw [Lam.build, ok_inj] at he; subst he
    exact divP_one (by show ¬ IsQuot Op.cscalar; decide)
  | .pi n d, e, _, _, _, _, he => by
    simp only [Lam.build, bind_eq_ok, ok_inj] at he
    obtain ⟨_, _, rfl⟩ := he
    exact divP_one (by show ¬ IsQuot Op.cpi; decide)
  | .elem g n, e, _, _, _, _, he => by
    rw [Lam.build, ok_inj] at he; subst he
    exact divP_one (by show ¬ IsQuot (Op.cscalar + g); simp only [IsQuot, IsFun, Op.cscalar, Op.div, Op.sqrt, Op.sin, Op.cos, Op.tan]; omega)
  | .scale n a, e, hr, ho, hd, hf, he => by
    simp only [Lam.build, bind_eq_ok] at he
    obtain ⟨x, hx, he⟩ := he
    simp only [Lam.regular, Bool.and_eq_true] at hr
    have ih := build_divs hnz a hr.1 ho hd hf hx
    unfold imulExpr at he
    split at he
    · rw [ok_inj] at he; subst he; exact divP_nil
    · simp only [bind_eq_ok, pure_eq, ok_inj] at he
      obtain ⟨_, _, rfl⟩ := he; exact ih
  | .divInt a d, e, hr, ho, hd, hf, he => by
    simp only [Lam.build, bind_eq_ok] at he
    obtain ⟨x, hx, he⟩ := he
    simp only [Lam.regular, Bool.and_eq_true] at hr
    have ih := build_divs hnz a hr.1.1 ho hd hf hx
    unfold divIntExpr at he
    split at he
    · rw [ok_inj] at he; subst he; exact ih
    · simp only [bind_eq_ok, pure_eq, ok_inj] at he
      obtain ⟨_, _, rfl⟩ := he; exact ih
  | .neg a, e, hr, ho, hd, hf, he => by
    simp only [Lam.build, bind_eq_ok] at he
    obtain ⟨x, hx, he⟩ := he
    exact negExpr_divs (build_divs hnz a hr ho hd hf hx) he
  | .rev a, e, hr, ho, hd, hf, he => by
    simp only [Lam.build, bind_eq_ok] at he
    obtain ⟨x, hx, he⟩ := he
    simp only [Lam.regular, Bool.and_eq_true] at hr
    exact revExpr_divs (build_divs hnz a hr.1 ho hd hf hx) he
  | .dual a, e, hr, ho, hd, hf, he => by
    simp only [Lam.build, bind_eq_ok] at he
    obtain ⟨x, hx, he⟩ := he
    simp only [Lam.regular, Bool.and_eq_true] at hr
    exact dualExpr_divs (build_divs hnz a hr.1 ho hd hf hx) he
  | .comp a g, e, hr, ho, hd, hf, he => by
    simp only [Lam.build, compExpr, bind_eq_ok, pure_eq, ok_inj] at he
    obtain ⟨x, hx, _, _, rfl⟩ := he
    exact divP_append (build_divs hnz a hr ho hd hf hx) (divP_one (by show ¬ IsQuot Op.comp; decide))
  | .grade a g, e, hr, ho, hd, hf, he => by
    simp only [Lam.build, gradeExpr, bind_eq_ok, pure_eq, ok_inj] at he
    obtain ⟨x, hx, _, _, rfl⟩ := he
    exact divP_append (build_divs hnz a hr ho hd hf hx) (divP_one (by show ¬ IsQuot Op.grd; decide))
  | .fn o a, e, hr, ho, hd, hf, he => by
    simp only [Lam.build, funExpr, bind_eq_ok, pure_eq, ok_inj] at he
    obtain ⟨x, hx, ns, hn, rfl⟩ := he
    simp only [Lam.regular, Bool.and_eq_true] at hr
    have h0 : x.nodes ≠ [] := by
      intro h0
      rw [h0] at hn
      cases hn
    refine quot_divs (xs := []) divP_nil (C53_value_partial I off a hr.1 ho hx) (build_divs hnz a hr.1 ho hd hf.1 hx) h0 (fun t c ht => ⟨?_, ?_⟩) hn
    · rintro rfl
      exact absurd hr.2 (by decide)
    · intro _
      show fa o (x.q.toQ • t.val I)
      rw [← ht]
      exact hf.2
  | .add a b, e, hr, ho, hd, hf, he => by
    simp only [Lam.build, bind_eq_ok] at he
    obtain ⟨x, hx, y, hy, he⟩ := he
    simp only [Lam.regular, Bool.and_eq_true] at hr
    exact addExpr_divs (C53_value_partial I off a hr.1.1 ho.1 hx) (C53_value_partial I off b hr.1.2 ho.2 hy)
      (build_divs hnz a hr.1.1 ho.1 hd.1 hf.1 hx) (build_divs hnz b hr.1.2 ho.2 hd.2 hf.2 hy) he
  | .sub a b, e, hr, ho, hd, hf, he => by
    simp only [Lam.build, subExpr, bind_eq_ok] at he
    obtain ⟨x, hx, y, hy, z, hz, he⟩ := he
    simp only [Lam.regular, Bool.and_eq_true] at hr
    exact addExpr_divs (C53_value_partial I off a hr.1.1 ho.1 hx) (C33_neg (C53_value_partial I off b hr.1.2 ho.2 hy) hz)
      (build_divs hnz a hr.1.1 ho.1 hd.1 hf.1 hx) (negExpr_divs (build_divs hnz b hr.1.2 ho.2 hd.2 hf.2 hy) hz) he
  | .addInt n a, e, hr, ho, hd, hf, he => by
    simp only [Lam.build, addIntExpr, bind_eq_ok] at he
    obtain ⟨x, hx, he⟩ := he
    simp only [Lam.regular, Bool.and_eq_true] at hr
    exact addExpr_divs (C53_value_partial I off (.num n 1) (by simp only [Lam.regular, hr.1.2]; decide) trivial rfl)
      (C53_value_partial I off a hr.1.1 ho hx) (divP_one (by show ¬ IsQuot Op.cscalar; decide)) (build_divs hnz a hr.1.1 ho hd hf hx) he
  | .intSub n a, e, hr, ho, hd, hf, he => by
    simp only [Lam.build, intSubExpr, bind_eq_ok] at he
    obtain ⟨x, hx, y, hy, he⟩ := he
    simp only [Lam.regular, Bool.and_eq_true] at hr
    exact addExpr_divs (C53_value_partial I off (.num n 1) (by simp only [Lam.regular, hr.1.2]; decide) trivial rfl)
      (C33_neg (C53_value_partial I off a hr.1.1 ho hx) hy) (divP_one (by show ¬ IsQuot Op.cscalar; decide))
      (negExpr_divs (build_divs hnz a hr.1.1 ho hd hf hx) hy) he
  | .subInt a n, e, hr, ho, hd, hf, he => by
    simp only [Lam.build, subIntExpr, bind_eq_ok] at he
    obtain ⟨x, hx, m, hm, he⟩ := he
    obtain ⟨-, rfl⟩ := chk_eq_ok.1 hm
    simp only [Lam.regular, Bool.and_eq_true] at hr
    exact addExpr_divs (C53_value_partial I off (.num (-n) 1) (by simp only [Lam.regular, hr.1.2]; decide) trivial rfl)
      (C53_value_partial I off a hr.1.1 ho hx) (divP_one (by show ¬ IsQuot Op.cscalar; decide)) (build_divs hnz a hr.1.1 ho hd hf hx) he
  | .gp a b, e, hr, ho, hd, hf, he => by
    simp only [Lam.build, bind_eq_ok] at he
    obtain ⟨x, hx, y, hy, he⟩ := he
    simp only [Lam.regular, Bool.and_eq_true] at hr
    exact gpExpr_divs (build_divs hnz a hr.1.1 ho.1 hd.1 hf.1 hx) (build_divs hnz b hr.1.2 ho.2 hd.2 hf.2 hy) he
  | .lc a b, e, hr, ho, hd, hf, he => by
    simp only [Lam.build, bind_eq_ok] at he
    obtain ⟨x, hx, y, hy, he⟩ := he
    simp only [Lam.regular, Bool.and_eq_true] at hr
    exact lcExpr_divs (build_divs hnz a hr.1.1 ho.1 hd.1 hf.1 hx) (build_divs hnz b hr.1.2 ho.2 hd.2 hf.2 hy) he
  | .sip a b, e, hr, ho, hd, hf, he => by
    simp only [Lam.build, bind_eq_ok] at he
    obtain ⟨x, hx, y, hy, he⟩ := he
    simp only [Lam.regular, Bool.and_eq_true] at hr
    exact sipExpr_divs (build_divs hnz a hr.1.1 ho.1 hd.1 hf.1 hx) (build_divs hnz b hr.1.2 ho.2.1 hd.2 hf.2 hy) he
  | .ep a b, e, hr, ho, hd, hf, he => by
    simp only [Lam.build, bind_eq_ok] at he
    obtain ⟨x, hx, y, hy, he⟩ := he
    simp only [Lam.regular, Bool.and_eq_true] at hr
    exact epExpr_divs (build_divs hnz a hr.1.1 ho.1 hd.1 hf.1 hx) (build_divs hnz b hr.1.2 ho.2 hd.2 hf.2 hy) he
  | .join a b, e, hr, ho, hd, hf, he => by
    simp only [Lam.build, joinExpr, bind_eq_ok] at he
    obtain ⟨x, hx, y, hy, x', hx', y', hy', z, hz, he⟩ := he
    simp only [Lam.regular, Bool.and_eq_true] at hr
    exact dualExpr_divs (epExpr_divs (dualExpr_divs (build_divs hnz a hr.1.1 ho.1 hd.1 hf.1 hx) hx')
      (dualExpr_divs (build_divs hnz b hr.1.2 ho.2 hd.2 hf.2 hy) hy') hz) he
  | .sandwich a b, e, hr, ho, hd, hf, he => by
    simp only [Lam.build, sandwichExpr, bind_eq_ok] at he
    obtain ⟨x, hx, y, hy, z, hz, u, hu, he⟩ := he
    simp only [Lam.regular, Bool.and_eq_true] at hr
    have nx := build_divs hnz a hr.1.1 ho.1 hd.1 hf.1 hx
    have ny := build_divs hnz b hr.1.2 ho.2 hd.2 hf.2 hy
    exact gpExpr_divs (gpExpr_divs ny nx hz) (revExpr_divs ny hu) he
  | .sprod a b, e, hr, ho, hd, hf, he => by
    simp only [Lam.build, bind_eq_ok] at he
    obtain ⟨x, hx, y, hy, he⟩ := he
    simp only [Lam.regular, Bool.and_eq_true] at hr
    have nx := build_divs hnz a hr.1.1 ho.1 hd.1 hf.1 hx
    have ny := build_divs hnz b hr.1.2 ho.2.1 hd.2 hf.2 hy
    unfold scalarProductExpr at he
    split at he
    · rw [ok_inj] at he; subst he; exact ny
    split at he
    · rw [ok_inj] at he; subst he; exact nx
    simp only [bind_eq_ok] at he
    obtain ⟨z, hz, he⟩ := he
    have nz' := sipExpr_divs nx ny hz
    split at he
    · rw [pure_eq, ok_inj] at he; subst he; exact nz'
    · simp only [bind_eq_ok, pure_eq, ok_inj] at he
      obtain ⟨_, _, rfl⟩ := he
      exact divP_append nz' (divP_one (by show ¬ IsQuot Op.comp; decide))
  | .div a b, e, hr, ho, hd, hf, he => by
    simp only [Lam.build, divExpr, bind_eq_ok, pure_eq, ok_inj] at he
    obtain ⟨x, hx, y, hy, ns, hn, q, _, rfl⟩ := he
    simp only [Lam.regular, Bool.and_eq_true, hx, hy, both, Out.holds] at hr
    exact quot_divs (build_divs hnz a hr.1.1 ho.1 hd.1 hf.1 hx) (C53_value_partial I off b hr.1.2 ho.2 hy) (build_divs hnz b hr.1.2 ho.2 hd.2.1 hf.2 hy)
      (by simpa [Rpne.nonzero] using hr.2.2) (fun t c ht => ⟨fun _ => hnz _ _ (ht ▸ hd.2.2), fun h => absurd h (by show ¬ IsFun Op.div; decide)⟩) hn
  | .inv a, e, hr, ho, hd, hf, he => by
    simp only [Lam.build, intDivExpr, bind_eq_ok, pure_eq, ok_inj] at he
    obtain ⟨x, hx, ns, hn, rfl⟩ := he
    simp only [Lam.regular, Bool.and_eq_true, hx, Out.holds] at hr
    exact quot_divs (divP_one (by show ¬ IsQuot Op.cscalar; decide)) (C53_value_partial I off a hr.1 ho hx) (build_divs hnz a hr.1 ho hd.1 hf hx)
      (by simpa [Rpne.nonzero] using hr.2.1) (fun t c ht => ⟨fun _ => hnz _ _ (ht ▸ hd.2), fun h => absurd h (by show ¬ IsFun Op.div; decide)⟩) hn

end

/-! ## The check -/

theorem notQuot_sound {n : Node} (h : notQuot n = true) : NotQuot n := by
  simp only [notQuot, List.contains_eq_mem, List.mem_cons, List.not_mem_nil, or_false, Bool.not_eq_true', decide_eq_false_iff_not, not_or] at h
  refine ⟨h.1, ?_⟩
  unfold IsFun
  tauto

theorem allNotQuot_sound {ns : List Node} (h : ns.all notQuot = true) : ∀ n ∈ ns, NotQuot n := fun n hn => notQuot_sound (List.all_eq_true.1 h n hn)

section

variable {K : Type} [Field K]

omit [Field K] in
theorem scalarLeaf_sound {L : Type} {args : List (Arg K)} {args' : List (Arg L)}
    (ht : args.map (fun a => (a.ie, a.data.length)) = args'.map fun a => (a.ie, a.data.length)) {temps : List (Mv × Nat)} {nc : Nat} {n : Node}
    (h : scalarLeaf args' temps n = true) : ScalarLeaf args temps nc n := by
  unfold scalarLeaf at h
  rw [offset_types ht] at h
  simp only [Bool.or_eq_true, Bool.and_eq_true, beq_iff_eq] at h
  rcases h with (⟨h1, h⟩ | ⟨h1, h⟩) | h
  · refine Or.inl ⟨h1, ?_⟩
    have hm := congrArg (fun l => l[n.ex]?) ht
    simp only [List.getElem?_map] at hm
    match hb : args'[n.ex]?, ha : args[n.ex]? with
    | none, _ => rw [hb] at h; cases h
    | some b, none => rw [hb, ha] at hm; cases hm
    | some b, some a =>
      rw [hb, ha] at hm
      simp only [Option.map_some, Option.some.injEq, Prod.mk.injEq] at hm
      rw [hb] at h
      simp only [Bool.and_eq_true, beq_iff_eq] at h
      exact ⟨a, rfl, by rw [hm.1]; exact h.1, by rw [hm.2]; exact h.2⟩
  · refine Or.inr (Or.inl ⟨h1, ?_⟩)
    match hb : temps[n.ex]? with
    | none => rw [hb] at h; cases h
    | some p =>
      rw [hb] at h
      simp only [Bool.and_eq_true, beq_iff_eq] at h
      exact ⟨p, rfl, h⟩
  · exact Or.inr (Or.inr (Or.inl h))

omit [Field K] in
theorem sameLeaf_complete {k x : Node} (h : SameLeaf k x) : sameLeaf k x = true := by
  unfold sameLeaf
  simp only [Bool.and_eq_true, beq_iff_eq, Bool.or_eq_true, Bool.not_eq_true', Bool.or_eq_false_iff, beq_eq_false_iff_ne]
  refine ⟨h.1, ?_⟩
  by_cases h1 : k.o = Op.id ∨ k.o = Op.cse
  · exact Or.inr (h.2 h1)
  · exact Or.inl (not_or.1 h1)

omit [Field K] in
theorem blockFine_sound {L : Type} {args : List (Arg K)} {args' : List (Arg L)}
    (ht : args.map (fun a => (a.ie, a.data.length)) = args'.map fun a => (a.ie, a.data.length)) {temps : List (Mv × Nat)} {nc : Nat} {ns : List Node}
    (h : blockFine args' temps ns = true) : BlockFine args temps nc ns := by
  unfold blockFine at h
  rw [Bool.or_eq_true] at h
  rcases h with h | h
  · exact Or.inl (allNotQuot_sound h)
  · match hr : ns.reverse with
    | [] => rw [hr] at h; cases h
    | [d] => rw [hr] at h; cases h
    | d :: x :: l =>
      rw [hr] at h
      simp only [Bool.and_eq_true, Bool.or_eq_true, beq_iff_eq, bne_iff_ne, ne_eq, List.contains_eq_mem, List.mem_cons, List.not_mem_nil, or_false,
        decide_eq_true_eq] at h
      obtain ⟨⟨h1, h2⟩, h3⟩ := h
      refine Or.inr ⟨l.reverse, x, d, ?_, fun n hn => allNotQuot_sound h1 n (List.mem_reverse.1 hn), scalarLeaf_sound ht h2, ?_⟩
      · have := congrArg List.reverse hr
        rw [List.reverse_reverse] at this
        rw [this]; simp
      · rcases h3 with ⟨h3, h4⟩ | ⟨h3, h4⟩
        · refine Or.inl ⟨h3, fun hx k hk hs => ?_⟩
          rcases h4 with h4 | h4
          · exact hx h4
          · have := List.all_eq_true.1 h4 k (List.mem_reverse.1 hk)
            rw [sameLeaf_complete hs] at this
            cases this
        · exact Or.inr ⟨by unfold IsFun; exact h3, h4⟩

omit [Field K] in
theorem splitNoop_eq : ∀ ns : List Node, ns = ((splitNoop ns).1.flatMap fun b => b ++ [⟨Op.noop, 0, 0, Rat32.zero⟩]) ++ (splitNoop ns).2
  | [] => rfl
  | n :: ns => by
    have ih := splitNoop_eq ns
    rw [splitNoop]
    split
    · rename_i h
      rw [h]
      simp only [List.flatMap_cons, List.nil_append, List.cons_append, List.cons.injEq, true_and]
      exact ih
    · split
      · rename_i h
        rw [h] at ih
        simp only [List.flatMap_nil, List.nil_append] at ih ⊢
        rw [← ih]
      · rename_i b bs h
        rw [h] at ih
        simp only [List.flatMap_cons, List.cons_append, List.append_assoc, List.cons.injEq, true_and] at ih ⊢
        exact ih

omit [Field K] in
theorem programFine_sound {L : Type} {args : List (Arg K)} {args' : List (Arg L)}
    (ht : args.map (fun a => (a.ie, a.data.length)) = args'.map fun a => (a.ie, a.data.length)) {temps : List (Mv × Nat)} {nc : Nat} {ns : List Node}
    (h : programFine args' temps ns = true) : ProgramFine args temps nc ns := by
  unfold programFine at h
  rw [Bool.and_eq_true] at h
  refine ⟨_, _, splitNoop_eq ns, fun b hb => ?_, fun n hn => ?_⟩
  · have := List.all_eq_true.1 h.1 b hb
    rw [Bool.and_eq_true] at this
    exact ⟨blockFine_sound ht this.1, fun n hn => by simpa using List.all_eq_true.1 this.2 n hn⟩
  · have := List.all_eq_true.1 h.2 n hn
    rw [Bool.and_eq_true] at this
    exact ⟨notQuot_sound this.1, by simpa using this.2⟩

omit [Field K] in
theorem build_plain {dim nc : Nat} {args : List (Arg K)} {f : Lam} {e : Rpne} (hf : f.Parts (· < 2 ^ dim) (GradeSafe dim) True args.length nc)
    (he : f.build (argOffset args) = ok e) : ∀ n ∈ e.nodes, (NotQuot n → Plain dim nc n) ∧ ArgNode args n := by
  refine build_nodes (P := fun n => (NotQuot n → Plain dim nc n) ∧ ArgNode args n) ?_ ?_ ?_ ?_ (Nat.two_pow_pos _) ?_ ?_ ?_ ?_ f hf he
  · intro n q h
    refine ⟨fun hn => ?_, h.2⟩
    have h := h.1 hn
    exact ⟨h.const, h.comp, h.grd, h.div, h.fn⟩
  · exact fun n h1 h2 => ⟨fun _ => plain_of_lt h1, fun h => absurd h h2⟩
  · exact fun k hk => ⟨fun _ => plain_of_lt (by show Op.id < 11; decide), fun _ => ⟨hk, rfl⟩⟩
  · exact fun h => ⟨fun _ => plain_pi h, fun h => by simp [Op.cpi, Op.id] at h⟩
  · exact fun g hg => ⟨fun _ => plain_element hg, fun h => by simp only [Op.cscalar, Op.id] at h; omega⟩
  · exact fun c g hg => ⟨fun _ => plain_comp hg, fun h => by simp [Op.comp, Op.id] at h⟩
  · exact fun c g hg => ⟨fun _ => plain_grade hg, fun h => by simp [Op.grd, Op.id] at h⟩
  · intro _ o c k q ho
    refine ⟨fun hn => ?_, fun h => ?_⟩
    · rcases ho with h | h
      · exact absurd h hn.1
      · exact absurd h hn.2
    · dsimp only at h
      subst h
      exact absurd ho (by decide)

/-- The extraction of common subexpressions is right for a checked expression. -/
theorem shareable_extracts {cap : Nat} (hcap : cap < 2 ^ 64) {e : Rpne} (hs : shareable cap e = true) (T : Tree) (r : Rpne) (hg : T.Good)
    (hT : e.nodes = T.post) (hr : reshape cap e = ok r) : Extracts T e.q r := by
  obtain ⟨ns, q⟩ := e
  dsimp only at hT
  subst hT
  simp only [shareable, Bool.or_eq_true, Bool.and_eq_true] at hs
  rcases hs with hs | ⟨h1, h2⟩
  · exact C36_distinct hg (noRepeat_sound hs) hcap hr
  · have hr' := hr
    simp only [reshape, bind_eq_ok] at hr'
    obtain ⟨⟨known, out⟩, hraw, _⟩ := hr'
    refine C36_reshape_partial hg (coherent_of_nodes (factorsAgree_sound h1)) hcap hraw
      (refsEmitted_of_check (x := reshapeRaw cap ⟨T.post, q⟩) ?_ hraw) hr
    unfold refsCheck
    rw [hraw] at h2 ⊢
    exact h2

theorem applies_true {V : Type} [AddCommGroup V] [Module ℚ V] (I : Interp V) (off : Nat → Nat) : ∀ f : Lam, f.Applies (fun _ _ => True) I off
  | .arg _ | .num _ _ | .pi _ _ | .elem _ _ => trivial
  | .scale _ a | .divInt a _ | .neg a | .rev a | .dual a | .comp a _ | .grade a _ | .addInt _ a | .intSub _ a | .subInt a _ | .inv a =>
    applies_true I off a
  | .add a b | .sub a b | .gp a b | .lc a b | .sip a b | .ep a b | .join a b | .sandwich a b | .sprod a b | .div a b =>
    ⟨applies_true I off a, applies_true I off b⟩
  | .fn _ a => ⟨applies_true I off a, trivial⟩

/-- `C53_quot_partial` below, with the compiled expression. -/
theorem lambda_quot {L : Type} [CharZero K] {Φ : MvOp → K → Prop} (m : Metric) (hm : m.dim ≤ 8) (E : Env K) (args : List (Arg K))
    {w : Nat → CliffordAlgebra (diagForm K m.dim m.sq)}
    (hw : ∀ (k : Nat) (a : Arg K), args[k]? = some a → a.Denotes m.dim m.sq (argOffset args k) (w k))
    {D : CliffordAlgebra (diagForm K m.dim m.sq) →ₗ[K] CliffordAlgebra (diagForm K m.dim m.sq)} (hD : IsDual K m.dim m.sq D)
    (f : Lam) (ho : f.Ordered (fullInterp K m.dim m.sq (fun k => E.consts.getD k 0) D w E.named) (argOffset args))
    (hr : f.Parts (· < 2 ^ m.dim) (GradeSafe m.dim) True args.length E.consts.length)
    (h0 : f.Divides (fun v => scalarPart K m.dim m.sq v ≠ 0) (fullInterp K m.dim m.sq (fun k => E.consts.getD k 0) D w E.named) (argOffset args))
    (hφ : f.Applies (fun o v => Φ (fnOp o) (scalarPart K m.dim m.sq v)) (fullInterp K m.dim m.sq (fun k => E.consts.getD k 0) D w E.named)
      (argOffset args))
    {args' : List (Arg L)} (ht : args.map (fun a => (a.ie, a.data.length)) = args'.map fun a => (a.ie, a.data.length))
    (hcap : f.cap < 2 ^ 64) (hk : f.checkQuot m args' = true) :
    ∃ e c x, f.build (argOffset args) = ok e ∧ compileExpr m false f.cap args e = ok c ∧ runCompiled m false E args c = ok [x] ∧
      x.Denotes m.dim m.sq (f.val (fullInterp K m.dim m.sq (fun k => E.consts.getD k 0) D w E.named) (argOffset args)) ∧ RunFine Φ E args c := by
  unfold Lam.checkQuot at hk
  rw [offset_types ht] at hk
  match he : f.build (argOffset args) with
  | .ub => rw [he] at hk; cases hk
  | .val e true => rw [he] at hk; cases hk
  | .val e false =>
    rw [he] at hk
    simp only [Bool.and_eq_true] at hk
    obtain ⟨⟨h1, h2⟩, h3⟩ := hk
    match hc : compileExpr m false f.cap args' e, hs : reshape f.cap e with
    | .ub, _ => rw [hc] at h3; cases h3
    | .val c true, _ => rw [hc] at h3; cases h3
    | .val c false, .ub => rw [hc, hs] at h3; cases h3
    | .val c false, .val r true => rw [hc, hs] at h3; cases h3
    | .val c false, .val r false =>
      rw [hc, hs] at h3
      simp only [Bool.and_eq_true, decide_eq_true_eq] at h3
      rw [← compile_types ht] at hc
      have he' : f.build (argOffset args) = ok e := he
      have hc' : compileExpr m false f.cap args e = ok c := hc
      have hs' : reshape f.cap e = ok r := hs
      have hnz : ∀ (q : ℚ) (v : CliffordAlgebra (diagForm K m.dim m.sq)), scalarPart K m.dim m.sq (q • v) ≠ 0 → scalarPart K m.dim m.sq v ≠ 0 := by
        intro q v h hv
        rw [← Rat.cast_smul_eq_qsmul K q v, map_smul, hv, smul_zero] at h
        exact h rfl
      have hd := build_divs (fa := fun o v => Φ (fnOp o) (scalarPart K m.dim m.sq v)) hnz f h1 ho h0 hφ he'
      obtain ⟨x, x1, x2, x3⟩ := compute_quot (Φ := Φ) m hm E args hw hD (C53_value_partial _ _ f h1 ho he') (build_plain hr he')
        (fun T hT hp p y l r hy hdiv => (divP_tree hT (hp ▸ hd) hy hdiv).1 hdiv)
        (fun T hT hp p y l hy hfun => (fnP_tree hT (hp ▸ hd) hy hfun).2 hfun) (shareable_extracts hcap h2) hc' h3.1
        (fun r' hr' => by
          rw [hs', ok_inj] at hr'
          subst hr'
          exact programFine_sound ht h3.2)
      exact ⟨e, c, x, rfl, hc', x1, x2, x3⟩

/-- **C53 with quotients and functions.**  `compute(f, args...)` for a lambda that passes the check for the types of the arguments returns, for
all coefficients for which no divisor in the lambda is zero, the value of `f`. -/
theorem C53_quot_partial {L : Type} [CharZero K] (m : Metric) (hm : m.dim ≤ 8) (E : Env K) (args : List (Arg K))
    {w : Nat → CliffordAlgebra (diagForm K m.dim m.sq)}
    (hw : ∀ (k : Nat) (a : Arg K), args[k]? = some a → a.Denotes m.dim m.sq (argOffset args k) (w k))
    {D : CliffordAlgebra (diagForm K m.dim m.sq) →ₗ[K] CliffordAlgebra (diagForm K m.dim m.sq)} (hD : IsDual K m.dim m.sq D)
    (f : Lam) (ho : f.Ordered (fullInterp K m.dim m.sq (fun k => E.consts.getD k 0) D w E.named) (argOffset args))
    (hr : f.Parts (· < 2 ^ m.dim) (GradeSafe m.dim) True args.length E.consts.length)
    (h0 : f.Divides (fun v => scalarPart K m.dim m.sq v ≠ 0) (fullInterp K m.dim m.sq (fun k => E.consts.getD k 0) D w E.named) (argOffset args))
    {args' : List (Arg L)} (ht : args.map (fun a => (a.ie, a.data.length)) = args'.map fun a => (a.ie, a.data.length))
    (hcap : f.cap < 2 ^ 64) (hk : f.checkQuot m args' = true) :
    ∃ x, f.compute m false E args = ok [x] ∧
      x.Denotes m.dim m.sq (f.val (fullInterp K m.dim m.sq (fun k => E.consts.getD k 0) D w E.named) (argOffset args)) := by
  obtain ⟨e, c, x, he, hc, hx, hv, -⟩ := lambda_quot (Φ := fun _ _ => True) m hm E args hw hD f ho hr h0 (applies_true _ _ f) ht hcap hk
  refine ⟨x, ?_, hv⟩
  unfold Lam.compute computeExpr
  rw [he, ok_bind, hc, ok_bind, hx]

end

end Gal
