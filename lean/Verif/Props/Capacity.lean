import Verif.Expr
import Verif.Props.Mv

/-!
# Property C44: expressions fit the arrays they are built in

`rpne<A, S>` stores its nodes in an array of `S` entries, and every operator declares the capacity of its result from the capacities of
its operands.  The model keeps the nodes in a list; here the number of nodes written is bounded by the declared capacity.
-/

namespace Gal

open Out

theorem cutBlocks_nodes : ∀ (k : Nat) (ns : List Node) {bs : List Block}, cutBlocks k ns = ok bs → flatBlocks bs = ns
  | _, [], bs, h => by
    rw [cutBlocks.eq_def] at h
    simp only [ok_inj] at h; subst h; rfl
  | 0, _ :: _, bs, h => by rw [cutBlocks] at h; cases h
  | k + 1, n :: ns, bs, h => by
    rw [cutBlocks] at h
    split at h
    · cases h
    · simp only [bind_eq_ok, pure_eq, ok_inj] at h
      obtain ⟨cs, hc, rfl⟩ := h
      have ih := cutBlocks_nodes k _ hc
      simp only [flatBlocks, List.flatMap_cons, Block.flat] at ih ⊢
      rw [ih, List.cons_append, List.take_append_drop]

/-- The number of nodes of a list of blocks. -/
theorem flat_cons (b : Block) (bs : List Block) : (flatBlocks (b :: bs)).length = b.body.length + 1 + (flatBlocks bs).length := by
  simp [flatBlocks, Block.flat]; omega

theorem scale_bodyLength {q : Rat32} {b c : Block} (h : b.scale q = ok c) : c.body.length = b.body.length := by
  unfold Block.scale at h
  simp only [bind_eq_ok, pure_eq, ok_inj] at h
  obtain ⟨_, _, rfl⟩ := h
  rfl

theorem scale_flat {q : Rat32} : ∀ {bs cs : List Block}, mapO (Block.scale q) bs = ok cs → (flatBlocks cs).length = (flatBlocks bs).length
  | [], cs, h => by rw [mapO_nil_ok] at h; subst h; rfl
  | b :: bs, cs, h => by
    rw [mapO_cons_ok] at h
    obtain ⟨c, ds, hc, hd, rfl⟩ := h
    rw [flat_cons, flat_cons, scale_bodyLength hc, scale_flat hd]

theorem mergeSums_flat {lq rq : Rat32} : ∀ {k : Nat} {ls rs bs : List Block}, mergeSums lq rq k ls rs = ok bs →
    (flatBlocks bs).length ≤ (flatBlocks ls).length + (flatBlocks rs).length
  | k, [], rs, bs, h => by
    rw [mergeSums.eq_def] at h
    simp only at h
    rw [scale_flat h]; simp [flatBlocks]
  | k, l :: ls, [], bs, h => by
    rw [mergeSums.eq_def] at h
    simp only at h
    rw [scale_flat h]; simp [flatBlocks]
  | 0, _ :: _, _ :: _, bs, h => by rw [mergeSums] at h; cases h
  | k + 1, l :: ls, r :: rs, bs, h => by
    rw [mergeSums] at h
    rw [flat_cons, flat_cons]
    split at h
    · simp only [bind_eq_ok] at h
      obtain ⟨x, _, y, _, q, _, out, ho, h⟩ := h
      have ih := mergeSums_flat ho
      split at h
      · rw [pure_eq, ok_inj] at h; subst h; omega
      · rw [pure_eq, ok_inj] at h; subst h; rw [flat_cons]; dsimp only; omega
    · split at h
      · simp only [bind_eq_ok, pure_eq, ok_inj] at h
        obtain ⟨b, hb, out, ho, rfl⟩ := h
        have ih := mergeSums_flat ho
        rw [flat_cons] at ih
        rw [flat_cons, scale_bodyLength hb]; omega
      · simp only [bind_eq_ok, pure_eq, ok_inj] at h
        obtain ⟨b, hb, out, ho, rfl⟩ := h
        have ih := mergeSums_flat ho
        rw [flat_cons] at ih
        rw [flat_cons, scale_bodyLength hb]; omega

theorem mergeTerm_flat {sq : Rat32} {non : Block} : ∀ {bs cs : List Block}, mergeTerm sq non bs = ok cs →
    (flatBlocks cs).length ≤ (flatBlocks bs).length + non.body.length + 1
  | [], cs, h => by rw [mergeTerm, ok_inj] at h; subst h; rw [flat_cons]; omega
  | b :: bs, cs, h => by
    rw [mergeTerm] at h
    rw [flat_cons]
    split at h
    · simp only [bind_eq_ok] at h
      obtain ⟨x, _, q, _, rest, hr, h⟩ := h
      have := scale_flat hr
      split at h
      · rw [pure_eq, ok_inj] at h; subst h; omega
      · rw [pure_eq, ok_inj] at h; subst h; rw [flat_cons]; dsimp only; omega
    · split at h
      · simp only [bind_eq_ok, pure_eq, ok_inj] at h
        obtain ⟨rest, hr, rfl⟩ := h
        have := scale_flat hr
        rw [flat_cons] at this
        rw [flat_cons]; omega
      · simp only [bind_eq_ok, pure_eq, ok_inj] at h
        obtain ⟨b', hb, rest, hr, rfl⟩ := h
        have := mergeTerm_flat hr
        rw [flat_cons, scale_bodyLength hb]; omega

theorem finishSum_length (bs : List Block) : (finishSum bs).nodes.length ≤ (flatBlocks bs).length + 1 := by
  unfold finishSum
  split
  · rw [flat_cons]; dsimp only; omega
  · simp

theorem summands_flat {e : Rpne} {bs : List Block} (h : summands e = ok bs) : (flatBlocks bs).length = e.nodes.length - 1 := by
  rw [cutBlocks_nodes _ _ h, List.length_dropLast]

theorem asBlock_body {e : Rpne} {b : Block} (h : asBlock e = ok b) : b.body.length = e.nodes.length := by
  unfold asBlock at h
  simp only [bind_eq_ok, pure_eq, ok_inj] at h
  obtain ⟨_, _, rfl⟩ := h
  rfl

theorem appendOp_length {ns ms : List Node} {o : Nat} (h : appendOp ns o = ok ms) : ms.length = ns.length + 1 := by
  unfold appendOp at h
  simp only [bind_eq_ok, pure_eq, ok_inj] at h
  obtain ⟨_, _, _, _, rfl⟩ := h
  simp

theorem restamp_length {ns : List Node} {f : Node → Node} (h : ns ≠ []) : (ns.dropLast ++ ns.getLast?.toList.map f).length = ns.length := by
  rw [List.getLast?_eq_getLast_of_ne_nil h]
  have := List.length_pos_iff.2 h
  simp; omega

/-- **C44**: `a + b` never writes more than the `S1 + S2 + 3` nodes of its result. -/
theorem C44_sum {l r e : Rpne} (h : addExpr l r = ok e) : e.nodes.length ≤ l.nodes.length + r.nodes.length + 3 := by
  unfold addExpr at h
  split at h
  · rw [ok_inj] at h; subst h; dsimp only; omega
  split at h
  · rw [ok_inj] at h; subst h; dsimp only; omega
  rename_i h0 h1
  have := List.length_pos_iff.2 h0
  have := List.length_pos_iff.2 h1
  simp only [bind_eq_ok] at h
  obtain ⟨lb, _, rb, _, h⟩ := h
  split at h
  · split at h
    · simp only [bind_eq_ok, pure_eq, ok_inj] at h
      obtain ⟨ls, hl, rs, hr, bs, hb, rfl⟩ := h
      have := finishSum_length bs
      have := mergeSums_flat hb
      rw [summands_flat hl, summands_flat hr] at this
      omega
    · simp only [bind_eq_ok, pure_eq, ok_inj] at h
      obtain ⟨ls, hl, b, hr, bs, hb, rfl⟩ := h
      have := finishSum_length bs
      have := mergeTerm_flat hb
      rw [summands_flat hl, asBlock_body hr] at this
      omega
  · split at h
    · simp only [bind_eq_ok, pure_eq, ok_inj] at h
      obtain ⟨ls, hl, b, hr, bs, hb, rfl⟩ := h
      have := finishSum_length bs
      have := mergeTerm_flat hb
      rw [summands_flat hl, asBlock_body hr] at this
      omega
    · split at h
      · simp only [bind_eq_ok] at h
        obtain ⟨q, _, h⟩ := h
        split at h
        · rw [pure_eq, ok_inj] at h; subst h; simp
        · rw [pure_eq, ok_inj] at h; subst h; dsimp only; omega
      · simp only [bind_eq_ok] at h
        obtain ⟨x, hx, y, hy, h⟩ := h
        have e1 := asBlock_body hx
        have e2 := asBlock_body hy
        split at h
        all_goals
          rw [pure_eq, ok_inj] at h; subst h
          refine (finishSum_length _).trans ?_
          rw [flat_cons, flat_cons, e1, e2]
          simp [flatBlocks]; omega

/-- The capacity is reached: the sum of two different arguments has five nodes. -/
example : ∃ e, addExpr (entityExpr 0 0) (entityExpr 1 1) = ok e ∧ e.nodes.length = 1 + 1 + 3 :=
  ⟨_, rfl, by decide +kernel⟩

/-- **C44**: factors and negation change no node. -/
theorem C44_scale {e e' : Rpne} {n : Int} (h : imulExpr n e = ok e' ∨ negExpr e = ok e' ∨ divIntExpr e n = ok e') :
    e'.nodes.length ≤ e.nodes.length := by
  rcases h with h | h | h
  · unfold imulExpr at h
    split at h
    · rw [ok_inj] at h; subst h; simp
    · simp only [bind_eq_ok, pure_eq, ok_inj] at h; obtain ⟨_, _, rfl⟩ := h; exact le_rfl
  · unfold negExpr at h
    split at h
    · rw [ok_inj] at h; subst h; exact le_rfl
    · simp only [bind_eq_ok, pure_eq, ok_inj] at h; obtain ⟨_, _, rfl⟩ := h; exact le_rfl
  · unfold divIntExpr at h
    split at h
    · rw [ok_inj] at h; subst h; exact le_rfl
    · simp only [bind_eq_ok, pure_eq, ok_inj] at h; obtain ⟨_, _, rfl⟩ := h; exact le_rfl

example : imulExpr 2 (entityExpr 0 0) = ok ⟨(entityExpr 0 0).nodes, ⟨2, 1⟩⟩ := rfl

/-- **C44**: `a - b` has the capacity of `a + b`. -/
theorem C44_difference {l r e : Rpne} (h : subExpr l r = ok e) : e.nodes.length ≤ l.nodes.length + r.nodes.length + 3 := by
  unfold subExpr at h
  rw [bind_eq_ok] at h
  obtain ⟨r', hr, h⟩ := h
  have := C44_sum h
  have := C44_scale (n := 0) (Or.inr (Or.inl hr))
  omega

example : ∃ e, subExpr (entityExpr 0 0) (entityExpr 1 1) = ok e ∧ e.nodes.length = 1 + 1 + 3 :=
  ⟨_, rfl, by decide +kernel⟩

/-- **C44**: reversion, dual, component, grade and the functions need one more node. -/
theorem C44_unary {e e' : Rpne} {i : Nat}
    (h : revExpr e = ok e' ∨ dualExpr e = ok e' ∨ compExpr e i = ok e' ∨ gradeExpr e i = ok e' ∨ funExpr i e = ok e') :
    e'.nodes.length ≤ e.nodes.length + 1 := by
  rcases h with h | h | h | h | h
  · unfold revExpr at h
    split at h
    · rw [ok_inj] at h; subst h; simp
    · simp only [bind_eq_ok] at h
      obtain ⟨b, _, h⟩ := h
      split at h
      · rw [pure_eq, ok_inj] at h; subst h; simp; omega
      · simp only [bind_eq_ok, pure_eq, ok_inj] at h
        obtain ⟨ns, hn, rfl⟩ := h
        exact (appendOp_length hn).le
  · unfold dualExpr at h
    split at h
    · rw [ok_inj] at h; subst h; simp
    · simp only [bind_eq_ok, pure_eq, ok_inj] at h
      obtain ⟨ns, hn, rfl⟩ := h
      exact (appendOp_length hn).le
  · unfold compExpr at h
    simp only [bind_eq_ok, pure_eq, ok_inj] at h
    obtain ⟨_, _, rfl⟩ := h; simp
  · unfold gradeExpr at h
    simp only [bind_eq_ok, pure_eq, ok_inj] at h
    obtain ⟨_, _, rfl⟩ := h; simp
  · unfold funExpr at h
    simp only [bind_eq_ok, pure_eq, ok_inj] at h
    obtain ⟨ns, hn, rfl⟩ := h
    have hl := appendOp_length hn
    dsimp only
    rw [restamp_length (by intro h; rw [h] at hl; simp at hl), hl]

example : ∃ e, revExpr (entityExpr 0 0) = ok e ∧ e.nodes.length = 1 + 1 := ⟨_, rfl, by decide +kernel⟩

/-- **C44**: geometric product, contraction, inner product and division need one more node than their operands together. -/
theorem C44_binary {l r e : Rpne} (h : gpExpr l r = ok e ∨ lcExpr l r = ok e ∨ sipExpr l r = ok e ∨ divExpr l r = ok e) :
    e.nodes.length ≤ l.nodes.length + r.nodes.length + 1 := by
  have hp : ∀ {o : Nat} {f s : List Node} {c : Nat}, productExpr o l r f s c = ok e → e.nodes.length ≤ f.length + s.length + 1 := by
    intro o f s c h
    unfold productExpr at h
    simp only [bind_eq_ok] at h
    obtain ⟨q, _, h⟩ := h
    split at h
    · rw [pure_eq, ok_inj] at h; subst h; simp
    · simp only [bind_eq_ok, pure_eq, ok_inj] at h
      obtain ⟨c', _, rfl⟩ := h
      simp; omega
  rcases h with h | h | h | h
  · unfold gpExpr at h
    split at h
    · rw [ok_inj] at h; subst h; dsimp only; omega
    split at h
    · rw [ok_inj] at h; subst h; dsimp only; omega
    simp only [bind_eq_ok] at h
    obtain ⟨_, _, _, _, h⟩ := h
    exact hp h
  · unfold lcExpr at h
    split at h
    · rw [ok_inj] at h; subst h; dsimp only; omega
    split at h
    · rw [ok_inj] at h; subst h; dsimp only; omega
    simp only [bind_eq_ok] at h
    obtain ⟨_, _, _, _, h⟩ := h
    exact hp h
  · unfold sipExpr at h
    split at h
    · rw [ok_inj] at h; subst h; dsimp only; omega
    split at h
    · rw [ok_inj] at h; subst h; dsimp only; omega
    simp only [bind_eq_ok] at h
    obtain ⟨_, _, _, _, h⟩ := h
    split at h
    · exact hp h
    · have := hp h; omega
  · unfold divExpr at h
    simp only [bind_eq_ok, pure_eq, ok_inj] at h
    obtain ⟨ns, hn, q, _, rfl⟩ := h
    have hl := appendOp_length hn
    dsimp only
    rw [restamp_length (by intro h; rw [h] at hl; simp at hl), hl]
    simp

example : ∃ e, gpExpr (entityExpr 0 0) (entityExpr 1 1) = ok e ∧ e.nodes.length = 1 + 1 + 1 := ⟨_, rfl, by decide +kernel⟩

/-- **C44**: `scalar_product` fits `S1 + S2 + 2` nodes. -/
theorem C44_scalar_product {l r e : Rpne} (h : scalarProductExpr l r = ok e) : e.nodes.length ≤ l.nodes.length + r.nodes.length + 2 := by
  unfold scalarProductExpr at h
  split at h
  · rw [ok_inj] at h; subst h; dsimp only; omega
  split at h
  · rw [ok_inj] at h; subst h; dsimp only; omega
  rw [bind_eq_ok] at h
  obtain ⟨s, hs, h⟩ := h
  have := C44_binary (Or.inr (Or.inr (Or.inl hs)))
  split at h
  · rw [pure_eq, ok_inj] at h; subst h; omega
  · simp only [bind_eq_ok, pure_eq, ok_inj] at h
    obtain ⟨b, _, rfl⟩ := h
    simp; omega

example : ∃ e, scalarProductExpr (entityExpr 0 0) (entityExpr 1 1) = ok e ∧ e.nodes.length = 1 + 1 + 2 := ⟨_, rfl, by decide +kernel⟩

/-- **C44**: an integer over an expression fits `S + 2` nodes. -/
theorem C44_int_quotient {n : Int} {e e' : Rpne} (h : intDivExpr n e = ok e') : e'.nodes.length ≤ e.nodes.length + 2 := by
  unfold intDivExpr at h
  simp only [bind_eq_ok, pure_eq, ok_inj] at h
  obtain ⟨ns, hn, rfl⟩ := h
  have hl := appendOp_length hn
  dsimp only
  rw [restamp_length (by intro h; rw [h] at hl; simp at hl), hl]
  simp [constExpr]

example : ∃ e, intDivExpr 1 (entityExpr 0 0) = ok e ∧ e.nodes.length = 1 + 2 := ⟨_, rfl, by decide +kernel⟩

theorem factorNodes_length {e : Rpne} {f : List Node} (h : factorNodes e = ok f) : f.length = e.nodes.length + 1 := by
  unfold factorNodes at h
  simp only [bind_eq_ok, pure_eq, ok_inj] at h
  obtain ⟨_, _, rfl⟩ := h
  rfl

/-- **C44**: `a ^ b` fits `S1 + S2 + 3` nodes. -/
theorem C44_wedge {l r e : Rpne} (h : epExpr l r = ok e) : e.nodes.length ≤ l.nodes.length + r.nodes.length + 3 := by
  unfold epExpr at h
  split at h
  · rw [ok_inj] at h; subst h; simp
  simp only [bind_eq_ok] at h
  obtain ⟨_, _, _, _, h⟩ := h
  split at h
  · split at h
    · rw [pure_eq, ok_inj] at h; subst h; simp [finishEp]; omega
    · simp only [bind_eq_ok, pure_eq, ok_inj] at h
      obtain ⟨f, hf, rfl⟩ := h
      have := factorNodes_length hf
      simp [finishEp]; omega
  · split at h
    · simp only [bind_eq_ok, pure_eq, ok_inj] at h
      obtain ⟨f, hf, rfl⟩ := h
      have := factorNodes_length hf
      simp [finishEp]; omega
    · simp only [bind_eq_ok, pure_eq, ok_inj] at h
      obtain ⟨f, hf, g, hg, q, _, rfl⟩ := h
      have := factorNodes_length hf
      have := factorNodes_length hg
      simp [finishEp]; omega

example : ∃ e, epExpr (entityExpr 0 0) (entityExpr 1 1) = ok e ∧ e.nodes.length = 1 + 1 + 3 := ⟨_, rfl, by decide +kernel⟩

/-- **C44**: several results become one expression of as many nodes as all of them and one per result. -/
theorem C44_concat (es : List Rpne) : (concatExpr es).nodes.length = (es.map fun e => e.nodes.length).sum + es.length := by
  unfold concatExpr
  induction es with
  | nil => rfl
  | cons e es ih => simp only [List.flatMap_cons, List.length_append, List.length_cons, List.map_cons, List.sum_cons] at ih ⊢; omega

example : (concatExpr [entityExpr 0 0, entityExpr 1 1]).nodes.length = 4 := by decide

end Gal
