import Verif.Spec.Refine
import Verif.Props.Expr

/-!
# Property C35: the machine computes the value of the expression
-/

namespace Gal

open Out

/-- **C35.**  Running the machine on the postfix form of a tree is the same as evaluating the tree recursively: the value of the
tree is the only entry left on the stack, all inputs are consumed in order, and the temporaries are untouched. -/
theorem C35_postfix {α : Type} (M : Ops α) (ie : Nat → Nat → α) (temps : List (α × Nat)) (id : Nat) {t : Tree} (h : t.Shape) :
    runNodes M t.post.length t.post ⟨gatherInputs ie t.post, temps, [], id⟩ =
      (do let v ← t.eval M ie temps; return ⟨[], temps, [v], id⟩) := by
  have := run_tree M ie t h [] ⟨gatherInputs ie t.post, temps, [], id⟩ [] (by simp)
  rw [List.append_nil] at this
  exact this

/-- Two trees with the same nodes evaluate alike, whatever the operations: a program has only one reading. -/
theorem C35_reading {α : Type} (M : Ops α) (ie : Nat → Nat → α) (temps : List (α × Nat)) {s t : Tree} (hs : s.Shape) (ht : t.Shape)
    (h : s.post = t.post) : s.eval M ie temps = t.eval M ie temps := by
  have h1 := C35_postfix M ie temps 0 hs
  rw [h, C35_postfix M ie temps 0 ht] at h1
  cases hx : s.eval M ie temps with
  | ub =>
    rw [hx] at h1
    cases hy : t.eval M ie temps with
    | ub => rfl
    | val a l => rw [hy] at h1; cases h1
  | val a l =>
    rw [hx] at h1
    cases hy : t.eval M ie temps with
    | ub => rw [hy] at h1; cases h1
    | val b l' =>
      rw [hy] at h1
      have h2 : Out.bind (val b l') (fun v => ok (⟨[], temps, [v], 0⟩ : RState α)) =
        Out.bind (val a l) (fun v => ok (⟨[], temps, [v], 0⟩ : RState α)) := h1
      simp only [Out.bind, ok, Bool.or_false, val.injEq, RState.mk.injEq, List.cons.injEq, true_and, and_true] at h2
      rw [h2.1, h2.2]

section

variable {α V : Type} [AddCommGroup V] [Module ℚ V] {M : Ops α} {ie : Nat → Nat → α} {I : Interp V} {R : α → V → Prop}
  {A : Node → Prop} (H : Refines M ie I R A)

include H

mutual

theorem eval_tree : ∀ {t : Tree}, t.Good → (∀ n ∈ t.post, A n) → ∀ {temps : List (α × Nat)} {x : α},
    t.eval M ie temps = ok x → R x (t.val I)
  | .leaf n, h, hA, temps, x, hx => by
    have hAn := hA n (by rw [Tree.post]; simp)
    unfold Tree.Good at h
    unfold Tree.eval leafEval at hx
    unfold Tree.val
    by_cases h1 : n.o = Op.id
    · rw [if_pos h1] at hx ⊢
      exact H.input _ hAn h1 _ hx
    · have h2 : Op.czero ≤ n.o := h.resolve_left h1
      rw [if_neg h1, if_neg (by intro h3; rw [h3] at h2; exact absurd h2 (by decide))] at hx
      rw [if_neg h1]
      exact H.const _ hAn h2 _ hx
  | .un n t, h, hA, temps, x, hx => by
    unfold Tree.Good at h
    have hAn := hA n (by rw [Tree.post]; simp)
    have hAt : ∀ m ∈ t.post, A m := fun m hm => hA m (by rw [Tree.post]; simp [hm])
    unfold Tree.eval at hx
    rw [bind_eq_ok] at hx
    obtain ⟨a, ha, hx⟩ := hx
    have ih := eval_tree h.2.2 hAt ha
    unfold unEval at hx
    rw [Tree.val]
    split at hx
    · rename_i h1; rw [if_pos h1]; exact H.rev _ _ _ ih hx
    · rename_i h1; rw [if_neg h1]
      split at hx
      · rename_i h2; rw [if_pos h2]; exact H.pd _ _ _ ih hx
      · rename_i h2; rw [if_neg h2]
        split at hx
        · rename_i h3; rw [if_pos h3]; exact H.comp _ hAn (by assumption) _ _ _ ih hx
        · rename_i h3; rw [if_neg h3]
          split at hx
          · rename_i h4; rw [if_pos h4]; exact H.grd _ hAn (by assumption) _ _ _ ih hx
          · rename_i h4; rw [if_neg h4]
            have hf : IsFun n.o := by
              rcases h.1 with h | h | h | h | h
              · exact absurd h h1
              · exact absurd h h2
              · exact absurd h h3
              · exact absurd h h4
              · exact h
            exact H.fn _ hAn hf _ _ _ (h.2.1 hf) ih hx
  | .bin n l r, h, hA, temps, x, hx => by
    unfold Tree.Good at h
    have hAn := hA n (by rw [Tree.post]; simp)
    unfold Tree.eval at hx
    simp only [bind_eq_ok] at hx
    obtain ⟨a, ha, b, hb, hx⟩ := hx
    have iha := eval_tree h.2.2.1 (fun m hm => hA m (by rw [Tree.post]; simp [hm])) ha
    have ihb := eval_tree h.2.2.2 (fun m hm => hA m (by rw [Tree.post]; simp [hm])) hb
    unfold binEval at hx
    rw [Tree.val]
    split at hx
    · rename_i h1; rw [if_pos h1]; exact H.gp _ _ _ _ _ iha ihb hx
    · rename_i h1; rw [if_neg h1]
      split at hx
      · rename_i h2; rw [if_pos h2]; exact H.lc _ _ _ _ _ iha ihb hx
      · rename_i h2; rw [if_neg h2]
        split at hx
        · rename_i h3; rw [if_pos h3]; exact H.sip _ _ _ _ _ iha ihb hx
        · rename_i h3; rw [if_neg h3]
          have hd : n.o = Op.div := by
            rcases h.1 with h | h | h | h
            · exact absurd h h1
            · exact absurd h h2
            · exact absurd h h3
            · exact h
          exact H.div _ hAn hd _ _ _ _ _ (h.2.1 hd) iha ihb hx
  | .poly n f, h, hA, temps, x, hx => by
    unfold Tree.Good at h
    unfold Tree.eval at hx
    rw [bind_eq_ok] at hx
    obtain ⟨as, has, hx⟩ := hx
    have hl := forest_length M ie temps f as _ has
    have hne : as ≠ [] := by intro e; rw [e] at hl; have := h.2.2.1; simp at hl; omega
    have ih := eval_forest h.2.2.2 (by intro q; split; exact fun h => Or.inr h; exact fun h => Or.inl h)
      (fun m hm => hA m (by rw [Tree.post]; simp [hm])) has
    unfold polyEval at hx
    rw [Tree.val]
    split at hx
    · rename_i h1; rw [if_pos h1]; exact H.sums _ _ _ hne ih hx
    · rename_i h1; rw [if_neg h1]; exact H.eps _ _ _ hne ih hx

theorem eval_forest : ∀ {f : Forest} {P : Rat32 → Prop}, f.Good P → (∀ q, P q → q.num = 0 ∨ q.WF ∧ q.num ≠ 0) →
    (∀ n ∈ f.post, A n) →
    ∀ {temps : List (α × Nat)} {xs : List α}, f.eval M ie temps = ok xs → List.Forall₂ R xs (f.vals I)
  | .nil, _, _, _, _, temps, xs, hx => by
    unfold Forest.eval at hx
    rw [ok_inj] at hx; subst hx
    rw [Forest.vals]; exact .nil
  | .cons se t f, P, h, hP, hA, temps, xs, hx => by
    unfold Forest.Good at h
    unfold Forest.eval at hx
    simp only [bind_eq_ok, pure_eq, ok_inj] at hx
    obtain ⟨a, ha, b, hb, bs, hbs, rfl⟩ := hx
    have iha := eval_tree h.2.2.2.1 (fun m hm => hA m (by rw [Forest.post]; simp [hm])) ha
    have ihb := eval_forest h.2.2.2.2 hP (fun m hm => hA m (by rw [Forest.post]; simp [hm])) hbs
    rw [Forest.vals]
    refine .cons ?_ ihb
    unfold seEval at hb
    rcases hP _ h.2.2.1 with hq | ⟨hw, hq⟩
    · rw [if_neg (by simpa using hq), ok_inj] at hb; subst hb
      rw [if_pos hq]; exact iha
    · rw [if_pos hq] at hb
      rw [if_neg hq]
      exact H.scale _ _ _ _ hw hq iha hb

end

/-- **C35.**  For an expression of value `v`, the machine leaves one entry on the stack, and this entry times the factor of the
expression represents `v`. -/
theorem C35_value {e : Rpne} {v : V} (he : Means I e v) (h0 : e.nodes ≠ []) (hA : ∀ n ∈ e.nodes, A n)
    {temps : List (α × Nat)} {id : Nat} {s : RState α}
    (hs : runNodes M e.nodes.length e.nodes ⟨gatherInputs ie e.nodes, temps, [], id⟩ = ok s) :
    ∃ x w, s = ⟨[], temps, [x], id⟩ ∧ R x w ∧ v = e.q.toQ • w := by
  obtain ⟨t, g, p, _, _, rfl⟩ := means_tree he h0
  rw [p] at hs hA
  rw [C35_postfix M ie temps id g.shape, bind_eq_ok] at hs
  obtain ⟨x, hx, hs⟩ := hs
  rw [pure_eq, ok_inj] at hs
  exact ⟨x, t.val I, hs.symm, eval_tree H g hA hx, rfl⟩

end

end Gal
