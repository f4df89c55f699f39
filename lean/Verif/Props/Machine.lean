import Verif.Spec.Tree

/-!
# Property C35: evaluating an expression in postfix order

The stack machine run on the nodes of an expression tree does exactly what a recursive evaluation of the tree does, for every
choice of operations.  In particular it never underflows the stack, and it consumes the inputs in the order in which `rpn_ids`
lists them.
-/

namespace Gal

open Out

variable {α : Type} {M : Ops α}

/-- Enough fuel is enough. -/
theorem runNodes_fuel (M : Ops α) : ∀ (k : Nat) (ns : List Node) (s : RState α), ns.length ≤ k →
    runNodes M k ns s = runNodes M ns.length ns s := by
  intro k
  induction k using Nat.strong_induction_on with
  | _ k ih =>
    intro ns s hk
    cases ns with
    | nil => cases k <;> rfl
    | cons n ns =>
      cases k with
      | zero => simp at hk
      | succ k =>
        simp only [List.length_cons, Nat.add_le_add_iff_right] at hk
        rw [List.length_cons]
        simp only [runNodes]
        by_cases he : ns.length < n.ex
        · simp only [he, if_true]
          split
          · rfl
          · congr 1; funext s'; rw [ih k (by omega) ns s' hk]
        · simp only [he, if_false]
          have h1 := fun s => ih k (by omega) (ns.take n.ex) s (by simp; omega)
          have h2 := fun s => ih k (by omega) (ns.drop n.ex) s (by simp; omega)
          have h3 := fun s => ih k (by omega) ns s hk
          have g1 := fun s => ih ns.length (by omega) (ns.take n.ex) s (by simp; omega)
          have g2 := fun s => ih ns.length (by omega) (ns.drop n.ex) s (by simp)
          simp only [h1, h2, h3, g1, g2]

/-- The machine on a list of nodes. -/
def run (M : Ops α) (ns : List Node) (s : RState α) : Out (RState α) := runNodes M ns.length ns s

theorem run_nil (s : RState α) : run M [] s = ok s := rfl

theorem run_step {n : Node} (h : n.o ≠ Op.se) (ns : List Node) (s : RState α) :
    run M (n :: ns) s = stepNode M n s >>= run M ns := by
  unfold run
  rw [List.length_cons, runNodes, if_neg h]

theorem run_se {n : Node} (h : n.o = Op.se) (a b : List Node) (ha : n.ex = a.length) (s : RState α) :
    run M (n :: (a ++ b)) s = (do
      let sub ← run M a { s with args := [] }
      let v ← seValue M n sub.args
      run M b { inputs := sub.inputs, temps := sub.temps, args := v :: s.args, nextId := s.nextId }) := by
  unfold run
  rw [List.length_cons, runNodes, if_pos h, if_neg (by simp [ha]), ha, List.take_left, List.drop_left]
  congr 1
  · rw [runNodes_fuel _ _ _ _ (by simp)]
  · funext sub
    congr 1
    funext v
    rw [runNodes_fuel _ _ _ _ (by simp)]

/-- Two continuations that agree on every result of `x`. -/
theorem Out.bind_congr' {α β : Type} {x : Out α} {f g : α → Out β} (h : ∀ a l, x = .val a l → f a = g a) :
    (x >>= f) = (x >>= g) := by
  cases x with
  | ub => rfl
  | val a l => show Out.bind _ _ = Out.bind _ _; simp only [Out.bind]; rw [h a l rfl]

/-- What a continuation was given. -/
theorem Out.bind_eq_val {α β : Type} {x : Out α} {f : α → Out β} {b : β} {l : Bool} (h : (x >>= f) = .val b l) :
    ∃ a l1 l2, x = .val a l1 ∧ f a = .val b l2 := by
  cases x with
  | ub => cases h
  | val a l1 =>
    have h' : Out.bind (.val a l1) f = .val b l := h
    simp only [Out.bind] at h'
    cases hf : f a with
    | ub => rw [hf] at h'; cases h'
    | val b' l2 => rw [hf] at h'; injection h' with h1; subst h1; exact ⟨a, l1, l2, rfl, hf⟩

theorem forest_length (M : Ops α) (ie : Nat → Nat → α) (temps : List (α × Nat)) :
    ∀ (f : Forest) (vs : List α) (l : Bool), f.eval M ie temps = .val vs l → vs.length = f.length
  | .nil, vs, l, h => by
    unfold Forest.eval at h
    injection h with h; subst h; rfl
  | .cons se t f, vs, l, h => by
    unfold Forest.eval at h
    obtain ⟨x, _, _, -, h⟩ := Out.bind_eq_val h
    obtain ⟨y, _, _, -, h⟩ := Out.bind_eq_val h
    obtain ⟨ys, _, _, hy, h⟩ := Out.bind_eq_val h
    injection h with h; subst h
    simp [Forest.length, forest_length M ie temps f ys _ hy]

section

variable (M) (ie : Nat → Nat → α)

theorem step_leaf {n : Node} (h : IsLeaf n.o) (s : RState α) (rest : List α) (hi : s.inputs = gatherInputs ie [n] ++ rest) :
    stepNode M n s = (do let v ← leafEval M ie s.temps n; return { s with inputs := rest, args := v :: s.args }) := by
  unfold stepNode leafEval
  by_cases h1 : n.o = Op.id
  · simp only [h1, if_true]
    simp only [gatherInputs, h1, List.filter, beq_self_eq_true, List.map_cons, List.map_nil, List.cons_append, List.nil_append] at hi
    simp only [hi]
  · have h1' : (n.o == Op.id) = false := by simpa using h1
    simp only [gatherInputs, List.filter, h1', List.map_nil, List.nil_append] at hi
    simp only [h1, if_false]
    by_cases h2 : n.o = Op.cse
    · simp only [h2, if_true]
      rw [← hi]
      cases s.temps[n.ex]? <;> rfl
    · have h3 : Op.czero ≤ n.o := by
        rcases h with h | h | h
        · exact absurd h h1
        · exact absurd h h2
        · exact h
      unfold Op.czero at h3
      simp only [h2, if_false]
      rw [if_neg (by unfold Op.noop; omega), if_neg (by unfold Op.sum; omega), if_neg (by unfold Op.ep; omega),
        if_neg (by unfold Op.gp Op.lc Op.sip Op.div; omega), if_neg (by unfold Op.rev Op.tan; omega), ← hi]

theorem step_un {n : Node} (h : IsUn n.o) (s : RState α) {x : α} {rest : List α} (hs : s.args = x :: rest) :
    stepNode M n s = (do let v ← unEval M n x; return { s with args := v :: rest }) := by
  unfold stepNode unEval
  have hb : n.o ≠ Op.id ∧ n.o ≠ Op.cse ∧ n.o ≠ Op.noop ∧ n.o ≠ Op.sum ∧ n.o ≠ Op.ep ∧
      ¬(n.o = Op.gp ∨ n.o = Op.lc ∨ n.o = Op.sip ∨ n.o = Op.div) ∧ (Op.rev ≤ n.o ∧ n.o ≤ Op.tan) := by
    rcases h with h | h | h | h | h | h | h | h <;> rw [h] <;> decide
  obtain ⟨h1, h2, h3, h4, h5, h6, h7⟩ := hb
  rw [if_neg h1, if_neg h2, if_neg h3, if_neg h4, if_neg h5, if_neg h6, if_pos h7, hs]
  dsimp only
  split_ifs <;> rfl

theorem step_bin {n : Node} (h : n.o = Op.gp ∨ n.o = Op.lc ∨ n.o = Op.sip ∨ n.o = Op.div) (s : RState α) {x y : α} {rest : List α} (hs : s.args = y :: x :: rest) :
    stepNode M n s = (do let v ← binEval M n x y; return { s with args := v :: rest }) := by
  unfold stepNode binEval
  have hb : n.o ≠ Op.id ∧ n.o ≠ Op.cse ∧ n.o ≠ Op.noop ∧ n.o ≠ Op.sum ∧ n.o ≠ Op.ep := by
    rcases h with h | h | h | h <;> rw [h] <;> decide
  obtain ⟨h1, h2, h3, h4, h5⟩ := hb
  rw [if_neg h1, if_neg h2, if_neg h3, if_neg h4, if_neg h5, if_pos (show _ from h), hs]
  dsimp only
  split_ifs <;> rfl

theorem step_poly {n : Node} (h : IsPoly n.o) (s : RState α) {xs rest : List α} (hs : s.args = xs.reverse ++ rest)
    (hn : n.ex = xs.length) (hx : 0 < xs.length) :
    stepNode M n s = (do let v ← polyEval M n xs; return { s with args := v :: rest }) := by
  unfold stepNode polyEval
  have hb : n.o ≠ Op.id ∧ n.o ≠ Op.cse ∧ n.o ≠ Op.noop := by
    rcases h with h | h <;> rw [h] <;> decide
  obtain ⟨h1, h2, h3⟩ := hb
  rw [if_neg h1, if_neg h2, if_neg h3]
  have hsp : splitArgs n.ex s.args = ok (xs.reverse, rest) := by
    unfold splitArgs
    rw [if_neg (by rw [hs, hn, List.length_append, List.length_reverse]; rintro (h | h) <;> omega), hs, hn]
    simp [List.take_left' (List.length_reverse), List.drop_left' (List.length_reverse)]
  by_cases h4 : n.o = Op.sum
  · rw [if_pos h4, if_pos h4, hsp, ok_bind]
  · have h5 : n.o = Op.ep := by rcases h with h | h; exact absurd h h4; exact h
    rw [if_neg h4, if_pos h5, if_neg h4, hsp]
    simp only [ok_bind, List.reverse_reverse]

theorem gatherInputs_append (a b : List Node) : gatherInputs ie (a ++ b) = gatherInputs ie a ++ gatherInputs ie b := by
  simp [gatherInputs]

theorem gatherInputs_other {n : Node} (h : n.o ≠ Op.id) (ns : List Node) : gatherInputs ie (n :: ns) = gatherInputs ie ns := by
  simp [gatherInputs, h]

theorem IsUn.ne {o : Nat} (h : IsUn o) : o ≠ Op.id ∧ o ≠ Op.se := by
  rcases h with h | h | h | h | h | h | h | h <;> rw [h] <;> decide

theorem IsBin.ne {o : Nat} (h : IsBin o) : o ≠ Op.id ∧ o ≠ Op.se := by
  rcases h with h | h | h | h <;> rw [h] <;> decide

theorem IsPoly.ne {o : Nat} (h : IsPoly o) : o ≠ Op.id ∧ o ≠ Op.se := by
  rcases h with h | h <;> rw [h] <;> decide

theorem IsLeaf.ne {o : Nat} (h : IsLeaf o) : o ≠ Op.se := by
  rcases h with h | h | h
  · rw [h]; decide
  · rw [h]; decide
  · intro e; rw [e] at h; exact absurd h (by decide)

mutual

theorem run_tree : ∀ (t : Tree), t.Shape → ∀ (ns : List Node) (s : RState α) (rest : List α),
    s.inputs = gatherInputs ie t.post ++ rest →
    run M (t.post ++ ns) s = (do
      let v ← t.eval M ie s.temps
      run M ns { s with inputs := rest, args := v :: s.args })
  | .leaf n, h, ns, s, rest, hi => by
    unfold Tree.Shape at h
    unfold Tree.post at hi ⊢
    unfold Tree.eval
    rw [List.singleton_append, run_step h.ne, step_leaf M ie h s rest hi]
    simp only [bind_assoc, pure_eq, ok_bind]
  | .un n t, h, ns, s, rest, hi => by
    unfold Tree.Shape at h
    unfold Tree.post at hi ⊢
    unfold Tree.eval
    rw [gatherInputs_append, gatherInputs_other ie h.1.ne.1] at hi
    rw [List.append_assoc, run_tree t h.2 _ s rest (by simpa [gatherInputs] using hi)]
    simp only [bind_assoc]
    congr 1
    funext v
    rw [List.singleton_append, run_step h.1.ne.2, step_un M h.1 _ rfl]
    simp only [bind_assoc, pure_eq, ok_bind]
  | .bin n l r, h, ns, s, rest, hi => by
    unfold Tree.Shape at h
    unfold Tree.post at hi ⊢
    unfold Tree.eval
    rw [gatherInputs_append, gatherInputs_other ie h.1.ne.1, gatherInputs_append] at hi
    rw [List.append_assoc, List.append_assoc, run_tree l h.2.1 _ s (gatherInputs ie r.post ++ rest)
      (by simpa [gatherInputs] using hi)]
    simp only [bind_assoc]
    congr 1
    funext v
    rw [run_tree r h.2.2 _ _ rest rfl]
    simp only [bind_assoc]
    congr 1
    funext w
    rw [List.singleton_append, run_step h.1.ne.2, step_bin M h.1 _ rfl]
    simp only [bind_assoc, pure_eq, ok_bind]
  | .poly n f, h, ns, s, rest, hi => by
    unfold Tree.Shape at h
    unfold Tree.post at hi ⊢
    unfold Tree.eval
    rw [gatherInputs_append, gatherInputs_other ie h.1.ne.1] at hi
    rw [List.append_assoc, run_forest f h.2.2.2 _ s rest (by simpa [gatherInputs] using hi)]
    rw [bind_assoc]
    refine Out.bind_congr' fun vs l hv => ?_
    have hl := forest_length M ie s.temps f vs l hv
    rw [List.singleton_append, run_step h.1.ne.2, step_poly M h.1 _ rfl (by rw [h.2.1, hl]) (by rw [hl]; exact h.2.2.1)]
    simp only [bind_assoc, pure_eq, ok_bind]

theorem run_forest : ∀ (f : Forest), f.Shape → ∀ (ns : List Node) (s : RState α) (rest : List α),
    s.inputs = gatherInputs ie f.post ++ rest →
    run M (f.post ++ ns) s = (do
      let vs ← f.eval M ie s.temps
      run M ns { s with inputs := rest, args := vs.reverse ++ s.args })
  | .nil, _, ns, s, rest, hi => by
    unfold Forest.post at hi ⊢
    unfold Forest.eval
    simp only [gatherInputs, List.filter_nil, List.map_nil, List.nil_append] at hi
    simp only [List.nil_append, ok_bind, List.reverse_nil]
    rw [← hi]
  | .cons se t f, h, ns, s, rest, hi => by
    unfold Forest.Shape at h
    unfold Forest.post at hi ⊢
    unfold Forest.eval
    have hse : se.o ≠ Op.id := by rw [h.1]; decide
    rw [gatherInputs_other ie hse, gatherInputs_append] at hi
    rw [List.cons_append, List.append_assoc, run_se h.1 _ _ h.2.1]
    have key := run_tree t h.2.2.1 [] { s with args := [] } (gatherInputs ie f.post ++ rest) (by simpa using hi)
    rw [List.append_nil] at key
    rw [key]
    simp only [bind_assoc]
    congr 1
    funext v
    rw [run_nil, ok_bind]
    have : seValue M se [v] = seEval M se v := rfl
    simp only [this]
    congr 1
    funext w
    rw [run_forest f h.2.2.2 ns _ rest rfl]
    simp only [pure_eq, ok_bind, List.reverse_cons, List.append_assoc, List.singleton_append]

end

end

end Gal
