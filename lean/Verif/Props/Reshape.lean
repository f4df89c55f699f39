import Verif.ReshapeDone
import Verif.Props.ExprFalse

/-!
# Property C36: common subexpressions are evaluated once
-/

namespace Gal

open Out

mutual

theorem Tree.Good.noRef : ∀ {t : Tree}, t.Good → t.NoRef
  | .leaf n, h => by
    rw [Tree.Good] at h
    intro m hm e
    rw [Tree.post, List.mem_singleton] at hm
    subst hm
    rw [e] at h
    rcases h with h | h <;> exact absurd h (by decide)
  | .un n t, h => by
    rw [Tree.Good] at h
    intro m hm e
    rw [Tree.post, List.mem_append, List.mem_singleton] at hm
    rcases hm with hm | rfl
    · exact Tree.Good.noRef h.2.2 m hm e
    · have := h.1
      rw [e] at this
      rcases this with h | h | h | h | h | h | h | h <;> exact absurd h (by decide)
  | .bin n l r, h => by
    rw [Tree.Good] at h
    intro m hm e
    rw [Tree.post, List.mem_append, List.mem_append, List.mem_singleton] at hm
    rcases hm with (hm | hm) | rfl
    · exact Tree.Good.noRef h.2.2.1 m hm e
    · exact Tree.Good.noRef h.2.2.2 m hm e
    · have := h.1
      rw [e] at this
      rcases this with h | h | h | h <;> exact absurd h (by decide)
  | .poly n f, h => by
    rw [Tree.Good] at h
    intro m hm e
    rw [Tree.post, List.mem_append, List.mem_singleton] at hm
    rcases hm with hm | rfl
    · exact Forest.Good.noRef h.2.2.2 m hm e
    · have := h.1
      rw [e] at this
      rcases this with h | h <;> exact absurd h (by decide)

theorem Forest.Good.noRef : ∀ {f : Forest} {P : Rat32 → Prop}, f.Good P → ∀ n ∈ f.post, n.o ≠ Op.cse
  | .nil, _, _ => by intro m hm; rw [Forest.post] at hm; cases hm
  | .cons se t f, P, h => by
    rw [Forest.Good] at h
    intro m hm e
    rw [Forest.post, List.mem_cons, List.mem_append] at hm
    rcases hm with rfl | hm | hm
    · rw [h.1] at e; exact absurd e (by decide)
    · exact Tree.Good.noRef h.2.2.2.1 m hm e
    · exact Forest.Good.noRef h.2.2.2.2 m hm e

end

mutual

theorem Tree.At.good : ∀ {T : Tree} {p : Nat} {u : Tree}, T.At p u → T.Good → u.Good
  | .leaf n, p, u, h, hs => by rw [Tree.At] at h; rw [h.2]; exact hs
  | .un n t, p, u, h, hs => by
    rw [Tree.At] at h
    rcases h with h | h
    · rw [h.2]; exact hs
    · rw [Tree.Good] at hs; exact h.good hs.2.2
  | .bin n l r, p, u, h, hs => by
    rw [Tree.At] at h
    rcases h with h | h | h
    · rw [h.2]; exact hs
    · rw [Tree.Good] at hs; exact h.good hs.2.2.1
    · rw [Tree.Good] at hs; exact h.2.good hs.2.2.2
  | .poly n f, p, u, h, hs => by
    rw [Tree.At] at h
    rcases h with h | h
    · rw [h.2]; exact hs
    · rw [Tree.Good] at hs; exact Forest.At.good h hs.2.2.2

theorem Forest.At.good : ∀ {f : Forest} {p : Nat} {u : Tree} {P : Rat32 → Prop}, f.At p u → f.Good P → u.Good
  | .nil, p, u, P, h, hs => by rw [Forest.At] at h; exact h.elim
  | .cons se t f, p, u, P, h, hs => by
    rw [Forest.At] at h
    rw [Forest.Good] at hs
    rcases h with h | h
    · exact h.2.good hs.2.2.2.1
    · exact Forest.At.good h.2 hs.2.2.2.2

end

theorem Tree.At.mem {T u : Tree} {p : Nat} (h : T.At p u) : ∀ n ∈ u.post, n ∈ T.post := by
  obtain ⟨a, b, e, -⟩ := h.split
  intro n hn
  rw [e]; simp [hn]

section

variable {α V : Type} [AddCommGroup V] [Module ℚ V] {M : Ops α} {ie : Nat → Nat → α} {I : Interp V} {R : α → V → Prop}
  {A : Node → Prop} (H : Refines M ie I R A) {σ : Nat → Tree}

include H

mutual

/-- Evaluation of a tree with references, when the temporaries hold the values of the trees they stand for. -/
theorem eval_refs : ∀ {t u : Tree}, t.Shape → (t.expand σ).Eqv u → u.Good → (∀ n ∈ t.post, n.o ≠ Op.cse → ∀ m ∈ u.post, n.Eqv m → A m) →
    ∀ {temps : List (α × Nat)} {x : α},
    (∀ n ∈ t.post, n.o = Op.cse → ∀ a id y, temps[n.ex]? = some (a, id) → M.ref a id = ok y → R y ((σ n.ex).val I)) →
    t.eval M ie temps = ok x → R x (u.val I)
  | .leaf n, u, hs, he, hg, hA, temps, x, ht, hx => by
    rw [Tree.expand] at he
    by_cases hc : n.o = Op.cse
    · rw [if_pos hc] at he
      have ht := ht n (by rw [Tree.post]; simp) hc
      rw [Tree.eval, leafEval, if_neg (by rw [hc]; decide), if_pos hc] at hx
      rw [← he.val I hg]
      split at hx
      · cases hx
      · rename_i a id h1
        exact ht a id x h1 hx
    · rw [if_neg hc] at he
      rw [Tree.Shape] at hs
      rw [Tree.Eqv] at he
      obtain ⟨m, rfl, he⟩ := he
      rw [Tree.eval, leafEval_congr M ie temps hs he] at hx
      exact eval_tree H hg (fun k hk => hA n (by rw [Tree.post]; simp) hc k hk (by
        rw [Tree.post, List.mem_singleton] at hk
        subst hk
        exact he)) (temps := temps) (by rw [Tree.eval]; exact hx)
  | .un n t, u, hs, he, hg, hA, temps, x, ht, hx => by
    rw [Tree.Shape] at hs
    rw [Tree.expand, Tree.Eqv] at he
    obtain ⟨m, u, rfl, he, het⟩ := he
    rw [Tree.Good] at hg
    have hAn := hA n (by rw [Tree.post]; simp) (fun h => absurd (h ▸ hs.1) (by unfold IsUn; decide)) m (by rw [Tree.post]; simp) he
    have hAt : ∀ n ∈ t.post, n.o ≠ Op.cse → ∀ m ∈ u.post, n.Eqv m → A m :=
      fun n hn hc m hm => hA n (by rw [Tree.post]; simp [hn]) hc m (by rw [Tree.post]; simp [hm])
    rw [Tree.eval, bind_eq_ok] at hx
    obtain ⟨a, ha, hx⟩ := hx
    have ih := eval_refs hs.2 het hg.2.2 hAt (fun k hk => ht k (by rw [Tree.post]; simp [hk])) ha
    rw [unEval_congr M hs.1 he] at hx
    unfold unEval at hx
    rw [Tree.val]
    split at hx
    · rename_i h1; rw [if_pos h1]; exact H.rev _ _ _ ih hx
    · rename_i h1; rw [if_neg h1]
      split at hx
      · rename_i h2; rw [if_pos h2]; exact H.pd _ _ _ ih hx
      · rename_i h2; rw [if_neg h2]
        split at hx
        · rename_i h3; rw [if_pos h3]; exact H.comp _ hAn (by assumption) _ _ _ ih hx
        · rename_i h3; rw [if_neg h3]
          split at hx
          · rename_i h4; rw [if_pos h4]; exact H.grd _ hAn (by assumption) _ _ _ ih hx
          · rename_i h4; rw [if_neg h4]
            have hf : IsFun m.o := by
              rcases hg.1 with h | h | h | h | h
              · exact absurd h h1
              · exact absurd h h2
              · exact absurd h h3
              · exact absurd h h4
              · exact h
            exact H.fn _ hAn hf _ _ _ (hg.2.1 hf) ih hx
  | .bin n l r, u, hs, he, hg, hA, temps, x, ht, hx => by
    rw [Tree.Shape] at hs
    rw [Tree.expand, Tree.Eqv] at he
    obtain ⟨m, l', r', rfl, he, hel, her⟩ := he
    rw [Tree.Good] at hg
    have hAn := hA n (by rw [Tree.post]; simp) (fun h => absurd (h ▸ hs.1) (by unfold IsBin; decide)) m (by rw [Tree.post]; simp) he
    rw [Tree.eval] at hx
    simp only [bind_eq_ok] at hx
    obtain ⟨a, ha, b, hb, hx⟩ := hx
    have iha := eval_refs hs.2.1 hel hg.2.2.1 (fun n hn hc m hm => hA n (by rw [Tree.post]; simp [hn]) hc m (by rw [Tree.post]; simp [hm]))
      (fun k hk => ht k (by rw [Tree.post]; simp [hk])) ha
    have ihb := eval_refs hs.2.2 her hg.2.2.2 (fun n hn hc m hm => hA n (by rw [Tree.post]; simp [hn]) hc m (by rw [Tree.post]; simp [hm]))
      (fun k hk => ht k (by rw [Tree.post]; simp [hk])) hb
    rw [binEval_congr M hs.1 he] at hx
    unfold binEval at hx
    rw [Tree.val]
    split at hx
    · rename_i h1; rw [if_pos h1]; exact H.gp _ _ _ _ _ iha ihb hx
    · rename_i h1; rw [if_neg h1]
      split at hx
      · rename_i h2; rw [if_pos h2]; exact H.lc _ _ _ _ _ iha ihb hx
      · rename_i h2; rw [if_neg h2]
        split at hx
        · rename_i h3; rw [if_pos h3]; exact H.sip _ _ _ _ _ iha ihb hx
        · rename_i h3; rw [if_neg h3]
          have hd : m.o = Op.div := by
            rcases hg.1 with h | h | h | h
            · exact absurd h h1
            · exact absurd h h2
            · exact absurd h h3
            · exact h
          exact H.div _ hAn hd _ _ _ _ _ (hg.2.1 hd) iha ihb hx
  | .poly n f, u, hs, he, hg, hA, temps, x, ht, hx => by
    rw [Tree.Shape] at hs
    rw [Tree.expand, Tree.Eqv] at he
    obtain ⟨m, g, rfl, he, hef⟩ := he
    rw [Tree.Good] at hg
    rw [Tree.eval, bind_eq_ok] at hx
    obtain ⟨as, has, hx⟩ := hx
    have hl := forest_length M ie temps f as _ has
    have hne : as ≠ [] := by intro e; rw [e] at hl; have := hs.2.2.1; simp at hl; omega
    have ih := eval_refs_forest hs.2.2.2 hef hg.2.2.2 (by intro q; split; exact fun h => Or.inr h; exact fun h => Or.inl h)
      (fun n hn hc m hm => hA n (by rw [Tree.post]; simp [hn]) hc m (by rw [Tree.post]; simp [hm])) (fun k hk => ht k (by rw [Tree.post]; simp [hk])) has
    rw [polyEval_congr M he] at hx
    unfold polyEval at hx
    rw [Tree.val]
    split at hx
    · rename_i h1; rw [if_pos h1]; exact H.sums _ _ _ hne ih hx
    · rename_i h1; rw [if_neg h1]; exact H.eps _ _ _ hne ih hx

theorem eval_refs_forest : ∀ {f g : Forest} {P : Rat32 → Prop}, f.Shape → (f.expand σ).Eqv g → g.Good P →
    (∀ q, P q → q.num = 0 ∨ q.WF ∧ q.num ≠ 0) → (∀ n ∈ f.post, n.o ≠ Op.cse → ∀ m ∈ g.post, n.Eqv m → A m) →
    ∀ {temps : List (α × Nat)} {xs : List α},
    (∀ n ∈ f.post, n.o = Op.cse → ∀ a id y, temps[n.ex]? = some (a, id) → M.ref a id = ok y → R y ((σ n.ex).val I)) →
    f.eval M ie temps = ok xs → List.Forall₂ R xs (g.vals I)
  | .nil, g, _, _, he, _, _, _, temps, xs, _, hx => by
    rw [Forest.expand, Forest.Eqv] at he
    subst he
    rw [Forest.eval, ok_inj] at hx; subst hx
    rw [Forest.vals]; exact .nil
  | .cons se t f, g, P, hs, he, hg, hP, hA, temps, xs, ht, hx => by
    rw [Forest.Shape] at hs
    rw [Forest.expand, Forest.Eqv] at he
    obtain ⟨se', t', f', rfl, he, het, hef⟩ := he
    rw [Forest.Good] at hg
    rw [Forest.eval] at hx
    simp only [bind_eq_ok, pure_eq, ok_inj] at hx
    obtain ⟨a, ha, b, hb, bs, hbs, rfl⟩ := hx
    have iha := eval_refs hs.2.2.1 het hg.2.2.2.1 (fun n hn hc m hm => hA n (by rw [Forest.post]; simp [hn]) hc m (by rw [Forest.post]; simp [hm]))
      (fun k hk => ht k (by rw [Forest.post]; simp [hk])) ha
    have ihb := eval_refs_forest hs.2.2.2 hef hg.2.2.2.2 hP (fun n hn hc m hm => hA n (by rw [Forest.post]; simp [hn]) hc m (by rw [Forest.post]; simp [hm]))
      (fun k hk => ht k (by rw [Forest.post]; simp [hk])) hbs
    rw [Forest.vals]
    refine .cons ?_ ihb
    rw [seEval_congr M hs.1 he] at hb
    unfold seEval at hb
    rcases hP _ hg.2.2.1 with hq | ⟨hw, hq⟩
    · rw [if_neg (by simpa using hq), ok_inj] at hb; subst hb
      rw [if_pos hq]; exact iha
    · rw [if_pos hq] at hb
      rw [if_neg hq]
      exact H.scale _ _ _ _ hw hq iha hb

end

end

section

variable {α : Type} {M : Ops α} {ie : Nat → Nat → α}

theorem noop_ne : (⟨Op.noop, 0, 0, Rat32.zero⟩ : Node).o ≠ Op.se := by decide

/-- The temporaries have consecutive ids, each as many as it has terms: from `b` up to `e`. -/
def TempIds (M : Ops α) : Nat → List (α × Nat) → Nat → Prop
  | b, [], e => b = e
  | b, p :: ps, e => p.2 = b ∧ TempIds M (b + M.size p.1) ps e

theorem TempIds.le : ∀ {ps : List (α × Nat)} {b e : Nat}, TempIds M b ps e → b ≤ e
  | [], _, _, h => Nat.le_of_eq h
  | p :: ps, b, e, h => by have := TempIds.le h.2; omega

theorem TempIds.mem : ∀ {ps : List (α × Nat)} {b e : Nat}, TempIds M b ps e → ∀ p ∈ ps, b ≤ p.2 ∧ p.2 + M.size p.1 ≤ e
  | p :: ps, b, e, h, q, hq => by
    rcases List.mem_cons.1 hq with rfl | hq
    · have := TempIds.le h.2
      rw [h.1]; omega
    · have := TempIds.mem h.2 q hq
      omega

theorem TempIds.before : ∀ {ps : List (α × Nat)} {b e : Nat}, TempIds M b ps e → ∀ {j k : Nat} {p q : α × Nat}, j < k → ps[j]? = some p →
    ps[k]? = some q → p.2 + M.size p.1 ≤ q.2
  | [], _, _, _, _, _, _, _, _, hj, _ => by simp at hj
  | p :: ps, b, e, h, 0, k + 1, p', q, _, hj, hk => by
    simp only [List.getElem?_cons_zero, Option.some.injEq, List.getElem?_cons_succ] at hj hk
    subst hj
    have := TempIds.mem h.2 q (List.mem_of_getElem? hk)
    rw [h.1]; exact this.1
  | p :: ps, b, e, h, j + 1, k + 1, p', q, hlt, hj, hk => by
    simp only [List.getElem?_cons_succ] at hj hk
    exact TempIds.before h.2 (by omega) hj hk

/-- The temporaries are evaluated one after the other, each with those before it. -/
theorem run_blocks : ∀ {ts : List Tree}, (∀ t ∈ ts, t.Shape) → ∀ {ns : List Node} {s s' : RState α} {rest : List α},
    s.inputs = gatherInputs ie (blocks ts) ++ rest → run M (blocks ts ++ ns) s = ok s' →
    ∃ (vs : List (α × Nat)) (id : Nat), vs.length = ts.length ∧ TempIds M s.nextId vs id ∧
      (∀ (j : Nat) (t : Tree) (v : α × Nat), ts[j]? = some t → vs[j]? = some v → t.eval M ie (s.temps ++ vs.take j) = ok v.1) ∧
      run M ns { s with inputs := rest, temps := s.temps ++ vs, nextId := id } = ok s'
  | [], _, ns, s, s', rest, hi, h => by
    simp only [blocks, List.flatMap_nil, gatherInputs, List.filter_nil, List.map_nil, List.nil_append] at hi h
    refine ⟨[], s.nextId, rfl, rfl, by simp, ?_⟩
    rw [← hi, List.append_nil]
    exact h
  | t :: ts, hts, ns, s, s', rest, hi, h => by
    have eb : blocks (t :: ts) = t.post ++ (⟨Op.noop, 0, 0, Rat32.zero⟩ :: blocks ts) := by simp [blocks]
    rw [eb, gatherInputs_append, gatherInputs_other ie (n := ⟨Op.noop, 0, 0, Rat32.zero⟩) (by decide), List.append_assoc] at hi
    rw [eb, List.append_assoc, run_tree M ie t (hts t List.mem_cons_self) _ s _ hi, bind_eq_ok] at h
    obtain ⟨v, hv, h⟩ := h
    rw [List.cons_append, run_step noop_ne, bind_eq_ok] at h
    obtain ⟨s1, h1, h⟩ := h
    have h1 : ok (⟨gatherInputs ie (blocks ts) ++ rest, s.temps ++ [(v, s.nextId)], s.args, s.nextId + M.size v⟩ : RState α) = ok s1 := h1
    rw [ok_inj] at h1
    subst h1
    obtain ⟨vs, id, hl, hc, hv', hr⟩ := run_blocks (fun t ht => hts t (List.mem_cons_of_mem _ ht)) rfl h
    refine ⟨(v, s.nextId) :: vs, id, by simp [hl], ⟨rfl, hc⟩, ?_, ?_⟩
    · intro j t' w ht' hw
      cases j with
      | zero =>
        simp only [List.getElem?_cons_zero, Option.some.injEq] at ht' hw
        subst ht' hw
        simpa using hv
      | succ j =>
        simp only [List.getElem?_cons_succ] at ht' hw
        have := hv' j t' w ht' hw
        simpa using this
    · simpa using hr

end

/-- What a correct extraction of common subexpressions may do: it writes out temporaries and a main tree that compute the given tree, and
keeps the factor. -/
def Extracts (T : Tree) (q : Rat32) (r : Rpne) : Prop :=
  ∃ ts m, r.nodes = blocks ts ++ m.post ∧ Computes ts m T ∧ r.q = q

/-- **C36 (partial).**  `rpn_reshape` only shares equal subexpressions, and turns each into a reference to an earlier temporary, so that
replacing the references gives the expression back.  Missing: the reference counts are wrong for some expressions, so that a reference may
go to a subexpression that was not written out (`C36_false`); and subexpressions that differ in inner factors only are identified
(`C36_factors_false`).  Both are excluded here. -/
theorem C36_reshape_partial {T : Tree} (hg : T.Good) (hc : Coherent T) {cap : Nat} (hcap : cap < 2 ^ 64) {q : Rat32} {r : Rpne}
    {known : List Cse} {out : List Node} (hraw : reshapeRaw cap ⟨T.post, q⟩ = ok (known, out)) (hre : RefsEmitted known out)
    (h : reshape cap ⟨T.post, q⟩ = ok r) : Extracts T q r := by
  obtain ⟨ts, m, e, hC⟩ := reshape_computes hg.noRef hg.shape hc hcap hraw (Or.inl hre)
  rw [reshape, hraw, ok_bind] at h
  simp only [e, ok_bind] at h
  split at h
  · cases h
  · rw [pure_eq, ok_inj] at h
    subst h
    exact ⟨ts, m, rfl, hC, rfl⟩

/-- **C36 for expressions without common subexpressions.**  If no operation occurs twice, nothing is shared; divisors, arguments of functions
and their results become temporaries, and replacing the references gives the expression back. -/
theorem C36_distinct {T : Tree} (hg : T.Good) (hd : T.Distinct) {cap : Nat} (hcap : cap < 2 ^ 64) {q : Rat32} {r : Rpne}
    (h : reshape cap ⟨T.post, q⟩ = ok r) : Extracts T q r := by
  unfold reshape at h
  rw [bind_eq_ok] at h
  obtain ⟨⟨known, out⟩, hraw, h⟩ := h
  obtain ⟨ts, m, e, hC⟩ := reshape_computes hg.noRef hg.shape (coherent_of_distinct hg.shape hd) hcap hraw (Or.inr hd)
  simp only [e, ok_bind] at h
  split at h
  · cases h
  · rw [pure_eq, ok_inj] at h
    subst h
    exact ⟨ts, m, rfl, hC, rfl⟩

/-- A program that computes a tree gives its value, where representation may depend on the ids `b` in use: a temporary represents its value
with the ids before its own, a reference to it with its own ids as well. -/
theorem run_extracts {α V : Type} [AddCommGroup V] [Module ℚ V] {M : Ops α} {ie : Nat → Nat → α} {I : Interp V} {R : Nat → α → V → Prop}
    {A : Node → Prop} {id : Nat} (H : ∀ b, id ≤ b → Refines M ie I (R b) A) (mono : ∀ b b' a v, b ≤ b' → R b a v → R b' a v)
    {T : Tree} {q : Rat32} {r : Rpne} (hx : Extracts T q r) (hg : T.Good) (hA : ∀ n ∈ T.post, A n) {s : RState α}
    (hs : runNodes M r.nodes.length r.nodes ⟨gatherInputs ie r.nodes, [], [], id⟩ = ok s)
    (href : ∀ p ∈ s.temps, ∀ v x, R p.2 p.1 v → M.ref p.1 p.2 = ok x → R (p.2 + M.size p.1) x v) :
    ∃ x, s.inputs = [] ∧ s.args = [x] ∧ R s.nextId x (T.val I) ∧ TempIds M id s.temps s.nextId ∧ ∀ p ∈ s.temps, ∃ v, R p.2 p.1 v := by
  obtain ⟨ts, m, e, ⟨σ, hts, hms, hmr, hme⟩, -⟩ := hx
  have hs' : run M (blocks ts ++ m.post) ⟨gatherInputs ie (blocks ts ++ m.post), [], [], id⟩ = ok s := by
    rw [← e]; exact hs
  have hsh : ∀ t ∈ ts, t.Shape := by
    intro t ht
    obtain ⟨j, hj⟩ := List.getElem?_of_mem ht
    exact (hts j t hj).1
  obtain ⟨vs, id', hl, hc, hv, hr⟩ := run_blocks (ie := ie) hsh (gatherInputs_append _ _ _) hs'
  rw [← List.append_nil m.post, run_tree M ie m hms [] _ [] (by simp), bind_eq_ok] at hr
  obtain ⟨x, hx, hr⟩ := hr
  rw [run_nil, ok_inj] at hr
  subst hr
  simp only [List.nil_append] at href hx hv hc ⊢
  have key : ∀ j, ∀ v, vs[j]? = some v → R v.2 v.1 ((σ j).val I) := by
    intro j
    induction j using Nat.strong_induction_on with
    | _ j ih =>
      intro v hvj
      have hj : j < ts.length := by rw [← hl]; exact (List.getElem?_eq_some_iff.1 hvj).1
      obtain ⟨h1, h2, h3, p, h4⟩ := hts j ts[j] (List.getElem?_eq_getElem hj)
      refine eval_refs (H v.2 (hc.mem v (List.mem_of_getElem? hvj)).1) h1 h3 (h4.good hg) (fun _ _ _ n hn _ => hA n (h4.mem n hn)) ?_
        (hv j _ v (List.getElem?_eq_getElem hj) hvj)
      intro n hn hcn a id y ha hy
      have hlt := h2 n hn hcn
      rw [List.getElem?_take_of_lt hlt] at ha
      exact mono _ _ _ _ (hc.before hlt ha hvj) (href (a, id) (List.mem_of_getElem? ha) _ _ (ih _ hlt _ ha) hy)
  refine ⟨x, trivial, rfl, eval_refs (H _ hc.le) hms hme hg (fun _ _ _ n hn _ => hA n hn) ?_ hx, hc, fun p hp => ?_⟩
  · intro n hn hcn a id y ha hy
    exact mono _ _ _ _ (hc.mem _ (List.mem_of_getElem? ha)).2 (href (a, id) (List.mem_of_getElem? ha) _ _ (key _ _ ha) hy)
  · obtain ⟨j, hj⟩ := List.getElem?_of_mem hp
    exact ⟨_, key j p hj⟩

section

variable {α V : Type} [AddCommGroup V] [Module ℚ V] {M : Ops α} {ie : Nat → Nat → α} {I : Interp V} {R : α → V → Prop}
  {A : Node → Prop} (H : Refines M ie I R A)

include H

/-- **C36.**  A program that computes a tree gives its value: on the reshaped nodes the machine leaves one entry on the stack, which represents
the value of the tree, provided a reference to a temporary represents what the temporary represents. -/
theorem C36_value {T : Tree} {q : Rat32} {r : Rpne} (hx : Extracts T q r) (hg : T.Good)
    (hA : ∀ n ∈ T.post, A n) {id : Nat} {s : RState α}
    (hs : runNodes M r.nodes.length r.nodes ⟨gatherInputs ie r.nodes, [], [], id⟩ = ok s)
    (href : ∀ p ∈ s.temps, ∀ v x, R p.1 v → M.ref p.1 p.2 = ok x → R x v) :
    ∃ x, s.inputs = [] ∧ s.args = [x] ∧ R x (T.val I) := by
  obtain ⟨x, h1, h2, h3, -⟩ := run_extracts (R := fun _ => R) (fun _ _ => H) (fun _ _ _ _ _ h => h) hx hg hA hs href
  exact ⟨x, h1, h2, h3⟩

end

/-- **C36 for expressions without common subexpressions, in terms of values.**  If `e` has the value `v` and no operation occurs twice, the
machine applied to the reshaped expression leaves one entry, which times the factor of the expression represents `v`. -/
theorem C36_distinct_value {α V : Type} [AddCommGroup V] [Module ℚ V] {M : Ops α} {ie : Nat → Nat → α} {I : Interp V} {R : α → V → Prop}
    {A : Node → Prop} (H : Refines M ie I R A) {e r : Rpne} {v : V} (he : Means I e v) (h0 : e.nodes ≠ [])
    (hA : ∀ n ∈ e.nodes, A n)
    (hd : ∀ (p q : Nat) (a b : Node), e.nodes[p]? = some a → e.nodes[q]? = some b → IsShared a.o → a.o = b.o → a.checksum = b.checksum →
      a.ex = b.ex → p = q)
    {cap : Nat} (hcap : cap < 2 ^ 64) (h : reshape cap e = ok r) {id : Nat} {s : RState α}
    (hs : runNodes M r.nodes.length r.nodes ⟨gatherInputs ie r.nodes, [], [], id⟩ = ok s)
    (href : ∀ p ∈ s.temps, ∀ v x, R p.1 v → M.ref p.1 p.2 = ok x → R x v) :
    ∃ x w, s.inputs = [] ∧ s.args = [x] ∧ R x w ∧ v = r.q.toQ • w := by
  obtain ⟨t, g, p, _, _, rfl⟩ := means_tree he h0
  obtain ⟨ns, q⟩ := e
  dsimp only at p
  subst p
  have hx := C36_distinct g hd hcap h
  have hq : r.q = q := hx.choose_spec.choose_spec.2.2
  obtain ⟨x, h1, h2, h3⟩ := C36_value H hx g hA hs href
  exact ⟨x, _, h1, h2, h3, by rw [hq]⟩

/-!
### Witnesses
-/

/-- A criterion for `Coherent`: nodes that look alike have the same factors. -/
theorem coherent_of_nodes {T : Tree} (h : ∀ a ∈ T.post, ∀ b ∈ T.post, a.same b = true → a.q = b.q) : Coherent T := by
  intro p q u v hu hv hs
  have hu := hu.mem
  have hv := hv.mem
  unfold SamePost at hs
  rw [List.forall₂_iff_get] at hs ⊢
  refine ⟨hs.1, fun i h1 h2 => ⟨hs.2 i h1 h2, fun _ => ?_⟩⟩
  exact h _ (hu _ (List.get_mem _ _)) _ (hv _ (List.get_mem _ _)) (hs.2 i h1 h2)

/-- Argument number `i` as a tree. -/
def argT (i : Nat) : Tree := .leaf ⟨Op.id, i, i, ⟨0, 0⟩⟩

/-- A product with a given checksum. -/
def gpT (c : Nat) (l r : Tree) : Tree := .bin ⟨Op.gp, c, 0, ⟨0, 0⟩⟩ l r

/-- The sum of `k` times `l` and `r`, with given checksums. -/
def sumT (c cl cr : Nat) (k : Int) (l r : Tree) : Tree :=
  .poly ⟨Op.sum, c, 2, ⟨0, l.post.length + r.post.length + 2 + 1⟩⟩
    (.cons ⟨Op.se, cl, l.post.length, ⟨k, 1⟩⟩ l (.cons ⟨Op.se, cr, r.post.length, ⟨1, 1⟩⟩ r .nil))

/-- The operations of `ratInterp`, where a reference has the value of the temporary. -/
def refOps : Ops ℚ := { ratOps with ref := fun a _ => ok a }

theorem ref_refines : Refines refOps ratIe ratInterp Eq (fun _ => True) :=
  ⟨rat_refines.input, rat_refines.const, rat_refines.scale, rat_refines.rev, rat_refines.pd, rat_refines.comp, rat_refines.grd,
    rat_refines.gp, rat_refines.lc, rat_refines.sip, rat_refines.sums, rat_refines.eps, rat_refines.div, rat_refines.fn⟩

/-- The value the machine computes with references. -/
def refRun (r : Rpne) : Option ℚ :=
  match runNodes refOps r.nodes.length r.nodes ⟨gatherInputs ratIe r.nodes, [], [], 0⟩ with
  | .val s false => s.args.head?
  | _ => none

theorem Extracts.run {T : Tree} {q : Rat32} {r : Rpne} (h : Extracts T q r) (hg : T.Good) {v : ℚ} (hv : refRun r = some v) :
    T.val ratInterp = v := by
  unfold refRun at hv
  split at hv
  · rename_i s hs
    obtain ⟨x, -, h2, h3⟩ := C36_value ref_refines h hg (fun _ _ => trivial) hs (fun p _ v x e h => by
      rw [← e]; exact ok_inj.1 h.symm)
    rw [h2] at hv
    simp only [List.head?_cons, Option.some.injEq] at hv
    rw [← h3, hv]
  · cases hv

/-- `(c + (b b)(b b)) ((a a)(a a))`. -/
def countT : Tree :=
  gpT 3035026000
    (sumT 2147483652 2 4224492895 1 (argT 2) (gpT 4224492895 (gpT 4224492895 (argT 1) (argT 1)) (gpT 4224492895 (argT 1) (argT 1))))
    (gpT 4224492895 (gpT 4224492895 (argT 0) (argT 0)) (gpT 4224492895 (argT 0) (argT 0)))

/-- `((2 a + b) c) ((3 a + b) c)`. -/
def factorT : Tree :=
  gpT 4224492895 (gpT 604752281 (sumT 3 0 1 2 (argT 0) (argT 1)) (argT 2)) (gpT 604752281 (sumT 3 0 1 3 (argT 0) (argT 1)) (argT 2))

theorem gpT_good {c : Nat} {l r : Tree} (hl : l.Good) (hr : r.Good) : (gpT c l r).Good := by
  rw [gpT, Tree.Good]
  exact ⟨Or.inl rfl, fun h => absurd h (by show Op.gp ≠ Op.div; decide), hl, hr⟩

theorem argT_good (i : Nat) : (argT i).Good := by rw [argT, Tree.Good]; exact Or.inl rfl

theorem sumT_good {c cl cr : Nat} {k : Int} (hk : InI32 k) (h0 : k ≠ 0) {l r : Tree} (hl : l.Good) (hr : r.Good) :
    (sumT c cl cr k l r).Good := by
  rw [sumT, Tree.Good]
  refine ⟨Or.inl rfl, rfl, Nat.succ_pos _, ?_⟩
  simp only [Forest.Good, if_true]
  exact ⟨trivial, trivial, ⟨⟨hk, by show InI32 1; decide, by show (0 : Int) < 1; decide⟩, h0⟩, hl, trivial, trivial,
    ⟨⟨by show InI32 1; decide, by show InI32 1; decide, by show (0 : Int) < 1; decide⟩, by show (1 : Int) ≠ 0; decide⟩, hr, trivial⟩

theorem countT_good : countT.Good :=
  gpT_good (sumT_good (by decide) (by decide) (argT_good _) (gpT_good (gpT_good (argT_good _) (argT_good _)) (gpT_good (argT_good _) (argT_good _))))
    (gpT_good (gpT_good (argT_good _) (argT_good _)) (gpT_good (argT_good _) (argT_good _)))

theorem factorT_good : factorT.Good :=
  gpT_good (gpT_good (sumT_good (by decide) (by decide) (argT_good _) (argT_good _)) (argT_good _))
    (gpT_good (sumT_good (by decide) (by decide) (argT_good _) (argT_good _)) (argT_good _))

/-- The tree is what the operators build. -/
example : (do
    let bb ← gpExpr (argE 1) (argE 1)
    let b4 ← gpExpr bb bb
    let s ← addExpr (argE 2) b4
    let aa ← gpExpr (argE 0) (argE 0)
    let a4 ← gpExpr aa aa
    gpExpr s a4) = ok ⟨countT.post, Rat32.one⟩ := by decide +kernel

/-- The tree is what the operators build. -/
example : (do
    let x ← addExpr (timesE 2 (argE 0)) (argE 1)
    let y ← addExpr (timesE 3 (argE 0)) (argE 1)
    let xc ← gpExpr x (argE 2)
    let yc ← gpExpr y (argE 2)
    gpExpr xc yc) = ok ⟨factorT.post, Rat32.one⟩ := by decide +kernel

theorem countT_val : countT.val ratInterp = 1360 := by
  simp [countT, gpT, sumT, argT, Tree.val, Forest.vals, ratInterp, Rat32.toQ, Op.gp, Op.sum]
  norm_num

theorem factorT_val : factorT.val ratInterp = 1008 := by
  simp [factorT, gpT, sumT, argT, Tree.val, Forest.vals, ratInterp, Rat32.toQ, Op.gp, Op.sum]
  norm_num

/-- What the machine computes for the reshaped expression. -/
def reshapedRun (cap : Nat) (T : Tree) : Option ℚ :=
  match reshape cap ⟨T.post, Rat32.one⟩ with
  | .val r false => refRun r
  | _ => none

theorem not_extracts {T : Tree} {cap : Nat} {w : ℚ} (hg : T.Good) (h : reshapedRun cap T = some w) (hw : T.val ratInterp ≠ w) :
    ∃ r, reshape cap ⟨T.post, Rat32.one⟩ = ok r ∧ ¬ Extracts T Rat32.one r := by
  unfold reshapedRun at h
  split at h
  · rename_i r hr
    exact ⟨r, hr, fun hx => hw (hx.run hg h)⟩
  · cases h

theorem countT_run : reshapedRun 19 countT = some 640 := by decide +kernel

theorem factorT_run : reshapedRun 15 factorT = some 784 := by decide +kernel

/-- **C36 fails because of the reference counts**, even when all factors are respected: for `(c + (b b)(b b)) ((a a)(a a))` the count of
`b b` is decreased once too often, it is not written out, and the references to it read `a a`; with `a = 2`, `b = 3`, `c = 4` the result is
640 instead of 1360. -/
theorem C36_false : ¬ ∀ (T : Tree) (cap : Nat) (q : Rat32) (r : Rpne), T.Good → Coherent T → cap < 2 ^ 64 →
    reshape cap ⟨T.post, q⟩ = ok r → Extracts T q r := by
  intro h
  obtain ⟨r, h1, h2⟩ := not_extracts countT_good countT_run (by rw [countT_val]; norm_num)
  refine h2 (h countT 19 _ r countT_good (coherent_of_nodes ?_) (by decide) h1)
  decide +kernel

/-- A decidable form of `RefsEmitted`. -/
def refsCheck (x : Out (List Cse × List Node)) : Bool :=
  match x with
  | .val (known, out) _ =>
    out.all fun n => n.o != Op.cse || (match known[n.ex]? with | some c => decide (c.refs > 1) || c.required | none => false)
  | _ => false

theorem refsEmitted_of_check {x : Out (List Cse × List Node)} (hd : refsCheck x = true) {known : List Cse} {out : List Node}
    (hx : x = ok (known, out)) : RefsEmitted known out := by
  subst hx
  intro n hn ho
  have := List.all_eq_true.1 hd n hn
  rw [ho] at this
  simp only [bne_self_eq_false, Bool.false_or] at this
  split at this
  · rename_i c hc
    exact ⟨c, hc, by simpa using this⟩
  · cases this

/-- **C36 fails because of the factors**, even when the reference counts are right: for `((2 a + b) c) ((3 a + b) c)` both products are
identified; with `a = 2`, `b = 3`, `c = 4` the result is 784 instead of 1008. -/
theorem C36_factors_false : ¬ ∀ (T : Tree) (cap : Nat) (q : Rat32) (r : Rpne) (known : List Cse) (out : List Node), T.Good →
    reshapeRaw cap ⟨T.post, q⟩ = ok (known, out) → RefsEmitted known out → cap < 2 ^ 64 →
    reshape cap ⟨T.post, q⟩ = ok r → Extracts T q r := by
  intro h
  obtain ⟨r, h1, h2⟩ := not_extracts factorT_good factorT_run (by rw [factorT_val]; norm_num)
  obtain ⟨⟨known, out⟩, hraw⟩ := Out.exists_of_isOk (x := reshapeRaw 15 ⟨factorT.post, Rat32.one⟩) (by decide +kernel)
  refine h2 (h factorT 15 _ r known out factorT_good hraw ?_ (by decide) h1)
  exact refsEmitted_of_check (by decide +kernel) hraw

/-- `(a a)(a a)`: one temporary, referenced twice. -/
def squareT : Tree := gpT 4224492895 (gpT 4224492895 (argT 0) (argT 0)) (gpT 4224492895 (argT 0) (argT 0))

/-- `a / (b + c)`: the divisor and the quotient are temporaries. -/
def ratioT : Tree := .bin ⟨Op.div, 221608356, 0, ⟨1, 1⟩⟩ (argT 0) (sumT 6 1 2 1 (argT 1) (argT 2))

theorem ratioT_good : ratioT.Good := by
  rw [ratioT, Tree.Good]
  exact ⟨Or.inr (Or.inr (Or.inr rfl)), fun _ => ⟨by show InI32 1; decide, by show InI32 1; decide, by show (0 : Int) < 1; decide⟩, argT_good _,
    sumT_good (by decide) (by decide) (argT_good _) (argT_good _)⟩

/-- The hypotheses of `C36_reshape_partial` hold for `(a a)(a a)`. -/
example : squareT.Good ∧ Coherent squareT ∧ ∃ known out r, reshapeRaw 7 ⟨squareT.post, Rat32.one⟩ = ok (known, out) ∧ RefsEmitted known out ∧
    reshape 7 ⟨squareT.post, Rat32.one⟩ = ok r := by
  refine ⟨gpT_good (gpT_good (argT_good _) (argT_good _)) (gpT_good (argT_good _) (argT_good _)), coherent_of_nodes (by decide +kernel), ?_⟩
  obtain ⟨⟨known, out⟩, hraw⟩ := Out.exists_of_isOk (x := reshapeRaw 7 ⟨squareT.post, Rat32.one⟩) (by decide +kernel)
  obtain ⟨r, hr⟩ := Out.exists_of_isOk (x := reshape 7 ⟨squareT.post, Rat32.one⟩) (by decide +kernel)
  exact ⟨known, out, r, hraw, refsEmitted_of_check (by decide +kernel) hraw, hr⟩

/-- A decidable form of `Tree.Distinct`. -/
theorem distinct_of_check {ns : List Node} (h : ∀ (p q : Fin ns.length), ns[p].o = ns[q].o → ns[p].checksum = ns[q].checksum →
    ns[p].ex = ns[q].ex → IsShared ns[p].o → p = q) :
    ∀ (p q : Nat) (a b : Node), ns[p]? = some a → ns[q]? = some b → IsShared a.o → a.o = b.o → a.checksum = b.checksum → a.ex = b.ex → p = q := by
  intro p q a b ha hb hs h1 h2 h3
  obtain ⟨hp, rfl⟩ := List.getElem?_eq_some_iff.1 ha
  obtain ⟨hq, rfl⟩ := List.getElem?_eq_some_iff.1 hb
  exact congrArg Fin.val (h ⟨p, hp⟩ ⟨q, hq⟩ h1 h2 h3 hs)

instance (o : Nat) : Decidable (IsFun o) := by unfold IsFun; infer_instance
instance (o : Nat) : Decidable (IsShared o) := by unfold IsShared IsBin IsPoly; infer_instance

/-- The hypotheses of `C36_distinct`, `C36_value` and `C36_distinct_value` hold for `a / (b + c)`, which gets two temporaries. -/
example : (do let s ← addExpr (argE 1) (argE 2); divExpr (argE 0) s) = ok ⟨ratioT.post, Rat32.one⟩ ∧
    ratioT.Good ∧ ratioT.Distinct ∧ Means ratInterp ⟨ratioT.post, Rat32.one⟩ (2 / 7) ∧ ratioT.post ≠ [] ∧
    ∃ r, reshape 7 ⟨ratioT.post, Rat32.one⟩ = ok r ∧ Extracts ratioT Rat32.one r ∧
      ∃ s, runNodes refOps r.nodes.length r.nodes ⟨gatherInputs ratIe r.nodes, [], [], 0⟩ = ok s ∧ s.temps.length = 2 ∧
        ∀ p ∈ s.temps, ∀ v x, p.1 = v → refOps.ref p.1 p.2 = ok x → x = v := by
  have hd : ratioT.Distinct := distinct_of_check (by decide +kernel)
  refine ⟨by decide +kernel, ratioT_good, hd, Or.inr ⟨ratioT, ratioT_good, rfl, Rat32.one_wf, by show (1 : Int) ≠ 0; decide, ?_⟩, by decide +kernel, ?_⟩
  · simp [ratioT, sumT, argT, Tree.val, Forest.vals, ratInterp, Rat32.toQ, Rat32.one, Op.gp, Op.sum, Op.div, Op.lc, Op.sip]
    norm_num
  · obtain ⟨r, hr⟩ := Out.exists_of_isOk (x := reshape 7 ⟨ratioT.post, Rat32.one⟩) (by decide +kernel)
    have hrun : (match reshape 7 ⟨ratioT.post, Rat32.one⟩ with
      | .val r _ => (match runNodes refOps r.nodes.length r.nodes ⟨gatherInputs ratIe r.nodes, [], [], 0⟩ with
        | .val s false => s.temps.length == 2
        | _ => false)
      | _ => false) = true := by decide +kernel
    rw [hr] at hrun
    refine ⟨r, hr, C36_distinct ratioT_good hd (by decide) hr, ?_⟩
    dsimp only at hrun
    split at hrun
    · rename_i s hs
      exact ⟨s, hs, by simpa using hrun, fun p _ v x e h => by rw [← e]; exact ok_inj.1 h.symm⟩
    · cases hrun

end Gal
