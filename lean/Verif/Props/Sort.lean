import Verif.Sort
import Mathlib.Data.List.Basic
import Mathlib.Data.List.Perm.Basic

/-! # Property C09: the compile-time sort -/

namespace Gal

open Out

variable {α : Type}

theorem getAt_append (P : List α) (x : α) (R : List α) : getAt (P ++ x :: R) P.length = ok x := by
  simp [getAt]

theorem getAt_of (l P : List α) (x : α) (R : List α) (i : Nat) (h : l = P ++ x :: R) (hi : i = P.length) :
    getAt l i = ok x := by
  subst h; subst hi; exact getAt_append P x R

theorem swapAt_of (l P M R : List α) (b x : α) (i j : Nat) (h : l = P ++ b :: (M ++ x :: R)) (hi : i = P.length)
    (hj : j = P.length + 1 + M.length) : swapAt l i j = ok (P ++ x :: (M ++ b :: R)) := by
  subst h; subst hi; subst hj
  unfold swapAt
  rw [getAt_append, ok_bind,
    getAt_of _ (P ++ b :: M) x R _ (by simp) (by simp; omega), ok_bind, if_neg (by omega), pure_eq]
  congr 1
  rw [List.set_append_right _ _ (by omega)]
  simp only [Nat.sub_self, List.set_cons_zero]
  rw [List.set_append_right _ _ (by omega)]
  congr 1
  have e : P.length + 1 + M.length - P.length = M.length + 1 := by omega
  rw [e, List.set_cons_succ, List.set_append_right _ _ (by omega)]
  simp

theorem swapAt_of' (l P M R : List α) (b x : α) (i j : Nat) (h : l = P ++ b :: (M ++ x :: R)) (hi : i = P.length)
    (hj : j = P.length + 1 + M.length) : swapAt l j i = ok (P ++ x :: (M ++ b :: R)) := by
  subst h; subst hi; subst hj
  unfold swapAt
  rw [getAt_of _ (P ++ b :: M) x R _ (by simp) (by simp; omega), ok_bind, getAt_append, ok_bind,
    if_neg (by omega), pure_eq]
  congr 1
  rw [List.set_append_right _ _ (by omega)]
  have e : P.length + 1 + M.length - P.length = M.length + 1 := by omega
  rw [e, List.set_cons_succ, List.set_append_right _ _ (by omega), List.set_append_right _ _ (by omega)]
  simp

theorem swapAt_self (l P R : List α) (b : α) (i : Nat) (h : l = P ++ b :: R) (hi : i = P.length) :
    swapAt l i i = ok l := by
  subst h; subst hi
  unfold swapAt
  rw [getAt_append, ok_bind, ok_bind, if_pos rfl, pure_eq]

/-- The partition loop splits the segment into elements below the pivot and the others, permuting it. -/
theorem partLoop_spec (less : α → α → Out Bool) (lt : α → α → Bool) (pivot : α) (n : Nat) :
    ∀ (pre A B S post : List α), S.length = n → (∀ x ∈ S, less x pivot = ok (lt x pivot)) →
      (∀ x ∈ A, lt x pivot = true) → (∀ x ∈ B, lt x pivot = false) →
      ∃ A' B', partLoop less pivot n (pre ++ (A ++ (B ++ (S ++ post)))) (pre.length + A.length)
          (pre.length + A.length + B.length) = ok (pre ++ (A' ++ (B' ++ post)), pre.length + A'.length) ∧
        (A' ++ B').Perm (A ++ (B ++ S)) ∧ (∀ x ∈ A', lt x pivot = true) ∧ (∀ x ∈ B', lt x pivot = false) := by
  induction n with
  | zero =>
    intro pre A B S post hS _ hA hB
    have : S = [] := List.length_eq_zero_iff.1 hS
    subst this
    exact ⟨A, B, by simp [partLoop], by simp, hA, hB⟩
  | succ n ih =>
    intro pre A B S post hS hless hA hB
    obtain ⟨x, S', rfl⟩ : ∃ x S', S = x :: S' := by
      cases S with
      | nil => simp at hS
      | cons x S' => exact ⟨x, S', rfl⟩
    have hS' : S'.length = n := by simpa using hS
    unfold partLoop
    rw [getAt_of _ (pre ++ A ++ B) x (S' ++ post) _ (by simp) (by simp; omega), ok_bind,
      hless x (by simp), ok_bind]
    by_cases hx : lt x pivot = true
    · rw [hx, if_pos rfl]
      cases B with
      | nil =>
        simp only [List.length_nil, Nat.add_zero, List.nil_append]
        rw [swapAt_self _ (pre ++ A) (S' ++ post) x _ (by simp) (by simp), ok_bind]
        obtain ⟨A', B', h1, h2, h3, h4⟩ := ih pre (A ++ [x]) [] S' post hS' (fun y hy => hless y (by simp [hy]))
          (by intro y hy; simp at hy; rcases hy with hy | rfl; exact hA y hy; exact hx) (by simp)
        refine ⟨A', B', ?_, ?_, h3, h4⟩
        · rw [← h1]; simp [Nat.add_assoc]
        · refine h2.trans ?_; simp
      | cons b B1 =>
        rw [swapAt_of _ (pre ++ A) B1 (S' ++ post) b x _ _ (by simp) (by simp) (by simp; omega), ok_bind]
        obtain ⟨A', B', h1, h2, h3, h4⟩ := ih pre (A ++ [x]) (B1 ++ [b]) S' post hS'
          (fun y hy => hless y (by simp [hy]))
          (by intro y hy; simp at hy; rcases hy with hy | rfl; exact hA y hy; exact hx)
          (by intro y hy; simp at hy; rcases hy with hy | rfl; exact hB y (by simp [hy]); exact hB y (by simp))
        refine ⟨A', B', ?_, ?_, h3, h4⟩
        · rw [← h1]
          congr 1
          · simp
          · simp; omega
          · simp; omega
        · refine h2.trans ?_
          rw [List.append_assoc]
          refine List.Perm.append_left A ?_
          simp only [List.cons_append, List.nil_append, List.append_assoc]
          refine (List.perm_middle (a := b) (l₁ := x :: B1) (l₂ := S')).trans ?_
          refine List.Perm.cons b ?_
          exact (List.perm_middle (a := x) (l₁ := B1) (l₂ := S')).symm
    · have hx' : lt x pivot = false := by simpa using hx
      rw [hx']
      obtain ⟨A', B', h1, h2, h3, h4⟩ := ih pre A (B ++ [x]) S' post hS' (fun y hy => hless y (by simp [hy])) hA
        (by intro y hy; simp at hy; rcases hy with hy | rfl; exact hB y hy; exact hx')
      refine ⟨A', B', ?_, ?_, h3, h4⟩
      · simp only [Bool.false_eq_true, if_false]
        rw [← h1]
        congr 1
        · simp
        · simp; omega
      · refine h2.trans ?_; simp

/-- Specification of "ordered": no later element is less than an earlier one. -/
def Ordered (lt : α → α → Bool) (l : List α) : Prop := l.Pairwise (fun x y => lt y x = false)

/-- The properties of the comparator that are needed: a strict partial order (weaker than a strict weak order). -/
structure StrictOrder (lt : α → α → Bool) : Prop where
  asymm : ∀ x y, lt x y = true → lt y x = false
  trans : ∀ x y z, lt x y = true → lt y z = true → lt x z = true

theorem csort_spec (less : α → α → Out Bool) (lt : α → α → Bool) (ho : StrictOrder lt) (fuel : Nat) :
    ∀ (pre seg post : List α), (∀ x ∈ seg, ∀ y ∈ seg, less x y = ok (lt x y)) → seg.length < fuel →
      ∃ seg', csort less fuel (pre ++ (seg ++ post)) pre.length (pre.length + seg.length) = ok (pre ++ (seg' ++ post)) ∧
        seg'.Perm seg ∧ Ordered lt seg' := by
  induction fuel with
  | zero => intro _ _ _ _ h; omega
  | succ fuel ih =>
    intro pre seg post hless hlen
    unfold csort
    have hsub : pre.length + seg.length - pre.length = seg.length := by omega
    rw [hsub]
    by_cases h2 : seg.length < 2
    · rw [if_pos h2, pure_eq]
      refine ⟨seg, rfl, .refl _, ?_⟩
      unfold Ordered
      match seg, h2 with
      | [], _ => exact .nil
      | [x], _ => simp
    · rw [if_neg h2]
      by_cases h3 : seg.length < 3
      · rw [if_pos h3]
        obtain ⟨a, b, rfl⟩ : ∃ a b, seg = [a, b] := by
          match seg, h2, h3 with
          | [a, b], _, _ => exact ⟨a, b, rfl⟩
          | [], h, _ => simp at h
          | [_], h, _ => simp at h
          | _ :: _ :: _ :: _, _, h => simp at h; omega
        rw [getAt_of _ pre a (b :: post) _ (by simp) rfl, ok_bind,
          getAt_of _ (pre ++ [a]) b post _ (by simp) (by simp), ok_bind, hless b (by simp) a (by simp), ok_bind]
        by_cases hba : lt b a = true
        · rw [hba, if_pos rfl, swapAt_of _ pre [] post a b _ _ (by simp) rfl (by simp)]
          refine ⟨[b, a], by simp, .swap .., ?_⟩
          simp [Ordered, ho.asymm _ _ hba]
        · simp only [Bool.not_eq_true] at hba
          rw [hba]
          exact ⟨[a, b], by simp, .refl _, by simp [Ordered, hba]⟩
      · rw [if_neg h3]
        by_cases h4 : seg.length < 4
        · rw [if_pos h4]
          obtain ⟨a, b, c, rfl⟩ : ∃ a b c, seg = [a, b, c] := by
            match seg, h3, h4 with
            | [a, b, c], _, _ => exact ⟨a, b, c, rfl⟩
            | [], h, _ => simp at h
            | [_], h, _ => simp at h
            | [_, _], h, _ => simp at h
            | _ :: _ :: _ :: _ :: _, _, h => simp at h; omega
          have g0 : ∀ a b c, pre ++ ([a, b, c] ++ post) = pre ++ a :: ([] ++ b :: (c :: post)) := by simp
          have g1 : ∀ a b c : α, pre ++ ([a, b, c] ++ post) = (pre ++ [a]) ++ b :: ([] ++ c :: post) := by simp
          have g2 : ∀ a b c : α, pre ++ ([a, b, c] ++ post) = pre ++ a :: ([b] ++ c :: post) := by simp
          have s01 : ∀ a b c : α, swapAt (pre ++ ([a, b, c] ++ post)) pre.length (pre.length + 1)
              = ok (pre ++ ([b, a, c] ++ post)) := by
            intro a b c
            rw [swapAt_of _ pre [] (c :: post) a b _ _ (g0 a b c) rfl (by simp)]; simp
          have s12 : ∀ a b c : α, swapAt (pre ++ ([a, b, c] ++ post)) (pre.length + 1) (pre.length + 2)
              = ok (pre ++ ([a, c, b] ++ post)) := by
            intro a b c
            rw [swapAt_of _ (pre ++ [a]) [] post b c _ _ (g1 a b c) (by simp) (by simp)]; simp
          have s02 : ∀ a b c : α, swapAt (pre ++ ([a, b, c] ++ post)) pre.length (pre.length + 2)
              = ok (pre ++ ([c, b, a] ++ post)) := by
            intro a b c
            rw [swapAt_of _ pre [b] post a c _ _ (g2 a b c) rfl (by simp)]; simp
          unfold sort3
          rw [getAt_of _ pre a (b :: c :: post) _ (by simp) rfl, ok_bind,
            getAt_of _ (pre ++ [a]) b (c :: post) _ (by simp) (by simp), ok_bind,
            getAt_of _ (pre ++ [a, b]) c post _ (by simp) (by simp), ok_bind]
          simp only [hless b (by simp) a (by simp), hless c (by simp) a (by simp), hless c (by simp) b (by simp), ok_bind,
            s01, s12, s02, pure_eq]
          cases hba : lt b a <;> cases hca : lt c a <;> cases hcb : lt c b
          · exact ⟨[a, b, c], by simp, .refl _, by simp [Ordered, hba, hca, hcb]⟩
          · exact ⟨[a, c, b], by simp, by simpa using List.Perm.swap .., by simp [Ordered, hba, hca, ho.asymm _ _ hcb]⟩
          · refine ⟨[c, a, b], by simp, ?_, ?_⟩
            · exact (List.perm_middle (a := c) (l₁ := [a, b]) (l₂ := [])).symm
            · have : lt b c = false := by
                by_contra h
                have := ho.trans b c a (by simpa using h) hca
                simp [this] at hba
              simp [Ordered, hba, ho.asymm _ _ hca, this]
          · refine ⟨[c, a, b], by simp, ?_, ?_⟩
            · exact (List.perm_middle (a := c) (l₁ := [a, b]) (l₂ := [])).symm
            · simp [Ordered, hba, ho.asymm _ _ hca, ho.asymm _ _ hcb]
          · exact ⟨[b, a, c], by simp, .swap .., by simp [Ordered, ho.asymm _ _ hba, hca, hcb]⟩
          · exfalso
            have := ho.trans c b a hcb hba
            simp [this] at hca
          · refine ⟨[b, c, a], by simp, ?_, by simp [Ordered, ho.asymm _ _ hba, ho.asymm _ _ hca, hcb]⟩
            exact (List.perm_middle (a := a) (l₁ := [b, c]) (l₂ := []))
          · refine ⟨[c, b, a], by simp, ?_, by simp [Ordered, ho.asymm _ _ hba, ho.asymm _ _ hca, ho.asymm _ _ hcb]⟩
            exact ((List.perm_middle (a := a) (l₁ := [c, b]) (l₂ := []))).trans (.cons a (.swap ..))
        · rw [if_neg h4]
          obtain ⟨S, p, rfl⟩ : ∃ S p, seg = S ++ [p] := by
            rcases List.eq_nil_or_concat seg with h | ⟨S, p, h⟩
            · simp [h] at h2
            · exact ⟨S, p, by simpa using h⟩
          have hl : (S ++ [p]).length = S.length + 1 := by simp
          rw [getAt_of _ (pre ++ S) p post _ (by simp) (by simp), ok_bind]
          obtain ⟨A, B, h1, hperm, hA, hB⟩ := partLoop_spec less lt p S.length pre [] [] S (p :: post) rfl
            (fun x hx => hless x (by simp [hx]) p (by simp)) (by simp) (by simp)
          have e1 : pre.length + (S ++ [p]).length - 1 - pre.length = S.length := by simp
          have e2 : pre ++ (S ++ [p] ++ post) = pre ++ ([] ++ ([] ++ (S ++ p :: post))) := by simp
          have e3 : pre.length = pre.length + ([] : List α).length := rfl
          have hpl : A.length + B.length = S.length := by
            have := hperm.length_eq; simpa using this
          have hsub : ∀ x, x ∈ A ∨ x ∈ B → x ∈ S := by
            intro x hx
            have := hperm.mem_iff (a := x)
            simp at this
            exact this.1 hx
          rw [e1, e2]
          simp only [List.length_nil, Nat.add_zero] at h1
          rw [h1, ok_bind]
          -- the final swap puts the pivot between the two parts
          have hswap : ∃ B2, swapAt (pre ++ (A ++ (B ++ p :: post))) (pre.length + (S ++ [p]).length - 1)
              (pre.length + A.length) = ok (pre ++ (A ++ p :: (B2 ++ post))) ∧ B2.Perm B := by
            cases B with
            | nil =>
              refine ⟨[], ?_, .refl _⟩
              have : pre.length + (S ++ [p]).length - 1 = pre.length + A.length := by simp at hpl ⊢; omega
              rw [this, swapAt_self _ (pre ++ A) post p _ (by simp) (by simp)]
              simp
            | cons b B1 =>
              refine ⟨B1 ++ [b], ?_, ?_⟩
              · rw [swapAt_of' _ (pre ++ A) B1 post b p _ _ (by simp) (by simp)
                  (by simp at hpl ⊢; omega)]
                simp
              · exact List.perm_middle (l₂ := [])  |>.trans (by simp)
          obtain ⟨B2, hs, hB2⟩ := hswap
          dsimp only
          rw [hs, ok_bind]
          have hlB2 : B2.length = B.length := hB2.length_eq
          -- left part
          obtain ⟨A', hA', pA, oA⟩ := ih pre A (p :: (B2 ++ post))
            (fun x hx y hy => hless x (by simp [hsub x (.inl hx)]) y (by simp [hsub y (.inl hy)]))
            (by rw [hl] at hlen; omega)
          rw [hA', ok_bind]
          -- right part
          have hlA : A'.length = A.length := pA.length_eq
          obtain ⟨B', hB', pB, oB⟩ := ih (pre ++ (A' ++ [p])) B2 post
            (fun x hx y hy => hless x (by simp [hsub x (.inr (hB2.mem_iff.1 hx))]) y
              (by simp [hsub y (.inr (hB2.mem_iff.1 hy))]))
            (by rw [hl] at hlen; omega)
          have e4 : pre ++ (A' ++ p :: (B2 ++ post)) = pre ++ (A' ++ [p]) ++ (B2 ++ post) := by simp
          have e5 : pre.length + A.length + 1 = (pre ++ (A' ++ [p])).length := by simp; omega
          have e6 : pre.length + (S ++ [p]).length = (pre ++ (A' ++ [p])).length + B2.length := by simp; omega
          rw [e4, e5, e6, hB']
          refine ⟨A' ++ p :: B', by simp, ?_, ?_⟩
          · refine (List.perm_middle).trans ?_
            refine List.Perm.trans ?_ (List.perm_middle (a := p) (l₁ := S) (l₂ := [])).symm
            refine .cons p ?_
            simp only [List.append_nil]
            refine (List.Perm.append pA (pB.trans hB2)).trans ?_
            simpa using hperm
          · unfold Ordered at oA oB ⊢
            rw [List.pairwise_append]
            refine ⟨oA, ?_, ?_⟩
            · rw [List.pairwise_cons]
              exact ⟨fun y hy => hB y (hB2.mem_iff.1 (pB.mem_iff.1 hy)), oB⟩
            · intro x hx y hy
              have hx' := hA x (pA.mem_iff.1 hx)
              rcases List.mem_cons.1 hy with rfl | hy
              · exact ho.asymm _ _ hx'
              · have hy' := hB y (hB2.mem_iff.1 (pB.mem_iff.1 hy))
                by_contra h
                have := ho.trans y x p (by simpa using h) hx'
                simp [this] at hy'

/-- C09: sorting any sub-range `[first, last)` of any array with any strict order terminates (recursion depth at most
the length), never accesses memory outside the array, leaves everything outside the range alone, and leaves an ordered
permutation of the range. -/
theorem C09_sort (less : α → α → Out Bool) (lt : α → α → Bool) (ho : StrictOrder lt) (pre seg post : List α)
    (hless : ∀ x ∈ seg, ∀ y ∈ seg, less x y = ok (lt x y)) :
    ∃ seg', csort less (seg.length + 1) (pre ++ seg ++ post) pre.length (pre.length + seg.length)
        = ok (pre ++ seg' ++ post) ∧ seg'.Perm seg ∧ Ordered lt seg' := by
  obtain ⟨seg', h1, h2, h3⟩ := csort_spec less lt ho (seg.length + 1) pre seg post hless (by omega)
  exact ⟨seg', by simpa using h1, h2, h3⟩

/-- C09 for a whole array. -/
theorem C09_sortAll (less : α → α → Out Bool) (lt : α → α → Bool) (ho : StrictOrder lt) (l : List α)
    (hless : ∀ x ∈ l, ∀ y ∈ l, less x y = ok (lt x y)) :
    ∃ l', sortAll less l = ok l' ∧ l'.Perm l ∧ Ordered lt l' := by
  obtain ⟨l', h1, h2, h3⟩ := csort_spec less lt ho (l.length + 1) [] l [] hless (by omega)
  exact ⟨l', by simpa [sortAll] using h1, h2, h3⟩

theorem natLt_strict : StrictOrder (fun a b : Nat => decide (a < b)) :=
  ⟨fun x y h => by simp at h ⊢; omega, fun x y z h h' => by simp at h h' ⊢; omega⟩

example : ∃ (less : Nat → Nat → Out Bool) (lt : Nat → Nat → Bool) (seg : List Nat), StrictOrder lt ∧
    (∀ x ∈ seg, ∀ y ∈ seg, less x y = ok (lt x y)) ∧ seg.length > 4 :=
  ⟨fun a b => ok (decide (a < b)), fun a b => decide (a < b), [5, 2, 9, 2, 7], natLt_strict, fun _ _ _ _ => rfl, by decide⟩

example : csort (fun a b : Nat => ok (decide (a < b))) 6 [100, 5, 2, 9, 2, 7, 0] 1 6 = ok [100, 2, 2, 5, 7, 9, 0] := by
  decide

/-- Without asymmetry the result need not be ordered, so the hypothesis on the comparator is not idle. -/
example : ∃ l', sortAll (fun _ _ : Nat => ok true) [1, 2] = ok l' ∧ ¬ Ordered (fun _ _ => true) l' :=
  ⟨[2, 1], by decide, by simp [Ordered]⟩

end Gal
