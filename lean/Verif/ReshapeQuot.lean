import Verif.ReshapeDone

/-!
# Quotients and functions in the result of `rpn_reshape`

If no operation occurs twice, every quotient and function ends a temporary, and so does every divisor and argument that `rpn_reshape` marks.
-/

namespace Gal

open Out

/-- The leaf `x` stands for the operand `r`: it is the operand, or a reference to it. -/
def OperandAs (σ : Nat → Tree) (x : Node) (r : Tree) : Prop := (r = .leaf x ∧ x.o ≠ Op.cse) ∨ (x.o = Op.cse ∧ σ x.ex = r)

/-- The tree `t` of a temporary that stands for `u`: at most its last node is a quotient or function, and then the last operand is a leaf,
which for a quotient is no reference that occurs in the dividend. -/
def QuotSplit (σ : Nat → Tree) (t u : Tree) : Prop :=
  (∀ n ∈ t.post, ¬ IsQuot n.o) ∨
  (∃ d l' x l r, t = .bin d l' (.leaf x) ∧ u = .bin d l r ∧ d.o = Op.div ∧ (∀ n ∈ l'.post, ¬ IsQuot n.o) ∧ OperandAs σ x r ∧
    (x.o = Op.cse → ∀ k ∈ l'.post, k.o = Op.cse → k.ex ≠ x.ex)) ∨
  ∃ d x r, t = .un d (.leaf x) ∧ u = .un d r ∧ IsFun d.o ∧ OperandAs σ x r

theorem not_quot_cse {n : Node} (h : n.o = Op.cse) : ¬ IsQuot n.o := by
  rw [h]; exact not_quot_of (by decide) (by unfold IsFun; decide)

theorem IsLeaf.not_quot {o : Nat} (h : IsLeaf o) : ¬ IsQuot o :=
  not_quot_of (fun e => h.not_bin (Or.inr (Or.inr (Or.inr e)))) fun e => h.not_un (Or.inr (Or.inr (Or.inr (Or.inr e))))

theorem IsPoly.not_quot {o : Nat} (h : IsPoly o) : ¬ IsQuot o := by
  rcases h with e | e <;> rw [e] <;> exact not_quot_of (by decide) (by unfold IsFun; decide)

section

variable {T : Tree} {nodes : List Node} {known : List Cse} {i : Nat} {σ : Nat → Tree}

/-- A reference is to the range at its own position. -/
theorem isRef_exact (hTs : T.Shape) (hd : T.Distinct) (ht : Tab T known T.post.length) {p : Nat} {n : Node} (h : IsRef T (ranges known) i p n) :
    n.o = Op.cse ∧ ∃ u, T.At p u ∧ n.checksum = p + u.post.length ∧ (ranges known)[n.ex]? = some (p, u.post.length) ∧ 2 ≤ u.post.length := by
  obtain ⟨h0, u, v, off, hu, hck, hk, hv, hs, -⟩ := h
  have hlen := hs.length
  have hsh := ht.only _ (List.mem_of_getElem? hk) v hv hlen
  have htwo := IsShared.two (hv.shape hTs) hsh
  have hpos := u.post_pos
  have e1 := hv.last_get (i := off + v.post.length - 1) (by omega)
  have e2 := hu.last_get (i := p + u.post.length - 1) (by omega)
  obtain ⟨ns, a1, a2⟩ := v.last_post
  obtain ⟨ns', b1, b2⟩ := u.last_post
  have g := hs.get (j := ns.length) (a := v.lastNode) (b := u.lastNode) (by rw [a1]; simp) (by rw [b1, show ns.length = ns'.length by omega]; simp)
  obtain ⟨g1, g2, g3⟩ := same_iff.1 g
  have := hd _ _ _ _ e1 e2 hsh g1 g2 g3
  have hoff : off = p := by omega
  subst hoff
  exact ⟨h0, u, hu, hck, hk, by omega⟩

theorem refTo_exact (hTs : T.Shape) (hd : T.Distinct) (ht : Tab T known T.post.length) {p len : Nat} {v : Tree}
    (h : RefTo T (ranges known) i p len v) :
    ∃ n, v = .leaf n ∧ n.o = Op.cse ∧ (ranges known)[n.ex]? = some (p, len) ∧ 2 ≤ len := by
  obtain ⟨n, rfl, hr, hck⟩ := h
  obtain ⟨h0, u, hu, hck', hk, h2⟩ := isRef_exact hTs hd ht hr
  have : u.post.length = len := by omega
  rw [this] at hk h2
  exact ⟨n, rfl, h0, hk, h2⟩

/-- What is covered is replaced. -/
theorem CutTree.of_covered {p : Nat} {t v : Tree} (h : CutTree T nodes (ranges known) i p t v) (hc : Covered nodes p t.post.length)
    (h2 : 2 ≤ t.post.length) : RefTo T (ranges known) i p t.post.length v := by
  cases t with
  | leaf n => rw [Tree.post] at h2; simp at h2
  | un n t => rw [CutTree] at h; exact h.resolve_right fun h => h.1 hc
  | bin n l r => rw [CutTree] at h; exact h.resolve_right fun h => h.1 hc
  | poly n f => rw [CutTree] at h; exact h.resolve_right fun h => h.1 hc

mutual

theorem cut_no_quot : ∀ {t : Tree} {p : Nat} {v : Tree}, CutTree T nodes (ranges known) i p t v → t.Shape →
    (∀ q u, t.At q u → IsQuot u.lastNode.o → Covered nodes (p + q) u.post.length) → ∀ n ∈ v.post, ¬ IsQuot n.o
  | .leaf m, p, v, h, hs, _ => by
    rw [CutTree] at h
    rw [Tree.Shape] at hs
    rcases h with ⟨n, rfl, h, -⟩ | rfl
    · intro k hk
      rw [Tree.post, List.mem_singleton] at hk
      subst hk
      exact not_quot_cse h.1
    · intro k hk
      rw [Tree.post, List.mem_singleton] at hk
      subst hk
      exact hs.not_quot
  | .un m t, p, v, h, hs, hq => by
    rw [CutTree] at h
    rw [Tree.Shape] at hs
    rcases h with ⟨n, rfl, h, -⟩ | ⟨hc, t', rfl, h⟩
    · intro k hk
      rw [Tree.post, List.mem_singleton] at hk
      subst hk
      exact not_quot_cse h.1
    · intro k hk
      rw [Tree.post, List.mem_append, List.mem_singleton] at hk
      rcases hk with hk | rfl
      · exact cut_no_quot h hs.2 (fun q u hu => hq q u (by rw [Tree.At]; exact Or.inr hu)) k hk
      · intro hkq
        exact hc (hq 0 _ (Tree.at_zero _) hkq)
  | .bin m l r, p, v, h, hs, hq => by
    rw [CutTree] at h
    rw [Tree.Shape] at hs
    rcases h with ⟨n, rfl, h, -⟩ | ⟨hc, l', r', rfl, hl, hr⟩
    · intro k hk
      rw [Tree.post, List.mem_singleton] at hk
      subst hk
      exact not_quot_cse h.1
    · intro k hk
      rw [Tree.post, List.mem_append, List.mem_append, List.mem_singleton] at hk
      rcases hk with (hk | hk) | rfl
      · exact cut_no_quot hl hs.2.1 (fun q u hu => hq q u (by rw [Tree.At]; exact Or.inr (Or.inl hu))) k hk
      · refine cut_no_quot hr hs.2.2 (fun q u hu hu' => ?_) k hk
        rw [Nat.add_assoc]
        exact hq _ u (by rw [Tree.At]; exact Or.inr (Or.inr ⟨by omega, by rw [Nat.add_sub_cancel_left]; exact hu⟩)) hu'
      · intro hkq
        exact hc (hq 0 _ (Tree.at_zero _) hkq)
  | .poly m f, p, v, h, hs, hq => by
    rw [CutTree] at h
    rw [Tree.Shape] at hs
    rcases h with ⟨n, rfl, h, -⟩ | ⟨hc, q, f', rfl, hf⟩
    · intro k hk
      rw [Tree.post, List.mem_singleton] at hk
      subst hk
      exact not_quot_cse h.1
    · intro k hk
      rw [Tree.post, List.mem_append, List.mem_singleton] at hk
      rcases hk with hk | rfl
      · exact cut_no_quot_forest hf hs.2.2.2 (fun q u hu => hq q u (by rw [Tree.At]; exact Or.inr hu)) k hk
      · exact hs.1.not_quot

theorem cut_no_quot_forest : ∀ {f : Forest} {p : Nat} {g : Forest}, CutForest T nodes (ranges known) i p f g → f.Shape →
    (∀ q u, f.At q u → IsQuot u.lastNode.o → Covered nodes (p + q) u.post.length) → ∀ n ∈ g.post, ¬ IsQuot n.o
  | .nil, p, g, h, _, _ => by
    rw [CutForest] at h
    subst h
    intro n hn
    rw [Forest.post] at hn
    cases hn
  | .cons se t f, p, g, h, hs, hq => by
    rw [CutForest] at h
    rw [Forest.Shape] at hs
    obtain ⟨t', f', rfl, ht, hf⟩ := h
    intro k hk
    rw [Forest.post, List.mem_cons, List.mem_append] at hk
    rcases hk with rfl | hk | hk
    · dsimp only
      rw [hs.1]
      exact not_quot_of (by decide) (by unfold IsFun; decide)
    · refine cut_no_quot ht hs.2.2.1 (fun q u hu hu' => ?_) k hk
      rw [Nat.add_assoc]
      exact hq _ u (by rw [Forest.At]; exact Or.inl ⟨by omega, by rw [Nat.add_sub_cancel_left]; exact hu⟩) hu'
    · refine cut_no_quot_forest hf hs.2.2.2 (fun q u hu hu' => ?_) k hk
      rw [Nat.add_assoc, Nat.add_assoc]
      refine hq _ u ?_ hu'
      rw [Forest.At]
      exact Or.inr ⟨by omega, by rw [show 1 + (t.post.length + q) - 1 - t.post.length = q by omega]; exact hu⟩

end

mutual

/-- The references in a copy are to ranges inside the subtree. -/
theorem cut_refs (hTs : T.Shape) (hd : T.Distinct) (ht : Tab T known T.post.length) : ∀ {t : Tree} {p : Nat} {v : Tree},
    CutTree T nodes (ranges known) i p t v → t.Shape → t.NoRef → ∀ n ∈ v.post, n.o = Op.cse → ∃ x, (ranges known)[n.ex]? = some x ∧ p ≤ x.1 ∧ x.1 < p + t.post.length
  | .leaf m, p, v, h, hs, hn => by
    rw [CutTree] at h
    rcases h with h | rfl
    · obtain ⟨n, rfl, h1, h2, h3⟩ := refTo_exact hTs hd ht h
      omega
    · intro k hk ho
      rw [Tree.post, List.mem_singleton] at hk
      subst hk
      exact absurd ho (hn k (by rw [Tree.post]; simp))
  | .un m t, p, v, h, hs, hn => by
    have hpos := (Tree.un m t).post_pos
    have hl : (Tree.un m t).post.length = t.post.length + 1 := by rw [Tree.post]; simp
    rw [CutTree] at h
    rw [Tree.Shape] at hs
    rcases h with h | ⟨hc, t', rfl, h⟩
    · obtain ⟨n, rfl, h1, h2, h3⟩ := refTo_exact hTs hd ht h
      intro k hk ho
      rw [Tree.post, List.mem_singleton] at hk
      subst hk
      exact ⟨_, h2, Nat.le_refl _, by dsimp only; omega⟩
    · intro k hk ho
      rw [Tree.post, List.mem_append, List.mem_singleton] at hk
      rcases hk with hk | rfl
      · obtain ⟨x, h1, h2, h3⟩ := cut_refs hTs hd ht h hs.2 (fun n h => hn n (by rw [Tree.post]; simp [h])) k hk ho
        exact ⟨x, h1, h2, by omega⟩
      · exact absurd ho (hn k (by rw [Tree.post]; simp))
  | .bin m l r, p, v, h, hs, hn => by
    have hpos := (Tree.bin m l r).post_pos
    have hl : (Tree.bin m l r).post.length = l.post.length + r.post.length + 1 := by rw [Tree.post]; simp [Nat.add_assoc]
    rw [CutTree] at h
    rw [Tree.Shape] at hs
    rcases h with h | ⟨hc, l', r', rfl, h, h'⟩
    · obtain ⟨n, rfl, h1, h2, h3⟩ := refTo_exact hTs hd ht h
      intro k hk ho
      rw [Tree.post, List.mem_singleton] at hk
      subst hk
      exact ⟨_, h2, Nat.le_refl _, by dsimp only; omega⟩
    · intro k hk ho
      rw [Tree.post, List.mem_append, List.mem_append, List.mem_singleton] at hk
      rcases hk with (hk | hk) | rfl
      · obtain ⟨x, h1, h2, h3⟩ := cut_refs hTs hd ht h hs.2.1 (fun n h => hn n (by rw [Tree.post]; simp [h])) k hk ho
        exact ⟨x, h1, h2, by omega⟩
      · obtain ⟨x, h1, h2, h3⟩ := cut_refs hTs hd ht h' hs.2.2 (fun n h => hn n (by rw [Tree.post]; simp [h])) k hk ho
        exact ⟨x, h1, by omega, by omega⟩
      · exact absurd ho (hn k (by rw [Tree.post]; simp))
  | .poly m f, p, v, h, hs, hn => by
    have hpos := (Tree.poly m f).post_pos
    have hl : (Tree.poly m f).post.length = f.post.length + 1 := by rw [Tree.post]; simp
    rw [CutTree] at h
    rw [Tree.Shape] at hs
    rcases h with h | ⟨hc, q, f', rfl, h⟩
    · obtain ⟨n, rfl, h1, h2, h3⟩ := refTo_exact hTs hd ht h
      intro k hk ho
      rw [Tree.post, List.mem_singleton] at hk
      subst hk
      exact ⟨_, h2, Nat.le_refl _, by dsimp only; omega⟩
    · intro k hk ho
      rw [Tree.post, List.mem_append, List.mem_singleton] at hk
      rcases hk with hk | rfl
      · obtain ⟨x, h1, h2, h3⟩ := cut_refs_forest hTs hd ht h hs.2.2.2 (fun n h => hn n (by rw [Tree.post]; simp [h])) k hk ho
        exact ⟨x, h1, h2, by omega⟩
      · exact absurd ho (hn m (by rw [Tree.post]; simp))

/-- See `cut_refs`. -/
theorem cut_refs_forest (hTs : T.Shape) (hd : T.Distinct) (ht : Tab T known T.post.length) : ∀ {f : Forest} {p : Nat} {g : Forest},
    CutForest T nodes (ranges known) i p f g → f.Shape → (∀ n ∈ f.post, n.o ≠ Op.cse) →
    ∀ n ∈ g.post, n.o = Op.cse → ∃ x, (ranges known)[n.ex]? = some x ∧ p ≤ x.1 ∧ x.1 < p + f.post.length
  | .nil, p, g, h, _, _ => by
    rw [CutForest] at h
    subst h
    intro n hn
    rw [Forest.post] at hn
    cases hn
  | .cons se t f, p, g, h, hs, hn => by
    have hl : (Forest.cons se t f).post.length = 1 + t.post.length + f.post.length := by
      rw [Forest.post]; simp; omega
    rw [CutForest] at h
    rw [Forest.Shape] at hs
    obtain ⟨t', f', rfl, h, h'⟩ := h
    intro k hk ho
    rw [Forest.post, List.mem_cons, List.mem_append] at hk
    rcases hk with rfl | hk | hk
    · dsimp only at ho
      rw [hs.1] at ho
      exact absurd ho (by decide)
    · obtain ⟨x, h1, h2, h3⟩ := cut_refs hTs hd ht h hs.2.2.1 (fun n h => hn n (by rw [Forest.post]; simp [h])) k hk ho
      exact ⟨x, h1, by omega, by omega⟩
    · obtain ⟨x, h1, h2, h3⟩ := cut_refs_forest hTs hd ht h' hs.2.2.2 (fun n h => hn n (by rw [Forest.post]; simp [h])) k hk ho
      exact ⟨x, h1, by omega, by omega⟩

end

/-- A subtree that has to be a temporary and ends before `stop` is covered once all entries that end before `stop` have been written out. -/
theorem must_covered (H : (ranges known).Pairwise fun a b => a.1 + a.2 < b.1 + b.2) (ht : Tab T known T.post.length) {k : Nat}
    (hmk : Marks known nodes k) (hk : ∀ j x, (ranges known)[j]? = some x → x.1 + x.2 < i → j < k) {q : Nat} {u : Tree} (hu : T.At q u)
    (hl : q + u.post.length < i) (hs : IsShared u.lastNode.o) (hm : Must T T.post.length q u) : Covered nodes q u.post.length := by
  obtain ⟨j, h1, h2⟩ := ht.all q u hu hu.le hs
  obtain ⟨c, h3, h4⟩ := h2 hm
  exact hmk j _ (hk j _ h1 hl) ⟨c, h3, Or.inr h4⟩ h1

/-- The operand is copied as a leaf. -/
theorem operand_as (hT : T.NoRef) (hTs : T.Shape) (hd : T.Distinct) (ht : Tab T known T.post.length) (hσ : Records T (ranges known) σ)
    {q : Nat} {u v : Tree} (hu : T.At q u) (hcut : CutTree T nodes (ranges known) i q u v)
    (h : (∃ n, u = .leaf n) ∨ (IsShared u.lastNode.o ∧ Covered nodes q u.post.length)) :
    ∃ x, v = .leaf x ∧ OperandAs σ x u ∧ (x.o = Op.cse → (ranges known)[x.ex]? = some (q, u.post.length)) := by
  rcases h with ⟨n, rfl⟩ | ⟨hs, hc⟩
  · rw [CutTree] at hcut
    rcases hcut with h | rfl
    · obtain ⟨_, _, _, _, h⟩ := refTo_exact hTs hd ht h
      omega
    · have hn : n.o ≠ Op.cse := hT n (List.mem_of_getElem? (hu.last_get (i := q) (by rw [Tree.post]; simp)))
      exact ⟨n, rfl, Or.inl ⟨rfl, hn⟩, fun h => absurd h hn⟩
  · obtain ⟨n, rfl, h1, h2, h3⟩ := refTo_exact hTs hd ht (hcut.of_covered hc (IsShared.two (hu.shape hTs) hs))
    obtain ⟨h4, h5⟩ := hσ _ _ h2
    exact ⟨n, rfl, Or.inr ⟨h1, hu.unique' h4 h5⟩, fun _ => h2⟩

theorem Tree.At.noRef {T : Tree} {p : Nat} {u : Tree} (hT : T.NoRef) (hu : T.At p u) : u.NoRef := by
  intro n hn
  obtain ⟨a, b, e, -⟩ := hu.split
  exact hT n (by rw [e]; simp [hn])

/-- **The copy of a subtree that is an entry.** -/
theorem cut_split (hT : T.NoRef) (hTs : T.Shape) (hd : T.Distinct) (hQ : QuotOperands T) (ht : Tab T known T.post.length)
    (H : (ranges known).Pairwise fun a b => a.1 + a.2 < b.1 + b.2) (hσ : Records T (ranges known) σ) {k p : Nat} {u t : Tree}
    (hmk : Marks known nodes k) (hk : ∀ j x, (ranges known)[j]? = some x → x.1 + x.2 < p + u.post.length → j < k) (hu : T.At p u)
    (hcut : CutTree T nodes (ranges known) i p u t) : QuotSplit σ t u := by
  have hus := hu.shape hTs
  have hle := hu.le
  have hcov : ∀ {q v}, T.At q v → q + v.post.length < p + u.post.length → IsQuot v.lastNode.o → Covered nodes q v.post.length :=
    fun hv hl hq => must_covered H ht hmk hk hv hl hq.shared (Or.inl hq)
  have hsub : ∀ {q v}, T.At q v → q + v.post.length < p + u.post.length → ∀ q' w, v.At q' w → IsQuot w.lastNode.o →
      Covered nodes (q + q') w.post.length := by
    intro q v hv hl q' w hw hq
    have := hw.le
    exact hcov (hv.trans hw) (by omega) hq
  cases u with
  | leaf m =>
    left
    refine cut_no_quot hcut hus fun q u hu hq => ?_
    rw [Tree.At] at hu
    obtain ⟨-, rfl⟩ := hu
    rw [Tree.Shape] at hus
    exact absurd hq hus.not_quot
  | un m t0 =>
    have hl : (Tree.un m t0).post.length = t0.post.length + 1 := by rw [Tree.post]; simp
    rw [CutTree] at hcut
    rw [Tree.Shape] at hus
    have hut := Tree.at_un hu
    rcases hcut with hr | ⟨hc, t', rfl, hct⟩
    · left
      obtain ⟨n, rfl, h1, -⟩ := refTo_exact hTs hd ht hr
      intro k hk
      rw [Tree.post, List.mem_singleton] at hk
      subst hk
      exact not_quot_cse h1
    · have hnq := cut_no_quot hct hus.2 (hsub hut (by omega))
      by_cases hf : IsFun m.o
      · right; right
        obtain ⟨x, rfl, hx, -⟩ := operand_as hT hTs hd ht hσ hut hct ((hQ.2 p m t0 hu hf).imp id fun h =>
          ⟨h.1, must_covered H ht hmk hk hut (by omega) h.1 (Or.inr ⟨by omega, h.2⟩)⟩)
        exact ⟨m, x, t0, rfl, rfl, hf, hx⟩
      · left
        intro k hk
        rw [Tree.post, List.mem_append, List.mem_singleton] at hk
        rcases hk with hk | rfl
        · exact hnq k hk
        · refine not_quot_of ?_ hf
          intro e
          exact hus.1.not_bin (Or.inr (Or.inr (Or.inr e)))
  | bin m l r =>
    have hl : (Tree.bin m l r).post.length = l.post.length + r.post.length + 1 := by rw [Tree.post]; simp [Nat.add_assoc]
    rw [CutTree] at hcut
    rw [Tree.Shape] at hus
    have hul := Tree.at_left hu
    have hur := Tree.at_right hu
    have hpl := l.post_pos
    have hpr := r.post_pos
    rcases hcut with hr | ⟨hc, l', r', rfl, hcl, hcr⟩
    · left
      obtain ⟨n, rfl, h1, -⟩ := refTo_exact hTs hd ht hr
      intro k hk
      rw [Tree.post, List.mem_singleton] at hk
      subst hk
      exact not_quot_cse h1
    · have hnl := cut_no_quot hcl hus.2.1 (hsub hul (by omega))
      have hnr := cut_no_quot hcr hus.2.2 (hsub hur (by omega))
      by_cases hf : m.o = Op.div
      · right; left
        obtain ⟨x, rfl, hx, hxr⟩ := operand_as hT hTs hd ht hσ hur hcr ((hQ.1 p m l r hu hf).imp id fun h =>
          ⟨h.1, must_covered H ht hmk hk hur (by omega) h.1 (Or.inr ⟨by omega, h.2⟩)⟩)
        refine ⟨m, l', x, l, r, rfl, rfl, hf, hnl, hx, fun ho k hk hko e => ?_⟩
        obtain ⟨y, h1, h2, h3⟩ := cut_refs hTs hd ht hcl hus.2.1 (hul.noRef hT) k hk hko
        rw [e, hxr ho] at h1
        injection h1 with h1
        subst h1
        dsimp only at h3
        omega
      · left
        intro k hk
        rw [Tree.post, List.mem_append, List.mem_append, List.mem_singleton] at hk
        rcases hk with (hk | hk) | rfl
        · exact hnl k hk
        · exact hnr k hk
        · refine not_quot_of hf fun e => ?_
          exact IsUn.not_bin (Or.inr (Or.inr (Or.inr (Or.inr e)))) hus.1
  | poly m f =>
    left
    refine cut_no_quot hcut hus fun q v hv hq => ?_
    rcases Nat.lt_or_ge (q + v.post.length) (Tree.poly m f).post.length with h | h
    · exact hcov (hu.trans hv) (by omega) hq
    · obtain ⟨-, rfl⟩ := hv.whole (by have := hv.le; omega)
      rw [Tree.Shape] at hus
      exact absurd hq hus.1.not_quot

end

theorem OperandAs.renum {σ τ : Nat → Tree} {r : Nat → Nat} {x : Node} {u : Tree} (h : OperandAs σ x u) (hr : x.o = Op.cse → τ (r x.ex) = σ x.ex) :
    OperandAs τ (x.renum r) u := by
  rcases h with ⟨h1, h2⟩ | ⟨h1, h2⟩
  · rw [Node.renum_ne h2]; exact Or.inl ⟨h1, h2⟩
  · refine Or.inr ⟨by rw [Node.renum_o]; exact h1, ?_⟩
    rw [Node.renum, if_pos h1]
    dsimp only
    rw [hr h1, h2]

theorem renum_not_quot {r : Nat → Nat} {ns : List Node} (h : ∀ n ∈ ns, ¬ IsQuot n.o) : ∀ n ∈ ns.map (Node.renum r), ¬ IsQuot n.o := by
  intro n hn
  obtain ⟨k, hk, rfl⟩ := List.mem_map.1 hn
  rw [Node.renum_o]
  exact h k hk

theorem QuotSplit.renum {σ τ : Nat → Tree} {r : Nat → Nat} {t u : Tree} (h : QuotSplit σ t u) (hs : t.Shape)
    (hr : ∀ n ∈ t.post, n.o = Op.cse → τ (r n.ex) = σ n.ex)
    (hi : ∀ a ∈ t.post, ∀ b ∈ t.post, a.o = Op.cse → b.o = Op.cse → r a.ex = r b.ex → a.ex = b.ex) : QuotSplit τ (t.renum r) u := by
  rcases h with h | ⟨d, l', x, l, v, rfl, rfl, h1, h2, h3, h4⟩ | ⟨d, x, v, rfl, rfl, h1, h2⟩
  · left
    rw [Tree.renum_post r hs]
    exact renum_not_quot h
  · right; left
    rw [Tree.Shape] at hs
    have hx : x ∈ (Tree.bin d l' (.leaf x)).post := by rw [Tree.post, Tree.post]; simp
    refine ⟨d, l'.renum r, x.renum r, l, v, by rw [Tree.renum, Tree.renum], rfl, h1, ?_, h3.renum fun h => hr x hx h, ?_⟩
    · rw [Tree.renum_post r hs.2.1]
      exact renum_not_quot h2
    · intro ho k hk hko e
      rw [Tree.renum_post r hs.2.1] at hk
      obtain ⟨k, hk', rfl⟩ := List.mem_map.1 hk
      rw [Node.renum_o] at ho hko
      rw [Node.renum, if_pos hko, Node.renum, if_pos ho] at e
      exact h4 ho k hk' hko (hi k (by rw [Tree.post]; simp [hk']) x hx hko ho e)
  · right; right
    have hx : x ∈ (Tree.un d (.leaf x)).post := by rw [Tree.post, Tree.post]; simp
    exact ⟨d, x.renum r, v, by rw [Tree.renum, Tree.renum], rfl, h1, h2.renum fun h => hr x hx h⟩

/-! ## What has become a temporary -/

/-- `t` is a reference to `u`, which is at position `p`, and `u` is a quotient or function or the operand of one. -/
def RefAs (T : Tree) (σ : Nat → Tree) (p : Nat) (u t : Tree) : Prop :=
  ∃ x, t = .leaf x ∧ x.o = Op.cse ∧ σ x.ex = u ∧ (QuotAt T (p + u.post.length - 1) ∨ QuotAt T (p + u.post.length))

mutual

/-- `t` is the subtree `u` at position `p` with references in place of some of the quotients, the functions and their operands. -/
def CutOf (T : Tree) (σ : Nat → Tree) : Nat → Tree → Tree → Prop
  | _, .leaf n, t => t = .leaf n
  | p, .un n u, t => RefAs T σ p (.un n u) t ∨ ∃ t', t = .un n t' ∧ CutOf T σ p u t'
  | p, .bin n l r, t => RefAs T σ p (.bin n l r) t ∨ ∃ l' r', t = .bin n l' r' ∧ CutOf T σ p l l' ∧ CutOf T σ (p + l.post.length) r r'
  | p, .poly n f, t => RefAs T σ p (.poly n f) t ∨ ∃ q f', t = .poly { n with q := q } f' ∧ CutsOf T σ p f f'

/-- See `CutOf`. -/
def CutsOf (T : Tree) (σ : Nat → Tree) : Nat → Forest → Forest → Prop
  | _, .nil, g => g = .nil
  | p, .cons se u f, g => ∃ k t f', g = .cons { se with ex := k } t f' ∧ CutOf T σ (p + 1) u t ∧ CutsOf T σ (p + 1 + u.post.length) f f'

end

section

variable {T : Tree} {nodes : List Node} {known : List Cse} {i : Nat} {σ : Nat → Tree}

theorem refAs_of (hTs : T.Shape) (hd : T.Distinct) (hQ : QuotOperands T) (ht : Tab T known T.post.length) (hσ : Records T (ranges known) σ)
    {p : Nat} {u v : Tree} (hu : T.At p u) (h : RefTo T (ranges known) i p u.post.length v)
    (he : ∀ n ∈ v.post, n.o = Op.cse → Emitted known n.ex) : RefAs T σ p u v := by
  obtain ⟨n, rfl, h1, h2, h3⟩ := refTo_exact hTs hd ht h
  obtain ⟨h4, h5⟩ := hσ _ _ h2
  refine ⟨n, rfl, h1, hu.unique' h4 h5, ?_⟩
  obtain ⟨c, hc, hc'⟩ := he n (by rw [Tree.post]; simp) h1
  obtain ⟨g1, g2⟩ := ht.need hQ c (List.mem_of_getElem? hc)
  rw [ranges, List.getElem?_map, hc] at h2
  injection h2 with h2
  injection h2 with e1 e2
  rw [e1, e2] at g2
  exact g2 (hc'.resolve_left (by omega))

mutual

theorem cutOf_of (hTs : T.Shape) (hd : T.Distinct) (hQ : QuotOperands T) (ht : Tab T known T.post.length) (hσ : Records T (ranges known) σ) :
    ∀ {u : Tree} {p : Nat} {v : Tree}, CutTree T nodes (ranges known) i p u v → T.At p u → (∀ n ∈ v.post, n.o = Op.cse → Emitted known n.ex) →
    CutOf T σ p u v
  | .leaf m, p, v, h, hu, he => by
    rw [CutTree] at h
    rw [CutOf]
    rcases h with h | h
    · obtain ⟨_, _, _, _, h⟩ := refTo_exact hTs hd ht h
      omega
    · exact h
  | .un m t, p, v, h, hu, he => by
    rw [CutTree] at h
    rw [CutOf]
    rcases h with h | ⟨-, t', rfl, h⟩
    · exact Or.inl (refAs_of hTs hd hQ ht hσ hu h he)
    · exact Or.inr ⟨t', rfl, cutOf_of hTs hd hQ ht hσ h (Tree.at_un hu) fun n hn => he n (by rw [Tree.post]; simp [hn])⟩
  | .bin m l r, p, v, h, hu, he => by
    rw [CutTree] at h
    rw [CutOf]
    rcases h with h | ⟨-, l', r', rfl, hl, hr⟩
    · exact Or.inl (refAs_of hTs hd hQ ht hσ hu h he)
    · exact Or.inr ⟨l', r', rfl, cutOf_of hTs hd hQ ht hσ hl (Tree.at_left hu) fun n hn => he n (by rw [Tree.post]; simp [hn]),
        cutOf_of hTs hd hQ ht hσ hr (Tree.at_right hu) fun n hn => he n (by rw [Tree.post]; simp [hn])⟩
  | .poly m f, p, v, h, hu, he => by
    rw [CutTree] at h
    rw [CutOf]
    rcases h with h | ⟨-, q, f', rfl, hf⟩
    · exact Or.inl (refAs_of hTs hd hQ ht hσ hu h he)
    · exact Or.inr ⟨q, f', rfl, cutsOf_of hTs hd hQ ht hσ hf (Tree.here_poly hu) fun n hn => he n (by rw [Tree.post]; simp [hn])⟩

/-- See `cutOf_of`. -/
theorem cutsOf_of (hTs : T.Shape) (hd : T.Distinct) (hQ : QuotOperands T) (ht : Tab T known T.post.length) (hσ : Records T (ranges known) σ) :
    ∀ {f : Forest} {p : Nat} {g : Forest}, CutForest T nodes (ranges known) i p f g → T.Here p f →
    (∀ n ∈ g.post, n.o = Op.cse → Emitted known n.ex) → CutsOf T σ p f g
  | .nil, p, g, h, hu, he => by
    rw [CutForest] at h
    rw [CutsOf]
    exact h
  | .cons se t f, p, g, h, hu, he => by
    rw [CutForest] at h
    rw [CutsOf]
    obtain ⟨t', f', rfl, h, h'⟩ := h
    exact ⟨_, t', f', rfl, cutOf_of hTs hd hQ ht hσ h (Tree.at_head hu.1) fun n hn => he n (by rw [Forest.post]; simp [hn]),
      cutsOf_of hTs hd hQ ht hσ h' (Tree.here_tail hu) fun n hn => he n (by rw [Forest.post]; simp [hn])⟩

end

theorem RefAs.renum {τ : Nat → Tree} {r : Nat → Nat} {p : Nat} {u t : Tree} (h : RefAs T σ p u t)
    (hr : ∀ n ∈ t.post, n.o = Op.cse → τ (r n.ex) = σ n.ex) : RefAs T τ p u (t.renum r) := by
  obtain ⟨x, rfl, h1, h2, h3⟩ := h
  refine ⟨x.renum r, by rw [Tree.renum], by rw [Node.renum_o]; exact h1, ?_, h3⟩
  rw [Node.renum, if_pos h1]
  dsimp only
  rw [hr x (by rw [Tree.post]; simp) h1, h2]

mutual

theorem CutOf.renum {τ : Nat → Tree} {r : Nat → Nat} : ∀ {u : Tree} {p : Nat} {t : Tree}, CutOf T σ p u t → u.NoRef →
    (∀ n ∈ t.post, n.o = Op.cse → τ (r n.ex) = σ n.ex) → CutOf T τ p u (t.renum r)
  | .leaf m, p, v, h, hn, _ => by
    rw [CutOf] at h ⊢
    subst h
    rw [Tree.renum, Node.renum_ne (hn m (by rw [Tree.post]; simp))]
  | .un m t, p, v, h, hn, hr => by
    rw [CutOf] at h ⊢
    rcases h with h | ⟨t', rfl, h⟩
    · exact Or.inl (h.renum hr)
    · exact Or.inr ⟨t'.renum r, by rw [Tree.renum], h.renum (fun n h => hn n (by rw [Tree.post]; simp [h])) fun n h => hr n (by rw [Tree.post]; simp [h])⟩
  | .bin m a b, p, v, h, hn, hr => by
    rw [CutOf] at h ⊢
    rcases h with h | ⟨l', r', rfl, h, h'⟩
    · exact Or.inl (h.renum hr)
    · exact Or.inr ⟨l'.renum r, r'.renum r, by rw [Tree.renum],
        h.renum (fun n h => hn n (by rw [Tree.post]; simp [h])) fun n h => hr n (by rw [Tree.post]; simp [h]),
        h'.renum (fun n h => hn n (by rw [Tree.post]; simp [h])) fun n h => hr n (by rw [Tree.post]; simp [h])⟩
  | .poly m f, p, v, h, hn, hr => by
    rw [CutOf] at h ⊢
    rcases h with h | ⟨q, f', rfl, h⟩
    · exact Or.inl (h.renum hr)
    · exact Or.inr ⟨q, f'.renum r, by rw [Tree.renum], h.renum (fun n h => hn n (by rw [Tree.post]; simp [h])) fun n h => hr n (by rw [Tree.post]; simp [h])⟩

/-- See `CutOf.renum`. -/
theorem CutsOf.renum {τ : Nat → Tree} {r : Nat → Nat} : ∀ {f : Forest} {p : Nat} {g : Forest}, CutsOf T σ p f g → (∀ n ∈ f.post, n.o ≠ Op.cse) →
    (∀ n ∈ g.post, n.o = Op.cse → τ (r n.ex) = σ n.ex) → CutsOf T τ p f (g.renum r)
  | .nil, p, g, h, _, _ => by
    rw [CutsOf] at h ⊢
    subst h
    rw [Forest.renum]
  | .cons se t f, p, g, h, hn, hr => by
    rw [CutsOf] at h ⊢
    obtain ⟨k, t', f', rfl, h, h'⟩ := h
    exact ⟨k, t'.renum r, f'.renum r, by rw [Forest.renum],
        h.renum (fun n h => hn n (by rw [Forest.post]; simp [h])) fun n h => hr n (by rw [Forest.post]; simp [h]),
        h'.renum (fun n h => hn n (by rw [Forest.post]; simp [h])) fun n h => hr n (by rw [Forest.post]; simp [h])⟩

end

theorem quotAt_sub {p : Nat} {u : Tree} (hu : T.At p u) {j : Nat} (hj : p ≤ j) (hj' : j < p + u.post.length) (h : QuotAt T j)
    (hq : ∀ n ∈ u.post, ¬ IsQuot n.o) : False := by
  obtain ⟨n, h1, h2⟩ := h
  have := hu.get (j := j - p) (by omega)
  rw [show p + (j - p) = j by omega, h1] at this
  exact hq n (List.mem_of_getElem? this.symm) h2

mutual

/-- Without quotients and functions, only the whole of an operand is replaced. -/
theorem CutOf.noRef : ∀ {u : Tree} {p : Nat} {t : Tree}, CutOf T σ p u t → T.At p u → T.NoRef → (∀ n ∈ u.post, ¬ IsQuot n.o) →
    ¬ QuotAt T (p + u.post.length) → t.NoRef
  | .leaf m, p, v, h, hu, hT, _, _ => by
    rw [CutOf] at h
    subst h
    exact hu.noRef hT
  | .un m t, p, v, h, hu, hT, hq, hn => by
    have hl : (Tree.un m t).post.length = t.post.length + 1 := by rw [Tree.post]; simp
    have hp := t.post_pos
    rw [CutOf] at h
    rcases h with ⟨_, _, _, _, h⟩ | ⟨t', rfl, h⟩
    · rcases h with h | h
      · exact (quotAt_sub hu (by omega) (by omega) h hq).elim
      · exact (hn h).elim
    · have := h.noRef (Tree.at_un hu) hT (fun n hn => hq n (by rw [Tree.post]; simp [hn])) fun h => quotAt_sub hu (by omega) (by omega) h hq
      intro n hn'
      rw [Tree.post, List.mem_append, List.mem_singleton] at hn'
      rcases hn' with hn' | rfl
      · exact this n hn'
      · exact hu.noRef hT n (by rw [Tree.post]; simp)
  | .bin m l r, p, v, h, hu, hT, hq, hn => by
    have hl : (Tree.bin m l r).post.length = l.post.length + r.post.length + 1 := by rw [Tree.post]; simp [Nat.add_assoc]
    have hpl := l.post_pos
    have hpr := r.post_pos
    rw [CutOf] at h
    rcases h with ⟨_, _, _, _, h⟩ | ⟨l', r', rfl, h, h'⟩
    · rcases h with h | h
      · exact (quotAt_sub hu (by omega) (by omega) h hq).elim
      · exact (hn h).elim
    · have i1 := h.noRef (Tree.at_left hu) hT (fun n hn => hq n (by rw [Tree.post]; simp [hn])) fun h => quotAt_sub hu (by omega) (by omega) h hq
      have i2 := h'.noRef (Tree.at_right hu) hT (fun n hn => hq n (by rw [Tree.post]; simp [hn])) fun h => quotAt_sub hu (by omega) (by omega) h hq
      intro n hn'
      rw [Tree.post, List.mem_append, List.mem_append, List.mem_singleton] at hn'
      rcases hn' with (hn' | hn') | rfl
      · exact i1 n hn'
      · exact i2 n hn'
      · exact hu.noRef hT n (by rw [Tree.post]; simp)
  | .poly m f, p, v, h, hu, hT, hq, hn => by
    have hl : (Tree.poly m f).post.length = f.post.length + 1 := by rw [Tree.post]; simp
    rw [CutOf] at h
    rcases h with ⟨_, _, _, _, h⟩ | ⟨q, f', rfl, h⟩
    · rcases h with h | h
      · exact (quotAt_sub hu (by omega) (by omega) h hq).elim
      · exact (hn h).elim
    · have := h.noRef (Tree.here_poly hu) hT (fun n h => hu.noRef hT n (by rw [Tree.post]; simp [h])) fun j h1 h2 h => quotAt_sub hu h1 (by omega) h hq
      intro n hn'
      rw [Tree.post, List.mem_append, List.mem_singleton] at hn'
      rcases hn' with hn' | rfl
      · exact this n hn'
      · exact hu.noRef hT m (by rw [Tree.post]; simp)

/-- See `CutOf.noRef`. -/
theorem CutsOf.noRef : ∀ {f : Forest} {p : Nat} {g : Forest}, CutsOf T σ p f g → T.Here p f → T.NoRef → (∀ n ∈ f.post, n.o ≠ Op.cse) →
    (∀ j, p ≤ j → j ≤ p + f.post.length → ¬ QuotAt T j) → ∀ n ∈ g.post, n.o ≠ Op.cse
  | .nil, p, g, h, _, _, _, _ => by
    rw [CutsOf] at h
    subst h
    intro n hn
    rw [Forest.post] at hn
    cases hn
  | .cons se t f, p, g, h, hu, hT, hc, hq => by
    have hl : (Forest.cons se t f).post.length = 1 + t.post.length + f.post.length := by
      rw [Forest.post]; simp; omega
    have hat := Tree.at_head hu.1
    rw [CutsOf] at h
    obtain ⟨k, t', f', rfl, h, h'⟩ := h
    have i1 := h.noRef hat hT (fun n hn hqn => by
      obtain ⟨j, hj⟩ := List.getElem?_of_mem hn
      have hjl := (List.getElem?_eq_some_iff.1 hj).1
      refine hq (p + 1 + j) (by omega) (by omega) ⟨n, ?_, hqn⟩
      rw [hat.get hjl, hj]) (hq _ (by omega) (by omega))
    have i2 := h'.noRef (Tree.here_tail hu) hT (fun n hn => hc n (by rw [Forest.post]; simp [hn])) fun j h1 h2 => hq j (by omega) (by omega)
    intro n hn'
    rw [Forest.post, List.mem_cons, List.mem_append] at hn'
    rcases hn' with rfl | hn' | hn'
    · exact hc se (by rw [Forest.post]; simp)
    · exact i1 n hn'
    · exact i2 n hn'

end

end

/-- **Quotients and functions are temporaries.** -/
theorem reshape_splits {T : Tree} (hT : T.NoRef) (hTs : T.Shape) (hd : T.Distinct) (hQ : QuotOperands T) {cap : Nat} (hcap : cap < 2 ^ 64) {q : Rat32}
    {known1 : List Cse} {out : List Node} (hraw : reshapeRaw cap ⟨T.post, q⟩ = ok (known1, out)) :
    ∃ σ ts m, mapO (fixIndex known1) out = ok (blocks ts ++ m.post) ∧ ComputesBy σ ts m T ∧
      (∀ j t, ts[j]? = some t → QuotSplit σ t (σ j) ∧ ∃ p, T.At p (σ j) ∧ CutOf T σ p (σ j) t) ∧ (∀ n ∈ m.post, ¬ IsQuot n.o) ∧ CutOf T σ 0 T m := by
  obtain ⟨known, nodes, σ, ks, ts, m, R⟩ := reshape_written hT hTs (coherent_of_distinct hTs hd) hcap hraw (Or.inr hd)
  obtain ⟨hidx, h1, h2⟩ := R.renumber
  obtain ⟨ht, hmk, hcp, hcut⟩ := R.exact hd
  have hg : ∀ {k : Nat}, k ∈ ks → ks.getD (ks.idxOf k) 0 = k := by
    intro k hk
    rw [List.getD_eq_getElem?_getD, List.getElem?_eq_getElem (List.idxOf_lt_length_of_mem hk), List.getElem_idxOf]
    rfl
  refine ⟨_, _, _, h1, h2, fun j t' ht' => ?_, ?_, ?_⟩
  · rw [List.getElem?_map, Option.map_eq_some_iff] at ht'
    obtain ⟨t, htj, rfl⟩ := ht'
    have hj : j < ts.length := (List.getElem?_eq_some_iff.1 htj).1
    have hl := R.written.trees.length_eq
    have hts := ((List.forall₂_iff_get.1 R.written.trees).2 j hj (by omega)).1
    obtain ⟨ns, x, c1, c2, c3⟩ := (List.forall₂_iff_get.1 hcp).2 j hj (by omega)
    rw [List.getElem?_eq_getElem hj] at htj
    injection htj with htj
    simp only [List.get_eq_getElem, htj] at hts c1 c2 c3
    have hmem : ∀ n ∈ t.post, n ∈ out := by
      intro n hn
      rw [R.out_eq, blocks, List.mem_append, List.mem_flatMap]
      left
      exact ⟨t, by rw [← htj]; exact List.getElem_mem hj, List.mem_append_left _ hn⟩
    have e : ks.getD j 0 = ks[j]'(by omega) := by
      rw [List.getD_eq_getElem?_getD, List.getElem?_eq_getElem (by omega)]; rfl
    obtain ⟨s1, s2⟩ := R.records _ _ c2
    rw [e]
    refine ⟨?_, x.1, s1, (cutOf_of hTs hd hQ ht R.records c3 s1 fun n hn ho => R.written.emitted.2 (R.emitted n (hmem n hn) ho)).renum (s1.noRef hT)
      fun n hn ho => by rw [hg (hidx n (hmem n hn) ho)]⟩
    refine QuotSplit.renum (σ := σ) (cut_split hT hTs hd hQ ht R.inv.sorted R.records c1 (fun a y hy hlt => ?_) s1 c3) hts ?_ ?_
    · exact sorted_lt R.inv.sorted hy c2 (by omega)
    · intro n hn ho
      rw [hg (hidx n (hmem n hn) ho)]
    · intro a ha b hb hao hbo hab
      have := congrArg (fun i => ks.getD i 0) hab
      rwa [hg (hidx a (hmem a ha) hao), hg (hidx b (hmem b hb) hbo)] at this
  · rw [Tree.renum_post _ R.shape]
    refine renum_not_quot (cut_no_quot hcut hTs fun q u hu hq => ?_)
    rw [Nat.zero_add]
    exact must_covered (i := T.post.length + 1) R.inv.sorted ht hmk (fun j x hx _ => by
      have := (List.getElem?_eq_some_iff.1 hx).1
      rwa [ranges, List.length_map] at this) hu (by have := hu.le; omega) hq.shared (Or.inl hq)
  · have hmem : ∀ n ∈ m.post, n ∈ out := fun n hn => by rw [R.out_eq]; exact List.mem_append_right _ hn
    exact (cutOf_of hTs hd hQ ht R.records hcut T.at_zero fun n hn ho => R.written.emitted.2 (R.emitted n (hmem n hn) ho)).renum hT
      fun n hn ho => by rw [hg (hidx n (hmem n hn) ho)]

end Gal
