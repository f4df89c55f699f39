import Verif.TreeEqv

/-!
# The copying loops of `rpn_reshape`

Copying the nodes of a subtree yields the nodes of a tree in which some subtrees are replaced by references; putting the recorded
subtrees back gives the original.
-/

namespace Gal

open Out

theorem Tree.At.unique {t u : Tree} (h : t.At 0 u) (hl : u.post.length = t.post.length) : u = t := by
  cases t with
  | leaf n => rw [Tree.At] at h; exact h.2
  | un n t =>
    rw [Tree.At] at h
    rcases h with h | h
    · exact h.2
    · have := h.le; rw [Tree.post, List.length_append, List.length_singleton] at hl; omega
  | bin n l r =>
    rw [Tree.At] at h
    rcases h with h | h | h
    · exact h.2
    · have := h.le; rw [Tree.post, List.length_append, List.length_append, List.length_singleton] at hl; omega
    · have := l.post_pos; omega
  | poly n f =>
    rw [Tree.At] at h
    rcases h with h | h
    · exact h.2
    · have := h.pos; omega

theorem Tree.At.unique' {T t u : Tree} {p : Nat} (ht : T.At p t) (hu : T.At p u) (hl : u.post.length = t.post.length) : u = t := by
  rcases ht.nest hu (Nat.le_refl _) (by have := t.post_pos; omega) with h | h
  · rw [Nat.sub_self] at h; exact h.unique hl
  · omega

/-- Subexpressions that agree in operations, checksums and counts carry the same factors. -/
def Coherent (T : Tree) : Prop :=
  ∀ p q u v, T.At p u → T.At q v → SamePost u v → List.Forall₂ Node.Same u.post v.post

mutual

theorem Tree.At.shape : ∀ {T : Tree} {p : Nat} {u : Tree}, T.At p u → T.Shape → u.Shape
  | .leaf n, p, u, h, hs => by
    rw [Tree.At] at h; rw [h.2]; exact hs
  | .un n t, p, u, h, hs => by
    rw [Tree.At] at h
    rcases h with h | h
    · rw [h.2]; exact hs
    · rw [Tree.Shape] at hs; exact Tree.At.shape h hs.2
  | .bin n l r, p, u, h, hs => by
    rw [Tree.At] at h
    rcases h with h | h | h
    · rw [h.2]; exact hs
    · rw [Tree.Shape] at hs; exact Tree.At.shape h hs.2.1
    · rw [Tree.Shape] at hs; exact Tree.At.shape h.2 hs.2.2
  | .poly n f, p, u, h, hs => by
    rw [Tree.At] at h
    rcases h with h | h
    · rw [h.2]; exact hs
    · rw [Tree.Shape] at hs; exact Forest.At.shape h hs.2.2.2

theorem Forest.At.shape : ∀ {f : Forest} {p : Nat} {u : Tree}, f.At p u → f.Shape → u.Shape
  | .nil, p, u, h, _ => by rw [Forest.At] at h; exact h.elim
  | .cons se t f, p, u, h, hs => by
    rw [Forest.At] at h
    rw [Forest.Shape] at hs
    rcases h with h | h
    · exact Tree.At.shape h.2 hs.2.2.1
    · exact Forest.At.shape h.2 hs.2.2.2

end

/-! ## Lengths of operands -/

/-- The positions of the `op_se` nodes. -/
def Forest.pos : Forest → Nat → List Nat
  | .nil, _ => []
  | .cons _ t f, p => p :: f.pos (p + 1 + t.post.length)

/-- The right spans. -/
def Forest.fix : Forest → Forest
  | .nil => .nil
  | .cons se t f => .cons { se with ex := t.post.length } t f.fix

/-- Operands whose spans need not be right. -/
def Forest.PreShape : Forest → Prop
  | .nil => True
  | .cons se t f => se.o = Op.se ∧ t.Shape ∧ f.PreShape

theorem Forest.pos_length : ∀ (f : Forest) (p : Nat), (f.pos p).length = f.length
  | .nil, _ => rfl
  | .cons _ t f, p => by rw [Forest.pos, List.length_cons, Forest.pos_length f, Forest.length]

theorem Forest.fix_length : ∀ f : Forest, f.fix.length = f.length
  | .nil => rfl
  | .cons _ t f => by rw [Forest.fix, Forest.length, Forest.length, Forest.fix_length f]

theorem Forest.fix_shape : ∀ {f : Forest}, f.PreShape → f.fix.Shape
  | .nil, _ => by rw [Forest.fix, Forest.Shape]; trivial
  | .cons se t f, h => by
    rw [Forest.PreShape] at h
    rw [Forest.fix, Forest.Shape]
    exact ⟨h.1, rfl, h.2.1, Forest.fix_shape h.2.2⟩

theorem Forest.fix_post_length : ∀ f : Forest, f.fix.post.length = f.post.length
  | .nil => by rw [Forest.fix]
  | .cons se t f => by
    rw [Forest.fix, Forest.post, Forest.post]
    simp [Forest.fix_post_length f]

theorem Forest.pos_end : ∀ (f : Forest) (p : Nat), ∃ ps, f.pos p ++ [p + f.post.length] = p :: ps
  | .nil, p => ⟨[], by rw [Forest.pos, Forest.post]; rfl⟩
  | .cons se t f, p => ⟨_, by rw [Forest.pos]; rfl⟩

theorem fixLengths_forest (n : List Node) : ∀ (f : Forest) (base : List Node),
    fixLengths (base ++ f.post ++ n) (f.pos base.length ++ [base.length + f.post.length]) = ok (base ++ f.fix.post ++ n)
  | .nil, base => by
    rw [Forest.pos, Forest.fix, List.nil_append]
    rfl
  | .cons se t f, base => by
    have hl : (Forest.cons se t f).post.length = 1 + t.post.length + f.post.length := by
      rw [Forest.post]; simp; omega
    obtain ⟨ps, hps⟩ := f.pos_end (base.length + 1 + t.post.length)
    rw [Forest.pos, List.cons_append, hl,
      show base.length + (1 + t.post.length + f.post.length) = base.length + 1 + t.post.length + f.post.length by omega, hps, fixLengths]
    have h0 : (base ++ (Forest.cons se t f).post ++ n)[base.length]? = some se := by
      rw [Forest.post, List.append_assoc, List.getElem?_append_right (Nat.le_refl _), Nat.sub_self]; rfl
    rw [atO_ok.2 h0, ok_bind, if_neg (by omega)]
    have h1 : (base ++ (Forest.cons se t f).post ++ n).set base.length
        { se with ex := base.length + 1 + t.post.length - base.length - 1 } =
        (base ++ { se with ex := t.post.length } :: t.post) ++ f.post ++ n := by
      rw [Forest.post, List.append_assoc, List.set_append_right _ _ (Nat.le_refl _), Nat.sub_self,
        show base.length + 1 + t.post.length - base.length - 1 = t.post.length by omega]
      simp
    rw [h1]
    have ih := fixLengths_forest n f (base ++ { se with ex := t.post.length } :: t.post)
    have hb : (base ++ { se with ex := t.post.length } :: t.post).length = base.length + 1 + t.post.length := by
      simp; omega
    rw [hb, hps] at ih
    rw [ih, Forest.fix, Forest.post]
    simp

/-! ## Copying one tree -/

/-- What holds while the table is written out, up to entry `i`. -/
structure EmitInv (T : Tree) (nodes : List Node) (kr : List (Nat × Nat)) (i : Nat) : Prop where
  flat : Flat T nodes kr i
  pad : ∀ p n, T.post.length ≤ p → nodes[p]? = some n → n.o ≠ Op.cse
  len : T.post.length ≤ nodes.length
  sorted : kr.Pairwise fun a b => a.1 + a.2 < b.1 + b.2
  sub : ∀ x ∈ kr, ∃ u, T.At x.1 u ∧ u.post.length = x.2

/-- `σ k` is the subtree recorded in entry `k`. -/
def Records (T : Tree) (kr : List (Nat × Nat)) (σ : Nat → Tree) : Prop :=
  ∀ k x, kr[k]? = some x → T.At x.1 (σ k) ∧ (σ k).post.length = x.2

/-- A reference at position `p` does not skip more than `len` nodes. -/
def SkipFits (nodes : List Node) (p len : Nat) : Prop := ∀ n, nodes[p]? = some n → n.o = Op.cse → n.checksum ≤ p + len

/-- References of the copy are references of the source, to entries below `i` or entries that end before `stop`. -/
def RefsOk (nodes : List Node) (kr : List (Nat × Nat)) (i stop : Nat) (ns : List Node) : Prop :=
  ∀ n ∈ ns, n.o = Op.cse → n ∈ nodes ∧ ∃ x, kr[n.ex]? = some x ∧ (x.1 + x.2 < stop ∨ n.ex < i)

/-- A reference at position `p` stands for at least `len` nodes. -/
def Covered (nodes : List Node) (p len : Nat) : Prop := ∃ n, nodes[p]? = some n ∧ n.o = Op.cse ∧ p + len ≤ n.checksum

/-- `v` is a reference for the `len` nodes at position `p`. -/
def RefTo (T : Tree) (kr : List (Nat × Nat)) (i p len : Nat) (v : Tree) : Prop := ∃ n, v = .leaf n ∧ IsRef T kr i p n ∧ n.checksum = p + len

mutual

/-- `v` is the subtree at position `p` with references in place of some subtrees, in particular of all that are covered. -/
def CutTree (T : Tree) (nodes : List Node) (kr : List (Nat × Nat)) (i : Nat) : Nat → Tree → Tree → Prop
  | p, .leaf m, v => RefTo T kr i p 1 v ∨ v = .leaf m
  | p, .un m t, v => RefTo T kr i p (Tree.un m t).post.length v ∨
    (¬ Covered nodes p (Tree.un m t).post.length ∧ ∃ t', v = .un m t' ∧ CutTree T nodes kr i p t t')
  | p, .bin m l r, v => RefTo T kr i p (Tree.bin m l r).post.length v ∨
    (¬ Covered nodes p (Tree.bin m l r).post.length ∧ ∃ l' r', v = .bin m l' r' ∧ CutTree T nodes kr i p l l' ∧ CutTree T nodes kr i (p + l.post.length) r r')
  | p, .poly m f, v => RefTo T kr i p (Tree.poly m f).post.length v ∨
    (¬ Covered nodes p (Tree.poly m f).post.length ∧ ∃ q f', v = .poly { m with q := q } f' ∧ CutForest T nodes kr i p f f')

/-- See `CutTree`. -/
def CutForest (T : Tree) (nodes : List Node) (kr : List (Nat × Nat)) (i : Nat) : Nat → Forest → Forest → Prop
  | _, .nil, g => g = .nil
  | p, .cons se t f, g => ∃ t' f', g = .cons { se with ex := t'.post.length } t' f' ∧ CutTree T nodes kr i (p + 1) t t' ∧
    CutForest T nodes kr i (p + 1 + t.post.length) f f'

end

theorem CutTree.ref {T : Tree} {nodes : List Node} {kr : List (Nat × Nat)} {i p : Nat} {t v : Tree} (h : RefTo T kr i p t.post.length v) :
    CutTree T nodes kr i p t v := by
  cases t with
  | leaf m => rw [CutTree]; rw [Tree.post] at h; exact Or.inl h
  | un m t => rw [CutTree]; exact Or.inl h
  | bin m l r => rw [CutTree]; exact Or.inl h
  | poly m f => rw [CutTree]; exact Or.inl h

theorem emitLoop_step {nodes : List Node} {stop fuel j : Nat} {s s' : Emit} {n : Node} (hj : j < stop) (hn : nodes[j]? = some n)
    (h : emitLoop nodes stop fuel j s = ok s') :
    ∃ fuel' s1, emitNode n s = ok s1 ∧ emitLoop nodes stop fuel' (if n.o = Op.cse then n.checksum else j + 1) s1 = ok s' := by
  cases fuel with
  | zero => rw [emitLoop, if_neg (by omega)] at h; simp at h
  | succ fuel =>
    rw [emitLoop, if_neg (by omega)] at h
    simp only [bind_eq_ok, atO_ok] at h
    obtain ⟨n', hn', s1, h1, h⟩ := h
    rw [hn] at hn'
    injection hn' with hn'
    subst hn'
    exact ⟨fuel, s1, h1, h⟩

theorem emitNode_plain {n : Node} {s : Emit} (h1 : n.o ≠ Op.se) (h2 : ¬ (n.o = Op.sum ∨ n.o = Op.ep)) :
    emitNode n s = ok ⟨s.out ++ [n], s.stk⟩ := by
  unfold emitNode
  dsimp only
  rw [if_neg h1, if_neg h2]

theorem emitNode_se {n : Node} {s : Emit} (h : n.o = Op.se) : emitNode n s = ok ⟨s.out ++ [n], s.out.length :: s.stk⟩ := by
  unfold emitNode
  dsimp only
  rw [if_pos h]

theorem IsUn.plain {o : Nat} (h : IsUn o) : o ≠ Op.se ∧ ¬ (o = Op.sum ∨ o = Op.ep) ∧ o ≠ Op.cse := by
  rcases h with h | h | h | h | h | h | h | h <;> rw [h] <;> decide

theorem IsBin.plain {o : Nat} (h : IsBin o) : o ≠ Op.se ∧ ¬ (o = Op.sum ∨ o = Op.ep) ∧ o ≠ Op.cse := by
  rcases h with h | h | h | h <;> rw [h] <;> decide

theorem IsLeaf.plain {o : Nat} (h : IsLeaf o) : o ≠ Op.se ∧ ¬ (o = Op.sum ∨ o = Op.ep) := by
  refine ⟨h.ne, ?_⟩
  rintro (h' | h')
  · exact h.not_poly (Or.inl h')
  · exact h.not_poly (Or.inr h')

theorem IsPoly.plain {o : Nat} (h : IsPoly o) : o ≠ Op.cse := by
  rcases h with h | h <;> rw [h] <;> decide

theorem emitNode_poly {n : Node} {s s' : Emit} {base : List Node} {f : Forest} {stk : List Nat} (ho : IsPoly n.o) (hn : n.ex = f.length)
    (hout : s.out = base ++ f.post) (hstk : s.stk = (f.pos base.length).reverse ++ stk) (h : emitNode n s = ok s') :
    ∃ q, s' = ⟨base ++ (f.fix.post ++ [{ n with q := q }]), stk⟩ := by
  unfold emitNode at h
  dsimp only at h
  rw [if_neg ho.ne.2, if_pos (show n.o = Op.sum ∨ n.o = Op.ep from ho)] at h
  split at h
  · simp at h
  have hps : ((s.out.length :: s.stk).take (n.ex + 1)).reverse = f.pos base.length ++ [base.length + f.post.length] := by
    rw [List.take_succ_cons, hn, hstk, List.take_left' (by rw [List.length_reverse, Forest.pos_length]), List.reverse_cons,
      List.reverse_reverse, hout, List.length_append]
  rw [hps] at h
  have hfix := fixLengths_forest [n] f base
  rw [← hout] at hfix
  rw [hfix, ok_bind] at h
  simp only [bind_eq_ok, atO_ok] at h
  obtain ⟨first, -, last, hlast, h⟩ := h
  split at h
  · simp at h
  rw [pure_eq, ok_inj] at h
  have hl : s.out.length = (base ++ f.fix.post).length := by
    rw [hout, List.length_append, List.length_append, Forest.fix_post_length]
  rw [hl, List.getElem?_append_right (Nat.le_refl _), Nat.sub_self] at hlast
  simp only [List.getElem?_cons_zero, Option.some.injEq] at hlast
  subst hlast
  refine ⟨⟨n.q.num, ((base ++ f.fix.post ++ [n]).length : Int) - ((first : Int) + 1) - 1⟩, ?_⟩
  rw [← h, hl, List.set_append_right _ _ (Nat.le_refl _), Nat.sub_self, List.set_cons_zero, hstk, hn,
    List.drop_left' (by rw [List.length_reverse, Forest.pos_length]), List.append_assoc]

section copy

variable {T : Tree} {nodes : List Node} {kr : List (Nat × Nat)} {i : Nat} {σ : Nat → Tree}

/-- A position inside the tree holds the original node unless a recorded subtree starts there. -/
theorem EmitInv.get (H : EmitInv T nodes kr i) {p : Nat} {m : Node} (hm : T.post[p]? = some m) :
    ∃ n, nodes[p]? = some n ∧ (n = m ∨ IsRef T kr i p n) := by
  have hp : p < T.post.length := (List.getElem?_eq_some_iff.1 hm).1
  have hl := H.len
  refine ⟨nodes[p], List.getElem?_eq_getElem (by omega), ?_⟩
  rcases H.flat p _ (List.getElem?_eq_getElem (by omega)) hp with h | h
  · rw [hm] at h; injection h with h; exact Or.inl h.symm
  · exact Or.inr h

theorem flat_cse' (hT : T.NoRef) (H : EmitInv T nodes kr i) {p : Nat} {n : Node} (hn : nodes[p]? = some n) (hc : n.o = Op.cse) :
    IsRef T kr i p n := by
  by_cases hp : p < T.post.length
  · rcases H.flat p n hn hp with h | h
    · exact absurd hc (hT n (List.mem_of_getElem? h))
    · exact h
  · exact absurd hc (H.pad p n (by omega) hn)

/-- A reference whose range is exactly the tree. -/
theorem copy_ref (hc : Coherent T) (hTs : T.Shape) (H : EmitInv T nodes kr i) (hσ : Records T kr σ) {t : Tree} {p stop fuel : Nat} {s s' : Emit} {n : Node}
    (hp : p < stop) (hle : p + t.post.length ≤ stop) (hn : nodes[p]? = some n) (hr : IsRef T kr i p n) (ht : T.At p t)
    (hck : n.checksum = p + t.post.length) (h : emitLoop nodes stop fuel p s = ok s') :
    ∃ (t' : Tree) (fuel' : Nat), t'.Shape ∧ (t'.expand σ).Eqv t ∧ RefsOk nodes kr i stop t'.post ∧ CutTree T nodes kr i p t t' ∧
      emitLoop nodes stop fuel' (p + t.post.length) ⟨s.out ++ t'.post, s.stk⟩ = ok s' := by
  have hcut : CutTree T nodes kr i p t (.leaf n) := .ref ⟨n, rfl, hr, hck⟩
  obtain ⟨ho, u, v, off, hu, hck', hk, hv, hs, hor⟩ := hr
  have hul : u.post.length = t.post.length := by omega
  have hut := ht.unique' hu hul
  subst hut
  obtain ⟨hσ1, hσ2⟩ := hσ _ _ hk
  have hσv : σ n.ex = v := hv.unique' hσ1 (by rw [hσ2, hs.length])
  obtain ⟨fuel', s1, h1, h⟩ := emitLoop_step hp hn h
  rw [emitNode_plain (by rw [ho]; decide) (by rw [ho]; decide), ok_inj] at h1
  rw [if_pos ho, hck', ← h1] at h
  refine ⟨.leaf n, fuel', ?_, ?_, ?_, hcut, by rw [Tree.post]; exact h⟩
  · rw [Tree.Shape]; exact Or.inr (Or.inl ho)
  · rw [Tree.expand, if_pos ho, hσv]
    refine (eqv_of_post (hv.shape hTs) (hu.shape hTs) (a := []) (b := []) ?_).1
    exact hc _ _ _ _ hv hu hs
  · intro m hm hmo
    rw [Tree.post, List.mem_singleton] at hm
    subst hm
    have := u.post_pos
    exact ⟨List.mem_of_getElem? hn, _, hk, by dsimp only; omega⟩

variable (hT : T.NoRef) (hTs : T.Shape) (hc : Coherent T) (H : EmitInv T nodes kr i) (hσ : Records T kr σ)

theorem IsRef.fits {p len : Nat} {n : Node} (hr : IsRef T kr i p n) (hn : nodes[p]? = some n) (h : SkipFits nodes p len) :
    ∃ u, T.At p u ∧ u.post.length ≤ len ∧ n.checksum = p + u.post.length := by
  have h := h n hn hr.1
  obtain ⟨ho, u, v, off, hu, hck', -⟩ := hr
  exact ⟨u, hu, by omega, hck'⟩

include hT H in
/-- A subtree that is covered is exactly replaced. -/
theorem covered_exact {p len : Nat} (hf : SkipFits nodes p len) (hc : Covered nodes p len) :
    ∃ n, nodes[p]? = some n ∧ IsRef T kr i p n ∧ n.checksum = p + len := by
  obtain ⟨n, h1, h2, h3⟩ := hc
  exact ⟨n, h1, flat_cse' hT H h1 h2, Nat.le_antisymm (hf n h1 h2) h3⟩

include hT hTs hc H hσ in
mutual

theorem copy_tree : ∀ {t : Tree} {p stop fuel : Nat} {s s' : Emit}, T.At p t → t.Shape → SkipFits nodes p t.post.length →
    p + t.post.length ≤ stop → emitLoop nodes stop fuel p s = ok s' →
    ∃ (t' : Tree) (fuel' : Nat), t'.Shape ∧ (t'.expand σ).Eqv t ∧ RefsOk nodes kr i stop t'.post ∧ CutTree T nodes kr i p t t' ∧
      emitLoop nodes stop fuel' (p + t.post.length) ⟨s.out ++ t'.post, s.stk⟩ = ok s'
  | .leaf m, p, stop, fuel, s, s', ha, hs, hf, hle, h => by
    have hm : T.post[p]? = some m := by
      have := Tree.at_last ha (n := m) (ns := []) (by rw [Tree.post]; rfl)
      simpa using this
    have hl : (Tree.leaf m).post.length = 1 := by rw [Tree.post]; rfl
    obtain ⟨n, hn, hn'⟩ := H.get hm
    rcases hn' with rfl | hr
    · rw [Tree.Shape] at hs
      have hno := hT n (List.mem_of_getElem? hm)
      obtain ⟨fuel', s1, h1, h⟩ := emitLoop_step (by omega) hn h
      rw [emitNode_plain hs.plain.1 hs.plain.2, ok_inj] at h1
      rw [if_neg hno, ← h1] at h
      refine ⟨.leaf n, fuel', by rw [Tree.Shape]; exact hs, ?_, ?_, by rw [CutTree]; exact Or.inr rfl, by rw [hl, Tree.post]; exact h⟩
      · rw [Tree.expand, if_neg hno]; exact .refl _
      · intro a ha ho
        rw [Tree.post, List.mem_singleton] at ha
        subst ha
        exact absurd ho hno
    · obtain ⟨u, hu, hul, hck⟩ := hr.fits hn hf
      have := u.post_pos
      exact copy_ref hc hTs H hσ (by omega) hle hn hr ha (by omega) h
  | .un m t, p, stop, fuel, s, s', ha, hs, hf, hle, h => by
    have hl : (Tree.un m t).post.length = t.post.length + 1 := by rw [Tree.post]; simp
    have hpos := t.post_pos
    by_cases hcase : ∃ n, nodes[p]? = some n ∧ IsRef T kr i p n ∧ n.checksum = p + (Tree.un m t).post.length
    · obtain ⟨n, hn, hr, hck⟩ := hcase
      exact copy_ref hc hTs H hσ (by omega) hle hn hr ha hck h
    · have hs' := hs
      rw [Tree.Shape] at hs
      have hft : SkipFits nodes p t.post.length := by
        intro n hn ho
        have hr := flat_cse' hT H hn ho
        obtain ⟨u, hu, hul, hck⟩ := hr.fits hn hf
        rcases Tree.at_un_cases ha hu (by omega) with rfl | hlt
        · exact absurd ⟨n, hn, hr, hck⟩ hcase
        · omega
      obtain ⟨t', fuel1, h1, h2, h3, hcut, h4⟩ := copy_tree (Tree.at_un ha) hs.2 hft (by omega) h
      have hm := Tree.at_last ha (n := m) (ns := t.post) (by rw [Tree.post])
      obtain ⟨n, hn, hn'⟩ := H.get hm
      rcases hn' with rfl | hr
      · obtain ⟨fuel', s1, h5, h6⟩ := emitLoop_step (by omega) hn h4
        rw [emitNode_plain hs.1.plain.1 hs.1.plain.2.1, ok_inj] at h5
        rw [if_neg hs.1.plain.2.2, ← h5] at h6
        refine ⟨.un n t', fuel', by rw [Tree.Shape]; exact ⟨hs.1, h1⟩, ?_, ?_,
          by rw [CutTree]; exact Or.inr ⟨fun h => hcase (covered_exact hT H hf h), t', rfl, hcut⟩, ?_⟩
        · rw [Tree.expand, Tree.Eqv]; exact ⟨n, t, rfl, .refl _, h2⟩
        · intro a ha ho
          rw [Tree.post, List.mem_append, List.mem_singleton] at ha
          rcases ha with ha | rfl
          · exact h3 a ha ho
          · exact absurd ho hs.1.plain.2.2
        · rw [hl, Tree.post, ← List.append_assoc]; exact h6
      · obtain ⟨-, u, -, -, hu, -⟩ := hr
        rcases ha.nest hu (by omega) (by omega) with h | ⟨h, -⟩
        · rw [Nat.add_sub_cancel_left, Tree.At] at h
          rcases h with h | h
          · omega
          · have := h.le; have := u.post_pos; omega
        · omega
  | .bin m l r, p, stop, fuel, s, s', ha, hs, hf, hle, h => by
    have hl : (Tree.bin m l r).post.length = l.post.length + r.post.length + 1 := by rw [Tree.post]; simp [Nat.add_assoc]
    have hpos := l.post_pos
    have hposr := r.post_pos
    by_cases hcase : ∃ n, nodes[p]? = some n ∧ IsRef T kr i p n ∧ n.checksum = p + (Tree.bin m l r).post.length
    · obtain ⟨n, hn, hr, hck⟩ := hcase
      exact copy_ref hc hTs H hσ (by omega) hle hn hr ha hck h
    · rw [Tree.Shape] at hs
      have hfl : SkipFits nodes p l.post.length := by
        intro n hn ho
        have hr := flat_cse' hT H hn ho
        obtain ⟨u, hu, hul, hck⟩ := hr.fits hn hf
        rcases Tree.at_bin_cases ha hu hul with rfl | hlt
        · exact absurd ⟨n, hn, hr, hck⟩ hcase
        · omega
      have hfr : SkipFits nodes (p + l.post.length) r.post.length := by
        intro n hn ho
        obtain ⟨-, u, -, -, hu, hck, -⟩ := flat_cse' hT H hn ho
        have := Tree.at_right_le ha hu
        omega
      obtain ⟨l', fuel1, h1, h2, h3, hcl, h4⟩ := copy_tree (Tree.at_left ha) hs.2.1 hfl (by omega) h
      obtain ⟨r', fuel2, g1, g2, g3, hcr, g4⟩ := copy_tree (Tree.at_right ha) hs.2.2 hfr (by omega) h4
      have hm := Tree.at_last ha (n := m) (ns := l.post ++ r.post) (by rw [Tree.post])
      rw [List.length_append] at hm
      obtain ⟨n, hn, hn'⟩ := H.get hm
      rcases hn' with rfl | hr
      · obtain ⟨fuel', s1, h5, h6⟩ := emitLoop_step (by omega) (by rw [← Nat.add_assoc] at hn; exact hn) g4
        rw [emitNode_plain hs.1.plain.1 hs.1.plain.2.1, ok_inj] at h5
        rw [if_neg hs.1.plain.2.2, ← h5] at h6
        refine ⟨.bin n l' r', fuel', by rw [Tree.Shape]; exact ⟨hs.1, h1, g1⟩, ?_, ?_,
          by rw [CutTree]; exact Or.inr ⟨fun h => hcase (covered_exact hT H hf h), l', r', rfl, hcl, hcr⟩, ?_⟩
        · rw [Tree.expand, Tree.Eqv]; exact ⟨n, l, r, rfl, .refl _, h2, g2⟩
        · intro a ha ho
          rw [Tree.post, List.mem_append, List.mem_append, List.mem_singleton] at ha
          rcases ha with (ha | ha) | rfl
          · exact h3 a ha ho
          · exact g3 a ha ho
          · exact absurd ho hs.1.plain.2.2
        · rw [hl, Tree.post, ← List.append_assoc, ← List.append_assoc, ← Nat.add_assoc, ← Nat.add_assoc]; exact h6
      · obtain ⟨-, u, -, -, hu, -⟩ := hr
        rcases ha.nest hu (by omega) (by omega) with h | ⟨h, -⟩
        · rw [Nat.add_sub_cancel_left, Tree.At] at h
          rcases h with h | h | ⟨-, h⟩
          · omega
          · have := h.le; have := u.post_pos; omega
          · have := h.le; have := u.post_pos; omega
        · omega
  | .poly m f, p, stop, fuel, s, s', ha, hs, hf, hle, h => by
    have hl : (Tree.poly m f).post.length = f.post.length + 1 := by rw [Tree.post]; simp
    by_cases hcase : ∃ n, nodes[p]? = some n ∧ IsRef T kr i p n ∧ n.checksum = p + (Tree.poly m f).post.length
    · obtain ⟨n, hn, hr, hck⟩ := hcase
      exact copy_ref hc hTs H hσ (by omega) hle hn hr ha hck h
    · rw [Tree.Shape] at hs
      have hhead : ∀ n, nodes[p]? = some n → n.o ≠ Op.cse := by
        intro n hn ho
        have hr := flat_cse' hT H hn ho
        obtain ⟨u, hu, hul, hck⟩ := hr.fits hn hf
        rcases Tree.at_poly_cases ha hu hul with rfl
        exact absurd ⟨n, hn, hr, hck⟩ hcase
      have hin : ∀ q u, 0 < q → q ≤ f.post.length → T.At (p + q) u → f.At q u := by
        intro q u h0 hq hu
        rcases ha.nest hu (by omega) (by omega) with h | ⟨h, -⟩
        · rw [Nat.add_sub_cancel_left, Tree.At] at h
          rcases h with h | h
          · omega
          · exact h
        · omega
      obtain ⟨f', fuel1, h1, hlen, h2, h3, hcut, h4⟩ := copy_forest (Tree.here_poly ha) hs.2.2.2 hhead
        (fun q u h0 hq hu => hin q u h0 (by omega) hu) (by omega) h
      have hm := Tree.at_last ha (n := m) (ns := f.post) (by rw [Tree.post])
      obtain ⟨n, hn, hn'⟩ := H.get hm
      rcases hn' with rfl | hr
      · obtain ⟨fuel', s1, h5, h6⟩ := emitLoop_step (by omega) hn h4
        rw [if_neg hs.1.plain] at h6
        obtain ⟨q, rfl⟩ := emitNode_poly hs.1 (by rw [hs.2.1, hlen]) rfl rfl h5
        refine ⟨.poly { n with q := q } f'.fix, fuel', ?_, ?_, ?_,
          by rw [CutTree]; exact Or.inr ⟨fun h => hcase (covered_exact hT H hf h), q, _, rfl, hcut⟩, ?_⟩
        · rw [Tree.Shape, Forest.fix_length, hlen]
          exact ⟨hs.1, hs.2.1, hs.2.2.1, Forest.fix_shape h1⟩
        · rw [Tree.expand, Tree.Eqv]
          refine ⟨n, f, rfl, ⟨rfl, rfl, fun _ => rfl, fun h => ?_⟩, h2⟩
          dsimp only at h
          exfalso
          rcases hs.1 with e | e <;> rw [e] at h <;> revert h <;> unfold IsFun <;> decide
        · intro a ha ho
          rw [Tree.post, List.mem_append, List.mem_singleton] at ha
          rcases ha with ha | rfl
          · exact h3 a ha ho
          · exact absurd ho hs.1.plain
        · rw [hl, Tree.post]; exact h6
      · obtain ⟨-, u, -, -, hu, -⟩ := hr
        have hfp : 0 < f.post.length := by
          cases f with
          | nil => rw [Forest.length] at hs; omega
          | cons => rw [Forest.post]; simp
        have h := hin _ u hfp (Nat.le_refl _) hu
        have := h.le; have := u.post_pos; omega

theorem copy_forest : ∀ {f : Forest} {p stop fuel : Nat} {s s' : Emit}, T.Here p f → f.Shape → (∀ n, nodes[p]? = some n → n.o ≠ Op.cse) →
    (∀ q u, 0 < q → q < f.post.length → T.At (p + q) u → f.At q u) →
    p + f.post.length ≤ stop → emitLoop nodes stop fuel p s = ok s' →
    ∃ (f' : Forest) (fuel' : Nat), f'.PreShape ∧ f'.length = f.length ∧ (f'.fix.expand σ).Eqv f ∧ RefsOk nodes kr i stop f'.fix.post ∧ CutForest T nodes kr i p f f'.fix ∧
      emitLoop nodes stop fuel' (p + f.post.length) ⟨s.out ++ f'.post, (f'.pos s.out.length).reverse ++ s.stk⟩ = ok s'
  | .nil, p, stop, fuel, s, s', _, _, _, _, _, h => by
    refine ⟨.nil, fuel, trivial, rfl, ?_, ?_, by rw [Forest.fix, CutForest], ?_⟩
    · rw [Forest.fix, Forest.expand, Forest.Eqv]
    · intro n hn; rw [Forest.fix, Forest.post] at hn; exact absurd hn (List.not_mem_nil)
    · rw [Forest.post, Forest.pos]; simpa using h
  | .cons se t f, p, stop, fuel, s, s', ha, hs, hhead, hin, hle, h => by
    rw [Forest.Shape] at hs
    have hl : (Forest.cons se t f).post.length = 1 + t.post.length + f.post.length := by
      rw [Forest.post]; simp; omega
    have hpos := t.post_pos
    obtain ⟨n, hn, hn'⟩ := H.get (Tree.here_se ha)
    rcases hn' with rfl | hr
    · obtain ⟨fuel1, s1, h1, h⟩ := emitLoop_step (by omega) hn h
      rw [emitNode_se hs.1, ok_inj] at h1
      rw [if_neg (by rw [hs.1]; decide), ← h1] at h
      have hft : SkipFits nodes (p + 1) t.post.length := by
        intro n hn ho
        obtain ⟨-, u, -, -, hu, hck, -⟩ := flat_cse' hT H hn ho
        have := hin 1 u (by omega) (by omega) hu
        rw [Forest.At] at this
        rcases this with ⟨-, h⟩ | ⟨h, -⟩
        · have := h.le; omega
        · omega
      obtain ⟨t', fuel2, g1, g2, g3, hct, g4⟩ := copy_tree (Tree.at_head ha.1) hs.2.2.1 hft (by omega) h
      have htail : ∀ q u, q < f.post.length → T.At (p + 1 + t.post.length + q) u → f.At q u := by
        intro q u hq hu
        rw [show p + 1 + t.post.length + q = p + (1 + t.post.length + q) by omega] at hu
        have := hin (1 + t.post.length + q) u (by omega) (by omega) hu
        rw [Forest.At] at this
        rcases this with ⟨-, h⟩ | ⟨-, h⟩
        · have := h.le; have := u.post_pos; omega
        · rwa [show 1 + t.post.length + q - 1 - t.post.length = q by omega] at h
      cases f with
      | nil =>
        refine ⟨.cons n t' .nil, fuel2, ⟨hs.1, g1, trivial⟩, rfl, ?_, ?_,
          by rw [Forest.fix, Forest.fix, CutForest]; exact ⟨t', .nil, rfl, hct, by rw [CutForest]⟩, ?_⟩
        · rw [Forest.fix, Forest.fix, Forest.expand, Forest.expand, Forest.Eqv]
          refine ⟨n, t, .nil, rfl, ⟨rfl, rfl, fun h => absurd hs.1 h, fun _ => rfl⟩, g2, ?_⟩
          rw [Forest.Eqv]
        · intro a ha ho
          rw [Forest.fix, Forest.fix, Forest.post, Forest.post, List.append_nil, List.mem_cons] at ha
          rcases ha with rfl | ha
          · dsimp only at ho; rw [hs.1] at ho; exact absurd ho (by decide)
          · exact g3 a ha ho
        · have e : p + (Forest.cons n t .nil).post.length = p + 1 + t.post.length := by
            rw [hl, Forest.post]; simp; omega
          rw [e, Forest.post, Forest.post, Forest.pos, Forest.pos]
          simpa using g4
      | cons se2 t2 f2 =>
        have hp2 : 0 < (Forest.cons se2 t2 f2).post.length := by rw [Forest.post]; simp
        have hhead2 : ∀ n, nodes[p + 1 + t.post.length]? = some n → n.o ≠ Op.cse := by
          intro n hn ho
          obtain ⟨-, u, -, -, hu, -⟩ := flat_cse' hT H hn ho
          have := (htail 0 u hp2 (by simpa using hu)).pos
          omega
        obtain ⟨f', fuel3, k1, k2, k3, k4, hcf, k5⟩ := copy_forest (Tree.here_tail ha) hs.2.2.2 hhead2
          (fun q u _ hq hu => htail q u hq hu) (by omega) g4
        refine ⟨.cons n t' f', fuel3, ⟨hs.1, g1, k1⟩, by rw [Forest.length, k2]; rfl, ?_, ?_,
          by rw [Forest.fix, CutForest]; exact ⟨t', _, rfl, hct, hcf⟩, ?_⟩
        · rw [Forest.fix, Forest.expand, Forest.Eqv]
          exact ⟨n, t, _, rfl, ⟨rfl, rfl, fun h => absurd hs.1 h, fun _ => rfl⟩, g2, k3⟩
        · intro a ha ho
          rw [Forest.fix, Forest.post, List.mem_cons, List.mem_append] at ha
          rcases ha with rfl | ha | ha
          · dsimp only at ho; rw [hs.1] at ho; exact absurd ho (by decide)
          · exact g3 a ha ho
          · exact k4 a ha ho
        · rw [hl, show p + (1 + t.post.length + (Forest.cons se2 t2 f2).post.length) =
            p + 1 + t.post.length + (Forest.cons se2 t2 f2).post.length by omega]
          rw [show (Forest.cons n t' f').post = n :: (t'.post ++ f'.post) by rw [Forest.post], Forest.pos]
          simpa [Nat.add_assoc, Nat.add_comm, Nat.add_left_comm] using k5
    · exact absurd hr.1 (hhead n hn)

end

end copy

end Gal
