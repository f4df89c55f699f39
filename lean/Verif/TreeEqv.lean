import Verif.Spec.Program
import Verif.ReshapeScan
import Verif.Props.Refine

/-!
# Trees that agree in everything an evaluation reads
-/

namespace Gal

open Out

theorem Node.Eqv.refl (n : Node) : n.Eqv n := ⟨rfl, rfl, fun _ => rfl, fun _ => rfl⟩

theorem Node.Eqv.trans {a b c : Node} (h : a.Eqv b) (h' : b.Eqv c) : a.Eqv c := by
  obtain ⟨h1, h2, h3, h4⟩ := h
  obtain ⟨g1, g2, g3, g4⟩ := h'
  rw [← h1] at g3 g4
  exact ⟨h1.trans g1, h2.trans g2, fun h => (h3 h).trans (g3 h), fun h => (h4 h).trans (g4 h)⟩

mutual

theorem Tree.Eqv.refl : ∀ t : Tree, t.Eqv t
  | .leaf n => by rw [Tree.Eqv]; exact ⟨n, rfl, .refl n⟩
  | .un n t => by rw [Tree.Eqv]; exact ⟨n, t, rfl, .refl n, Tree.Eqv.refl t⟩
  | .bin n l r => by rw [Tree.Eqv]; exact ⟨n, l, r, rfl, .refl n, Tree.Eqv.refl l, Tree.Eqv.refl r⟩
  | .poly n f => by rw [Tree.Eqv]; exact ⟨n, f, rfl, .refl n, Forest.Eqv.refl f⟩

theorem Forest.Eqv.refl : ∀ f : Forest, f.Eqv f
  | .nil => by rw [Forest.Eqv]
  | .cons se t f => by rw [Forest.Eqv]; exact ⟨se, t, f, rfl, .refl se, Tree.Eqv.refl t, Forest.Eqv.refl f⟩

end

section eval

variable {α : Type} (M : Ops α) (ie : Nat → Nat → α) (temps : List (α × Nat))

theorem leafEval_congr {n m : Node} (hl : IsLeaf n.o) (h : n.Eqv m) : leafEval M ie temps n = leafEval M ie temps m := by
  obtain ⟨h1, h2, h3, -⟩ := h
  have h3 := h3 hl.ne
  unfold leafEval
  rw [h1, h2, h3]

theorem unEval_congr {n m : Node} (hl : IsUn n.o) (h : n.Eqv m) (x : α) : unEval M n x = unEval M m x := by
  obtain ⟨h1, h2, h3, h4⟩ := h
  have h3 := h3 hl.ne.2
  unfold unEval
  rw [← h1, h3]
  split_ifs with g1 g2 g3 g4
  · rfl
  · rfl
  · rfl
  · rfl
  · rw [h4 (Or.inr (Or.inr (by
      rcases hl with h | h | h | h | h
      · exact absurd h g1
      · exact absurd h g2
      · exact absurd h g3
      · exact absurd h g4
      · exact h)))]

theorem binEval_congr {n m : Node} (hl : IsBin n.o) (h : n.Eqv m) (x y : α) : binEval M n x y = binEval M m x y := by
  obtain ⟨h1, h2, h3, h4⟩ := h
  unfold binEval
  rw [← h1]
  split_ifs with g1 g2 g3
  · rfl
  · rfl
  · rfl
  · rw [h4 (Or.inr (Or.inl (by
      rcases hl with h | h | h | h
      · exact absurd h g1
      · exact absurd h g2
      · exact absurd h g3
      · exact h)))]

theorem polyEval_congr {n m : Node} (h : n.Eqv m) (xs : List α) : polyEval M n xs = polyEval M m xs := by
  unfold polyEval
  rw [h.1]

theorem seEval_congr {n m : Node} (hs : n.o = Op.se) (h : n.Eqv m) (x : α) : seEval M n x = seEval M m x := by
  unfold seEval
  rw [h.2.2.2 (Or.inl hs)]

mutual

/-- Equivalent trees evaluate alike with any operations. -/
theorem Tree.Eqv.eval : ∀ {t u : Tree}, t.Eqv u → t.Shape → t.eval M ie temps = u.eval M ie temps
  | .leaf n, u, h, hs => by
    rw [Tree.Eqv] at h
    rw [Tree.Shape] at hs
    obtain ⟨m, rfl, h⟩ := h
    rw [Tree.eval, Tree.eval, leafEval_congr M ie temps hs h]
  | .un n t, u, h, hs => by
    rw [Tree.Eqv] at h
    rw [Tree.Shape] at hs
    obtain ⟨m, t', rfl, h, h'⟩ := h
    rw [Tree.eval, Tree.eval, Tree.Eqv.eval h' hs.2]
    congr 1; funext x
    exact unEval_congr M hs.1 h x
  | .bin n l r, u, h, hs => by
    rw [Tree.Eqv] at h
    rw [Tree.Shape] at hs
    obtain ⟨m, l', r', rfl, h, hl, hr⟩ := h
    rw [Tree.eval, Tree.eval, Tree.Eqv.eval hl hs.2.1, Tree.Eqv.eval hr hs.2.2]
    congr 1; funext x; congr 1; funext y
    exact binEval_congr M hs.1 h x y
  | .poly n f, u, h, hs => by
    rw [Tree.Eqv] at h
    rw [Tree.Shape] at hs
    obtain ⟨m, f', rfl, h, hf⟩ := h
    rw [Tree.eval, Tree.eval, Forest.Eqv.eval hf hs.2.2.2]
    congr 1; funext x
    exact polyEval_congr M h x

theorem Forest.Eqv.eval : ∀ {f g : Forest}, f.Eqv g → f.Shape → f.eval M ie temps = g.eval M ie temps
  | .nil, g, h, _ => by rw [Forest.Eqv] at h; rw [h]
  | .cons se t f, g, h, hs => by
    rw [Forest.Eqv] at h
    rw [Forest.Shape] at hs
    obtain ⟨se', t', f', rfl, h, ht, hf⟩ := h
    rw [Forest.eval, Forest.eval, Tree.Eqv.eval ht hs.2.2.1, Forest.Eqv.eval hf hs.2.2.2]
    simp only [seEval_congr M hs.1 h]

end

end eval

section val

variable {V : Type} [AddCommGroup V] [Module ℚ V] (I : Interp V)

mutual

/-- Equivalent trees have the same value in any algebra. -/
theorem Tree.Eqv.val : ∀ {t u : Tree}, t.Eqv u → u.Good → t.val I = u.val I
  | .leaf n, u, h, hs => by
    rw [Tree.Eqv] at h
    obtain ⟨m, rfl, h1, h2, h3, -⟩ := h
    rw [Tree.Good] at hs
    rw [Tree.val, Tree.val, h1, h2, h3 (by rw [h1]; exact IsLeaf.ne (hs.imp id Or.inr))]
  | .un n t, u, h, hs => by
    rw [Tree.Eqv] at h
    obtain ⟨m, t', rfl, ⟨h1, h2, h3, h4⟩, h'⟩ := h
    rw [Tree.Good] at hs
    have h3 := h3 (by rw [h1]; exact hs.1.ne.2)
    rw [Tree.val, Tree.val, Tree.Eqv.val h' hs.2.2, ← h1, ← h3]
    have hl := hs.1
    rw [← h1] at hl
    split_ifs with g1 g2 g3 g4
    · rfl
    · rfl
    · rfl
    · rfl
    · rw [h4 (Or.inr (Or.inr (by
        rcases hl with h | h | h | h | h
        · exact absurd h g1
        · exact absurd h g2
        · exact absurd h g3
        · exact absurd h g4
        · exact h)))]
  | .bin n l r, u, h, hs => by
    rw [Tree.Eqv] at h
    obtain ⟨m, l', r', rfl, ⟨h1, h2, h3, h4⟩, hl', hr'⟩ := h
    rw [Tree.Good] at hs
    rw [Tree.val, Tree.val, Tree.Eqv.val hl' hs.2.2.1, Tree.Eqv.val hr' hs.2.2.2, ← h1]
    have hl := hs.1
    rw [← h1] at hl
    split_ifs with g1 g2 g3
    · rfl
    · rfl
    · rfl
    · rw [h4 (Or.inr (Or.inl (by
        rcases hl with h | h | h | h
        · exact absurd h g1
        · exact absurd h g2
        · exact absurd h g3
        · exact h)))]
  | .poly n f, u, h, hs => by
    rw [Tree.Eqv] at h
    obtain ⟨m, f', rfl, ⟨h1, -⟩, hf⟩ := h
    rw [Tree.Good] at hs
    rw [Tree.val, Tree.val, Forest.Eqv.vals hf hs.2.2.2, h1]

theorem Forest.Eqv.vals : ∀ {f g : Forest} {P : Rat32 → Prop}, f.Eqv g → g.Good P → f.vals I = g.vals I
  | .nil, g, P, h, _ => by rw [Forest.Eqv] at h; rw [h]
  | .cons se t f, g, P, h, hs => by
    rw [Forest.Eqv] at h
    obtain ⟨se', t', f', rfl, ⟨h1, h2, h3, h4⟩, ht, hf⟩ := h
    rw [Forest.Good] at hs
    rw [Forest.vals, Forest.vals, Tree.Eqv.val ht hs.2.2.2.1, Forest.Eqv.vals hf hs.2.2.2.2,
      h4 (Or.inl (by rw [h1]; exact hs.1))]

end

end val

/-! ## The nodes determine the tree -/

theorem IsLeaf.not_un {o : Nat} (h : IsLeaf o) (h' : IsUn o) : False := by
  unfold IsLeaf at h; unfold IsUn at h'
  simp only [Op.id, Op.cse, Op.czero, Op.rev, Op.pd, Op.comp, Op.grd, Op.sqrt, Op.sin, Op.cos, Op.tan] at h h'; omega

theorem IsLeaf.not_bin {o : Nat} (h : IsLeaf o) (h' : IsBin o) : False := by
  unfold IsLeaf at h; unfold IsBin at h'
  simp only [Op.id, Op.cse, Op.czero, Op.gp, Op.lc, Op.sip, Op.div] at h h'; omega

theorem IsLeaf.not_poly {o : Nat} (h : IsLeaf o) (h' : IsPoly o) : False := by
  unfold IsLeaf at h; unfold IsPoly at h'
  simp only [Op.id, Op.cse, Op.czero, Op.sum, Op.ep] at h h'; omega

theorem IsUn.not_bin {o : Nat} (h : IsUn o) (h' : IsBin o) : False := by
  unfold IsUn at h; unfold IsBin at h'
  simp only [Op.rev, Op.pd, Op.comp, Op.grd, Op.sqrt, Op.sin, Op.cos, Op.tan, Op.gp, Op.lc, Op.sip, Op.div] at h h'; omega

theorem IsUn.not_poly {o : Nat} (h : IsUn o) (h' : IsPoly o) : False := by
  unfold IsUn at h; unfold IsPoly at h'
  simp only [Op.rev, Op.pd, Op.comp, Op.grd, Op.sqrt, Op.sin, Op.cos, Op.tan, Op.sum, Op.ep] at h h'; omega

theorem IsBin.not_poly {o : Nat} (h : IsBin o) (h' : IsPoly o) : False := by
  unfold IsBin at h; unfold IsPoly at h'
  simp only [Op.gp, Op.lc, Op.sip, Op.div, Op.sum, Op.ep] at h h'; omega

/-- Agreement in operation, checksum, count and factors. -/
def Node.Same (a b : Node) : Prop := a.same b = true ∧ (a.o = Op.se ∨ a.o = Op.div ∨ IsFun a.o → a.q = b.q)

theorem Node.Same.eqv {a b : Node} (h : a.Same b) : a.Eqv b := by
  obtain ⟨h1, h2, h3⟩ := same_iff.1 h.1
  exact ⟨h1, h2, fun _ => h3, h.2⟩

/-- Split off the last entries. -/
theorem forall₂_snoc {α β : Type} {P : α → β → Prop} {as : List α} {bs : List β} {a : α} {b : β}
    (h : List.Forall₂ P (as ++ [a]) (bs ++ [b])) : List.Forall₂ P as bs ∧ P a b := by
  have hl : as.length = bs.length := by simpa using h.length_eq
  have h1 := List.forall₂_take as.length h
  have h2 := List.forall₂_drop as.length h
  rw [List.take_left, hl, List.take_left] at h1
  rw [List.drop_left, hl, List.drop_left] at h2
  exact ⟨h1, by simpa using h2⟩

mutual

/-- Postfix forms that agree from the end belong to equivalent trees. -/
theorem eqv_of_post : ∀ {t u : Tree}, t.Shape → u.Shape → ∀ {a b : List Node}, List.Forall₂ Node.Same (a ++ t.post) (b ++ u.post) →
    t.Eqv u ∧ List.Forall₂ Node.Same a b
  | .leaf n, u, ht, hu, a, b, h => by
    rw [Tree.post] at h
    rw [Tree.Shape] at ht
    cases u <;> rw [Tree.post] at h <;> rw [Tree.Shape] at hu
    · obtain ⟨h1, h2⟩ := forall₂_snoc h
      rw [Tree.Eqv]
      exact ⟨⟨_, rfl, h2.eqv⟩, h1⟩
    · rw [← List.append_assoc] at h
      obtain ⟨-, h2⟩ := forall₂_snoc h
      exact (ht.not_un (h2.eqv.1 ▸ hu.1)).elim
    · rw [← List.append_assoc] at h
      obtain ⟨-, h2⟩ := forall₂_snoc h
      exact (ht.not_bin (h2.eqv.1 ▸ hu.1)).elim
    · rw [← List.append_assoc] at h
      obtain ⟨-, h2⟩ := forall₂_snoc h
      exact (ht.not_poly (h2.eqv.1 ▸ hu.1)).elim
  | .un n t, u, ht, hu, a, b, h => by
    rw [Tree.post, ← List.append_assoc] at h
    rw [Tree.Shape] at ht
    cases u <;> rw [Tree.post] at h <;> rw [Tree.Shape] at hu
    · obtain ⟨-, h2⟩ := forall₂_snoc h
      exact (IsLeaf.not_un hu (h2.eqv.1 ▸ ht.1)).elim
    · rw [← List.append_assoc] at h
      obtain ⟨h1, h2⟩ := forall₂_snoc h
      obtain ⟨h3, h4⟩ := eqv_of_post ht.2 hu.2 h1
      rw [Tree.Eqv]
      exact ⟨⟨_, _, rfl, h2.eqv, h3⟩, h4⟩
    · rw [← List.append_assoc] at h
      obtain ⟨-, h2⟩ := forall₂_snoc h
      exact (ht.1.not_bin (h2.eqv.1 ▸ hu.1)).elim
    · rw [← List.append_assoc] at h
      obtain ⟨-, h2⟩ := forall₂_snoc h
      exact (ht.1.not_poly (h2.eqv.1 ▸ hu.1)).elim
  | .bin n l r, u, ht, hu, a, b, h => by
    rw [Tree.post, ← List.append_assoc] at h
    rw [Tree.Shape] at ht
    cases u <;> rw [Tree.post] at h <;> rw [Tree.Shape] at hu
    · obtain ⟨-, h2⟩ := forall₂_snoc h
      exact (IsLeaf.not_bin hu (h2.eqv.1 ▸ ht.1)).elim
    · rw [← List.append_assoc b] at h
      obtain ⟨-, h2⟩ := forall₂_snoc h
      exact (IsUn.not_bin hu.1 (h2.eqv.1 ▸ ht.1)).elim
    · rw [← List.append_assoc b] at h
      obtain ⟨h1, h2⟩ := forall₂_snoc h
      rw [← List.append_assoc, ← List.append_assoc] at h1
      obtain ⟨h3, h4⟩ := eqv_of_post ht.2.2 hu.2.2 h1
      obtain ⟨h5, h6⟩ := eqv_of_post ht.2.1 hu.2.1 h4
      rw [Tree.Eqv]
      exact ⟨⟨_, _, _, rfl, h2.eqv, h5, h3⟩, h6⟩
    · rw [← List.append_assoc b] at h
      obtain ⟨-, h2⟩ := forall₂_snoc h
      exact (ht.1.not_poly (h2.eqv.1 ▸ hu.1)).elim
  | .poly n f, u, ht, hu, a, b, h => by
    rw [Tree.post, ← List.append_assoc] at h
    rw [Tree.Shape] at ht
    cases u <;> rw [Tree.post] at h <;> rw [Tree.Shape] at hu
    · obtain ⟨-, h2⟩ := forall₂_snoc h
      exact (IsLeaf.not_poly hu (h2.eqv.1 ▸ ht.1)).elim
    · rw [← List.append_assoc b] at h
      obtain ⟨-, h2⟩ := forall₂_snoc h
      exact (IsUn.not_poly hu.1 (h2.eqv.1 ▸ ht.1)).elim
    · rw [← List.append_assoc b] at h
      obtain ⟨-, h2⟩ := forall₂_snoc h
      exact (IsBin.not_poly hu.1 (h2.eqv.1 ▸ ht.1)).elim
    · rw [← List.append_assoc b] at h
      obtain ⟨h1, h2⟩ := forall₂_snoc h
      have hex : n.ex = _ := h2.eqv.2.2.1 ht.1.ne.2
      obtain ⟨h3, h4⟩ := eqv_of_posts ht.2.2.2 hu.2.2.2 (by rw [← ht.2.1, hex, hu.2.1]) h1
      rw [Tree.Eqv]
      exact ⟨⟨_, _, rfl, h2.eqv, h3⟩, h4⟩

theorem eqv_of_posts : ∀ {f g : Forest}, f.Shape → g.Shape → f.length = g.length → ∀ {a b : List Node},
    List.Forall₂ Node.Same (a ++ f.post) (b ++ g.post) → f.Eqv g ∧ List.Forall₂ Node.Same a b
  | .nil, g, _, _, hl, a, b, h => by
    cases g with
    | nil =>
      rw [Forest.post, List.append_nil, List.append_nil] at h
      rw [Forest.Eqv]
      exact ⟨rfl, h⟩
    | cons se t f => rw [Forest.length, Forest.length] at hl; omega
  | .cons se t f, g, hf, hg, hl, a, b, h => by
    cases g with
    | nil => rw [Forest.length, Forest.length] at hl; omega
    | cons se' t' f' =>
      rw [Forest.Shape] at hf hg
      rw [Forest.length, Forest.length] at hl
      rw [Forest.post, Forest.post] at h
      have h : List.Forall₂ Node.Same ((a ++ [se] ++ t.post) ++ f.post) ((b ++ [se'] ++ t'.post) ++ f'.post) := by
        simpa using h
      obtain ⟨h1, h2⟩ := eqv_of_posts hf.2.2.2 hg.2.2.2 (by omega) h
      obtain ⟨h3, h4⟩ := eqv_of_post hf.2.2.1 hg.2.2.1 h2
      obtain ⟨h5, h6⟩ := forall₂_snoc h4
      rw [Forest.Eqv]
      exact ⟨⟨_, _, _, rfl, h6.eqv, h3, h1⟩, h5⟩

end

end Gal
