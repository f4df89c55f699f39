import Verif.Spec.Tree
import Mathlib.Tactic.Convert

/-!
# Positions of subtrees in the postfix form of a tree
-/

namespace Gal

mutual

/-- `t.At p u`: the nodes of `u` start at position `p` of the postfix form of `t`. -/
def Tree.At : Tree → Nat → Tree → Prop
  | .leaf n, p, u => p = 0 ∧ u = .leaf n
  | .un n t, p, u => (p = 0 ∧ u = .un n t) ∨ t.At p u
  | .bin n l r, p, u => (p = 0 ∧ u = .bin n l r) ∨ l.At p u ∨ (l.post.length ≤ p ∧ r.At (p - l.post.length) u)
  | .poly n f, p, u => (p = 0 ∧ u = .poly n f) ∨ f.At p u

/-- As `Tree.At`, for the operands of a sum or exterior product. -/
def Forest.At : Forest → Nat → Tree → Prop
  | .nil, _, _ => False
  | .cons _ t f, p, u => (1 ≤ p ∧ t.At (p - 1) u) ∨ (1 + t.post.length ≤ p ∧ f.At (p - 1 - t.post.length) u)

end

theorem Tree.post_pos (t : Tree) : 0 < t.post.length := by
  cases t <;> rw [Tree.post] <;> simp <;> omega

theorem Tree.at_zero (t : Tree) : t.At 0 t := by
  cases t <;> rw [Tree.At] <;> simp

mutual

theorem Tree.At.split : ∀ {t : Tree} {p : Nat} {u : Tree}, t.At p u → ∃ a b, t.post = a ++ u.post ++ b ∧ a.length = p
  | .leaf n, p, u, h => by
    rw [Tree.At] at h
    obtain ⟨rfl, rfl⟩ := h
    exact ⟨[], [], by simp, rfl⟩
  | .un n t, p, u, h => by
    rw [Tree.At] at h
    rcases h with ⟨rfl, rfl⟩ | h
    · exact ⟨[], [], by simp, rfl⟩
    · obtain ⟨a, b, e, rfl⟩ := Tree.At.split h
      exact ⟨a, b ++ [n], by rw [Tree.post, e]; simp, rfl⟩
  | .bin n l r, p, u, h => by
    rw [Tree.At] at h
    rcases h with ⟨rfl, rfl⟩ | h | ⟨hp, h⟩
    · exact ⟨[], [], by simp, rfl⟩
    · obtain ⟨a, b, e, rfl⟩ := Tree.At.split h
      exact ⟨a, b ++ r.post ++ [n], by rw [Tree.post, e]; simp, rfl⟩
    · obtain ⟨a, b, e, e'⟩ := Tree.At.split h
      exact ⟨l.post ++ a, b ++ [n], by rw [Tree.post, e]; simp, by rw [List.length_append, e']; omega⟩
  | .poly n f, p, u, h => by
    rw [Tree.At] at h
    rcases h with ⟨rfl, rfl⟩ | h
    · exact ⟨[], [], by simp, rfl⟩
    · obtain ⟨a, b, e, rfl⟩ := Forest.At.split h
      exact ⟨a, b ++ [n], by rw [Tree.post, e]; simp, rfl⟩

theorem Forest.At.split : ∀ {f : Forest} {p : Nat} {u : Tree}, f.At p u → ∃ a b, f.post = a ++ u.post ++ b ∧ a.length = p
  | .nil, p, u, h => by rw [Forest.At] at h; exact h.elim
  | .cons se t f, p, u, h => by
    rw [Forest.At] at h
    rcases h with ⟨hp, h⟩ | ⟨hp, h⟩
    · obtain ⟨a, b, e, e'⟩ := Tree.At.split h
      exact ⟨se :: a, b ++ f.post, by rw [Forest.post, e]; simp, by rw [List.length_cons, e']; omega⟩
    · obtain ⟨a, b, e, e'⟩ := Forest.At.split h
      exact ⟨se :: (t.post ++ a), b, by rw [Forest.post, e]; simp,
        by rw [List.length_cons, List.length_append, e']; omega⟩

end

theorem Tree.At.le {t : Tree} {p : Nat} {u : Tree} (h : t.At p u) : p + u.post.length ≤ t.post.length := by
  obtain ⟨a, b, e, rfl⟩ := h.split
  rw [e]; simp

theorem Forest.At.le {f : Forest} {p : Nat} {u : Tree} (h : f.At p u) : p + u.post.length ≤ f.post.length := by
  obtain ⟨a, b, e, rfl⟩ := h.split
  rw [e]; simp

theorem Forest.At.pos {f : Forest} {p : Nat} {u : Tree} (h : f.At p u) : 0 < p := by
  cases f with
  | nil => rw [Forest.At] at h; exact h.elim
  | cons se t f => rw [Forest.At] at h; omega

/-- The nodes of a subtree. -/
theorem Tree.At.get {t : Tree} {p : Nat} {u : Tree} (h : t.At p u) {j : Nat} (hj : j < u.post.length) :
    t.post[p + j]? = u.post[j]? := by
  obtain ⟨a, b, e, rfl⟩ := h.split
  rw [e, List.append_assoc, List.getElem?_append_right (by omega), List.getElem?_append_left (by omega)]
  congr 1; omega

mutual

/-- Subtrees that overlap are nested. -/
theorem Tree.At.nest : ∀ {T : Tree} {p q : Nat} {t u : Tree}, T.At p t → T.At q u → p ≤ q → q < p + t.post.length →
    t.At (q - p) u ∨ (q = p ∧ t.post.length < u.post.length)
  | .leaf n, p, q, t, u, ht, hu, h1, h2 => by
    rw [Tree.At] at ht hu
    obtain ⟨rfl, rfl⟩ := ht
    obtain ⟨rfl, rfl⟩ := hu
    exact Or.inl (Tree.at_zero _)
  | .un n c, p, q, t, u, ht, hu, h1, h2 => by
    have hu' := hu
    rw [Tree.At] at ht hu
    rcases ht with ⟨rfl, rfl⟩ | ht
    · exact Or.inl (by simpa using hu')
    · rcases hu with ⟨rfl, rfl⟩ | hu
      · have := ht.le
        refine Or.inr ⟨by omega, ?_⟩
        rw [Tree.post]; simp; omega
      · exact Tree.At.nest ht hu h1 h2
  | .bin n l r, p, q, t, u, ht, hu, h1, h2 => by
    have hu' := hu
    rw [Tree.At] at ht hu
    rcases ht with ⟨rfl, rfl⟩ | ht
    · exact Or.inl (by simpa using hu')
    · rcases hu with ⟨rfl, rfl⟩ | hu
      · have h0 : p = 0 := by omega
        subst h0
        refine Or.inr ⟨rfl, ?_⟩
        rw [Tree.post]
        rcases ht with ht | ⟨h3, ht⟩
        · have := ht.le
          simp; omega
        · have := l.post_pos; omega
      · rcases ht with ht | ⟨h3, ht⟩
        · rcases hu with hu | ⟨h4, hu⟩
          · exact Tree.At.nest ht hu h1 h2
          · have := ht.le; omega
        · rcases hu with hu | ⟨h4, hu⟩
          · have := hu.le; have := u.post_pos; omega
          · rcases Tree.At.nest ht hu (by omega) (by omega) with h | ⟨h, h'⟩
            · left; convert h using 1; omega
            · right; exact ⟨by omega, h'⟩
  | .poly n f, p, q, t, u, ht, hu, h1, h2 => by
    have hu' := hu
    rw [Tree.At] at ht hu
    rcases ht with ⟨rfl, rfl⟩ | ht
    · exact Or.inl (by simpa using hu')
    · rcases hu with ⟨rfl, rfl⟩ | hu
      · have := ht.pos; omega
      · exact Forest.At.nest ht hu h1 h2

/-- Subtrees that overlap are nested. -/
theorem Forest.At.nest : ∀ {T : Forest} {p q : Nat} {t u : Tree}, T.At p t → T.At q u → p ≤ q → q < p + t.post.length →
    t.At (q - p) u ∨ (q = p ∧ t.post.length < u.post.length)
  | .nil, p, q, t, u, ht, _, _, _ => by rw [Forest.At] at ht; exact ht.elim
  | .cons se c f, p, q, t, u, ht, hu, h1, h2 => by
    rw [Forest.At] at ht hu
    rcases ht with ⟨h3, ht⟩ | ⟨h3, ht⟩
    · rcases hu with ⟨h4, hu⟩ | ⟨h4, hu⟩
      · rcases Tree.At.nest ht hu (by omega) (by omega) with h | ⟨h, h'⟩
        · left; convert h using 1; omega
        · right; exact ⟨by omega, h'⟩
      · have := ht.le; omega
    · rcases hu with ⟨h4, hu⟩ | ⟨h4, hu⟩
      · have := hu.le; have := u.post_pos; omega
      · rcases Forest.At.nest ht hu (by omega) (by omega) with h | ⟨h, h'⟩
        · left; convert h using 1; omega
        · right; exact ⟨by omega, h'⟩

end

mutual

theorem Tree.At.trans : ∀ {T : Tree} {p q : Nat} {t u : Tree}, T.At p t → t.At q u → T.At (p + q) u
  | .leaf n, p, q, t, u, ht, hu => by
    rw [Tree.At] at ht
    obtain ⟨rfl, rfl⟩ := ht
    simpa using hu
  | .un n c, p, q, t, u, ht, hu => by
    rw [Tree.At] at ht
    rcases ht with ⟨rfl, rfl⟩ | ht
    · simpa using hu
    · rw [Tree.At]; exact Or.inr (Tree.At.trans ht hu)
  | .bin n l r, p, q, t, u, ht, hu => by
    rw [Tree.At] at ht
    rcases ht with ⟨rfl, rfl⟩ | ht | ⟨h, ht⟩
    · simpa using hu
    · rw [Tree.At]; exact Or.inr (Or.inl (Tree.At.trans ht hu))
    · rw [Tree.At]; refine Or.inr (Or.inr ⟨by omega, ?_⟩)
      have := Tree.At.trans ht hu
      convert this using 1; omega
  | .poly n f, p, q, t, u, ht, hu => by
    rw [Tree.At] at ht
    rcases ht with ⟨rfl, rfl⟩ | ht
    · simpa using hu
    · rw [Tree.At]; exact Or.inr (Forest.At.trans ht hu)

theorem Forest.At.trans : ∀ {T : Forest} {p q : Nat} {t u : Tree}, T.At p t → t.At q u → T.At (p + q) u
  | .nil, p, q, t, u, ht, _ => by rw [Forest.At] at ht; exact ht.elim
  | .cons se c f, p, q, t, u, ht, hu => by
    rw [Forest.At] at ht
    rcases ht with ⟨h, ht⟩ | ⟨h, ht⟩
    · rw [Forest.At]; refine Or.inl ⟨by omega, ?_⟩
      have := Tree.At.trans ht hu
      convert this using 1; omega
    · rw [Forest.At]; refine Or.inr ⟨by omega, ?_⟩
      have := Forest.At.trans ht hu
      convert this using 1; omega

end

/-! ## Children -/

theorem Tree.at_un {T : Tree} {p : Nat} {n : Node} {t : Tree} (h : T.At p (.un n t)) : T.At p t := by
  have := h.trans (q := 0) (u := t) (by rw [Tree.At]; exact Or.inr t.at_zero)
  simpa using this

theorem Tree.at_left {T : Tree} {p : Nat} {n : Node} {l r : Tree} (h : T.At p (.bin n l r)) : T.At p l := by
  have := h.trans (q := 0) (u := l) (by rw [Tree.At]; exact Or.inr (Or.inl l.at_zero))
  simpa using this

theorem Tree.at_right {T : Tree} {p : Nat} {n : Node} {l r : Tree} (h : T.At p (.bin n l r)) : T.At (p + l.post.length) r :=
  h.trans (by rw [Tree.At]; exact Or.inr (Or.inr ⟨Nat.le_refl _, by simpa using r.at_zero⟩))

/-- All subtrees of `f` placed at position `p` are subtrees of `T`. -/
def Tree.AtForest (T : Tree) (p : Nat) (f : Forest) : Prop := ∀ q u, f.At q u → T.At (p + q) u

theorem Tree.at_poly {T : Tree} {p : Nat} {n : Node} {f : Forest} (h : T.At p (.poly n f)) : T.AtForest p f :=
  fun _ _ hu => h.trans (by rw [Tree.At]; exact Or.inr hu)

theorem Tree.at_head {T : Tree} {p : Nat} {se : Node} {t : Tree} {f : Forest} (h : T.AtForest p (.cons se t f)) : T.At (p + 1) t :=
  h 1 t (by rw [Forest.At]; exact Or.inl ⟨Nat.le_refl _, t.at_zero⟩)

theorem Tree.at_tail {T : Tree} {p : Nat} {se : Node} {t : Tree} {f : Forest} (h : T.AtForest p (.cons se t f)) :
    T.AtForest (p + 1 + t.post.length) f := by
  intro q u hu
  have := h (1 + t.post.length + q) u (by
    rw [Forest.At]; refine Or.inr ⟨by omega, ?_⟩
    convert hu using 1; omega)
  convert this using 1; omega

/-- A subtree that starts where `un n t` starts and is not longer is `un n t` itself or not longer than `t`. -/
theorem Tree.at_un_cases {T : Tree} {p : Nat} {n : Node} {t u : Tree} (h : T.At p (.un n t)) (hu : T.At p u)
    (hl : u.post.length ≤ t.post.length + 1) : u = .un n t ∨ u.post.length ≤ t.post.length := by
  rcases h.nest hu (Nat.le_refl _) (by have := (Tree.un n t).post_pos; omega) with h | ⟨-, h⟩
  · rw [Nat.sub_self, Tree.At] at h
    rcases h with ⟨-, h⟩ | h
    · exact Or.inl h
    · exact Or.inr (by have := h.le; omega)
  · rw [Tree.post, List.length_append, List.length_singleton] at h; omega

theorem Tree.at_bin_cases {T : Tree} {p : Nat} {n : Node} {l r u : Tree} (h : T.At p (.bin n l r)) (hu : T.At p u)
    (hl : u.post.length ≤ (Tree.bin n l r).post.length) : u = .bin n l r ∨ u.post.length ≤ l.post.length := by
  rcases h.nest hu (Nat.le_refl _) (by have := (Tree.bin n l r).post_pos; omega) with h | ⟨-, h⟩
  · rw [Nat.sub_self, Tree.At] at h
    rcases h with ⟨-, h⟩ | h | ⟨h, -⟩
    · exact Or.inl h
    · exact Or.inr (by have := h.le; omega)
    · have := l.post_pos; omega
  · omega

theorem Tree.at_poly_cases {T : Tree} {p : Nat} {n : Node} {f : Forest} {u : Tree} (h : T.At p (.poly n f)) (hu : T.At p u)
    (hl : u.post.length ≤ (Tree.poly n f).post.length) : u = .poly n f := by
  rcases h.nest hu (Nat.le_refl _) (by have := (Tree.poly n f).post_pos; omega) with h | ⟨-, h⟩
  · rw [Nat.sub_self, Tree.At] at h
    rcases h with ⟨-, h⟩ | h
    · exact h
    · have := h.pos; omega
  · omega

/-- A subtree that starts where the right operand starts is not longer. -/
theorem Tree.at_right_le {T : Tree} {p : Nat} {n : Node} {l r u : Tree} (h : T.At p (.bin n l r)) (hu : T.At (p + l.post.length) u) :
    u.post.length ≤ r.post.length := by
  have hlen : (Tree.bin n l r).post.length = l.post.length + r.post.length + 1 := by rw [Tree.post]; simp [Nat.add_assoc]
  rcases h.nest hu (by omega) (by omega) with h | ⟨h, -⟩
  · rw [Nat.add_sub_cancel_left, Tree.At] at h
    rcases h with ⟨h, -⟩ | h | ⟨-, h⟩
    · have := l.post_pos; omega
    · have := h.le; have := u.post_pos; omega
    · have := h.le; omega
  · have := l.post_pos; omega

end Gal
