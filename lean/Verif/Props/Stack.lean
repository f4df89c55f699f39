import Verif.Stack

/-!
# Property C27: the stack is last-in first-out

Specification: the contents of a stack is the list of its elements, most recent first.
-/

namespace Gal

open Out

namespace Stk

variable {α : Type}

/-- The stack stores exactly the elements `l`, most recent first, in an array of `cap` entries. -/
structure Holds (s : Stk α) (cap : Nat) (l : List α) : Prop where
  len : s.data.length = cap
  count : s.count = l.length
  le : l.length ≤ cap
  small : cap < 2 ^ 63
  at_ : ∀ i, i < l.length → s.data[i]? = l.reverse[i]?

theorem wsub_of_le {a b : Nat} (h : b ≤ a) (ha : a < 2 ^ 63) : wsub a b = a - b := by
  unfold wsub; omega

theorem Holds.read {s : Stk α} {cap : Nat} {l : List α} (h : s.Holds cap l) {i : Nat} (hi : i < l.length) :
    s.read (l.length - 1 - i) = ok l[i] := by
  unfold Stk.read
  rw [h.at_ _ (by omega), List.getElem?_reverse (by omega), show l.length - 1 - (l.length - 1 - i) = i by omega,
    List.getElem?_eq_getElem hi]

/-- C27: a fresh stack is empty. -/
theorem C27_fresh (d : α) (cap : Nat) (h : cap < 2 ^ 63) : (fresh d cap).Holds cap [] :=
  ⟨by simp [fresh], rfl, Nat.zero_le _, h, fun i hi => absurd hi (Nat.not_lt_zero i)⟩

/-- C27: `push` puts the element on top; it is defined exactly when there is room. -/
theorem C27_push {s : Stk α} {cap : Nat} {l : List α} (h : s.Holds cap l) (x : α) :
    (l.length < cap → ∃ s', s.push x = ok s' ∧ s'.Holds cap (x :: l)) ∧ (l.length = cap → s.push x = .ub) := by
  constructor
  · intro hr
    refine ⟨⟨s.data.set s.count x, s.count + 1⟩, ?_, ?_⟩
    · unfold push; rw [if_pos (by rw [h.len, h.count]; exact hr)]
    · refine ⟨by simp [h.len], by simp [h.count], hr, h.small, ?_⟩
      intro i hi
      simp only [List.length_cons] at hi
      rw [List.reverse_cons, List.getElem?_append]
      by_cases hi' : i = l.length
      · subst hi'
        rw [if_neg (by simp), List.getElem?_set, if_pos h.count, if_pos (by rw [h.len, h.count]; exact hr)]
        simp
      · rw [if_pos (by simp; omega), List.getElem?_set, if_neg (by rw [h.count]; omega)]
        exact h.at_ i (by omega)
  · intro hr
    unfold push; rw [if_neg (by rw [h.len, h.count]; omega)]

/-- C27: `peek()` returns the most recent element and `peek(i)` the `i`-th most recent one, counting from 1. -/
theorem C27_peek {s : Stk α} {cap : Nat} {x : α} {l : List α} (h : s.Holds cap (x :: l)) :
    s.peek = ok x ∧ ∀ i (hi : i < (x :: l).length), s.peekN (i + 1) = ok (x :: l)[i] := by
  have hs := h.small
  have hle := h.le
  have key : ∀ i (hi : i < (x :: l).length), s.peekN (i + 1) = ok (x :: l)[i] := by
    intro i hi
    unfold peekN
    rw [h.count, wsub_of_le (by omega) (by omega), ← h.read hi]
    congr 1
    omega
  exact ⟨key 0 (by simp), key⟩

theorem Holds.drop {s : Stk α} {cap : Nat} {l : List α} (h : s.Holds cap l) (n : Nat) (hn : n ≤ l.length) :
    Holds ⟨s.data, l.length - n⟩ cap (l.drop n) := by
  have hle := h.le
  refine ⟨h.len, by simp, by simp; omega, h.small, ?_⟩
  intro i hi
  simp only [List.length_drop] at hi
  rw [h.at_ i (by omega), List.getElem?_reverse (by omega), List.getElem?_reverse (by simp; omega),
    List.getElem?_drop, List.length_drop]
  congr 1
  omega

/-- C27: `pop(n)` discards the `n` most recent elements and returns the oldest of them. -/
theorem C27_popN {s : Stk α} {cap : Nat} {l : List α} (h : s.Holds cap l) (n : Nat) (hn : n < l.length) :
    ∃ s', s.popN (n + 1) = ok (l[n], s') ∧ s'.Holds cap (l.drop (n + 1)) := by
  have hs := h.small
  have hle := h.le
  refine ⟨⟨s.data, l.length - (n + 1)⟩, ?_, h.drop (n + 1) hn⟩
  unfold popN
  simp only
  rw [h.count, wsub_of_le (by omega) (by omega), show l.length - (n + 1) = l.length - 1 - n by omega, h.read hn, ok_bind]
  rfl

/-- C27: pushing and then `pop(1)` returns the pushed element and restores the previous contents. -/
theorem C27_push_popN {s : Stk α} {cap : Nat} {l : List α} (h : s.Holds cap l) (hr : l.length < cap) (x : α) :
    ∃ s' s'', s.push x = ok s' ∧ s'.popN 1 = ok (x, s'') ∧ s''.Holds cap l := by
  obtain ⟨s', h1, h2⟩ := (C27_push h x).1 hr
  obtain ⟨s'', h3, h4⟩ := C27_popN h2 0 (by simp)
  exact ⟨s', s'', h1, by simpa using h3, by simpa using h4⟩

/-- C27 (part): `pop()` removes the most recent element, provided the array is not full.  Missing: the returned value is
not the removed element, see `C27_pop_false`; on a full stack the call is undefined, see `C27_pop_full`. -/
theorem C27_pop_partial {s : Stk α} {cap : Nat} {x : α} {l : List α} (h : s.Holds cap (x :: l)) (hr : (x :: l).length < cap) :
    ∃ y s', s.pop = ok (y, s') ∧ s'.Holds cap l ∧ s.data[(x :: l).length]? = some y := by
  have hs := h.small
  have hc := h.len
  have hlt : (x :: l).length < s.data.length := by omega
  refine ⟨s.data[(x :: l).length], ⟨s.data, l.length⟩, ?_, ?_, List.getElem?_eq_getElem hlt⟩
  · unfold pop Stk.read
    rw [h.count, List.getElem?_eq_getElem hlt]
    simp only [ok_bind, pure_eq]
    rw [wsub_of_le (by simp) (by omega)]
    rfl
  · simpa using h.drop 1 (by simp)

/-- C27 fails for `pop()`: after pushing `x` onto a fresh stack it returns the default element instead of `x`. -/
theorem C27_pop_false (d x : α) (cap : Nat) (h2 : 2 ≤ cap) (hs : cap < 2 ^ 63) :
    ∃ s' s'', (fresh d cap).push x = ok s' ∧ s'.pop = ok (d, s'') := by
  refine ⟨⟨(List.replicate cap d).set 0 x, 1⟩, ⟨(List.replicate cap d).set 0 x, 0⟩, ?_, ?_⟩
  · unfold push fresh
    rw [if_pos (by simp; omega)]
  · unfold pop Stk.read
    rw [List.getElem?_set, if_neg (by simp), List.getElem?_replicate, if_pos (by simp; omega)]
    simp only [ok_bind, pure_eq]
    rw [wsub_of_le (by omega) (by omega)]

/-- C27 fails for `pop()` on a full stack: the read is outside the array. -/
theorem C27_pop_full {s : Stk α} {cap : Nat} {l : List α} (h : s.Holds cap l) (hf : l.length = cap) : s.pop = .ub := by
  unfold pop Stk.read
  rw [h.count, List.getElem?_eq_none (by rw [h.len]; omega)]
  rfl

/-- The stack 3, 2 on capacity 4. -/
example : ∃ s : Stk Nat, s.Holds 4 [3, 2] ∧ [3, 2].length < 4 ∧ s.peek = ok 3 ∧ s.pop = ok (0, ⟨[2, 3, 0, 0], 1⟩) ∧
    s.popN 2 = ok (2, ⟨[2, 3, 0, 0], 0⟩) :=
  ⟨⟨[2, 3, 0, 0], 2⟩, ⟨rfl, rfl, by decide, by decide, by decide⟩, by decide, by decide, by decide, by decide⟩

end Stk

end Gal
