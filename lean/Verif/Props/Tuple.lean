import Verif.Tuple
import Mathlib.Data.List.Basic

/-!
# Property C28: tuples are sequences
-/

namespace Gal

namespace Tup

variable {α β : Type}

theorem mapM_some {f : Nat → Option α} {l : List Nat} {g : Nat → α} (h : ∀ i ∈ l, f i = some (g i)) :
    l.mapM f = some (l.map g) := by
  induction l with
  | nil => rfl
  | cons i l ih =>
    rw [List.mapM_cons, h i (by simp), ih (fun j hj => h j (by simp [hj]))]
    rfl

theorem gather_eq (t : List α) (f : Nat → Nat) (n : Nat) (r : List α) (hn : r.length = n)
    (h : ∀ i (hi : i < n), t[f i]? = r[i]?) : gather t f n = some r := by
  unfold gather
  rcases r with _ | ⟨d, r'⟩
  · subst hn; rfl
  · rw [mapM_some (g := fun i => (d :: r').getD i d)]
    · congr 1
      apply List.ext_getElem
      · simp [← hn]
      · intro i h1 h2
        simp only [List.getElem_map, List.getElem_range]
        rw [List.getD_eq_getElem?_getD, List.getElem?_eq_getElem h2]
        rfl
    · intro i hi
      have hi' := List.mem_range.1 hi
      unfold get
      rw [h i hi', List.getElem?_eq_getElem (by omega)]; simp [List.getD_eq_getElem?_getD, List.getElem?_eq_getElem (show i < (d :: r').length by omega)]

theorem copyAt_spec (t : List α) (shift : Nat) : ∀ (k : Nat) (out : List α), k ≤ t.length → out.length = t.length + 1 →
    shift ≤ 1 → ∃ o, copyAt t shift out ((List.range t.length).drop k) = some o ∧ o.length = t.length + 1 ∧
      ∀ j, o[j]? = if k + shift ≤ j ∧ j < t.length + shift then t[j - shift]? else out[j]? := by
  intro k
  induction hd : t.length - k generalizing k with
  | zero =>
    intro out hk hl _
    have : k = t.length := by omega
    subst this
    refine ⟨out, ?_, hl, ?_⟩
    · rw [List.drop_eq_nil_of_le (by simp)]; rfl
    · intro j; rw [if_neg (by omega)]
  | succ n ih =>
    intro out hk hl hs
    have hk' : k < t.length := by omega
    rw [List.drop_eq_getElem_cons (by simpa using hk')]
    simp only [List.getElem_range, copyAt]
    unfold get set
    rw [List.getElem?_eq_getElem hk']
    simp only [Option.bind_eq_bind, Option.bind_some]
    rw [if_pos (by omega)]
    obtain ⟨o, h1, h2, h3⟩ := ih (k + 1) (by omega) (out.set (k + shift) t[k]) (by omega) (by simp [hl]) hs
    refine ⟨o, by simpa using h1, h2, ?_⟩
    intro j
    rw [h3 j]
    by_cases hj : k + 1 + shift ≤ j ∧ j < t.length + shift
    · rw [if_pos hj, if_pos (by omega)]
    · rw [if_neg hj, List.getElem?_set]
      by_cases hj2 : k + shift = j
      · subst hj2
        rw [if_pos rfl, if_pos (by omega), if_pos (by omega), Nat.add_sub_cancel, List.getElem?_eq_getElem hk']
      · rw [if_neg hj2, if_neg (by omega)]

/-- C28: `push` adds at the front. -/
theorem C28_push [Inhabited α] (t : List α) (v : α) : push t v = some (v :: t) := by
  unfold push
  have h0 : set (List.replicate (t.length + 1) default) 0 v = some ((List.replicate (t.length + 1) default).set 0 v) := by
    unfold set; rw [if_pos (by simp)]
  rw [h0]
  simp only [Option.bind_eq_bind, Option.bind_some]
  obtain ⟨o, h1, h2, h3⟩ := copyAt_spec t 1 0 ((List.replicate (t.length + 1) default).set 0 v) (Nat.zero_le _) (by simp) (Nat.le_refl 1)
  rw [List.drop_zero] at h1
  rw [h1]
  congr 1
  apply List.ext_getElem?
  intro j
  rw [h3 j]
  cases j with
  | zero => rw [if_neg (by omega), List.getElem?_set, if_pos rfl, if_pos (by simp)]; simp
  | succ j =>
    by_cases hj : j < t.length
    · rw [if_pos (by omega)]; simp
    · rw [if_neg (by omega), List.getElem?_eq_none (by simp; omega), List.getElem?_eq_none (by simp; omega)]

/-- C28: `append` adds at the end. -/
theorem C28_append [Inhabited α] (t : List α) (v : α) : append t v = some (t ++ [v]) := by
  unfold append
  have h0 : set (List.replicate (t.length + 1) default) t.length v =
      some ((List.replicate (t.length + 1) default).set t.length v) := by
    unfold set; rw [if_pos (by simp)]
  rw [h0]
  simp only [Option.bind_eq_bind, Option.bind_some]
  obtain ⟨o, h1, h2, h3⟩ := copyAt_spec t 0 0 ((List.replicate (t.length + 1) default).set t.length v) (Nat.zero_le _)
    (by simp) (by omega)
  rw [List.drop_zero] at h1
  rw [h1]
  congr 1
  apply List.ext_getElem?
  intro j
  rw [h3 j]
  by_cases hj : j < t.length
  · rw [if_pos (by omega), List.getElem?_append_left hj]; simp
  · rw [if_neg (by omega), List.getElem?_append_right (by omega), List.getElem?_set]
    by_cases hj2 : t.length = j
    · subst hj2; simp
    · rw [if_neg hj2, List.getElem?_eq_none (by simp; omega), List.getElem?_eq_none (by simp; omega)]

/-- C28: `pop` returns the front element and the rest; it does not compile on the empty tuple. -/
theorem C28_pop (t : List α) : pop t = (match t with | [] => none | x :: l => some (x, l)) := by
  rcases t with _ | ⟨x, l⟩
  · rfl
  · unfold pop
    rw [if_neg (by simp)]
    rcases l with _ | ⟨y, l⟩
    · rfl
    · rw [if_neg (by simp), gather_eq (r := y :: l) _ _ _ (by simp)]
      · rfl
      · intro i _
        rw [Nat.add_comm 1 i, List.getElem?_cons_succ]

/-- C28: `pop` undoes `push`. -/
theorem C28_push_pop [Inhabited α] (t : List α) (v : α) : ((push t v).bind pop) = some (v, t) := by
  rw [C28_push, Option.bind_some, C28_pop]

theorem splitN_eq (t : List α) (i n : Nat) (hi : i ≠ 0) (h : i + n ≤ t.length) :
    splitN t i n = some (t.take i, (t.drop i).take n) := by
  unfold splitN
  rw [if_neg hi]
  have hf : gather t (fun j => j) i = some (t.take i) := by
    apply gather_eq
    · simp; omega
    · intro j hj; rw [List.getElem?_take, if_pos hj]
  have hs : gather t (fun j => i + j) n = some ((t.drop i).take n) := by
    apply gather_eq
    · simp; omega
    · intro j hj; rw [List.getElem?_take, if_pos hj, List.getElem?_drop]
  by_cases hn : n = 0
  · subst hn; rw [if_pos rfl, hf]; simp
  · rw [if_neg hn, hf, hs]; rfl

/-- C28 (part): `split<I>` separates the first `I` elements from the rest, for `0 < I ≤ size`.  Missing: `I = 0` loses
every element, see `C28_split_zero`. -/
theorem C28_split_partial (t : List α) (i : Nat) (h0 : 0 < i) (hi : i ≤ t.length) :
    split t i = some (t.take i, t.drop i) ∧ t.take i ++ t.drop i = t := by
  refine ⟨?_, List.take_append_drop i t⟩
  unfold split
  rw [if_neg (by omega), splitN_eq t i _ (by omega) (by omega), List.take_of_length_le (l := t.drop i) (by simp)]

/-- C28 fails for `split<0>`: both parts are empty whatever the tuple. -/
theorem C28_split_zero (t : List α) : split t 0 = some ([], []) := by
  unfold split; rw [if_neg (by omega)]; rfl

/-- C28 fails for `split_drop<I>`, which should omit the element at `I`: it omits the last element (and for `I = 0`, every
element). -/
theorem C28_split_drop_false (t : List α) (i : Nat) (hi : i < t.length) :
    splitDrop t i = some (if i = 0 then ([], []) else (t.take i, (t.drop i).dropLast)) := by
  unfold splitDrop
  rw [if_neg (by omega)]
  by_cases h : i = 0
  · subst h; rw [if_pos rfl]; rfl
  · rw [if_neg h, splitN_eq t i _ h (by omega), List.dropLast_eq_take, List.length_drop]

/-- C28 (part): `split_drop<I>` omits the element at `I` when that is the last of at least two.  Missing: every other
index, see `C28_split_drop_false`. -/
theorem C28_split_drop_partial (t : List α) (x y : α) : splitDrop (y :: t ++ [x]) (t.length + 1) = some (y :: t, []) := by
  rw [C28_split_drop_false _ _ (by simp), if_neg (by omega)]
  simp

theorem find_go (p : α → Bool) (t : List α) : ∀ (fuel i : Nat), i + fuel = t.length →
    find p t fuel i = ((t.drop i).findIdx? p).map (· + i) := by
  intro fuel
  induction fuel with
  | zero => intro i h; rw [List.drop_eq_nil_of_le (by omega)]; rfl
  | succ n ih =>
    intro i h
    unfold find get
    have hi : i < t.length := by omega
    rw [List.getElem?_eq_getElem hi, List.drop_eq_getElem_cons hi, List.findIdx?_cons]
    simp only [Option.bind_eq_bind, Option.bind_some]
    by_cases hp : p t[i] = true
    · simp [hp]
    · rw [if_neg hp, if_neg hp]
      by_cases hl : i + 1 < t.length
      · rw [if_pos hl, ih (i + 1) (by omega)]
        simp [Option.map_map, Function.comp_def, Nat.add_assoc, Nat.add_comm 1 i]
      · rw [if_neg hl, List.drop_eq_nil_of_le (by omega)]; rfl

/-- C28: `find_t` returns the first match, and does not compile without one. -/
theorem C28_find (p : α → Bool) (t : List α) : find p t t.length 0 = t.findIdx? p := by
  rw [find_go p t t.length 0 (by omega)]
  simp

/-- C28 fails for `split_at_type`, which should omit the first element of the type: the position is the right one, but it is passed to
`split_drop`. -/
theorem C28_split_at_type_false (p : α → Bool) (t : List α) :
    splitAtType p t = (t.findIdx? p).map fun i => if i = 0 then ([], []) else (t.take i, (t.drop i).dropLast) := by
  unfold splitAtType
  rw [C28_find]
  cases h : t.findIdx? p with
  | none => rfl
  | some i =>
    have hi : i < t.length := by
      obtain ⟨h, -⟩ := List.findIdx?_eq_some_iff_findIdx_eq.1 h
      exact h
    show splitDrop t i = _
    rw [C28_split_drop_false t i hi]
    rfl

example : splitAtType (· == 6) [5, 6, 7, 8] = some ([5], [6, 7]) := by decide

/-- C28: `apply` passes the elements in order. -/
theorem C28_apply (t : List α) : applyArgs t = some t :=
  gather_eq t _ _ t rfl fun _ _ => rfl

/-- C28: `apply_reverse` passes the elements in reverse order. -/
theorem C28_apply_reverse (t : List α) : applyReverseArgs t = some t.reverse := by
  apply gather_eq
  · simp
  · intro i hi
    rw [List.getElem?_reverse hi]
    congr 1
    omega

/-- C28: `get<I>` after `set<J>`. -/
theorem C28_set_get (t : List α) (i j : Nat) (v : α) (hi : i < t.length) :
    ∃ t', set t i v = some t' ∧ t'.length = t.length ∧ get t' j = if i = j then some v else get t j := by
  refine ⟨t.set i v, by unfold set; rw [if_pos hi], by simp, ?_⟩
  unfold get
  rw [List.getElem?_set]
  by_cases h : i = j
  · rw [if_pos h, if_pos h, if_pos (by omega)]
  · rw [if_neg h, if_neg h]

theorem mutateAt_spec (f : α → α) (l : List α) : ∀ (pre : List α),
    mutateAt f (pre ++ l) ((List.range l.length).map (pre.length + ·)) = some (pre ++ l.map f) := by
  induction l with
  | nil => intro pre; simp [mutateAt]
  | cons x l ih =>
    intro pre
    rw [List.length_cons, List.range_succ_eq_map, List.map_cons, mutateAt]
    unfold get set
    simp only [Nat.add_zero, List.map_map]
    rw [List.getElem?_append_right (Nat.le_refl _)]
    simp only [Nat.sub_self, List.getElem?_cons_zero, Option.bind_eq_bind, Option.bind_some]
    rw [if_pos (by simp), Option.bind_some, List.set_append_right _ _ (Nat.le_refl _)]
    simp only [Nat.sub_self, List.set_cons_zero]
    have := ih (pre ++ [f x])
    simp only [List.append_assoc, List.singleton_append, List.length_append, List.length_singleton] at this
    rw [List.map_cons, ← this]
    congr 1
    apply List.map_congr_left
    intro i _
    simp only [Function.comp_apply]
    omega

/-- C28: `mutate` replaces every element by its image. -/
theorem C28_mutate (f : α → α) (t : List α) : mutate f t = some (t.map f) := by
  have := mutateAt_spec f t []
  simpa [mutate] using this

example : 0 < 2 ∧ 2 ≤ [5, 6, 7].length ∧ split [5, 6, 7] 2 = some ([5, 6], [7]) ∧
    splitDrop [5, 6, 7] 1 = some ([5], [6]) ∧ push [5, 6] 7 = some [7, 5, 6] := by decide

end Tup

end Gal
