import Verif.Sort
import Mathlib.Data.List.Forall2
import Mathlib.Data.List.Basic

/-! # Relating outcomes of two computations -/

namespace Gal

open Out

namespace Out

/-- Both undefined, or both defined with the same ghost flag and related results. -/
inductive Rel {α β : Type} (R : α → β → Prop) : Out α → Out β → Prop
  | ub : Rel R .ub .ub
  | val {a : α} {b : β} {l : Bool} (h : R a b) : Rel R (.val a l) (.val b l)

/-- Every defined result satisfies `P`. -/
def All {α : Type} (P : α → Prop) (x : Out α) : Prop := ∀ a l, x = .val a l → P a

variable {α β γ δ : Type}

theorem Rel.ok {R : α → β → Prop} {a : α} {b : β} (h : R a b) : Rel R (Out.ok a) (Out.ok b) := Rel.val h

theorem Rel.bind {R : α → β → Prop} {S : γ → δ → Prop} {x : Out α} {y : Out β} {f : α → Out γ} {g : β → Out δ}
    (h : Rel R x y) (hf : ∀ a b, R a b → Rel S (f a) (g b)) : Rel S (x >>= f) (y >>= g) := by
  cases h with
  | ub => exact Rel.ub
  | @val a b l hab =>
    show Rel S (match f a with | .ub => .ub | .val b l' => .val b (l || l'))
      (match g b with | .ub => .ub | .val b l' => .val b (l || l'))
    have := hf a b hab
    revert this
    generalize f a = u
    generalize g b = v
    intro this
    cases this with
    | ub => exact Rel.ub
    | val h => exact Rel.val h

theorem Rel.mono {R S : α → β → Prop} {x : Out α} {y : Out β} (h : Rel R x y) (hs : ∀ a b, R a b → S a b) :
    Rel S x y := by
  cases h with
  | ub => exact .ub
  | val h => exact .val (hs _ _ h)

theorem Rel.refl {R : α → α → Prop} (hr : ∀ a, R a a) (x : Out α) : Rel R x x := by
  cases x with
  | ub => exact .ub
  | val a l => exact .val (hr a)

theorem Rel.eq (x : Out α) : Rel (· = ·) x x := Rel.refl (fun _ => rfl) x

theorem Rel.and_all {R : α → β → Prop} {Q : β → Prop} {x : Out α} {y : Out β} (h : Rel R x y) (hq : All Q y) :
    Rel (fun a b => R a b ∧ Q b) x y := by
  cases h with
  | ub => exact .ub
  | val h => exact .val ⟨h, hq _ _ rfl⟩

theorem Rel.trans {R : α → β → Prop} {S : β → γ → Prop} {x : Out α} {y : Out β} {z : Out γ} (h : Rel R x y)
    (h' : Rel S y z) : Rel (fun a c => ∃ b, R a b ∧ S b c) x z := by
  cases h with
  | ub => cases h'; exact .ub
  | val h => cases h' with
    | val h' => exact .val ⟨_, h, h'⟩

/-- A functional relation is a map. -/
theorem Rel.map_eq {f : β → α} {x : Out α} {y : Out β} (h : Rel (fun a b => a = f b) x y) : x = f <$> y := by
  cases h with
  | ub => rfl
  | @val a b l h =>
    subst h
    show Out.val (f b) l = Out.bind (Out.val b l) (fun b => Out.ok (f b))
    simp [Out.bind]

@[simp] theorem bind_ok (x : Out α) : (x >>= Out.ok) = x := bind_pure x

theorem Rel.map_right {R : α → β → Prop} {S : α → δ → Prop} {x : Out α} {y : Out β} {g : β → Out δ} (h : Rel R x y)
    (hf : ∀ a b, R a b → Rel S (Out.ok a) (g b)) : Rel S x (y >>= g) := by
  have := Rel.bind h (f := Out.ok) hf
  rwa [bind_ok] at this

theorem Rel.map_left {R : α → β → Prop} {S : γ → β → Prop} {x : Out α} {y : Out β} {f : α → Out γ} (h : Rel R x y)
    (hf : ∀ a b, R a b → Rel S (f a) (Out.ok b)) : Rel S (x >>= f) y := by
  have := Rel.bind h (g := Out.ok) hf
  rwa [bind_ok] at this

theorem Rel.ok_right {R : α → β → Prop} {x : Out α} {b : β} (h : Rel R x (Out.ok b)) : ∃ a, x = Out.ok a ∧ R a b := by
  cases h with
  | val h => exact ⟨_, rfl, h⟩

theorem Rel.ok_left {R : α → β → Prop} {y : Out β} {a : α} (h : Rel R (Out.ok a) y) : ∃ b, y = Out.ok b ∧ R a b := by
  cases h with
  | val h => exact ⟨_, rfl, h⟩

theorem All.ok {P : α → Prop} {a : α} (h : P a) : All P (Out.ok a) := by
  intro b l e
  unfold Out.ok at e
  injection e with e1
  exact e1 ▸ h

theorem All.ub {P : α → Prop} : All P (.ub : Out α) := by intro b l e; cases e

theorem All.of_ok {P : α → Prop} {x : Out α} {a : α} (h : All P x) (e : x = Out.ok a) : P a := h a false e

theorem All.bind {P : α → Prop} {Q : β → Prop} {x : Out α} {f : α → Out β} (h : All P x)
    (hf : ∀ a, P a → All Q (f a)) : All Q (x >>= f) := by
  intro b l e
  cases x with
  | ub => cases e
  | val a l1 =>
    have ha := h a l1 rfl
    change Out.bind _ f = _ at e
    unfold Out.bind at e
    cases hfa : f a with
    | ub => simp [hfa] at e
    | val c l2 =>
      simp [hfa] at e
      exact e.1 ▸ hf a ha c l2 hfa

theorem All.bind' {Q : β → Prop} {x : Out α} {f : α → Out β} (hf : ∀ a, All Q (f a)) : All Q (x >>= f) :=
  All.bind (P := fun _ => True) (fun _ _ _ => trivial) (fun a _ => hf a)

theorem All.mono {P Q : α → Prop} {x : Out α} (h : All P x) (hs : ∀ a, P a → Q a) : All Q x :=
  fun a l e => hs a (h a l e)

theorem All.and {P Q : α → Prop} {x : Out α} (h : All P x) (h' : All Q x) : All (fun a => P a ∧ Q a) x :=
  fun a l e => ⟨h a l e, h' a l e⟩

theorem All.trivial {x : Out α} : All (fun _ => True) x := fun _ _ _ => True.intro

end Out

/-! ## Sorting is a permutation and respects relations -/

variable {α β : Type}

theorem swapAt_all_perm (l : List α) (i j : Nat) : All (·.Perm l) (swapAt l i j) := by
  unfold swapAt getAt
  cases hi' : l[i]? with
  | none => exact All.ub
  | some a' =>
  cases hj' : l[j]? with
  | none => simp; exact All.ub
  | some b' =>
  obtain ⟨hi, rfl⟩ := List.getElem?_eq_some_iff.1 hi'
  obtain ⟨hj, rfl⟩ := List.getElem?_eq_some_iff.1 hj'
  simp only [ok_bind]
  split
  · exact All.ok (.refl _)
  · exact All.ok (List.set_set_perm hi hj)

theorem partLoop_all_perm (less : α → α → Out Bool) (p : α) (n : Nat) :
    ∀ (l : List α) (c it : Nat), All (fun r => r.1.Perm l) (partLoop less p n l c it) := by
  induction n with
  | zero => intro l c it; exact All.ok (.refl _)
  | succ n ih =>
    intro l c it
    unfold partLoop
    refine All.bind' fun x => All.bind' fun b => ?_
    split
    · exact All.bind (swapAt_all_perm _ _ _) fun l' h => (ih l' _ _).mono fun r hr => hr.trans h
    · exact ih _ _ _

theorem sort3_all_perm (less : α → α → Out Bool) (l : List α) (f : Nat) : All (·.Perm l) (sort3 less l f) := by
  unfold sort3
  refine All.bind' fun a => All.bind' fun b => All.bind' fun c => All.bind' fun x => ?_
  have two : ∀ i j k m, All (·.Perm l) (swapAt l i j >>= fun l => swapAt l k m) := fun i j k m =>
    All.bind (swapAt_all_perm _ _ _) fun l' h => (swapAt_all_perm l' _ _).mono fun r hr => hr.trans h
  split
  · refine All.bind' fun y => ?_
    split
    · refine All.bind' fun z => ?_
      split
      · exact swapAt_all_perm _ _ _
      · exact two _ _ _ _
    · exact swapAt_all_perm _ _ _
  · refine All.bind' fun y => ?_
    split
    · exact two _ _ _ _
    · refine All.bind' fun z => ?_
      split
      · exact swapAt_all_perm _ _ _
      · exact All.ok (.refl _)

theorem csort_all_perm (less : α → α → Out Bool) (fuel : Nat) :
    ∀ (l : List α) (f e : Nat), All (·.Perm l) (csort less fuel l f e) := by
  induction fuel with
  | zero => intro l f e; exact All.ub
  | succ fuel ih =>
    intro l f e
    unfold csort
    split
    · exact All.ok (.refl _)
    · split
      · refine All.bind' fun a => All.bind' fun b => All.bind' fun x => ?_
        split
        · exact swapAt_all_perm _ _ _
        · exact All.ok (.refl _)
      · split
        · exact sort3_all_perm _ _ _
        · refine All.bind' fun p => All.bind (partLoop_all_perm _ _ _ _ _ _) fun r h => ?_
          refine All.bind (swapAt_all_perm _ _ _) fun l2 h2 => ?_
          refine All.bind (ih _ _ _) fun l3 h3 => ?_
          exact (ih _ _ _).mono fun r4 h4 => h4.trans (h3.trans (h2.trans h))

theorem sortAll_all_perm (less : α → α → Out Bool) (l : List α) : All (·.Perm l) (sortAll less l) :=
  csort_all_perm _ _ _ _ _

/-- Related lists, the first one behind a fixed prefix. -/
def Shifted (R : α → β → Prop) (pre : List α) (m : List α) (m' : List β) : Prop :=
  ∃ s, m = pre ++ s ∧ List.Forall₂ R s m'

section rel
variable {R : α → β → Prop} {pre : List α}

theorem getAt_rel {m : List α} {m' : List β} (h : Shifted R pre m m') (i : Nat) :
    Out.Rel R (getAt m (pre.length + i)) (getAt m' i) := by
  obtain ⟨s, rfl, h⟩ := h
  unfold getAt
  rw [List.getElem?_append_right (by omega)]
  have : pre.length + i - pre.length = i := by omega
  rw [this]
  have hl := h.length_eq
  by_cases hi : i < s.length
  · rw [List.getElem?_eq_getElem hi, List.getElem?_eq_getElem (hl ▸ hi)]
    exact Rel.ok (h.get hi (hl ▸ hi))
  · rw [List.getElem?_eq_none (by omega), List.getElem?_eq_none (by omega)]
    exact Rel.ub

theorem forall₂_set {s : List α} {m : List β} (h : List.Forall₂ R s m) {a : α} {b : β} (hab : R a b) (i : Nat) :
    List.Forall₂ R (s.set i a) (m.set i b) := by
  induction h generalizing i with
  | nil => simp
  | cons hx hs ih => cases i with
    | zero => exact .cons hab hs
    | succ i => exact .cons hx (ih i)

theorem shifted_set {m : List α} {m' : List β} (h : Shifted R pre m m') {a : α} {b : β} (hab : R a b) (i : Nat) :
    Shifted R pre (m.set (pre.length + i) a) (m'.set i b) := by
  obtain ⟨s, rfl, h⟩ := h
  refine ⟨s.set i a, ?_, forall₂_set h hab i⟩
  rw [List.set_append_right _ _ (by omega)]
  congr 2; omega

theorem swapAt_rel {m : List α} {m' : List β} (h : Shifted R pre m m') (i j : Nat) :
    Out.Rel (Shifted R pre) (swapAt m (pre.length + i) (pre.length + j)) (swapAt m' i j) := by
  unfold swapAt
  refine Rel.bind (getAt_rel h i) fun a a' ha => Rel.bind (getAt_rel h j) fun b b' hb => ?_
  by_cases hij : i = j
  · rw [if_pos hij, if_pos (by omega)]; exact Rel.ok h
  · rw [if_neg hij, if_neg (by omega)]
    exact Rel.ok (shifted_set (shifted_set h hb i) ha j)

variable {less : α → α → Out Bool} {less' : β → β → Out Bool}

theorem partLoop_rel (hl : ∀ x x' y y', R x x' → R y y' → less x y = less' x' y') {p : α} {p' : β} (hp : R p p')
    (n : Nat) : ∀ {m : List α} {m' : List β} (c it : Nat), Shifted R pre m m' →
      Out.Rel (fun r r' => Shifted R pre r.1 r'.1 ∧ r.2 = pre.length + r'.2)
        (partLoop less p n m (pre.length + c) (pre.length + it)) (partLoop less' p' n m' c it) := by
  induction n with
  | zero => intro m m' c it h; exact Rel.ok ⟨h, rfl⟩
  | succ n ih =>
    intro m m' c it h
    unfold partLoop
    refine Rel.bind (getAt_rel h it) fun x x' hx => ?_
    rw [hl _ _ _ _ hx hp]
    refine Rel.bind (Rel.eq _) fun b b' hb => ?_
    subst hb
    split
    · exact Rel.bind (swapAt_rel h c it) fun l l' hll => ih (c + 1) (it + 1) hll
    · exact ih c (it + 1) h

theorem sort3_rel (hl : ∀ x x' y y', R x x' → R y y' → less x y = less' x' y') {m : List α} {m' : List β} (f : Nat)
    (h : Shifted R pre m m') :
    Out.Rel (Shifted R pre) (sort3 less m (pre.length + f)) (sort3 less' m' f) := by
  unfold sort3
  refine Rel.bind (getAt_rel h f) fun a a' ha => ?_
  refine Rel.bind (getAt_rel h (f + 1)) fun b b' hb => ?_
  refine Rel.bind (getAt_rel h (f + 2)) fun c c' hc => ?_
  have s := fun i j => swapAt_rel h i j
  rw [hl _ _ _ _ hb ha, hl _ _ _ _ hc ha, hl _ _ _ _ hc hb]
  refine Rel.bind (Rel.eq _) fun x x' hx => ?_
  subst hx
  split
  · refine Rel.bind (Rel.eq _) fun x x' hx => ?_
    subst hx
    split
    · refine Rel.bind (Rel.eq _) fun x x' hx => ?_
      subst hx
      split
      · exact s f (f + 2)
      · exact Rel.bind (s f (f + 1)) fun l l' hll => swapAt_rel hll (f + 1) (f + 2)
    · exact s f (f + 1)
  · refine Rel.bind (Rel.eq _) fun x x' hx => ?_
    subst hx
    split
    · exact Rel.bind (s f (f + 1)) fun l l' hll => swapAt_rel hll f (f + 2)
    · refine Rel.bind (Rel.eq _) fun x x' hx => ?_
      subst hx
      split
      · exact s (f + 1) (f + 2)
      · exact Rel.ok h

theorem csort_rel (hl : ∀ x x' y y', R x x' → R y y' → less x y = less' x' y') (fuel : Nat) :
    ∀ {m : List α} {m' : List β} (f e : Nat), Shifted R pre m m' →
      Out.Rel (Shifted R pre) (csort less fuel m (pre.length + f) (pre.length + e)) (csort less' fuel m' f e) := by
  induction fuel with
  | zero => intro m m' f e h; exact Rel.ub
  | succ fuel ih =>
    intro m m' f e h
    unfold csort
    have hsub : pre.length + e - (pre.length + f) = e - f := by omega
    rw [hsub]
    split
    · exact Rel.ok h
    · split
      · refine Rel.bind (getAt_rel h f) fun a a' ha => Rel.bind (getAt_rel h (f + 1)) fun b b' hb => ?_
        rw [hl _ _ _ _ hb ha]
        refine Rel.bind (Rel.eq _) fun x x' hx => ?_
        subst hx
        split
        · exact swapAt_rel h f (f + 1)
        · exact Rel.ok h
      · split
        · exact sort3_rel hl f h
        · rename_i h1 h2 h3
          have e1 : pre.length + e - 1 = pre.length + (e - 1) := by omega
          have e2 : pre.length + (e - 1) - (pre.length + f) = e - 1 - f := by omega
          rw [e1, e2]
          refine Rel.bind (getAt_rel h (e - 1)) fun p p' hp => ?_
          refine Rel.bind (partLoop_rel hl hp _ f f h) fun ⟨r1, r2⟩ ⟨r1', r2'⟩ hr => ?_
          obtain ⟨hr1, hr2⟩ := hr
          simp only at hr1 hr2
          subst hr2
          refine Rel.bind (swapAt_rel hr1 (e - 1) r2') fun l l' hll => ?_
          refine Rel.bind (ih f r2' hll) fun l2 l2' hll2 => ?_
          exact ih (r2' + 1) e hll2

end rel

/-- Sorting related lists gives related lists. -/
theorem sortAll_rel {R : α → β → Prop} {less : α → α → Out Bool} {less' : β → β → Out Bool}
    (hl : ∀ x x' y y', R x x' → R y y' → less x y = less' x' y') {m : List α} {m' : List β} (h : List.Forall₂ R m m') :
    Out.Rel (List.Forall₂ R) (sortAll less m) (sortAll less' m') := by
  unfold sortAll
  rw [h.length_eq]
  have := csort_rel (pre := []) hl (m'.length + 1) 0 m'.length (⟨m, rfl, h⟩ : Shifted R [] m m')
  simp only [List.length_nil, Nat.zero_add] at this
  exact this.mono (fun a b ⟨s, e, hs⟩ => by simpa [e] using hs)

end Gal
