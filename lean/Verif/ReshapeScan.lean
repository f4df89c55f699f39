import Verif.Reshape
import Verif.Subtree
import Verif.Spec.Program
import Mathlib.Data.List.Forall2
import Mathlib.Order.Basic

/-!
# The first loop of `rpn_reshape`

The loop keeps two facts: every reference it has written stands for a subtree that has, node by node, the same operations, checksums and
counts as the subtree recorded in the table; and the stack of offsets holds the starts of the pending operands.  Reference counts play
no part in this.
-/

namespace Gal

open Out

/-- The recorded ranges. -/
def ranges (known : List Cse) : List (Nat × Nat) := known.map fun c => (c.offset, c.count)

/-- The postfix forms agree in operations, checksums and counts. -/
def SamePost (u v : Tree) : Prop := List.Forall₂ (fun a b => a.same b = true) u.post v.post

theorem same_iff {a b : Node} : a.same b = true ↔ a.o = b.o ∧ a.checksum = b.checksum ∧ a.ex = b.ex := by
  simp [Node.same, and_assoc]

theorem same_refl (a : Node) : a.same a = true := by simp [same_iff]

theorem same_symm {a b : Node} (h : a.same b = true) : b.same a = true := by
  rw [same_iff] at h ⊢; exact ⟨h.1.symm, h.2.1.symm, h.2.2.symm⟩

theorem same_trans {a b c : Node} (h : a.same b = true) (h' : b.same c = true) : a.same c = true := by
  rw [same_iff] at h h' ⊢; exact ⟨h.1.trans h'.1, h.2.1.trans h'.2.1, h.2.2.trans h'.2.2⟩

theorem SamePost.length {u v : Tree} (h : SamePost u v) : u.post.length = v.post.length := List.Forall₂.length_eq h

theorem SamePost.get {u v : Tree} (h : SamePost u v) {j : Nat} {a b : Node} (ha : u.post[j]? = some a) (hb : v.post[j]? = some b) :
    a.same b = true := by
  rw [List.getElem?_eq_some_iff] at ha hb
  obtain ⟨h1, rfl⟩ := ha
  obtain ⟨h2, rfl⟩ := hb
  exact (List.forall₂_iff_get.1 h).2 j h1 h2

/-- The node `n` at position `p` is a reference to a recorded range that lies before it or has an index below `i`. -/
def IsRef (T : Tree) (kr : List (Nat × Nat)) (i p : Nat) (n : Node) : Prop :=
  n.o = Op.cse ∧ ∃ u v off, T.At p u ∧ n.checksum = p + u.post.length ∧ kr[n.ex]? = some (off, u.post.length) ∧ T.At off v ∧
    SamePost v u ∧ (off + u.post.length ≤ p ∨ n.ex < i)

/-- Every node is the original one or a reference. -/
def Flat (T : Tree) (nodes : List Node) (kr : List (Nat × Nat)) (i : Nat) : Prop :=
  ∀ p n, nodes[p]? = some n → p < T.post.length → T.post[p]? = some n ∨ IsRef T kr i p n

/-- What the first loop keeps when it has reached position `i`. -/
structure ScanInv (T : Tree) (nodes : List Node) (kr : List (Nat × Nat)) (i : Nat) : Prop where
  flat : Flat T nodes kr 0
  pad : ∀ p n, T.post.length ≤ p → nodes[p]? = some n → n.o ≠ Op.cse
  later : ∀ p, i ≤ p → p < T.post.length → nodes[p]? = T.post[p]?
  len : T.post.length ≤ nodes.length
  ends : ∀ x ∈ kr, x.1 + x.2 ≤ i
  sorted : kr.Pairwise fun a b => a.1 + a.2 < b.1 + b.2
  sub : ∀ x ∈ kr, ∃ u, T.At x.1 u ∧ u.post.length = x.2

/-- The original expression has no references. -/
def Tree.NoRef (T : Tree) : Prop := ∀ n ∈ T.post, n.o ≠ Op.cse

/-! ## Comparison -/

theorem atO_ok {α : Type} {l : List α} {i : Nat} {x : α} : atO l i = ok x ↔ l[i]? = some x := by
  unfold atO
  cases h : l[i]? <;> simp

section compare

variable {T : Tree} {nodes : List Node} {known : List Cse}

theorem flat_cse (hT : T.NoRef) {i : Nat} (hf : Flat T nodes (ranges known) i) (hpad : ∀ p n, T.post.length ≤ p → nodes[p]? = some n → n.o ≠ Op.cse)
    {p : Nat} {n : Node} (hn : nodes[p]? = some n) (hc : n.o = Op.cse) : IsRef T (ranges known) i p n := by
  by_cases hp : p < T.post.length
  · rcases hf p n hn hp with h | h
    · exact absurd hc (hT n (List.mem_of_getElem? h))
    · exact h
  · exact absurd hc (hpad p n (by omega) hn)

theorem chase_same (hT : T.NoRef) {i : Nat} (hf : Flat T nodes (ranges known) i)
    (hpad : ∀ p n, T.post.length ≤ p → nodes[p]? = some n → n.o ≠ Op.cse) :
    ∀ {fuel p : Nat} {n n' m : Node}, nodes[p]? = some n → chase known nodes fuel n = ok n' → T.post[p]? = some m → m.same n' = true
  | 0, p, n, n', m, _, h, _ => by simp [chase] at h
  | fuel + 1, p, n, n', m, hn, h, hm => by
    rw [chase] at h
    split at h
    · rename_i hc
      obtain ⟨-, u, v, off, hu, -, hk, hv, hs, -⟩ := flat_cse hT hf hpad hn hc
      simp only [bind_eq_ok, atO_ok] at h
      obtain ⟨c, hc', n2, hn2, h⟩ := h
      have hoff : c.offset = off := by
        rw [ranges, List.getElem?_map, hc'] at hk
        simp only [Option.map_some, Option.some.injEq, Prod.mk.injEq] at hk
        exact hk.1
      rw [hoff] at hn2
      have hpos := u.post_pos
      obtain ⟨m', hm'⟩ : ∃ m', v.post[0]? = some m' := ⟨_, List.getElem?_eq_getElem (by rw [hs.length]; exact hpos)⟩
      have h1 : T.post[off]? = some m' := by
        have := hv.get (j := 0) (by rw [hs.length]; exact hpos)
        rw [Nat.add_zero] at this; rw [this, hm']
      have h2 : u.post[0]? = some m := by
        have := hu.get (j := 0) hpos
        rw [Nat.add_zero] at this; rw [← this, hm]
      exact same_trans (same_symm (hs.get hm' h2)) (chase_same hT hf hpad hn2 h h1)
    · rename_i hc
      rw [ok_inj] at h; subst h
      have hp : p < T.post.length := (List.getElem?_eq_some_iff.1 hm).1
      rcases hf p n hn hp with h | h
      · rw [hm] at h; injection h with h; rw [h]; exact same_refl _
      · exact absurd h.1 hc

/-- The original nodes at two offsets agree up to a length. -/
def AgreeUpTo (T : Tree) (lo ro n : Nat) : Prop :=
  ∀ j < n, ∀ a b, T.post[lo + j]? = some a → T.post[ro + j]? = some b → a.same b = true

theorem compareLoop_sound (hT : T.NoRef) {k : Nat} (hf : Flat T nodes (ranges known) k)
    (hpad : ∀ p n, T.post.length ≤ p → nodes[p]? = some n → n.o ≠ Op.cse) {lo ro count : Nat} :
    ∀ {fuel i : Nat}, compareLoop known nodes lo ro count fuel i = ok true → AgreeUpTo T lo ro i → AgreeUpTo T lo ro count
  | 0, i, h, ha => by
    rw [compareLoop] at h
    split at h
    · rename_i e; rwa [← e]
    · simp at h
  | fuel + 1, i, h, ha => by
    rw [compareLoop] at h
    split at h
    · rename_i e; rwa [← e]
    · simp only [bind_eq_ok, atO_ok] at h
      obtain ⟨l, hl, r, hr, h⟩ := h
      split at h
      · rename_i hc
        split at h
        · rename_i hex
          split at h
          · simp at h
          · rename_i hlo
            obtain ⟨-, u, v, off, hu, hck, hk, hv, hs, -⟩ := flat_cse hT hf hpad hl hc.1
            obtain ⟨-, u', v', off', hu', hck', hk', hv', hs', -⟩ := flat_cse hT hf hpad hr hc.2
            rw [← hex, hk] at hk'
            injection hk' with hk'
            injection hk' with e1 e2
            subst e1
            refine compareLoop_sound hT hf hpad h ?_
            intro j hj a b hja hjb
            by_cases hji : j < i
            · exact ha j hji a b hja hjb
            · have hj1 : j - i < u.post.length := by omega
              have ga := hu.get hj1
              have gb := hu'.get (j := j - i) (by omega)
              rw [show lo + i + (j - i) = lo + j by omega, hja] at ga
              rw [show ro + i + (j - i) = ro + j by omega, hjb] at gb
              have hlv := hs.length
              obtain ⟨c, hc⟩ : ∃ c, v.post[j - i]? = some c := ⟨_, List.getElem?_eq_getElem (by omega)⟩
              have hlv' := hs'.length
              obtain ⟨c', hc'⟩ : ∃ c', v'.post[j - i]? = some c' := ⟨_, List.getElem?_eq_getElem (by omega)⟩
              have e3 := hv.get (j := j - i) (by omega)
              have e4 := hv'.get (j := j - i) (by omega)
              rw [hc] at e3
              rw [hc', e3] at e4
              injection e4 with e4
              subst e4
              exact same_trans (same_symm (hs.get hc ga.symm)) (hs'.get hc' gb.symm)
        · simp at h
      · simp only [bind_eq_ok] at h
        obtain ⟨l', hl', r', hr', h⟩ := h
        split at h
        · rename_i hsm
          refine compareLoop_sound hT hf hpad h ?_
          intro j hj a b hja hjb
          by_cases hji : j < i
          · exact ha j hji a b hja hjb
          · have : j = i := by omega
            subst this
            exact same_trans (chase_same hT hf hpad hl hl' hja)
              (same_trans hsm (same_symm (chase_same hT hf hpad hr hr' hjb)))
        · simp at h

theorem agree_samePost {lo ro : Nat} {u v : Tree} (hu : T.At lo u) (hv : T.At ro v) (hl : u.post.length = v.post.length)
    (h : AgreeUpTo T lo ro u.post.length) : SamePost u v := by
  rw [SamePost, List.forall₂_iff_get]
  refine ⟨hl, fun j h1 h2 => ?_⟩
  have ga := hu.get h1
  have gb := hv.get h2
  rw [List.getElem?_eq_getElem h1] at ga
  rw [List.getElem?_eq_getElem h2] at gb
  exact h j h1 _ _ ga gb

theorem findSe_sound (next : Cse) : ∀ {ks : List Cse} {i j : Nat}, findSe known nodes next i ks = ok (some j) →
    ∃ c, i ≤ j ∧ ks[j - i]? = some c ∧ compareSe known nodes c next = ok true
  | [], i, j, h => by simp [findSe] at h
  | c :: ks, i, j, h => by
    rw [findSe, bind_eq_ok] at h
    obtain ⟨b, hb, h⟩ := h
    split at h
    · rename_i hbt
      rw [pure_eq, ok_inj, Option.some.injEq] at h
      subst h
      exact ⟨c, by omega, by simp, by rw [hb, hbt]⟩
    · obtain ⟨c', h1, h2, h3⟩ := findSe_sound next h
      refine ⟨c', by omega, ?_, h3⟩
      rw [show j - i = (j - (i + 1)) + 1 by omega]
      simpa using h2

end compare

/-! ## Recording a subexpression -/

theorem register_ranges (hT : T.NoRef) {nodes : List Node} {known known' : List Cse} {i cap crc off k : Nat} {req : Bool} {u : Tree}
    (H : ScanInv T nodes (ranges known) i) (hu : T.At off u) (hl : off + u.post.length = i + 1)
    (h : registerSe cap nodes known crc off (i - off + 1) req = ok (known', k)) :
    (k = 0 ∧ ranges known' = ranges known ++ [(off, u.post.length)]) ∨
      (0 < k ∧ ranges known' = ranges known ∧
        ∃ o v, (ranges known)[k - 1]? = some (o, u.post.length) ∧ T.At o v ∧ SamePost v u ∧ o + u.post.length ≤ off) := by
  have hpos := u.post_pos
  have hcount : i - off + 1 = u.post.length := by omega
  unfold registerSe at h
  simp only [bind_eq_ok] at h
  obtain ⟨f, hf, h⟩ := h
  cases f with
  | none =>
    dsimp only at h
    split at h
    · rw [pure_eq, ok_inj, Prod.mk.injEq] at h
      obtain ⟨rfl, rfl⟩ := h
      left
      refine ⟨rfl, ?_⟩
      rw [ranges, List.map_append, List.map_singleton, ← hcount]
      rfl
    · simp at h
  | some j =>
    simp only [bind_eq_ok, atO_ok, pure_eq, ok_inj, Prod.mk.injEq] at h
    obtain ⟨c, hc, rfl, rfl⟩ := h
    obtain ⟨c', -, hc', hcmp⟩ := findSe_sound _ hf
    rw [Nat.sub_zero, hc] at hc'
    injection hc' with hc'
    subst hc'
    unfold compareSe at hcmp
    split at hcmp
    · simp at hcmp
    · rename_i hne
      dsimp only at hne hcmp
      rw [not_or, not_not, not_not] at hne
      have hr : (ranges known)[j]? = some (c.offset, c.count) := by rw [ranges, List.getElem?_map, hc]; rfl
      obtain ⟨v, hv, hvl⟩ := H.sub _ (List.mem_of_getElem? hr)
      dsimp only at hv hvl
      have hlen : v.post.length = u.post.length := by rw [hvl, hne.2, hcount]
      have hend := H.ends _ (List.mem_of_getElem? hr)
      dsimp only at hend
      right
      refine ⟨Nat.succ_pos _, ?_, c.offset, v, ?_, hv, ?_, ?_⟩
      · rw [ranges, ranges, List.map_set]
        dsimp only
        refine List.ext_getElem? fun m => ?_
        rw [List.getElem?_set]
        split
        · rename_i e; subst e
          rw [List.getElem?_map, hc]
          have := (List.getElem?_eq_some_iff.1 hc).1
          simp [this]
        · rfl
      · rw [Nat.add_sub_cancel, hr, hne.2, hcount]
      · refine agree_samePost hv hu hlen ?_
        have := compareLoop_sound hT H.flat H.pad hcmp (fun j hj => absurd hj (by omega))
        rw [hvl]; exact this
      · by_contra hcon
        rcases Nat.le_total c.offset off with hle | hle
        · rcases hv.nest hu hle (by omega) with h1 | ⟨-, h1⟩
          · have := h1.le; omega
          · omega
        · rcases hu.nest hv hle (by omega) with h1 | ⟨-, h1⟩
          · have := h1.le; omega
          · omega

theorem setRef_ok {nodes nodes' : List Node} {off stop k : Nat} (h : setRef nodes off stop k = ok nodes') :
    ∃ n, nodes[off]? = some n ∧ nodes' = nodes.set off { n with o := Op.cse, checksum := stop, ex := k } := by
  unfold setRef at h
  simp only [bind_eq_ok, atO_ok, pure_eq, ok_inj] at h
  obtain ⟨n, hn, rfl⟩ := h
  exact ⟨n, hn, rfl⟩

theorem IsRef.append {T : Tree} {kr : List (Nat × Nat)} {i p : Nat} {n : Node} (h : IsRef T kr i p n) (x : List (Nat × Nat)) :
    IsRef T (kr ++ x) i p n := by
  obtain ⟨h0, u, v, off, h1, h2, h3, h4⟩ := h
  refine ⟨h0, u, v, off, h1, h2, ?_, h4⟩
  rw [List.getElem?_append_left (List.getElem?_eq_some_iff.1 h3).1, h3]

theorem IsRef.mono {T : Tree} {kr : List (Nat × Nat)} {i j p : Nat} {n : Node} (h : IsRef T kr i p n) (hij : i ≤ j) :
    IsRef T kr j p n := by
  obtain ⟨h0, u, v, off, h1, h2, h3, h4, h5, h6⟩ := h
  exact ⟨h0, u, v, off, h1, h2, h3, h4, h5, by omega⟩

theorem ScanInv.mono {T : Tree} {nodes : List Node} {kr : List (Nat × Nat)} {i j : Nat} (h : ScanInv T nodes kr i) (hij : i ≤ j) :
    ScanInv T nodes kr j :=
  ⟨h.flat, h.pad, fun p h1 h2 => h.later p (by omega) h2, h.len, fun x hx => by have := h.ends x hx; omega, h.sorted, h.sub⟩

/-- A step that records the subtree `u` ending at position `i`, as a new entry or as a reference. -/
theorem ScanInv.record (hT : T.NoRef) {nodes nodes' : List Node} {known known' : List Cse} {kr' : List (Nat × Nat)} {i cap crc off k : Nat}
    {req : Bool} {u : Tree} (H : ScanInv T nodes (ranges known) i) (hu : T.At off u) (hl : off + u.post.length = i + 1)
    (h : registerSe cap nodes known crc off (i - off + 1) req = ok (known', k))
    (h' : (k = 0 ∧ nodes' = nodes ∧ kr' = ranges known') ∨
      (0 < k ∧ kr' = ranges known' ∧ setRef nodes off (i + 1) (k - 1) = ok nodes')) : ScanInv T nodes' kr' (i + 1) := by
  have hpos := u.post_pos
  rcases register_ranges hT H hu hl h with ⟨rfl, hr⟩ | ⟨hk, hr, o, v, h1, h2, h3, h4⟩
  · rcases h' with ⟨-, rfl, rfl⟩ | ⟨h0, -⟩
    · rw [hr]
      refine ⟨fun p n hn hp => ?_, H.pad, fun p h1 h2 => H.later p (by omega) h2, H.len, fun x hx => ?_, ?_, fun x hx => ?_⟩
      · rcases H.flat p n hn hp with h | h
        · exact Or.inl h
        · exact Or.inr (h.append _)
      · rcases List.mem_append.1 hx with hx | hx
        · have := H.ends x hx; omega
        · rw [List.mem_singleton] at hx; subst hx; dsimp only; omega
      · rw [List.pairwise_append]
        refine ⟨H.sorted, List.pairwise_singleton _ _, fun a ha b hb => ?_⟩
        rw [List.mem_singleton] at hb; subst hb
        have := H.ends a ha
        dsimp only; omega
      · rcases List.mem_append.1 hx with hx | hx
        · exact H.sub x hx
        · rw [List.mem_singleton] at hx; subst hx; exact ⟨u, hu, rfl⟩
    · omega
  · rcases h' with ⟨h0, -⟩ | ⟨-, rfl, hs⟩
    · omega
    · rw [hr]
      obtain ⟨n0, hn0, rfl⟩ := setRef_ok hs
      have hle := hu.le
      refine ⟨fun p n hn hp => ?_, fun p n hp hn => ?_, fun p h1 h2 => ?_, by simpa using H.len, fun x hx => ?_, H.sorted, H.sub⟩
      · by_cases hpo : p = off
        · subst hpo
          rw [List.getElem?_set_self (List.getElem?_eq_some_iff.1 hn0).1, Option.some.injEq] at hn
          subst hn
          right
          exact ⟨rfl, u, v, o, hu, hl.symm, h1, h2, h3, Or.inl h4⟩
        · rw [List.getElem?_set_ne (by omega)] at hn
          exact H.flat p n hn hp
      · rw [List.getElem?_set_ne (by omega)] at hn
        exact H.pad p n hp hn
      · rw [List.getElem?_set_ne (by omega)]
        exact H.later p (by omega) h2
      · have := H.ends x hx; omega

/-! ## The stack of offsets -/

/-- The stack holds `xs`, the last one on top. -/
def Stk.Keeps (s : Stk Nat) (xs : List Nat) : Prop := s.data.take s.count = xs ∧ s.count = xs.length ∧ s.data.length < 2 ^ 64

theorem Stk.wsub_exact {a b : Nat} (h : b ≤ a) (ha : a < 2 ^ 64) : Stk.wsub a b = a - b := by
  unfold Stk.wsub
  rw [Nat.mod_eq_of_lt (by omega : b < 2 ^ 64)]
  omega

theorem Stk.Keeps.le {s : Stk Nat} {xs : List Nat} (h : s.Keeps xs) : s.count ≤ s.data.length := by
  have := congrArg List.length h.1
  rw [List.length_take] at this
  have := h.2.1
  omega

theorem Stk.Keeps.push {s s' : Stk Nat} {xs : List Nat} {x : Nat} (h : s.Keeps xs) (hp : s.push x = ok s') : s'.Keeps (xs ++ [x]) := by
  unfold Stk.push at hp
  split at hp
  · rename_i hlt
    rw [ok_inj] at hp; subst hp
    refine ⟨?_, by simp [h.2.1], by simpa using h.2.2⟩
    dsimp only
    rw [List.take_add_one, List.getElem?_set_self hlt, List.take_set_of_le (Nat.le_refl _), h.1]
    rfl
  · simp at hp

theorem Stk.Keeps.peek {s : Stk Nat} {xs : List Nat} {x y : Nat} (h : s.Keeps (xs ++ [x])) (hp : s.peek = ok y) : y = x := by
  have hc : s.count = xs.length + 1 := by rw [h.2.1]; simp
  have hle := h.le
  have h64 := h.2.2
  have e : Stk.wsub s.count 1 = xs.length := by rw [Stk.wsub_exact (by omega) (by omega)]; omega
  unfold Stk.peek Stk.read at hp
  rw [e] at hp
  have h3 : s.data[xs.length]? = some x := by
    have := congrArg (·[xs.length]?) h.1
    simpa [List.getElem?_take, hc] using this
  rw [h3] at hp
  simpa using hp.symm

theorem Stk.Keeps.popN {s s' : Stk Nat} {xs ys : List Nat} {y : Nat} (h : s.Keeps (xs ++ ys))
    (hp : s.popN ys.length = ok (y, s')) : s'.Keeps xs := by
  have hc : s.count = xs.length + ys.length := by rw [h.2.1]; simp
  have hle := h.le
  have h64 := h.2.2
  unfold Stk.popN at hp
  rw [Stk.wsub_exact (by omega) (by omega)] at hp
  simp only [bind_eq_ok, pure_eq, ok_inj, Prod.mk.injEq] at hp
  obtain ⟨_, -, -, rfl⟩ := hp
  refine ⟨?_, by dsimp only; omega, h64⟩
  dsimp only
  have := congrArg (List.take xs.length) h.1
  rw [List.take_take, List.take_left] at this
  rw [show s.count - ys.length = min xs.length s.count by omega]
  exact this

theorem Stk.Keeps.pop {s s' : Stk Nat} {xs : List Nat} {x y : Nat} (h : s.Keeps (xs ++ [x])) (hp : s.pop = ok (y, s')) : s'.Keeps xs := by
  have hc : s.count = xs.length + 1 := by rw [h.2.1]; simp
  have hle := h.le
  have h64 := h.2.2
  unfold Stk.pop at hp
  rw [Stk.wsub_exact (by omega) (by omega)] at hp
  simp only [bind_eq_ok, pure_eq, ok_inj, Prod.mk.injEq] at hp
  obtain ⟨_, -, -, rfl⟩ := hp
  refine ⟨?_, by dsimp only; omega, h64⟩
  dsimp only
  have := congrArg (List.take xs.length) h.1
  rw [List.take_take, List.take_left] at this
  rw [show s.count - 1 = min xs.length s.count by omega]
  exact this

/-! ## The table entries other than the ranges -/

theorem ranges_set {known : List Cse} {k : Nat} {c c' : Cse} (h : known[k]? = some c) (h1 : c'.offset = c.offset)
    (h2 : c'.count = c.count) : ranges (known.set k c') = ranges known := by
  rw [ranges, ranges, List.map_set]
  refine List.ext_getElem? fun m => ?_
  rw [List.getElem?_set]
  split
  · rename_i e; subst e
    rw [List.getElem?_map, h]
    have := (List.getElem?_eq_some_iff.1 h).1
    simp [this, h1, h2]
  · rfl

theorem decRef_ranges {known known' : List Cse} {k : Nat} (h : decRef known k = ok known') : ranges known' = ranges known := by
  unfold decRef at h
  simp only [bind_eq_ok, atO_ok, pure_eq, ok_inj] at h
  obtain ⟨c, hc, rfl⟩ := h
  exact ranges_set hc rfl rfl

theorem decNode_ranges {known known' : List Cse} {n : Node} (h : decNode known n = ok known') : ranges known' = ranges known := by
  unfold decNode at h
  split at h
  · exact decRef_ranges h
  · rw [ok_inj] at h; rw [h]

theorem decAll_ranges : ∀ {rs : List Nat} {known known' : List Cse}, decAll known rs = ok known' → ranges known' = ranges known
  | [], known, known', h => by rw [decAll, ok_inj] at h; rw [h]
  | r :: rs, known, known', h => by
    rw [decAll] at h
    split at h
    · rw [bind_eq_ok] at h
      obtain ⟨k, hk, h⟩ := h
      rw [decAll_ranges h, decRef_ranges hk]
    · exact decAll_ranges h

theorem requireLast_ranges {known known' : List Cse} (h : requireLast known = ok known') : ranges known' = ranges known := by
  unfold requireLast at h
  split at h
  · simp at h
  · simp only [bind_eq_ok, atO_ok, pure_eq, ok_inj] at h
    obtain ⟨c, hc, rfl⟩ := h
    exact ranges_set hc rfl rfl

theorem noteRef_ok {s s' : Scan} {k : Nat} (h : noteRef s k = ok s') :
    s'.nodes = s.nodes ∧ s'.known = s.known ∧ s'.offsets = s.offsets := by
  unfold noteRef at h
  split at h
  · simp only [bind_eq_ok, pure_eq, ok_inj] at h
    obtain ⟨r, -, rfl⟩ := h
    exact ⟨rfl, rfl, rfl⟩
  · rw [ok_inj] at h; subst h; exact ⟨rfl, rfl, rfl⟩

/-! ## One step -/

/-- The table keeps its ranges, and no entry loses its mark. -/
def Up (a b : List Cse) : Prop :=
  ranges b = ranges a ∧ ∀ (k : Nat) (c : Cse), a[k]? = some c → c.required = true → ∃ c' : Cse, b[k]? = some c' ∧ c'.required = true

theorem Up.refl (a : List Cse) : Up a a := ⟨rfl, fun _ c h1 h2 => ⟨c, h1, h2⟩⟩

theorem Up.trans {a b c : List Cse} (h : Up a b) (h' : Up b c) : Up a c :=
  ⟨h'.1.trans h.1, fun k x h1 h2 => by obtain ⟨y, h3, h4⟩ := h.2 k x h1 h2; exact h'.2 k y h3 h4⟩

theorem Up.set {known : List Cse} {k : Nat} {c c' : Cse} (h : known[k]? = some c) (h1 : c'.offset = c.offset) (h2 : c'.count = c.count)
    (h3 : c.required = true → c'.required = true) : Up known (known.set k c') := by
  refine ⟨ranges_set h h1 h2, fun j x hj hx => ?_⟩
  by_cases hk : k = j
  · subst hk
    rw [h] at hj
    injection hj with hj
    subst hj
    exact ⟨c', List.getElem?_set_self (List.getElem?_eq_some_iff.1 h).1, h3 hx⟩
  · exact ⟨x, by rw [List.getElem?_set_ne hk, hj], hx⟩

theorem decRef_up {known known' : List Cse} {k : Nat} (h : decRef known k = ok known') : Up known known' := by
  unfold decRef at h
  simp only [bind_eq_ok, atO_ok, pure_eq, ok_inj] at h
  obtain ⟨c, hc, rfl⟩ := h
  exact Up.set hc rfl rfl id

theorem decNode_up {known known' : List Cse} {n : Node} (h : decNode known n = ok known') : Up known known' := by
  unfold decNode at h
  split at h
  · exact decRef_up h
  · rw [ok_inj] at h; rw [h]; exact .refl _

theorem decAll_up : ∀ {rs : List Nat} {known known' : List Cse}, decAll known rs = ok known' → Up known known'
  | [], known, known', h => by rw [decAll, ok_inj] at h; rw [h]; exact .refl _
  | r :: rs, known, known', h => by
    rw [decAll] at h
    split at h
    · rw [bind_eq_ok] at h
      obtain ⟨k, hk, h⟩ := h
      exact (decRef_up hk).trans (decAll_up h)
    · exact decAll_up h

/-- The last entry is marked. -/
def LastMarked (known : List Cse) : Prop := ∃ c, known[known.length - 1]? = some c ∧ c.required = true

theorem requireLast_up {known known' : List Cse} (h : requireLast known = ok known') : Up known known' ∧ LastMarked known' := by
  unfold requireLast at h
  split at h
  · simp at h
  · simp only [bind_eq_ok, atO_ok, pure_eq, ok_inj] at h
    obtain ⟨c, hc, rfl⟩ := h
    refine ⟨Up.set hc rfl rfl fun _ => rfl, { c with required := true }, ?_, rfl⟩
    rw [List.length_set]
    exact List.getElem?_set_self (List.getElem?_eq_some_iff.1 hc).1

theorem divRequire_up {i : Nat} {s : Scan} {known : List Cse} (h : divRequire i s = ok known) : Up s.known known := by
  unfold divRequire at h
  split at h
  · simp only [bind_eq_ok] at h
    obtain ⟨_, -, _, -, _, -, h⟩ := h
    split at h
    · exact (requireLast_up h).1
    · split at h
      · exact (requireLast_up h).1
      · rw [ok_inj] at h; rw [h]; exact .refl _
  · rw [ok_inj] at h; rw [h]; exact .refl _

theorem fnRequire_up {i o : Nat} {s : Scan} {known : List Cse} (h : fnRequire i o s = ok known) : Up s.known known := by
  unfold fnRequire at h
  split at h
  · simp only [bind_eq_ok] at h
    obtain ⟨_, -, _, -, h⟩ := h
    split at h
    · exact (requireLast_up h).1
    · split at h
      · exact (requireLast_up h).1
      · rw [ok_inj] at h; rw [h]; exact .refl _
  · rw [ok_inj] at h; rw [h]; exact .refl _

/-- The state after a step that recorded the range from `off` to `i` in the table `known0`, marked if `req`. -/
def Recorded (cap i off : Nat) (offs : Stk Nat) (known0 : List Cse) (req : Bool) (s s' : Scan) : Prop :=
  ∃ known' crc k, Up s.known known0 ∧ registerSe cap s.nodes known0 crc off (i - off + 1) req = ok (known', k) ∧
    s'.offsets = offs ∧ ((k = 0 ∧ s'.nodes = s.nodes ∧ s'.known = known') ∨
      (0 < k ∧ ranges s'.known = ranges known' ∧ setRef s.nodes off (i + 1) (k - 1) = ok s'.nodes))

section recorded

variable {cap i off : Nat} {offs : Stk Nat} {known0 : List Cse} {req : Bool} {s s' : Scan}

theorem Recorded.inv {T : Tree} (hT : T.NoRef) {u : Tree} (h : Recorded cap i off offs known0 req s s')
    (H : ScanInv T s.nodes (ranges s.known) i) (hu : T.At off u) (hl : off + u.post.length = i + 1) :
    ScanInv T s'.nodes (ranges s'.known) (i + 1) := by
  obtain ⟨known', crc, k, h0, h1, -, h3⟩ := h
  rw [← h0.1] at H
  exact H.record hT hu hl h1 (h3.imp (fun h => ⟨h.1, h.2.1, by rw [h.2.2]⟩) id)

/-- A new entry is recorded if no operation occurs twice. -/
theorem Recorded.new {T : Tree} (hT : T.NoRef) {u : Tree} (h : Recorded cap i off offs known0 req s s')
    (H : ScanInv T s.nodes (ranges s.known) i) (hu : T.At off u) (hl : off + u.post.length = i + 1) {n : Node}
    (hn : T.post[i]? = some n) (hsh : IsShared n.o) (hd : T.Distinct) :
    s'.nodes = s.nodes ∧ ∃ crc, s'.known = known0 ++ [{ crc := crc, offset := off, count := u.post.length, refs := 1, required := req }] := by
  obtain ⟨known', crc, k, h0, h1, -, h3⟩ := h
  rw [← h0.1] at H
  rcases register_ranges hT H hu hl h1 with ⟨h, hr⟩ | ⟨hk, -, o, v, -, hv, hs, hle⟩
  · rcases h3 with h3 | ⟨hk, -⟩
    · refine ⟨h3.2.1, crc, ?_⟩
      rw [h3.2.2]
      have hpos := u.post_pos
      have hcount : i - off + 1 = u.post.length := by omega
      unfold registerSe at h1
      simp only [bind_eq_ok] at h1
      obtain ⟨f, hf, h1⟩ := h1
      cases f with
      | none =>
        dsimp only at h1
        split at h1
        · rw [pure_eq, ok_inj, Prod.mk.injEq] at h1
          rw [← h1.1, hcount]
        · simp at h1
      | some j =>
        simp only [bind_eq_ok, atO_ok, pure_eq, ok_inj, Prod.mk.injEq] at h1
        obtain ⟨c, hc, -, h2⟩ := h1
        omega
    · omega
  · exfalso
    have hpos := u.post_pos
    have hlen := hs.length
    have e1 := hu.get (j := u.post.length - 1) (by omega)
    have e2 := hv.get (j := u.post.length - 1) (by omega)
    rw [show off + (u.post.length - 1) = i by omega, hn] at e1
    obtain ⟨m, hm⟩ : ∃ m, v.post[u.post.length - 1]? = some m := ⟨_, List.getElem?_eq_getElem (by omega)⟩
    rw [hm] at e2
    obtain ⟨g1, g2, g3⟩ := same_iff.1 (hs.get hm e1.symm)
    have := hd _ _ n m hn e2 hsh g1.symm g2.symm g3.symm
    omega

end recorded

theorem scanUnary_recorded {cap i off : Nat} {n : Node} {s s' : Scan} {xs : List Nat} (hs : s.offsets.Keeps (xs ++ [off]))
    (h : scanUnary cap i n s = ok s') : Recorded cap i off s.offsets s.known false s s' := by
  unfold scanUnary at h
  rw [bind_eq_ok] at h
  obtain ⟨o, ho, h⟩ := h
  have := hs.peek ho
  subst this
  split at h
  · simp at h
  rw [bind_eq_ok] at h
  obtain ⟨⟨known', k⟩, hr, h⟩ := h
  dsimp only at h
  refine ⟨known', _, k, .refl _, hr, ?_⟩
  split at h
  · simp only [bind_eq_ok] at h
    obtain ⟨prev, -, known2, hd, nodes, hn, h⟩ := h
    obtain ⟨e1, e2, e3⟩ := noteRef_ok h
    rw [e1, e2, e3]
    exact ⟨rfl, Or.inr ⟨by omega, decNode_ranges hd, hn⟩⟩
  · rw [pure_eq, ok_inj] at h; subst h
    exact ⟨rfl, Or.inl ⟨by omega, rfl, rfl⟩⟩

theorem scanFn_recorded {cap i off : Nat} {n : Node} {s s' : Scan} {xs : List Nat} (hs : s.offsets.Keeps (xs ++ [off]))
    (h : scanFn cap i n s = ok s') : ∃ known0, fnRequire i off s = ok known0 ∧ Recorded cap i off s.offsets known0 true s s' := by
  unfold scanFn at h
  rw [bind_eq_ok] at h
  obtain ⟨o, ho, h⟩ := h
  have := hs.peek ho
  subst this
  rw [bind_eq_ok] at h
  obtain ⟨known0, h0, h⟩ := h
  split at h
  · simp at h
  rw [bind_eq_ok] at h
  obtain ⟨⟨known', k⟩, hr, h⟩ := h
  dsimp only at h
  refine ⟨known0, h0, known', _, k, fnRequire_up h0, hr, ?_⟩
  split at h
  · simp only [bind_eq_ok] at h
    obtain ⟨nodes, hn, h⟩ := h
    obtain ⟨e1, e2, e3⟩ := noteRef_ok h
    rw [e1, e2, e3]
    exact ⟨rfl, Or.inr ⟨by omega, rfl, hn⟩⟩
  · rw [pure_eq, ok_inj] at h; subst h
    exact ⟨rfl, Or.inl ⟨by omega, rfl, rfl⟩⟩

theorem scanDiv_recorded {cap i off x : Nat} {n : Node} {s s' : Scan} {xs : List Nat} (hs : s.offsets.Keeps (xs ++ [off] ++ [x]))
    (h : scanDiv cap i n s = ok s') :
    ∃ offs known0, offs.Keeps (xs ++ [off]) ∧ divRequire i s = ok known0 ∧ Recorded cap i off offs known0 true s s' := by
  unfold scanDiv at h
  rw [bind_eq_ok] at h
  obtain ⟨known0, h0, h⟩ := h
  rw [bind_eq_ok] at h
  obtain ⟨⟨y, offs⟩, hp, h⟩ := h
  have ho := hs.pop hp
  dsimp only at h
  rw [bind_eq_ok] at h
  obtain ⟨o, hpk, h⟩ := h
  have := ho.peek hpk
  subst this
  refine ⟨offs, known0, ho, h0, ?_⟩
  split at h
  · simp at h
  rw [bind_eq_ok] at h
  obtain ⟨⟨known', k⟩, hr, h⟩ := h
  dsimp only at h
  refine ⟨known', _, k, divRequire_up h0, hr, ?_⟩
  split at h
  · simp only [bind_eq_ok] at h
    obtain ⟨nodes, hn, h⟩ := h
    obtain ⟨e1, e2, e3⟩ := noteRef_ok h
    rw [e1, e2, e3]
    exact ⟨rfl, Or.inr ⟨by omega, rfl, hn⟩⟩
  · rw [pure_eq, ok_inj] at h; subst h
    exact ⟨rfl, Or.inl ⟨by omega, rfl, rfl⟩⟩

theorem scanBinary_recorded {cap i off x : Nat} {n : Node} {s s' : Scan} {xs : List Nat} (hs : s.offsets.Keeps (xs ++ [off] ++ [x]))
    (h : scanBinary cap i n s = ok s') : ∃ offs, offs.Keeps (xs ++ [off]) ∧ Recorded cap i off offs s.known false s s' := by
  unfold scanBinary at h
  rw [bind_eq_ok] at h
  obtain ⟨⟨y, offs⟩, hp, h⟩ := h
  have ho := hs.pop hp
  dsimp only at h
  rw [bind_eq_ok] at h
  obtain ⟨o, hpk, h⟩ := h
  have := ho.peek hpk
  subst this
  refine ⟨offs, ho, ?_⟩
  split at h
  · simp at h
  rw [bind_eq_ok] at h
  obtain ⟨⟨known', k⟩, hr, h⟩ := h
  dsimp only at h
  refine ⟨known', _, k, .refl _, hr, ?_⟩
  split at h
  · simp only [bind_eq_ok] at h
    obtain ⟨_, -, known2, hd2, _, -, known3, hd3, nodes, hn, h⟩ := h
    obtain ⟨e1, e2, e3⟩ := noteRef_ok h
    rw [e1, e2, e3]
    exact ⟨rfl, Or.inr ⟨by omega, (decNode_ranges hd3).trans (decNode_ranges hd2), hn⟩⟩
  · rw [pure_eq, ok_inj] at h; subst h
    exact ⟨rfl, Or.inl ⟨by omega, rfl, rfl⟩⟩

theorem scanPoly_recorded {cap i off : Nat} {n : Node} {s s' : Scan} {xs ys : List Nat} (hs : s.offsets.Keeps (xs ++ [off] ++ ys))
    (hy : ys.length = 2 * n.ex - 1) (h : scanPoly cap i n s = ok s') :
    ∃ offs, offs.Keeps (xs ++ [off]) ∧ Recorded cap i off offs s.known false s s' := by
  unfold scanPoly at h
  split at h
  · simp at h
  rw [bind_eq_ok] at h
  obtain ⟨⟨y, offs⟩, hp, h⟩ := h
  rw [← hy] at hp
  have ho := hs.popN hp
  dsimp only at h
  rw [bind_eq_ok] at h
  obtain ⟨o, hpk, h⟩ := h
  have := ho.peek hpk
  subst this
  refine ⟨offs, ho, ?_⟩
  split at h
  · simp at h
  rw [bind_eq_ok] at h
  obtain ⟨⟨known', k⟩, hr, h⟩ := h
  dsimp only at h
  refine ⟨known', _, k, .refl _, hr, ?_⟩
  split at h
  · simp only [bind_eq_ok] at h
    obtain ⟨known2, hd2, nodes, hn, h⟩ := h
    obtain ⟨e1, e2, e3⟩ := noteRef_ok h
    rw [e1, e2, e3]
    exact ⟨rfl, Or.inr ⟨by omega, decAll_ranges hd2, hn⟩⟩
  · rw [pure_eq, ok_inj] at h; subst h
    exact ⟨rfl, Or.inl ⟨by omega, rfl, rfl⟩⟩

/-! ## A whole tree -/

theorem scanLoop_add (cap a b : Nat) : ∀ (i : Nat) (s : Scan), scanLoop cap (a + b) i s = (do
    let s ← scanLoop cap a i s
    scanLoop cap b (i + a) s) := by
  induction a with
  | zero => intro i s; rw [scanLoop, Nat.zero_add, ok_bind, Nat.add_zero]
  | succ a ih =>
    intro i s
    rw [show a + 1 + b = (a + b) + 1 by omega, scanLoop, scanLoop]
    simp only [bind_assoc]
    congr 1
    funext s'
    rw [ih, show i + 1 + a = i + (a + 1) by omega]

/-- The offsets pushed for the operands of a sum or exterior product that start at `p`. -/
def Forest.offs : Forest → Nat → List Nat
  | .nil, _ => []
  | .cons _ t f, p => p :: (p + 1) :: f.offs (p + 1 + t.post.length)

theorem Forest.offs_length : ∀ (f : Forest) (p : Nat), (f.offs p).length = 2 * f.length
  | .nil, p => rfl
  | .cons _ t f, p => by
    rw [Forest.offs, Forest.length, List.length_cons, List.length_cons, Forest.offs_length f]; omega

/-- The operands `f` stand at position `p`. -/
def Tree.Here (T : Tree) (p : Nat) (f : Forest) : Prop := T.AtForest p f ∧ ∀ j < f.post.length, T.post[p + j]? = f.post[j]?

theorem Tree.here_poly {T : Tree} {p : Nat} {n : Node} {f : Forest} (h : T.At p (.poly n f)) : T.Here p f := by
  refine ⟨Tree.at_poly h, fun j hj => ?_⟩
  rw [h.get (by rw [Tree.post, List.length_append]; omega), Tree.post, List.getElem?_append_left hj]

theorem Tree.here_tail {T : Tree} {p : Nat} {se : Node} {t : Tree} {f : Forest} (h : T.Here p (.cons se t f)) :
    T.Here (p + 1 + t.post.length) f := by
  refine ⟨Tree.at_tail h.1, fun j hj => ?_⟩
  have hl : (Forest.cons se t f).post.length = 1 + t.post.length + f.post.length := by
    rw [Forest.post]; simp; omega
  have := h.2 (1 + t.post.length + j) (by omega)
  rw [show p + (1 + t.post.length + j) = p + 1 + t.post.length + j by omega] at this
  rw [this, Forest.post, show 1 + t.post.length + j = (t.post.length + j) + 1 by omega, List.getElem?_cons_succ,
    List.getElem?_append_right (by omega), Nat.add_sub_cancel_left]

theorem Tree.here_se {T : Tree} {p : Nat} {se : Node} {t : Tree} {f : Forest} (h : T.Here p (.cons se t f)) :
    T.post[p]? = some se := by
  have := h.2 0 (by rw [Forest.post]; simp)
  simpa [Forest.post] using this

theorem Tree.at_last {T : Tree} {p : Nat} {u : Tree} {n : Node} {ns : List Node} (h : T.At p u) (e : u.post = ns ++ [n]) :
    T.post[p + ns.length]? = some n := by
  rw [h.get (by rw [e]; simp), e]; simp

/-! ## The table when nothing is replaced -/

/-- The last node of the tree. -/
def Tree.lastNode : Tree → Node
  | .leaf n => n
  | .un n _ => n
  | .bin n _ _ => n
  | .poly n _ => n

theorem Tree.last_post (t : Tree) : ∃ ns, t.post = ns ++ [t.lastNode] ∧ t.post.length = ns.length + 1 := by
  cases t with
  | leaf n => exact ⟨[], by rw [Tree.post]; rfl, by rw [Tree.post]; rfl⟩
  | un n t => exact ⟨t.post, by rw [Tree.post]; rfl, by rw [Tree.post]; simp⟩
  | bin n l r => exact ⟨l.post ++ r.post, by rw [Tree.post]; rfl, by rw [Tree.post]; simp [Nat.add_assoc]⟩
  | poly n f => exact ⟨f.post, by rw [Tree.post]; rfl, by rw [Tree.post]; simp⟩

theorem Tree.At.last_get {T : Tree} {p i : Nat} {u : Tree} (h : T.At p u) (hl : p + u.post.length = i + 1) : T.post[i]? = some u.lastNode := by
  obtain ⟨ns, e, el⟩ := u.last_post
  have := Tree.at_last h e
  rwa [show p + ns.length = i by omega] at this

theorem Tree.At.whole {t u : Tree} {j : Nat} (h : t.At j u) (hl : j + u.post.length = t.post.length) : j = 0 ∧ u = t := by
  cases t with
  | leaf n => rw [Tree.At] at h; exact h
  | un n t =>
    rw [Tree.At] at h
    rcases h with h | h
    · exact h
    · have := h.le; rw [Tree.post, List.length_append, List.length_singleton] at hl; omega
  | bin n l r =>
    rw [Tree.At] at h
    rw [Tree.post, List.length_append, List.length_append, List.length_singleton] at hl
    rcases h with h | h | h
    · exact h
    · have := h.le; omega
    · have := h.2.le; omega
  | poly n f =>
    rw [Tree.At] at h
    rcases h with h | h
    · exact h
    · have := h.le; rw [Tree.post, List.length_append, List.length_singleton] at hl; omega

/-- Only one subtree ends at a position. -/
theorem Tree.At.same_end {T t u : Tree} {p q : Nat} (ht : T.At p t) (hu : T.At q u) (hl : p + t.post.length = q + u.post.length) :
    p = q ∧ t = u := by
  have h1 := t.post_pos
  have h2 := u.post_pos
  rcases Nat.le_total p q with h | h
  · rcases ht.nest hu h (by omega) with h3 | ⟨h3, h4⟩
    · obtain ⟨h4, h5⟩ := h3.whole (by omega)
      exact ⟨by omega, h5.symm⟩
    · omega
  · rcases hu.nest ht h (by omega) with h3 | ⟨h3, h4⟩
    · obtain ⟨h4, h5⟩ := h3.whole (by omega)
      exact ⟨by omega, h5⟩
    · omega

/-- A quotient or a function. -/
def IsQuot (o : Nat) : Prop := o = Op.div ∨ IsFun o

/-- The subtree `u` at `x` is a divisor or the argument of a function, and `rpn_reshape` notices that it has to be a temporary (dfa.hpp:302-314,
341-353): a divisor of three nodes or more is overlooked if the checksum of its first node happens to be the position of the quotient,
an argument is overlooked near the beginning. -/
def QuotArg (T : Tree) (x : Nat) (u : Tree) : Prop :=
  (∃ p d l, T.At p (.bin d l u) ∧ d.o = Op.div ∧ x = p + l.post.length ∧
    (u.post.length = 2 ∨ ∀ n, u.post[0]? = some n → n.checksum ≠ x + u.post.length)) ∨
  ∃ d, T.At x (.un d u) ∧ IsFun d.o ∧ 2 < x + u.post.length

/-- Every divisor and every argument of a function is a leaf or an operation that `rpn_reshape` makes a temporary. -/
def QuotOperands (T : Tree) : Prop :=
  (∀ p d l r, T.At p (.bin d l r) → d.o = Op.div → (∃ n, r = .leaf n) ∨ (IsShared r.lastNode.o ∧ QuotArg T (p + l.post.length) r)) ∧
  ∀ p d t, T.At p (.un d t) → IsFun d.o → (∃ n, t = .leaf n) ∨ (IsShared t.lastNode.o ∧ QuotArg T p t)

/-- Node `j` is a quotient or function. -/
def QuotAt (T : Tree) (j : Nat) : Prop := ∃ n, T.post[j]? = some n ∧ IsQuot n.o

/-- The subtree has to be a temporary, as far as the first `i` nodes tell. -/
def Must (T : Tree) (i x : Nat) (u : Tree) : Prop := IsQuot u.lastNode.o ∨ (x + u.post.length < i ∧ QuotArg T x u)

/-- The table holds every operation among the first `i` nodes, with a mark if it has to be a temporary; nothing else. -/
structure Tab (T : Tree) (known : List Cse) (i : Nat) : Prop where
  all : ∀ x u, T.At x u → x + u.post.length ≤ i → IsShared u.lastNode.o → ∃ k : Nat, (ranges known)[k]? = some (x, u.post.length) ∧
    (Must T i x u → ∃ c : Cse, known[k]? = some c ∧ c.required = true)
  only : ∀ y ∈ ranges known, ∀ u, T.At y.1 u → u.post.length = y.2 → IsShared u.lastNode.o
  need : QuotOperands T → ∀ c ∈ known, c.refs ≤ 1 ∧ (c.required = true → QuotAt T (c.offset + c.count - 1) ∨ QuotAt T (c.offset + c.count))

theorem Tab.up {T : Tree} {a b : List Cse} {i : Nat} (h : Tab T a i) (hu : Up a b)
    (hn : QuotOperands T → ∀ c ∈ b, c.refs ≤ 1 ∧ (c.required = true → QuotAt T (c.offset + c.count - 1) ∨ QuotAt T (c.offset + c.count))) : Tab T b i := by
  refine ⟨fun x u h1 h2 h3 => ?_, by rw [hu.1]; exact h.only, hn⟩
  obtain ⟨k, h4, h5⟩ := h.all x u h1 h2 h3
  refine ⟨k, by rw [hu.1]; exact h4, fun hm => ?_⟩
  obtain ⟨c, h6, h7⟩ := h5 hm
  exact hu.2 k c h6 h7

theorem IsQuot.shared {o : Nat} (h : IsQuot o) : IsShared o := by
  rcases h with h | h
  · exact Or.inr (Or.inr (Or.inr (Or.inl (Or.inr (Or.inr (Or.inr h))))))
  · exact Or.inr (Or.inr (Or.inl h))

/-- The node behind an operand is the quotient or function. -/
theorem QuotArg.next {T : Tree} {x : Nat} {u : Tree} (h : QuotArg T x u) {q : Nat} {v : Tree} (hv : T.At q v)
    (hl : q + v.post.length = x + u.post.length + 1) :
    (∃ d l, v = .bin d l u ∧ d.o = Op.div ∧ x = q + l.post.length ∧ (u.post.length = 2 ∨ ∀ n, u.post[0]? = some n → n.checksum ≠ x + u.post.length)) ∨
    ∃ d, v = .un d u ∧ q = x ∧ IsFun d.o ∧ 2 < x + u.post.length := by
  rcases h with ⟨p, d, l, h1, h2, h3, h4⟩ | ⟨d, h1, h2, h3⟩
  · left
    obtain ⟨rfl, rfl⟩ := hv.same_end h1 (by rw [Tree.post, List.length_append, List.length_append, List.length_singleton]; omega)
    exact ⟨d, l, rfl, h2, h3, h4⟩
  · right
    obtain ⟨rfl, rfl⟩ := hv.same_end h1 (by rw [Tree.post, List.length_append, List.length_singleton]; omega)
    exact ⟨d, rfl, rfl, h2, h3⟩

theorem QuotArg.get {T : Tree} {x : Nat} {u : Tree} (h : QuotArg T x u) : ∃ n, T.post[x + u.post.length]? = some n ∧ IsQuot n.o := by
  rcases h with ⟨p, d, l, h1, h2, h3, h4⟩ | ⟨d, h1, h2, h3⟩
  · exact ⟨d, h1.last_get (by rw [Tree.post, List.length_append, List.length_append, List.length_singleton]; omega), Or.inl h2⟩
  · exact ⟨d, h1.last_get (by rw [Tree.post, List.length_append, List.length_singleton]; omega), Or.inr h2⟩

/-- A node that is not recorded. -/
theorem Tab.skip {T : Tree} {known : List Cse} {i : Nat} {n : Node} (h : Tab T known i) (hn : T.post[i]? = some n) (hs : ¬ IsShared n.o) :
    Tab T known (i + 1) := by
  refine ⟨fun x u h1 h2 h3 => ?_, h.only, h.need⟩
  have hne : x + u.post.length ≠ i + 1 := by
    intro e
    have := h1.last_get e
    rw [hn] at this
    injection this with this
    exact hs (this ▸ h3)
  obtain ⟨k, h4, h5⟩ := h.all x u h1 (by omega) h3
  refine ⟨k, h4, fun hm => h5 (hm.imp id fun h => ⟨?_, h.2⟩)⟩
  rcases Nat.lt_or_ge (x + u.post.length) i with h6 | h6
  · exact h6
  · obtain ⟨n', h7, h8⟩ := h.2.get
    rw [show x + u.post.length = i by omega, hn] at h7
    injection h7 with h7
    exact absurd (h7 ▸ h8.shared) hs

/-- A node that is recorded. -/
theorem Tab.record {T : Tree} {known : List Cse} {i off crc : Nat} {req : Bool} {u : Tree} (h : Tab T known i) (hu : T.At off u)
    (hl : off + u.post.length = i + 1) (hs : IsShared u.lastNode.o) (hq : req = true ↔ IsQuot u.lastNode.o)
    (hop : ∀ x v, T.At x v → x + v.post.length = i → IsShared v.lastNode.o → QuotArg T x v →
      ∀ k : Nat, (ranges known)[k]? = some (x, v.post.length) → ∃ c : Cse, known[k]? = some c ∧ c.required = true) :
    Tab T (known ++ [{ crc := crc, offset := off, count := u.post.length, refs := 1, required := req }]) (i + 1) := by
  have hr : ranges (known ++ [{ crc := crc, offset := off, count := u.post.length, refs := 1, required := req }]) =
      ranges known ++ [(off, u.post.length)] := by rw [ranges, List.map_append]; rfl
  have hrl : (ranges known).length = known.length := by rw [ranges, List.length_map]
  refine ⟨fun x v h1 h2 h3 => ?_, fun y hy v h1 h2 => ?_, fun hQ c hc => ?_⟩
  · rcases Nat.lt_or_ge (x + v.post.length) (i + 1) with h4 | h4
    · obtain ⟨k, h5, h6⟩ := h.all x v h1 (by omega) h3
      have hk := (List.getElem?_eq_some_iff.1 h5).1
      refine ⟨k, by rw [hr, List.getElem?_append_left hk]; exact h5, fun hm => ?_⟩
      have : ∃ c : Cse, known[k]? = some c ∧ c.required = true := by
        rcases hm with hm | ⟨-, hm⟩
        · exact h6 (Or.inl hm)
        · rcases Nat.lt_or_ge (x + v.post.length) i with h7 | h7
          · exact h6 (Or.inr ⟨h7, hm⟩)
          · exact hop x v h1 (by omega) h3 hm k h5
      obtain ⟨c, h8, h9⟩ := this
      exact ⟨c, by rw [List.getElem?_append_left (by omega)]; exact h8, h9⟩
    · obtain ⟨rfl, rfl⟩ := h1.same_end hu (by omega)
      refine ⟨known.length, by rw [hr, List.getElem?_append_right (by omega), hrl, Nat.sub_self]; rfl, fun hm => ?_⟩
      refine ⟨_, by rw [List.getElem?_append_right (Nat.le_refl _), Nat.sub_self]; rfl, ?_⟩
      rcases hm with hm | hm
      · exact hq.2 hm
      · omega
  · rw [hr, List.mem_append, List.mem_singleton] at hy
    rcases hy with hy | rfl
    · exact h.only y hy v h1 h2
    · obtain ⟨-, rfl⟩ := h1.same_end hu (by dsimp only at *; omega)
      exact hs
  · rw [List.mem_append, List.mem_singleton] at hc
    rcases hc with hc | rfl
    · exact h.need hQ c hc
    · refine ⟨Nat.le_refl _, fun hr => Or.inl ⟨u.lastNode, hu.last_get ?_, hq.1 hr⟩⟩
      dsimp only
      omega

/-- The last entry is the subtree that ends at the current position. -/
theorem last_entry {T : Tree} {nodes : List Node} {known : List Cse} {i k x c : Nat} (H : ScanInv T nodes (ranges known) i)
    (h : (ranges known)[k]? = some (x, c)) (hl : x + c = i) : k = known.length - 1 := by
  have hrl : (ranges known).length = known.length := by rw [ranges, List.length_map]
  have hk := (List.getElem?_eq_some_iff.1 h).1
  by_contra hne
  have hlt : k + 1 < (ranges known).length := by omega
  have h1 := List.pairwise_iff_getElem.1 H.sorted k (k + 1) hk hlt (by omega)
  have h2 := H.ends _ (List.getElem_mem hlt)
  rw [(List.getElem?_eq_some_iff.1 h).2] at h1
  dsimp only at h1
  omega

theorem LastMarked.get {known : List Cse} {k : Nat} (h : LastMarked known) (hk : k = known.length - 1) :
    ∃ c : Cse, known[k]? = some c ∧ c.required = true := hk ▸ h

theorem IsShared.not_read {o : Nat} (h : IsShared o) : isReadOp o = false := by
  unfold isReadOp
  rcases h with h | h | h | h | h
  · rw [h]; decide
  · rw [h]; decide
  · rcases h with h | h | h | h <;> rw [h] <;> decide
  · rcases h with h | h | h | h <;> rw [h] <;> decide
  · rcases h with h | h <;> rw [h] <;> decide

theorem IsShared.two {t : Tree} (hs : t.Shape) (h : IsShared t.lastNode.o) : 2 ≤ t.post.length := by
  cases t with
  | leaf n =>
    rw [Tree.Shape, IsLeaf] at hs
    exfalso
    simp only [Tree.lastNode, IsShared, IsFun, IsBin, IsPoly, Op.rev, Op.pd, Op.sqrt, Op.sin, Op.cos, Op.tan, Op.gp, Op.lc, Op.sip, Op.div, Op.sum, Op.ep,
      Op.id, Op.cse, Op.czero] at h hs
    omega
  | un n t => have := t.post_pos; rw [Tree.post, List.length_append, List.length_singleton]; omega
  | bin n l r => have := l.post_pos; rw [Tree.post, List.length_append, List.length_append, List.length_singleton]; omega
  | poly n f =>
    rw [Tree.Shape] at hs
    cases f with
    | nil => rw [Forest.length] at hs; omega
    | cons se t f => rw [Tree.post, Forest.post]; simp; omega

/-- The divisor is marked. -/
theorem divRequire_marks {T : Tree} (hT : T.NoRef) {s : Scan} {known0 : List Cse} {p : Nat} {d : Node} {l r : Tree} {xs : List Nat}
    (hN : ∀ j < T.post.length, s.nodes[j]? = T.post[j]?)
    (ha : T.At p (.bin d l r)) (hrs : r.Shape) (hx : s.offsets.Keeps (xs ++ [p + l.post.length]))
    (h : divRequire (p + l.post.length + r.post.length) s = ok known0) (hs : IsShared r.lastNode.o)
    (hc : r.post.length = 2 ∨ ∀ n, r.post[0]? = some n → n.checksum ≠ p + l.post.length + r.post.length) : LastMarked known0 := by
  have h2 := IsShared.two hrs hs
  have hl := l.post_pos
  have hle := ha.le
  have har := Tree.at_right ha
  rw [Tree.post, List.length_append, List.length_append, List.length_singleton] at hle
  unfold divRequire at h
  rw [if_pos (by omega)] at h
  simp only [bind_eq_ok, atO_ok] at h
  obtain ⟨o, ho, prev, hp, before, hb, h⟩ := h
  have := hx.peek ho
  subst this
  rw [hN _ (by omega)] at hp hb
  have hb' := har.last_get (i := p + l.post.length + r.post.length - 1) (by omega)
  rw [hb] at hb'
  injection hb' with hb'
  have hp' := har.get (j := 0) (by omega)
  rw [Nat.add_zero, hp] at hp'
  have hpc := hT prev (List.mem_of_getElem? hp)
  rcases Nat.lt_or_ge 2 r.post.length with h3 | h3
  · rw [if_neg (by rintro ⟨e, -⟩; omega), if_pos ⟨by omega, hpc, hc.resolve_left (by omega) prev hp'.symm⟩] at h
    exact (requireLast_up h).2
  · rw [if_pos ⟨by omega, by rw [hb']; exact hs.not_read⟩] at h
    exact (requireLast_up h).2

/-- The argument of a function is marked. -/
theorem fnRequire_marks {T : Tree} (hT : T.NoRef) {s : Scan} {known0 : List Cse} {p : Nat} {d : Node} {t : Tree}
    (hN : ∀ j < T.post.length, s.nodes[j]? = T.post[j]?) (ha : T.At p (.un d t)) (hts : t.Shape)
    (h : fnRequire (p + t.post.length) p s = ok known0) (hs : IsShared t.lastNode.o) (hc : 2 < p + t.post.length) : LastMarked known0 := by
  have h2 := IsShared.two hts hs
  have hle := ha.le
  have hat := Tree.at_un ha
  rw [Tree.post, List.length_append, List.length_singleton] at hle
  unfold fnRequire at h
  rw [if_pos hc] at h
  simp only [bind_eq_ok, atO_ok] at h
  obtain ⟨prev, hp, before, hb, h⟩ := h
  rw [hN _ (by omega)] at hp hb
  have hb' := hat.last_get (i := p + t.post.length - 1) (by omega)
  rw [hb] at hb'
  injection hb' with hb'
  have hpc := hT prev (List.mem_of_getElem? hp)
  rcases Nat.lt_or_ge 2 t.post.length with h3 | h3
  · rw [if_neg (by rintro ⟨e, -⟩; omega), if_pos ⟨by omega, fun h => hpc h.1⟩] at h
    exact (requireLast_up h).2
  · rw [if_pos ⟨by omega, by rw [hb']; exact hs.not_read⟩] at h
    exact (requireLast_up h).2

/-- From `s` at position `i` to `s'` at position `j`: the nodes stay, and so does what is known about the table. -/
def Exact (T : Tree) (s : Scan) (i : Nat) (s' : Scan) (j : Nat) : Prop :=
  T.Distinct → s'.nodes = s.nodes ∧ ((∀ j < T.post.length, s.nodes[j]? = T.post[j]?) → Tab T s.known i → Tab T s'.known j)

theorem Exact.trans {T : Tree} {s s' s'' : Scan} {i j k : Nat} (h : Exact T s i s' j) (h' : Exact T s' j s'' k) : Exact T s i s'' k := by
  intro hd
  obtain ⟨h1, h2⟩ := h hd
  obtain ⟨h3, h4⟩ := h' hd
  exact ⟨h3.trans h1, fun hN ht => h4 (by rw [h1]; exact hN) (h2 hN ht)⟩

/-- A node that is not recorded. -/
theorem Exact.skip {T : Tree} {s s' : Scan} {i : Nat} {n : Node} (hn : T.post[i]? = some n) (hs : ¬ IsShared n.o) (h1 : s'.nodes = s.nodes)
    (h2 : s'.known = s.known) : Exact T s i s' (i + 1) :=
  fun _ => ⟨h1, fun _ ht => by rw [h2]; exact ht.skip hn hs⟩

theorem Recorded.exact {T : Tree} (hT : T.NoRef) {cap i off : Nat} {offs : Stk Nat} {known0 : List Cse} {req : Bool} {s s' : Scan} {u : Tree}
    (R : Recorded cap i off offs known0 req s s') (H : ScanInv T s.nodes (ranges s.known) i) (hu : T.At off u) (hl : off + u.post.length = i + 1)
    (hs : IsShared u.lastNode.o) (hq : req = true ↔ IsQuot u.lastNode.o)
    (hmk : QuotOperands T → known0 = s.known ∨
      (requireLast s.known = ok known0 ∧ IsQuot u.lastNode.o ∧ ∃ x v, T.At x v ∧ x + v.post.length = i ∧ IsShared v.lastNode.o))
    (hop : (∀ j < T.post.length, s.nodes[j]? = T.post[j]?) → ∀ x v, T.At x v → x + v.post.length = i → IsShared v.lastNode.o → QuotArg T x v →
      LastMarked known0) : Exact T s i s' (i + 1) := by
  intro hd
  obtain ⟨h1, crc, h2⟩ := R.new hT H hu hl (hu.last_get hl) hs hd
  obtain ⟨_, _, _, hup, -⟩ := R
  refine ⟨h1, fun hN ht => ?_⟩
  rw [h2]
  have hneed : QuotOperands T → ∀ c ∈ known0, c.refs ≤ 1 ∧ (c.required = true → QuotAt T (c.offset + c.count - 1) ∨ QuotAt T (c.offset + c.count)) := by
    intro hQ c hc
    rcases hmk hQ with e | ⟨e, hqu, x, v, hv, hvl, hvs⟩
    · exact ht.need hQ c (e ▸ hc)
    · obtain ⟨k, hk, -⟩ := ht.all x v hv (by omega) hvs
      have hkl := last_entry H hk hvl
      unfold requireLast at e
      split at e
      · simp at e
      · simp only [bind_eq_ok, atO_ok, pure_eq, ok_inj] at e
        obtain ⟨c', hc', rfl⟩ := e
        rw [← hkl] at hc'
        rcases List.mem_or_eq_of_mem_set hc with hc | rfl
        · exact ht.need hQ c hc
        · refine ⟨(ht.need hQ c' (List.mem_of_getElem? hc')).1, fun _ => Or.inr ⟨u.lastNode, ?_, hqu⟩⟩
          rw [ranges, List.getElem?_map, hc'] at hk
          injection hk with hk
          injection hk with hk1 hk2
          dsimp only
          rw [hk1, hk2, hvl]
          exact hu.last_get hl
  refine (ht.up hup hneed).record hu hl hs hq fun x v h3 h4 h5 h6 k hk => ?_
  rw [← hup.1] at H
  exact (hop hN x v h3 h4 h5 h6).get (last_entry H hk h4)

/-- Nothing but a quotient or a function has an operand in this sense. -/
theorem no_operand {T : Tree} {off i : Nat} {u : Tree} (hu : T.At off u) (hl : off + u.post.length = i + 1) (hq : ¬ IsQuot u.lastNode.o) {x : Nat} {v : Tree}
    (h1 : x + v.post.length = i) (h : QuotArg T x v) : False := by
  rcases h.next hu (by omega) with ⟨d, l, rfl, h2, -⟩ | ⟨d, rfl, -, h2, -⟩
  · exact hq (Or.inl h2)
  · exact hq (Or.inr h2)

theorem no_mark {o : Nat} (h : ¬ IsQuot o) : false = true ↔ IsQuot o := by simp [h]

/-- Only a divisor is marked. -/
theorem divRequire_only {T : Tree} {s : Scan} {known0 : List Cse} {p : Nat} {d : Node} {l r : Tree} {xs : List Nat} {Q : Prop}
    (ha : T.At p (.bin d l r)) (hx : s.offsets.Keeps (xs ++ [p + l.post.length]))
    (h : divRequire (p + l.post.length + r.post.length) s = ok known0) (hd : d.o = Op.div) (hc : (∃ n, r = .leaf n) ∨ (IsShared r.lastNode.o ∧ Q)) :
    known0 = s.known ∨ (requireLast s.known = ok known0 ∧ IsQuot d.o ∧
      ∃ x v, T.At x v ∧ x + v.post.length = p + l.post.length + r.post.length ∧ IsShared v.lastNode.o) := by
  have har := Tree.at_right ha
  rcases hc with ⟨n, rfl⟩ | ⟨hc, -⟩
  · left
    have h1 : (Tree.leaf n).post.length = 1 := by rw [Tree.post]; rfl
    have hl := l.post_pos
    rw [h1] at h
    unfold divRequire at h
    split at h
    · simp only [bind_eq_ok] at h
      obtain ⟨o, ho, _, -, _, -, h⟩ := h
      have := hx.peek ho
      subst this
      rw [if_neg (by rintro ⟨e, -⟩; omega), if_neg (by rintro ⟨e, -⟩; omega), ok_inj] at h
      exact h.symm
    · rw [ok_inj] at h; exact h.symm
  · have hop : ∃ x v, T.At x v ∧ x + v.post.length = p + l.post.length + r.post.length ∧ IsShared v.lastNode.o := ⟨_, _, har, rfl, hc⟩
    unfold divRequire at h
    split at h
    · simp only [bind_eq_ok] at h
      obtain ⟨_, -, _, -, _, -, h⟩ := h
      split at h
      · exact Or.inr ⟨h, Or.inl hd, hop⟩
      · split at h
        · exact Or.inr ⟨h, Or.inl hd, hop⟩
        · rw [ok_inj] at h; exact Or.inl h.symm
    · rw [ok_inj] at h; exact Or.inl h.symm

/-- Only an argument of a function is marked. -/
theorem fnRequire_only {T : Tree} {s : Scan} {known0 : List Cse} {p : Nat} {d : Node} {t : Tree} {Q : Prop}
    (ha : T.At p (.un d t)) (h : fnRequire (p + t.post.length) p s = ok known0) (hd : IsFun d.o) (hc : (∃ n, t = .leaf n) ∨ (IsShared t.lastNode.o ∧ Q)) :
    known0 = s.known ∨ (requireLast s.known = ok known0 ∧ IsQuot d.o ∧ ∃ x v, T.At x v ∧ x + v.post.length = p + t.post.length ∧ IsShared v.lastNode.o) := by
  have hat := Tree.at_un ha
  rcases hc with ⟨n, rfl⟩ | ⟨hc, -⟩
  · left
    have h1 : (Tree.leaf n).post.length = 1 := by rw [Tree.post]; rfl
    rw [h1] at h
    unfold fnRequire at h
    split at h
    · simp only [bind_eq_ok] at h
      obtain ⟨_, -, _, -, h⟩ := h
      rw [if_neg (by rintro ⟨e, -⟩; omega), if_neg (by rintro ⟨e, -⟩; omega), ok_inj] at h
      exact h.symm
    · rw [ok_inj] at h; exact h.symm
  · have hop : ∃ x v, T.At x v ∧ x + v.post.length = p + t.post.length ∧ IsShared v.lastNode.o := ⟨_, _, hat, rfl, hc⟩
    unfold fnRequire at h
    split at h
    · simp only [bind_eq_ok] at h
      obtain ⟨_, -, _, -, h⟩ := h
      split at h
      · exact Or.inr ⟨h, Or.inr hd, hop⟩
      · split at h
        · exact Or.inr ⟨h, Or.inr hd, hop⟩
        · rw [ok_inj] at h; exact Or.inl h.symm
    · rw [ok_inj] at h; exact Or.inl h.symm

theorem not_quot_of {o : Nat} (h : o ≠ Op.div) (h' : ¬ IsFun o) : ¬ IsQuot o := fun hq => hq.elim h h'

section tree

variable {T : Tree} (hT : T.NoRef) {cap : Nat}

theorem scanNode_get {s s' : Scan} {i : Nat} (h : scanNode cap i s = ok s') {n : Node} (hn : s.nodes[i]? = some n) :
    (if n.o = Op.comp ∨ n.o = Op.grd then (ok s : Out Scan)
  else if n.o = Op.rev ∨ n.o = Op.pd then scanUnary cap i n s
  else if n.o = Op.div then scanDiv cap i n s
  else if n.o = Op.sqrt ∨ n.o = Op.sin ∨ n.o = Op.cos ∨ n.o = Op.tan then scanFn cap i n s
  else if n.o = Op.gp ∨ n.o = Op.lc ∨ n.o = Op.sip then scanBinary cap i n s
  else if n.o = Op.sum ∨ n.o = Op.ep then scanPoly cap i n s
  else if n.o = Op.se then do
    let offsets ← s.offsets.push i
    if s.seCount < cap then return { s with offsets, seCount := s.seCount + 1 } else .ub
  else do
    let offsets ← s.offsets.push i
    return { s with offsets }) = ok s' := by
  unfold scanNode at h
  rw [bind_eq_ok] at h
  obtain ⟨n', hn', h⟩ := h
  rw [atO_ok, hn] at hn'
  injection hn' with hn'
  subst hn'
  exact h

include hT in
mutual

/-- The first loop over the nodes of a subtree leaves the position of the subtree on the stack. -/
theorem scan_tree : ∀ {t : Tree} {p : Nat} {s s' : Scan} {xs : List Nat}, T.At p t → t.Shape → ScanInv T s.nodes (ranges s.known) p →
    s.offsets.Keeps xs → scanLoop cap t.post.length p s = ok s' →
    ScanInv T s'.nodes (ranges s'.known) (p + t.post.length) ∧ s'.offsets.Keeps (xs ++ [p]) ∧ Exact T s p s' (p + t.post.length)
  | .leaf n, p, s, s', xs, ha, hs, H, hx, h => by
    rw [Tree.post] at h ⊢
    rw [List.length_singleton] at h ⊢
    rw [scanLoop, bind_eq_ok] at h
    obtain ⟨s1, h, h1⟩ := h
    rw [scanLoop, ok_inj] at h1; subst h1
    have hle := ha.le
    rw [Tree.post, List.length_singleton] at hle
    have hn : T.post[p]? = some n := by
      have := Tree.at_last ha (n := n) (ns := []) (by rw [Tree.post]; rfl)
      simpa using this
    have hn' := H.later p (Nat.le_refl _) (by omega)
    rw [hn] at hn'
    have h := scanNode_get h hn'
    have hc : n.o ≠ Op.cse := hT n (List.mem_of_getElem? hn)
    rw [Tree.Shape] at hs
    have hns : ¬ IsShared n.o := by
      intro hsh
      have := IsShared.two (t := .leaf n) (by rw [Tree.Shape]; exact hs) hsh
      rw [Tree.post] at this
      simp at this
    rw [IsLeaf] at hs
    simp only [Op.comp, Op.grd, Op.rev, Op.pd, Op.div, Op.sqrt, Op.sin, Op.cos, Op.tan, Op.gp, Op.lc, Op.sip, Op.sum, Op.ep, Op.se, Op.id,
      Op.cse, Op.czero] at h hs hc
    rw [if_neg (by omega), if_neg (by omega), if_neg (by omega), if_neg (by omega), if_neg (by omega), if_neg (by omega),
      if_neg (by omega)] at h
    simp only [bind_eq_ok, pure_eq, ok_inj] at h
    obtain ⟨offs, hp, rfl⟩ := h
    exact ⟨H.mono (by omega), hx.push hp, .skip hn hns rfl rfl⟩
  | .un n t, p, s, s', xs, ha, hs, H, hx, h => by
    have hat := Tree.at_un ha
    have hle := ha.le
    rw [Tree.Shape] at hs
    have hlast := Tree.at_last ha (n := n) (ns := t.post) (by rw [Tree.post])
    have hl : (Tree.un n t).post.length = t.post.length + 1 := by rw [Tree.post]; simp
    rw [hl] at h hle ⊢
    rw [scanLoop_add, bind_eq_ok] at h
    obtain ⟨s1, h1, h⟩ := h
    obtain ⟨H1, hx1, hd1⟩ := scan_tree hat hs.2 H hx h1
    rw [scanLoop, bind_eq_ok] at h
    obtain ⟨s2, h, h2⟩ := h
    rw [scanLoop, ok_inj] at h2; subst h2
    have hn' := H1.later (p + t.post.length) (Nat.le_refl _) (by omega)
    rw [hlast] at hn'
    have h := scanNode_get h hn'
    have hu := hs.1
    rw [IsUn] at hu
    split at h
    · rw [ok_inj] at h; subst h
      have g2 : n.o = Op.comp ∨ n.o = Op.grd := by assumption
      refine ⟨H1.mono (by omega), hx1, hd1.trans (.skip hlast ?_ rfl rfl)⟩
      intro hsh
      have := hsh.not_read
      rcases g2 with e | e <;> rw [e] at this <;> exact absurd this (by decide)
    · split at h
      · have R := scanUnary_recorded hx1 h
        have g2 : n.o = Op.rev ∨ n.o = Op.pd := by assumption
        have hnq : ¬ IsQuot n.o := by
          rcases g2 with e | e <;> rw [e] <;> exact not_quot_of (by decide) (by unfold IsFun; decide)
        refine ⟨R.inv hT H1 ha (by rw [hl]; rfl), ?_, hd1.trans (R.exact hT H1 ha (by rw [hl]; omega)
          (g2.elim Or.inl fun h => Or.inr (Or.inl h)) (no_mark hnq) (fun _ => Or.inl rfl) fun _ x v _ h2 _ h4 => (no_operand ha (by rw [hl]; omega) hnq h2 h4).elim)⟩
        obtain ⟨_, _, _, _, _, e, _⟩ := R
        rw [e]; exact hx1
      · rename_i g1 g2
        have hfun : IsFun n.o := by
          rcases hu with h | h | h | h | h
          · exact absurd (Or.inl h) g2
          · exact absurd (Or.inr h) g2
          · exact absurd (Or.inl h) g1
          · exact absurd (Or.inr h) g1
          · exact h
        simp only [Op.comp, Op.grd, Op.rev, Op.pd, Op.div, Op.sqrt, Op.sin, Op.cos, Op.tan] at h hu g1 g2
        rw [if_neg (by omega), if_pos (by omega)] at h
        obtain ⟨known0, hk0, R⟩ := scanFn_recorded hx1 h
        refine ⟨R.inv hT H1 ha (by rw [hl]; rfl), ?_, hd1.trans (R.exact hT H1 ha (by rw [hl]; omega)
          (Or.inr (Or.inr (Or.inl hfun))) (iff_of_true rfl (Or.inr hfun)) (fun hQ => fnRequire_only ha hk0 hfun (hQ.2 p n t ha hfun))
          fun hN x v h1 h2 h3 h4 => ?_)⟩
        · obtain ⟨_, _, _, _, _, e, _⟩ := R
          rw [e]; exact hx1
        · rcases h4.next ha (by rw [hl]; omega) with ⟨_, _, h5, -⟩ | ⟨d, h5, rfl, -, h6⟩
          · cases h5
          · injection h5 with h5 h7
            subst h5 h7
            exact fnRequire_marks hT hN ha hs.2 hk0 h3 h6
  | .bin n l r, p, s, s', xs, ha, hs, H, hx, h => by
    have hle := ha.le
    rw [Tree.Shape] at hs
    have hlast := Tree.at_last ha (n := n) (ns := l.post ++ r.post) (by rw [Tree.post])
    have hl : (Tree.bin n l r).post.length = l.post.length + r.post.length + 1 := by rw [Tree.post]; simp [Nat.add_assoc]
    rw [hl] at h hle ⊢
    rw [scanLoop_add, bind_eq_ok] at h
    obtain ⟨s2, h12, h⟩ := h
    rw [scanLoop_add, bind_eq_ok] at h12
    obtain ⟨s1, h1, h2⟩ := h12
    obtain ⟨H1, hx1, hd1⟩ := scan_tree (Tree.at_left ha) hs.2.1 H hx h1
    obtain ⟨H2, hx2, hd2⟩ := scan_tree (Tree.at_right ha) hs.2.2 H1 hx1 h2
    rw [scanLoop, bind_eq_ok] at h
    obtain ⟨s3, h, h3⟩ := h
    rw [scanLoop, ok_inj] at h3; subst h3
    have e : p + (l.post.length + r.post.length) = p + l.post.length + r.post.length := by omega
    rw [List.length_append, e] at hlast
    rw [e] at h
    have hn' := H2.later _ (Nat.le_refl _) (by omega)
    rw [hlast] at hn'
    have h := scanNode_get h hn'
    have hu := hs.1
    simp only [IsBin, Op.gp, Op.lc, Op.sip, Op.div] at hu
    simp only [Op.comp, Op.grd, Op.rev, Op.pd, Op.div, Op.sqrt, Op.sin, Op.cos, Op.tan, Op.gp, Op.lc, Op.sip] at h
    rw [if_neg (by omega), if_neg (by omega)] at h
    have fin : ∀ offs known0 req, offs.Keeps (xs ++ [p]) → Recorded cap (p + l.post.length + r.post.length) p offs known0 req s2 s3 →
        (req = true ↔ IsQuot n.o) → (QuotOperands T → known0 = s2.known ∨
          (requireLast s2.known = ok known0 ∧ IsQuot n.o ∧ ∃ x v, T.At x v ∧ x + v.post.length = p + l.post.length + r.post.length ∧ IsShared v.lastNode.o)) →
        ((∀ j < T.post.length, s2.nodes[j]? = T.post[j]?) → ∀ x v, T.At x v → x + v.post.length = p + l.post.length + r.post.length →
          IsShared v.lastNode.o → QuotArg T x v → LastMarked known0) →
        ScanInv T s3.nodes (ranges s3.known) (p + (l.post.length + r.post.length + 1)) ∧ s3.offsets.Keeps (xs ++ [p]) ∧
          Exact T s p s3 (p + (l.post.length + r.post.length + 1)) := by
      intro offs known0 req ho R hq hmk hop
      have H3 := R.inv hT H2 ha (by rw [hl]; omega)
      have N := R.exact hT H2 ha (by rw [hl]; omega) (Or.inr (Or.inr (Or.inr (Or.inl hs.1)))) hq hmk hop
      obtain ⟨_, _, _, _, _, e, _⟩ := R
      have e' : p + (l.post.length + r.post.length + 1) = p + l.post.length + r.post.length + 1 := by omega
      rw [e']
      exact ⟨H3, by rw [e]; exact ho, (hd1.trans hd2).trans N⟩
    split at h
    · have hdiv : n.o = Op.div := by assumption
      obtain ⟨offs, known0, ho, hk0, R⟩ := scanDiv_recorded hx2 h
      refine fin offs known0 true ho R (iff_of_true rfl (Or.inl hdiv)) (fun hQ => divRequire_only ha hx2 hk0 hdiv (hQ.1 p n l r ha hdiv)) fun hN x v h1 h2 h3 h4 => ?_
      rcases h4.next ha (by rw [hl]; omega) with ⟨d, l', h5, -, h6, h7⟩ | ⟨d, h5, -⟩
      · injection h5 with h5 h8 h9
        subst h5 h8 h9 h6
        exact divRequire_marks hT hN ha hs.2.2 hx2 hk0 h3 h7
      · cases h5
    · rename_i hnd
      rw [if_neg (by omega), if_pos (by omega)] at h
      obtain ⟨offs, ho, R⟩ := scanBinary_recorded hx2 h
      have hnq : ¬ IsQuot n.o := by
        refine not_quot_of hnd ?_
        intro hf
        simp only [IsFun, Op.sqrt, Op.sin, Op.cos, Op.tan] at hf
        omega
      exact fin offs s2.known false ho R (no_mark hnq) (fun _ => Or.inl rfl) fun _ x v _ h2 _ h4 => (no_operand ha (by rw [hl]; omega) hnq h2 h4).elim
  | .poly n f, p, s, s', xs, ha, hs, H, hx, h => by
    have hle := ha.le
    rw [Tree.Shape] at hs
    have hlast := Tree.at_last ha (n := n) (ns := f.post) (by rw [Tree.post])
    have hl : (Tree.poly n f).post.length = f.post.length + 1 := by rw [Tree.post]; simp
    rw [hl] at h hle ⊢
    rw [scanLoop_add, bind_eq_ok] at h
    obtain ⟨s1, h1, h⟩ := h
    obtain ⟨H1, hx1, hd1⟩ := scan_forest (Tree.here_poly ha) hs.2.2.2 (by omega) H hx h1
    rw [scanLoop, bind_eq_ok] at h
    obtain ⟨s2, h, h2⟩ := h
    rw [scanLoop, ok_inj] at h2; subst h2
    have hn' := H1.later (p + f.post.length) (Nat.le_refl _) (by omega)
    rw [hlast] at hn'
    have h := scanNode_get h hn'
    have hu := hs.1
    simp only [IsPoly, Op.sum, Op.ep] at hu
    simp only [Op.comp, Op.grd, Op.rev, Op.pd, Op.div, Op.sqrt, Op.sin, Op.cos, Op.tan, Op.gp, Op.lc, Op.sip, Op.sum, Op.ep] at h
    rw [if_neg (by omega), if_neg (by omega), if_neg (by omega), if_neg (by omega), if_neg (by omega), if_pos (by omega)] at h
    cases f with
    | nil => rw [Forest.length] at hs; omega
    | cons se t f =>
      rw [Forest.offs] at hx1
      have hx2 : s1.offsets.Keeps (xs ++ [p] ++ ((p + 1) :: f.offs (p + 1 + t.post.length))) := by simpa using hx1
      obtain ⟨offs, ho, R⟩ := scanPoly_recorded hx2 (by
        rw [hs.2.1, Forest.length, List.length_cons, Forest.offs_length]; omega) h
      have hnq : ¬ IsQuot n.o := by
        rcases hs.1 with e | e <;> rw [e] <;> exact not_quot_of (by decide) (by unfold IsFun; decide)
      refine ⟨R.inv hT H1 ha (by rw [hl]; rfl), ?_, hd1.trans (R.exact hT H1 ha (by rw [hl]; omega)
        (Or.inr (Or.inr (Or.inr (Or.inr hs.1)))) (no_mark hnq) (fun _ => Or.inl rfl) fun _ x v _ h2 _ h4 => (no_operand ha (by rw [hl]; omega) hnq h2 h4).elim)⟩
      obtain ⟨_, _, _, _, _, e, _⟩ := R
      rw [e]; exact ho

theorem scan_forest : ∀ {f : Forest} {p : Nat} {s s' : Scan} {xs : List Nat}, T.Here p f → f.Shape → p + f.post.length ≤ T.post.length →
    ScanInv T s.nodes (ranges s.known) p →
    s.offsets.Keeps xs → scanLoop cap f.post.length p s = ok s' →
    ScanInv T s'.nodes (ranges s'.known) (p + f.post.length) ∧ s'.offsets.Keeps (xs ++ f.offs p) ∧ Exact T s p s' (p + f.post.length)
  | .nil, p, s, s', xs, _, _, _, H, hx, h => by
    rw [Forest.post, List.length_nil] at h ⊢
    rw [scanLoop, ok_inj] at h; subst h
    rw [Forest.offs, List.append_nil]
    exact ⟨H, hx, fun _ => ⟨rfl, fun _ h => h⟩⟩
  | .cons se t f, p, s, s', xs, ha, hs, hle, H, hx, h => by
    rw [Forest.Shape] at hs
    have hl : (Forest.cons se t f).post.length = 1 + t.post.length + f.post.length := by
      rw [Forest.post]; simp; omega
    rw [hl] at h hle ⊢
    rw [scanLoop_add, bind_eq_ok] at h
    obtain ⟨s2, h12, h⟩ := h
    rw [scanLoop_add, bind_eq_ok] at h12
    obtain ⟨s1, h1, h2⟩ := h12
    rw [scanLoop, bind_eq_ok] at h1
    obtain ⟨s0, h1, h0⟩ := h1
    rw [scanLoop, ok_inj] at h0; subst h0
    have hn' := H.later p (Nat.le_refl _) (by omega)
    rw [Tree.here_se ha] at hn'
    have h1 := scanNode_get h1 hn'
    rw [hs.1] at h1
    rw [if_neg (by decide), if_neg (by decide), if_neg (by decide), if_neg (by decide), if_neg (by decide), if_neg (by decide),
      if_pos rfl] at h1
    rw [bind_eq_ok] at h1
    obtain ⟨offs, hp, h1⟩ := h1
    split at h1
    · rw [pure_eq, ok_inj] at h1; subst h1
      obtain ⟨H2, hx2, hd2⟩ := scan_tree (s := { s with offsets := offs, seCount := s.seCount + 1 }) (Tree.at_head ha.1) hs.2.2.1 (H.mono (by omega)) (hx.push hp) h2
      have e : p + (1 + t.post.length) = p + 1 + t.post.length := by omega
      rw [e] at h
      obtain ⟨H3, hx3, hd3⟩ := scan_forest (Tree.here_tail ha) hs.2.2.2 (by omega) H2 hx2 h
      have hd0 : Exact T s p { s with offsets := offs, seCount := s.seCount + 1 } (p + 1) := .skip (Tree.here_se ha) (by
        rw [hs.1]; unfold IsShared IsFun IsBin IsPoly; decide) rfl rfl
      refine ⟨by convert H3 using 1; omega, ?_, by have := (hd0.trans hd2).trans hd3; convert this using 1; omega⟩
      rw [Forest.offs]
      simpa using hx3
    · simp at h1

end

end tree

/-- The state after the first loop. -/
theorem scan_done {T : Tree} (hT : T.NoRef) (hs : T.Shape) {cap : Nat} (hc : cap < 2 ^ 64) {pad : List Node} (hp : ∀ n ∈ pad, n.o ≠ Op.cse)
    {refs : List Nat} {s' : Scan} (h : scanLoop cap T.post.length 0 ⟨T.post ++ pad, [], Stk.fresh 0 cap, refs, 0⟩ = ok s') :
    ScanInv T s'.nodes (ranges s'.known) T.post.length ∧ (T.Distinct → s'.nodes = T.post ++ pad ∧ Tab T s'.known T.post.length) := by
  have := scan_tree hT (xs := []) T.at_zero hs ?_ ?_ h
  · refine ⟨by simpa using this.1, fun hd => ?_⟩
    obtain ⟨h1, h2⟩ := this.2.2 hd
    rw [Nat.zero_add] at h2
    refine ⟨h1, h2 (fun j hj => List.getElem?_append_left hj) ⟨fun x u _ h1 => ?_, fun y hy => by simp [ranges] at hy, fun _ c hc => by simp at hc⟩⟩
    have := u.post_pos
    omega
  · refine ⟨fun p n hn hp => ?_, fun p n hp' hn => ?_, fun p _ hp => ?_, by simp, ?_, List.Pairwise.nil, ?_⟩
    · rw [List.getElem?_append_left hp] at hn
      exact Or.inl hn
    · rw [List.getElem?_append_right hp'] at hn
      exact hp n (List.mem_of_getElem? hn)
    · rw [List.getElem?_append_left hp]
    · intro x hx; simp [ranges] at hx
    · intro x hx; simp [ranges] at hx
  · exact ⟨by simp [Stk.fresh], rfl, by simpa [Stk.fresh] using hc⟩

end Gal
