import Verif.ReshapeEmit

/-!
# The whole of `rpn_reshape`
-/

namespace Gal

open Out

variable {T : Tree} {nodes : List Node} {kr : List (Nat × Nat)} {i : Nat} {σ : Nat → Tree}

/-- A copy that has passed its end does not come back. -/
theorem emitLoop_past (hT : T.NoRef) (H : EmitInv T nodes kr i) {stop : Nat} : ∀ {fuel j : Nat} {s s' : Emit}, stop < j →
    emitLoop nodes stop fuel j s = ok s' → False
  | 0, j, s, s', hj, h => by rw [emitLoop, if_neg (by omega)] at h; simp at h
  | fuel + 1, j, s, s', hj, h => by
    rw [emitLoop, if_neg (by omega)] at h
    simp only [bind_eq_ok, atO_ok] at h
    obtain ⟨n, hn, s1, -, h⟩ := h
    refine emitLoop_past hT H ?_ h
    split
    · rename_i ho
      obtain ⟨-, u, -, -, -, hck, -⟩ := flat_cse' hT H hn ho
      omega
    · omega

theorem emitLoop_end {stop fuel : Nat} {s s' : Emit} (h : emitLoop nodes stop fuel stop s = ok s') : s' = s := by
  cases fuel with
  | zero => rw [emitLoop, if_pos rfl, ok_inj] at h; exact h.symm
  | succ fuel => rw [emitLoop, if_pos rfl, ok_inj] at h; exact h.symm

/-- The copy of a whole range. -/
theorem copy_range (hT : T.NoRef) (hTs : T.Shape) (hc : Coherent T) (H : EmitInv T nodes kr i) (hσ : Records T kr σ) {t : Tree} {p fuel : Nat}
    {out : List Node} {s' : Emit} (ha : T.At p t) (h : emitLoop nodes (p + t.post.length) fuel p ⟨out, []⟩ = ok s') :
    ∃ t' : Tree, t'.Shape ∧ (t'.expand σ).Eqv t ∧ RefsOk nodes kr i (p + t.post.length) t'.post ∧ s'.out = out ++ t'.post ∧
      CutTree T nodes kr i p t t' := by
  have hf : SkipFits nodes p t.post.length := by
    intro n hn ho
    by_contra hlt
    obtain ⟨fuel', s1, -, h⟩ := emitLoop_step (by have := t.post_pos; omega) hn h
    rw [if_pos ho] at h
    exact emitLoop_past hT H (by omega) h
  obtain ⟨t', fuel', h1, h2, h3, hcut, h4⟩ := copy_tree hT hTs hc H hσ ha (ha.shape hTs) hf (Nat.le_refl _) h
  exact ⟨t', h1, h2, h3, by rw [emitLoop_end h4], hcut⟩

theorem sorted_lt (hs : kr.Pairwise fun a b => a.1 + a.2 < b.1 + b.2) {j k : Nat} {x y : Nat × Nat} (hx : kr[j]? = some x)
    (hy : kr[k]? = some y) (h : x.1 + x.2 < y.1 + y.2) : j < k := by
  by_contra hjk
  obtain ⟨h1, rfl⟩ := List.getElem?_eq_some_iff.1 hx
  obtain ⟨h2, rfl⟩ := List.getElem?_eq_some_iff.1 hy
  rcases Nat.lt_or_eq_of_le (Nat.le_of_not_lt hjk) with hlt | rfl
  · have := List.pairwise_iff_getElem.1 hs k j h2 h1 hlt
    omega
  · omega

/-- The entry exists and is written out. -/
def Emitted (known : List Cse) (k : Nat) : Prop := ∃ c, known[k]? = some c ∧ (c.refs > 1 ∨ c.required = true)

/-- All references are to entries that are written out. -/
def RefsEmitted (known : List Cse) (ns : List Node) : Prop := ∀ n ∈ ns, n.o = Op.cse → Emitted known n.ex

theorem Emitted.set {known : List Cse} {i k : Nat} {c c' : Cse} (hc : known[i]? = some c) (h1 : c'.refs = c.refs)
    (h2 : c'.required = c.required) (h : Emitted known k) : Emitted (known.set i c') k := by
  obtain ⟨d, hd, hor⟩ := h
  by_cases hk : i = k
  · subst hk
    rw [hc] at hd
    injection hd with hd
    subst hd
    exact ⟨c', List.getElem?_set_self (List.getElem?_eq_some_iff.1 hc).1, by rw [h1, h2]; exact hor⟩
  · exact ⟨d, by rw [List.getElem?_set_ne hk, hd], hor⟩

theorem Emitted.of_set {known : List Cse} {i k : Nat} {c c' : Cse} (hc : known[i]? = some c) (h1 : c'.refs = c.refs)
    (h2 : c'.required = c.required) (h : Emitted (known.set i c') k) : Emitted known k := by
  obtain ⟨d, hd, hor⟩ := h
  by_cases hk : i = k
  · subst hk
    rw [List.getElem?_set_self (List.getElem?_eq_some_iff.1 hc).1] at hd
    injection hd with hd
    subst hd
    exact ⟨c, hc, by rw [← h1, ← h2]; exact hor⟩
  · rw [List.getElem?_set_ne hk] at hd
    exact ⟨d, hd, hor⟩

/-- Where an entry below `i` has been written out, a reference stands for it or for more. -/
def Marks (known : List Cse) (nodes : List Node) (i : Nat) : Prop :=
  ∀ (j : Nat) (x : Nat × Nat), j < i → Emitted known j → (ranges known)[j]? = some x → Covered nodes x.1 x.2

/-- `t` was copied for entry `k` when the entries below it had been written out. -/
def CopiedFor (T : Tree) (σ : Nat → Tree) (known : List Cse) (t : Tree) (k : Nat) : Prop :=
  ∃ nodes x, Marks known nodes k ∧ (ranges known)[k]? = some x ∧ CutTree T nodes (ranges known) k x.1 (σ k) t

/-- What the second loop writes: the temporaries `ts`, one for each of the entries `ks`. -/
structure Written (T : Tree) (σ : Nat → Tree) (i count : Nat) (known known' : List Cse) (ks : List Nat) (ts : List Tree) : Prop where
  ranges : ranges known' = ranges known
  below : ∀ k, k < i → known'[k]? = known[k]?
  incr : ks.Pairwise (· < ·)
  lower : ∀ k ∈ ks, i ≤ k
  index : ∀ j k, ks[j]? = some k → ∃ c, known'[k]? = some c ∧ c.finalIndex = count + j
  all : ∀ k c, i ≤ k → known'[k]? = some c → c.refs > 1 ∨ c.required = true → k ∈ ks
  subtree : ∀ k ∈ ks, ∃ p, T.At p (σ k)
  emitted : ∀ {k}, Emitted known k ↔ Emitted known' k
  trees : List.Forall₂ (fun (t : Tree) k => t.Shape ∧ (t.expand σ).Eqv (σ k) ∧ t.RefsBelow k) ts ks

theorem emitKnown_written (hT : T.NoRef) (hTs : T.Shape) (hc : Coherent T) : ∀ {fuel i : Nat} {nodes : List Node} {known : List Cse}
    {count : Nat} {out : List Node} {nodes' : List Node} {known' : List Cse} {out' : List Node},
    EmitInv T nodes (ranges known) i → Records T (ranges known) σ → i + fuel = known.length →
    emitKnown fuel i nodes known count out = ok (nodes', known', out') →
    ∃ ks ts, Written T σ i count known known' ks ts ∧ EmitInv T nodes' (ranges known) (i + fuel) ∧ out' = out ++ blocks ts ∧
      (RefsEmitted known nodes → RefsEmitted known' nodes' ∧ RefsEmitted known' (blocks ts)) ∧
      (Marks known nodes i → Marks known nodes' (i + fuel) ∧ List.Forall₂ (CopiedFor T σ known) ts ks)
  | 0, i, nodes, known, count, out, nodes', known', out', H, hσ, hl, h => by
    rw [emitKnown, ok_inj] at h
    simp only [Prod.mk.injEq] at h
    obtain ⟨rfl, rfl, rfl⟩ := h
    refine ⟨[], [], ⟨rfl, fun _ _ => rfl, .nil, by simp, by simp, fun k c hk hc _ => ?_, by simp, Iff.rfl, .nil⟩, H, by simp [blocks], fun h => ⟨h, by intro n hn; simp [blocks] at hn⟩,
      fun h => ⟨h, .nil⟩⟩
    have := (List.getElem?_eq_some_iff.1 hc).1
    omega
  | fuel + 1, i, nodes, known, count, out, nodes', known', out', H, hσ, hl, h => by
    rw [emitKnown] at h
    simp only [bind_eq_ok, atO_ok] at h
    obtain ⟨c, hci, h⟩ := h
    have hi : i < known.length := by omega
    split at h
    · rename_i hreq
      simp only [bind_eq_ok] at h
      obtain ⟨e, he, nodes2, hn2, h⟩ := h
      have hr : (ranges known)[i]? = some (c.offset, c.count) := by rw [ranges, List.getElem?_map, hci]; rfl
      obtain ⟨hσi, hσl⟩ := hσ _ _ hr
      dsimp only at hσi hσl
      rw [← hσl] at he hn2
      obtain ⟨t', t1, t2, t3, t4, tc⟩ := copy_range hT hTs hc H hσ hσi he
      obtain ⟨n0, hn0, rfl⟩ := setRef_ok hn2
      have hrs : ranges (known.set i { c with finalIndex := count }) = ranges known := ranges_set hci rfl rfl
      have hpos := (σ i).post_pos
      have hle := hσi.le
      have H2 : EmitInv T (nodes.set c.offset { n0 with o := Op.cse, checksum := c.offset + (σ i).post.length, ex := i })
          (ranges (known.set i { c with finalIndex := count })) (i + 1) := by
        rw [hrs]
        refine ⟨fun p n hn hp => ?_, fun p n hp hn => ?_, by simpa using H.len, H.sorted, H.sub⟩
        · by_cases hpo : p = c.offset
          · subst hpo
            rw [List.getElem?_set_self (List.getElem?_eq_some_iff.1 hn0).1, Option.some.injEq] at hn
            subst hn
            right
            refine ⟨rfl, σ i, σ i, c.offset, hσi, rfl, by rw [hσl]; exact hr, hσi, ?_, Or.inr (Nat.lt_succ_self _)⟩
            exact List.forall₂_same.2 fun x _ => same_refl x
          · rw [List.getElem?_set_ne (by omega)] at hn
            exact (H.flat p n hn hp).imp id fun h => h.mono (by omega)
        · rw [List.getElem?_set_ne (by omega)] at hn
          exact H.pad p n hp hn
      obtain ⟨ks, ts, W, H3, ho, hR, hM⟩ := emitKnown_written hT hTs hc H2 (by rw [hrs]; exact hσ) (by rw [List.length_set]; omega) h
      rw [hrs] at H3
      have hki : known'[i]? = some { c with finalIndex := count } := by
        rw [W.below i (by omega), List.getElem?_set_self hi]
      refine ⟨i :: ks, t' :: ts, ⟨W.ranges.trans hrs, fun k hk => ?_, ?_, ?_, ?_, ?_, fun k hk => ?_, ⟨fun h => W.emitted.1 (h.set hci rfl rfl), fun h => Emitted.of_set (c' := { c with finalIndex := count }) hci rfl rfl (W.emitted.2 h)⟩, ?_⟩, ?_, ?_,
        fun hre => ?_, fun hmk => ?_⟩
      · rw [W.below k (by omega), List.getElem?_set_ne (by omega)]
      · exact List.pairwise_cons.2 ⟨fun k hk => by have := W.lower k hk; omega, W.incr⟩
      · intro k hk
        rcases List.mem_cons.1 hk with rfl | hk
        · exact Nat.le_refl _
        · have := W.lower k hk; omega
      · intro j k hj
        cases j with
        | zero =>
          rw [List.getElem?_cons_zero, Option.some.injEq] at hj
          subst hj
          exact ⟨_, hki, by simp⟩
        | succ j =>
          rw [List.getElem?_cons_succ] at hj
          obtain ⟨c', h1, h2⟩ := W.index j k hj
          exact ⟨c', h1, by omega⟩
      · intro k c' hk hc' hreq'
        rcases Nat.lt_or_eq_of_le hk with hlt | rfl
        · exact List.mem_cons_of_mem _ (W.all k c' (by omega) hc' hreq')
        · exact List.mem_cons_self
      · rcases List.mem_cons.1 hk with rfl | hk
        · exact ⟨_, hσi⟩
        · exact W.subtree k hk
      · refine .cons ⟨t1, t2, fun n hn hno => ?_⟩ W.trees
        obtain ⟨-, x, hx, hor⟩ := t3 n hn hno
        rcases hor with hor | hor
        · refine sorted_lt H.sorted hx hr ?_
          dsimp only; omega
        · exact hor
      · rw [show i + (fuel + 1) = i + 1 + fuel by omega]; exact H3
      · rw [ho, t4]
        simp [blocks]
      · have hre2 : RefsEmitted (known.set i { c with finalIndex := count })
            (nodes.set c.offset { n0 with o := Op.cse, checksum := c.offset + (σ i).post.length, ex := i }) := by
          intro n hn hno
          rcases List.mem_or_eq_of_mem_set hn with hn | rfl
          · exact (hre n hn hno).set hci rfl rfl
          · exact Emitted.set hci rfl rfl ⟨c, hci, hreq⟩
        obtain ⟨r1, r2⟩ := hR hre2
        refine ⟨r1, ?_⟩
        intro n hn hno
        rw [blocks, List.flatMap_cons, List.mem_append, List.mem_append] at hn
        rcases hn with (hn | hn) | hn
        · exact W.emitted.1 (Emitted.set hci rfl rfl (hre n (t3 n hn hno).1 hno))
        · rw [List.mem_singleton] at hn; subst hn; exact absurd hno (by decide)
        · exact r2 n hn hno
      · have hmk2 : Marks (known.set i { c with finalIndex := count })
            (nodes.set c.offset { n0 with o := Op.cse, checksum := c.offset + (σ i).post.length, ex := i }) (i + 1) := by
          intro j x hj hem hx
          rw [hrs] at hx
          have hem := Emitted.of_set (c' := { c with finalIndex := count }) hci rfl rfl hem
          by_cases hxo : x.1 = c.offset
          · refine ⟨_, by rw [hxo]; exact List.getElem?_set_self (List.getElem?_eq_some_iff.1 hn0).1, rfl, ?_⟩
            dsimp only
            rcases Nat.lt_or_eq_of_le (Nat.le_of_lt_succ hj) with hlt | rfl
            · obtain ⟨h1, e1⟩ := List.getElem?_eq_some_iff.1 hx
              obtain ⟨h2, e2⟩ := List.getElem?_eq_some_iff.1 hr
              have := List.pairwise_iff_getElem.1 H.sorted j i h1 h2 hlt
              rw [e1, e2] at this
              dsimp only at this
              omega
            · rw [hr] at hx
              injection hx with hx
              subst hx
              dsimp only
              omega
          · have hlt : j < i := by
              rcases Nat.lt_or_eq_of_le (Nat.le_of_lt_succ hj) with hlt | rfl
              · exact hlt
              · rw [hr] at hx
                injection hx with hx
                subst hx
                exact absurd rfl hxo
            obtain ⟨n, h1, h2⟩ := hmk j x hlt hem hx
            exact ⟨n, by rw [List.getElem?_set_ne (Ne.symm hxo)]; exact h1, h2⟩
        obtain ⟨m1, m2⟩ := hM hmk2
        have hback : ∀ {nodes : List Node} {k : Nat}, Marks (known.set i { c with finalIndex := count }) nodes k → Marks known nodes k := by
          intro nodes k h j x hj hem hx
          exact h j x hj (hem.set hci rfl rfl) (by rw [hrs]; exact hx)
        refine ⟨by rw [show i + (fuel + 1) = i + 1 + fuel by omega]; exact hback m1, .cons ⟨nodes, _, hmk, hr, tc⟩ (m2.imp ?_)⟩
        rintro t k ⟨ns, x, h1, h2, h3⟩
        rw [hrs] at h2 h3
        exact ⟨ns, x, hback h1, h2, h3⟩
    · rename_i hreq
      have H2 : EmitInv T nodes (ranges known) (i + 1) :=
        ⟨fun p n hn hp => (H.flat p n hn hp).imp id fun h => h.mono (by omega), H.pad, H.len, H.sorted, H.sub⟩
      obtain ⟨ks, ts, W, H3, ho, hR, hM⟩ := emitKnown_written hT hTs hc H2 hσ (by omega) h
      refine ⟨ks, ts, ⟨W.ranges, fun k hk => W.below k (by omega), W.incr, fun k hk => by have := W.lower k hk; omega, W.index, ?_,
        W.subtree, W.emitted, W.trees⟩, by rw [show i + (fuel + 1) = i + 1 + fuel by omega]; exact H3, ho, hR, fun hmk => ?_⟩
      swap
      · obtain ⟨m1, m2⟩ := hM (by
          intro j x hj hem hx
          rcases Nat.lt_or_eq_of_le (Nat.le_of_lt_succ hj) with hlt | rfl
          · exact hmk j x hlt hem hx
          · obtain ⟨d, hd, hd'⟩ := hem
            rw [hci] at hd
            injection hd with hd
            subst hd
            exact absurd hd' hreq)
        exact ⟨by rw [show i + (fuel + 1) = i + 1 + fuel by omega]; exact m1, m2⟩
      intro k c' hk hc' hreq'
      rcases Nat.lt_or_eq_of_le hk with hlt | rfl
      · exact W.all k c' (by omega) hc' hreq'
      · rw [W.below _ (by omega), hci] at hc'
        injection hc' with hc'
        subst hc'
        exact absurd hreq' hreq

/-! ## Renumbering -/

/-- Change the target of references. -/
def Node.renum (r : Nat → Nat) (n : Node) : Node := if n.o = Op.cse then { n with ex := r n.ex } else n

mutual

/-- Change the targets of all references. -/
def Tree.renum (r : Nat → Nat) : Tree → Tree
  | .leaf n => .leaf (n.renum r)
  | .un n t => .un n (t.renum r)
  | .bin n a b => .bin n (a.renum r) (b.renum r)
  | .poly n f => .poly n (f.renum r)

/-- See `Tree.renum`. -/
def Forest.renum (r : Nat → Nat) : Forest → Forest
  | .nil => .nil
  | .cons se t f => .cons se (t.renum r) (f.renum r)

end

theorem Node.renum_ne {r : Nat → Nat} {n : Node} (h : n.o ≠ Op.cse) : n.renum r = n := by rw [Node.renum, if_neg h]

theorem Node.renum_o (r : Nat → Nat) (n : Node) : (n.renum r).o = n.o := by
  rw [Node.renum]; split <;> rfl

theorem Forest.renum_length (r : Nat → Nat) : ∀ f : Forest, (f.renum r).length = f.length
  | .nil => rfl
  | .cons se t f => by rw [Forest.renum, Forest.length, Forest.length, Forest.renum_length r f]

mutual

theorem Tree.renum_post (r : Nat → Nat) : ∀ {t : Tree}, t.Shape → (t.renum r).post = t.post.map (Node.renum r)
  | .leaf n, _ => by rw [Tree.renum, Tree.post, Tree.post]; rfl
  | .un n t, h => by
    rw [Tree.Shape] at h
    rw [Tree.renum, Tree.post, Tree.post, Tree.renum_post r h.2, List.map_append, List.map_singleton, Node.renum_ne h.1.plain.2.2]
  | .bin n a b, h => by
    rw [Tree.Shape] at h
    rw [Tree.renum, Tree.post, Tree.post, Tree.renum_post r h.2.1, Tree.renum_post r h.2.2, List.map_append, List.map_append,
      List.map_singleton, Node.renum_ne h.1.plain.2.2]
  | .poly n f, h => by
    rw [Tree.Shape] at h
    rw [Tree.renum, Tree.post, Tree.post, Forest.renum_post r h.2.2.2, List.map_append, List.map_singleton, Node.renum_ne h.1.plain]

theorem Forest.renum_post (r : Nat → Nat) : ∀ {f : Forest}, f.Shape → (f.renum r).post = f.post.map (Node.renum r)
  | .nil, _ => by rw [Forest.renum, Forest.post]; rfl
  | .cons se t f, h => by
    rw [Forest.Shape] at h
    rw [Forest.renum, Forest.post, Forest.post, Tree.renum_post r h.2.2.1, Forest.renum_post r h.2.2.2, List.map_cons, List.map_append,
      Node.renum_ne (by rw [h.1]; decide)]

end

mutual

theorem Tree.renum_shape (r : Nat → Nat) : ∀ {t : Tree}, t.Shape → (t.renum r).Shape
  | .leaf n, h => by
    rw [Tree.Shape] at h
    rw [Tree.renum, Tree.Shape, Node.renum_o]; exact h
  | .un n t, h => by
    rw [Tree.Shape] at h
    rw [Tree.renum, Tree.Shape]; exact ⟨h.1, Tree.renum_shape r h.2⟩
  | .bin n a b, h => by
    rw [Tree.Shape] at h
    rw [Tree.renum, Tree.Shape]; exact ⟨h.1, Tree.renum_shape r h.2.1, Tree.renum_shape r h.2.2⟩
  | .poly n f, h => by
    rw [Tree.Shape] at h
    rw [Tree.renum, Tree.Shape, Forest.renum_length]; exact ⟨h.1, h.2.1, h.2.2.1, Forest.renum_shape r h.2.2.2⟩

theorem Forest.renum_shape (r : Nat → Nat) : ∀ {f : Forest}, f.Shape → (f.renum r).Shape
  | .nil, _ => by rw [Forest.renum, Forest.Shape]; trivial
  | .cons se t f, h => by
    rw [Forest.Shape] at h
    rw [Forest.renum, Forest.Shape, Tree.renum_post r h.2.2.1, List.length_map]
    exact ⟨h.1, h.2.1, Tree.renum_shape r h.2.2.1, Forest.renum_shape r h.2.2.2⟩

end

mutual

theorem Tree.renum_expand {r : Nat → Nat} {σ τ : Nat → Tree} : ∀ {t : Tree}, (∀ n ∈ t.post, n.o = Op.cse → τ (r n.ex) = σ n.ex) →
    (t.renum r).expand τ = t.expand σ
  | .leaf n, h => by
    rw [Tree.renum, Tree.expand, Tree.expand, Node.renum_o]
    split
    · rename_i ho
      rw [Node.renum, if_pos ho]
      exact h n (by rw [Tree.post]; exact List.mem_singleton_self _) ho
    · rename_i ho; rw [Node.renum_ne ho]
  | .un n t, h => by
    rw [Tree.renum, Tree.expand, Tree.expand, Tree.renum_expand fun m hm => h m (by rw [Tree.post]; simp [hm])]
  | .bin n a b, h => by
    rw [Tree.renum, Tree.expand, Tree.expand, Tree.renum_expand fun m hm => h m (by rw [Tree.post]; simp [hm]),
      Tree.renum_expand fun m hm => h m (by rw [Tree.post]; simp [hm])]
  | .poly n f, h => by
    rw [Tree.renum, Tree.expand, Tree.expand, Forest.renum_expand fun m hm => h m (by rw [Tree.post]; simp [hm])]

theorem Forest.renum_expand {r : Nat → Nat} {σ τ : Nat → Tree} : ∀ {f : Forest}, (∀ n ∈ f.post, n.o = Op.cse → τ (r n.ex) = σ n.ex) →
    (f.renum r).expand τ = f.expand σ
  | .nil, _ => by rw [Forest.renum, Forest.expand, Forest.expand]
  | .cons se t f, h => by
    rw [Forest.renum, Forest.expand, Forest.expand, Tree.renum_expand fun m hm => h m (by rw [Forest.post]; simp [hm]),
      Forest.renum_expand fun m hm => h m (by rw [Forest.post]; simp [hm])]

end

theorem mapO_map {α β : Type} {f : α → Out β} {g : α → β} : ∀ {l : List α}, (∀ x ∈ l, f x = ok (g x)) → mapO f l = ok (l.map g)
  | [], _ => rfl
  | x :: l, h => by
    rw [mapO, h x List.mem_cons_self, mapO_map fun y hy => h y (List.mem_cons_of_mem _ hy)]
    rfl

theorem blocks_renum {r : Nat → Nat} : ∀ {ts : List Tree}, (∀ t ∈ ts, t.Shape) →
    (blocks ts).map (Node.renum r) = blocks (ts.map (Tree.renum r))
  | [], _ => rfl
  | t :: ts, h => by
    have ih := blocks_renum (r := r) (ts := ts) fun t ht => h t (List.mem_cons_of_mem _ ht)
    unfold blocks at ih ⊢
    rw [List.flatMap_cons, List.map_cons, List.flatMap_cons, List.map_append, ih, List.map_append,
      Tree.renum_post r (h t List.mem_cons_self), List.map_singleton, Node.renum_ne (by decide)]

/-- Distinct operations carry their own factors. -/
theorem coherent_of_distinct {T : Tree} (hs : T.Shape) (hd : T.Distinct) : Coherent T := by
  intro p q u
  induction hu : u.post.length using Nat.strong_induction_on generalizing p q u with
  | _ len ih =>
    intro v ha hb h
    have hus := ha.shape hs
    have hvs := hb.shape hs
    have same : ∀ {n : Node} {ns : List Node}, u.post = ns ++ [n] → IsShared n.o → List.Forall₂ Node.Same u.post v.post := by
      intro n ns e hsh
      have e1 := Tree.at_last ha e
      have hlen := h.length
      have hl : u.post.length = ns.length + 1 := by rw [e]; simp
      have e2 := hb.get (j := ns.length) (by omega)
      obtain ⟨m, hm⟩ : ∃ m, v.post[ns.length]? = some m := ⟨_, List.getElem?_eq_getElem (by omega)⟩
      rw [hm] at e2
      have e3 : u.post[ns.length]? = some n := by rw [e]; simp
      obtain ⟨g1, g2, g3⟩ := same_iff.1 (h.get e3 hm)
      have := hd _ _ n m e1 e2 hsh g1 g2 g3
      have hpq : p = q := by omega
      subst hpq
      have := ha.unique' hb hlen.symm
      subst this
      exact List.forall₂_same.2 fun x _ => ⟨same_refl x, fun _ => rfl⟩
    cases u with
    | leaf n =>
      rw [Tree.Shape] at hus
      rw [SamePost, Tree.post] at h
      rw [Tree.post]
      generalize v.post = l at h
      cases h with
      | cons h1 h2 =>
        cases h2
        refine .cons ⟨h1, fun hx => ?_⟩ .nil
        exfalso
        rcases hx with hx | hx | hx
        · exact hus.ne hx
        · exact hus.not_bin (Or.inr (Or.inr (Or.inr hx)))
        · exact hus.not_un (Or.inr (Or.inr (Or.inr (Or.inr hx))))
    | un n t =>
      rw [Tree.Shape] at hus
      by_cases hcg : n.o = Op.comp ∨ n.o = Op.grd
      · rw [SamePost, Tree.post] at h
        have hn : ¬ (n.o = Op.se ∨ n.o = Op.div ∨ IsFun n.o) := by
          rcases hcg with e | e <;> rw [e] <;> unfold IsFun <;> decide
        cases v with
        | leaf m =>
          rw [Tree.post] at h
          have := (forall₂_snoc (as := t.post) (bs := []) h).2
          rw [Tree.Shape] at hvs
          exact (hvs.not_un ((same_iff.1 this).1 ▸ hus.1)).elim
        | un m t' =>
          rw [Tree.post] at h
          obtain ⟨h1, h2⟩ := forall₂_snoc h
          have hlt : t.post.length < len := by rw [← hu, Tree.post]; simp
          have := ih _ hlt p q t rfl t' (Tree.at_un ha) (Tree.at_un hb) h1
          rw [Tree.post, Tree.post]
          exact List.rel_append this (.cons ⟨h2, fun hx => absurd hx hn⟩ .nil)
        | bin m l r =>
          rw [Tree.post] at h
          have := (forall₂_snoc h).2
          rw [Tree.Shape] at hvs
          exact (hus.1.not_bin ((same_iff.1 this).1 ▸ hvs.1)).elim
        | poly m f =>
          rw [Tree.post] at h
          have := (forall₂_snoc h).2
          rw [Tree.Shape] at hvs
          exact (hus.1.not_poly ((same_iff.1 this).1 ▸ hvs.1)).elim
      · refine same (n := n) (ns := t.post) (by rw [Tree.post]) ?_
        rcases hus.1 with h | h | h | h | h
        · exact Or.inl h
        · exact Or.inr (Or.inl h)
        · exact absurd (Or.inl h) hcg
        · exact absurd (Or.inr h) hcg
        · exact Or.inr (Or.inr (Or.inl h))
    | bin n l r =>
      rw [Tree.Shape] at hus
      exact same (n := n) (ns := l.post ++ r.post) (by rw [Tree.post]) (Or.inr (Or.inr (Or.inr (Or.inl hus.1))))
    | poly n f =>
      rw [Tree.Shape] at hus
      exact same (n := n) (ns := f.post) (by rw [Tree.post]) (Or.inr (Or.inr (Or.inr (Or.inr hus.1))))

/-- What `rpn_reshape` has done when it is finished, before the references are renumbered. -/
structure Reshaped (T : Tree) (known1 : List Cse) (out : List Node) (known : List Cse) (nodes : List Node) (σ : Nat → Tree) (ks : List Nat)
    (ts : List Tree) (m : Tree) : Prop where
  inv : EmitInv T nodes (ranges known) known.length
  records : Records T (ranges known) σ
  written : Written T σ 0 0 known known1 ks ts
  shape : m.Shape
  eqv : (m.expand σ).Eqv T
  out_eq : out = blocks ts ++ m.post
  emitted : RefsEmitted known1 out
  exact : T.Distinct → Tab T known T.post.length ∧ Marks known nodes known.length ∧ List.Forall₂ (CopiedFor T σ known) ts ks ∧
    CutTree T nodes (ranges known) known.length 0 T m

theorem reshape_written {T : Tree} (hT : T.NoRef) (hTs : T.Shape) (hc : Coherent T) {cap : Nat} (hcap : cap < 2 ^ 64) {q : Rat32}
    {known1 : List Cse} {out : List Node} (hraw : reshapeRaw cap ⟨T.post, q⟩ = ok (known1, out)) (hre : RefsEmitted known1 out ∨ T.Distinct) :
    ∃ known nodes σ ks ts m, Reshaped T known1 out known nodes σ ks ts m := by
  unfold reshapeRaw at hraw
  split at hraw
  · simp at hraw
  simp only [bind_eq_ok] at hraw
  obtain ⟨s, hs, ⟨nodes, known1, temps⟩, hk, hraw⟩ := hraw
  dsimp only at hraw hk
  simp only [bind_eq_ok, pure_eq, ok_inj, Prod.mk.injEq] at hraw
  obtain ⟨m0, hm, rfl, rfl⟩ := hraw
  obtain ⟨S, hSd⟩ := (scan_done hT hTs hcap (by
    intro n hn
    rw [List.mem_replicate] at hn
    rw [hn.2]; decide) hs)
  have H : EmitInv T s.nodes (ranges s.known) 0 := ⟨S.flat, S.pad, S.len, S.sorted, S.sub⟩
  obtain ⟨σ, hσ⟩ : ∃ σ, Records T (ranges s.known) σ := by
    have : ∀ k : Nat, ∃ t : Tree, ∀ x : Nat × Nat, (ranges s.known)[k]? = some x → T.At x.1 t ∧ t.post.length = x.2 := by
      intro k
      cases hx : (ranges s.known)[k]? with
      | none => exact ⟨T, fun x h => by simp at h⟩
      | some x =>
        obtain ⟨u, hu⟩ := S.sub x (List.mem_of_getElem? hx)
        exact ⟨u, fun y hy => by injection hy with hy; rw [← hy]; exact hu⟩
    choose σ hσ using this
    exact ⟨σ, hσ⟩
  obtain ⟨ks, ts, W, H2, rfl, hR, hM⟩ := emitKnown_written hT hTs hc H hσ (by omega) hk
  rw [List.nil_append] at hm
  have hm' : emitLoop nodes (0 + T.post.length) T.post.length 0 ⟨blocks ts, []⟩ = ok m0 := by rw [Nat.zero_add]; exact hm
  obtain ⟨m, m1, m2, m3, m4, mc⟩ := copy_range hT hTs hc H2 hσ T.at_zero hm'
  have hre : RefsEmitted known1 m0.out := by
    refine hre.elim id fun hd => ?_
    obtain ⟨r1, r2⟩ := hR (by
      intro n hn ho
      exfalso
      rw [(hSd hd).1, List.mem_append] at hn
      rcases hn with hn | hn
      · exact hT n hn ho
      · rw [List.mem_replicate] at hn
        rw [hn.2] at ho
        exact absurd ho (by decide))
    rw [m4]
    intro n hn ho
    rcases List.mem_append.1 hn with hn | hn
    · exact r2 n hn ho
    · exact r1 n (m3 n hn ho).1 ho
  rw [Nat.zero_add] at H2 mc hM
  refine ⟨s.known, nodes, σ, ks, ts, m, ⟨H2, hσ, W, m1, m2, m4, hre, fun hd => ?_⟩⟩
  obtain ⟨r1, r2⟩ := hM fun j x hj => absurd hj (by omega)
  exact ⟨(hSd hd).2, r1, r2, mc⟩

theorem Reshaped.renumber {T : Tree} {known1 : List Cse} {out : List Node} {known : List Cse} {nodes : List Node} {σ : Nat → Tree} {ks : List Nat}
    {ts : List Tree} {m : Tree} (R : Reshaped T known1 out known nodes σ ks ts m) :
    (∀ n ∈ out, n.o = Op.cse → n.ex ∈ ks) ∧
    mapO (fixIndex known1) out = ok (blocks (ts.map (Tree.renum fun k => ks.idxOf k)) ++ (m.renum fun k => ks.idxOf k).post) ∧
    ComputesBy (fun j => σ (ks.getD j 0)) (ts.map (Tree.renum fun k => ks.idxOf k)) (m.renum fun k => ks.idxOf k) T := by
  obtain ⟨-, -, W, m1, m2, m4, hre, -⟩ := R
  have hts : ∀ t ∈ ts, t.Shape := by
    intro t ht
    obtain ⟨j, hj, rfl⟩ := List.mem_iff_getElem.1 ht
    exact ((List.forall₂_iff_get.1 W.trees).2 j hj (by rw [← W.trees.length_eq]; exact hj)).1
  have hidx : ∀ n ∈ out, n.o = Op.cse → n.ex ∈ ks := by
    intro n hn ho
    obtain ⟨c, h1, h2⟩ := hre n hn ho
    exact W.all _ c (Nat.zero_le _) h1 h2
  have hfix : ∀ n ∈ out, fixIndex known1 n = ok (n.renum fun k => ks.idxOf k) := by
    intro n hn
    unfold fixIndex Node.renum
    split
    · rename_i ho
      have hin := hidx n hn ho
      obtain ⟨c, h1, h2⟩ := W.index (ks.idxOf n.ex) n.ex (by
        rw [List.getElem?_eq_getElem (List.idxOf_lt_length_of_mem hin), List.getElem_idxOf])
      rw [atO_ok.2 h1, ok_bind, h2, Nat.zero_add]
      rfl
    · rfl
  refine ⟨hidx, ?_, ?_⟩
  · rw [mapO_map hfix, m4, List.map_append, blocks_renum hts, Tree.renum_post _ m1]
  · have hσ' : ∀ k ∈ ks, σ (ks.getD (ks.idxOf k) 0) = σ k := by
      intro k hk
      rw [List.getD_eq_getElem?_getD, List.getElem?_eq_getElem (List.idxOf_lt_length_of_mem hk), List.getElem_idxOf]
      rfl
    have hl := W.trees.length_eq
    refine ⟨fun j t' ht' => ?_, Tree.renum_shape _ m1, ?_, ?_⟩
    · rw [List.getElem?_map, Option.map_eq_some_iff] at ht'
      obtain ⟨t, ht, rfl⟩ := ht'
      have hj : j < ts.length := (List.getElem?_eq_some_iff.1 ht).1
      obtain ⟨t1, t2, t3⟩ := (List.forall₂_iff_get.1 W.trees).2 j hj (by omega)
      rw [List.getElem?_eq_getElem hj] at ht
      injection ht with ht
      simp only [List.get_eq_getElem, ht] at t1 t2 t3
      have hmem : ∀ n ∈ t.post, n ∈ out := by
        intro n hn
        rw [m4, blocks, List.mem_append, List.mem_flatMap]
        left
        exact ⟨t, by rw [← ht]; exact List.getElem_mem hj, List.mem_append_left _ hn⟩
      refine ⟨Tree.renum_shape _ t1, ?_, ?_⟩
      · intro n hn ho
        rw [Tree.renum_post _ t1, List.mem_map] at hn
        obtain ⟨n', hn', rfl⟩ := hn
        rw [Node.renum_o] at ho
        rw [Node.renum, if_pos ho]
        dsimp only
        have hin := hidx n' (hmem n' hn') ho
        have hlt := t3 n' hn' ho
        have hi := List.idxOf_lt_length_of_mem hin
        by_contra hcon
        have hge : j ≤ ks.idxOf n'.ex := by omega
        rcases Nat.lt_or_eq_of_le hge with h | h
        · have := List.pairwise_iff_getElem.1 W.incr j (ks.idxOf n'.ex) (by omega) hi h
          rw [List.getElem_idxOf] at this
          omega
        · have := List.getElem_idxOf hi
          simp only [← h] at this
          omega
      · rw [Tree.renum_expand (σ := σ) fun n hn ho => hσ' _ (hidx n (hmem n hn) ho)]
        have e : ks.getD j 0 = ks[j]'(by omega) := by
          rw [List.getD_eq_getElem?_getD, List.getElem?_eq_getElem (by omega)]; rfl
        dsimp only
        rw [e]
        exact ⟨t2, W.subtree _ (List.getElem_mem _)⟩
    · intro n hn ho
      rw [Tree.renum_post _ m1, List.mem_map] at hn
      obtain ⟨n', hn', rfl⟩ := hn
      rw [Node.renum_o] at ho
      rw [Node.renum, if_pos ho, List.length_map, hl]
      exact List.idxOf_lt_length_of_mem (hidx n' (by rw [m4]; exact List.mem_append_right _ hn') ho)
    · rw [Tree.renum_expand (σ := σ) fun n hn ho => hσ' _ (hidx n (by rw [m4]; exact List.mem_append_right _ hn) ho)]
      exact m2

theorem reshape_computes {T : Tree} (hT : T.NoRef) (hTs : T.Shape) (hc : Coherent T) {cap : Nat} (hcap : cap < 2 ^ 64) {q : Rat32}
    {known : List Cse} {out : List Node} (hraw : reshapeRaw cap ⟨T.post, q⟩ = ok (known, out)) (hre : RefsEmitted known out ∨ T.Distinct) :
    ∃ ts m, mapO (fixIndex known) out = ok (blocks ts ++ m.post) ∧ Computes ts m T := by
  obtain ⟨_, _, σ, ks, ts, m, R⟩ := reshape_written hT hTs hc hcap hraw hre
  obtain ⟨-, h1, h2⟩ := R.renumber
  exact ⟨_, _, h1, _, h2⟩

end Gal
