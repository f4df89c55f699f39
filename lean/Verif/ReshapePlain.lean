import Verif.ReshapeDone

/-!
# Extraction of common subexpressions when there is nothing to extract

If no operation occurs twice, and no operation needs its operand as a number, `rpn_reshape` copies the nodes.  Unlike the results on single
expressions, this holds for the blocks of a tuple as well.
-/

namespace Gal

open Out

/-- Entries of the table for nodes before `i`, each used once. -/
def Fresh (nodes : List Node) (i : Nat) (known : List Cse) : Prop :=
  ∀ c ∈ known, c.refs = 1 ∧ c.required = false ∧ 0 < c.count ∧ c.offset + c.count ≤ i ∧
    ∃ n, nodes[c.offset + c.count - 1]? = some n ∧ IsShared n.o

/-- No operation occurs twice with the same checksum and count. -/
def DistinctNodes (ns : List Node) : Prop :=
  ∀ (p q : Nat) (a b : Node), ns[p]? = some a → ns[q]? = some b → IsShared a.o → a.o = b.o → a.checksum = b.checksum → a.ex = b.ex → p = q

theorem Fresh.mono {nodes : List Node} {i j : Nat} {known : List Cse} (h : Fresh nodes i known) (hij : i ≤ j) : Fresh nodes j known := by
  intro c hc
  obtain ⟨h1, h2, h3, h4, h5⟩ := h c hc
  exact ⟨h1, h2, h3, by omega, h5⟩

section scan

variable {ns pad : List Node} (hc : ∀ n ∈ ns ++ pad, n.o ≠ Op.cse)

include hc

theorem chase_plain {known : List Cse} {fuel : Nat} {n n' : Node} (hn : n ∈ ns ++ pad) (h : chase known (ns ++ pad) fuel n = ok n') : n' = n := by
  cases fuel with
  | zero => cases h
  | succ fuel =>
    rw [chase, if_neg (hc n hn), ok_inj] at h
    exact h.symm

theorem compareLoop_last {known : List Cse} {lo ro count : Nat} : ∀ {fuel i : Nat}, i < count →
    compareLoop known (ns ++ pad) lo ro count fuel i = ok true →
    ∃ a b, (ns ++ pad)[lo + count - 1]? = some a ∧ (ns ++ pad)[ro + count - 1]? = some b ∧ a.same b = true
  | 0, i, hi, h => by
    rw [compareLoop, if_neg (by omega)] at h
    cases h
  | fuel + 1, i, hi, h => by
    rw [compareLoop, if_neg (by omega)] at h
    simp only [bind_eq_ok, atO_ok] at h
    obtain ⟨l, hl, r, hr, h⟩ := h
    have ml := List.mem_of_getElem? hl
    have mr := List.mem_of_getElem? hr
    rw [if_neg (fun hh => hc l ml hh.1)] at h
    simp only [bind_eq_ok] at h
    obtain ⟨l', hl', r', hr', h⟩ := h
    have := chase_plain hc ml hl'
    have := chase_plain hc mr hr'
    subst l' r'
    split at h
    · rename_i hs
      by_cases he : i + 1 < count
      · exact compareLoop_last he h
      · have e : i = count - 1 := by omega
        exact ⟨l, r, by rw [← hl]; congr 1; omega, by rw [← hr]; congr 1; omega, hs⟩
    · rw [pure_eq, ok_inj] at h
      cases h

theorem findSe_none {known : List Cse} {i : Nat} (hd : DistinctNodes ns) (hi : i < ns.length) {n : Node} (hn : ns[i]? = some n)
    (hs : IsShared n.o) {next : Cse} (h1 : 0 < next.count) (h2 : next.offset + next.count = i + 1) :
    ∀ {ks : List Cse} {j : Nat} {r : Option Nat}, Fresh (ns ++ pad) i ks → findSe known (ns ++ pad) next j ks = ok r → r = none
  | [], j, r, _, h => by
    rw [findSe, ok_inj] at h
    exact h.symm
  | k :: ks, j, r, hf, h => by
    rw [findSe, bind_eq_ok] at h
    obtain ⟨b, hb, h⟩ := h
    cases b with
    | false => exact findSe_none hd hi hn hs h1 h2 (fun c hc => hf c (List.mem_cons_of_mem _ hc)) h
    | true =>
      exfalso
      obtain ⟨-, -, g3, g4, m, g5, g6⟩ := hf k List.mem_cons_self
      unfold compareSe at hb
      split at hb
      · rw [ok_inj] at hb; cases hb
      · rename_i hne
        have hcnt : k.count = next.count := by
          by_contra hh
          exact hne (Or.inr hh)
        obtain ⟨a, b, ha, hb, hab⟩ := compareLoop_last hc g3 hb
        rw [g5] at ha
        injection ha with ha
        subst ha
        rw [hcnt, show next.offset + next.count - 1 = i by omega, List.getElem?_append_left hi, hn] at hb
        injection hb with hb
        subst hb
        rw [List.getElem?_append_left (by omega)] at g5
        obtain ⟨e1, e2, e3⟩ := same_iff.1 hab
        have := hd _ _ _ _ g5 hn g6 e1 e2 e3
        omega

/-- An operation that occurs for the first time is added to the table. -/
theorem registerSe_fresh {cap i off : Nat} {crc : Nat} (hd : DistinctNodes ns) (hi : i < ns.length) {n : Node} (hn : ns[i]? = some n)
    (hs : IsShared n.o) (ho : off ≤ i) {known known' : List Cse} {k : Nat} (hf : Fresh (ns ++ pad) i known)
    (h : registerSe cap (ns ++ pad) known crc off (i - off + 1) false = ok (known', k)) : k = 0 ∧ Fresh (ns ++ pad) (i + 1) known' := by
  unfold registerSe at h
  simp only [bind_eq_ok] at h
  obtain ⟨r, hr, h⟩ := h
  have := findSe_none hc hd hi hn hs (next := { crc, offset := off, count := i - off + 1, refs := 1, required := false })
    (by show 0 < i - off + 1; omega) (by show off + (i - off + 1) = i + 1; omega) hf hr
  subst this
  dsimp only at h
  split at h
  · rw [pure_eq, ok_inj, Prod.mk.injEq] at h
    obtain ⟨rfl, rfl⟩ := h
    refine ⟨rfl, fun c hc => ?_⟩
    rcases List.mem_append.1 hc with hc | hc
    · exact hf.mono (Nat.le_succ i) c hc
    · rw [List.mem_singleton] at hc
      subst hc
      refine ⟨rfl, rfl, Nat.succ_pos _, by dsimp only; omega, n, ?_, hs⟩
      dsimp only
      rw [show off + (i - off + 1) - 1 = i by omega, List.getElem?_append_left hi, hn]
  · cases h

theorem scanNode_plain {cap i : Nat} (hd : DistinctNodes ns) {n : Node} (hn : ns[i]? = some n) (h1 : n.o ≠ Op.div) (h2 : ¬ IsFun n.o)
    {s s' : Scan} (hns : s.nodes = ns ++ pad) (hf : Fresh (ns ++ pad) i s.known) (h : scanNode cap i s = ok s') :
    s'.nodes = ns ++ pad ∧ Fresh (ns ++ pad) (i + 1) s'.known := by
  have hi : i < ns.length := (List.getElem?_eq_some_iff.1 hn).1
  have hf' := hf.mono (Nat.le_succ i)
  have key : ∀ {off crc : Nat} {known' : List Cse} {k : Nat}, IsShared n.o → ¬ i < off →
      registerSe cap s.nodes s.known crc off (i - off + 1) false = ok (known', k) → ¬ k > 0 ∧ Fresh (ns ++ pad) (i + 1) known' := by
    intro off crc known' k hs ho hr
    rw [hns] at hr
    obtain ⟨rfl, h⟩ := registerSe_fresh hc hd hi hn hs (by omega) hf hr
    exact ⟨Nat.lt_irrefl 0, h⟩
  unfold scanNode at h
  simp only [bind_eq_ok, atO_ok] at h
  obtain ⟨n', hn', h⟩ := h
  rw [hns, List.getElem?_append_left hi, hn] at hn'
  injection hn' with hn'
  subst n'
  split at h
  · rw [pure_eq, ok_inj] at h; subst h; exact ⟨hns, hf'⟩
  split at h
  · rename_i ho
    have hs : IsShared n.o := by
      rcases ho with ho | ho
      · exact Or.inl ho
      · exact Or.inr (Or.inl ho)
    unfold scanUnary at h
    simp only [bind_eq_ok] at h
    obtain ⟨off, -, h⟩ := h
    split at h
    · cases h
    · rename_i hlt
      simp only [bind_eq_ok, Prod.exists] at h
      obtain ⟨known', k, hr, h⟩ := h
      obtain ⟨k1, k2⟩ := key hs hlt hr
      rw [if_neg k1, pure_eq, ok_inj] at h
      subst h
      exact ⟨hns, k2⟩
  split at h
  · rename_i ho; exact absurd ho h2
  split at h
  · rename_i ho
    have hs : IsShared n.o := Or.inr (Or.inr (Or.inr (Or.inl (by
      rcases ho with ho | ho | ho
      · exact Or.inl ho
      · exact Or.inr (Or.inl ho)
      · exact Or.inr (Or.inr (Or.inl ho))))))
    unfold scanBinary at h
    simp only [bind_eq_ok, Prod.exists] at h
    obtain ⟨lo, offs, -, off, -, h⟩ := h
    split at h
    · cases h
    · rename_i hlt
      simp only [bind_eq_ok, Prod.exists] at h
      obtain ⟨known', k, hr, h⟩ := h
      obtain ⟨k1, k2⟩ := key hs hlt hr
      rw [if_neg k1, pure_eq, ok_inj] at h
      subst h
      exact ⟨hns, k2⟩
  split at h
  · rename_i ho
    have hs : IsShared n.o := Or.inr (Or.inr (Or.inr (Or.inr ho)))
    unfold scanPoly at h
    split at h
    · cases h
    simp only [bind_eq_ok, Prod.exists] at h
    obtain ⟨lo, offs, -, off, -, h⟩ := h
    split at h
    · cases h
    · rename_i hlt
      simp only [bind_eq_ok, Prod.exists] at h
      obtain ⟨known', k, hr, h⟩ := h
      obtain ⟨k1, k2⟩ := key hs hlt hr
      rw [if_neg k1, pure_eq, ok_inj] at h
      subst h
      exact ⟨hns, k2⟩
  split at h
  · simp only [bind_eq_ok] at h
    obtain ⟨offs, -, h⟩ := h
    split at h
    · rw [pure_eq, ok_inj] at h; subst h; exact ⟨hns, hf'⟩
    · cases h
  · simp only [bind_eq_ok, pure_eq, ok_inj] at h
    obtain ⟨offs, -, rfl⟩ := h
    exact ⟨hns, hf'⟩

theorem scanLoop_plain {cap : Nat} (hd : DistinctNodes ns) (h0 : ∀ n ∈ ns, n.o ≠ Op.div ∧ ¬ IsFun n.o) : ∀ {count i : Nat} {s s' : Scan},
    i + count = ns.length → s.nodes = ns ++ pad → Fresh (ns ++ pad) i s.known → scanLoop cap count i s = ok s' →
    s'.nodes = ns ++ pad ∧ Fresh (ns ++ pad) ns.length s'.known
  | 0, i, s, s', hi, hns, hf, h => by
    rw [scanLoop, ok_inj] at h
    subst h
    rw [show ns.length = i by omega]
    exact ⟨hns, hf⟩
  | count + 1, i, s, s', hi, hns, hf, h => by
    rw [scanLoop, bind_eq_ok] at h
    obtain ⟨s1, h1, h⟩ := h
    have hn : ns[i]? = some (ns[i]'(by omega)) := List.getElem?_eq_getElem _
    obtain ⟨g1, g2⟩ := h0 _ (List.mem_of_getElem? hn)
    obtain ⟨k1, k2⟩ := scanNode_plain hc hd hn g1 g2 hns hf h1
    exact scanLoop_plain hd h0 (by omega) k1 k2 h

end scan

/-- Nothing is written out if every entry is used once and none is required. -/
theorem emitKnown_none {nodes : List Node} {known : List Cse} (hk : ∀ c ∈ known, c.refs = 1 ∧ c.required = false) :
    ∀ {fuel i cc : Nat} {out : List Node}, i + fuel = known.length → emitKnown fuel i nodes known cc out = ok (nodes, known, out)
  | 0, _, _, _, _ => rfl
  | fuel + 1, i, cc, out, h => by
    have hi : known[i]? = some (known[i]'(by omega)) := List.getElem?_eq_getElem _
    obtain ⟨h1, h2⟩ := hk _ (List.mem_of_getElem? hi)
    rw [emitKnown, atO_ok.2 hi, ok_bind, if_neg (by rw [h1, h2]; decide)]
    exact emitKnown_none hk (by omega)

/-- Part of the array. -/
def Slice (nodes : List Node) (p : Nat) (ns : List Node) : Prop := ∀ j, j < ns.length → nodes[p + j]? = ns[j]?

theorem Slice.append {nodes : List Node} {p : Nat} {a b : List Node} (h : Slice nodes p (a ++ b)) :
    Slice nodes p a ∧ Slice nodes (p + a.length) b := by
  refine ⟨fun j hj => ?_, fun j hj => ?_⟩
  · rw [h j (by rw [List.length_append]; omega), List.getElem?_append_left hj]
  · rw [Nat.add_assoc, h (a.length + j) (by rw [List.length_append]; omega), List.getElem?_append_right (by omega)]
    congr 1
    omega

theorem Slice.one {nodes : List Node} {p : Nat} {n : Node} (h : Slice nodes p [n]) : nodes[p]? = some n := h 0 (by simp)

theorem emitLoop_next {nodes : List Node} {stop fuel j : Nat} {s s' : Emit} {n : Node} (hj : j < stop) (hn : nodes[j]? = some n)
    (hcn : n.o ≠ Op.cse) (h : emitLoop nodes stop fuel j s = ok s') :
    ∃ fuel' s1, emitNode n s = ok s1 ∧ emitLoop nodes stop fuel' (j + 1) s1 = ok s' := by
  obtain ⟨fuel', s1, h1, h2⟩ := emitLoop_step hj hn h
  rw [if_neg hcn] at h2
  exact ⟨fuel', s1, h1, h2⟩

theorem Node.Eqv.setQ {n : Node} (h : IsPoly n.o) (q : Rat32) : ({ n with q := q } : Node).Eqv n := by
  refine ⟨rfl, rfl, fun _ => rfl, ?_⟩
  dsimp only
  rcases h with h | h <;> rw [h] <;> intro hh <;> revert hh <;> simp [IsFun]

theorem Forest.fix_eqv : ∀ {f g : Forest}, f.Eqv g → f.PreShape → f.fix.Eqv g
  | .nil, g, h, _ => by rw [Forest.fix]; exact h
  | .cons se t f, g, h, hp => by
    rw [Forest.Eqv] at h
    rw [Forest.PreShape] at hp
    obtain ⟨se', t', f', rfl, h1, h2, h3⟩ := h
    rw [Forest.fix, Forest.Eqv]
    refine ⟨se', t', f', rfl, ⟨h1.1, h1.2.1, fun hh => absurd hp.1 hh, fun hh => h1.2.2.2 hh⟩, h2, Forest.fix_eqv h3 hp.2.2⟩

theorem Forest.fix_same : ∀ {f : Forest}, f.Shape → f.fix = f
  | .nil, _ => rfl
  | .cons se t f, h => by
    rw [Forest.Shape] at h
    rw [Forest.fix, Forest.fix_same h.2.2.2, ← h.2.1]

theorem Forest.Shape.pre : ∀ {f : Forest}, f.Shape → f.PreShape
  | .nil, _ => by rw [Forest.PreShape]; trivial
  | .cons se t f, h => by
    rw [Forest.Shape] at h
    rw [Forest.PreShape]
    exact ⟨h.1, h.2.2.1, Forest.Shape.pre h.2.2.2⟩

mutual

/-- Without references a tree is copied; only the filters of sums and exterior products change. -/
theorem copy_plain {nodes : List Node} {stop : Nat} : ∀ {t : Tree} {p fuel : Nat} {s s' : Emit}, t.Shape → (∀ n ∈ t.post, n.o ≠ Op.cse) →
    Slice nodes p t.post → p + t.post.length ≤ stop → emitLoop nodes stop fuel p s = ok s' →
    ∃ (t' : Tree) (fuel' : Nat), t'.Shape ∧ t'.Eqv t ∧ t'.post.length = t.post.length ∧ (∀ n ∈ t'.post, n.o ≠ Op.cse) ∧
      emitLoop nodes stop fuel' (p + t.post.length) ⟨s.out ++ t'.post, s.stk⟩ = ok s'
  | .leaf n, p, fuel, s, s', hs, hc, hsl, hle, h => by
    rw [Tree.post] at hc hsl hle ⊢
    rw [List.length_singleton] at hle ⊢
    have hs' := hs
    rw [Tree.Shape] at hs
    obtain ⟨f1, s1, h1, h2⟩ := emitLoop_next (by omega) hsl.one (hc n (by simp)) h
    rw [emitNode_plain hs.plain.1 hs.plain.2, ok_inj] at h1
    subst h1
    exact ⟨.leaf n, f1, hs', .refl _, by rw [Tree.post]; rfl, by rw [Tree.post]; exact hc, by rw [Tree.post]; exact h2⟩
  | .un n t, p, fuel, s, s', hs, hc, hsl, hle, h => by
    rw [Tree.post] at hc hsl hle ⊢
    rw [List.length_append, List.length_singleton] at hle ⊢
    rw [Tree.Shape] at hs
    obtain ⟨t', f1, a1, a2, a3, a4, a5⟩ := copy_plain hs.2 (fun m hm => hc m (by simp [hm])) hsl.append.1 (by omega) h
    obtain ⟨f2, s1, h1, h2⟩ := emitLoop_next (by omega) hsl.append.2.one (hc n (by simp)) a5
    rw [emitNode_plain hs.1.plain.1 hs.1.plain.2.1, ok_inj] at h1
    subst h1
    refine ⟨.un n t', f2, by rw [Tree.Shape]; exact ⟨hs.1, a1⟩, by rw [Tree.Eqv]; exact ⟨n, t, rfl, .refl n, a2⟩, by rw [Tree.post]; simp [a3], ?_, ?_⟩
    · rw [Tree.post]
      intro m hm
      rcases List.mem_append.1 hm with hm | hm
      · exact a4 m hm
      · exact hc m (by simp [List.mem_singleton.1 hm])
    · rw [Tree.post, ← List.append_assoc, ← Nat.add_assoc]
      exact h2
  | .bin n l r, p, fuel, s, s', hs, hc, hsl, hle, h => by
    rw [Tree.post] at hc hsl hle ⊢
    rw [List.length_append, List.length_append, List.length_singleton] at hle ⊢
    rw [Tree.Shape] at hs
    obtain ⟨l', f1, a1, a2, a3, a4, a5⟩ := copy_plain hs.2.1 (fun m hm => hc m (by simp [hm])) hsl.append.1.append.1 (by omega) h
    obtain ⟨r', f2, b1, b2, b3, b4, b5⟩ := copy_plain hs.2.2 (fun m hm => hc m (by simp [hm])) hsl.append.1.append.2 (by omega) a5
    have hsn := hsl.append.2.one
    rw [List.length_append] at hsn
    obtain ⟨f3, s1, h1, h2⟩ := emitLoop_next (by omega) (by rw [← hsn]; congr 1; omega) (hc n (by simp)) b5
    rw [emitNode_plain hs.1.plain.1 hs.1.plain.2.1, ok_inj] at h1
    subst h1
    refine ⟨.bin n l' r', f3, by rw [Tree.Shape]; exact ⟨hs.1, a1, b1⟩, by rw [Tree.Eqv]; exact ⟨n, l, r, rfl, .refl n, a2, b2⟩,
      by rw [Tree.post]; simp [a3, b3]; omega, ?_, ?_⟩
    · rw [Tree.post]
      intro m hm
      rcases List.mem_append.1 hm with hm | hm
      · rcases List.mem_append.1 hm with hm | hm
        · exact a4 m hm
        · exact b4 m hm
      · exact hc m (by simp [List.mem_singleton.1 hm])
    · rw [Tree.post]
      simp only [List.append_assoc] at h2 ⊢
      rw [show p + (l.post.length + r.post.length + 1) = p + l.post.length + r.post.length + 1 by omega]
      exact h2
  | .poly n f, p, fuel, s, s', hs, hc, hsl, hle, h => by
    rw [Tree.post] at hc hsl hle ⊢
    rw [List.length_append, List.length_singleton] at hle ⊢
    rw [Tree.Shape] at hs
    obtain ⟨f', f1, a1, a2, a3, a4, a5, a6⟩ := copy_plain_forest hs.2.2.2 (fun m hm => hc m (by simp [hm])) hsl.append.1 (by omega) h
    obtain ⟨f2, s1, h1, h2⟩ := emitLoop_next (by omega) hsl.append.2.one (hc n (by simp)) a6
    obtain ⟨q, hq⟩ := emitNode_poly hs.1 (by rw [hs.2.1, a5]) rfl rfl h1
    subst hq
    refine ⟨.poly { n with q := q } f'.fix, f2, ?_, ?_, ?_, ?_, ?_⟩
    · rw [Tree.Shape]
      exact ⟨hs.1, by rw [Forest.fix_length, a5]; exact hs.2.1, by rw [Forest.fix_length, a5]; exact hs.2.2.1, Forest.fix_shape a1.pre⟩
    · rw [Tree.Eqv]
      exact ⟨n, f, rfl, .setQ hs.1 q, Forest.fix_eqv a2 a1.pre⟩
    · rw [Tree.post]
      simp [Forest.fix_post_length, a3]
    · rw [Tree.post]
      intro m hm
      rcases List.mem_append.1 hm with hm | hm
      · rw [Forest.fix_same a1] at hm
        exact a4 m hm
      · rw [List.mem_singleton.1 hm]
        exact hs.1.plain
    · rw [Tree.post, ← Nat.add_assoc]
      exact h2

theorem copy_plain_forest {nodes : List Node} {stop : Nat} : ∀ {f : Forest} {p fuel : Nat} {s s' : Emit}, f.Shape → (∀ n ∈ f.post, n.o ≠ Op.cse) →
    Slice nodes p f.post → p + f.post.length ≤ stop → emitLoop nodes stop fuel p s = ok s' →
    ∃ (f' : Forest) (fuel' : Nat), f'.Shape ∧ f'.Eqv f ∧ f'.post.length = f.post.length ∧ (∀ n ∈ f'.post, n.o ≠ Op.cse) ∧ f'.length = f.length ∧
      emitLoop nodes stop fuel' (p + f.post.length) ⟨s.out ++ f'.post, (f'.pos s.out.length).reverse ++ s.stk⟩ = ok s'
  | .nil, p, fuel, s, s', hs, hc, hsl, hle, h => by
    refine ⟨.nil, fuel, hs, .refl _, rfl, hc, rfl, ?_⟩
    rw [Forest.post, Forest.pos]
    simpa using h
  | .cons se t f, p, fuel, s, s', hs, hc, hsl, hle, h => by
    have hl : (Forest.cons se t f).post.length = 1 + t.post.length + f.post.length := by
      rw [Forest.post]; simp; omega
    rw [hl] at hle ⊢
    rw [Forest.post] at hc hsl
    rw [Forest.Shape] at hs
    have hsl2 : Slice nodes p ([se] ++ (t.post ++ f.post)) := hsl
    obtain ⟨f1, s1, h1, h2⟩ := emitLoop_next (by omega) hsl2.append.1.one (hc se (by simp)) h
    rw [emitNode_se hs.1, ok_inj] at h1
    subst h1
    obtain ⟨t', f2, a1, a2, a3, a4, a5⟩ := copy_plain hs.2.2.1 (fun m hm => hc m (by simp [hm])) hsl2.append.2.append.1
      (by simp only [List.length_singleton]; omega) h2
    obtain ⟨f', f3, b1, b2, b3, b4, b5, b6⟩ := copy_plain_forest hs.2.2.2 (fun m hm => hc m (by simp [hm])) hsl2.append.2.append.2
      (by simp only [List.length_singleton]; omega) a5
    refine ⟨.cons se t' f', f3, ?_, ?_, ?_, ?_, ?_, ?_⟩
    · rw [Forest.Shape]
      exact ⟨hs.1, by rw [a3]; exact hs.2.1, a1, b1⟩
    · rw [Forest.Eqv]
      exact ⟨se, t, f, rfl, .refl se, a2, b2⟩
    · rw [Forest.post, List.length_cons, List.length_append, a3, b3]
      omega
    · rw [Forest.post]
      intro m hm
      rcases List.mem_cons.1 hm with rfl | hm
      · exact hc m (by simp)
      · rcases List.mem_append.1 hm with hm | hm
        · exact a4 m hm
        · exact b4 m hm
    · rw [Forest.length, Forest.length, b5]
    · rw [Forest.post, Forest.pos]
      rw [show p + (1 + t.post.length + f.post.length) = p + 1 + t.post.length + f.post.length by omega]
      have e : (s.out ++ [se] ++ t'.post).length = s.out.length + 1 + t'.post.length := by simp; omega
      dsimp only at b6
      rw [e] at b6
      simpa using b6

end

/-- Without repeated operations and without quotients and functions, `rpn_reshape` is the copying loop. -/
theorem reshape_copies {ns : List Node} (hc : ∀ n ∈ ns, n.o ≠ Op.cse) (hd : DistinctNodes ns)
    (h0 : ∀ n ∈ ns, n.o ≠ Op.div ∧ ¬ IsFun n.o) {cap : Nat} {q : Rat32} {r : Rpne} (h : reshape cap ⟨ns, q⟩ = ok r) :
    ∃ pad known fuel m, emitLoop (ns ++ pad) ns.length fuel 0 ⟨[], []⟩ = ok m ∧ mapO (fixIndex known) m.out = ok r.nodes ∧ r.q = q := by
  unfold reshape at h
  simp only [bind_eq_ok, Prod.exists] at h
  obtain ⟨known, out, hraw, ns', hns, h⟩ := h
  split at h
  · cases h
  rw [pure_eq, ok_inj] at h
  unfold reshapeRaw at hraw
  split at hraw
  · cases hraw
  simp only [bind_eq_ok, Prod.exists] at hraw
  obtain ⟨s, hscan, nodes', known', temps, hk, m, hm, hraw⟩ := hraw
  rw [pure_eq, ok_inj, Prod.mk.injEq] at hraw
  obtain ⟨rfl, rfl⟩ := hraw
  have hcp : ∀ n ∈ ns ++ List.replicate (cap - ns.length) (⟨0, 0, 0, ⟨0, 0⟩⟩ : Node), n.o ≠ Op.cse := by
    intro n hn
    rcases List.mem_append.1 hn with hn | hn
    · exact hc n hn
    · rw [List.eq_of_mem_replicate hn]
      decide
  obtain ⟨k1, k2⟩ := scanLoop_plain hcp hd h0 (by omega) rfl (fun c hc => (List.not_mem_nil hc).elim) hscan
  rw [emitKnown_none (fun c hc => ⟨(k2 c hc).1, (k2 c hc).2.1⟩) (by omega), ok_inj] at hk
  simp only [Prod.mk.injEq] at hk
  obtain ⟨rfl, rfl, rfl⟩ := hk
  rw [k1] at hm
  subst h
  exact ⟨_, _, _, m, hm, hns, rfl⟩

/-- `rpn_reshape` copies blocks in which no operation occurs twice and nothing is required as a number. -/
theorem reshape_plain {f : Forest} (hs : f.Shape) (hc : ∀ n ∈ f.post, n.o ≠ Op.cse) (hd : DistinctNodes f.post)
    (h0 : ∀ n ∈ f.post, n.o ≠ Op.div ∧ ¬ IsFun n.o) {cap : Nat} {q : Rat32} {r : Rpne} (h : reshape cap ⟨f.post, q⟩ = ok r) :
    ∃ f' : Forest, f'.Shape ∧ f'.Eqv f ∧ (∀ n ∈ f'.post, n.o ≠ Op.cse) ∧ r = ⟨f'.post, q⟩ := by
  obtain ⟨pad, known, fuel, m, hm, hns, rfl⟩ := reshape_copies hc hd h0 h
  obtain ⟨f', fuel, a1, a2, a3, a4, -, a6⟩ := copy_plain_forest hs hc (p := 0) (fun j hj => by
    rw [Nat.zero_add, List.getElem?_append_left hj]) (by omega) hm
  rw [Nat.zero_add] at a6
  have := emitLoop_end a6
  subst this
  rw [mapO_map (g := fun n => n) (fun n hn => by rw [fixIndex, if_neg (a4 n hn)]), ok_inj] at hns
  refine ⟨f', a1, a2, a4, ?_⟩
  cases r
  simp only [List.map_id', List.nil_append] at hns
  rw [hns]

/-- The same for a single expression. -/
theorem reshape_plain_tree {t : Tree} (hs : t.Shape) (hc : ∀ n ∈ t.post, n.o ≠ Op.cse) (hd : DistinctNodes t.post)
    (h0 : ∀ n ∈ t.post, n.o ≠ Op.div ∧ ¬ IsFun n.o) {cap : Nat} {q : Rat32} {r : Rpne} (h : reshape cap ⟨t.post, q⟩ = ok r) :
    ∃ t' : Tree, t'.Shape ∧ t'.Eqv t ∧ (∀ n ∈ t'.post, n.o ≠ Op.cse) ∧ r = ⟨t'.post, q⟩ := by
  obtain ⟨pad, known, fuel, m, hm, hns, rfl⟩ := reshape_copies hc hd h0 h
  obtain ⟨t', fuel, a1, a2, a3, a4, a6⟩ := copy_plain hs hc (p := 0) (fun j hj => by
    rw [Nat.zero_add, List.getElem?_append_left hj]) (by omega) hm
  rw [Nat.zero_add] at a6
  have := emitLoop_end a6
  subst this
  rw [mapO_map (g := fun n => n) (fun n hn => by rw [fixIndex, if_neg (a4 n hn)]), ok_inj] at hns
  refine ⟨t', a1, a2, a4, ?_⟩
  cases r
  simp only [List.map_id', List.nil_append] at hns
  rw [hns]

end Gal
