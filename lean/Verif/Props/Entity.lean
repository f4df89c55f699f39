import Verif.Entity
import Verif.Props.Pseudo

/-!
# Property C29: entities

The specification: an entity is a list of (element, coefficient) pairs.
-/

namespace Gal

open Out

variable {K : Type} [Field K]

/-! ## The look-up table -/

theorem indexof_spec (e : Nat) : ∀ (es : List Nat) (i : Int), 0 ≤ i →
    (e ∉ es → indexof e i es = -1) ∧
    (e ∈ es → ∃ k : Nat, indexof e i es = i + k ∧ es[k]? = some e ∧ ∀ j < k, es[j]? ≠ some e) := by
  intro es
  induction es with
  | nil => intro i _; simp [indexof]
  | cons x es ih =>
    intro i hi
    obtain ⟨h1, h2⟩ := ih (i + 1) (by omega)
    unfold indexof
    by_cases hx : e = x
    · rw [if_pos hx]
      refine ⟨fun h => (h (by simp [hx])).elim, fun _ => ⟨0, by simp, by simp [hx], by simp⟩⟩
    · rw [if_neg hx]
      refine ⟨fun h => h1 (fun hm => h (by simp [hm])), fun h => ?_⟩
      obtain ⟨k, a, b, c⟩ := h2 (by simpa [hx] using h)
      refine ⟨k + 1, by rw [a]; push_cast; omega, by simpa using b, ?_⟩
      intro j hj
      cases j with
      | zero => simpa using fun h => hx h.symm
      | succ j => simpa using c j (by omega)

theorem lut_get {dim e : Nat} (es : List Nat) (he : e < 2 ^ dim) : (elementLut dim es)[e]? = some (indexof e 0 es) := by
  unfold elementLut
  rw [List.getElem?_map, List.getElem?_range he]
  rfl

theorem lookup_absent {dim e : Nat} (x : Entity K) (he : e < 2 ^ dim) (h : e ∉ x.elements) : x.lookup dim e = ok none := by
  unfold Entity.lookup
  rw [lut_get _ he, (indexof_spec e x.elements 0 (by omega)).1 h]
  rfl

theorem lookup_present {dim e : Nat} (x : Entity K) (he : e < 2 ^ dim) (h : e ∈ x.elements) :
    ∃ k, x.lookup dim e = ok (some k) ∧ x.elements[k]? = some e ∧ ∀ j < k, x.elements[j]? ≠ some e := by
  obtain ⟨k, a, b, c⟩ := (indexof_spec e x.elements 0 (by omega)).2 h
  refine ⟨k, ?_, b, c⟩
  unfold Entity.lookup
  rw [lut_get _ he, a]
  have : ¬ ((0 : Int) + k = -1) := by omega
  simp only [if_neg this]
  simp

/-- C29: an element that is not listed has coefficient 0. -/
theorem C29_select_absent {dim e : Nat} (x : Entity K) (he : e < 2 ^ dim) (h : e ∉ x.elements) : x.select dim e = ok 0 := by
  unfold Entity.select
  split
  · rfl
  · rw [lookup_absent x he h, ok_bind]

/-- C29: the `k`-th listed element, listed once, has the `k`-th stored coefficient. -/
theorem C29_select_listed {dim k : Nat} {e : Nat} {v : K} (x : Entity K) (he : e < 2 ^ dim) (hn : x.elements.Nodup)
    (hk : x.elements[k]? = some e) (hv : x.data[k]? = some v) : x.select dim e = ok v := by
  have hm : e ∈ x.elements := List.mem_of_getElem? hk
  obtain ⟨j, a, b, _⟩ := lookup_present x he hm
  have hj : j = k := by
    obtain ⟨h1, h2⟩ := List.getElem?_eq_some_iff.1 b
    obtain ⟨h3, h4⟩ := List.getElem?_eq_some_iff.1 hk
    exact (List.Nodup.getElem_inj_iff hn).1 (h2.trans h4.symm)
  unfold Entity.select
  rw [if_neg (by rintro h0; simp [h0] at hm), a, ok_bind]
  unfold Entity.at
  simp only [hj, hv]

example : ∃ (x : Entity ℚ), x.elements.Nodup ∧ x.elements[1]? = some 6 ∧ x.data[1]? = some 7 ∧ 6 < 2 ^ 3 ∧ 5 ∉ x.elements :=
  ⟨⟨[1, 6, 2], [5, 7, 9]⟩, by decide, rfl, rfl, by decide, by decide⟩

/-- C29: asking for something that is not a basis element of the algebra reads past the end of the table. -/
theorem C29_select_range {dim e : Nat} (x : Entity K) (he : 2 ^ dim ≤ e) (hx : x.elements ≠ []) : x.select dim e = .ub := by
  unfold Entity.select Entity.lookup elementLut
  rw [if_neg hx, List.getElem?_eq_none (by simpa using he)]
  rfl

/-- C29: selecting several elements at once gives each coefficient, in the order asked for. -/
theorem C29_select_many {dim : Nat} {s : List Nat} {f : Nat → K} (x : Entity K) (hx : x.elements ≠ [])
    (hs : ∀ e ∈ s, x.select dim e = ok (f e)) : x.selectMany dim s = ok (s.map f) := by
  unfold Entity.selectMany
  rw [if_neg hx]
  induction s with
  | nil => rfl
  | cons e s ih =>
    unfold mapO
    rw [hs e (by simp), ok_bind, ih (fun e' h => hs e' (by simp [h])), ok_bind]
    rfl

/-- Selecting several elements of the zero entity gives one zero, not one per element. -/
theorem C29_select_many_zero_false : ∃ (x : Entity ℚ) (s : List Nat), (∀ e ∈ s, x.select 3 e = ok 0) ∧
    x.selectMany 3 s ≠ ok (s.map fun _ => 0) :=
  ⟨⟨[], []⟩, [1, 2], by simp [Entity.select], by simp [Entity.selectMany]⟩

/-- C29: writing through the pointer `select(e)` changes the coefficient of `e` and no other. -/
theorem C29_select_write {dim e e' : Nat} (x : Entity K) (v : K) (he : e < 2 ^ dim) (he' : e' < 2 ^ dim)
    (hd : x.data.length = x.elements.length) (hn : x.elements.Nodup) (hm : e ∈ x.elements) :
    ∃ i, x.selectPtr dim e = ok (some i) ∧ (x.put i v).select dim e = ok v ∧
      (e' ≠ e → (x.put i v).select dim e' = x.select dim e') := by
  obtain ⟨k, a, b, _⟩ := lookup_present x he hm
  have h0 : x.elements ≠ [] := by rintro h0; simp [h0] at hm
  have hkl : k < x.elements.length := (List.getElem?_eq_some_iff.1 b).1
  refine ⟨k, by unfold Entity.selectPtr; rw [if_neg h0, a], ?_, ?_⟩
  · refine C29_select_listed (x.put k v) he hn b ?_
    simp [Entity.put, List.getElem?_set, hd, hkl]
  · intro hne
    by_cases hm' : e' ∈ x.elements
    · obtain ⟨k', a', b', _⟩ := lookup_present x he' hm'
      have hkl' : k' < x.elements.length := (List.getElem?_eq_some_iff.1 b').1
      have hkk : k ≠ k' := by rintro rfl; rw [b] at b'; exact hne (Option.some.inj b').symm
      have hv : x.data[k']? = some (x.data[k']'(by omega)) := List.getElem?_eq_getElem _
      rw [C29_select_listed x he' hn b' hv]
      refine C29_select_listed (x.put k v) he' hn b' ?_
      simp only [Entity.put, List.getElem?_set, if_neg hkk, hv]
    · rw [C29_select_absent x he' hm', C29_select_absent (x.put k v) he' hm']

/-- C29: `select(e)` on a mutable entity is null exactly for elements that are not listed. -/
theorem C29_select_null {dim e : Nat} (x : Entity K) (he : e < 2 ^ dim) :
    x.selectPtr dim e = ok none ↔ e ∉ x.elements := by
  constructor
  · intro h hm
    obtain ⟨k, a, _⟩ := lookup_present x he hm
    have h0 : x.elements ≠ [] := by rintro h0; simp [h0] at hm
    unfold Entity.selectPtr at h
    rw [if_neg h0, a] at h
    simp at h
  · intro h
    unfold Entity.selectPtr
    split
    · rfl
    · exact lookup_absent x he h

/-! ## The indeterminate expression -/

theorem genericN_inds (es : List Nat) : ∀ id, indsOf (allMons (genericN id es)) =
    (List.range es.length).map (fun i => ⟨id + i, Rat32.one⟩) := by
  induction es with
  | nil => intro id; rfl
  | cons e es ih =>
    intro id
    rw [List.length_cons, List.range_succ_eq_map, List.map_cons, List.map_map]
    unfold genericN
    rw [allMons_cons, List.singleton_append, indsOf_cons, ih (id + 1), List.singleton_append]
    congr 1
    apply List.map_congr_left
    intro i _
    simp only [Function.comp_apply, Nat.succ_eq_add_one]
    congr 1
    omega

theorem genericN_mons (es : List Nat) : ∀ id o, layMons o (allMons (genericN id es)) =
    (List.range es.length).map (fun i => ⟨Rat32.one, Rat32.one, 1, o + i⟩) := by
  induction es with
  | nil => intro id o; rfl
  | cons e es ih =>
    intro id o
    rw [List.length_cons, List.range_succ_eq_map, List.map_cons, List.map_map]
    unfold genericN
    rw [allMons_cons, List.singleton_append]
    unfold layMons
    rw [ih (id + 1)]
    congr 1
    apply List.map_congr_left
    intro i _
    simp only [Function.comp_apply, Nat.succ_eq_add_one, List.length_cons, List.length_nil]
    congr 1
    omega

theorem genericN_terms (es : List Nat) : ∀ id o, layTerms o (genericN id es) =
    (List.range es.length).map (fun i => ⟨1, o + i, es.getD i 0⟩) := by
  induction es with
  | nil => intro id o; rfl
  | cons e es ih =>
    intro id o
    rw [List.length_cons, List.range_succ_eq_map, List.map_cons, List.map_map]
    unfold genericN layTerms
    rw [ih (id + 1)]
    congr 1
    apply List.map_congr_left
    intro i _
    simp only [Function.comp_apply, Nat.succ_eq_add_one, List.length_cons, List.length_nil]
    congr 1
    omega

/-- `construct_ie` lays out one monomial per element. -/
theorem constructIe_eq (id : Nat) (es : List Nat) (h : id + es.length ≤ 2 ^ 32) :
    constructIe id es = layout ⟨es.length, es.length, es.length⟩ (genericN id es) := by
  obtain ⟨h1, h2, h3, _⟩ := genericN_size es id
  unfold constructIe layout
  rw [genericN_inds, genericN_mons, genericN_terms, h1, h2, h3]
  simp only [Mv.mk.injEq, true_and, and_true, Nat.zero_add]
  apply List.map_congr_left
  intro i hi
  rw [Nat.mod_eq_of_lt (by have := List.mem_range.1 hi; omega)]

theorem constructIe_packed (id : Nat) (es : List Nat) (h : id + es.length ≤ 2 ^ 32) :
    Packed (constructIe id es) (genericN id es) := by
  rw [constructIe_eq id es h]
  obtain ⟨h1, h2, h3, _⟩ := genericN_size es id
  exact packed_layout ⟨by simp only; omega, by simp only; omega, by simp only; omega⟩

/-- The multivector with the given coefficients at the given elements. -/
def pairsVal {V : Type} [AddCommGroup V] [Module K V] (β : Nat → V) (es : List Nat) (vs : List K) : V :=
  ((es.zip vs).map fun p => p.2 • β p.1).sum

theorem genericN_val {V : Type} [CharZero K] [AddCommGroup V] [Module K V] (β : Nat → V) (ρ : Nat → K) :
    ∀ (es : List Nat) (vs : List K) (id : Nat), vs.length = es.length → (∀ i < es.length, ρ (id + i) = vs.getD i 0) →
    mvVal (intPow ρ) β (genericN id es) = pairsVal β es vs := by
  intro es
  induction es with
  | nil => intro vs id _ _; simp [genericN, pairsVal]
  | cons e es ih =>
    intro vs id hl hv
    obtain ⟨v, vs, rfl⟩ : ∃ v ws, vs = v :: ws := by
      cases vs with
      | nil => simp at hl
      | cons v ws => exact ⟨v, ws, rfl⟩
    have h0 := hv 0 (by simp)
    unfold genericN
    rw [mvVal_cons, ih vs (id + 1) (by simpa using hl)
      (fun i hi => by have := hv (i + 1) (by simpa using hi); rw [show id + 1 + i = id + (i + 1) by omega, this]; simp)]
    have h1 : Rat32.toQ ⟨1, 1⟩ = 1 := by simp [Rat32.toQ]
    simp only [pairsVal, List.zip_cons_cons, List.map_cons, List.sum_cons, NTerm.val, monsVal_cons, monsVal_nil, NMon.val,
      indsVal_cons, indsVal_nil, Ind.val, intPow, h1, Rat.num_one, zpow_one]
    simp only [Nat.add_zero, List.getD_cons_zero] at h0
    rw [h0]
    simp

/-- C29: `ie(id)` is well formed, fits its arrays exactly, and evaluated on the entity's own coefficients it is the
multivector with those coefficients, in any module. -/
theorem C29_ie {V : Type} [CharZero K] [AddCommGroup V] [Module K V] (β : Nat → V) (x : Entity K) (id : Nat)
    (hid : id + x.elements.length ≤ 2 ^ 32) (hd : x.data.length = x.elements.length) :
    ∃ n, Packed (x.ie id) n ∧ (x.elements.Pairwise (· < ·) → CanonMv n) ∧ n.map (·.element) = x.elements ∧
      ∀ ρ : Nat → K, (∀ i < x.elements.length, ρ (id + i) = x.data.getD i 0) →
        mvVal (intPow ρ) β n = pairsVal β x.elements x.data :=
  ⟨genericN id x.elements, constructIe_packed id _ hid, fun h => genericN_canon _ h id, (genericN_size _ id).2.2.2,
    fun ρ hρ => genericN_val β ρ _ _ id hd hρ⟩

example : ∃ x : Entity ℚ, 5 + x.elements.length ≤ 2 ^ 32 ∧ x.data.length = x.elements.length ∧ x.elements.Pairwise (· < ·) ∧
    x.elements.length = 3 :=
  ⟨⟨[1, 2, 6], [5, 7, 9]⟩, by decide, rfl, by decide, rfl⟩

theorem pairsVal_absent {y : Nat} : ∀ (es : List Nat) (vs : List K), y ∉ es →
    pairsVal (fun e => if e = y then (1 : K) else 0) es vs = 0 := by
  intro es vs h
  unfold pairsVal
  apply List.sum_eq_zero
  intro z hz
  obtain ⟨p, hp, rfl⟩ := List.mem_map.1 hz
  dsimp only
  rw [if_neg (by rintro rfl; exact h (List.of_mem_zip hp).1), smul_zero]

theorem pairsVal_get {e : Nat} {v : K} : ∀ (es : List Nat) (vs : List K) (k : Nat), es.Nodup → es[k]? = some e →
    vs[k]? = some v → pairsVal (fun x => if x = e then (1 : K) else 0) es vs = v := by
  intro es
  induction es with
  | nil => intro vs k _ hk; simp at hk
  | cons y es ih =>
    intro vs k hn hk hv
    cases vs with
    | nil => simp at hv
    | cons w vs =>
      rw [List.nodup_cons] at hn
      have hc : pairsVal (fun x => if x = e then (1 : K) else 0) (y :: es) (w :: vs) =
          w • (if y = e then (1 : K) else 0) + pairsVal (fun x => if x = e then (1 : K) else 0) es vs := by
        simp [pairsVal]
      rw [hc]
      cases k with
      | zero =>
        simp only [List.getElem?_cons_zero, Option.some.injEq] at hk hv
        subst hk hv
        rw [pairsVal_absent es vs hn.1]
        simp
      | succ k =>
        simp only [List.getElem?_cons_succ] at hk hv
        rw [ih vs k hn.2 hk hv, if_neg (by rintro rfl; exact hn.1 (List.mem_of_getElem? hk))]
        simp

/-- C29: the coefficient of the expression at a basis element is what `select` returns. -/
theorem C29_ie_select [CharZero K] (x : Entity K) (id dim e : Nat) (he : e < 2 ^ dim) (hn : x.elements.Nodup)
    (hid : id + x.elements.length ≤ 2 ^ 32) (hd : x.data.length = x.elements.length) :
    ∃ n, Packed (x.ie id) n ∧ ∀ ρ : Nat → K, (∀ i < x.elements.length, ρ (id + i) = x.data.getD i 0) →
      x.select dim e = ok (coeff (intPow ρ) n e) := by
  refine ⟨genericN id x.elements, constructIe_packed id _ hid, fun ρ hρ => ?_⟩
  unfold coeff
  rw [genericN_val _ ρ _ _ id hd hρ]
  by_cases hm : e ∈ x.elements
  · obtain ⟨k, hk⟩ := List.getElem?_of_mem hm
    have hkl : k < x.elements.length := (List.getElem?_eq_some_iff.1 hk).1
    have hv : x.data[k]? = some (x.data[k]'(by omega)) := List.getElem?_eq_getElem _
    rw [C29_select_listed x he hn hk hv, pairsVal_get _ _ k hn hk hv]
  · rw [C29_select_absent x he hm, pairsVal_absent _ _ hm]

example : ∃ x : Entity ℚ, 6 < 2 ^ 3 ∧ x.elements.Nodup ∧ 5 + x.elements.length ≤ 2 ^ 32 ∧
    x.data.length = x.elements.length ∧ 6 ∈ x.elements :=
  ⟨⟨[1, 6, 2], [5, 7, 9]⟩, by decide, by decide, by decide, rfl, by decide⟩

/-- C29: `scalar::ie(id)` is the scalar entity's expression. -/
theorem C29_scalar (id : Nat) (h : id < 2 ^ 32) : scalarIe id = constructIe id [0] := by
  simp [scalarIe, constructIe, List.range_succ]
  omega

end Gal
