import Verif.Machine
import Verif.Spec.CliffValue
import Verif.Spec.Refine
import Verif.Props.Engine

/-!
# The stack machine on multivectors computes the operations of the Clifford algebra

`Stored Q dim a n` collects what holds of every entry of the machine's stack: the arrays are packed, the multivector is canonical, the
arrays for terms have no spare room, and the indeterminates satisfy `Q`.
-/

namespace Gal

open Out

attribute [local irreducible] popCount

/-- A multivector as the library's functions produce it. -/
structure Clean (Q : Ind → Prop) (dim : Nat) (a : Mv) (n : NMv) : Prop where
  packed : Packed a n
  canon : CanonMv n
  elems : ElemsLt (2 ^ dim) n
  inds : IndsAll Q n

/-- A stack entry: moreover, if `T` holds, the array for terms has no spare room. -/
structure Kept (T : Prop) (Q : Ind → Prop) (dim : Nat) (a : Mv) (n : NMv) : Prop extends Clean Q dim a n where
  tight : T → a.caps.t = n.length

/-- A stack entry whose array for terms has no spare room. -/
abbrev Stored (Q : Ind → Prop) (dim : Nat) (a : Mv) (n : NMv) : Prop := Kept True Q dim a n

/-- Indeterminates to positive powers, whose ids satisfy `P`. -/
def PosInd (P : Nat → Prop) (i : Ind) : Prop := P i.id ∧ i.deg.den = 1 ∧ 0 < i.deg.num

theorem posInd_closed (P : Nat → Prop) : AddClosed (PosInd P) := by
  intro x y d hx hy hid h
  obtain ⟨rfl, _⟩ := add_int hx.2.1 hy.2.1 h
  exact ⟨hx.1, rfl, add_pos hx.2.2 hy.2.2⟩

theorem posInd_noPole {K : Type} [Field K] {P : Nat → Prop} {n : NMv} (h : IndsAll (PosInd P) n) (ρ : Nat → K) : NoPole ρ n :=
  fun t ht m hm i hi hneg => absurd (h t ht m hm i hi).2.2 (by omega)

theorem IndsAll.mono {Q Q' : Ind → Prop} {n : NMv} (h : IndsAll Q n) (hq : ∀ i, Q i → Q' i) : IndsAll Q' n :=
  fun t ht m hm i hi => hq i (h t ht m hm i hi)

theorem Kept.mono {T : Prop} {Q Q' : Ind → Prop} {dim : Nat} {a : Mv} {n : NMv} (h : Kept T Q dim a n) (hq : ∀ i, Q i → Q' i) :
    Kept T Q' dim a n := ⟨⟨h.packed, h.canon, h.elems, h.inds.mono hq⟩, h.tight⟩

theorem Clean.rep {Q : Ind → Prop} {dim : Nat} {a : Mv} {n : NMv} (h : Clean Q dim a n) : Represents a n := h.packed.represents

theorem Packed.unique {a : Mv} {n n' : NMv} (h : Packed a n) (h' : Packed a n') : n = n' := by
  have h1 := h.represents.1
  rw [h'.represents.1] at h1
  exact (ok_inj.1 h1).symm

/-- After every operation the arrays are cut to the entries. -/
theorem shrink_ok {T : Prop} {Q : Ind → Prop} {dim : Nat} {a r : Mv} {n : NMv} (h : Clean Q dim a n) (hs : shrink a = ok r) :
    Kept T Q dim r n := by
  have he : (⟨a.szI, a.szM, a.szT⟩ : Caps) = ⟨nInds n, nMons n, n.length⟩ := by rw [h.packed.eq]; rfl
  unfold shrink at hs
  rw [he] at hs
  obtain ⟨r', h1, h2, h3⟩ := C26_resize h.packed (c := ⟨nInds n, nMons n, n.length⟩) ⟨le_refl _, le_refl _, le_refl _⟩
  rw [h1, ok_inj] at hs
  subst hs
  exact ⟨⟨h3, h.canon, h.elems, h.inds⟩, fun _ => by rw [h2]⟩

section

variable {T : Prop} {P : Nat → Prop} {dim : Nat}

theorem two_pow_le_256 (hd : dim ≤ 8) : 2 ^ dim ≤ 256 :=
  calc 2 ^ dim ≤ 2 ^ 8 := Nat.pow_le_pow_right (by decide) hd
    _ = 256 := by decide

theorem product_clean (hd : dim ≤ 8) {F : Nat → Nat → Nat × Int}
    (hF : ∀ a b, a < 2 ^ dim → b < 2 ^ dim → (F a b).2 ≠ 0 → (F a b).1 < 2 ^ dim) {a b r : Mv} {na nb : NMv}
    (ha : Clean (PosInd P) dim a na) (hb : Clean (PosInd P) dim b nb) (h : product F a b = ok r) :
    ∃ n, Clean (PosInd P) dim r n ∧
      ∀ (K V : Type) [Field K] [CharZero K] [AddCommGroup V] [Module K V] (ρ : Nat → K) (β : Nat → V) (B : V →ₗ[K] V →ₗ[K] V),
        (∀ u v, u < 2 ^ dim → v < 2 ^ dim → B (β u) (β v) = ((F u v).2 : K) • β (F u v).1) →
        mvVal (intPow ρ) β n = B (mvVal (intPow ρ) β na) (mvVal (intPow ρ) β nb) := by
  have h256 := two_pow_le_256 hd
  obtain ⟨n, h1, h2, h3, _, h5⟩ := C20_product F ha.rep hb.rep ha.canon hb.canon (ha.elems.mono h256) (hb.elems.mono h256) h
  refine ⟨n, ⟨h1, h2, fun t ht => ?_, ?_⟩, ?_⟩
  · obtain ⟨u, hu, v, hv, he, h0⟩ := h3 t ht
    rw [he]
    exact hF _ _ (ha.elems u hu) (hb.elems v hv) h0
  · rw [product_refines F ha.rep hb.rep] at h
    obtain ⟨n', hn, rfl⟩ := map_eq_ok h
    have := (packed_layout ((productN_fits (P := F) ha.rep.2 hb.rep.2).of_ok hn)).unique h1
    subst this
    exact (productN_all (posInd_closed P) ha.inds hb.inds (ha.elems.mono h256) (hb.elems.mono h256) hn).1
  · intro K V _ _ _ _ ρ β B hB
    exact h5 K V ρ β B (posInd_noPole ha.inds ρ) (posInd_noPole hb.inds ρ)
      (fun u hu v hv => hB _ _ (ha.elems u hu) (hb.elems v hv))

theorem sum_clean {a b r : Mv} {na nb : NMv} (ha : Clean (PosInd P) dim a na) (hb : Clean (PosInd P) dim b nb) (h : sum a b = ok r) :
    ∃ n, Clean (PosInd P) dim r n ∧
      ∀ (K V : Type) [Field K] [CharZero K] [AddCommGroup V] [Module K V] (ρ : Nat → K) (β : Nat → V),
        mvVal (intPow ρ) β n = mvVal (intPow ρ) β na + mvVal (intPow ρ) β nb := by
  obtain ⟨n, h1, h2, h3, _, h5⟩ := C19_sum ha.rep hb.rep ha.canon hb.canon h
  refine ⟨n, ⟨h1, h2, fun t ht => ?_, ?_⟩, h5⟩
  · obtain ⟨u, hu, he⟩ := h3 t ht
    rw [he]
    rcases List.mem_append.1 hu with hu | hu
    · exact ha.elems u hu
    · exact hb.elems u hu
  · rw [sum_refines ha.rep hb.rep] at h
    obtain ⟨n', hn, rfl⟩ := map_eq_ok h
    have := (packed_layout ((sumN_fits ha.rep.2 hb.rep.2).of_ok hn)).unique h1
    subst this
    exact ((sumN_all (E := fun _ => True) ha.inds hb.inds (fun _ _ => trivial) (fun _ _ => trivial)).of_ok hn).1

/-- Term by term changes that keep elements and indeterminates. -/
theorem mapO_keeps {f : NTerm → Out NTerm}
    (hf : ∀ t u, f t = ok u → u.element = t.element ∧ ∀ m ∈ u.mons, ∃ m' ∈ t.mons, m.inds = m'.inds) :
    ∀ {n nr : NMv}, mapO f n = ok nr → nr.map (·.element) = n.map (·.element) ∧ ∀ Q, IndsAll Q n → IndsAll Q nr
  | [], nr, h => by rw [mapO_nil_ok] at h; subst h; exact ⟨rfl, fun _ h => h⟩
  | t :: ts, nr, h => by
    rw [mapO_cons_ok] at h
    obtain ⟨u, us, h1, h2, rfl⟩ := h
    obtain ⟨e1, e2⟩ := hf t u h1
    obtain ⟨i1, i2⟩ := mapO_keeps hf h2
    refine ⟨by rw [List.map_cons, List.map_cons, e1, i1], fun Q hQ => .cons (fun m hm i hi => ?_) (i2 Q fun x hx => hQ x (by simp [hx]))⟩
    obtain ⟨m', hm', e⟩ := e2 m hm
    rw [e] at hi
    exact hQ t (by simp) m' hm' i hi

theorem elemsLt_of_map {N : Nat} {n nr : NMv} (h : nr.map (·.element) = n.map (·.element)) (hn : ElemsLt N n) : ElemsLt N nr := by
  intro t ht
  have : t.element ∈ nr.map (·.element) := List.mem_map.2 ⟨t, ht, rfl⟩
  rw [h] at this
  obtain ⟨u, hu, e⟩ := List.mem_map.1 this
  rw [← e]
  exact hn u hu

theorem scale_stored {q : Rat32} (hq : q.WF) (h0 : q.num ≠ 0) {a x : Mv} {na : NMv} (ha : Kept T (PosInd P) dim a na)
    (h : scale q a = ok x) :
    ∃ n, Kept T (PosInd P) dim x n ∧
      ∀ (K V : Type) [Field K] [CharZero K] [AddCommGroup V] [Module K V] (ρ : Nat → K) (β : Nat → V),
        mvVal (intPow ρ) β n = (q.toQ : K) • mvVal (intPow ρ) β na := by
  obtain ⟨n, h1, h2, h3⟩ := C21_scale ha.packed ha.canon.wf hq h
  have hqn : q.toQ ≠ 0 := fun e => h0 ((Rat32.toQ_eq_zero hq).1 e)
  rw [ha.packed.eq, scale_layout ha.packed.fits.m] at h
  obtain ⟨n', hn, rfl⟩ := map_eq_ok h
  have := (packed_layout ((mapO_fits (mapQ_size' _) ha.packed.fits).of_ok hn)).unique h1
  subst this
  obtain ⟨k1, k2⟩ := mapO_keeps (fun t u h => ⟨(mapQ_inds h).1, fun m hm => by
    obtain ⟨m', hm', e, _⟩ := (mapQ_inds h).2 m hm; exact ⟨m', hm', e⟩⟩) hn
  refine ⟨n', ⟨⟨h1, h2 ha.canon hqn, elemsLt_of_map k1 ha.elems, k2 _ ha.inds⟩, ?_⟩, fun K V _ _ _ _ ρ β => h3 K V _ β⟩
  have := congrArg List.length k1
  simp only [List.length_map] at this
  rw [this]
  exact ha.tight

theorem reverse_stored (m : Metric) (hm : m.dim ≤ 8) {a x : Mv} {na : NMv} (ha : Kept T (PosInd P) m.dim a na)
    (h : reverse a = ok x) :
    ∃ n, Kept T (PosInd P) m.dim x n ∧
      ∀ (K : Type) [Field K] [CharZero K] (ρ : Nat → K), mvVal (intPow ρ) (cliffBlade K m.dim m.sq) n =
        CliffordAlgebra.reverse (mvVal (intPow ρ) (cliffBlade K m.dim m.sq) na) := by
  obtain ⟨n, h1, h2, h3, h4⟩ := C15_reverse m hm ha.packed ha.canon.wf ha.elems h
  rw [ha.packed.eq, reverse_layout ha.packed.fits.t] at h
  obtain ⟨n', hn, rfl⟩ := map_eq_ok h
  have := (packed_layout ((mapO_fits reverseTermN_size ha.packed.fits).of_ok hn)).unique h1
  subst this
  obtain ⟨k1, k2⟩ := mapO_keeps (f := reverseTermN) (fun t u h => by
    unfold reverseTermN at h
    split at h
    · rw [ok_inj] at h; subst h; exact ⟨rfl, fun m hm => ⟨m, hm, rfl⟩⟩
    · dsimp only at h
      split at h
      · exact ⟨(mapQ_inds h).1, fun m hm => by obtain ⟨m', hm', e, _⟩ := (mapQ_inds h).2 m hm; exact ⟨m', hm', e⟩⟩
      · rw [ok_inj] at h; subst h; exact ⟨rfl, fun m hm => ⟨m, hm, rfl⟩⟩) hn
  refine ⟨n', ⟨⟨h1, h2 ha.canon, elemsLt_of_map k1 ha.elems, k2 _ ha.inds⟩, ?_⟩, fun K _ _ ρ => h4 K _⟩
  have := congrArg List.length k1
  simp only [List.length_map] at this
  rw [this]
  exact ha.tight

theorem dualN_length {n : Nat} (hn : n ≤ 8) {a r : NMv} (ha : ElemsLt (2 ^ n) a) (ca : CanonMv a) (h : dualN n a = ok r) :
    a.length ≤ r.length := by
  obtain ⟨e1, e2, _, e4⟩ := dualN_spec hn ha ca h
  have hpos := Nat.two_pow_pos n
  have hcomp : ∀ g, g < 2 ^ n → (poincareComplement g n).1 = 2 ^ n - 1 - g := fun g hg =>
    (complement_table ⟨n, by omega⟩ ⟨g, hg⟩).1
  have hmem : ∀ t ∈ a, ∃ u ∈ r, u.element = 2 ^ n - 1 - t.element := by
    intro t ht
    by_contra hc
    push Not at hc
    refine (ca.terms t ht).2 (mons_unique (ca.terms t ht).1 ⟨by simp, by simp⟩ fun ρ => ?_)
    have h0 := coeff_absent (intPow fun i => (ρ i : ℚ)) r (2 ^ n - 1 - t.element) hc
    unfold coeff at h0
    rw [e4 ℚ ℚ] at h0
    have hs := (complement_table ⟨n, by omega⟩ ⟨t.element, ha t ht⟩).2.2.1
    simp only at hs
    have : mvVal (intPow fun i => (ρ i : ℚ)) (fun e => ((poincareComplement e n).2 : ℚ) •
        (if (poincareComplement e n).1 = 2 ^ n - 1 - t.element then (1 : ℚ) else 0)) a =
        ((poincareComplement t.element n).2 : ℚ) * coeff (intPow fun i => (ρ i : ℚ)) a t.element := by
      unfold coeff
      have hl := mvVal_linear (intPow fun i => (ρ i : ℚ)) (fun x => if x = t.element then (1 : ℚ) else 0)
        (LinearMap.mulLeft ℚ ((poincareComplement t.element n).2 : ℚ)) a
      simp only [LinearMap.mulLeft_apply] at hl
      rw [hl]
      refine mvVal_congr _ fun u hu => ?_
      have hu' := ha u hu
      have ht' := ha t ht
      rw [hcomp _ hu']
      by_cases he : u.element = t.element
      · rw [he]; simp
      · rw [if_neg (by omega), if_neg he]; simp
    rw [this, coeff_mem _ ca.asc ht] at h0
    rcases hs with hs | hs <;> rw [hs] at h0 <;> simpa using h0
  have hnd : (a.map (fun t => 2 ^ n - 1 - t.element)).Nodup := by
    unfold List.Nodup
    rw [List.pairwise_map]
    refine (List.Pairwise.and_mem.1 ca.asc).imp ?_
    intro x y ⟨hx, hy, hxy⟩
    have := ha x hx
    have := ha y hy
    omega
  have hsub : a.map (fun t => 2 ^ n - 1 - t.element) ⊆ r.map (·.element) := by
    intro x hx
    obtain ⟨t, ht, rfl⟩ := List.mem_map.1 hx
    obtain ⟨u, hu, e⟩ := hmem t ht
    exact List.mem_map.2 ⟨u, hu, e⟩
  have := (List.subperm_of_subset hnd hsub).length_le
  simpa using this

theorem dual_stored (hd : dim ≤ 8) {a x : Mv} {na : NMv} (ha : Kept T (PosInd P) dim a na) (h : poincareDual dim a = ok x) :
    ∃ n, Kept T (PosInd P) dim x n ∧
      ∀ (K : Type) [Field K] [CharZero K] (d : Nat → Int) (D), IsDual K dim d D → ∀ (ρ : Nat → K),
        mvVal (intPow ρ) (cliffBlade K dim d) n = D (mvVal (intPow ρ) (cliffBlade K dim d) na) := by
  rw [poincareDual_refines dim ha.rep] at h
  obtain ⟨n, hn, rfl⟩ := map_eq_ok h
  obtain ⟨e1, e2, e3, e4⟩ := dualN_spec hd ha.elems ha.canon hn
  have hf := (dualN_fits ha.rep.2).of_ok hn
  refine ⟨n, ⟨⟨packed_layout hf, e1, e2, e3 _ ha.inds⟩, ?_⟩, ?_⟩
  · intro hT
    have h1 := dualN_length hd ha.elems ha.canon hn
    have h2 := hf.t
    have h3 := ha.tight hT
    show a.caps.t = n.length
    omega
  · intro K _ _ d D hD ρ
    rw [e4 K _ (intPow ρ), mvVal_linear]
    exact mvVal_congr _ fun t ht => (hD.blade K hd _ (ha.elems t ht)).symm

theorem component_stored {e : Nat} (he : e < 256) {a r x : Mv} {na : NMv}
    (ha : Kept T (PosInd P) dim a na) (h : component a e = ok r) (hs : shrink r = ok x) :
    ∃ n, Kept T (PosInd P) dim x n ∧
      ∀ (K V : Type) [Field K] [CharZero K] [AddCommGroup V] [Module K V] (ρ : Nat → K) (β : Nat → V),
        mvVal (intPow ρ) β n = coeff (intPow ρ) na e • β 0 := by
  obtain ⟨n, h1, h2, h3⟩ := C21_component ha.rep ha.canon he h
  rw [component_refines e ha.rep] at h
  obtain ⟨n', hn, rfl⟩ := map_eq_ok h
  have := (packed_layout ((componentN_fits ha.rep.2).of_ok hn)).unique h1
  subst this
  have key : ∀ {a r : NMv}, IndsAll (PosInd P) a → componentN e a = ok r → IndsAll (PosInd P) r ∧ ∀ t ∈ r, t.element = 0 := by
    intro a
    induction a with
    | nil => intro r _ h; simp only [componentN, ok_inj] at h; subst h; exact ⟨.nil, by simp⟩
    | cons t ts ih =>
      intro r hi h
      unfold componentN at h
      split at h
      · simp only [bind_eq_ok, pure_eq, ok_inj] at h
        obtain ⟨u, hu, rfl⟩ := h
        unfold pushTermN at hu
        simp only [bind_eq_ok, pure_eq, ok_inj] at hu
        obtain ⟨t', h1, rfl⟩ := hu
        refine ⟨.cons (fun m hm i him => ?_) .nil, by simp⟩
        obtain ⟨m', hm', e, _⟩ := (mapQ_inds h1).2 m hm
        rw [e] at him
        exact hi t (by simp) m' hm' i him
      · exact ih (fun x hx => hi x (by simp [hx])) h
  obtain ⟨k1, k2⟩ := key ha.inds hn
  have hc : Clean (PosInd P) dim (layout ⟨a.caps.i, a.caps.m, 1⟩ n') n' :=
    ⟨h1, h2, fun t ht => by rw [k2 t ht]; exact Nat.two_pow_pos _, k1⟩
  exact ⟨n', shrink_ok hc hs, fun K V _ _ _ _ ρ β => h3 K V _ β⟩

/-- No element of grade `g` comes after an element of a higher grade. -/
def GradeSafe (dim g : Nat) : Prop := ∀ x y, x < y → y < 2 ^ dim → g < gradeOf dim x → gradeOf dim y ≠ g

theorem grade_stored (hd : dim ≤ 8) {g : Nat} (hg : GradeSafe dim g) {a r x : Mv} {na : NMv}
    (ha : Kept T (PosInd P) dim a na) (h : selectGrade a g = ok r) (hs : shrink r = ok x) :
    ∃ n, Kept T (PosInd P) dim x n ∧
      ∀ (K V : Type) [Field K] [CharZero K] [AddCommGroup V] [Module K V] (ρ : Nat → K) (β : Nat → V),
        mvVal (intPow ρ) β n = mvVal (intPow ρ) (fun e => if gradeOf dim e = g then β e else 0) na := by
  have hp : na.Pairwise (fun x y => g < popCount x.element → popCount y.element ≠ g) := by
    refine (List.Pairwise.and_mem.1 ha.canon.asc).imp ?_
    intro x y ⟨hx, hy, hxy⟩
    rw [popCount_eq_gradeOf hd (ha.elems x hx), popCount_eq_gradeOf hd (ha.elems y hy)]
    exact hg _ _ hxy (ha.elems y hy)
  rw [selectGrade_refines g ha.rep, ok_inj] at h
  subst h
  have hsub := selectGradeN_sublist g na
  have hc : Clean (PosInd P) dim (layout a.caps (selectGradeN g na)) (selectGradeN g na) :=
    ⟨packed_layout (ha.rep.2.sublist hsub), ha.canon.sublist hsub, fun t ht => ha.elems t (hsub.subset ht),
      fun t ht => ha.inds t (hsub.subset ht)⟩
  refine ⟨_, shrink_ok hc hs, fun K V _ _ _ _ ρ β => ?_⟩
  rw [selectGradeN_val _ _ hp]
  exact mvVal_congr _ fun t ht => by rw [popCount_eq_gradeOf hd (ha.elems t ht)]

theorem foldSum_clean : ∀ {as : List Mv} {ns : List NMv} {r : Mv}, List.Forall₂ (Clean (PosInd P) dim) as ns →
    foldArgs sum as = ok r → ∃ n, Clean (PosInd P) dim r n ∧
      ∀ (K V : Type) [Field K] [CharZero K] [AddCommGroup V] [Module K V] (ρ : Nat → K) (β : Nat → V),
        mvVal (intPow ρ) β n = (ns.map (mvVal (intPow ρ) β)).sum
  | _, _, r, .nil, h => by simp [foldArgs] at h
  | _, _, r, .cons (b := n) ha .nil, h => by
    simp only [foldArgs, ok_inj] at h
    subst h
    exact ⟨n, ha, by simp⟩
  | _, _, r, .cons ha (.cons hb hs), h => by
    simp only [foldArgs, bind_eq_ok] at h
    obtain ⟨r', h1, h2⟩ := h
    obtain ⟨n', i1, i2⟩ := foldSum_clean (.cons hb hs) h1
    obtain ⟨n, j1, j2⟩ := sum_clean ha i1 h2
    refine ⟨n, j1, fun K V _ _ _ _ ρ β => ?_⟩
    rw [j2 K V, i2 K V]
    simp

theorem foldExt_clean (hd : dim ≤ 8) : ∀ {as : List Mv} {ns : List NMv} {r : Mv}, List.Forall₂ (Clean (PosInd P) dim) as ns →
    foldArgs (product extProduct) as = ok r → ∃ n, Clean (PosInd P) dim r n ∧
      ∀ (K : Type) [Field K] [CharZero K] (d : Nat → Int) (named : Nat → K) (D) (w) (ρ : Nat → K),
        mvVal (intPow ρ) (cliffBlade K dim d) n =
          (cliffInterp K dim d named D w).wedge (ns.map (mvVal (intPow ρ) (cliffBlade K dim d)))
  | _, _, r, .nil, h => by simp [foldArgs] at h
  | _, _, r, .cons (b := n) ha .nil, h => by
    simp only [foldArgs, ok_inj] at h
    subst h
    exact ⟨n, ha, fun K _ _ d named D w ρ => by simp [Interp.wedge]⟩
  | _, _, r, .cons ha (.cons hb hs), h => by
    simp only [foldArgs, bind_eq_ok] at h
    obtain ⟨r', h1, h2⟩ := h
    obtain ⟨n', i1, i2⟩ := foldExt_clean hd (.cons hb hs) h1
    obtain ⟨n, j1, j2⟩ := product_clean hd (fun a b ha hb h0 => extProduct_range hd ha hb h0) ha i1 h2
    refine ⟨n, j1, fun K _ _ d named D w ρ => ?_⟩
    rw [j2 K _ ρ (cliffBlade K dim d) (outerProd K dim d) (fun u v hu hv => outerProd_ext K hd d u v hu hv), i2 K d named D w ρ]
    rfl

end

/-! ## The refinement -/

/-- The ids that have a value: those below `b`, and the first `nc` named constants. -/
def Avail (b nc id : Nat) : Prop := id < b ∨ (indConstantStart ≤ id ∧ id - indConstantStart < nc)

theorem Avail.mono {b b' nc id : Nat} (h : Avail b nc id) (hb : b ≤ b') : Avail b' nc id := by
  rcases h with h | h
  · exact Or.inl (lt_of_lt_of_le h hb)
  · exact Or.inr h

/-- `a` represents `v` if `S` holds; whether `S` holds or not, `a` is a proper stack entry that only mentions ids in `P`. -/
def SoundOn {K : Type} [Field K] (T S : Prop) (n : Nat) (d : Nat → Int) (P : Nat → Prop) (ρ : Nat → K) (a : Mv)
    (v : CliffordAlgebra (diagForm K n d)) : Prop :=
  ∃ na, Kept T (PosInd P) n a na ∧ (S → mvVal (intPow ρ) (cliffBlade K n d) na = v)

/-- As `SoundOn`, for the ids with a value. -/
abbrev Sound {K : Type} [Field K] (T S : Prop) (n : Nat) (d : Nat → Int) (nc : Nat) (ρ : Nat → K) (b : Nat) (a : Mv)
    (v : CliffordAlgebra (diagForm K n d)) : Prop := SoundOn T S n d (Avail b nc) ρ a v

theorem Sound.mono {K : Type} [Field K] {T S : Prop} {n : Nat} {d : Nat → Int} {nc : Nat} {ρ : Nat → K} {b b' : Nat} {a : Mv}
    {v : CliffordAlgebra (diagForm K n d)} (hb : b ≤ b') (h : Sound T S n d nc ρ b a v) : Sound T S n d nc ρ b' a v := by
  obtain ⟨na, h1, h2⟩ := h
  exact ⟨na, h1.mono fun i hi => ⟨hi.1.mono hb, hi.2⟩, h2⟩

/-- The nodes the theorems on values speak about: constants are available basis elements or named constants, elements and grades can be
selected correctly, and there are no quotients and functions. -/
structure Plain (dim nc : Nat) (n : Node) : Prop where
  const : Op.czero ≤ n.o → n.o = Op.czero ∨ (n.o < Op.cend ∧ n.o - Op.cpi < nc) ∨ (Op.cscalar ≤ n.o ∧ n.o - Op.cscalar < 2 ^ dim)
  comp : n.o = Op.comp → n.ex < 2 ^ dim
  grd : n.o = Op.grd → GradeSafe dim n.ex
  div : n.o ≠ Op.div
  fn : ¬ IsFun n.o

theorem forall₂_exists {α β γ : Type} {R : α → β → Prop} {T : α → γ → Prop} {f : γ → β} {S : Prop}
    (h : ∀ a b, R a b → ∃ c, T a c ∧ (S → f c = b)) :
    ∀ {as : List α} {bs : List β}, List.Forall₂ R as bs → ∃ cs, List.Forall₂ T as cs ∧ (S → cs.map f = bs)
  | _, _, .nil => ⟨[], .nil, fun _ => rfl⟩
  | _, _, .cons (a := a) (b := b) h1 h2 => by
    obtain ⟨c, c1, c2⟩ := h a b h1
    obtain ⟨cs, d1, d2⟩ := forall₂_exists h h2
    exact ⟨c :: cs, .cons c1 d1, fun s => by rw [List.map_cons, c2 s, d2 s]⟩

variable {K : Type} [Field K] [CharZero K]

theorem qsmul_eq {V : Type} [AddCommGroup V] [Module K V] [Module ℚ V] (q : ℚ) (v : V) : (q : K) • v = q • v :=
  Rat.cast_smul_eq_qsmul K q v

theorem zero_stored {T : Prop} {Q : Ind → Prop} {dim : Nat} : Kept T Q dim ⟨⟨0, 0, 0⟩, 0, 0, 0, [], [], [], .id⟩ [] :=
  ⟨⟨packed_layout (c := ⟨0, 0, 0⟩) (n := []) ⟨by simp, by simp, by simp⟩, ⟨by simp, by simp⟩, fun t ht => (List.not_mem_nil ht).elim, .nil⟩, fun _ => rfl⟩

theorem rat_one_canon : Rat32.one.Canon := by decide

theorem named_stored {T : Prop} {P : Nat → Prop} {dim k : Nat} (hk : P (k + indConstantStart)) : Kept T (PosInd P) dim
    ⟨⟨1, 1, 1⟩, 1, 1, 1, [⟨k + indConstantStart, Rat32.one⟩], [⟨Rat32.one, Rat32.one, 1, 0⟩], [⟨1, 0, 0⟩], .id⟩
    [⟨0, [⟨Rat32.one, Rat32.one, [⟨k + indConstantStart, Rat32.one⟩]⟩]⟩] := by
  refine ⟨⟨packed_layout (c := ⟨1, 1, 1⟩) (n := [⟨0, [⟨Rat32.one, Rat32.one, [⟨k + indConstantStart, Rat32.one⟩]⟩]⟩])
    ⟨le_refl 1, le_refl 1, le_refl 1⟩, ⟨?_, by simp⟩, ?_, ?_⟩, fun _ => rfl⟩
  · intro t ht
    rw [List.mem_singleton] at ht
    subst ht
    refine ⟨⟨fun q hq => ?_, by simp⟩, by simp⟩
    rw [List.mem_singleton] at hq
    subst hq
    refine ⟨⟨rat_one_canon, fun i hi => ?_, by simp, rfl, rat_one_canon.1.num⟩, one_ne_zero⟩
    rw [List.mem_singleton] at hi
    subst hi
    exact ⟨rfl, rat_one_canon.1.num, one_ne_zero⟩
  · intro t ht
    rw [List.mem_singleton] at ht
    subst ht
    exact Nat.two_pow_pos _
  · intro t ht q hq i hi
    rw [List.mem_singleton] at ht
    subst ht
    rw [List.mem_singleton] at hq
    subst hq
    rw [List.mem_singleton] at hi
    subst hi
    exact ⟨hk, rfl, one_pos⟩

theorem basis_stored {T : Prop} {Q : Ind → Prop} {dim e : Nat} (he : e < 2 ^ dim) : Kept T Q dim
    ⟨⟨0, 1, 1⟩, 0, 1, 1, [], [⟨Rat32.one, Rat32.zero, 0, 0⟩], [⟨1, 0, e⟩], .id⟩ [⟨e, [⟨Rat32.one, Rat32.zero, []⟩]⟩] := by
  refine ⟨⟨packed_layout (c := ⟨0, 1, 1⟩) (n := [⟨e, [⟨Rat32.one, Rat32.zero, []⟩]⟩])
    ⟨le_refl 0, le_refl 1, le_refl 1⟩, ⟨?_, by simp⟩, ?_, ?_⟩, fun _ => rfl⟩
  · intro t ht
    rw [List.mem_singleton] at ht
    subst ht
    refine ⟨⟨fun q hq => ?_, by simp⟩, by simp⟩
    rw [List.mem_singleton] at hq
    subst hq
    exact ⟨⟨rat_one_canon, by simp, by simp, rfl, by show InI32 0; decide⟩, one_ne_zero⟩
  · intro t ht
    rw [List.mem_singleton] at ht
    subst ht
    exact he
  · intro t ht q hq i hi
    rw [List.mem_singleton] at ht
    subst ht
    rw [List.mem_singleton] at hq
    subst hq
    cases hi

/-- The operations of the stack machine on multivectors compute the operations of the Clifford algebra. -/
theorem mv_refines_on (T S : Prop) (m : Metric) (hm : m.dim ≤ 8) (null : Bool) (named : Nat → K)
    (D : CliffordAlgebra (diagForm K m.dim m.sq) →ₗ[K] CliffordAlgebra (diagForm K m.dim m.sq)) (hD : IsDual K m.dim m.sq D)
    (w : Nat → CliffordAlgebra (diagForm K m.dim m.sq)) (nc : Nat) (ρ : Nat → K)
    (hn : S → ∀ k, k < nc → named k = ρ (k + indConstantStart)) (ie : Nat → Nat → Mv) (P : Nat → Prop) (A : Node → Prop)
    (hA : ∀ n, A n → Plain m.dim nc n) (hP : ∀ n, A n → Op.czero < n.o → n.o < Op.cend → P (n.o - Op.cpi + indConstantStart))
    (hin : ∀ n, A n → n.o = Op.id → ∀ x, (mvOps m null).input (ie n.ex n.checksum) = ok x → SoundOn T S m.dim m.sq P ρ x (w n.ex)) :
    Refines (mvOps m null) ie (cliffInterp K m.dim m.sq named D w) (SoundOn T S m.dim m.sq P ρ) A where
  input n hn ho x hx := hin n hn ho x hx
  const n ha ho x hx := by
    simp only [mvOps] at hx
    have hp := (hA n ha).const ho
    unfold constMv at hx
    show SoundOn T S m.dim m.sq P ρ x (cliffConst K m.dim m.sq named n.o)
    unfold cliffConst
    have hb : cliffBlade K m.dim m.sq 0 = 1 := by rw [cliffBlade, bladeOf_zero]
    have h1 : Rat32.toQ Rat32.one = 1 := by simp [Rat32.toQ, Rat32.one]
    split at hx
    · rename_i h0
      rw [ok_inj] at hx
      subst hx
      rw [if_pos h0]
      exact ⟨[], zero_stored, fun _ => rfl⟩
    · rename_i h0
      rw [if_neg (by omega)] at hx
      rw [if_neg h0]
      split at hx
      · rename_i h2
        rw [ok_inj] at hx
        subst hx
        rw [if_pos h2]
        have hk : n.o - Op.cpi < nc := by
          rcases hp with h | h | h
          · exact absurd h h0
          · exact h.2
          · exact absurd h.1 (by simp only [Op.cscalar, Op.cend] at h2 ⊢; omega)
        refine ⟨_, named_stored (hP n ha (by omega) h2), fun hs => ?_⟩
        rw [hn hs _ hk]
        simp [NTerm.val, NMon.val, Ind.val, intPow, h1, hb]
      · rename_i h2
        rw [if_neg h2]
        split at hx
        · cases hx
        · rw [ok_inj] at hx
          subst hx
          have hk : n.o - Op.cscalar < 2 ^ m.dim := by
            rcases hp with h | h | h
            · exact absurd h h0
            · exact absurd h.1 h2
            · exact h.2
          refine ⟨_, basis_stored hk, fun hs => ?_⟩
          simp [NTerm.val, NMon.val, h1]
  scale q a x v hq h0 := by
    rintro ⟨na, h1, h2⟩ hx
    obtain ⟨n, i1, i2⟩ := scale_stored hq h0 h1 hx
    exact ⟨n, i1, fun s => by rw [i2 K _ ρ, h2 s, qsmul_eq]⟩
  rev a x v := by
    rintro ⟨na, h1, h2⟩ hx
    obtain ⟨n, i1, i2⟩ := reverse_stored m hm h1 hx
    exact ⟨n, i1, fun s => by rw [i2 K ρ, h2 s]; rfl⟩
  pd a x v := by
    rintro ⟨na, h1, h2⟩ hx
    obtain ⟨n, i1, i2⟩ := dual_stored hm h1 hx
    exact ⟨n, i1, fun s => by rw [i2 K m.sq D hD ρ, h2 s]; rfl⟩
  comp n ha ho a x v := by
    rintro ⟨na, h1, h2⟩ hx
    simp only [mvOps, bind_eq_ok] at hx
    obtain ⟨r, hx, hs⟩ := hx
    have he := (hA n ha).comp ho
    obtain ⟨nr, i1, i2⟩ := component_stored (lt_of_lt_of_le he (two_pow_le_256 hm)) h1 hx hs
    refine ⟨nr, i1, fun s => ?_⟩
    rw [i2 K _ ρ, ← h2 s]
    show _ = coefficient K m.dim m.sq n.ex _
    rw [mvVal_linear]
    have hb : cliffBlade K m.dim m.sq 0 = 1 := by rw [cliffBlade, bladeOf_zero]
    rw [hb]
    unfold coeff
    have := mvVal_linear (intPow ρ) (fun x => if x = n.ex then (1 : K) else 0)
      ((LinearMap.id : K →ₗ[K] K).smulRight (1 : CliffordAlgebra (diagForm K m.dim m.sq))) na
    simp only [LinearMap.smulRight_apply, LinearMap.id_apply] at this
    rw [this]
    refine mvVal_congr _ fun t ht => ?_
    rw [coefficient_blade K _ _ _ _ (h1.elems t ht)]
    split <;> simp
  grd n ha ho a x v := by
    rintro ⟨na, h1, h2⟩ hx
    simp only [mvOps, bind_eq_ok] at hx
    obtain ⟨r, hx, hs⟩ := hx
    obtain ⟨nr, i1, i2⟩ := grade_stored hm ((hA n ha).grd ho) h1 hx hs
    refine ⟨nr, i1, fun s => ?_⟩
    rw [i2 K _ ρ, ← h2 s]
    show _ = gradePart K m.dim m.sq n.ex _
    rw [mvVal_linear]
    exact mvVal_congr _ fun t ht => (gradePart_blade K _ _ _ _ (h1.elems t ht)).symm
  gp a b x v w' := by
    rintro ⟨na, h1, h2⟩ ⟨nb, h3, h4⟩ hx
    simp only [mvOps, bind_eq_ok] at hx
    obtain ⟨r, hx, hs⟩ := hx
    obtain ⟨n, i1, i2⟩ := product_clean hm (fun a b ha hb _ => (C10_geometric_range m hm a b ha hb).2) h1.toClean h3.toClean hx
    refine ⟨n, shrink_ok i1 hs, fun s => ?_⟩
    rw [i2 K _ ρ (cliffBlade K m.dim m.sq) (LinearMap.mul K _) (fun u v hu hv => C10_geometric K m hm u v hu hv), h2 s, h4 s]
    rfl
  lc a b x v w' := by
    rintro ⟨na, h1, h2⟩ ⟨nb, h3, h4⟩ hx
    simp only [mvOps, bind_eq_ok] at hx
    obtain ⟨r, hx, hs⟩ := hx
    obtain ⟨n, i1, i2⟩ := product_clean hm (fun a b ha hb _ => conProduct_range hm ha hb) h1.toClean h3.toClean hx
    refine ⟨n, shrink_ok i1 hs, fun s => ?_⟩
    rw [i2 K _ ρ (cliffBlade K m.dim m.sq) (leftContraction K m.dim m.sq) (fun u v hu hv => leftContraction_conProduct K m hm u v hu hv),
      h2 s, h4 s]
    rfl
  sip a b x v w' := by
    rintro ⟨na, h1, h2⟩ ⟨nb, h3, h4⟩ hx
    simp only [mvOps, bind_eq_ok] at hx
    obtain ⟨r, hx, hs⟩ := hx
    obtain ⟨n, i1, i2⟩ := product_clean hm (fun a b ha hb _ => symProduct_range hm ha hb) h1.toClean h3.toClean hx
    refine ⟨n, shrink_ok i1 hs, fun s => ?_⟩
    rw [i2 K _ ρ (cliffBlade K m.dim m.sq) (innerProd K m.dim m.sq) (fun u v hu hv => innerProd_symProduct K m hm u v hu hv),
      h2 s, h4 s]
    rfl
  sums as vs x h0 hf hx := by
    simp only [mvOps, bind_eq_ok] at hx
    obtain ⟨r, hx, hs⟩ := hx
    obtain ⟨ns, c1, c2⟩ := forall₂_exists (fun a b h => h) hf
    have c1' := c1.imp fun _ _ h => h.toClean
    obtain ⟨n, i1, i2⟩ := foldSum_clean (List.rel_reverse c1') hx
    refine ⟨n, shrink_ok i1 hs, fun s => ?_⟩
    rw [i2 K _ ρ, List.map_reverse, List.sum_reverse, c2 s]
  eps as vs x h0 hf hx := by
    simp only [mvOps, bind_eq_ok] at hx
    obtain ⟨r, hx, hs⟩ := hx
    obtain ⟨ns, c1, c2⟩ := forall₂_exists (fun a b h => h) hf
    have c1' := c1.imp fun _ _ h => h.toClean
    obtain ⟨n, i1, i2⟩ := foldExt_clean hm c1' hx
    refine ⟨n, shrink_ok i1 hs, fun s => ?_⟩
    rw [i2 K m.sq named D w ρ, c2 s]
  div n ha ho := absurd ho (hA n ha).div
  fn n ha ho := absurd ho (hA n ha).fn

/-- As `mv_refines_on`, for the ids with a value. -/
theorem mv_refines (T S : Prop) (m : Metric) (hm : m.dim ≤ 8) (null : Bool) (named : Nat → K)
    (D : CliffordAlgebra (diagForm K m.dim m.sq) →ₗ[K] CliffordAlgebra (diagForm K m.dim m.sq)) (hD : IsDual K m.dim m.sq D)
    (w : Nat → CliffordAlgebra (diagForm K m.dim m.sq)) (nc : Nat) (ρ : Nat → K)
    (hn : S → ∀ k, k < nc → named k = ρ (k + indConstantStart)) (ie : Nat → Nat → Mv) (b : Nat) (A : Node → Prop)
    (hA : ∀ n, A n → Plain m.dim nc n)
    (hin : ∀ n, A n → n.o = Op.id → ∀ x, (mvOps m null).input (ie n.ex n.checksum) = ok x → Sound T S m.dim m.sq nc ρ b x (w n.ex)) :
    Refines (mvOps m null) ie (cliffInterp K m.dim m.sq named D w) (Sound T S m.dim m.sq nc ρ b) A := by
  refine mv_refines_on T S m hm null named D hD w nc ρ hn ie (Avail b nc) A hA (fun n ha h1 h2 => ?_) hin
  refine Or.inr ⟨Nat.le_add_left _ _, ?_⟩
  rcases (hA n ha).const (by omega) with h | h | h
  · omega
  · rw [Nat.add_sub_cancel]
    exact h.2
  · exact absurd h.1 (by simp only [Op.cscalar, Op.cend] at h2 ⊢; omega)

end Gal
