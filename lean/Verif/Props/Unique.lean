import Verif.Props.Reverse
import Mathlib.LinearAlgebra.LinearIndependent.Basic
import Mathlib.Algebra.BigOperators.Pi

/-!
# Property C23: the canonical form is unique

Two canonical multivectors with the same value for every assignment of non-zero rationals are the same list.  The proof
views a monomial as a character of the group of assignments and uses Dedekind's independence of characters.
-/

namespace Gal

open Out

/-- Assignments of non-zero rational values to the indeterminates. -/
abbrev Assign := Nat → ℚˣ

/-- The monomial as a function of the assignment. -/
noncomputable def indsChar (l : List Ind) : Assign →* ℚ where
  toFun ρ := (l.map fun i => ((ρ i.id : ℚˣ) : ℚ) ^ i.deg.num).prod
  map_one' := by simp
  map_mul' ρ σ := by
    induction l with
    | nil => simp
    | cons i l ih =>
      rw [List.map_cons, List.prod_cons, ih, List.map_cons, List.prod_cons, List.map_cons, List.prod_cons,
        Pi.mul_apply, Units.val_mul, mul_zpow]
      ring

theorem indsVal_char {l : List Ind} (hl : ∀ i ∈ l, CanonInd i) (ρ : Assign) :
    indsVal (intPow fun i => (ρ i : ℚ)) l = indsChar l ρ := by
  show _ = (l.map fun i => ((ρ i.id : ℚˣ) : ℚ) ^ i.deg.num).prod
  unfold indsVal
  congr 1
  refine List.map_congr_left fun i hi => ?_
  unfold Ind.val intPow
  rw [(hl i hi).toQ]
  simp

/-- Exponent of an indeterminate in a product of powers. -/
def expo (l : List Ind) (k : Nat) : Int := (l.map fun i => if i.id = k then i.deg.num else 0).sum

theorem indsChar_probe (l : List Ind) (k : Nat) :
    indsChar l (fun i => if i = k then Units.mk0 2 (by norm_num) else 1) = 2 ^ expo l k := by
  show (l.map _).prod = _
  unfold expo
  induction l with
  | nil => simp
  | cons i l ih =>
    rw [List.map_cons, List.prod_cons, ih, List.map_cons, List.sum_cons, zpow_add₀ (by norm_num)]
    congr 1
    by_cases h : i.id = k <;> simp [h]

theorem expo_absent {l : List Ind} {k : Nat} (h : ∀ i ∈ l, i.id ≠ k) : expo l k = 0 := by
  unfold expo
  apply List.sum_eq_zero
  intro x hx
  obtain ⟨i, hi, rfl⟩ := List.mem_map.1 hx
  simp [h i hi]

theorem expo_cons (i : Ind) (l : List Ind) (k : Nat) : expo (i :: l) k = (if i.id = k then i.deg.num else 0) + expo l k := by
  simp [expo]

theorem expo_inj {l r : List Ind} (hl : ∀ i ∈ l, CanonInd i) (hr : ∀ i ∈ r, CanonInd i)
    (sl : l.Pairwise (fun x y => x.id < y.id)) (sr : r.Pairwise (fun x y => x.id < y.id))
    (h : ∀ k, expo l k = expo r k) : l = r := by
  induction l generalizing r with
  | nil =>
    cases r with
    | nil => rfl
    | cons j r =>
      exfalso
      have := (h j.id).symm
      rw [expo_cons, if_pos rfl, expo_absent (fun i hi => by have := (List.pairwise_cons.1 sr).1 i hi; omega)] at this
      exact (hr j (by simp)).nz (by simpa [expo] using this)
  | cons i l ih =>
    rw [List.pairwise_cons] at sl
    cases r with
    | nil =>
      exfalso
      have := h i.id
      rw [expo_cons, if_pos rfl, expo_absent (fun j hj => by have := sl.1 j hj; omega)] at this
      exact (hl i (by simp)).nz (by simpa [expo] using this)
    | cons j r =>
      rw [List.pairwise_cons] at sr
      have hid : i.id = j.id := by
        rcases lt_trichotomy i.id j.id with hlt | he | hgt
        · exfalso
          have := h i.id
          rw [expo_cons, if_pos rfl, expo_absent (fun j hj => by have := sl.1 j hj; omega), expo_cons,
            if_neg (by omega), expo_absent (fun j hj => by have := sr.1 j hj; omega)] at this
          exact (hl i (by simp)).nz (by simpa using this)
        · exact he
        · exfalso
          have := h j.id
          rw [expo_cons, if_neg (by omega), expo_absent (fun j hj => by have := sl.1 j hj; omega), expo_cons,
            if_pos rfl, expo_absent (fun j hj => by have := sr.1 j hj; omega)] at this
          exact (hr j (by simp)).nz (by simpa using this.symm)
      have hd : i.deg.num = j.deg.num := by
        have := h i.id
        rw [expo_cons, if_pos rfl, expo_absent (fun j hj => by have := sl.1 j hj; omega), expo_cons,
          if_pos hid.symm, expo_absent (fun j hj => by have := sr.1 j hj; omega)] at this
        simpa using this
      have hij : i = j := (indKey_inj (hl i (by simp)) (hr j (by simp))).1 (by unfold indKey; rw [hid, hd])
      subst hij
      rw [ih (fun x hx => hl x (by simp [hx])) (fun x hx => hr x (by simp [hx])) sl.2 sr.2 (fun k => by
        have := h k
        rw [expo_cons, expo_cons] at this
        omega)]

theorem indsChar_inj {m m' : NMon} (hm : PreMon m) (hm' : PreMon m') (h : indsChar m.inds = indsChar m'.inds) :
    m.inds = m'.inds := by
  refine expo_inj hm.inds hm'.inds hm.asc hm'.asc fun k => ?_
  have := DFunLike.congr_fun h (fun i => if i = k then Units.mk0 2 (by norm_num) else 1)
  rw [indsChar_probe, indsChar_probe] at this
  exact zpow_right_injective₀ (by norm_num) (by norm_num) this

/-- A polynomial as a formal combination of characters. -/
noncomputable def monsForm (ms : List NMon) : (Assign →* ℚ) →₀ ℚ :=
  (ms.map fun m => Finsupp.single (indsChar m.inds) m.q.toQ).sum

theorem monsForm_cons (m : NMon) (ms : List NMon) :
    monsForm (m :: ms) = Finsupp.single (indsChar m.inds) m.q.toQ + monsForm ms := by
  simp [monsForm]

theorem monsForm_val {ms : List NMon} (h : ∀ m ∈ ms, PreMon m) (ρ : Assign) :
    Finsupp.linearCombination ℚ (fun f : Assign →* ℚ => (f : Assign → ℚ)) (monsForm ms) ρ =
      monsVal (intPow fun i => (ρ i : ℚ)) ms := by
  induction ms with
  | nil => simp [monsForm]
  | cons m ms ih =>
    rw [monsForm_cons, map_add, Pi.add_apply, ih (fun x hx => h x (by simp [hx])), monsVal_cons,
      Finsupp.linearCombination_single]
    congr 1
    unfold NMon.val
    rw [indsVal_char (h m (by simp)).inds]
    simp

open Classical in
theorem monsForm_absent {ms : List NMon} {c : Assign →* ℚ} (h : ∀ m ∈ ms, indsChar m.inds ≠ c) : monsForm ms c = 0 := by
  induction ms with
  | nil => simp [monsForm]
  | cons m ms ih =>
    rw [monsForm_cons, Finsupp.add_apply, ih (fun x hx => h x (by simp [hx])), Finsupp.single_apply,
      if_neg (h m (by simp)), add_zero]

theorem key_ne_char {x y : NMon} (hx : PreMon x) (hy : PreMon y) (h : monKey x < monKey y) :
    indsChar x.inds ≠ indsChar y.inds := by
  intro he
  have hi := indsChar_inj hx hy he
  exact h.ne ((monKey_inj hx hy).2 ⟨hi, by rw [hx.deg, hy.deg, hi]⟩)

open Classical in
theorem monsForm_mem {ms : List NMon} (hc : CanonMons ms) {m : NMon} (hm : m ∈ ms) :
    monsForm ms (indsChar m.inds) = m.q.toQ := by
  induction ms with
  | nil => simp at hm
  | cons x ms ih =>
    have hp := List.pairwise_cons.1 hc.asc
    rw [monsForm_cons, Finsupp.add_apply, Finsupp.single_apply]
    rcases List.mem_cons.1 hm with rfl | hm'
    · rw [if_pos rfl, monsForm_absent, add_zero]
      intro y hy he
      exact key_ne_char (hc.mons m (by simp)).toPreMon (hc.mons y (by simp [hy])).toPreMon (hp.1 y hy) he.symm
    · rw [if_neg, ih hc.tail hm', zero_add]
      exact key_ne_char (hc.mons x (by simp)).toPreMon (hc.mons m hm).toPreMon (hp.1 m hm')

theorem monsForm_subset {ms ms' : List NMon} (hc : CanonMons ms) (hc' : CanonMons ms')
    (h : monsForm ms = monsForm ms') : ∀ m ∈ ms, m ∈ ms' := by
  intro m hm
  have e := monsForm_mem hc hm
  have cm := hc.mons m hm
  have hq : m.q.toQ ≠ 0 := fun h0 => cm.nz ((Rat32.toQ_eq_zero cm.q.1).1 h0)
  rw [h] at e
  by_contra hn
  by_cases hex : ∃ m' ∈ ms', indsChar m'.inds = indsChar m.inds
  · obtain ⟨m', hm', he⟩ := hex
    have cm' := hc'.mons m' hm'
    have hi := indsChar_inj cm'.toPreMon cm.toPreMon he
    rw [← he, monsForm_mem hc' hm'] at e
    have : m' = m := by
      have h1 : m'.q = m.q := Rat32.lowest_unique cm'.q cm.q e
      have h2 : m'.degree = m.degree := by rw [cm'.deg, cm.deg, hi]
      cases m; cases m'; simp_all
    exact hn (this ▸ hm')
  · push Not at hex
    rw [monsForm_absent hex] at e
    exact hq e.symm

/-- Equal polynomial functions have equal canonical monomial lists. -/
theorem mons_unique {ms ms' : List NMon} (hc : CanonMons ms) (hc' : CanonMons ms')
    (h : ∀ ρ : Assign, monsVal (intPow fun i => (ρ i : ℚ)) ms = monsVal (intPow fun i => (ρ i : ℚ)) ms') : ms = ms' := by
  have hf : monsForm ms = monsForm ms' := by
    apply linearIndependent_monoidHom Assign ℚ
    funext ρ
    rw [monsForm_val (fun m hm => (hc.mons m hm).toPreMon), monsForm_val (fun m hm => (hc'.mons m hm).toPreMon), h ρ]
  have nd : ∀ {l : List NMon}, CanonMons l → l.Nodup := fun hl =>
    hl.asc.imp (fun hlt he => absurd (congrArg monKey he) hlt.ne)
  have hp : ms.Perm ms' := (List.perm_ext_iff_of_nodup (nd hc) (nd hc')).2 fun m =>
    ⟨monsForm_subset hc hc' hf m, monsForm_subset hc' hc hf.symm m⟩
  refine hp.eq_of_pairwise (fun x y _ _ h1 h2 => absurd (h1.trans h2) (lt_irrefl _)) hc.asc hc'.asc

theorem coeff_mem {K : Type} [Field K] (pw : Nat → ℚ → K) {a : NMv} (hs : a.Pairwise (fun x y => x.element < y.element))
    {t : NTerm} (ht : t ∈ a) : coeff pw a t.element = monsVal pw t.mons := by
  induction a with
  | nil => simp at ht
  | cons x a ih =>
    rw [List.pairwise_cons] at hs
    rw [coeff_cons]
    rcases List.mem_cons.1 ht with rfl | ht'
    · rw [if_pos rfl, coeff_absent, add_zero]
      intro y hy
      have := hs.1 y hy
      omega
    · have := hs.1 t ht'
      rw [if_neg (by omega), ih hs.2 ht', zero_add]

theorem mv_subset {a b : NMv} (ca : CanonMv a) (cb : CanonMv b)
    (h : ∀ (ρ : Assign) (e : Nat), coeff (intPow fun i => (ρ i : ℚ)) a e = coeff (intPow fun i => (ρ i : ℚ)) b e) :
    ∀ t ∈ a, t ∈ b := by
  intro t ht
  by_cases hex : ∃ u ∈ b, u.element = t.element
  · obtain ⟨u, hu, he⟩ := hex
    have : t.mons = u.mons := mons_unique (ca.terms t ht).1 (cb.terms u hu).1 fun ρ => by
      have := h ρ t.element
      rwa [coeff_mem _ ca.asc ht, ← he, coeff_mem _ cb.asc hu] at this
    have : u = t := by cases t; cases u; simp_all
    exact this ▸ hu
  · push Not at hex
    exfalso
    refine (ca.terms t ht).2 (mons_unique (ca.terms t ht).1 ⟨by simp, by simp⟩ fun ρ => ?_)
    have := h ρ t.element
    rwa [coeff_mem _ ca.asc ht, coeff_absent _ _ _ hex] at this

/-- C23: canonical multivectors with the same coefficients for every assignment of non-zero rationals are identical. -/
theorem C23_unique {a b : NMv} (ca : CanonMv a) (cb : CanonMv b)
    (h : ∀ ρ : Nat → ℚ, (∀ i, ρ i ≠ 0) → ∀ e, coeff (intPow ρ) a e = coeff (intPow ρ) b e) : a = b := by
  have h' : ∀ (ρ : Assign) (e : Nat), coeff (intPow fun i => (ρ i : ℚ)) a e = coeff (intPow fun i => (ρ i : ℚ)) b e :=
    fun ρ e => h _ (fun i => (ρ i).ne_zero) e
  have nd : ∀ {l : NMv}, CanonMv l → l.Nodup := fun hl =>
    hl.asc.imp (fun hlt he => absurd (congrArg NTerm.element he) hlt.ne)
  have hp : a.Perm b := (List.perm_ext_iff_of_nodup (nd ca) (nd cb)).2 fun t =>
    ⟨mv_subset ca cb h' t, mv_subset cb ca (fun ρ e => (h' ρ e).symm) t⟩
  exact hp.eq_of_pairwise (fun x y _ _ h1 h2 => absurd (h1.trans h2) (lt_irrefl _)) ca.asc cb.asc

/-- The converse direction is not vacuous: the two example multivectors differ, so some assignment separates them. -/
example : ∃ ρ : Nat → ℚ, (∀ i, ρ i ≠ 0) ∧ ∃ e, coeff (intPow ρ) exA e ≠ coeff (intPow ρ) exB e := by
  by_contra hn
  push Not at hn
  exact absurd (C23_unique exA_canon exB_canon hn) (by decide +kernel)

/-- C23: a canonical multivector that vanishes for every assignment has no terms. -/
theorem C23_zero_empty {a : NMv} (ca : CanonMv a)
    (h : ∀ ρ : Nat → ℚ, (∀ i, ρ i ≠ 0) → ∀ e, coeff (intPow ρ) a e = 0) : a = [] :=
  C23_unique ca ⟨by simp, by simp⟩ h

theorem mvVal_linear {K V W : Type} [Field K] [AddCommGroup V] [Module K V] [AddCommGroup W] [Module K W]
    (pw : Nat → ℚ → K) (β : Nat → V) (f : V →ₗ[K] W) (a : NMv) : f (mvVal pw β a) = mvVal pw (fun e => f (β e)) a := by
  induction a with
  | nil => simp
  | cons t ts ih => simp [NTerm.val, ih]

/-- C23 in an algebra: if the blades below `N` have coordinate functionals, equal values already force identity. -/
theorem unique_of_coords {V : Type} [AddCommGroup V] [Module ℚ V] {β : Nat → V} {N : Nat} (f : V →ₗ[ℚ] (Nat →₀ ℚ))
    (hf : ∀ g, g < N → f (β g) = Finsupp.single g 1) {a b : NMv} (ca : CanonMv a) (cb : CanonMv b)
    (ea : ElemsLt N a) (eb : ElemsLt N b)
    (h : ∀ ρ : Nat → ℚ, (∀ i, ρ i ≠ 0) → mvVal (intPow ρ) β a = mvVal (intPow ρ) β b) : a = b := by
  refine C23_unique ca cb fun ρ hρ e => ?_
  have hc : ∀ x : NMv, ElemsLt N x → coeff (intPow ρ) x e = f (mvVal (intPow ρ) β x) e := by
    intro x ex
    have := mvVal_linear (intPow ρ) β ((Finsupp.lapply e : (Nat →₀ ℚ) →ₗ[ℚ] ℚ).comp f) x
    rw [LinearMap.comp_apply, Finsupp.lapply_apply] at this
    rw [this]
    refine mvVal_congr _ fun t ht => ?_
    rw [LinearMap.comp_apply, hf _ (ex t ht), Finsupp.lapply_apply, Finsupp.single_apply]
  rw [hc a ea, hc b eb, h ρ hρ]

/-- C23 for values in the Clifford algebra of a metric. -/
theorem C23_clifford (n : Nat) (d : Nat → Int) {a b : NMv} (ca : CanonMv a) (cb : CanonMv b)
    (ea : ElemsLt (2 ^ n) a) (eb : ElemsLt (2 ^ n) b)
    (h : ∀ ρ : Nat → ℚ, (∀ i, ρ i ≠ 0) →
      mvVal (intPow ρ) (cliffBlade ℚ n d) a = mvVal (intPow ρ) (cliffBlade ℚ n d) b) : a = b :=
  unique_of_coords (bladeCoords ℚ n d) (bladeCoords_blade ℚ n d) ca cb ea eb h

end Gal
