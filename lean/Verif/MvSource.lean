import Verif.MvCanon
import Verif.OutRel

/-!
# Where the entries of a result come from

Every indeterminate of a result satisfies any property that the operands' indeterminates satisfy and that is closed under
adding exponents; elements of products are results of the blade product.
-/

namespace Gal

open Out

/-- All indeterminates of a list of monomials satisfy `Q`. -/
def MonsAll (Q : Ind → Prop) (ms : List NMon) : Prop := ∀ m ∈ ms, ∀ i ∈ m.inds, Q i
/-- All indeterminates satisfy `Q`. -/
def IndsAll (Q : Ind → Prop) (a : NMv) : Prop := ∀ t ∈ a, MonsAll Q t.mons

theorem MonsAll.cons {Q : Ind → Prop} {m : NMon} {ms : List NMon} (h : ∀ i ∈ m.inds, Q i) (h' : MonsAll Q ms) :
    MonsAll Q (m :: ms) := by
  intro x hx
  rcases List.mem_cons.1 hx with rfl | hx
  · exact h
  · exact h' x hx

theorem MonsAll.append {Q : Ind → Prop} {l r : List NMon} (h : MonsAll Q l) (h' : MonsAll Q r) : MonsAll Q (l ++ r) := by
  intro x hx
  rcases List.mem_append.1 hx with hx | hx
  · exact h x hx
  · exact h' x hx

theorem MonsAll.nil {Q : Ind → Prop} : MonsAll Q [] := by intro x hx; cases hx

theorem IndsAll.nil {Q : Ind → Prop} : IndsAll Q [] := by intro x hx; cases hx

theorem IndsAll.cons {Q : Ind → Prop} {t : NTerm} {a : NMv} (h : MonsAll Q t.mons) (h' : IndsAll Q a) :
    IndsAll Q (t :: a) := by
  intro x hx
  rcases List.mem_cons.1 hx with rfl | hx
  · exact h
  · exact h' x hx

theorem IndsAll.append {Q : Ind → Prop} {l r : NMv} (h : IndsAll Q l) (h' : IndsAll Q r) : IndsAll Q (l ++ r) := by
  intro x hx
  rcases List.mem_append.1 hx with hx | hx
  · exact h x hx
  · exact h' x hx

variable {Q : Ind → Prop}

/-! ## Sum -/

theorem sumMonsN_all (fuel : Nat) : ∀ {l r : List NMon}, MonsAll Q l → MonsAll Q r → All (MonsAll Q) (sumMonsN fuel l r) := by
  induction fuel with
  | zero => intro l r hl hr; exact All.ok (hl.append hr)
  | succ fuel ih =>
    intro l r hl hr
    cases l with
    | nil => exact All.ok hr
    | cons x l =>
      cases r with
      | nil => exact All.ok hl
      | cons y r =>
        have hx := hl x (by simp)
        have hy := hr y (by simp)
        have hl' : MonsAll Q l := fun m hm => hl m (by simp [hm])
        have hr' : MonsAll Q r := fun m hm => hr m (by simp [hm])
        unfold sumMonsN
        split
        · refine All.bind' fun b => ?_
          split
          · exact All.bind (ih hl' hr) fun o ho => All.ok (.cons hx ho)
          · exact All.bind (ih hl hr') fun o ho => All.ok (.cons hy ho)
        · refine All.bind' fun p => ?_
          cases p with
          | same =>
            refine All.bind' fun q => All.bind (ih hl' hr') fun o ho => ?_
            split
            · exact All.ok ho
            · exact All.ok (.cons hx ho)
          | left => exact All.bind (ih hl' hr) fun o ho => All.ok (.cons hx ho)
          | right => exact All.bind (ih hl hr') fun o ho => All.ok (.cons hy ho)

/-- Sources of a sum: elements and indeterminates come from the operands. -/
theorem sumTermsN_all {E : Nat → Prop} (fuel : Nat) : ∀ {l r : NMv}, IndsAll Q l → IndsAll Q r → (∀ t ∈ l, E t.element) →
    (∀ t ∈ r, E t.element) → All (fun o => IndsAll Q o ∧ ∀ t ∈ o, E t.element) (sumTermsN fuel l r) := by
  induction fuel with
  | zero =>
    intro l r hl hr el er
    refine All.ok ⟨hl.append hr, fun t ht => ?_⟩
    rcases List.mem_append.1 ht with ht | ht
    · exact el t ht
    · exact er t ht
  | succ fuel ih =>
    intro l r hl hr el er
    cases l with
    | nil => exact All.ok ⟨hr, er⟩
    | cons x l =>
      cases r with
      | nil => exact All.ok ⟨hl, el⟩
      | cons y r =>
        have hx := hl x (by simp)
        have hy := hr y (by simp)
        have ex := el x (by simp)
        have ey := er y (by simp)
        have hl' : IndsAll Q l := fun m hm => hl m (by simp [hm])
        have hr' : IndsAll Q r := fun m hm => hr m (by simp [hm])
        have el' : ∀ t ∈ l, E t.element := fun m hm => el m (by simp [hm])
        have er' : ∀ t ∈ r, E t.element := fun m hm => er m (by simp [hm])
        have step : ∀ {t : NTerm} {o : NMv}, MonsAll Q t.mons → E t.element → (IndsAll Q o ∧ ∀ t ∈ o, E t.element) →
            IndsAll Q (t :: o) ∧ ∀ u ∈ t :: o, E u.element := by
          intro t o h1 h2 h3
          refine ⟨.cons h1 h3.1, fun u hu => ?_⟩
          rcases List.mem_cons.1 hu with rfl | hu
          · exact h2
          · exact h3.2 u hu
        unfold sumTermsN
        split
        · refine All.bind (sumMonsN_all _ hx hy) fun ms hms => All.bind (ih hl' hr' el' er') fun o ho => ?_
          split
          · exact All.ok (step hms ex ho)
          · exact All.ok ho
        · split
          · exact All.bind (ih hl' hr el' er) fun o ho => All.ok (step hx ex ho)
          · exact All.bind (ih hl hr' el er') fun o ho => All.ok (step hy ey ho)

theorem sumN_all {E : Nat → Prop} {a b : NMv} (ha : IndsAll Q a) (hb : IndsAll Q b) (ea : ∀ t ∈ a, E t.element)
    (eb : ∀ t ∈ b, E t.element) : All (fun o => IndsAll Q o ∧ ∀ t ∈ o, E t.element) (sumN a b) :=
  sumTermsN_all _ ha hb ea eb

/-! ## Collation -/

theorem accN_all {m : NMon} (ms : List NMon) : ∀ {q : Rat32}, MonsAll Q ms → All (fun r => MonsAll Q r.2) (accN m q ms) := by
  induction ms with
  | nil => intro q _; exact All.ok .nil
  | cons y ys ih =>
    intro q h
    unfold accN
    split
    · exact All.bind' fun q => ih fun x hx => h x (by simp [hx])
    · exact All.ok h

theorem mergeRunN_all (fuel : Nat) : ∀ {ms : List NMon}, MonsAll Q ms → All (MonsAll Q) (mergeRunN fuel ms) := by
  induction fuel with
  | zero => intro ms _; exact All.ok .nil
  | succ fuel ih =>
    intro ms h
    cases ms with
    | nil => exact All.ok .nil
    | cons m ms =>
      unfold mergeRunN
      refine All.bind (accN_all ms fun x hx => h x (by simp [hx])) fun ⟨q, rest⟩ hr => All.bind (ih hr) fun o ho => ?_
      split
      · exact All.ok ho
      · exact All.ok (.cons (h m (by simp)) ho)

theorem gatherN_all (el : Nat) (ts : NMv) (h : IndsAll Q ts) : MonsAll Q (gatherN el ts).1 := by
  intro m hm
  obtain ⟨_, h1, _, _⟩ := gatherN_val (K := ℚ) (V := ℚ) (fun _ _ => 0) (fun _ => 0) el ts
  obtain ⟨t, ht, hm⟩ := h1 m hm
  exact h t ht m hm

theorem collateN_all {E : Nat → Prop} (fuel : Nat) : ∀ {ts : NMv}, IndsAll Q ts → (∀ t ∈ ts, E t.element) →
    All (fun o => IndsAll Q o ∧ ∀ t ∈ o, E t.element) (collateN fuel ts) := by
  induction fuel with
  | zero => intro ts _ _; exact All.ok ⟨.nil, by simp⟩
  | succ fuel ih =>
    intro ts h he
    cases ts with
    | nil => exact All.ok ⟨.nil, by simp⟩
    | cons t ts =>
      unfold collateN
      obtain ⟨_, _, h2, _⟩ := gatherN_val (K := ℚ) (V := ℚ) (fun _ _ => 0) (fun _ => 0) t.element (t :: ts)
      have hg := gatherN_all t.element (t :: ts) h
      refine All.bind (P := MonsAll Q) ((sortAll_all_perm _ _).mono fun s hs m hm => hg m (hs.mem_iff.1 hm)) fun s hs => ?_
      refine All.bind (mergeRunN_all _ hs) fun ms hms => ?_
      refine All.bind (ih (fun u hu => h u (h2 u hu)) (fun u hu => he u (h2 u hu))) fun o ho => ?_
      split
      · refine All.ok ⟨.cons hms ho.1, fun u hu => ?_⟩
        rcases List.mem_cons.1 hu with rfl | hu
        · exact he t (by simp)
        · exact ho.2 u hu
      · exact All.ok ho

theorem sortCollateN_all {E : Nat → Prop} {ts : NMv} (h : IndsAll Q ts) (he : ∀ t ∈ ts, E t.element) :
    All (fun o => IndsAll Q o ∧ ∀ t ∈ o, E t.element) (sortCollateN ts) := by
  unfold sortCollateN
  exact All.bind (P := fun s : NMv => IndsAll Q s ∧ ∀ t ∈ s, E t.element)
    ((sortAll_all_perm _ _).mono fun s hs => ⟨fun t ht => h t (hs.mem_iff.1 ht), fun t ht => he t (hs.mem_iff.1 ht)⟩)
    fun s hs => collateN_all _ hs.1 hs.2

/-! ## Product -/

/-- `Q` is closed under adding the exponents of equal indeterminates. -/
def AddClosed (Q : Ind → Prop) : Prop :=
  ∀ x y d, Q x → Q y → x.id = y.id → x.deg.add y.deg = ok d → Q ⟨x.id, d⟩

theorem mergeIndsN_all (hQ : AddClosed Q) (fuel : Nat) : ∀ {d : Rat32} {l r : List Ind} {o : List Ind × Rat32},
    (∀ i ∈ l, Q i) → (∀ i ∈ r, Q i) → mergeIndsN fuel d l r = ok o → ∀ i ∈ o.1, Q i := by
  have step : ∀ {x : Ind} {o : List Ind}, Q x → (∀ i ∈ o, Q i) → ∀ i ∈ x :: o, Q i := by
    intro x o hx ho i hi
    rcases List.mem_cons.1 hi with rfl | hi
    · exact hx
    · exact ho i hi
  induction fuel with
  | zero => intro d l r o _ _ h; simp only [mergeIndsN, ok_inj] at h; subst h; simp
  | succ fuel ih =>
    intro d l r o hl hr h
    cases l with
    | nil => cases r with
      | nil => simp only [mergeIndsN, ok_inj] at h; subst h; simp
      | cons y r =>
        simp only [mergeIndsN, bind_eq_ok, pure_eq, ok_inj] at h
        obtain ⟨d1, hd1, ⟨o', d2⟩, h2, rfl⟩ := h
        exact step (hr y (by simp)) (ih hl (fun i hi => hr i (by simp [hi])) h2)
    | cons x l => cases r with
      | nil =>
        simp only [mergeIndsN, bind_eq_ok, pure_eq, ok_inj] at h
        obtain ⟨d1, hd1, ⟨o', d2⟩, h2, rfl⟩ := h
        exact step (hl x (by simp)) (ih (fun i hi => hl i (by simp [hi])) hr h2)
      | cons y r =>
        have hl' : ∀ i ∈ l, Q i := fun i hi => hl i (by simp [hi])
        have hr' : ∀ i ∈ r, Q i := fun i hi => hr i (by simp [hi])
        unfold mergeIndsN at h
        split at h
        · rename_i hid
          simp only [bind_eq_ok] at h
          obtain ⟨next, hn, d1, hd1, ⟨o', d2⟩, h2, h⟩ := h
          split at h
          · simp only [pure_eq, ok_inj] at h
            subst h
            exact step (hQ x y next (hl x (by simp)) (hr y (by simp)) hid hn) (ih hl' hr' h2)
          · simp only [pure_eq, ok_inj] at h
            subst h
            exact ih hl' hr' h2
        · split at h
          · simp only [bind_eq_ok, pure_eq, ok_inj] at h
            obtain ⟨d1, hd1, ⟨o', d2⟩, h2, rfl⟩ := h
            exact step (hl x (by simp)) (ih hl' hr h2)
          · simp only [bind_eq_ok, pure_eq, ok_inj] at h
            obtain ⟨d1, hd1, ⟨o', d2⟩, h2, rfl⟩ := h
            exact step (hr y (by simp)) (ih hl hr' h2)

theorem mulMonsN_all (hQ : AddClosed Q) {k : Int} {l r out : List NMon} (hl : MonsAll Q l) (hr : MonsAll Q r)
    (h : mulMonsN k l r = ok out) : MonsAll Q out := by
  induction l generalizing out with
  | nil => simp only [mulMonsN, ok_inj] at h; subst h; exact .nil
  | cons x l ih =>
    simp only [mulMonsN, bind_eq_ok, pure_eq, ok_inj] at h
    obtain ⟨row, h1, rest, h2, rfl⟩ := h
    refine MonsAll.append ?_ (ih (fun m hm => hl m (by simp [hm])) h2)
    intro m hm
    obtain ⟨y, hy, h3⟩ := mapO_mem h1 hm
    unfold mulMonN at h3
    simp only [bind_eq_ok, pure_eq, ok_inj] at h3
    obtain ⟨⟨is, d⟩, h4, q, _, q', _, rfl⟩ := h3
    exact mergeIndsN_all hQ _ (hl x (by simp)) (hr y hy) h4

theorem mulTermsN_all (hQ : AddClosed Q) {P : Nat → Nat → Nat × Int} {l r out : NMv} (hl : IndsAll Q l) (hr : IndsAll Q r)
    (el : ElemsLt 256 l) (er : ElemsLt 256 r) (h : mulTermsN P l r = ok out) :
    IndsAll Q out ∧ ∀ t ∈ out, ∃ u ∈ l, ∃ v ∈ r, t.element = (P u.element v.element).1 ∧ (P u.element v.element).2 ≠ 0 := by
  have row : ∀ {x : NTerm} {r out : NMv}, MonsAll Q x.mons → IndsAll Q r → x.element < 256 → ElemsLt 256 r →
      mulTermRowN P x r = ok out →
      IndsAll Q out ∧ ∀ t ∈ out, ∃ v ∈ r, t.element = (P x.element v.element).1 ∧ (P x.element v.element).2 ≠ 0 := by
    intro x r out hx hr ex er h
    induction r generalizing out with
    | nil => simp only [mulTermRowN, ok_inj] at h; subst h; exact ⟨.nil, by simp⟩
    | cons y r ih =>
      have hye : y.element < 256 := er y (by simp)
      unfold mulTermRowN at h
      rw [Nat.mod_eq_of_lt ex, Nat.mod_eq_of_lt hye] at h
      have ih' := fun out h => ih (out := out) (fun t ht => hr t (by simp [ht])) (fun t ht => er t (by simp [ht])) h
      have lift : ∀ {o : NMv}, (∀ t ∈ o, ∃ v ∈ r, t.element = (P x.element v.element).1 ∧ (P x.element v.element).2 ≠ 0) →
          ∀ t ∈ o, ∃ v ∈ y :: r, t.element = (P x.element v.element).1 ∧ (P x.element v.element).2 ≠ 0 := by
        intro o ho t ht
        obtain ⟨v, hv, e⟩ := ho t ht
        exact ⟨v, by simp [hv], e⟩
      split at h
      rename_i g k hP
      split at h
      · rename_i hk
        simp only [bind_eq_ok, pure_eq, ok_inj] at h
        obtain ⟨ms, h1, rest, h2, rfl⟩ := h
        obtain ⟨a1, a2⟩ := ih' _ h2
        refine ⟨.cons (mulMonsN_all hQ hx (hr y (by simp)) h1) a1, fun t ht => ?_⟩
        rcases List.mem_cons.1 ht with rfl | ht
        · exact ⟨y, by simp, by simp [hP], by simpa [hP] using hk⟩
        · exact lift a2 t ht
      · obtain ⟨a1, a2⟩ := ih' _ h
        exact ⟨a1, lift a2⟩
  induction l generalizing out with
  | nil => simp only [mulTermsN, ok_inj] at h; subst h; exact ⟨.nil, by simp⟩
  | cons x l ih =>
    simp only [mulTermsN, bind_eq_ok, pure_eq, ok_inj] at h
    obtain ⟨rw', h1, rest, h2, rfl⟩ := h
    obtain ⟨a1, a2⟩ := row (hl x (by simp)) hr (el x (by simp)) er h1
    obtain ⟨b1, b2⟩ := ih (fun t ht => hl t (by simp [ht])) (fun t ht => el t (by simp [ht])) h2
    refine ⟨a1.append b1, fun t ht => ?_⟩
    rcases List.mem_append.1 ht with ht | ht
    · obtain ⟨v, hv, e⟩ := a2 t ht
      exact ⟨x, by simp, v, hv, e⟩
    · obtain ⟨u, hu, v, hv, e⟩ := b2 t ht
      exact ⟨u, by simp [hu], v, hv, e⟩

/-- Sources of a product. -/
theorem productN_all (hQ : AddClosed Q) {P : Nat → Nat → Nat × Int} {a b r : NMv} (ha : IndsAll Q a) (hb : IndsAll Q b)
    (ea : ElemsLt 256 a) (eb : ElemsLt 256 b) (h : productN P a b = ok r) :
    IndsAll Q r ∧ ∀ t ∈ r, ∃ u ∈ a, ∃ v ∈ b, t.element = (P u.element v.element).1 ∧ (P u.element v.element).2 ≠ 0 := by
  unfold productN at h
  rw [bind_eq_ok] at h
  obtain ⟨ts, h1, h2⟩ := h
  obtain ⟨c1, c2⟩ := mulTermsN_all hQ ha hb ea eb h1
  exact (sortCollateN_all (E := fun e => ∃ u ∈ a, ∃ v ∈ b, e = (P u.element v.element).1 ∧ (P u.element v.element).2 ≠ 0)
    c1 c2).of_ok h2

/-- An indeterminate with an integer exponent that is not a pole of the assignment. -/
def NoPoleInd {K : Type} [Field K] (ρ : Nat → K) (i : Ind) : Prop := i.deg.den = 1 ∧ (i.deg.num < 0 → ρ i.id ≠ 0)

theorem noPole_closed {K : Type} [Field K] (ρ : Nat → K) : AddClosed (NoPoleInd ρ) := by
  intro x y d hx hy hid h
  obtain ⟨rfl, _⟩ := add_int hx.1 hy.1 h
  refine ⟨rfl, fun hneg => ?_⟩
  simp only at hneg ⊢
  by_cases h1 : x.deg.num < 0
  · exact hx.2 h1
  · rw [hid]; exact hy.2 (by omega)

theorem indsAll_noPole {K : Type} [Field K] {ρ : Nat → K} {a : NMv} (hd : IntDegs a) (h : NoPole ρ a) :
    IndsAll (NoPoleInd ρ) a := fun t ht m hm i hi => ⟨hd t ht m hm i hi, h t ht m hm i hi⟩

theorem IndsAll.noPole {K : Type} [Field K] {ρ : Nat → K} {a : NMv} (h : IndsAll (NoPoleInd ρ) a) : NoPole ρ a :=
  fun t ht m hm i hi => (h t ht m hm i hi).2

end Gal
