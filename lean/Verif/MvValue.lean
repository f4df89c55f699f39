import Verif.Spec.MvVal
import Verif.Props.RationalCmp
import Verif.Props.Sort
import Verif.OutRel
import Mathlib.Tactic.LinearCombination
import Mathlib.Tactic.Abel
import Mathlib.LinearAlgebra.BilinearMap

/-! # Value of the nested multivector operations (no ordering assumptions) -/

namespace Gal

open Out

/-! ## Sorting permutes, whatever the comparator -/

/-- Whatever the comparator, a defined sort is a permutation. -/
theorem sortAll_perm {α : Type} {less : α → α → Out Bool} {l l' : List α} (h : sortAll less l = ok l') : l'.Perm l :=
  (sortAll_all_perm less l).of_ok h

/-! ## mapO -/

theorem mapO_cons_ok {α β : Type} {f : α → Out β} {x : α} {xs : List α} {r : List β} :
    mapO f (x :: xs) = ok r ↔ ∃ y ys, f x = ok y ∧ mapO f xs = ok ys ∧ r = y :: ys := by
  simp only [mapO, bind_eq_ok, pure_eq, ok_inj]
  constructor
  · rintro ⟨y, hy, ys, hys, rfl⟩; exact ⟨y, ys, hy, hys, rfl⟩
  · rintro ⟨y, ys, hy, hys, rfl⟩; exact ⟨y, hy, ys, hys, rfl⟩

theorem mapO_nil_ok {α β : Type} {f : α → Out β} {r : List β} : mapO f [] = ok r ↔ r = [] := by
  simp [mapO, eq_comm]

theorem mapO_length {α β : Type} {f : α → Out β} {l : List α} {r : List β} (h : mapO f l = ok r) :
    r.length = l.length := by
  induction l generalizing r with
  | nil => rw [mapO_nil_ok] at h; subst h; rfl
  | cons x xs ih =>
    rw [mapO_cons_ok] at h
    obtain ⟨y, ys, _, hys, rfl⟩ := h
    simp [ih hys]

theorem mapO_mem {α β : Type} {f : α → Out β} {l : List α} {r : List β} (h : mapO f l = ok r) {y : β} (hy : y ∈ r) :
    ∃ x ∈ l, f x = ok y := by
  induction l generalizing r with
  | nil => rw [mapO_nil_ok] at h; subst h; simp at hy
  | cons x xs ih =>
    rw [mapO_cons_ok] at h
    obtain ⟨z, zs, hz, hzs, rfl⟩ := h
    rcases List.mem_cons.1 hy with rfl | hy
    · exact ⟨x, by simp, hz⟩
    · obtain ⟨w, hw, e⟩ := ih hzs hy
      exact ⟨w, by simp [hw], e⟩

theorem mapO_defined {α β : Type} {f : α → Out β} {l : List α} (h : ∀ x ∈ l, ∃ y, f x = ok y) :
    ∃ r, mapO f l = ok r := by
  induction l with
  | nil => exact ⟨[], rfl⟩
  | cons x xs ih =>
    obtain ⟨y, hy⟩ := h x (by simp)
    obtain ⟨ys, hys⟩ := ih (fun z hz => h z (by simp [hz]))
    exact ⟨y :: ys, mapO_cons_ok.2 ⟨y, ys, hy, hys, rfl⟩⟩

variable {K V : Type} [Field K] [CharZero K] [AddCommGroup V] [Module K V]
variable (pw : Nat → ℚ → K) (β : Nat → V)

/-! ## Coefficient maps -/

/-- A coefficient map that multiplies the exact value by `c`. -/
theorem mapQ_mons_val {f : Rat32 → Out Rat32} {c : ℚ} (hf : ∀ x y, x.WF → f x = ok y → y.toQ = c * x.toQ ∧ y.WF)
    {ms r : List NMon} (hw : ∀ m ∈ ms, m.WF) (h : mapO (NMon.mapQ f) ms = ok r) :
    monsVal pw r = (c : K) * monsVal pw ms ∧ ∀ m ∈ r, m.WF := by
  induction ms generalizing r with
  | nil => rw [mapO_nil_ok] at h; subst h; simp
  | cons m ms ih =>
    rw [mapO_cons_ok] at h
    obtain ⟨y, ys, hy, hys, rfl⟩ := h
    obtain ⟨e, w⟩ := ih (fun z hz => hw z (by simp [hz])) hys
    unfold NMon.mapQ at hy
    simp only [bind_eq_ok, pure_eq, ok_inj] at hy
    obtain ⟨q, hq, rfl⟩ := hy
    have hm := hw m (by simp)
    obtain ⟨e1, w1⟩ := hf _ _ hm.q hq
    constructor
    · rw [monsVal_cons, monsVal_cons, e, NMon.val, NMon.val, e1]
      push_cast; ring
    · intro z hz
      rcases List.mem_cons.1 hz with rfl | hz
      · exact ⟨w1, hm.inds⟩
      · exact w z hz

theorem mapQ_term_val {f : Rat32 → Out Rat32} {c : ℚ} (hf : ∀ x y, x.WF → f x = ok y → y.toQ = c * x.toQ ∧ y.WF)
    {t r : NTerm} (hw : ∀ m ∈ t.mons, m.WF) (h : t.mapQ f = ok r) :
    monsVal pw r.mons = (c : K) * monsVal pw t.mons ∧ r.element = t.element ∧ ∀ m ∈ r.mons, m.WF := by
  unfold NTerm.mapQ at h
  simp only [bind_eq_ok, pure_eq, ok_inj] at h
  obtain ⟨ms, hms, rfl⟩ := h
  obtain ⟨e, w⟩ := mapQ_mons_val pw hf hw hms
  exact ⟨e, rfl, w⟩

theorem mapQ_mv_val {f : Rat32 → Out Rat32} {c : ℚ} (hf : ∀ x y, x.WF → f x = ok y → y.toQ = c * x.toQ ∧ y.WF)
    {a r : NMv} (hw : MvWF a) (h : mapO (NTerm.mapQ f) a = ok r) :
    mvVal pw β r = (c : K) • mvVal pw β a ∧ MvWF r := by
  induction a generalizing r with
  | nil => rw [mapO_nil_ok] at h; subst h; simp [MvWF]
  | cons t ts ih =>
    rw [mapO_cons_ok] at h
    obtain ⟨y, ys, hy, hys, rfl⟩ := h
    obtain ⟨e, w⟩ := ih (fun z hz => hw z (by simp [hz])) hys
    obtain ⟨e1, e2, w1⟩ := mapQ_term_val pw hf (hw t (by simp)) hy
    constructor
    · rw [mvVal_cons, mvVal_cons, e, NTerm.val, NTerm.val, e1, e2, smul_add, mul_smul]
    · intro z hz
      rcases List.mem_cons.1 hz with rfl | hz
      · exact w1
      · exact w z hz

theorem scaleN_val {q : Rat32} (hq : q.WF) {a r : NMv} (hw : MvWF a) (h : scaleN q a = ok r) :
    mvVal pw β r = (q.toQ : K) • mvVal pw β a ∧ MvWF r :=
  mapQ_mv_val pw β (fun _ _ hx hy => Rat32.mul_spec hq hx hy) hw h

theorem negateN_val {a r : NMv} (hw : MvWF a) (h : negateN a = ok r) :
    mvVal pw β r = - mvVal pw β a ∧ MvWF r := by
  have := mapQ_mv_val pw β (c := -1) (fun x y hx hy => ?_) hw h
  · simpa using this
  · obtain ⟨e, w⟩ := Rat32.neg_spec hx hy
    exact ⟨by rw [e]; ring, w⟩

/-! ## Comparison -/

theorem Ind.ne_false {x y : Ind} (h : x.ne y = false) : x = y := by
  unfold Ind.ne Rat32.ne at h
  simp at h
  cases x; cases y
  rename_i d1 _ d2
  cases d1; cases d2
  simp_all

theorem indsEq_eq {l r : List Ind} (hl : l.length = r.length) (h : indsEq l r = true) : l = r := by
  induction l generalizing r with
  | nil => cases r with
    | nil => rfl
    | cons => simp at hl
  | cons x l ih => cases r with
    | nil => simp at hl
    | cons y r =>
      unfold indsEq at h
      split at h
      · simp at h
      · rename_i hn
        have e : x = y := Ind.ne_false (by simpa using hn)
        rw [e, ih (by simpa using hl) h]

theorem viewEq_inds {a b : NMon} (h : viewEq a b = true) : a.inds = b.inds ∧ a.degree = b.degree := by
  unfold viewEq at h
  split at h
  · simp at h
  · rename_i hn
    simp at hn
    refine ⟨indsEq_eq hn.2 h, ?_⟩
    have := hn.1
    unfold Rat32.ne at this
    simp at this
    cases h1 : a.degree; cases h2 : b.degree
    simp_all

theorem viewEq_self {a b : NMon} (h : a.inds = b.inds) (h' : a.degree = b.degree) : viewEq a b = true := by
  unfold viewEq
  rw [h, h']
  have h1 : b.degree.ne b.degree = false := by simp [Rat32.ne]
  simp only [h1]
  simp only [bne_self_eq_false, Bool.or_self, Bool.false_eq_true, if_false]
  have : ∀ l : List Ind, indsEq l l = true := by
    intro l
    induction l with
    | nil => rfl
    | cons x l ih => simp [indsEq, Ind.ne, Rat32.ne, ih]
  exact this _

/-! ## Collation -/

theorem accN_val {m : NMon} (hi : ∀ i ∈ m.inds, i.deg.WF) (ms : List NMon) :
    ∀ {q : Rat32} {q' : Rat32} {rest : List NMon}, q.WF → (∀ x ∈ ms, x.WF) → accN m q ms = ok (q', rest) →
      (q'.toQ : K) * indsVal pw m.inds + monsVal pw rest = (q.toQ : K) * indsVal pw m.inds + monsVal pw ms ∧
      q'.WF ∧ (∀ x ∈ rest, x ∈ ms) ∧ rest.length ≤ ms.length := by
  induction ms with
  | nil =>
    intro q q' rest hq _ h
    simp [accN] at h
    obtain ⟨rfl, rfl⟩ := h
    simp [hq]
  | cons y ys ih =>
    intro q q' rest hq hw h
    unfold accN at h
    split at h
    · rename_i he
      rw [bind_eq_ok] at h
      obtain ⟨q1, h1, h⟩ := h
      obtain ⟨e1, w1⟩ := Rat32.add_spec hq (hw y (by simp)).q h1
      obtain ⟨e, w, s, l⟩ := ih w1 (fun z hz => hw z (by simp [hz])) h
      refine ⟨?_, w, fun x hx => by simp [s x hx], by simp; omega⟩
      rw [e, e1, monsVal_cons, NMon.val, (viewEq_inds he).1]
      push_cast; ring
    · simp at h
      obtain ⟨rfl, rfl⟩ := h
      exact ⟨rfl, hq, fun x hx => hx, le_rfl⟩

theorem mergeRunN_val (fuel : Nat) :
    ∀ {ms r : List NMon}, ms.length ≤ fuel → (∀ x ∈ ms, x.WF) → mergeRunN fuel ms = ok r →
      monsVal pw r = monsVal pw ms ∧ ∀ x ∈ r, x.WF := by
  induction fuel with
  | zero =>
    intro ms r hl _ h
    have : ms = [] := List.length_eq_zero_iff.1 (by omega)
    subst this
    simp [mergeRunN] at h
    subst h; simp
  | succ fuel ih =>
    intro ms r hl hw h
    cases ms with
    | nil => simp [mergeRunN] at h; subst h; simp
    | cons m ms =>
      unfold mergeRunN at h
      simp only [bind_eq_ok] at h
      obtain ⟨⟨q, rest⟩, h1, out, h2, h⟩ := h
      have hm := hw m (by simp)
      obtain ⟨e, w, s, l⟩ := accN_val pw hm.inds ms hm.q (fun z hz => hw z (by simp [hz])) h1
      simp only [List.length_cons] at hl
      obtain ⟨e2, w2⟩ := ih (show rest.length ≤ fuel by omega) (fun z hz => hw z (by simp [s z hz])) h2
      rw [monsVal_cons, NMon.val, ← e, ← e2]
      split at h
      · rename_i hz
        simp at h; subst h
        have : q.toQ = 0 := (Rat32.isZero_iff w).1 hz
        simp [this]; exact w2
      · simp at h; subst h
        refine ⟨by rw [monsVal_cons, NMon.val], ?_⟩
        intro x hx
        rcases List.mem_cons.1 hx with rfl | hx
        · exact ⟨w, hm.inds⟩
        · exact w2 x hx

theorem gatherN_val (el : Nat) (ts : NMv) :
    monsVal pw (gatherN el ts).1 • β el + mvVal pw β (gatherN el ts).2 = mvVal pw β ts ∧
    (∀ x ∈ (gatherN el ts).1, ∃ t ∈ ts, x ∈ t.mons) ∧ (∀ t ∈ (gatherN el ts).2, t ∈ ts) ∧
    (gatherN el ts).2.length ≤ ts.length := by
  induction ts with
  | nil => simp [gatherN]
  | cons t ts ih =>
    unfold gatherN
    split
    · rename_i he
      obtain ⟨e, m, s, l⟩ := ih
      refine ⟨?_, ?_, ?_, ?_⟩
      · simp only [monsVal_append, mvVal_cons, NTerm.val, ← e, he, add_smul, add_assoc]
      · intro x hx
        rcases List.mem_append.1 hx with hx | hx
        · exact ⟨t, by simp, hx⟩
        · obtain ⟨u, hu, hx⟩ := m x hx
          exact ⟨u, by simp [hu], hx⟩
      · intro u hu
        exact List.mem_cons_of_mem _ (s u hu)
      · simp; omega
    · simp

theorem gatherN_head_length (t : NTerm) (ts : NMv) : (gatherN t.element (t :: ts)).2.length ≤ ts.length := by
  unfold gatherN
  rw [if_pos rfl]
  exact (gatherN_val (K := ℚ) (V := ℚ) (fun _ _ => 0) (fun _ => 0) t.element ts).2.2.2

theorem collateN_val (fuel : Nat) :
    ∀ {ts r : NMv}, ts.length ≤ fuel → MvWF ts → collateN fuel ts = ok r →
      mvVal pw β r = mvVal pw β ts ∧ MvWF r ∧ ∀ t ∈ r, ∃ u ∈ ts, t.element = u.element := by
  induction fuel with
  | zero =>
    intro ts r hl _ h
    have : ts = [] := List.length_eq_zero_iff.1 (by omega)
    subst this
    simp [collateN] at h
    subst h; simp [MvWF]
  | succ fuel ih =>
    intro ts r hl hw h
    cases ts with
    | nil => simp [collateN] at h; subst h; simp [MvWF]
    | cons t ts =>
      unfold collateN at h
      simp only [bind_eq_ok] at h
      obtain ⟨sorted, h1, merged, h2, out, h3, h⟩ := h
      obtain ⟨e, m, s, _⟩ := gatherN_val pw β t.element (t :: ts)
      have hp := sortAll_perm h1
      have hl2 := gatherN_head_length t ts
      have hlen : ts.length + 1 ≤ fuel + 1 := hl
      have hws : ∀ x ∈ sorted, x.WF := by
        intro x hx
        obtain ⟨u, hu, hx⟩ := m x (hp.mem_iff.1 hx)
        exact hw u hu x hx
      obtain ⟨e2, w2⟩ := mergeRunN_val pw sorted.length le_rfl hws h2
      obtain ⟨e3, w3, el3⟩ := ih (by omega) (fun z hz => hw z (s z hz)) h3
      rw [← e, ← e3, ← monsVal_perm pw hp, ← e2]
      split at h
      · simp at h; subst h
        refine ⟨by rw [mvVal_cons, NTerm.val], ?_, ?_⟩
        · intro x hx
          rcases List.mem_cons.1 hx with rfl | hx
          · exact w2
          · exact w3 x hx
        · intro x hx
          rcases List.mem_cons.1 hx with rfl | hx
          · exact ⟨t, by simp, rfl⟩
          · obtain ⟨u, hu, he⟩ := el3 x hx
            exact ⟨u, s u hu, he⟩
      · rename_i hz
        have hn : merged = [] := List.length_eq_zero_iff.1 (by omega)
        simp at h; subst h; subst hn
        refine ⟨by simp, w3, ?_⟩
        intro x hx
        obtain ⟨u, hu, he⟩ := el3 x hx
        exact ⟨u, s u hu, he⟩

theorem sortCollateN_val {ts r : NMv} (hw : MvWF ts) (h : sortCollateN ts = ok r) :
    mvVal pw β r = mvVal pw β ts ∧ MvWF r ∧ ∀ t ∈ r, ∃ u ∈ ts, t.element = u.element := by
  unfold sortCollateN at h
  rw [bind_eq_ok] at h
  obtain ⟨s, h1, h2⟩ := h
  have hp := sortAll_perm h1
  obtain ⟨e, w, el⟩ := collateN_val pw β s.length le_rfl (fun t ht => hw t (hp.mem_iff.1 ht)) h2
  refine ⟨e.trans (mvVal_perm pw β hp), w, ?_⟩
  intro t ht
  obtain ⟨u, hu, he⟩ := el t ht
  exact ⟨u, hp.mem_iff.1 hu, he⟩

/-! ## Sum -/

theorem Rat32.eq_ok_ne {a b : Rat32} {r : Bool} (h : a.eq b = ok r) : a.num ≠ i32Min := by
  unfold Rat32.eq at h
  rw [bind_eq_ok] at h
  obtain ⟨g, hg, _⟩ := h
  exact (cgcd_eq_ok.1 hg).1

theorem Ind.eq_true {x y : Ind} (hx : x.deg.WF) (hy : y.deg.WF) (hyd : y.deg.den = 1)
    (h : x.eq y = ok true) : x.val pw = y.val pw := by
  unfold Ind.eq at h
  split at h
  · rename_i hid
    rw [Rat32.C03_eq_partial _ _ hx hy (Rat32.eq_ok_ne h) hyd] at h
    simp at h
    simp [Ind.val, hid, h]
  · simp at h

theorem cmpInds_same {l r : List Ind} (hl : ∀ i ∈ l, i.deg.WF)
    (hr : ∀ i ∈ r, i.deg.WF ∧ i.deg.den = 1) (h : cmpInds l r = ok .same) : indsVal pw l = indsVal pw r := by
  induction l generalizing r with
  | nil => cases r with
    | nil => rfl
    | cons => simp [cmpInds] at h
  | cons x l ih => cases r with
    | nil => simp [cmpInds] at h
    | cons y r =>
      unfold cmpInds at h
      rw [bind_eq_ok] at h
      obtain ⟨b, hb, h⟩ := h
      cases b with
      | true =>
        simp only [if_true] at h
        rw [indsVal_cons, indsVal_cons, ih (fun i hi => hl i (by simp [hi])) (fun i hi => hr i (by simp [hi])) h,
          Ind.eq_true pw (hl x (by simp)) (hr y (by simp)).1 (hr y (by simp)).2 hb]
      | false =>
        simp only [Bool.false_eq_true, if_false, bind_eq_ok] at h
        obtain ⟨c, _, h⟩ := h
        cases c <;> simp at h

theorem sumMonsN_val (fuel : Nat) :
    ∀ {l r out : List NMon}, (∀ m ∈ l, m.WF) →
      (∀ m ∈ r, m.WF ∧ ∀ i ∈ m.inds, i.deg.den = 1) → sumMonsN fuel l r = ok out →
      monsVal pw out = monsVal pw l + monsVal pw r ∧ ∀ m ∈ out, m.WF := by
  have hl0 : ∀ {l r : List NMon}, (∀ m ∈ l, m.WF) →
      (∀ m ∈ r, m.WF ∧ ∀ i ∈ m.inds, i.deg.den = 1) → ∀ m ∈ l ++ r, m.WF := by
    intro l r hl hr m hm
    rcases List.mem_append.1 hm with h | h
    · exact hl m h
    · exact (hr m h).1
  induction fuel with
  | zero =>
    intro l r out hl hr h
    simp [sumMonsN] at h; subst h
    exact ⟨by simp, hl0 hl hr⟩
  | succ fuel ih =>
    intro l r out hl hr h
    cases l with
    | nil => simp [sumMonsN] at h; subst h; exact ⟨by simp, fun m hm => (hr m hm).1⟩
    | cons x l => cases r with
      | nil => simp [sumMonsN] at h; subst h; exact ⟨by simp, hl⟩
      | cons y r =>
        have hL : ∀ m ∈ l, m.WF := fun m hm => hl m (by simp [hm])
        have hR : ∀ m ∈ r, m.WF ∧ ∀ i ∈ m.inds, i.deg.den = 1 := fun m hm => hr m (by simp [hm])
        have hx := hl x (by simp)
        have hy := hr y (by simp)
        have left : ∀ rest, sumMonsN fuel l (y :: r) = ok rest → out = x :: rest →
            monsVal pw out = monsVal pw (x :: l) + monsVal pw (y :: r) ∧ ∀ m ∈ out, m.WF := by
          rintro rest hrest rfl
          obtain ⟨e, w⟩ := ih hL hr hrest
          refine ⟨by rw [monsVal_cons, e, monsVal_cons, monsVal_cons]; ring, ?_⟩
          intro m hm
          rcases List.mem_cons.1 hm with rfl | hm
          · exact hx
          · exact w m hm
        have right : ∀ rest, sumMonsN fuel (x :: l) r = ok rest → out = y :: rest →
            monsVal pw out = monsVal pw (x :: l) + monsVal pw (y :: r) ∧ ∀ m ∈ out, m.WF := by
          rintro rest hrest rfl
          obtain ⟨e, w⟩ := ih hl hR hrest
          refine ⟨by rw [monsVal_cons, e, monsVal_cons, monsVal_cons]; ring, ?_⟩
          intro m hm
          rcases List.mem_cons.1 hm with rfl | hm
          · exact hy.1
          · exact w m hm
        unfold sumMonsN at h
        split at h
        · rw [bind_eq_ok] at h
          obtain ⟨b, _, h⟩ := h
          split at h
          · simp only [bind_eq_ok, pure_eq, ok_inj] at h
            obtain ⟨rest, hrest, h⟩ := h
            exact left rest hrest h.symm
          · simp only [bind_eq_ok, pure_eq, ok_inj] at h
            obtain ⟨rest, hrest, h⟩ := h
            exact right rest hrest h.symm
        · rw [bind_eq_ok] at h
          obtain ⟨p, hp, h⟩ := h
          cases p with
          | left =>
            simp only [bind_eq_ok, pure_eq, ok_inj] at h
            obtain ⟨rest, hrest, h⟩ := h
            exact left rest hrest h.symm
          | right =>
            simp only [bind_eq_ok, pure_eq, ok_inj] at h
            obtain ⟨rest, hrest, h⟩ := h
            exact right rest hrest h.symm
          | same =>
            simp only [bind_eq_ok] at h
            obtain ⟨q, hq, rest, hrest, h⟩ := h
            obtain ⟨e, w⟩ := ih hL hR hrest
            obtain ⟨e1, w1⟩ := Rat32.add_spec hx.q hy.1.q hq
            have ev := cmpInds_same pw hx.inds (fun i hi => ⟨hy.1.inds i hi, hy.2 i hi⟩) hp
            have key : monsVal pw (x :: l) + monsVal pw (y :: r) = (q.toQ : K) * indsVal pw x.inds + monsVal pw rest := by
              rw [monsVal_cons, monsVal_cons, e, e1, NMon.val, NMon.val, ← ev]; push_cast; ring
            rw [key]
            split at h
            · rename_i hz
              simp at h; subst h
              simp [(Rat32.isZero_iff w1).1 hz]; exact w
            · simp at h; subst h
              refine ⟨by rw [monsVal_cons, NMon.val], ?_⟩
              intro m hm
              rcases List.mem_cons.1 hm with rfl | hm
              · exact ⟨w1, hx.inds⟩
              · exact w m hm

theorem sumTermsN_val (fuel : Nat) :
    ∀ {l r out : NMv}, MvWF l → MvWF r → (∀ t ∈ r, ∀ m ∈ t.mons, ∀ i ∈ m.inds, i.deg.den = 1) → sumTermsN fuel l r = ok out →
      mvVal pw β out = mvVal pw β l + mvVal pw β r ∧ MvWF out := by
  induction fuel with
  | zero =>
    intro l r out hl hr _ h
    simp [sumTermsN] at h; subst h
    refine ⟨by simp, fun t ht => ?_⟩
    rcases List.mem_append.1 ht with h | h
    · exact hl t h
    · exact hr t h
  | succ fuel ih =>
    intro l r out hl hr dr h
    cases l with
    | nil => simp [sumTermsN] at h; subst h; exact ⟨by simp, hr⟩
    | cons x l => cases r with
      | nil => simp [sumTermsN] at h; subst h; exact ⟨by simp, hl⟩
      | cons y r =>
        have hL : MvWF l := fun t ht => hl t (by simp [ht])
        have hR : MvWF r := fun t ht => hr t (by simp [ht])
        have dR : ∀ t ∈ r, ∀ m ∈ t.mons, ∀ i ∈ m.inds, i.deg.den = 1 := fun t ht => dr t (by simp [ht])
        unfold sumTermsN at h
        split at h
        · rename_i he
          simp only [bind_eq_ok] at h
          obtain ⟨ms, hms, rest, hrest, h⟩ := h
          obtain ⟨e, w⟩ := ih hL hR dR hrest
          obtain ⟨e1, w1⟩ := sumMonsN_val pw _ (hl x (by simp))
            (fun m hm => ⟨hr y (by simp) m hm, dr y (by simp) m hm⟩) hms
          have key : mvVal pw β (x :: l) + mvVal pw β (y :: r) = monsVal pw ms • β x.element + mvVal pw β rest := by
            rw [mvVal_cons, mvVal_cons, e, e1, NTerm.val, NTerm.val, he, add_smul]; abel
          rw [key]
          split at h
          · simp at h; subst h
            refine ⟨by rw [mvVal_cons, NTerm.val], fun t ht => ?_⟩
            rcases List.mem_cons.1 ht with rfl | ht
            · exact w1
            · exact w t ht
          · rename_i hz
            have : ms = [] := List.length_eq_zero_iff.1 (by omega)
            simp at h; subst h; subst this
            exact ⟨by simp, w⟩
        · split at h
          · simp only [bind_eq_ok, pure_eq, ok_inj] at h
            obtain ⟨rest, hrest, rfl⟩ := h
            obtain ⟨e, w⟩ := ih hL hr dr hrest
            refine ⟨by rw [mvVal_cons, e, mvVal_cons, mvVal_cons]; abel, fun t ht => ?_⟩
            rcases List.mem_cons.1 ht with rfl | ht
            · exact hl t (by simp)
            · exact w t ht
          · simp only [bind_eq_ok, pure_eq, ok_inj] at h
            obtain ⟨rest, hrest, rfl⟩ := h
            obtain ⟨e, w⟩ := ih hl hR dR hrest
            refine ⟨by rw [mvVal_cons, e, mvVal_cons, mvVal_cons]; abel, fun t ht => ?_⟩
            rcases List.mem_cons.1 ht with rfl | ht
            · exact hr t (by simp)
            · exact w t ht

/-! ## Product -/

/-- `pw` is multiplicative on the degrees of two lists of indeterminates. -/
def PowInds (pw : Nat → ℚ → K) (l r : List Ind) : Prop :=
  ∀ i ∈ l, ∀ j ∈ r, i.id = j.id → pw i.id (i.deg.toQ + j.deg.toQ) = pw i.id i.deg.toQ * pw i.id j.deg.toQ

theorem mergeIndsN_val (h0 : ∀ id, pw id 0 = 1) (fuel : Nat) :
    ∀ {d d' : Rat32} {l r out : List Ind}, l.length + r.length ≤ fuel → PowInds pw l r →
      (∀ i ∈ l, i.deg.WF) → (∀ i ∈ r, i.deg.WF) → mergeIndsN fuel d l r = ok (out, d') →
      indsVal pw out = indsVal pw l * indsVal pw r ∧ ∀ i ∈ out, i.deg.WF := by
  induction fuel with
  | zero =>
    intro d d' l r out hf _ _ _ h
    have h1 : l = [] := List.length_eq_zero_iff.1 (by omega)
    have h2 : r = [] := List.length_eq_zero_iff.1 (by omega)
    subst h1 h2
    simp [mergeIndsN] at h
    obtain ⟨rfl, _⟩ := h; simp
  | succ fuel ih =>
    intro d d' l r out hf hp wl wr h
    cases l with
    | nil => cases r with
      | nil => simp [mergeIndsN] at h; obtain ⟨rfl, _⟩ := h; simp
      | cons y r =>
        simp only [mergeIndsN, bind_eq_ok, pure_eq, ok_inj] at h
        obtain ⟨d1, _, ⟨o, d2⟩, h2, h⟩ := h
        simp at h
        obtain ⟨e, w⟩ := ih (by simp only [List.length_cons, List.length_nil] at hf ⊢; omega) (fun i hi => by simp at hi) wl (fun i hi => wr i (by simp [hi])) h2
        rw [← h.1]
        refine ⟨by simp [e], fun i hi => ?_⟩
        rcases List.mem_cons.1 hi with rfl | hi
        · exact wr _ (by simp)
        · exact w i hi
    | cons x l => cases r with
      | nil =>
        simp only [mergeIndsN, bind_eq_ok, pure_eq, ok_inj] at h
        obtain ⟨d1, _, ⟨o, d2⟩, h2, h⟩ := h
        simp at h
        obtain ⟨e, w⟩ := ih (by simp only [List.length_cons, List.length_nil] at hf ⊢; omega) (fun i hi j hj => by simp at hj) (fun i hi => wl i (by simp [hi])) wr h2
        rw [← h.1]
        refine ⟨by simp [e], fun i hi => ?_⟩
        rcases List.mem_cons.1 hi with rfl | hi
        · exact wl _ (by simp)
        · exact w i hi
      | cons y r =>
        simp only [List.length_cons] at hf
        have wL : ∀ i ∈ l, i.deg.WF := fun i hi => wl i (by simp [hi])
        have wR : ∀ i ∈ r, i.deg.WF := fun i hi => wr i (by simp [hi])
        unfold mergeIndsN at h
        split at h
        · rename_i hid
          simp only [bind_eq_ok] at h
          obtain ⟨next, hn, d1, _, ⟨o, d2⟩, h2, h⟩ := h
          obtain ⟨e, w⟩ := ih (by omega) (fun i hi j hj => hp i (by simp [hi]) j (by simp [hj])) wL wR h2
          obtain ⟨e1, w1⟩ := Rat32.add_spec (wl x (by simp)) (wr y (by simp)) hn
          have key : indsVal pw (x :: l) * indsVal pw (y :: r) = pw x.id next.toQ * indsVal pw o := by
            rw [indsVal_cons, indsVal_cons, e, e1, hp x (by simp) y (by simp) hid, Ind.val, Ind.val, ← hid]; ring
          rw [key]
          split at h
          · simp at h
            rw [← h.1]
            refine ⟨by rw [indsVal_cons, Ind.val], fun i hi => ?_⟩
            rcases List.mem_cons.1 hi with rfl | hi
            · exact w1
            · exact w i hi
          · rename_i hz
            simp [Rat32.neInt] at hz
            have : next.toQ = 0 := (Rat32.toQ_eq_zero w1).2 hz.2
            simp at h
            rw [← h.1, this, h0]; simp; exact w
        · split at h
          · simp only [bind_eq_ok, pure_eq, ok_inj] at h
            obtain ⟨d1, _, ⟨o, d2⟩, h2, h⟩ := h
            simp at h
            obtain ⟨e, w⟩ := ih (by simp; omega) (fun i hi j hj => hp i (by simp [hi]) j hj) wL wr h2
            rw [← h.1]
            refine ⟨by simp only [indsVal_cons, e]; ring, fun i hi => ?_⟩
            rcases List.mem_cons.1 hi with rfl | hi
            · exact wl _ (by simp)
            · exact w i hi
          · simp only [bind_eq_ok, pure_eq, ok_inj] at h
            obtain ⟨d1, _, ⟨o, d2⟩, h2, h⟩ := h
            simp at h
            obtain ⟨e, w⟩ := ih (by simp; omega) (fun i hi j hj => hp i hi j (by simp [hj])) wl wR h2
            rw [← h.1]
            refine ⟨by simp only [indsVal_cons, e]; ring, fun i hi => ?_⟩
            rcases List.mem_cons.1 hi with rfl | hi
            · exact wr _ (by simp)
            · exact w i hi

theorem mulMonN_val (h0 : ∀ id, pw id 0 = 1) {k : Int} {x y r : NMon} (hx : x.WF) (hy : y.WF)
    (hp : PowInds pw x.inds y.inds) (h : mulMonN k x y = ok r) :
    r.val pw = (k : K) * (x.val pw * y.val pw) ∧ r.WF := by
  unfold mulMonN at h
  simp only [bind_eq_ok, pure_eq, ok_inj] at h
  obtain ⟨⟨is, d⟩, h1, q, h2, q', h3, rfl⟩ := h
  obtain ⟨e, w⟩ := mergeIndsN_val pw h0 _ le_rfl hp hx.inds hy.inds h1
  obtain ⟨e2, w2⟩ := Rat32.imul_spec hx.q h2
  obtain ⟨e3, w3⟩ := Rat32.mul_spec w2 hy.q h3
  refine ⟨?_, ⟨w3, w⟩⟩
  simp only [NMon.val]
  rw [e, e3, e2]; push_cast; ring

theorem mulMonRowN_val (h0 : ∀ id, pw id 0 = 1) {k : Int} {x : NMon} (hx : x.WF) {r out : List NMon}
    (hr : ∀ y ∈ r, y.WF ∧ PowInds pw x.inds y.inds) (h : mulMonRowN k x r = ok out) :
    monsVal pw out = (k : K) * (x.val pw * monsVal pw r) ∧ ∀ m ∈ out, m.WF := by
  unfold mulMonRowN at h
  induction r generalizing out with
  | nil => rw [mapO_nil_ok] at h; subst h; simp
  | cons y r ih =>
    rw [mapO_cons_ok] at h
    obtain ⟨z, zs, hz, hzs, rfl⟩ := h
    obtain ⟨e, w⟩ := ih (fun y hy => hr y (by simp [hy])) hzs
    obtain ⟨e1, w1⟩ := mulMonN_val pw h0 hx (hr y (by simp)).1 (hr y (by simp)).2 hz
    refine ⟨by rw [monsVal_cons, monsVal_cons, e, e1]; ring, fun m hm => ?_⟩
    rcases List.mem_cons.1 hm with rfl | hm
    · exact w1
    · exact w m hm

theorem mulMonsN_val (h0 : ∀ id, pw id 0 = 1) {k : Int} {l r out : List NMon} (hl : ∀ x ∈ l, x.WF)
    (hr : ∀ x ∈ l, ∀ y ∈ r, y.WF ∧ PowInds pw x.inds y.inds) (h : mulMonsN k l r = ok out) :
    monsVal pw out = (k : K) * (monsVal pw l * monsVal pw r) ∧ ∀ m ∈ out, m.WF := by
  induction l generalizing out with
  | nil => simp [mulMonsN] at h; subst h; simp
  | cons x l ih =>
    simp only [mulMonsN, bind_eq_ok, pure_eq, ok_inj] at h
    obtain ⟨row, h1, rest, h2, rfl⟩ := h
    obtain ⟨e, w⟩ := ih (fun x hx => hl x (by simp [hx])) (fun x hx => hr x (by simp [hx])) h2
    obtain ⟨e1, w1⟩ := mulMonRowN_val pw h0 (hl x (by simp)) (hr x (by simp)) h1
    refine ⟨by rw [monsVal_append, monsVal_cons, e, e1]; ring, fun m hm => ?_⟩
    rcases List.mem_append.1 hm with hm | hm
    · exact w1 m hm
    · exact w m hm

variable (P : Nat → Nat → Nat × Int) (B : V →ₗ[K] V →ₗ[K] V)

theorem mulTermRowN_val (h0 : ∀ id, pw id 0 = 1) {x : NTerm} {r out : NMv} (hx : ∀ m ∈ x.mons, m.WF) (hr : MvWF r)
    (hp : ∀ m ∈ x.mons, ∀ t ∈ r, ∀ n ∈ t.mons, PowInds pw m.inds n.inds)
    (hB : ∀ t ∈ r, B (β x.element) (β t.element) = ((P x.element t.element).2 : K) • β (P x.element t.element).1)
    (xe : x.element < 256) (re : ElemsLt 256 r) (h : mulTermRowN P x r = ok out) :
    mvVal pw β out = B (x.val pw β) (mvVal pw β r) ∧ MvWF out := by
  induction r generalizing out with
  | nil => simp [mulTermRowN] at h; subst h; simp [MvWF]
  | cons y r ih =>
    have hye : y.element < 256 := re y (by simp)
    unfold mulTermRowN at h
    rw [Nat.mod_eq_of_lt xe, Nat.mod_eq_of_lt hye] at h
    have ih' := fun out h => ih (out := out) (fun t ht => hr t (by simp [ht])) (fun m hm t ht => hp m hm t (by simp [ht]))
      (fun t ht => hB t (by simp [ht])) (fun t ht => re t (by simp [ht])) h
    have hb := hB y (by simp)
    split at h
    rename_i el k hP
    rw [hP] at hb
    have key : B (x.val pw β) (mvVal pw β (y :: r)) =
        ((k : K) * (monsVal pw x.mons * monsVal pw y.mons)) • β el + B (x.val pw β) (mvVal pw β r) := by
      rw [mvVal_cons, map_add, NTerm.val, NTerm.val]
      simp only [map_smul, LinearMap.smul_apply]
      rw [hb]
      simp only [smul_smul]
      congr 2; ring
    rw [key]
    split at h
    · simp only [bind_eq_ok, pure_eq, ok_inj] at h
      obtain ⟨ms, h1, rest, h2, rfl⟩ := h
      obtain ⟨e, w⟩ := ih' _ h2
      obtain ⟨e1, w1⟩ := mulMonsN_val pw h0 hx (fun m hm n hn => ⟨hr y (by simp) n hn, hp m hm y (by simp) n hn⟩) h1
      refine ⟨by rw [mvVal_cons, NTerm.val, e, e1], fun t ht => ?_⟩
      rcases List.mem_cons.1 ht with rfl | ht
      · exact w1
      · exact w t ht
    · rename_i hk
      obtain ⟨e, w⟩ := ih' _ h
      have hk' : k = 0 := by omega
      refine ⟨by rw [e, hk']; simp, w⟩

theorem mulTermsN_val (h0 : ∀ id, pw id 0 = 1) {l r out : NMv} (hl : MvWF l) (hr : MvWF r)
    (hp : ∀ u ∈ l, ∀ m ∈ u.mons, ∀ t ∈ r, ∀ n ∈ t.mons, PowInds pw m.inds n.inds)
    (hB : ∀ u ∈ l, ∀ t ∈ r, B (β u.element) (β t.element) =
      ((P u.element t.element).2 : K) • β (P u.element t.element).1)
    (le : ElemsLt 256 l) (re : ElemsLt 256 r) (h : mulTermsN P l r = ok out) :
    mvVal pw β out = B (mvVal pw β l) (mvVal pw β r) ∧ MvWF out := by
  induction l generalizing out with
  | nil => simp [mulTermsN] at h; subst h; simp [MvWF]
  | cons x l ih =>
    simp only [mulTermsN, bind_eq_ok, pure_eq, ok_inj] at h
    obtain ⟨row, h1, rest, h2, rfl⟩ := h
    obtain ⟨e, w⟩ := ih (fun t ht => hl t (by simp [ht])) (fun t ht => hp t (by simp [ht]))
      (fun t ht => hB t (by simp [ht])) (fun t ht => le t (by simp [ht])) h2
    obtain ⟨e1, w1⟩ := mulTermRowN_val pw β P B h0 (hl x (by simp)) hr (hp x (by simp)) (hB x (by simp))
      (le x (by simp)) re h1
    refine ⟨by rw [mvVal_append, e, e1, mvVal_cons]; simp, fun t ht => ?_⟩
    rcases List.mem_append.1 ht with ht | ht
    · exact w1 t ht
    · exact w t ht

theorem productN_val {a b r : NMv} (hp : PowOn pw a b) (ha : MvWF a) (hb : MvWF b)
    (hB : ∀ u ∈ a, ∀ t ∈ b, B (β u.element) (β t.element) =
      ((P u.element t.element).2 : K) • β (P u.element t.element).1)
    (ea : ElemsLt 256 a) (eb : ElemsLt 256 b) (h : productN P a b = ok r) :
    mvVal pw β r = B (mvVal pw β a) (mvVal pw β b) ∧ MvWF r := by
  unfold productN at h
  rw [bind_eq_ok] at h
  obtain ⟨ts, h1, h2⟩ := h
  obtain ⟨e, w⟩ := mulTermsN_val pw β P B hp.zero ha hb
    (fun u hu m hm t ht n hn i hi j hj hid => hp.add u hu m hm i hi t ht n hn j hj hid) hB ea eb h1
  obtain ⟨e2, w2, _⟩ := sortCollateN_val pw β w h2
  exact ⟨e2.trans e, w2⟩

theorem sumN_val {a b r : NMv} (ha : MvWF a) (hb : MvWF b) (db : IntDegs b) (h : sumN a b = ok r) :
    mvVal pw β r = mvVal pw β a + mvVal pw β b ∧ MvWF r :=
  sumTermsN_val pw β _ ha hb db h

end Gal
