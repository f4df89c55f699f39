import Verif.Spec.MvLayout
import Verif.OutRel
import Mathlib.Tactic.Ring
import Mathlib.Tactic.Linarith
import Mathlib.Algebra.BigOperators.Group.List.Basic

/-!
# The array level refines the nested level

`layout caps n` is the packed array representation of the nested multivector `n`.  Under the hypothesis that the operands
fit their declared capacities, every array operation equals the nested one followed by `layout`: no access is out of
bounds.
-/

namespace Gal

open Out

/-! ## Sizes -/

@[simp] theorem nIndsM_nil : nIndsM [] = 0 := rfl
@[simp] theorem nIndsM_cons (m : NMon) (ms : List NMon) : nIndsM (m :: ms) = m.inds.length + nIndsM ms := by simp [nIndsM]
@[simp] theorem nIndsM_append (l r : List NMon) : nIndsM (l ++ r) = nIndsM l + nIndsM r := by simp [nIndsM]
@[simp] theorem nMons_nil : nMons [] = 0 := rfl
@[simp] theorem nMons_cons (t : NTerm) (a : NMv) : nMons (t :: a) = t.mons.length + nMons a := by simp [nMons]
@[simp] theorem nMons_append (l r : NMv) : nMons (l ++ r) = nMons l + nMons r := by simp [nMons]
@[simp] theorem nInds_nil : nInds [] = 0 := rfl
@[simp] theorem nInds_cons (t : NTerm) (a : NMv) : nInds (t :: a) = nIndsM t.mons + nInds a := by simp [nInds]
@[simp] theorem nInds_append (l r : NMv) : nInds (l ++ r) = nInds l + nInds r := by simp [nInds]

theorem nIndsM_perm {l r : List NMon} (h : l.Perm r) : nIndsM l = nIndsM r := (h.map _).sum_eq
theorem nMons_perm {l r : NMv} (h : l.Perm r) : nMons l = nMons r := (h.map _).sum_eq
theorem nInds_perm {l r : NMv} (h : l.Perm r) : nInds l = nInds r := (h.map _).sum_eq

/-! ## Packed layout -/

/-- Append packed monomials to a builder. -/
def Bld.addMons (b : Bld) (ms : List NMon) : Bld :=
  { b with inds := b.inds ++ indsOf ms, mons := b.mons ++ layMons b.inds.length ms }

/-- Append packed terms to a builder. -/
def Bld.add (b : Bld) (a : NMv) : Bld :=
  { b.addMons (allMons a) with terms := b.terms ++ layTerms b.mons.length a }

@[simp] theorem allMons_nil : allMons [] = [] := rfl
@[simp] theorem allMons_cons (t : NTerm) (a : NMv) : allMons (t :: a) = t.mons ++ allMons a := by simp [allMons]
@[simp] theorem allMons_append (l r : NMv) : allMons (l ++ r) = allMons l ++ allMons r := by simp [allMons]
@[simp] theorem indsOf_nil : indsOf [] = [] := rfl
@[simp] theorem indsOf_cons (m : NMon) (ms : List NMon) : indsOf (m :: ms) = m.inds ++ indsOf ms := by simp [indsOf]
@[simp] theorem indsOf_append (l r : List NMon) : indsOf (l ++ r) = indsOf l ++ indsOf r := by simp [indsOf]
@[simp] theorem indsOf_length (ms : List NMon) : (indsOf ms).length = nIndsM ms := by
  induction ms with
  | nil => rfl
  | cons m ms ih => simp [ih]
@[simp] theorem allMons_length (a : NMv) : (allMons a).length = nMons a := by
  induction a with
  | nil => rfl
  | cons m ms ih => simp [ih]
@[simp] theorem nIndsM_allMons (a : NMv) : nIndsM (allMons a) = nInds a := by
  induction a with
  | nil => rfl
  | cons m ms ih => simp [ih]
@[simp] theorem layMons_length (o : Nat) (ms : List NMon) : (layMons o ms).length = ms.length := by
  induction ms generalizing o with
  | nil => rfl
  | cons m ms ih => simp [layMons, ih]
@[simp] theorem layTerms_length (o : Nat) (a : NMv) : (layTerms o a).length = a.length := by
  induction a generalizing o with
  | nil => rfl
  | cons m ms ih => simp [layTerms, ih]
theorem layMons_append (o : Nat) (l r : List NMon) : layMons o (l ++ r) = layMons o l ++ layMons (o + nIndsM l) r := by
  induction l generalizing o with
  | nil => simp [layMons]
  | cons m ms ih => simp [layMons, ih, Nat.add_assoc]
theorem layTerms_append (o : Nat) (l r : NMv) : layTerms o (l ++ r) = layTerms o l ++ layTerms (o + nMons l) r := by
  induction l generalizing o with
  | nil => simp [layTerms]
  | cons m ms ih => simp [layTerms, ih, Nat.add_assoc]

@[simp] theorem Bld.addMons_nil (b : Bld) : b.addMons [] = b := by
  cases b; simp [Bld.addMons, layMons]
theorem Bld.addMons_append (b : Bld) (l r : List NMon) : b.addMons (l ++ r) = (b.addMons l).addMons r := by
  cases b; simp [Bld.addMons, layMons_append]
@[simp] theorem Bld.add_nil (b : Bld) : b.add [] = b := by
  cases b; simp [Bld.add, layTerms]
theorem Bld.add_append (b : Bld) (l r : NMv) : b.add (l ++ r) = (b.add l).add r := by
  cases b; simp [Bld.add, Bld.addMons, layMons_append, layTerms_append]
theorem Bld.add_cons (b : Bld) (t : NTerm) (r : NMv) : b.add (t :: r) = (b.add [t]).add r :=
  Bld.add_append b [t] r
theorem Bld.addMons_cons (b : Bld) (m : NMon) (r : List NMon) : b.addMons (m :: r) = (b.addMons [m]).addMons r :=
  Bld.addMons_append b [m] r
@[simp] theorem Bld.addMons_caps (b : Bld) (l : List NMon) : (b.addMons l).caps = b.caps := rfl
@[simp] theorem Bld.addMons_terms (b : Bld) (l : List NMon) : (b.addMons l).terms = b.terms := rfl
@[simp] theorem Bld.addMons_mons_length (b : Bld) (l : List NMon) :
    (b.addMons l).mons.length = b.mons.length + l.length := by simp [Bld.addMons]
@[simp] theorem Bld.addMons_inds_length (b : Bld) (l : List NMon) :
    (b.addMons l).inds.length = b.inds.length + nIndsM l := by simp [Bld.addMons]
@[simp] theorem Bld.add_caps (b : Bld) (l : NMv) : (b.add l).caps = b.caps := rfl
@[simp] theorem Bld.add_terms_length (b : Bld) (l : NMv) :
    (b.add l).terms.length = b.terms.length + l.length := by simp [Bld.add]
@[simp] theorem Bld.add_mons_length (b : Bld) (l : NMv) :
    (b.add l).mons.length = b.mons.length + nMons l := by simp [Bld.add]
@[simp] theorem Bld.add_inds_length (b : Bld) (l : NMv) :
    (b.add l).inds.length = b.inds.length + nInds l := by simp [Bld.add]

theorem Bld.finish_add (caps : Caps) (a : NMv) : ((Bld.empty caps).add a).finish = layout caps a := by
  simp [Bld.finish, layout, Bld.add, Bld.addMons, Bld.empty]

/-- Space left for monomials. -/
structure Room (b : Bld) (i m : Nat) : Prop where
  i : b.inds.length + i ≤ b.caps.i
  m : b.mons.length + m ≤ b.caps.m

/-- Space left for terms. -/
structure RoomT (b : Bld) (i m t : Nat) : Prop extends Room b i m where
  t : b.terms.length + t ≤ b.caps.t

/-! ## Copying -/

theorem copyInds_ok {b : Bld} {l : List Ind} (h : b.inds.length + l.length ≤ b.caps.i) :
    copyInds b l = ok { b with inds := b.inds ++ l } := by
  induction l generalizing b with
  | nil => simp [copyInds]
  | cons x l ih =>
    simp only [List.length_cons] at h
    unfold copyInds Bld.putInd
    rw [if_pos (by omega), ok_bind, ih (by simp; omega)]
    simp

theorem copyMon_ok {b : Bld} {m : NMon} (h : Room b m.inds.length 1) : copyMon b m = ok (b.addMons [m]) := by
  obtain ⟨h1, h2⟩ := h
  unfold copyMon Bld.putMon
  rw [if_pos (by omega), ok_bind, copyInds_ok (by simpa using h1)]
  simp [Bld.addMons, layMons]

theorem copyMons_ok {b : Bld} {ms : List NMon} (h : Room b (nIndsM ms) ms.length) : copyMons b ms = ok (b.addMons ms) := by
  induction ms generalizing b with
  | nil => simp [copyMons]
  | cons m ms ih =>
    obtain ⟨h1, h2⟩ := h
    simp only [nIndsM_cons, List.length_cons] at h1 h2
    unfold copyMons
    rw [copyMon_ok ⟨by omega, by omega⟩, ok_bind, ih ⟨by simp; omega, by simp; omega⟩, ← Bld.addMons_cons]

theorem copyTermLast_ok {b : Bld} {t : NTerm} (h : RoomT b (nIndsM t.mons) t.mons.length 1) :
    copyTermLast b t = ok (b.add [t]) := by
  obtain ⟨⟨h1, h2⟩, h3⟩ := h
  unfold copyTermLast
  rw [copyMons_ok ⟨h1, h2⟩, ok_bind]
  unfold Bld.putTerm
  rw [if_pos (by simp; omega)]
  simp [Bld.add, Bld.addMons, layTerms]

theorem copyTerm_ok {b : Bld} {t : NTerm} (h : RoomT b (nIndsM t.mons) t.mons.length 1) :
    copyTerm b t = ok (b.add [t]) := by
  obtain ⟨⟨h1, h2⟩, h3⟩ := h
  unfold copyTerm Bld.putTerm
  rw [if_pos (by omega), ok_bind, copyMons_ok ⟨by simpa using h1, by simpa using h2⟩]
  simp [Bld.add, Bld.addMons, layTerms]

theorem copyTerms_ok {b : Bld} {a : NMv} (h : RoomT b (nInds a) (nMons a) a.length) : copyTerms b a = ok (b.add a) := by
  induction a generalizing b with
  | nil => simp [copyTerms]
  | cons t ts ih =>
    obtain ⟨⟨h1, h2⟩, h3⟩ := h
    simp only [nInds_cons, nMons_cons, List.length_cons] at h1 h2 h3
    unfold copyTerms
    rw [copyTerm_ok ⟨⟨by omega, by omega⟩, by omega⟩, ok_bind,
      ih ⟨⟨by simp; omega, by simp; omega⟩, by simp; omega⟩, ← Bld.add_cons]

/-! ## Reading back -/

theorem rd_append {α : Type} [Inhabited α] {cap : Nat} {l pre post : List α} {x : α} {i : Nat} (h : l = pre ++ x :: post)
    (hi : i = pre.length) (hc : i < cap) : rd cap l i = ok x := by
  subst h; subst hi
  simp [rd, hc]

theorem rdRange_append {α : Type} [Inhabited α] {cap : Nat} (seg : List α) :
    ∀ {l pre post : List α} {o : Nat}, l = pre ++ (seg ++ post) → o = pre.length → o + seg.length ≤ cap →
      rdRange cap l o seg.length = ok seg := by
  induction seg with
  | nil => intros; rfl
  | cons x seg ih =>
    intro l pre post o h ho hc
    simp only [List.length_cons] at hc ⊢
    unfold rdRange
    rw [rd_append (pre := pre) (post := seg ++ post) (x := x) (by simpa using h) ho (by omega), ok_bind,
      ih (pre := pre ++ [x]) (post := post) (by simpa using h) (by simp [ho]) (by omega)]
    simp

theorem viewMons_lay {cap : Nat} (ms : List NMon) :
    ∀ {pre post inds : List Ind} {o : Nat}, inds = pre ++ (indsOf ms ++ post) → o = pre.length → o + nIndsM ms ≤ cap →
      mapO (viewMon cap inds) (layMons o ms) = ok ms := by
  induction ms with
  | nil => intros; rfl
  | cons m ms ih =>
    intro pre post inds o h ho hc
    simp only [nIndsM_cons, indsOf_cons] at hc h
    unfold layMons mapO
    have hm : viewMon cap inds ⟨m.q, m.degree, m.inds.length, o⟩ = ok m := by
      unfold viewMon
      rw [rdRange_append m.inds (pre := pre) (post := indsOf ms ++ post) (by simpa using h) ho (by omega)]
      rfl
    rw [hm, ok_bind, ih (pre := pre ++ m.inds) (post := post) (by simpa using h) (by simp [ho]) (by omega)]
    rfl

theorem viewTerms_lay {caps : Caps} {inds : List Ind} {mons : List Mon} (a : NMv) :
    ∀ {preI postI : List Ind} {preM postM : List Mon}, inds = preI ++ (indsOf (allMons a) ++ postI) →
      mons = preM ++ (layMons preI.length (allMons a) ++ postM) →
      preI.length + nInds a ≤ caps.i → preM.length + nMons a ≤ caps.m →
      mapO (viewTerm caps inds mons) (layTerms preM.length a) = ok a := by
  induction a with
  | nil => intros; rfl
  | cons t ts ih =>
    intro preI postI preM postM hi hm ci cm
    simp only [allMons_cons, indsOf_append, nInds_cons, nMons_cons, layMons_append] at hi hm ci cm
    unfold layTerms mapO
    have ht : viewTerm caps inds mons ⟨t.mons.length, preM.length, t.element⟩ = ok t := by
      unfold viewTerm
      dsimp only
      have hr := rdRange_append (cap := caps.m) (layMons preI.length t.mons) (l := mons) (pre := preM)
        (post := layMons (preI.length + nIndsM t.mons) (allMons ts) ++ postM) (by simpa using hm) rfl (by simp; omega)
      rw [layMons_length] at hr
      rw [hr, ok_bind, viewMons_lay t.mons (pre := preI) (post := indsOf (allMons ts) ++ postI) (by simpa using hi) rfl
        (by omega)]
      rfl
    rw [ht, ok_bind]
    have := ih (preI := preI ++ indsOf t.mons) (postI := postI) (preM := preM ++ layMons preI.length t.mons)
      (postM := postM) (by simpa using hi) (by simpa using hm) (by simp; omega) (by simp; omega)
    rw [List.length_append, layMons_length] at this
    rw [this]
    rfl

/-- The packed arrays represent what they were built from. -/
theorem view_layout {caps : Caps} {a : NMv} (h : Fits caps a) : (layout caps a).view = ok a := by
  unfold Mv.view layout
  dsimp only
  have h1 := rdRange_append (cap := caps.t) (layTerms 0 a) (l := layTerms 0 a) (pre := []) (post := []) (by simp) rfl
    (by simpa using h.t)
  rw [layTerms_length] at h1
  simp only [List.length_nil] at h1
  rw [h1, ok_bind]
  exact viewTerms_lay (caps := caps) a (preI := []) (postI := []) (preM := []) (postM := []) (by simp) (by simp)
    (by simpa using h.i) (by simpa using h.m)

theorem represents_layout {caps : Caps} {a : NMv} (h : Fits caps a) : Represents (layout caps a) a :=
  ⟨view_layout h, h⟩

/-! ## Sum -/

theorem sumMonsN_size (fuel : Nat) : ∀ (l r : List NMon),
    All (fun out => out.length ≤ l.length + r.length ∧ nIndsM out ≤ nIndsM l + nIndsM r) (sumMonsN fuel l r) := by
  induction fuel with
  | zero => intro l r; exact All.ok (by simp)
  | succ fuel ih =>
    intro l r
    cases l with
    | nil => exact All.ok (by simp)
    | cons x l => cases r with
      | nil => exact All.ok (by simp)
      | cons y r =>
        have left : All (fun out => out.length ≤ (x :: l).length + (y :: r).length ∧
            nIndsM out ≤ nIndsM (x :: l) + nIndsM (y :: r))
            (sumMonsN fuel l (y :: r) >>= fun rest => pure (x :: rest)) :=
          All.bind (ih l (y :: r)) fun rest h => All.ok (by simp at h ⊢; omega)
        have right : All (fun out => out.length ≤ (x :: l).length + (y :: r).length ∧
            nIndsM out ≤ nIndsM (x :: l) + nIndsM (y :: r))
            (sumMonsN fuel (x :: l) r >>= fun rest => pure (y :: rest)) :=
          All.bind (ih (x :: l) r) fun rest h => All.ok (by simp at h ⊢; omega)
        unfold sumMonsN
        split
        · refine All.bind' fun b => ?_
          split
          · exact left
          · exact right
        · refine All.bind' fun p => ?_
          cases p with
          | same =>
            refine All.bind' fun q => All.bind (ih l r) fun rest h => ?_
            split
            · exact All.ok (by simp; omega)
            · exact All.ok (by simp; omega)
          | left => exact left
          | right => exact right

theorem addMons_step {b : Bld} {x : NMon} {X : Out Bld} {Y : Out (List NMon)}
    (h : Rel (fun b' out => b' = (b.addMons [x]).addMons out) X Y) :
    Rel (fun b' out => b' = b.addMons out) X (Y >>= fun rest => pure (x :: rest)) :=
  Rel.map_right h fun b' out e => Rel.ok (by rw [Bld.addMons_cons]; exact e)

theorem add_step {b : Bld} {x : NTerm} {X : Out Bld} {Y : Out NMv}
    (h : Rel (fun b' out => b' = (b.add [x]).add out) X Y) :
    Rel (fun b' out => b' = b.add out) X (Y >>= fun rest => pure (x :: rest)) :=
  Rel.map_right h fun b' out e => Rel.ok (by rw [Bld.add_cons]; exact e)

theorem sumMons_rel (fuel : Nat) : ∀ {b : Bld} {l r : List NMon},
    Room b (nIndsM l + nIndsM r) (l.length + r.length) →
    Rel (fun b' out => b' = b.addMons out) (sumMons fuel b l r) (sumMonsN fuel l r) := by
  induction fuel with
  | zero =>
    intro b l r h
    unfold sumMons sumMonsN
    rw [copyMons_ok ⟨by simpa using h.i, by simpa using h.m⟩]
    exact Rel.ok rfl
  | succ fuel ih =>
    intro b l r h
    cases l with
    | nil =>
      unfold sumMons sumMonsN
      rw [copyMons_ok ⟨by simpa using h.i, by simpa using h.m⟩]
      exact Rel.ok rfl
    | cons x l => cases r with
      | nil =>
        unfold sumMons sumMonsN
        rw [copyMons_ok ⟨by simpa using h.i, by simpa using h.m⟩]
        exact Rel.ok rfl
      | cons y r =>
        obtain ⟨h1, h2⟩ := h
        simp only [nIndsM_cons, List.length_cons] at h1 h2
        have left : Rel (fun b' out => b' = b.addMons out) (copyMon b x >>= fun b => sumMons fuel b l (y :: r))
            (sumMonsN fuel l (y :: r) >>= fun rest => pure (x :: rest)) := by
          rw [copyMon_ok ⟨by omega, by omega⟩, ok_bind]
          exact addMons_step (ih (b := b.addMons [x]) (l := l) (r := y :: r) ⟨by simp; omega, by simp; omega⟩)
        have right : Rel (fun b' out => b' = b.addMons out) (copyMon b y >>= fun b => sumMons fuel b (x :: l) r)
            (sumMonsN fuel (x :: l) r >>= fun rest => pure (y :: rest)) := by
          rw [copyMon_ok ⟨by omega, by omega⟩, ok_bind]
          exact addMons_step (ih (b := b.addMons [y]) (l := x :: l) (r := r) ⟨by simp; omega, by simp; omega⟩)
        unfold sumMons sumMonsN
        split
        · refine Rel.bind (Rel.eq _) fun c c' hc => ?_
          subst hc
          split
          · exact left
          · exact right
        · refine Rel.bind (Rel.eq _) fun c c' hc => ?_
          subst hc
          cases c with
          | left => exact left
          | right => exact right
          | same =>
            refine Rel.bind (Rel.eq _) fun q q' hq => ?_
            subst hq
            by_cases hz : q.isZero = true
            · simp only [hz, if_true]
              simpa [pure_eq] using (ih (b := b) (l := l) (r := r) ⟨by omega, by omega⟩)
            · simp only [if_neg hz]
              rw [copyMon_ok ⟨by simp; omega, by omega⟩]
              simp only [ok_bind]
              exact addMons_step (ih (b := b.addMons [{ x with q := q }]) (l := l) (r := r) ⟨by simp; omega, by simp; omega⟩)

theorem sumTermsN_size (fuel : Nat) : ∀ (l r : NMv),
    All (fun out => out.length ≤ l.length + r.length ∧ nMons out ≤ nMons l + nMons r ∧
      nInds out ≤ nInds l + nInds r) (sumTermsN fuel l r) := by
  induction fuel with
  | zero => intro l r; exact All.ok (by simp)
  | succ fuel ih =>
    intro l r
    cases l with
    | nil => exact All.ok (by simp)
    | cons x l => cases r with
      | nil => exact All.ok (by simp)
      | cons y r =>
        unfold sumTermsN
        split
        · refine All.bind (sumMonsN_size _ _ _) fun ms hms => All.bind (ih l r) fun rest h => ?_
          split
          · exact All.ok (by simp at h hms ⊢; omega)
          · exact All.ok (by simp at h ⊢; omega)
        · split
          · exact All.bind (ih l (y :: r)) fun rest h => All.ok (by simp at h ⊢; omega)
          · exact All.bind (ih (x :: l) r) fun rest h => All.ok (by simp at h ⊢; omega)

theorem putTerm_ok {b : Bld} {t : Term} (h : b.terms.length < b.caps.t) :
    b.putTerm t = ok { b with terms := b.terms ++ [t] } := by
  unfold Bld.putTerm; rw [if_pos h]

theorem Bld.add_single (b : Bld) (el : Nat) (ms : List NMon) :
    { b.addMons ms with terms := b.terms ++ [⟨ms.length, b.mons.length, el⟩] } = b.add [⟨el, ms⟩] := by
  simp [Bld.add, Bld.addMons, layTerms]

theorem sumTerms_rel (fuel : Nat) : ∀ {b : Bld} {l r : NMv},
    RoomT b (nInds l + nInds r) (nMons l + nMons r) (l.length + r.length) →
    Rel (fun b' out => b' = b.add out) (sumTerms fuel b l r) (sumTermsN fuel l r) := by
  induction fuel with
  | zero =>
    intro b l r h
    unfold sumTerms sumTermsN
    rw [copyTerms_ok ⟨⟨by simpa using h.i, by simpa using h.m⟩, by simpa using h.t⟩]
    exact Rel.ok rfl
  | succ fuel ih =>
    intro b l r h
    cases l with
    | nil =>
      unfold sumTerms sumTermsN
      rw [copyTerms_ok ⟨⟨by simpa using h.i, by simpa using h.m⟩, by simpa using h.t⟩]
      exact Rel.ok rfl
    | cons x l => cases r with
      | nil =>
        unfold sumTerms sumTermsN
        rw [copyTerms_ok ⟨⟨by simpa using h.i, by simpa using h.m⟩, by simpa using h.t⟩]
        exact Rel.ok rfl
      | cons y r =>
        obtain ⟨⟨h1, h2⟩, h3⟩ := h
        simp only [nInds_cons, nMons_cons, List.length_cons] at h1 h2 h3
        unfold sumTerms sumTermsN
        split
        · refine Rel.bind ((sumMons_rel _ (b := b) ⟨by omega, by omega⟩).and_all (sumMonsN_size _ _ _))
            fun b' ms hms => ?_
          obtain ⟨rfl, hs1, hs2⟩ := hms
          have hlen : (b.addMons ms).mons.length - b.mons.length = ms.length := by simp
          simp only [hlen]
          by_cases hz : ms.length ≠ 0
          · simp only [if_pos hz]
            rw [putTerm_ok (by simp; omega), Bld.addMons_terms, Bld.add_single]
            simp only [ok_bind]
            exact add_step (ih (b := b.add [⟨x.element, ms⟩]) (l := l) (r := r)
                ⟨⟨by simp; omega, by simp; omega⟩, by simp; omega⟩)
          · have hms : ms = [] := List.length_eq_zero_iff.1 (by omega)
            subst hms
            simp only [List.length_nil, ne_eq, not_true_eq_false, if_false, Bld.addMons_nil]
            simpa [pure_eq] using (ih (b := b) (l := l) (r := r) ⟨⟨by omega, by omega⟩, by omega⟩)
        · split
          · rw [copyTermLast_ok ⟨⟨by omega, by omega⟩, by omega⟩, ok_bind]
            exact add_step (ih (b := b.add [x]) (l := l) (r := y :: r)
                ⟨⟨by simp; omega, by simp; omega⟩, by simp; omega⟩)
          · rw [copyTermLast_ok ⟨⟨by omega, by omega⟩, by omega⟩, ok_bind]
            exact add_step (ih (b := b.add [y]) (l := x :: l) (r := r)
                ⟨⟨by simp; omega, by simp; omega⟩, by simp; omega⟩)

/-- `sum` is the nested sum in packed form. -/
theorem sum_refines {a b : Mv} {na nb : NMv} (ha : Represents a na) (hb : Represents b nb) :
    sum a b = layout (sumCaps a.caps b.caps) <$> sumN na nb := by
  apply Rel.map_eq
  unfold sum sumN
  rw [ha.1, hb.1, ok_bind, ok_bind]
  have fa := ha.2
  have fb := hb.2
  have h := sumTerms_rel (na.length + nb.length) (b := Bld.empty (sumCaps a.caps b.caps)) (l := na) (r := nb)
    ⟨⟨by simp [Bld.empty, sumCaps]; have := fa.i; have := fb.i; omega,
      by simp [Bld.empty, sumCaps]; have := fa.m; have := fb.m; omega⟩,
      by simp [Bld.empty, sumCaps]; have := fa.t; have := fb.t; omega⟩
  exact Rel.map_left h (fun b' out e => Rel.ok (by rw [e, Bld.finish_add]))

theorem sumN_fits {a b : Caps} {na nb : NMv} (fa : Fits a na) (fb : Fits b nb) :
    All (Fits (sumCaps a b)) (sumN na nb) :=
  (sumTermsN_size _ na nb).mono fun out h => by
    have := fa.i; have := fb.i; have := fa.m; have := fb.m; have := fa.t; have := fb.t
    exact ⟨by simp [sumCaps]; omega, by simp [sumCaps]; omega, by simp [sumCaps]; omega⟩

end Gal
