import Verif.MvRefine
import Verif.MvValue

/-!
# The array level refines the nested level: collation and products
-/

namespace Gal

open Out

theorem mapO_forall₂ {α β : Type} {f : α → Out β} : ∀ {l : List α} {l' : List β}, mapO f l = ok l' →
    List.Forall₂ (fun x y => f x = ok y) l l'
  | [], l', h => by rw [mapO_nil_ok.1 h]; exact .nil
  | x :: xs, l', h => by
    obtain ⟨y, ys, h1, h2, rfl⟩ := mapO_cons_ok.1 h
    exact .cons h1 (mapO_forall₂ h2)

/-- The monomial header stands for the nested monomial in the temporary arrays. -/
def RelMon (tmp : Bld) (m : Mon) (n : NMon) : Prop := viewMon tmp.caps.i tmp.inds m = ok n

/-- The term header stands for the nested term in the temporary arrays. -/
def RelTerm (tmp : Bld) (t : Term) (n : NTerm) : Prop := viewTerm tmp.caps tmp.inds tmp.mons t = ok n

theorem rdRange_length {α : Type} [Inhabited α] {cap : Nat} {l : List α} : ∀ {n o : Nat} {r : List α},
    rdRange cap l o n = ok r → r.length = n
  | 0, o, r, h => by cases ok_inj.1 h; rfl
  | n + 1, o, r, h => by
    unfold rdRange at h
    obtain ⟨x, hx, h⟩ := bind_eq_ok.1 h
    obtain ⟨xs, hxs, h⟩ := bind_eq_ok.1 h
    cases ok_inj.1 h
    simp [rdRange_length hxs]

theorem RelMon.spec {tmp : Bld} {m : Mon} {n : NMon} (h : RelMon tmp m n) :
    rdRange tmp.caps.i tmp.inds m.off m.count = ok n.inds ∧ n.q = m.q ∧ n.degree = m.degree ∧ n.inds.length = m.count := by
  unfold RelMon viewMon at h
  obtain ⟨is, his, h⟩ := bind_eq_ok.1 h
  cases ok_inj.1 h
  exact ⟨his, rfl, rfl, rdRange_length his⟩

theorem RelTerm.spec {tmp : Bld} {t : Term} {n : NTerm} (h : RelTerm tmp t n) :
    t.element = n.element ∧ ∃ ms, rdRange tmp.caps.m tmp.mons t.off t.count = ok ms ∧
      List.Forall₂ (RelMon tmp) ms n.mons := by
  unfold RelTerm viewTerm at h
  obtain ⟨ms, hms, h⟩ := bind_eq_ok.1 h
  obtain ⟨ns, hns, h⟩ := bind_eq_ok.1 h
  cases ok_inj.1 h
  exact ⟨rfl, ms, hms, mapO_forall₂ hns⟩

theorem putMons_ok {b : Bld} {ms : List Mon} (h : b.mons.length + ms.length ≤ b.caps.m) :
    putMons b ms = ok { b with mons := b.mons ++ ms } := by
  induction ms generalizing b with
  | nil => simp [putMons]
  | cons x ms ih =>
    simp only [List.length_cons] at h
    unfold putMons Bld.putMon
    rw [if_pos (by omega), ok_bind, ih (by simp; omega)]
    simp

theorem gatherN_size (el : Nat) (a : NMv) :
    nMons a = (gatherN el a).1.length + nMons (gatherN el a).2 ∧
    nInds a = nIndsM (gatherN el a).1 + nInds (gatherN el a).2 ∧ (gatherN el a).2.length ≤ a.length := by
  induction a with
  | nil => simp [gatherN]
  | cons t ts ih =>
    unfold gatherN
    split
    · obtain ⟨h1, h2, h3⟩ := ih
      simp; omega
    · simp

theorem gather_ok {tmp : Bld} (el : Nat) {ts : List Term} {ns : NMv} (h : List.Forall₂ (RelTerm tmp) ts ns) :
    ∀ {b : Bld}, b.mons.length + (gatherN el ns).1.length ≤ b.caps.m →
      ∃ ms rest, gather tmp el b ts = ok ({ b with mons := b.mons ++ ms }, rest) ∧
        List.Forall₂ (RelMon tmp) ms (gatherN el ns).1 ∧ List.Forall₂ (RelTerm tmp) rest (gatherN el ns).2 := by
  induction h with
  | nil => intro b hb; exact ⟨[], [], by simp [gather], by simp [gatherN], by simp [gatherN]⟩
  | @cons t n ts ns ht hts ih =>
    intro b hb
    obtain ⟨he, ms, hms, hrel⟩ := ht.spec
    unfold gather
    by_cases hel : t.element = el
    · have hn : n.element = el := by omega
      unfold gatherN at hb ⊢
      rw [if_pos hn] at hb ⊢
      simp only [List.length_append] at hb
      rw [if_pos hel, hms, ok_bind, putMons_ok (by rw [hrel.length_eq]; omega), ok_bind]
      obtain ⟨ms', rest, h1, h2, h3⟩ := ih (b := { b with mons := b.mons ++ ms }) (by simp [hrel.length_eq]; omega)
      refine ⟨ms ++ ms', rest, ?_, ?_, ?_⟩
      · rw [h1]; simp
      · exact List.rel_append hrel h2
      · exact h3
    · have hn : ¬ n.element = el := by omega
      unfold gatherN
      rw [if_neg hn, if_neg hel]
      exact ⟨[], t :: ts, by simp, by simp, .cons ht hts⟩

theorem monLtF_rel {tmp : Bld} {x y : Mon} {x' y' : NMon} (hx : RelMon tmp x x') (hy : RelMon tmp y y') :
    monLtF tmp x y = viewLt x' y' := by
  unfold RelMon at hx hy
  unfold monLtF
  rw [hx, hy, ok_bind, ok_bind]

theorem monEqF_rel {tmp : Bld} {x y : Mon} {x' y' : NMon} (hx : RelMon tmp x x') (hy : RelMon tmp y y') :
    monEqF tmp x y = ok (viewEq x' y') := by
  unfold RelMon at hx hy
  unfold monEqF
  rw [hx, hy, ok_bind, ok_bind]
  rfl

theorem accN_suffix (m : NMon) (ns : List NMon) : ∀ q, All (fun r => r.2 <:+ ns) (accN m q ns) := by
  induction ns with
  | nil => intro q; exact All.ok (List.suffix_refl _)
  | cons y ys ih =>
    intro q
    unfold accN
    split
    · exact All.bind' fun q' => (ih q').mono fun r h => h.trans (List.suffix_cons _ _)
    · exact All.ok (List.suffix_refl _)

theorem suffix_size {l r : List NMon} (h : l <:+ r) : l.length ≤ r.length ∧ nIndsM l ≤ nIndsM r := by
  obtain ⟨p, rfl⟩ := h
  simp

theorem acc_rel {tmp : Bld} {mons : List Mon} {m : Mon} {n : NMon} (hm : RelMon tmp m n) (fuel : Nat) :
    ∀ {q : Rat32} {next : Nat} {ns : List NMon}, ns.length ≤ fuel → next ≤ mons.length →
      List.Forall₂ (RelMon tmp) (mons.drop next) ns →
      Rel (fun r r' => r.1 = r'.1 ∧ next ≤ r.2 ∧ r.2 ≤ mons.length ∧ List.Forall₂ (RelMon tmp) (mons.drop r.2) r'.2)
        (acc tmp mons m fuel q next) (accN n q ns) := by
  induction fuel with
  | zero =>
    intro q next ns hf hn h
    have : ns = [] := List.length_eq_zero_iff.1 (by omega)
    subst this
    exact Rel.ok ⟨rfl, le_refl _, hn, h⟩
  | succ fuel ih =>
    intro q next ns hf hn h
    have hlen := h.length_eq
    rw [List.length_drop] at hlen
    unfold acc
    cases ns with
    | nil =>
      rw [if_pos (by simp at hlen; omega)]
      exact Rel.ok ⟨rfl, le_refl _, hn, h⟩
    | cons y ys =>
      simp only [List.length_cons] at hlen hf
      have hlt : next < mons.length := by omega
      rw [if_neg (by omega)]
      rw [List.drop_eq_getElem_cons hlt] at h
      cases h with
      | cons hy hys =>
        have hg : getAt mons next = ok mons[next] := by unfold getAt; rw [List.getElem?_eq_getElem hlt]
        rw [hg, ok_bind, monEqF_rel hm hy, ok_bind]
        unfold accN
        by_cases he : viewEq n y = true
        · rw [if_pos he, if_pos he, hy.spec.2.1]
          refine Rel.bind (Rel.eq _) fun q' q'' e => ?_
          subst e
          exact (ih (by omega) (by omega) hys).mono fun r r' ⟨h1, h2, h3, h4⟩ => ⟨h1, by omega, h3, h4⟩
        · rw [if_neg he, if_neg he]
          refine Rel.ok ⟨rfl, le_refl _, hn, ?_⟩
          show List.Forall₂ _ (mons.drop next) _
          rw [List.drop_eq_getElem_cons hlt]
          exact .cons hy hys

theorem mergeRunN_size (fuel : Nat) : ∀ (ns : List NMon),
    All (fun out => out.length ≤ ns.length ∧ nIndsM out ≤ nIndsM ns) (mergeRunN fuel ns) := by
  induction fuel with
  | zero => intro ns; exact All.ok (by simp)
  | succ fuel ih =>
    intro ns
    cases ns with
    | nil => exact All.ok (by simp)
    | cons n ns =>
      unfold mergeRunN
      refine All.bind (accN_suffix _ _ _) fun ⟨q, rest⟩ hs => ?_
      have hs := suffix_size hs
      refine All.bind (ih rest) fun out ho => ?_
      simp only at hs ho
      split
      · exact All.ok (by simp; omega)
      · exact All.ok (by simp; omega)

theorem mergeRun_rel {tmp : Bld} (fuel : Nat) :
    ∀ {b : Bld} {it writer : Nat} {ns : List NMon}, writer ≤ it → it ≤ b.mons.length →
      List.Forall₂ (RelMon tmp) (b.mons.drop it) ns → ns.length ≤ fuel → b.inds.length + nIndsM ns ≤ b.caps.i →
      Rel (fun r out => r.2 = writer + out.length ∧ r.1.mons.take r.2 = b.mons.take writer ++ layMons b.inds.length out ∧
          r.1.inds = b.inds ++ indsOf out ∧ r.1.terms = b.terms ∧ r.1.caps = b.caps)
        (mergeRun tmp fuel b it writer) (mergeRunN fuel ns) := by
  induction fuel with
  | zero =>
    intro b it writer ns hw hi h hf hr
    exact Rel.ok ⟨rfl, by simp [layMons], by simp, rfl, rfl⟩
  | succ fuel ih =>
    intro b it writer ns hw hi h hf hr
    have hlen := h.length_eq
    rw [List.length_drop] at hlen
    unfold mergeRun
    cases ns with
    | nil =>
      rw [if_pos (by simp at hlen; omega)]
      exact Rel.ok ⟨rfl, by simp [layMons], by simp, rfl, rfl⟩
    | cons n ns =>
      simp only [List.length_cons, nIndsM_cons] at hlen hf hr
      have hlt : it < b.mons.length := by omega
      rw [if_neg (by omega)]
      rw [List.drop_eq_getElem_cons hlt] at h
      cases h with
      | cons hm hms =>
        have hg : getAt b.mons it = ok b.mons[it] := by unfold getAt; rw [List.getElem?_eq_getElem hlt]
        obtain ⟨s1, s2, s3, s4⟩ := hm.spec
        rw [hg, ok_bind]
        unfold mergeRunN
        rw [s2]
        refine Rel.bind ((acc_rel hm _ (q := b.mons[it].q) (next := it + 1) (ns := ns) (by omega) (by omega) hms).and_all
          (accN_suffix _ _ _)) fun ⟨q, next⟩ ⟨q', rest⟩ hr' => ?_
        obtain ⟨⟨rfl, h2, h3, h4⟩, hs⟩ := hr'
        have hs := suffix_size hs
        simp only at h2 h3 h4 hs ⊢
        by_cases hz : q.isZero = true
        · simp only [hz, if_true]
          simpa [pure_eq] using ih (b := b) (it := next) (writer := writer) (by omega) h3 h4 (by omega) (by omega)
        · simp only [if_neg hz]
          have hset : setMon b.mons writer ⟨q, b.mons[it].degree, b.mons[it].count, b.inds.length⟩ =
              ok (b.mons.set writer ⟨q, b.mons[it].degree, b.mons[it].count, b.inds.length⟩) := by
            unfold setMon; rw [if_pos (by omega)]
          rw [hset, ok_bind]
          have hg' : ∃ m', getAt (b.mons.set writer ⟨q, b.mons[it].degree, b.mons[it].count, b.inds.length⟩) it = ok m' ∧
              m'.count = b.mons[it].count := by
            unfold getAt
            rw [List.getElem?_eq_getElem (by simpa using hlt)]
            refine ⟨_, rfl, ?_⟩
            rw [List.getElem_set]
            split <;> rfl
          obtain ⟨m', hg1, hg2⟩ := hg'
          rw [hg1, ok_bind, hg2, s1, ok_bind, copyInds_ok (by simp; omega), ok_bind]
          refine Rel.map_right (ih (it := next) (writer := writer + 1) (ns := rest) (by omega) (by simpa using h3)
            (by simp only [List.drop_set_of_lt (show writer < next by omega)]; exact h4) (by omega) (by simp; omega)) ?_
          intro r out ⟨e1, e2, e3, e4, e5⟩
          refine Rel.ok ⟨by simp [e1]; omega, ?_, by simp [e3], e4, e5⟩
          rw [e2]
          simp only [List.take_set_of_le, layMons, List.length_append]
          rw [List.take_succ_eq_append_getElem (by simp; omega)]
          simp [s3, s4, List.take_set_of_le]

theorem collateN_size (fuel : Nat) : ∀ (ns : NMv),
    All (fun out => out.length ≤ ns.length ∧ nMons out ≤ nMons ns ∧ nInds out ≤ nInds ns) (collateN fuel ns) := by
  induction fuel with
  | zero => intro ns; exact All.ok (by simp)
  | succ fuel ih =>
    intro ns
    cases ns with
    | nil => exact All.ok (by simp)
    | cons t ts =>
      unfold collateN
      obtain ⟨g1, g2, -⟩ := gatherN_size t.element (t :: ts)
      have g3 : (gatherN t.element (t :: ts)).2.length ≤ ts.length := by
        unfold gatherN; rw [if_pos rfl]; exact (gatherN_size t.element ts).2.2
      generalize gatherN t.element (t :: ts) = g at g1 g2 g3
      obtain ⟨ms, rest⟩ := g
      simp only at g1 g2 g3 ⊢
      refine All.bind (sortAll_all_perm _ _) fun sorted hs => ?_
      refine All.bind (mergeRunN_size _ _) fun merged hm => ?_
      refine All.bind (ih rest) fun out ho => ?_
      rw [hs.length_eq, nIndsM_perm hs] at hm
      simp only [nMons_cons, nInds_cons] at g1 g2
      split
      · exact All.ok (by simp; omega)
      · exact All.ok (by simp; omega)

theorem collate_rel {tmp : Bld} (fuel : Nat) :
    ∀ {b : Bld} {ts : List Term} {ns : NMv}, List.Forall₂ (RelTerm tmp) ts ns →
      RoomT b (nInds ns) (nMons ns) ns.length →
      Rel (fun b' out => b' = b.add out) (collate tmp fuel b ts) (collateN fuel ns) := by
  induction fuel with
  | zero => intro b ts ns h hr; exact Rel.ok (by simp)
  | succ fuel ih =>
    intro b ts ns h hr
    cases h with
    | nil => exact Rel.ok (by simp)
    | @cons t n ts ns ht hts =>
      unfold collate collateN
      obtain ⟨⟨r1, r2⟩, r3⟩ := hr
      have hall := List.Forall₂.cons ht hts
      have he := ht.spec.1
      obtain ⟨g1, g2, -⟩ := gatherN_size n.element (n :: ns)
      have g3 : (gatherN n.element (n :: ns)).2.length ≤ ns.length := by
        unfold gatherN; rw [if_pos rfl]; exact (gatherN_size n.element ns).2.2
      obtain ⟨ms, rest, hg, hms, hrest⟩ := gather_ok n.element hall (b := b) (by omega)
      rw [he, hg, ok_bind]
      generalize gatherN n.element (n :: ns) = g at g1 g2 g3 hms hrest
      obtain ⟨ms', rest'⟩ := g
      simp only [List.length_cons] at g1 g2 g3 hms hrest r3 ⊢
      rw [g1] at r2
      rw [g2] at r1
      have hl := hms.length_eq
      have hlen : (b.mons ++ ms).length - b.mons.length = ms'.length := by simp [hl]
      rw [hlen, List.length_append, hl]
      have hsort := csort_rel (R := RelMon tmp) (less := monLtF tmp) (less' := viewLt) (pre := b.mons)
        (fun x x' y y' => monLtF_rel) (ms'.length + 1) 0 ms'.length (⟨ms, rfl, hms⟩ : Shifted _ _ _ _)
      rw [Nat.add_zero] at hsort
      unfold sortAll
      refine Rel.bind (hsort.and_all (csort_all_perm _ _ _ _ _)) fun srt srt' hs => ?_
      obtain ⟨⟨s, rfl, hs⟩, hp⟩ := hs
      rw [hp.length_eq]
      have hm := mergeRun_rel (tmp := tmp) ms'.length (b := { b with mons := b.mons ++ s }) (it := b.mons.length)
        (writer := b.mons.length) (ns := srt') (le_refl _) (by simp) (by simpa using hs) (by rw [hp.length_eq])
        (by simp [nIndsM_perm hp]; omega)
      refine Rel.bind (hm.and_all (mergeRunN_size _ _)) fun ⟨b2, w⟩ merged h2 => ?_
      obtain ⟨⟨e1, e2, e3, e4, e5⟩, z1, z2⟩ := h2
      rw [hp.length_eq] at z1
      rw [nIndsM_perm hp] at z2
      simp only [List.take_left'] at e1 e2 e3 e4 e5 ⊢
      subst e1
      have hb3 : { b2 with mons := b2.mons.take (b.mons.length + merged.length) } = b.addMons merged := by
        rw [e2]
        unfold Bld.addMons
        obtain ⟨c, i, m, t⟩ := b2
        simp only at e3 e4 e5
        subst e3 e4 e5
        simp
      rw [hb3, Nat.add_sub_cancel_left]
      by_cases hz : merged.length > 0
      · simp only [if_pos hz]
        rw [putTerm_ok (by simp; omega), Bld.addMons_terms, Bld.add_single, ok_bind]
        exact add_step (ih hrest ⟨⟨by simp; omega, by simp; omega⟩, by simp; omega⟩)
      · have : merged = [] := List.length_eq_zero_iff.1 (by omega)
        subst this
        simp only [List.length_nil, gt_iff_lt, lt_self_iff_false, if_false, Bld.addMons_nil]
        simpa [pure_eq] using ih hrest ⟨⟨by omega, by omega⟩, by omega⟩

/-- Sorting and collating packed temporary arrays is the nested sort and collation, packed. -/
theorem sortCollate_refines {ct caps : Caps} {ns : NMv} (hf : Fits ct ns) (hc : Fits caps ns) :
    sortCollate ((Bld.empty ct).add ns) caps = layout caps <$> sortCollateN ns := by
  apply Rel.map_eq
  unfold sortCollate sortCollateN
  have hv : mapO (viewTerm ct ((Bld.empty ct).add ns).inds ((Bld.empty ct).add ns).mons) (layTerms 0 ns) = ok ns :=
    viewTerms_lay (caps := ct) ns (preI := []) (postI := []) (preM := []) (postM := [])
      (by simp [Bld.add, Bld.addMons, Bld.empty]) (by simp [Bld.add, Bld.addMons, Bld.empty])
      (by simpa using hf.i) (by simpa using hf.m)
  have hrel : List.Forall₂ (RelTerm ((Bld.empty ct).add ns)) ((Bld.empty ct).add ns).terms ns := by
    have := mapO_forall₂ hv
    have e : ((Bld.empty ct).add ns).terms = layTerms 0 ns := by simp [Bld.add, Bld.empty]
    rw [e]
    exact this
  have hs := sortAll_rel (less := termLtF) (less' := termLt) (R := RelTerm ((Bld.empty ct).add ns))
    (fun x x' y y' hx hy => by unfold termLtF termLt; rw [hx.spec.1, hy.spec.1]) hrel
  refine Rel.bind (hs.and_all (sortAll_all_perm _ _)) fun ts ts' h => ?_
  obtain ⟨h, hp⟩ := h
  rw [h.length_eq]
  have := collate_rel (tmp := (Bld.empty ct).add ns) ts'.length (b := Bld.empty caps) h
    ⟨⟨by simp [Bld.empty, nInds_perm hp]; exact hc.i, by simp [Bld.empty, nMons_perm hp]; exact hc.m⟩,
      by simp [Bld.empty, hp.length_eq]; exact hc.t⟩
  exact Rel.map_left this (fun b' out e => Rel.ok (by rw [e, Bld.finish_add]))

theorem sortCollateN_fits {caps : Caps} {ns : NMv} (hc : Fits caps ns) : All (Fits caps) (sortCollateN ns) := by
  unfold sortCollateN
  refine All.bind (sortAll_all_perm _ _) fun s hp => (collateN_size _ _).mono fun out h => ?_
  rw [hp.length_eq, nMons_perm hp, nInds_perm hp] at h
  have := hc.i; have := hc.m; have := hc.t
  exact ⟨by omega, by omega, by omega⟩

/-! ## Product -/

theorem mergeIndsN_size (fuel : Nat) : ∀ (d : Rat32) (l r : List Ind),
    All (fun o => o.1.length ≤ l.length + r.length) (mergeIndsN fuel d l r) := by
  induction fuel with
  | zero => intro d l r; exact All.ok (by simp)
  | succ fuel ih =>
    intro d l r
    cases l with
    | nil => cases r with
      | nil => exact All.ok (by simp)
      | cons y r =>
        unfold mergeIndsN
        exact All.bind' fun d => All.bind (ih _ _ _) fun ⟨o, d⟩ h => All.ok (by simp at h ⊢; omega)
    | cons x l => cases r with
      | nil =>
        unfold mergeIndsN
        exact All.bind' fun d => All.bind (ih _ _ _) fun ⟨o, d⟩ h => All.ok (by simp at h ⊢; omega)
      | cons y r =>
        unfold mergeIndsN
        split
        · refine All.bind' fun n => All.bind' fun d => All.bind (ih _ _ _) fun ⟨o, d⟩ h => ?_
          simp only at h ⊢
          split
          · exact All.ok (by simp; omega)
          · exact All.ok (by simp; omega)
        · split
          · exact All.bind' fun d => All.bind (ih _ _ _) fun ⟨o, d⟩ h => All.ok (by simp at h ⊢; omega)
          · exact All.bind' fun d => All.bind (ih _ _ _) fun ⟨o, d⟩ h => All.ok (by simp at h ⊢; omega)

theorem putInd_ok {b : Bld} {i : Ind} (h : b.inds.length < b.caps.i) :
    b.putInd i = ok { b with inds := b.inds ++ [i] } := by
  unfold Bld.putInd; rw [if_pos h]

theorem putMon_ok {b : Bld} {m : Mon} (h : b.mons.length < b.caps.m) :
    b.putMon m = ok { b with mons := b.mons ++ [m] } := by
  unfold Bld.putMon; rw [if_pos h]

/-- Shape of the results of the indeterminate merge. -/
def MergeRel (b : Bld) (r : Bld × Rat32) (o : List Ind × Rat32) : Prop :=
  r.1 = { b with inds := b.inds ++ o.1 } ∧ r.2 = o.2

theorem mergeInds_rel (fuel : Nat) : ∀ {b : Bld} {d : Rat32} {l r : List Ind},
    b.inds.length + (l.length + r.length) ≤ b.caps.i →
    Rel (MergeRel b) (mergeInds fuel b d l r) (mergeIndsN fuel d l r) := by
  induction fuel with
  | zero => intro b d l r h; exact Rel.ok ⟨by simp, rfl⟩
  | succ fuel ih =>
    intro b d l r h
    have step : ∀ {z : Ind} {X : Out (Bld × Rat32)} {Y : Out (List Ind × Rat32)},
        Rel (MergeRel { b with inds := b.inds ++ [z] }) X Y →
        Rel (MergeRel b) X (Y >>= fun x => pure (z :: x.1, x.2)) := by
      intro z X Y hxy
      refine Rel.map_right hxy fun r o ⟨h1, h2⟩ => Rel.ok ⟨?_, h2⟩
      rw [h1]; simp
    cases l with
    | nil => cases r with
      | nil => exact Rel.ok ⟨by simp, rfl⟩
      | cons y r =>
        simp only [List.length_cons, List.length_nil] at h
        unfold mergeInds mergeIndsN
        refine Rel.bind (Rel.eq _) fun d d' e => ?_
        subst e
        rw [putInd_ok (by omega), ok_bind]
        exact step (ih (by simp; omega))
    | cons x l => cases r with
      | nil =>
        simp only [List.length_cons, List.length_nil] at h
        unfold mergeInds mergeIndsN
        refine Rel.bind (Rel.eq _) fun d d' e => ?_
        subst e
        rw [putInd_ok (by omega), ok_bind]
        exact step (ih (by simp; omega))
      | cons y r =>
        simp only [List.length_cons] at h
        unfold mergeInds mergeIndsN
        split
        · refine Rel.bind (Rel.eq _) fun n n' e => ?_
          subst e
          refine Rel.bind (Rel.eq _) fun d d' e => ?_
          subst e
          by_cases hz : n.neInt 0 = true
          · simp only [if_pos hz]
            rw [putInd_ok (by omega), ok_bind]
            exact step (ih (by simp; omega))
          · simp only [if_neg hz]
            simpa [pure_eq] using ih (b := b) (d := d) (l := l) (r := r) (by omega)
        · split
          · rw [putInd_ok (by omega), ok_bind]
            refine Rel.bind (Rel.eq _) fun d d' e => ?_
            subst e
            exact step (ih (by simp; omega))
          · rw [putInd_ok (by omega), ok_bind]
            refine Rel.bind (Rel.eq _) fun d d' e => ?_
            subst e
            exact step (ih (by simp; omega))

theorem mulMonN_size (k : Int) (x y : NMon) :
    All (fun m => m.inds.length ≤ x.inds.length + y.inds.length) (mulMonN k x y) := by
  unfold mulMonN
  exact All.bind (mergeIndsN_size _ _ _ _) fun ⟨i, d⟩ h => All.bind' fun q => All.bind' fun q => All.ok h

theorem mulMon_rel (k : Int) {b : Bld} {x y : NMon} (h : Room b (x.inds.length + y.inds.length) 1) :
    Rel (fun b' m => b' = b.addMons [m]) (mulMon k b x y) (mulMonN k x y) := by
  unfold mulMon mulMonN
  refine Rel.bind (mergeInds_rel _ h.i) fun ⟨b', d⟩ ⟨is, d'⟩ ⟨h1, h2⟩ => ?_
  simp only at h1 h2 ⊢
  subst h1 h2
  refine Rel.bind (Rel.eq _) fun q q' e => ?_
  subst e
  refine Rel.bind (Rel.eq _) fun q q' e => ?_
  subst e
  rw [putMon_ok (by have := h.m; simp only; omega)]
  exact Rel.ok (by simp [Bld.addMons, layMons])

theorem mulMonRowN_size (k : Int) (x : NMon) (r : List NMon) :
    All (fun o => o.length = r.length ∧ nIndsM o ≤ r.length * x.inds.length + nIndsM r) (mulMonRowN k x r) := by
  unfold mulMonRowN
  induction r with
  | nil => exact All.ok (by simp)
  | cons y r ih =>
    unfold mapO
    refine All.bind (mulMonN_size _ _ _) fun m hm => All.bind ih fun o ho => All.ok ?_
    simp [Nat.add_mul]; omega

theorem mulMonRow_rel (k : Int) (x : NMon) (r : List NMon) : ∀ {b : Bld},
    Room b (r.length * x.inds.length + nIndsM r) r.length →
    Rel (fun b' o => b' = b.addMons o) (mulMonRow k x b r) (mulMonRowN k x r) := by
  unfold mulMonRowN
  induction r with
  | nil => intro b h; exact Rel.ok (by simp)
  | cons y r ih =>
    intro b h
    obtain ⟨h1, h2⟩ := h
    simp only [List.length_cons, Nat.add_mul, nIndsM_cons] at h1 h2
    unfold mulMonRow mapO
    refine Rel.bind ((mulMon_rel k ⟨by omega, by omega⟩).and_all (mulMonN_size _ _ _)) fun b' m hm => ?_
    obtain ⟨rfl, hm⟩ := hm
    exact addMons_step (ih ⟨by simp; omega, by simp; omega⟩)

theorem mulMonsN_size (k : Int) (l r : List NMon) :
    All (fun o => o.length = l.length * r.length ∧ nIndsM o ≤ r.length * nIndsM l + l.length * nIndsM r)
      (mulMonsN k l r) := by
  induction l with
  | nil => exact All.ok (by simp)
  | cons x l ih =>
    unfold mulMonsN
    refine All.bind (mulMonRowN_size _ _ _) fun o ho => All.bind ih fun o' ho' => All.ok ?_
    simp [Nat.add_mul, Nat.mul_add]; omega

theorem addMons_steps {b : Bld} {o : List NMon} {X : Out Bld} {Y : Out (List NMon)}
    (h : Rel (fun b' out => b' = (b.addMons o).addMons out) X Y) :
    Rel (fun b' out => b' = b.addMons out) X (Y >>= fun rest => pure (o ++ rest)) :=
  Rel.map_right h fun b' out e => Rel.ok (by rw [Bld.addMons_append]; exact e)

theorem add_steps {b : Bld} {o : NMv} {X : Out Bld} {Y : Out NMv}
    (h : Rel (fun b' out => b' = (b.add o).add out) X Y) :
    Rel (fun b' out => b' = b.add out) X (Y >>= fun rest => pure (o ++ rest)) :=
  Rel.map_right h fun b' out e => Rel.ok (by rw [Bld.add_append]; exact e)

theorem mulMons_rel (k : Int) (r : List NMon) (l : List NMon) : ∀ {b : Bld},
    Room b (r.length * nIndsM l + l.length * nIndsM r) (l.length * r.length) →
    Rel (fun b' o => b' = b.addMons o) (mulMons k b l r) (mulMonsN k l r) := by
  induction l with
  | nil => intro b h; exact Rel.ok (by simp)
  | cons x l ih =>
    intro b h
    obtain ⟨h1, h2⟩ := h
    simp only [List.length_cons, Nat.add_mul, Nat.mul_add, nIndsM_cons] at h1 h2
    unfold mulMons mulMonsN
    refine Rel.bind ((mulMonRow_rel k x r ⟨by omega, by omega⟩).and_all (mulMonRowN_size _ _ _)) fun b' m hm => ?_
    obtain ⟨rfl, hm⟩ := hm
    exact addMons_steps (ih ⟨by simp; omega, by simp; omega⟩)

theorem mulTermRowN_size (P : Nat → Nat → Nat × Int) (x : NTerm) (r : NMv) :
    All (fun o => o.length ≤ r.length ∧ nMons o ≤ x.mons.length * nMons r ∧
      nInds o ≤ nMons r * nIndsM x.mons + x.mons.length * nInds r) (mulTermRowN P x r) := by
  induction r with
  | nil => exact All.ok (by simp)
  | cons y r ih =>
    unfold mulTermRowN
    generalize P (x.element % 256) (y.element % 256) = p
    obtain ⟨e, k⟩ := p
    simp only
    split
    · refine All.bind (mulMonsN_size _ _ _) fun o ho => All.bind ih fun o' ho' => All.ok ?_
      simp [Nat.add_mul, Nat.mul_add]; omega
    · exact ih.mono fun o ho => by simp [Nat.add_mul, Nat.mul_add]; omega

theorem mulTermRow_rel (P : Nat → Nat → Nat × Int) (x : NTerm) (r : NMv) : ∀ {b : Bld},
    RoomT b (nMons r * nIndsM x.mons + x.mons.length * nInds r) (x.mons.length * nMons r) r.length →
    Rel (fun b' o => b' = b.add o) (mulTermRow P x b r) (mulTermRowN P x r) := by
  induction r with
  | nil => intro b h; exact Rel.ok (by simp)
  | cons y r ih =>
    intro b h
    obtain ⟨⟨h1, h2⟩, h3⟩ := h
    simp only [List.length_cons, Nat.add_mul, Nat.mul_add, nInds_cons, nMons_cons] at h1 h2 h3
    unfold mulTermRow mulTermRowN
    generalize P (x.element % 256) (y.element % 256) = p
    obtain ⟨e, k⟩ := p
    simp only
    split
    · refine Rel.bind ((mulMons_rel k y.mons x.mons ⟨by omega, by omega⟩).and_all (mulMonsN_size _ _ _)) fun b' o ho => ?_
      obtain ⟨rfl, ho1, ho2⟩ := ho
      have hlen : (b.addMons o).mons.length - b.mons.length = o.length := by simp
      rw [hlen, putTerm_ok (by simp; omega), Bld.addMons_terms, Bld.add_single, ok_bind]
      exact add_step (ih ⟨⟨by simp; omega, by simp; omega⟩, by simp; omega⟩)
    · exact ih ⟨⟨by omega, by omega⟩, by omega⟩

theorem mulTermsN_size (P : Nat → Nat → Nat × Int) (l r : NMv) :
    All (fun o => o.length ≤ l.length * r.length ∧ nMons o ≤ nMons l * nMons r ∧
      nInds o ≤ nMons l * nInds r + nMons r * nInds l) (mulTermsN P l r) := by
  induction l with
  | nil => exact All.ok (by simp)
  | cons x l ih =>
    unfold mulTermsN
    refine All.bind (mulTermRowN_size _ _ _) fun o ho => All.bind ih fun o' ho' => All.ok ?_
    simp [Nat.add_mul, Nat.mul_add]; omega

theorem mulTerms_rel (P : Nat → Nat → Nat × Int) (r : NMv) (l : NMv) : ∀ {b : Bld},
    RoomT b (nMons l * nInds r + nMons r * nInds l) (nMons l * nMons r) (l.length * r.length) →
    Rel (fun b' o => b' = b.add o) (mulTerms P b l r) (mulTermsN P l r) := by
  induction l with
  | nil => intro b h; exact Rel.ok (by simp)
  | cons x l ih =>
    intro b h
    obtain ⟨⟨h1, h2⟩, h3⟩ := h
    simp only [List.length_cons, Nat.add_mul, Nat.mul_add, nInds_cons, nMons_cons] at h1 h2 h3
    unfold mulTerms mulTermsN
    refine Rel.bind ((mulTermRow_rel P x r ⟨⟨by omega, by omega⟩, by omega⟩).and_all (mulTermRowN_size _ _ _))
      fun b' o ho => ?_
    obtain ⟨rfl, ho1, ho2, ho3⟩ := ho
    exact add_steps (ih ⟨⟨by simp; omega, by simp; omega⟩, by simp; omega⟩)

theorem mulTermsN_fits {P : Nat → Nat → Nat × Int} {a b : Caps} {na nb : NMv} (fa : Fits a na) (fb : Fits b nb) :
    All (Fits (prodCaps a b)) (mulTermsN P na nb) :=
  (mulTermsN_size P na nb).mono fun o ⟨h1, h2, h3⟩ =>
    ⟨h3.trans (Nat.add_le_add (Nat.mul_le_mul fa.m fb.i) (Nat.mul_le_mul fb.m fa.i)),
      h2.trans (Nat.mul_le_mul fa.m fb.m), h1.trans (Nat.mul_le_mul fa.t fb.t)⟩

/-- `product` is the nested product in packed form. -/
theorem product_refines (P : Nat → Nat → Nat × Int) {a b : Mv} {na nb : NMv} (ha : Represents a na)
    (hb : Represents b nb) : product P a b = layout (prodCaps a.caps b.caps) <$> productN P na nb := by
  apply Rel.map_eq
  unfold product productN
  rw [ha.1, hb.1, ok_bind, ok_bind]
  have h := mulTerms_rel P nb na (b := Bld.empty (prodCaps a.caps b.caps))
    ⟨⟨by simpa [Bld.empty, prodCaps] using Nat.add_le_add (Nat.mul_le_mul ha.2.m hb.2.i) (Nat.mul_le_mul hb.2.m ha.2.i),
      by simpa [Bld.empty, prodCaps] using Nat.mul_le_mul ha.2.m hb.2.m⟩,
      by simpa [Bld.empty, prodCaps] using Nat.mul_le_mul ha.2.t hb.2.t⟩
  refine Rel.bind (h.and_all (mulTermsN_fits ha.2 hb.2)) fun tmp ns hn => ?_
  obtain ⟨rfl, hf⟩ := hn
  rw [sortCollate_refines hf hf]
  cases sortCollateN ns with
  | ub => exact Rel.ub
  | val v l =>
    show Rel _ (Out.bind (Out.val v l) (fun b => Out.ok (layout _ b))) _
    simp only [Out.bind, Out.ok, Bool.or_false]
    exact Rel.val rfl

theorem productN_fits {P : Nat → Nat → Nat × Int} {a b : Caps} {na nb : NMv} (fa : Fits a na) (fb : Fits b nb) :
    All (Fits (prodCaps a b)) (productN P na nb) :=
  All.bind (mulTermsN_fits fa fb) fun _ h => sortCollateN_fits h

end Gal
