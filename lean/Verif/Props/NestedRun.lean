import Verif.Props.PolyNull

/-!
# Evaluating expressions on nested multivectors

The stack machine on multivectors without arrays gives the same results (`runNodes_sim`), and the kernel evaluates it faster.  Only what the
conformal products need is included: no quotients, functions or temporaries.
-/

namespace Gal

open Out

/-- A fold as `foldArgs` on nested multivectors. -/
def foldArgsN (f : NMv → NMv → Out NMv) : List NMv → Out NMv
  | [] => .ub
  | [x] => ok x
  | x :: y :: rest => do
    let r ← foldArgsN f (y :: rest)
    f x r

/-- A basis element as a constant. -/
def constN (o : Nat) : Out NMv := if o < Op.cscalar then .ub else ok [⟨o - Op.cscalar, [⟨Rat32.one, Rat32.zero, []⟩]⟩]

/-- The operations of `mvOps` with a null basis on nested multivectors. -/
def nestOps (m : Metric) : Ops NMv where
  input := toNaturalN m.dim
  ref _ _ := .ub
  size a := a.length
  const := constN
  scale := scaleN
  rev := reverseN
  pd := dualN m.dim
  sums := foldArgsN sumN
  eps := foldArgsN (productN extProduct)
  gp := productN (geoProduct m)
  lc := productN (conProduct m)
  sip := productN (symProduct m)
  div _ _ _ := .ub
  fn _ _ _ := .ub
  comp := componentN
  grd g a := ok (selectGradeN g a)

/-- The arrays that belong to a nested multivector. -/
def Lay (a : Mv) (n : NMv) : Prop := ∃ c, Fits c n ∧ a = layout c n

theorem Lay.rep {a : Mv} {n : NMv} (h : Lay a n) : Represents a n := by
  obtain ⟨c, h1, rfl⟩ := h
  exact represents_layout h1

theorem lay_map {c : Caps} {y : Out NMv} {x : Out Mv} {n : NMv} (h : x = layout c <$> y) (hf : All (Fits c) y) (hy : y = ok n) :
    x = ok (layout c n) ∧ Fits c n := by
  subst hy
  refine ⟨h, ?_⟩
  exact hf n false rfl

theorem lay_shrink {c : Caps} {n : NMv} (h : Fits c n) : ∃ a, shrink (layout c n) = ok a ∧ Lay a n := by
  refine ⟨_, resize_layout h (c' := ⟨nInds n, nMons n, n.length⟩) ⟨le_refl _, le_refl _, le_refl _⟩, _, ⟨le_refl _, le_refl _, le_refl _⟩, rfl⟩

/-- Two states that belong to each other. -/
structure SimState {α β : Type} (R0 R : α → β → Prop) (s : RState α) (t : RState β) : Prop where
  inputs : List.Forall₂ R0 s.inputs t.inputs
  temps : List.Forall₂ (fun p q => R p.1 q.1 ∧ p.2 = q.2) s.temps t.temps
  args : List.Forall₂ R s.args t.args
  nextId : s.nextId = t.nextId

/-- What relates two sets of operations. -/
structure SimOps {α β : Type} (R0 R : α → β → Prop) (M : Ops α) (N : Ops β) : Prop where
  input : ∀ {a b b'}, R0 a b → N.input b = ok b' → ∃ a', M.input a = ok a' ∧ R a' b'
  ref : ∀ {a b b' id}, R a b → N.ref b id = ok b' → ∃ a', M.ref a id = ok a' ∧ R a' b'
  size : ∀ {a b}, R a b → M.size a = N.size b
  const : ∀ {o b'}, N.const o = ok b' → ∃ a', M.const o = ok a' ∧ R a' b'
  scale : ∀ {a b b' q}, R a b → N.scale q b = ok b' → ∃ a', M.scale q a = ok a' ∧ R a' b'
  rev : ∀ {a b b'}, R a b → N.rev b = ok b' → ∃ a', M.rev a = ok a' ∧ R a' b'
  pd : ∀ {a b b'}, R a b → N.pd b = ok b' → ∃ a', M.pd a = ok a' ∧ R a' b'
  sums : ∀ {as bs b'}, List.Forall₂ R as bs → N.sums bs = ok b' → ∃ a', M.sums as = ok a' ∧ R a' b'
  eps : ∀ {as bs b'}, List.Forall₂ R as bs → N.eps bs = ok b' → ∃ a', M.eps as = ok a' ∧ R a' b'
  gp : ∀ {a b c d b'}, R a b → R c d → N.gp b d = ok b' → ∃ a', M.gp a c = ok a' ∧ R a' b'
  lc : ∀ {a b c d b'}, R a b → R c d → N.lc b d = ok b' → ∃ a', M.lc a c = ok a' ∧ R a' b'
  sip : ∀ {a b c d b'}, R a b → R c d → N.sip b d = ok b' → ∃ a', M.sip a c = ok a' ∧ R a' b'
  div : ∀ {a b c d b' q}, R a b → R c d → N.div b d q = ok b' → ∃ a', M.div a c q = ok a' ∧ R a' b'
  fn : ∀ {a b b' o q}, R a b → N.fn o q b = ok b' → ∃ a', M.fn o q a = ok a' ∧ R a' b'
  comp : ∀ {a b b' e}, R a b → N.comp e b = ok b' → ∃ a', M.comp e a = ok a' ∧ R a' b'
  grd : ∀ {a b b' g}, R a b → N.grd g b = ok b' → ∃ a', M.grd g a = ok a' ∧ R a' b'

section Sim

variable {α β : Type} {R0 R : α → β → Prop} {M : Ops α} {N : Ops β}

theorem push_sim {si : List α} {ti : List β} {st : List (α × Nat)} {tt : List (β × Nat)} {k : Nat} {t' : RState β} {as : List α}
    {bs : List β} {y : Out β} (hi : List.Forall₂ R0 si ti) (ht : List.Forall₂ (fun p q => R p.1 q.1 ∧ p.2 = q.2) st tt)
    (hr : List.Forall₂ R as bs) {x : Out α} (hx : ∀ {b}, y = ok b → ∃ a, x = ok a ∧ R a b)
    (h : (do let v ← y; return (⟨ti, tt, v :: bs, k⟩ : RState β)) = ok t') :
    ∃ s', (do let v ← x; return (⟨si, st, v :: as, k⟩ : RState α)) = ok s' ∧ SimState R0 R s' t' := by
  simp only [bind_eq_ok, pure_eq, ok_inj] at h
  obtain ⟨b, hb, rfl⟩ := h
  obtain ⟨a, rfl, hab⟩ := hx hb
  exact ⟨_, rfl, hi, ht, .cons hab hr, rfl⟩

theorem split_sim {n : Nat} {as : List α} {bs : List β} {y : List β × List β} (hr : List.Forall₂ R as bs) (h : splitArgs n bs = ok y) :
    splitArgs n as = ok (as.take n, as.drop n) ∧ List.Forall₂ R (as.take n) y.1 ∧ List.Forall₂ R (as.drop n) y.2 := by
  unfold splitArgs at h ⊢
  split at h
  · cases h
  · rename_i hc
    rw [ok_inj] at h
    subst h
    rw [if_neg (by rw [hr.length_eq]; exact hc)]
    exact ⟨rfl, List.forall₂_take _ hr, List.forall₂_drop _ hr⟩

variable (H : SimOps R0 R M N)
include H

theorem stepNode_sim {n : Node} {s : RState α} {t t' : RState β} (hs : SimState R0 R s t) (h : stepNode N n t = ok t') :
    ∃ s', stepNode M n s = ok s' ∧ SimState R0 R s' t' := by
  obtain ⟨ti, tt, ta, tn⟩ := t
  obtain ⟨si, st, sa, sn⟩ := s
  obtain ⟨hi, ht, ha, hn⟩ := hs
  dsimp only at hi ht ha hn
  subst hn
  unfold stepNode at h ⊢
  by_cases c1 : n.o = Op.id
  · rw [if_pos c1] at h ⊢
    cases hi with
    | nil => cases h
    | cons h1 h2 =>
      dsimp only at h ⊢
      rw [bind_eq_ok] at h
      obtain ⟨b, hb, h⟩ := h
      rw [pure_eq, ok_inj] at h
      subst h
      obtain ⟨a, hx, hab⟩ := H.input h1 hb
      rw [hx, ok_bind]
      exact ⟨_, rfl, h2, ht, .cons hab ha, rfl⟩
  rw [if_neg c1] at h ⊢
  by_cases c2 : n.o = Op.cse
  · rw [if_pos c2] at h ⊢
    dsimp only at h ⊢
    have hl := ht.length_eq
    rcases hq : tt[n.ex]? with _ | ⟨b, id⟩
    · rw [hq] at h; cases h
    · rw [hq] at h
      obtain ⟨hlt, he⟩ := List.getElem?_eq_some_iff.mp hq
      have hlt' : n.ex < st.length := by rw [hl]; exact hlt
      have hr := List.Forall₂.get ht hlt' hlt
      rw [List.getElem?_eq_getElem hlt']
      simp only [List.get_eq_getElem, he] at hr
      obtain ⟨hr1, hr2⟩ := hr
      revert hr1 hr2
      generalize st[n.ex] = p
      obtain ⟨a, id'⟩ := p
      intro hr1 hr2
      dsimp only at hr1 hr2 h ⊢
      subst hr2
      exact push_sim hi ht ha (fun hb => H.ref hr1 hb) h
  rw [if_neg c2] at h ⊢
  by_cases c3 : n.o = Op.noop
  · rw [if_pos c3] at h ⊢
    cases ha with
    | nil => cases h
    | cons h1 h2 =>
      dsimp only at h ⊢
      rw [ok_inj] at h
      subst h
      refine ⟨_, rfl, hi, ?_, h2, ?_⟩
      · exact List.rel_append ht (.cons ⟨h1, rfl⟩ .nil)
      · dsimp only
        rw [H.size h1]
  rw [if_neg c3] at h ⊢
  by_cases c4 : n.o = Op.sum
  · rw [if_pos c4] at h ⊢
    rw [bind_eq_ok] at h
    obtain ⟨y, hy, h⟩ := h
    obtain ⟨e1, e2, e3⟩ := split_sim ha hy
    rw [e1, ok_bind]
    obtain ⟨y1, y2⟩ := y
    dsimp only at h e2 e3 ⊢
    exact push_sim hi ht e3 (fun hb => H.sums e2 hb) h
  rw [if_neg c4] at h ⊢
  by_cases c5 : n.o = Op.ep
  · rw [if_pos c5] at h ⊢
    rw [bind_eq_ok] at h
    obtain ⟨y, hy, h⟩ := h
    obtain ⟨e1, e2, e3⟩ := split_sim ha hy
    rw [e1, ok_bind]
    obtain ⟨y1, y2⟩ := y
    dsimp only at h e2 e3 ⊢
    exact push_sim hi ht e3 (fun hb => H.eps (List.rel_reverse e2) hb) h
  rw [if_neg c5] at h ⊢
  by_cases c6 : n.o = Op.gp ∨ n.o = Op.lc ∨ n.o = Op.sip ∨ n.o = Op.div
  · rw [if_pos c6] at h ⊢
    cases ha with
    | nil => cases h
    | cons h1 h2 =>
      cases h2 with
      | nil => cases h
      | cons h3 h4 =>
        dsimp only at h ⊢
        by_cases d1 : n.o = Op.gp
        · rw [if_pos d1] at h ⊢; exact push_sim hi ht h4 (fun hb => H.gp h3 h1 hb) h
        rw [if_neg d1] at h ⊢
        by_cases d2 : n.o = Op.lc
        · rw [if_pos d2] at h ⊢; exact push_sim hi ht h4 (fun hb => H.lc h3 h1 hb) h
        rw [if_neg d2] at h ⊢
        by_cases d3 : n.o = Op.sip
        · rw [if_pos d3] at h ⊢; exact push_sim hi ht h4 (fun hb => H.sip h3 h1 hb) h
        rw [if_neg d3] at h ⊢
        exact push_sim hi ht h4 (fun hb => H.div h3 h1 hb) h
  rw [if_neg c6] at h ⊢
  by_cases c7 : Op.rev ≤ n.o ∧ n.o ≤ Op.tan
  · rw [if_pos c7] at h ⊢
    cases ha with
    | nil => cases h
    | cons h1 h2 =>
      dsimp only at h ⊢
      by_cases d1 : n.o = Op.rev
      · rw [if_pos d1] at h ⊢; exact push_sim hi ht h2 (fun hb => H.rev h1 hb) h
      rw [if_neg d1] at h ⊢
      by_cases d2 : n.o = Op.pd
      · rw [if_pos d2] at h ⊢; exact push_sim hi ht h2 (fun hb => H.pd h1 hb) h
      rw [if_neg d2] at h ⊢
      by_cases d3 : n.o = Op.comp
      · rw [if_pos d3] at h ⊢; exact push_sim hi ht h2 (fun hb => H.comp h1 hb) h
      rw [if_neg d3] at h ⊢
      by_cases d4 : n.o = Op.grd
      · rw [if_pos d4] at h ⊢; exact push_sim hi ht h2 (fun hb => H.grd h1 hb) h
      rw [if_neg d4] at h ⊢
      exact push_sim hi ht h2 (fun hb => H.fn h1 hb) h
  rw [if_neg c7] at h ⊢
  exact push_sim hi ht ha (fun hb => H.const hb) h

/-- **Related operations lead to related states.** -/
theorem runNodes_sim : ∀ (fuel : Nat) (ns : List Node) {s : RState α} {t t' : RState β}, SimState R0 R s t → runNodes N fuel ns t = ok t' →
    ∃ s', runNodes M fuel ns s = ok s' ∧ SimState R0 R s' t'
  | _, [], s, t, t', hs, h => by
    rw [runNodes.eq_1, ok_inj] at h
    subst h
    exact ⟨s, by rw [runNodes.eq_1], hs⟩
  | 0, _ :: _, s, t, t', hs, h => by
    rw [runNodes] at h
    cases h
  | fuel + 1, n :: ns, s, t, t', hs, h => by
    rw [runNodes] at h ⊢
    by_cases c1 : n.o = Op.se
    · rw [if_pos c1] at h ⊢
      by_cases c2 : ns.length < n.ex
      · rw [if_pos c2] at h; cases h
      rw [if_neg c2] at h ⊢
      rw [bind_eq_ok] at h
      obtain ⟨u, hu, h⟩ := h
      rw [bind_eq_ok] at h
      obtain ⟨b, hb, h⟩ := h
      obtain ⟨u', hu', hr⟩ := runNodes_sim fuel _ (s := { s with args := [] }) (t := { t with args := [] }) ⟨hs.inputs, hs.temps, .nil, hs.nextId⟩ hu
      have hv : ∃ a, seValue M n u'.args = ok a ∧ R a b := by
        have := hr.args
        revert this hb
        cases u.args with
        | nil => intro h; cases h
        | cons y ys =>
          intro hb hr
          revert hr
          cases u'.args with
          | nil => intro hr; cases hr
          | cons x xs =>
            intro hr
            have hr := (List.forall₂_cons.mp hr).1
            unfold seValue at hb ⊢
            dsimp only at hb ⊢
            by_cases c3 : n.q.num ≠ 0
            · rw [if_pos c3] at hb ⊢; exact H.scale hr hb
            · rw [if_neg c3, ok_inj] at hb
              subst hb
              exact ⟨x, by rw [if_neg c3], hr⟩
      obtain ⟨a, ha, hab⟩ := hv
      rw [hu', ok_bind, ha, ok_bind]
      exact runNodes_sim fuel _ (t := ⟨u.inputs, u.temps, b :: t.args, t.nextId⟩) ⟨hr.inputs, hr.temps, .cons hab hs.args, hs.nextId⟩ h
    · rw [if_neg c1] at h ⊢
      rw [bind_eq_ok] at h
      obtain ⟨u, hu, h⟩ := h
      obtain ⟨u', hu', hr⟩ := stepNode_sim H hs hu
      rw [hu', ok_bind]
      exact runNodes_sim fuel ns hr h

end Sim

/-! ## The instance -/

theorem fold_sim {f : Mv → Mv → Out Mv} {g : NMv → NMv → Out NMv}
    (hfg : ∀ {a b c d b'}, Lay a b → Lay c d → g b d = ok b' → ∃ a', f a c = ok a' ∧ Lay a' b') :
    ∀ {as bs b'}, List.Forall₂ Lay as bs → foldArgsN g bs = ok b' → ∃ a', foldArgs f as = ok a' ∧ Lay a' b'
  | _, _, _, .nil, h => by cases h
  | _, _, _, .cons h1 .nil, h => by
    rw [foldArgsN, ok_inj] at h
    subst h
    exact ⟨_, rfl, h1⟩
  | _, _, _, .cons h1 (.cons h2 h3), h => by
    rw [foldArgsN, bind_eq_ok] at h
    obtain ⟨r, hr, h⟩ := h
    obtain ⟨x, hx, hl⟩ := fold_sim hfg (.cons h2 h3) hr
    rw [foldArgs, hx, ok_bind]
    exact hfg h1 hl h

theorem shrink_sim {x : Out Mv} {b : NMv} (h : ∃ a, x = ok a ∧ Lay a b) : ∃ a, (do let r ← x; shrink r) = ok a ∧ Lay a b := by
  obtain ⟨a, rfl, c, hc, rfl⟩ := h
  rw [ok_bind]
  exact lay_shrink hc

theorem product_sim (P : Nat → Nat → Nat × Int) {a : Mv} {b : NMv} {c : Mv} {d b' : NMv} (h1 : Lay a b) (h2 : Lay c d) (h : productN P b d = ok b') :
    ∃ a', product P a c = ok a' ∧ Lay a' b' := by
  obtain ⟨k1, k2⟩ := lay_map (product_refines P h1.rep h2.rep) (productN_fits h1.rep.2 h2.rep.2) h
  exact ⟨_, k1, _, k2, rfl⟩

theorem sum_sim {a : Mv} {b : NMv} {c : Mv} {d b' : NMv} (h1 : Lay a b) (h2 : Lay c d) (h : sumN b d = ok b') :
    ∃ a', sum a c = ok a' ∧ Lay a' b' := by
  obtain ⟨k1, k2⟩ := lay_map (sum_refines h1.rep h2.rep) (sumN_fits h1.rep.2 h2.rep.2) h
  exact ⟨_, k1, _, k2, rfl⟩

/-- **The operations on nested multivectors follow those on arrays.** -/
theorem nestOps_sim (m : Metric) : SimOps Represents Lay (mvOps m true) (nestOps m) where
  input {a b b'} h hb := by
    obtain ⟨k1, k2⟩ := lay_map (toNaturalBasis_refines m.dim h) (toNaturalN_fits m.dim h.2) hb
    exact ⟨_, k1, _, k2, rfl⟩
  ref {a b b' id} h hb := by cases hb
  size {a b} h := by
    obtain ⟨c, h1, rfl⟩ := h
    rfl
  const {o b'} hb := by
    have hb' : constN o = ok b' := hb
    unfold constN at hb'
    split at hb'
    · cases hb'
    · rename_i hc
      rw [ok_inj] at hb'
      subst hb'
      have e1 : o ≠ Op.czero := by unfold Op.czero; unfold Op.cscalar at hc; omega
      have e2 : ¬ o < Op.czero := by unfold Op.czero; unfold Op.cscalar at hc; omega
      have e3 : ¬ o < Op.cend := by unfold Op.cend; unfold Op.cscalar at hc; omega
      refine ⟨basisMv (o - Op.cscalar) 1 1, ?_, ⟨0, 1, 1⟩, ?_, basisMv_layout _ _ _⟩
      · show constMv o = _
        unfold constMv
        rw [if_neg e1, if_neg e2, if_neg e3, if_neg hc]
        rfl
      · exact ⟨le_refl _, le_refl _, le_refl _⟩
  scale {a b b' q} h hb := by
    obtain ⟨c, h1, rfl⟩ := h
    obtain ⟨k1, k2⟩ := lay_map (scale_layout h1.m q) (mapO_fits (fun t => mapQ_size' _ t) h1) hb
    exact ⟨_, k1, _, k2, rfl⟩
  rev {a b b'} h hb := by
    obtain ⟨c, h1, rfl⟩ := h
    obtain ⟨k1, k2⟩ := lay_map (reverse_layout h1.t) (mapO_fits (fun t => reverseTermN_size t) h1) hb
    exact ⟨_, k1, _, k2, rfl⟩
  pd {a b b'} h hb := by
    obtain ⟨k1, k2⟩ := lay_map (poincareDual_refines m.dim h.rep) (dualN_fits h.rep.2) hb
    exact ⟨_, k1, _, k2, rfl⟩
  sums h hb := shrink_sim (fold_sim sum_sim h hb)
  eps h hb := shrink_sim (fold_sim (product_sim _) h hb)
  gp h1 h2 hb := shrink_sim (product_sim _ h1 h2 hb)
  lc h1 h2 hb := shrink_sim (product_sim _ h1 h2 hb)
  sip h1 h2 hb := shrink_sim (product_sim _ h1 h2 hb)
  div _ _ hb := by cases hb
  fn _ hb := by cases hb
  comp {a b b' e} h hb := by
    obtain ⟨k1, k2⟩ := lay_map (component_refines e h.rep) (componentN_fits h.rep.2) hb
    exact shrink_sim ⟨_, k1, _, k2, rfl⟩
  grd {a b b' g} h hb := by
    have hb' : ok (selectGradeN g b) = ok b' := hb
    rw [ok_inj] at hb'
    subst hb'
    exact shrink_sim ⟨_, selectGrade_refines g h.rep, _, h.rep.2.sublist (selectGradeN_sublist g b), rfl⟩

/-! ## Polynomials -/

/-- The nested multivector of an input. -/
def inputView (a : Mv) : Out NMv := do
  let n ← a.view
  if nInds n ≤ a.caps.i ∧ nMons n ≤ a.caps.m ∧ n.length ≤ a.caps.t then ok n else .ub

theorem inputView_ok {a : Mv} {n : NMv} (h : inputView a = ok n) : Represents a n := by
  unfold inputView at h
  rw [bind_eq_ok] at h
  obtain ⟨n', h1, h2⟩ := h
  split at h2
  · rename_i hc
    rw [ok_inj] at h2
    subst h2
    exact ⟨h1, ⟨hc.1, hc.2.1, hc.2.2⟩⟩
  · cases h2

theorem inputViews_ok : ∀ {as : List Mv} {ns : List NMv}, mapO inputView as = ok ns → List.Forall₂ Represents as ns
  | [], ns, h => by
    rw [mapO, ok_inj] at h
    subst h
    exact .nil
  | a :: as, ns, h => by
    simp only [mapO, bind_eq_ok, pure_eq, ok_inj] at h
    obtain ⟨n, hn, ns', h', rfl⟩ := h
    exact .cons (inputView_ok hn) (inputViews_ok h')

/-- What is read from the evaluation on nested multivectors. -/
def nestView (m : Metric) (q : Rat32) (s : RState NMv) : Out (MvOp × NMv × Nat × Rat32) :=
  match s.temps, s.args with
  | [], [a] => do
    let n ← toNullN m.dim a
    return (.id, n, s.nextId, q)
  | _, _ => .ub

/-- The polynomials of a lambda, computed on nested multivectors. -/
def Lam.nestPolys {L : Type} (m : Metric) (args : List (Arg L)) (f : Lam) : Option (Rat32 × List (Nat × List RatMono)) :=
  if args.isEmpty then none else readOutView (argsSize args) (do
    let e ← f.build (argOffset args)
    let r ← reshape f.cap e
    let ins ← mapO inputView (gatherInputs (argMv args) r.nodes)
    let s ← runNodes (nestOps m) r.nodes.length r.nodes ⟨ins, [], [], argsSize args⟩
    nestView m r.q s)

/-- **The evaluation on nested multivectors gives the polynomials.** -/
theorem nestPolys_ratPolys {L : Type} {m : Metric} {args : List (Arg L)} {f : Lam} {x : Rat32 × List (Nat × List RatMono)}
    (h : f.nestPolys m args = some x) : f.ratPolys m true args = some x := by
  unfold Lam.nestPolys at h
  unfold Lam.ratPolys
  by_cases hne : args.isEmpty = true
  · rw [if_pos hne] at h
    cases h
  rw [if_neg hne] at h
  have key : ∀ y, (do
      let e ← f.build (argOffset args)
      let r ← reshape f.cap e
      let ins ← mapO inputView (gatherInputs (argMv args) r.nodes)
      let s ← runNodes (nestOps m) r.nodes.length r.nodes ⟨ins, [], [], argsSize args⟩
      nestView m r.q s) = ok y → (do
      let e ← f.build (argOffset args)
      let c ← compileExpr m true f.cap args e
      c.outView (nullDim m true)) = ok y := by
    intro y hy
    simp only [bind_eq_ok] at hy
    obtain ⟨e, he, r, hr, ins, hi, s, hs, hy⟩ := hy
    rw [he, ok_bind]
    unfold compileExpr
    rw [if_neg hne, hr, ok_bind]
    obtain ⟨s', hs', hrel⟩ := runNodes_sim (nestOps_sim m) _ _ (s := ⟨gatherInputs (argMv args) r.nodes, [], [], argsSize args⟩)
      ⟨inputViews_ok hi, .nil, .nil, rfl⟩ hs
    rw [hs', ok_bind, pure_eq, ok_bind]
    unfold nestView at hy
    obtain ⟨si, st, sa, sn⟩ := s
    obtain ⟨ti, tt, ta, tn⟩ := s'
    obtain ⟨k1, k2, k3, k4⟩ := hrel
    dsimp only at k1 k2 k3 k4 hy
    subst k4
    unfold Compiled.outView
    dsimp only
    cases k2 with
    | cons _ _ => cases hy
    | nil =>
      cases k3 with
      | nil => cases hy
      | cons p1 p2 =>
        cases p2 with
        | cons _ _ => cases hy
        | nil =>
          dsimp only at hy ⊢
          rw [bind_eq_ok] at hy
          obtain ⟨n, hn, hy⟩ := hy
          obtain ⟨q1, q2⟩ := lay_map (toNullBasis_refines m.dim p1.rep) (toNullN_fits m.dim p1.rep.2) hn
          have : toOutput (nullDim m true) _ = ok _ := q1
          rw [this, ok_bind, view_layout q2, ok_bind]
          exact hy
  generalize hz : (do
      let e ← f.build (argOffset args)
      let r ← reshape f.cap e
      let ins ← mapO inputView (gatherInputs (argMv args) r.nodes)
      let s ← runNodes (nestOps m) r.nodes.length r.nodes ⟨ins, [], [], argsSize args⟩
      nestView m r.q s) = z at h key
  rcases z with _ | ⟨y, l⟩
  · cases h
  · cases l
    · rw [key y rfl]
      exact h
    · unfold readOutView at h
      simp at h

end Gal
