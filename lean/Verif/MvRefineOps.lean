import Verif.MvRefineCollate

/-!
# The array level refines the nested level: unary operations, selection, change of basis
-/

namespace Gal

open Out

theorem rel_layout {c : Caps} (y : Out NMv) : Rel (fun m n => m = layout c n) (layout c <$> y) y := by
  cases y with
  | ub => exact Rel.ub
  | val v l =>
    show Rel _ (Out.bind (Out.val v l) (fun b => Out.ok (layout c b))) _
    simp only [Out.bind, Out.ok, Bool.or_false]
    exact Rel.val rfl

/-! ## Sizes are unchanged by coefficient maps -/

theorem mapQ_mons_size (f : Rat32 → Out Rat32) (ms : List NMon) :
    All (fun o => o.length = ms.length ∧ nIndsM o = nIndsM ms ∧ indsOf o = indsOf ms) (mapO (NMon.mapQ f) ms) := by
  induction ms with
  | nil => exact All.ok (by simp)
  | cons m ms ih =>
    unfold mapO NMon.mapQ
    rw [bind_assoc]
    refine All.bind' fun q => ?_
    rw [pure_eq, ok_bind]
    exact All.bind ih fun o ho => All.ok (by simp; exact ho)

theorem mapQ_size (f : Rat32 → Out Rat32) (t : NTerm) :
    All (fun o => o.element = t.element ∧ o.mons.length = t.mons.length ∧ nIndsM o.mons = nIndsM t.mons)
      (t.mapQ f) := by
  unfold NTerm.mapQ
  exact All.bind (mapQ_mons_size f t.mons) fun ms h => All.ok ⟨rfl, h.1, h.2.1⟩

theorem pushTermN_size (t : NTerm) (s : Rat32) (e : Nat) :
    All (fun o => o.mons.length = t.mons.length ∧ nIndsM o.mons = nIndsM t.mons) (pushTermN t s e) := by
  unfold pushTermN
  exact All.bind (mapQ_size _ t) fun u h => All.ok h.2

/-! ## Poincaré dual -/

theorem dualTermN_size (dim : Nat) (t : NTerm) :
    All (fun o => o.mons.length = t.mons.length ∧ nIndsM o.mons = nIndsM t.mons) (dualTermN dim t) := by
  unfold dualTermN
  exact All.bind (mapQ_size _ t) fun u h => All.ok h.2

theorem mapO_size {f : NTerm → Out NTerm}
    (hf : ∀ t, All (fun o => o.mons.length = t.mons.length ∧ nIndsM o.mons = nIndsM t.mons) (f t)) (a : NMv) :
    All (fun o => o.length = a.length ∧ nMons o = nMons a ∧ nInds o = nInds a) (mapO f a) := by
  induction a with
  | nil => exact All.ok (by simp)
  | cons t ts ih =>
    unfold mapO
    refine All.bind (hf t) fun u hu => All.bind ih fun o ho => All.ok ?_
    simp; omega

theorem mapO_fits {f : NTerm → Out NTerm}
    (hf : ∀ t, All (fun o => o.mons.length = t.mons.length ∧ nIndsM o.mons = nIndsM t.mons) (f t)) {a : NMv} {c : Caps}
    (h : Fits c a) : All (Fits c) (mapO f a) :=
  (mapO_size hf a).mono fun o ⟨h1, h2, h3⟩ => ⟨h3 ▸ h.i, h2 ▸ h.m, h1 ▸ h.t⟩

theorem dualTerms_rel (dim : Nat) (a : NMv) : ∀ {b : Bld}, RoomT b (nInds a) (nMons a) a.length →
    Rel (fun b' o => b' = b.add o) (dualTerms dim b a) (mapO (dualTermN dim) a) := by
  induction a with
  | nil => intro b h; exact Rel.ok (by simp)
  | cons t ts ih =>
    intro b h
    obtain ⟨⟨h1, h2⟩, h3⟩ := h
    simp only [List.length_cons, nInds_cons, nMons_cons] at h1 h2 h3
    unfold dualTerms mapO dualTermN
    generalize poincareComplement t.element dim = p
    obtain ⟨g, k⟩ := p
    simp only [bind_assoc]
    refine Rel.bind ((Rel.eq _).and_all (mapQ_size _ t)) fun u u' hu => ?_
    obtain ⟨rfl, -, hu1, hu2⟩ := hu
    rw [pure_eq, ok_bind, copyTerm_ok ⟨⟨by simp only; omega, by simp only; omega⟩, by omega⟩, ok_bind]
    exact add_step (ih ⟨⟨by simp; omega, by simp; omega⟩, by simp; omega⟩)

/-- `poincare_dual` is the nested dual in packed form. -/
theorem poincareDual_refines (dim : Nat) {a : Mv} {na : NMv} (ha : Represents a na) :
    poincareDual dim a = layout a.caps <$> dualN dim na := by
  apply Rel.map_eq
  unfold poincareDual dualN
  rw [ha.1, ok_bind]
  have h := dualTerms_rel dim na (b := Bld.empty a.caps)
    ⟨⟨by simpa [Bld.empty] using ha.2.i, by simpa [Bld.empty] using ha.2.m⟩, by simpa [Bld.empty] using ha.2.t⟩
  refine Rel.bind (h.and_all (mapO_fits (dualTermN_size dim) ha.2)) fun tmp ns hn => ?_
  obtain ⟨rfl, hf⟩ := hn
  rw [sortCollate_refines hf hf]
  exact rel_layout _

theorem dualN_fits {dim : Nat} {c : Caps} {na : NMv} (h : Fits c na) : All (Fits c) (dualN dim na) :=
  All.bind (mapO_fits (dualTermN_size dim) h) fun _ h => sortCollateN_fits h

/-! ## Selection -/

theorem push_rel {b : Bld} {t : NTerm} {s : Rat32} {e : Nat} (h : RoomT b (nIndsM t.mons) t.mons.length 1) :
    Rel (fun b' u => b' = b.add [u] ∧ u.mons.length = t.mons.length ∧ nIndsM u.mons = nIndsM t.mons)
      (push b t s e) (pushTermN t s e) := by
  unfold push pushTermN
  refine Rel.bind ((Rel.eq _).and_all (mapQ_size _ t)) fun u u' hu => ?_
  obtain ⟨rfl, hu1, hu2, hu3⟩ := hu
  obtain ⟨⟨h1, h2⟩, h3⟩ := h
  rw [copyTermLast_ok ⟨⟨by simp only; omega, by simp only; omega⟩, h3⟩]
  exact Rel.ok ⟨rfl, hu2, hu3⟩

theorem componentLoop_rel (e : Nat) (a : NMv) {b : Bld} (h : RoomT b (nInds a) (nMons a) 1) :
    Rel (fun b' o => b' = b.add o) (componentLoop b e a) (componentN e a) := by
  induction a with
  | nil => exact Rel.ok (by simp)
  | cons t ts ih =>
    obtain ⟨⟨h1, h2⟩, h3⟩ := h
    simp only [nInds_cons, nMons_cons] at h1 h2
    unfold componentLoop componentN
    split
    · exact Rel.map_right (push_rel ⟨⟨by omega, by omega⟩, by omega⟩) fun b' u hu => Rel.ok hu.1
    · exact ih ⟨⟨by omega, by omega⟩, by omega⟩

/-- `operator[]` and `component` write a packed scalar. -/
theorem component_refines (e : Nat) {a : Mv} {na : NMv} (ha : Represents a na) :
    component a e = layout ⟨a.caps.i, a.caps.m, 1⟩ <$> componentN e na := by
  apply Rel.map_eq
  unfold component
  rw [ha.1, ok_bind]
  have h := componentLoop_rel e na (b := Bld.empty ⟨a.caps.i, a.caps.m, 1⟩)
    ⟨⟨by simpa [Bld.empty] using ha.2.i, by simpa [Bld.empty] using ha.2.m⟩, by simp [Bld.empty]⟩
  exact Rel.map_left h (fun b' out e => Rel.ok (by rw [e, Bld.finish_add]))

theorem selectLoop_ok (grade : Nat) (a : NMv) : ∀ {b : Bld}, RoomT b (nInds a) (nMons a) a.length →
    selectLoop grade b a = ok (b.add (selectGradeN grade a)) := by
  induction a with
  | nil => intro b h; simp [selectLoop, selectGradeN]
  | cons t ts ih =>
    intro b h
    obtain ⟨⟨h1, h2⟩, h3⟩ := h
    simp only [List.length_cons, nInds_cons, nMons_cons] at h1 h2 h3
    unfold selectLoop selectGradeN
    split
    · simp
    · split
      · exact ih ⟨⟨by omega, by omega⟩, by omega⟩
      · rw [copyTerm_ok ⟨⟨by omega, by omega⟩, by omega⟩, ok_bind,
          ih ⟨⟨by simp; omega, by simp; omega⟩, by simp; omega⟩, ← Bld.add_cons]

/-- `select_grade` writes packed arrays. -/
theorem selectGrade_refines (grade : Nat) {a : Mv} {na : NMv} (ha : Represents a na) :
    selectGrade a grade = ok (layout a.caps (selectGradeN grade na)) := by
  unfold selectGrade
  rw [ha.1, ok_bind, selectLoop_ok grade na (b := Bld.empty a.caps)
    ⟨⟨by simpa [Bld.empty] using ha.2.i, by simpa [Bld.empty] using ha.2.m⟩, by simpa [Bld.empty] using ha.2.t⟩,
    ok_bind, Bld.finish_add]
  rfl

/-- How many of the requested elements can still be found. -/
def Pending (a : NMv) (es : List Nat) (r : Nat) : Prop :=
  r = es.length ∨ ∃ e es', es = e :: es' ∧ r = es'.length ∧ ∀ t ∈ a, e < t.element

theorem extractLoop_rel (fuel : Nat) : ∀ {b : Bld} {a : NMv} {es : List Nat} {r : Nat},
    a.Pairwise (fun x y => x.element < y.element) → Pending a es r → RoomT b (nInds a) (nMons a) r →
    Rel (fun b' o => b' = b.add o ∧ o.length ≤ r ∧ nMons o ≤ nMons a ∧ nInds o ≤ nInds a)
      (extractLoop fuel b a es) (extractN fuel a es) := by
  induction fuel with
  | zero => intro b a es r hp hq h; exact Rel.ok (by simp)
  | succ fuel ih =>
    intro b a es r hp hq h
    cases es with
    | nil => exact Rel.ok (by simp)
    | cons e es =>
      cases a with
      | nil => exact Rel.ok (by simp)
      | cons t ts =>
        obtain ⟨⟨h1, h2⟩, h3⟩ := h
        have hr : es.length ≤ r := by
          rcases hq with hq | ⟨e', es', h, hr, -⟩
          · simp at hq; omega
          · cases h; omega
        unfold extractLoop extractN
        split
        · refine (ih (r := es.length) hp (.inl rfl) ⟨⟨h1, h2⟩, by omega⟩).mono fun b' o ho => ?_
          exact ⟨ho.1, by omega, ho.2.2⟩
        · rename_i hgt
          have hq : r = es.length + 1 := by
            rcases hq with hq | ⟨e', es', h, hr, hall⟩
            · simpa using hq
            · cases h
              exact absurd (hall t (List.mem_cons_self ..)) (by omega)
          simp only [nInds_cons, nMons_cons] at h1 h2
          obtain ⟨hp1, hp2⟩ := List.pairwise_cons.1 hp
          split
          · refine (ih (r := r) hp2 (.inl (by simpa using hq)) ⟨⟨by omega, by omega⟩, by omega⟩).mono fun b' o ho => ?_
            exact ⟨ho.1, ho.2.1, by simp; omega, by simp; omega⟩
          · refine Rel.bind (push_rel ⟨⟨by omega, by omega⟩, by omega⟩) fun b' u hu => ?_
            obtain ⟨rfl, hu1, hu2⟩ := hu
            refine Rel.map_right (ih (b := b.add [u]) (a := ts) (es := e :: es) (r := es.length) hp2
              (.inr ⟨e, es, rfl, rfl, fun t' ht' => ?_⟩) ⟨⟨by simp; omega, by simp; omega⟩, by simp; omega⟩)
              fun b' o ho => Rel.ok ⟨by rw [Bld.add_cons]; exact ho.1, by simp; omega, by simp; omega, by simp; omega⟩
            have := hp1 t' ht'
            omega

/-- `extract` writes packed arrays when the operand's elements are strictly ascending. -/
theorem extract_refines (es : List Nat) {a : Mv} {na : NMv} (ha : Represents a na)
    (hp : na.Pairwise (fun x y => x.element < y.element)) :
    extract a es = layout ⟨a.caps.i, a.caps.m, es.length⟩ <$> extractN (na.length + es.length) na es := by
  apply Rel.map_eq
  unfold extract
  rw [ha.1, ok_bind]
  have h := extractLoop_rel (na.length + es.length) (b := Bld.empty ⟨a.caps.i, a.caps.m, es.length⟩) (es := es) hp
    (.inl rfl) ⟨⟨by simpa [Bld.empty] using ha.2.i, by simpa [Bld.empty] using ha.2.m⟩, by simp [Bld.empty]⟩
  exact Rel.map_left h (fun b' out e => Rel.ok (by rw [e.1, Bld.finish_add]))

/-! ## Shift -/

theorem layout_single (q : Rat32) (e : Nat) :
    layout ⟨0, 1, 1⟩ [⟨e, [⟨q, Rat32.zero, []⟩]⟩] =
      ⟨⟨0, 1, 1⟩, 0, 1, 1, [], [⟨q, Rat32.zero, 0, 0⟩], [⟨1, 0, e⟩], .id⟩ := by
  simp [layout, layMons, layTerms]

theorem single_fits (q : Rat32) (e : Nat) : Fits ⟨0, 1, 1⟩ [⟨e, [⟨q, Rat32.zero, []⟩]⟩] := ⟨by simp, by simp, by simp⟩

/-- `e<A, G, N, D>` is a packed constant. -/
theorem basisMv_layout (g : Nat) (n d : Int) : basisMv g n d = layout ⟨0, 1, 1⟩ [⟨g, [⟨⟨n, d⟩, Rat32.zero, []⟩]⟩] :=
  (layout_single _ _).symm

/-- `shift` is the nested shift in packed form. -/
theorem shift_refines (q : Rat32) {a : Mv} {na : NMv} (ha : Represents a na) :
    shift q a = layout (sumCaps a.caps ⟨0, 1, 1⟩) <$> shiftN q na := by
  unfold shift shiftN
  rw [← layout_single, sum_refines ha (represents_layout (single_fits q 0))]
  rfl

/-! ## Change of basis -/

/-- Both halves of a basis conversion loop. -/
def NullRel (l t : Bld) (a : NMv) (r : Bld × Bld) (o : NMv × NMv) : Prop :=
  r.1 = l.add o.1 ∧ r.2 = t.add o.2 ∧ o.1.length ≤ a.length ∧ nMons o.1 ≤ nMons a ∧ nInds o.1 ≤ nInds a ∧
    o.2.length ≤ 2 * a.length ∧ nMons o.2 ≤ 2 * nMons a ∧ nInds o.2 ≤ 2 * nInds a

theorem null_left {l t : Bld} {x : NTerm} {ts : NMv} {s : Rat32} {e : Nat} {F : Bld → Bld → Out (Bld × Bld)}
    {G : Out (NMv × NMv)} (hl : RoomT l (nInds (x :: ts)) (nMons (x :: ts)) (x :: ts).length)
    (ht : RoomT t (2 * nInds (x :: ts)) (2 * nMons (x :: ts)) (2 * (x :: ts).length))
    (ih : ∀ {l t : Bld}, RoomT l (nInds ts) (nMons ts) ts.length → RoomT t (2 * nInds ts) (2 * nMons ts) (2 * ts.length) →
      Rel (NullRel l t ts) (F l t) G) :
    Rel (NullRel l t (x :: ts)) (push l x s e >>= fun l => F l t)
      (pushTermN x s e >>= fun u => G >>= fun o => pure (u :: o.1, o.2)) := by
  obtain ⟨⟨h1, h2⟩, h3⟩ := hl
  obtain ⟨⟨k1, k2⟩, k3⟩ := ht
  simp only [List.length_cons, nInds_cons, nMons_cons] at h1 h2 h3 k1 k2 k3
  refine Rel.bind (push_rel ⟨⟨by omega, by omega⟩, by omega⟩) fun b' u hu => ?_
  obtain ⟨rfl, hu1, hu2⟩ := hu
  refine Rel.map_right (ih (l := l.add [u]) (t := t) ⟨⟨by simp; omega, by simp; omega⟩, by simp; omega⟩
    ⟨⟨by omega, by omega⟩, by omega⟩) fun r o ⟨e1, e2, e3⟩ => Rel.ok ⟨?_, e2, ?_⟩
  · rw [Bld.add_cons]; exact e1
  · simp; omega

theorem null_right {l t : Bld} {x : NTerm} {ts : NMv} {s s' : Rat32} {e e' : Nat} {F : Bld → Bld → Out (Bld × Bld)}
    {G : Out (NMv × NMv)} (hl : RoomT l (nInds (x :: ts)) (nMons (x :: ts)) (x :: ts).length)
    (ht : RoomT t (2 * nInds (x :: ts)) (2 * nMons (x :: ts)) (2 * (x :: ts).length))
    (ih : ∀ {l t : Bld}, RoomT l (nInds ts) (nMons ts) ts.length → RoomT t (2 * nInds ts) (2 * nMons ts) (2 * ts.length) →
      Rel (NullRel l t ts) (F l t) G) :
    Rel (NullRel l t (x :: ts)) (push t x s e >>= fun t => push t x s' e' >>= fun t => F l t)
      (pushTermN x s e >>= fun u => pushTermN x s' e' >>= fun v => G >>= fun o => pure (o.1, u :: v :: o.2)) := by
  obtain ⟨⟨h1, h2⟩, h3⟩ := hl
  obtain ⟨⟨k1, k2⟩, k3⟩ := ht
  simp only [List.length_cons, nInds_cons, nMons_cons] at h1 h2 h3 k1 k2 k3
  refine Rel.bind (push_rel ⟨⟨by omega, by omega⟩, by omega⟩) fun b' u hu => ?_
  obtain ⟨rfl, hu1, hu2⟩ := hu
  refine Rel.bind (push_rel ⟨⟨by simp; omega, by simp; omega⟩, by simp; omega⟩) fun b' v hv => ?_
  obtain ⟨rfl, hv1, hv2⟩ := hv
  refine Rel.map_right (ih (l := l) (t := (t.add [u]).add [v]) ⟨⟨by omega, by omega⟩, by omega⟩
    ⟨⟨by simp; omega, by simp; omega⟩, by simp; omega⟩) fun r o ⟨e1, e2, e3⟩ => Rel.ok ⟨e1, ?_, ?_⟩
  · rw [Bld.add_cons, Bld.add_cons]; exact e2
  · simp; omega

theorem toNullLoop_rel (dim : Nat) (a : NMv) : ∀ {l t : Bld}, RoomT l (nInds a) (nMons a) a.length →
    RoomT t (2 * nInds a) (2 * nMons a) (2 * a.length) →
    Rel (NullRel l t a) (toNullLoop dim l t a) (toNullLoopN dim a) := by
  induction a with
  | nil => intro l t _ _; exact Rel.ok ⟨by simp, by simp, by simp⟩
  | cons x ts ih =>
    intro l t hl ht
    unfold toNullLoop toNullLoopN
    simp only
    split
    · split
      · exact null_left hl ht ih
      · split
        · exact null_right hl ht ih
        · exact null_right hl ht ih
    · exact null_left hl ht ih

theorem toNaturalLoop_rel (dim : Nat) (a : NMv) : ∀ {l t : Bld}, RoomT l (nInds a) (nMons a) a.length →
    RoomT t (2 * nInds a) (2 * nMons a) (2 * a.length) →
    Rel (NullRel l t a) (toNaturalLoop dim l t a) (toNaturalLoopN dim a) := by
  induction a with
  | nil => intro l t _ _; exact Rel.ok ⟨by simp, by simp, by simp⟩
  | cons x ts ih =>
    intro l t hl ht
    unfold toNaturalLoop toNaturalLoopN
    simp only
    split
    · split
      · exact null_left hl ht ih
      · split
        · exact null_right hl ht ih
        · exact null_right hl ht ih
    · exact null_left hl ht ih

/-- Capacities of the result of a basis conversion. -/
abbrev nullCaps (c : Caps) : Caps := sumCaps c c.double

theorem null_tail {a : Mv} {na : NMv} (ha : Represents a na) {X : Out (Bld × Bld)} {Y : Out (NMv × NMv)}
    (h : Rel (NullRel (Bld.empty a.caps) (Bld.empty a.caps.double) na) X Y) :
    Rel (fun m n => m = layout (nullCaps a.caps) n)
      (X >>= fun p => sortCollate p.2 a.caps.double >>= fun rhs => sum p.1.finish rhs)
      (Y >>= fun o => sortCollateN o.2 >>= fun r => sumN o.1 r) := by
  have f1 := ha.2.i
  have f2 := ha.2.m
  have f3 := ha.2.t
  refine Rel.bind h fun p o ⟨e1, e2, s1, s2, s3, s4, s5, s6⟩ => ?_
  have ft : Fits a.caps.double o.2 := ⟨by simp [Caps.double]; omega, by simp [Caps.double]; omega, by simp [Caps.double]; omega⟩
  have fl : Fits a.caps o.1 := ⟨by omega, by omega, by omega⟩
  rw [e1, e2, sortCollate_refines ft ft]
  refine Rel.bind ((rel_layout _).and_all (sortCollateN_fits ft)) fun rhs r hr => ?_
  obtain ⟨rfl, fr⟩ := hr
  rw [Bld.finish_add, sum_refines (represents_layout fl) (represents_layout fr)]
  exact rel_layout _

/-- `to_null_basis` is the nested conversion in packed form. -/
theorem toNullBasis_refines (dim : Nat) {a : Mv} {na : NMv} (ha : Represents a na) :
    toNullBasis dim a = layout (nullCaps a.caps) <$> toNullN dim na := by
  apply Rel.map_eq
  unfold toNullBasis toNullN
  rw [ha.1, ok_bind]
  exact null_tail ha (toNullLoop_rel dim na
    ⟨⟨by simpa [Bld.empty] using ha.2.i, by simpa [Bld.empty] using ha.2.m⟩, by simpa [Bld.empty] using ha.2.t⟩
    ⟨⟨by simpa [Bld.empty, Caps.double] using ha.2.i, by simpa [Bld.empty, Caps.double] using ha.2.m⟩,
      by simpa [Bld.empty, Caps.double] using ha.2.t⟩)

/-- `to_natural_basis` is the nested conversion in packed form. -/
theorem toNaturalBasis_refines (dim : Nat) {a : Mv} {na : NMv} (ha : Represents a na) :
    toNaturalBasis dim a = layout (nullCaps a.caps) <$> toNaturalN dim na := by
  apply Rel.map_eq
  unfold toNaturalBasis toNaturalN
  rw [ha.1, ok_bind]
  exact null_tail ha (toNaturalLoop_rel dim na
    ⟨⟨by simpa [Bld.empty] using ha.2.i, by simpa [Bld.empty] using ha.2.m⟩, by simpa [Bld.empty] using ha.2.t⟩
    ⟨⟨by simpa [Bld.empty, Caps.double] using ha.2.i, by simpa [Bld.empty, Caps.double] using ha.2.m⟩,
      by simpa [Bld.empty, Caps.double] using ha.2.t⟩)

/-! ## In-place updates of packed operands -/

theorem updQ_rel (g : Rat32 → Out Rat32) (ms : List NMon) : ∀ {pre post : List Mon} {o : Nat},
    Rel (fun mons ms' => mons = pre ++ (layMons o ms' ++ post) ∧ ms'.length = ms.length ∧ nIndsM ms' = nIndsM ms ∧
        indsOf ms' = indsOf ms)
      (updQ g (pre ++ (layMons o ms ++ post)) pre.length ms.length) (mapO (NMon.mapQ g) ms) := by
  induction ms with
  | nil => intro pre post o; exact Rel.ok (by simp [layMons])
  | cons m ms ih =>
    intro pre post o
    unfold mapO NMon.mapQ
    simp only [List.length_cons, layMons, List.cons_append, bind_assoc]
    unfold updQ
    have hg : getAt (pre ++ (⟨m.q, m.degree, m.inds.length, o⟩ :: (layMons (o + m.inds.length) ms ++ post))) pre.length
        = ok (⟨m.q, m.degree, m.inds.length, o⟩ : Mon) := by
      unfold getAt; simp
    rw [hg, ok_bind]
    refine Rel.bind (Rel.eq _) fun q q' e => ?_
    subst e
    rw [pure_eq, ok_bind]
    have hset : ∀ x : Mon, (pre ++ (⟨m.q, m.degree, m.inds.length, o⟩ :: (layMons (o + m.inds.length) ms ++ post))).set
        pre.length x = (pre ++ [x]) ++ (layMons (o + m.inds.length) ms ++ post) := by
      intro x
      rw [List.set_append_right _ _ (le_refl _)]
      simp
    rw [hset]
    have := ih (pre := pre ++ [⟨q, m.degree, m.inds.length, o⟩]) (post := post) (o := o + m.inds.length)
    rw [List.length_append, List.length_singleton] at this
    refine Rel.map_right this fun mons ms' ⟨h1, h2, h3, h4⟩ => Rel.ok ⟨?_, by simp [h2], by simp [h3], by simp [h4]⟩
    rw [h1]
    simp [layMons]

/-- Coefficient update of a term depending on its element. -/
def updTermN (f : Nat → Option (Rat32 → Out Rat32)) (t : NTerm) : Out NTerm :=
  match f t.element with
  | none => ok t
  | some g => t.mapQ g

theorem updTerms_rel {f : Term → Option (Rat32 → Out Rat32)} {f' : Nat → Option (Rat32 → Out Rat32)}
    (hf : ∀ t, f t = f' t.element) (a : NMv) : ∀ {pre : List Mon} {o : Nat},
    Rel (fun mons a' => mons = pre ++ layMons o (allMons a') ∧ layTerms pre.length a' = layTerms pre.length a ∧
        a'.length = a.length ∧ nMons a' = nMons a ∧ nInds a' = nInds a ∧ indsOf (allMons a') = indsOf (allMons a))
      (updTerms f (pre ++ layMons o (allMons a)) (layTerms pre.length a)) (mapO (updTermN f') a) := by
  induction a with
  | nil => intro pre o; exact Rel.ok (by simp [layMons])
  | cons t ts ih =>
    intro pre o
    simp only [allMons_cons, layMons_append, layTerms]
    unfold updTerms mapO updTermN
    simp only [hf]
    cases hft : f' t.element with
    | none =>
      simp only [ok_bind]
      have := ih (pre := pre ++ layMons o t.mons) (o := o + nIndsM t.mons)
      rw [List.length_append, layMons_length] at this
      rw [← List.append_assoc]
      refine Rel.map_right this fun mons a' ⟨h1, h2, h3, h4, h5, h6⟩ =>
        Rel.ok ⟨?_, by simp [layTerms, h2], by simp [h3], by simp [h4], by simp [h5], by simp [h6]⟩
      rw [h1]; simp [layMons_append]
    | some g =>
      simp only [NTerm.mapQ, bind_assoc]
      refine Rel.bind (updQ_rel g t.mons) fun mons ms' ⟨e1, e2, e3, e4⟩ => ?_
      rw [pure_eq, ok_bind, e1, ← List.append_assoc]
      have := ih (pre := pre ++ layMons o ms') (o := o + nIndsM t.mons)
      rw [List.length_append, layMons_length, e2] at this
      refine Rel.map_right this fun mons a' ⟨h1, h2, h3, h4, h5, h6⟩ =>
        Rel.ok ⟨?_, by simp [layTerms, h2, e2], by simp [h3], by simp [h4, e2], by simp [h5, e3], by simp [h6, e4]⟩
      rw [h1]; simp [layMons_append, e3]

theorem terms_layout {c : Caps} {n : NMv} (h : n.length ≤ c.t) :
    rdRange (layout c n).caps.t (layout c n).terms 0 (layout c n).szT = ok (layTerms 0 n) := by
  have h1 := rdRange_append (cap := c.t) (layTerms 0 n) (l := layTerms 0 n) (pre := []) (post := []) (by simp) rfl
    (by simpa using h)
  rw [layTerms_length] at h1
  exact h1

theorem updTerms_layout {f : Term → Option (Rat32 → Out Rat32)} {f' : Nat → Option (Rat32 → Out Rat32)}
    (hf : ∀ t, f t = f' t.element) {c : Caps} {n : NMv} :
    Rel (fun m n' => m = layout c n')
      (updTerms f (layout c n).mons (layTerms 0 n) >>= fun mons => pure { layout c n with mons := mons })
      (mapO (updTermN f') n) := by
  have := updTerms_rel hf n (pre := []) (o := 0)
  refine Rel.map_left this fun mons a' ⟨h1, h2, h3, h4, h5, h6⟩ => Rel.ok ?_
  rw [h1]
  simp only [List.length_nil] at h2
  simp [layout, h2, h3, h4, h5, h6]

/-- `negate` on a packed operand. -/
theorem negate_layout {c : Caps} {n : NMv} (h : n.length ≤ c.t) : negate (layout c n) = layout c <$> negateN n := by
  apply Rel.map_eq
  unfold negate
  rw [terms_layout h, ok_bind]
  exact updTerms_layout (f' := fun _ => some Rat32.neg) (fun _ => rfl)

theorem reverseTermN_eq (t : NTerm) : reverseTermN t =
    updTermN (fun e => if reverseNegates ⟨0, 0, e⟩ then some Rat32.neg else none) t := by
  unfold reverseTermN updTermN reverseNegates
  by_cases h : t.element = 0
  · simp [h]
  · simp only [if_neg h]
    by_cases hz : popCount t.element * (popCount t.element - 1) / 2 % 2 = 1
    · simp [h, hz]
    · simp [h, hz]

/-- `reverse` on a packed operand. -/
theorem reverse_layout {c : Caps} {n : NMv} (h : n.length ≤ c.t) : reverse (layout c n) = layout c <$> reverseN n := by
  apply Rel.map_eq
  unfold reverse reverseN
  rw [terms_layout h, ok_bind]
  have he : reverseTermN = updTermN (fun e => if reverseNegates ⟨0, 0, e⟩ then some Rat32.neg else none) :=
    funext reverseTermN_eq
  rw [he]
  exact updTerms_layout (f := fun t => if reverseNegates t then some Rat32.neg else none)
    (f' := fun e => if reverseNegates ⟨0, 0, e⟩ then some Rat32.neg else none) (fun t => rfl)

/-- `divide` by a constant on packed operands. -/
theorem divideConst_layout {c : Caps} {n : NMv} (h : n.length ≤ c.t) {b : Mv} {m : Mon} (hb : rd b.caps.m b.mons 0 = ok m)
    (q : Rat32) : divideConst (layout c n) b q = layout c <$> divConstN q m.q n := by
  apply Rel.map_eq
  unfold divideConst divConstN
  rw [hb, ok_bind, terms_layout h, ok_bind]
  exact updTerms_layout (f' := fun _ => some (fun x => do let y ← q.mul x; y.div m.q)) (fun _ => rfl)

theorem mapMons_rel (g : Rat32 → Out Rat32) (ms : List NMon) : ∀ {o : Nat},
    Rel (fun mons ms' => mons = layMons o ms' ∧ ms'.length = ms.length ∧ nIndsM ms' = nIndsM ms ∧ indsOf ms' = indsOf ms)
      (mapO (fun m : Mon => g m.q >>= fun q' => pure { m with q := q' }) (layMons o ms)) (mapO (NMon.mapQ g) ms) := by
  induction ms with
  | nil => intro o; exact Rel.ok (by simp [layMons])
  | cons m ms ih =>
    intro o
    simp only [layMons]
    unfold mapO NMon.mapQ
    simp only [bind_assoc]
    refine Rel.bind (Rel.eq _) fun q q' e => ?_
    subst e
    rw [pure_eq, ok_bind, pure_eq, ok_bind]
    refine Rel.bind (ih (o := o + m.inds.length)) fun mons ms' ⟨h1, h2, h3, h4⟩ =>
      Rel.ok ⟨?_, by simp [h2], by simp [h3], by simp [h4]⟩
    rw [h1]; simp [layMons]

theorem mapO_append {α β : Type} (f : α → Out β) (l r : List α) :
    mapO f (l ++ r) = mapO f l >>= fun a => mapO f r >>= fun b => pure (a ++ b) := by
  induction l with
  | nil => simp [mapO]
  | cons x l ih => simp [mapO, ih, bind_assoc, pure_eq]

theorem mapO_mapQ_rel (g : Rat32 → Out Rat32) (a : NMv) : 
    Rel (fun ms' a' => ms' = allMons a' ∧ (∀ o, layTerms o a' = layTerms o a) ∧ a'.length = a.length ∧ nMons a' = nMons a ∧
        nInds a' = nInds a ∧ indsOf (allMons a') = indsOf (allMons a))
      (mapO (NMon.mapQ g) (allMons a)) (mapO (NTerm.mapQ g) a) := by
  induction a with
  | nil => exact Rel.ok (by simp)
  | cons t ts ih =>
    rw [allMons_cons, mapO_append]
    conv => rhs; unfold mapO NTerm.mapQ
    simp only [bind_assoc]
    refine Rel.bind ((Rel.eq _).and_all (mapQ_mons_size g t.mons)) fun ms ms' h => ?_
    obtain ⟨rfl, h1, h2, h3⟩ := h
    rw [pure_eq, ok_bind]
    refine Rel.bind ih fun o a' ⟨e1, e2, e3, e4, e5, e6⟩ =>
      Rel.ok ⟨by simp [e1], by simp [layTerms, h1, e2], by simp [e3], by simp [e4, h1], by simp [e5, h2], by simp [e6, h3]⟩

/-- `scale` on a packed operand. -/
theorem scale_layout {c : Caps} {n : NMv} (h : nMons n ≤ c.m) (q : Rat32) : scale q (layout c n) = layout c <$> scaleN q n := by
  apply Rel.map_eq
  unfold scale scaleN
  have e1 : (layout c n).szM ≤ (layout c n).caps.m := h
  rw [if_pos e1]
  have e2 : (layout c n).mons.take (layout c n).szM = layMons 0 (allMons n) := by
    simp [layout, List.take_of_length_le]
  have e3 : (layout c n).mons.drop (layout c n).szM = [] := by
    simp [layout]
  rw [e2, e3]
  have h1 := mapMons_rel (fun x => q.mul x) (allMons n) (o := 0)
  have h2 := mapO_mapQ_rel (fun x => q.mul x) n
  refine Rel.map_left (h1.trans h2) fun mons n' ⟨ms', ⟨a1, a2, a3, a4⟩, b1, b2, b3, b4, b5, b6⟩ => Rel.ok ?_
  subst b1
  rw [a1]
  simp [layout, b2, b3, b4, b5, b6]

/-- `resize` of a packed operand that fits. -/
theorem resize_layout {c c' : Caps} {n : NMv} (h : Fits c n) (h' : Fits c' n) : resize (layout c n) c' = ok (layout c' n) := by
  unfold resize
  by_cases hc : c' = c
  · subst hc
    rw [if_pos (show c' = (layout c' n).caps from rfl)]
  · rw [if_neg (show ¬ c' = (layout c n).caps from hc), if_pos ⟨h'.i, h'.m, h'.t⟩]
    have r1 := rdRange_append (cap := c.i) (indsOf (allMons n)) (l := indsOf (allMons n)) (pre := []) (post := []) (by simp)
      rfl (by simpa using h.i)
    have r2 := rdRange_append (cap := c.m) (layMons 0 (allMons n)) (l := layMons 0 (allMons n)) (pre := []) (post := [])
      (by simp) rfl (by simpa using h.m)
    rw [indsOf_length, nIndsM_allMons] at r1
    rw [layMons_length, allMons_length] at r2
    have r3 := terms_layout h.t
    simp only [List.length_nil] at r1 r2
    rw [show rdRange (layout c n).caps.i (layout c n).inds 0 (layout c n).szI = _ from r1, ok_bind,
      show rdRange (layout c n).caps.m (layout c n).mons 0 (layout c n).szM = _ from r2, ok_bind, r3, ok_bind]
    rfl

end Gal
