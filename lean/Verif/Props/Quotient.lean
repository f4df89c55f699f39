import Verif.Props.Compute
import Verif.Props.Divide
import Verif.Spec.QuotValue
import Verif.Spec.Fine

/-!
# Property C48: `compute` with quotients and functions
-/

namespace Gal

open Out

variable {K : Type} [Field K]

/-! ## One temporary -/

/-- The temporary has these elements, in ascending order, and a reference to it has one indeterminate for each. -/
structure RefShape (dim : Nat) (a : Mv) (es : List Nat) : Prop where
  ref : ∀ id, createRef a id = layout ⟨es.length, es.length, es.length⟩ (genericN id es)
  size : a.szT = es.length
  asc : es.Pairwise (· < ·)
  lt : ∀ e ∈ es, e < 2 ^ dim

theorem refShape_of {dim : Nat} {a : Mv} {n : NMv} (h : a.terms = layTerms 0 n) (ht : a.caps.t = n.length) (hs : a.szT = n.length)
    (ha : (n.map (·.element)).Pairwise (· < ·)) (hl : ∀ e ∈ n.map (·.element), e < 2 ^ dim) : RefShape dim a (n.map (·.element)) := by
  refine ⟨fun id => ?_, by rw [hs]; simp, ha, hl⟩
  have hl : (n.map (·.element)).length = n.length := by simp
  obtain ⟨h1, h2, h3, _⟩ := genericN_size (n.map (·.element)) id
  have he : ∀ i, i < n.length → (a.terms.getD i default).element = (n.map (·.element)).getD i 0 := by
    intro i hi
    rw [h, layTerms_getD n 0 i hi]
  unfold createRef layout
  rw [genericN_inds, genericN_mons, genericN_terms, h1, h2, h3, ht, hl]
  simp only [Nat.zero_add]
  congr 1
  apply List.map_congr_left
  intro i hi
  rw [he i (List.mem_range.1 hi)]

/-- A reference is a proper stack entry. -/
theorem RefShape.stored {dim : Nat} {a : Mv} {es : List Nat} (h : RefShape dim a es) (id : Nat) :
    Stored (PosInd fun i => id ≤ i ∧ i < id + es.length) dim (createRef a id) (genericN id es) := by
  obtain ⟨h1, h2, h3, _⟩ := genericN_size es id
  rw [h.ref id]
  refine ⟨⟨packed_layout ⟨by simp only; omega, by simp only; omega, by simp only; omega⟩, genericN_canon _ h.asc id,
    genericN_elems h.lt, genericN_posInd es id⟩, ?_⟩
  intro _
  show es.length = _
  omega

/-- A multivector can be evaluated without division by zero and without roots. -/
def FineView (E : Env K) (n : NMv) : Prop := ∀ t ∈ n, ∀ m ∈ t.mons, m.q.WF ∧ ∀ i ∈ m.inds, EvalInd E i ∧ i.deg.den = 1

/-- The temporary `a` with id `id` reads earlier ids only, and can be evaluated in this way; a function is applied to a value that satisfies `Φ`. -/
def TempFine (Φ : MvOp → K → Prop) (E : Env K) (a : Mv) (id : Nat) : Prop :=
  ∃ n, a.view = ok n ∧ RefsBelow id n ∧ FineView E n ∧ (a.op ≠ .id → ∃ q, n = [⟨0, [q]⟩] ∧ q.q.num ≠ 0 ∧ Φ a.op (q.val E.pw))

theorem fineView_of {E : Env K} {n : NMv} (h : EvalMv E n) (hd : ∀ t ∈ n, ∀ m ∈ t.mons, ∀ i ∈ m.inds, i.deg.den = 1) : FineView E n :=
  fun t ht m hm => ⟨((h t ht).2 m hm).1, fun i hi => ⟨((h t ht).2 m hm).2 i hi, hd t ht m hm i hi⟩⟩

/-- Evaluating the temporary `a` with id `id` stores the value `v` and changes no earlier id. -/
structure Stores (Φ : MvOp → K → Prop) (E : Env K) (dim : Nat) (d : Nat → Int) (a : Mv) (id : Nat) (v : CliffordAlgebra (diagForm K dim d)) (E' : Env K) : Prop where
  run : computeTemp E a id = ok E'
  consts : E'.consts = E.consts
  fn : E'.fn = E.fn
  len : E'.data.length = E.data.length
  rho : ∀ i, i < id ∨ indConstantStart ≤ i → E'.rho i = E.rho i
  value : ∀ es, RefShape dim a es → mvVal (intPow E'.rho) (cliffBlade K dim d) (genericN id es) = v
  fine : TempFine Φ E a id

theorem refShape_unique {dim : Nat} {a : Mv} {es es' : List Nat} (h : RefShape dim a es) (h' : RefShape dim a es') : es = es' := by
  have h1 := (h.stored 0).packed
  have h2 := (h'.stored 0).packed
  have := congrArg (List.map (·.element)) (h1.unique h2)
  rwa [(genericN_size es 0).2.2.2, (genericN_size es' 0).2.2.2] at this

/-- A temporary that is a polynomial. -/
theorem stores_of_eval [CharZero K] {Φ : MvOp → K → Prop} {E : Env K} {dim : Nat} {d : Nat → Int} {a : Mv} {n : NMv} {id : Nat} (ha : a.view = ok n)
    (ho : a.op = .id) (hr : RefsBelow id n) (he : EvalMv E n) (hl : id + n.length ≤ E.data.length) (hc : id + n.length ≤ indConstantStart)
    (hs : RefShape dim a (n.map (·.element))) (hd : ∀ t ∈ n, ∀ m ∈ t.mons, ∀ i ∈ m.inds, i.deg.den = 1) : ∃ E', Stores Φ E dim d a id (mvVal E.pw (cliffBlade K dim d) n) E' := by
  obtain ⟨E1, h1, h2⟩ := C42_reference (cliffBlade K dim d) E id ha ho hr he hl hc
  have h4 := C42_temp E id ha ho hr he hl
  rw [h1, ok_inj] at h4
  have hc1 : E1.consts = E.consts := by rw [h4]
  refine ⟨E1, h1, hc1, by rw [h4], ?_, ?_, ?_, n, ha, hr, fineView_of he hd, fun h => absurd ho h⟩
  · rw [h4]
    simp only [List.length_append, List.length_take, List.length_map, List.length_drop]
    omega
  · intro i h
    unfold Env.rho
    rw [hc1]
    split
    · rfl
    · rw [h4]
      simp only [List.getD_eq_getElem?_getD]
      rw [List.append_assoc, List.getElem?_append_left (by simp only [List.length_take]; omega), List.getElem?_take_of_lt (by omega)]
  · intro es hes
    rw [refShape_unique hes hs]
    exact h2

/-- A temporary that is a function of a scalar monomial. -/
theorem stores_of_fn [CharZero K] {Φ : MvOp → K → Prop} {E : Env K} {dim : Nat} {d : Nat → Int} {a : Mv} {q : NMon} {id : Nat} (ha : a.view = ok [⟨0, [q]⟩])
    (ho : a.op ≠ .id) (hq : q.q.WF) (hz : q.q.num ≠ 0) (hi : ∀ i ∈ q.inds, EvalInd E i) (hl : id + 1 ≤ E.data.length)
    (hc : id + 1 ≤ indConstantStart) (hs : RefShape dim a [0]) (hd : ∀ i ∈ q.inds, i.deg.den = 1 ∧ (i.id < id ∨ indConstantStart ≤ i.id))
    (hφ : Φ a.op (q.val E.pw)) : ∃ E', Stores Φ E dim d a id (E.fn a.op (q.val E.pw) • 1) E' := by
  refine ⟨{ E with data := E.data.set id (E.fn a.op (q.val E.pw)) }, ?_, rfl, rfl, by simp, ?_, ?_, [⟨0, [q]⟩], ha, ?_, ?_, fun _ => ⟨q, rfl, hz, hφ⟩⟩
  · unfold computeTemp
    rw [ha, ok_bind]
    simp only [tempLoop, Env.term]
    rw [C31_function E a.op ho q hq hi hz]
    simp only [ok_bind, Env.write]
    rw [if_pos (by omega), ok_bind]
  · intro i h
    exact rho_set (by omega)
  · intro es hes
    rw [refShape_unique hes hs]
    have : ({ E with data := E.data.set id (E.fn a.op (q.val E.pw)) } : Env K).rho id = E.fn a.op (q.val E.pw) := by
      unfold Env.rho
      rw [if_neg (by omega)]
      simp only [List.getD_eq_getElem?_getD]
      rw [List.getElem?_set_self (by omega)]
      rfl
    rw [genericN_val _ _ _ [E.fn a.op (q.val E.pw)] id rfl (by
      intro i hi
      have : i = 0 := by simpa using hi
      subst this
      simpa using this)]
    simp [pairsVal, cliffBlade_zero]
  · intro t ht m hm i hh
    rw [List.mem_singleton] at ht
    subst ht
    obtain rfl := List.mem_singleton.1 hm
    exact (hd i hh).2.symm
  · intro t ht m hm
    rw [List.mem_singleton] at ht
    subst ht
    obtain rfl := List.mem_singleton.1 hm
    exact ⟨hq, fun i hh => ⟨hi i hh, (hd i hh).1⟩⟩

/-! ## Division by an indeterminate and by one -/

theorem insInd_mem {d i : Ind} {l : List Ind} (h : i ∈ insInd d l) : i = d ∨ i ∈ l := by
  induction l with
  | nil => simpa [insInd] using h
  | cons j l ih =>
    unfold insInd at h
    split at h
    · simpa using h
    · rcases List.mem_cons.1 h with rfl | h
      · simp
      · rcases ih h with h | h
        · exact Or.inl h
        · exact Or.inr (by simp [h])

theorem divMons_inds {Q : Ind → Prop} {d : Ind} {mq : Rat32} (hd : Q d) : ∀ {ms out : List NMon}, (∀ m ∈ ms, ∀ i ∈ m.inds, Q i) →
    mapO (divMonAbsent d mq) ms = ok out → ∀ m ∈ out, ∀ i ∈ m.inds, Q i
  | [], out, _, h => by rw [mapO_nil_ok] at h; subst h; simp
  | x :: ms, out, hq, h => by
    rw [mapO_cons_ok] at h
    obtain ⟨y, ys, h1, h2, rfl⟩ := h
    unfold divMonAbsent at h1
    simp only [bind_eq_ok, pure_eq, ok_inj] at h1
    obtain ⟨deg, _, q, _, rfl⟩ := h1
    intro m hm i hi
    rcases List.mem_cons.1 hm with rfl | hm
    · rcases insInd_mem hi with rfl | hi
      · exact hd
      · exact hq x (by simp) i hi
    · exact divMons_inds hd (fun m hm => hq m (by simp [hm])) h2 m hm i hi

theorem divTerms_inds {Q : Ind → Prop} {d : Ind} {mq : Rat32} (hd : Q d) : ∀ {a out : NMv}, IndsAll Q a →
    mapO (divTermAbsent d mq) a = ok out → IndsAll Q out ∧ out.map (·.element) = a.map (·.element) ∧
      ((∀ t ∈ a, t.mons ≠ []) → ∀ t ∈ out, t.mons ≠ [])
  | [], out, _, h => by rw [mapO_nil_ok] at h; subst h; exact ⟨.nil, rfl, fun h => h⟩
  | t :: a, out, hq, h => by
    rw [mapO_cons_ok] at h
    obtain ⟨y, ys, h1, h2, rfl⟩ := h
    unfold divTermAbsent at h1
    simp only [bind_eq_ok, pure_eq, ok_inj] at h1
    obtain ⟨ms, h1, rfl⟩ := h1
    obtain ⟨i1, i2, i3⟩ := divTerms_inds hd (fun x hx => hq x (by simp [hx])) h2
    refine ⟨.cons (divMons_inds hd (hq t (by simp)) h1) i1, by rw [List.map_cons, List.map_cons, i2], fun hn u hu => ?_⟩
    rcases List.mem_cons.1 hu with rfl | hu
    · have hl := (mapO_divMon_length h1).1
      intro e
      dsimp only at e
      rw [e] at hl
      exact hn t (by simp) (List.length_eq_zero_iff.1 hl.symm)
    · exact i3 (fun x hx => hn x (by simp [hx])) u hu

theorem mapQ_nonempty {f : Rat32 → Out Rat32} : ∀ {a out : NMv}, mapO (NTerm.mapQ f) a = ok out → (∀ t ∈ a, t.mons ≠ []) →
    ∀ t ∈ out, t.mons ≠ []
  | [], out, h, _ => by rw [mapO_nil_ok] at h; subst h; simp
  | t :: a, out, h, hn => by
    rw [mapO_cons_ok] at h
    obtain ⟨y, ys, h1, h2, rfl⟩ := h
    intro u hu
    rcases List.mem_cons.1 hu with rfl | hu
    · have hl := ((mapQ_size f t).of_ok h1).2.1
      intro e
      rw [e] at hl
      exact hn t (by simp) (List.length_eq_zero_iff.1 hl.symm)
    · exact mapQ_nonempty h2 (fun x hx => hn x (by simp [hx])) u hu

theorem mapQ_keeps {f : Rat32 → Out Rat32} {n nr : NMv} (h : mapO (NTerm.mapQ f) n = ok nr) :
    nr.map (·.element) = n.map (·.element) ∧ ∀ Q, IndsAll Q n → IndsAll Q nr :=
  mapO_keeps (fun t u h => ⟨(mapQ_inds h).1, fun m hm => by
    obtain ⟨m', hm', e, _⟩ := (mapQ_inds h).2 m hm; exact ⟨m', hm', e⟩⟩) h

theorem evalMv_iff {E : Env K} {n : NMv} :
    EvalMv E n ↔ (∀ t ∈ n, t.mons ≠ []) ∧ IndsAll (EvalInd E) n ∧ ∀ t ∈ n, ∀ m ∈ t.mons, m.q.WF :=
  ⟨fun h => ⟨fun t ht => (h t ht).1, fun t ht m hm i hi => ((h t ht).2 m hm).2 i hi, fun t ht m hm => ((h t ht).2 m hm).1⟩,
    fun ⟨h1, h2, h3⟩ t ht => ⟨h1 t ht, fun m hm => ⟨h3 t ht m hm, fun i hi => h2 t ht m hm i hi⟩⟩⟩

/-- What is known about a quotient. -/
structure Quotient (E : Env K) (a r : Mv) (na : NMv) (q : Rat32) (s : K) (nr : NMv) : Prop where
  packed : Packed r nr
  tight : r.caps.t = a.caps.t
  elems : nr.map (·.element) = na.map (·.element)
  eval : EvalMv E nr
  value : ∀ (V : Type) [AddCommGroup V] [Module K V] (β : Nat → V), mvVal E.pw β nr = ((q.toQ : K) * s⁻¹) • mvVal E.pw β na

/-- Division by an indeterminate that does not occur in the dividend and whose value is not zero. -/
theorem divide_atom [CharZero K] {E : Env K} {a r : Mv} {na : NMv} {id : Nat} {q : Rat32} (ha : Packed a na) (he : EvalMv E na)
    (hx : ∀ t ∈ na, ∀ m ∈ t.mons, ∀ i ∈ m.inds, i.id ≠ id) (hid : E.Has id) (h0 : E.rho id ≠ 0) (hq : q.WF)
    (h : divide a (scalarIe id) q = ok r) :
    ∃ nr, Quotient E a r na q (E.rho id) nr ∧ ∀ Q : Ind → Prop, IndsAll Q na → Q ⟨id, ⟨-1, 1⟩⟩ → IndsAll Q nr := by
  obtain ⟨nd, out, h1, h2, h3, h4⟩ := divide_absent (m := ⟨Rat32.one, Rat32.one, 1, 0⟩) (d := ⟨id, Rat32.one⟩) ha rfl rfl rfl hx h
  have hnd : nd = ⟨-1, 1⟩ := by
    have : Rat32.one.neg = ok ⟨-1, 1⟩ := by decide
    dsimp only at h1
    rw [this, ok_inj] at h1
    exact h1.symm
  subst hnd
  dsimp only at h2
  rw [scale_layout h3.m] at h4
  obtain ⟨nr, hn, rfl⟩ := map_eq_ok h4
  obtain ⟨e1, e2, e3⟩ := evalMv_iff.1 he
  have wna : MvWF na := fun t ht m hm => ⟨e3 t ht m hm, fun i hi => (e2 t ht m hm i hi).canon.1⟩
  have hdw : (⟨-1, 1⟩ : Rat32).WF := by decide
  have h1v := divTerms_val (K := K) (V := K) E.pw (fun _ => 0) (d := ⟨id, ⟨-1, 1⟩⟩) hdw (by decide) (by decide) wna h2
  obtain ⟨k1, k2⟩ := mapQ_keeps hn
  have hnew : EvalInd E ⟨id, ⟨-1, 1⟩⟩ :=
    ⟨hid, by show (⟨-1, 1⟩ : Rat32).Canon; decide, by show (-1 : Int) ≠ 0; decide, by show i32Min < -1; decide, fun _ => h0⟩
  obtain ⟨d1, d2, d3⟩ := divTerms_inds hnew e2 h2
  refine ⟨nr, ⟨packed_layout ((mapO_fits (mapQ_size' _) h3).of_ok hn), rfl, by rw [k1, d2], ?_, ?_⟩, ?_⟩
  · exact evalMv_iff.2 ⟨mapQ_nonempty hn (d3 e1), k2 _ d1, fun t ht m hm =>
      ((scaleN_val (K := K) (V := K) E.pw (fun _ => 0) hq h1v.2 hn).2 t ht m hm).q⟩
  · intro V _ _ β
    have g := (divTerms_val (K := K) E.pw β (d := ⟨id, ⟨-1, 1⟩⟩) hdw (by decide) (by decide) wna h2).1
    have one : (Rat32.one.toQ : K) = 1 := by simp [Rat32.toQ, Rat32.one]
    rw [one, one_smul] at g
    rw [(scaleN_val E.pw β hq h1v.2 hn).1, g, smul_smul]
    congr 2
    have hq1 : (⟨-1, 1⟩ : Rat32).toQ = -1 := by simp [Rat32.toQ]
    simp [Ind.val, hq1, Env.pw]
  · intro Q hQ hd
    exact k2 _ (divTerms_inds hd hQ h2).1

/-- The constant one, as the machine pushes it. -/
def oneMv : Mv := ⟨⟨0, 1, 1⟩, 0, 1, 1, [], [⟨Rat32.one, Rat32.zero, 0, 0⟩], [⟨1, 0, 0⟩], .id⟩

/-- Division by one. -/
theorem divide_one [CharZero K] {E : Env K} {a r : Mv} {na : NMv} {q : Rat32} (ha : Packed a na) (he : EvalMv E na) (hq : q.WF)
    (h : divide a oneMv q = ok r) : ∃ nr, Quotient E a r na q 1 nr ∧ ∀ Q : Ind → Prop, IndsAll Q na → IndsAll Q nr := by
  unfold divide at h
  rw [if_neg (by decide), if_pos (show oneMv.caps.i = 0 from rfl), ha.eq, divideConst_layout (m := ⟨Rat32.one, Rat32.zero, 0, 0⟩) ha.fits.t rfl] at h
  obtain ⟨nr, hn, rfl⟩ := map_eq_ok h
  obtain ⟨e1, e2, e3⟩ := evalMv_iff.1 he
  have wna : MvWF na := fun t ht m hm => ⟨e3 t ht m hm, fun i hi => (e2 t ht m hm i hi).canon.1⟩
  have hstep : ∀ x y, x.WF → (do let y ← q.mul x; y.div Rat32.one : Out Rat32) = ok y → y.toQ = q.toQ * x.toQ ∧ y.WF := by
    intro x y hx hy
    rw [bind_eq_ok] at hy
    obtain ⟨z, h1, h2⟩ := hy
    obtain ⟨e1, w1⟩ := Rat32.mul_spec hq hx h1
    obtain ⟨e2, w2⟩ := Rat32.div_spec w1 (by decide) (by decide) h2
    exact ⟨by rw [e2, e1]; simp [Rat32.toQ, Rat32.one], w2⟩
  obtain ⟨k1, k2⟩ := mapQ_keeps hn
  refine ⟨nr, ⟨packed_layout ((mapO_fits (mapQ_size' _) ha.fits).of_ok hn), rfl, k1, ?_, ?_⟩, k2⟩
  · exact evalMv_iff.2 ⟨mapQ_nonempty hn e1, k2 _ e2, fun t ht m hm =>
      ((mapQ_mv_val (K := K) (V := K) E.pw (fun _ => 0) hstep wna hn).2 t ht m hm).q⟩
  · intro V _ _ β
    rw [(mapQ_mv_val E.pw β hstep wna hn).1, inv_one, mul_one]

/-! ## Functions of an indeterminate and of one -/

theorem fn_atom {dim : Nat} {o : MvOp} {q : Rat32} {id : Nat} {r : Mv} (hq : q.WF) (h0 : q.num ≠ 0) (h : applyFn o q (scalarIe id) = ok r) :
    ∃ q' : Rat32, q'.WF ∧ q'.num ≠ 0 ∧ q'.toQ = q.toQ ∧ r.view = ok [⟨0, [⟨q', Rat32.one, [⟨id, Rat32.one⟩]⟩]⟩] ∧ r.op = o ∧
      RefShape dim r [0] := by
  simp only [applyFn, scale, scalarIe, le_refl, if_true, List.take_succ_cons, List.take_zero, mapO, bind_eq_ok, pure_eq, ok_inj] at h
  obtain ⟨ms, ⟨m, ⟨q', hq', rfl⟩, ms', rfl, rfl⟩, rfl⟩ := h
  obtain ⟨e, w⟩ := Rat32.mul_spec hq (by decide : Rat32.one.WF) hq'
  have e' : q'.toQ = q.toQ := by rw [e]; simp [Rat32.toQ, Rat32.one]
  refine ⟨q', w, fun h => h0 ((Rat32.toQ_eq_zero hq).1 (e' ▸ (Rat32.toQ_eq_zero w).2 h)), e', rfl, rfl, fun id => rfl, rfl, by simp, ?_⟩
  intro e he
  rw [List.mem_singleton] at he
  subst he
  exact Nat.two_pow_pos _

theorem fn_one {dim : Nat} {o : MvOp} {q : Rat32} {r : Mv} (hq : q.WF) (h0 : q.num ≠ 0) (h : applyFn o q oneMv = ok r) :
    ∃ q' : Rat32, q'.WF ∧ q'.num ≠ 0 ∧ q'.toQ = q.toQ ∧ r.view = ok [⟨0, [⟨q', Rat32.zero, []⟩]⟩] ∧ r.op = o ∧ RefShape dim r [0] := by
  simp only [applyFn, scale, oneMv, le_refl, if_true, List.take_succ_cons, List.take_zero, mapO, bind_eq_ok, pure_eq, ok_inj] at h
  obtain ⟨ms, ⟨m, ⟨q', hq', rfl⟩, ms', rfl, rfl⟩, rfl⟩ := h
  obtain ⟨e, w⟩ := Rat32.mul_spec hq (by decide : Rat32.one.WF) hq'
  have e' : q'.toQ = q.toQ := by rw [e]; simp [Rat32.toQ, Rat32.one]
  refine ⟨q', w, fun h => h0 ((Rat32.toQ_eq_zero hq).1 (e' ▸ (Rat32.toQ_eq_zero w).2 h)), e', rfl, rfl, fun id => rfl, rfl, by simp, ?_⟩
  intro e he
  rw [List.mem_singleton] at he
  subst he
  exact Nat.two_pow_pos _

/-! ## The program -/

mutual

theorem Tree.Shape.ne_noop : ∀ {t : Tree}, t.Shape → ∀ n ∈ t.post, n.o ≠ Op.noop
  | .leaf n, h, m, hm => by
    rw [Tree.post, List.mem_singleton] at hm
    subst hm
    rw [Tree.Shape] at h
    rcases h with h | h | h
    · rw [h]; decide
    · rw [h]; decide
    · intro e; rw [e] at h; exact absurd h (by decide)
  | .un n t, h, m, hm => by
    rw [Tree.Shape] at h
    rw [Tree.post, List.mem_append, List.mem_singleton] at hm
    rcases hm with hm | rfl
    · exact Tree.Shape.ne_noop h.2 m hm
    · exact fun e => absurd (e ▸ h.1) (by unfold IsUn; decide)
  | .bin n l r, h, m, hm => by
    rw [Tree.Shape] at h
    rw [Tree.post, List.mem_append, List.mem_append, List.mem_singleton] at hm
    rcases hm with (hm | hm) | rfl
    · exact Tree.Shape.ne_noop h.2.1 m hm
    · exact Tree.Shape.ne_noop h.2.2 m hm
    · exact fun e => absurd (e ▸ h.1) (by unfold IsBin; decide)
  | .poly n f, h, m, hm => by
    rw [Tree.Shape] at h
    rw [Tree.post, List.mem_append, List.mem_singleton] at hm
    rcases hm with hm | rfl
    · exact Forest.Shape.ne_noop h.2.2.2 m hm
    · exact fun e => absurd (e ▸ h.1) (by unfold IsPoly; decide)

theorem Forest.Shape.ne_noop : ∀ {f : Forest}, f.Shape → ∀ n ∈ f.post, n.o ≠ Op.noop
  | .nil, _, m, hm => by rw [Forest.post] at hm; cases hm
  | .cons se t f, h, m, hm => by
    rw [Forest.Shape] at h
    rw [Forest.post, List.mem_cons, List.mem_append] at hm
    rcases hm with rfl | hm | hm
    · rw [h.1]; decide
    · exact Tree.Shape.ne_noop h.2.2.1 m hm
    · exact Forest.Shape.ne_noop h.2.2.2 m hm

end

theorem append_cons_inj {α : Type} {p : α → Prop} {x : α} (hx : p x) : ∀ {a b c d : List α}, (∀ y ∈ a, ¬ p y) → (∀ y ∈ b, ¬ p y) →
    a ++ x :: c = b ++ x :: d → a = b ∧ c = d
  | [], [], _, _, _, _, h => by simpa using h
  | [], y :: b, _, _, _, hb, h => by
    simp only [List.nil_append, List.cons_append, List.cons.injEq] at h
    exact absurd (h.1 ▸ hx) (hb y (by simp))
  | y :: a, [], _, _, ha, _, h => by
    simp only [List.nil_append, List.cons_append, List.cons.injEq] at h
    exact absurd (h.1 ▸ hx) (ha y (by simp))
  | y :: a, z :: b, c, d, ha, hb, h => by
    simp only [List.cons_append, List.cons.injEq] at h
    obtain ⟨e1, e2⟩ := append_cons_inj hx (fun y hy => ha y (by simp [hy])) (fun y hy => hb y (by simp [hy])) h.2
    exact ⟨by rw [h.1, e1], e2⟩

/-- The temporaries can be read off the nodes. -/
theorem blocks_unique : ∀ {ts : List Tree} {m : List Node} {bs : List (List Node)} {m' : List Node}, (∀ t ∈ ts, t.Shape) →
    (∀ n ∈ m, n.o ≠ Op.noop) → (∀ b ∈ bs, ∀ n ∈ b, n.o ≠ Op.noop) → (∀ n ∈ m', n.o ≠ Op.noop) →
    blocks ts ++ m = (bs.flatMap fun b => b ++ [⟨Op.noop, 0, 0, Rat32.zero⟩]) ++ m' → ts.map Tree.post = bs ∧ m = m'
  | [], m, [], m', _, _, _, _, h => by simpa [blocks] using h
  | [], m, b :: bs, m', _, hm, _, _, h => by
    exfalso
    simp only [blocks, List.flatMap_nil, List.nil_append, List.flatMap_cons] at h
    exact hm ⟨Op.noop, 0, 0, Rat32.zero⟩ (by rw [h]; simp) rfl
  | t :: ts, m, [], m', _, _, _, hm, h => by
    exfalso
    simp only [blocks, List.flatMap_nil, List.nil_append, List.flatMap_cons] at h
    exact hm ⟨Op.noop, 0, 0, Rat32.zero⟩ (by rw [← h]; simp) rfl
  | t :: ts, m, b :: bs, m', ht, hm, hb, hm', h => by
    have e1 : blocks (t :: ts) ++ m = t.post ++ ⟨Op.noop, 0, 0, Rat32.zero⟩ :: (blocks ts ++ m) := by simp [blocks]
    have e2 : ((b :: bs).flatMap fun b => b ++ [(⟨Op.noop, 0, 0, Rat32.zero⟩ : Node)]) ++ m' =
        b ++ ⟨Op.noop, 0, 0, Rat32.zero⟩ :: ((bs.flatMap fun b => b ++ [⟨Op.noop, 0, 0, Rat32.zero⟩]) ++ m') := by simp
    rw [e1, e2] at h
    obtain ⟨i1, i2⟩ := append_cons_inj (p := fun n : Node => n.o = Op.noop) rfl ((ht t (by simp)).ne_noop) (hb b (by simp)) h
    obtain ⟨j1, j2⟩ := blocks_unique (fun t h => ht t (by simp [h])) hm (fun b h => hb b (by simp [h])) hm' i2
    exact ⟨by rw [List.map_cons, i1, j1], j2⟩

/-- A tree that ends in a leaf is a leaf. -/
theorem leaf_of_last {t : Tree} (hs : t.Shape) {l : List Node} {x : Node} (h : t.post = l ++ [x]) (hx : IsLeaf x.o) : t = .leaf x ∧ l = [] := by
  have hl : ∀ {a b : List Node} {n : Node}, a ++ [n] = b ++ [x] → a = b ∧ n = x := by
    intro a b n h
    have := List.append_inj' h rfl
    simpa using this
  match t, hs, h with
  | .leaf n, _, h =>
    rw [Tree.post] at h
    obtain ⟨e1, e2⟩ := hl (a := []) h
    exact ⟨by rw [e2], e1.symm⟩
  | .un n t, hs, h =>
    rw [Tree.Shape] at hs
    rw [Tree.post] at h
    rw [(hl h).2] at hs
    exfalso
    revert hx
    have := hs.1
    unfold IsUn at this
    unfold IsLeaf
    rcases this with e | e | e | e | e | e | e | e <;> rw [e] <;> decide
  | .bin n l r, hs, h =>
    rw [Tree.Shape] at hs
    rw [Tree.post] at h
    rw [(hl h).2] at hs
    exfalso
    revert hx
    have := hs.1
    unfold IsBin at this
    unfold IsLeaf
    rcases this with e | e | e | e <;> rw [e] <;> decide
  | .poly n f, hs, h =>
    rw [Tree.Shape] at hs
    rw [Tree.post] at h
    rw [(hl h).2] at hs
    exfalso
    revert hx
    have := hs.1
    unfold IsPoly at this
    unfold IsLeaf
    rcases this with e | e <;> rw [e] <;> decide

omit [Field K] in
theorem ScalarLeaf.isLeaf {args : List (Arg K)} {temps : List (Mv × Nat)} {nc : Nat} {n : Node} (h : ScalarLeaf args temps nc n) :
    IsLeaf n.o := by
  rcases h with h | h | h | h
  · exact Or.inl h.1
  · exact Or.inr (Or.inl h.1)
  · exact Or.inr (Or.inr (by rw [h]; decide))
  · exact Or.inr (Or.inr (le_of_lt h.1))

/-- The three forms of a temporary. -/
theorem BlockFine.cases {args : List (Arg K)} {temps : List (Mv × Nat)} {nc : Nat} {t : Tree} (hs : t.Shape)
    (h : BlockFine args temps nc t.post) :
    (∀ n ∈ t.post, NotQuot n) ∨
    (∃ d l x, t = .bin d l (.leaf x) ∧ d.o = Op.div ∧ (∀ n ∈ l.post, NotQuot n) ∧ ScalarLeaf args temps nc x ∧
      (x.o ≠ Op.cscalar → ∀ k ∈ l.post, ¬ SameLeaf k x)) ∨
    ∃ d x, t = .un d (.leaf x) ∧ IsFun d.o ∧ d.q.num ≠ 0 ∧ ScalarLeaf args temps nc x := by
  have hl : ∀ {a b : List Node} {n k : Node}, a ++ [n] = b ++ [k] → a = b ∧ n = k := by
    intro a b n k h
    have := List.append_inj' h rfl
    simpa using this
  rcases h with h | ⟨l, x, d, e, h1, h2, h3⟩
  · exact Or.inl h
  · right
    have e' : t.post = (l ++ [x]) ++ [d] := by rw [e]; simp
    rcases h3 with ⟨h3, h4⟩ | ⟨h3, h4⟩
    · left
      match t, hs, e' with
      | .leaf n, hs, e' =>
        rw [Tree.post] at e'
        have := (hl (a := []) e').1
        simp at this
      | .un n t, hs, e' =>
        rw [Tree.Shape] at hs
        rw [Tree.post] at e'
        rw [(hl e').2, h3] at hs
        exact absurd hs.1 (by unfold IsUn; decide)
      | .poly n f, hs, e' =>
        rw [Tree.Shape] at hs
        rw [Tree.post] at e'
        rw [(hl e').2, h3] at hs
        exact absurd hs.1 (by unfold IsPoly; decide)
      | .bin n a b, hs, e' =>
        rw [Tree.Shape] at hs
        rw [Tree.post] at e'
        obtain ⟨e1, e2⟩ := hl e'
        subst e2
        have hb := b.post_pos
        obtain ⟨b', y, hb'⟩ : ∃ b' y, b.post = b' ++ [y] := by
          rcases List.eq_nil_or_concat b.post with h | ⟨b', y, h⟩
          · rw [h] at hb; cases hb
          · exact ⟨b', y, by rw [h, List.concat_eq_append]⟩
        rw [hb', ← List.append_assoc] at e1
        obtain ⟨e3, e4⟩ := hl e1
        subst e4
        obtain ⟨g1, g2⟩ := leaf_of_last hs.2.2 hb' h2.isLeaf
        subst g1 g2
        rw [List.append_nil] at e3
        subst e3
        exact ⟨n, a, y, rfl, h3, h1, h2, h4⟩
    · right
      have hnl : ¬ IsLeaf d.o := by
        unfold IsLeaf
        rcases h3 with e | e | e | e <;> rw [e] <;> decide
      match t, hs, e' with
      | .leaf n, hs, e' =>
        rw [Tree.post] at e'
        have := (hl (a := []) e').1
        simp at this
      | .un n t, hs, e' =>
        rw [Tree.Shape] at hs
        rw [Tree.post] at e'
        obtain ⟨e1, e2⟩ := hl e'
        subst e2
        obtain ⟨g1, g2⟩ := leaf_of_last hs.2 e1 h2.isLeaf
        subst g1
        exact ⟨n, x, rfl, h3, h4, h2⟩
      | .poly n f, hs, e' =>
        rw [Tree.Shape] at hs
        rw [Tree.post] at e'
        rw [(hl e').2] at hs
        exfalso
        have := hs.1
        revert this
        unfold IsPoly
        rcases h3 with e | e | e | e <;> rw [e] <;> decide
      | .bin n a b, hs, e' =>
        rw [Tree.Shape] at hs
        rw [Tree.post] at e'
        rw [(hl e').2] at hs
        exfalso
        have := hs.1
        revert this
        unfold IsBin
        rcases h3 with e | e | e | e <;> rw [e] <;> decide

/-! ## Reading a tree off its nodes -/

theorem Tree.post_snoc : ∀ t : Tree, ∃ ns n, t.post = ns ++ [n]
  | .leaf n => ⟨[], n, rfl⟩
  | .un n t => ⟨t.post, n, by rw [Tree.post]⟩
  | .bin n l r => ⟨l.post ++ r.post, n, by rw [Tree.post]⟩
  | .poly n f => ⟨f.post, n, by rw [Tree.post]⟩

theorem snoc_inj {α : Type} {a b as bs : List α} {x y : α} (h : a ++ (as ++ [x]) = b ++ (bs ++ [y])) : a ++ as = b ++ bs ∧ x = y := by
  rw [← List.append_assoc, ← List.append_assoc] at h
  have := List.append_inj' h rfl
  exact ⟨this.1, by simpa using this.2⟩

mutual

/-- The tree at the end of a sequence of nodes is determined by the nodes. -/
theorem Tree.post_suffix : ∀ {t u : Tree} {a b : List Node}, t.Shape → u.Shape → a ++ t.post = b ++ u.post → t = u ∧ a = b
  | .leaf n, u, a, b, ht, hu, h => by
    rw [Tree.Shape] at ht
    cases u with
    | leaf m =>
      rw [Tree.post, Tree.post] at h
      obtain ⟨h1, h2⟩ := snoc_inj (as := []) (bs := []) h
      simp only [List.append_nil] at h1
      exact ⟨by rw [h2], h1⟩
    | un m t =>
      rw [Tree.post, Tree.post] at h
      obtain ⟨h1, rfl⟩ := snoc_inj (as := []) h
      rw [Tree.Shape] at hu
      exact (ht.not_un hu.1).elim
    | bin m l r =>
      rw [Tree.post, Tree.post] at h
      obtain ⟨h1, rfl⟩ := snoc_inj (as := []) h
      rw [Tree.Shape] at hu
      exact (ht.not_bin hu.1).elim
    | poly m f =>
      rw [Tree.post, Tree.post] at h
      obtain ⟨h1, rfl⟩ := snoc_inj (as := []) h
      rw [Tree.Shape] at hu
      exact (ht.not_poly hu.1).elim
  | .un n t, u, a, b, ht, hu, h => by
    rw [Tree.Shape] at ht
    cases u with
    | leaf m =>
      rw [Tree.post, Tree.post] at h
      obtain ⟨h1, rfl⟩ := snoc_inj (bs := []) h
      rw [Tree.Shape] at hu
      exact (hu.not_un ht.1).elim
    | un m t' =>
      rw [Tree.post, Tree.post] at h
      obtain ⟨h1, rfl⟩ := snoc_inj h
      rw [Tree.Shape] at hu
      obtain ⟨rfl, h2⟩ := Tree.post_suffix ht.2 hu.2 h1
      exact ⟨rfl, h2⟩
    | bin m l r =>
      rw [Tree.post, Tree.post] at h
      obtain ⟨h1, rfl⟩ := snoc_inj h
      rw [Tree.Shape] at hu
      exact (ht.1.not_bin hu.1).elim
    | poly m f =>
      rw [Tree.post, Tree.post] at h
      obtain ⟨h1, rfl⟩ := snoc_inj h
      rw [Tree.Shape] at hu
      exact (ht.1.not_poly hu.1).elim
  | .bin n l r, u, a, b, ht, hu, h => by
    rw [Tree.Shape] at ht
    cases u with
    | leaf m =>
      rw [Tree.post, Tree.post] at h
      obtain ⟨h1, rfl⟩ := snoc_inj (bs := []) h
      rw [Tree.Shape] at hu
      exact (hu.not_bin ht.1).elim
    | un m t' =>
      rw [Tree.post, Tree.post] at h
      obtain ⟨h1, rfl⟩ := snoc_inj h
      rw [Tree.Shape] at hu
      exact (hu.1.not_bin ht.1).elim
    | bin m l' r' =>
      rw [Tree.post, Tree.post] at h
      obtain ⟨h1, rfl⟩ := snoc_inj h
      rw [Tree.Shape] at hu
      rw [← List.append_assoc, ← List.append_assoc] at h1
      obtain ⟨rfl, h2⟩ := Tree.post_suffix ht.2.2 hu.2.2 h1
      obtain ⟨rfl, h3⟩ := Tree.post_suffix ht.2.1 hu.2.1 h2
      exact ⟨rfl, h3⟩
    | poly m f =>
      rw [Tree.post, Tree.post] at h
      obtain ⟨h1, rfl⟩ := snoc_inj h
      rw [Tree.Shape] at hu
      exact (ht.1.not_poly hu.1).elim
  | .poly n f, u, a, b, ht, hu, h => by
    rw [Tree.Shape] at ht
    cases u with
    | leaf m =>
      rw [Tree.post, Tree.post] at h
      obtain ⟨h1, rfl⟩ := snoc_inj (bs := []) h
      rw [Tree.Shape] at hu
      exact (hu.not_poly ht.1).elim
    | un m t' =>
      rw [Tree.post, Tree.post] at h
      obtain ⟨h1, rfl⟩ := snoc_inj h
      rw [Tree.Shape] at hu
      exact (hu.1.not_poly ht.1).elim
    | bin m l r =>
      rw [Tree.post, Tree.post] at h
      obtain ⟨h1, rfl⟩ := snoc_inj h
      rw [Tree.Shape] at hu
      exact (hu.1.not_poly ht.1).elim
    | poly m g =>
      rw [Tree.post, Tree.post] at h
      obtain ⟨h1, rfl⟩ := snoc_inj h
      rw [Tree.Shape] at hu
      obtain ⟨rfl, h2⟩ := Forest.post_suffix ht.2.2.2 hu.2.2.2 (by have := ht.2.1; have := hu.2.1; have := ht.2.2.1; have := hu.2.2.1; omega) h1
      exact ⟨rfl, h2⟩

theorem Forest.post_suffix : ∀ {f g : Forest} {a b : List Node}, f.Shape → g.Shape → f.length = g.length → a ++ f.post = b ++ g.post →
    f = g ∧ a = b
  | .nil, g, a, b, _, _, hl, h => by
    cases g with
    | nil => exact ⟨rfl, by simpa [Forest.post] using h⟩
    | cons _ _ _ => simp [Forest.length] at hl
  | .cons se t f, g, a, b, hf, hg, hl, h => by
    cases g with
    | nil => simp [Forest.length] at hl
    | cons se' t' g =>
      rw [Forest.Shape] at hf hg
      rw [Forest.length, Forest.length] at hl
      rw [Forest.post, Forest.post] at h
      have e : ∀ (a : List Node) (s : Node) (x y : List Node), a ++ s :: (x ++ y) = ((a ++ [s]) ++ x) ++ y := by
        intro a s x y; simp
      rw [e, e] at h
      obtain ⟨rfl, h2⟩ := Forest.post_suffix hf.2.2.2 hg.2.2.2 (by omega) h
      obtain ⟨rfl, h3⟩ := Tree.post_suffix hf.2.2.1 hg.2.2.1 h2
      have := List.append_inj' h3 rfl
      have h1 : se = se' := by simpa using this.2
      exact ⟨by rw [h1], this.1⟩

end

/-- A tree is determined by its postfix form. -/
theorem Tree.post_inj {t u : Tree} (ht : t.Shape) (hu : u.Shape) (h : t.post = u.post) : t = u :=
  (Tree.post_suffix (a := []) (b := []) ht hu (by rw [h])).1

end Gal
