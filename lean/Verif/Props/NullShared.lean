import Verif.Props.ComputeNull

/-!
# Property C47: common subexpressions in an algebra with a null basis

A temporary is stored with coefficients in the null basis and read with coefficients in the natural basis, with one indeterminate for each place
of its array.  This is right if the temporary has only elements that are the same in both bases, and its array no spare room.
-/

namespace Gal

open Out

variable {K : Type} [Field K]

/-- A temporary that survives: its elements contain both null generators or neither, its array has no spare room, and its conversion does not
overflow. -/
structure SafeTemp (dim : Nat) (a : Mv) : Prop where
  unmixed : ∀ t ∈ a.terms, Unmixed dim t.element
  tight : a.caps.t = a.szT
  converts : ∃ r, toNullBasis dim a = ok r

/-- `SafeTemp`, computed. -/
def safeTemp (dim : Nat) (a : Mv) : Bool := (a.terms.all fun t => decide (Unmixed dim t.element)) && decide (a.caps.t = a.szT) && (toNullBasis dim a).isOk

theorem safeTemp_sound {dim : Nat} {a : Mv} (h : safeTemp dim a = true) : SafeTemp dim a := by
  simp only [safeTemp, Bool.and_eq_true, decide_eq_true_eq, List.all_eq_true] at h
  exact ⟨h.1.1, h.1.2, Out.exists_of_isOk h.2⟩

theorem nullTarget_unmixed {V : Type} [AddCommGroup V] [Module K V] {n : Nat} (h2 : 2 ≤ n) (h8 : n ≤ 8) (β : Nat → V) {e : Nat} (he : e < 2 ^ n)
    (hu : Unmixed n e) : nullTarget (K := K) n β e = β e := by
  obtain ⟨k, rfl⟩ : ∃ k, n = k + 2 := ⟨n - 2, by omega⟩
  obtain ⟨t1, t2, t3, -, -⟩ := bits_table ⟨k, by omega⟩ ⟨e, he⟩
  unfold Unmixed at hu
  simp only [Nat.add_sub_cancel, show k + 2 - 1 = k + 1 by omega] at hu
  unfold nullTarget
  simp only [Nat.add_sub_cancel, show k + 2 - 1 = k + 1 by omega, t1, t2, t3]
  rw [hu]
  cases e.testBit (k + 1) <;> simp

/-- Elements with both or neither of the null generators are converted to themselves. -/
theorem toNull_unmixed {n : Nat} (h2 : 2 ≤ n) (h8 : n ≤ 8) {a r : Mv} {na : NMv} (ha : Packed a na) (ca : CanonMv na) (ea : ElemsLt (2 ^ n) na)
    (hu : ∀ t ∈ na, Unmixed n t.element) (h : toNullBasis n a = ok r) : Packed r na := by
  rw [toNullBasis_refines n ha.represents] at h
  obtain ⟨nr, hn, rfl⟩ := map_eq_ok h
  obtain ⟨e1, e2, e3, e4⟩ := toNullN_spec h2 h8 ca ea hn
  have : nr = na := C23_unique e1 ca fun ρ _ e => by
    unfold coeff
    rw [e4 ℚ ℚ]
    exact mvVal_congr _ fun t ht => nullTarget_unmixed h2 h8 _ (ea t ht) (hu t ht)
  exact this ▸ packed_layout ((toNullN_fits n ha.represents.2).of_ok hn)

theorem layTerms_element : ∀ (n : NMv) (o : Nat), ∀ t ∈ n, ∃ u ∈ layTerms o n, u.element = t.element
  | [], _, t, ht => by cases ht
  | x :: n, o, t, ht => by
    rcases List.mem_cons.1 ht with rfl | ht
    · exact ⟨_, List.mem_cons_self, rfl⟩
    · obtain ⟨u, h1, h2⟩ := layTerms_element n _ t ht
      exact ⟨u, List.mem_cons_of_mem _ h1, h2⟩

theorem SafeTemp.stored {dim : Nat} {a : Mv} {n : NMv} {Q : Ind → Prop} (h : SafeTemp dim a) (hk : Kept False Q dim a n) : Stored Q dim a n :=
  ⟨hk.toClean, fun _ => by rw [h.tight, hk.packed.szT]⟩

theorem SafeTemp.elems {dim : Nat} {a : Mv} {n : NMv} (h : SafeTemp dim a) (hk : Packed a n) : ∀ t ∈ n, Unmixed dim t.element := by
  intro t ht
  obtain ⟨u, h1, h2⟩ := layTerms_element n 0 t ht
  rw [← h2]
  refine h.unmixed u ?_
  rw [hk.eq]
  exact h1

/-- Evaluation of such temporaries, with and without the conversion. -/
theorem finalizeTemps_safe {dim : Nat} (h2 : 2 ≤ dim) (h8 : dim ≤ 8) : ∀ (ps : List (Mv × Nat)) (E : Env K), (∀ p ∈ ps, SafeTemp dim p.1) →
    (∀ p ∈ ps, ∃ n Q, Clean Q dim p.1 n) → finalizeTemps (some dim) E ps = finalizeTemps none E ps
  | [], _, _, _ => rfl
  | (a, id) :: ps, E, hs, hc => by
    obtain ⟨n, Q, hn⟩ := hc _ List.mem_cons_self
    obtain ⟨r, hr⟩ := (hs _ List.mem_cons_self).converts
    dsimp only at hn hr
    have hp := toNull_unmixed h2 h8 hn.packed hn.canon hn.elems ((hs _ List.mem_cons_self).elems hn.packed) hr
    have he : ∀ E : Env K, computeTemp E r id = computeTemp E a id := by
      intro E
      unfold computeTemp
      rw [hp.view, hn.packed.view, hp.op, hn.packed.op]
    rw [finalizeTemps, finalizeTemps, toOutput, toOutput]
    rw [hr, ok_bind, ok_bind, he]
    congr 1
    funext E'
    exact finalizeTemps_safe h2 h8 ps E' (fun p hp => hs p (List.mem_cons_of_mem _ hp)) fun p hp => hc p (List.mem_cons_of_mem _ hp)

section

variable [CharZero K] {m : Metric} {args : List (Arg K)} {w : Nat → CliffordAlgebra (diagForm K m.dim m.sq)}
  {D : CliffordAlgebra (diagForm K m.dim m.sq) →ₗ[K] CliffordAlgebra (diagForm K m.dim m.sq)}
  {C : Nat → CliffordAlgebra (diagForm K m.dim m.sq) →ₗ[K] CliffordAlgebra (diagForm K m.dim m.sq)}

/-- The program that computes the expression, in an algebra with a null basis. -/
theorem compute_null_extracts (h2 : 2 ≤ m.dim) (hm : m.dim ≤ 8) (E : Env K)
    (hw : ∀ (k : Nat) (a : Arg K), args[k]? = some a → a.DenotesNull m.dim m.sq (argOffset args k) (w k)) (hD : IsDual K m.dim m.sq D)
    (hC : IsNullCoeff K m.dim m.sq C) {T : Tree} {q : Rat32} {r : Rpne} (hx : Extracts T q r) (hg : T.Good) (hq : q.WF) (h0 : q.num ≠ 0)
    (hp : ∀ n ∈ T.post, NullPlain m.dim E.consts.length n ∧ ArgNode args n) {s : RState Mv}
    (hs : runNodes (mvOps m true) r.nodes.length r.nodes ⟨gatherInputs (argMv args) r.nodes, [], [], argsSize args⟩ = ok s)
    (hc : s.nextId ≤ indConstantStart) (ht : ∀ p ∈ s.temps, SafeTemp m.dim p.1) (ho : ∀ a ∈ s.args, ∃ r, toNullBasis m.dim a = ok r) :
    ∃ x, runCompiled m true E args ⟨s, r.q⟩ = ok [x] ∧
      x.DenotesNull m.dim m.sq (q.toQ • T.val (nullInterp K m.dim m.sq (fun k => E.consts.getD k 0) D C w)) := by
  have hrq : r.q = q := hx.choose_spec.choose_spec.2.2
  -- inputs
  have hin : ∀ (S : Prop) (ρ : Nat → K) (b : Nat), argsSize args ≤ b →
      (S → ∀ k a, args[k]? = some a → ∀ i, i < a.data.length → ρ (argOffset args k + i) = a.data.getD i 0) →
      ∀ n, (NullPlain m.dim E.consts.length n ∧ ArgNode args n) → n.o = Op.id → ∀ x,
        (mvOps m true).input (argMv args n.ex n.checksum) = ok x → Sound False S m.dim m.sq E.consts.length ρ b x (w n.ex) := by
    intro S ρ b hb hρ n hn ho x hx
    obtain ⟨h1, h3⟩ := hn.2 ho
    have hk := List.getElem?_eq_getElem h1
    obtain ⟨na, i1, i2⟩ := hw _ _ hk
    have he : argMv args n.ex n.checksum = args[n.ex].ie (argOffset args n.ex) := by
      unfold argMv
      rw [hk, h3]
    simp only [mvOps, if_true, he] at hx
    obtain ⟨nx, j1, j2⟩ := toNatural_sound (K := K) h2 hm i1 hx
    have := argOffset_le args hk
    refine ⟨nx, ⟨⟨j1.packed, j1.canon, j1.elems, j1.inds.mono fun i hi => ⟨Or.inl (by have := hi.1; omega), hi.2⟩⟩, fun h => h.elim⟩, fun hs => ?_⟩
    rw [j2]
    exact i2 _ (hρ hs _ _ hk)
  -- shape of the temporaries
  obtain ⟨y, -, -, -, hids, hst⟩ := run_extracts (R := fun b => Sound False False m.dim m.sq E.consts.length (fun _ => (0 : K)) b)
    (fun b hb => mv_refines False False m hm true (fun k => E.consts.getD k 0) D hD w E.consts.length _ (fun h => h.elim) (argMv args) b
      (fun n => NullPlain m.dim E.consts.length n ∧ ArgNode args n) (fun n h => h.1.toPlain) (hin False _ b hb (fun h => h.elim)))
    (fun b b' a v hb h => h.mono hb) hx hg hp hs (by
      rintro p hp v x ⟨n, h1, -⟩ hx
      simp only [mvOps, ok_inj] at hx ⊢
      subst hx
      have hr := createRef_stored ((ht p hp).stored h1) p.2
      rw [h1.packed.szT]
      exact ⟨_, ⟨(hr.mono fun i hi => ⟨Or.inl hi.1.2, hi.2⟩).toClean, fun h => h.elim⟩, fun h => h.elim⟩)
  have hst' : ∀ p ∈ s.temps, ∃ n, Stored (PosInd (Avail p.2 E.consts.length)) m.dim p.1 n := fun p hp => by
    obtain ⟨v, n, h, -⟩ := hst p hp
    exact ⟨n, (ht p hp).stored h⟩
  have hle := hids.le
  -- the data
  have hlen : (args.map fun a => a.data).flatten.length ≤ (List.replicate (argsSize args + s.nextId - argsSize args) (0 : K)).length := by
    rw [← argsSize_eq, List.length_replicate]
    omega
  have hfill := C41_fill (args.map fun a => a.data) _ hlen
  generalize hdat : (args.map fun a => a.data).flatten ++ (List.replicate (argsSize args + s.nextId - argsSize args) (0 : K)).drop
    (args.map fun a => a.data).flatten.length = dat at hfill
  have hdl : dat.length = s.nextId := by
    rw [← hdat, List.length_append, List.length_drop, List.length_replicate, ← argsSize_eq]
    omega
  obtain ⟨E', g1, g2, g3, g4, g5⟩ := temps_value (cliffBlade K m.dim m.sq) s.temps (argsSize args) s.nextId { E with data := dat } hids
    hst' (by rw [hdl]) hc
  have hρ : ∀ k a, args[k]? = some a → ∀ i, i < a.data.length → E'.rho (argOffset args k + i) = a.data.getD i 0 := by
    intro k a hk i hi
    have hb := argOffset_le args hk
    rw [g4 _ (Or.inl (by omega))]
    obtain ⟨out, o1, o2⟩ := C41_position (args.map fun a => a.data) _ hlen (k := k) (i := i) (d := a.data) (v := a.data.getD i 0)
      (by rw [List.getElem?_map, hk]; rfl) (by rw [List.getElem?_eq_getElem hi, List.getD_eq_getElem _ _ hi])
    rw [hfill, ok_inj] at o1
    subst o1
    rw [← argOffset_eq] at o2
    unfold Env.rho
    rw [if_neg (by omega)]
    simp only [List.getD_eq_getElem?_getD] at o2 ⊢
    rw [o2]
    rfl
  -- the value
  obtain ⟨x, -, hargs, hval, -, -⟩ := run_extracts (R := fun b => Sound False True m.dim m.sq E.consts.length E'.rho b)
    (fun b hb => null_refines m h2 hm (fun k => E.consts.getD k 0) hD hC w E.consts.length _ (fun k hk => by
        unfold Env.rho
        rw [if_pos (by omega), g2]
        simp) (argMv args) b
      (fun n => NullPlain m.dim E.consts.length n ∧ ArgNode args n) (fun n h => h.1) (hin True _ b hb (fun _ => hρ)))
    (fun b b' a v hb h => h.mono hb) hx hg hp hs (by
      rintro p hp v x ⟨n, h1, h3⟩ hx
      simp only [mvOps, ok_inj] at hx ⊢
      subst hx
      have hr := createRef_stored ((ht p hp).stored h1) p.2
      rw [h1.packed.szT]
      exact ⟨_, ⟨(hr.mono fun i hi => ⟨Or.inl hi.1.2, hi.2⟩).toClean, fun h => h.elim⟩,
        fun _ => by rw [g5 p hp n ((ht p hp).stored h1), h3 trivial]⟩)
  obtain ⟨z, z1, z2, -⟩ := finalize_null h2 hm E' (by rw [g3, hdl]) hc (by rw [g2]; exact hval) (ho x (by rw [hargs]; simp)) hq h0
  refine ⟨z, ?_, z2⟩
  unfold runCompiled
  dsimp only
  rw [hfill, ok_bind]
  simp only [nullDim, if_true]
  rw [finalizeTemps_safe h2 hm _ _ ht fun p hp => by
    obtain ⟨n, hn⟩ := hst' p hp
    exact ⟨n, _, hn.toClean⟩]
  rw [g1, ok_bind, hargs, hrq]
  simp only [finishCompute, z1, ok_bind]
  rfl

/-- **C47 with common subexpressions.**  `compute` in an algebra with a null basis returns the value of the expression if the temporaries are
safe (a compile-time condition, as `compileExpr … = ok c` is): their elements contain both null generators or neither and their arrays have no
spare room.  Missing: other temporaries (the code is wrong, `C47_shared_false`), constants and selected elements with exactly one of the null
generators (the code is wrong), quotients and functions (the code is wrong, C64), and expressions for which `rpn_reshape` is wrong (see C36), which
`hx` excludes. -/
theorem C47_shared_partial (h2 : 2 ≤ m.dim) (hm : m.dim ≤ 8) (E : Env K)
    (hw : ∀ (k : Nat) (a : Arg K), args[k]? = some a → a.DenotesNull m.dim m.sq (argOffset args k) (w k)) (hD : IsDual K m.dim m.sq D)
    (hC : IsNullCoeff K m.dim m.sq C) {e : Rpne} {v : CliffordAlgebra (diagForm K m.dim m.sq)}
    (he : Means (nullInterp K m.dim m.sq (fun k => E.consts.getD k 0) D C w) e v) (hp : SupportedNull m.dim E.consts.length args e)
    {cap : Nat} (hx : ∀ (T : Tree) (r : Rpne), T.Good → e.nodes = T.post → reshape cap e = ok r → Extracts T e.q r)
    {c : Compiled} (hc : compileExpr m true cap args e = ok c) (hi : c.state.nextId ≤ indConstantStart)
    (ht : ∀ p ∈ c.state.temps, SafeTemp m.dim p.1) (ho : ∀ a ∈ c.state.args, ∃ r, toNullBasis m.dim a = ok r) :
    ∃ x, runCompiled m true E args c = ok [x] ∧ x.DenotesNull m.dim m.sq v := by
  by_cases h0 : e.nodes = []
  · refine ⟨⟨[], []⟩, compute_empty m true E args h0 hc, rfl, .nil, by simp, ?_⟩
    rcases he with ⟨-, rfl⟩ | ⟨t, _, hp, _⟩
    · rfl
    · have := t.post_pos
      rw [← hp, h0] at this
      cases this
  · obtain ⟨t, g, p, q1, q2, rfl⟩ := means_tree he h0
    obtain ⟨-, r, hr, s, hs, rfl⟩ := compileExpr_eq_ok.1 hc
    exact compute_null_extracts h2 hm E hw hD hC (hx t r g p hr) g q1 q2 (fun n hn => hp n (p ▸ hn)) hs hi ht ho

end

/-- The hypotheses of `C47_shared_partial` hold for `(a a)(a a)` with the conformal vector `a = no + 3 ni`: one temporary, referenced twice. -/
example : ∃ (D : _) (C : _) (w : Nat → CliffordAlgebra (diagForm ℚ 5 (Metric.sq ⟨4, 1, 0⟩))) (v : _) (c : Compiled),
    IsDual ℚ 5 (Metric.sq ⟨4, 1, 0⟩) D ∧ IsNullCoeff ℚ 5 (Metric.sq ⟨4, 1, 0⟩) C ∧
    (∀ (k : Nat) (a : Arg ℚ), [exPair.toArg][k]? = some a → a.DenotesNull 5 (Metric.sq ⟨4, 1, 0⟩) (argOffset [exPair.toArg] k) (w k)) ∧
    Means (nullInterp ℚ 5 (Metric.sq ⟨4, 1, 0⟩) (fun k => numEnv.consts.getD k 0) D C w) ⟨squareT.post, Rat32.one⟩ v ∧
    SupportedNull 5 numEnv.consts.length [exPair.toArg] ⟨squareT.post, Rat32.one⟩ ∧
    (∀ (T : Tree) (r : Rpne), T.Good → squareT.post = T.post → reshape 7 ⟨squareT.post, Rat32.one⟩ = ok r → Extracts T Rat32.one r) ∧
    compileExpr ⟨4, 1, 0⟩ true 7 [exPair.toArg] ⟨squareT.post, Rat32.one⟩ = ok c ∧ c.state.nextId ≤ indConstantStart ∧
    c.state.temps.length = 1 ∧ (∀ p ∈ c.state.temps, SafeTemp 5 p.1) ∧ ∀ a ∈ c.state.args, ∃ r, toNullBasis 5 a = ok r := by
  obtain ⟨D, hD⟩ := exists_isDual ℚ 5 (by decide) (Metric.sq ⟨4, 1, 0⟩)
  obtain ⟨C, hC⟩ := exists_isNullCoeff ℚ 5 (by decide) (by decide) (Metric.sq ⟨4, 1, 0⟩)
  obtain ⟨⟨known, out⟩, hraw⟩ := Out.exists_of_isOk (x := reshapeRaw 7 ⟨squareT.post, Rat32.one⟩) (by decide +kernel)
  obtain ⟨c, hc, u, hu⟩ := Out.chain_of_isOk (x := compileExpr ⟨4, 1, 0⟩ true 7 [exPair.toArg] ⟨squareT.post, Rat32.one⟩)
    (f := fun c => if c.state.nextId ≤ indConstantStart ∧ c.state.temps.length = 1 ∧ (∀ p ∈ c.state.temps, safeTemp 5 p.1 = true) ∧
      ∀ a ∈ c.state.args, (toNullBasis 5 a).isOk = true then ok () else .ub) (by decide +kernel)
  have hc2 : c.state.nextId ≤ indConstantStart ∧ c.state.temps.length = 1 ∧ (∀ p ∈ c.state.temps, safeTemp 5 p.1 = true) ∧
      ∀ a ∈ c.state.args, (toNullBasis 5 a).isOk = true := by
    split at hu
    · assumption
    · cases hu
  refine ⟨D, C, fun _ => pairsVal (K := ℚ) (nullElem ℚ 5 (Metric.sq ⟨4, 1, 0⟩)) [8, 16] [1, 3], _, c, hD, hC, ?_,
    Or.inr ⟨squareT, gpT_good (gpT_good (argT_good _) (argT_good _)) (gpT_good (argT_good _) (argT_good _)), rfl, Rat32.one_wf,
      by show (1 : Int) ≠ 0; decide, rfl⟩, ?_, fun T r hg h hr => ?_, hc, hc2.1, hc2.2.1, fun p hp => safeTemp_sound (hc2.2.2.1 p hp),
    fun a ha => Out.exists_of_isOk (hc2.2.2.2 a ha)⟩
  · intro k a hk
    match k with
    | 0 =>
      simp at hk
      subst hk
      exact C47_entity (dim := 5) (Metric.sq ⟨4, 1, 0⟩) (x := ⟨[8, 16], [1, 3]⟩) (off := 0) (by decide) (by decide) rfl (by decide)
    | k + 1 => simp at hk
  · intro n hn
    have h1 : ∀ n ∈ squareT.post, n.o < Op.comp ∧ (n.o = Op.id → n.ex = 0 ∧ n.checksum = 0) := by decide +kernel
    obtain ⟨h2, h3⟩ := h1 n hn
    simp only [Op.comp] at h2
    refine ⟨⟨plain_of_lt h2, fun h => by simp only [Op.cscalar] at h; omega, fun h => by simp only [Op.comp] at h; omega⟩, fun ho => ?_⟩
    obtain ⟨h4, h5⟩ := h3 ho
    rw [h4, h5]
    exact ⟨by decide, rfl⟩
  · have h1 : ∀ a ∈ squareT.post, ∀ b ∈ squareT.post, a.same b = true → a.q = b.q := by decide +kernel
    have h2 := refsEmitted_of_check (by decide +kernel) hraw
    rw [h] at h1 hraw hr
    exact C36_reshape_partial hg (coherent_of_nodes h1) (by decide) hraw h2 hr

end Gal
