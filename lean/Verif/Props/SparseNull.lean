import Verif.Spec.NullValues
import Verif.Props.SparseTuple

/-!
# C49: which coefficients a computation in an algebra with a null basis returns
-/

namespace Gal

open Out

variable {K : Type} [Field K]

/-- The coefficient of an element of the null basis. -/
theorem null_coeff {dim : Nat} {d : Nat → Int} {C : Nat → CliffordAlgebra (diagForm K dim d) →ₗ[K] CliffordAlgebra (diagForm K dim d)}
    (hC : IsNullCoeff K dim d C) {n : NMv} (hn : ElemsLt (2 ^ dim) n) (pw : Nat → ℚ → K) {e : Nat} (he : e < 2 ^ dim) :
    C e (mvVal pw (nullElem K dim d) n) = coeff pw n e • 1 := by
  rw [mvVal_linear pw (nullElem K dim d) (C e) n]
  have := mvVal_linear pw (fun x => if x = e then (1 : K) else 0)
    ((LinearMap.toSpanSingleton K (CliffordAlgebra (diagForm K dim d)) 1)) n
  rw [LinearMap.toSpanSingleton_apply] at this
  rw [coeff, this]
  refine mvVal_congr _ fun t ht => ?_
  rw [hC e he _ (hn t ht)]
  split <;> simp

/-- The indeterminates stand for coefficients of arguments with the values `w`. -/
def NullInputs (m : Metric) (args : List (Arg K)) (ρ : Nat → K) (w : Nat → CliffordAlgebra (diagForm K m.dim m.sq)) : Prop :=
  ∀ (k : Nat) (a : Arg K), args[k]? = some a →
    ∃ n, Clean (PosInd fun id => argOffset args k ≤ id ∧ id < argOffset args k + a.data.length) m.dim (a.ie (argOffset args k)) n ∧
      mvVal (intPow ρ) (nullElem K m.dim m.sq) n = w k

/-- All assignments of indeterminates come from some coefficients. -/
theorem exists_null_values {m : Metric} {args : List (Arg K)} {w : Nat → CliffordAlgebra (diagForm K m.dim m.sq)}
    (hw : ∀ (k : Nat) (a : Arg K), args[k]? = some a → a.DenotesNull m.dim m.sq (argOffset args k) (w k)) (ρ : Nat → K) :
    ∃ w', MayBeNull m args w' ∧ NullInputs m args ρ w' := by
  have hw' : ∀ k, ∃ v, ∀ a : Arg K, args[k]? = some a → ∃ n,
      Clean (PosInd fun id => argOffset args k ≤ id ∧ id < argOffset args k + a.data.length) m.dim (a.ie (argOffset args k)) n ∧
        mvVal (intPow ρ) (nullElem K m.dim m.sq) n = v := by
    intro k
    cases ha : args[k]? with
    | none => exact ⟨0, fun a h => by cases h⟩
    | some a =>
      obtain ⟨n, h1, -⟩ := hw k a ha
      exact ⟨_, fun a' h => by injection h with h; subst h; exact ⟨n, h1, rfl⟩⟩
  choose w' hw' using hw'
  refine ⟨w', ⟨setArgs args ρ, setArgs_types args ρ, fun k a' ha' => ?_⟩, hw'⟩
  obtain ⟨a, h1, h2, h3, h4⟩ := setArgs_get ρ ha'
  obtain ⟨n, h5, h6⟩ := hw' k a h1
  have ho := (setArgs_types args ρ).offset k
  refine ⟨n, ?_, fun ρ' hρ' => ?_⟩
  · rw [ho, h2, h3]; exact h5
  · rw [← h6]
    refine mvVal_congr_rho _ h5.inds fun i hi => ?_
    have := hρ' (i - argOffset args k) (by omega)
    rw [ho, ← h4 _ (by omega), show argOffset args k + (i - argOffset args k) = i by omega] at this
    exact this

/-- Values that the arguments may have come from assignments of indeterminates. -/
theorem MayBeNull.assign {m : Metric} {args : List (Arg K)} {w : Nat → CliffordAlgebra (diagForm K m.dim m.sq)} (h : MayBeNull m args w) :
    ∃ ρ : Nat → K, ∀ ρ' : Nat → K, (∀ i, i < argsSize args → ρ' i = ρ i) → NullInputs m args ρ' w := by
  obtain ⟨args', h1, h2⟩ := h
  have hsz : argsSize args' = argsSize args := by
    have := h1.offset args.length
    unfold argOffset at this
    have hl : args'.length = args.length := by
      have := congrArg List.length h1
      simpa using this
    rwa [List.take_length, ← hl, List.take_length] at this
  refine ⟨fun i => (args'.map fun a => a.data).flatten.getD i 0, fun ρ' hρ' k a ha => ?_⟩
  obtain ⟨a', g1, g2, g3⟩ := h1.get ha
  obtain ⟨n, g4, g5⟩ := h2 k a' g1
  rw [h1.offset, g2, g3] at g4
  refine ⟨n, g4, g5 ρ' fun i hi => ?_⟩
  have hb := argOffset_le args' g1
  rw [hρ' _ (by omega)]
  have hlen : (args'.map fun a => a.data).flatten.length ≤ (List.replicate (argsSize args') (0 : K)).length := by
    rw [← argsSize_eq, List.length_replicate]
  obtain ⟨out, o1, o2⟩ := C41_position (args'.map fun a => a.data) _ hlen (k := k) (i := i) (d := a'.data) (v := a'.data.getD i 0)
    (by rw [List.getElem?_map, g1]; rfl) (by rw [List.getElem?_eq_getElem hi, List.getD_eq_getElem _ _ hi])
  rw [C41_fill _ _ hlen, ok_inj] at o1
  subst o1
  rw [← argOffset_eq] at o2
  simp only [List.getD_eq_getElem?_getD] at o2 ⊢
  rw [List.getElem?_append_left (by rw [← argsSize_eq]; omega)] at o2
  rw [o2]
  rfl

section

variable [CharZero K] {m : Metric} {args : List (Arg K)} {w : Nat → CliffordAlgebra (diagForm K m.dim m.sq)}
  {D : CliffordAlgebra (diagForm K m.dim m.sq) →ₗ[K] CliffordAlgebra (diagForm K m.dim m.sq)}
  {C : Nat → CliffordAlgebra (diagForm K m.dim m.sq) →ₗ[K] CliffordAlgebra (diagForm K m.dim m.sq)}

/-- The operations of the stack machine, for all values of the arguments. -/
theorem null_refines_all (h2 : 2 ≤ m.dim) (hm : m.dim ≤ 8) (nc : Nat) (hD : IsDual K m.dim m.sq D) (hC : IsNullCoeff K m.dim m.sq C) {ρ : Nat → K}
    (hw : NullInputs m args ρ w) :
    Refines (mvOps m true) (argMv args) (nullInterp K m.dim m.sq (fun k => ρ (k + indConstantStart)) D C w)
      (Sound False True m.dim m.sq nc ρ (argsSize args)) (fun n => NullPlain m.dim nc n ∧ ArgNode args n) := by
  refine null_refines m h2 hm _ hD hC w _ _ (fun k hk => rfl) _ _ _ (fun n h => h.1) ?_
  intro n hn ho x hx
  obtain ⟨h1, h3⟩ := hn.2 ho
  have hk := List.getElem?_eq_getElem h1
  obtain ⟨na, i1, i2⟩ := hw _ _ hk
  have he : argMv args n.ex n.checksum = args[n.ex].ie (argOffset args n.ex) := by
    unfold argMv
    rw [hk, h3]
  simp only [mvOps, if_true, he] at hx
  obtain ⟨nx, j1, j2⟩ := toNatural_sound (K := K) h2 hm i1 hx
  have := argOffset_le args hk
  refine ⟨nx, ⟨⟨j1.packed, j1.canon, j1.elems, j1.inds.mono fun i hi => ⟨Or.inl (by have := hi.1; omega), hi.2⟩⟩, fun h => h.elim⟩, fun _ => ?_⟩
  rw [j2]
  exact i2

/-- The elements of a result are those that occur for some values. -/
theorem null_support (h2 : 2 ≤ m.dim) (hm : m.dim ≤ 8) (hC : IsNullCoeff K m.dim m.sq C) (hi : argsSize args ≤ indConstantStart)
    (hw : ∀ (k : Nat) (a : Arg K), args[k]? = some a → a.DenotesNull m.dim m.sq (argOffset args k) (w k))
    {a r : Mv} {nr : NMv} (hr : toNullBasis m.dim a = ok r) (hnr : Packed r nr) {nc : Nat} {e : Rpne} {q : Rat32} (q1 : q.WF) (q2 : q.num ≠ 0)
    (H : ∀ (ρ : Nat → K) (w' : Nat → CliffordAlgebra (diagForm K m.dim m.sq)), NullInputs m args ρ w' →
      ∃ v', Means (nullInterp K m.dim m.sq (fun k => ρ (k + indConstantStart)) D C w') e (q.toQ • v') ∧
        Sound False True m.dim m.sq nc ρ (argsSize args) a v') (g : Nat) :
    g ∈ nr.map (·.element) ↔ g < 2 ^ m.dim ∧ ∃ (named : Nat → K) (w' : Nat → CliffordAlgebra (diagForm K m.dim m.sq))
      (v' : CliffordAlgebra (diagForm K m.dim m.sq)), MayBeNull m args w' ∧ Means (nullInterp K m.dim m.sq named D C w') e v' ∧ C g v' ≠ 0 := by
  have hq0 : (q.toQ : K) ≠ 0 := by
    rw [Ne, Rat.cast_eq_zero]
    exact fun h => q2 ((Rat32.toQ_eq_zero q1).1 h)
  have key : ∀ (ρ : Nat → K) (w' : Nat → CliffordAlgebra (diagForm K m.dim m.sq)), NullInputs m args ρ w' → CanonMv nr ∧ ElemsLt (2 ^ m.dim) nr ∧
      ∃ v', Means (nullInterp K m.dim m.sq (fun k => ρ (k + indConstantStart)) D C w') e v' ∧
        (g < 2 ^ m.dim → C g v' = ((q.toQ : K) * coeff (intPow ρ) nr g) • 1) := by
    intro ρ w' h
    obtain ⟨v', h3, na, h4, h5⟩ := H ρ w' h
    obtain ⟨nr', h6, h7⟩ := toNull_sound (K := K) h2 hm h4.toClean hr
    have := h6.packed.unique hnr
    subst this
    refine ⟨h6.canon, h6.elems, _, h3, fun hg => ?_⟩
    rw [← h5 trivial, ← h7, ← qsmul_eq (K := K), map_smul, null_coeff hC h6.elems _ hg, smul_smul]
  rw [List.mem_map]
  constructor
  · rintro ⟨tm, ht, rfl⟩
    obtain ⟨w0, -, k0⟩ := exists_null_values hw (fun _ => (0 : K))
    obtain ⟨c1, c2, -⟩ := key _ _ k0
    obtain ⟨ρ, hρ⟩ := canon_witness (K := K) c1 ht
    obtain ⟨w', k1, k2⟩ := exists_null_values hw ρ
    obtain ⟨-, -, v', k3, k4⟩ := key ρ w' k2
    refine ⟨c2 tm ht, fun k => ρ (k + indConstantStart), w', v', k1, k3, ?_⟩
    rw [k4 (c2 tm ht)]
    intro h0
    exact mul_ne_zero hq0 hρ (smul_one_inj (h0.trans (zero_smul K _).symm))
  · rintro ⟨hg, named, w', v', k1, k2, k3⟩
    obtain ⟨ρ, k4⟩ := k1.assign
    obtain ⟨-, -, v'', k5, k6⟩ := key (fun i => if indConstantStart ≤ i then named (i - indConstantStart) else ρ i) w'
      (k4 _ fun i hi => by rw [if_neg (by omega)])
    have hnm : (fun k => (fun i => if indConstantStart ≤ i then named (i - indConstantStart) else ρ i) (k + indConstantStart)) = named := by
      funext k
      simp
    rw [hnm] at k5
    rw [means_unique k2 k5, k6 hg] at k3
    by_contra hne
    push Not at hne
    exact k3 (by rw [coeff_absent _ _ _ hne, mul_zero, zero_smul])

/-- **C49 in a null basis.**  The elements of the entity that `compute` returns are exactly those elements of the null basis whose coefficient is not zero
for some coefficients of the arguments.  Missing: what is missing in `C47_compute_partial`.  The hypotheses are those of `C47_compute_partial`, with
an example there. -/
theorem C49_null_partial (h2 : 2 ≤ m.dim) (hm : m.dim ≤ 8) (E : Env K)
    (hw : ∀ (k : Nat) (a : Arg K), args[k]? = some a → a.DenotesNull m.dim m.sq (argOffset args k) (w k)) (hD : IsDual K m.dim m.sq D)
    (hC : IsNullCoeff K m.dim m.sq C) {e : Rpne} {v : CliffordAlgebra (diagForm K m.dim m.sq)}
    (he : Means (nullInterp K m.dim m.sq (fun k => E.consts.getD k 0) D C w) e v) (hp : SupportedNull m.dim E.consts.length args e)
    (hd : ∀ (p q : Nat) (a b : Node), e.nodes[p]? = some a → e.nodes[q]? = some b → IsShared a.o → a.o = b.o → a.checksum = b.checksum →
      a.ex = b.ex → p = q)
    {cap : Nat} {c : Compiled} (hc : compileExpr m true cap args e = ok c) (hi : argsSize args ≤ indConstantStart)
    (ho : ∀ a ∈ c.state.args, ∃ r, toNullBasis m.dim a = ok r) :
    ∃ x, runCompiled m true E args c = ok [x] ∧ x.DenotesNull m.dim m.sq v ∧
      ∀ g, g ∈ x.elements ↔ g < 2 ^ m.dim ∧ ∃ (named : Nat → K) (w' : Nat → CliffordAlgebra (diagForm K m.dim m.sq))
        (v' : CliffordAlgebra (diagForm K m.dim m.sq)), MayBeNull m args w' ∧ Means (nullInterp K m.dim m.sq named D C w') e v' ∧ C g v' ≠ 0 := by
  by_cases h0 : e.nodes = []
  · refine ⟨⟨[], []⟩, compute_empty m true E args h0 hc, ⟨rfl, .nil, by simp, ?_⟩, fun g => ⟨by simp, ?_⟩⟩
    · rcases he with ⟨-, rfl⟩ | ⟨t, _, hp, _⟩
      · rfl
      · have := t.post_pos
        rw [← hp, h0] at this
        cases this
    · rintro ⟨-, named, w', v', -, h, hg⟩
      rcases h with ⟨-, rfl⟩ | ⟨t, _, hp, _⟩
      · simp at hg
      · have := t.post_pos
        rw [← hp, h0] at this
        cases this
  obtain ⟨t, g, p, q1, q2, rfl⟩ := means_tree he h0
  obtain ⟨ns, q⟩ := e
  dsimp only at p q1 q2
  subst p
  obtain ⟨x, a, -, x1, x2, ha, r, nr, hr, hnr, x3⟩ := null_elems h2 hm E hw hD hC g q1 q2 hp hd hc hi ho
  refine ⟨x, x1, x2, fun el => ?_⟩
  rw [x3]
  exact null_support (D := D) (nc := E.consts.length) h2 hm hC hi hw hr hnr q1 q2 (fun ρ w' h => ⟨_, Or.inr ⟨t, g, rfl, q1, q2, rfl⟩,
    eval_tree (null_refines_all h2 hm _ hD hC h) g hp ha⟩) el

/-- C49 in a null basis for a lambda that returns a tuple, with the hypotheses of `C47_tuple_partial`. -/
theorem C49_null_tuple_partial (h2 : 2 ≤ m.dim) (hm : m.dim ≤ 8) (E : Env K)
    (hw : ∀ (k : Nat) (a : Arg K), args[k]? = some a → a.DenotesNull m.dim m.sq (argOffset args k) (w k)) (hD : IsDual K m.dim m.sq D)
    (hC : IsNullCoeff K m.dim m.sq C) {es : List Rpne} {vs : List (CliffordAlgebra (diagForm K m.dim m.sq))} (hne : es ≠ [])
    (he : List.Forall₂ (Means (nullInterp K m.dim m.sq (fun k => E.consts.getD k 0) D C w)) es vs) (h0 : ∀ e ∈ es, e.nodes ≠ [])
    (hp : ∀ e ∈ es, SupportedNull m.dim E.consts.length args e)
    (hd : ∀ (p q : Nat) (a b : Node), (concatExpr es).nodes[p]? = some a → (concatExpr es).nodes[q]? = some b → IsShared a.o → a.o = b.o →
      a.checksum = b.checksum → a.ex = b.ex → p = q)
    {cap : Nat} {c : Compiled} (hc : compileExpr m true cap args (concatExpr es) = ok c) (hi : argsSize args ≤ indConstantStart)
    (ho : ∀ a ∈ c.state.args, ∃ r, toNullBasis m.dim a = ok r) :
    ∃ xs, runCompiled m true E args c = ok xs ∧ List.Forall₂ (fun x v => x.DenotesNull m.dim m.sq v) xs vs ∧
      List.Forall₂ (fun x e => ∀ g, g ∈ x.elements ↔ g < 2 ^ m.dim ∧ ∃ (named : Nat → K) (w' : Nat → CliffordAlgebra (diagForm K m.dim m.sq))
        (v' : CliffordAlgebra (diagForm K m.dim m.sq)), MayBeNull m args w' ∧ Means (nullInterp K m.dim m.sq named D C w') e v' ∧ C g v' ≠ 0)
        xs es := by
  obtain ⟨f, f1, f2, f3⟩ := concat_forest_all he h0
  have f3' : f.vals (nullInterp K m.dim m.sq (fun k => E.consts.getD k 0) D C w) = vs := by
    have := f3 (nullInterp K m.dim m.sq (fun k => E.consts.getD k 0) D C w)
    clear hp hd hc h0 f1 hne
    generalize f.vals (nullInterp K m.dim m.sq (fun k => E.consts.getD k 0) D C w) = us at this
    clear f3 f2
    induction he generalizing us with
    | nil => cases this; rfl
    | cons h _ ih =>
      cases this with
      | cons h' hs => rw [means_unique h' h, ih _ hs]
  have hvs : vs ≠ [] := by rintro rfl; cases he; exact hne rfl
  obtain ⟨xs, as, -, x1, x2, x3, x4⟩ := null_tuple_elems h2 hm E hw hD hC hvs f1 f2 f3' hp hd hc hi ho
  have hpn : ∀ n ∈ f.post, NullPlain m.dim E.consts.length n ∧ ArgNode args n := by
    intro n hn
    rw [f1] at hn
    obtain ⟨e, h1, h2⟩ := List.mem_flatMap.1 hn
    rcases List.mem_cons.1 h2 with rfl | h2
    · exact ⟨⟨plain_of_lt (by show Op.se < 11; decide), fun h => absurd h (by show ¬ Op.cscalar ≤ Op.se; decide),
        fun h => absurd h (by show ¬ Op.se = Op.comp; decide)⟩, fun h => absurd h (by show ¬ Op.se = Op.id; decide)⟩
    · exact hp e h1 n h2
  refine ⟨xs, x1, x2, List.forall₂_iff_get.2 ⟨x2.length_eq.trans he.length_eq.symm, fun i hxi hei el => ?_⟩⟩
  have gx : xs[i]? = some (xs.get ⟨i, hxi⟩) := List.getElem?_eq_getElem hxi
  have ge : es[i]? = some (es.get ⟨i, hei⟩) := List.getElem?_eq_getElem hei
  generalize xs.get ⟨i, hxi⟩ = x at gx ⊢
  generalize es.get ⟨i, hei⟩ = e at ge ⊢
  obtain ⟨a, ga, r, nr, hr, hnr, hx⟩ := forall₂_get x4 gx
  rw [hx]
  refine null_support (D := D) (nc := E.consts.length) h2 hm hC hi hw hr hnr Rat32.one_wf (by show (1 : Int) ≠ 0; decide) (fun ρ w' h => ?_) el
  obtain ⟨v', gv, h1⟩ := forall₂_get (eval_forest (null_refines_all h2 hm E.consts.length hD hC h) f2 (fun q h => Or.inr h) hpn x3) ga
  obtain ⟨v'', gv', h3⟩ := forall₂_get (f3 (nullInterp K m.dim m.sq (fun k => ρ (k + indConstantStart)) D C w')) ge
  obtain rfl : v' = v'' := by rw [gv] at gv'; injection gv'
  exact ⟨v', by rw [one_toQ_smul]; exact h3, h1⟩

end

end Gal
