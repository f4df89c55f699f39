import Verif.Spec.Values
import Verif.Spec.QuotValue
import Verif.Props.Unique
import Verif.Props.Quotient
import Verif.ReshapeQuot

/-!
# Which coefficients a computation returns
-/

namespace Gal

open Out

variable {K : Type} [Field K]

section cast

variable [CharZero K]

theorem indsVal_cast (ρ : Nat → ℚ) (l : List Ind) : indsVal (intPow fun i => (ρ i : K)) l = ((indsVal (intPow ρ) l : ℚ) : K) := by
  induction l with
  | nil => simp
  | cons i l ih =>
    rw [indsVal_cons, indsVal_cons, ih, Rat.cast_mul]
    congr 1
    unfold Ind.val intPow
    push_cast
    rfl

theorem monsVal_cast (ρ : Nat → ℚ) (l : List NMon) : monsVal (intPow fun i => (ρ i : K)) l = ((monsVal (intPow ρ) l : ℚ) : K) := by
  induction l with
  | nil => simp
  | cons x l ih =>
    rw [monsVal_cons, monsVal_cons, ih, Rat.cast_add]
    congr 1
    unfold NMon.val
    rw [indsVal_cast]
    push_cast
    rfl

/-- A term of a canonical multivector does not vanish for all values of the indeterminates. -/
theorem canon_witness {n : NMv} (hc : CanonMv n) {t : NTerm} (ht : t ∈ n) : ∃ ρ : Nat → K, coeff (intPow ρ) n t.element ≠ 0 := by
  by_contra h
  push Not at h
  refine (hc.terms t ht).2 (mons_unique (hc.terms t ht).1 ⟨by simp, by simp⟩ fun ρ => ?_)
  have := h fun i => ((ρ i : ℚ) : K)
  rw [coeff_mem _ hc.asc ht, monsVal_cast] at this
  simpa using this

end cast

/-- The coordinates of the value are the coefficients. -/
theorem coords_value {dim : Nat} {d : Nat → Int} {n : NMv} (he : ElemsLt (2 ^ dim) n) (pw : Nat → ℚ → K) (e : Nat) :
    bladeCoords K dim d (mvVal pw (cliffBlade K dim d) n) e = coeff pw n e := by
  have := mvVal_linear pw (cliffBlade K dim d) ((Finsupp.lapply e : (Nat →₀ K) →ₗ[K] K).comp (bladeCoords K dim d)) n
  rw [LinearMap.comp_apply, Finsupp.lapply_apply] at this
  rw [this]
  refine mvVal_congr _ fun t ht => ?_
  rw [LinearMap.comp_apply, bladeCoords_blade K dim d _ (he t ht), Finsupp.lapply_apply, Finsupp.single_apply]

/-- A multivector that is a scalar for all values of the indeterminates has no element but the scalar. -/
theorem canon_scalar [CharZero K] {dim : Nat} {d : Nat → Int} {n : NMv} (hc : CanonMv n) (he : ElemsLt (2 ^ dim) n)
    (h : ∀ ρ : Nat → K, ∃ s : K, mvVal (intPow ρ) (cliffBlade K dim d) n = s • 1) : ∀ t ∈ n, t.element = 0 := by
  intro t ht
  obtain ⟨ρ, hρ⟩ := canon_witness (K := K) hc ht
  obtain ⟨s, hs⟩ := h ρ
  rw [← coords_value he (d := d), hs, ← cliffBlade_zero, map_smul, bladeCoords_blade K dim d 0 (Nat.two_pow_pos dim)] at hρ
  by_contra h0
  rw [Finsupp.smul_apply, Finsupp.single_apply, if_neg (Ne.symm h0), smul_zero] at hρ
  exact hρ rfl

/-! ## All values of the arguments -/

omit [Field K] in
theorem argOffset_map {args args' : List (Arg K)} (h : args'.map (fun a => (a.ie, a.data.length)) = args.map fun a => (a.ie, a.data.length)) (k : Nat) :
    argOffset args' k = argOffset args k := by
  unfold argOffset argsSize
  have : ∀ l : List (Arg K), (l.map fun a => a.data.length) = (l.map fun a => (a.ie, a.data.length)).map Prod.snd := by
    intro l; rw [List.map_map]; rfl
  simp only [this, List.map_take, h]

omit [Field K] in
theorem SameTypes.offset {args args' : List (Arg K)} (h : SameTypes args args') (k : Nat) : argOffset args' k = argOffset args k :=
  argOffset_map h k

omit [Field K] in
theorem SameTypes.get {args args' : List (Arg K)} (h : SameTypes args args') {k : Nat} {a : Arg K} (hk : args[k]? = some a) :
    ∃ a', args'[k]? = some a' ∧ a'.ie = a.ie ∧ a'.data.length = a.data.length := by
  have := congrArg (fun l => l[k]?) h
  simp only [List.getElem?_map, hk, Option.map_some, Option.map_eq_some_iff] at this
  obtain ⟨a', h1, h2⟩ := this
  simp only [Prod.mk.injEq] at h2
  exact ⟨a', h1, h2⟩

/-- The arguments whose coefficients are given by `ρ`. -/
def setArgs (args : List (Arg K)) (ρ : Nat → K) : List (Arg K) :=
  args.mapIdx fun k a => { a with data := (List.range a.data.length).map fun i => ρ (argOffset args k + i) }

omit [Field K] in
theorem setArgs_types (args : List (Arg K)) (ρ : Nat → K) : SameTypes args (setArgs args ρ) := by
  unfold SameTypes setArgs
  apply List.ext_getElem?
  intro k
  rw [List.getElem?_map, List.getElem?_map, List.getElem?_mapIdx]
  cases args[k]? <;> simp

theorem setArgs_get {args : List (Arg K)} (ρ : Nat → K) {k : Nat} {a' : Arg K} (h : (setArgs args ρ)[k]? = some a') :
    ∃ a, args[k]? = some a ∧ a'.ie = a.ie ∧ a'.data.length = a.data.length ∧
      ∀ i, i < a'.data.length → ρ (argOffset args k + i) = a'.data.getD i 0 := by
  unfold setArgs at h
  rw [List.getElem?_mapIdx, Option.map_eq_some_iff] at h
  obtain ⟨a, h1, rfl⟩ := h
  refine ⟨a, h1, rfl, by simp, fun i hi => ?_⟩
  simp only [List.length_map, List.length_range] at hi
  simp [List.getD_eq_getElem?_getD, hi]

/-- All assignments of indeterminates come from some coefficients. -/
theorem exists_values {m : Metric} {args : List (Arg K)} {w : Nat → CliffordAlgebra (diagForm K m.dim m.sq)}
    (hw : ∀ (k : Nat) (a : Arg K), args[k]? = some a → a.Denotes m.dim m.sq (argOffset args k) (w k)) (ρ : Nat → K) :
    ∃ w', MayBe m args w' ∧ ∀ (k : Nat) (a : Arg K), args[k]? = some a →
      ∃ n, Stored (PosInd fun id => argOffset args k ≤ id ∧ id < argOffset args k + a.data.length) m.dim (a.ie (argOffset args k)) n ∧
        mvVal (intPow ρ) (cliffBlade K m.dim m.sq) n = w' k := by
  have hw' : ∀ k, ∃ v, ∀ a : Arg K, args[k]? = some a → ∃ n,
      Stored (PosInd fun id => argOffset args k ≤ id ∧ id < argOffset args k + a.data.length) m.dim (a.ie (argOffset args k)) n ∧
        mvVal (intPow ρ) (cliffBlade K m.dim m.sq) n = v := by
    intro k
    cases ha : args[k]? with
    | none => exact ⟨0, fun a h => by cases h⟩
    | some a =>
      obtain ⟨n, h1, -⟩ := hw k a ha
      exact ⟨_, fun a' h => by injection h with h; subst h; exact ⟨n, h1, rfl⟩⟩
  choose w' hw' using hw'
  refine ⟨w', ⟨setArgs args ρ, setArgs_types args ρ, fun k a' ha' => ?_⟩, hw'⟩
  obtain ⟨a, h1, h2, h3, h4⟩ := setArgs_get ρ ha'
  obtain ⟨n, h5, h6⟩ := hw' k a h1
  have ho := (setArgs_types args ρ).offset k
  refine ⟨n, ?_, fun ρ' hρ' => ?_⟩
  · rw [ho, h2, h3]; exact h5
  · rw [← h6]
    refine mvVal_congr_rho _ h5.inds fun i hi => ?_
    have := hρ' (i - argOffset args k) (by omega)
    rw [ho, ← h4 _ (by omega), show argOffset args k + (i - argOffset args k) = i by omega] at this
    exact this

/-- Values that the arguments may have come from assignments of indeterminates. -/
theorem MayBe.assign {m : Metric} {args : List (Arg K)} {w : Nat → CliffordAlgebra (diagForm K m.dim m.sq)} (h : MayBe m args w) :
    ∃ ρ : Nat → K, (∀ i, argsSize args ≤ i → ρ i = 0) ∧ ∀ (k : Nat) (a : Arg K), args[k]? = some a →
      ∃ n, Stored (PosInd fun id => argOffset args k ≤ id ∧ id < argOffset args k + a.data.length) m.dim (a.ie (argOffset args k)) n ∧
        ∀ ρ' : Nat → K, (∀ i, i < argsSize args → ρ' i = ρ i) → mvVal (intPow ρ') (cliffBlade K m.dim m.sq) n = w k := by
  obtain ⟨args', h1, h2⟩ := h
  have hsz : argsSize args' = argsSize args := by
    have := h1.offset args.length
    unfold argOffset at this
    have hl : args'.length = args.length := by
      have := congrArg List.length h1
      simpa using this
    rwa [List.take_length, ← hl, List.take_length] at this
  refine ⟨fun i => (args'.map fun a => a.data).flatten.getD i 0, fun i hi => ?_, fun k a ha => ?_⟩
  · rw [← hsz, argsSize_eq] at hi
    simp only [List.getD_eq_getElem?_getD]
    rw [List.getElem?_eq_none hi]
    rfl
  · obtain ⟨a', g1, g2, g3⟩ := h1.get ha
    obtain ⟨n, g4, g5⟩ := h2 k a' g1
    rw [h1.offset, g2, g3] at g4
    refine ⟨n, g4, fun ρ' hρ' => g5 ρ' fun i hi => ?_⟩
    have hb := argOffset_le args' g1
    rw [hρ' _ (by omega)]
    have hlen : (args'.map fun a => a.data).flatten.length ≤ (List.replicate (argsSize args') (0 : K)).length := by
      rw [← argsSize_eq, List.length_replicate]
    obtain ⟨out, o1, o2⟩ := C41_position (args'.map fun a => a.data) _ hlen (k := k) (i := i) (d := a'.data) (v := a'.data.getD i 0)
      (by rw [List.getElem?_map, g1]; rfl) (by rw [List.getElem?_eq_getElem hi, List.getD_eq_getElem _ _ hi])
    rw [C41_fill _ _ hlen, ok_inj] at o1
    subst o1
    rw [← argOffset_eq] at o2
    simp only [List.getD_eq_getElem?_getD] at o2 ⊢
    rw [List.getElem?_append_left (by rw [← argsSize_eq]; omega)] at o2
    rw [o2]
    rfl

/-- Evaluation without references, for all values of the arguments. -/
theorem noRef_eval [CharZero K] {m : Metric} (hm : m.dim ≤ 8) {args : List (Arg K)} {nc : Nat}
    {D : CliffordAlgebra (diagForm K m.dim m.sq) →ₗ[K] CliffordAlgebra (diagForm K m.dim m.sq)} (hD : IsDual K m.dim m.sq D)
    {σ : Nat → Tree} {t u : Tree} (hs : t.Shape) (he : (t.expand σ).Eqv u) (hg : u.Good) (hn : t.NoRef)
    (hp : ∀ n ∈ u.post, Plain m.dim nc n ∧ ArgNode args n) {vs : List (Mv × Nat)} {x : Mv}
    (hx : t.eval (mvOps m false) (argMv args) vs = ok x) {ρ : Nat → K} {w' : Nat → CliffordAlgebra (diagForm K m.dim m.sq)}
    (hw : ∀ (k : Nat) (a : Arg K), args[k]? = some a →
      ∃ n, Stored (PosInd fun id => argOffset args k ≤ id ∧ id < argOffset args k + a.data.length) m.dim (a.ie (argOffset args k)) n ∧
        mvVal (intPow ρ) (cliffBlade K m.dim m.sq) n = w' k) :
    SoundOn True True m.dim m.sq (Avail (argsSize args) nc) ρ x
      (u.val (cliffInterp K m.dim m.sq (fun k => ρ (k + indConstantStart)) D w')) := by
  refine eval_refs (A := fun k => Plain m.dim nc k ∧ ArgNode args k) (R := SoundOn True True m.dim m.sq (Avail (argsSize args) nc) ρ)
    (mv_refines_on True True m hm false (fun k => ρ (k + indConstantStart)) D hD w' nc _ (fun _ k hk => rfl) (argMv args) _ _ (fun n h => h.1) ?_ ?_)
    hs he hg (fun n _ _ k hk _ => hp k hk) (fun n hn' hc => absurd hc (hn n hn')) hx
  · rintro n ⟨h1, -⟩ h2 h3
    rcases h1.const (by omega) with h | h | h
    · omega
    · exact Or.inr ⟨by omega, by rw [Nat.add_sub_cancel]; exact h.2⟩
    · simp only [Op.cscalar, Op.cend] at h h3; omega
  · rintro n ⟨-, hn⟩ ho x hx
    obtain ⟨h1, h2⟩ := hn ho
    have hk := List.getElem?_eq_getElem h1
    obtain ⟨na, i1, i2⟩ := hw _ _ hk
    have he : argMv args n.ex n.checksum = args[n.ex].ie (argOffset args n.ex) := by
      unfold argMv
      rw [hk, h2]
    simp only [mvOps, Bool.false_eq_true, if_false, he, ok_inj] at hx
    subst hx
    have := argOffset_le args hk
    exact ⟨na, i1.mono fun i hi => ⟨Or.inl (by have := hi.1; omega), hi.2⟩, fun _ => i2⟩

/-! ## The elements of the result -/

theorem no_quot_operands {T : Tree} (hq : ∀ n ∈ T.post, ¬ IsQuot n.o) : QuotOperands T := by
  constructor
  · intro p d l r h ho
    exact absurd (Or.inl ho) (hq d (h.mem d (by rw [Tree.post]; simp)))
  · intro p d t h ho
    exact absurd (Or.inr ho) (hq d (h.mem d (by rw [Tree.post]; simp)))

theorem noRef_reshape {T : Tree} (hg : T.Good) (hd : T.Distinct) (hq : ∀ n ∈ T.post, ¬ IsQuot n.o) {cap : Nat} (hcap : cap < 2 ^ 64) {q : Rat32} {r : Rpne}
    (h : reshape cap ⟨T.post, q⟩ = ok r) :
    ∃ σ ts m, r.nodes = blocks ts ++ m.post ∧ ComputesBy σ ts m T ∧ m.NoRef ∧ r.q = q := by
  unfold reshape at h
  rw [bind_eq_ok] at h
  obtain ⟨⟨known, out⟩, hraw, h⟩ := h
  obtain ⟨σ, ts, m, e, hC, -, -, hm⟩ := reshape_splits hg.noRef hg.shape hd (no_quot_operands hq) hcap hraw
  simp only [e, ok_bind] at h
  split at h
  · cases h
  · rw [pure_eq, ok_inj] at h
    subst h
    refine ⟨σ, ts, m, rfl, hC, hm.noRef (Tree.at_zero T) hg.noRef hq ?_, rfl⟩
    rintro ⟨n, hn, -⟩
    rw [Nat.zero_add, List.getElem?_eq_none (le_refl _)] at hn
    cases hn

/-- The main tree is evaluated after the temporaries. -/
theorem run_main {α : Type} {M : Ops α} {ie : Nat → Nat → α} {σ : Nat → Tree} {ts : List Tree} {m T : Tree} (hC : ComputesBy σ ts m T) {id : Nat}
    {s : RState α} {r : Rpne} (e : r.nodes = blocks ts ++ m.post)
    (hs : runNodes M r.nodes.length r.nodes ⟨gatherInputs ie r.nodes, [], [], id⟩ = ok s) :
    ∃ y, s.args = [y] ∧ m.eval M ie s.temps = ok y := by
  obtain ⟨hts, hms, -⟩ := hC
  have hs' : run M (blocks ts ++ m.post) ⟨gatherInputs ie (blocks ts ++ m.post), [], [], id⟩ = ok s := by
    rw [← e]; exact hs
  have hsh : ∀ t ∈ ts, t.Shape := by
    intro t ht
    obtain ⟨j, hj⟩ := List.getElem?_of_mem ht
    exact (hts j t hj).1
  obtain ⟨vs, id', hl, hc, hv, hr⟩ := run_blocks (ie := ie) hsh (gatherInputs_append _ _ _) hs'
  rw [← List.append_nil m.post, run_tree M ie m hms [] _ [] (by simp), bind_eq_ok] at hr
  obtain ⟨x, hx, hr⟩ := hr
  rw [run_nil, ok_inj] at hr
  subst hr
  exact ⟨x, rfl, hx⟩

/-- **C49.**  The elements of the entity that `compute` returns are exactly those whose coefficient is not zero for some coefficients of the
arguments (named constants count as unknowns).  Missing: null bases (`C49_null_partial`), tuples (`C49_tuple_partial`), quotients and functions, and expressions in which an operation
occurs twice; for the latter three it is false (`C49_quotient_false`, `C49_function_false`, `C49_shared_false`). -/
theorem C49_sparse_partial [CharZero K] (m : Metric) (hm : m.dim ≤ 8) (E : Env K) (args : List (Arg K))
    {w : Nat → CliffordAlgebra (diagForm K m.dim m.sq)}
    (hw : ∀ (k : Nat) (a : Arg K), args[k]? = some a → a.Denotes m.dim m.sq (argOffset args k) (w k))
    {D : CliffordAlgebra (diagForm K m.dim m.sq) →ₗ[K] CliffordAlgebra (diagForm K m.dim m.sq)} (hD : IsDual K m.dim m.sq D)
    {e : Rpne} {v : CliffordAlgebra (diagForm K m.dim m.sq)}
    (he : Means (cliffInterp K m.dim m.sq (fun k => E.consts.getD k 0) D w) e v) (hp : Supported m.dim E.consts.length args e)
    (hd : ∀ (p q : Nat) (a b : Node), e.nodes[p]? = some a → e.nodes[q]? = some b → IsShared a.o → a.o = b.o → a.checksum = b.checksum →
      a.ex = b.ex → p = q)
    {cap : Nat} (hcap : cap < 2 ^ 64)
    {c : Compiled} (hc : compileExpr m false cap args e = ok c) (hi : c.state.nextId ≤ indConstantStart) :
    ∃ x, runCompiled m false E args c = ok [x] ∧ x.Denotes m.dim m.sq v ∧
      ∀ g, g ∈ x.elements ↔ ∃ (named : Nat → K) (w' : Nat → CliffordAlgebra (diagForm K m.dim m.sq)) (v' : CliffordAlgebra (diagForm K m.dim m.sq)),
        MayBe m args w' ∧ Means (cliffInterp K m.dim m.sq named D w') e v' ∧ bladeCoords K m.dim m.sq v' g ≠ 0 := by
  by_cases h0 : e.nodes = []
  · refine ⟨⟨[], []⟩, compute_empty m false E args h0 hc, ⟨rfl, .nil, by simp, ?_⟩, fun g => ⟨by simp, ?_⟩⟩
    · rcases he with ⟨-, rfl⟩ | ⟨t, _, hp, _⟩
      · rfl
      · have := t.post_pos
        rw [← hp, h0] at this
        cases this
    · rintro ⟨named, w', v', -, h, hg⟩
      rcases h with ⟨-, rfl⟩ | ⟨t, _, hp, _⟩
      · simp at hg
      · have := t.post_pos
        rw [← hp, h0] at this
        cases this
  · obtain ⟨t, g, p, q1, q2, rfl⟩ := means_tree he h0
    obtain ⟨-, r, hr, s, hs, rfl⟩ := compileExpr_eq_ok.1 hc
    obtain ⟨ns, q⟩ := e
    dsimp only at p q1 q2 hd
    subst p
    have hpt : ∀ n ∈ t.post, Plain m.dim E.consts.length n ∧ ArgNode args n := hp
    obtain ⟨σ, ts, mt, e1, hC, hnr, e2⟩ := noRef_reshape g hd (fun n hn => not_quot_of (hpt n hn).1.div (hpt n hn).1.fn) hcap hr
    obtain ⟨x, x1, x2, y, n, x3, x4, x5⟩ := compute_elems m hm E args hw hD ⟨ts, mt, e1, ⟨σ, hC⟩, e2⟩ g q1 q2 hpt hs hi
    refine ⟨x, x1, x2, fun el => ?_⟩
    obtain ⟨y', y1, y2⟩ := run_main hC e1 hs
    have : y' = y := by
      have := y1.symm.trans x3
      simpa using this
    subst this
    have hsz : argsSize args ≤ indConstantStart := by
      obtain ⟨_, _, _, _, hids, _⟩ := run_extracts (R := fun _ _ (_ : CliffordAlgebra (diagForm K m.dim m.sq)) => True) (A := fun _ => True)
        (I := cliffInterp K m.dim m.sq (fun k => E.consts.getD k 0) D w) (id := argsSize args)
        (fun b _ => ⟨by simp, by simp, by simp, by simp, by simp, by simp, by simp, by simp, by simp, by simp, by simp, by simp, by simp, by simp⟩)
        (by simp) ⟨ts, mt, e1, ⟨σ, hC⟩, e2⟩ g (by simp) hs (by simp)
      exact le_trans hids.le hi
    -- the coefficients
    have key : ∀ (ρ : Nat → K) (w' : Nat → CliffordAlgebra (diagForm K m.dim m.sq)), (∀ (k : Nat) (a : Arg K), args[k]? = some a →
        ∃ n, Stored (PosInd fun id => argOffset args k ≤ id ∧ id < argOffset args k + a.data.length) m.dim (a.ie (argOffset args k)) n ∧
          mvVal (intPow ρ) (cliffBlade K m.dim m.sq) n = w' k) → CanonMv n ∧
          bladeCoords K m.dim m.sq (q.toQ • t.val (cliffInterp K m.dim m.sq (fun k => ρ (k + indConstantStart)) D w')) el =
            (q.toQ : K) * coeff (intPow ρ) n el := by
      intro ρ w' h
      obtain ⟨n', h1, h2⟩ := noRef_eval hm hD hC.2.1 hC.2.2.2 g hnr hpt y2 h
      have := h1.packed.unique x4
      subst this
      refine ⟨h1.canon, ?_⟩
      rw [← h2 trivial, ← qsmul_eq (K := K), map_smul, Finsupp.smul_apply, coords_value h1.elems, smul_eq_mul]
    have hq0 : (q.toQ : K) ≠ 0 := by
      rw [Ne, Rat.cast_eq_zero]
      exact fun h => q2 ((Rat32.toQ_eq_zero q1).1 h)
    rw [x5, List.mem_map]
    constructor
    · rintro ⟨tm, ht, rfl⟩
      obtain ⟨w0, -, k0⟩ := exists_values hw (fun _ => (0 : K))
      obtain ⟨ρ, hρ⟩ := canon_witness (K := K) (key _ _ k0).1 ht
      obtain ⟨w', k1, k2⟩ := exists_values hw ρ
      refine ⟨fun k => ρ (k + indConstantStart), w', _, k1, Or.inr ⟨t, g, rfl, q1, q2, rfl⟩, ?_⟩
      rw [(key ρ w' k2).2]
      exact mul_ne_zero hq0 hρ
    · rintro ⟨named, w', v', k1, k2, k3⟩
      obtain ⟨t', g', p', -, -, rfl⟩ := means_tree k2 h0
      have := Tree.post_inj g.shape g'.shape p'
      subst this
      obtain ⟨ρ, -, k4⟩ := k1.assign
      have k5 := key (fun i => if indConstantStart ≤ i then named (i - indConstantStart) else ρ i) w' fun k a ha => by
        obtain ⟨n, h1, h2⟩ := k4 k a ha
        exact ⟨n, h1, h2 _ fun i hi => by rw [if_neg (by omega)]⟩
      have hnm : (fun k => (fun i => if indConstantStart ≤ i then named (i - indConstantStart) else ρ i) (k + indConstantStart)) = named := by
        funext k
        simp
      rw [hnm] at k5
      rw [k5.2] at k3
      by_contra hne
      push Not at hne
      exact k3 (by rw [coeff_absent _ _ _ hne, mul_zero])

/-! ## Products -/

theorem denotes_unique {a : Arg K} {dim off : Nat} {d : Nat → Int} {v v' : CliffordAlgebra (diagForm K dim d)} (h : a.Denotes dim d off v)
    (h' : a.Denotes dim d off v') : v = v' := by
  obtain ⟨n, h1, h2⟩ := h
  obtain ⟨n', h1', h2'⟩ := h'
  have := h1.packed.unique h1'.packed
  subst this
  rw [← h2 (fun i => a.data.getD (i - off) 0) (by simp), ← h2' (fun i => a.data.getD (i - off) 0) (by simp)]

theorem blade_mul (n : Nat) (d : Nat → Int) {a b : Nat} (ha : a < 2 ^ n) :
    cliffBlade K n d a * cliffBlade K n d b = (sgn d n a b : K) • cliffBlade K n d (a ^^^ b) := by
  rw [cliffBlade, cliffBlade, bladeOf_mul (cliffordGens K n d) a b ha,
    ← map_intCast (algebraMap K (CliffordAlgebra (diagForm K n d))), ← Algebra.smul_def]
  rfl

/-- The value of an expression is unique. -/
theorem means_unique {V : Type} [AddCommGroup V] [Module ℚ V] {I : Interp V} {e : Rpne} {v v' : V} (h : Means I e v) (h' : Means I e v') : v = v' := by
  rcases h with ⟨h1, rfl⟩ | ⟨t, g, p, -, -, rfl⟩
  · rcases h' with ⟨-, rfl⟩ | ⟨t, g, p, -⟩
    · rfl
    · have := t.post_pos
      rw [← p, h1] at this
      cases this
  · rcases h' with ⟨h1, -⟩ | ⟨t', g', p', -, -, rfl⟩
    · have := t.post_pos
      rw [← p, h1] at this
      cases this
    · rw [Tree.post_inj g.shape g'.shape (p.symm.trans p')]

/-- The values of an entity with other coefficients. -/
theorem mayBe_entity [CharZero K] {m : Metric} {x y : Entity K} (hx : x.Denotes m.dim m.sq (pairsVal (cliffBlade K m.dim m.sq) x.elements x.data))
    (hy : y.Denotes m.dim m.sq (pairsVal (cliffBlade K m.dim m.sq) y.elements y.data)) (hl : x.data.length + y.data.length ≤ 2 ^ 32)
    {w : Nat → CliffordAlgebra (diagForm K m.dim m.sq)} :
    MayBe m [x.toArg, y.toArg] w ↔ ∃ dx dy : List K, dx.length = x.elements.length ∧ dy.length = y.elements.length ∧
      w 0 = pairsVal (cliffBlade K m.dim m.sq) x.elements dx ∧ w 1 = pairsVal (cliffBlade K m.dim m.sq) y.elements dy := by
  have key : ∀ dx dy : List K, dx.length = x.elements.length → dy.length = y.elements.length →
      (⟨x.elements, dx⟩ : Entity K).toArg.Denotes m.dim m.sq 0 (pairsVal (cliffBlade K m.dim m.sq) x.elements dx) ∧
      (⟨y.elements, dy⟩ : Entity K).toArg.Denotes m.dim m.sq dx.length (pairsVal (cliffBlade K m.dim m.sq) y.elements dy) := by
    intro dx dy h1 h2
    have e1 := hx.size
    have e2 := hy.size
    exact ⟨C45_entity m.sq (x := ⟨x.elements, dx⟩) hx.asc hx.elems h1 (by dsimp only; omega),
      C45_entity m.sq (x := ⟨y.elements, dy⟩) hy.asc hy.elems h2 (by dsimp only; omega)⟩
  constructor
  · rintro ⟨args', h1, h2⟩
    obtain ⟨a0, g0, g1, g2⟩ := h1.get (k := 0) (a := x.toArg) rfl
    obtain ⟨a1, g3, g4, g5⟩ := h1.get (k := 1) (a := y.toArg) rfl
    have k0 := h2 0 a0 g0
    have k1 := h2 1 a1 g3
    rw [h1.offset] at k0 k1
    have e0 : a0 = (⟨x.elements, a0.data⟩ : Entity K).toArg := by cases a0; dsimp only at g1; subst g1; rfl
    have e1 : a1 = (⟨y.elements, a1.data⟩ : Entity K).toArg := by cases a1; dsimp only at g4; subst g4; rfl
    have l0 : a0.data.length = x.elements.length := by rw [g2]; exact hx.size
    have l1 : a1.data.length = y.elements.length := by rw [g5]; exact hy.size
    obtain ⟨c0, c1⟩ := key a0.data a1.data l0 l1
    have o1 : argOffset [x.toArg, y.toArg] 1 = a0.data.length := by rw [g2]; simp [argOffset, argsSize]
    rw [e0] at k0
    rw [e1, o1] at k1
    exact ⟨a0.data, a1.data, l0, l1, denotes_unique k0 c0, denotes_unique k1 c1⟩
  · rintro ⟨dx, dy, l0, l1, e0, e1⟩
    obtain ⟨c0, c1⟩ := key dx dy l0 l1
    refine ⟨[(⟨x.elements, dx⟩ : Entity K).toArg, (⟨y.elements, dy⟩ : Entity K).toArg], ?_, fun k a ha => ?_⟩
    · have := hx.size
      have := hy.size
      simp only [SameTypes, List.map_cons, List.map_nil, Entity.toArg, l0, l1, hx.size, hy.size]
    · match k with
      | 0 => simp only [List.getElem?_cons_zero, Option.some.injEq] at ha; subst ha; rw [e0]; exact c0
      | 1 =>
        simp only [List.getElem?_cons_succ, List.getElem?_cons_zero, Option.some.injEq] at ha
        subst ha
        rw [e1]
        have : argOffset [(⟨x.elements, dx⟩ : Entity K).toArg, (⟨y.elements, dy⟩ : Entity K).toArg] 1 = dx.length := by simp [argOffset, argsSize, Entity.toArg]
        rw [this]
        exact c1
      | k + 2 => simp at ha

theorem pairsVal_pick {V : Type} [AddCommGroup V] [Module K V] (β : Nat → V) {a : Nat} : ∀ {es : List Nat}, es.Nodup → a ∈ es →
    pairsVal β es (es.map fun e => if e = a then (1 : K) else 0) = β a
  | [], _, h => by cases h
  | e :: es, hn, h => by
    rw [List.nodup_cons] at hn
    have h0 : ∀ es : List Nat, a ∉ es → pairsVal β es (es.map fun e => if e = a then (1 : K) else 0) = 0 := by
      intro es
      induction es with
      | nil => simp [pairsVal]
      | cons e es ih =>
        intro hh
        rw [List.mem_cons, not_or] at hh
        have := ih hh.2
        simp only [pairsVal, List.map_cons, List.zip_cons_cons, List.sum_cons] at this ⊢
        rw [this, if_neg (Ne.symm hh.1), zero_smul, zero_add]
    have hc : pairsVal β (e :: es) ((e :: es).map fun e => if e = a then (1 : K) else 0) =
        (if e = a then (1 : K) else 0) • β e + pairsVal β es (es.map fun e => if e = a then (1 : K) else 0) := by
      simp only [pairsVal, List.map_cons, List.zip_cons_cons, List.sum_cons]
    rw [hc]
    by_cases e1 : e = a
    · subst e1
      rw [if_pos rfl, one_smul, h0 es hn.1, add_zero]
    · rw [if_neg e1, zero_smul, zero_add]
      exact pairsVal_pick β hn.2 ((List.mem_cons.1 h).resolve_left (Ne.symm e1))

theorem pairsVal_ne_zero {V : Type} [AddCommGroup V] [Module K V] {β : Nat → V} (φ : V →ₗ[K] K) {es : List Nat} {vs : List K}
    (h : φ (pairsVal β es vs) ≠ 0) : ∃ a ∈ es, φ (β a) ≠ 0 := by
  by_contra hno
  push Not at hno
  apply h
  unfold pairsVal
  rw [map_list_sum, List.map_map]
  refine List.sum_eq_zero fun z hz => ?_
  obtain ⟨p, hp, rfl⟩ := List.mem_map.1 hz
  simp only [Function.comp_apply, map_smul, hno p.1 (List.of_mem_zip hp).1, smul_zero]

/-- C49 for a product: `compute([](auto a, auto b) { return a * b; }, x, y)` returns the coefficients of exactly those basis elements that are
a product, up to the factor, of an element of `x` and an element of `y`. -/
theorem C49_product [CharZero K] (m : Metric) (hm : m.dim ≤ 8) (E : Env K) {x y : Entity K}
    (hx : x.Denotes m.dim m.sq (pairsVal (cliffBlade K m.dim m.sq) x.elements x.data))
    (hy : y.Denotes m.dim m.sq (pairsVal (cliffBlade K m.dim m.sq) y.elements y.data))
    {e : Rpne} (he : gpExpr (entityExpr 0 0) (entityExpr x.data.length 1) = ok e) {cap : Nat} (hcap : cap < 2 ^ 64)
    {c : Compiled} (hc : compileExpr m false cap [x.toArg, y.toArg] e = ok c) (hi : c.state.nextId ≤ indConstantStart)
    (hl : x.data.length + y.data.length ≤ 2 ^ 32) :
    ∃ z, runCompiled m false E [x.toArg, y.toArg] c = ok [z] ∧ ∀ g, g ∈ z.elements ↔
      ∃ a ∈ x.elements, ∃ b ∈ y.elements, a ^^^ b = g ∧ cliffBlade K m.dim m.sq a * cliffBlade K m.dim m.sq b ≠ 0 := by
  obtain ⟨D, hD⟩ := exists_isDual K m.dim hm m.sq
  obtain ⟨h1, h2, h3, h4⟩ := product_ready (nc := E.consts.length) hx hy he hl
  obtain ⟨z, z1, -, z3⟩ := C49_sparse_partial m hm E [x.toArg, y.toArg] h1 hD (h2 (cliffInterp K m.dim m.sq (fun k => E.consts.getD k 0) D _)) h3 h4
    hcap hc hi
  refine ⟨z, z1, fun g => ?_⟩
  rw [z3]
  constructor
  · rintro ⟨named, w', v', k1, k2, k3⟩
    obtain ⟨dx, dy, -, -, e0, e1⟩ := (mayBe_entity hx hy hl).1 k1
    have hv : v' = w' 0 * w' 1 := means_unique k2 (h2 (cliffInterp K m.dim m.sq named D w'))
    rw [hv, e0, e1] at k3
    let C : CliffordAlgebra (diagForm K m.dim m.sq) →ₗ[K] K := (Finsupp.lapply g).comp (bladeCoords K m.dim m.sq)
    obtain ⟨a, ha, k4⟩ := pairsVal_ne_zero (C.comp (LinearMap.mulRight K _)) k3
    obtain ⟨b, hb, k5⟩ := pairsVal_ne_zero (C.comp (LinearMap.mulLeft K (cliffBlade K m.dim m.sq a))) k4
    have k6 : bladeCoords K m.dim m.sq (cliffBlade K m.dim m.sq a * cliffBlade K m.dim m.sq b) g ≠ 0 := k5
    refine ⟨a, ha, b, hb, ?_, fun h => k6 (by rw [h, map_zero]; rfl)⟩
    by_contra hne
    apply k6
    rw [blade_mul _ _ (hx.elems a ha), map_smul, bladeCoords_blade K _ _ _ (Nat.xor_lt_two_pow (hx.elems a ha) (hy.elems b hb)),
      Finsupp.smul_apply, Finsupp.single_eq_of_ne (Ne.symm hne), smul_zero]
  · rintro ⟨a, ha, b, hb, rfl, h0⟩
    refine ⟨fun _ => 0, fun k => if k = 0 then cliffBlade K m.dim m.sq a else cliffBlade K m.dim m.sq b, _, (mayBe_entity hx hy hl).2 ?_,
      h2 _, ?_⟩
    · exact ⟨x.elements.map fun e => if e = a then (1 : K) else 0, y.elements.map fun e => if e = b then (1 : K) else 0, by simp, by simp,
        (pairsVal_pick _ (hx.asc.imp fun h => Nat.ne_of_lt h) ha).symm, (pairsVal_pick _ (hy.asc.imp fun h => Nat.ne_of_lt h) hb).symm⟩
    · show bladeCoords K m.dim m.sq (cliffBlade K m.dim m.sq a * cliffBlade K m.dim m.sq b) (a ^^^ b) ≠ 0
      have ha' := hx.elems a ha
      have hb' := hy.elems b hb
      rw [blade_mul _ _ ha'] at h0 ⊢
      rw [map_smul, bladeCoords_blade K _ _ _ (Nat.xor_lt_two_pow ha' hb'), Finsupp.smul_apply, Finsupp.single_eq_same, smul_eq_mul, mul_one]
      exact fun h => h0 (by rw [h, zero_smul])

/-- The hypotheses of `C49_product`, and so of `C49_sparse_partial`, hold for the product of two vectors of the plane. -/
example : ∃ (x y : Entity ℚ) (e : Rpne) (c : Compiled),
    x.Denotes 2 (Metric.sq ⟨2, 0, 0⟩) (pairsVal (cliffBlade ℚ 2 (Metric.sq ⟨2, 0, 0⟩)) x.elements x.data) ∧
    y.Denotes 2 (Metric.sq ⟨2, 0, 0⟩) (pairsVal (cliffBlade ℚ 2 (Metric.sq ⟨2, 0, 0⟩)) y.elements y.data) ∧
    gpExpr (entityExpr 0 0) (entityExpr x.data.length 1) = ok e ∧
    compileExpr ⟨2, 0, 0⟩ false 3 [x.toArg, y.toArg] e = ok c ∧ c.state.nextId ≤ indConstantStart ∧ x.data.length + y.data.length ≤ 2 ^ 32 := by
  refine ⟨⟨[1, 2], [3, 5]⟩, ⟨[1, 2], [7, 9]⟩, ?_⟩
  obtain ⟨e, h1, c, h2⟩ := Out.chain_of_isOk (x := gpExpr (entityExpr 0 0) (entityExpr 2 1))
    (f := fun e => do
      let c ← compileExpr (K := ℚ) ⟨2, 0, 0⟩ false 3 [(⟨[1, 2], [3, 5]⟩ : Entity ℚ).toArg, (⟨[1, 2], [7, 9]⟩ : Entity ℚ).toArg] e
      if c.state.nextId ≤ indConstantStart then ok c else .ub) (by decide +kernel)
  simp only [bind_eq_ok] at h2
  obtain ⟨c', h2, h3⟩ := h2
  split at h3
  · rename_i h4
    exact ⟨e, c', ⟨rfl, by decide, by decide, rfl⟩, ⟨rfl, by decide, by decide, rfl⟩, h1, h2, h4, by decide⟩
  · cases h3

end Gal
