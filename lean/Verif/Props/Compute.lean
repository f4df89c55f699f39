import Verif.Compute
import Verif.Props.CliffRefine
import Verif.Props.Reshape

/-!
# Property C45: `compute` returns the value of the expression

The specification is the Clifford algebra of the metric: an argument stands for the element with its coefficients, and the result for the
element with the computed coefficients.
-/

namespace Gal

open Out

variable {K : Type} [Field K]

/-- The argument, with its first indeterminate `off`, stands for the element `v` of the Clifford algebra. -/
def Arg.Denotes (a : Arg K) (dim : Nat) (d : Nat → Int) (off : Nat) (v : CliffordAlgebra (diagForm K dim d)) : Prop :=
  ∃ n, Stored (PosInd fun id => off ≤ id ∧ id < off + a.data.length) dim (a.ie off) n ∧
    ∀ ρ : Nat → K, (∀ i, i < a.data.length → ρ (off + i) = a.data.getD i 0) → mvVal (intPow ρ) (cliffBlade K dim d) n = v

theorem genericN_posInd (es : List Nat) : ∀ id, IndsAll (PosInd fun i => id ≤ i ∧ i < id + es.length) (genericN id es) := by
  induction es with
  | nil => intro id t ht; exact (List.not_mem_nil ht).elim
  | cons e es ih =>
    intro id t ht q hq i hi
    unfold genericN at ht
    rcases List.mem_cons.1 ht with rfl | ht
    · rw [List.mem_singleton] at hq
      subst hq
      rw [List.mem_singleton] at hi
      subst hi
      exact ⟨⟨le_refl _, by simp⟩, rfl, by show (0 : Int) < 1; decide⟩
    · obtain ⟨⟨h1, h2⟩, h3⟩ := ih (id + 1) t ht q hq i hi
      exact ⟨⟨by omega, by simp only [List.length_cons]; omega⟩, h3⟩

theorem genericN_elems {dim id : Nat} {es : List Nat} (h : ∀ e ∈ es, e < 2 ^ dim) : ElemsLt (2 ^ dim) (genericN id es) := by
  intro t ht
  have := (genericN_size es id).2.2.2
  apply h
  rw [← this]
  exact List.mem_map_of_mem ht

/-- C45: an entity whose elements are listed in ascending order stands for the element with its coefficients. -/
theorem C45_entity [CharZero K] {dim : Nat} (d : Nat → Int) {x : Entity K} {off : Nat} (hs : x.elements.Pairwise (· < ·))
    (he : ∀ e ∈ x.elements, e < 2 ^ dim) (hl : x.data.length = x.elements.length) (ho : off + x.elements.length ≤ 2 ^ 32) :
    x.toArg.Denotes dim d off (pairsVal (cliffBlade K dim d) x.elements x.data) := by
  refine ⟨genericN off x.elements, ⟨⟨constructIe_packed off _ ho, genericN_canon _ hs off, genericN_elems he, ?_⟩, ?_⟩, ?_⟩
  · have := genericN_posInd x.elements off
    rwa [← hl] at this
  · exact fun _ => (genericN_size _ off).1.symm
  · intro ρ hρ
    refine genericN_val _ ρ _ _ off hl fun i hi => hρ i ?_
    show i < x.data.length
    omega

theorem layTerms_getD : ∀ (n : NMv) (o i : Nat), i < n.length →
    ((layTerms o n).getD i default).element = (n.map (·.element)).getD i 0
  | [], _, _, h => absurd h (Nat.not_lt_zero _)
  | t :: n, o, 0, _ => rfl
  | t :: n, o, i + 1, h => by
    unfold layTerms
    rw [List.getD_cons_succ, List.map_cons, List.getD_cons_succ]
    exact layTerms_getD n _ i (by simpa using h)

theorem createRef_eq {a : Mv} {n : NMv} (h : Packed a n) (ht : a.caps.t = n.length) (id : Nat) :
    createRef a id = layout ⟨n.length, n.length, n.length⟩ (genericN id (n.map (·.element))) := by
  have hl : (n.map (·.element)).length = n.length := by simp
  obtain ⟨h1, h2, h3, _⟩ := genericN_size (n.map (·.element)) id
  have he : ∀ i, i < n.length → (a.terms.getD i default).element = (n.map (·.element)).getD i 0 := by
    intro i hi
    have h4 : a.terms = layTerms 0 n := by rw [h.eq]; rfl
    rw [h4, layTerms_getD n 0 i hi]
  unfold createRef layout
  rw [genericN_inds, genericN_mons, genericN_terms, h1, h2, h3, ht, hl]
  simp only [Nat.zero_add]
  congr 1
  apply List.map_congr_left
  intro i hi
  rw [he i (List.mem_range.1 hi)]

/-- A reference to a stored temporary is itself a proper entry, with indeterminates of its own. -/
theorem createRef_stored {Q : Ind → Prop} {dim : Nat} {a : Mv} {n : NMv} (h : Stored Q dim a n) (id : Nat) :
    Stored (PosInd fun i => id ≤ i ∧ i < id + n.length) dim (createRef a id) (genericN id (n.map (·.element))) := by
  have hl : (n.map (·.element)).length = n.length := by simp
  obtain ⟨h1, h2, h3, _⟩ := genericN_size (n.map (·.element)) id
  rw [createRef_eq h.packed (h.tight trivial) id]
  refine ⟨⟨packed_layout ⟨by simp only; omega, by simp only; omega, by simp only; omega⟩, genericN_canon _ ?_ id, genericN_elems ?_, ?_⟩, ?_⟩
  · exact List.pairwise_map.2 h.canon.asc
  · intro e he
    obtain ⟨t, ht, rfl⟩ := List.mem_map.1 he
    exact h.elems t ht
  · have := genericN_posInd (n.map (·.element)) id
    rwa [hl] at this
  · intro _
    show n.length = _
    omega

theorem Packed.szT {a : Mv} {n : NMv} (h : Packed a n) : a.szT = n.length := by rw [h.eq]; rfl

theorem Packed.op {a : Mv} {n : NMv} (h : Packed a n) : a.op = .id := by rw [h.eq]; rfl

theorem Packed.view {a : Mv} {n : NMv} (h : Packed a n) : a.view = ok n := h.represents.1

omit [Field K] in
theorem posInd_has {E : Env K} {b : Nat} (hb : b ≤ E.data.length) (hc : b ≤ indConstantStart) {i : Nat} (h : Avail b E.consts.length i) :
    E.Has i := by
  rcases h with h | h
  · exact Or.inr ⟨by omega, by omega⟩
  · exact Or.inl h

theorem stored_eval {E : Env K} {dim b : Nat} (hb : b ≤ E.data.length) (hc : b ≤ indConstantStart) {a : Mv} {n : NMv}
    (h : Stored (PosInd (Avail b E.consts.length)) dim a n) : EvalMv E n := by
  refine C31_canonical h.canon (fun t ht q hq i hi => ⟨posInd_has hb hc (h.inds t ht q hq i hi).1, ?_⟩) (posInd_noPole h.inds _)
  have := (h.inds t ht q hq i hi).2.2
  unfold i32Min
  omega

theorem mvVal_congr_rho {V : Type} [AddCommGroup V] [Module K V] (β : Nat → V) {P : Nat → Prop} {ρ ρ' : Nat → K} {n : NMv}
    (h : IndsAll (PosInd P) n) (hr : ∀ i, P i → ρ i = ρ' i) : mvVal (intPow ρ) β n = mvVal (intPow ρ') β n := by
  apply mvVal_congr_pw
  intro t ht q hq i hi
  unfold intPow
  rw [hr i.id (h t ht q hq i hi).1]

/-- The temporaries are stored one after the other; afterwards, a reference to a temporary has the value of the temporary. -/
theorem temps_value [CharZero K] {V : Type} [AddCommGroup V] [Module K V] (β : Nat → V) {m : Metric} {nl : Bool} :
    ∀ (ps : List (Mv × Nat)) (b e : Nat) (E : Env K), TempIds (mvOps m nl) b ps e →
      (∀ p ∈ ps, ∃ n, Stored (PosInd (Avail p.2 E.consts.length)) m.dim p.1 n) → e ≤ E.data.length → e ≤ indConstantStart →
      ∃ E', finalizeTemps none E ps = ok E' ∧ E'.consts = E.consts ∧ E'.data.length = E.data.length ∧
        (∀ i, i < b ∨ indConstantStart ≤ i → E'.rho i = E.rho i) ∧
        ∀ p ∈ ps, ∀ n, Stored (PosInd (Avail p.2 E.consts.length)) m.dim p.1 n →
          mvVal (intPow E'.rho) β (genericN p.2 (n.map (·.element))) = mvVal (intPow E'.rho) β n
  | [], b, e, E, _, _, _, _ => ⟨E, rfl, rfl, rfl, fun _ _ => rfl, fun p hp => (List.not_mem_nil hp).elim⟩
  | p :: ps, b, e, E, hi, hs, hl, hc => by
    obtain ⟨hb, hi⟩ := hi
    obtain ⟨n, hn⟩ := hs p (by simp)
    obtain ⟨a, id⟩ := p
    dsimp only at hb hn hi
    subst hb
    have hsz : (mvOps m nl).size a = n.length := hn.packed.szT
    rw [hsz] at hi
    have hle := hi.le
    have hev : EvalMv E n := stored_eval (by omega) (by omega) hn
    have hrb : RefsBelow id n := by
      intro t ht q hq i hh
      rcases (hn.inds t ht q hq i hh).1 with h | h
      · exact Or.inr h
      · exact Or.inl h.1
    obtain ⟨E1, h1, h2⟩ := C42_reference β E id hn.packed.view hn.packed.op hrb hev (by omega) (by omega)
    have h3 := C42_temp E id hn.packed.view hn.packed.op hrb hev (by omega)
    have h4 := h3
    rw [h1, ok_inj] at h4
    have hc1 : E1.consts = E.consts := by rw [h4]
    have hl1 : E1.data.length = E.data.length := by
      rw [h4]
      simp only [List.length_append, List.length_take, List.length_map, List.length_drop]
      omega
    have hr1 : ∀ i, i < id ∨ indConstantStart ≤ i → E1.rho i = E.rho i := by
      intro i h
      unfold Env.rho
      rw [hc1]
      split
      · rfl
      · rw [h4]
        simp only [List.getD_eq_getElem?_getD]
        rw [List.append_assoc, List.getElem?_append_left (by simp only [List.length_take]; omega), List.getElem?_take_of_lt (by omega)]
    obtain ⟨E', g1, g2, g3, g4, g5⟩ := temps_value β ps (id + n.length) e E1 hi (by rw [hc1]; exact fun p hp => hs p (by simp [hp]))
      (by omega) hc
    refine ⟨E', ?_, by rw [g2, hc1], by rw [g3, hl1], fun i h => ?_, ?_⟩
    · unfold finalizeTemps toOutput
      rw [ok_bind, h1, ok_bind, g1]
    · rw [g4 i (by omega), hr1 i h]
    · intro p hp n' hn'
      rcases List.mem_cons.1 hp with rfl | hp
      · have := hn'.packed.unique hn.packed
        subst this
        dsimp only
        rw [mvVal_congr_rho β (createRef_stored hn id).inds (fun i h => g4 i (Or.inl h.2)), h2, mvVal_pw β hn.canon]
        refine mvVal_congr_rho β hn.inds fun i h => ?_
        rcases h with h | h
        · rw [g4 i (Or.inl (by omega)), hr1 i (Or.inl h)]
        · rw [g4 i (Or.inr h.1), hr1 i (Or.inr h.1)]
      · exact g5 p hp n' (by rw [hc1]; exact hn')

/-! ## The whole computation -/

omit [Field K] in
theorem argsSize_eq (args : List (Arg K)) : argsSize args = (args.map fun a => a.data).flatten.length := by
  unfold argsSize
  rw [List.length_flatten, List.map_map]
  rfl

omit [Field K] in
theorem argOffset_eq (args : List (Arg K)) (k : Nat) :
    argOffset args k = (((args.map fun a => a.data).take k).map List.length).sum := by
  unfold argOffset argsSize
  rw [← List.map_take, List.map_map]
  rfl

omit [Field K] in
theorem argOffset_le (args : List (Arg K)) {k : Nat} {a : Arg K} (h : args[k]? = some a) :
    argOffset args k + a.data.length ≤ argsSize args := by
  have hk : k < args.length := (List.getElem?_eq_some_iff.1 h).1
  have : args = args.take k ++ a :: args.drop (k + 1) := by
    conv_lhs => rw [← List.take_append_drop k args, List.drop_eq_getElem_cons hk]
    rw [(List.getElem?_eq_some_iff.1 h).2]
  unfold argOffset
  conv_rhs => rw [this]
  unfold argsSize
  rw [List.map_append, List.sum_append, List.map_cons, List.sum_cons]
  omega

/-- The nodes of arguments carry the index and the first id of an argument of `compute`, as the expressions given to the lambda do. -/
def ArgNode (args : List (Arg K)) (n : Node) : Prop := n.o = Op.id → n.ex < args.length ∧ n.checksum = argOffset args n.ex

omit [Field K] in
theorem argExprs_node (args : List (Arg K)) : ∀ e ∈ argExprs args, ∀ n ∈ e.nodes, ArgNode args n := by
  intro e he n hn _
  obtain ⟨i, hi, rfl⟩ := List.mem_map.1 he
  rw [entityExpr, List.mem_singleton] at hn
  subst hn
  exact ⟨List.mem_range.1 hi, rfl⟩

/-- The result of a computation: coefficients for elements in ascending order. -/
structure Entity.Denotes (x : Entity K) (dim : Nat) (d : Nat → Int) (v : CliffordAlgebra (diagForm K dim d)) : Prop where
  size : x.data.length = x.elements.length
  asc : x.elements.Pairwise (· < ·)
  elems : ∀ e ∈ x.elements, e < 2 ^ dim
  value : pairsVal (cliffBlade K dim d) x.elements x.data = v

/-- **C45, for a program that computes the expression.** -/
theorem compute_elems [CharZero K] (m : Metric) (hm : m.dim ≤ 8) (E : Env K) (args : List (Arg K))
    {w : Nat → CliffordAlgebra (diagForm K m.dim m.sq)}
    (hw : ∀ (k : Nat) (a : Arg K), args[k]? = some a → a.Denotes m.dim m.sq (argOffset args k) (w k))
    {D : CliffordAlgebra (diagForm K m.dim m.sq) →ₗ[K] CliffordAlgebra (diagForm K m.dim m.sq)} (hD : IsDual K m.dim m.sq D)
    {T : Tree} {q : Rat32} {r : Rpne} (hx : Extracts T q r) (hg : T.Good) (hq : q.WF) (h0 : q.num ≠ 0)
    (hp : ∀ n ∈ T.post, Plain m.dim E.consts.length n ∧ ArgNode args n) {s : RState Mv}
    (hs : runNodes (mvOps m false) r.nodes.length r.nodes ⟨gatherInputs (argMv args) r.nodes, [], [], argsSize args⟩ = ok s)
    (hc : s.nextId ≤ indConstantStart) :
    ∃ x, runCompiled m false E args ⟨s, r.q⟩ = ok [x] ∧
      x.Denotes m.dim m.sq (q.toQ • T.val (cliffInterp K m.dim m.sq (fun k => E.consts.getD k 0) D w)) ∧
      ∃ y n, s.args = [y] ∧ Packed y n ∧ x.elements = n.map (·.element) := by
  have hrq : r.q = q := hx.choose_spec.choose_spec.2.2
  -- inputs
  have hin : ∀ (S : Prop) (ρ : Nat → K) (b : Nat), argsSize args ≤ b →
      (S → ∀ k a, args[k]? = some a → ∀ i, i < a.data.length → ρ (argOffset args k + i) = a.data.getD i 0) →
      ∀ n, (Plain m.dim E.consts.length n ∧ ArgNode args n) → n.o = Op.id → ∀ x,
        (mvOps m false).input (argMv args n.ex n.checksum) = ok x → Sound True S m.dim m.sq E.consts.length ρ b x (w n.ex) := by
    intro S ρ b hb hρ n hn ho x hx
    obtain ⟨h1, h2⟩ := hn.2 ho
    have hk := List.getElem?_eq_getElem h1
    obtain ⟨na, i1, i2⟩ := hw _ _ hk
    have he : argMv args n.ex n.checksum = args[n.ex].ie (argOffset args n.ex) := by
      unfold argMv
      rw [hk, h2]
    simp only [mvOps, Bool.false_eq_true, if_false, he, ok_inj] at hx
    subst hx
    have := argOffset_le args hk
    exact ⟨na, i1.mono fun i hi => ⟨Or.inl (by have := hi.1; omega), hi.2⟩, fun hs => i2 ρ (hρ hs _ _ hk)⟩
  -- shape of the temporaries
  obtain ⟨y, -, -, -, hids, hst⟩ := run_extracts (R := fun b => Sound True False m.dim m.sq E.consts.length (fun _ => (0 : K)) b)
    (fun b hb => mv_refines True False m hm false (fun k => E.consts.getD k 0) D hD w E.consts.length _ (fun h => h.elim) (argMv args) b
      (fun n => Plain m.dim E.consts.length n ∧ ArgNode args n) (fun n h => h.1) (hin False _ b hb (fun h => h.elim)))
    (fun b b' a v hb h => h.mono hb) hx hg hp hs (by
      rintro p - v x ⟨n, h1, -⟩ hx
      simp only [mvOps, ok_inj] at hx ⊢
      subst hx
      have hr := createRef_stored h1 p.2
      rw [h1.packed.szT]
      exact ⟨_, hr.mono fun i hi => ⟨Or.inl hi.1.2, hi.2⟩, fun h => h.elim⟩)
  have hst' : ∀ p ∈ s.temps, ∃ n, Stored (PosInd (Avail p.2 E.consts.length)) m.dim p.1 n := fun p hp => by
    obtain ⟨v, n, h, -⟩ := hst p hp
    exact ⟨n, h⟩
  have hle := hids.le
  -- the data
  have hlen : (args.map fun a => a.data).flatten.length ≤ (List.replicate (argsSize args + s.nextId - argsSize args) (0 : K)).length := by
    rw [← argsSize_eq, List.length_replicate]
    omega
  have hfill := C41_fill (args.map fun a => a.data) _ hlen
  generalize hdat : (args.map fun a => a.data).flatten ++ (List.replicate (argsSize args + s.nextId - argsSize args) (0 : K)).drop
    (args.map fun a => a.data).flatten.length = dat at hfill
  have hdl : dat.length = s.nextId := by
    rw [← hdat, List.length_append, List.length_drop, List.length_replicate, ← argsSize_eq]
    omega
  obtain ⟨E', g1, g2, g3, g4, g5⟩ := temps_value (cliffBlade K m.dim m.sq) s.temps (argsSize args) s.nextId { E with data := dat } hids
    hst' (by rw [hdl]) hc
  have hρ : ∀ k a, args[k]? = some a → ∀ i, i < a.data.length → E'.rho (argOffset args k + i) = a.data.getD i 0 := by
    intro k a hk i hi
    have hb := argOffset_le args hk
    rw [g4 _ (Or.inl (by omega))]
    obtain ⟨out, o1, o2⟩ := C41_position (args.map fun a => a.data) _ hlen (k := k) (i := i) (d := a.data) (v := a.data.getD i 0)
      (by rw [List.getElem?_map, hk]; rfl) (by rw [List.getElem?_eq_getElem hi, List.getD_eq_getElem _ _ hi])
    rw [hfill, ok_inj] at o1
    subst o1
    rw [← argOffset_eq] at o2
    unfold Env.rho
    rw [if_neg (by omega)]
    simp only [List.getD_eq_getElem?_getD] at o2 ⊢
    rw [o2]
    rfl
  -- the value
  obtain ⟨x, -, hargs, ⟨n, hn, hv⟩, -, -⟩ := run_extracts (R := fun b => Sound True True m.dim m.sq E.consts.length E'.rho b)
    (fun b hb => mv_refines True True m hm false (fun k => E.consts.getD k 0) D hD w E.consts.length _ (fun _ k hk => by
        unfold Env.rho
        rw [if_pos (by omega), g2]
        simp) (argMv args) b
      (fun n => Plain m.dim E.consts.length n ∧ ArgNode args n) (fun n h => h.1) (hin True _ b hb (fun _ => hρ)))
    (fun b b' a v hb h => h.mono hb) hx hg hp hs (by
      rintro p hp v x ⟨n, h1, h2⟩ hx
      simp only [mvOps, ok_inj] at hx ⊢
      subst hx
      have hr := createRef_stored h1 p.2
      rw [h1.packed.szT]
      exact ⟨_, hr.mono fun i hi => ⟨Or.inl hi.1.2, hi.2⟩, fun _ => by rw [g5 p hp n h1, h2 trivial]⟩)
  have hev : EvalMv E' n := stored_eval (by rw [g3, hdl]) hc (by rw [g2]; exact hn)
  obtain ⟨z, z1, z2, z3, z4⟩ := C32_entity_partial (cliffBlade K m.dim m.sq) E' hn.packed.view hn.packed.op hev q.num q.den h0 hq.pos
  refine ⟨z, ?_, ⟨z3, by rw [z2]; exact List.pairwise_map.2 hn.canon.asc, ?_, ?_⟩, x, n, hargs, hn.packed, z2⟩
  · unfold runCompiled
    dsimp only
    rw [hfill, ok_bind]
    unfold nullDim
    simp only [Bool.false_eq_true, if_false]
    rw [g1, ok_bind, hargs, hrq]
    simp only [finishCompute, finalizeEntity, toOutput, ok_bind, z1]
    rfl
  · intro e he
    rw [z2] at he
    obtain ⟨t, ht, rfl⟩ := List.mem_map.1 he
    exact hn.elems t ht
  · rw [z4, mvVal_pw _ hn.canon, hv trivial, ← qsmul_eq (K := K)]
    congr 1
    simp [Rat32.toQ]

/-- C45, without the elements. -/
theorem compute_extracts [CharZero K] (m : Metric) (hm : m.dim ≤ 8) (E : Env K) (args : List (Arg K))
    {w : Nat → CliffordAlgebra (diagForm K m.dim m.sq)}
    (hw : ∀ (k : Nat) (a : Arg K), args[k]? = some a → a.Denotes m.dim m.sq (argOffset args k) (w k))
    {D : CliffordAlgebra (diagForm K m.dim m.sq) →ₗ[K] CliffordAlgebra (diagForm K m.dim m.sq)} (hD : IsDual K m.dim m.sq D)
    {T : Tree} {q : Rat32} {r : Rpne} (hx : Extracts T q r) (hg : T.Good) (hq : q.WF) (h0 : q.num ≠ 0)
    (hp : ∀ n ∈ T.post, Plain m.dim E.consts.length n ∧ ArgNode args n) {s : RState Mv}
    (hs : runNodes (mvOps m false) r.nodes.length r.nodes ⟨gatherInputs (argMv args) r.nodes, [], [], argsSize args⟩ = ok s)
    (hc : s.nextId ≤ indConstantStart) :
    ∃ x, runCompiled m false E args ⟨s, r.q⟩ = ok [x] ∧
      x.Denotes m.dim m.sq (q.toQ • T.val (cliffInterp K m.dim m.sq (fun k => E.consts.getD k 0) D w)) := by
  obtain ⟨x, h1, h2, -⟩ := compute_elems m hm E args hw hD hx hg hq h0 hp hs hc
  exact ⟨x, h1, h2⟩

theorem plain_of_lt {dim nc : Nat} {n : Node} (h : n.o < Op.comp) : Plain dim nc n := by
  simp only [Op.comp] at h
  refine ⟨fun h' => ?_, fun h' => ?_, fun h' => ?_, fun h' => ?_, fun h' => ?_⟩
  · simp only [Op.czero] at h'; omega
  · simp only [Op.comp] at h'; omega
  · simp only [Op.grd] at h'; omega
  · simp only [Op.div] at h'; omega
  · simp only [IsFun, Op.sqrt, Op.sin, Op.cos, Op.tan] at h'; omega

/-- What the operations of an expression may be. -/
def Supported (dim nc : Nat) (args : List (Arg K)) (e : Rpne) : Prop := ∀ n ∈ e.nodes, Plain dim nc n ∧ ArgNode args n

theorem reshape_nil {cap : Nat} {q : Rat32} {r : Rpne} (h : reshape cap ⟨[], q⟩ = ok r) : r = ⟨[], q⟩ := by
  unfold reshape reshapeRaw at h
  simp [scanLoop, emitKnown, emitLoop, mapO, pure_eq, ok_bind] at h
  exact h.symm

theorem compute_empty (m : Metric) (null : Bool) (E : Env K) (args : List (Arg K)) {cap : Nat} {e : Rpne} (h0 : e.nodes = []) {c : Compiled}
    (h : compileExpr m null cap args e = ok c) : runCompiled m null E args c = ok [⟨[], []⟩] := by
  obtain ⟨ns, q⟩ := e
  dsimp only at h0
  subst h0
  obtain ⟨-, r, hr, s, hs, rfl⟩ := compileExpr_eq_ok.1 h
  have := reshape_nil hr
  subst this
  rw [List.length_nil, runNodes, ok_inj] at hs
  subst hs
  unfold runCompiled
  dsimp only
  rw [C41_fill _ _ (by rw [← argsSize_eq, List.length_replicate]; omega), ok_bind]
  rfl

/-- **C45.**  `compute` returns the value of the expression in the Clifford algebra, for arguments that stand for `w 0`, `w 1`, …: if the
expression means `v` and compiles without overflow, evaluation is never undefined and returns one entity, with elements in ascending order,
whose coefficients are those of `v`.  Missing: null bases, quotients and functions, tuples, and expressions for which `rpn_reshape` is wrong
(see C36); the hypothesis `hx` excludes the latter. -/
theorem C45_compute_partial [CharZero K] (m : Metric) (hm : m.dim ≤ 8) (E : Env K) (args : List (Arg K))
    {w : Nat → CliffordAlgebra (diagForm K m.dim m.sq)}
    (hw : ∀ (k : Nat) (a : Arg K), args[k]? = some a → a.Denotes m.dim m.sq (argOffset args k) (w k))
    {D : CliffordAlgebra (diagForm K m.dim m.sq) →ₗ[K] CliffordAlgebra (diagForm K m.dim m.sq)} (hD : IsDual K m.dim m.sq D)
    {e : Rpne} {v : CliffordAlgebra (diagForm K m.dim m.sq)}
    (he : Means (cliffInterp K m.dim m.sq (fun k => E.consts.getD k 0) D w) e v) (hp : Supported m.dim E.consts.length args e)
    {cap : Nat} (hx : ∀ (T : Tree) (r : Rpne), T.Good → e.nodes = T.post → reshape cap e = ok r → Extracts T e.q r)
    {c : Compiled} (hc : compileExpr m false cap args e = ok c) (hi : c.state.nextId ≤ indConstantStart) :
    ∃ x, runCompiled m false E args c = ok [x] ∧ x.Denotes m.dim m.sq v := by
  by_cases h0 : e.nodes = []
  · refine ⟨⟨[], []⟩, compute_empty m false E args h0 hc, rfl, .nil, by simp, ?_⟩
    rcases he with ⟨-, rfl⟩ | ⟨t, _, hp, _⟩
    · rfl
    · have := t.post_pos
      rw [← hp, h0] at this
      cases this
  · obtain ⟨t, g, p, q1, q2, rfl⟩ := means_tree he h0
    obtain ⟨-, r, hr, s, hs, rfl⟩ := compileExpr_eq_ok.1 hc
    exact compute_extracts m hm E args hw hD (hx t r g p hr) g q1 q2 (fun n hn => hp n (p ▸ hn)) hs hi

/-- C45 without common subexpressions: if no operation occurs twice, the extraction of common subexpressions is correct. -/
theorem C45_distinct_partial [CharZero K] (m : Metric) (hm : m.dim ≤ 8) (E : Env K) (args : List (Arg K))
    {w : Nat → CliffordAlgebra (diagForm K m.dim m.sq)}
    (hw : ∀ (k : Nat) (a : Arg K), args[k]? = some a → a.Denotes m.dim m.sq (argOffset args k) (w k))
    {D : CliffordAlgebra (diagForm K m.dim m.sq) →ₗ[K] CliffordAlgebra (diagForm K m.dim m.sq)} (hD : IsDual K m.dim m.sq D)
    {e : Rpne} {v : CliffordAlgebra (diagForm K m.dim m.sq)}
    (he : Means (cliffInterp K m.dim m.sq (fun k => E.consts.getD k 0) D w) e v) (hp : Supported m.dim E.consts.length args e)
    (hd : ∀ (p q : Nat) (a b : Node), e.nodes[p]? = some a → e.nodes[q]? = some b → IsShared a.o → a.o = b.o → a.checksum = b.checksum →
      a.ex = b.ex → p = q)
    {cap : Nat} (hcap : cap < 2 ^ 64)
    {c : Compiled} (hc : compileExpr m false cap args e = ok c) (hi : c.state.nextId ≤ indConstantStart) :
    ∃ x, runCompiled m false E args c = ok [x] ∧ x.Denotes m.dim m.sq v := by
  refine C45_compute_partial m hm E args hw hD he hp (fun T r hg h hr => ?_) hc hi
  obtain ⟨ns, q⟩ := e
  dsimp only at h
  subst h
  exact C36_distinct hg hd hcap hr

/-- C45 with common subexpressions: extraction is correct if expressions that look alike have the same factors and every reference goes to
a subexpression that is written out. -/
theorem C45_shared_partial [CharZero K] (m : Metric) (hm : m.dim ≤ 8) (E : Env K) (args : List (Arg K))
    {w : Nat → CliffordAlgebra (diagForm K m.dim m.sq)}
    (hw : ∀ (k : Nat) (a : Arg K), args[k]? = some a → a.Denotes m.dim m.sq (argOffset args k) (w k))
    {D : CliffordAlgebra (diagForm K m.dim m.sq) →ₗ[K] CliffordAlgebra (diagForm K m.dim m.sq)} (hD : IsDual K m.dim m.sq D)
    {e : Rpne} {v : CliffordAlgebra (diagForm K m.dim m.sq)}
    (he : Means (cliffInterp K m.dim m.sq (fun k => E.consts.getD k 0) D w) e v) (hp : Supported m.dim E.consts.length args e)
    (hs : ∀ a ∈ e.nodes, ∀ b ∈ e.nodes, a.same b = true → a.q = b.q)
    {cap : Nat} (hcap : cap < 2 ^ 64) {known : List Cse} {out : List Node} (hraw : reshapeRaw cap e = ok (known, out))
    (hre : RefsEmitted known out)
    {c : Compiled} (hc : compileExpr m false cap args e = ok c) (hi : c.state.nextId ≤ indConstantStart) :
    ∃ x, runCompiled m false E args c = ok [x] ∧ x.Denotes m.dim m.sq v := by
  refine C45_compute_partial m hm E args hw hD he hp (fun T r hg h hr => ?_) hc hi
  obtain ⟨ns, q⟩ := e
  dsimp only at h
  subst h
  exact C36_reshape_partial hg (coherent_of_nodes hs) hcap hraw hre hr

/-- The coefficients of the result can be read with `select`. -/
theorem C45_select {x : Entity K} {dim : Nat} {d : Nat → Int} {v : CliffordAlgebra (diagForm K dim d)} (h : x.Denotes dim d v) {e : Nat}
    (he : e < 2 ^ dim) : x.select dim e = ok (bladeCoords K dim d v e) := by
  have hn : x.elements.Nodup := h.asc.imp fun h => Nat.ne_of_lt h
  have key : ∀ (es : List Nat) (vs : List K), (∀ e ∈ es, e < 2 ^ dim) →
      bladeCoords K dim d (pairsVal (cliffBlade K dim d) es vs) e = pairsVal (fun x => if x = e then (1 : K) else 0) es vs := by
    intro es vs hes
    unfold pairsVal
    rw [map_list_sum, List.map_map, ← Finsupp.lapply_apply (R := K), map_list_sum, List.map_map]
    congr 1
    apply List.map_congr_left
    intro p hp
    simp only [Function.comp_apply, map_smul]
    rw [bladeCoords_blade K dim d _ (hes _ (List.of_mem_zip hp).1), Finsupp.lapply_apply, Finsupp.single_apply]
  rw [← h.value, key _ _ h.elems]
  by_cases hm : e ∈ x.elements
  · obtain ⟨k, hk⟩ := List.getElem?_of_mem hm
    have hk' : k < x.data.length := by rw [h.size]; exact (List.getElem?_eq_some_iff.1 hk).1
    rw [C29_select_listed x he hn hk (List.getElem?_eq_getElem hk'), pairsVal_get _ _ k hn hk (List.getElem?_eq_getElem hk')]
  · rw [C29_select_absent x he hm, pairsVal_absent _ _ hm]

/-- `a * b` for entities: what the theorems on `compute` ask for. -/
theorem product_ready [CharZero K] {m : Metric} {nc : Nat} {x y : Entity K}
    (hx : x.Denotes m.dim m.sq (pairsVal (cliffBlade K m.dim m.sq) x.elements x.data))
    (hy : y.Denotes m.dim m.sq (pairsVal (cliffBlade K m.dim m.sq) y.elements y.data))
    {e : Rpne} (he : gpExpr (entityExpr 0 0) (entityExpr x.data.length 1) = ok e) (hl : x.data.length + y.data.length ≤ 2 ^ 32) :
    (∀ (k : Nat) (a : Arg K), [x.toArg, y.toArg][k]? = some a → a.Denotes m.dim m.sq (argOffset [x.toArg, y.toArg] k)
      (if k = 0 then pairsVal (cliffBlade K m.dim m.sq) x.elements x.data else pairsVal (cliffBlade K m.dim m.sq) y.elements y.data)) ∧
    (∀ {V : Type} [AddCommGroup V] [Module ℚ V] (I : Interp V), Means I e (I.gp (I.arg 0 0) (I.arg 1 x.data.length))) ∧
    Supported m.dim nc [x.toArg, y.toArg] e ∧
    ∀ (p q : Nat) (a b : Node), e.nodes[p]? = some a → e.nodes[q]? = some b → IsShared a.o → a.o = b.o → a.checksum = b.checksum →
      a.ex = b.ex → p = q := by
  have hnodes : ∃ k, e.nodes = [⟨Op.id, 0, 0, ⟨0, 0⟩⟩, ⟨Op.id, x.data.length, 1, ⟨0, 0⟩⟩, ⟨Op.gp, k, 0, ⟨0, 0⟩⟩] := by
    simp only [gpExpr, entityExpr, backOf, productExpr, List.cons_ne_nil, if_false, List.getLast?_singleton, ok_bind, bind_eq_ok] at he
    obtain ⟨q, hq, he⟩ := he
    split at he
    · rename_i hz
      have : q = Rat32.one := by
        have h1 : Rat32.one.mul Rat32.one = ok Rat32.one := by decide
        rw [h1, ok_inj] at hq
        exact hq.symm
      subst this
      exact absurd hz (by decide)
    · simp only [bind_eq_ok, pure_eq, ok_inj] at he
      obtain ⟨k, _, rfl⟩ := he
      exact ⟨k, rfl⟩
  obtain ⟨k, hk⟩ := hnodes
  refine ⟨?_, fun I => C33_gp_partial (C33_argument I 0 0) (C33_argument I x.data.length 1) (by simp [entityExpr]) (by simp [entityExpr]) he, ?_, ?_⟩
  · intro j a hj
    match j with
    | 0 =>
      simp only [List.getElem?_cons_zero, Option.some.injEq] at hj
      subst hj
      exact C45_entity m.sq hx.asc hx.elems hx.size (by rw [← hx.size]; simp only [argOffset, argsSize, List.take_zero, List.map_nil, List.sum_nil]; omega)
    | 1 =>
      simp only [List.getElem?_cons_succ, List.getElem?_cons_zero, Option.some.injEq] at hj
      subst hj
      exact C45_entity m.sq hy.asc hy.elems hy.size (by rw [← hy.size]; simpa [argOffset, argsSize, Entity.toArg] using hl)
    | j + 2 => simp at hj
  · intro n hn
    rw [hk] at hn
    simp only [List.mem_cons, List.not_mem_nil, or_false] at hn
    rcases hn with rfl | rfl | rfl
    · exact ⟨plain_of_lt (by show Op.id < 11; decide),
        fun _ => ⟨by simp, by simp [argOffset, argsSize]⟩⟩
    · exact ⟨plain_of_lt (by show Op.id < 11; decide),
        fun _ => ⟨by simp, by simp [argOffset, argsSize, Entity.toArg]⟩⟩
    · exact ⟨plain_of_lt (by show Op.gp < 11; decide),
        fun h => absurd h (by show ¬ Op.gp = Op.id; decide)⟩
  · intro p q a b ha hb hs
    rw [hk] at ha hb
    have key : ∀ (p : Nat) (a : Node), ([⟨Op.id, 0, 0, ⟨0, 0⟩⟩, ⟨Op.id, x.data.length, 1, ⟨0, 0⟩⟩, ⟨Op.gp, k, 0, ⟨0, 0⟩⟩] : List Node)[p]? = some a →
        a.o = Op.gp → p = 2 := by
      intro p a ha ho
      match p with
      | 0 => simp at ha; subst ha; cases ho
      | 1 => simp at ha; subst ha; cases ho
      | 2 => rfl
      | p + 3 => simp at ha
    have ho : a.o = Op.gp := by
      have := List.mem_of_getElem? ha
      simp only [List.mem_cons, List.not_mem_nil, or_false] at this
      rcases this with rfl | rfl | rfl
      · exact absurd hs (by show ¬ IsShared Op.id; decide)
      · exact absurd hs (by show ¬ IsShared Op.id; decide)
      · rfl
    intro ho' _ _
    rw [key p a ha ho, key q b hb (by rw [← ho', ho])]

/-- C45 for a product: `compute([](auto a, auto b) { return a * b; }, x, y)` returns the geometric product, in every algebra without null
basis, for all entities with elements in ascending order and all coefficients. -/
theorem C45_product [CharZero K] (m : Metric) (hm : m.dim ≤ 8) (E : Env K) {x y : Entity K}
    (hx : x.Denotes m.dim m.sq (pairsVal (cliffBlade K m.dim m.sq) x.elements x.data))
    (hy : y.Denotes m.dim m.sq (pairsVal (cliffBlade K m.dim m.sq) y.elements y.data))
    {e : Rpne} (he : gpExpr (entityExpr 0 0) (entityExpr x.data.length 1) = ok e) {cap : Nat} (hcap : cap < 2 ^ 64)
    {c : Compiled} (hc : compileExpr m false cap [x.toArg, y.toArg] e = ok c) (hi : c.state.nextId ≤ indConstantStart)
    (hl : x.data.length + y.data.length ≤ 2 ^ 32) :
    ∃ z, runCompiled m false E [x.toArg, y.toArg] c = ok [z] ∧
      z.Denotes m.dim m.sq (pairsVal (cliffBlade K m.dim m.sq) x.elements x.data * pairsVal (cliffBlade K m.dim m.sq) y.elements y.data) := by
  obtain ⟨D, hD⟩ := exists_isDual K m.dim hm m.sq
  obtain ⟨h1, h2, h3, h4⟩ := product_ready (nc := E.consts.length) hx hy he hl
  exact C45_distinct_partial m hm E [x.toArg, y.toArg] h1 hD (h2 (cliffInterp K m.dim m.sq (fun k => E.consts.getD k 0) D _)) h3 h4 hcap hc hi

/-! ## Examples -/

/-- No named constants and no functions. -/
def numEnv : Env ℚ := ⟨[], [], fun _ _ _ => 1, fun _ v => v⟩

/-- A scalar as an argument. -/
def scalarArg (v : ℚ) : Arg ℚ := (⟨[0], [v]⟩ : Entity ℚ).toArg

/-- The result of a computation with one scalar as a result. -/
def scalarResult (x : Out (List (Entity ℚ))) : Option ℚ :=
  match x with
  | .val [z] false => match z.elements, z.data with
    | [0], [v] => some v
    | _, _ => none
  | _ => none

theorem scalarResult_eq {x : Out (List (Entity ℚ))} {v : ℚ} (h : scalarResult x = some v) : x = ok [⟨[0], [v]⟩] := by
  unfold scalarResult at h
  split at h
  · rename_i z
    split at h
    · rename_i w h1 h2
      simp only [Option.some.injEq] at h
      subst h
      obtain ⟨es, vs⟩ := z
      dsimp only at h1 h2
      subst h1 h2
      rfl
    · cases h
  · cases h

/-- The hypotheses of `C45_product` hold for two vectors of the plane. -/
example : ∃ (x y : Entity ℚ) (e : Rpne) (c : Compiled),
    x.Denotes 2 (Metric.sq ⟨2, 0, 0⟩) (pairsVal (cliffBlade ℚ 2 (Metric.sq ⟨2, 0, 0⟩)) x.elements x.data) ∧
    y.Denotes 2 (Metric.sq ⟨2, 0, 0⟩) (pairsVal (cliffBlade ℚ 2 (Metric.sq ⟨2, 0, 0⟩)) y.elements y.data) ∧
    gpExpr (entityExpr 0 0) (entityExpr x.data.length 1) = ok e ∧
    compileExpr ⟨2, 0, 0⟩ false 3 [x.toArg, y.toArg] e = ok c ∧ c.state.nextId ≤ indConstantStart := by
  refine ⟨⟨[1, 2], [3, 5]⟩, ⟨[1, 2], [7, 9]⟩, ?_⟩
  obtain ⟨e, h1, c, h2⟩ := Out.chain_of_isOk (x := gpExpr (entityExpr 0 0) (entityExpr 2 1))
    (f := fun e => do
      let c ← compileExpr (K := ℚ) ⟨2, 0, 0⟩ false 3 [(⟨[1, 2], [3, 5]⟩ : Entity ℚ).toArg, (⟨[1, 2], [7, 9]⟩ : Entity ℚ).toArg] e
      if c.state.nextId ≤ indConstantStart then ok c else .ub) (by decide +kernel)
  simp only [bind_eq_ok] at h2
  obtain ⟨c', h2, h3⟩ := h2
  split at h3
  · rename_i h4
    exact ⟨e, c', ⟨rfl, by decide, by decide, rfl⟩, ⟨rfl, by decide, by decide, rfl⟩, h1, h2, h4⟩
  · cases h3

theorem scalarArg_denotes {dim : Nat} (d : Nat → Int) (v : ℚ) {off : Nat} (h : off + 1 ≤ 2 ^ 32) :
    (scalarArg v).Denotes dim d off (algebraMap ℚ _ v) := by
  have := C45_entity (dim := dim) d (x := ⟨[0], [v]⟩) (off := off) (List.pairwise_singleton _ _) (by simp) rfl h
  have e : pairsVal (cliffBlade ℚ dim d) [0] [v] = algebraMap ℚ _ v := by
    simp [pairsVal, cliffBlade, bladeOf_zero, Algebra.algebraMap_eq_smul_one]
  rw [← e]
  exact this

theorem one_toQ_smul {V : Type} [AddCommGroup V] [Module ℚ V] (v : V) : Rat32.one.toQ • v = v := by
  simp [Rat32.toQ, Rat32.one]

/-- The hypotheses of `C45_shared_partial` hold for `(a a)(a a)` with a vector `a` of the plane: one temporary, referenced twice. -/
example : ∃ (D : _) (w : Nat → CliffordAlgebra (diagForm ℚ 2 (Metric.sq ⟨2, 0, 0⟩))) (v : _) (known : List Cse) (out : List Node) (c : Compiled),
    IsDual ℚ 2 (Metric.sq ⟨2, 0, 0⟩) D ∧
    (∀ (k : Nat) (a : Arg ℚ), [(⟨[1, 2], [3, 5]⟩ : Entity ℚ).toArg][k]? = some a →
      a.Denotes 2 (Metric.sq ⟨2, 0, 0⟩) (argOffset [(⟨[1, 2], [3, 5]⟩ : Entity ℚ).toArg] k) (w k)) ∧
    Means (cliffInterp ℚ 2 (Metric.sq ⟨2, 0, 0⟩) (fun k => numEnv.consts.getD k 0) D w) ⟨squareT.post, Rat32.one⟩ v ∧
    Supported 2 numEnv.consts.length [(⟨[1, 2], [3, 5]⟩ : Entity ℚ).toArg] ⟨squareT.post, Rat32.one⟩ ∧
    (∀ a ∈ squareT.post, ∀ b ∈ squareT.post, a.same b = true → a.q = b.q) ∧
    reshapeRaw 7 ⟨squareT.post, Rat32.one⟩ = ok (known, out) ∧ RefsEmitted known out ∧
    compileExpr ⟨2, 0, 0⟩ false 7 [(⟨[1, 2], [3, 5]⟩ : Entity ℚ).toArg] ⟨squareT.post, Rat32.one⟩ = ok c ∧
    c.state.nextId ≤ indConstantStart ∧ c.state.temps.length = 1 := by
  obtain ⟨D, hD⟩ := exists_isDual ℚ 2 (by decide) (Metric.sq ⟨2, 0, 0⟩)
  obtain ⟨⟨known, out⟩, hraw⟩ := Out.exists_of_isOk (x := reshapeRaw 7 ⟨squareT.post, Rat32.one⟩) (by decide +kernel)
  obtain ⟨c, hc, u, hu⟩ := Out.chain_of_isOk (x := compileExpr ⟨2, 0, 0⟩ false 7 [(⟨[1, 2], [3, 5]⟩ : Entity ℚ).toArg] ⟨squareT.post, Rat32.one⟩)
    (f := fun c => if c.state.nextId ≤ indConstantStart ∧ c.state.temps.length = 1 then ok () else .ub) (by decide +kernel)
  have hc2 : c.state.nextId ≤ indConstantStart ∧ c.state.temps.length = 1 := by
    split at hu
    · assumption
    · cases hu
  refine ⟨D, fun _ => pairsVal (K := ℚ) (cliffBlade ℚ 2 (Metric.sq ⟨2, 0, 0⟩)) [1, 2] [3, 5], _, known, out, c, hD, ?_,
    Or.inr ⟨squareT, gpT_good (gpT_good (argT_good _) (argT_good _)) (gpT_good (argT_good _) (argT_good _)), rfl, Rat32.one_wf,
      by show (1 : Int) ≠ 0; decide, rfl⟩, ?_, by decide +kernel, hraw, refsEmitted_of_check (by decide +kernel) hraw, hc, hc2.1, hc2.2⟩
  · intro k a hk
    match k with
    | 0 =>
      simp at hk
      subst hk
      exact C45_entity (dim := 2) (Metric.sq ⟨2, 0, 0⟩) (x := ⟨[1, 2], [3, 5]⟩) (off := 0) (by decide) (by decide) rfl (by decide)
    | k + 1 => simp at hk
  · intro n hn
    have h1 : ∀ n ∈ squareT.post, n.o < Op.comp ∧ (n.o = Op.id → n.ex = 0 ∧ n.checksum = 0) := by decide +kernel
    obtain ⟨h2, h3⟩ := h1 n hn
    refine ⟨plain_of_lt h2, fun ho => ?_⟩
    obtain ⟨h4, h5⟩ := h3 ho
    rw [h4, h5]
    exact ⟨by decide, rfl⟩

theorem countT_value {V : Type} [AddCommGroup V] [Module ℚ V] (I : Interp V) : countT.val I =
    I.gp (I.arg 2 2 + I.gp (I.gp (I.arg 1 1) (I.arg 1 1)) (I.gp (I.arg 1 1) (I.arg 1 1)))
      (I.gp (I.gp (I.arg 0 0) (I.arg 0 0)) (I.gp (I.arg 0 0) (I.arg 0 0))) := by
  simp [countT, gpT, sumT, argT, Tree.val, Forest.vals, Rat32.toQ, Op.gp, Op.sum]

/-- **C45 fails for some expressions**: `compute([](auto a, auto b, auto c) { return (c + b * b * (b * b)) * (a * a * (a * a)); }, …)` with the
scalars 2, 3 and 4 returns 640, where 1360 is the value of the expression.  The cause is the reference count of C36. -/
theorem C45_false : ∃ (e : Rpne) (args : List (Arg ℚ)) (w : Nat → CliffordAlgebra (diagForm ℚ 1 (Metric.sq ⟨1, 0, 0⟩)))
    (D : CliffordAlgebra (diagForm ℚ 1 (Metric.sq ⟨1, 0, 0⟩)) →ₗ[ℚ] CliffordAlgebra (diagForm ℚ 1 (Metric.sq ⟨1, 0, 0⟩)))
    (v : CliffordAlgebra (diagForm ℚ 1 (Metric.sq ⟨1, 0, 0⟩))) (x : Entity ℚ),
    IsDual ℚ 1 (Metric.sq ⟨1, 0, 0⟩) D ∧ (∀ (k : Nat) (a : Arg ℚ), args[k]? = some a → a.Denotes 1 (Metric.sq ⟨1, 0, 0⟩) (argOffset args k) (w k)) ∧
    (do
      let bb ← gpExpr (entityExpr 1 1) (entityExpr 1 1)
      let b4 ← gpExpr bb bb
      let s ← addExpr (entityExpr 2 2) b4
      let aa ← gpExpr (entityExpr 0 0) (entityExpr 0 0)
      let a4 ← gpExpr aa aa
      gpExpr s a4) = ok e ∧
    Means (cliffInterp ℚ 1 (Metric.sq ⟨1, 0, 0⟩) (fun _ => 0) D w) e v ∧ Supported 1 0 args e ∧
    computeExpr ⟨1, 0, 0⟩ false 19 numEnv args e = ok [x] ∧ ¬ x.Denotes 1 (Metric.sq ⟨1, 0, 0⟩) v := by
  obtain ⟨D, hD⟩ := exists_isDual ℚ 1 (by decide) (Metric.sq ⟨1, 0, 0⟩)
  have hw : ∀ (k : Nat) (a : Arg ℚ), [scalarArg 2, scalarArg 3, scalarArg 4][k]? = some a →
      a.Denotes 1 (Metric.sq ⟨1, 0, 0⟩) (argOffset [scalarArg 2, scalarArg 3, scalarArg 4] k) (algebraMap ℚ _ (([2, 3, 4] : List ℚ).getD k 0)) := by
    intro k a hk
    match k with
    | 0 => simp at hk; subst hk; exact scalarArg_denotes _ 2 (off := 0) (by decide)
    | 1 => simp at hk; subst hk; exact scalarArg_denotes _ 3 (off := 1) (by decide)
    | 2 => simp at hk; subst hk; exact scalarArg_denotes _ 4 (off := 2) (by decide)
    | k + 3 => simp at hk
  refine ⟨⟨countT.post, Rat32.one⟩, [scalarArg 2, scalarArg 3, scalarArg 4], _, D, algebraMap ℚ _ 1360,
    ⟨[0], [640]⟩, hD, hw, by decide +kernel, ?_, ?_, scalarResult_eq (by decide +kernel), ?_⟩
  · refine Or.inr ⟨countT, countT_good, rfl, Rat32.one_wf, by show (1 : Int) ≠ 0; decide, ?_⟩
    rw [countT_value]
    refine Eq.trans ?_ (one_toQ_smul _).symm
    have key : ∀ a : ℚ →+* CliffordAlgebra (diagForm ℚ 1 (Metric.sq ⟨1, 0, 0⟩)), a 1360 =
        (a 4 + (a 3 * a 3) * (a 3 * a 3)) * ((a 2 * a 2) * (a 2 * a 2)) := by
      intro a
      simp only [← map_mul, ← map_add]
      congr 1
      norm_num
    exact key _
  · intro n hn
    have h1 : ∀ n ∈ countT.post, n.o < Op.comp ∧ (n.o = Op.id → n.ex < 3 ∧ n.checksum = n.ex) := by decide +kernel
    obtain ⟨h2, h3⟩ := h1 n hn
    refine ⟨plain_of_lt h2, fun ho => ?_⟩
    obtain ⟨h4, h5⟩ := h3 ho
    refine ⟨h4, ?_⟩
    rw [h5]
    have : ∀ k, k < 3 → k = argOffset [scalarArg 2, scalarArg 3, scalarArg 4] k := by decide
    exact this _ h4
  · intro h
    have h1 := C45_select h (e := 0) (by decide)
    have h2 : algebraMap ℚ (CliffordAlgebra (diagForm ℚ 1 (Metric.sq ⟨1, 0, 0⟩))) 1360 =
        (1360 : ℚ) • cliffBlade ℚ 1 (Metric.sq ⟨1, 0, 0⟩) 0 := by
      rw [cliffBlade, bladeOf_zero, Algebra.algebraMap_eq_smul_one]
    rw [h2, map_smul, bladeCoords_blade _ _ _ _ (by decide)] at h1
    have h3 : (⟨[0], [640]⟩ : Entity ℚ).select 1 0 = ok 640 := C29_select_listed (k := 0) _ (by decide) (by simp) rfl rfl
    rw [h3, ok_inj] at h1
    simp at h1

end Gal
