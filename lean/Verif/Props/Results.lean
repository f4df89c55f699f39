import Verif.ReshapePlain
import Verif.Props.Compute

/-!
# Property C46: a lambda that returns a tuple

`compute` on a tuple of expressions returns their values in order, provided no operation occurs twice in the whole tuple.
-/

namespace Gal

open Out

section

variable {V : Type} [AddCommGroup V] [Module ℚ V] {I : Interp V}

/-- The blocks of a tuple. -/
theorem concat_forest : ∀ {es : List Rpne} {vs : List V}, List.Forall₂ (Means I) es vs → (∀ e ∈ es, e.nodes ≠ []) →
    ∃ f : Forest, f.post = (concatExpr es).nodes ∧ f.Good (fun q => q.WF ∧ q.num ≠ 0) ∧ f.vals I = vs
  | _, _, .nil, _ => ⟨.nil, rfl, by rw [Forest.Good]; trivial, by rw [Forest.vals]⟩
  | _, _, .cons (a := e) (l₁ := es) h hs, hne => by
    obtain ⟨f, h1, h2, h3⟩ := concat_forest hs fun e he => hne e (List.mem_cons_of_mem _ he)
    obtain ⟨t, g, p, q1, q2, rfl⟩ := means_tree h (hne e List.mem_cons_self)
    refine ⟨.cons ⟨Op.se, 0, e.nodes.length, e.q⟩ t f, ?_, ?_, ?_⟩
    · rw [Forest.post, h1, ← p]
      simp [concatExpr]
    · rw [Forest.Good]
      exact ⟨rfl, by rw [p], ⟨q1, q2⟩, g, h2⟩
    · rw [Forest.vals, h3, if_neg q2]

end

variable {K : Type} [Field K]

/-- An entry of the stack gives an entity with its value. -/
theorem finalize_value [CharZero K] {dim b : Nat} {d : Nat → Int} (E : Env K) (hb : b ≤ E.data.length) (hc : b ≤ indConstantStart) {a : Mv}
    {v : CliffordAlgebra (diagForm K dim d)} (h : Sound True True dim d E.consts.length E.rho b a v) {q : Rat32} (hq : q.WF) (h0 : q.num ≠ 0) :
    ∃ x, finalizeEntity none E a q.num q.den = ok x ∧ x.Denotes dim d (q.toQ • v) ∧ ∃ n, Packed a n ∧ x.elements = n.map (·.element) := by
  obtain ⟨n, hn, hv⟩ := h
  have hev : EvalMv E n := stored_eval hb hc hn
  obtain ⟨z, z1, z2, z3, z4⟩ := C32_entity_partial (cliffBlade K dim d) E hn.packed.view hn.packed.op hev q.num q.den h0 hq.pos
  refine ⟨z, ?_, ⟨z3, by rw [z2]; exact List.pairwise_map.2 hn.canon.asc, ?_, ?_⟩, n, hn.packed, z2⟩
  · simp only [finalizeEntity, toOutput, ok_bind, z1]
  · intro e he
    rw [z2] at he
    obtain ⟨t, ht, rfl⟩ := List.mem_map.1 he
    exact hn.elems t ht
  · rw [z4, mvVal_pw _ hn.canon, hv trivial, ← qsmul_eq (K := K)]
    congr 1
    simp [Rat32.toQ]

theorem finalize_values [CharZero K] {dim b : Nat} {d : Nat → Int} (E : Env K) (hb : b ≤ E.data.length) (hc : b ≤ indConstantStart)
    {q : Rat32} (hq : q.WF) (h0 : q.num ≠ 0) : ∀ {as : List Mv} {vs : List (CliffordAlgebra (diagForm K dim d))},
    List.Forall₂ (Sound True True dim d E.consts.length E.rho b) as vs →
    ∃ xs, mapO (fun a => finalizeEntity none E a q.num q.den) as = ok xs ∧ List.Forall₂ (fun x v => x.Denotes dim d (q.toQ • v)) xs vs ∧
      List.Forall₂ (fun x a => ∃ n, Packed a n ∧ x.elements = n.map (·.element)) xs as
  | _, _, .nil => ⟨[], rfl, .nil, .nil⟩
  | _, _, .cons h hs => by
    obtain ⟨x, h1, h2, h5⟩ := finalize_value E hb hc h hq h0
    obtain ⟨xs, h3, h4, h6⟩ := finalize_values E hb hc hq h0 hs
    exact ⟨x :: xs, mapO_cons_ok.2 ⟨x, xs, h1, h3, rfl⟩, .cons h2 h4, .cons h5 h6⟩

/-- The two branches for one and for several results agree. -/
theorem finishCompute_eq {nd : Option Nat} {E : Env K} {q : Rat32} {as : List Mv} (h : as ≠ []) :
    finishCompute nd E q as = mapO (fun a => finalizeEntity nd E a q.num q.den) as.reverse := by
  match as, h with
  | [a], _ =>
    simp only [finishCompute, List.reverse_cons, List.reverse_nil, List.nil_append, mapO]
    cases finalizeEntity nd E a q.num q.den <;> rfl
  | a :: b :: as, _ => rfl

theorem forall₂_left {α β : Type} {R : α → β → Prop} : ∀ {as : List α} {bs : List β}, List.Forall₂ R as bs → ∀ a ∈ as, ∃ b, b ∈ bs ∧ R a b
  | _, _, .nil, _, h => by cases h
  | _, _, .cons (b := b) h hs, a, ha => by
    rcases List.mem_cons.1 ha with rfl | ha
    · exact ⟨b, by simp, h⟩
    · obtain ⟨b, h1, h2⟩ := forall₂_left hs a ha
      exact ⟨b, by simp [h1], h2⟩

/-- A compiled expression without temporaries, whose results are polynomials. -/
structure PlainRun (nd : Option Nat) (size : Nat) (c : Compiled) : Prop where
  temps : c.state.temps = []
  room : c.state.nextId = size
  factor : c.state.args ≠ [] → c.q.WF
  result : ∀ a ∈ c.state.args, ∃ b n dim P, toOutput nd a = ok b ∧ Clean (PosInd P) dim b n

/-- The results of a tuple, and the multivectors on the stack that they come from. -/
theorem tuple_elems [CharZero K] (m : Metric) (hm : m.dim ≤ 8) (E : Env K) (args : List (Arg K))
    {w : Nat → CliffordAlgebra (diagForm K m.dim m.sq)}
    (hw : ∀ (k : Nat) (a : Arg K), args[k]? = some a → a.Denotes m.dim m.sq (argOffset args k) (w k))
    {D : CliffordAlgebra (diagForm K m.dim m.sq) →ₗ[K] CliffordAlgebra (diagForm K m.dim m.sq)} (hD : IsDual K m.dim m.sq D)
    {es : List Rpne} {vs : List (CliffordAlgebra (diagForm K m.dim m.sq))} (hne : vs ≠ [])
    {f : Forest} (f1 : f.post = (concatExpr es).nodes) (f2 : f.Good (fun q => q.WF ∧ q.num ≠ 0))
    (f3 : f.vals (cliffInterp K m.dim m.sq (fun k => E.consts.getD k 0) D w) = vs)
    (hp : ∀ e ∈ es, Supported m.dim E.consts.length args e)
    (hd : ∀ (p q : Nat) (a b : Node), (concatExpr es).nodes[p]? = some a → (concatExpr es).nodes[q]? = some b → IsShared a.o → a.o = b.o →
      a.checksum = b.checksum → a.ex = b.ex → p = q)
    {cap : Nat} {c : Compiled} (hc : compileExpr m false cap args (concatExpr es) = ok c) (hi : argsSize args ≤ indConstantStart) :
    ∃ xs as, PlainRun none (argsSize args) c ∧ runCompiled m false E args c = ok xs ∧ List.Forall₂ (fun x v => x.Denotes m.dim m.sq v) xs vs ∧
      f.eval (mvOps m false) (argMv args) [] = ok as ∧ List.Forall₂ (fun x a => ∃ n, Packed a n ∧ x.elements = n.map (·.element)) xs as := by
  have hpn : ∀ n ∈ f.post, Plain m.dim E.consts.length n ∧ ArgNode args n := by
    intro n hn
    rw [f1] at hn
    obtain ⟨e, h1, h2⟩ := List.mem_flatMap.1 hn
    rcases List.mem_cons.1 h2 with rfl | h2
    · exact ⟨plain_of_lt (by show Op.se < 11; decide), fun h => absurd h (by show ¬ Op.se = Op.id; decide)⟩
    · exact hp e h1 n h2
  obtain ⟨-, r, hr, s, hs, rfl⟩ := compileExpr_eq_ok.1 hc
  have hcat : concatExpr es = ⟨f.post, Rat32.one⟩ := by rw [f1]; rfl
  rw [hcat] at hr hd
  obtain ⟨f', g1, g2, g3, rfl⟩ := reshape_plain f2.shape (f2.noRef) hd (fun n hn => ⟨(hpn n hn).1.div, (hpn n hn).1.fn⟩) hr
  have hs' : run (mvOps m false) (f'.post ++ []) ⟨gatherInputs (argMv args) f'.post, [], [], argsSize args⟩ = ok s := by
    rw [List.append_nil]; exact hs
  rw [run_forest _ (argMv args) f' g1 [] _ [] (by simp), bind_eq_ok] at hs'
  obtain ⟨as, has, hs'⟩ := hs'
  rw [run_nil, ok_inj] at hs'
  subst hs'
  rw [g2.eval _ _ _ g1] at has
  have hlen : (args.map fun a => a.data).flatten.length ≤ (List.replicate (argsSize args + argsSize args - argsSize args) (0 : K)).length := by
    rw [← argsSize_eq, List.length_replicate]
    omega
  have hfill := C41_fill (args.map fun a => a.data) _ hlen
  generalize hdat : (args.map fun a => a.data).flatten ++ (List.replicate (argsSize args + argsSize args - argsSize args) (0 : K)).drop
    (args.map fun a => a.data).flatten.length = dat at hfill
  have hdl : dat.length = argsSize args := by
    rw [← hdat, List.length_append, List.length_drop, List.length_replicate, ← argsSize_eq]
    omega
  have hρ : ∀ k a, args[k]? = some a → ∀ i, i < a.data.length → ({ E with data := dat } : Env K).rho (argOffset args k + i) = a.data.getD i 0 := by
    intro k a hk i hi
    have hb := argOffset_le args hk
    obtain ⟨out, o1, o2⟩ := C41_position (args.map fun a => a.data) _ hlen (k := k) (i := i) (d := a.data) (v := a.data.getD i 0)
      (by rw [List.getElem?_map, hk]; rfl) (by rw [List.getElem?_eq_getElem hi, List.getD_eq_getElem _ _ hi])
    rw [hfill, ok_inj] at o1
    subst o1
    rw [← argOffset_eq] at o2
    unfold Env.rho
    rw [if_neg (by omega)]
    simp only [List.getD_eq_getElem?_getD] at o2 ⊢
    rw [o2]
    rfl
  have hval := eval_forest (mv_refines True True m hm false (fun k => E.consts.getD k 0) D hD w E.consts.length ({ E with data := dat } : Env K).rho
      (fun _ k hk => by
        unfold Env.rho
        rw [if_pos (by omega)]
        simp) (argMv args) (argsSize args) (fun n => Plain m.dim E.consts.length n ∧ ArgNode args n) (fun n h => h.1) (by
        intro n hn ho x hx
        obtain ⟨h1, h2⟩ := hn.2 ho
        have hk := List.getElem?_eq_getElem h1
        obtain ⟨na, i1, i2⟩ := hw _ _ hk
        have he : argMv args n.ex n.checksum = args[n.ex].ie (argOffset args n.ex) := by
          unfold argMv
          rw [hk, h2]
        simp only [mvOps, Bool.false_eq_true, if_false, he, ok_inj] at hx
        subst hx
        have := argOffset_le args hk
        exact ⟨na, i1.mono fun i hi => ⟨Or.inl (by have := hi.1; omega), hi.2⟩, fun _ => i2 _ (hρ _ _ hk)⟩))
    f2 (fun q h => Or.inr h) hpn has
  rw [f3] at hval
  obtain ⟨xs, x1, x2, x3⟩ := finalize_values { E with data := dat } (by rw [hdl]) hi Rat32.one_wf (by show (1 : Int) ≠ 0; decide) hval
  refine ⟨xs, as, ⟨rfl, rfl, fun _ => Rat32.one_wf, fun a ha => ?_⟩, ?_, ?_, has, x3⟩
  · obtain ⟨v, -, n, hk, -⟩ := forall₂_left hval a (by simpa using ha)
    exact ⟨a, n, _, _, rfl, hk.toClean⟩
  · have ha : as ≠ [] := by
      rintro rfl
      cases hval
      exact hne rfl
    unfold runCompiled
    dsimp only
    rw [hfill, ok_bind]
    simp only [List.append_nil]
    rw [finalizeTemps, ok_bind, finishCompute_eq (by simpa using ha), List.reverse_reverse]
    exact x1
  · exact x2.imp fun x v h => by rwa [one_toQ_smul] at h

/-- **C46.**  `compute` with a lambda that returns a tuple of expressions `es` that mean `vs` returns the entities for `vs`, in this order, if no
operation occurs twice in the tuple.  Missing: tuples that share an operation between their components or inside one, where the code is wrong
(`C46_false`, `C46_shared_false`); a component that is literally zero does not compile; null bases are in C47; with quotients and functions the code is wrong
(`C46_quotient_false`, `C46_quotient_last_false`, `C46_function_false`). -/
theorem C46_tuple_partial [CharZero K] (m : Metric) (hm : m.dim ≤ 8) (E : Env K) (args : List (Arg K))
    {w : Nat → CliffordAlgebra (diagForm K m.dim m.sq)}
    (hw : ∀ (k : Nat) (a : Arg K), args[k]? = some a → a.Denotes m.dim m.sq (argOffset args k) (w k))
    {D : CliffordAlgebra (diagForm K m.dim m.sq) →ₗ[K] CliffordAlgebra (diagForm K m.dim m.sq)} (hD : IsDual K m.dim m.sq D)
    {es : List Rpne} {vs : List (CliffordAlgebra (diagForm K m.dim m.sq))} (hne : es ≠ [])
    (he : List.Forall₂ (Means (cliffInterp K m.dim m.sq (fun k => E.consts.getD k 0) D w)) es vs) (h0 : ∀ e ∈ es, e.nodes ≠ [])
    (hp : ∀ e ∈ es, Supported m.dim E.consts.length args e)
    (hd : ∀ (p q : Nat) (a b : Node), (concatExpr es).nodes[p]? = some a → (concatExpr es).nodes[q]? = some b → IsShared a.o → a.o = b.o →
      a.checksum = b.checksum → a.ex = b.ex → p = q)
    {cap : Nat} {c : Compiled} (hc : compileExpr m false cap args (concatExpr es) = ok c) (hi : argsSize args ≤ indConstantStart) :
    ∃ xs, runCompiled m false E args c = ok xs ∧ List.Forall₂ (fun x v => x.Denotes m.dim m.sq v) xs vs := by
  obtain ⟨f, f1, f2, f3⟩ := concat_forest he h0
  obtain ⟨xs, as, -, x1, x2, -⟩ := tuple_elems m hm E args hw hD (by rintro rfl; cases he; exact hne rfl) f1 f2 f3 hp hd hc hi
  exact ⟨xs, x1, x2⟩

/-! ## Examples -/

/-- The hypotheses of `C46_tuple_partial` hold for `tuple{a * b, b}` with two vectors of the plane. -/
example : ∃ (args : List (Arg ℚ)) (D : _) (w : Nat → CliffordAlgebra (diagForm ℚ 2 (Metric.sq ⟨2, 0, 0⟩))) (es : List Rpne)
    (vs : List (CliffordAlgebra (diagForm ℚ 2 (Metric.sq ⟨2, 0, 0⟩)))) (c : Compiled),
    IsDual ℚ 2 (Metric.sq ⟨2, 0, 0⟩) D ∧
    (∀ (k : Nat) (a : Arg ℚ), args[k]? = some a → a.Denotes 2 (Metric.sq ⟨2, 0, 0⟩) (argOffset args k) (w k)) ∧
    es.length = 2 ∧ List.Forall₂ (Means (cliffInterp ℚ 2 (Metric.sq ⟨2, 0, 0⟩) (fun k => numEnv.consts.getD k 0) D w)) es vs ∧
    (∀ e ∈ es, e.nodes ≠ []) ∧ (∀ e ∈ es, Supported 2 numEnv.consts.length args e) ∧ DistinctNodes (concatExpr es).nodes ∧
    compileExpr ⟨2, 0, 0⟩ false 8 args (concatExpr es) = ok c ∧ argsSize args ≤ indConstantStart := by
  obtain ⟨D, hD⟩ := exists_isDual ℚ 2 (by decide) (Metric.sq ⟨2, 0, 0⟩)
  obtain ⟨c, hc⟩ := Out.exists_of_isOk (x := compileExpr ⟨2, 0, 0⟩ false 8
    [(⟨[1, 2], [3, 5]⟩ : Entity ℚ).toArg, (⟨[1, 2], [7, 9]⟩ : Entity ℚ).toArg]
    (concatExpr [⟨(gpT 17 (.leaf ⟨Op.id, 0, 0, ⟨0, 0⟩⟩) (.leaf ⟨Op.id, 2, 1, ⟨0, 0⟩⟩)).post, Rat32.one⟩, ⟨[⟨Op.id, 2, 1, ⟨0, 0⟩⟩], Rat32.one⟩]))
    (by decide +kernel)
  refine ⟨_, D, fun k => if k = 0 then pairsVal (K := ℚ) (cliffBlade ℚ 2 (Metric.sq ⟨2, 0, 0⟩)) [1, 2] [3, 5] else
    pairsVal (K := ℚ) (cliffBlade ℚ 2 (Metric.sq ⟨2, 0, 0⟩)) [1, 2] [7, 9], _, _, c, hD, ?_, rfl,
    .cons (Or.inr ⟨gpT 17 (.leaf ⟨Op.id, 0, 0, ⟨0, 0⟩⟩) (.leaf ⟨Op.id, 2, 1, ⟨0, 0⟩⟩), ?_, rfl, Rat32.one_wf, by show (1 : Int) ≠ 0; decide, rfl⟩)
      (.cons (Or.inr ⟨.leaf ⟨Op.id, 2, 1, ⟨0, 0⟩⟩, ?_, rfl, Rat32.one_wf, by show (1 : Int) ≠ 0; decide, rfl⟩) .nil),
    by decide, ?_, distinct_of_check (by decide +kernel), hc, by decide⟩
  · intro k a hk
    match k with
    | 0 =>
      simp at hk
      subst hk
      exact C45_entity (dim := 2) (Metric.sq ⟨2, 0, 0⟩) (x := ⟨[1, 2], [3, 5]⟩) (off := 0) (by decide) (by decide) rfl (by decide)
    | 1 =>
      simp at hk
      subst hk
      exact C45_entity (dim := 2) (Metric.sq ⟨2, 0, 0⟩) (x := ⟨[1, 2], [7, 9]⟩) (off := 2) (by decide) (by decide) rfl (by decide)
    | k + 2 => simp at hk
  · exact gpT_good (by rw [Tree.Good]; exact Or.inl rfl) (by rw [Tree.Good]; exact Or.inl rfl)
  · rw [Tree.Good]; exact Or.inl rfl
  · intro e he n hn
    have h1 : ∀ e ∈ ([⟨(gpT 17 (.leaf ⟨Op.id, 0, 0, ⟨0, 0⟩⟩) (.leaf ⟨Op.id, 2, 1, ⟨0, 0⟩⟩)).post, Rat32.one⟩,
        ⟨[⟨Op.id, 2, 1, ⟨0, 0⟩⟩], Rat32.one⟩] : List Rpne), ∀ n ∈ e.nodes, n.o < Op.comp ∧
        (n.o = Op.id → n.ex < 2 ∧ n.checksum = argOffset [(⟨[1, 2], [3, 5]⟩ : Entity ℚ).toArg, (⟨[1, 2], [7, 9]⟩ : Entity ℚ).toArg] n.ex) := by
      decide +kernel
    obtain ⟨h2, h3⟩ := h1 e he n hn
    exact ⟨plain_of_lt h2, h3⟩

/-- Scalar arguments stand for their values. -/
theorem scalarArgs_denote (xs : List ℚ) (hx : xs.length ≤ 2 ^ 32) (d : Nat → Int) (k : Nat) (a : Arg ℚ) (h : (xs.map scalarArg)[k]? = some a) :
    a.Denotes 1 d (argOffset (xs.map scalarArg) k) (algebraMap ℚ (CliffordAlgebra (diagForm ℚ 1 d)) (xs.getD k 0)) := by
  have hlen : ∀ ys : List ℚ, (((ys.map scalarArg).map fun a => a.data).map List.length).sum = ys.length := by
    intro ys
    induction ys with
    | nil => rfl
    | cons y ys ih => simp only [List.map_cons, List.sum_cons, List.length_cons, ih]; show 1 + _ = _; omega
  have hoff : argOffset (xs.map scalarArg) k = (xs.take k).length := by
    rw [argOffset_eq, ← List.map_take, ← List.map_take, hlen]
  rw [List.getElem?_map] at h
  obtain ⟨v, hv, rfl⟩ := Option.map_eq_some_iff.1 h
  obtain ⟨hk, rfl⟩ := List.getElem?_eq_some_iff.1 hv
  rw [List.getD_eq_getElem?_getD, hv]
  exact scalarArg_denotes d _ (by rw [hoff, List.length_take]; omega)

/-- The values of a list of results, each with its elements. -/
def resultData (x : Out (List (Entity ℚ))) : Option (List (List Nat × List ℚ)) :=
  match x with
  | .val zs false => some (zs.map fun z => (z.elements, z.data))
  | _ => none

/-- **C46 fails for some tuples**: `tuple{a * a * (a * a), b, c, d}` compiles, but only two of the four results are returned, the values of `c`
and `d`: the common subexpression makes the first component shorter, but its recorded length stays, so that the evaluation of the first component
takes the next components for a part of it. -/
theorem C46_false : ∃ (es : List Rpne) (args : List (Arg ℚ)) (w : Nat → CliffordAlgebra (diagForm ℚ 1 (Metric.sq ⟨1, 0, 0⟩)))
    (D : CliffordAlgebra (diagForm ℚ 1 (Metric.sq ⟨1, 0, 0⟩)) →ₗ[ℚ] CliffordAlgebra (diagForm ℚ 1 (Metric.sq ⟨1, 0, 0⟩)))
    (vs : List (CliffordAlgebra (diagForm ℚ 1 (Metric.sq ⟨1, 0, 0⟩)))) (xs : List (Entity ℚ)),
    IsDual ℚ 1 (Metric.sq ⟨1, 0, 0⟩) D ∧ (∀ (k : Nat) (a : Arg ℚ), args[k]? = some a → a.Denotes 1 (Metric.sq ⟨1, 0, 0⟩) (argOffset args k) (w k)) ∧
    (do
      let aa ← gpExpr (entityExpr 0 0) (entityExpr 0 0)
      let s ← gpExpr aa aa
      return [s, entityExpr 1 1, entityExpr 2 2, entityExpr 3 3]) = ok es ∧
    List.Forall₂ (Means (cliffInterp ℚ 1 (Metric.sq ⟨1, 0, 0⟩) (fun _ => 0) D w)) es vs ∧ (∀ e ∈ es, Supported 1 0 args e) ∧
    computeExpr ⟨1, 0, 0⟩ false 20 numEnv args (concatExpr es) = ok xs ∧ es.length = 4 ∧ xs.length = 2 := by
  obtain ⟨D, hD⟩ := exists_isDual ℚ 1 (by decide) (Metric.sq ⟨1, 0, 0⟩)
  have hw := scalarArgs_denote [2, 3, 5, 7] (by decide) (Metric.sq ⟨1, 0, 0⟩)
  have hx : resultData (computeExpr ⟨1, 0, 0⟩ false 20 numEnv (([2, 3, 5, 7] : List ℚ).map scalarArg)
      (concatExpr [⟨squareT.post, Rat32.one⟩, entityExpr 1 1, entityExpr 2 2, entityExpr 3 3])) = some [([0], [5]), ([0], [7])] := by decide +kernel
  have hx2 : ∃ xs, computeExpr ⟨1, 0, 0⟩ false 20 numEnv (([2, 3, 5, 7] : List ℚ).map scalarArg)
      (concatExpr [⟨squareT.post, Rat32.one⟩, entityExpr 1 1, entityExpr 2 2, entityExpr 3 3]) = ok xs ∧ xs.length = 2 := by
    generalize computeExpr (K := ℚ) _ _ _ _ _ _ = x at hx
    match x, hx with
    | .val zs false, hx =>
      simp only [resultData, Option.some.injEq] at hx
      exact ⟨zs, rfl, by simpa using congrArg List.length hx⟩
  obtain ⟨xs, h1, h2⟩ := hx2
  refine ⟨[⟨squareT.post, Rat32.one⟩, entityExpr 1 1, entityExpr 2 2, entityExpr 3 3], _, _, D, _, xs, hD, hw, by decide +kernel,
    .cons (Or.inr ⟨squareT, gpT_good (gpT_good (argT_good _) (argT_good _)) (gpT_good (argT_good _) (argT_good _)), rfl, Rat32.one_wf,
      by show (1 : Int) ≠ 0; decide, rfl⟩)
      (.cons (C33_argument _ 1 1) (.cons (C33_argument _ 2 2) (.cons (C33_argument _ 3 3) .nil))), ?_, h1, rfl, h2⟩
  intro e he n hn
  have h3 : ∀ e ∈ ([⟨squareT.post, Rat32.one⟩, entityExpr 1 1, entityExpr 2 2, entityExpr 3 3] : List Rpne), ∀ n ∈ e.nodes,
      n.o < Op.comp ∧ (n.o = Op.id → n.ex < 4 ∧ n.checksum = argOffset (([2, 3, 5, 7] : List ℚ).map scalarArg) n.ex) := by decide +kernel
  obtain ⟨h4, h5⟩ := h3 e he n hn
  exact ⟨plain_of_lt h4, h5⟩

/-- **Some tuples do not compile**: `a * b` can be computed, `tuple{a * b, a * b}` cannot (the same
expression leaves a reference of one node where the recorded length says three). -/
theorem C46_shared_false : ∃ ab, gpExpr (entityExpr 0 0) (entityExpr 1 1) = ok ab ∧
    resultData (computeExpr ⟨1, 0, 0⟩ false 20 numEnv (([2, 3] : List ℚ).map scalarArg) ab) = some [([0], [6])] ∧
    computeExpr ⟨1, 0, 0⟩ false 20 numEnv (([2, 3] : List ℚ).map scalarArg) (concatExpr [ab, ab]) = .ub := by
  refine ⟨⟨(gpT 1131463226 (argT 0) (argT 1)).post, Rat32.one⟩, by decide +kernel, by decide +kernel, ?_⟩
  have h : (match computeExpr ⟨1, 0, 0⟩ false 20 numEnv (([2, 3] : List ℚ).map scalarArg)
      (concatExpr [⟨(gpT 1131463226 (argT 0) (argT 1)).post, Rat32.one⟩, ⟨(gpT 1131463226 (argT 0) (argT 1)).post, Rat32.one⟩]) with
    | .ub => true
    | _ => false) = true := by decide +kernel
  generalize computeExpr (K := ℚ) _ _ _ _ _ _ = x at h
  match x, h with
  | .ub, _ => rfl

end Gal
