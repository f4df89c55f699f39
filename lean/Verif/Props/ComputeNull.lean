import Verif.Spec.NullValue
import Verif.Props.Results

/-!
# Property C47: `compute` in an algebra with a null basis

Arguments and results refer to the null basis; the operations are those of the Clifford algebra.
-/

namespace Gal

open Out

variable {K : Type} [Field K]

/-- The argument, with its first indeterminate `off`, stands for `v`, where its elements are those of the null basis. -/
def Arg.DenotesNull (a : Arg K) (dim : Nat) (d : Nat → Int) (off : Nat) (v : CliffordAlgebra (diagForm K dim d)) : Prop :=
  ∃ n, Clean (PosInd fun id => off ≤ id ∧ id < off + a.data.length) dim (a.ie off) n ∧
    ∀ ρ : Nat → K, (∀ i, i < a.data.length → ρ (off + i) = a.data.getD i 0) → mvVal (intPow ρ) (nullElem K dim d) n = v

/-- The result of a computation: coefficients for elements of the null basis in ascending order. -/
structure Entity.DenotesNull (x : Entity K) (dim : Nat) (d : Nat → Int) (v : CliffordAlgebra (diagForm K dim d)) : Prop where
  size : x.data.length = x.elements.length
  asc : x.elements.Pairwise (· < ·)
  elems : ∀ e ∈ x.elements, e < 2 ^ dim
  value : pairsVal (nullElem K dim d) x.elements x.data = v

/-- What a node of an expression may be: as in C45, and constants and selected elements contain both null generators or neither. -/
structure NullPlain (dim nc : Nat) (n : Node) : Prop extends Plain dim nc n where
  cmix : Op.cscalar ≤ n.o → Unmixed dim (n.o - Op.cscalar)
  smix : n.o = Op.comp → Unmixed dim n.ex

/-- What the operations of an expression may be. -/
def SupportedNull (dim nc : Nat) (args : List (Arg K)) (e : Rpne) : Prop := ∀ n ∈ e.nodes, NullPlain dim nc n ∧ ArgNode args n

/-- C47: an entity with elements in ascending order stands for the element with its coefficients in the null basis. -/
theorem C47_entity [CharZero K] {dim : Nat} (d : Nat → Int) {x : Entity K} {off : Nat} (hs : x.elements.Pairwise (· < ·))
    (he : ∀ e ∈ x.elements, e < 2 ^ dim) (hl : x.data.length = x.elements.length) (ho : off + x.elements.length ≤ 2 ^ 32) :
    x.toArg.DenotesNull dim d off (pairsVal (nullElem K dim d) x.elements x.data) := by
  refine ⟨genericN off x.elements, ⟨constructIe_packed off _ ho, genericN_canon _ hs off, genericN_elems he, ?_⟩, ?_⟩
  · have := genericN_posInd x.elements off
    rwa [← hl] at this
  · intro ρ hρ
    refine genericN_val _ ρ _ _ off hl fun i hi => hρ i ?_
    show i < x.data.length
    omega

/-! ## The operations -/

theorem toNatural_sound [CharZero K] {m : Metric} (h2 : 2 ≤ m.dim) (h8 : m.dim ≤ 8) {P : Nat → Prop} {a x : Mv} {n : NMv} (h : Clean (PosInd P) m.dim a n)
    (hx : toNaturalBasis m.dim a = ok x) : ∃ nx, Clean (PosInd P) m.dim x nx ∧
      ∀ ρ : Nat → K, mvVal (intPow ρ) (cliffBlade K m.dim m.sq) nx = mvVal (intPow ρ) (nullElem K m.dim m.sq) n := by
  rw [toNaturalBasis_refines m.dim h.rep] at hx
  obtain ⟨nr, hn, rfl⟩ := map_eq_ok hx
  obtain ⟨e1, e2, e3, e4⟩ := toNaturalN_spec h2 h8 h.canon h.elems hn
  refine ⟨nr, ⟨packed_layout ((toNaturalN_fits m.dim h.rep.2).of_ok hn), e1, e2, e3 _ h.inds⟩, fun ρ => ?_⟩
  rw [e4 K _ (intPow ρ)]
  exact mvVal_congr _ fun t ht => natTarget_cliff h2 h8 m.sq (h.elems t ht)

theorem toNull_sound [CharZero K] {m : Metric} (h2 : 2 ≤ m.dim) (h8 : m.dim ≤ 8) {P : Nat → Prop} {a x : Mv} {n : NMv} (h : Clean (PosInd P) m.dim a n)
    (hx : toNullBasis m.dim a = ok x) : ∃ nx, Clean (PosInd P) m.dim x nx ∧
      ∀ ρ : Nat → K, mvVal (intPow ρ) (nullElem K m.dim m.sq) nx = mvVal (intPow ρ) (cliffBlade K m.dim m.sq) n := by
  rw [toNullBasis_refines m.dim h.rep] at hx
  obtain ⟨nr, hn, rfl⟩ := map_eq_ok hx
  obtain ⟨e1, e2, e3, e4⟩ := toNullN_spec h2 h8 h.canon h.elems hn
  refine ⟨nr, ⟨packed_layout ((toNullN_fits m.dim h.rep.2).of_ok hn), e1, e2, e3 _ h.inds⟩, fun ρ => ?_⟩
  rw [e4 K _ (intPow ρ)]
  exact mvVal_congr _ fun t ht => nullTarget_null h2 h8 m.sq (h.elems t ht)

theorem nullInterp_wedge [CharZero K] {n : Nat} {d : Nat → Int} {named : Nat → K}
    {D : CliffordAlgebra (diagForm K n d) →ₗ[K] CliffordAlgebra (diagForm K n d)}
    {C : Nat → CliffordAlgebra (diagForm K n d) →ₗ[K] CliffordAlgebra (diagForm K n d)} {w : Nat → CliffordAlgebra (diagForm K n d)} :
    ∀ {vs : List (CliffordAlgebra (diagForm K n d))}, vs ≠ [] →
    (nullInterp K n d named D C w).wedge vs = (cliffInterp K n d named D w).wedge vs
  | [], h => absurd rfl h
  | [v], _ => rfl
  | v :: v' :: vs, _ => by
    rw [Interp.wedge, Interp.wedge, nullInterp_wedge (by simp)]
    rfl

/-- The operations of the stack machine compute the operations of the algebra with a null basis. -/
theorem null_refines [CharZero K] (m : Metric) (h2 : 2 ≤ m.dim) (hm : m.dim ≤ 8) (named : Nat → K)
    {D : CliffordAlgebra (diagForm K m.dim m.sq) →ₗ[K] CliffordAlgebra (diagForm K m.dim m.sq)} (hD : IsDual K m.dim m.sq D)
    {C : Nat → CliffordAlgebra (diagForm K m.dim m.sq) →ₗ[K] CliffordAlgebra (diagForm K m.dim m.sq)} (hC : IsNullCoeff K m.dim m.sq C)
    (w : Nat → CliffordAlgebra (diagForm K m.dim m.sq)) (nc : Nat) (ρ : Nat → K)
    (hn : ∀ k, k < nc → named k = ρ (k + indConstantStart)) (ie : Nat → Nat → Mv) (b : Nat) (A : Node → Prop)
    (hA : ∀ n, A n → NullPlain m.dim nc n)
    (hin : ∀ n, A n → n.o = Op.id → ∀ x, (mvOps m true).input (ie n.ex n.checksum) = ok x → Sound False True m.dim m.sq nc ρ b x (w n.ex)) :
    Refines (mvOps m true) ie (nullInterp K m.dim m.sq named D C w) (Sound False True m.dim m.sq nc ρ b) A := by
  have H := mv_refines False True m hm true named D hD w nc ρ (fun _ => hn) ie b A (fun n h => (hA n h).toPlain) hin
  refine ⟨H.input, ?_, H.scale, H.rev, H.pd, ?_, H.grd, H.gp, H.lc, H.sip, H.sums, ?_, H.div, H.fn⟩
  · intro n ha ho x hx
    have h1 := H.const n ha ho x hx
    have : nullConst K m.dim m.sq named n.o = cliffConst K m.dim m.sq named n.o := by
      unfold nullConst cliffConst
      split
      · rfl
      split
      · rfl
      · rename_i h3 h4
        rcases (hA n ha).const ho with h | h | h
        · exact absurd h h3
        · exact absurd h.1 h4
        · exact nullElem_unmixed h2 hm m.sq h.2 ((hA n ha).cmix h.1)
    show Sound False True m.dim m.sq nc ρ b x (nullConst K m.dim m.sq named n.o)
    rw [this]
    exact h1
  · intro n ha ho a x v h hx
    have h1 := H.comp n ha ho a x v h hx
    show Sound False True m.dim m.sq nc ρ b x (C n.ex v)
    rw [hC.unmixed h2 hm ((hA n ha).comp ho) ((hA n ha).smix ho)]
    exact h1
  · intro as vs x h0 hf hx
    have h1 := H.eps as vs x h0 hf hx
    rw [nullInterp_wedge]
    · exact h1
    · rintro rfl
      cases hf
      exact h0 rfl

/-- An entry of the stack gives an entity with its value. -/
theorem finalize_null [CharZero K] {m : Metric} (h2 : 2 ≤ m.dim) (h8 : m.dim ≤ 8) {b : Nat} (E : Env K) (hb : b ≤ E.data.length)
    (hc : b ≤ indConstantStart) {a : Mv} {v : CliffordAlgebra (diagForm K m.dim m.sq)} (h : Sound False True m.dim m.sq E.consts.length E.rho b a v)
    (hn : ∃ r, toNullBasis m.dim a = ok r) {q : Rat32} (hq : q.WF) (h0 : q.num ≠ 0) :
    ∃ x, finalizeEntity (some m.dim) E a q.num q.den = ok x ∧ x.DenotesNull m.dim m.sq (q.toQ • v) ∧
      ∃ r nr, toNullBasis m.dim a = ok r ∧ Packed r nr ∧ x.elements = nr.map (·.element) := by
  obtain ⟨n, hk, hv⟩ := h
  obtain ⟨r, hr⟩ := hn
  obtain ⟨nr, i1, i2⟩ := toNull_sound (K := K) h2 h8 hk.toClean hr
  have hev : EvalMv E nr := by
    refine C31_canonical i1.canon (fun t ht q hq i hi => ⟨posInd_has hb hc (i1.inds t ht q hq i hi).1, ?_⟩) (posInd_noPole i1.inds _)
    have := (i1.inds t ht q hq i hi).2.2
    unfold i32Min
    omega
  obtain ⟨z, z1, z2, z3, z4⟩ := C32_entity_partial (nullElem K m.dim m.sq) E i1.packed.view i1.packed.op hev q.num q.den h0 hq.pos
  refine ⟨z, ?_, ⟨z3, by rw [z2]; exact List.pairwise_map.2 i1.canon.asc, ?_, ?_⟩, r, nr, hr, i1.packed, z2⟩
  · simp only [finalizeEntity, toOutput, hr, ok_bind, z1]
  · intro e he
    rw [z2] at he
    obtain ⟨t, ht, rfl⟩ := List.mem_map.1 he
    exact i1.elems t ht
  · rw [z4, mvVal_pw _ i1.canon, i2, hv trivial, ← qsmul_eq (K := K)]
    congr 1
    simp [Rat32.toQ]

theorem finalize_nulls [CharZero K] {m : Metric} (h2 : 2 ≤ m.dim) (h8 : m.dim ≤ 8) {b : Nat} (E : Env K) (hb : b ≤ E.data.length)
    (hc : b ≤ indConstantStart) {q : Rat32} (hq : q.WF) (h0 : q.num ≠ 0) : ∀ {as : List Mv} {vs : List (CliffordAlgebra (diagForm K m.dim m.sq))},
    List.Forall₂ (Sound False True m.dim m.sq E.consts.length E.rho b) as vs → (∀ a ∈ as, ∃ r, toNullBasis m.dim a = ok r) →
    ∃ xs, mapO (fun a => finalizeEntity (some m.dim) E a q.num q.den) as = ok xs ∧
      List.Forall₂ (fun x v => x.DenotesNull m.dim m.sq (q.toQ • v)) xs vs ∧
      List.Forall₂ (fun x a => ∃ r nr, toNullBasis m.dim a = ok r ∧ Packed r nr ∧ x.elements = nr.map (·.element)) xs as
  | _, _, .nil, _ => ⟨[], rfl, .nil, .nil⟩
  | _, _, .cons h hs, hn => by
    obtain ⟨x, h1, h2', h5⟩ := finalize_null h2 h8 E hb hc h (hn _ (by simp)) hq h0
    obtain ⟨xs, h3, h4, h6⟩ := finalize_nulls h2 h8 E hb hc hq h0 hs fun a ha => hn a (by simp [ha])
    exact ⟨x :: xs, mapO_cons_ok.2 ⟨x, xs, h1, h3, rfl⟩, .cons h2' h4, .cons h5 h6⟩

/-! ## The whole computation -/

/-- The coefficients of the arguments in the array. -/
theorem fill_args (args : List (Arg K)) : ∃ dat, fill (List.replicate (argsSize args + argsSize args - argsSize args) (0 : K)) 0 (args.map fun a => a.data) = ok dat ∧
    dat.length = argsSize args ∧ (argsSize args ≤ indConstantStart → ∀ (E : Env K) k a, args[k]? = some a → ∀ i, i < a.data.length →
      ({ E with data := dat } : Env K).rho (argOffset args k + i) = a.data.getD i 0) := by
  have hlen : (args.map fun a => a.data).flatten.length ≤ (List.replicate (argsSize args + argsSize args - argsSize args) (0 : K)).length := by
    rw [← argsSize_eq, List.length_replicate]
    omega
  refine ⟨_, C41_fill (args.map fun a => a.data) _ hlen, ?_, ?_⟩
  · rw [List.length_append, List.length_drop, List.length_replicate, ← argsSize_eq]
    omega
  · intro hi0 E k a hk i hi
    have hb := argOffset_le args hk
    obtain ⟨out, o1, o2⟩ := C41_position (args.map fun a => a.data) _ hlen (k := k) (i := i) (d := a.data) (v := a.data.getD i 0)
      (by rw [List.getElem?_map, hk]; rfl) (by rw [List.getElem?_eq_getElem hi, List.getD_eq_getElem _ _ hi])
    rw [C41_fill (args.map fun a => a.data) _ hlen, ok_inj] at o1
    subst o1
    rw [← argOffset_eq] at o2
    unfold Env.rho
    rw [if_neg (by omega)]
    simp only [List.getD_eq_getElem?_getD] at o2 ⊢
    rw [o2]
    rfl

section

variable [CharZero K] {m : Metric} {args : List (Arg K)} {w : Nat → CliffordAlgebra (diagForm K m.dim m.sq)}
  {D : CliffordAlgebra (diagForm K m.dim m.sq) →ₗ[K] CliffordAlgebra (diagForm K m.dim m.sq)}
  {C : Nat → CliffordAlgebra (diagForm K m.dim m.sq) →ₗ[K] CliffordAlgebra (diagForm K m.dim m.sq)}

theorem null_inputs (h2 : 2 ≤ m.dim) (hm : m.dim ≤ 8) (E : Env K)
    (hw : ∀ (k : Nat) (a : Arg K), args[k]? = some a → a.DenotesNull m.dim m.sq (argOffset args k) (w k)) (hD : IsDual K m.dim m.sq D)
    (hC : IsNullCoeff K m.dim m.sq C) (hi : argsSize args ≤ indConstantStart) :
    ∃ dat, fill (List.replicate (argsSize args + argsSize args - argsSize args) (0 : K)) 0 (args.map fun a => a.data) = ok dat ∧
      dat.length = argsSize args ∧
      Refines (mvOps m true) (argMv args) (nullInterp K m.dim m.sq (fun k => E.consts.getD k 0) D C w)
        (Sound False True m.dim m.sq E.consts.length ({ E with data := dat } : Env K).rho (argsSize args))
        (fun n => NullPlain m.dim E.consts.length n ∧ ArgNode args n) := by
  obtain ⟨dat, hfill, hdl, hρ⟩ := fill_args args
  refine ⟨dat, hfill, hdl, null_refines m h2 hm _ hD hC w _ _ (fun k hk => ?_) _ _ _ (fun n h => h.1) ?_⟩
  · unfold Env.rho
    rw [if_pos (by omega)]
    simp
  · intro n hn ho x hx
    obtain ⟨h1, h3⟩ := hn.2 ho
    have hk := List.getElem?_eq_getElem h1
    obtain ⟨na, i1, i2⟩ := hw _ _ hk
    have he : argMv args n.ex n.checksum = args[n.ex].ie (argOffset args n.ex) := by
      unfold argMv
      rw [hk, h3]
    simp only [mvOps, if_true, he] at hx
    obtain ⟨nx, j1, j2⟩ := toNatural_sound (K := K) h2 hm i1 hx
    have := argOffset_le args hk
    refine ⟨nx, ⟨⟨j1.packed, j1.canon, j1.elems, j1.inds.mono fun i hi => ⟨Or.inl (by have := hi.1; omega), hi.2⟩⟩, fun h => h.elim⟩, fun _ => ?_⟩
    rw [j2]
    exact i2 _ (hρ hi E _ _ hk)

/-- The result, and the multivector on the stack that it comes from. -/
theorem null_elems (h2 : 2 ≤ m.dim) (hm : m.dim ≤ 8) (E : Env K)
    (hw : ∀ (k : Nat) (a : Arg K), args[k]? = some a → a.DenotesNull m.dim m.sq (argOffset args k) (w k)) (hD : IsDual K m.dim m.sq D)
    (hC : IsNullCoeff K m.dim m.sq C) {t : Tree} {q : Rat32} (g : t.Good) (q1 : q.WF) (q2 : q.num ≠ 0)
    (hp : SupportedNull m.dim E.consts.length args ⟨t.post, q⟩)
    (hd : ∀ (p q : Nat) (a b : Node), t.post[p]? = some a → t.post[q]? = some b → IsShared a.o → a.o = b.o → a.checksum = b.checksum →
      a.ex = b.ex → p = q)
    {cap : Nat} {c : Compiled} (hc : compileExpr m true cap args ⟨t.post, q⟩ = ok c) (hi : argsSize args ≤ indConstantStart)
    (ho : ∀ a ∈ c.state.args, ∃ r, toNullBasis m.dim a = ok r) :
    ∃ x a, PlainRun (some m.dim) (argsSize args) c ∧ runCompiled m true E args c = ok [x] ∧
      x.DenotesNull m.dim m.sq (q.toQ • t.val (nullInterp K m.dim m.sq (fun k => E.consts.getD k 0) D C w)) ∧
      t.eval (mvOps m true) (argMv args) [] = ok a ∧ ∃ r nr, toNullBasis m.dim a = ok r ∧ Packed r nr ∧ x.elements = nr.map (·.element) := by
  obtain ⟨-, r, hr, s, hs, rfl⟩ := compileExpr_eq_ok.1 hc
  obtain ⟨t', g1, g2, g3, rfl⟩ := reshape_plain_tree g.shape g.noRef hd (fun n hn => ⟨(hp n hn).1.div, (hp n hn).1.fn⟩) hr
  have hs' : run (mvOps m true) (t'.post ++ []) ⟨gatherInputs (argMv args) t'.post, [], [], argsSize args⟩ = ok s := by
    rw [List.append_nil]; exact hs
  rw [run_tree _ (argMv args) t' g1 [] _ [] (by simp), bind_eq_ok] at hs'
  obtain ⟨a, ha, hs'⟩ := hs'
  rw [run_nil, ok_inj] at hs'
  subst hs'
  rw [g2.eval _ _ _ g1] at ha
  obtain ⟨dat, hfill, hdl, H⟩ := null_inputs h2 hm E hw hD hC hi
  have hval := eval_tree H g hp ha
  obtain ⟨x, x1, x2, x3⟩ := finalize_null h2 hm { E with data := dat } (by rw [hdl]) hi hval (ho a (by simp)) q1 q2
  refine ⟨x, a, ⟨rfl, rfl, fun _ => q1, fun b hb => ?_⟩, ?_, x2, ha, x3⟩
  · obtain rfl : b = a := by simpa using hb
    obtain ⟨n, hk, -⟩ := hval
    obtain ⟨r, hr⟩ := ho b (by simp)
    obtain ⟨nr, i1, -⟩ := toNull_sound (K := K) h2 hm hk.toClean hr
    exact ⟨r, nr, _, _, hr, i1⟩
  unfold runCompiled
  dsimp only
  rw [hfill, ok_bind]
  simp only [nullDim, if_true, finalizeTemps, ok_bind, finishCompute, x1]
  rfl

theorem plainRun_empty {m : Metric} {null : Bool} {args : List (Arg K)} (nd : Option Nat) {cap : Nat} {e : Rpne} (h0 : e.nodes = []) {c : Compiled}
    (h : compileExpr m null cap args e = ok c) : PlainRun nd (argsSize args) c := by
  obtain ⟨ns, q⟩ := e
  dsimp only at h0
  subst h0
  obtain ⟨-, r, hr, s, hs, rfl⟩ := compileExpr_eq_ok.1 h
  have := reshape_nil hr
  subst this
  rw [List.length_nil, runNodes, ok_inj] at hs
  subst hs
  exact ⟨rfl, rfl, fun h => absurd rfl h, fun a ha => by cases ha⟩

/-- `C47_compute_partial` below, with the compiled expression. -/
theorem null_plain (h2 : 2 ≤ m.dim) (hm : m.dim ≤ 8) (E : Env K)
    (hw : ∀ (k : Nat) (a : Arg K), args[k]? = some a → a.DenotesNull m.dim m.sq (argOffset args k) (w k)) (hD : IsDual K m.dim m.sq D)
    (hC : IsNullCoeff K m.dim m.sq C) {e : Rpne} {v : CliffordAlgebra (diagForm K m.dim m.sq)}
    (he : Means (nullInterp K m.dim m.sq (fun k => E.consts.getD k 0) D C w) e v) (hp : SupportedNull m.dim E.consts.length args e)
    (hd : ∀ (p q : Nat) (a b : Node), e.nodes[p]? = some a → e.nodes[q]? = some b → IsShared a.o → a.o = b.o → a.checksum = b.checksum →
      a.ex = b.ex → p = q)
    {cap : Nat} {c : Compiled} (hc : compileExpr m true cap args e = ok c) (hi : argsSize args ≤ indConstantStart)
    (ho : ∀ a ∈ c.state.args, ∃ r, toNullBasis m.dim a = ok r) :
    ∃ x, PlainRun (some m.dim) (argsSize args) c ∧ runCompiled m true E args c = ok [x] ∧ x.DenotesNull m.dim m.sq v := by
  by_cases h0 : e.nodes = []
  · refine ⟨⟨[], []⟩, plainRun_empty _ h0 hc, compute_empty m true E args h0 hc, rfl, .nil, by simp, ?_⟩
    rcases he with ⟨-, rfl⟩ | ⟨t, _, hp, _⟩
    · rfl
    · have := t.post_pos
      rw [← hp, h0] at this
      cases this
  obtain ⟨t, g, p, q1, q2, rfl⟩ := means_tree he h0
  obtain ⟨ns, q⟩ := e
  dsimp only at p q1 q2
  subst p
  obtain ⟨x, a, x0, x1, x2, -⟩ := null_elems h2 hm E hw hD hC g q1 q2 hp hd hc hi ho
  exact ⟨x, x0, x1, x2⟩

/-- **C47.**  `compute` in an algebra with a null basis: arguments that stand for `w 0`, `w 1`, … in the null basis and an expression that means `v`
give an entity that stands for `v` in the null basis, provided the conversion of the result does not overflow (a compile-time condition, as
`compileExpr … = ok c` is).  Missing: shared operations (the code is wrong, `C47_shared_false`), constants and selected elements with exactly one
of the null generators (the code is wrong, `C47_constant_false`, `C47_select_false`), quotients and functions. -/
theorem C47_compute_partial (h2 : 2 ≤ m.dim) (hm : m.dim ≤ 8) (E : Env K)
    (hw : ∀ (k : Nat) (a : Arg K), args[k]? = some a → a.DenotesNull m.dim m.sq (argOffset args k) (w k)) (hD : IsDual K m.dim m.sq D)
    (hC : IsNullCoeff K m.dim m.sq C) {e : Rpne} {v : CliffordAlgebra (diagForm K m.dim m.sq)}
    (he : Means (nullInterp K m.dim m.sq (fun k => E.consts.getD k 0) D C w) e v) (hp : SupportedNull m.dim E.consts.length args e)
    (hd : ∀ (p q : Nat) (a b : Node), e.nodes[p]? = some a → e.nodes[q]? = some b → IsShared a.o → a.o = b.o → a.checksum = b.checksum →
      a.ex = b.ex → p = q)
    {cap : Nat} {c : Compiled} (hc : compileExpr m true cap args e = ok c) (hi : argsSize args ≤ indConstantStart)
    (ho : ∀ a ∈ c.state.args, ∃ r, toNullBasis m.dim a = ok r) :
    ∃ x, runCompiled m true E args c = ok [x] ∧ x.DenotesNull m.dim m.sq v := by
  obtain ⟨x, -, h⟩ := null_plain h2 hm E hw hD hC he hp hd hc hi ho
  exact ⟨x, h⟩

/-- The results of a tuple, and the multivectors on the stack that they come from. -/
theorem null_tuple_elems (h2 : 2 ≤ m.dim) (hm : m.dim ≤ 8) (E : Env K)
    (hw : ∀ (k : Nat) (a : Arg K), args[k]? = some a → a.DenotesNull m.dim m.sq (argOffset args k) (w k)) (hD : IsDual K m.dim m.sq D)
    (hC : IsNullCoeff K m.dim m.sq C) {es : List Rpne} {vs : List (CliffordAlgebra (diagForm K m.dim m.sq))} (hne : vs ≠ [])
    {f : Forest} (f1 : f.post = (concatExpr es).nodes) (f2 : f.Good (fun q => q.WF ∧ q.num ≠ 0))
    (f3 : f.vals (nullInterp K m.dim m.sq (fun k => E.consts.getD k 0) D C w) = vs)
    (hp : ∀ e ∈ es, SupportedNull m.dim E.consts.length args e)
    (hd : ∀ (p q : Nat) (a b : Node), (concatExpr es).nodes[p]? = some a → (concatExpr es).nodes[q]? = some b → IsShared a.o → a.o = b.o →
      a.checksum = b.checksum → a.ex = b.ex → p = q)
    {cap : Nat} {c : Compiled} (hc : compileExpr m true cap args (concatExpr es) = ok c) (hi : argsSize args ≤ indConstantStart)
    (ho : ∀ a ∈ c.state.args, ∃ r, toNullBasis m.dim a = ok r) :
    ∃ xs as, PlainRun (some m.dim) (argsSize args) c ∧ runCompiled m true E args c = ok xs ∧ List.Forall₂ (fun x v => x.DenotesNull m.dim m.sq v) xs vs ∧
      f.eval (mvOps m true) (argMv args) [] = ok as ∧ List.Forall₂ (fun x a => ∃ r nr, toNullBasis m.dim a = ok r ∧ Packed r nr ∧ x.elements = nr.map (·.element)) xs as := by
  have hpn : ∀ n ∈ f.post, NullPlain m.dim E.consts.length n ∧ ArgNode args n := by
    intro n hn
    rw [f1] at hn
    obtain ⟨e, h1, h2⟩ := List.mem_flatMap.1 hn
    rcases List.mem_cons.1 h2 with rfl | h2
    · exact ⟨⟨plain_of_lt (by show Op.se < 11; decide), fun h => absurd h (by show ¬ Op.cscalar ≤ Op.se; decide),
        fun h => absurd h (by show ¬ Op.se = Op.comp; decide)⟩, fun h => absurd h (by show ¬ Op.se = Op.id; decide)⟩
    · exact hp e h1 n h2
  obtain ⟨-, r, hr, s, hs, rfl⟩ := compileExpr_eq_ok.1 hc
  have hcat : concatExpr es = ⟨f.post, Rat32.one⟩ := by rw [f1]; rfl
  rw [hcat] at hr hd
  obtain ⟨f', g1, g2, g3, rfl⟩ := reshape_plain f2.shape (f2.noRef) hd (fun n hn => ⟨(hpn n hn).1.div, (hpn n hn).1.fn⟩) hr
  have hs' : run (mvOps m true) (f'.post ++ []) ⟨gatherInputs (argMv args) f'.post, [], [], argsSize args⟩ = ok s := by
    rw [List.append_nil]; exact hs
  rw [run_forest _ (argMv args) f' g1 [] _ [] (by simp), bind_eq_ok] at hs'
  obtain ⟨as, has, hs'⟩ := hs'
  rw [run_nil, ok_inj] at hs'
  subst hs'
  rw [g2.eval _ _ _ g1] at has
  obtain ⟨dat, hfill, hdl, H⟩ := null_inputs h2 hm E hw hD hC hi
  have hval := eval_forest H f2 (fun q h => Or.inr h) hpn has
  rw [f3] at hval
  obtain ⟨xs, x1, x2, x3⟩ := finalize_nulls h2 hm { E with data := dat } (by rw [hdl]) hi Rat32.one_wf (by show (1 : Int) ≠ 0; decide) hval
    fun a ha => ho a (by simpa using ha)
  refine ⟨xs, as, ⟨rfl, rfl, fun _ => Rat32.one_wf, fun b hb => ?_⟩, ?_, x2.imp fun x v h => by rwa [one_toQ_smul] at h, has, x3⟩
  · obtain ⟨v, -, n, hk, -⟩ := forall₂_left hval b (by simpa using hb)
    obtain ⟨r, hr⟩ := ho b hb
    obtain ⟨nr, i1, -⟩ := toNull_sound (K := K) h2 hm hk.toClean hr
    exact ⟨r, nr, _, _, hr, i1⟩
  have ha : as ≠ [] := by
    rintro rfl
    cases hval
    exact hne rfl
  unfold runCompiled
  dsimp only
  rw [hfill, ok_bind]
  simp only [List.append_nil, nullDim, if_true, finalizeTemps, ok_bind]
  rw [finishCompute_eq (by simpa using ha), List.reverse_reverse]
  exact x1

/-- C47 for a lambda that returns a tuple. -/
theorem C47_tuple_partial (h2 : 2 ≤ m.dim) (hm : m.dim ≤ 8) (E : Env K)
    (hw : ∀ (k : Nat) (a : Arg K), args[k]? = some a → a.DenotesNull m.dim m.sq (argOffset args k) (w k)) (hD : IsDual K m.dim m.sq D)
    (hC : IsNullCoeff K m.dim m.sq C) {es : List Rpne} {vs : List (CliffordAlgebra (diagForm K m.dim m.sq))} (hne : es ≠ [])
    (he : List.Forall₂ (Means (nullInterp K m.dim m.sq (fun k => E.consts.getD k 0) D C w)) es vs) (h0 : ∀ e ∈ es, e.nodes ≠ [])
    (hp : ∀ e ∈ es, SupportedNull m.dim E.consts.length args e)
    (hd : ∀ (p q : Nat) (a b : Node), (concatExpr es).nodes[p]? = some a → (concatExpr es).nodes[q]? = some b → IsShared a.o → a.o = b.o →
      a.checksum = b.checksum → a.ex = b.ex → p = q)
    {cap : Nat} {c : Compiled} (hc : compileExpr m true cap args (concatExpr es) = ok c) (hi : argsSize args ≤ indConstantStart)
    (ho : ∀ a ∈ c.state.args, ∃ r, toNullBasis m.dim a = ok r) :
    ∃ xs, runCompiled m true E args c = ok xs ∧ List.Forall₂ (fun x v => x.DenotesNull m.dim m.sq v) xs vs := by
  obtain ⟨f, f1, f2, f3⟩ := concat_forest he h0
  obtain ⟨xs, as, -, x1, x2, -⟩ := null_tuple_elems h2 hm E hw hD hC (by rintro rfl; cases he; exact hne rfl) f1 f2 f3 hp hd hc hi ho
  exact ⟨xs, x1, x2⟩

end

/-- C47: the coefficients of a result in the null basis can be read with `select`. -/
theorem C47_select [CharZero K] {dim : Nat} {d : Nat → Int} {C : Nat → CliffordAlgebra (diagForm K dim d) →ₗ[K] CliffordAlgebra (diagForm K dim d)}
    (hC : IsNullCoeff K dim d C) {x : Entity K} {v : CliffordAlgebra (diagForm K dim d)} (h : x.DenotesNull dim d v) {e : Nat} (he : e < 2 ^ dim) :
    ∃ k, x.select dim e = ok k ∧ C e v = k • 1 := by
  have hn : x.elements.Nodup := h.asc.imp fun h => Nat.ne_of_lt h
  have key : ∀ (es : List Nat) (vs : List K), (∀ g ∈ es, g < 2 ^ dim) →
      C e (pairsVal (nullElem K dim d) es vs) = pairsVal (fun x => if x = e then (1 : K) else 0) es vs • 1 := by
    intro es vs hes
    unfold pairsVal
    rw [map_list_sum, List.map_map, List.sum_smul, List.map_map]
    congr 1
    apply List.map_congr_left
    intro p hp
    simp only [Function.comp_apply, map_smul]
    rw [hC e he _ (hes _ (List.of_mem_zip hp).1)]
    split <;> simp
  refine ⟨_, ?_, by rw [← h.value, key _ _ h.elems]⟩
  by_cases hm : e ∈ x.elements
  · obtain ⟨k, hk⟩ := List.getElem?_of_mem hm
    have hk' : k < x.data.length := by rw [h.size]; exact (List.getElem?_eq_some_iff.1 hk).1
    rw [C29_select_listed x he hn hk (List.getElem?_eq_getElem hk'), pairsVal_get _ _ k hn hk (List.getElem?_eq_getElem hk')]
  · rw [C29_select_absent x he hm, pairsVal_absent _ _ hm]

/-! ## Examples -/

/-- The hypotheses of `C47_compute_partial` hold for the product of two elements `x no + y ni` of the conformal algebra. -/
example : ∃ (args : List (Arg ℚ)) (D : _) (C : _) (w : Nat → CliffordAlgebra (diagForm ℚ 5 (Metric.sq ⟨4, 1, 0⟩))) (e : Rpne)
    (v : CliffordAlgebra (diagForm ℚ 5 (Metric.sq ⟨4, 1, 0⟩))) (c : Compiled),
    IsDual ℚ 5 (Metric.sq ⟨4, 1, 0⟩) D ∧ IsNullCoeff ℚ 5 (Metric.sq ⟨4, 1, 0⟩) C ∧
    (∀ (k : Nat) (a : Arg ℚ), args[k]? = some a → a.DenotesNull 5 (Metric.sq ⟨4, 1, 0⟩) (argOffset args k) (w k)) ∧
    gpExpr (entityExpr 0 0) (entityExpr 2 1) = ok e ∧
    Means (nullInterp ℚ 5 (Metric.sq ⟨4, 1, 0⟩) (fun k => numEnv.consts.getD k 0) D C w) e v ∧ SupportedNull 5 numEnv.consts.length args e ∧
    DistinctNodes e.nodes ∧ compileExpr ⟨4, 1, 0⟩ true 3 args e = ok c ∧ argsSize args ≤ indConstantStart ∧
    c.state.args.length = 1 ∧ ∀ a ∈ c.state.args, ∃ r, toNullBasis 5 a = ok r := by
  obtain ⟨D, hD⟩ := exists_isDual ℚ 5 (by decide) (Metric.sq ⟨4, 1, 0⟩)
  obtain ⟨C, hC⟩ := exists_isNullCoeff ℚ 5 (by decide) (by decide) (Metric.sq ⟨4, 1, 0⟩)
  obtain ⟨c, hc, u, hu⟩ := Out.chain_of_isOk (x := compileExpr ⟨4, 1, 0⟩ true 3
      [(⟨[8, 16], [1, 3]⟩ : Entity ℚ).toArg, (⟨[8, 16], [2, 5]⟩ : Entity ℚ).toArg]
      ⟨(gpT 1371893204 (.leaf ⟨Op.id, 0, 0, ⟨0, 0⟩⟩) (.leaf ⟨Op.id, 2, 1, ⟨0, 0⟩⟩)).post, Rat32.one⟩)
    (f := fun c => if c.state.args.length = 1 ∧ ∀ a ∈ c.state.args, (toNullBasis 5 a).isOk = true then ok () else .ub) (by decide +kernel)
  have hc2 : c.state.args.length = 1 ∧ ∀ a ∈ c.state.args, (toNullBasis 5 a).isOk = true := by
    split at hu
    · assumption
    · cases hu
  have hg : gpExpr (entityExpr 0 0) (entityExpr 2 1) =
      ok ⟨(gpT 1371893204 (.leaf ⟨Op.id, 0, 0, ⟨0, 0⟩⟩) (.leaf ⟨Op.id, 2, 1, ⟨0, 0⟩⟩)).post, Rat32.one⟩ := by decide +kernel
  refine ⟨_, D, C, fun k => if k = 0 then pairsVal (K := ℚ) (nullElem ℚ 5 (Metric.sq ⟨4, 1, 0⟩)) [8, 16] [1, 3] else
    pairsVal (K := ℚ) (nullElem ℚ 5 (Metric.sq ⟨4, 1, 0⟩)) [8, 16] [2, 5], _, _, c, hD, hC, ?_, hg,
    C33_gp_partial (C33_argument _ 0 0) (C33_argument _ 2 1) (by simp [entityExpr]) (by simp [entityExpr]) hg, ?_,
    distinct_of_check (by decide +kernel), hc, by decide, hc2.1, fun a ha => Out.exists_of_isOk (hc2.2 a ha)⟩
  · intro k a hk
    match k with
    | 0 =>
      simp at hk
      subst hk
      exact C47_entity (dim := 5) (Metric.sq ⟨4, 1, 0⟩) (x := ⟨[8, 16], [1, 3]⟩) (off := 0) (by decide) (by decide) rfl (by decide)
    | 1 =>
      simp at hk
      subst hk
      exact C47_entity (dim := 5) (Metric.sq ⟨4, 1, 0⟩) (x := ⟨[8, 16], [2, 5]⟩) (off := 2) (by decide) (by decide) rfl (by decide)
    | k + 2 => simp at hk
  · intro n hn
    have h1 : ∀ n ∈ (gpT 1371893204 (.leaf ⟨Op.id, 0, 0, ⟨0, 0⟩⟩) (.leaf ⟨Op.id, 2, 1, ⟨0, 0⟩⟩)).post, n.o < Op.comp ∧
        (n.o = Op.id → n.ex < 2 ∧ n.checksum = argOffset [(⟨[8, 16], [1, 3]⟩ : Entity ℚ).toArg, (⟨[8, 16], [2, 5]⟩ : Entity ℚ).toArg] n.ex) := by
      decide +kernel
    obtain ⟨h2, h3⟩ := h1 n hn
    simp only [Op.comp] at h2
    exact ⟨⟨plain_of_lt h2, fun h => by simp only [Op.cscalar] at h; omega, fun h => by simp only [Op.comp] at h; omega⟩, h3⟩

/-- The hypotheses of `C47_tuple_partial` hold for two conformal vectors returned together. -/
example : ∃ (args : List (Arg ℚ)) (D : _) (C : _) (w : Nat → CliffordAlgebra (diagForm ℚ 5 (Metric.sq ⟨4, 1, 0⟩))) (es : List Rpne)
    (vs : List (CliffordAlgebra (diagForm ℚ 5 (Metric.sq ⟨4, 1, 0⟩)))) (c : Compiled),
    IsDual ℚ 5 (Metric.sq ⟨4, 1, 0⟩) D ∧ IsNullCoeff ℚ 5 (Metric.sq ⟨4, 1, 0⟩) C ∧
    (∀ (k : Nat) (a : Arg ℚ), args[k]? = some a → a.DenotesNull 5 (Metric.sq ⟨4, 1, 0⟩) (argOffset args k) (w k)) ∧
    es = [entityExpr 0 0, entityExpr 2 1] ∧
    List.Forall₂ (Means (nullInterp ℚ 5 (Metric.sq ⟨4, 1, 0⟩) (fun k => numEnv.consts.getD k 0) D C w)) es vs ∧ (∀ e ∈ es, e.nodes ≠ []) ∧
    (∀ e ∈ es, SupportedNull 5 numEnv.consts.length args e) ∧
    (∀ (p q : Nat) (a b : Node), (concatExpr es).nodes[p]? = some a → (concatExpr es).nodes[q]? = some b → IsShared a.o → a.o = b.o →
      a.checksum = b.checksum → a.ex = b.ex → p = q) ∧
    compileExpr ⟨4, 1, 0⟩ true 6 args (concatExpr es) = ok c ∧ argsSize args ≤ indConstantStart ∧
    c.state.args.length = 2 ∧ ∀ a ∈ c.state.args, ∃ r, toNullBasis 5 a = ok r := by
  obtain ⟨D, hD⟩ := exists_isDual ℚ 5 (by decide) (Metric.sq ⟨4, 1, 0⟩)
  obtain ⟨C, hC⟩ := exists_isNullCoeff ℚ 5 (by decide) (by decide) (Metric.sq ⟨4, 1, 0⟩)
  obtain ⟨c, hc, u, hu⟩ := Out.chain_of_isOk (x := compileExpr ⟨4, 1, 0⟩ true 6
      [(⟨[8, 16], [1, 3]⟩ : Entity ℚ).toArg, (⟨[8, 16], [2, 5]⟩ : Entity ℚ).toArg] (concatExpr [entityExpr 0 0, entityExpr 2 1]))
    (f := fun c => if c.state.args.length = 2 ∧ ∀ a ∈ c.state.args, (toNullBasis 5 a).isOk = true then ok () else .ub) (by decide +kernel)
  have hc2 : c.state.args.length = 2 ∧ ∀ a ∈ c.state.args, (toNullBasis 5 a).isOk = true := by
    split at hu
    · assumption
    · cases hu
  refine ⟨_, D, C, fun k => if k = 0 then pairsVal (K := ℚ) (nullElem ℚ 5 (Metric.sq ⟨4, 1, 0⟩)) [8, 16] [1, 3] else
    pairsVal (K := ℚ) (nullElem ℚ 5 (Metric.sq ⟨4, 1, 0⟩)) [8, 16] [2, 5], _, _, c, hD, hC, ?_, rfl,
    .cons (C33_argument _ 0 0) (.cons (C33_argument _ 2 1) .nil), by decide, ?_,
    distinct_of_check (by decide +kernel), hc, by decide, hc2.1, fun a ha => Out.exists_of_isOk (hc2.2 a ha)⟩
  · intro k a hk
    match k with
    | 0 =>
      simp at hk
      subst hk
      exact C47_entity (dim := 5) (Metric.sq ⟨4, 1, 0⟩) (x := ⟨[8, 16], [1, 3]⟩) (off := 0) (by decide) (by decide) rfl (by decide)
    | 1 =>
      simp at hk
      subst hk
      exact C47_entity (dim := 5) (Metric.sq ⟨4, 1, 0⟩) (x := ⟨[8, 16], [2, 5]⟩) (off := 2) (by decide) (by decide) rfl (by decide)
    | k + 2 => simp at hk
  · intro e he n hn
    have h1 : ∀ e ∈ [entityExpr 0 0, entityExpr 2 1], ∀ n ∈ e.nodes, n.o < Op.comp ∧
        (n.o = Op.id → n.ex < 2 ∧ n.checksum = argOffset [(⟨[8, 16], [1, 3]⟩ : Entity ℚ).toArg, (⟨[8, 16], [2, 5]⟩ : Entity ℚ).toArg] n.ex) := by
      decide +kernel
    obtain ⟨h2, h3⟩ := h1 e he n hn
    simp only [Op.comp] at h2
    exact ⟨⟨plain_of_lt h2, fun h => by simp only [Op.cscalar] at h; omega, fun h => by simp only [Op.comp] at h; omega⟩, h3⟩

/-! ## Where the code is wrong -/

/-- `nullElem` of a single null generator. -/
theorem nullElem_gen {K : Type} [Field K] [CharZero K] {n : Nat} (h2 : 2 ≤ n) (h8 : n ≤ 8) (d : Nat → Int) :
    nullElem K n d (2 ^ (n - 2)) = nullGen (K := K) n (cliffGen K n d) (n - 2) ∧
    nullElem K n d (2 ^ (n - 1)) = nullGen (K := K) n (cliffGen K n d) (n - 1) := by
  obtain ⟨k, rfl⟩ : ∃ k, n = k + 2 := ⟨n - 2, by omega⟩
  have p1 : 2 ^ (k + 1) = 2 ^ k * 2 := pow_succ _ _
  have p2 : 2 ^ (k + 2) = 2 ^ (k + 1) * 2 := pow_succ _ _
  have hx := Nat.two_pow_pos k
  rw [← natTarget_cliff h2 h8 d (show 2 ^ (k + 2 - 2) < 2 ^ (k + 2) by simp only [Nat.add_sub_cancel]; omega),
    ← natTarget_cliff h2 h8 d (show 2 ^ (k + 2 - 1) < 2 ^ (k + 2) by simp only [show k + 2 - 1 = k + 1 by omega]; omega)]
  obtain ⟨t1, t2, t3, -, -⟩ := bits_table ⟨k, by omega⟩ ⟨2 ^ k, by show 2 ^ k < 2 ^ (k + 2); omega⟩
  obtain ⟨t1', t2', t3', -, -⟩ := bits_table ⟨k, by omega⟩ ⟨2 ^ (k + 1), by show 2 ^ (k + 1) < 2 ^ (k + 2); omega⟩
  obtain ⟨-, s2⟩ := bits_split ⟨k, by omega⟩ ⟨2 ^ k, by show 2 ^ k < 2 ^ (k + 2); omega⟩
  obtain ⟨-, s2'⟩ := bits_split ⟨k, by omega⟩ ⟨2 ^ (k + 1), by show 2 ^ (k + 1) < 2 ^ (k + 2); omega⟩
  have e0 : (2 ^ (k + 1)) % 2 ^ k = 0 := by rw [p1]; simp
  simp only [Nat.testBit_two_pow, decide_true, if_true, Nat.mod_self, zero_add, e0, show ¬ k = k + 1 by omega, show ¬ k + 1 = k by omega,
    decide_false, Bool.false_eq_true, if_false, add_zero, or_true, true_or, iff_true, iff_false, ne_eq, not_not] at t1 t2 t3 t1' t2' t3' s2 s2'
  unfold natTarget nullGen
  simp only [Nat.add_sub_cancel, show k + 2 - 1 = k + 1 by omega, s2, s2', cliffBlade_gen d (show k < k + 2 by omega),
    cliffBlade_gen d (show k + 1 < k + 2 by omega)]
  constructor
  · rw [if_pos t1, if_neg (fun h => h.2 t3), if_pos t2]
    simp
  · rw [if_pos t1', if_neg (fun h => h.1 t2'), if_neg (fun h => h t2')]
    simp [neg_add_eq_sub]

theorem smul_one_inj {K : Type} [Field K] {n : Nat} {d : Nat → Int} {a b : K} (h : a • (1 : CliffordAlgebra (diagForm K n d)) = b • 1) : a = b := by
  have h1 : (a - b) • cliffBlade K n d 0 = 0 := by rw [cliffBlade_zero, sub_smul, h, sub_self]
  rcases smul_eq_zero.1 h1 with h2 | h2
  · exact sub_eq_zero.1 h2
  · exact absurd h2 (cliffBlade_ne_zero K n d 0 (Nat.two_pow_pos _))

/-- One result and its coefficient of an element, read with `select`. -/
theorem result_select {x : Out (List (Entity ℚ))} {dim e : Nat} {k : ℚ}
    (h : (match x with | .val [z] false => (match z.select dim e with | .val v false => some v | _ => none) | _ => none) = some k) :
    ∃ z, x = ok [z] ∧ z.select dim e = ok k := by
  split at h
  · rename_i z
    split at h
    · rename_i v hv
      simp only [Option.some.injEq] at h
      subst h
      exact ⟨z, rfl, hv⟩
    · cases h
  · cases h

/-- The argument `no + 3 ni`. -/
def exPair : Entity ℚ := ⟨[8, 16], [1, 3]⟩

/-- **C47 fails for the constants `_no` and `_ni`** (cga.hpp:50-60): in the conformal algebra, `compute([](auto x) { return 1_ni; }, x)` returns an entity whose
coefficient of `ni` is 1/2 (and which has a coefficient of `no`): the constant is taken for an element of the natural basis. -/
theorem C47_constant_false : ∃ (D : _) (C : _) (w : Nat → CliffordAlgebra (diagForm ℚ 5 (Metric.sq ⟨4, 1, 0⟩)))
    (v : CliffordAlgebra (diagForm ℚ 5 (Metric.sq ⟨4, 1, 0⟩))) (x : Entity ℚ),
    IsDual ℚ 5 (Metric.sq ⟨4, 1, 0⟩) D ∧ IsNullCoeff ℚ 5 (Metric.sq ⟨4, 1, 0⟩) C ∧
    (∀ (k : Nat) (a : Arg ℚ), [exPair.toArg][k]? = some a → a.DenotesNull 5 (Metric.sq ⟨4, 1, 0⟩) (argOffset [exPair.toArg] k) (w k)) ∧
    Means (nullInterp ℚ 5 (Metric.sq ⟨4, 1, 0⟩) (fun _ => 0) D C w) (elementExpr 16 1) v ∧
    computeExpr ⟨4, 1, 0⟩ true 1 numEnv [exPair.toArg] (elementExpr 16 1) = ok [x] ∧ ¬ x.DenotesNull 5 (Metric.sq ⟨4, 1, 0⟩) v := by
  obtain ⟨D, hD⟩ := exists_isDual ℚ 5 (by decide) (Metric.sq ⟨4, 1, 0⟩)
  obtain ⟨C, hC⟩ := exists_isNullCoeff ℚ 5 (by decide) (by decide) (Metric.sq ⟨4, 1, 0⟩)
  obtain ⟨x, hx, hs⟩ := result_select (x := computeExpr ⟨4, 1, 0⟩ true 1 numEnv [exPair.toArg] (elementExpr 16 1)) (dim := 5) (e := 16) (k := 1 / 2)
    (by decide +kernel)
  refine ⟨D, C, fun _ => pairsVal (K := ℚ) (nullElem ℚ 5 (Metric.sq ⟨4, 1, 0⟩)) [8, 16] [1, 3], nullElem ℚ 5 (Metric.sq ⟨4, 1, 0⟩) 16, x, hD, hC,
    ?_, ?_, hx, fun h => ?_⟩
  · intro k a hk
    match k with
    | 0 =>
      simp at hk
      subst hk
      exact C47_entity (dim := 5) (Metric.sq ⟨4, 1, 0⟩) (x := ⟨[8, 16], [1, 3]⟩) (off := 0) (by decide) (by decide) rfl (by decide)
    | k + 1 => simp at hk
  · refine Or.inr ⟨.leaf ⟨Op.cscalar + 16, Op.cscalar + 16, 0, ⟨0, 0⟩⟩, ?_, rfl, Rat32.one_wf, by show (1 : Int) ≠ 0; decide, ?_⟩
    · rw [Tree.Good]
      exact Or.inr (by show Op.czero ≤ Op.cscalar + 16; decide)
    · refine Eq.trans ?_ (one_toQ_smul _).symm
      rfl
  · obtain ⟨k, h1, h2⟩ := C47_select hC h (e := 16) (by decide)
    rw [hs, ok_inj] at h1
    subst h1
    rw [hC 16 (by decide) 16 (by decide), if_pos rfl] at h2
    have := smul_one_inj (K := ℚ) (n := 5) (d := Metric.sq ⟨4, 1, 0⟩) (a := 1) (b := 1 / 2) ((one_smul _ _).trans h2)
    norm_num at this

/-- **C47 fails for the selection of a null generator**: for `x = no + 3 ni`, selecting the element `no` gives -5/2 instead of 1. -/
theorem C47_select_false : ∃ (D : _) (C : _) (w : Nat → CliffordAlgebra (diagForm ℚ 5 (Metric.sq ⟨4, 1, 0⟩))) (e : Rpne)
    (v : CliffordAlgebra (diagForm ℚ 5 (Metric.sq ⟨4, 1, 0⟩))) (x : Entity ℚ),
    IsDual ℚ 5 (Metric.sq ⟨4, 1, 0⟩) D ∧ IsNullCoeff ℚ 5 (Metric.sq ⟨4, 1, 0⟩) C ∧
    (∀ (k : Nat) (a : Arg ℚ), [exPair.toArg][k]? = some a → a.DenotesNull 5 (Metric.sq ⟨4, 1, 0⟩) (argOffset [exPair.toArg] k) (w k)) ∧
    compExpr (entityExpr 0 0) 8 = ok e ∧
    Means (nullInterp ℚ 5 (Metric.sq ⟨4, 1, 0⟩) (fun _ => 0) D C w) e v ∧
    computeExpr ⟨4, 1, 0⟩ true 2 numEnv [exPair.toArg] e = ok [x] ∧ ¬ x.DenotesNull 5 (Metric.sq ⟨4, 1, 0⟩) v := by
  obtain ⟨D, hD⟩ := exists_isDual ℚ 5 (by decide) (Metric.sq ⟨4, 1, 0⟩)
  obtain ⟨C, hC⟩ := exists_isNullCoeff ℚ 5 (by decide) (by decide) (Metric.sq ⟨4, 1, 0⟩)
  obtain ⟨e, he⟩ := Out.exists_of_isOk (x := compExpr (entityExpr 0 0) 8) (by decide +kernel)
  obtain ⟨x, hx, hs⟩ := result_select (x := compExpr (entityExpr 0 0) 8 >>= fun e => computeExpr ⟨4, 1, 0⟩ true 2 numEnv [exPair.toArg] e)
    (dim := 5) (e := 0) (k := -5 / 2) (by decide +kernel)
  rw [he, ok_bind] at hx
  refine ⟨D, C, fun _ => pairsVal (K := ℚ) (nullElem ℚ 5 (Metric.sq ⟨4, 1, 0⟩)) [8, 16] [1, 3], e, _, x, hD, hC, ?_, he,
    C33_component (C33_argument _ 0 0) he, hx, fun h => ?_⟩
  · intro k a hk
    match k with
    | 0 =>
      simp at hk
      subst hk
      exact C47_entity (dim := 5) (Metric.sq ⟨4, 1, 0⟩) (x := ⟨[8, 16], [1, 3]⟩) (off := 0) (by decide) (by decide) rfl (by decide)
    | k + 1 => simp at hk
  · obtain ⟨k, h1, h2⟩ := C47_select hC h (e := 0) (by decide)
    rw [hs, ok_inj] at h1
    subst h1
    have hv : C 8 (pairsVal (K := ℚ) (nullElem ℚ 5 (Metric.sq ⟨4, 1, 0⟩)) [8, 16] [1, 3]) = nullElem ℚ 5 (Metric.sq ⟨4, 1, 0⟩) 0 := by
      rw [nullElem_unmixed (by decide) (by decide) _ (by decide) (by decide), cliffBlade_zero]
      have e1 : pairsVal (K := ℚ) (nullElem ℚ 5 (Metric.sq ⟨4, 1, 0⟩)) [8, 16] [1, 3] =
          (1 : ℚ) • nullElem ℚ 5 (Metric.sq ⟨4, 1, 0⟩) 8 + (3 : ℚ) • nullElem ℚ 5 (Metric.sq ⟨4, 1, 0⟩) 16 := by
        simp [pairsVal]
      rw [e1, map_add, map_smul, map_smul, hC 8 (by decide) 8 (by decide), hC 8 (by decide) 16 (by decide)]
      simp
    have h3 : C 0 (C 8 (pairsVal (K := ℚ) (nullElem ℚ 5 (Metric.sq ⟨4, 1, 0⟩)) [8, 16] [1, 3])) = (-5 / 2 : ℚ) • 1 := h2
    rw [hv, hC 0 (by decide) 0 (by decide), if_pos rfl] at h3
    have := smul_one_inj (K := ℚ) (n := 5) (d := Metric.sq ⟨4, 1, 0⟩) (a := 1) (b := -5 / 2) ((one_smul _ _).trans h3)
    norm_num at this

/-- **C47 fails for common subexpressions**: for the scalar `s = 2` and `x = no + 3 ni`, `compute` of `s * x * (s * x)` returns -32 instead of -24: the
temporary `s * x` is stored with coefficients in the null basis and read with coefficients in the natural basis. -/
theorem C47_shared_false : ∃ (D : _) (C : _) (w : Nat → CliffordAlgebra (diagForm ℚ 5 (Metric.sq ⟨4, 1, 0⟩))) (p e : Rpne)
    (v : CliffordAlgebra (diagForm ℚ 5 (Metric.sq ⟨4, 1, 0⟩))) (x : Entity ℚ),
    IsDual ℚ 5 (Metric.sq ⟨4, 1, 0⟩) D ∧ IsNullCoeff ℚ 5 (Metric.sq ⟨4, 1, 0⟩) C ∧
    (∀ (k : Nat) (a : Arg ℚ), [scalarArg 2, exPair.toArg][k]? = some a →
      a.DenotesNull 5 (Metric.sq ⟨4, 1, 0⟩) (argOffset [scalarArg 2, exPair.toArg] k) (w k)) ∧
    gpExpr (entityExpr 0 0) (entityExpr 1 1) = ok p ∧ gpExpr p p = ok e ∧
    Means (nullInterp ℚ 5 (Metric.sq ⟨4, 1, 0⟩) (fun _ => 0) D C w) e v ∧
    computeExpr ⟨4, 1, 0⟩ true 7 numEnv [scalarArg 2, exPair.toArg] e = ok [x] ∧ ¬ x.DenotesNull 5 (Metric.sq ⟨4, 1, 0⟩) v := by
  obtain ⟨D, hD⟩ := exists_isDual ℚ 5 (by decide) (Metric.sq ⟨4, 1, 0⟩)
  obtain ⟨C, hC⟩ := exists_isNullCoeff ℚ 5 (by decide) (by decide) (Metric.sq ⟨4, 1, 0⟩)
  obtain ⟨p, hp, e, he⟩ := Out.chain_of_isOk (x := gpExpr (entityExpr 0 0) (entityExpr 1 1)) (f := fun p => gpExpr p p) (by decide +kernel)
  obtain ⟨x, hx, hs⟩ := result_select (x := gpExpr (entityExpr 0 0) (entityExpr 1 1) >>= fun p => gpExpr p p >>= fun e =>
    computeExpr ⟨4, 1, 0⟩ true 7 numEnv [scalarArg 2, exPair.toArg] e) (dim := 5) (e := 0) (k := -32) (by decide +kernel)
  rw [hp, ok_bind, he, ok_bind] at hx
  have hpn : p.nodes ≠ [] := by
    rintro h
    have : gpExpr (entityExpr 0 0) (entityExpr 1 1) >>= (fun p => ok (decide (p.nodes = []))) = ok false := by decide +kernel
    rw [hp, ok_bind, ok_inj] at this
    simp [h] at this
  have hM := C33_gp_partial (I := nullInterp ℚ 5 (Metric.sq ⟨4, 1, 0⟩) (fun _ => 0) D C (fun k => if k = 0 then
      pairsVal (K := ℚ) (nullElem ℚ 5 (Metric.sq ⟨4, 1, 0⟩)) [0] [2] else pairsVal (K := ℚ) (nullElem ℚ 5 (Metric.sq ⟨4, 1, 0⟩)) [8, 16] [1, 3]))
    (C33_argument _ 0 0) (C33_argument _ 1 1) (by simp [entityExpr]) (by simp [entityExpr]) hp
  refine ⟨D, C, _, p, e, _, x, hD, hC, ?_, hp, he, C33_gp_partial hM hM hpn hpn he, hx, fun h => ?_⟩
  · intro k a hk
    match k with
    | 0 =>
      simp at hk
      subst hk
      exact C47_entity (dim := 5) (Metric.sq ⟨4, 1, 0⟩) (x := ⟨[0], [2]⟩) (off := 0) (by decide) (by decide) rfl (by decide)
    | 1 =>
      simp at hk
      subst hk
      exact C47_entity (dim := 5) (Metric.sq ⟨4, 1, 0⟩) (x := ⟨[8, 16], [1, 3]⟩) (off := 1) (by decide) (by decide) rfl (by decide)
    | k + 2 => simp at hk
  · obtain ⟨k, h1, h2⟩ := C47_select hC h (e := 0) (by decide)
    rw [hs, ok_inj] at h1
    subst h1
    have e1 : pairsVal (K := ℚ) (nullElem ℚ 5 (Metric.sq ⟨4, 1, 0⟩)) [8, 16] [1, 3] =
        (1 : ℚ) • nullElem ℚ 5 (Metric.sq ⟨4, 1, 0⟩) (2 ^ 3) + (3 : ℚ) • nullElem ℚ 5 (Metric.sq ⟨4, 1, 0⟩) (2 ^ 4) := by
      simp [pairsVal]
    have e0 : pairsVal (K := ℚ) (nullElem ℚ 5 (Metric.sq ⟨4, 1, 0⟩)) [0] [2] = (2 : ℚ) • 1 := by
      rw [← cliffBlade_zero (K := ℚ) 5 (Metric.sq ⟨4, 1, 0⟩), ← nullElem_unmixed (K := ℚ) (by decide) (by decide) _ (by decide) (by decide)]
      simp [pairsVal]
    obtain ⟨g1, g2⟩ := nullElem_gen (K := ℚ) (n := 5) (by decide) (by decide) (Metric.sq ⟨4, 1, 0⟩)
    obtain ⟨n1, n2, n3⟩ := C25_null_vectors ℚ ⟨4, 1, 0⟩ (by decide) rfl
    have h3 : C 0 ((pairsVal (K := ℚ) (nullElem ℚ 5 (Metric.sq ⟨4, 1, 0⟩)) [0] [2] * pairsVal (K := ℚ) (nullElem ℚ 5 (Metric.sq ⟨4, 1, 0⟩)) [8, 16] [1, 3]) *
        (pairsVal (K := ℚ) (nullElem ℚ 5 (Metric.sq ⟨4, 1, 0⟩)) [0] [2] * pairsVal (K := ℚ) (nullElem ℚ 5 (Metric.sq ⟨4, 1, 0⟩)) [8, 16] [1, 3])) =
        (-32 : ℚ) • 1 := h2
    have key : ∀ (a b : CliffordAlgebra (diagForm ℚ 5 (Metric.sq ⟨4, 1, 0⟩))), a * a = 0 → b * b = 0 → a * b + b * a = -2 →
        ((2 : ℚ) • (1 : CliffordAlgebra (diagForm ℚ 5 (Metric.sq ⟨4, 1, 0⟩))) * ((1 : ℚ) • a + (3 : ℚ) • b)) *
          ((2 : ℚ) • 1 * ((1 : ℚ) • a + (3 : ℚ) • b)) = (-24 : ℚ) • 1 := by
      intro a b ha hb hab
      simp only [smul_mul_assoc, mul_smul_comm, one_mul, mul_add, add_mul, ha, hb, smul_zero, zero_add, add_zero, one_smul]
      have hba : b * a = -2 - a * b := by rw [← hab]; abel
      rw [hba, show (-2 : CliffordAlgebra (diagForm ℚ 5 (Metric.sq ⟨4, 1, 0⟩))) = (-2 : ℚ) • 1 by
        rw [neg_smul, two_smul]; norm_num]
      module
    have hk : _ = _ := key (nullGen (K := ℚ) 5 (cliffGen ℚ 5 (Metric.sq ⟨4, 1, 0⟩)) (5 - 2)) (nullGen (K := ℚ) 5 (cliffGen ℚ 5 (Metric.sq ⟨4, 1, 0⟩)) (5 - 1))
      n1 n2 n3
    rw [e0, e1, g1, g2, hk, map_smul, ← cliffBlade_zero (K := ℚ) 5 (Metric.sq ⟨4, 1, 0⟩),
      ← nullElem_unmixed (K := ℚ) (by decide) (by decide) _ (by decide) (by decide), hC 0 (by decide) 0 (by decide), if_pos rfl,
      nullElem_unmixed (K := ℚ) (by decide) (by decide) _ (by decide) (by decide), cliffBlade_zero] at h3
    have := smul_one_inj h3
    norm_num at this

end Gal
