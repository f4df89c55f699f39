import Verif.Props.RoundedQuot
import Verif.Props.LambdaExamples

/-!
# Property C65: tuples and null bases computed with rounding

Lambdas in algebras with a null basis and lambdas that return tuples (C53): the rounded computation converges to the value of the lambda.
-/

namespace Gal

open Out Filter Topology

variable {ι : Type} {l : Filter ι} {N : (ι → ℝ) → ℝ → Prop} {fn : ι → MvOp → ℝ → ℝ} {fp : ι → ℝ → Int → Int → ℝ}

/-- C57: with exact arithmetic, `compute` of a lambda that returns a tuple is that of the other properties. -/
theorem C57_exact_tuple {K : Type} [Field K] (m : Metric) (null : Bool) (E : Env K) (args : List (Arg K)) (fs : List Lam) :
    Arith.exact.computeTuple m null E args fs = Lam.computeTuple m null E args fs := by
  unfold Arith.computeTuple Lam.computeTuple
  congr 1
  funext es
  exact exact_computeExpr m null _ E args (concatExpr es)

/-- A polynomial has no poles and no roots, so that it can be evaluated with rounding. -/
theorem fineMon_plain {dim : Nat} {P : Nat → Prop} {b : Mv} {n : NMv} (h : Clean (PosInd P) dim b n) {E : Env ℝ} {t : NTerm} (ht : t ∈ n) {x : NMon}
    (hx : x ∈ t.mons) : FineMon N fn fp E b.op x := by
  refine ⟨?_, fun i hi s _ => ⟨fun h1 => ?_, fun h1 => ?_⟩, fun ho => absurd h.packed.op ho⟩
  · have := ((h.canon.terms t ht).1.mons x hx).q.1.pos
    omega
  · have := (h.inds t ht x hx i hi).2.1
    omega
  · have := (h.inds t ht x hx i hi).2.2
    omega

/-- A compiled expression without temporaries can be evaluated with rounding. -/
theorem fineRun_plain {m : Metric} {null : Bool} {E : Env ℝ} {args : List (Arg ℝ)} {c : Compiled} (h : PlainRun (nullDim m null) (argsSize args) c) :
    FineRun N fn fp m null E args c := by
  refine ⟨h.room.ge, fun h1 => by have := (h.factor h1).pos; omega, fun data _ => by rw [h.temps]; exact trivial,
    fun data E' _ _ a ha b n hb hn t ht x hx => ?_⟩
  obtain ⟨b', n', dim, P, h1, h2⟩ := h.result a ha
  obtain rfl : b' = b := ok_inj.1 (h1.symm.trans hb)
  obtain rfl : n' = n := ok_inj.1 (h2.packed.view.symm.trans hn)
  exact fineMon_plain h2 ht hx

theorem near_null {L : Type} {A : ι → Arith ℝ} (hN : Stable A N)
    {m : Metric} (h2 : 2 ≤ m.dim) (hm : m.dim ≤ 8) (E : Env ℝ) (args : List (Arg ℝ))
    {w : Nat → CliffordAlgebra (diagForm ℝ m.dim m.sq)}
    (hw : ∀ (k : Nat) (a : Arg ℝ), args[k]? = some a → a.DenotesNull m.dim m.sq (argOffset args k) (w k))
    {D : CliffordAlgebra (diagForm ℝ m.dim m.sq) →ₗ[ℝ] CliffordAlgebra (diagForm ℝ m.dim m.sq)} (hD : IsDual ℝ m.dim m.sq D)
    {C : Nat → CliffordAlgebra (diagForm ℝ m.dim m.sq) →ₗ[ℝ] CliffordAlgebra (diagForm ℝ m.dim m.sq)} (hC : IsNullCoeff ℝ m.dim m.sq C)
    (f : Lam) (ho : f.Ordered (nullInterp ℝ m.dim m.sq (fun k => E.consts.getD k 0) D C w) (argOffset args))
    (hr : f.Parts (NullElement m.dim) (GradeSafe m.dim) False args.length E.consts.length)
    {args' : List (Arg L)} (ht : args.map (fun a => (a.ie, a.data.length)) = args'.map fun a => (a.ie, a.data.length))
    (hk : f.checkNull m args' = true)
    {Es : ι → Env ℝ} {as : ι → List (Arg ℝ)} (hs : ∀ k, (as k).map (fun a => (a.ie, a.data.length)) = args'.map fun a => (a.ie, a.data.length))
    (hargs : ListTends N (fun k => ((as k).map fun a => a.data).flatten) (args.map fun a => a.data).flatten)
    (hc : ListTends N (fun k => (Es k).consts) E.consts) :
    ∃ (ys : ι → Entity ℝ) (x : Entity ℝ), (∀ k, (A k).compute m true (Es k) (as k) f = ok [ys k]) ∧ EntityTends N ys x ∧
      x.DenotesNull m.dim m.sq (f.val (nullInterp ℝ m.dim m.sq (fun k => E.consts.getD k 0) D C w) (argOffset args)) := by
  obtain ⟨e, c, x, he, hc', hx, hp, hv⟩ := lambda_null h2 hm E args hw hD hC f ho hr ht hk
  have he' : f.build (argOffset args') = ok e := by rw [offset_types ht]; exact he
  have hc'' : compileExpr m true f.cap args' e = ok c := by rw [← compile_types ht]; exact hc'
  obtain ⟨ys, h1, h3⟩ := near_run hN m true hargs hc (fineRun_plain hp) hx
  refine ⟨fun k => (ys k).getD 0 ⟨[], []⟩, x, fun k => ?_, h3.each 0 (by simp), hv⟩
  unfold Arith.compute Arith.computeExpr
  rw [← offset_types (hs k), he', ok_bind, compile_types (hs k), hc'', ok_bind, h1 k]
  beta_reduce
  match ys k, h3.len k with
  | [z], _ => rfl

theorem near_tuple {L : Type} {A : ι → Arith ℝ} (hN : Stable A N)
    (m : Metric) (hm : m.dim ≤ 8) (E : Env ℝ) (args : List (Arg ℝ))
    {w : Nat → CliffordAlgebra (diagForm ℝ m.dim m.sq)}
    (hw : ∀ (k : Nat) (a : Arg ℝ), args[k]? = some a → a.Denotes m.dim m.sq (argOffset args k) (w k))
    {D : CliffordAlgebra (diagForm ℝ m.dim m.sq) →ₗ[ℝ] CliffordAlgebra (diagForm ℝ m.dim m.sq)} (hD : IsDual ℝ m.dim m.sq D)
    (fs : List Lam) (hne : fs ≠ []) (ho : ∀ f ∈ fs, f.Ordered (cliffInterp ℝ m.dim m.sq (fun k => E.consts.getD k 0) D w) (argOffset args))
    (hr : ∀ f ∈ fs, f.InRange m.dim args.length E.consts.length)
    {args' : List (Arg L)} (ht : args.map (fun a => (a.ie, a.data.length)) = args'.map fun a => (a.ie, a.data.length))
    (hk : Lam.checkTuple m false args' fs = true)
    {Es : ι → Env ℝ} {as : ι → List (Arg ℝ)} (hs : ∀ k, (as k).map (fun a => (a.ie, a.data.length)) = args'.map fun a => (a.ie, a.data.length))
    (hargs : ListTends N (fun k => ((as k).map fun a => a.data).flatten) (args.map fun a => a.data).flatten)
    (hc : ListTends N (fun k => (Es k).consts) E.consts) :
    ∃ (ys : ι → List (Entity ℝ)) (xs : List (Entity ℝ)), (∀ k, (A k).computeTuple m false (Es k) (as k) fs = ok (ys k)) ∧
      AllTends (EntityTends N) ⟨[], []⟩ ys xs ∧ List.Forall₂ (fun x v => x.Denotes m.dim m.sq v) xs
        (fs.map fun f => f.val (cliffInterp ℝ m.dim m.sq (fun k => E.consts.getD k 0) D w) (argOffset args)) := by
  obtain ⟨es, c, xs, he, hc', hx, hp, hv⟩ := lambda_tuple m hm E args hw hD fs hne ho hr ht hk
  have he' : mapO (Lam.build (argOffset args')) fs = ok es := by rw [offset_types ht]; exact he
  have hc'' : compileExpr m false ((fs.map Lam.cap).sum + fs.length) args' (concatExpr es) = ok c := by rw [← compile_types ht]; exact hc'
  obtain ⟨ys, h1, h3⟩ := near_run hN m false hargs hc (fineRun_plain hp) hx
  refine ⟨ys, xs, fun k => ?_, h3, hv⟩
  unfold Arith.computeTuple Arith.computeExpr
  rw [← offset_types (hs k), he', ok_bind, compile_types (hs k), hc'', ok_bind, h1 k]

theorem near_null_tuple {L : Type} {A : ι → Arith ℝ} (hN : Stable A N)
    {m : Metric} (h2 : 2 ≤ m.dim) (hm : m.dim ≤ 8) (E : Env ℝ) (args : List (Arg ℝ))
    {w : Nat → CliffordAlgebra (diagForm ℝ m.dim m.sq)}
    (hw : ∀ (k : Nat) (a : Arg ℝ), args[k]? = some a → a.DenotesNull m.dim m.sq (argOffset args k) (w k))
    {D : CliffordAlgebra (diagForm ℝ m.dim m.sq) →ₗ[ℝ] CliffordAlgebra (diagForm ℝ m.dim m.sq)} (hD : IsDual ℝ m.dim m.sq D)
    {C : Nat → CliffordAlgebra (diagForm ℝ m.dim m.sq) →ₗ[ℝ] CliffordAlgebra (diagForm ℝ m.dim m.sq)} (hC : IsNullCoeff ℝ m.dim m.sq C)
    (fs : List Lam) (hne : fs ≠ []) (ho : ∀ f ∈ fs, f.Ordered (nullInterp ℝ m.dim m.sq (fun k => E.consts.getD k 0) D C w) (argOffset args))
    (hr : ∀ f ∈ fs, f.Parts (NullElement m.dim) (GradeSafe m.dim) False args.length E.consts.length)
    {args' : List (Arg L)} (ht : args.map (fun a => (a.ie, a.data.length)) = args'.map fun a => (a.ie, a.data.length))
    (hk : Lam.checkTuple m true args' fs = true)
    {Es : ι → Env ℝ} {as : ι → List (Arg ℝ)} (hs : ∀ k, (as k).map (fun a => (a.ie, a.data.length)) = args'.map fun a => (a.ie, a.data.length))
    (hargs : ListTends N (fun k => ((as k).map fun a => a.data).flatten) (args.map fun a => a.data).flatten)
    (hc : ListTends N (fun k => (Es k).consts) E.consts) :
    ∃ (ys : ι → List (Entity ℝ)) (xs : List (Entity ℝ)), (∀ k, (A k).computeTuple m true (Es k) (as k) fs = ok (ys k)) ∧
      AllTends (EntityTends N) ⟨[], []⟩ ys xs ∧ List.Forall₂ (fun x v => x.DenotesNull m.dim m.sq v) xs
        (fs.map fun f => f.val (nullInterp ℝ m.dim m.sq (fun k => E.consts.getD k 0) D C w) (argOffset args)) := by
  obtain ⟨es, c, xs, he, hc', hx, hp, hv⟩ := lambda_null_tuple h2 hm E args hw hD hC fs hne ho hr ht hk
  have he' : mapO (Lam.build (argOffset args')) fs = ok es := by rw [offset_types ht]; exact he
  have hc'' : compileExpr m true ((fs.map Lam.cap).sum + fs.length) args' (concatExpr es) = ok c := by rw [← compile_types ht]; exact hc'
  obtain ⟨ys, h1, h3⟩ := near_run hN m true hargs hc (fineRun_plain hp) hx
  refine ⟨ys, xs, fun k => ?_, h3, hv⟩
  unfold Arith.computeTuple Arith.computeExpr
  rw [← offset_types (hs k), he', ok_bind, compile_types (hs k), hc'', ok_bind, h1 k]

/-- **C65 in algebras with a null basis.**  For lambdas in algebras with a null basis that pass the check of C53, `compute` with rounding in every operation, with approximate
arguments and constants, never fails, returns the components of the exact result, and their coefficients converge to the value of the lambda as the
precision grows.  Missing: lambdas that do not pass the check. -/
theorem C65_null_partial {L : Type} {A : ι → Arith ℝ} {u : ι → ℝ} (hA : Improving l A u)
    {m : Metric} (h2 : 2 ≤ m.dim) (hm : m.dim ≤ 8) (E : Env ℝ) (args : List (Arg ℝ))
    {w : Nat → CliffordAlgebra (diagForm ℝ m.dim m.sq)}
    (hw : ∀ (k : Nat) (a : Arg ℝ), args[k]? = some a → a.DenotesNull m.dim m.sq (argOffset args k) (w k))
    {D : CliffordAlgebra (diagForm ℝ m.dim m.sq) →ₗ[ℝ] CliffordAlgebra (diagForm ℝ m.dim m.sq)} (hD : IsDual ℝ m.dim m.sq D)
    {C : Nat → CliffordAlgebra (diagForm ℝ m.dim m.sq) →ₗ[ℝ] CliffordAlgebra (diagForm ℝ m.dim m.sq)} (hC : IsNullCoeff ℝ m.dim m.sq C)
    (f : Lam) (ho : f.Ordered (nullInterp ℝ m.dim m.sq (fun k => E.consts.getD k 0) D C w) (argOffset args))
    (hr : f.Parts (NullElement m.dim) (GradeSafe m.dim) False args.length E.consts.length)
    {args' : List (Arg L)} (ht : args.map (fun a => (a.ie, a.data.length)) = args'.map fun a => (a.ie, a.data.length))
    (hk : f.checkNull m args' = true)
    {Es : ι → Env ℝ} {as : ι → List (Arg ℝ)} (hs : ∀ k, (as k).map (fun a => (a.ie, a.data.length)) = args'.map fun a => (a.ie, a.data.length))
    (hargs : ListTends (Limit l) (fun k => ((as k).map fun a => a.data).flatten) (args.map fun a => a.data).flatten)
    (hc : ListTends (Limit l) (fun k => (Es k).consts) E.consts) :
    ∃ (ys : ι → Entity ℝ) (x : Entity ℝ), (∀ k, (A k).compute m true (Es k) (as k) f = ok [ys k]) ∧ EntityTends (Limit l) ys x ∧
      x.DenotesNull m.dim m.sq (f.val (nullInterp ℝ m.dim m.sq (fun k => E.consts.getD k 0) D C w) (argOffset args)) :=
  near_null (near_limit hA) h2 hm E args hw hD hC f ho hr ht hk hs hargs hc

/-- **C65 in algebras with a null basis, with a rate**: if the errors of the arguments and constants are of the order of the unit roundoff,
then so are those of the results. -/
theorem C65_null_rate_partial {L : Type} {A : ι → Arith ℝ} {u : ι → ℝ} (hA : Improving l A u)
    {m : Metric} (h2 : 2 ≤ m.dim) (hm : m.dim ≤ 8) (E : Env ℝ) (args : List (Arg ℝ))
    {w : Nat → CliffordAlgebra (diagForm ℝ m.dim m.sq)}
    (hw : ∀ (k : Nat) (a : Arg ℝ), args[k]? = some a → a.DenotesNull m.dim m.sq (argOffset args k) (w k))
    {D : CliffordAlgebra (diagForm ℝ m.dim m.sq) →ₗ[ℝ] CliffordAlgebra (diagForm ℝ m.dim m.sq)} (hD : IsDual ℝ m.dim m.sq D)
    {C : Nat → CliffordAlgebra (diagForm ℝ m.dim m.sq) →ₗ[ℝ] CliffordAlgebra (diagForm ℝ m.dim m.sq)} (hC : IsNullCoeff ℝ m.dim m.sq C)
    (f : Lam) (ho : f.Ordered (nullInterp ℝ m.dim m.sq (fun k => E.consts.getD k 0) D C w) (argOffset args))
    (hr : f.Parts (NullElement m.dim) (GradeSafe m.dim) False args.length E.consts.length)
    {args' : List (Arg L)} (ht : args.map (fun a => (a.ie, a.data.length)) = args'.map fun a => (a.ie, a.data.length))
    (hk : f.checkNull m args' = true)
    {Es : ι → Env ℝ} {as : ι → List (Arg ℝ)} (hs : ∀ k, (as k).map (fun a => (a.ie, a.data.length)) = args'.map fun a => (a.ie, a.data.length))
    (hargs : ListTends (Rate l u) (fun k => ((as k).map fun a => a.data).flatten) (args.map fun a => a.data).flatten)
    (hc : ListTends (Rate l u) (fun k => (Es k).consts) E.consts) :
    ∃ (ys : ι → Entity ℝ) (x : Entity ℝ), (∀ k, (A k).compute m true (Es k) (as k) f = ok [ys k]) ∧ EntityTends (Rate l u) ys x ∧
      x.DenotesNull m.dim m.sq (f.val (nullInterp ℝ m.dim m.sq (fun k => E.consts.getD k 0) D C w) (argOffset args)) :=
  near_null (near_rate hA) h2 hm E args hw hD hC f ho hr ht hk hs hargs hc

/-- **C65 for lambdas that return tuples.**  For a lambda that returns a tuple and passes the check of C53, `compute` with rounding in every operation returns as many entities as
without, and they converge to the values of the components.  Missing: tuples that do not pass the check. -/
theorem C65_tuple_partial {L : Type} {A : ι → Arith ℝ} {u : ι → ℝ} (hA : Improving l A u)
    (m : Metric) (hm : m.dim ≤ 8) (E : Env ℝ) (args : List (Arg ℝ))
    {w : Nat → CliffordAlgebra (diagForm ℝ m.dim m.sq)}
    (hw : ∀ (k : Nat) (a : Arg ℝ), args[k]? = some a → a.Denotes m.dim m.sq (argOffset args k) (w k))
    {D : CliffordAlgebra (diagForm ℝ m.dim m.sq) →ₗ[ℝ] CliffordAlgebra (diagForm ℝ m.dim m.sq)} (hD : IsDual ℝ m.dim m.sq D)
    (fs : List Lam) (hne : fs ≠ []) (ho : ∀ f ∈ fs, f.Ordered (cliffInterp ℝ m.dim m.sq (fun k => E.consts.getD k 0) D w) (argOffset args))
    (hr : ∀ f ∈ fs, f.InRange m.dim args.length E.consts.length)
    {args' : List (Arg L)} (ht : args.map (fun a => (a.ie, a.data.length)) = args'.map fun a => (a.ie, a.data.length))
    (hk : Lam.checkTuple m false args' fs = true)
    {Es : ι → Env ℝ} {as : ι → List (Arg ℝ)} (hs : ∀ k, (as k).map (fun a => (a.ie, a.data.length)) = args'.map fun a => (a.ie, a.data.length))
    (hargs : ListTends (Limit l) (fun k => ((as k).map fun a => a.data).flatten) (args.map fun a => a.data).flatten)
    (hc : ListTends (Limit l) (fun k => (Es k).consts) E.consts) :
    ∃ (ys : ι → List (Entity ℝ)) (xs : List (Entity ℝ)), (∀ k, (A k).computeTuple m false (Es k) (as k) fs = ok (ys k)) ∧
      AllTends (EntityTends (Limit l)) ⟨[], []⟩ ys xs ∧ List.Forall₂ (fun x v => x.Denotes m.dim m.sq v) xs
        (fs.map fun f => f.val (cliffInterp ℝ m.dim m.sq (fun k => E.consts.getD k 0) D w) (argOffset args)) :=
  near_tuple (near_limit hA) m hm E args hw hD fs hne ho hr ht hk hs hargs hc

/-- **C65 for lambdas that return tuples, with a rate**: if the errors of the arguments and constants are of the order of the unit roundoff,
then so are those of the results. -/
theorem C65_tuple_rate_partial {L : Type} {A : ι → Arith ℝ} {u : ι → ℝ} (hA : Improving l A u)
    (m : Metric) (hm : m.dim ≤ 8) (E : Env ℝ) (args : List (Arg ℝ))
    {w : Nat → CliffordAlgebra (diagForm ℝ m.dim m.sq)}
    (hw : ∀ (k : Nat) (a : Arg ℝ), args[k]? = some a → a.Denotes m.dim m.sq (argOffset args k) (w k))
    {D : CliffordAlgebra (diagForm ℝ m.dim m.sq) →ₗ[ℝ] CliffordAlgebra (diagForm ℝ m.dim m.sq)} (hD : IsDual ℝ m.dim m.sq D)
    (fs : List Lam) (hne : fs ≠ []) (ho : ∀ f ∈ fs, f.Ordered (cliffInterp ℝ m.dim m.sq (fun k => E.consts.getD k 0) D w) (argOffset args))
    (hr : ∀ f ∈ fs, f.InRange m.dim args.length E.consts.length)
    {args' : List (Arg L)} (ht : args.map (fun a => (a.ie, a.data.length)) = args'.map fun a => (a.ie, a.data.length))
    (hk : Lam.checkTuple m false args' fs = true)
    {Es : ι → Env ℝ} {as : ι → List (Arg ℝ)} (hs : ∀ k, (as k).map (fun a => (a.ie, a.data.length)) = args'.map fun a => (a.ie, a.data.length))
    (hargs : ListTends (Rate l u) (fun k => ((as k).map fun a => a.data).flatten) (args.map fun a => a.data).flatten)
    (hc : ListTends (Rate l u) (fun k => (Es k).consts) E.consts) :
    ∃ (ys : ι → List (Entity ℝ)) (xs : List (Entity ℝ)), (∀ k, (A k).computeTuple m false (Es k) (as k) fs = ok (ys k)) ∧
      AllTends (EntityTends (Rate l u)) ⟨[], []⟩ ys xs ∧ List.Forall₂ (fun x v => x.Denotes m.dim m.sq v) xs
        (fs.map fun f => f.val (cliffInterp ℝ m.dim m.sq (fun k => E.consts.getD k 0) D w) (argOffset args)) :=
  near_tuple (near_rate hA) m hm E args hw hD fs hne ho hr ht hk hs hargs hc

/-- **C65 for lambdas that return tuples, in algebras with a null basis.**  Missing: tuples that do not pass the check. -/
theorem C65_null_tuple_partial {L : Type} {A : ι → Arith ℝ} {u : ι → ℝ} (hA : Improving l A u)
    {m : Metric} (h2 : 2 ≤ m.dim) (hm : m.dim ≤ 8) (E : Env ℝ) (args : List (Arg ℝ))
    {w : Nat → CliffordAlgebra (diagForm ℝ m.dim m.sq)}
    (hw : ∀ (k : Nat) (a : Arg ℝ), args[k]? = some a → a.DenotesNull m.dim m.sq (argOffset args k) (w k))
    {D : CliffordAlgebra (diagForm ℝ m.dim m.sq) →ₗ[ℝ] CliffordAlgebra (diagForm ℝ m.dim m.sq)} (hD : IsDual ℝ m.dim m.sq D)
    {C : Nat → CliffordAlgebra (diagForm ℝ m.dim m.sq) →ₗ[ℝ] CliffordAlgebra (diagForm ℝ m.dim m.sq)} (hC : IsNullCoeff ℝ m.dim m.sq C)
    (fs : List Lam) (hne : fs ≠ []) (ho : ∀ f ∈ fs, f.Ordered (nullInterp ℝ m.dim m.sq (fun k => E.consts.getD k 0) D C w) (argOffset args))
    (hr : ∀ f ∈ fs, f.Parts (NullElement m.dim) (GradeSafe m.dim) False args.length E.consts.length)
    {args' : List (Arg L)} (ht : args.map (fun a => (a.ie, a.data.length)) = args'.map fun a => (a.ie, a.data.length))
    (hk : Lam.checkTuple m true args' fs = true)
    {Es : ι → Env ℝ} {as : ι → List (Arg ℝ)} (hs : ∀ k, (as k).map (fun a => (a.ie, a.data.length)) = args'.map fun a => (a.ie, a.data.length))
    (hargs : ListTends (Limit l) (fun k => ((as k).map fun a => a.data).flatten) (args.map fun a => a.data).flatten)
    (hc : ListTends (Limit l) (fun k => (Es k).consts) E.consts) :
    ∃ (ys : ι → List (Entity ℝ)) (xs : List (Entity ℝ)), (∀ k, (A k).computeTuple m true (Es k) (as k) fs = ok (ys k)) ∧
      AllTends (EntityTends (Limit l)) ⟨[], []⟩ ys xs ∧ List.Forall₂ (fun x v => x.DenotesNull m.dim m.sq v) xs
        (fs.map fun f => f.val (nullInterp ℝ m.dim m.sq (fun k => E.consts.getD k 0) D C w) (argOffset args)) :=
  near_null_tuple (near_limit hA) h2 hm E args hw hD hC fs hne ho hr ht hk hs hargs hc

/-- **C65 for lambdas that return tuples, in algebras with a null basis, with a rate**: if the errors of the arguments and constants are of the order of the unit roundoff,
then so are those of the results. -/
theorem C65_null_tuple_rate_partial {L : Type} {A : ι → Arith ℝ} {u : ι → ℝ} (hA : Improving l A u)
    {m : Metric} (h2 : 2 ≤ m.dim) (hm : m.dim ≤ 8) (E : Env ℝ) (args : List (Arg ℝ))
    {w : Nat → CliffordAlgebra (diagForm ℝ m.dim m.sq)}
    (hw : ∀ (k : Nat) (a : Arg ℝ), args[k]? = some a → a.DenotesNull m.dim m.sq (argOffset args k) (w k))
    {D : CliffordAlgebra (diagForm ℝ m.dim m.sq) →ₗ[ℝ] CliffordAlgebra (diagForm ℝ m.dim m.sq)} (hD : IsDual ℝ m.dim m.sq D)
    {C : Nat → CliffordAlgebra (diagForm ℝ m.dim m.sq) →ₗ[ℝ] CliffordAlgebra (diagForm ℝ m.dim m.sq)} (hC : IsNullCoeff ℝ m.dim m.sq C)
    (fs : List Lam) (hne : fs ≠ []) (ho : ∀ f ∈ fs, f.Ordered (nullInterp ℝ m.dim m.sq (fun k => E.consts.getD k 0) D C w) (argOffset args))
    (hr : ∀ f ∈ fs, f.Parts (NullElement m.dim) (GradeSafe m.dim) False args.length E.consts.length)
    {args' : List (Arg L)} (ht : args.map (fun a => (a.ie, a.data.length)) = args'.map fun a => (a.ie, a.data.length))
    (hk : Lam.checkTuple m true args' fs = true)
    {Es : ι → Env ℝ} {as : ι → List (Arg ℝ)} (hs : ∀ k, (as k).map (fun a => (a.ie, a.data.length)) = args'.map fun a => (a.ie, a.data.length))
    (hargs : ListTends (Rate l u) (fun k => ((as k).map fun a => a.data).flatten) (args.map fun a => a.data).flatten)
    (hc : ListTends (Rate l u) (fun k => (Es k).consts) E.consts) :
    ∃ (ys : ι → List (Entity ℝ)) (xs : List (Entity ℝ)), (∀ k, (A k).computeTuple m true (Es k) (as k) fs = ok (ys k)) ∧
      AllTends (EntityTends (Rate l u)) ⟨[], []⟩ ys xs ∧ List.Forall₂ (fun x v => x.DenotesNull m.dim m.sq v) xs
        (fs.map fun f => f.val (nullInterp ℝ m.dim m.sq (fun k => E.consts.getD k 0) D C w) (argOffset args)) :=
  near_null_tuple (near_rate hA) h2 hm E args hw hD hC fs hne ho hr ht hk hs hargs hc

/-! ## Examples -/

/-- `C65_tuple_rate_partial` applies to a lambda that returns `a * b`, `a ^ b` and `a - b`, for all vectors, in binary floating-point arithmetic with correctly
rounded inputs. -/
example (E : Env ℝ) (a b : Fin 3 → ℝ) : ∃ (ys : Nat → List (Entity ℝ)) (xs : List (Entity ℝ)),
    (∀ p, (binaryArith ℝ p).computeTuple ⟨3, 0, 0⟩ false E (spaceArgs (fun i => roundBits p (a i)) fun i => roundBits p (b i))
      [.gp (.arg 0) (.arg 1), .ep (.arg 0) (.arg 1), .sub (.arg 0) (.arg 1)] = ok (ys p)) ∧
    AllTends (EntityTends (Rate atTop fun p : Nat => (2 : ℝ)⁻¹ ^ p)) ⟨[], []⟩ ys xs ∧ xs.length = 3 := by
  obtain ⟨D, hD⟩ := exists_isDual ℝ 3 (by decide) (Metric.sq ⟨3, 0, 0⟩)
  obtain ⟨ys, xs, h1, h2, h3⟩ := C65_tuple_rate_partial binary_improving ⟨3, 0, 0⟩ (by decide) E (spaceArgs a b) (spaceArgs_denote a b) hD
    [.gp (.arg 0) (.arg 1), .ep (.arg 0) (.arg 1), .sub (.arg 0) (.arg 1)] (by simp) (by simp [Lam.Ordered]) (by simp [Lam.InRange, spaceArgs])
    (args' := spaceArgs (K := ℚ) ![1, 2, 3] ![5, 7, 11]) rfl (by decide +kernel) (Es := fun _ => E)
    (as := fun p => spaceArgs (fun i => roundBits p (a i)) fun i => roundBits p (b i)) (fun _ => rfl)
    ⟨fun _ => rfl, fun j => match j with
      | 0 => rate_roundBits (a 0)
      | 1 => rate_roundBits (a 1)
      | 2 => rate_roundBits (a 2)
      | 3 => rate_roundBits (b 0)
      | 4 => rate_roundBits (b 1)
      | 5 => rate_roundBits (b 2)
      | _ + 6 => (near_rate binary_improving).const 0⟩
    ⟨fun _ => rfl, fun _ => (near_rate binary_improving).const _⟩
  exact ⟨ys, xs, h1, h2, h3.length_eq⟩

/-- Two real vectors of the conformal algebra in the null basis, with coefficients of `e0`, `no` and `ni`. -/
def nullReals {K : Type} (x y : Fin 3 → K) : List (Arg K) :=
  [(⟨[1, 8, 16], [x 0, x 1, x 2]⟩ : Entity K).toArg, (⟨[1, 8, 16], [y 0, y 1, y 2]⟩ : Entity K).toArg]

theorem nullReals_denote (x y : Fin 3 → ℝ) (k : Nat) (a : Arg ℝ) (h : (nullReals x y)[k]? = some a) :
    a.DenotesNull 5 (Metric.sq ⟨4, 1, 0⟩) (argOffset (nullReals x y) k)
      (if k = 0 then pairsVal (nullElem ℝ 5 (Metric.sq ⟨4, 1, 0⟩)) [1, 8, 16] [x 0, x 1, x 2]
        else pairsVal (nullElem ℝ 5 (Metric.sq ⟨4, 1, 0⟩)) [1, 8, 16] [y 0, y 1, y 2]) := by
  match k with
  | 0 =>
    simp [nullReals] at h; subst h
    exact C47_entity (dim := 5) (Metric.sq ⟨4, 1, 0⟩) (x := ⟨[1, 8, 16], [x 0, x 1, x 2]⟩) (off := 0) (by simp) (by simp) rfl (by simp)
  | 1 =>
    simp [nullReals] at h; subst h
    exact C47_entity (dim := 5) (Metric.sq ⟨4, 1, 0⟩) (x := ⟨[1, 8, 16], [y 0, y 1, y 2]⟩) (off := 3) (by simp) (by simp) rfl (by simp)
  | k + 2 => simp [nullReals] at h

theorem nullReals_round (x y : Fin 3 → ℝ) : ListTends (Rate atTop fun p : Nat => (2 : ℝ)⁻¹ ^ p)
    (fun p => ((nullReals (fun i => roundBits p (x i)) fun i => roundBits p (y i)).map fun a => a.data).flatten)
    ((nullReals x y).map fun a => a.data).flatten :=
  ⟨fun _ => rfl, fun j => match j with
    | 0 => rate_roundBits (x 0)
    | 1 => rate_roundBits (x 1)
    | 2 => rate_roundBits (x 2)
    | 3 => rate_roundBits (y 0)
    | 4 => rate_roundBits (y 1)
    | 5 => rate_roundBits (y 2)
    | _ + 6 => (near_rate binary_improving).const 0⟩

/-- `C65_null_rate_partial` applies to `a * b + 3 * e_no_ni`, for all coefficients. -/
example (E : Env ℝ) (x y : Fin 3 → ℝ) : ∃ (ys : Nat → Entity ℝ) (z : Entity ℝ),
    (∀ p, (binaryArith ℝ p).compute ⟨4, 1, 0⟩ true E (nullReals (fun i => roundBits p (x i)) fun i => roundBits p (y i))
      (.add (.gp (.arg 0) (.arg 1)) (.elem 24 3)) = ok [ys p]) ∧ EntityTends (Rate atTop fun p : Nat => (2 : ℝ)⁻¹ ^ p) ys z := by
  obtain ⟨D, hD⟩ := exists_isDual ℝ 5 (by decide) (Metric.sq ⟨4, 1, 0⟩)
  obtain ⟨C, hC⟩ := exists_isNullCoeff ℝ 5 (by decide) (by decide) (Metric.sq ⟨4, 1, 0⟩)
  obtain ⟨ys, z, h1, h2, -⟩ := C65_null_rate_partial binary_improving (m := ⟨4, 1, 0⟩) (by decide) (by decide) E (nullReals x y) (nullReals_denote x y)
    hD hC (.add (.gp (.arg 0) (.arg 1)) (.elem 24 3)) ⟨⟨trivial, trivial⟩, trivial⟩ ⟨⟨Nat.zero_lt_succ _, Nat.lt_succ_self _⟩, by decide, by decide⟩
    (args' := nullReals (K := ℚ) ![1, 2, 3] ![5, 7, 11]) rfl (by decide +kernel) (Es := fun _ => E)
    (as := fun p => nullReals (fun i => roundBits p (x i)) fun i => roundBits p (y i)) (fun _ => rfl) (nullReals_round x y)
    ⟨fun _ => rfl, fun _ => (near_rate binary_improving).const _⟩
  exact ⟨ys, z, h1, h2⟩

/-- `C65_null_tuple_rate_partial` applies to a lambda that returns `a * b` and `a ^ b`, for all coefficients. -/
example (E : Env ℝ) (x y : Fin 3 → ℝ) : ∃ (ys : Nat → List (Entity ℝ)) (xs : List (Entity ℝ)),
    (∀ p, (binaryArith ℝ p).computeTuple ⟨4, 1, 0⟩ true E (nullReals (fun i => roundBits p (x i)) fun i => roundBits p (y i))
      [.gp (.arg 0) (.arg 1), .ep (.arg 0) (.arg 1)] = ok (ys p)) ∧
    AllTends (EntityTends (Rate atTop fun p : Nat => (2 : ℝ)⁻¹ ^ p)) ⟨[], []⟩ ys xs ∧ xs.length = 2 := by
  obtain ⟨D, hD⟩ := exists_isDual ℝ 5 (by decide) (Metric.sq ⟨4, 1, 0⟩)
  obtain ⟨C, hC⟩ := exists_isNullCoeff ℝ 5 (by decide) (by decide) (Metric.sq ⟨4, 1, 0⟩)
  obtain ⟨ys, xs, h1, h2, h3⟩ := C65_null_tuple_rate_partial binary_improving (m := ⟨4, 1, 0⟩) (by decide) (by decide) E (nullReals x y)
    (nullReals_denote x y) hD hC [.gp (.arg 0) (.arg 1), .ep (.arg 0) (.arg 1)] (by simp) (by simp [Lam.Ordered]) (by simp [Lam.Parts, nullReals])
    (args' := nullReals (K := ℚ) ![1, 2, 3] ![5, 7, 11]) rfl (by decide +kernel) (Es := fun _ => E)
    (as := fun p => nullReals (fun i => roundBits p (x i)) fun i => roundBits p (y i)) (fun _ => rfl) (nullReals_round x y)
    ⟨fun _ => rfl, fun _ => (near_rate binary_improving).const _⟩
  exact ⟨ys, xs, h1, h2, h3.length_eq⟩

end Gal
