import Verif.Props.LambdaCompute
import Verif.Props.Results
import Verif.Spec.LambdaMore

/-!
# Property C53: lambdas in null bases, and lambdas that return tuples
-/

namespace Gal

open Out

variable {K : Type} [Field K]

/-- The elements `no` and `ni` occur in the basis element together or not at all. -/
def NullElement (dim e : Nat) : Prop := e < 2 ^ dim ∧ Unmixed dim e

omit [Field K] in
theorem build_supportedNull {dim nc : Nat} {args : List (Arg K)} {f : Lam} {e : Rpne}
    (hf : f.Parts (NullElement dim) (GradeSafe dim) False args.length nc) (he : f.build (argOffset args) = ok e) : SupportedNull dim nc args e := by
  refine build_nodes (P := fun n => NullPlain dim nc n ∧ ArgNode args n) ?_ ?_ ?_ ?_ ⟨Nat.two_pow_pos _, by simp [Unmixed]⟩ ?_ ?_ ?_ False.elim f hf he
  · exact fun n q h => ⟨⟨⟨h.1.const, h.1.comp, h.1.grd, h.1.div, h.1.fn⟩, h.1.cmix, h.1.smix⟩, h.2⟩
  · intro n h1 h2
    refine ⟨⟨plain_of_lt h1, fun h => ?_, fun h => ?_⟩, fun h => absurd h h2⟩
    · simp only [Op.cscalar] at h; omega
    · simp only [Op.comp] at h; omega
  · intro k hk
    refine ⟨⟨plain_of_lt (by show Op.id < 11; decide), fun h => ?_, fun h => ?_⟩, fun _ => ⟨hk, rfl⟩⟩
    · simp [Op.cscalar, Op.id] at h
    · simp [Op.comp, Op.id] at h
  · intro h
    refine ⟨⟨plain_pi h, fun h => ?_, fun h => ?_⟩, fun h => ?_⟩
    · simp [Op.cscalar, Op.cpi] at h
    · simp [Op.comp, Op.cpi] at h
    · simp [Op.cpi, Op.id] at h
  · intro g hg
    refine ⟨⟨plain_element hg.1, fun _ => by simpa using hg.2, fun h => ?_⟩, fun h => ?_⟩
    · simp only [Op.cscalar, Op.comp] at h; omega
    · simp only [Op.cscalar, Op.id] at h; omega
  · intro c g hg
    refine ⟨⟨plain_comp hg.1, fun h => ?_, fun _ => hg.2⟩, fun h => ?_⟩
    · simp [Op.cscalar, Op.comp] at h
    · simp [Op.comp, Op.id] at h
  · intro c g hg
    refine ⟨⟨plain_grade hg, fun h => ?_, fun h => ?_⟩, fun h => ?_⟩
    · simp [Op.cscalar, Op.grd] at h
    · simp [Op.comp, Op.grd] at h
    · simp [Op.grd, Op.id] at h

theorem offset_types {K L : Type} {args : List (Arg K)} {args' : List (Arg L)}
    (ht : args.map (fun a => (a.ie, a.data.length)) = args'.map fun a => (a.ie, a.data.length)) : argOffset args' = argOffset args := by
  funext k
  have := congrArg (fun l => ((l.take k).map Prod.snd).sum) ht
  simp only [← List.map_take, List.map_map] at this
  exact this.symm

theorem size_types {K L : Type} {args : List (Arg K)} {args' : List (Arg L)}
    (ht : args.map (fun a => (a.ie, a.data.length)) = args'.map fun a => (a.ie, a.data.length)) : argsSize args' = argsSize args := by
  have := congrArg (fun l => (l.map Prod.snd).sum) ht
  simp only [List.map_map] at this
  exact this.symm

theorem toNull_exists {dim : Nat} {l : List Mv} (h : (l.all fun a => (toNullBasis dim a).isOk) = true) : ∀ a ∈ l, ∃ r, toNullBasis dim a = ok r :=
  fun a ha => Out.exists_of_isOk (List.all_eq_true.1 h a ha)

/-- `C53_null_partial` below, with the compiled expression. -/
theorem lambda_null {L : Type} [CharZero K] {m : Metric} (h2 : 2 ≤ m.dim) (hm : m.dim ≤ 8) (E : Env K) (args : List (Arg K))
    {w : Nat → CliffordAlgebra (diagForm K m.dim m.sq)}
    (hw : ∀ (k : Nat) (a : Arg K), args[k]? = some a → a.DenotesNull m.dim m.sq (argOffset args k) (w k))
    {D : CliffordAlgebra (diagForm K m.dim m.sq) →ₗ[K] CliffordAlgebra (diagForm K m.dim m.sq)} (hD : IsDual K m.dim m.sq D)
    {C : Nat → CliffordAlgebra (diagForm K m.dim m.sq) →ₗ[K] CliffordAlgebra (diagForm K m.dim m.sq)} (hC : IsNullCoeff K m.dim m.sq C)
    (f : Lam) (ho : f.Ordered (nullInterp K m.dim m.sq (fun k => E.consts.getD k 0) D C w) (argOffset args))
    (hr : f.Parts (NullElement m.dim) (GradeSafe m.dim) False args.length E.consts.length)
    {args' : List (Arg L)} (ht : args.map (fun a => (a.ie, a.data.length)) = args'.map fun a => (a.ie, a.data.length))
    (hk : f.checkNull m args' = true) :
    ∃ e c x, f.build (argOffset args) = ok e ∧ compileExpr m true f.cap args e = ok c ∧ runCompiled m true E args c = ok [x] ∧
      PlainRun (some m.dim) (argsSize args) c ∧
      x.DenotesNull m.dim m.sq (f.val (nullInterp K m.dim m.sq (fun k => E.consts.getD k 0) D C w) (argOffset args)) := by
  unfold Lam.checkNull at hk
  rw [offset_types ht, size_types ht] at hk
  match he : f.build (argOffset args) with
  | .ub => rw [he] at hk; cases hk
  | .val e true => rw [he] at hk; cases hk
  | .val e false =>
    rw [he] at hk
    simp only [Bool.and_eq_true, decide_eq_true_eq] at hk
    obtain ⟨⟨⟨h1, h2'⟩, h4⟩, h3⟩ := hk
    match hc : compileExpr m true f.cap args' e with
    | .ub => rw [hc] at h3; cases h3
    | .val c true => rw [hc] at h3; cases h3
    | .val c false =>
      rw [hc] at h3
      rw [← compile_types ht] at hc
      have he' : f.build (argOffset args) = ok e := he
      have hc' : compileExpr m true f.cap args e = ok c := hc
      obtain ⟨x, x0, x1, x2⟩ := null_plain h2 hm E hw hD hC (C53_value_partial _ _ f h1 ho he) (build_supportedNull hr he) (noRepeat_sound h2')
        hc' h4 (toNull_exists h3)
      exact ⟨e, c, x, rfl, hc', x1, x0, x2⟩

/-- **C53 in algebras with a null basis.**  `compute(f, args...)` for a lambda that passes the check for the types of the arguments returns, for
all coefficients in the null basis, the value of `f`, again in the null basis. -/
theorem C53_null_partial {L : Type} [CharZero K] {m : Metric} (h2 : 2 ≤ m.dim) (hm : m.dim ≤ 8) (E : Env K) (args : List (Arg K))
    {w : Nat → CliffordAlgebra (diagForm K m.dim m.sq)}
    (hw : ∀ (k : Nat) (a : Arg K), args[k]? = some a → a.DenotesNull m.dim m.sq (argOffset args k) (w k))
    {D : CliffordAlgebra (diagForm K m.dim m.sq) →ₗ[K] CliffordAlgebra (diagForm K m.dim m.sq)} (hD : IsDual K m.dim m.sq D)
    {C : Nat → CliffordAlgebra (diagForm K m.dim m.sq) →ₗ[K] CliffordAlgebra (diagForm K m.dim m.sq)} (hC : IsNullCoeff K m.dim m.sq C)
    (f : Lam) (ho : f.Ordered (nullInterp K m.dim m.sq (fun k => E.consts.getD k 0) D C w) (argOffset args))
    (hr : f.Parts (NullElement m.dim) (GradeSafe m.dim) False args.length E.consts.length)
    {args' : List (Arg L)} (ht : args.map (fun a => (a.ie, a.data.length)) = args'.map fun a => (a.ie, a.data.length))
    (hk : f.checkNull m args' = true) :
    ∃ x, f.compute m true E args = ok [x] ∧
      x.DenotesNull m.dim m.sq (f.val (nullInterp K m.dim m.sq (fun k => E.consts.getD k 0) D C w) (argOffset args)) := by
  obtain ⟨e, c, x, he, hc, x1, -, x2⟩ := lambda_null h2 hm E args hw hD hC f ho hr ht hk
  refine ⟨x, ?_, x2⟩
  unfold Lam.compute computeExpr
  rw [he, ok_bind, hc, ok_bind, x1]

/-! ## Tuples -/

theorem build_forall {V : Type} [AddCommGroup V] [Module ℚ V] {I : Interp V} {off : Nat → Nat} : ∀ {fs : List Lam} {es : List Rpne},
    (∀ f ∈ fs, f.regular off = true) → (∀ f ∈ fs, f.Ordered I off) → mapO (Lam.build off) fs = ok es →
    List.Forall₂ (Means I) es (fs.map fun f => f.val I off)
  | [], es, _, _, h => by rw [mapO_nil_ok.1 h]; exact .nil
  | f :: fs, es, h1, h2, h => by
    obtain ⟨y, ys, hy, hys, rfl⟩ := mapO_cons_ok.1 h
    exact .cons (C53_value_partial I off f (h1 f (by simp)) (h2 f (by simp)) hy)
      (build_forall (fun g hg => h1 g (by simp [hg])) (fun g hg => h2 g (by simp [hg])) hys)

theorem build_each {off : Nat → Nat} {P : Rpne → Prop} : ∀ {fs : List Lam} {es : List Rpne},
    (∀ f ∈ fs, ∀ e, f.build off = ok e → P e) → mapO (Lam.build off) fs = ok es → ∀ e ∈ es, P e
  | [], es, _, h => by rw [mapO_nil_ok.1 h]; simp
  | f :: fs, es, h1, h => by
    obtain ⟨y, ys, hy, hys, rfl⟩ := mapO_cons_ok.1 h
    have := build_each (P := P) (fun g hg => h1 g (by simp [hg])) hys
    intro e he
    rcases List.mem_cons.1 he with rfl | he
    · exact h1 f (by simp) _ hy
    · exact this e he

/-- What the check of a tuple says. -/
theorem checkTuple_ok {K L : Type} {m : Metric} {null : Bool} {args : List (Arg K)} {args' : List (Arg L)} {fs : List Lam}
    (ht : args.map (fun a => (a.ie, a.data.length)) = args'.map fun a => (a.ie, a.data.length)) (hk : Lam.checkTuple m null args' fs = true) :
    ∃ es c, mapO (Lam.build (argOffset args)) fs = ok es ∧ (∀ f ∈ fs, f.regular (argOffset args) = true) ∧ (∀ e ∈ es, e.nodes ≠ []) ∧
      noRepeat (concatExpr es).nodes = true ∧ argsSize args ≤ indConstantStart ∧
      compileExpr m null ((fs.map Lam.cap).sum + fs.length) args (concatExpr es) = ok c ∧
      (null = true → ∀ a ∈ c.state.args, ∃ r, toNullBasis m.dim a = ok r) := by
  unfold Lam.checkTuple at hk
  rw [offset_types ht, size_types ht] at hk
  match he : mapO (Lam.build (argOffset args)) fs with
  | .ub => rw [he] at hk; cases hk
  | .val es true => rw [he] at hk; cases hk
  | .val es false =>
    rw [he] at hk
    simp only [Bool.and_eq_true, decide_eq_true_eq] at hk
    obtain ⟨⟨⟨⟨h1, h2⟩, h3⟩, h4⟩, h5⟩ := hk
    match hc : compileExpr m null ((fs.map Lam.cap).sum + fs.length) args' (concatExpr es) with
    | .ub => rw [hc] at h5; cases h5
    | .val c true => rw [hc] at h5; cases h5
    | .val c false =>
      rw [hc] at h5
      rw [← compile_types ht] at hc
      refine ⟨es, c, rfl, List.all_eq_true.1 h1, fun e h => ?_, h3, h4, hc, fun hn => ?_⟩
      · have := List.all_eq_true.1 h2 e h
        intro h0
        rw [Rpne.nonzero, h0] at this
        cases this
      · rw [hn] at h5
        exact toNull_exists (by simpa using h5)

/-- `C53_tuple_partial` below, with the compiled expression. -/
theorem lambda_tuple {L : Type} [CharZero K] (m : Metric) (hm : m.dim ≤ 8) (E : Env K) (args : List (Arg K))
    {w : Nat → CliffordAlgebra (diagForm K m.dim m.sq)}
    (hw : ∀ (k : Nat) (a : Arg K), args[k]? = some a → a.Denotes m.dim m.sq (argOffset args k) (w k))
    {D : CliffordAlgebra (diagForm K m.dim m.sq) →ₗ[K] CliffordAlgebra (diagForm K m.dim m.sq)} (hD : IsDual K m.dim m.sq D)
    (fs : List Lam) (hne : fs ≠ [])
    (ho : ∀ f ∈ fs, f.Ordered (cliffInterp K m.dim m.sq (fun k => E.consts.getD k 0) D w) (argOffset args))
    (hr : ∀ f ∈ fs, f.InRange m.dim args.length E.consts.length)
    {args' : List (Arg L)} (ht : args.map (fun a => (a.ie, a.data.length)) = args'.map fun a => (a.ie, a.data.length))
    (hk : Lam.checkTuple m false args' fs = true) :
    ∃ es c xs, mapO (Lam.build (argOffset args)) fs = ok es ∧
      compileExpr m false ((fs.map Lam.cap).sum + fs.length) args (concatExpr es) = ok c ∧ runCompiled m false E args c = ok xs ∧
      PlainRun none (argsSize args) c ∧ List.Forall₂ (fun x v => x.Denotes m.dim m.sq v) xs
      (fs.map fun f => f.val (cliffInterp K m.dim m.sq (fun k => E.consts.getD k 0) D w) (argOffset args)) := by
  obtain ⟨es, c, he, h1, h2, h3, h4, hc, -⟩ := checkTuple_ok ht hk
  obtain ⟨f, f1, f2, f3⟩ := concat_forest (build_forall h1 ho he) h2
  obtain ⟨xs, as, x0, x1, x2, -⟩ := tuple_elems m hm E args hw hD (vs := fs.map fun f => f.val (cliffInterp K m.dim m.sq (fun k => E.consts.getD k 0) D w) (argOffset args)) (by simpa using hne) f1 f2 f3
    (build_each (fun f hf e h => build_supported (hr f hf) h) he) (noRepeat_sound h3) hc h4
  exact ⟨es, c, xs, he, hc, x1, x0, x2⟩

/-- **C53 for lambdas that return tuples.**  `compute(f, args...)` for a lambda that returns a tuple and passes the check returns, for all
coefficients, the tuple of the values. -/
theorem C53_tuple_partial {L : Type} [CharZero K] (m : Metric) (hm : m.dim ≤ 8) (E : Env K) (args : List (Arg K))
    {w : Nat → CliffordAlgebra (diagForm K m.dim m.sq)}
    (hw : ∀ (k : Nat) (a : Arg K), args[k]? = some a → a.Denotes m.dim m.sq (argOffset args k) (w k))
    {D : CliffordAlgebra (diagForm K m.dim m.sq) →ₗ[K] CliffordAlgebra (diagForm K m.dim m.sq)} (hD : IsDual K m.dim m.sq D)
    (fs : List Lam) (hne : fs ≠ [])
    (ho : ∀ f ∈ fs, f.Ordered (cliffInterp K m.dim m.sq (fun k => E.consts.getD k 0) D w) (argOffset args))
    (hr : ∀ f ∈ fs, f.InRange m.dim args.length E.consts.length)
    {args' : List (Arg L)} (ht : args.map (fun a => (a.ie, a.data.length)) = args'.map fun a => (a.ie, a.data.length))
    (hk : Lam.checkTuple m false args' fs = true) :
    ∃ xs, Lam.computeTuple m false E args fs = ok xs ∧ List.Forall₂ (fun x v => x.Denotes m.dim m.sq v) xs
      (fs.map fun f => f.val (cliffInterp K m.dim m.sq (fun k => E.consts.getD k 0) D w) (argOffset args)) := by
  obtain ⟨es, c, xs, he, hc, x1, -, x2⟩ := lambda_tuple m hm E args hw hD fs hne ho hr ht hk
  refine ⟨xs, ?_, x2⟩
  unfold Lam.computeTuple computeExpr
  rw [he, ok_bind, hc, ok_bind, x1]

/-- `C53_null_tuple_partial` below, with the compiled expression. -/
theorem lambda_null_tuple {L : Type} [CharZero K] {m : Metric} (h2 : 2 ≤ m.dim) (hm : m.dim ≤ 8) (E : Env K) (args : List (Arg K))
    {w : Nat → CliffordAlgebra (diagForm K m.dim m.sq)}
    (hw : ∀ (k : Nat) (a : Arg K), args[k]? = some a → a.DenotesNull m.dim m.sq (argOffset args k) (w k))
    {D : CliffordAlgebra (diagForm K m.dim m.sq) →ₗ[K] CliffordAlgebra (diagForm K m.dim m.sq)} (hD : IsDual K m.dim m.sq D)
    {C : Nat → CliffordAlgebra (diagForm K m.dim m.sq) →ₗ[K] CliffordAlgebra (diagForm K m.dim m.sq)} (hC : IsNullCoeff K m.dim m.sq C)
    (fs : List Lam) (hne : fs ≠ [])
    (ho : ∀ f ∈ fs, f.Ordered (nullInterp K m.dim m.sq (fun k => E.consts.getD k 0) D C w) (argOffset args))
    (hr : ∀ f ∈ fs, f.Parts (NullElement m.dim) (GradeSafe m.dim) False args.length E.consts.length)
    {args' : List (Arg L)} (ht : args.map (fun a => (a.ie, a.data.length)) = args'.map fun a => (a.ie, a.data.length))
    (hk : Lam.checkTuple m true args' fs = true) :
    ∃ es c xs, mapO (Lam.build (argOffset args)) fs = ok es ∧
      compileExpr m true ((fs.map Lam.cap).sum + fs.length) args (concatExpr es) = ok c ∧ runCompiled m true E args c = ok xs ∧
      PlainRun (some m.dim) (argsSize args) c ∧ List.Forall₂ (fun x v => x.DenotesNull m.dim m.sq v) xs
      (fs.map fun f => f.val (nullInterp K m.dim m.sq (fun k => E.consts.getD k 0) D C w) (argOffset args)) := by
  obtain ⟨es, c, he, h1, h2', h3, h4, hc, h5⟩ := checkTuple_ok ht hk
  obtain ⟨f, f1, f2, f3⟩ := concat_forest (build_forall h1 ho he) h2'
  obtain ⟨xs, as, x0, x1, x2, -⟩ := null_tuple_elems h2 hm E hw hD hC (vs := fs.map fun f => f.val (nullInterp K m.dim m.sq (fun k => E.consts.getD k 0) D C w) (argOffset args)) (by simpa using hne) f1 f2 f3
    (build_each (fun f hf e h => build_supportedNull (hr f hf) h) he) (noRepeat_sound h3) hc h4 (h5 rfl)
  exact ⟨es, c, xs, he, hc, x1, x0, x2⟩

/-- **C53 for lambdas that return tuples, in algebras with a null basis.** -/
theorem C53_null_tuple_partial {L : Type} [CharZero K] {m : Metric} (h2 : 2 ≤ m.dim) (hm : m.dim ≤ 8) (E : Env K) (args : List (Arg K))
    {w : Nat → CliffordAlgebra (diagForm K m.dim m.sq)}
    (hw : ∀ (k : Nat) (a : Arg K), args[k]? = some a → a.DenotesNull m.dim m.sq (argOffset args k) (w k))
    {D : CliffordAlgebra (diagForm K m.dim m.sq) →ₗ[K] CliffordAlgebra (diagForm K m.dim m.sq)} (hD : IsDual K m.dim m.sq D)
    {C : Nat → CliffordAlgebra (diagForm K m.dim m.sq) →ₗ[K] CliffordAlgebra (diagForm K m.dim m.sq)} (hC : IsNullCoeff K m.dim m.sq C)
    (fs : List Lam) (hne : fs ≠ [])
    (ho : ∀ f ∈ fs, f.Ordered (nullInterp K m.dim m.sq (fun k => E.consts.getD k 0) D C w) (argOffset args))
    (hr : ∀ f ∈ fs, f.Parts (NullElement m.dim) (GradeSafe m.dim) False args.length E.consts.length)
    {args' : List (Arg L)} (ht : args.map (fun a => (a.ie, a.data.length)) = args'.map fun a => (a.ie, a.data.length))
    (hk : Lam.checkTuple m true args' fs = true) :
    ∃ xs, Lam.computeTuple m true E args fs = ok xs ∧ List.Forall₂ (fun x v => x.DenotesNull m.dim m.sq v) xs
      (fs.map fun f => f.val (nullInterp K m.dim m.sq (fun k => E.consts.getD k 0) D C w) (argOffset args)) := by
  obtain ⟨es, c, xs, he, hc, x1, -, x2⟩ := lambda_null_tuple h2 hm E args hw hD hC fs hne ho hr ht hk
  refine ⟨xs, ?_, x2⟩
  unfold Lam.computeTuple computeExpr
  rw [he, ok_bind, hc, ok_bind, x1]

end Gal
