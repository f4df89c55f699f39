import Verif.Props.RoundedExp
import Verif.Props.LambdaExamples

/-!
# Property C65: quotients and functions computed with rounding

Lambdas with quotients and functions (C53): the rounded computation converges to the value of the lambda.
-/

namespace Gal

open Out Filter Topology

variable {ι : Type} {l : Filter ι} {N : (ι → ℝ) → ℝ → Prop} {fn : ι → MvOp → ℝ → ℝ} {fp : ι → ℝ → Int → Int → ℝ}

theorem fineInd_of {E : Env ℝ} {i : Ind} (h : EvalInd E i) (hd : i.deg.den = 1) : FineInd N fp E i := by
  intro s hs
  rw [Env.get_ok h.has, ok_inj] at hs
  subst hs
  exact ⟨fun h1 => absurd h1 (by omega), h.pole⟩

theorem fineMon_of {E : Env ℝ} {o : MvOp} {m : NMon} (hq : m.q.WF) (hi : ∀ i ∈ m.inds, EvalInd E i ∧ i.deg.den = 1)
    (hfn : o ≠ .id → TendsAt N (fun k => fn k o) (E.fn o) (m.val E.pw)) : FineMon N fn fp E o m := by
  refine ⟨by have := hq.pos; omega, fun i h => fineInd_of (hi i h).1 (hi i h).2, fun ho v hv => ?_⟩
  rw [C31_monomial_partial E m hq fun i h => (hi i h).1, ok_inj] at hv
  rw [← hv]
  exact hfn ho

theorem fineLoop_of {b : Nat} : ∀ {n : NMv} {E : Env ℝ} {id : Nat}, RefsBelow b n → FineView E n → b ≤ id → FineLoop N fn fp .id E id n
  | [], _, _, _, _, _ => trivial
  | t :: ts, E, id, hr, hf, hb => by
    refine ⟨fun m hm => fineMon_of (hf t (by simp) m hm).1 (hf t (by simp) m hm).2 fun h => absurd rfl h, fun v E' _ hE' => ?_⟩
    unfold Env.write at hE'
    split at hE'
    · rw [ok_inj] at hE'
      subst hE'
      refine fineLoop_of (fun t ht => hr t (List.mem_cons_of_mem _ ht)) (fun t ht m hm => ?_) (by omega)
      obtain ⟨h1, h2⟩ := hf t (List.mem_cons_of_mem _ ht) m hm
      refine ⟨h1, fun i hi => ⟨evalInd_set ?_ (h2 i hi).1, (h2 i hi).2⟩⟩
      rcases hr t (List.mem_cons_of_mem _ ht) m hm i hi with h | h
      · exact Or.inl h
      · exact Or.inr (by omega)
    · cases hE'

/-- A function applied to a monomial. -/
theorem fineLoop_fn {o : MvOp} {q : NMon} {E : Env ℝ} {id : Nat} (hf : FineView E [⟨0, [q]⟩])
    (hq : TendsAt N (fun k => fn k o) (E.fn o) (q.val E.pw)) : FineLoop N fn fp o E id [⟨0, [q]⟩] := by
  refine ⟨fun m hm => ?_, fun _ _ _ _ => trivial⟩
  obtain rfl := List.mem_singleton.1 hm
  have h := hf _ (List.mem_singleton.2 rfl) m (List.mem_singleton.2 rfl)
  exact fineMon_of h.1 h.2 fun _ => hq

theorem tempLoop_fn {o : MvOp} : ∀ {n : NMv} {E E' : Env ℝ} {id : Nat}, tempLoop o E id n = ok E' → E'.fn = E.fn
  | [], E, E', id, h => by rw [tempLoop, ok_inj] at h; rw [h]
  | t :: ts, E, E', id, h => by
    rw [tempLoop, bind_eq_ok] at h
    obtain ⟨v, -, h⟩ := h
    rw [bind_eq_ok] at h
    obtain ⟨E1, h1, h⟩ := h
    rw [tempLoop_fn h]
    unfold Env.write at h1
    split at h1
    · rw [ok_inj] at h1
      rw [← h1]
    · cases h1

theorem fineTemps_of {g : MvOp → ℝ → ℝ} : ∀ {ps : List (Mv × Nat)} {E : Env ℝ}, E.fn = g →
    (∀ (k : Nat) (v : Mv × Nat), ps[k]? = some v → ∃ E', finalizeTemps none E (ps.take k) = ok E' ∧
      TempFine (fun o x => TendsAt N (fun k => fn k o) (g o) x) E' v.1 v.2) →
    FineTemps N fn fp none E ps
  | [], _, _, _ => trivial
  | (a, id) :: ps, E, hg, h => by
    intro b n hb hn
    obtain rfl : a = b := ok_inj.1 hb
    obtain ⟨E1, h1, n', h2, h3, h4, h4'⟩ := h 0 (a, id) rfl
    obtain rfl : E = E1 := ok_inj.1 h1
    obtain rfl : n' = n := ok_inj.1 (h2.symm.trans hn)
    have hl : FineLoop N fn fp a.op E id n' := by
      by_cases ho : a.op = .id
      · rw [ho]
        exact fineLoop_of h3 h4 (le_refl _)
      · obtain ⟨q, rfl, -, hq⟩ := h4' ho
        exact fineLoop_fn h4 (by rw [hg]; exact hq)
    refine ⟨hl, fun E' hE' => ?_⟩
    have hE'' := hE'
    unfold computeTemp at hE''
    rw [hn, ok_bind] at hE''
    refine fineTemps_of ((tempLoop_fn hE'').trans hg) fun k v hk => ?_
    obtain ⟨Ek, h5, h6⟩ := h (k + 1) v (by simpa using hk)
    refine ⟨Ek, ?_, h6⟩
    rw [List.take_succ_cons, finalizeTemps] at h5
    simpa only [toOutput, ok_bind, hE'] using h5

/-- What C48 knows about a compiled expression is what the rounded computation needs. -/
theorem fineRun_of {m : Metric} {E : Env ℝ} {args : List (Arg ℝ)} {c : Compiled}
    (h : RunFine (fun o x => TendsAt N (fun k => fn k o) (E.fn o) x) E args c) :
    FineRun N fn fp m false E args c := by
  refine ⟨h.room, fun h1 => by have := (h.factor h1).pos; omega, fun data hd => fineTemps_of rfl (h.temps data hd),
    fun data E' hd hE' a ha b n hb hn t ht x hx => ?_⟩
  obtain rfl : a = b := ok_inj.1 hb
  obtain ⟨n', h1, h2, h3⟩ := h.result data E' hd hE' a ha
  obtain rfl : n' = n := ok_inj.1 (h1.symm.trans hn)
  exact fineMon_of (h3 t ht x hx).1 (h3 t ht x hx).2 fun h4 => absurd h2 h4

theorem near_lambda {L : Type} {A : ι → Arith ℝ} (hN : Stable A N)
    (m : Metric) (hm : m.dim ≤ 8) (E : Env ℝ) (args : List (Arg ℝ))
    {w : Nat → CliffordAlgebra (diagForm ℝ m.dim m.sq)}
    (hw : ∀ (k : Nat) (a : Arg ℝ), args[k]? = some a → a.Denotes m.dim m.sq (argOffset args k) (w k))
    {D : CliffordAlgebra (diagForm ℝ m.dim m.sq) →ₗ[ℝ] CliffordAlgebra (diagForm ℝ m.dim m.sq)} (hD : IsDual ℝ m.dim m.sq D)
    (f : Lam) (ho : f.Ordered (fullInterp ℝ m.dim m.sq (fun k => E.consts.getD k 0) D w E.named) (argOffset args))
    (hr : f.Parts (· < 2 ^ m.dim) (GradeSafe m.dim) True args.length E.consts.length)
    (h0 : f.Divides (fun v => scalarPart ℝ m.dim m.sq v ≠ 0) (fullInterp ℝ m.dim m.sq (fun k => E.consts.getD k 0) D w E.named) (argOffset args))
    {args' : List (Arg L)} (ht : args.map (fun a => (a.ie, a.data.length)) = args'.map fun a => (a.ie, a.data.length))
    (hcap : f.cap < 2 ^ 64) (hk : f.checkQuot m args' = true)
    {Es : ι → Env ℝ} {as : ι → List (Arg ℝ)} (hs : ∀ k, (as k).map (fun a => (a.ie, a.data.length)) = args'.map fun a => (a.ie, a.data.length))
    (hargs : ListTends N (fun k => ((as k).map fun a => a.data).flatten) (args.map fun a => a.data).flatten)
    (hc : ListTends N (fun k => (Es k).consts) E.consts)
    (hfn : f.Applies (fun o v => TendsAt N (fun k => (Es k).fn (fnOp o)) (E.fn (fnOp o)) (scalarPart ℝ m.dim m.sq v))
      (fullInterp ℝ m.dim m.sq (fun k => E.consts.getD k 0) D w E.named) (argOffset args)) :
    ∃ (ys : ι → Entity ℝ) (x : Entity ℝ), (∀ k, (A k).compute m false (Es k) (as k) f = ok [ys k]) ∧ EntityTends N ys x ∧
      x.Denotes m.dim m.sq (f.val (fullInterp ℝ m.dim m.sq (fun k => E.consts.getD k 0) D w E.named) (argOffset args)) := by
  obtain ⟨e, c, x, he, hc', hx, hv, hfine⟩ := lambda_quot (Φ := fun o x => TendsAt N (fun k => (Es k).fn o) (E.fn o) x) m hm E args hw hD f ho hr h0 hfn ht hcap hk
  have he' : f.build (argOffset args') = ok e := by rw [offset_types ht]; exact he
  have hc'' : compileExpr m false f.cap args' e = ok c := by rw [← compile_types ht]; exact hc'
  obtain ⟨ys, h1, h2⟩ := near_run hN m false hargs hc (fineRun_of hfine) hx
  have h3 := h2.each 0 (by simp)
  refine ⟨fun k => (ys k).getD 0 ⟨[], []⟩, x, fun k => ?_, h3, hv⟩
  unfold Arith.compute Arith.computeExpr
  rw [← offset_types (hs k), he', ok_bind, compile_types (hs k), hc'', ok_bind, h1 k]
  beta_reduce
  match ys k, h2.len k with
  | [z], _ => rfl

/-- **C65 with quotients and functions.**  Let `f` be a lambda with quotients and functions that passes the check of C53.  For arguments for which no
divisor in the lambda is zero, `compute` with rounding in every operation, with approximate arguments, constants and functions, never fails, returns the
components of the exact result, and their coefficients converge to the value of `f` as the precision grows.  The functions are required to converge only
at the values they are applied to.  Missing: lambdas that do not pass the check. -/
theorem C65_quot_partial {L : Type} {A : ι → Arith ℝ} {u : ι → ℝ} (hA : Improving l A u)
    (m : Metric) (hm : m.dim ≤ 8) (E : Env ℝ) (args : List (Arg ℝ))
    {w : Nat → CliffordAlgebra (diagForm ℝ m.dim m.sq)}
    (hw : ∀ (k : Nat) (a : Arg ℝ), args[k]? = some a → a.Denotes m.dim m.sq (argOffset args k) (w k))
    {D : CliffordAlgebra (diagForm ℝ m.dim m.sq) →ₗ[ℝ] CliffordAlgebra (diagForm ℝ m.dim m.sq)} (hD : IsDual ℝ m.dim m.sq D)
    (f : Lam) (ho : f.Ordered (fullInterp ℝ m.dim m.sq (fun k => E.consts.getD k 0) D w E.named) (argOffset args))
    (hr : f.Parts (· < 2 ^ m.dim) (GradeSafe m.dim) True args.length E.consts.length)
    (h0 : f.Divides (fun v => scalarPart ℝ m.dim m.sq v ≠ 0) (fullInterp ℝ m.dim m.sq (fun k => E.consts.getD k 0) D w E.named) (argOffset args))
    {args' : List (Arg L)} (ht : args.map (fun a => (a.ie, a.data.length)) = args'.map fun a => (a.ie, a.data.length))
    (hcap : f.cap < 2 ^ 64) (hk : f.checkQuot m args' = true)
    {Es : ι → Env ℝ} {as : ι → List (Arg ℝ)} (hs : ∀ k, (as k).map (fun a => (a.ie, a.data.length)) = args'.map fun a => (a.ie, a.data.length))
    (hargs : ListTends (Limit l) (fun k => ((as k).map fun a => a.data).flatten) (args.map fun a => a.data).flatten)
    (hc : ListTends (Limit l) (fun k => (Es k).consts) E.consts)
    (hfn : f.Applies (fun o v => TendsAt (Limit l) (fun k => (Es k).fn (fnOp o)) (E.fn (fnOp o)) (scalarPart ℝ m.dim m.sq v))
      (fullInterp ℝ m.dim m.sq (fun k => E.consts.getD k 0) D w E.named) (argOffset args)) :
    ∃ (ys : ι → Entity ℝ) (x : Entity ℝ), (∀ k, (A k).compute m false (Es k) (as k) f = ok [ys k]) ∧ EntityTends (Limit l) ys x ∧
      x.Denotes m.dim m.sq (f.val (fullInterp ℝ m.dim m.sq (fun k => E.consts.getD k 0) D w E.named) (argOffset args)) :=
  near_lambda (near_limit hA) m hm E args hw hD f ho hr h0 ht hcap hk hs hargs hc hfn

/-- **C65 with quotients and functions, with a rate**: if the errors of the arguments, constants and functions are of the order of the unit roundoff,
then so is the error of every coefficient of the result.  The functions are required to do so only at the values they are applied to, so a square root of
a value that is not zero is allowed.  Missing: lambdas that do not pass the check. -/
theorem C65_quot_rate_partial {L : Type} {A : ι → Arith ℝ} {u : ι → ℝ} (hA : Improving l A u)
    (m : Metric) (hm : m.dim ≤ 8) (E : Env ℝ) (args : List (Arg ℝ))
    {w : Nat → CliffordAlgebra (diagForm ℝ m.dim m.sq)}
    (hw : ∀ (k : Nat) (a : Arg ℝ), args[k]? = some a → a.Denotes m.dim m.sq (argOffset args k) (w k))
    {D : CliffordAlgebra (diagForm ℝ m.dim m.sq) →ₗ[ℝ] CliffordAlgebra (diagForm ℝ m.dim m.sq)} (hD : IsDual ℝ m.dim m.sq D)
    (f : Lam) (ho : f.Ordered (fullInterp ℝ m.dim m.sq (fun k => E.consts.getD k 0) D w E.named) (argOffset args))
    (hr : f.Parts (· < 2 ^ m.dim) (GradeSafe m.dim) True args.length E.consts.length)
    (h0 : f.Divides (fun v => scalarPart ℝ m.dim m.sq v ≠ 0) (fullInterp ℝ m.dim m.sq (fun k => E.consts.getD k 0) D w E.named) (argOffset args))
    {args' : List (Arg L)} (ht : args.map (fun a => (a.ie, a.data.length)) = args'.map fun a => (a.ie, a.data.length))
    (hcap : f.cap < 2 ^ 64) (hk : f.checkQuot m args' = true)
    {Es : ι → Env ℝ} {as : ι → List (Arg ℝ)} (hs : ∀ k, (as k).map (fun a => (a.ie, a.data.length)) = args'.map fun a => (a.ie, a.data.length))
    (hargs : ListTends (Rate l u) (fun k => ((as k).map fun a => a.data).flatten) (args.map fun a => a.data).flatten)
    (hc : ListTends (Rate l u) (fun k => (Es k).consts) E.consts)
    (hfn : f.Applies (fun o v => TendsAt (Rate l u) (fun k => (Es k).fn (fnOp o)) (E.fn (fnOp o)) (scalarPart ℝ m.dim m.sq v))
      (fullInterp ℝ m.dim m.sq (fun k => E.consts.getD k 0) D w E.named) (argOffset args)) :
    ∃ (ys : ι → Entity ℝ) (x : Entity ℝ), (∀ k, (A k).compute m false (Es k) (as k) f = ok [ys k]) ∧ EntityTends (Rate l u) ys x ∧
      x.Denotes m.dim m.sq (f.val (fullInterp ℝ m.dim m.sq (fun k => E.consts.getD k 0) D w E.named) (argOffset args)) :=
  near_lambda (near_rate hA) m hm E args hw hD f ho hr h0 ht hcap hk hs hargs hc hfn

/-! ## Projection of a vector -/

theorem near_projection {A : ι → Arith ℝ} (hN : Stable A N) (E : Env ℝ) {a b : Fin 3 → ℝ}
    (h0 : b 0 * b 0 + b 1 * b 1 + b 2 * b 2 ≠ 0) {as bs : ι → Fin 3 → ℝ} (ha : ∀ i, N (fun k => as k i) (a i))
    (hb : ∀ i, N (fun k => bs k i) (b i)) :
    ∃ (ys : ι → Entity ℝ) (x : Entity ℝ), (∀ k, (A k).compute ⟨3, 0, 0⟩ false E (spaceArgs (as k) (bs k)) projectLam = ok [ys k]) ∧
      EntityTends N ys x ∧ x.Denotes 3 (Metric.sq ⟨3, 0, 0⟩)
        (((a 0 * b 0 + a 1 * b 1 + a 2 * b 2) / (b 0 * b 0 + b 1 * b 1 + b 2 * b 2)) • spaceVector b) := by
  obtain ⟨D, hD⟩ := exists_isDual ℝ 3 (by decide) (Metric.sq ⟨3, 0, 0⟩)
  obtain ⟨ys, x, h1, h2, h3⟩ := near_lambda hN ⟨3, 0, 0⟩ (by decide) E (spaceArgs a b) (spaceArgs_denote a b) hD projectLam
    ⟨⟨⟨trivial, trivial⟩, trivial⟩, trivial, trivial⟩ (by simp [projectLam, Lam.Parts, spaceArgs])
    ⟨⟨⟨trivial, trivial⟩, trivial⟩, ⟨trivial, trivial⟩, by
      show scalarPart ℝ 3 _ (leftContraction ℝ 3 (Metric.sq ⟨3, 0, 0⟩) (spaceVector b) (spaceVector b)) ≠ 0
      rw [contract_vectors, scalarPart_smul_one]
      exact h0⟩
    (args' := spaceArgs (K := ℚ) ![1, 2, 3] ![5, 7, 11]) rfl (by decide) (by decide +kernel)
    (Es := fun _ => E) (as := fun k => spaceArgs (as k) (bs k)) (fun _ => rfl)
    ⟨fun _ => rfl, fun j => match j with
      | 0 => ha 0
      | 1 => ha 1
      | 2 => ha 2
      | 3 => hb 0
      | 4 => hb 1
      | 5 => hb 2
      | _ + 6 => hN.const _⟩
    ⟨fun _ => rfl, fun _ => hN.const _⟩ ⟨⟨⟨trivial, trivial⟩, trivial⟩, trivial, trivial⟩
  refine ⟨ys, x, h1, h2, ?_⟩
  have hv : (((a 0 * b 0 + a 1 * b 1 + a 2 * b 2) / (b 0 * b 0 + b 1 * b 1 + b 2 * b 2)) • spaceVector b) =
      projectLam.val (fullInterp ℝ 3 (Metric.sq ⟨3, 0, 0⟩) (fun k => E.consts.getD k 0) D (fun k => if k = 0 then spaceVector a else spaceVector b) E.named)
        (argOffset (spaceArgs a b)) := ?_
  · rw [hv]; exact h3
  rw [projectLam_val, if_pos rfl, if_neg Nat.one_ne_zero, contract_vectors, contract_vectors, scalarPart_smul_one, smul_mul_assoc, one_mul, smul_smul]
  congr 1
  rw [div_eq_inv_mul]

/-- **C65 (projection)**: `((a >> b) * b) / (b >> b)` computed with rounding converges to `(a·b / b·b) b`, also for vectors that are only approximately
`a` and `b`. -/
theorem C65_projection {A : ι → Arith ℝ} {u : ι → ℝ} (hA : Improving l A u) (E : Env ℝ) {a b : Fin 3 → ℝ}
    (h0 : b 0 * b 0 + b 1 * b 1 + b 2 * b 2 ≠ 0) {as bs : ι → Fin 3 → ℝ} (ha : ∀ i, Limit l (fun k => as k i) (a i))
    (hb : ∀ i, Limit l (fun k => bs k i) (b i)) :
    ∃ (ys : ι → Entity ℝ) (x : Entity ℝ), (∀ k, (A k).compute ⟨3, 0, 0⟩ false E (spaceArgs (as k) (bs k)) projectLam = ok [ys k]) ∧
      EntityTends (Limit l) ys x ∧ x.Denotes 3 (Metric.sq ⟨3, 0, 0⟩)
        (((a 0 * b 0 + a 1 * b 1 + a 2 * b 2) / (b 0 * b 0 + b 1 * b 1 + b 2 * b 2)) • spaceVector b) :=
  near_projection (near_limit hA) E h0 ha hb

/-- **C65 (projection, rate)**: the error of every coefficient is of the order of the unit roundoff. -/
theorem C65_projection_rate {A : ι → Arith ℝ} {u : ι → ℝ} (hA : Improving l A u) (E : Env ℝ) {a b : Fin 3 → ℝ}
    (h0 : b 0 * b 0 + b 1 * b 1 + b 2 * b 2 ≠ 0) {as bs : ι → Fin 3 → ℝ} (ha : ∀ i, Rate l u (fun k => as k i) (a i))
    (hb : ∀ i, Rate l u (fun k => bs k i) (b i)) :
    ∃ (ys : ι → Entity ℝ) (x : Entity ℝ), (∀ k, (A k).compute ⟨3, 0, 0⟩ false E (spaceArgs (as k) (bs k)) projectLam = ok [ys k]) ∧
      EntityTends (Rate l u) ys x ∧ x.Denotes 3 (Metric.sq ⟨3, 0, 0⟩)
        (((a 0 * b 0 + a 1 * b 1 + a 2 * b 2) / (b 0 * b 0 + b 1 * b 1 + b 2 * b 2)) • spaceVector b) :=
  near_projection (near_rate hA) E h0 ha hb

/-- In binary floating-point arithmetic with `p` digits, with inputs that are correctly rounded, the error of the projection is at most a multiple of
`2⁻ᵖ`. -/
theorem C65_projection_binary (E : Env ℝ) {a b : Fin 3 → ℝ} (h0 : b 0 * b 0 + b 1 * b 1 + b 2 * b 2 ≠ 0) :
    ∃ (ys : Nat → Entity ℝ) (x : Entity ℝ) (C : ℝ),
      (∀ p, (binaryArith ℝ p).compute ⟨3, 0, 0⟩ false E (spaceArgs (fun i => roundBits p (a i)) fun i => roundBits p (b i)) projectLam = ok [ys p]) ∧
      (∀ p, (ys p).elements = x.elements) ∧ (∀ p, (ys p).data.length = x.data.length) ∧
      (∀ p j, |(ys p).data.getD j 0 - x.data.getD j 0| ≤ C * (2 : ℝ)⁻¹ ^ p) ∧ x.Denotes 3 (Metric.sq ⟨3, 0, 0⟩)
        (((a 0 * b 0 + a 1 * b 1 + a 2 * b 2) / (b 0 * b 0 + b 1 * b 1 + b 2 * b 2)) • spaceVector b) := by
  obtain ⟨ys, x, h1, h2, h3⟩ := C65_projection_rate binary_improving E h0 (fun i => rate_roundBits (a i)) fun i => rate_roundBits (b i)
  obtain ⟨C, hC⟩ := h2.data.bound
  exact ⟨ys, x, C, h1, h2.elements, h2.data.len, hC, h3⟩

example : (1 : ℝ) * 1 + 2 * 2 + 2 * 2 ≠ 0 := by norm_num

end Gal
