import Verif.Props.Repack
import Verif.Props.LambdaMore
import Verif.Props.LambdaQuot
import Verif.Props.Named
import Verif.Versor
import Verif.Metrics

/-!
# C61: named entities as arguments of lambdas

C45 to C53 are about arguments whose arrays are laid out as the library's functions lay them out.  `vga::point` and `cga::point` write
their constant monomial by hand with another offset.  This module extends C53 to all arguments that are laid out that way up to such offsets
(`Arg.StandsFor`), and shows that vectors, rotors, points, planes, lines and motors are such arguments and what they stand for.
-/

namespace Gal

open Out

section

variable {K : Type} [Field K]

/-- The argument, with its first indeterminate `off`, stands for `v`: its arrays are those of a canonical multivector `n`, up to the offsets of
monomials without indeterminates, and `n` has the value `v`. -/
def Arg.StandsFor (a : Arg K) (dim : Nat) (d : Nat → Int) (off : Nat) (v : CliffordAlgebra (diagForm K dim d)) : Prop :=
  ∃ b n, (a.ie off).Like b ∧ Stored (PosInd fun id => off ≤ id ∧ id < off + a.data.length) dim b n ∧
    ∀ ρ : Nat → K, (∀ i, i < a.data.length → ρ (off + i) = a.data.getD i 0) → mvVal (intPow ρ) (cliffBlade K dim d) n = v

/-- The same where the elements are those of the null basis. -/
def Arg.StandsForNull (a : Arg K) (dim : Nat) (d : Nat → Int) (off : Nat) (v : CliffordAlgebra (diagForm K dim d)) : Prop :=
  ∃ b n, (a.ie off).Like b ∧ Clean (PosInd fun id => off ≤ id ∧ id < off + a.data.length) dim b n ∧
    ∀ ρ : Nat → K, (∀ i, i < a.data.length → ρ (off + i) = a.data.getD i 0) → mvVal (intPow ρ) (nullElem K dim d) n = v

theorem Arg.Denotes.standsFor {a : Arg K} {dim : Nat} {d : Nat → Int} {off : Nat} {v : CliffordAlgebra (diagForm K dim d)}
    (h : a.Denotes dim d off v) : a.StandsFor dim d off v := by
  obtain ⟨n, h1, h2⟩ := h
  exact ⟨_, n, rfl, h1, h2⟩

theorem Arg.DenotesNull.standsFor {a : Arg K} {dim : Nat} {d : Nat → Int} {off : Nat} {v : CliffordAlgebra (diagForm K dim d)}
    (h : a.DenotesNull dim d off v) : a.StandsForNull dim d off v := by
  obtain ⟨n, h1, h2⟩ := h
  exact ⟨_, n, rfl, h1, h2⟩

/-- An argument with the expression `b` at `off`. -/
def Arg.withIe (a : Arg K) (off : Nat) (b : Mv) : Arg K := ⟨fun id => if id = off then b else a.ie id, a.data⟩

omit [Field K] in
theorem Arg.withIe_like {a : Arg K} {off : Nat} {b : Mv} (h : (a.ie off).Like b) : a.Like (a.withIe off b) := by
  refine ⟨rfl, fun id => ?_⟩
  unfold Arg.withIe
  dsimp only
  split
  · rename_i h'
    rw [h']
    exact h
  · rfl

omit [Field K] in
/-- Arguments can be replaced one by one. -/
theorem replace_like {P : Nat → Arg K → Prop} {args : List (Arg K)}
    (h : ∀ (k : Nat) (a : Arg K), args[k]? = some a → ∃ a', a.Like a' ∧ P k a') :
    ∃ args', List.Forall₂ Arg.Like args args' ∧ ∀ (k : Nat) (a : Arg K), args'[k]? = some a → P k a := by
  induction args generalizing P with
  | nil => exact ⟨[], .nil, fun k a h => by simp at h⟩
  | cons x xs ih =>
    obtain ⟨x', h1, h2⟩ := h 0 x rfl
    obtain ⟨xs', h3, h4⟩ := ih (P := fun k => P (k + 1)) (fun k a ha => h (k + 1) a (by simpa using ha))
    refine ⟨x' :: xs', .cons h1 h3, fun k a ha => ?_⟩
    cases k with
    | zero =>
      simp only [List.getElem?_cons_zero, Option.some.injEq] at ha
      subst ha
      exact h2
    | succ k => exact h4 k a (by simpa using ha)

theorem replace_stands {args : List (Arg K)} {dim : Nat} {d : Nat → Int} {w : Nat → CliffordAlgebra (diagForm K dim d)}
    (hw : ∀ (k : Nat) (a : Arg K), args[k]? = some a → a.StandsFor dim d (argOffset args k) (w k)) :
    ∃ args', List.Forall₂ Arg.Like args args' ∧ ∀ (k : Nat) (a : Arg K), args'[k]? = some a → a.Denotes dim d (argOffset args' k) (w k) := by
  obtain ⟨args', h1, h2⟩ := replace_like (P := fun k a => a.Denotes dim d (argOffset args k) (w k)) (args := args) (fun k a ha => by
    obtain ⟨b, n, h1, h2, h3⟩ := hw k a ha
    refine ⟨a.withIe (argOffset args k) b, Arg.withIe_like h1, n, ?_, h3⟩
    have : (a.withIe (argOffset args k) b).ie (argOffset args k) = b := if_pos rfl
    rw [this]
    exact h2)
  refine ⟨args', h1, ?_⟩
  rw [← argOffset_like (like_types h1)]
  exact h2

theorem replace_standsNull {args : List (Arg K)} {dim : Nat} {d : Nat → Int} {w : Nat → CliffordAlgebra (diagForm K dim d)}
    (hw : ∀ (k : Nat) (a : Arg K), args[k]? = some a → a.StandsForNull dim d (argOffset args k) (w k)) :
    ∃ args', List.Forall₂ Arg.Like args args' ∧ ∀ (k : Nat) (a : Arg K), args'[k]? = some a → a.DenotesNull dim d (argOffset args' k) (w k) := by
  obtain ⟨args', h1, h2⟩ := replace_like (P := fun k a => a.DenotesNull dim d (argOffset args k) (w k)) (args := args) (fun k a ha => by
    obtain ⟨b, n, h1, h2, h3⟩ := hw k a ha
    refine ⟨a.withIe (argOffset args k) b, Arg.withIe_like h1, n, ?_, h3⟩
    have : (a.withIe (argOffset args k) b).ie (argOffset args k) = b := if_pos rfl
    rw [this]
    exact h2)
  refine ⟨args', h1, ?_⟩
  rw [← argOffset_like (like_types h1)]
  exact h2

end

/-! ## The checks -/

section

variable {K L : Type} {args : List (Arg K)} {args' : List (Arg L)}

theorem Mv.Like.symm {a b : Mv} (h : a.Like b) : b.Like a := Eq.symm h

theorem check_like {m : Metric} {f : Lam} (h : List.Forall₂ Arg.TypeLike args args') (hk : f.check m args' = true) : f.check m args = true := by
  unfold Lam.check at hk ⊢
  rw [argOffset_like h]
  match he : f.build (argOffset args') with
  | .ub => rw [he] at hk; cases hk
  | .val e true => rw [he] at hk; cases hk
  | .val e false =>
    rw [he] at hk
    simp only [Bool.and_eq_true] at hk ⊢
    refine ⟨hk.1, ?_⟩
    match hc : compileExpr m false f.cap args' e with
    | .ub => rw [hc] at hk; cases hk.2
    | .val c true => rw [hc] at hk; cases hk.2
    | .val c false =>
      rw [hc] at hk
      obtain ⟨c', h1, h2, -⟩ := compile_like h (show _ = ok c from hc)
      rw [h1]
      show decide (c'.state.nextId ≤ _) = true
      rw [h2.nextId]
      exact hk.2

theorem all_null_like {dim : Nat} : ∀ {as bs : List Mv}, List.Forall₂ Mv.Like as bs → (bs.all fun a => (toNullBasis dim a).isOk) = true →
    (as.all fun a => (toNullBasis dim a).isOk) = true
  | _, _, .nil, _ => rfl
  | _, _, .cons h h', hb => by
    rw [List.all_cons, Bool.and_eq_true] at hb ⊢
    rw [toNullBasis_like dim h]
    exact ⟨hb.1, all_null_like h' hb.2⟩

theorem checkNull_like {m : Metric} {f : Lam} (h : List.Forall₂ Arg.TypeLike args args') (hk : f.checkNull m args' = true) :
    f.checkNull m args = true := by
  unfold Lam.checkNull at hk ⊢
  rw [argOffset_like h, argsSize_like h]
  match he : f.build (argOffset args') with
  | .ub => rw [he] at hk; cases hk
  | .val e true => rw [he] at hk; cases hk
  | .val e false =>
    rw [he] at hk
    simp only [Bool.and_eq_true] at hk ⊢
    refine ⟨hk.1, ?_⟩
    match hc : compileExpr m true f.cap args' e with
    | .ub => rw [hc] at hk; cases hk.2
    | .val c true => rw [hc] at hk; cases hk.2
    | .val c false =>
      rw [hc] at hk
      obtain ⟨c', h1, h2, -⟩ := compile_like h (show _ = ok c from hc)
      rw [h1]
      exact all_null_like h2.args hk.2

theorem checkTuple_like {m : Metric} {null : Bool} {fs : List Lam} (h : List.Forall₂ Arg.TypeLike args args') (hk : Lam.checkTuple m null args' fs = true) :
    Lam.checkTuple m null args fs = true := by
  unfold Lam.checkTuple at hk ⊢
  rw [argOffset_like h, argsSize_like h]
  match he : mapO (Lam.build (argOffset args')) fs with
  | .ub => rw [he] at hk; cases hk
  | .val e true => rw [he] at hk; cases hk
  | .val e false =>
    rw [he] at hk
    simp only [Bool.and_eq_true] at hk ⊢
    refine ⟨hk.1, ?_⟩
    match hc : compileExpr m null ((fs.map Lam.cap).sum + fs.length) args' (concatExpr e) with
    | .ub => rw [hc] at hk; cases hk.2
    | .val c true => rw [hc] at hk; cases hk.2
    | .val c false =>
      rw [hc] at hk
      obtain ⟨c', h1, h2, -⟩ := compile_like h (show _ = ok c from hc)
      rw [h1]
      have hk2 := hk.2
      dsimp only [ok] at hk2 ⊢
      rw [Bool.or_eq_true] at hk2 ⊢
      exact hk2.imp id (all_null_like h2.args)

/-- The expression of a number has no monomial without indeterminates. -/
theorem scalar_like {a : Mv} {id : Nat} (h : a.Like (scalarIe id)) : a = scalarIe id := by
  have h1 := h.mons
  have h2 := h.caps
  have h3 := h.szI
  have h4 := h.szM
  have h5 := h.szT
  have h6 := h.inds
  have h7 := h.terms
  have h8 := h.op
  obtain ⟨caps, szI, szM, szT, inds, mons, terms, op⟩ := a
  dsimp only at h1 h2 h3 h4 h5 h6 h7 h8
  subst h2 h3 h4 h5 h6 h7 h8
  have : mons = (scalarIe id).mons := by
    have e : (scalarIe id).mons.map Mon.norm = (scalarIe id).mons := rfl
    rw [e] at h1
    have hl := congrArg List.length h1
    match mons, hl, h1 with
    | [x], _, h1 =>
      rw [List.map_cons, List.map_nil] at h1
      have hx : x.norm = x := by
        unfold Mon.norm at h1 ⊢
        split
        · rename_i hc
          rw [if_pos hc] at h1
          have := congrArg (fun l : List Mon => (l.getD 0 default).count) h1
          change x.count = 1 at this
          omega
        · rfl
      rw [hx] at h1
      exact h1
  rw [this]

theorem scalarLeaf_like {ps qs : List (Mv × Nat)} (h : List.Forall₂ Arg.TypeLike args args') (ht : List.Forall₂ (fun p q => p.1.Like q.1 ∧ p.2 = q.2) ps qs)
    {n : Node} (hk : scalarLeaf args' qs n = true) : scalarLeaf args ps n = true := by
  unfold scalarLeaf at hk ⊢
  simp only [Bool.or_eq_true, Bool.and_eq_true] at hk ⊢
  refine hk.imp (Or.imp ?_ ?_) id
  · rintro ⟨h1, h2⟩
    refine ⟨h1, ?_⟩
    by_cases hi : n.ex < args'.length
    · have hi' : n.ex < args.length := by rw [h.length_eq]; exact hi
      rw [List.getElem?_eq_getElem hi] at h2
      rw [List.getElem?_eq_getElem hi']
      have hl := List.Forall₂.get h hi' hi
      simp only [List.get_eq_getElem] at hl
      simp only [Bool.and_eq_true, beq_iff_eq] at h2 ⊢
      rw [argOffset_like h]
      refine ⟨scalar_like ?_, by rw [hl.1]; exact h2.2⟩
      rw [← h2.1]
      exact hl.2 _
    · rw [List.getElem?_eq_none (by omega)] at h2
      cases h2
  · rintro ⟨h1, h2⟩
    refine ⟨h1, ?_⟩
    by_cases hi : n.ex < qs.length
    · have hi' : n.ex < ps.length := by rw [ht.length_eq]; exact hi
      rw [List.getElem?_eq_getElem hi] at h2
      rw [List.getElem?_eq_getElem hi']
      have hl := List.Forall₂.get ht hi' hi
      simp only [List.get_eq_getElem] at hl
      dsimp only at h2 ⊢
      rw [hl.1.szT, hl.1.terms]
      exact h2
    · rw [List.getElem?_eq_none (by omega)] at h2
      cases h2

theorem blockFine_like {ps qs : List (Mv × Nat)} (h : List.Forall₂ Arg.TypeLike args args') (ht : List.Forall₂ (fun p q => p.1.Like q.1 ∧ p.2 = q.2) ps qs)
    {ns : List Node} (hk : blockFine args' qs ns = true) : blockFine args ps ns = true := by
  unfold blockFine at hk ⊢
  rw [Bool.or_eq_true] at hk ⊢
  refine hk.imp id ?_
  cases ns.reverse with
  | nil => exact id
  | cons d l =>
    cases l with
    | nil => exact id
    | cons x l =>
      dsimp only
      intro hk
      rw [Bool.and_eq_true, Bool.and_eq_true] at hk ⊢
      exact ⟨⟨hk.1.1, scalarLeaf_like h ht hk.1.2⟩, hk.2⟩

theorem programFine_like {ps qs : List (Mv × Nat)} (h : List.Forall₂ Arg.TypeLike args args') (ht : List.Forall₂ (fun p q => p.1.Like q.1 ∧ p.2 = q.2) ps qs)
    {ns : List Node} (hk : programFine args' qs ns = true) : programFine args ps ns = true := by
  unfold programFine at hk ⊢
  rw [Bool.and_eq_true] at hk ⊢
  refine ⟨?_, hk.2⟩
  rw [List.all_eq_true] at hk ⊢
  intro b hb
  have := hk.1 b hb
  rw [Bool.and_eq_true] at this ⊢
  exact ⟨blockFine_like h ht this.1, this.2⟩

theorem checkQuot_like {m : Metric} {f : Lam} (h : List.Forall₂ Arg.TypeLike args args') (hk : f.checkQuot m args' = true) :
    f.checkQuot m args = true := by
  unfold Lam.checkQuot at hk ⊢
  rw [argOffset_like h]
  match he : f.build (argOffset args') with
  | .ub => rw [he] at hk; cases hk
  | .val e true => rw [he] at hk; cases hk
  | .val e false =>
    rw [he] at hk
    simp only [Bool.and_eq_true] at hk ⊢
    refine ⟨hk.1, ?_⟩
    match hc : compileExpr m false f.cap args' e, hs : reshape f.cap e with
    | .ub, _ => rw [hc] at hk; cases hk.2
    | .val c true, _ => rw [hc] at hk; cases hk.2
    | .val c false, .ub => rw [hc, hs] at hk; cases hk.2
    | .val c false, .val r true => rw [hc, hs] at hk; cases hk.2
    | .val c false, .val r false =>
      rw [hc, hs] at hk
      obtain ⟨c', h1, h2, -⟩ := compile_like h (show _ = ok c from hc)
      rw [h1]
      have hk2 := hk.2
      dsimp only [ok] at hk2 ⊢
      rw [Bool.and_eq_true] at hk2 ⊢
      rw [h2.nextId]
      exact ⟨hk2.1, programFine_like h h2.temps hk2.2⟩

theorem types_like (ht : args.map (fun a => (a.ie, a.data.length)) = args'.map fun a => (a.ie, a.data.length)) : List.Forall₂ Arg.TypeLike args args' := by
  induction args generalizing args' with
  | nil =>
    cases args' with
    | nil => exact .nil
    | cons _ _ => cases ht
  | cons a l ih =>
    cases args' with
    | nil => cases ht
    | cons b l' =>
      rw [List.map_cons, List.map_cons, List.cons.injEq, Prod.mk.injEq] at ht
      exact .cons ⟨ht.1.2, fun id => by rw [ht.1.1]; rfl⟩ (ih ht.2)

theorem typeLike_symm (h : List.Forall₂ Arg.TypeLike args args') : List.Forall₂ Arg.TypeLike args' args :=
  (h.imp fun _ _ h => ⟨h.1.symm, fun id => (h.2 id).symm⟩ : List.Forall₂ (fun a b => Arg.TypeLike b a) args args').flip

theorem typeLike_trans {M : Type} : ∀ {args : List (Arg K)} {args' : List (Arg L)} {as : List (Arg M)}, List.Forall₂ Arg.TypeLike args args' →
    List.Forall₂ Arg.TypeLike args' as → List.Forall₂ Arg.TypeLike args as
  | _, _, _, .nil, .nil => .nil
  | _, _, _, .cons h1 h2, .cons h3 h4 => .cons ⟨h1.1.trans h3.1, fun id => Eq.trans (h1.2 id) (h3.2 id)⟩ (typeLike_trans h2 h4)

end

/-! ## Lambdas -/

section

variable {K : Type} [Field K]

theorem compute_like_lam {m : Metric} {null : Bool} {E : Env K} {args args' : List (Arg K)} {f : Lam} {r : List (Entity K)}
    (h : List.Forall₂ Arg.Like args args') (hr : f.compute m null E args' = ok r) : f.compute m null E args = ok r := by
  unfold Lam.compute at hr ⊢
  rw [argOffset_like (like_types h)]
  rw [bind_eq_ok] at hr ⊢
  obtain ⟨e, he, hr⟩ := hr
  exact ⟨e, he, compute_like h hr⟩

theorem compute_like_tuple {m : Metric} {null : Bool} {E : Env K} {args args' : List (Arg K)} {fs : List Lam} {r : List (Entity K)}
    (h : List.Forall₂ Arg.Like args args') (hr : Lam.computeTuple m null E args' fs = ok r) : Lam.computeTuple m null E args fs = ok r := by
  unfold Lam.computeTuple at hr ⊢
  rw [argOffset_like (like_types h)]
  rw [bind_eq_ok] at hr ⊢
  obtain ⟨e, he, hr⟩ := hr
  exact ⟨e, he, compute_like h hr⟩

/-- **C61, products and sums**: `compute` returns the value of the lambda for all arguments that stand for elements. -/
theorem C61_compute_partial {L : Type} [CharZero K] (m : Metric) (hm : m.dim ≤ 8) (E : Env K) (args : List (Arg K))
    {w : Nat → CliffordAlgebra (diagForm K m.dim m.sq)}
    (hw : ∀ (k : Nat) (a : Arg K), args[k]? = some a → a.StandsFor m.dim m.sq (argOffset args k) (w k))
    {D : CliffordAlgebra (diagForm K m.dim m.sq) →ₗ[K] CliffordAlgebra (diagForm K m.dim m.sq)} (hD : IsDual K m.dim m.sq D)
    (f : Lam) (ho : f.Ordered (cliffInterp K m.dim m.sq (fun k => E.consts.getD k 0) D w) (argOffset args)) (hr : f.InRange m.dim args.length E.consts.length)
    {args' : List (Arg L)} (ht : args.map (fun a => (a.ie, a.data.length)) = args'.map fun a => (a.ie, a.data.length))
    (hcap : f.cap < 2 ^ 64) (hk : f.check m args' = true) :
    ∃ x, f.compute m false E args = ok [x] ∧
      x.Denotes m.dim m.sq (f.val (cliffInterp K m.dim m.sq (fun k => E.consts.getD k 0) D w) (argOffset args)) := by
  obtain ⟨as, h1, h2⟩ := replace_stands hw
  have hl := like_types h1
  rw [argOffset_like hl] at ho ⊢
  rw [h1.length_eq] at hr
  obtain ⟨x, hx, hv⟩ := C53_compute_partial m hm E as h2 hD f ho hr (args' := as) rfl hcap
    (check_like (typeLike_trans (typeLike_symm hl) (types_like ht)) hk)
  exact ⟨x, compute_like_lam h1 hx, hv⟩

/-- **C61, quotients and functions.** -/
theorem C61_quot_partial {L : Type} [CharZero K] (m : Metric) (hm : m.dim ≤ 8) (E : Env K) (args : List (Arg K))
    {w : Nat → CliffordAlgebra (diagForm K m.dim m.sq)}
    (hw : ∀ (k : Nat) (a : Arg K), args[k]? = some a → a.StandsFor m.dim m.sq (argOffset args k) (w k))
    {D : CliffordAlgebra (diagForm K m.dim m.sq) →ₗ[K] CliffordAlgebra (diagForm K m.dim m.sq)} (hD : IsDual K m.dim m.sq D)
    (f : Lam) (ho : f.Ordered (fullInterp K m.dim m.sq (fun k => E.consts.getD k 0) D w E.named) (argOffset args))
    (hr : f.Parts (· < 2 ^ m.dim) (GradeSafe m.dim) True args.length E.consts.length)
    (h0 : f.Divides (fun v => scalarPart K m.dim m.sq v ≠ 0) (fullInterp K m.dim m.sq (fun k => E.consts.getD k 0) D w E.named) (argOffset args))
    {args' : List (Arg L)} (ht : args.map (fun a => (a.ie, a.data.length)) = args'.map fun a => (a.ie, a.data.length))
    (hcap : f.cap < 2 ^ 64) (hk : f.checkQuot m args' = true) :
    ∃ x, f.compute m false E args = ok [x] ∧
      x.Denotes m.dim m.sq (f.val (fullInterp K m.dim m.sq (fun k => E.consts.getD k 0) D w E.named) (argOffset args)) := by
  obtain ⟨as, h1, h2⟩ := replace_stands hw
  have hl := like_types h1
  rw [argOffset_like hl] at ho h0 ⊢
  rw [h1.length_eq] at hr
  obtain ⟨x, hx, hv⟩ := C53_quot_partial m hm E as h2 hD f ho hr h0 (args' := as) rfl hcap
    (checkQuot_like (typeLike_trans (typeLike_symm hl) (types_like ht)) hk)
  exact ⟨x, compute_like_lam h1 hx, hv⟩

/-- **C61, tuples.** -/
theorem C61_tuple_partial {L : Type} [CharZero K] (m : Metric) (hm : m.dim ≤ 8) (E : Env K) (args : List (Arg K))
    {w : Nat → CliffordAlgebra (diagForm K m.dim m.sq)}
    (hw : ∀ (k : Nat) (a : Arg K), args[k]? = some a → a.StandsFor m.dim m.sq (argOffset args k) (w k))
    {D : CliffordAlgebra (diagForm K m.dim m.sq) →ₗ[K] CliffordAlgebra (diagForm K m.dim m.sq)} (hD : IsDual K m.dim m.sq D)
    (fs : List Lam) (hne : fs ≠ [])
    (ho : ∀ f ∈ fs, f.Ordered (cliffInterp K m.dim m.sq (fun k => E.consts.getD k 0) D w) (argOffset args))
    (hr : ∀ f ∈ fs, f.InRange m.dim args.length E.consts.length)
    {args' : List (Arg L)} (ht : args.map (fun a => (a.ie, a.data.length)) = args'.map fun a => (a.ie, a.data.length))
    (hk : Lam.checkTuple m false args' fs = true) :
    ∃ xs, Lam.computeTuple m false E args fs = ok xs ∧ List.Forall₂ (fun x v => x.Denotes m.dim m.sq v) xs
      (fs.map fun f => f.val (cliffInterp K m.dim m.sq (fun k => E.consts.getD k 0) D w) (argOffset args)) := by
  obtain ⟨as, h1, h2⟩ := replace_stands hw
  have hl := like_types h1
  rw [argOffset_like hl] at ho ⊢
  rw [h1.length_eq] at hr
  obtain ⟨x, hx, hv⟩ := C53_tuple_partial m hm E as h2 hD fs hne ho hr (args' := as) rfl
    (checkTuple_like (typeLike_trans (typeLike_symm hl) (types_like ht)) hk)
  exact ⟨x, compute_like_tuple h1 hx, hv⟩

/-- **C61, null bases.** -/
theorem C61_null_partial {L : Type} [CharZero K] {m : Metric} (h2 : 2 ≤ m.dim) (hm : m.dim ≤ 8) (E : Env K) (args : List (Arg K))
    {w : Nat → CliffordAlgebra (diagForm K m.dim m.sq)}
    (hw : ∀ (k : Nat) (a : Arg K), args[k]? = some a → a.StandsForNull m.dim m.sq (argOffset args k) (w k))
    {D : CliffordAlgebra (diagForm K m.dim m.sq) →ₗ[K] CliffordAlgebra (diagForm K m.dim m.sq)} (hD : IsDual K m.dim m.sq D)
    {C : Nat → CliffordAlgebra (diagForm K m.dim m.sq) →ₗ[K] CliffordAlgebra (diagForm K m.dim m.sq)} (hC : IsNullCoeff K m.dim m.sq C)
    (f : Lam) (ho : f.Ordered (nullInterp K m.dim m.sq (fun k => E.consts.getD k 0) D C w) (argOffset args))
    (hr : f.Parts (NullElement m.dim) (GradeSafe m.dim) False args.length E.consts.length)
    {args' : List (Arg L)} (ht : args.map (fun a => (a.ie, a.data.length)) = args'.map fun a => (a.ie, a.data.length))
    (hk : f.checkNull m args' = true) :
    ∃ x, f.compute m true E args = ok [x] ∧
      x.DenotesNull m.dim m.sq (f.val (nullInterp K m.dim m.sq (fun k => E.consts.getD k 0) D C w) (argOffset args)) := by
  obtain ⟨as, h1, h3⟩ := replace_standsNull hw
  have hl := like_types h1
  rw [argOffset_like hl] at ho ⊢
  rw [h1.length_eq] at hr
  obtain ⟨x, hx, hv⟩ := C53_null_partial h2 hm E as h3 hD hC f ho hr (args' := as) rfl
    (checkNull_like (typeLike_trans (typeLike_symm hl) (types_like ht)) hk)
  exact ⟨x, compute_like_lam h1 hx, hv⟩

/-- **C61, tuples in null bases.** -/
theorem C61_null_tuple_partial {L : Type} [CharZero K] {m : Metric} (h2 : 2 ≤ m.dim) (hm : m.dim ≤ 8) (E : Env K) (args : List (Arg K))
    {w : Nat → CliffordAlgebra (diagForm K m.dim m.sq)}
    (hw : ∀ (k : Nat) (a : Arg K), args[k]? = some a → a.StandsForNull m.dim m.sq (argOffset args k) (w k))
    {D : CliffordAlgebra (diagForm K m.dim m.sq) →ₗ[K] CliffordAlgebra (diagForm K m.dim m.sq)} (hD : IsDual K m.dim m.sq D)
    {C : Nat → CliffordAlgebra (diagForm K m.dim m.sq) →ₗ[K] CliffordAlgebra (diagForm K m.dim m.sq)} (hC : IsNullCoeff K m.dim m.sq C)
    (fs : List Lam) (hne : fs ≠ [])
    (ho : ∀ f ∈ fs, f.Ordered (nullInterp K m.dim m.sq (fun k => E.consts.getD k 0) D C w) (argOffset args))
    (hr : ∀ f ∈ fs, f.Parts (NullElement m.dim) (GradeSafe m.dim) False args.length E.consts.length)
    {args' : List (Arg L)} (ht : args.map (fun a => (a.ie, a.data.length)) = args'.map fun a => (a.ie, a.data.length))
    (hk : Lam.checkTuple m true args' fs = true) :
    ∃ xs, Lam.computeTuple m true E args fs = ok xs ∧ List.Forall₂ (fun x v => x.DenotesNull m.dim m.sq v) xs
      (fs.map fun f => f.val (nullInterp K m.dim m.sq (fun k => E.consts.getD k 0) D C w) (argOffset args)) := by
  obtain ⟨as, h1, h3⟩ := replace_standsNull hw
  have hl := like_types h1
  rw [argOffset_like hl] at ho ⊢
  rw [h1.length_eq] at hr
  obtain ⟨x, hx, hv⟩ := C53_null_tuple_partial h2 hm E as h3 hD hC fs hne ho hr (args' := as) rfl
    (checkTuple_like (typeLike_trans (typeLike_symm hl) (types_like ht)) hk)
  exact ⟨x, compute_like_tuple h1 hx, hv⟩

end

/-! ## The named entities -/

section

variable {K : Type} [Field K]

/-- **C61**: a vector stands for `x e0 + y e1 + z e2`. -/
theorem C61_vga_vector [CharZero K] (d : Nat → Int) (x y z : K) {off : Nat} (h : off + 3 ≤ 2 ^ 32) : (⟨vgaVectorIe, [x, y, z]⟩ : Arg K).StandsFor 3 d off
    (x • cliffBlade K 3 d 1 + y • cliffBlade K 3 d 2 + z • cliffBlade K 3 d 4) := by
  refine ⟨_, genericN off [1, 2, 4], rfl, ⟨⟨constructIe_packed off [1, 2, 4] h, genericN_canon _ (by decide) _, ?_, genericN_posInd [1, 2, 4] off⟩, fun _ => rfl⟩, ?_⟩
  · simp [ElemsLt, genericN]
  · intro ρ hρ
    have h0 : ρ off = x := hρ 0 (by simp)
    have h1 : ρ (off + 1) = y := hρ 1 (by simp)
    have h2 : ρ (off + 2) = z := hρ 2 (by simp)
    rw [← h0, ← h1, ← h2]
    mv_value genericN
    abel

/-- **C61**: a rotor stands for `c - s (x e12 - y e02 + z e01)`. -/
theorem C61_vga_rotor [CharZero K] (d : Nat → Int) (c s x y z : K) {off : Nat} (h : off + 5 ≤ 2 ^ 32) :
    (⟨vgaRotorIe, [c, s, x, y, z]⟩ : Arg K).StandsFor 3 d off
      (c • cliffBlade K 3 d 0 - s • (x • cliffBlade K 3 d 6 - y • cliffBlade K 3 d 5 + z • cliffBlade K 3 d 3)) := by
  refine ⟨_, vgaRotorN off, rfl, ⟨⟨vgaRotor_packed h, vgaRotor_canon off, ?_, ?_⟩, fun _ => rfl⟩, ?_⟩
  · simp [ElemsLt, vgaRotorN]
  · simp [IndsAll, MonsAll, vgaRotorN, PosInd, Rat32.one]
  · intro ρ hρ
    have h0 : ρ off = c := hρ 0 (by simp)
    have h1 : ρ (off + 1) = s := hρ 1 (by simp)
    have h2 : ρ (off + 2) = x := hρ 2 (by simp)
    have h3 : ρ (off + 3) = y := hρ 3 (by simp)
    have h4 : ρ (off + 4) = z := hρ 4 (by simp)
    rw [← h0, ← h1, ← h2, ← h3, ← h4]
    mv_value vgaRotorN
    module

/-- **C61**: a point stands for `e123 - x e023 + y e013 - z e012`. -/
theorem C61_vga_point [CharZero K] (d : Nat → Int) (x y z : K) {off : Nat} (h : off + 3 ≤ 2 ^ 32) : (⟨vgaPointIe, [x, y, z]⟩ : Arg K).StandsFor 4 d off
    (cliffBlade K 4 d 14 - x • cliffBlade K 4 d 13 + y • cliffBlade K 4 d 11 - z • cliffBlade K 4 d 7) := by
  refine ⟨layout ⟨3, 4, 4⟩ (vgaPointN off), vgaPointN off, ?_, ⟨⟨⟨rfl, ?_⟩, vgaPoint_canon off, ?_, ?_⟩, fun _ => rfl⟩, ?_⟩
  · show Mv.Like (vgaPointIe off) _
    unfold vgaPointIe
    rw [u32_eq (by omega), u32_eq (by omega), u32_eq (by omega)]
    rfl
  · exact ⟨show 3 ≤ 3 by omega, show 4 ≤ 4 by omega, show 4 ≤ 4 by omega⟩
  · simp [ElemsLt, vgaPointN]
  · simp [IndsAll, MonsAll, vgaPointN, PosInd, Rat32.one]
  · intro ρ hρ
    have h0 : ρ off = x := hρ 0 (by simp)
    have h1 : ρ (off + 1) = y := hρ 1 (by simp)
    have h2 : ρ (off + 2) = z := hρ 2 (by simp)
    rw [← h0, ← h1, ← h2]
    mv_value vgaPointN
    module

/-- **C61**: a plane stands for `d e0 + x e1 + y e2 + z e3`. -/
theorem C61_pga_plane [CharZero K] (sq : Nat → Int) (d x y z : K) {off : Nat} (h : off + 4 ≤ 2 ^ 32) : (⟨pgaPlaneIe, [d, x, y, z]⟩ : Arg K).StandsFor 4 sq off
    (d • cliffBlade K 4 sq 1 + x • cliffBlade K 4 sq 2 + y • cliffBlade K 4 sq 4 + z • cliffBlade K 4 sq 8) := by
  refine ⟨_, genericN off [1, 2, 4, 8], rfl, ⟨⟨constructIe_packed off [1, 2, 4, 8] h, genericN_canon _ (by decide) _, ?_, genericN_posInd [1, 2, 4, 8] off⟩,
    fun _ => rfl⟩, ?_⟩
  · simp [ElemsLt, genericN]
  · intro ρ hρ
    have h0 : ρ off = d := hρ 0 (by simp)
    have h1 : ρ (off + 1) = x := hρ 1 (by simp)
    have h2 : ρ (off + 2) = y := hρ 2 (by simp)
    have h3 : ρ (off + 3) = z := hρ 3 (by simp)
    rw [← h0, ← h1, ← h2, ← h3]
    mv_value genericN
    abel

/-- **C61**: a motor stands for the even element with its coefficients. -/
theorem C61_pga_motor [CharZero K] (sq : Nat → Int) (a b c d e f g i : K) {off : Nat} (h : off + 8 ≤ 2 ^ 32) :
    (motorArg [a, b, c, d, e, f, g, i]).StandsFor 4 sq off
      (a • cliffBlade K 4 sq 0 + b • cliffBlade K 4 sq 3 + c • cliffBlade K 4 sq 5 + d • cliffBlade K 4 sq 6 + e • cliffBlade K 4 sq 9 +
        f • cliffBlade K 4 sq 10 + g • cliffBlade K 4 sq 12 + i • cliffBlade K 4 sq 15) := by
  refine ⟨_, genericN off motorElements, rfl, ⟨⟨constructIe_packed off motorElements h, genericN_canon _ (by decide) _, ?_,
    genericN_posInd motorElements off⟩, fun _ => rfl⟩, ?_⟩
  · simp [ElemsLt, genericN, motorElements]
  · intro ρ hρ
    have h0 : ρ off = a := hρ 0 (show 0 < 8 by decide)
    have h1 : ρ (off + 1) = b := hρ 1 (show 1 < 8 by decide)
    have h2 : ρ (off + 2) = c := hρ 2 (show 2 < 8 by decide)
    have h3 : ρ (off + 3) = d := hρ 3 (show 3 < 8 by decide)
    have h4 : ρ (off + 4) = e := hρ 4 (show 4 < 8 by decide)
    have h5 : ρ (off + 5) = f := hρ 5 (show 5 < 8 by decide)
    have h6 : ρ (off + 6) = g := hρ 6 (show 6 < 8 by decide)
    have h7 : ρ (off + 7) = i := hρ 7 (show 7 < 8 by decide)
    rw [← h0, ← h1, ← h2, ← h3, ← h4, ← h5, ← h6, ← h7]
    mv_value genericN, motorElements
    abel

/-- **C61**: a line with direction `(dx, dy, dz)` and moment `(mx, my, mz)` stands for
`-mx e01 + my e02 - mz e03 - dz e12 + dy e13 - dx e23`. -/
theorem C61_pga_line [CharZero K] (sq : Nat → Int) (dx dy dz mx my mz : K) {off : Nat} (h : off + 6 ≤ 2 ^ 32) :
    (lineArg [dx, dy, dz, mx, my, mz]).StandsFor 4 sq off
      (- mx • cliffBlade K 4 sq 3 + my • cliffBlade K 4 sq 5 - mz • cliffBlade K 4 sq 9 - dz • cliffBlade K 4 sq 6 + dy • cliffBlade K 4 sq 10 -
        dx • cliffBlade K 4 sq 12) := by
  refine ⟨_, pgaLineN off, rfl, ⟨⟨pgaLine_packed h, pgaLine_canon off, ?_, ?_⟩, fun _ => rfl⟩, ?_⟩
  · simp [ElemsLt, pgaLineN]
  · simp [IndsAll, MonsAll, pgaLineN, PosInd, Rat32.one, lineArg]
  · intro ρ hρ
    have h0 : ρ off = dx := hρ 0 (show 0 < 6 by decide)
    have h1 : ρ (off + 1) = dy := hρ 1 (show 1 < 6 by decide)
    have h2 : ρ (off + 2) = dz := hρ 2 (show 2 < 6 by decide)
    have h3 : ρ (off + 3) = mx := hρ 3 (show 3 < 6 by decide)
    have h4 : ρ (off + 4) = my := hρ 4 (show 4 < 6 by decide)
    have h5 : ρ (off + 5) = mz := hρ 5 (show 5 < 6 by decide)
    rw [← h0, ← h1, ← h2, ← h3, ← h4, ← h5]
    mv_value pgaLineN
    module

/-- **C61**: a conformal point stands for `x e0 + y e1 + z e2 + o + (x^2 + y^2 + z^2) / 2 oo`. -/
theorem C61_cga_point [CharZero K] (d : Nat → Int) (x y z : K) {off : Nat} (h : off + 3 ≤ 2 ^ 32) : (⟨cgaPointIe, [x, y, z]⟩ : Arg K).StandsForNull 5 d off
    (x • nullElem K 5 d 1 + y • nullElem K 5 d 2 + z • nullElem K 5 d 4 + nullElem K 5 d 8 + ((1 / 2 : K) * (x ^ 2 + y ^ 2 + z ^ 2)) • nullElem K 5 d 16) := by
  refine ⟨layout ⟨6, 7, 5⟩ (cgaPointN off), cgaPointN off, ?_, ⟨⟨rfl, ?_⟩, cgaPoint_canon off, ?_, ?_⟩, ?_⟩
  · show Mv.Like (cgaPointIe off) _
    unfold cgaPointIe
    rw [u32_eq (by omega), u32_eq (by omega), u32_eq (by omega)]
    rfl
  · exact ⟨show 6 ≤ 6 by omega, show 7 ≤ 7 by omega, show 5 ≤ 5 by omega⟩
  · simp [ElemsLt, cgaPointN]
  · simp [IndsAll, MonsAll, cgaPointN, PosInd, Rat32.one, Rat32.two]
  · intro ρ hρ
    have h0 : ρ off = x := hρ 0 (by simp)
    have h1 : ρ (off + 1) = y := hρ 1 (by simp)
    have h2 : ρ (off + 2) = z := hρ 2 (by simp)
    rw [← h0, ← h1, ← h2]
    mv_value cgaPointN
    module

/-! ## Two lambdas -/

/-- What a plane stands for. -/
noncomputable def planeElement (K : Type) [Field K] (d x y z : K) : CliffordAlgebra (diagForm K 4 (Metric.sq pgaMetric)) :=
  d • cliffBlade K 4 (Metric.sq pgaMetric) 1 + x • cliffBlade K 4 (Metric.sq pgaMetric) 2 + y • cliffBlade K 4 (Metric.sq pgaMetric) 4 +
    z • cliffBlade K 4 (Metric.sq pgaMetric) 8

/-- What a point stands for. -/
noncomputable def pointElement (K : Type) [Field K] (x y z : K) : CliffordAlgebra (diagForm K 4 (Metric.sq pgaMetric)) :=
  cliffBlade K 4 (Metric.sq pgaMetric) 14 - x • cliffBlade K 4 (Metric.sq pgaMetric) 13 + y • cliffBlade K 4 (Metric.sq pgaMetric) 11 -
    z • cliffBlade K 4 (Metric.sq pgaMetric) 7

/-- **C61, a plane times a point**: the result is the product in the Clifford algebra. -/
theorem C61_plane_point [CharZero K] (E : Env K) (d a b c x y z : K) :
    ∃ r, (Lam.gp (.arg 0) (.arg 1)).compute pgaMetric false E [⟨pgaPlaneIe, [d, a, b, c]⟩, ⟨vgaPointIe, [x, y, z]⟩] = ok [r] ∧
      r.Denotes 4 (Metric.sq pgaMetric) (planeElement K d a b c * pointElement K x y z) := by
  obtain ⟨D, hD⟩ := exists_isDual K 4 (by decide) (Metric.sq pgaMetric)
  exact C61_compute_partial pgaMetric (by decide) E _ (w := fun k => if k = 0 then planeElement K d a b c else pointElement K x y z)
    (fun k v hv => by
      match k with
      | 0 =>
        simp only [List.getElem?_cons_zero, Option.some.injEq] at hv
        subst hv
        exact C61_pga_plane _ d a b c (show 0 + 4 ≤ 2 ^ 32 by decide)
      | 1 =>
        simp only [List.getElem?_cons_succ, List.getElem?_cons_zero, Option.some.injEq] at hv
        subst hv
        exact C61_vga_point _ x y z (show 4 + 3 ≤ 2 ^ 32 by decide)
      | k + 2 => simp at hv) hD (.gp (.arg 0) (.arg 1)) ⟨trivial, trivial⟩ (by simp [Lam.InRange])
    (args' := [⟨pgaPlaneIe, [1, 2, 3, 5]⟩, ⟨vgaPointIe, [(7 : ℚ), 11, 13]⟩]) rfl (by decide) (by decide +kernel)

/-- What a conformal point stands for. -/
noncomputable def conformalElement (K : Type) [Field K] (n : Nat) (d : Nat → Int) (x y z : K) : CliffordAlgebra (diagForm K n d) :=
  x • nullElem K n d 1 + y • nullElem K n d 2 + z • nullElem K n d 4 + nullElem K n d 8 + ((1 / 2 : K) * (x ^ 2 + y ^ 2 + z ^ 2)) • nullElem K n d 16

/-- **C61, two conformal points**: the result of `>>` is the contraction in the Clifford algebra. -/
theorem C61_conformal_points [CharZero K] {m : Metric} (hm : m = cgaMetric) (E : Env K) (a b c x y z : K) :
    ∃ r, (Lam.lc (.arg 0) (.arg 1)).compute m true E [⟨cgaPointIe, [a, b, c]⟩, ⟨cgaPointIe, [x, y, z]⟩] = ok [r] ∧
      r.DenotesNull m.dim m.sq (leftContraction K m.dim m.sq (conformalElement K m.dim m.sq a b c) (conformalElement K m.dim m.sq x y z)) := by
  have hd : m.dim = 5 := by rw [hm]; rfl
  have hp : ∀ (x y z : K) (off : Nat), off + 3 ≤ 2 ^ 32 → (⟨cgaPointIe, [x, y, z]⟩ : Arg K).StandsForNull m.dim m.sq off (conformalElement K m.dim m.sq x y z) := by
    rw [hd]
    exact fun x y z off h => C61_cga_point _ x y z h
  have h2 : 2 ≤ m.dim := by omega
  have h8 : m.dim ≤ 8 := by omega
  obtain ⟨D, hD⟩ := exists_isDual K m.dim h8 m.sq
  obtain ⟨C, hC⟩ := exists_isNullCoeff K m.dim h2 h8 m.sq
  have hk : (Lam.lc (.arg 0) (.arg 1)).checkNull (K := ℚ) m [⟨cgaPointIe, [1, 2, 3]⟩, ⟨cgaPointIe, [7, 11, 13]⟩] = true := by
    rw [hm]
    decide +kernel
  have hw : ∀ (k : Nat) (v : Arg K), [(⟨cgaPointIe, [a, b, c]⟩ : Arg K), ⟨cgaPointIe, [x, y, z]⟩][k]? = some v →
      v.StandsForNull m.dim m.sq (argOffset [(⟨cgaPointIe, [a, b, c]⟩ : Arg K), ⟨cgaPointIe, [x, y, z]⟩] k)
        (if k = 0 then conformalElement K m.dim m.sq a b c else conformalElement K m.dim m.sq x y z) := by
    intro k v hv
    match k with
    | 0 =>
      simp only [List.getElem?_cons_zero, Option.some.injEq] at hv
      subst hv
      exact hp a b c _ (show 0 + 3 ≤ 2 ^ 32 by decide)
    | 1 =>
      simp only [List.getElem?_cons_succ, List.getElem?_cons_zero, Option.some.injEq] at hv
      subst hv
      exact hp x y z _ (show 3 + 3 ≤ 2 ^ 32 by decide)
    | k + 2 => simp at hv
  exact C61_null_partial h2 h8 E _ hw hD hC (.lc (.arg 0) (.arg 1)) ⟨trivial, trivial⟩ (by simp [Lam.Parts])
    (args' := [⟨cgaPointIe, [1, 2, 3]⟩, ⟨cgaPointIe, [(7 : ℚ), 11, 13]⟩]) rfl hk

/-- The arguments of C61 in the next three examples. -/
theorem plane_point_stand [CharZero K] (d a b c x y z : K) : ∀ (k : Nat) (v : Arg K),
    [(⟨pgaPlaneIe, [d, a, b, c]⟩ : Arg K), ⟨vgaPointIe, [x, y, z]⟩][k]? = some v →
      v.StandsFor 4 (Metric.sq pgaMetric) (argOffset [(⟨pgaPlaneIe, [d, a, b, c]⟩ : Arg K), ⟨vgaPointIe, [x, y, z]⟩] k)
        (if k = 0 then planeElement K d a b c else pointElement K x y z) := by
  intro k v hv
  match k with
  | 0 =>
    simp only [List.getElem?_cons_zero, Option.some.injEq] at hv
    subst hv
    exact C61_pga_plane _ d a b c (show 0 + 4 ≤ 2 ^ 32 by decide)
  | 1 =>
    simp only [List.getElem?_cons_succ, List.getElem?_cons_zero, Option.some.injEq] at hv
    subst hv
    exact C61_vga_point _ x y z (show 4 + 3 ≤ 2 ^ 32 by decide)
  | k + 2 => simp at hv

/-- A tuple: the product and the reverse of the point. -/
example (E : Env ℚ) (d a b c x y z : ℚ) : ∃ r s,
    Lam.computeTuple pgaMetric false E [⟨pgaPlaneIe, [d, a, b, c]⟩, ⟨vgaPointIe, [x, y, z]⟩] [.gp (.arg 0) (.arg 1), .rev (.arg 1)] = ok [r, s] ∧
      r.Denotes 4 (Metric.sq pgaMetric) (planeElement ℚ d a b c * pointElement ℚ x y z) ∧
      s.Denotes 4 (Metric.sq pgaMetric) (CliffordAlgebra.reverse (pointElement ℚ x y z)) := by
  obtain ⟨D, hD⟩ := exists_isDual ℚ 4 (by decide) (Metric.sq pgaMetric)
  obtain ⟨xs, h1, h2⟩ := C61_tuple_partial pgaMetric (by decide) E _ (plane_point_stand d a b c x y z) hD [.gp (.arg 0) (.arg 1), .rev (.arg 1)] (by simp)
    (by simp [Lam.Ordered]) (by simp [Lam.InRange])
    (args' := [⟨pgaPlaneIe, [1, 2, 3, 5]⟩, ⟨vgaPointIe, [(7 : ℚ), 11, 13]⟩]) rfl (by decide +kernel)
  match xs, h2 with
  | [r, s], .cons k1 (.cons k2 .nil) => exact ⟨r, s, h1, k1, k2⟩

/-- A quotient: the point divided by the scalar product of the plane with itself. -/
example {m : Metric} (hm : m = pgaMetric) (E : Env ℚ) (d a b c x y z : ℚ) : ∃ w : Nat → CliffordAlgebra (diagForm ℚ m.dim m.sq),
    (∀ (k : Nat) (v : Arg ℚ), [(⟨pgaPlaneIe, [d, a, b, c]⟩ : Arg ℚ), ⟨vgaPointIe, [x, y, z]⟩][k]? = some v →
      v.StandsFor m.dim m.sq (argOffset [(⟨pgaPlaneIe, [d, a, b, c]⟩ : Arg ℚ), ⟨vgaPointIe, [x, y, z]⟩] k) (w k)) ∧
    (scalarPart ℚ m.dim m.sq (leftContraction ℚ m.dim m.sq (w 0) (w 0)) ≠ 0 →
      ∃ r, (Lam.div (.arg 1) (.lc (.arg 0) (.arg 0))).compute m false E [⟨pgaPlaneIe, [d, a, b, c]⟩, ⟨vgaPointIe, [x, y, z]⟩] = ok [r] ∧
        r.Denotes m.dim m.sq ((scalarPart ℚ m.dim m.sq (leftContraction ℚ m.dim m.sq (w 0) (w 0)))⁻¹ • w 1)) := by
  obtain ⟨w, hw⟩ : ∃ w : Nat → CliffordAlgebra (diagForm ℚ m.dim m.sq),
      ∀ (k : Nat) (v : Arg ℚ), [(⟨pgaPlaneIe, [d, a, b, c]⟩ : Arg ℚ), ⟨vgaPointIe, [x, y, z]⟩][k]? = some v →
        v.StandsFor m.dim m.sq (argOffset [(⟨pgaPlaneIe, [d, a, b, c]⟩ : Arg ℚ), ⟨vgaPointIe, [x, y, z]⟩] k) (w k) := by
    subst hm
    exact ⟨_, plane_point_stand d a b c x y z⟩
  have h8 : m.dim ≤ 8 := by rw [hm]; decide
  obtain ⟨D, hD⟩ := exists_isDual ℚ m.dim h8 m.sq
  have hk : (Lam.div (.arg 1) (.lc (.arg 0) (.arg 0))).checkQuot (K := ℚ) m [⟨pgaPlaneIe, [1, 2, 3, 5]⟩, ⟨vgaPointIe, [7, 11, 13]⟩] = true := by
    rw [hm]
    decide +kernel
  exact ⟨w, hw, fun h0 => C61_quot_partial m h8 E _ hw hD (.div (.arg 1) (.lc (.arg 0) (.arg 0))) ⟨trivial, trivial, trivial⟩
    (by simp [Lam.Parts]) ⟨trivial, ⟨trivial, trivial⟩, h0⟩
    (args' := [⟨pgaPlaneIe, [1, 2, 3, 5]⟩, ⟨vgaPointIe, [(7 : ℚ), 11, 13]⟩]) rfl (by decide) hk⟩

end

end Gal
