import Verif.Spec.QuotTree
import Verif.Props.QuotCompute
import Verif.Props.Sparse

/-!
# Property C48, in terms of the expression
-/

namespace Gal

open Out

variable {K : Type} [Field K]

/-! ## Scalars -/

section

variable [CharZero K] {m : Metric}

theorem gradeOf_zero' (n : Nat) : gradeOf n 0 = 0 := by
  induction n with
  | zero => simp [gradeOf]
  | succ n ih => simp [gradeOf]

omit [CharZero K] in
theorem lc_scalar (n : Nat) (d : Nat → Int) (s t : K) : ∃ u : K, leftContraction K n d (s • 1) (t • 1) = u • 1 := by
  refine ⟨t * s, ?_⟩
  rw [map_smul, map_smul, LinearMap.smul_apply, ← cliffBlade_zero, leftContraction_blade K n d 0 0 (Nat.two_pow_pos n) (Nat.two_pow_pos n),
    if_pos (le_refl _), cliffBlade_zero, mul_one, Nat.sub_self, ← cliffBlade_zero K n d, gradePart_blade K n d 0 0 (Nat.two_pow_pos n),
    if_pos (gradeOf_zero' n), smul_smul, mul_comm]

omit [CharZero K] in
theorem sip_scalar (n : Nat) (d : Nat → Int) (s t : K) : ∃ u : K, innerProd K n d (s • 1) (t • 1) = u • 1 := by
  refine ⟨0, ?_⟩
  rw [map_smul, map_smul, LinearMap.smul_apply, ← cliffBlade_zero, innerProd_blade K n d 0 0 (Nat.two_pow_pos n) (Nat.two_pow_pos n),
    if_neg (by rw [gradeOf_zero']; omega), smul_zero, smul_zero, zero_smul]

omit [CharZero K] in
theorem ep_scalar (n : Nat) (d : Nat → Int) (s t : K) : ∃ u : K, outerProd K n d (s • 1) (t • 1) = u • 1 := by
  refine ⟨t * (s * (sgn (fun _ => 0) n 0 0 : K)), ?_⟩
  rw [map_smul, map_smul, LinearMap.smul_apply, ← cliffBlade_zero, outerProd_blade K n d 0 0 (Nat.two_pow_pos n) (Nat.two_pow_pos n),
    Nat.xor_zero, smul_smul, smul_smul, mul_assoc]

/-- The exterior product of scalars. -/
theorem wedge_scalar {n : Nat} {d : Nat → Int} {named : Nat → K}
    {D : CliffordAlgebra (diagForm K n d) →ₗ[K] CliffordAlgebra (diagForm K n d)} {w : Nat → CliffordAlgebra (diagForm K n d)} :
    ∀ vs : List (CliffordAlgebra (diagForm K n d)), (∀ v ∈ vs, ∃ s : K, v = s • 1) →
      ∃ s : K, (cliffInterp K n d named D w).wedge vs = s • 1
  | [], _ => by
    refine ⟨1, ?_⟩
    show cliffConst K n d named Op.cscalar = _
    unfold cliffConst
    rw [if_neg (by decide), if_neg (by decide), Nat.sub_self, cliffBlade_zero, one_smul]
  | [x], h => by
    rw [Interp.wedge]
    exact h x (by simp)
  | x :: y :: ys, h => by
    rw [Interp.wedge]
    obtain ⟨s, rfl⟩ := h x (by simp)
    obtain ⟨t, ht⟩ := wedge_scalar (y :: ys) fun v hv => h v (List.mem_cons_of_mem _ hv)
    rw [ht]
    exact ep_scalar n d s t

omit [CharZero K] in
theorem sum_scalar {n : Nat} {d : Nat → Int} : ∀ vs : List (CliffordAlgebra (diagForm K n d)), (∀ v ∈ vs, ∃ s : K, v = s • 1) →
    ∃ s : K, vs.sum = s • 1
  | [], _ => ⟨0, by simp⟩
  | v :: vs, h => by
    obtain ⟨s, rfl⟩ := h v (by simp)
    obtain ⟨t, ht⟩ := sum_scalar vs fun v hv => h v (List.mem_cons_of_mem _ hv)
    exact ⟨s + t, by rw [List.sum_cons, ht, add_smul]⟩

end

/-! ## References -/

section

variable {T : Tree} {σ : Nat → Tree}

/-- Without quotients and functions, the whole is replaced or nothing is. -/
theorem CutOf.noRef_or {u : Tree} {p : Nat} {t : Tree} (h : CutOf T σ p u t) (hu : T.At p u) (hT : T.NoRef) (hq : ∀ n ∈ u.post, ¬ IsQuot n.o) :
    RefAs T σ p u t ∨ t.NoRef := by
  cases u with
  | leaf n =>
    rw [CutOf] at h
    subst h
    exact Or.inr (hu.noRef hT)
  | un n u =>
    have hl : (Tree.un n u).post.length = u.post.length + 1 := by rw [Tree.post]; simp
    have hp := u.post_pos
    rw [CutOf] at h
    rcases h with h | ⟨t', rfl, h⟩
    · exact Or.inl h
    · right
      have := h.noRef (Tree.at_un hu) hT (fun n hn => hq n (by rw [Tree.post]; simp [hn])) fun h => quotAt_sub hu (by omega) (by omega) h hq
      intro n hn'
      rw [Tree.post, List.mem_append, List.mem_singleton] at hn'
      rcases hn' with hn' | rfl
      · exact this n hn'
      · exact hu.noRef hT n (by rw [Tree.post]; simp)
  | bin n l r =>
    have hl : (Tree.bin n l r).post.length = l.post.length + r.post.length + 1 := by rw [Tree.post]; simp [Nat.add_assoc]
    have hpl := l.post_pos
    have hpr := r.post_pos
    rw [CutOf] at h
    rcases h with h | ⟨l', r', rfl, h, h'⟩
    · exact Or.inl h
    · right
      have i1 := h.noRef (Tree.at_left hu) hT (fun n hn => hq n (by rw [Tree.post]; simp [hn])) fun h => quotAt_sub hu (by omega) (by omega) h hq
      have i2 := h'.noRef (Tree.at_right hu) hT (fun n hn => hq n (by rw [Tree.post]; simp [hn])) fun h => quotAt_sub hu (by omega) (by omega) h hq
      intro n hn'
      rw [Tree.post, List.mem_append, List.mem_append, List.mem_singleton] at hn'
      rcases hn' with (hn' | hn') | rfl
      · exact i1 n hn'
      · exact i2 n hn'
      · exact hu.noRef hT n (by rw [Tree.post]; simp)
  | poly n f =>
    have hl : (Tree.poly n f).post.length = f.post.length + 1 := by rw [Tree.post]; simp
    rw [CutOf] at h
    rcases h with h | ⟨q, f', rfl, h⟩
    · exact Or.inl h
    · right
      have := h.noRef (Tree.here_poly hu) hT (fun n h => hu.noRef hT n (by rw [Tree.post]; simp [h])) fun j h1 h2 h => quotAt_sub hu h1 (by omega) h hq
      intro k hn'
      rw [Tree.post, List.mem_append, List.mem_singleton] at hn'
      rcases hn' with hn' | rfl
      · exact this k hn'
      · exact hu.noRef hT n (by rw [Tree.post]; simp)

end

theorem NotQuot.not_quot {n : Node} (h : NotQuot n) : ¬ IsQuot n.o := not_quot_of h.1 h.2

section

variable [CharZero K] {m : Metric} {args : List (Arg K)}
  {D : CliffordAlgebra (diagForm K m.dim m.sq) →ₗ[K] CliffordAlgebra (diagForm K m.dim m.sq)} {T : Tree} {σ : Nat → Tree}

omit [Field K] [CharZero K] in
/-- A reference to a temporary. -/
theorem ref_eval {vs : List (Mv × Nat)} {n : Node} (hc : n.o = Op.cse) {x : Mv}
    (hx : (Tree.leaf n).eval (mvOps m false) (argMv args) vs = ok x) :
    ∃ a id, vs[n.ex]? = some (a, id) ∧ x = createRef a id := by
  rw [Tree.eval, leafEval, if_neg (by rw [hc]; decide), if_pos hc] at hx
  split at hx
  · cases hx
  · rename_i a id h
    simp only [mvOps, ok_inj] at hx
    exact ⟨a, id, h, hx.symm⟩

/-- A reference to a scalar temporary. -/
theorem ref_scalar {a : Mv} {es : List Nat} (h : RefShape m.dim a es) (h0 : ∀ e ∈ es, e = 0) (id : Nat) (ρ : Nat → K) :
    ∃ s : K, SoundOn True True m.dim m.sq (fun _ => True) ρ (createRef a id) (s • 1) := by
  have hv : ∃ s : K, mvVal (intPow ρ) (cliffBlade K m.dim m.sq) (genericN id es) = s • 1 := by
    match es, h0, h.asc with
    | [], _, _ => exact ⟨0, by simp [genericN]⟩
    | [e], h0, _ =>
      have := h0 e (by simp)
      subst this
      exact ⟨_, genericN_one_val ρ id⟩
    | e :: e' :: es, h0, ha =>
      have h1 := h0 e (by simp)
      have h2 := h0 e' (by simp)
      have := (List.pairwise_cons.1 ha).1 e' (by simp)
      omega
  obtain ⟨s, hs⟩ := hv
  exact ⟨s, _, (h.stored id).mono fun i hi => ⟨trivial, hi.2⟩, fun _ => hs⟩

/-- Something with any value at all. -/
def trivialInterp : Interp Unit where
  arg _ _ := ()
  const _ := ()
  rev := 0
  pd := 0
  comp _ := 0
  grd _ := 0
  gp := 0
  lc := 0
  sip := 0
  ep := 0
  quot _ _ := ()
  fn _ _ := ()
  rev_rev _ := rfl
  ep_assoc _ _ _ := rfl
  quot_smul _ _ _ _ _ := rfl

/-- What an operation of the machine on multivectors does, for any assignment. -/
theorem step_refines (hm : m.dim ≤ 8) (hD : IsDual K m.dim m.sq D) (nc : Nat) (ρ : Nat → K) :
    Refines (mvOps m false) (argMv args) (cliffInterp K m.dim m.sq (fun k => ρ (k + indConstantStart)) D fun _ => 0)
      (SoundOn True True m.dim m.sq (fun _ => True) ρ) fun k => Plain m.dim nc k ∧ k.o ≠ Op.id :=
  mv_refines_on True True m hm false _ D hD _ nc ρ (fun _ _ _ => rfl) _ _ _ (fun _ h => h.1) (fun _ _ _ _ => trivial) fun _ h ho => absurd ho h.2

theorem forall₂_some {α β : Type} {R : α → β → Prop} {as : List α} {us : List Unit} (h : List.Forall₂ (fun x _ => ∃ v, R x v) as us) :
    ∃ vs, List.Forall₂ R as vs := by
  induction h with
  | nil => exact ⟨[], .nil⟩
  | cons h _ ih =>
    obtain ⟨v, hv⟩ := h
    obtain ⟨vs, hvs⟩ := ih
    exact ⟨v :: vs, .cons hv hvs⟩

/-- A tree without quotients and functions evaluates to something, for any assignment. -/
theorem any_eval (hm : m.dim ≤ 8) {w : Nat → CliffordAlgebra (diagForm K m.dim m.sq)}
    (hw : ∀ (k : Nat) (a : Arg K), args[k]? = some a → a.Denotes m.dim m.sq (argOffset args k) (w k)) (hD : IsDual K m.dim m.sq D) {nc : Nat}
    {vs : List (Mv × Nat)} (hvs : ∀ (j : Nat) (v : Mv × Nat), vs[j]? = some v → ∃ es, RefShape m.dim v.1 es) (ρ : Nat → K) {t u : Tree}
    (hs : t.Shape) (he : (t.expand σ).Eqv u) (hg : u.Good) (hp : ∀ n ∈ u.post, (NotQuot n → Plain m.dim nc n) ∧ ArgNode args n)
    (hq : ∀ n ∈ t.post, NotQuot n) {x : Mv} (hx : t.eval (mvOps m false) (argMv args) vs = ok x) :
    ∃ v, SoundOn True True m.dim m.sq (fun _ => True) ρ x v := by
  obtain ⟨w', -, hw'⟩ := exists_values hw ρ
  have H := mv_refines_on True True m hm false (fun k => ρ (k + indConstantStart)) D hD w' nc ρ (fun _ _ _ => rfl) (argMv args) (fun _ => True)
    (fun k => Plain m.dim nc k ∧ ArgNode args k) (fun _ h => h.1) (fun _ _ _ _ => trivial) (by
      rintro n ⟨-, hn⟩ ho x hx
      obtain ⟨h1, h2⟩ := hn ho
      have hk := List.getElem?_eq_getElem h1
      obtain ⟨na, i1, i2⟩ := hw' _ _ hk
      have he : argMv args n.ex n.checksum = args[n.ex].ie (argOffset args n.ex) := by
        unfold argMv
        rw [hk, h2]
      simp only [mvOps, Bool.false_eq_true, if_false, he, ok_inj] at hx
      subst hx
      exact ⟨na, i1.mono fun i hi => ⟨trivial, hi.2⟩, fun _ => i2⟩)
  refine eval_refs (I := trivialInterp) (R := fun x _ => ∃ v, SoundOn True True m.dim m.sq (fun _ => True) ρ x v)
    (A := fun k => Plain m.dim nc k ∧ ArgNode args k) ⟨?_, ?_, ?_, ?_, ?_, ?_, ?_, ?_, ?_, ?_, ?_, ?_, ?_, ?_⟩ hs he hg ?_ ?_ hx
  · exact fun n hn ho x hx => ⟨_, H.input n hn ho x hx⟩
  · exact fun n hn ho x hx => ⟨_, H.const n hn ho x hx⟩
  · exact fun q a x _ hq h0 ⟨v, hv⟩ hx => ⟨_, H.scale q a x v hq h0 hv hx⟩
  · exact fun a x _ ⟨v, hv⟩ hx => ⟨_, H.rev a x v hv hx⟩
  · exact fun a x _ ⟨v, hv⟩ hx => ⟨_, H.pd a x v hv hx⟩
  · exact fun n hn ho a x _ ⟨v, hv⟩ hx => ⟨_, H.comp n hn ho a x v hv hx⟩
  · exact fun n hn ho a x _ ⟨v, hv⟩ hx => ⟨_, H.grd n hn ho a x v hv hx⟩
  · exact fun a b x _ _ ⟨v, hv⟩ ⟨w, hw⟩ hx => ⟨_, H.gp a b x v w hv hw hx⟩
  · exact fun a b x _ _ ⟨v, hv⟩ ⟨w, hw⟩ hx => ⟨_, H.lc a b x v w hv hw hx⟩
  · exact fun a b x _ _ ⟨v, hv⟩ ⟨w, hw⟩ hx => ⟨_, H.sip a b x v w hv hw hx⟩
  · intro as us x h0 h hx
    obtain ⟨vs, hvs⟩ := forall₂_some h
    exact ⟨_, H.sums as vs x h0 hvs hx⟩
  · intro as us x h0 h hx
    obtain ⟨vs, hvs⟩ := forall₂_some h
    exact ⟨_, H.eps as vs x h0 hvs hx⟩
  · exact fun n hn ho => absurd ho hn.1.div
  · exact fun n hn ho => absurd ho hn.1.fn
  · intro n hn hc k hk hnk
    have := hq n hn
    unfold NotQuot at this
    rw [hnk.1] at this
    exact ⟨(hp k hk).1 this, (hp k hk).2⟩
  · intro n hn hc a id y ha hy
    obtain ⟨es, h1⟩ := hvs _ _ ha
    simp only [mvOps, ok_inj] at hy
    subst hy
    exact ⟨_, _, (h1.stored id).mono fun i hi => ⟨trivial, hi.2⟩, fun _ => rfl⟩

/-! ## Scalar trees -/

/-- Whatever stands for the subtree evaluates to a scalar, for any assignment. -/
def ScalarEvals (K : Type) [Field K] [CharZero K] (m : Metric) (ie : Nat → Nat → Mv) (T : Tree) (σ : Nat → Tree) (vs : List (Mv × Nat)) (u : Tree) : Prop :=
  ∀ (p : Nat) (t : Tree) (x : Mv), T.At p u → CutOf T σ p u t → t.Shape → (t.expand σ).Eqv u → (∀ n ∈ t.post, NotQuot n) →
    t.eval (mvOps m false) ie vs = ok x → ∀ ρ : Nat → K, ∃ s : K, SoundOn True True m.dim m.sq (fun _ => True) ρ x (s • 1)

/-- The operands of a sum or exterior product. -/
theorem scalar_forest {ie : Nat → Nat → Mv} {vs : List (Mv × Nat)} {I : Interp (CliffordAlgebra (diagForm K m.dim m.sq))} {ρ : Nat → K}
    {A : Node → Prop} (H : Refines (mvOps m false) ie I (SoundOn True True m.dim m.sq (fun _ => True) ρ) A) :
    ∀ {g : Forest} {P : Rat32 → Prop} {p : Nat} {f : Forest} {xs : List Mv}, (∀ t ∈ g.terms, ScalarEvals K m ie T σ vs t) → T.Here p g → CutsOf T σ p g f →
      f.Shape → (f.expand σ).Eqv g → g.Good P → (∀ q, P q → q.num = 0 ∨ q.WF ∧ q.num ≠ 0) → (∀ n ∈ f.post, NotQuot n) →
      f.eval (mvOps m false) ie vs = ok xs →
      ∃ us, List.Forall₂ (SoundOn True True m.dim m.sq (fun _ => True) ρ) xs us ∧ ∀ u ∈ us, ∃ s : K, u = s • 1
  | .nil, P, p, f, xs, _, _, hc, _, _, _, _, _, hx => by
    rw [CutsOf] at hc
    subst hc
    rw [Forest.eval, ok_inj] at hx
    subst hx
    exact ⟨[], .nil, by simp⟩
  | .cons se u g, P, p, f, xs, ih, hh, hc, hs, he, hg, hP, hq, hx => by
    rw [CutsOf] at hc
    obtain ⟨k, t, f, rfl, hct, hcf⟩ := hc
    rw [Forest.Shape] at hs
    rw [Forest.expand, Forest.Eqv] at he
    obtain ⟨se', t', f', e, he, het, hef⟩ := he
    injection e with e1 e2 e3
    subst e1 e2 e3
    rw [Forest.Good] at hg
    rw [Forest.eval] at hx
    simp only [bind_eq_ok, pure_eq, ok_inj] at hx
    obtain ⟨a, ha, b, hb, bs, hbs, rfl⟩ := hx
    rw [Forest.terms] at ih
    obtain ⟨s, i1⟩ := ih u (by simp) (p + 1) t a (Tree.at_head hh.1) hct hs.2.2.1 het (fun n hn => hq n (by rw [Forest.post]; simp [hn])) ha ρ
    obtain ⟨us, i2, i3⟩ := scalar_forest H (fun t ht => ih t (List.mem_cons_of_mem _ ht)) (Tree.here_tail hh) hcf hs.2.2.2 hef hg.2.2.2.2 hP
      (fun n hn => hq n (by rw [Forest.post]; simp [hn])) hbs
    rw [seEval_congr (mvOps m false) hs.1 he] at hb
    unfold seEval at hb
    rcases hP _ hg.2.2.1 with hq' | ⟨hw', hq'⟩
    · rw [if_neg (by simpa using hq'), ok_inj] at hb
      subst hb
      refine ⟨_, .cons i1 i2, ?_⟩
      intro v hv
      rcases List.mem_cons.1 hv with rfl | hv
      · exact ⟨s, rfl⟩
      · exact i3 v hv
    · rw [if_pos hq'] at hb
      refine ⟨_, .cons (H.scale _ _ _ _ hw' hq' i1 hb) i2, ?_⟩
      intro v hv
      rcases List.mem_cons.1 hv with rfl | hv
      · exact ⟨se.q.toQ • s, (smul_assoc _ _ _).symm⟩
      · exact i3 v hv

/-- What stands for a scalar tree evaluates to a scalar. -/
theorem scalar_eval (hm : m.dim ≤ 8) {w : Nat → CliffordAlgebra (diagForm K m.dim m.sq)}
    (hw : ∀ (k : Nat) (a : Arg K), args[k]? = some a → a.Denotes m.dim m.sq (argOffset args k) (w k)) (hD : IsDual K m.dim m.sq D) {nc : Nat}
    (hT : T.NoRef) (hg : T.Good) (hp : ∀ n ∈ T.post, (NotQuot n → Plain m.dim nc n) ∧ ArgNode args n)
    {vs : List (Mv × Nat)} (hvs : ∀ (j : Nat) (v : Mv × Nat), vs[j]? = some v → ∃ es, RefShape m.dim v.1 es)
    (hQ : ∀ (j : Nat) (v : Mv × Nat) (es : List Nat), vs[j]? = some v → RefShape m.dim v.1 es → ScalarTree m args D (σ j) → ∀ e ∈ es, e = 0)
    {u : Tree} (hu : ScalarTree m args D u) : ScalarEvals K m (argMv args) T σ vs u := by
  have href : ∀ {u : Tree}, ScalarTree m args D u → ∀ {p : Nat} {t : Tree} {x : Mv}, RefAs T σ p u t →
      t.eval (mvOps m false) (argMv args) vs = ok x → ∀ ρ : Nat → K, ∃ s : K, SoundOn True True m.dim m.sq (fun _ => True) ρ x (s • 1) := by
    rintro u hu p t x ⟨n, rfl, hc, rfl, -⟩ hx ρ
    obtain ⟨a, id, h1, rfl⟩ := ref_eval hc hx
    obtain ⟨es, h2⟩ := hvs _ _ h1
    exact ref_scalar h2 (hQ _ _ _ h1 h2 hu) id ρ
  induction hu with
  | exact h =>
    intro p t x hat hcut hs he hq hx ρ
    rcases hcut.noRef_or hat hT fun n hn => (h.1 n hn).not_quot with hr | hr
    · exact href (.exact h) hr hx ρ
    · obtain ⟨w', h1, h2⟩ := exists_values hw ρ
      obtain ⟨s, hs'⟩ := h.2 (fun k => ρ (k + indConstantStart)) w' h1
      obtain ⟨na, h3, h4⟩ := noRef_eval hm hD hs he (hat.good hg) hr
        (fun n hn => ⟨(hp n (hat.mem n hn)).1 (h.1 n hn), (hp n (hat.mem n hn)).2⟩) hx h2
      rw [hs'] at h4
      exact ⟨s, na, h3.mono fun i hi => ⟨trivial, hi.2⟩, h4⟩
  | @fn n u h =>
    intro p t x hat hcut hs he hq hx ρ
    rw [CutOf] at hcut
    rcases hcut with hr | ⟨t', rfl, -⟩
    · exact href (.fn h) hr hx ρ
    · exact absurd h (hq n (by rw [Tree.post]; simp)).2
  | @comp n u h =>
    intro p t x hat hcut hs he hq hx ρ
    rw [CutOf] at hcut
    rcases hcut with hr | ⟨t', rfl, hcut⟩
    · exact href (.comp h) hr hx ρ
    · rw [Tree.Shape] at hs
      rw [Tree.expand, Tree.Eqv] at he
      obtain ⟨n', u', e, -, he⟩ := he
      injection e with e1 e2
      subst e1 e2
      rw [Tree.eval, bind_eq_ok] at hx
      obtain ⟨a, ha, hx⟩ := hx
      have hat' := Tree.at_un hat
      obtain ⟨v, hv⟩ := any_eval hm hw hD hvs ρ hs.2 he (hat'.good hg) (fun n hn => hp n (hat'.mem n hn))
        (fun n hn => hq n (by rw [Tree.post]; simp [hn])) ha
      rw [unEval, if_neg (by rw [h]; decide), if_neg (by rw [h]; decide), if_pos h] at hx
      have hn : n ∈ T.post := hat.mem n (by rw [Tree.post]; simp)
      refine ⟨_, (step_refines (args := args) hm hD nc ρ).comp n ⟨(hp n hn).1 (hq n (by rw [Tree.post]; simp)), by rw [h]; decide⟩ h a x v hv hx⟩
  | @rev n u h _ ih =>
    intro p t x hat hcut hs he hq hx ρ
    have hsc : ScalarTree m args D (.un n u) := .rev h (by assumption)
    rw [CutOf] at hcut
    rcases hcut with hr | ⟨t', rfl, hcut⟩
    · exact href hsc hr hx ρ
    · rw [Tree.Shape] at hs
      rw [Tree.expand, Tree.Eqv] at he
      obtain ⟨n', u', e, -, he⟩ := he
      injection e with e1 e2
      subst e1 e2
      rw [Tree.eval, bind_eq_ok] at hx
      obtain ⟨a, ha, hx⟩ := hx
      obtain ⟨s, hv⟩ := ih p t' a (Tree.at_un hat) hcut hs.2 he (fun n hn => hq n (by rw [Tree.post]; simp [hn])) ha ρ
      rw [unEval, if_pos h] at hx
      have := (step_refines (args := args) hm hD nc ρ).rev a x _ hv hx
      refine ⟨s, ?_⟩
      have e : (cliffInterp K m.dim m.sq (fun k => ρ (k + indConstantStart)) D fun _ => 0).rev (s • 1) = s • 1 := by
        show CliffordAlgebra.reverse (s • 1) = _
        rw [map_smul, CliffordAlgebra.reverse.map_one]
      rwa [e] at this
  | @quot n l r h _ _ =>
    intro p t x hat hcut hs he hq hx ρ
    have hsc : ScalarTree m args D (.bin n l r) := .quot h (by assumption)
    rw [CutOf] at hcut
    rcases hcut with hr | ⟨l', r', rfl, -⟩
    · exact href hsc hr hx ρ
    · exact absurd h (hq n (by rw [Tree.post]; simp)).1
  | @bin n l r h _ _ ihl ihr =>
    intro p t x hat hcut hs he hq hx ρ
    have hsc : ScalarTree m args D (.bin n l r) := .bin h (by assumption) (by assumption)
    rw [CutOf] at hcut
    rcases hcut with hr | ⟨l', r', rfl, hcl, hcr⟩
    · exact href hsc hr hx ρ
    · rw [Tree.Shape] at hs
      rw [Tree.expand, Tree.Eqv] at he
      obtain ⟨n', l'', r'', e, -, hel, her⟩ := he
      injection e with e1 e2 e3
      subst e1 e2 e3
      rw [Tree.eval] at hx
      simp only [bind_eq_ok] at hx
      obtain ⟨a, ha, b, hb, hx⟩ := hx
      obtain ⟨s, hv⟩ := ihl p l' a (Tree.at_left hat) hcl hs.2.1 hel (fun n hn => hq n (by rw [Tree.post]; simp [hn])) ha ρ
      obtain ⟨s', hv'⟩ := ihr _ r' b (Tree.at_right hat) hcr hs.2.2 her (fun n hn => hq n (by rw [Tree.post]; simp [hn])) hb ρ
      have H := step_refines (args := args) hm hD nc ρ
      unfold binEval at hx
      split at hx
      · have := H.gp _ _ _ _ _ hv hv' hx
        refine ⟨s * s', ?_⟩
        have e : (cliffInterp K m.dim m.sq (fun k => ρ (k + indConstantStart)) D fun _ => 0).gp (s • 1) (s' • 1) = (s * s') • 1 := by
          show (s • 1 : CliffordAlgebra (diagForm K m.dim m.sq)) * (s' • 1) = _
          rw [smul_mul_smul_comm, one_mul]
        rwa [e] at this
      · split at hx
        · have := H.lc _ _ _ _ _ hv hv' hx
          obtain ⟨c, e⟩ := lc_scalar m.dim m.sq s s'
          exact ⟨c, by rw [← e]; exact this⟩
        · split at hx
          · have := H.sip _ _ _ _ _ hv hv' hx
            obtain ⟨c, e⟩ := sip_scalar m.dim m.sq s s'
            exact ⟨c, by rw [← e]; exact this⟩
          · rename_i h1 h2 h3
            rcases hs.1 with h' | h' | h' | h'
            · exact absurd h' h1
            · exact absurd h' h2
            · exact absurd h' h3
            · exact absurd h' h
  | @poly n g _ ih =>
    intro p t x hat hcut hs he hq hx ρ
    have hsc : ScalarTree m args D (.poly n g) := .poly (by assumption)
    rw [CutOf] at hcut
    rcases hcut with hr | ⟨q, f, rfl, hcut⟩
    · exact href hsc hr hx ρ
    · rw [Tree.Shape] at hs
      rw [Tree.expand, Tree.Eqv] at he
      obtain ⟨n', g', e, he, hef⟩ := he
      injection e with e1 e2
      subst e1 e2
      rw [Tree.eval, bind_eq_ok] at hx
      obtain ⟨as, has, hx⟩ := hx
      have hl := forest_length (mvOps m false) (argMv args) vs f as _ has
      have hne : as ≠ [] := by intro e; rw [e] at hl; have := hs.2.2.1; simp at hl; omega
      have hgd := hat.good hg
      rw [Tree.Good] at hgd
      have H := step_refines (args := args) hm hD nc ρ
      obtain ⟨us, i1, i2⟩ := scalar_forest H ih (Tree.here_poly hat) hcut hs.2.2.2 hef hgd.2.2.2
        (by intro q; split; exact fun h => Or.inr h; exact fun h => Or.inl h) (fun n hn => hq n (by rw [Tree.post]; simp [hn])) has
      unfold polyEval at hx
      split at hx
      · obtain ⟨s, e⟩ := sum_scalar us i2
        exact ⟨s, by rw [← e]; exact H.sums _ _ _ hne i1 hx⟩
      · obtain ⟨s, e⟩ := wedge_scalar (named := fun k => ρ (k + indConstantStart)) (D := D) (w := fun _ => 0) us i2
        exact ⟨s, by rw [← e]; exact H.eps _ _ _ hne i1 hx⟩

/-- A multivector that is a scalar for every assignment has no element but the scalar. -/
theorem elems_zero {x : Mv} {n : NMv} (h : ∀ ρ : Nat → K, ∃ s : K, SoundOn True True m.dim m.sq (fun _ => True) ρ x (s • 1)) (hn : Packed x n) :
    ∀ e ∈ n.map (·.element), e = 0 := by
  obtain ⟨s, na, h1, -⟩ := h fun _ => 0
  have := hn.unique h1.packed
  subst this
  have := canon_scalar (K := K) (d := m.sq) h1.canon h1.elems (by
    intro ρ
    obtain ⟨s, na, h2, h3⟩ := h ρ
    have := h2.packed.unique hn
    subst this
    exact ⟨s, h3 trivial⟩)
  intro e he
  obtain ⟨t, ht, rfl⟩ := List.mem_map.1 he
  exact this t ht

/-- What is known of the elements of the temporary that stands for `u`. -/
def ElemsFine (m : Metric) (args : List (Arg K))
    (D : CliffordAlgebra (diagForm K m.dim m.sq) →ₗ[K] CliffordAlgebra (diagForm K m.dim m.sq)) (u : Tree) (es : List Nat) : Prop :=
  (ScalarTree m args D u → ∀ e ∈ es, e = 0) ∧ (SometimesNonzero m args D u → es ≠ [])

/-- The invariant is kept. -/
theorem elems_fine (hm : m.dim ≤ 8) {w : Nat → CliffordAlgebra (diagForm K m.dim m.sq)}
    (hw : ∀ (k : Nat) (a : Arg K), args[k]? = some a → a.Denotes m.dim m.sq (argOffset args k) (w k)) (hD : IsDual K m.dim m.sq D) {nc : Nat}
    (hT : T.NoRef) (hg : T.Good) (hp : ∀ n ∈ T.post, (NotQuot n → Plain m.dim nc n) ∧ ArgNode args n)
    {vs : List (Mv × Nat)} (hvs : ∀ (j : Nat) (v : Mv × Nat), vs[j]? = some v → ∃ es, RefShape m.dim v.1 es)
    (hQ : ∀ (j : Nat) (v : Mv × Nat) (es : List Nat), vs[j]? = some v → RefShape m.dim v.1 es → ElemsFine m args D (σ j) es)
    (hsz : argsSize args ≤ indConstantStart) {p : Nat} {u t : Tree} (hat : T.At p u) (hcut : CutOf T σ p u t) (hs : t.Shape)
    (he : (t.expand σ).Eqv u) {es : List Nat} (h : ElemsOf m args vs t es) : ElemsFine m args D u es := by
  have hQ1 := fun j v es h1 h2 => (hQ j v es h1 h2).1
  rcases h with ⟨a, n, hq, ha, hn, rfl⟩ | ⟨d, l, x, a, n, rfl, hd, hq, ha, hn, rfl⟩ | ⟨d, x, rfl, hd, rfl⟩
  · refine ⟨fun hu => elems_zero (scalar_eval hm hw hD hT hg hp hvs hQ1 hu p t a hat hcut hs he hq ha) hn, ?_⟩
    rintro ⟨hu, named, w', hmb, hne⟩ h0
    rcases hcut.noRef_or hat hT fun n hn => (hu n hn).not_quot with ⟨k, rfl, hc, rfl, -⟩ | hr
    · obtain ⟨b, id, h1, rfl⟩ := ref_eval hc ha
      obtain ⟨es, h2⟩ := hvs _ _ h1
      have h3 := (h2.stored id).packed.unique hn
      subst h3
      rw [(genericN_size es id).2.2.2] at h0
      exact (hQ _ _ _ h1 h2).2 ⟨hu, named, w', hmb, hne⟩ h0
    · obtain ⟨ρ, -, hρ⟩ := hmb.assign
      have hA : ∀ i, i < argsSize args → (if i < argsSize args then ρ i else named (i - indConstantStart)) = ρ i := fun i hi => if_pos hi
      obtain ⟨na, h3, h4⟩ := noRef_eval hm hD hs he (hat.good hg) hr
        (fun n hn => ⟨(hp n (hat.mem n hn)).1 (hu n hn), (hp n (hat.mem n hn)).2⟩) ha
        (ρ := fun i => if i < argsSize args then ρ i else named (i - indConstantStart)) (w' := w') (by
          intro k a hk
          obtain ⟨n, i1, i2⟩ := hρ k a hk
          exact ⟨n, i1, i2 _ hA⟩)
      have h5 := h4 trivial
      have e : (fun k => if k + indConstantStart < argsSize args then ρ (k + indConstantStart) else named (k + indConstantStart - indConstantStart)) =
          named := by
        funext k
        rw [if_neg (by omega), Nat.add_sub_cancel]
      simp only [e] at h5
      have h6 := hn.unique h3.packed
      subst h6
      rw [List.map_eq_nil_iff] at h0
      subst h0
      exact hne (by rw [← h5]; simp [mvVal])
  · refine ⟨fun hu => ?_, fun hu => ?_⟩
    · rw [Tree.Shape] at hs
      rw [Tree.expand, Tree.Eqv] at he
      obtain ⟨n', l', r', rfl, hnd, hel, -⟩ := he
      have hd' : n'.o = Op.div := by rw [← hnd.1]; exact hd
      rw [CutOf] at hcut
      obtain ⟨_, hc, -⟩ | ⟨_, _, e, hcl, -⟩ := hcut
      · cases hc
      injection e with e1 e2 e3
      subst e2
      have hsl : ScalarTree m args D l' := by
        cases hu with
        | exact h => exact absurd hd' (h.1 n' (by rw [Tree.post]; simp)).1
        | quot _ h => exact h
        | bin h => exact absurd hd' h
      exact elems_zero (scalar_eval hm hw hD hT hg hp hvs hQ1 hsl p l a (Tree.at_left hat) hcl hs.2.1 hel hq ha) hn
    · obtain ⟨k, hk, hk'⟩ := eqv_node he d (by rw [Tree.post]; simp) (by rw [hd]; decide)
      exact absurd (hk'.1.symm.trans hd) (hu.1 k hk).1
  · refine ⟨fun _ => by simp, fun _ => by simp⟩

omit [CharZero K] in
/-- A temporary with the scalar as its only element. -/
theorem scalarTemp_of {dim : Nat} {a : Mv} (h : RefShape dim a [0]) : ScalarTemp a := by
  have h1 := h.ref 0
  have hc : a.caps.t = 1 := by
    have := congrArg (fun x : Mv => x.caps.t) h1
    simpa [createRef, layout] using this
  have ht := congrArg (fun x : Mv => x.terms) h1
  refine ⟨h.size, ?_⟩
  unfold createRef at ht
  rw [hc] at ht
  simp [layout, genericN, layTerms] at ht
  exact ht

/-- The temporaries are fine. -/
theorem block_fine {w : Nat → CliffordAlgebra (diagForm K m.dim m.sq)} {nc : Nat} {I : Interp (CliffordAlgebra (diagForm K m.dim m.sq))}
    (hT : T.NoRef) (hg : T.Good) (hF : QuotFine m args D nc I T) (hz : Divisors I T) {vs : List (Mv × Nat)} {b : Nat} {E : Env K}
    (S : State m args w I σ vs b E)
    (hQ : ∀ (j : Nat) (v : Mv × Nat) (es : List Nat), vs[j]? = some v → RefShape m.dim v.1 es → ElemsFine m args D (σ j) es)
    {p : Nat} {u t : Tree} (hat : T.At p u) (hcut : CutOf T σ p u t) (he : (t.expand σ).Eqv u) (hr : t.RefsBelow vs.length)
    (hs : QuotSplit σ t u) : BlockFine args vs nc t.post := by
  have hleaf : ∀ {x : Node}, ScalarLeaf args [] nc x → ScalarLeaf args vs nc x := by
    rintro x (h | ⟨-, q, h, -⟩ | h)
    · exact Or.inl h
    · simp at h
    · exact Or.inr (Or.inr h)
  have hnq : ∀ {n : Node}, ¬ IsQuot n.o → NotQuot n := fun {n} h => ⟨fun e => h (Or.inl e), fun e => h (Or.inr e)⟩
  have htemp : ∀ {x : Node}, x.o = Op.cse → x.ex < vs.length → ScalarTree m args D (σ x.ex) →
      (scalarPart K m.dim m.sq ((σ x.ex).val I) ≠ 0 ∨ SometimesNonzero m args D (σ x.ex)) → ScalarLeaf args vs nc x := by
    intro x hc hlt hsc hnz
    have hv := List.getElem?_eq_getElem hlt
    obtain ⟨es, h1, h2⟩ := S.temp _ _ hv
    have h3 := (hQ _ _ _ hv h1).1 hsc
    have h4 : es ≠ [] := by
      rcases hnz with hnz | hnz
      · rintro rfl
        rw [← h2] at hnz
        exact hnz (by simp [genericN, mvVal])
      · exact (hQ _ _ _ hv h1).2 hnz
    have h5 : es = [0] := by
      match es, h4, h3, h1.asc with
      | [e], _, h3, _ => rw [h3 e (by simp)]
      | e :: e' :: es, _, h3, ha =>
        have i1 := h3 e (by simp)
        have i2 := h3 e' (by simp)
        have := (List.pairwise_cons.1 ha).1 e' (by simp)
        omega
    subst h5
    exact Or.inr (Or.inl ⟨hc, _, hv, scalarTemp_of h1⟩)
  have hnl : ∀ {q : Nat} {x : Node}, T.At q (.leaf x) → ¬ IsShared x.o := by
    intro q x hx hsh
    have := hx.good hg
    rw [Tree.Good] at this
    have hl : IsLeaf x.o := this.imp_right Or.inr
    rcases hsh with h | h | h | h | h
    · exact hl.not_un (Or.inl h)
    · exact hl.not_un (Or.inr (Or.inl h))
    · exact hl.not_un (Or.inr (Or.inr (Or.inr (Or.inr h))))
    · exact hl.not_bin h
    · exact hl.not_poly h
  rcases hs with h | ⟨d, l', x, l, r, rfl, rfl, hd, hq, ho, hne⟩ | ⟨d, x, r, rfl, rfl, hd, ho⟩
  · exact Or.inl fun n hn => hnq (h n hn)
  · right
    rw [CutOf] at hcut
    obtain ⟨_, hc, -⟩ | ⟨_, _, e, hcl, hcr⟩ := hcut
    · cases hc
    injection e with e1 e2 e3
    subst e2 e3
    rw [Tree.expand, Tree.Eqv] at he
    obtain ⟨_, _, _, e, -, hel, -⟩ := he
    injection e with e1 e2 e3
    subst e1 e2 e3
    refine ⟨l'.post, x, d, by simp [Tree.post], fun n hn => hnq (hq n hn), ?_⟩
    rcases hF.div p d l r hat hd with ⟨x0, rfl, h1, h2⟩ | ⟨h1, h2, -⟩
    · rw [CutOf] at hcr
      injection hcr with hcr
      subst hcr
      refine ⟨hleaf h1, Or.inl ⟨hd, fun hc k hk hsame => ?_⟩⟩
      have hx : x.o ≠ Op.cse := (Tree.at_right hat).noRef hT x (by simp [Tree.post])
      obtain ⟨k', hk', hkk⟩ := eqv_node hel k hk (by rw [hsame.1]; exact hx)
      refine h2 hc k' hk' ⟨hkk.1.symm.trans hsame.1, fun ho => ?_⟩
      rw [← hkk.1] at ho
      rw [← hkk.2.2.1 (by rcases ho with ho | ho <;> rw [ho] <;> decide)]
      exact hsame.2 ho
    · rcases ho with ⟨rfl, -⟩ | ⟨hc, rfl⟩
      · exact absurd h1 (hnl (Tree.at_right hat))
      · refine ⟨htemp hc (hr x (by simp [Tree.post]) hc) h2 (Or.inl (hz p d l _ hat hd)), Or.inl ⟨hd, fun _ k hk hsame => ?_⟩⟩
        exact hne hc k hk (hsame.1.trans hc) (hsame.2 (Or.inr (hsame.1.trans hc)))
  · right
    rw [CutOf] at hcut
    obtain ⟨_, hc, -⟩ | ⟨_, e, hcr⟩ := hcut
    · cases hc
    injection e with e1 e2
    subst e2
    refine ⟨[], x, d, by simp [Tree.post], by simp, ?_⟩
    obtain ⟨h0, h | ⟨h1, h2, -, h3⟩⟩ := hF.fn p d r hat hd
    · obtain ⟨x0, rfl, h1⟩ := h
      rw [CutOf] at hcr
      injection hcr with hcr
      subst hcr
      exact ⟨hleaf h1, Or.inr ⟨hd, h0⟩⟩
    · rcases ho with ⟨rfl, -⟩ | ⟨hc, rfl⟩
      · exact absurd h1 (hnl (Tree.at_un hat))
      · exact ⟨htemp hc (hr x (by simp [Tree.post]) hc) h2 h3, Or.inr ⟨hd, h0⟩⟩

theorem QuotFine.operands {nc : Nat} {I : Interp (CliffordAlgebra (diagForm K m.dim m.sq))} (h : QuotFine m args D nc I T) : QuotOperands T := by
  refine ⟨fun p d l r hat hd => ?_, fun p d t hat hd => ?_⟩
  · rcases h.div p d l r hat hd with ⟨x, rfl, -⟩ | ⟨h1, -, h3⟩
    · exact Or.inl ⟨x, rfl⟩
    · exact Or.inr ⟨h1, Or.inl ⟨p, d, l, hat, hd, rfl, h3⟩⟩
  · obtain ⟨-, ⟨x, rfl, -⟩ | ⟨h1, -, h3, -⟩⟩ := h.fn p d t hat hd
    · exact Or.inl ⟨x, rfl⟩
    · exact Or.inr ⟨h1, Or.inr ⟨d, hat, hd, h3⟩⟩

/-- **C48**, in terms of the expression.  If every divisor is a scalar argument or constant that does not occur in the dividend, or an operation
whose value is a scalar, if the arguments of functions are likewise scalars, and if no divisor is zero, then evaluation of an expression without
common subexpressions is never undefined and returns the value of the expression.  Missing: the null bases (C64), tuples, common subexpressions, and
the operands that `rpn_reshape` overlooks, see `QuotFine`. -/
theorem C48_tree_partial (m : Metric) (hm : m.dim ≤ 8) (E : Env K) (args : List (Arg K))
    {w : Nat → CliffordAlgebra (diagForm K m.dim m.sq)}
    (hw : ∀ (k : Nat) (a : Arg K), args[k]? = some a → a.Denotes m.dim m.sq (argOffset args k) (w k))
    {D : CliffordAlgebra (diagForm K m.dim m.sq) →ₗ[K] CliffordAlgebra (diagForm K m.dim m.sq)} (hD : IsDual K m.dim m.sq D)
    {T : Tree} {q : Rat32} (hg : T.Good) (hq : q.WF) (h0 : q.num ≠ 0)
    (hp : ∀ n ∈ T.post, (NotQuot n → Plain m.dim E.consts.length n) ∧ ArgNode args n) (hd : T.Distinct)
    (hz : Divisors (fullInterp K m.dim m.sq (fun k => E.consts.getD k 0) D w E.named) T)
    (hF : QuotFine m args D E.consts.length (fullInterp K m.dim m.sq (fun k => E.consts.getD k 0) D w E.named) T)
    {cap : Nat} (hcap : cap < 2 ^ 64)
    {c : Compiled} (hc : compileExpr m false cap args ⟨T.post, q⟩ = ok c) (hi : c.state.nextId ≤ indConstantStart) :
    ∃ x, runCompiled m false E args c = ok [x] ∧
      x.Denotes m.dim m.sq (q.toQ • T.val (fullInterp K m.dim m.sq (fun k => E.consts.getD k 0) D w E.named)) := by
  rw [Env.named_eq] at hz hF ⊢
  obtain ⟨-, r, hr, s, hs, rfl⟩ := compileExpr_eq_ok.1 hc
  unfold reshape at hr
  rw [bind_eq_ok] at hr
  obtain ⟨⟨known, out⟩, hraw, hr⟩ := hr
  obtain ⟨σ, ts, mt, e, hC, hts, hmt, -⟩ := reshape_splits hg.noRef hg.shape hd hF.operands hcap hraw
  simp only [e, ok_bind] at hr
  split at hr
  · cases hr
  rw [pure_eq, ok_inj] at hr
  subst hr
  refine (compute_blocks (Φ := fun _ _ => True) m hm E args hw hD hC rfl rfl hg hq h0 hp hz (fnArgs_true _ _) hs hi (ElemsFine m args D) (fun k t b E' ht hl S hQ => ?_)
    fun n hn => ⟨fun h => hmt n hn (Or.inl h), fun h => hmt n hn (Or.inr h)⟩).imp fun _ h => ⟨h.1, h.2.1⟩
  obtain ⟨hsplit, p, hat, hcut⟩ := hts k t ht
  obtain ⟨h1, h2, h3, -⟩ := hC.1 k t ht
  refine ⟨block_fine hg.noRef hg hF hz S hQ hat hcut h3 (by rw [hl]; exact h2) hsplit, fun es hes => ?_⟩
  exact elems_fine hm hw hD hg.noRef hg hp (fun j v hj => (S.temp j v hj).imp fun _ h => h.1) hQ (Nat.le_trans S.ids.le S.lt) hat hcut h1 h3 hes

end

end Gal
