import Verif.Props.Quotient

/-!
# Property C48: `compute` with quotients and functions
-/

namespace Gal

open Out

variable {K : Type} [Field K]

/-! ## Expressions without quotients and functions, in the interpretation that has them -/

theorem wedge_full [CharZero K] (n : Nat) (d : Nat → Int) (named : Nat → K)
    (D : CliffordAlgebra (diagForm K n d) →ₗ[K] CliffordAlgebra (diagForm K n d)) (w : Nat → CliffordAlgebra (diagForm K n d)) (f : Nat → K → K) :
    ∀ vs, (fullInterp K n d named D w f).wedge vs = (cliffInterp K n d named D w).wedge vs
  | [] => rfl
  | [_] => rfl
  | x :: y :: ys => by
    rw [Interp.wedge, Interp.wedge, wedge_full n d named D w f (y :: ys)]
    rfl

theorem full_const [CharZero K] (n : Nat) (d : Nat → Int) (named : Nat → K)
    (D : CliffordAlgebra (diagForm K n d) →ₗ[K] CliffordAlgebra (diagForm K n d)) (w : Nat → CliffordAlgebra (diagForm K n d)) (f : Nat → K → K)
    (o : Nat) : (fullInterp K n d named D w f).const o = cliffConst K n d named o := rfl

theorem refines_full [CharZero K] {n : Nat} {d : Nat → Int} {named : Nat → K}
    {D : CliffordAlgebra (diagForm K n d) →ₗ[K] CliffordAlgebra (diagForm K n d)} {w : Nat → CliffordAlgebra (diagForm K n d)} {f : Nat → K → K}
    {α : Type} {M : Ops α} {ie : Nat → Nat → α} {R : α → CliffordAlgebra (diagForm K n d) → Prop} {A : Node → Prop}
    (H : Refines M ie (cliffInterp K n d named D w) R A) (hA : ∀ n, A n → NotQuot n) : Refines M ie (fullInterp K n d named D w f) R A where
  input := H.input
  const := H.const
  scale := H.scale
  rev := H.rev
  pd := H.pd
  comp := H.comp
  grd := H.grd
  gp := H.gp
  lc := H.lc
  sip := H.sip
  sums := H.sums
  eps as vs x h0 h hx := by rw [wedge_full]; exact H.eps as vs x h0 h hx
  div n hn ho := absurd ho (hA n hn).1
  fn n hn ho := absurd ho (hA n hn).2

omit [Field K] in
theorem argOffset_lt (args : List (Arg K)) {j k : Nat} {a : Arg K} (h : args[j]? = some a) (hj : j < k) :
    argOffset args j + a.data.length ≤ argOffset args k := by
  have hl : j < args.length := (List.getElem?_eq_some_iff.1 h).1
  have h1 : (args.take k)[j]? = some a := by rw [List.getElem?_take_of_lt hj]; exact h
  have := argOffset_le _ h1
  have e : argOffset (args.take k) j = argOffset args j := by
    unfold argOffset
    rw [List.take_take, min_eq_left (le_of_lt hj)]
  rw [e] at this
  exact this

mutual

/-- Every node of a temporary other than a reference has its counterpart. -/
theorem eqv_node {σ : Nat → Tree} : ∀ {t u : Tree}, (t.expand σ).Eqv u → ∀ n ∈ t.post, n.o ≠ Op.cse → ∃ k ∈ u.post, n.Eqv k
  | .leaf n, u, he, k, hk, hc => by
    rw [Tree.post, List.mem_singleton] at hk
    subst hk
    rw [Tree.expand, if_neg hc, Tree.Eqv] at he
    obtain ⟨j, rfl, h⟩ := he
    exact ⟨j, by rw [Tree.post]; simp, h⟩
  | .un n t, u, he, k, hk, hc => by
    rw [Tree.expand, Tree.Eqv] at he
    obtain ⟨j, t', rfl, h, ht⟩ := he
    rw [Tree.post, List.mem_append, List.mem_singleton] at hk
    rcases hk with hk | rfl
    · obtain ⟨i, h1, h2⟩ := eqv_node ht k hk hc
      exact ⟨i, by rw [Tree.post]; simp [h1], h2⟩
    · exact ⟨j, by rw [Tree.post]; simp, h⟩
  | .bin n l r, u, he, k, hk, hc => by
    rw [Tree.expand, Tree.Eqv] at he
    obtain ⟨j, l', r', rfl, h, hl, hr⟩ := he
    rw [Tree.post, List.mem_append, List.mem_append, List.mem_singleton] at hk
    rcases hk with (hk | hk) | rfl
    · obtain ⟨i, h1, h2⟩ := eqv_node hl k hk hc
      exact ⟨i, by rw [Tree.post]; simp [h1], h2⟩
    · obtain ⟨i, h1, h2⟩ := eqv_node hr k hk hc
      exact ⟨i, by rw [Tree.post]; simp [h1], h2⟩
    · exact ⟨j, by rw [Tree.post]; simp, h⟩
  | .poly n f, u, he, k, hk, hc => by
    rw [Tree.expand, Tree.Eqv] at he
    obtain ⟨j, f', rfl, h, hf⟩ := he
    rw [Tree.post, List.mem_append, List.mem_singleton] at hk
    rcases hk with hk | rfl
    · obtain ⟨i, h1, h2⟩ := eqv_node_forest hf k hk hc
      exact ⟨i, by rw [Tree.post]; simp [h1], h2⟩
    · exact ⟨j, by rw [Tree.post]; simp, h⟩

/-- See `eqv_node`. -/
theorem eqv_node_forest {σ : Nat → Tree} : ∀ {f g : Forest}, (f.expand σ).Eqv g → ∀ n ∈ f.post, n.o ≠ Op.cse → ∃ k ∈ g.post, n.Eqv k
  | .nil, g, _, k, hk, _ => by rw [Forest.post] at hk; cases hk
  | .cons se t f, g, he, k, hk, hc => by
    rw [Forest.expand, Forest.Eqv] at he
    obtain ⟨se', t', f', rfl, h, ht, hf⟩ := he
    rw [Forest.post, List.mem_cons, List.mem_append] at hk
    rcases hk with rfl | hk | hk
    · exact ⟨se', by rw [Forest.post]; simp, h⟩
    · obtain ⟨i, h1, h2⟩ := eqv_node ht k hk hc
      exact ⟨i, by rw [Forest.post]; simp [h1], h2⟩
    · obtain ⟨i, h1, h2⟩ := eqv_node_forest hf k hk hc
      exact ⟨i, by rw [Forest.post]; simp [h1], h2⟩

end

/-! ## The state during the evaluation of the temporaries -/

/-- What `compute` knows when it has evaluated the temporaries `vs`, which stand for the trees `σ 0`, `σ 1`, …. -/
structure State [CharZero K] (m : Metric) (args : List (Arg K)) (w : Nat → CliffordAlgebra (diagForm K m.dim m.sq))
    (I : Interp (CliffordAlgebra (diagForm K m.dim m.sq))) (σ : Nat → Tree) (vs : List (Mv × Nat)) (b : Nat) (E : Env K) : Prop where
  ids : TempIds (mvOps m false) (argsSize args) vs b
  len : b ≤ E.data.length
  lt : b ≤ indConstantStart
  arg : ∀ k a, args[k]? = some a → ∀ i, i < a.data.length → E.rho (argOffset args k + i) = a.data.getD i 0
  temp : ∀ j v, vs[j]? = some v → ∃ es, RefShape m.dim v.1 es ∧ mvVal (intPow E.rho) (cliffBlade K m.dim m.sq) (genericN v.2 es) = (σ j).val I

section

variable [CharZero K] {m : Metric} {args : List (Arg K)} {w : Nat → CliffordAlgebra (diagForm K m.dim m.sq)}
  {D : CliffordAlgebra (diagForm K m.dim m.sq) →ₗ[K] CliffordAlgebra (diagForm K m.dim m.sq)} {f : Nat → K → K} {σ : Nat → Tree}
  {vs : List (Mv × Nat)} {b : Nat} {E : Env K}

/-- The ids the leaf reads. -/
def ReadsAs (args : List (Arg K)) (vs : List (Mv × Nat)) (n : Node) (i : Nat) : Prop :=
  (n.o = Op.id ∧ ∃ a, args[n.ex]? = some a ∧ argOffset args n.ex ≤ i ∧ i < argOffset args n.ex + a.data.length) ∨
  (n.o = Op.cse ∧ ∃ p, vs[n.ex]? = some p ∧ p.2 ≤ i ∧ i < p.2 + p.1.szT) ∨
  (Op.czero < n.o ∧ n.o < Op.cend ∧ i = n.o - Op.cpi + indConstantStart)

/-- A tree without quotients and functions. -/
theorem plain_eval (hm : m.dim ≤ 8)
    (hw : ∀ (k : Nat) (a : Arg K), args[k]? = some a → a.Denotes m.dim m.sq (argOffset args k) (w k)) (hD : IsDual K m.dim m.sq D)
    (S : State m args w (fullInterp K m.dim m.sq (fun k => E.consts.getD k 0) D w f) σ vs b E)
    {t u : Tree} (hs : t.Shape) (he : (t.expand σ).Eqv u) (hg : u.Good)
    (hp : ∀ n ∈ u.post, (NotQuot n → Plain m.dim E.consts.length n) ∧ ArgNode args n) (hq : ∀ n ∈ t.post, NotQuot n)
    (P : Nat → Prop) (hP : ∀ n ∈ t.post, ∀ i, ReadsAs args vs n i → P i) {x : Mv} (hx : t.eval (mvOps m false) (argMv args) vs = ok x) :
    SoundOn True True m.dim m.sq P E.rho x (u.val (fullInterp K m.dim m.sq (fun k => E.consts.getD k 0) D w f)) := by
  refine eval_refs (A := fun k => Plain m.dim E.consts.length k ∧ ArgNode args k ∧ ∃ n ∈ t.post, n.Eqv k) (R := SoundOn True True m.dim m.sq P E.rho)
    (refines_full (mv_refines_on True True m hm false (fun k => E.consts.getD k 0) D hD w E.consts.length _ (fun _ k hk => by
        unfold Env.rho
        rw [if_pos (by omega)]
        simp) (argMv args) P _ (fun n h => h.1) ?_ ?_) (fun n h => ⟨h.1.div, h.1.fn⟩)) hs he hg ?_ ?_ hx
  · rintro n ⟨-, -, k, hk, h1, h2, h3, -⟩ hz hc
    exact hP k hk _ (Or.inr (Or.inr ⟨by omega, by omega, by rw [h1]⟩))
  · rintro n ⟨-, hn, k, hk, e1, e2, e3, -⟩ ho x hx
    obtain ⟨h1, h2⟩ := hn ho
    have hk' := List.getElem?_eq_getElem h1
    obtain ⟨na, i1, i2⟩ := hw _ _ hk'
    have he : argMv args n.ex n.checksum = args[n.ex].ie (argOffset args n.ex) := by
      unfold argMv
      rw [hk', h2]
    simp only [mvOps, Bool.false_eq_true, if_false, he, ok_inj] at hx
    subst hx
    have e3 : k.ex = n.ex := e3 (by rw [e1, ho]; decide)
    exact ⟨na, i1.mono fun i hi => ⟨hP k hk _ (Or.inl ⟨by rw [e1, ho], _, by rw [e3]; exact hk', by rw [e3]; exact hi.1⟩), hi.2⟩,
      fun _ => i2 _ (S.arg _ _ hk')⟩
  · intro n hn hc k hk hnk
    have hq := hq n hn
    unfold NotQuot at hq
    rw [hnk.1] at hq
    exact ⟨(hp k hk).1 hq, (hp k hk).2, n, hn, hnk⟩
  · intro n hn hc a id y ha hy
    obtain ⟨es, h1, h2⟩ := S.temp _ _ ha
    simp only [mvOps, ok_inj] at hy
    subst hy
    refine ⟨_, (h1.stored id).mono fun i hi => ⟨hP n hn _ (Or.inr (Or.inl ⟨hc, _, ha, hi.1.1, ?_⟩)), hi.2⟩, fun _ => h2⟩
    show i.id < id + a.szT
    rw [h1.size]
    exact hi.1.2

/-- Everything that is read has a value. -/
theorem reads_avail (S : State m args w (fullInterp K m.dim m.sq (fun k => E.consts.getD k 0) D w f) σ vs b E) {n : Node} {i : Nat}
    (hn : n.o < Op.cend → Op.czero < n.o → n.o - Op.cpi < E.consts.length) (h : ReadsAs args vs n i) : Avail b E.consts.length i := by
  rcases h with ⟨_, a, h1, h2, h3⟩ | ⟨_, p, h1, h2, h3⟩ | ⟨h1, h2, rfl⟩
  · have := argOffset_le args h1
    have := S.ids.le
    exact Or.inl (by omega)
  · have : p.2 + p.1.szT ≤ b := (S.ids.mem p (List.mem_of_getElem? h1)).2
    exact Or.inl (by omega)
  · exact Or.inr ⟨Nat.le_add_left _ _, by rw [Nat.add_sub_cancel]; exact hn h2 h1⟩

/-- Different leaves read different ids. -/
theorem reads_same {I : Interp (CliffordAlgebra (diagForm K m.dim m.sq))} (S : State m args w I σ vs b E) {n x : Node} {i : Nat}
    (h : ReadsAs args vs n i) (h' : ReadsAs args vs x i) : SameLeaf n x := by
  have hle := S.ids.le
  have hlt := S.lt
  have ta : ∀ {p : Mv × Nat} {j : Nat}, vs[j]? = some p → argsSize args ≤ p.2 ∧ p.2 + p.1.szT ≤ b :=
    fun h => S.ids.mem _ (List.mem_of_getElem? h)
  have nn : ∀ o, Op.czero < o → Op.cpi ≤ o := fun o h => h
  rcases h with ⟨e, a, h1, h2, h3⟩ | ⟨e, p, h1, h2, h3⟩ | ⟨e, h1, h2⟩ <;>
    rcases h' with ⟨e', a', h1', h2', h3'⟩ | ⟨e', p', h1', h2', h3'⟩ | ⟨e', h1', h2'⟩
  · refine ⟨by rw [e, e'], fun _ => ?_⟩
    rcases Nat.lt_trichotomy n.ex x.ex with h | h | h
    · have := argOffset_lt args h1 h; omega
    · exact h
    · have := argOffset_lt args h1' h; omega
  · have := argOffset_le args h1; have := ta h1'; omega
  · have := argOffset_le args h1; omega
  · have := argOffset_le args h1'; have := ta h1; omega
  · refine ⟨by rw [e, e'], fun _ => ?_⟩
    rcases Nat.lt_trichotomy n.ex x.ex with h | h | h
    · have : p.2 + p.1.szT ≤ p'.2 := S.ids.before h h1 h1'; omega
    · exact h
    · have : p'.2 + p'.1.szT ≤ p.2 := S.ids.before h h1' h1; omega
  · have := ta h1; omega
  · have := argOffset_le args h1'; omega
  · have := ta h1'; omega
  · have h3 := nn _ e
    have h4 := nn _ e'
    refine ⟨by omega, fun h => ?_⟩
    exfalso
    simp only [Op.czero, Op.id, Op.cse] at e h
    omega

theorem genericN_one_val (ρ : Nat → K) (id : Nat) {n : Nat} {d : Nat → Int} :
    mvVal (intPow ρ) (cliffBlade K n d) (genericN id [0]) = ρ id • 1 := by
  rw [genericN_val _ _ _ [ρ id] id rfl (by
    intro i hi
    have : i = 0 := by simpa using hi
    subst this
    simp)]
  simp [pairsVal, cliffBlade_zero]

/-- A scalar leaf is one, or a single indeterminate. -/
theorem scalar_leaf (hw : ∀ (k : Nat) (a : Arg K), args[k]? = some a → a.Denotes m.dim m.sq (argOffset args k) (w k))
    (S : State m args w (fullInterp K m.dim m.sq (fun k => E.consts.getD k 0) D w f) σ vs b E) {x : Node} {u : Tree}
    (he : ((Tree.leaf x).expand σ).Eqv u) (hg : u.Good) (hp : ∀ n ∈ u.post, ArgNode args n) (hl : ScalarLeaf args vs E.consts.length x) {y : Mv}
    (hy : leafEval (mvOps m false) (argMv args) vs x = ok y) :
    (x.o = Op.cscalar ∧ y = oneMv ∧ u.val (fullInterp K m.dim m.sq (fun k => E.consts.getD k 0) D w f) = 1) ∨
    (x.o ≠ Op.cscalar ∧ ∃ id, y = scalarIe id ∧ ReadsAs args vs x id ∧ E.Has id ∧ (id < b ∨ indConstantStart ≤ id) ∧
      u.val (fullInterp K m.dim m.sq (fun k => E.consts.getD k 0) D w f) = E.rho id • 1) := by
  rw [Tree.expand] at he
  rcases hl with ⟨ho, a, h1, h2, h3⟩ | ⟨ho, p, h1, h2, h3⟩ | ho | ⟨h1, h2, h3⟩
  · right
    refine ⟨by rw [ho]; decide, argOffset args x.ex, ?_⟩
    rw [if_neg (by rw [ho]; decide), Tree.Eqv] at he
    obtain ⟨n, rfl, e1, e2, e3, -⟩ := he
    have e3 := e3 (by rw [ho]; decide)
    obtain ⟨-, hc⟩ := hp n (by rw [Tree.post]; simp) (by rw [← e1, ho])
    have hb := argOffset_le args h1
    have hle := S.ids.le
    have hlt := S.lt
    have hln := S.len
    refine ⟨?_, Or.inl ⟨ho, a, h1, le_refl _, by omega⟩, Or.inr ⟨by omega, by omega⟩, Or.inl (by omega), ?_⟩
    · rw [leafEval, if_pos ho] at hy
      simp only [mvOps, Bool.false_eq_true, if_false, ok_inj] at hy
      rw [← hy]
      unfold argMv
      rw [h1]
      dsimp only
      rw [e2, hc, ← e3, h2]
    · rw [Tree.val, if_pos (by rw [← e1, ho])]
      show w n.ex = _
      rw [← e3]
      obtain ⟨na, i1, i2⟩ := hw _ _ h1
      have hpk := i1.packed
      rw [h2] at hpk
      have : na = genericN (argOffset args x.ex) [0] := by
        have h := hpk.view
        have h' : (scalarIe (argOffset args x.ex)).view = ok (genericN (argOffset args x.ex) [0]) := rfl
        rw [h', ok_inj] at h
        exact h.symm
      rw [← i2 E.rho (S.arg _ _ h1), this, genericN_one_val]
  · right
    refine ⟨by rw [ho]; decide, p.2, ?_⟩
    rw [if_pos ho] at he
    obtain ⟨es, g1, g2⟩ := S.temp _ _ h1
    have hes : es = [0] := by
      have hl : es.length = 1 := by rw [← g1.size, h2]
      obtain ⟨e, rfl⟩ := List.length_eq_one_iff.1 hl
      have := congrArg (fun a : Mv => (a.terms.getD 0 default).element) (g1.ref 0)
      have ht : p.1.caps.t = 1 := by
        have := congrArg (fun a : Mv => a.caps.t) (g1.ref 0)
        exact this
      simp only [createRef, ht] at this
      have h0 : (p.1.terms.getD 0 default).element = e := this
      rw [← h0, h3]
    subst hes
    have hb : p.2 + p.1.szT ≤ b := (S.ids.mem p (List.mem_of_getElem? h1)).2
    have hlt := S.lt
    have hln := S.len
    refine ⟨?_, Or.inr (Or.inl ⟨ho, p, h1, le_refl _, by omega⟩), Or.inr ⟨by omega, by omega⟩, Or.inl (by omega), ?_⟩
    · rw [leafEval, if_neg (by rw [ho]; decide), if_pos ho, h1] at hy
      simp only [mvOps, ok_inj] at hy
      rw [← hy, g1.ref]
      rfl
    · rw [← he.val _ hg, ← g2, genericN_one_val]
  · left
    refine ⟨ho, ?_⟩
    rw [if_neg (by rw [ho]; decide), Tree.Eqv] at he
    obtain ⟨n, rfl, e1, -⟩ := he
    constructor
    · rw [leafEval, if_neg (by rw [ho]; decide), if_neg (by rw [ho]; decide), ho] at hy
      have : (mvOps m false).const Op.cscalar = ok oneMv := rfl
      rw [this, ok_inj] at hy
      exact hy.symm
    · rw [Tree.val, if_neg (by rw [← e1, ho]; decide)]
      rw [full_const, ← e1, ho]
      unfold cliffConst
      rw [if_neg (by decide), if_neg (by decide), Nat.sub_self, cliffBlade_zero]
  · right
    have h4 : x.o ≠ Op.id ∧ x.o ≠ Op.cse ∧ x.o ≠ Op.cscalar ∧ x.o ≠ Op.czero := by
      simp only [Op.czero, Op.cend, Op.id, Op.cse, Op.cscalar] at *
      omega
    refine ⟨h4.2.2.1, x.o - Op.cpi + indConstantStart, ?_⟩
    rw [if_neg h4.2.1, Tree.Eqv] at he
    obtain ⟨n, rfl, e1, -⟩ := he
    refine ⟨?_, Or.inr (Or.inr ⟨h1, h2, rfl⟩), Or.inl ⟨by omega, by omega⟩, Or.inr (by omega), ?_⟩
    · rw [leafEval, if_neg h4.1, if_neg h4.2.1] at hy
      simp only [mvOps] at hy
      unfold constMv at hy
      rw [if_neg h4.2.2.2, if_neg (by omega), if_pos h2, ok_inj] at hy
      exact hy.symm
    · rw [Tree.val, if_neg (by rw [← e1]; exact h4.1)]
      rw [full_const, ← e1]
      unfold cliffConst
      rw [if_neg h4.2.2.2, if_pos h2]
      unfold Env.rho
      rw [if_pos (by omega)]
      simp

theorem mem_leaf (x : Node) : x ∈ (Tree.leaf x).post := by rw [Tree.post]; simp

omit [CharZero K] in
theorem one_pw_val (E : Env K) (q : Rat32) (id : Nat) : NMon.val E.pw ⟨q, Rat32.one, [⟨id, Rat32.one⟩]⟩ = (q.toQ : K) * E.rho id := by
  have : (Rat32.one).toQ = 1 := by simp [Rat32.toQ, Rat32.one]
  simp [NMon.val, Ind.val, Env.pw, this]

omit [Field K] [CharZero K] in
/-- Named constants that are read are available. -/
theorem named_avail {t u : Tree} (he : (t.expand σ).Eqv u) (hp : ∀ n ∈ u.post, (NotQuot n → Plain m.dim E.consts.length n) ∧ ArgNode args n) :
    ∀ n ∈ t.post, n.o < Op.cend → Op.czero < n.o → n.o - Op.cpi < E.consts.length := by
  intro n hn h1 h2
  obtain ⟨k, hk, hnk⟩ := eqv_node he n hn (by intro e; rw [e] at h2; exact absurd h2 (by decide))
  have hq : NotQuot k := by
    unfold NotQuot IsFun
    rw [← hnk.1]
    simp only [Op.czero, Op.cend, Op.div, Op.sqrt, Op.sin, Op.cos, Op.tan] at *
    omega
  rcases ((hp k hk).1 hq).const (by rw [← hnk.1]; omega) with h | h | h
  · rw [← hnk.1] at h; omega
  · rw [hnk.1]; exact h.2
  · rw [← hnk.1] at h
    simp only [Op.cscalar, Op.cend] at h h1
    omega

/-- The elements of a temporary: those of a polynomial, those of the dividend, or the scalar alone for a function. -/
def ElemsOf (m : Metric) (args : List (Arg K)) (vs : List (Mv × Nat)) (t : Tree) (es : List Nat) : Prop :=
  (∃ a n, (∀ k ∈ t.post, NotQuot k) ∧ t.eval (mvOps m false) (argMv args) vs = ok a ∧ Packed a n ∧ es = n.map (·.element)) ∨
  (∃ d l x a n, t = .bin d l (.leaf x) ∧ d.o = Op.div ∧ (∀ k ∈ l.post, NotQuot k) ∧ l.eval (mvOps m false) (argMv args) vs = ok a ∧
    Packed a n ∧ es = n.map (·.element)) ∨
  ∃ d x, t = .un d (.leaf x) ∧ IsFun d.o ∧ es = [0]

/-- A temporary is stored with the value of the tree it stands for. -/
theorem block_stores {Φ : MvOp → K → Prop} (hm : m.dim ≤ 8)
    (hw : ∀ (k : Nat) (a : Arg K), args[k]? = some a → a.Denotes m.dim m.sq (argOffset args k) (w k)) (hD : IsDual K m.dim m.sq D)
    (S : State m args w (fullInterp K m.dim m.sq (fun k => E.consts.getD k 0) D w fun o => E.fn (fnOp o)) σ vs b E)
    {t u : Tree} (hs : t.Shape) (he : (t.expand σ).Eqv u) (hg : u.Good)
    (hp : ∀ n ∈ u.post, (NotQuot n → Plain m.dim E.consts.length n) ∧ ArgNode args n)
    (hb : BlockFine args vs E.consts.length t.post)
    (hz : Divisors (fullInterp K m.dim m.sq (fun k => E.consts.getD k 0) D w fun o => E.fn (fnOp o)) u)
    (hφ : FnArgs Φ (fullInterp K m.dim m.sq (fun k => E.consts.getD k 0) D w fun o => E.fn (fnOp o)) u)
    {a : Mv} (ha : t.eval (mvOps m false) (argMv args) vs = ok a) (hl : b + a.szT ≤ E.data.length) (hc : b + a.szT ≤ indConstantStart) :
    ∃ E' es, RefShape m.dim a es ∧
      Stores Φ E m.dim m.sq a b (u.val (fullInterp K m.dim m.sq (fun k => E.consts.getD k 0) D w fun o => E.fn (fnOp o))) E' ∧
      ElemsOf m args vs t es := by
  rcases hb.cases hs with hq | ⟨d, l, x, rfl, ho, hq, hx, hsm⟩ | ⟨d, x, rfl, ho, hq0, hx⟩
  · -- a polynomial
    obtain ⟨n, h1, h2⟩ := plain_eval hm hw hD S hs he hg hp hq (Avail b E.consts.length)
      (fun n hn i hi => reads_avail S (named_avail he hp n hn) hi) ha
    have hsz := h1.packed.szT
    have hsh : RefShape m.dim a (n.map (·.element)) := refShape_of (by rw [h1.packed.eq]; rfl) (h1.tight trivial) hsz
      (List.pairwise_map.2 h1.canon.asc) (by
        intro e he
        obtain ⟨t, ht, rfl⟩ := List.mem_map.1 he
        exact h1.elems t ht)
    obtain ⟨E', hE⟩ := stores_of_eval (d := m.sq) (id := b) h1.packed.view h1.packed.op (by
      intro t ht q hq i hh
      rcases (h1.inds t ht q hq i hh).1 with h | h
      · exact Or.inr h
      · exact Or.inl h.1) (stored_eval S.len S.lt h1) (by omega) (by omega) hsh (fun t ht q hq i hi => (h1.inds t ht q hq i hi).2.1)
    rw [mvVal_pw _ h1.canon, h2 trivial] at hE
    exact ⟨E', _, hsh, hE, Or.inl ⟨a, n, hq, ha, h1.packed, rfl⟩⟩
  · -- a quotient
    rw [Tree.expand, Tree.Eqv] at he
    obtain ⟨k, l', r', rfl, hk, hel, her⟩ := he
    rw [Tree.Shape] at hs
    rw [Tree.Good] at hg
    have hko : k.o = Op.div := by rw [← hk.1, ho]
    have hkq : d.q = k.q := hk.2.2.2 (Or.inr (Or.inl ho))
    simp only [Tree.eval, bind_eq_ok] at ha
    obtain ⟨y, hy, z, hz', ha⟩ := ha
    have hpl : ∀ n ∈ l'.post, (NotQuot n → Plain m.dim E.consts.length n) ∧ ArgNode args n := fun n hn => hp n (by rw [Tree.post]; simp [hn])
    have hpr : ∀ n ∈ r'.post, ArgNode args n := fun n hn => (hp n (by rw [Tree.post]; simp [hn])).2
    rw [binEval, if_neg (by rw [ho]; decide), if_neg (by rw [ho]; decide), if_neg (by rw [ho]; decide)] at ha
    simp only [mvOps] at ha
    have hval : ∀ s : K, r'.val (fullInterp K m.dim m.sq (fun k => E.consts.getD k 0) D w fun o => E.fn (fnOp o)) = s • 1 →
        (Tree.bin k l' r').val (fullInterp K m.dim m.sq (fun k => E.consts.getD k 0) D w fun o => E.fn (fnOp o)) =
          ((d.q.toQ : K) * s⁻¹) • l'.val (fullInterp K m.dim m.sq (fun k => E.consts.getD k 0) D w fun o => E.fn (fnOp o)) := by
      intro s hs
      rw [Tree.val, if_neg (by rw [hko]; decide), if_neg (by rw [hko]; decide), if_neg (by rw [hko]; decide), ← hkq]
      show d.q.toQ • ((scalarPart K m.dim m.sq _)⁻¹ • _) = _
      rw [hs, scalarPart_smul_one, ← qsmul_eq (K := K), smul_smul]
    have hfin : ∀ (s : K) (n nr : NMv), Stored (PosInd (Avail b E.consts.length)) m.dim y n →
        mvVal (intPow E.rho) (cliffBlade K m.dim m.sq) n = l'.val (fullInterp K m.dim m.sq (fun k => E.consts.getD k 0) D w fun o => E.fn (fnOp o)) →
        r'.val (fullInterp K m.dim m.sq (fun k => E.consts.getD k 0) D w fun o => E.fn (fnOp o)) = s • 1 →
        Quotient E y a n d.q s nr → RefsBelow b nr → IndsAll (fun i => i.deg.den = 1) nr → ∃ E' es, RefShape m.dim a es ∧
          Stores Φ E m.dim m.sq a b ((Tree.bin k l' r').val (fullInterp K m.dim m.sq (fun k => E.consts.getD k 0) D w fun o => E.fn (fnOp o))) E' ∧
          ElemsOf m args vs (.bin d l (.leaf x)) es := by
      intro s n nr h1 h2 h3 h4 h5 h6
      have hlen : nr.length = n.length := by
        have := congrArg List.length h4.elems
        simpa using this
      have hsz := h4.packed.szT
      have hsh : RefShape m.dim a (nr.map (·.element)) := refShape_of (by rw [h4.packed.eq]; rfl)
        (by rw [h4.tight, h1.tight trivial, hlen]) hsz (by rw [h4.elems]; exact List.pairwise_map.2 h1.canon.asc) (by
          intro e he
          rw [h4.elems] at he
          obtain ⟨t, ht, rfl⟩ := List.mem_map.1 he
          exact h1.elems t ht)
      obtain ⟨E', hE⟩ := stores_of_eval (d := m.sq) (id := b) h4.packed.view h4.packed.op h5 h4.eval (by omega) (by omega) hsh h6
      rw [h4.value, mvVal_pw _ h1.canon, h2, ← hval s h3] at hE
      exact ⟨E', _, hsh, hE, Or.inr (Or.inl ⟨d, l, x, y, n, rfl, ho, hq, hy, h1.packed, h4.elems⟩)⟩
    have hdq : d.q.WF := by rw [hkq]; exact hg.2.1 hko
    have hrb : ∀ {n : NMv}, IndsAll (PosInd (Avail b E.consts.length)) n → IndsAll (fun i => indConstantStart ≤ i.id ∨ i.id < b) n := by
      intro n h
      refine h.mono fun i hi => ?_
      rcases hi.1 with h | h
      · exact Or.inr h
      · exact Or.inl h.1
    rcases scalar_leaf hw S her hg.2.2.2 hpr hx hz' with ⟨-, rfl, hv⟩ | ⟨hcs, id, rfl, hid, hhas, hlt, hv⟩
    · obtain ⟨n, h1, h2⟩ := plain_eval hm hw hD S hs.2.1 hel hg.2.2.1 hpl hq (Avail b E.consts.length)
        (fun n hn i hi => reads_avail S (named_avail hel hpl n hn) hi) hy
      obtain ⟨nr, h3, h4⟩ := divide_one h1.packed (stored_eval S.len S.lt h1) hdq ha
      exact hfin 1 n nr h1 (h2 trivial) (by rw [hv, one_smul]) h3 (h4 _ (hrb h1.inds)) (h4 _ (h1.inds.mono fun i hi => hi.2.1))
    · obtain ⟨n, h1, h2⟩ := plain_eval hm hw hD S hs.2.1 hel hg.2.2.1 hpl hq (fun i => Avail b E.consts.length i ∧ i ≠ id)
        (fun n hn i hi => ⟨reads_avail S (named_avail hel hpl n hn) hi, fun e => hsm hcs n hn (reads_same S (e ▸ hi) hid)⟩) hy
      have h1' : Stored (PosInd (Avail b E.consts.length)) m.dim y n := h1.mono fun i hi => ⟨hi.1.1, hi.2⟩
      have h0 : E.rho id ≠ 0 := by
        have := hz 0 k l' r' (Tree.at_zero _) hko
        rwa [hv, scalarPart_smul_one] at this
      obtain ⟨nr, h3, h4⟩ := divide_atom h1.packed (stored_eval S.len S.lt h1') (fun t ht q hq i hi => (h1.inds t ht q hq i hi).1.2) hhas h0 hdq ha
      exact hfin _ n nr h1' (h2 trivial) hv h3 (h4 _ (hrb h1'.inds) hlt.symm) (h4 _ (h1'.inds.mono fun i hi => hi.2.1) rfl)
  · -- a function
    rw [Tree.expand, Tree.Eqv] at he
    obtain ⟨k, l', rfl, hk, hel⟩ := he
    rw [Tree.Shape] at hs
    rw [Tree.Good] at hg
    have hne : d.o ≠ Op.rev ∧ d.o ≠ Op.pd ∧ d.o ≠ Op.comp ∧ d.o ≠ Op.grd := by
      rcases ho with e | e | e | e <;> rw [e] <;> decide
    have hkq : d.q = k.q := hk.2.2.2 (Or.inr (Or.inr ho))
    simp only [Tree.eval, bind_eq_ok] at ha
    obtain ⟨y, hy, ha⟩ := ha
    have hpl : ∀ n ∈ l'.post, ArgNode args n := fun n hn => (hp n (by rw [Tree.post]; simp [hn])).2
    rw [unEval, if_neg hne.1, if_neg hne.2.1, if_neg hne.2.2.1, if_neg hne.2.2.2] at ha
    simp only [mvOps] at ha
    have hval : ∀ s : K, l'.val (fullInterp K m.dim m.sq (fun k => E.consts.getD k 0) D w fun o => E.fn (fnOp o)) = s • 1 →
        (Tree.un k l').val (fullInterp K m.dim m.sq (fun k => E.consts.getD k 0) D w fun o => E.fn (fnOp o)) =
          E.fn (fnOp d.o) ((d.q.toQ : K) * s) • 1 := by
      intro s hs
      rw [Tree.val, if_neg (by rw [← hk.1]; exact hne.1), if_neg (by rw [← hk.1]; exact hne.2.1), if_neg (by rw [← hk.1]; exact hne.2.2.1),
        if_neg (by rw [← hk.1]; exact hne.2.2.2), ← hkq, ← hk.1, hs]
      show E.fn (fnOp d.o) (scalarPart K m.dim m.sq (d.q.toQ • (s • 1))) • 1 = _
      rw [← qsmul_eq (K := K), smul_smul, scalarPart_smul_one]
    have hdq : d.q.WF := by rw [hkq]; exact hg.2.1 (by rw [← hk.1]; exact ho)
    have hφ' : ∀ s : K, l'.val (fullInterp K m.dim m.sq (fun k => E.consts.getD k 0) D w fun o => E.fn (fnOp o)) = s • 1 → Φ (fnOp d.o) ((d.q.toQ : K) * s) := by
      intro s hs
      have := hφ 0 k l' (Tree.at_zero _) (by rw [← hk.1]; exact ho)
      rwa [hs, ← qsmul_eq (K := K), smul_smul, scalarPart_smul_one, ← hk.1, ← hkq] at this
    have hfo : fnOp d.o ≠ .id := by
      rcases ho with e | e | e | e <;> rw [e] <;> decide
    rcases scalar_leaf hw S hel hg.2.2 hpl hx hy with ⟨-, rfl, hv⟩ | ⟨hcs, id, rfl, hid, hhas, hlt, hv⟩
    · obtain ⟨q', h1, h2, h3, h4, h5, h6⟩ := fn_one (dim := m.dim) hdq hq0 ha
      have := h6.size
      obtain ⟨E', hE⟩ := stores_of_fn (E := E) (d := m.sq) (id := b) h4 (by rw [h5]; exact hfo) h1 h2 (by simp) (by simp at this; omega) (by simp at this; omega) h6
        (by simp) (by
          have := hφ' 1 (by rw [hv, one_smul])
          rw [mul_one, ← h3, ← h5] at this
          simpa [NMon.val] using this)
      refine ⟨E', _, h6, ?_, Or.inr (Or.inr ⟨d, x, rfl, ho, rfl⟩)⟩
      rw [hval 1 (by rw [hv, one_smul]), ← h5, mul_one, ← h3]
      simpa [NMon.val] using hE
    · obtain ⟨q', h1, h2, h3, h4, h5, h6⟩ := fn_atom (dim := m.dim) hdq hq0 ha
      have := h6.size
      obtain ⟨E', hE⟩ := stores_of_fn (E := E) (d := m.sq) (id := b) h4 (by rw [h5]; exact hfo) h1 h2 (by
        intro i hi
        rw [List.mem_singleton] at hi
        subst hi
        exact ⟨hhas, by show Rat32.one.Canon; decide, by show (1 : Int) ≠ 0; decide, by show i32Min < 1; decide,
          fun h => absurd h (by show ¬ (1 : Int) < 0; decide)⟩) (by simp at this; omega) (by simp at this; omega) h6 (by
        intro i hi
        rw [List.mem_singleton] at hi
        subst hi
        exact ⟨rfl, hlt⟩) (by
        have := hφ' _ hv
        rwa [← h5, ← h3, ← one_pw_val] at this)
      refine ⟨E', _, h6, ?_, Or.inr (Or.inr ⟨d, x, rfl, ho, rfl⟩)⟩
      rw [hval _ hv, ← h5, ← h3, ← one_pw_val]
      exact hE

end

theorem tempIds_end {α : Type} {M : Ops α} : ∀ {ps : List (α × Nat)} {b e e' : Nat}, TempIds M b ps e → TempIds M b ps e' → e = e'
  | [], _, _, _, h, h' => h.symm.trans h'
  | _ :: _, _, _, _, h, h' => tempIds_end h.2 h'.2

theorem TempIds.take {α : Type} {M : Ops α} : ∀ {ps : List (α × Nat)} {b e : Nat}, TempIds M b ps e → ∀ {k : Nat} {p : α × Nat}, ps[k]? = some p →
    TempIds M b (ps.take k) p.2
  | p :: ps, b, e, h, 0, q, hq => by
    simp only [List.getElem?_cons_zero, Option.some.injEq] at hq
    subst hq
    exact h.1.symm
  | p :: ps, b, e, h, k + 1, q, hq => by
    simp only [List.getElem?_cons_succ] at hq
    exact ⟨h.1, TempIds.take h.2 hq⟩

theorem TempIds.take_succ {α : Type} {M : Ops α} : ∀ {ps : List (α × Nat)} {b e : Nat}, TempIds M b ps e → ∀ {k : Nat} {p : α × Nat}, ps[k]? = some p →
    TempIds M b (ps.take (k + 1)) (p.2 + M.size p.1)
  | p :: ps, b, e, h, 0, q, hq => by
    simp only [List.getElem?_cons_zero, Option.some.injEq] at hq
    subst hq
    exact ⟨h.1, by rw [h.1]; rfl⟩
  | p :: ps, b, e, h, k + 1, q, hq => by
    simp only [List.getElem?_cons_succ] at hq
    exact ⟨h.1, TempIds.take_succ h.2 hq⟩

theorem finalizeTemps_snoc : ∀ (ps : List (Mv × Nat)) {E E1 E2 : Env K} {a : Mv} {id : Nat}, finalizeTemps none E ps = ok E1 →
    computeTemp E1 a id = ok E2 → finalizeTemps none E (ps ++ [(a, id)]) = ok E2
  | [], E, E1, E2, a, id, h1, h2 => by
    rw [finalizeTemps, ok_inj] at h1
    subst h1
    rw [List.nil_append, finalizeTemps, toOutput, ok_bind, h2, ok_bind, finalizeTemps]
  | (x, i) :: ps, E, E1, E2, a, id, h1, h2 => by
    rw [finalizeTemps, toOutput, ok_bind, bind_eq_ok] at h1
    obtain ⟨E3, h3, h4⟩ := h1
    rw [List.cons_append, finalizeTemps, toOutput, ok_bind, h3, ok_bind]
    exact finalizeTemps_snoc ps h4 h2

omit [Field K] in
theorem ScalarLeaf.take {args : List (Arg K)} {vs : List (Mv × Nat)} {nc k : Nat} {n : Node} (h : ScalarLeaf args vs nc n) (hk : n.o = Op.cse → n.ex < k) :
    ScalarLeaf args (vs.take k) nc n := by
  rcases h with h | ⟨h1, p, h2, h3⟩ | h | h
  · exact Or.inl h
  · exact Or.inr (Or.inl ⟨h1, p, by rw [List.getElem?_take_of_lt (hk h1)]; exact h2, h3⟩)
  · exact Or.inr (Or.inr (Or.inl h))
  · exact Or.inr (Or.inr (Or.inr h))

omit [Field K] in
theorem BlockFine.take {args : List (Arg K)} {vs : List (Mv × Nat)} {nc k : Nat} {ns : List Node} (h : BlockFine args vs nc ns)
    (hk : ∀ n ∈ ns, n.o = Op.cse → n.ex < k) : BlockFine args (vs.take k) nc ns := by
  rcases h with h | ⟨l, x, d, e, h1, h2, h3⟩
  · exact Or.inl h
  · exact Or.inr ⟨l, x, d, e, h1, h2.take (hk x (by rw [e]; simp)), h3⟩

/-- No division by zero takes place in the evaluation of a compiled expression in an ordinary basis. -/
structure RunFine (Φ : MvOp → K → Prop) (E : Env K) (args : List (Arg K)) (c : Compiled) : Prop where
  room : argsSize args ≤ c.state.nextId
  factor : c.state.args ≠ [] → c.q.WF
  temps : ∀ data, fill (List.replicate (argsSize args + c.state.nextId - argsSize args) 0) 0 (args.map fun a => a.data) = ok data →
    ∀ (k : Nat) (v : Mv × Nat), c.state.temps[k]? = some v →
    ∃ E', finalizeTemps none { E with data := data } (c.state.temps.take k) = ok E' ∧ TempFine Φ E' v.1 v.2
  result : ∀ data E', fill (List.replicate (argsSize args + c.state.nextId - argsSize args) 0) 0 (args.map fun a => a.data) = ok data →
    finalizeTemps none { E with data := data } c.state.temps = ok E' → ∀ a ∈ c.state.args, ∃ n, a.view = ok n ∧ a.op = .id ∧ FineView E' n

/-- **C48, for a program that computes the expression.**  `Q` is what is known about the elements of a temporary. -/
theorem compute_blocks [CharZero K] {Φ : MvOp → K → Prop} (m : Metric) (hm : m.dim ≤ 8) (E : Env K) (args : List (Arg K))
    {w : Nat → CliffordAlgebra (diagForm K m.dim m.sq)}
    (hw : ∀ (k : Nat) (a : Arg K), args[k]? = some a → a.Denotes m.dim m.sq (argOffset args k) (w k))
    {D : CliffordAlgebra (diagForm K m.dim m.sq) →ₗ[K] CliffordAlgebra (diagForm K m.dim m.sq)} (hD : IsDual K m.dim m.sq D)
    {T : Tree} {q : Rat32} {r : Rpne} {σ : Nat → Tree} {ts : List Tree} {mt : Tree} (hC : ComputesBy σ ts mt T) (e : r.nodes = blocks ts ++ mt.post)
    (hrq : r.q = q) (hg : T.Good) (hq : q.WF) (h0 : q.num ≠ 0)
    (hp : ∀ n ∈ T.post, (NotQuot n → Plain m.dim E.consts.length n) ∧ ArgNode args n)
    (hz : Divisors (fullInterp K m.dim m.sq (fun k => E.consts.getD k 0) D w fun o => E.fn (fnOp o)) T)
    (hφ : FnArgs Φ (fullInterp K m.dim m.sq (fun k => E.consts.getD k 0) D w fun o => E.fn (fnOp o)) T) {s : RState Mv}
    (hs : runNodes (mvOps m false) r.nodes.length r.nodes ⟨gatherInputs (argMv args) r.nodes, [], [], argsSize args⟩ = ok s)
    (hc : s.nextId ≤ indConstantStart) (Q : Tree → List Nat → Prop)
    (hf : ∀ (k : Nat) (t : Tree) (b : Nat) (E' : Env K), ts[k]? = some t → (s.temps.take k).length = k →
      State m args w (fullInterp K m.dim m.sq (fun k => E.consts.getD k 0) D w fun o => E.fn (fnOp o)) σ (s.temps.take k) b E' →
      (∀ (j : Nat) (v : Mv × Nat) (es : List Nat), (s.temps.take k)[j]? = some v → RefShape m.dim v.1 es → Q (σ j) es) →
      BlockFine args (s.temps.take k) E.consts.length t.post ∧ ∀ es, ElemsOf m args (s.temps.take k) t es → Q (σ k) es)
    (hmq : ∀ n ∈ mt.post, NotQuot n) :
    ∃ x, runCompiled m false E args ⟨s, r.q⟩ = ok [x] ∧
      x.Denotes m.dim m.sq (q.toQ • T.val (fullInterp K m.dim m.sq (fun k => E.consts.getD k 0) D w fun o => E.fn (fnOp o))) ∧
      RunFine Φ E args ⟨s, r.q⟩ := by
  generalize hI : fullInterp K m.dim m.sq (fun k => E.consts.getD k 0) D w (fun o => E.fn (fnOp o)) = I at hz hφ hf ⊢
  obtain ⟨hts, hms, hmr, hme⟩ := hC
  have hs' : run (mvOps m false) (blocks ts ++ mt.post) ⟨gatherInputs (argMv args) (blocks ts ++ mt.post), [], [], argsSize args⟩ = ok s := by
    rw [← e]; exact hs
  have hsh : ∀ t ∈ ts, t.Shape := by
    intro t ht
    obtain ⟨j, hj⟩ := List.getElem?_of_mem ht
    exact (hts j t hj).1
  obtain ⟨vs, id', hl, hids, hv, hr⟩ := run_blocks (ie := argMv args) hsh (gatherInputs_append _ _ _) hs'
  rw [← List.append_nil mt.post, run_tree (mvOps m false) (argMv args) mt hms [] _ [] (by simp), bind_eq_ok] at hr
  obtain ⟨y, hy, hr⟩ := hr
  rw [run_nil, ok_inj] at hr
  subst hr
  simp only [List.nil_append] at hy hv hids hc hf ⊢
  -- the data
  have hle := hids.le
  have hlen : (args.map fun a => a.data).flatten.length ≤ (List.replicate (argsSize args + id' - argsSize args) (0 : K)).length := by
    rw [← argsSize_eq, List.length_replicate]
    omega
  have hfill := C41_fill (args.map fun a => a.data) _ hlen
  generalize hdat : (args.map fun a => a.data).flatten ++ (List.replicate (argsSize args + id' - argsSize args) (0 : K)).drop
    (args.map fun a => a.data).flatten.length = dat at hfill
  have hdl : dat.length = id' := by
    rw [← hdat, List.length_append, List.length_drop, List.length_replicate, ← argsSize_eq]
    omega
  have hρ : ∀ k a, args[k]? = some a → ∀ i, i < a.data.length → ({ E with data := dat } : Env K).rho (argOffset args k + i) = a.data.getD i 0 := by
    intro k a hk i hi
    have hb := argOffset_le args hk
    obtain ⟨out, o1, o2⟩ := C41_position (args.map fun a => a.data) _ hlen (k := k) (i := i) (d := a.data) (v := a.data.getD i 0)
      (by rw [List.getElem?_map, hk]; rfl) (by rw [List.getElem?_eq_getElem hi, List.getD_eq_getElem _ _ hi])
    rw [hfill, ok_inj] at o1
    subst o1
    rw [← argOffset_eq] at o2
    unfold Env.rho
    rw [if_neg (by omega)]
    simp only [List.getD_eq_getElem?_getD] at o2 ⊢
    rw [o2]
    rfl
  -- the temporaries
  have key : ∀ k, k ≤ vs.length → ∃ (b : Nat) (E' : Env K), finalizeTemps none { E with data := dat } (vs.take k) = ok E' ∧
      E'.consts = E.consts ∧ E'.fn = E.fn ∧ E'.data.length = id' ∧ b ≤ id' ∧ State m args w I σ (vs.take k) b E' ∧
      (∀ (j : Nat) (v : Mv × Nat) (es : List Nat), (vs.take k)[j]? = some v → RefShape m.dim v.1 es → Q (σ j) es) ∧
      ∀ (j : Nat) (v : Mv × Nat), (vs.take k)[j]? = some v →
        ∃ Ej, finalizeTemps none { E with data := dat } (vs.take j) = ok Ej ∧ TempFine Φ Ej v.1 v.2 := by
    intro k
    induction k with
    | zero =>
      intro _
      refine ⟨argsSize args, { E with data := dat }, rfl, rfl, rfl, hdl, hle, ⟨rfl, ?_, by omega, hρ, ?_⟩, ?_, ?_⟩
      · show _ ≤ dat.length
        omega
      · intro j v hj
        simp at hj
      · intro j v es hj
        simp at hj
      · intro j v hj
        simp at hj
    | succ k ih =>
      intro hk
      obtain ⟨b, E', g1, g2, g3, g4, g5, S, hQ, hF⟩ := ih (by omega)
      have hkv := List.getElem?_eq_getElem (show k < vs.length by omega)
      obtain ⟨a, id, ha⟩ : ∃ a id, vs[k] = (a, id) := ⟨_, _, rfl⟩
      rw [ha] at hkv
      have hkt : k < ts.length := by omega
      obtain ⟨t1, t2, t3, p, t4⟩ := hts k ts[k] (List.getElem?_eq_getElem hkt)
      have hbe : b = id := tempIds_end S.ids (hids.take hkv)
      have hsz : id + a.szT ≤ id' := (hids.mem _ (List.mem_of_getElem? hkv)).2
      subst hbe
      obtain ⟨hbf, hel⟩ := hf k ts[k] b E' (List.getElem?_eq_getElem hkt) (by rw [List.length_take]; omega) S hQ
      have hev : ts[k].eval (mvOps m false) (argMv args) (vs.take k) = ok a := hv k _ _ (List.getElem?_eq_getElem hkt) hkv
      have hS : State m args w (fullInterp K m.dim m.sq (fun k => E'.consts.getD k 0) D w fun o => E'.fn (fnOp o)) σ (vs.take k) b E' := by
        rw [g2, g3, hI]; exact S
      obtain ⟨E'', es, r1, r2, r3⟩ := block_stores hm hw hD hS t1 t3 (t4.good hg) (by rw [g2]; exact fun n hn => hp n (t4.mem n hn))
        (by rw [g2]; exact hbf) (by
          rw [g2, g3, hI]
          intro p' n l r hat
          exact hz _ n l r (t4.trans hat)) (by
          rw [g2, g3, hI]
          intro p' n l hat
          exact hφ _ n l (t4.trans hat)) hev (by omega) (by omega)
      rw [g2, g3, hI] at r2
      have htk : vs.take (k + 1) = vs.take k ++ [(a, b)] := by
        rw [List.take_succ_eq_append_getElem (by omega), ha]
      refine ⟨b + a.szT, E'', ?_, by rw [r2.consts, g2], by rw [r2.fn, g3], by rw [r2.len, g4], hsz, ⟨hids.take_succ hkv, ?_, by omega, ?_, ?_⟩, ?_, ?_⟩
      · rw [htk]
        exact finalizeTemps_snoc _ g1 r2.run
      · rw [r2.len, g4]; exact hsz
      · intro j x hj i hi
        have h1 := argOffset_le args hj
        have h2 := S.ids.le
        rw [r2.rho _ (Or.inl (by omega)), S.arg j x hj i hi]
      · intro j v hj
        rcases Nat.lt_or_ge j k with h | h
        · rw [List.getElem?_take_of_lt (by omega), ← List.getElem?_take_of_lt h] at hj
          obtain ⟨es', h1, h2⟩ := S.temp j v hj
          refine ⟨es', h1, ?_⟩
          rw [← h2]
          refine mvVal_congr_rho _ (genericN_posInd es' v.2) fun i hi => r2.rho i (Or.inl ?_)
          have h3 : v.2 + v.1.szT ≤ b := (S.ids.mem v (List.mem_of_getElem? hj)).2
          rw [h1.size] at h3
          omega
        · rw [htk, List.getElem?_append_right (by rw [List.length_take]; omega), List.length_take, min_eq_left (by omega)] at hj
          have hjk : j = k := by
            by_contra hne
            rw [List.getElem?_eq_none (by simp; omega)] at hj
            cases hj
          subst hjk
          rw [Nat.sub_self, List.getElem?_cons_zero, Option.some.injEq] at hj
          subst hj
          exact ⟨es, r1, r2.value es r1⟩
      · intro j v es' hj h
        rcases Nat.lt_or_ge j k with hlt | hge
        · rw [List.getElem?_take_of_lt (by omega), ← List.getElem?_take_of_lt hlt] at hj
          exact hQ j v es' hj h
        · rw [htk, List.getElem?_append_right (by rw [List.length_take]; omega), List.length_take, min_eq_left (by omega)] at hj
          have hjk : j = k := by
            by_contra hne
            rw [List.getElem?_eq_none (by simp; omega)] at hj
            cases hj
          subst hjk
          rw [Nat.sub_self, List.getElem?_cons_zero, Option.some.injEq] at hj
          subst hj
          rw [refShape_unique h r1]
          exact hel es r3
      · intro j v hj
        rcases Nat.lt_or_ge j k with hlt | hge
        · rw [List.getElem?_take_of_lt (by omega), ← List.getElem?_take_of_lt hlt] at hj
          exact hF j v hj
        · rw [htk, List.getElem?_append_right (by rw [List.length_take]; omega), List.length_take, min_eq_left (by omega)] at hj
          have hjk : j = k := by
            by_contra hne
            rw [List.getElem?_eq_none (by simp; omega)] at hj
            cases hj
          subst hjk
          rw [Nat.sub_self, List.getElem?_cons_zero, Option.some.injEq] at hj
          subst hj
          exact ⟨E', g1, r2.fine⟩
  obtain ⟨b, E', g1, g2, g3, g4, g5, S, -, hF⟩ := key vs.length (le_refl _)
  rw [List.take_length] at g1 S hF
  have hbe : b = id' := tempIds_end S.ids hids
  subst hbe
  have hS : State m args w (fullInterp K m.dim m.sq (fun k => E'.consts.getD k 0) D w fun o => E'.fn (fnOp o)) σ vs b E' := by
    rw [g2, g3, hI]; exact S
  obtain ⟨n, hn, hv'⟩ := plain_eval hm hw hD hS hms hme hg (by rw [g2]; exact hp) hmq (Avail b E'.consts.length)
    (fun n hn i hi => reads_avail hS (named_avail hme (by rw [g2]; exact hp) n hn) hi) hy
  rw [g2, g3, hI] at hv'
  have hev : EvalMv E' n := stored_eval S.len S.lt hn
  obtain ⟨z, z1, z2, z3, z4⟩ := C32_entity_partial (cliffBlade K m.dim m.sq) E' hn.packed.view hn.packed.op hev q.num q.den h0 hq.pos
  refine ⟨z, ?_, ⟨z3, by rw [z2]; exact List.pairwise_map.2 hn.canon.asc, ?_, ?_⟩, hle, fun _ => hrq ▸ hq, fun data hd => ?_, fun data E'' hd hE'' a ha => ?_⟩
  · unfold runCompiled
    dsimp only
    rw [hfill, ok_bind]
    unfold nullDim
    simp only [Bool.false_eq_true, if_false]
    rw [g1, ok_bind, hrq]
    simp only [finishCompute, finalizeEntity, toOutput, ok_bind, z1]
    rfl
  · intro e he
    rw [z2] at he
    obtain ⟨t, ht, rfl⟩ := List.mem_map.1 he
    exact hn.elems t ht
  · rw [z4, mvVal_pw _ hn.canon, hv' trivial, ← qsmul_eq (K := K)]
    congr 1
    simp [Rat32.toQ]
  · obtain rfl := ok_inj.1 (hfill.symm.trans hd)
    exact hF
  · obtain rfl := ok_inj.1 (hfill.symm.trans hd)
    obtain rfl := ok_inj.1 (g1.symm.trans hE'')
    obtain rfl := List.mem_singleton.1 ha
    exact ⟨n, hn.packed.view, hn.packed.op, fineView_of hev fun t ht m hm i hi => (hn.inds t ht m hm i hi).2.1⟩

/-- `compute_blocks` for a program that is fine. -/
theorem compute_fine [CharZero K] {Φ : MvOp → K → Prop} (m : Metric) (hm : m.dim ≤ 8) (E : Env K) (args : List (Arg K))
    {w : Nat → CliffordAlgebra (diagForm K m.dim m.sq)}
    (hw : ∀ (k : Nat) (a : Arg K), args[k]? = some a → a.Denotes m.dim m.sq (argOffset args k) (w k))
    {D : CliffordAlgebra (diagForm K m.dim m.sq) →ₗ[K] CliffordAlgebra (diagForm K m.dim m.sq)} (hD : IsDual K m.dim m.sq D)
    {T : Tree} {q : Rat32} {r : Rpne} (hx : Extracts T q r) (hg : T.Good) (hq : q.WF) (h0 : q.num ≠ 0)
    (hp : ∀ n ∈ T.post, (NotQuot n → Plain m.dim E.consts.length n) ∧ ArgNode args n)
    (hz : Divisors (fullInterp K m.dim m.sq (fun k => E.consts.getD k 0) D w fun o => E.fn (fnOp o)) T)
    (hφ : FnArgs Φ (fullInterp K m.dim m.sq (fun k => E.consts.getD k 0) D w fun o => E.fn (fnOp o)) T) {s : RState Mv}
    (hs : runNodes (mvOps m false) r.nodes.length r.nodes ⟨gatherInputs (argMv args) r.nodes, [], [], argsSize args⟩ = ok s)
    (hc : s.nextId ≤ indConstantStart) (hf : ProgramFine args s.temps E.consts.length r.nodes) :
    ∃ x, runCompiled m false E args ⟨s, r.q⟩ = ok [x] ∧
      x.Denotes m.dim m.sq (q.toQ • T.val (fullInterp K m.dim m.sq (fun k => E.consts.getD k 0) D w fun o => E.fn (fnOp o))) ∧
      RunFine Φ E args ⟨s, r.q⟩ := by
  obtain ⟨ts, mt, e, ⟨σ, hC⟩, hrq⟩ := hx
  obtain ⟨bs, m', e', hbs, hm'⟩ := hf
  have hsh : ∀ t ∈ ts, t.Shape := by
    intro t ht
    obtain ⟨j, hj⟩ := List.getElem?_of_mem ht
    exact (hC.1 j t hj).1
  rw [e] at e'
  obtain ⟨u1, u2⟩ := blocks_unique hsh hC.2.1.ne_noop (fun b hb => (hbs b hb).2) (fun n hn => (hm' n hn).2) e'
  subst u1 u2
  refine compute_blocks m hm E args hw hD hC e hrq hg hq h0 hp hz hφ hs hc (fun _ _ => True) (fun k t b E' ht _ _ _ => ⟨?_, fun _ _ => trivial⟩)
    fun n hn => (hm' n hn).1
  exact (hbs _ (List.mem_map_of_mem (List.mem_of_getElem? ht))).1.take (hC.1 k t ht).2.1

omit [Field K] in
theorem Env.named_eq (E : Env K) : E.named = fun o => E.fn (fnOp o) := by
  funext o
  unfold Env.named fnOp
  split
  · rfl
  · split
    · rfl
    · split <;> rfl

/-- `C48_compute_partial` below, and no division by zero takes place. -/
theorem compute_quot [CharZero K] {Φ : MvOp → K → Prop} (m : Metric) (hm : m.dim ≤ 8) (E : Env K) (args : List (Arg K))
    {w : Nat → CliffordAlgebra (diagForm K m.dim m.sq)}
    (hw : ∀ (k : Nat) (a : Arg K), args[k]? = some a → a.Denotes m.dim m.sq (argOffset args k) (w k))
    {D : CliffordAlgebra (diagForm K m.dim m.sq) →ₗ[K] CliffordAlgebra (diagForm K m.dim m.sq)} (hD : IsDual K m.dim m.sq D)
    {e : Rpne} {v : CliffordAlgebra (diagForm K m.dim m.sq)}
    (he : Means (fullInterp K m.dim m.sq (fun k => E.consts.getD k 0) D w E.named) e v)
    (hp : ∀ n ∈ e.nodes, (NotQuot n → Plain m.dim E.consts.length n) ∧ ArgNode args n)
    (hz : ∀ T : Tree, T.Good → e.nodes = T.post → Divisors (fullInterp K m.dim m.sq (fun k => E.consts.getD k 0) D w E.named) T)
    (hφ : ∀ T : Tree, T.Good → e.nodes = T.post → FnArgs Φ (fullInterp K m.dim m.sq (fun k => E.consts.getD k 0) D w E.named) T)
    {cap : Nat} (hx : ∀ (T : Tree) (r : Rpne), T.Good → e.nodes = T.post → reshape cap e = ok r → Extracts T e.q r)
    {c : Compiled} (hc : compileExpr m false cap args e = ok c) (hi : c.state.nextId ≤ indConstantStart)
    (hf : ∀ r, reshape cap e = ok r → ProgramFine args c.state.temps E.consts.length r.nodes) :
    ∃ x, runCompiled m false E args c = ok [x] ∧ x.Denotes m.dim m.sq v ∧ RunFine Φ E args c := by
  rw [Env.named_eq] at he hz hφ
  by_cases h0 : e.nodes = []
  · refine ⟨⟨[], []⟩, compute_empty m false E args h0 hc, ⟨rfl, .nil, by simp, ?_⟩, ?_⟩
    · rcases he with ⟨-, rfl⟩ | ⟨t, _, hp, _⟩
      · rfl
      · have := t.post_pos
        rw [← hp, h0] at this
        cases this
    · obtain ⟨ns, q⟩ := e
      dsimp only at h0
      subst h0
      obtain ⟨-, r, hr, s, hs, rfl⟩ := compileExpr_eq_ok.1 hc
      have := reshape_nil hr
      subst this
      rw [List.length_nil, runNodes, ok_inj] at hs
      subst hs
      exact ⟨le_refl _, fun h => absurd rfl h, fun _ _ k v hk => (by simp at hk), fun _ _ _ _ a ha => (by simp at ha)⟩
  · obtain ⟨t, g, p, q1, q2, rfl⟩ := means_tree he h0
    obtain ⟨-, r, hr, s, hs, rfl⟩ := compileExpr_eq_ok.1 hc
    exact compute_fine m hm E args hw hD (hx t r g p hr) g q1 q2 (fun n hn => hp n (p ▸ hn)) (hz t g p) (hφ t g p) hs hi (hf r hr)

/-- **C48.**  `compute` with quotients and functions.  Suppose the temporaries that `rpn_reshape` writes out are fine: the operand of a function,
and the divisor of a quotient, is a scalar argument, a reference to a scalar temporary or a constant, which does not occur in the dividend.  If
moreover no divisor is zero, evaluation is never undefined and returns the value of the expression.  Missing: the null bases (C64), tuples, and
programs that are not fine, for which there are counterexamples below. -/
theorem C48_compute_partial [CharZero K] (m : Metric) (hm : m.dim ≤ 8) (E : Env K) (args : List (Arg K))
    {w : Nat → CliffordAlgebra (diagForm K m.dim m.sq)}
    (hw : ∀ (k : Nat) (a : Arg K), args[k]? = some a → a.Denotes m.dim m.sq (argOffset args k) (w k))
    {D : CliffordAlgebra (diagForm K m.dim m.sq) →ₗ[K] CliffordAlgebra (diagForm K m.dim m.sq)} (hD : IsDual K m.dim m.sq D)
    {e : Rpne} {v : CliffordAlgebra (diagForm K m.dim m.sq)}
    (he : Means (fullInterp K m.dim m.sq (fun k => E.consts.getD k 0) D w E.named) e v)
    (hp : ∀ n ∈ e.nodes, (NotQuot n → Plain m.dim E.consts.length n) ∧ ArgNode args n)
    (hz : ∀ T : Tree, T.Good → e.nodes = T.post → Divisors (fullInterp K m.dim m.sq (fun k => E.consts.getD k 0) D w E.named) T)
    {cap : Nat} (hx : ∀ (T : Tree) (r : Rpne), T.Good → e.nodes = T.post → reshape cap e = ok r → Extracts T e.q r)
    {c : Compiled} (hc : compileExpr m false cap args e = ok c) (hi : c.state.nextId ≤ indConstantStart)
    (hf : ∀ r, reshape cap e = ok r → ProgramFine args c.state.temps E.consts.length r.nodes) :
    ∃ x, runCompiled m false E args c = ok [x] ∧ x.Denotes m.dim m.sq v :=
  (compute_quot (Φ := fun _ _ => True) m hm E args hw hD he hp hz (fun _ _ _ => fnArgs_true _ _) hx hc hi hf).imp fun _ h => ⟨h.1, h.2.1⟩

/-- C48 without common subexpressions. -/
theorem C48_distinct_partial [CharZero K] (m : Metric) (hm : m.dim ≤ 8) (E : Env K) (args : List (Arg K))
    {w : Nat → CliffordAlgebra (diagForm K m.dim m.sq)}
    (hw : ∀ (k : Nat) (a : Arg K), args[k]? = some a → a.Denotes m.dim m.sq (argOffset args k) (w k))
    {D : CliffordAlgebra (diagForm K m.dim m.sq) →ₗ[K] CliffordAlgebra (diagForm K m.dim m.sq)} (hD : IsDual K m.dim m.sq D)
    {e : Rpne} {v : CliffordAlgebra (diagForm K m.dim m.sq)}
    (he : Means (fullInterp K m.dim m.sq (fun k => E.consts.getD k 0) D w E.named) e v)
    (hp : ∀ n ∈ e.nodes, (NotQuot n → Plain m.dim E.consts.length n) ∧ ArgNode args n)
    (hz : ∀ T : Tree, T.Good → e.nodes = T.post → Divisors (fullInterp K m.dim m.sq (fun k => E.consts.getD k 0) D w E.named) T)
    (hd : ∀ (p q : Nat) (a b : Node), e.nodes[p]? = some a → e.nodes[q]? = some b → IsShared a.o → a.o = b.o → a.checksum = b.checksum →
      a.ex = b.ex → p = q)
    {cap : Nat} (hcap : cap < 2 ^ 64)
    {c : Compiled} (hc : compileExpr m false cap args e = ok c) (hi : c.state.nextId ≤ indConstantStart)
    (hf : ∀ r, reshape cap e = ok r → ProgramFine args c.state.temps E.consts.length r.nodes) :
    ∃ x, runCompiled m false E args c = ok [x] ∧ x.Denotes m.dim m.sq v := by
  refine C48_compute_partial m hm E args hw hD he hp hz (fun T r hg h hr => ?_) hc hi hf
  obtain ⟨ns, q⟩ := e
  dsimp only at h
  subst h
  exact C36_distinct hg hd hcap hr

end Gal
