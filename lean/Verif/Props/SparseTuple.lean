import Verif.Props.Sparse
import Verif.Props.Results

/-!
# C49: the elements of the results of a tuple
-/

namespace Gal

open Out

section
variable {V : Type} [AddCommGroup V] [Module ℚ V]

/-- The blocks of a tuple, for all interpretations. -/
theorem concat_forest_all {I : Interp V} : ∀ {es : List Rpne} {vs : List V}, List.Forall₂ (Means I) es vs → (∀ e ∈ es, e.nodes ≠ []) →
    ∃ f : Forest, f.post = (concatExpr es).nodes ∧ f.Good (fun q => q.WF ∧ q.num ≠ 0) ∧ ∀ J : Interp V, List.Forall₂ (Means J) es (f.vals J)
  | _, _, .nil, _ => ⟨.nil, rfl, by rw [Forest.Good]; trivial, fun J => by rw [Forest.vals]; exact .nil⟩
  | _, _, .cons (a := e) (l₁ := es) h hs, hne => by
    obtain ⟨f, h1, h2, h3⟩ := concat_forest_all hs fun e he => hne e (List.mem_cons_of_mem _ he)
    obtain ⟨t, g, p, q1, q2, rfl⟩ := means_tree h (hne e List.mem_cons_self)
    refine ⟨.cons ⟨Op.se, 0, e.nodes.length, e.q⟩ t f, ?_, ?_, fun J => ?_⟩
    · rw [Forest.post, h1, ← p]
      simp [concatExpr]
    · rw [Forest.Good]
      exact ⟨rfl, by rw [p], ⟨q1, q2⟩, g, h2⟩
    · rw [Forest.vals, if_neg q2]
      exact .cons (Or.inr ⟨t, g, p, q1, q2, rfl⟩) (h3 J)

end

variable {K : Type} [Field K]

/-- Evaluation of several expressions, for all values of the arguments. -/
theorem forest_eval [CharZero K] {m : Metric} (hm : m.dim ≤ 8) {args : List (Arg K)} {nc : Nat}
    {D : CliffordAlgebra (diagForm K m.dim m.sq) →ₗ[K] CliffordAlgebra (diagForm K m.dim m.sq)} (hD : IsDual K m.dim m.sq D)
    {f : Forest} (hf : f.Good (fun q => q.WF ∧ q.num ≠ 0))
    (hp : ∀ n ∈ f.post, Plain m.dim nc n ∧ ArgNode args n) {as : List Mv}
    (ha : f.eval (mvOps m false) (argMv args) [] = ok as) {ρ : Nat → K} {w' : Nat → CliffordAlgebra (diagForm K m.dim m.sq)}
    (hw : ∀ (k : Nat) (a : Arg K), args[k]? = some a →
      ∃ n, Stored (PosInd fun id => argOffset args k ≤ id ∧ id < argOffset args k + a.data.length) m.dim (a.ie (argOffset args k)) n ∧
        mvVal (intPow ρ) (cliffBlade K m.dim m.sq) n = w' k) :
    List.Forall₂ (SoundOn True True m.dim m.sq (Avail (argsSize args) nc) ρ) as
      (f.vals (cliffInterp K m.dim m.sq (fun k => ρ (k + indConstantStart)) D w')) := by
  refine eval_forest (A := fun k => Plain m.dim nc k ∧ ArgNode args k) (R := SoundOn True True m.dim m.sq (Avail (argsSize args) nc) ρ)
    (mv_refines True True m hm false (fun k => ρ (k + indConstantStart)) D hD w' nc _ (fun _ k hk => rfl) (argMv args) _ _ (fun n h => h.1) ?_)
    hf (fun q h => Or.inr h) hp ha
  rintro n ⟨-, hn⟩ ho x hx
  obtain ⟨h1, h2⟩ := hn ho
  have hk := List.getElem?_eq_getElem h1
  obtain ⟨na, i1, i2⟩ := hw _ _ hk
  have he : argMv args n.ex n.checksum = args[n.ex].ie (argOffset args n.ex) := by
    unfold argMv
    rw [hk, h2]
  simp only [mvOps, Bool.false_eq_true, if_false, he, ok_inj] at hx
  subst hx
  have := argOffset_le args hk
  exact ⟨na, i1.mono fun i hi => ⟨Or.inl (by have := hi.1; omega), hi.2⟩, fun _ => i2⟩

theorem forall₂_get {α β : Type} {R : α → β → Prop} : ∀ {as : List α} {bs : List β}, List.Forall₂ R as bs → ∀ {i : Nat} {a : α}, as[i]? = some a →
    ∃ b, bs[i]? = some b ∧ R a b
  | _, _, .nil, i, a, h => by simp at h
  | _, _, .cons (b := b) h hs, 0, a, e => ⟨b, rfl, by simpa using (by simpa using e : _ = a) ▸ h⟩
  | _, _, .cons h hs, i + 1, a, e => forall₂_get hs (i := i) e

/-- **C49 for tuples.**  The elements of the `i`-th entity that `compute` returns are exactly those whose coefficient in the `i`-th component is not
zero for some coefficients of the arguments.  Missing: null bases (`C49_null_tuple_partial`), and tuples in which an operation occurs twice, quotients and functions (false, see C46).
The hypotheses are those of `C46_tuple_partial`, with an example there. -/
theorem C49_tuple_partial [CharZero K] (m : Metric) (hm : m.dim ≤ 8) (E : Env K) (args : List (Arg K))
    {w : Nat → CliffordAlgebra (diagForm K m.dim m.sq)}
    (hw : ∀ (k : Nat) (a : Arg K), args[k]? = some a → a.Denotes m.dim m.sq (argOffset args k) (w k))
    {D : CliffordAlgebra (diagForm K m.dim m.sq) →ₗ[K] CliffordAlgebra (diagForm K m.dim m.sq)} (hD : IsDual K m.dim m.sq D)
    {es : List Rpne} {vs : List (CliffordAlgebra (diagForm K m.dim m.sq))} (hne : es ≠ [])
    (he : List.Forall₂ (Means (cliffInterp K m.dim m.sq (fun k => E.consts.getD k 0) D w)) es vs) (h0 : ∀ e ∈ es, e.nodes ≠ [])
    (hp : ∀ e ∈ es, Supported m.dim E.consts.length args e)
    (hd : ∀ (p q : Nat) (a b : Node), (concatExpr es).nodes[p]? = some a → (concatExpr es).nodes[q]? = some b → IsShared a.o → a.o = b.o →
      a.checksum = b.checksum → a.ex = b.ex → p = q)
    {cap : Nat} {c : Compiled} (hc : compileExpr m false cap args (concatExpr es) = ok c) (hi : argsSize args ≤ indConstantStart) :
    ∃ xs, runCompiled m false E args c = ok xs ∧ List.Forall₂ (fun x v => x.Denotes m.dim m.sq v) xs vs ∧
      List.Forall₂ (fun x e => ∀ g, g ∈ x.elements ↔ ∃ (named : Nat → K) (w' : Nat → CliffordAlgebra (diagForm K m.dim m.sq))
        (v' : CliffordAlgebra (diagForm K m.dim m.sq)), MayBe m args w' ∧ Means (cliffInterp K m.dim m.sq named D w') e v' ∧
          bladeCoords K m.dim m.sq v' g ≠ 0) xs es := by
  obtain ⟨f, f1, f2, f3⟩ := concat_forest_all he h0
  have f3' : f.vals (cliffInterp K m.dim m.sq (fun k => E.consts.getD k 0) D w) = vs := by
    have := f3 (cliffInterp K m.dim m.sq (fun k => E.consts.getD k 0) D w)
    clear hp hd hc h0 f1 hne
    generalize f.vals (cliffInterp K m.dim m.sq (fun k => E.consts.getD k 0) D w) = us at this
    clear f3 f2
    induction he generalizing us with
    | nil => cases this; rfl
    | cons h _ ih =>
      cases this with
      | cons h' hs => rw [means_unique h' h, ih _ hs]
  have hvs : vs ≠ [] := by rintro rfl; cases he; exact hne rfl
  obtain ⟨xs, as, -, x1, x2, x3, x4⟩ := tuple_elems m hm E args hw hD hvs f1 f2 f3' hp hd hc hi
  have hpn : ∀ n ∈ f.post, Plain m.dim E.consts.length n ∧ ArgNode args n := by
    intro n hn
    rw [f1] at hn
    obtain ⟨e, h1, h2⟩ := List.mem_flatMap.1 hn
    rcases List.mem_cons.1 h2 with rfl | h2
    · exact ⟨plain_of_lt (by show Op.se < 11; decide), fun h => absurd h (by show ¬ Op.se = Op.id; decide)⟩
    · exact hp e h1 n h2
  refine ⟨xs, x1, x2, List.forall₂_iff_get.2 ⟨x2.length_eq.trans he.length_eq.symm, fun i hxi hei el => ?_⟩⟩
  have gx : xs[i]? = some (xs.get ⟨i, hxi⟩) := List.getElem?_eq_getElem hxi
  have ge : es[i]? = some (es.get ⟨i, hei⟩) := List.getElem?_eq_getElem hei
  generalize xs.get ⟨i, hxi⟩ = x at gx ⊢
  generalize es.get ⟨i, hei⟩ = e at ge ⊢
  obtain ⟨a, ga, n, hn, hx⟩ := forall₂_get x4 gx
  -- the coefficients
  have key : ∀ (ρ : Nat → K) (w' : Nat → CliffordAlgebra (diagForm K m.dim m.sq)), (∀ (k : Nat) (a : Arg K), args[k]? = some a →
      ∃ n, Stored (PosInd fun id => argOffset args k ≤ id ∧ id < argOffset args k + a.data.length) m.dim (a.ie (argOffset args k)) n ∧
        mvVal (intPow ρ) (cliffBlade K m.dim m.sq) n = w' k) → CanonMv n ∧
        ∃ v', Means (cliffInterp K m.dim m.sq (fun k => ρ (k + indConstantStart)) D w') e v' ∧
          bladeCoords K m.dim m.sq v' el = coeff (intPow ρ) n el := by
    intro ρ w' h
    obtain ⟨v', gv, n', h1, h2⟩ := forall₂_get (forest_eval hm hD f2 hpn x3 h) ga
    obtain ⟨v'', gv', h3⟩ := forall₂_get (f3 (cliffInterp K m.dim m.sq (fun k => ρ (k + indConstantStart)) D w')) ge
    obtain rfl : v' = v'' := by rw [gv] at gv'; injection gv'
    have := h1.packed.unique hn
    subst this
    exact ⟨h1.canon, v', h3, by rw [← h2 trivial, coords_value h1.elems]⟩
  rw [hx, List.mem_map]
  constructor
  · rintro ⟨tm, ht, rfl⟩
    obtain ⟨w0, -, k0⟩ := exists_values hw (fun _ => (0 : K))
    obtain ⟨ρ, hρ⟩ := canon_witness (K := K) (key _ _ k0).1 ht
    obtain ⟨w', k1, k2⟩ := exists_values hw ρ
    obtain ⟨-, v', k3, k4⟩ := key ρ w' k2
    exact ⟨fun k => ρ (k + indConstantStart), w', v', k1, k3, by rw [k4]; exact hρ⟩
  · rintro ⟨named, w', v', k1, k2, k3⟩
    obtain ⟨ρ, -, k4⟩ := k1.assign
    obtain ⟨-, v'', k5, k6⟩ := key (fun i => if indConstantStart ≤ i then named (i - indConstantStart) else ρ i) w' fun k a ha => by
      obtain ⟨n, h1, h2⟩ := k4 k a ha
      exact ⟨n, h1, h2 _ fun i hi => by rw [if_neg (by omega)]⟩
    have hnm : (fun k => (fun i => if indConstantStart ≤ i then named (i - indConstantStart) else ρ i) (k + indConstantStart)) = named := by
      funext k
      simp
    rw [hnm] at k5
    rw [means_unique k2 k5, k6] at k3
    by_contra hne
    push Not at hne
    exact k3 (coeff_absent _ _ _ hne)

end Gal
