import Verif.Props.PolyRun

/-!
# Lambdas that compile to polynomials, in algebras with and without a null basis

As `Verif.Props.PolyRun`, with rational coefficients, a factor of the result and the conversion of the result to the null basis.
-/

namespace Gal

open Out

/-- A rational number and powers of indeterminates. -/
abbrev RatMono := Rat32 × List (Nat × Nat)

instance : DecidableEq (List (Nat × List RatMono)) := fun a b => instDecidableEqList a b

/-- A monomial with a rational coefficient. -/
def readRatMon (k : Nat) (m : NMon) : Option RatMono := if m.q.WF then (m.inds.mapM (readInd k)).map (m.q, ·) else none

/-- A coefficient of a multivector. -/
def readRatTerm (k : Nat) (t : NTerm) : Option (Nat × List RatMono) :=
  if t.mons = [] then none else (t.mons.mapM (readRatMon k)).map (t.element, ·)

/-- What the evaluation of an expression with one result and no temporaries reads. -/
def Compiled.outView (nd : Option Nat) (c : Compiled) : Out (MvOp × NMv × Nat × Rat32) :=
  match c.state.temps, c.state.args with
  | [], [a] => do
    let b ← toOutput nd a
    let n ← b.view
    return (b.op, n, c.state.nextId, c.q)
  | _, _ => .ub

/-- A result that consists of polynomials. -/
def readOutView (size : Nat) : Out (MvOp × NMv × Nat × Rat32) → Option (Rat32 × List (Nat × List RatMono))
  | .val (.id, n, k, q) false => if k = size ∧ q.num ≠ 0 ∧ 0 < q.den then (n.mapM (readRatTerm size)).map (q, ·) else none
  | _ => none

/-- The polynomials a lambda compiles to, and the factor of the result. -/
def Lam.ratPolys {L : Type} (m : Metric) (null : Bool) (args : List (Arg L)) (f : Lam) : Option (Rat32 × List (Nat × List RatMono)) :=
  readOutView (argsSize args) (do
    let e ← f.build (argOffset args)
    let c ← compileExpr m null f.cap args e
    c.outView (nullDim m null))

variable {K : Type} [Field K]

/-- The value of a rational constant. -/
def ratVal (K : Type) [Field K] (q : Rat32) : K := (q.num : K) / (q.den : K)

/-- The value of a monomial. -/
def ratMonoVal (data : List K) (m : RatMono) : K := ratVal K m.1 * (m.2.map fun p => data.getD p.1 0 ^ p.2).prod

/-- The value of a polynomial. -/
def ratPolyVal (data : List K) (ms : List RatMono) : K := (ms.map (ratMonoVal data)).sum

theorem readRatMon_ok [CharZero K] {E : Env K} {k : Nat} (hk : k ≤ E.data.length) {m : NMon} {p : RatMono} (h : readRatMon k m = some p) :
    (m.q.WF ∧ ∀ i ∈ m.inds, EvalInd E i) ∧ m.val E.pw = ratMonoVal E.data p := by
  unfold readRatMon at h
  split at h
  · rename_i hc
    simp only [Option.map_eq_some_iff] at h
    obtain ⟨is, h1, rfl⟩ := h
    have key : ∀ {is : List Ind} {ps : List (Nat × Nat)}, List.Forall₂ (fun a b => readInd k a = some b) is ps →
        (∀ i ∈ is, EvalInd E i) ∧ indsVal E.pw is = (ps.map fun p => E.data.getD p.1 0 ^ p.2).prod := by
      intro is ps h
      induction h with
      | nil => exact ⟨by simp, by simp [indsVal]⟩
      | cons a _ ih =>
        obtain ⟨a1, a2⟩ := readInd_ok hk a
        refine ⟨by simpa using ⟨a1, ih.1⟩, ?_⟩
        rw [indsVal, List.map_cons, List.prod_cons, List.map_cons, List.prod_cons, a2, ← indsVal, ih.2]
    obtain ⟨k1, k2⟩ := key (mapM_some h1)
    refine ⟨⟨hc, k1⟩, ?_⟩
    unfold NMon.val ratMonoVal ratVal
    rw [k2]
    congr 1
    unfold Rat32.toQ
    push_cast
    rfl
  · cases h

theorem readRatTerm_ok [CharZero K] {E : Env K} {k : Nat} (hk : k ≤ E.data.length) {t : NTerm} {p : Nat × List RatMono}
    (h : readRatTerm k t = some p) : t.element = p.1 ∧ E.term .id t.mons = ok (ratPolyVal E.data p.2) := by
  unfold readRatTerm at h
  split at h
  · cases h
  · rename_i hne
    simp only [Option.map_eq_some_iff] at h
    obtain ⟨ms, h1, rfl⟩ := h
    refine ⟨rfl, ?_⟩
    have key : ∀ {l : List NMon} {ps : List RatMono}, List.Forall₂ (fun a b => readRatMon k a = some b) l ps →
        (∀ m ∈ l, m.q.WF ∧ ∀ i ∈ m.inds, EvalInd E i) ∧ monsVal E.pw l = ratPolyVal E.data ps := by
      intro l ps h
      induction h with
      | nil => exact ⟨by simp, by simp [monsVal, ratPolyVal]⟩
      | cons a _ ih =>
        obtain ⟨a1, a2⟩ := readRatMon_ok hk a
        refine ⟨by simpa using ⟨a1, ih.1⟩, ?_⟩
        rw [monsVal, ratPolyVal, List.map_cons, List.sum_cons, List.map_cons, List.sum_cons, a2, ← monsVal, ← ratPolyVal, ih.2]
    obtain ⟨k1, k2⟩ := key (mapM_some h1)
    rw [C31_term E _ hne k1, k2]

/-- **`compute` evaluates the polynomials.** -/
theorem lam_ratPolys [CharZero K] {L : Type} (m : Metric) (null : Bool) (E : Env K) {args : List (Arg K)} {args' : List (Arg L)}
    (ht : args.map (fun a => (a.ie, a.data.length)) = args'.map fun a => (a.ie, a.data.length)) {f : Lam} {q : Rat32}
    {ps : List (Nat × List RatMono)} (h : f.ratPolys m null args' = some (q, ps)) :
    (f.compute m null E args >>= single) =
      ok ⟨ps.map Prod.fst, ps.map fun p => ratVal K q * ratPolyVal (args.map fun a => a.data).flatten p.2⟩ := by
  have hoff : argOffset args' = argOffset args := by
    funext k
    have := congrArg (fun l => ((l.take k).map Prod.snd).sum) ht
    simp only [← List.map_take, List.map_map] at this
    exact this.symm
  have hsize : argsSize args' = argsSize args := by
    have := congrArg (fun l => (l.map Prod.snd).sum) ht
    simp only [List.map_map] at this
    exact this.symm
  unfold Lam.ratPolys at h
  rw [hoff, hsize] at h
  unfold readOutView at h
  split at h
  · rename_i n k q' hv
    split at h
    · rename_i hk
      obtain ⟨rfl, hq1, hq2⟩ := hk
      simp only [Option.map_eq_some_iff, Prod.mk.injEq] at h
      obtain ⟨ps', h, rfl, rfl⟩ := h
      have hv' : (do
        let e ← f.build (argOffset args)
        let c ← compileExpr m null f.cap args' e
        c.outView (nullDim m null)) = ok (.id, n, argsSize args, q') := hv
      have hlen : (args.map fun a => a.data).flatten.length = argsSize args := by
        rw [List.length_flatten, List.map_map]
        rfl
      rw [bind_eq_ok] at hv'
      obtain ⟨e, he, hv'⟩ := hv'
      rw [bind_eq_ok] at hv'
      obtain ⟨c, hc, hv'⟩ := hv'
      rw [← compile_types ht] at hc
      unfold Compiled.outView at hv'
      split at hv'
      · rename_i a ht' ha
        rw [bind_eq_ok] at hv'
        obtain ⟨b, hb, hv'⟩ := hv'
        rw [bind_eq_ok] at hv'
        obtain ⟨n', hn, hv'⟩ := hv'
        rw [pure_eq, ok_inj] at hv'
        obtain ⟨h1, h2⟩ := Prod.mk.inj hv'
        obtain ⟨h2, h3⟩ := Prod.mk.inj h2
        obtain ⟨h5, h4⟩ := Prod.mk.inj h3
        subst h2 h4
        unfold Lam.compute
        rw [he, ok_bind]
        unfold computeExpr
        rw [hc, ok_bind]
        unfold runCompiled
        rw [ha, ht', h5, C41_fill _ _ (by rw [hlen, List.length_replicate]; omega), ok_bind,
          List.drop_eq_nil_of_le (by rw [hlen, List.length_replicate]; omega), List.append_nil, finalizeTemps, ok_bind, finishCompute, finalizeEntity,
          hb, ok_bind, computeEntity, hn, ok_bind, h1]
        have key : ∀ {n : NMv} {ps : List (Nat × List RatMono)}, List.Forall₂ (fun a b => readRatTerm (argsSize args) a = some b) n ps →
            n.map (·.element) = ps.map Prod.fst ∧
            mapO (fun t : NTerm => ({ E with data := (args.map fun a => a.data).flatten } : Env K).term .id t.mons) n =
              ok (ps.map fun p => ratPolyVal (args.map fun a => a.data).flatten p.2) := by
          intro n ps h
          induction h with
          | nil => exact ⟨rfl, rfl⟩
          | cons a _ ih =>
            obtain ⟨a1, a2⟩ := readRatTerm_ok (E := { E with data := (args.map fun a => a.data).flatten }) (by rw [hlen]) a
            refine ⟨by rw [List.map_cons, List.map_cons, a1, ih.1], ?_⟩
            rw [mapO, a2, ok_bind, ih.2, ok_bind]
            rfl
        obtain ⟨k1, k2⟩ := key (mapM_some h)
        rw [k1, k2, ok_bind]
        simp only [pure_eq, ok_bind, single, List.map_map]
        congr 2
        exact List.map_congr_left fun v _ => scaleBy_eq hq1 hq2 _
      · cases hv'
    · cases h
  · cases h

end Gal
