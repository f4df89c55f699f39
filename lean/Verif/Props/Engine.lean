import Verif.Engine
import Verif.Props.Entity
import Verif.Props.Pow
import Mathlib.Tactic.FieldSimp

/-!
# Properties C31, C32 and C41: run-time evaluation

The specification is the polynomial value of `Verif/Spec/MvVal.lean`, with indeterminates read from the input data.
-/

namespace Gal

open Out

variable {K : Type} [Field K]

/-- The indeterminate is a known constant or has an entry in the data. -/
def Env.Has (E : Env K) (id : Nat) : Prop :=
  (indConstantStart ≤ id ∧ id - indConstantStart < E.consts.length) ∨ (id < indConstantStart ∧ id < E.data.length)

/-- The value of an indeterminate. -/
def Env.rho (E : Env K) (id : Nat) : K :=
  if indConstantStart ≤ id then E.consts.getD (id - indConstantStart) 0 else E.data.getD id 0

/-- The value of an indeterminate to a rational power. -/
def Env.pw (E : Env K) (id : Nat) (d : ℚ) : K := if d.den = 1 then E.rho id ^ d.num else E.fpow (E.rho id) d.num d.den

/-- Degrees are non-zero and in lowest terms, and no zero is raised to a negative power. -/
structure EvalInd (E : Env K) (i : Ind) : Prop where
  has : E.Has i.id
  canon : i.deg.Canon
  nz : i.deg.num ≠ 0
  min : i32Min < i.deg.num
  pole : i.deg.num < 0 → E.rho i.id ≠ 0

theorem Env.get_ok {E : Env K} {id : Nat} (h : E.Has id) : E.get id = ok (E.rho id) := by
  unfold Env.get Env.rho
  rcases h with ⟨h1, h2⟩ | ⟨h1, h2⟩
  · rw [if_pos h1, if_pos h1, List.getElem?_eq_getElem h2, List.getD_eq_getElem _ _ h2]
  · rw [if_neg (by omega), if_neg (by omega), List.getElem?_eq_getElem h2, List.getD_eq_getElem _ _ h2]

theorem Rat32.toQ_num_den {r : Rat32} (h : r.Canon) : r.toQ.num = r.num ∧ (r.toQ.den : Int) = r.den := by
  have hc : r.num.natAbs.Coprime r.den.natAbs := h.2
  exact ⟨Rat.num_div_eq_of_coprime h.1.pos hc, Rat.den_div_eq_of_coprime h.1.pos hc⟩

theorem Env.factor_ok {E : Env K} {i : Ind} (h : EvalInd E i) : E.factor i = ok (i.val E.pw) := by
  unfold Env.factor
  rw [Env.get_ok h.has, ok_bind]
  obtain ⟨h1, h2⟩ := Rat32.toQ_num_den h.canon
  have hp := h.canon.1.pos
  unfold Env.pow Ind.val Env.pw
  by_cases hd : i.deg.den > 1
  · rw [if_pos hd, if_neg (by omega), h1, h2]
  · rw [if_neg hd, if_pos (by omega), h1]
    exact C05_pow_partial _ _ h.nz h.min h.canon.1.num.2 h.pole

theorem Env.prod_ok {E : Env K} : ∀ {l : List Ind}, l ≠ [] → (∀ i ∈ l, EvalInd E i) → E.prod l = ok (indsVal E.pw l)
  | [], h, _ => (h rfl).elim
  | [i], _, h => by
    unfold Env.prod
    rw [Env.factor_ok (h i (by simp))]
    simp
  | i :: j :: l, _, h => by
    unfold Env.prod
    rw [Env.factor_ok (h i (by simp)), ok_bind, Env.prod_ok (by simp) (fun k hk => h k (by simp [hk])), ok_bind,
      pure_eq]
    simp

theorem Rat32.cast_eq [CharZero K] (r : Rat32) : (r.cast : K) = (r.toQ : K) := by
  unfold Rat32.cast Rat32.toQ
  push_cast
  rfl

theorem Env.mon_ok [CharZero K] {E : Env K} (o : MvOp) {m : NMon} (hq : m.q.WF) (hi : ∀ i ∈ m.inds, EvalInd E i) (hz : m.q.num ≠ 0) :
    E.mon o m = ok (E.app o (m.val E.pw)) := by
  unfold Env.mon NMon.val
  rw [if_neg hz]
  have hp := hq.pos
  by_cases hn : m.inds = []
  · rw [if_pos hn, hn, indsVal_nil, mul_one, Rat32.cast_eq]
  · rw [if_neg hn, Env.prod_ok hn hi]
    simp only [ok_bind, pure_eq]
    have hd : (m.q.den : K) ≠ 0 := by exact_mod_cast (by omega : m.q.den ≠ 0)
    split
    · split
      · rw [Rat32.cast_eq]
      · rename_i h1 h2
        have : m.q.num = 1 := by omega
        unfold Rat32.toQ
        rw [this]
        push_cast
        congr 2
        field_simp
    · rename_i h1
      have hd1 : m.q.den = 1 := by omega
      have hq1 : (m.q.toQ : K) = m.q.num := by
        unfold Rat32.toQ
        rw [hd1]
        push_cast
        simp
      rw [hq1]
      split
      · rfl
      · rename_i h2
        have : m.q.num = 1 := by omega
        rw [this]
        push_cast
        rw [one_mul]

/-- C31: a monomial evaluates to its coefficient times the product of the powers of its indeterminates, for every
coefficient with a positive denominator and all non-zero degrees in lowest terms.  Missing: degree 0 and negative
denominators, refuted below. -/
theorem C31_monomial_partial [CharZero K] (E : Env K) (m : NMon) (hq : m.q.WF) (hi : ∀ i ∈ m.inds, EvalInd E i) :
    E.mon .id m = ok (m.val E.pw) := by
  by_cases hz : m.q.num = 0
  · unfold Env.mon NMon.val
    rw [if_pos hz, (Rat32.toQ_eq_zero hq).2 hz]
    simp
  · rw [Env.mon_ok .id hq hi hz]
    rfl

/-- An environment used in examples. -/
def Env.sample : Env ℚ := ⟨[2, 3, 5], [22 / 7, 19 / 7], fun _ _ _ => 1, fun o v => if o = .cos ∧ v = 0 then 1 else v⟩

example : (⟨⟨-3, 4⟩, ⟨1, 1⟩, [⟨0, ⟨2, 1⟩⟩, ⟨2, ⟨-1, 1⟩⟩, ⟨4294967168, ⟨1, 2⟩⟩]⟩ : NMon).q.WF ∧
    ∀ i ∈ (⟨⟨-3, 4⟩, ⟨1, 1⟩, [⟨0, ⟨2, 1⟩⟩, ⟨2, ⟨-1, 1⟩⟩, ⟨4294967168, ⟨1, 2⟩⟩]⟩ : NMon).inds, EvalInd Env.sample i := by
  refine ⟨by decide, ?_⟩
  intro i hi
  simp only [List.mem_cons, List.not_mem_nil, or_false] at hi
  rcases hi with rfl | rfl | rfl
  · exact ⟨Or.inr ⟨by decide, by decide⟩, by decide, by decide, by decide, fun h => by simp at h⟩
  · exact ⟨Or.inr ⟨by decide, by decide⟩, by decide, by decide, by decide, fun _ => by norm_num [Env.rho, Env.sample, indConstantStart]⟩
  · exact ⟨Or.inl ⟨by decide, by decide⟩, by decide, by decide, by decide, fun h => by simp at h⟩

/-- C31: under a function, the function is applied to the value of each monomial with a non-zero coefficient. -/
theorem C31_function [CharZero K] (E : Env K) (o : MvOp) (ho : o ≠ .id) (m : NMon) (hq : m.q.WF) (hi : ∀ i ∈ m.inds, EvalInd E i)
    (hz : m.q.num ≠ 0) : E.mon o m = ok (E.fn o (m.val E.pw)) := by
  rw [Env.mon_ok o hq hi hz]
  unfold Env.app
  rw [if_neg ho]

/-- With a zero coefficient the function is not applied: a cosine that should be 1 comes out as 0. -/
theorem C31_function_zero_false : ∃ (E : Env ℚ) (m : NMon), m.q.WF ∧ E.fn .cos (m.val E.pw) = 1 ∧ E.mon .cos m = ok 0 :=
  ⟨Env.sample, ⟨⟨0, 1⟩, ⟨0, 1⟩, []⟩, by decide, by simp [Env.sample, NMon.val, Rat32.toQ], by simp [Env.mon]⟩

/-- An indeterminate of degree 0 is not evaluated to 1. -/
theorem C31_degree_zero_false : ∃ (E : Env ℚ) (m : NMon), m.q.WF ∧ (∀ i ∈ m.inds, E.Has i.id ∧ i.deg.Canon) ∧
    E.mon .id m ≠ ok (m.val E.pw) := by
  refine ⟨Env.sample, ⟨⟨1, 1⟩, ⟨0, 1⟩, [⟨0, ⟨0, 1⟩⟩]⟩, by decide, ?_, ?_⟩
  · intro i hi
    simp only [List.mem_singleton] at hi
    subst hi
    exact ⟨Or.inr ⟨by decide, by decide⟩, by decide⟩
  · simp [Env.mon, Env.prod, Env.factor, Env.get, Env.pow, Env.app, Env.sample, indConstantStart, C05_zero, NMon.val, Ind.val,
      Env.pw, Env.rho, Rat32.toQ]

/-- The rational with numerator 1 and denominator -1 is evaluated as 1. -/
theorem C31_negative_denominator_false : ∃ (E : Env ℚ) (m : NMon), m.q = ⟨1, -1⟩ ∧ (∀ i ∈ m.inds, EvalInd E i) ∧
    E.mon .id m ≠ ok (m.val E.pw) := by
  refine ⟨Env.sample, ⟨⟨1, -1⟩, ⟨1, 1⟩, [⟨0, ⟨1, 1⟩⟩]⟩, rfl, ?_, ?_⟩
  · intro i hi
    simp only [List.mem_singleton] at hi
    subst hi
    exact ⟨Or.inr ⟨by decide, by decide⟩, by decide, by decide, by decide, fun h => by simp at h⟩
  · simp [Env.mon, Env.prod, Env.factor, Env.get, Env.pow, Env.app, Env.sample, indConstantStart, Gal.pow, NMon.val, Ind.val,
      Env.pw, Env.rho, Rat32.toQ]
    norm_num

/-- All monomials can be evaluated. -/
def EvalMv (E : Env K) (n : NMv) : Prop := ∀ t ∈ n, t.mons ≠ [] ∧ ∀ m ∈ t.mons, m.q.WF ∧ ∀ i ∈ m.inds, EvalInd E i

/-- C31: a coefficient evaluates to the sum of its monomials. -/
theorem C31_term [CharZero K] (E : Env K) : ∀ (ms : List NMon), ms ≠ [] → (∀ m ∈ ms, m.q.WF ∧ ∀ i ∈ m.inds, EvalInd E i) →
    E.term .id ms = ok (monsVal E.pw ms)
  | [], h, _ => (h rfl).elim
  | [m], _, h => by
    unfold Env.term
    rw [C31_monomial_partial E m (h m (by simp)).1 (h m (by simp)).2]
    simp
  | m :: m' :: ms, _, h => by
    unfold Env.term
    rw [C31_monomial_partial E m (h m (by simp)).1 (h m (by simp)).2, ok_bind,
      C31_term E (m' :: ms) (by simp) (fun k hk => h k (by simp [hk])), ok_bind, pure_eq]
    simp

theorem terms_ok [CharZero K] (E : Env K) : ∀ (n : NMv), EvalMv E n →
    mapO (fun t : NTerm => E.term .id t.mons) n = ok (n.map fun t => monsVal E.pw t.mons)
  | [], _ => rfl
  | t :: n, h => by
    unfold mapO
    rw [C31_term E t.mons (h t (by simp)).1 (h t (by simp)).2, ok_bind, terms_ok E n (fun u hu => h u (by simp [hu])), ok_bind]
    rfl

/-- Scaling by a factor with positive denominator and non-zero numerator. -/
theorem scaleBy_eq [CharZero K] {num den : Int} (hn : num ≠ 0) (hd : 0 < den) (v : K) :
    scaleBy num den v = ((num : K) / (den : K)) * v := by
  have hdk : (den : K) ≠ 0 := by exact_mod_cast (by omega : den ≠ 0)
  unfold scaleBy
  split
  · split
    · rfl
    · rename_i h1 h2
      have : num = 1 := by omega
      rw [this]
      push_cast
      field_simp
  · rename_i h1
    have : den = 1 := by omega
    rw [this]
    split
    · push_cast; rw [div_one]
    · rename_i h2
      have : num = 1 := by omega
      rw [this]
      push_cast
      rw [div_one, one_mul]

theorem pairsVal_map {V : Type} [AddCommGroup V] [Module K V] (β : Nat → V) (pw : Nat → ℚ → K) (c : K) (n : NMv) :
    pairsVal β (n.map (·.element)) (n.map fun t => c * monsVal pw t.mons) = c • mvVal pw β n := by
  induction n with
  | nil => simp [pairsVal]
  | cons t n ih =>
    unfold pairsVal at ih ⊢
    rw [List.map_cons, List.map_cons, List.zip_cons_cons, List.map_cons, List.sum_cons, ih, mvVal_cons, smul_add]
    simp only [NTerm.val, mul_smul]

/-- C32 (and C31 for whole multivectors): the computed entity lists the elements of the result, and as a multivector it is
the scale factor times the value of the result.  Missing: factor 0 and negative denominators, refuted below. -/
theorem C32_entity_partial {V : Type} [CharZero K] [AddCommGroup V] [Module K V] (β : Nat → V) (E : Env K) {a : Mv} {n : NMv}
    (ha : a.view = ok n) (ho : a.op = .id) (he : EvalMv E n) (num den : Int) (hn : num ≠ 0) (hd : 0 < den) :
    ∃ x, computeEntity E a num den = ok x ∧ x.elements = n.map (·.element) ∧ x.data.length = x.elements.length ∧
      pairsVal β x.elements x.data = ((num : K) / (den : K)) • mvVal E.pw β n := by
  refine ⟨⟨n.map (·.element), n.map fun t => ((num : K) / (den : K)) * monsVal E.pw t.mons⟩, ?_, rfl, by simp, ?_⟩
  · unfold computeEntity
    rw [ha, ok_bind, ho, terms_ok E n he, ok_bind, pure_eq, List.map_map]
    congr 2
    apply List.map_congr_left
    intro t _
    exact scaleBy_eq hn hd _
  · exact pairsVal_map β E.pw _ n

/-- A result used in examples: `3 x0 x1 e1 - 1/2 e6`. -/
def sampleResult : NMv := [⟨1, [⟨⟨3, 1⟩, ⟨2, 1⟩, [⟨0, ⟨1, 1⟩⟩, ⟨1, ⟨1, 1⟩⟩]⟩]⟩, ⟨6, [⟨⟨-1, 2⟩, ⟨0, 1⟩, []⟩]⟩]

theorem sampleResult_eval : EvalMv Env.sample sampleResult := by
  intro t ht
  simp only [sampleResult, List.mem_cons, List.not_mem_nil, or_false] at ht
  rcases ht with rfl | rfl
  · refine ⟨by simp, ?_⟩
    intro m hm
    simp only [List.mem_singleton] at hm
    subst hm
    refine ⟨by decide, ?_⟩
    intro i hi
    simp only [List.mem_cons, List.not_mem_nil, or_false] at hi
    rcases hi with rfl | rfl
    · exact ⟨Or.inr ⟨by decide, by decide⟩, by decide, by decide, by decide, fun h => by simp at h⟩
    · exact ⟨Or.inr ⟨by decide, by decide⟩, by decide, by decide, by decide, fun h => by simp at h⟩
  · refine ⟨by simp, ?_⟩
    intro m hm
    simp only [List.mem_singleton] at hm
    subst hm
    exact ⟨by decide, by simp⟩

example : ∃ (a : Mv) (n : NMv) (E : Env ℚ), a.view = ok n ∧ a.op = .id ∧ EvalMv E n ∧ n.length = 2 :=
  ⟨layout ⟨2, 2, 2⟩ sampleResult, sampleResult, Env.sample, by decide, rfl, sampleResult_eval, rfl⟩

/-- An overall factor 0 is ignored. -/
theorem C32_zero_false : ∃ (E : Env ℚ) (a : Mv) (n : NMv), a.view = ok n ∧ a.op = .id ∧ EvalMv E n ∧
    ∃ x, computeEntity E a 0 1 = ok x ∧ pairsVal (fun e => if e = 6 then (1 : ℚ) else 0) x.elements x.data ≠ 0 := by
  refine ⟨Env.sample, layout ⟨2, 2, 2⟩ sampleResult, sampleResult, by decide, rfl, sampleResult_eval,
    ⟨sampleResult.map (·.element), (sampleResult.map fun t => monsVal Env.sample.pw t.mons).map (scaleBy 0 1)⟩, ?_, ?_⟩
  · unfold computeEntity
    rw [show (layout ⟨2, 2, 2⟩ sampleResult).view = ok sampleResult by decide, ok_bind,
      show (layout ⟨2, 2, 2⟩ sampleResult).op = .id from rfl, terms_ok _ _ sampleResult_eval]
    rfl
  · simp [sampleResult, scaleBy, pairsVal, NMon.val, Rat32.toQ]

/-- A denominator -1 is ignored. -/
theorem C32_negative_denominator_false : ∃ v : ℚ, scaleBy 1 (-1) v ≠ ((1 : Int) : ℚ) / ((-1 : Int) : ℚ) * v :=
  ⟨1, by norm_num [scaleBy]⟩

/-- C31: canonical results only need their indeterminates to have values. -/
theorem C31_canonical {E : Env K} {n : NMv} (hc : CanonMv n) (hh : ∀ t ∈ n, ∀ m ∈ t.mons, ∀ i ∈ m.inds, E.Has i.id ∧ i32Min < i.deg.num)
    (hp : NoPole E.rho n) : EvalMv E n := by
  intro t ht
  obtain ⟨h1, h2⟩ := hc.terms t ht
  refine ⟨h2, fun m hm => ⟨(h1.mons m hm).q.1, fun i hi => ?_⟩⟩
  have hi' := (h1.mons m hm).inds i hi
  obtain ⟨g1, g2⟩ := hh t ht m hm i hi
  refine ⟨g1, ⟨⟨hi'.rep, by rw [hi'.den]; decide, by rw [hi'.den]; decide⟩, ?_⟩, hi'.nz, g2, hp t ht m hm i hi⟩
  unfold Rat32.Lowest
  rw [hi'.den]
  simp

theorem indsVal_congr {pw pw' : Nat → ℚ → K} {l : List Ind} (h : ∀ i ∈ l, pw i.id i.deg.toQ = pw' i.id i.deg.toQ) :
    indsVal pw l = indsVal pw' l := by
  unfold indsVal
  congr 1
  apply List.map_congr_left
  intro i hi
  exact h i hi

theorem mvVal_congr_pw {V : Type} [AddCommGroup V] [Module K V] (β : Nat → V) {pw pw' : Nat → ℚ → K} {n : NMv}
    (h : ∀ t ∈ n, ∀ m ∈ t.mons, ∀ i ∈ m.inds, pw i.id i.deg.toQ = pw' i.id i.deg.toQ) : mvVal pw β n = mvVal pw' β n := by
  unfold mvVal
  congr 1
  apply List.map_congr_left
  intro t ht
  unfold NTerm.val monsVal
  congr 2
  apply List.map_congr_left
  intro m hm
  unfold NMon.val
  rw [indsVal_congr (h t ht m hm)]

/-- On canonical multivectors the run-time power is the integer power. -/
theorem mvVal_pw {V : Type} [AddCommGroup V] [Module K V] (β : Nat → V) {E : Env K} {n : NMv} (hc : CanonMv n) :
    mvVal E.pw β n = mvVal (intPow E.rho) β n := by
  apply mvVal_congr_pw
  intro t ht m hm i hi
  have hi' := ((hc.terms t ht).1.mons m hm).inds i hi
  unfold Env.pw intPow
  rw [hi'.toQ, if_pos (by simp)]

/-! ## Input data (C41) -/

theorem fillOne_spec (d : List K) : ∀ (data : List K) (i : Nat), i + d.length ≤ data.length →
    fill.fillOne data i d = ok (data.take i ++ d ++ data.drop (i + d.length)) := by
  induction d with
  | nil => intro data i _; simp [fill.fillOne]
  | cons v d ih =>
    intro data i h
    simp only [List.length_cons] at h
    unfold fill.fillOne
    rw [if_pos (by omega), ih (data.set i v) (i + 1) (by rw [List.length_set]; omega)]
    congr 1
    rw [List.take_set, List.drop_set_of_lt (by omega), List.take_succ_eq_append_getElem (by omega)]
    rw [List.set_append_right _ _ (by simp)]
    simp only [List.length_take, Nat.min_eq_left (show i ≤ data.length by omega), Nat.sub_self, List.set_cons_zero,
      List.append_assoc, List.cons_append, List.nil_append, List.length_cons]
    rw [show i + 1 + d.length = i + (d.length + 1) by omega]

theorem fill_spec (ds : List (List K)) : ∀ (data : List K) (i : Nat), i + ds.flatten.length ≤ data.length →
    fill data i ds = ok (data.take i ++ ds.flatten ++ data.drop (i + ds.flatten.length)) := by
  induction ds with
  | nil => intro data i _; simp [fill]
  | cons d ds ih =>
    intro data i h
    simp only [List.flatten_cons, List.length_append] at h
    unfold fill
    rw [fillOne_spec d data i (by omega), ok_bind, ih _ _ (by
      simp only [List.length_append, List.length_take, List.length_drop]; omega)]
    congr 1
    have hl : (data.take i ++ d).length = i + d.length := by simp only [List.length_append, List.length_take]; omega
    rw [List.flatten_cons]
    simp only [List.append_assoc]
    rw [← List.append_assoc (data.take i) d, ← hl, List.take_left' rfl, List.drop_append, List.drop_of_length_le (by omega)]
    simp only [List.nil_append, hl, List.drop_drop, List.append_assoc, List.length_append]
    congr 4
    omega

/-- C41: the data array starts with the coefficients of all inputs, one input after the other, and the rest is left for the
temporaries. -/
theorem C41_fill (ds : List (List K)) (data : List K) (h : ds.flatten.length ≤ data.length) :
    fill data 0 ds = ok (ds.flatten ++ data.drop ds.flatten.length) := by
  rw [fill_spec ds data 0 (by omega)]
  simp

/-- C41: coefficient `i` of input `k` is found at the sum of the sizes of the inputs before it, plus `i`. -/
theorem C41_position (ds : List (List K)) (data : List K) (h : ds.flatten.length ≤ data.length) {k i : Nat} {d : List K} {v : K}
    (hk : ds[k]? = some d) (hi : d[i]? = some v) :
    ∃ out, fill data 0 ds = ok out ∧ out[((ds.take k).map List.length).sum + i]? = some v := by
  refine ⟨_, C41_fill ds data h, ?_⟩
  have hk' : k < ds.length := (List.getElem?_eq_some_iff.1 hk).1
  have hds : ds = ds.take k ++ d :: ds.drop (k + 1) := by
    conv_lhs => rw [← List.take_append_drop k ds, List.drop_eq_getElem_cons hk']
    rw [(List.getElem?_eq_some_iff.1 hk).2]
  have hi' : i < d.length := (List.getElem?_eq_some_iff.1 hi).1
  have hf : ds.flatten = (ds.take k).flatten ++ (d ++ (ds.drop (k + 1)).flatten) := by
    conv_lhs => rw [hds]
    simp
  rw [hf, ← List.length_flatten, List.append_assoc, List.getElem?_append_right (by omega), Nat.add_sub_cancel_left,
    List.append_assoc, List.getElem?_append_left hi', hi]

example : ∃ (ds : List (List ℚ)) (data : List ℚ), ds.flatten.length ≤ data.length ∧ ds[1]? = some [7, 8] ∧ [7, 8][1]? = some 8 :=
  ⟨[[5], [7, 8], [9]], List.replicate 6 0, by decide, rfl, rfl⟩

/-! ## Temporaries (C42) -/

/-- The indeterminates of a multivector are constants or lie below `n`. -/
def RefsBelow (n : Nat) (a : NMv) : Prop := ∀ t ∈ a, ∀ m ∈ t.mons, ∀ i ∈ m.inds, indConstantStart ≤ i.id ∨ i.id < n

theorem rho_set {E : Env K} {i : Nat} {v : K} {id : Nat} (h : indConstantStart ≤ id ∨ id ≠ i) :
    ({ E with data := E.data.set i v } : Env K).rho id = E.rho id := by
  unfold Env.rho
  by_cases hc : indConstantStart ≤ id
  · rw [if_pos hc, if_pos hc]
  · rw [if_neg hc, if_neg hc]
    have : id ≠ i := by omega
    simp [List.getD_eq_getElem?_getD, List.getElem?_set, Ne.symm this]

theorem has_set {E : Env K} {i : Nat} {v : K} {id : Nat} (h : E.Has id) :
    ({ E with data := E.data.set i v } : Env K).Has id := by
  rcases h with h | h
  · exact Or.inl h
  · exact Or.inr ⟨h.1, by simpa using h.2⟩

theorem evalInd_set {E : Env K} {i : Nat} {v : K} {x : Ind} (hx : indConstantStart ≤ x.id ∨ x.id ≠ i) (h : EvalInd E x) :
    EvalInd { E with data := E.data.set i v } x :=
  ⟨has_set h.has, h.canon, h.nz, h.min, fun hn => by rw [rho_set hx]; exact h.pole hn⟩

theorem tempLoop_spec [CharZero K] : ∀ (n : NMv) (E : Env K) (i off : Nat), off ≤ i → RefsBelow off n → EvalMv E n →
    i + n.length ≤ E.data.length →
    tempLoop .id E i n = ok { E with data := E.data.take i ++ n.map (fun t => monsVal E.pw t.mons) ++ E.data.drop (i + n.length) }
  | [], E, i, off, _, _, _, _ => by simp [tempLoop]
  | t :: n, E, i, off, ho, hr, he, hl => by
    simp only [List.length_cons] at hl
    unfold tempLoop
    rw [C31_term E t.mons (he t (by simp)).1 (he t (by simp)).2, ok_bind]
    unfold Env.write
    rw [if_pos (by omega), ok_bind]
    have hrb : ∀ u ∈ n, ∀ m ∈ u.mons, ∀ x ∈ m.inds, indConstantStart ≤ x.id ∨ x.id ≠ i := by
      intro u hu m hm x hx
      rcases hr u (by simp [hu]) m hm x hx with h | h
      · exact Or.inl h
      · exact Or.inr (by omega)
    rw [tempLoop_spec n _ (i + 1) off (by omega) (fun u hu => hr u (by simp [hu])) ?_ (by simp; omega)]
    · congr 1
      simp only [Env.mk.injEq, and_true, List.map_cons, List.length_cons]
      rw [List.take_set, List.drop_set_of_lt (by omega), List.take_succ_eq_append_getElem (by omega)]
      rw [List.set_append_right _ _ (by simp)]
      simp only [List.length_take, Nat.min_eq_left (show i ≤ E.data.length by omega), Nat.sub_self, List.set_cons_zero,
        List.append_assoc, List.cons_append, List.nil_append]
      rw [show i + 1 + n.length = i + (n.length + 1) by omega]
      congr 3
      apply List.map_congr_left
      intro u hu
      unfold monsVal
      congr 1
      apply List.map_congr_left
      intro m hm
      unfold NMon.val
      congr 1
      apply indsVal_congr
      intro x hx
      unfold Env.pw
      rw [rho_set (hrb u hu m hm x hx)]
    · intro u hu
      refine ⟨(he u (by simp [hu])).1, fun m hm => ⟨((he u (by simp [hu])).2 m hm).1, fun x hx => ?_⟩⟩
      exact evalInd_set (hrb u hu m hm x hx) (((he u (by simp [hu])).2 m hm).2 x hx)

/-- C42: evaluating a temporary whose indeterminates were all defined earlier stores its coefficients from its own id on,
in the order of its terms, and changes nothing else. -/
theorem C42_temp [CharZero K] (E : Env K) {a : Mv} {n : NMv} (off : Nat) (ha : a.view = ok n) (ho : a.op = .id)
    (hr : RefsBelow off n) (he : EvalMv E n) (hl : off + n.length ≤ E.data.length) :
    computeTemp E a off = ok { E with data := E.data.take off ++ n.map (fun t => monsVal E.pw t.mons) ++ E.data.drop (off + n.length) } := by
  unfold computeTemp
  rw [ha, ok_bind, ho]
  exact tempLoop_spec n E off off (le_refl _) hr he hl

/-- C42: a reference to the temporary has the value of the temporary: reading back the stored coefficients gives the
multivector that was stored. -/
theorem C42_reference {V : Type} [CharZero K] [AddCommGroup V] [Module K V] (β : Nat → V) (E : Env K) {a : Mv} {n : NMv} (off : Nat)
    (ha : a.view = ok n) (ho : a.op = .id) (hr : RefsBelow off n) (he : EvalMv E n) (hl : off + n.length ≤ E.data.length)
    (hc : off + n.length ≤ indConstantStart) :
    ∃ E', computeTemp E a off = ok E' ∧ mvVal (intPow E'.rho) β (genericN off (n.map (·.element))) = mvVal E.pw β n := by
  refine ⟨_, C42_temp E off ha ho hr he hl, ?_⟩
  rw [genericN_val β _ _ (n.map fun t => monsVal E.pw t.mons) off (by simp)]
  · have := pairsVal_map β E.pw 1 n
    simpa using this
  · intro i hi
    simp only [List.length_map] at hi
    unfold Env.rho
    rw [if_neg (by omega)]
    simp only [List.getD_eq_getElem?_getD]
    rw [List.append_assoc, List.getElem?_append_right (by simp), List.getElem?_append_left (by simp; omega)]
    simp [Nat.min_eq_left (show off ≤ E.data.length by omega)]

example : ∃ (E : Env ℚ) (a : Mv) (n : NMv), a.view = ok n ∧ a.op = .id ∧ RefsBelow 2 n ∧ EvalMv E n ∧
    2 + n.length ≤ E.data.length ∧ 2 + n.length ≤ indConstantStart ∧ n.length = 2 := by
  refine ⟨⟨[2, 3, 0, 0], [], fun _ _ _ => 1, fun _ v => v⟩, layout ⟨2, 2, 2⟩ sampleResult, sampleResult, by decide, rfl, ?_, ?_,
    by decide, by decide, rfl⟩
  · intro t ht m hm i hi
    simp only [sampleResult, List.mem_cons, List.not_mem_nil, or_false] at ht
    rcases ht with rfl | rfl
    · simp only [List.mem_singleton] at hm
      subst hm
      simp only [List.mem_cons, List.not_mem_nil, or_false] at hi
      rcases hi with rfl | rfl <;> exact Or.inr (by decide)
    · simp only [List.mem_singleton] at hm
      subst hm
      exact (List.not_mem_nil hi).elim
  · intro t ht
    refine ⟨(sampleResult_eval t ht).1, fun m hm => ⟨((sampleResult_eval t ht).2 m hm).1, fun i hi => ?_⟩⟩
    have h := ((sampleResult_eval t ht).2 m hm).2 i hi
    refine ⟨?_, h.canon, h.nz, h.min, ?_⟩
    · simp only [sampleResult, List.mem_cons, List.not_mem_nil, or_false] at ht
      rcases ht with rfl | rfl
      · simp only [List.mem_singleton] at hm
        subst hm
        simp only [List.mem_cons, List.not_mem_nil, or_false] at hi
        rcases hi with rfl | rfl <;> exact Or.inr ⟨by decide, by decide⟩
      · simp only [List.mem_singleton] at hm
        subst hm
        exact (List.not_mem_nil hi).elim
    · simp only [sampleResult, List.mem_cons, List.not_mem_nil, or_false] at ht
      rcases ht with rfl | rfl
      · simp only [List.mem_singleton] at hm
        subst hm
        simp only [List.mem_cons, List.not_mem_nil, or_false] at hi
        rcases hi with rfl | rfl <;> exact fun hn => by simp at hn
      · simp only [List.mem_singleton] at hm
        subst hm
        exact (List.not_mem_nil hi).elim

/-! ## Results (C32) and functions (C43) -/

theorem mapO_ok_iff {α β : Type} {f : α → Out β} : ∀ {l : List α} {r : List β},
    mapO f l = ok r ↔ List.Forall₂ (fun x y => f x = ok y) l r
  | [], r => by
    unfold mapO
    cases r <;> simp
  | x :: l, r => by
    unfold mapO
    simp only [bind_eq_ok, pure_eq, ok_inj]
    constructor
    · rintro ⟨y, hy, ys, hys, rfl⟩
      exact .cons hy (mapO_ok_iff.1 hys)
    · intro h
      cases h with
      | cons h1 h2 => exact ⟨_, h1, _, mapO_ok_iff.2 h2, rfl⟩

/-- C32: several results are returned in the order in which they were pushed: the deepest entry of the stack first. -/
theorem C32_results (nd : Option Nat) (E : Env K) (args : List Mv) (num den : Int) (xs : List (Entity K)) :
    finalizeEntities nd E args num den = ok xs ↔
      List.Forall₂ (fun a x => finalizeEntity nd E a num den = ok x) args.reverse xs := mapO_ok_iff

/-- C43 (part): where the null basis is not used, a function of a scalar monomial evaluates to the function of its value.
Missing: the null basis, refuted by `C43_null_basis_false`, and expressions with several monomials, where the function is
applied to each of them. -/
theorem C43_function_partial [CharZero K] (E : Env K) (a : Mv) (o : MvOp) (ho : o ≠ .id) (e : Nat) (m : NMon)
    (ha : a.view = ok [⟨e, [m]⟩]) (hop : a.op = o) (hq : m.q.WF) (hz : m.q.num ≠ 0) (hi : ∀ i ∈ m.inds, EvalInd E i) :
    finalizeEntity none E a 1 1 = ok ⟨[e], [E.fn o (m.val E.pw)]⟩ := by
  unfold finalizeEntity toOutput computeEntity
  simp only [ok_bind, ha, mapO, Env.term, hop]
  rw [C31_function E o ho m hq hi hz]
  simp [scaleBy]

/-- The scalar `sqrt(x0)`. -/
def sqrtMv : Mv := { layout ⟨1, 1, 1⟩ [⟨0, [⟨⟨1, 1⟩, ⟨1, 1⟩, [⟨0, ⟨1, 1⟩⟩]⟩]⟩] with op := .sqrt }

example : sqrtMv.view = ok [⟨0, [⟨⟨1, 1⟩, ⟨1, 1⟩, [⟨0, ⟨1, 1⟩⟩]⟩]⟩] ∧ sqrtMv.op = .sqrt ∧
    (∀ i ∈ [(⟨0, ⟨1, 1⟩⟩ : Ind)], EvalInd Env.sample i) := by
  refine ⟨by decide, rfl, ?_⟩
  intro i hi
  simp only [List.mem_singleton] at hi
  subst hi
  exact ⟨Or.inr ⟨by decide, by decide⟩, by decide, by decide, by decide, fun h => by simp at h⟩

/-- The conversion to the null basis forgets the function. -/
theorem toNull_op {d : Nat} {a r : Mv} (h : toNullBasis d a = ok r) : r.op = .id := by
  unfold toNullBasis at h
  simp only [bind_eq_ok] at h
  obtain ⟨na, _, ⟨l, t⟩, _, rhs, _, h⟩ := h
  unfold sum at h
  simp only [bind_eq_ok, pure_eq, ok_inj] at h
  obtain ⟨_, _, _, _, _, _, rfl⟩ := h
  rfl

/-- C43 fails in algebras with a null basis: the square root of a scalar is returned as the scalar itself. -/
theorem C43_null_basis_false : ∃ E : Env ℚ, (∀ v, E.fn .sqrt v = 1) ∧ E.rho 0 = 4 ∧
    finalizeEntity (some 5) E sqrtMv 1 1 = ok ⟨[0], [4]⟩ := by
  refine ⟨⟨[4], [], fun _ _ _ => 1, fun _ _ => 1⟩, fun _ => rfl, by simp [Env.rho, indConstantStart], ?_⟩
  have h : ∃ r, toNullBasis 5 sqrtMv = ok r ∧ r.view = ok [⟨0, [⟨⟨1, 1⟩, ⟨1, 1⟩, [⟨0, ⟨1, 1⟩⟩]⟩]⟩] :=
    bind_eq_ok.1 (show (toNullBasis 5 sqrtMv >>= Mv.view) = _ by decide +kernel)
  obtain ⟨r, h1, h2⟩ := h
  unfold finalizeEntity toOutput
  simp only [h1, ok_bind]
  unfold computeEntity
  rw [h2, ok_bind, toNull_op h1]
  simp [mapO, Env.term, Env.mon, Env.prod, Env.factor, Env.get, Env.pow, Gal.pow, Env.app, indConstantStart, scaleBy]

end Gal
