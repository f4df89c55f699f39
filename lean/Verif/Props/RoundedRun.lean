import Verif.Props.Rounded
import Verif.Props.PolyNull

/-!
# Property C57 for lambdas: error bounds for what `compute` returns

For a lambda without temporaries the compile-time part of `compute` determines polynomials; the run-time part evaluates them with rounding.
-/

namespace Gal

open Out

/-- Roundings in a product of positive powers. -/
def powersCost : List (Nat × Nat) → Nat
  | [] => 0
  | [p] => powCost p.2
  | p :: ps => powCost p.2 + powersCost ps + 1

/-- Roundings in a monomial. -/
def ratMonoCost (m : RatMono) : Nat := if m.2 = [] then 3 else powersCost m.2 + factorCost m.1

/-- Roundings that affect a monomial of a polynomial, at most. -/
def ratPolyCost : List RatMono → Nat
  | [] => 0
  | [m] => ratMonoCost m
  | m :: ms => max (ratMonoCost m) (ratPolyCost ms) + 1

theorem readInd_cost {k : Nat} {i : Ind} {p : Nat × Nat} (h : readInd k i = some p) : i.deg.den = 1 ∧ indCost i = powCost p.2 := by
  unfold readInd at h
  split at h
  · rename_i hc
    simp only [Option.some.injEq] at h
    subst h
    refine ⟨hc.1, ?_⟩
    unfold indCost
    rw [if_neg (by omega)]
    have : i.deg.num.natAbs = i.deg.num.toNat := by omega
    rw [this]
    rfl
  · cases h

theorem readInds_cost {k : Nat} : ∀ {is : List Ind} {ps : List (Nat × Nat)}, List.Forall₂ (fun a b => readInd k a = some b) is ps →
    (∀ i ∈ is, i.deg.den = 1) ∧ indsCost is = powersCost ps
  | _, _, .nil => ⟨by simp, rfl⟩
  | _, _, .cons h .nil => ⟨by simpa using (readInd_cost h).1, (readInd_cost h).2⟩
  | _, _, .cons h (.cons h2 t) => by
    obtain ⟨k1, k2⟩ := readInds_cost (.cons h2 t)
    obtain ⟨k3, k4⟩ := readInd_cost h
    refine ⟨by simpa using ⟨k3, by simpa using k1⟩, ?_⟩
    rw [indsCost, powersCost, k4, k2]
    · simp
    · simp

theorem readRatMon_cost {k : Nat} {m : NMon} {p : RatMono} (h : readRatMon k m = some p) :
    (∀ i ∈ m.inds, i.deg.den = 1) ∧ monCost m = ratMonoCost p := by
  unfold readRatMon at h
  split at h
  · simp only [Option.map_eq_some_iff] at h
    obtain ⟨is, h1, rfl⟩ := h
    have h2 := mapM_some h1
    obtain ⟨k1, k2⟩ := readInds_cost h2
    refine ⟨k1, ?_⟩
    unfold monCost ratMonoCost
    rw [k2]
    have : m.inds = [] ↔ is = [] := by rw [← List.length_eq_zero_iff, ← List.length_eq_zero_iff, h2.length_eq]
    simp only [this]
  · cases h

theorem readRatMons_cost {k : Nat} : ∀ {ms : List NMon} {ps : List RatMono}, List.Forall₂ (fun a b => readRatMon k a = some b) ms ps →
    (∀ m ∈ ms, ∀ i ∈ m.inds, i.deg.den = 1) ∧ termCost ms = ratPolyCost ps
  | _, _, .nil => ⟨by simp, rfl⟩
  | _, _, .cons h .nil => ⟨by simpa using (readRatMon_cost h).1, (readRatMon_cost h).2⟩
  | _, _, .cons h (.cons h2 t) => by
    obtain ⟨k1, k2⟩ := readRatMons_cost (.cons h2 t)
    obtain ⟨k3, k4⟩ := readRatMon_cost h
    refine ⟨fun m hm => ?_, ?_⟩
    · rcases List.mem_cons.1 hm with rfl | hm
      · exact k3
      · exact k1 m hm
    · rw [termCost, ratPolyCost, k4, k2]
      · simp
      · simp

section run
variable {u : ℝ} (h0 : 0 ≤ u) (h1 : u < 1) {A : Arith ℝ} (hA : A.Standard u)
include h0 h1 hA

theorem readRatTerm_near {E : Env ℝ} {k : Nat} (hk : k ≤ E.data.length) {t : NTerm} {p : Nat × List RatMono} (h : readRatTerm k t = some p) :
    t.element = p.1 ∧ ∃ v, A.term E .id t.mons = ok v ∧ NearSum u (ratPolyCost p.2) v (p.2.map (ratMonoVal E.data)) := by
  unfold readRatTerm at h
  split at h
  · cases h
  · rename_i hne
    simp only [Option.map_eq_some_iff] at h
    obtain ⟨ms, h2, rfl⟩ := h
    refine ⟨rfl, ?_⟩
    have h3 := mapM_some h2
    obtain ⟨k1, k2⟩ := readRatMons_cost h3
    have key : ∀ {l : List NMon} {ps : List RatMono}, List.Forall₂ (fun a b => readRatMon k a = some b) l ps →
        (∀ m ∈ l, m.q.WF ∧ ∀ i ∈ m.inds, EvalInd E i) ∧ l.map (NMon.val E.pw) = ps.map (ratMonoVal E.data) := by
      intro l ps h
      induction h with
      | nil => exact ⟨by simp, rfl⟩
      | cons a _ ih =>
        obtain ⟨a1, a2⟩ := readRatMon_ok hk a
        refine ⟨by simpa using ⟨a1, ih.1⟩, ?_⟩
        rw [List.map_cons, List.map_cons, a2, ih.2]
    obtain ⟨k3, k4⟩ := key h3
    obtain ⟨v, k5, k6⟩ := near_term h0 h1 hA (E := E) hne fun m hm => ⟨(k3 m hm).1, fun i hi => ⟨(k3 m hm).2 i hi, k1 m hm i hi⟩⟩
    refine ⟨v, k5, ?_⟩
    rw [k4, k2] at k6
    exact k6

/-- **C57 (lambdas)**: what `compute` returns with rounding.  `Lam.ratPolys` is the compile-time part of `compute`; without rounding, the result is the
value of these polynomials (`lam_ratPolys`).  With rounding, each monomial is off by a factor that `ratPolyCost` roundings can cause, and the
multiplication with the factor of the result adds its roundings. -/
theorem rounded_polys {L : Type} (m : Metric) (null : Bool) (E : Env ℝ) {args : List (Arg ℝ)} {args' : List (Arg L)}
    (ht : args.map (fun a => (a.ie, a.data.length)) = args'.map fun a => (a.ie, a.data.length)) {f : Lam} {q : Rat32}
    {ps : List (Nat × List RatMono)} (h : f.ratPolys m null args' = some (q, ps)) :
    ∃ vs, (A.compute m null E args f >>= single) = ok ⟨ps.map Prod.fst, vs⟩ ∧
      List.Forall₂ (fun v p => NearSum u (ratPolyCost p.2 + factorCost q) v
        (p.2.map fun x => ratVal ℝ q * ratMonoVal (args.map fun a => a.data).flatten x)) vs ps := by
  have hoff : argOffset args' = argOffset args := by
    funext k
    have := congrArg (fun l => ((l.take k).map Prod.snd).sum) ht
    simp only [← List.map_take, List.map_map] at this
    exact this.symm
  have hsize : argsSize args' = argsSize args := by
    have := congrArg (fun l => (l.map Prod.snd).sum) ht
    simp only [List.map_map] at this
    exact this.symm
  unfold Lam.ratPolys at h
  rw [hoff, hsize] at h
  unfold readOutView at h
  split at h
  · rename_i n k q' hv
    split at h
    · rename_i hk
      obtain ⟨rfl, hq1, hq2⟩ := hk
      simp only [Option.map_eq_some_iff, Prod.mk.injEq] at h
      obtain ⟨ps', h, rfl, rfl⟩ := h
      have hv' : (do
        let e ← f.build (argOffset args)
        let c ← compileExpr m null f.cap args' e
        c.outView (nullDim m null)) = ok (.id, n, argsSize args, q') := hv
      have hlen : (args.map fun a => a.data).flatten.length = argsSize args := by
        rw [List.length_flatten, List.map_map]
        rfl
      rw [bind_eq_ok] at hv'
      obtain ⟨e, he, hv'⟩ := hv'
      rw [bind_eq_ok] at hv'
      obtain ⟨c, hc, hv'⟩ := hv'
      rw [← compile_types ht] at hc
      unfold Compiled.outView at hv'
      split at hv'
      · rename_i a ht' ha
        rw [bind_eq_ok] at hv'
        obtain ⟨b, hb, hv'⟩ := hv'
        rw [bind_eq_ok] at hv'
        obtain ⟨n', hn, hv'⟩ := hv'
        rw [pure_eq, ok_inj] at hv'
        obtain ⟨h1', h2⟩ := Prod.mk.inj hv'
        obtain ⟨h2, h3⟩ := Prod.mk.inj h2
        obtain ⟨h5, h4⟩ := Prod.mk.inj h3
        subst h2 h4
        unfold Arith.compute
        rw [he, ok_bind]
        unfold Arith.computeExpr
        rw [hc, ok_bind]
        unfold Arith.runCompiled
        rw [ha, ht', h5, C41_fill _ _ (by rw [hlen, List.length_replicate]; omega), ok_bind,
          List.drop_eq_nil_of_le (by rw [hlen, List.length_replicate]; omega), List.append_nil, Arith.finalizeTemps, ok_bind, Arith.finishCompute,
          Arith.finalizeEntity, hb, ok_bind, Arith.computeEntity, hn, ok_bind, h1']
        have key : ∀ {n : NMv} {ps : List (Nat × List RatMono)}, List.Forall₂ (fun a b => readRatTerm (argsSize args) a = some b) n ps →
            n.map (·.element) = ps.map Prod.fst ∧ ∃ vs,
            mapO (fun t : NTerm => A.term ({ E with data := (args.map fun a => a.data).flatten } : Env ℝ) .id t.mons) n = ok vs ∧
            List.Forall₂ (fun v p => NearSum u (ratPolyCost p.2) v (p.2.map (ratMonoVal (args.map fun a => a.data).flatten))) vs ps := by
          intro n ps h
          induction h with
          | nil => exact ⟨rfl, [], rfl, .nil⟩
          | cons a _ ih =>
            obtain ⟨a1, v, a2, a3⟩ := readRatTerm_near h0 h1 hA (E := { E with data := (args.map fun a => a.data).flatten }) (by rw [hlen]) a
            obtain ⟨i1, vs, i2, i3⟩ := ih
            refine ⟨by rw [List.map_cons, List.map_cons, a1, i1], v :: vs, ?_, .cons a3 i3⟩
            rw [mapO, a2, ok_bind, i2, ok_bind]
            rfl
        obtain ⟨k1, vs, k2, k3⟩ := key (mapM_some h)
        rw [k1, k2, ok_bind]
        refine ⟨vs.map (A.scaleBy c.q.num c.q.den), rfl, ?_⟩
        rw [List.forall₂_map_left_iff]
        refine k3.imp fun v p hvp => ?_
        have := near_scaleBy h0 h1 hA hq1 hq2 hvp
        rw [List.map_map] at this
        exact this
      · cases hv'
    · cases h
  · cases h

/-- **C57**: `compute` with rounding returns the components it returns without, and each is off by at most `gam u k` times the sum of the absolute
values of the monomials of its polynomial, where `k` counts roundings. -/
theorem C57_lambda {L : Type} (m : Metric) (null : Bool) (E : Env ℝ) {args : List (Arg ℝ)} {args' : List (Arg L)}
    (ht : args.map (fun a => (a.ie, a.data.length)) = args'.map fun a => (a.ie, a.data.length)) {f : Lam} {q : Rat32}
    {ps : List (Nat × List RatMono)} (h : f.ratPolys m null args' = some (q, ps)) :
    ∃ es xs vs, (f.compute m null E args >>= single) = ok ⟨es, xs⟩ ∧ (A.compute m null E args f >>= single) = ok ⟨es, vs⟩ ∧
      vs.length = ps.length ∧ xs.length = ps.length ∧ ∀ i (p : Nat × List RatMono), ps[i]? = some p → |vs.getD i 0 - xs.getD i 0| ≤
        gam u (ratPolyCost p.2 + factorCost q) * (p.2.map fun x => |ratVal ℝ q * ratMonoVal (args.map fun a => a.data).flatten x|).sum := by
  obtain ⟨vs, h2, h3⟩ := rounded_polys h0 h1 hA m null E ht h
  refine ⟨_, _, vs, lam_ratPolys m null E ht h, h2, h3.length_eq, by simp, fun i p hp => ?_⟩
  have hi : i < ps.length := (List.getElem?_eq_some_iff.1 hp).1
  have hpe : ps[i] = p := (List.getElem?_eq_some_iff.1 hp).2
  have h4 := List.Forall₂.get h3 (by rw [h3.length_eq]; exact hi) hi
  rw [List.get_eq_getElem, List.get_eq_getElem, hpe] at h4
  have h5 := h4.abs_sub h0 h1
  rw [List.map_map] at h5
  rw [List.getD_eq_getElem _ _ (by rw [h3.length_eq]; exact hi), List.getD_eq_getElem _ _ (by simpa using hi), List.getElem_map, hpe]
  have e : ratVal ℝ q * ratPolyVal (args.map fun a => a.data).flatten p.2 =
      (p.2.map fun x => ratVal ℝ q * ratMonoVal (args.map fun a => a.data).flatten x).sum := by
    unfold ratPolyVal
    rw [List.sum_map_mul_left]
  rw [e]
  exact h5

end run

/-! ## Binary floating-point numbers -/

theorem nearestEven_error (y : ℝ) : |y - nearestEven y| ≤ 1 / 2 := by
  unfold nearestEven
  split
  · rename_i h
    rw [h.1, abs_of_pos (by norm_num)]
  · exact abs_sub_round y

theorem roundBits_error (p : Nat) (x : ℝ) : |roundBits p x - x| ≤ (2 : ℝ)⁻¹ ^ p * |x| := by
  unfold roundBits
  set e : Int := Int.log 2 |x| + 1 - p with he
  have hp : (0 : ℝ) < 2 ^ e := zpow_pos (by norm_num) _
  have h1 := nearestEven_error (x / 2 ^ e)
  have h2 : (nearestEven (x / 2 ^ e) : ℝ) * 2 ^ e - x = -((x / 2 ^ e - nearestEven (x / 2 ^ e)) * 2 ^ e) := by
    field_simp
    ring
  rw [h2, abs_neg, abs_mul, abs_of_pos hp]
  rcases eq_or_ne x 0 with rfl | hx
  · simp [nearestEven]
  · have h3 : (2 : ℝ) ^ Int.log 2 |x| ≤ |x| := by
      have := Int.zpow_log_le_self (b := 2) (r := |x|) (by norm_num) (abs_pos.2 hx)
      exact_mod_cast this
    have h4 : (2 : ℝ) ^ e = 2 ^ Int.log 2 |x| * 2 * 2⁻¹ ^ p := by
      rw [he, zpow_sub₀ (by norm_num), zpow_add₀ (by norm_num), zpow_one, zpow_natCast, div_eq_mul_inv, inv_pow]
    calc |x / 2 ^ e - nearestEven (x / 2 ^ e)| * 2 ^ e ≤ 1 / 2 * 2 ^ e := mul_le_mul_of_nonneg_right h1 hp.le
      _ = 2⁻¹ ^ p * 2 ^ Int.log 2 |x| := by rw [h4]; ring
      _ ≤ 2⁻¹ ^ p * |x| := mul_le_mul_of_nonneg_left h3 (by positivity)

theorem roundBits_delta (p : Nat) (x : ℝ) : ∃ δ, |δ| ≤ (2 : ℝ)⁻¹ ^ p ∧ roundBits p x = x * (1 + δ) := by
  have h := roundBits_error p x
  rcases eq_or_ne x 0 with rfl | hx
  · refine ⟨0, by rw [abs_zero]; positivity, ?_⟩
    rw [abs_zero, mul_zero] at h
    have := abs_nonpos_iff.1 h
    linarith
  · refine ⟨(roundBits p x - x) / x, ?_, by field_simp; ring⟩
    rw [abs_div, div_le_iff₀ (abs_pos.2 hx)]
    exact h

/-- C57: binary arithmetic that rounds to the nearest number with `p` digits is a standard model with unit roundoff `2⁻ᵖ`. -/
theorem C57_binary (p : Nat) : (binaryArith ℝ p).Standard ((2 : ℝ)⁻¹ ^ p) where
  add x y := roundBits_delta p (x + y)
  mul x y := roundBits_delta p (x * y)
  div x y := roundBits_delta p (x / y)
  int n := roundBits_delta p n

end Gal
