import Verif.Props.RoundedLimit
import Verif.Props.Log
import Mathlib.Analysis.SpecialFunctions.Sqrt
import Mathlib.Analysis.SpecialFunctions.Trigonometric.Deriv

/-!
# Property C65: the exponential of a line computed with rounding

`exp` takes a square root, a sine and a cosine, divides, and stores twelve temporaries.
-/

namespace Gal

open Out Filter Topology

variable {ι : Type} {l : Filter ι} {N : (ι → ℝ) → ℝ → Prop}

/-! ## Conditions on the views of the temporaries and of the result -/

/-- `FineTemps` for the views of the temporaries. -/
def FineViews (N : (ι → ℝ) → ℝ → Prop) (fn : ι → MvOp → ℝ → ℝ) (fp : ι → ℝ → Int → Int → ℝ) : Env ℝ → List (MvOp × NMv × Nat) → Prop
  | _, [] => True
  | E, (o, n, id) :: ts => FineLoop N fn fp o E id n ∧ ∀ E', tempLoop o E id n = ok E' → FineViews N fn fp E' ts

variable {fn : ι → MvOp → ℝ → ℝ} {fp : ι → ℝ → Int → Int → ℝ}

theorem fineTemps_viewed : ∀ {ts : List (Mv × Nat)} {vs : List (MvOp × NMv × Nat)} {E : Env ℝ},
    mapO (fun p : Mv × Nat => do
      let n ← p.1.view
      return (p.1.op, n, p.2)) ts = ok vs → FineViews N fn fp E vs → FineTemps N fn fp none E ts
  | [], _, _, _, _ => trivial
  | (a, id) :: ts, vs, E, h, hf => by
    simp only [mapO, bind_eq_ok, pure_eq, ok_inj] at h
    obtain ⟨_, ⟨n, h1, rfl⟩, ys, h2, rfl⟩ := h
    intro b n' hb hn
    obtain rfl : a = b := ok_inj.1 hb
    obtain rfl : n = n' := ok_inj.1 (h1.symm.trans hn)
    refine ⟨hf.1, fun E' hE' => fineTemps_viewed h2 (hf.2 E' ?_)⟩
    simpa only [computeTemp, h1, ok_bind] using hE'

theorem fineRun_viewed {m : Metric} {E : Env ℝ} {args : List (Arg ℝ)} {c : Compiled} {ts : List (MvOp × NMv × Nat)} {o : MvOp} {n : NMv} {k : Nat}
    {q : Rat32} (h : c.viewed = ok ⟨ts, [(o, n)], k, q⟩) (hk : argsSize args ≤ k) (hq : q.den ≠ 0)
    (ht : ∀ data, fill (List.replicate (argsSize args + k - argsSize args) 0) 0 (args.map fun a => a.data) = ok data →
      FineViews N fn fp { E with data := data } ts ∧
      ∀ E', viewTemps { E with data := data } ts = ok E' → ∀ t ∈ n, ∀ x ∈ t.mons, FineMon N fn fp E' o x) :
    FineRun N fn fp m false E args c := by
  simp only [Compiled.viewed, bind_eq_ok, pure_eq, ok_inj] at h
  obtain ⟨vs, h1, rs, h2, h3⟩ := h
  injection h3 with h4 h5 h6 h7
  subst h4 h5 h6 h7
  refine ⟨hk, fun _ => hq, fun data hd => fineTemps_viewed h1 (ht data hd).1, fun data E' hd hE' a ha b n' hb hn => ?_⟩
  obtain rfl : a = b := ok_inj.1 hb
  have hE : viewTemps { E with data := data } vs = ok E' := (viewTemps_eq _ _ _ h1).symm.trans hE'
  obtain ⟨a', ha', hv⟩ : ∃ a', c.state.args = [a'] ∧ a'.op = o ∧ a'.view = ok n := by
    match hc : c.state.args with
    | [] => rw [hc] at ha; cases ha
    | [a'] =>
      rw [hc] at h2
      simp only [mapO, bind_eq_ok, pure_eq, ok_inj] at h2
      obtain ⟨_, ⟨n', h8, rfl⟩, ys, rfl, h5⟩ := h2
      injection h5 with h9
      injection h9 with h10 h11
      subst h10 h11
      exact ⟨a', rfl, rfl, h8⟩
    | a' :: b' :: l =>
      rw [hc] at h2
      simp only [mapO, bind_eq_ok, pure_eq, ok_inj] at h2
      obtain ⟨_, ⟨n', h8, rfl⟩, ys, ⟨_, ⟨n'', h9, rfl⟩, zs, h10, rfl⟩, h5⟩ := h2
      cases h5
  rw [ha', List.mem_singleton] at ha
  subst ha
  obtain ⟨rfl, hv⟩ := hv
  obtain rfl : n = n' := ok_inj.1 (hv.symm.trans hn)
  exact (ht data hd).2 E' hE

/-- Integral powers only, and no division. -/
def plainMon (m : NMon) : Bool := decide (m.q.den ≠ 0) && m.inds.all fun i => decide (i.deg.den ≤ 1) && decide (0 ≤ i.deg.num)

theorem plainMon_fine {E : Env ℝ} {m : NMon} (h : plainMon m = true) : FineMon N fn fp E .id m := by
  simp only [plainMon, Bool.and_eq_true, decide_eq_true_eq, List.all_eq_true] at h
  refine ⟨h.1, fun i hi s _ => ⟨fun h1 => ?_, fun h1 => ?_⟩, fun h => absurd rfl h⟩
  · have := (h.2 i hi).1
    omega
  · have := (h.2 i hi).2
    omega

theorem plainLoop_fine : ∀ {n : NMv} {E : Env ℝ} {i : Nat}, (n.all fun t => t.mons.all plainMon) = true → FineLoop N fn fp .id E i n
  | [], _, _, _ => trivial
  | t :: ts, E, i, h => by
    simp only [List.all_cons, Bool.and_eq_true] at h
    exact ⟨fun m hm => plainMon_fine (List.all_eq_true.1 h.1 m hm), fun v E' _ _ => plainLoop_fine h.2⟩

/-- A temporary with one coefficient. -/
theorem fineLoop_one {E : Env ℝ} {i : Nat} {e : Nat} {o : MvOp} {m : NMon} (h : FineMon N fn fp E o m) : FineLoop N fn fp o E i [⟨e, [m]⟩] :=
  ⟨fun _ hm => List.mem_singleton.1 hm ▸ h, fun _ _ _ _ => trivial⟩

/-- Division by numbers that are not zero. -/
theorem fineMon_quot {E : Env ℝ} {m : NMon} (hq : m.q.den ≠ 0) (h : ∀ i ∈ m.inds, i.deg.den ≤ 1 ∧ (i.deg.num < 0 → ∀ s, E.get i.id = ok s → s ≠ 0)) :
    FineMon N fn fp E .id m :=
  ⟨hq, fun i hi s hs => ⟨fun h1 => absurd h1 (by have := (h i hi).1; omega), fun h1 => (h i hi).2 h1 s hs⟩, fun h => absurd rfl h⟩

/-- A function that converges wherever it is applied. -/
theorem fineMon_fn {E : Env ℝ} {m : NMon} {o : MvOp} (h : plainMon m = true) (ho : ∀ v, E.mon .id m = ok v → TendsAt N (fun k => fn k o) (E.fn o) v) :
    FineMon N fn fp E o m :=
  let h1 : FineMon N fn fp E .id m := plainMon_fine h
  ⟨h1.1, h1.2.1, fun _ => ho⟩

/-! ## The exponential -/

/-- `compute([](auto l) { return exp(l); }, l)` with rounding (expr.hpp:904-919); `Gal.computeExp` is the exact computation. -/
def Arith.computeExp {K : Type} [Field K] (A : Arith K) (E : Env K) (x : Arg K) : Out (Entity K) := do
  let e ← expExpr 4 (entityExpr 0 0)
  A.computeExpr pgaMetric false 95 E [x] e >>= single

/-- One more temporary of a concrete program. -/
local macro "run_temp" h:ident : tactic => `(tactic| (
  simp [tempLoop, Env.write, Env.term, Env.mon, Env.prod, Env.factor, Env.get, Env.pow, Gal.pow, powNat, Env.app, indConstantStart, Rat32.one,
    Rat32.cast, pure_eq, ok_bind, ok_inj] at $h:ident
  subst $h))

set_option linter.unusedSimpArgs false in
theorem lineExp_fine {E : Env ℝ} (hE : RealFns E) {a b c d e f : ℝ} (h0 : a * a + b * b + c * c ≠ 0)
    (hsqrt : ∀ x, 0 < x → TendsAt N (fun k => fn k .sqrt) Real.sqrt x) (hsin : ∀ x, TendsAt N (fun k => fn k .sin) Real.sin x)
    (hcos : ∀ x, TendsAt N (fun k => fn k .cos) Real.cos x) {x : Rpne} {p : Compiled} (hx : expExpr 4 (entityExpr 0 0) = ok x)
    (hp : compileExpr pgaMetric false 95 [lineArg [a, b, c, d, e, f]] x = ok p) :
    FineRun N fn fp pgaMetric false E [lineArg [a, b, c, d, e, f]] p := by
  have h := lineExp_viewed
  rw [hx, ok_bind, ← compile_types (args := [lineArg [a, b, c, d, e, f]]) (by rfl), hp, ok_bind] at h
  refine fineRun_viewed h (by simp [argsSize, lineArg]) (by decide) fun data hd => ?_
  have hd' : fill (List.replicate (argsSize [lineArg [a, b, c, d, e, f]] + 24 - argsSize [lineArg [a, b, c, d, e, f]]) 0) 0
      ([lineArg [a, b, c, d, e, f]].map fun a => a.data) = ok [a, b, c, d, e, f, 0, 0, 0, 0, 0, 0, 0, 0, 0, 0, 0, 0, 0, 0, 0, 0, 0, 0] := by
    simp [argsSize, lineArg, fill, fill.fillOne]
  obtain rfl := ok_inj.1 (hd.symm.trans hd')
  have hpos : 0 < a * a + b * b + c * c :=
    lt_of_le_of_ne (by linarith [mul_self_nonneg a, mul_self_nonneg b, mul_self_nonneg c]) h0.symm
  clear h hd hd' hp
  refine ⟨⟨plainLoop_fine (by decide), fun E1 h1 => ⟨plainLoop_fine (by decide), fun E2 h2 => ?_⟩⟩,
    fun E' _ t ht x hx => plainMon_fine (?_ : plainMon x = true)⟩
  · run_temp h1
    run_temp h2
    generalize hs : -(a * a) + (-(b * b) + -(c * c)) = s
    generalize 2 * (a * d) + (-(2 * (b * e)) + 2 * (c * f)) = p
    have hs0 : 0 < -s := by rw [← hs]; linarith
    refine ⟨fineLoop_one (fineMon_fn (by decide) fun v hv => ?_), fun E3 h3 => ?_⟩
    · run_temp hv
      rw [show E.fn .sqrt = Real.sqrt from funext hE.sqrt]
      exact hsqrt _ hs0
    run_temp h3
    rw [hE.sqrt]
    have hr := Real.sqrt_pos.2 hs0
    generalize Real.sqrt (-s) = r at hr ⊢
    refine ⟨fineLoop_one (fineMon_quot (by decide) (by simp [Rat32.one, Env.get, indConstantStart, ok_inj, hr.ne'])), fun E4 h4 => ?_⟩
    run_temp h4
    generalize -1 / 2 * (p * r⁻¹) = w
    refine ⟨fineLoop_one (fineMon_fn (by decide) fun v _ => ?_), fun E5 h5 => ⟨plainLoop_fine (by decide), fun E6 h6 => ?_⟩⟩
    · rw [show E.fn .sin = Real.sin from funext hE.sin]
      exact hsin v
    run_temp h5
    run_temp h6
    rw [hE.sin]
    generalize Real.sin r = sn
    refine ⟨fineLoop_one (fineMon_fn (by decide) fun v _ => ?_), fun E7 h7 => ⟨plainLoop_fine (by decide), fun E8 h8 =>
      ⟨plainLoop_fine (by decide), fun E9 h9 => ?_⟩⟩⟩
    · rw [show E.fn .cos = Real.cos from funext hE.cos]
      exact hcos v
    run_temp h7
    run_temp h8
    run_temp h9
    rw [hE.cos]
    generalize Real.cos r = cs
    refine ⟨fineLoop_one (fineMon_quot (by decide) (by simp [Rat32.one, Env.get, indConstantStart, ok_inj, hr.ne'])), fun E10 h10 => ?_⟩
    run_temp h10
    refine ⟨fineLoop_one (fineMon_quot (by decide) (by
      simp only [List.mem_cons, List.not_mem_nil, or_false, forall_eq_or_imp, forall_eq, Env.get, indConstantStart]
      refine ⟨⟨by decide, fun _ v hv => ?_⟩, by decide, fun h => absurd h (by decide)⟩
      obtain rfl : s = v := by simpa [ok_inj] using hv
      linarith)), fun E11 h11 => ⟨plainLoop_fine (by decide), fun _ _ => trivial⟩⟩
  · revert t x
    decide

theorem near_exp {A : ι → Arith ℝ} (hN : Stable A N) {Es : ι → Env ℝ} {v : ι → List ℝ} {a b c d e f : ℝ} (h0 : a * a + b * b + c * c ≠ 0) (hv : ListTends N v [a, b, c, d, e, f])
    (hc : ∀ k, (Es k).consts = [])
    (hsqrt : ∀ x, 0 < x → TendsAt N (fun k => (Es k).fn .sqrt) Real.sqrt x) (hsin : ∀ x, TendsAt N (fun k => (Es k).fn .sin) Real.sin x)
    (hcos : ∀ x, TendsAt N (fun k => (Es k).fn .cos) Real.cos x) :
    ∃ (ys : ι → List ℝ) (r : Entity ℝ) (x y : Pga ℝ), (∀ k, (A k).computeExp (Es k) (lineArg (v k)) = ok ⟨motorElements, ys k⟩) ∧
      ListTends N ys r.data ∧ r.elements = motorElements ∧ r.Denotes 4 (Metric.sq pgaMetric) y ∧
      (lineArg [a, b, c, d, e, f]).Denotes 4 (Metric.sq pgaMetric) 0 x ∧ IsExp x y := by
  obtain ⟨r, x, y, hx, hr, h1, h2, h3, -⟩ := C51_exp_line realEnv realEnv_fns a b c d e f h0
  unfold computeExp at hr
  rw [bind_eq_ok] at hr
  obtain ⟨p, hp, hr⟩ := hr
  obtain ⟨xs, hxs, hr⟩ := bind_eq_ok.1 hr
  obtain rfl : xs = [r] := by
    match xs, hr with
    | [x], hr => rw [ok_inj.1 hr]
  unfold computeExpr at hxs
  rw [bind_eq_ok] at hxs
  obtain ⟨q, hq, hxs⟩ := hxs
  obtain ⟨ys, h4, h5⟩ := near_run hN pgaMetric false (Es := Es) (E := realEnv) (as := fun k => [lineArg (v k)]) (args := [lineArg [a, b, c, d, e, f]])
    (by simpa [lineArg] using hv) ⟨fun k => by rw [hc]; rfl, fun j => by simp only [hc]; exact hN.const _⟩
    (lineExp_fine realEnv_fns h0 hsqrt hsin hcos hp hq) hxs
  have h6 := h5.each 0 (by simp)
  refine ⟨fun k => ((ys k).getD 0 ⟨[], []⟩).data, r, x, y, fun k => ?_, h6.data, h1, h2, hx, h3⟩
  unfold Arith.computeExp Arith.computeExpr
  rw [hp, ok_bind, compile_types (args' := [lineArg [a, b, c, d, e, f]]) (by simp [lineArg, hv.len k]), hq, ok_bind, h4 k, ok_bind]
  match hy : ys k, h5.len k with
  | [z], _ =>
    have h7 := h6.elements k
    simp only [hy, List.getD_cons_zero] at h7
    show ok z = _
    beta_reduce
    rw [hy, List.getD_cons_zero, ← h1, show r.elements = z.elements from h7.symm]

section main
variable {A : ι → Arith ℝ} {u : ι → ℝ} (hA : Improving l A u)
include hA

/-- **C65 (exponential)**: `exp` of a line whose direction is not zero, computed with rounding in every operation and with functions and inputs that
are only approximately right, never fails, and its coefficients converge to those of the exponential `Σ Lᵏ/k!` as the precision grows. -/
theorem C65_exp {Es : ι → Env ℝ} {v : ι → List ℝ} {a b c d e f : ℝ} (h0 : a * a + b * b + c * c ≠ 0) (hv : ListTends (Limit l) v [a, b, c, d, e, f])
    (hc : ∀ k, (Es k).consts = [])
    (hsqrt : ∀ x, 0 < x → TendsAt (Limit l) (fun k => (Es k).fn .sqrt) Real.sqrt x) (hsin : ∀ x, TendsAt (Limit l) (fun k => (Es k).fn .sin) Real.sin x)
    (hcos : ∀ x, TendsAt (Limit l) (fun k => (Es k).fn .cos) Real.cos x) :
    ∃ (ys : ι → List ℝ) (r : Entity ℝ) (x y : Pga ℝ), (∀ k, (A k).computeExp (Es k) (lineArg (v k)) = ok ⟨motorElements, ys k⟩) ∧
      ListTends (Limit l) ys r.data ∧ r.elements = motorElements ∧ r.Denotes 4 (Metric.sq pgaMetric) y ∧
      (lineArg [a, b, c, d, e, f]).Denotes 4 (Metric.sq pgaMetric) 0 x ∧ IsExp x y :=
  near_exp (near_limit hA) h0 hv hc hsqrt hsin hcos

/-- **C65 (exponential, rate)**: if the errors of the inputs and functions are of the order of the unit roundoff, then so is the error of every
coefficient of the exponential. -/
theorem C65_exp_rate {Es : ι → Env ℝ} {v : ι → List ℝ} {a b c d e f : ℝ} (h0 : a * a + b * b + c * c ≠ 0) (hv : ListTends (Rate l u) v [a, b, c, d, e, f])
    (hc : ∀ k, (Es k).consts = [])
    (hsqrt : ∀ x, 0 < x → TendsAt (Rate l u) (fun k => (Es k).fn .sqrt) Real.sqrt x) (hsin : ∀ x, TendsAt (Rate l u) (fun k => (Es k).fn .sin) Real.sin x)
    (hcos : ∀ x, TendsAt (Rate l u) (fun k => (Es k).fn .cos) Real.cos x) :
    ∃ (ys : ι → List ℝ) (r : Entity ℝ) (x y : Pga ℝ), (∀ k, (A k).computeExp (Es k) (lineArg (v k)) = ok ⟨motorElements, ys k⟩) ∧
      ListTends (Rate l u) ys r.data ∧ r.elements = motorElements ∧ r.Denotes 4 (Metric.sq pgaMetric) y ∧
      (lineArg [a, b, c, d, e, f]).Denotes 4 (Metric.sq pgaMetric) 0 x ∧ IsExp x y :=
  near_exp (near_rate hA) h0 hv hc hsqrt hsin hcos

end main

/-- The unit roundoff of binary floating-point numbers goes to zero with the number of digits. -/
theorem tendsto_half : Tendsto (fun p : Nat => (2 : ℝ)⁻¹ ^ p) atTop (𝓝 0) := tendsto_pow_atTop_nhds_zero_of_lt_one (by norm_num) (by norm_num)

/-- Binary arithmetic gets better and better with the number of digits. -/
theorem binary_improving : Improving atTop (binaryArith ℝ) fun p : Nat => (2 : ℝ)⁻¹ ^ p := .standard C57_binary tendsto_half

/-- Numbers that are correctly rounded. -/
theorem rate_roundBits (x : ℝ) : Rate atTop (fun p : Nat => (2 : ℝ)⁻¹ ^ p) (fun p => roundBits p x) x :=
  ⟨|x|, Eventually.of_forall fun p => by rw [mul_comm]; exact roundBits_error p x⟩

/-- A differentiable function followed by rounding. -/
theorem tendsAt_round {g : ℝ → ℝ} {x : ℝ} (hg : DifferentiableAt ℝ g x) :
    TendsAt (Rate atTop fun p : Nat => (2 : ℝ)⁻¹ ^ p) (fun p t => roundBits p (g t)) g x :=
  rate_fn tendsto_half (fun _ => by positivity) hg fun B => ⟨B, Eventually.of_forall fun p y h => (roundBits_error p _).trans (by
    rw [mul_comm]; exact mul_le_mul_of_nonneg_right h (by positivity))⟩

/-- The environment of binary floating-point numbers with `p` digits, with correctly rounded functions. -/
noncomputable def binaryEnv (p : Nat) : Env ℝ := ⟨[], [], fun _ _ _ => 0, fun o x => roundBits p (realEnv.fn o x)⟩

/-- Errors of the order of `2⁻ᵖ` are bounded by a multiple of `2⁻ᵖ` for all numbers of digits `p`, with one factor for all places. -/
theorem ListTends.bound {v : Nat → List ℝ} {w : List ℝ} (h : ListTends (Rate atTop fun p : Nat => (2 : ℝ)⁻¹ ^ p) v w) :
    ∃ C, ∀ p j, |(v p).getD j 0 - w.getD j 0| ≤ C * (2 : ℝ)⁻¹ ^ p := by
  have h1 : ∀ j, ∃ C, ∀ p, |(v p).getD j 0 - w.getD j 0| ≤ C * (2 : ℝ)⁻¹ ^ p := fun j => by
    have h2 := (rate_iff (fun _ => by positivity)).1 (h.lim j)
    rw [Asymptotics.isBigO_nat_atTop_iff fun p hp => absurd hp (by positivity)] at h2
    obtain ⟨C, hC⟩ := h2
    refine ⟨C, fun p => ?_⟩
    have h3 := hC p
    rwa [Real.norm_eq_abs, Real.norm_eq_abs, abs_of_nonneg (by positivity : (0 : ℝ) ≤ (2 : ℝ)⁻¹ ^ p)] at h3
  choose C hC using h1
  refine ⟨∑ j ∈ Finset.range w.length, |C j|, fun p j => ?_⟩
  have h0 : (0 : ℝ) ≤ (2 : ℝ)⁻¹ ^ p := by positivity
  by_cases hj : j < w.length
  · refine (hC j p).trans (mul_le_mul_of_nonneg_right ?_ h0)
    exact (le_abs_self _).trans (Finset.single_le_sum (f := fun j => |C j|) (fun _ _ => abs_nonneg _) (Finset.mem_range.2 hj))
  · rw [List.getD_eq_default _ _ (by rw [h.len]; omega), List.getD_eq_default _ _ (by omega), sub_zero, abs_zero]
    exact mul_nonneg (Finset.sum_nonneg fun _ _ => abs_nonneg _) h0

/-- `exp` in binary floating-point arithmetic, with correctly rounded functions and correctly rounded inputs: with `p` digits, the error of every
coefficient is at most a multiple of `2⁻ᵖ`, for all `p`. -/
theorem C65_exp_binary {a b c d e f : ℝ} (h0 : a * a + b * b + c * c ≠ 0) :
    ∃ (ys : Nat → List ℝ) (r : Entity ℝ) (x y : Pga ℝ) (C : ℝ),
      (∀ p, (binaryArith ℝ p).computeExp (binaryEnv p) (lineArg ([a, b, c, d, e, f].map (roundBits p))) = ok ⟨motorElements, ys p⟩) ∧
      (∀ p, (ys p).length = r.data.length) ∧ (∀ p j, |(ys p).getD j 0 - r.data.getD j 0| ≤ C * (2 : ℝ)⁻¹ ^ p) ∧
      r.elements = motorElements ∧ r.Denotes 4 (Metric.sq pgaMetric) y ∧
      (lineArg [a, b, c, d, e, f]).Denotes 4 (Metric.sq pgaMetric) 0 x ∧ IsExp x y := by
  have hv : ListTends (Rate atTop fun p : Nat => (2 : ℝ)⁻¹ ^ p) (fun p => [a, b, c, d, e, f].map (roundBits p)) [a, b, c, d, e, f] :=
    ⟨fun _ => rfl, fun j => match j with
      | 0 => rate_roundBits a
      | 1 => rate_roundBits b
      | 2 => rate_roundBits c
      | 3 => rate_roundBits d
      | 4 => rate_roundBits e
      | 5 => rate_roundBits f
      | _ + 6 => (near_rate binary_improving).const 0⟩
  obtain ⟨ys, r, x, y, h1, h2, h3⟩ := C65_exp_rate (Es := binaryEnv) binary_improving h0 hv (fun _ => rfl)
    (fun x hx => tendsAt_round (Real.hasDerivAt_sqrt hx.ne').differentiableAt) (fun x => tendsAt_round Real.differentiableAt_sin)
    fun x => tendsAt_round Real.differentiableAt_cos
  obtain ⟨C, hC⟩ := h2.bound
  exact ⟨ys, r, x, y, C, h1, h2.len, hC, h3⟩

example : (1 : ℝ) * 1 + 2 * 2 + 3 * 3 ≠ 0 := by norm_num

end Gal
