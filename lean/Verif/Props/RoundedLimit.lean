import Verif.Spec.RoundedLimit
import Verif.Props.RoundedRun
import Verif.Props.Engine
import Mathlib.Analysis.Calculus.FDeriv.Basic

/-!
# Property C65: results converge as the precision grows, with an error of the order of the unit roundoff

For programs with temporaries, quotients and functions.
-/

namespace Gal

open Out Filter Topology

variable {ι : Type} {l : Filter ι}

/-! ## Arithmetic -/

/-- The sense of approaching `N` is kept by the operations of `A`. -/
structure Stable (A : ι → Arith ℝ) (N : (ι → ℝ) → ℝ → Prop) : Prop where
  const : ∀ c : ℝ, N (fun _ => c) c
  add : ∀ {x y : ι → ℝ} {a b : ℝ}, N x a → N y b → N (fun k => (A k).add (x k) (y k)) (a + b)
  mul : ∀ {x y : ι → ℝ} {a b : ℝ}, N x a → N y b → N (fun k => (A k).mul (x k) (y k)) (a * b)
  div : ∀ {x y : ι → ℝ} {a b : ℝ}, b ≠ 0 → N x a → N y b → N (fun k => (A k).div (x k) (y k)) (a / b)
  int : ∀ n : Int, N (fun k => (A k).int n) (n : ℝ)

section arith
variable {A : ι → Arith ℝ} {u : ι → ℝ}

theorem rate_iff (h0 : ∀ k, 0 ≤ u k) {v : ι → ℝ} {w : ℝ} : Rate l u v w ↔ (fun k => v k - w) =O[l] u := by
  rw [Asymptotics.isBigO_iff]
  simp only [Real.norm_eq_abs, abs_of_nonneg (h0 _), Rate]

/-- Numbers that stay within a multiple of `u` of numbers that converge. -/
theorem tendsto_step (hu : Tendsto u l (𝓝 0)) {x y : ι → ℝ} {w : ℝ} (hx : Tendsto x l (𝓝 w))
    (h : ∀ B, ∃ C, ∀ᶠ k in l, |x k| ≤ B → |y k - x k| ≤ C * u k) : Tendsto y l (𝓝 w) := by
  obtain ⟨C, hC⟩ := h (|w| + 1)
  have hb : ∀ᶠ k in l, |x k| ≤ |w| + 1 := (hx.abs.eventually_lt_const (lt_add_one _)).mono fun _ h => h.le
  have h1 : Tendsto (fun k => y k - x k) l (𝓝 0) := by
    rw [tendsto_zero_iff_abs_tendsto_zero]
    refine squeeze_zero' (Eventually.of_forall fun _ => abs_nonneg _) ((hC.and hb).mono fun k hk => hk.1 hk.2) ?_
    simpa using hu.const_mul C
  simpa using h1.add hx

theorem near_limit (hA : Improving l A u) : Stable A (Limit l) where
  const _ := tendsto_const_nhds
  add hx hy := tendsto_step hA.small (hx.add hy) fun B => (hA.add B).imp fun C h => h.mono fun k hk => hk _ _
  mul hx hy := tendsto_step hA.small (hx.mul hy) fun B => (hA.mul B).imp fun C h => h.mono fun k hk => hk _ _
  div hb hx hy := tendsto_step hA.small (hx.div hy hb) fun B => (hA.div B).imp fun C h =>
    (h.and (hy.eventually_ne hb)).mono fun k hk => hk.1 _ _ hk.2
  int n := tendsto_step hA.small tendsto_const_nhds fun B => (hA.int n).imp fun C h => h.mono fun k hk _ => hk

/-- An error of the order of `u` is an error that goes to zero. -/
theorem Rate.limit (hu : Tendsto u l (𝓝 0)) (h0 : ∀ k, 0 ≤ u k) {v : ι → ℝ} {w : ℝ} (h : Rate l u v w) : Tendsto v l (𝓝 w) := by
  have h1 := ((rate_iff h0).1 h).trans_tendsto hu
  simpa using h1.add_const w

theorem rate_step (hu : Tendsto u l (𝓝 0)) (h0 : ∀ k, 0 ≤ u k) {x y : ι → ℝ} {w : ℝ} (hx : Rate l u x w)
    (h : ∀ B, ∃ C, ∀ᶠ k in l, |x k| ≤ B → |y k - x k| ≤ C * u k) : Rate l u y w := by
  have hl := hx.limit hu h0
  obtain ⟨C, hC⟩ := h (|w| + 1)
  have hb : ∀ᶠ k in l, |x k| ≤ |w| + 1 := (hl.abs.eventually_lt_const (lt_add_one _)).mono fun _ h => h.le
  obtain ⟨D, hD⟩ := hx
  refine ⟨C + D, ?_⟩
  filter_upwards [hC, hb, hD] with k h1 h2 h3
  calc |y k - w| = |(y k - x k) + (x k - w)| := by congr 1; ring
    _ ≤ |y k - x k| + |x k - w| := abs_add_le _ _
    _ ≤ (C + D) * u k := by rw [add_mul]; exact add_le_add (h1 h2) h3

theorem Rate.mul (hu : Tendsto u l (𝓝 0)) (h0 : ∀ k, 0 ≤ u k) {x y : ι → ℝ} {a b : ℝ} (hx : Rate l u x a) (hy : Rate l u y b) :
    Rate l u (fun k => x k * y k) (a * b) := by
  have h1 := (hy.limit hu h0).isBigO_one ℝ
  rw [rate_iff h0] at *
  have h2 : (fun k => (x k - a) * y k) =O[l] u := by simpa using hx.mul h1
  exact (h2.add (hy.const_mul_left a)).congr_left fun k => by ring

theorem Rate.inv (hu : Tendsto u l (𝓝 0)) (h0 : ∀ k, 0 ≤ u k) {y : ι → ℝ} {b : ℝ} (hb : b ≠ 0) (hy : Rate l u y b) :
    Rate l u (fun k => (y k)⁻¹) b⁻¹ := by
  have hl := hy.limit hu h0
  have h1 := (hl.inv₀ hb).isBigO_one ℝ
  rw [rate_iff h0] at *
  have h2 : (fun k => (y k - b) * (y k)⁻¹) =O[l] u := by simpa using hy.mul h1
  refine (h2.const_mul_left (-b⁻¹)).congr' ?_ EventuallyEq.rfl
  filter_upwards [hl.eventually_ne hb] with k hk
  field_simp
  ring

/-- If the arithmetics get better and better, then errors of the order of the unit roundoff stay errors of its order. -/
theorem near_rate (hA : Improving l A u) : Stable A (Rate l u) := by
  have h0 := hA.nonneg
  have hu := hA.small
  have hc : ∀ c : ℝ, Rate l u (fun _ => c) c := fun c => ⟨0, Eventually.of_forall fun k => by simp⟩
  refine ⟨hc, fun hx hy => rate_step hu h0 (x := fun k => _ + _) ?_ fun B => (hA.add B).imp fun C h => h.mono fun k hk => hk _ _,
    fun hx hy => rate_step hu h0 (hx.mul hu h0 hy) fun B => (hA.mul B).imp fun C h => h.mono fun k hk => hk _ _,
    fun hb hx hy => rate_step hu h0 (x := fun k => _ / _) ?_ fun B => (hA.div B).imp fun C h =>
      (h.and ((hy.limit hu h0).eventually_ne hb)).mono fun k hk => hk.1 _ _ hk.2,
    fun n => rate_step hu h0 (hc n) fun B => (hA.int n).imp fun C h => h.mono fun k hk _ => hk⟩
  · rw [rate_iff h0] at *
    exact (hx.add hy).congr_left fun k => by ring
  · simp only [div_eq_mul_inv]
    exact hx.mul hu h0 (hy.inv hu h0 hb)

/-- Standard models of arithmetic whose unit roundoff goes to zero get better and better. -/
theorem Improving.standard (hA : ∀ k, (A k).Standard (u k)) (hu : Tendsto u l (𝓝 0)) : Improving l A u := by
  have h0 : ∀ k, 0 ≤ u k := fun k => let ⟨δ, h, _⟩ := (hA k).int 0; (abs_nonneg δ).trans h
  have key : ∀ {k : ι} {B z r : ℝ}, |z| ≤ B → (∃ δ, |δ| ≤ u k ∧ r = z * (1 + δ)) → |r - z| ≤ B * u k := fun {k B z r} hz ⟨δ, h1, h2⟩ => by
    rw [h2, show z * (1 + δ) - z = z * δ by ring, abs_mul]
    exact mul_le_mul hz h1 (abs_nonneg _) ((abs_nonneg _).trans hz)
  exact ⟨h0, hu, fun B => ⟨B, Eventually.of_forall fun k x y h => key h ((hA k).add _ _)⟩,
    fun B => ⟨B, Eventually.of_forall fun k x y h => key h ((hA k).mul _ _)⟩,
    fun B => ⟨B, Eventually.of_forall fun k x y _ h => key h ((hA k).div _ _)⟩,
    fun n => ⟨|(n : ℝ)|, Eventually.of_forall fun k => key le_rfl ((hA k).int n)⟩⟩

/-- A differentiable function computed with an error of at most a multiple of `u` where its values are bounded. -/
theorem rate_fn (hu : Tendsto u l (𝓝 0)) (h0 : ∀ k, 0 ≤ u k) {f : ι → ℝ → ℝ} {g : ℝ → ℝ} {x : ℝ} (hg : DifferentiableAt ℝ g x)
    (hf : ∀ B, ∃ C, ∀ᶠ k in l, ∀ y, |g y| ≤ B → |f k y - g y| ≤ C * u k) : TendsAt (Rate l u) f g x := by
  intro y hy
  refine rate_step hu h0 (x := fun k => g (y k)) ?_ fun B => (hf B).imp fun C h => h.mono fun k hk => hk _
  have hl := hy.limit hu h0
  rw [rate_iff h0] at *
  exact (hg.isBigO_sub.comp_tendsto hl).trans hy

end arith

section pow
variable {A : ι → Arith ℝ} {N : (ι → ℝ) → ℝ → Prop} (hN : Stable A N)
include hN

theorem tends_powLoop : ∀ (fuel : Nat) {x y : ι → ℝ} {a b : ℝ} (e : Nat), N x a → N y b →
    N (fun k => (A k).powLoop fuel (x k) (y k) e) (powLoop fuel a b e)
  | 0, _, _, _, _, _, hx, hy => hN.mul hx hy
  | fuel + 1, x, y, a, b, e, hx, hy => by
    unfold Arith.powLoop powLoop
    by_cases h : e > 1
    · simp only [if_pos h]
      by_cases h2 : e % 2 = 1
      · simp only [if_pos h2]
        exact tends_powLoop fuel _ (hN.mul hx hy) (hN.mul hy hy)
      · simp only [if_neg h2]
        exact tends_powLoop fuel _ hx (hN.mul hy hy)
    · simp only [if_neg h]
      exact hN.mul hx hy

theorem tends_powNat {x : ι → ℝ} {a : ℝ} (hx : N x a) : ∀ n : Nat, N (fun k => (A k).powNat (x k) n) (powNat a n)
  | 0 => tends_powLoop hN 0 0 (hN.const _) hx
  | 1 => hx
  | 2 => hN.mul hx hx
  | 3 => hN.mul (hN.mul hx hx) hx
  | 4 => hN.mul (hN.mul hx hx) (hN.mul hx hx)
  | 5 => hN.mul (hN.mul (hN.mul hx hx) (hN.mul hx hx)) hx
  | 6 => hN.mul (hN.mul (hN.mul hx hx) hx) (hN.mul (hN.mul hx hx) hx)
  | 7 => hN.mul (hN.mul (hN.mul (hN.mul hx hx) (hN.mul hx hx)) (hN.mul hx hx)) hx
  | 8 => hN.mul (hN.mul (hN.mul hx hx) (hN.mul hx hx))
      (hN.mul (hN.mul hx hx) (hN.mul hx hx))
  | n + 9 => tends_powLoop hN (n + 9) (n + 9) (hN.const _) hx

end pow

/-! ## Outcomes -/

/-- If the exact computation succeeds, then so do the others, and their results are related. -/
def OutTends {α β : Type} (R : (ι → α) → β → Prop) (x : ι → Out α) (y : Out β) : Prop := ∀ w, y = ok w → ∃ v, (∀ k, x k = ok (v k)) ∧ R v w

theorem OutTends.ok {α β : Type} {R : (ι → α) → β → Prop} {v : ι → α} {w : β} (h : R v w) : OutTends R (fun k => ok (v k)) (ok w) := by
  intro w' e
  rw [ok_inj] at e
  subst e
  exact ⟨v, fun _ => rfl, h⟩

theorem OutTends.bind {α β γ δ : Type} {R : (ι → α) → β → Prop} {S : (ι → γ) → δ → Prop} {x : ι → Out α} {y : Out β} {f : ι → α → Out γ} {g : β → Out δ}
    (h : OutTends R x y) (h' : ∀ v w, y = Out.ok w → R v w → OutTends S (fun k => f k (v k)) (g w)) :
    OutTends S (fun k => x k >>= f k) (y >>= g) := by
  intro z hz
  rw [bind_eq_ok] at hz
  obtain ⟨w, hw, hz⟩ := hz
  obtain ⟨v, hv, hr⟩ := h w hw
  obtain ⟨s, hs, hs'⟩ := h' v w hw hr z hz
  exact ⟨s, fun k => by beta_reduce; rw [hv k, ok_bind]; exact hs k, hs'⟩

/-- Numbers. -/
abbrev NumTends (N : (ι → ℝ) → ℝ → Prop) : (ι → Out ℝ) → Out ℝ → Prop := OutTends fun v w => N v w

/-- Environments. -/
structure EnvTends (N : (ι → ℝ) → ℝ → Prop) (fn : ι → MvOp → ℝ → ℝ) (fp : ι → ℝ → Int → Int → ℝ) (Es : ι → Env ℝ) (E : Env ℝ) : Prop where
  data : ListTends N (fun k => (Es k).data) E.data
  consts : ListTends N (fun k => (Es k).consts) E.consts
  fn : ∀ k, (Es k).fn = fn k
  fp : ∀ k, (Es k).fpow = fp k

theorem ListTends.get {N : (ι → ℝ) → ℝ → Prop} {v : ι → List ℝ} {w : List ℝ} (h : ListTends N v w) {j : Nat} {x : ℝ} (hx : w[j]? = some x) :
    ∃ y : ι → ℝ, (∀ k, (v k)[j]? = some (y k)) ∧ N y x := by
  obtain ⟨hj, rfl⟩ := List.getElem?_eq_some_iff.1 hx
  refine ⟨fun k => (v k).getD j 0, fun k => ?_, ?_⟩
  · have : j < (v k).length := by rw [h.len]; exact hj
    beta_reduce
    rw [List.getElem?_eq_getElem this, List.getD_eq_getElem _ _ this]
  · have := h.lim j
    rwa [List.getD_eq_getElem w _ hj] at this

section eval
variable {A : ι → Arith ℝ} {N : (ι → ℝ) → ℝ → Prop} (hN : Stable A N)
variable {fn : ι → MvOp → ℝ → ℝ} {fp : ι → ℝ → Int → Int → ℝ}
include hN

omit hN in
theorem EnvTends.get {Es : ι → Env ℝ} {E : Env ℝ} (h : EnvTends N fn fp Es E) (id : Nat) : NumTends N (fun k => (Es k).get id) (E.get id) := by
  intro x hx
  unfold Env.get at hx ⊢
  by_cases hc : id ≥ indConstantStart
  · simp only [if_pos hc] at hx ⊢
    split at hx
    · cases hx
    · rename_i y hy
      rw [ok_inj] at hx
      subst hx
      obtain ⟨v, hv, hl⟩ := h.consts.get hy
      exact ⟨v, fun k => by rw [hv k], hl⟩
  · simp only [if_neg hc] at hx ⊢
    split at hx
    · cases hx
    · rename_i y hy
      rw [ok_inj] at hx
      subst hx
      obtain ⟨v, hv, hl⟩ := h.data.get hy
      exact ⟨v, fun k => by rw [hv k], hl⟩

theorem tends_ipow {x : ι → ℝ} {a : ℝ} (hx : N x a) {z : Int} (h : z < 0 → a ≠ 0) :
    NumTends N (fun k => (A k).ipow (x k) z) (pow a z) := by
  unfold Arith.ipow pow
  by_cases h1 : z = 1
  · simp only [if_pos h1]
    exact .ok hx
  · simp only [if_neg h1]
    by_cases h2 : z = -1
    · simp only [if_pos h2]
      exact .ok (hN.div (h (by omega)) (hN.const _) hx)
    · simp only [if_neg h2]
      by_cases h3 : z < 0
      · simp only [if_pos h3]
        refine OutTends.bind (R := fun v w => v = fun _ => w) (fun w hw => ⟨fun _ => w, fun _ => hw, rfl⟩) ?_
        rintro v m hm rfl
        refine .ok (hN.div ?_ (hN.const _) (tends_powNat hN hx _))
        have : m = -z := (chk_eq_ok.1 hm).2.symm
        rw [powNat_eq _ _ (by omega)]
        exact pow_ne_zero _ (h h3)
      · simp only [if_neg h3]
        exact .ok (tends_powNat hN hx _)

theorem tends_factor {Es : ι → Env ℝ} {E : Env ℝ} (hE : EnvTends N fn fp Es E) {i : Ind} (h : FineInd N fp E i) :
    NumTends N (fun k => (A k).factor (Es k) i) (E.factor i) := by
  unfold Arith.factor Env.factor Env.pow
  refine OutTends.bind (hE.get i.id) fun v w hw hv => ?_
  obtain ⟨h1, h2⟩ := h w hw
  by_cases hd : i.deg.den > 1
  · simp only [if_pos hd, hE.fp]
    exact .ok (h1 hd v hv)
  · simp only [if_neg hd]
    exact tends_ipow hN hv h2

theorem tends_prod {Es : ι → Env ℝ} {E : Env ℝ} (hE : EnvTends N fn fp Es E) : ∀ {is : List Ind}, (∀ i ∈ is, FineInd N fp E i) →
    NumTends N (fun k => (A k).prod (Es k) is) (E.prod is)
  | [], _ => fun w hw => by cases hw
  | [i], h => tends_factor hN hE (h i (by simp))
  | i :: j :: is, h => by
    unfold Arith.prod Env.prod
    refine OutTends.bind (tends_factor hN hE (h i (by simp))) fun v w _ hv => ?_
    refine OutTends.bind (tends_prod hE fun i' hi => h i' (List.mem_cons_of_mem _ hi)) fun v' w' _ hv' => ?_
    exact .ok (hN.mul hv hv')

omit hN in
theorem app_id (E : Env ℝ) (v : ℝ) : E.app .id v = v := by simp [Env.app]

omit hN in
theorem mon_app (E : Env ℝ) (o : MvOp) (m : NMon) (h : m.q.num ≠ 0) : E.mon o m = E.mon .id m >>= fun v => ok (E.app o v) := by
  unfold Env.mon
  simp only [if_neg h, app_id]
  repeat' split
  all_goals simp only [pure_eq, bind_assoc, ok_bind]

omit hN in
theorem arith_mon_app (B : Arith ℝ) (E : Env ℝ) (o : MvOp) (m : NMon) (h : m.q.num ≠ 0) : B.mon E o m = B.mon E .id m >>= fun v => ok (E.app o v) := by
  unfold Arith.mon
  simp only [if_neg h, app_id]
  repeat' split
  all_goals simp only [pure_eq, bind_assoc, ok_bind]

theorem tends_mon_id {Es : ι → Env ℝ} {E : Env ℝ} (hE : EnvTends N fn fp Es E) {m : NMon} (hd : m.q.den ≠ 0) (h : ∀ i ∈ m.inds, FineInd N fp E i) :
    NumTends N (fun k => (A k).mon (Es k) .id m) (E.mon .id m) := by
  have hd' : (m.q.den : ℝ) ≠ 0 := by exact_mod_cast hd
  have hc : N (fun k => (A k).cast m.q) (m.q.cast : ℝ) := hN.div hd' (hN.int _) (hN.int _)
  unfold Arith.mon Env.mon
  simp only [app_id]
  by_cases h0 : m.q.num = 0
  · simp only [if_pos h0]
    exact .ok (hN.const _)
  simp only [if_neg h0]
  by_cases h1 : m.inds = []
  · simp only [if_pos h1]
    exact .ok hc
  simp only [if_neg h1]
  by_cases h2 : m.q.den.natAbs > 1
  · simp only [if_pos h2]
    by_cases h3 : m.q.num.natAbs > 1 ∨ m.q.num = -1
    · simp only [if_pos h3]
      exact OutTends.bind (tends_prod hN hE h) fun v w _ hv => .ok (hN.mul hc hv)
    · simp only [if_neg h3]
      exact OutTends.bind (tends_prod hN hE h) fun v w _ hv => .ok (hN.div hd' hv (hN.int _))
  · simp only [if_neg h2]
    by_cases h3 : m.q.num.natAbs > 1 ∨ m.q.num = -1
    · simp only [if_pos h3]
      exact OutTends.bind (tends_prod hN hE h) fun v w _ hv => .ok (hN.mul (hN.int _) hv)
    · simp only [if_neg h3]
      exact OutTends.bind (tends_prod hN hE h) fun v w _ hv => .ok hv

theorem tends_mon {Es : ι → Env ℝ} {E : Env ℝ} (hE : EnvTends N fn fp Es E) {o : MvOp} {m : NMon} (h : FineMon N fn fp E o m) :
    NumTends N (fun k => (A k).mon (Es k) o m) (E.mon o m) := by
  obtain ⟨h1, h2, h3⟩ := h
  by_cases h0 : m.q.num = 0
  · unfold Arith.mon Env.mon
    simp only [if_pos h0]
    exact .ok (hN.const _)
  by_cases ho : o = .id
  · subst ho
    exact tends_mon_id hN hE h1 h2
  · have e : (fun k => (A k).mon (Es k) o m) = fun k => (A k).mon (Es k) .id m >>= fun v => ok ((Es k).app o v) :=
      funext fun k => arith_mon_app (A k) (Es k) o m h0
    rw [e, mon_app _ _ _ h0]
    refine OutTends.bind (tends_mon_id hN hE h1 h2) fun v w hw hv => ?_
    unfold Env.app
    simp only [if_neg ho, hE.fn]
    exact .ok (h3 ho w hw v hv)

theorem tends_term {Es : ι → Env ℝ} {E : Env ℝ} (hE : EnvTends N fn fp Es E) {o : MvOp} : ∀ {ms : List NMon}, (∀ m ∈ ms, FineMon N fn fp E o m) →
    NumTends N (fun k => (A k).term (Es k) o ms) (E.term o ms)
  | [], _ => fun w hw => by cases hw
  | [m], h => tends_mon hN hE (h m (by simp))
  | m :: m' :: ms, h => by
    unfold Arith.term Env.term
    refine OutTends.bind (tends_mon hN hE (h m (by simp))) fun v w _ hv => ?_
    refine OutTends.bind (tends_term hE fun x hx => h x (List.mem_cons_of_mem _ hx)) fun v' w' _ hv' => ?_
    exact .ok (hN.add hv hv')

omit hN in
theorem ListTends.set {v : ι → List ℝ} {w : List ℝ} (h : ListTends N v w) {x : ι → ℝ} {a : ℝ} (hx : N x a) (j : Nat) :
    ListTends N (fun k => (v k).set j (x k)) (w.set j a) := by
  refine ⟨fun k => by simp [h.len k], fun i => ?_⟩
  have key : ∀ (l : List ℝ) (y : ℝ), (l.set j y).getD i 0 = if i = j ∧ j < l.length then y else l.getD i 0 := by
    intro l y
    simp only [List.getD_eq_getElem?_getD, List.getElem?_set]
    split
    · rename_i e
      subst e
      split <;> simp_all
    · rename_i e
      rw [if_neg (fun h => e h.1.symm)]
  simp only [key, h.len]
  split
  · exact hx
  · exact h.lim i

omit hN in
theorem tends_write {Es : ι → Env ℝ} {E : Env ℝ} (hE : EnvTends N fn fp Es E) {x : ι → ℝ} {a : ℝ} (hx : N x a) (j : Nat) :
    OutTends (EnvTends N fn fp) (fun k => (Es k).write j (x k)) (E.write j a) := by
  unfold Env.write
  have hl := hE.data.len
  by_cases h : j < E.data.length
  · simp only [hl, if_pos h]
    exact .ok ⟨hE.data.set hx j, hE.consts, hE.fn, hE.fp⟩
  · simp only [if_neg h]
    intro w hw
    cases hw

theorem tends_tempLoop {o : MvOp} : ∀ {n : NMv} {Es : ι → Env ℝ} {E : Env ℝ} {i : Nat}, EnvTends N fn fp Es E → FineLoop N fn fp o E i n →
    OutTends (EnvTends N fn fp) (fun k => (A k).tempLoop o (Es k) i n) (tempLoop o E i n)
  | [], _, _, _, hE, _ => .ok hE
  | t :: n, Es, E, i, hE, h => by
    unfold Arith.tempLoop tempLoop
    obtain ⟨h1, h2⟩ := h
    refine OutTends.bind (tends_term hN hE h1) fun v w hw hv => ?_
    refine OutTends.bind (tends_write hE hv i) fun v' E' hE' hv' => ?_
    exact tends_tempLoop hv' (h2 w E' hw hE')

omit hN in
theorem OutTends.same {α γ δ : Type} {S : (ι → γ) → δ → Prop} {x : Out α} {f : ι → α → Out γ} {g : α → Out δ}
    (h : ∀ w, x = Out.ok w → OutTends S (fun k => f k w) (g w)) : OutTends S (fun k => x >>= f k) (x >>= g) := by
  refine OutTends.bind (R := fun v w => v = fun _ => w) (fun w hw => ⟨fun _ => w, fun _ => hw, rfl⟩) ?_
  rintro v w hw rfl
  exact h w hw

theorem tends_temps {nd : Option Nat} : ∀ {ps : List (Mv × Nat)} {Es : ι → Env ℝ} {E : Env ℝ}, EnvTends N fn fp Es E → FineTemps N fn fp nd E ps →
    OutTends (EnvTends N fn fp) (fun k => (A k).finalizeTemps nd (Es k) ps) (finalizeTemps nd E ps)
  | [], _, _, hE, _ => .ok hE
  | (a, id) :: ps, Es, E, hE, h => by
    unfold Arith.finalizeTemps finalizeTemps
    refine .same fun b hb => ?_
    refine OutTends.bind (R := fun v w => EnvTends N fn fp v w ∧ computeTemp E b id = Out.ok w) ?_ ?_
    · unfold Arith.computeTemp computeTemp
      intro w hw
      have hw' := hw
      rw [bind_eq_ok] at hw'
      obtain ⟨n, hn, hw'⟩ := hw'
      obtain ⟨v, hv, hv'⟩ := tends_tempLoop hN hE (h b n hb hn).1 w hw'
      exact ⟨v, fun k => by beta_reduce; rw [hn, ok_bind]; exact hv k, hv', hw⟩
    · rintro v E' - ⟨hv, hE'⟩
      have hE2 := hE'
      unfold computeTemp at hE2
      rw [bind_eq_ok] at hE2
      obtain ⟨n, hn, -⟩ := hE2
      exact tends_temps hv ((h b n hb hn).2 E' hE')

theorem tends_scaleBy {num den : Int} (hd : den ≠ 0) {x : ι → ℝ} {a : ℝ} (hx : N x a) :
    N (fun k => (A k).scaleBy num den (x k)) (scaleBy num den a) := by
  have hd' : (den : ℝ) ≠ 0 := by exact_mod_cast hd
  unfold Arith.scaleBy scaleBy
  by_cases h2 : den.natAbs > 1
  · simp only [if_pos h2]
    by_cases h3 : num.natAbs > 1 ∨ num = -1
    · simp only [if_pos h3]
      exact hN.mul (hN.div hd' (hN.int _) (hN.int _)) hx
    · simp only [if_neg h3]
      exact hN.div hd' hx (hN.int _)
  · simp only [if_neg h2]
    by_cases h3 : num.natAbs > 1 ∨ num = -1
    · simp only [if_pos h3]
      exact hN.mul (hN.int _) hx
    · simp only [if_neg h3]
      exact hx

omit hN in
theorem tends_mapO {α β : Type} {R : (ι → β) → β → Prop} {d : β} {f : ι → α → Out β} {g : α → Out β} : ∀ {xs : List α},
    (∀ x ∈ xs, OutTends R (fun k => f k x) (g x)) → OutTends (AllTends R d) (fun k => mapO (f k) xs) (mapO g xs)
  | [], _ => .ok ⟨fun _ => rfl, fun j hj => by cases hj⟩
  | x :: xs, h => by
    unfold mapO
    refine OutTends.bind (h x (by simp)) fun v w _ hv => ?_
    refine OutTends.bind (tends_mapO (R := R) (d := d) fun y hy => h y (List.mem_cons_of_mem _ hy)) fun vs ws _ hvs => ?_
    refine .ok ⟨fun k => by simp [hvs.len k], fun j hj => ?_⟩
    match j with
    | 0 => exact hv
    | j + 1 => exact hvs.each j (by simpa using hj)

theorem AllTends.list {v : ι → List ℝ} {w : List ℝ} (h : AllTends (fun v w => N v w) 0 v w) : ListTends N v w := by
  refine ⟨h.len, fun j => ?_⟩
  by_cases hj : j < w.length
  · exact h.each j hj
  · have e : (fun k => (v k).getD j 0) = fun _ => (0 : ℝ) := funext fun k => List.getD_eq_default _ _ (by rw [h.len]; omega)
    rw [e, List.getD_eq_default _ _ (by omega)]
    exact (hN.const _)

theorem tends_entity {nd : Option Nat} {Es : ι → Env ℝ} {E : Env ℝ} (hE : EnvTends N fn fp Es E) {a : Mv} {num den : Int} (hd : den ≠ 0)
    (h : ∀ b n, toOutput nd a = Out.ok b → b.view = Out.ok n → ∀ t ∈ n, ∀ x ∈ t.mons, FineMon N fn fp E b.op x) :
    OutTends (EntityTends N) (fun k => (A k).finalizeEntity nd (Es k) a num den) (finalizeEntity nd E a num den) := by
  unfold Arith.finalizeEntity finalizeEntity
  refine .same fun b hb => ?_
  unfold Arith.computeEntity computeEntity
  refine .same fun n hn => ?_
  refine OutTends.bind (tends_mapO (R := fun v w => N v w) (d := (0 : ℝ)) fun t ht => tends_term hN hE (h b n hb hn t ht))
    fun vs ws _ hvs => ?_
  refine .ok ⟨fun _ => rfl, AllTends.list hN ⟨fun k => by simp [hvs.len k], fun j hj => ?_⟩⟩
  have hj' : j < ws.length := by simpa using hj
  have e : (fun k => ((vs k).map ((A k).scaleBy num den)).getD j 0) = fun k => (A k).scaleBy num den ((vs k).getD j 0) := by
    funext k
    have : j < (vs k).length := by rw [hvs.len]; exact hj'
    rw [List.getD_eq_getElem _ _ (by simpa using this), List.getElem_map, List.getD_eq_getElem _ _ this]
  show N (fun k => ((vs k).map ((A k).scaleBy num den)).getD j 0) _
  rw [e, List.getD_eq_getElem _ _ hj, List.getElem_map, ← List.getD_eq_getElem _ 0 hj']
  exact tends_scaleBy hN hd (hvs.each j hj')

theorem tends_finish {nd : Option Nat} {Es : ι → Env ℝ} {E : Env ℝ} (hE : EnvTends N fn fp Es E) {q : Rat32} {as : List Mv} (hd : as ≠ [] → q.den ≠ 0)
    (h : ∀ a ∈ as, ∀ b n, toOutput nd a = Out.ok b → b.view = Out.ok n → ∀ t ∈ n, ∀ x ∈ t.mons, FineMon N fn fp E b.op x) :
    OutTends (AllTends (EntityTends N) ⟨[], []⟩) (fun k => (A k).finishCompute nd (Es k) q as) (finishCompute nd E q as) := by
  match as with
  | [] =>
    refine .ok ⟨fun _ => rfl, fun j hj => ?_⟩
    match j with
    | 0 => exact ⟨fun _ => rfl, fun _ => rfl, fun _ => (hN.const _)⟩
  | [a] =>
    unfold Arith.finishCompute finishCompute
    refine OutTends.bind (tends_entity hN hE (hd (by simp)) (h a (by simp))) fun v w _ hv => ?_
    refine .ok ⟨fun _ => rfl, fun j hj => ?_⟩
    match j with
    | 0 => exact hv
  | a :: b :: as =>
    unfold Arith.finishCompute finishCompute Arith.finalizeEntities finalizeEntities
    exact tends_mapO fun x hx => tends_entity hN hE (hd (by simp)) (h x (List.mem_reverse.1 hx))

/-- If the exact computation divides by zero nowhere and applies functions where they converge, then
computations with rounding, with rounded inputs, constants and functions, never fail, have the same components, and approach the exact result. -/
theorem near_run (m : Metric) (null : Bool) {Es : ι → Env ℝ} {E : Env ℝ} {as : ι → List (Arg ℝ)} {args : List (Arg ℝ)} {c : Compiled}
    (hargs : ListTends N (fun k => ((as k).map fun a => a.data).flatten) (args.map fun a => a.data).flatten)
    (hc : ListTends N (fun k => (Es k).consts) E.consts)
    (hf : FineRun N (fun k => (Es k).fn) (fun k => (Es k).fpow) m null E args c) {xs : List (Entity ℝ)} (hx : runCompiled m null E args c = ok xs) :
    ∃ ys : ι → List (Entity ℝ), (∀ k, (A k).runCompiled m null (Es k) (as k) c = ok (ys k)) ∧ AllTends (EntityTends N) ⟨[], []⟩ ys xs := by
  have hs : ∀ k, argsSize (as k) = argsSize args := fun k => by
    rw [argsSize_eq, argsSize_eq, hargs.len k]
  have h1 := hf.room
  have hlen : (args.map fun a => a.data).flatten.length ≤ (List.replicate (argsSize args + c.state.nextId - argsSize args) (0 : ℝ)).length := by
    rw [← argsSize_eq, List.length_replicate]
    omega
  have hfill := C41_fill (args.map fun a => a.data) _ hlen
  have hfills : ∀ k, fill (List.replicate (argsSize (as k) + c.state.nextId - argsSize (as k)) (0 : ℝ)) 0 ((as k).map fun a => a.data) = _ :=
    fun k => C41_fill ((as k).map fun a => a.data) _ (by rw [hs, hargs.len k]; exact hlen)
  have hdata : ListTends N (fun k => ((as k).map fun a => a.data).flatten ++
      (List.replicate (argsSize (as k) + c.state.nextId - argsSize (as k)) (0 : ℝ)).drop ((as k).map fun a => a.data).flatten.length)
      ((args.map fun a => a.data).flatten ++ (List.replicate (argsSize args + c.state.nextId - argsSize args) (0 : ℝ)).drop
        (args.map fun a => a.data).flatten.length) := by
    refine ⟨fun k => by simp only [List.length_append, List.length_drop, List.length_replicate, hargs.len k, hs k], fun j => ?_⟩
    have key : ∀ (x : List ℝ) (n : Nat), (x ++ List.replicate n 0).getD j 0 = x.getD j 0 := by
      intro x n
      simp only [List.getD_eq_getElem?_getD, List.getElem?_append]
      split
      · rfl
      · rename_i h
        rw [List.getElem?_replicate, List.getElem?_eq_none (by omega)]
        split <;> rfl
    simp only [List.drop_replicate, key]
    exact hargs.lim j
  have hE : EnvTends N (fun k => (Es k).fn) (fun k => (Es k).fpow) (fun k => { Es k with data := _ }) { E with data := _ } :=
    ⟨hdata, hc, fun _ => rfl, fun _ => rfl⟩
  unfold runCompiled at hx
  rw [hfill, ok_bind, bind_eq_ok] at hx
  obtain ⟨E', hE', hx⟩ := hx
  obtain ⟨Es', h2, h3⟩ := tends_temps hN hE (hf.temps _ hfill) E' hE'
  obtain ⟨ys, h4, h5⟩ := tends_finish hN h3 hf.factor (hf.result _ E' hfill hE') xs hx
  refine ⟨ys, fun k => ?_, h5⟩
  unfold Arith.runCompiled
  have h6 := h2 k
  dsimp only at h6
  rw [hfills, ok_bind, h6, ok_bind]
  exact h4 k

end eval

section main
variable {A : ι → Arith ℝ} {u : ι → ℝ} (hA : Improving l A u)
include hA

/-- **C65, for a compiled program.**  If the exact computation divides by zero nowhere and applies functions where they converge, then
computations with rounding, with rounded inputs, constants and functions, never fail, have the same components, and converge to the exact result as
the unit roundoff goes to zero. -/
theorem C65_limit (m : Metric) (null : Bool) {Es : ι → Env ℝ} {E : Env ℝ} {as : ι → List (Arg ℝ)} {args : List (Arg ℝ)} {c : Compiled}
    (hargs : ListTends (Limit l) (fun k => ((as k).map fun a => a.data).flatten) (args.map fun a => a.data).flatten)
    (hc : ListTends (Limit l) (fun k => (Es k).consts) E.consts)
    (hf : FineRun (Limit l) (fun k => (Es k).fn) (fun k => (Es k).fpow) m null E args c) {xs : List (Entity ℝ)}
    (hx : runCompiled m null E args c = ok xs) :
    ∃ ys : ι → List (Entity ℝ), (∀ k, (A k).runCompiled m null (Es k) (as k) c = ok (ys k)) ∧ AllTends (EntityTends (Limit l)) ⟨[], []⟩ ys xs :=
  near_run (near_limit hA) m null hargs hc hf hx

/-- **C65, for a compiled program, with a rate.**  If moreover the errors of the inputs, constants and functions are of the order of the unit
roundoff, then so is the error of every coefficient of the result. -/
theorem C65_rate (m : Metric) (null : Bool) {Es : ι → Env ℝ} {E : Env ℝ} {as : ι → List (Arg ℝ)} {args : List (Arg ℝ)} {c : Compiled}
    (hargs : ListTends (Rate l u) (fun k => ((as k).map fun a => a.data).flatten) (args.map fun a => a.data).flatten)
    (hc : ListTends (Rate l u) (fun k => (Es k).consts) E.consts)
    (hf : FineRun (Rate l u) (fun k => (Es k).fn) (fun k => (Es k).fpow) m null E args c) {xs : List (Entity ℝ)}
    (hx : runCompiled m null E args c = ok xs) :
    ∃ ys : ι → List (Entity ℝ), (∀ k, (A k).runCompiled m null (Es k) (as k) c = ok (ys k)) ∧ AllTends (EntityTends (Rate l u)) ⟨[], []⟩ ys xs :=
  near_run (near_rate hA) m null hargs hc hf hx

end main

end Gal
