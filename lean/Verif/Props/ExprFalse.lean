import Verif.Props.Refine
import Verif.Props.Mv

/-!
# Properties C33 and C34: where the operators change the value

All witnesses live in the rationals with every product the multiplication; arguments have the values 2, 3, 4, …, and the constant one is one
-/

namespace Gal

open Out

deriving instance DecidableEq for RState

/-- The product of a list. -/
def prodList : List ℚ → ℚ
  | [] => Op.cscalar - 65539
  | [x] => x
  | x :: y :: ys => x * prodList (y :: ys)

/-- The operations of `ratInterp` for the machine. -/
def ratOps : Ops ℚ where
  input x := ok x
  ref _ _ := .ub
  size _ := 1
  const o := ok (o - 65539)
  scale q x := ok (q.toQ * x)
  rev x := ok x
  pd x := ok x
  sums xs := ok xs.sum
  eps xs := ok (prodList xs)
  gp x y := ok (x * y)
  lc x y := ok (x * y)
  sip x y := ok (x * y)
  div x y q := ok (q.toQ * (x / y))
  fn _ q x := ok (q.toQ * x)
  comp _ x := ok x
  grd _ x := ok x

/-- The inputs of `ratInterp`. -/
def ratIe (_ id : Nat) : ℚ := id + 2

theorem prodList_eq : ∀ xs : List ℚ, prodList xs = ratInterp.wedge xs
  | [] => rfl
  | [_] => rfl
  | x :: y :: ys => by
    rw [prodList, Interp.wedge, prodList_eq (y :: ys)]; rfl

theorem rat_refines : Refines ratOps ratIe ratInterp Eq (fun _ => True) where
  input n _ _ x h := (ok_inj.1 h).symm
  const n _ _ x h := (ok_inj.1 h).symm
  scale q a x v _ _ e h := by subst e; exact (ok_inj.1 h).symm
  rev a x v e h := by subst e; exact (ok_inj.1 h).symm
  pd a x v e h := by subst e; exact (ok_inj.1 h).symm
  comp n _ _ a x v e h := by subst e; exact (ok_inj.1 h).symm
  grd n _ _ a x v e h := by subst e; exact (ok_inj.1 h).symm
  gp a b x v w e f h := by subst e; subst f; exact (ok_inj.1 h).symm
  lc a b x v w e f h := by subst e; subst f; exact (ok_inj.1 h).symm
  sip a b x v w e f h := by subst e; subst f; exact (ok_inj.1 h).symm
  sums as vs x _ e h := by
    rw [List.forall₂_eq_eq_eq] at e; subst e
    rw [← ok_inj.1 h, List.sum_reverse]
  eps as vs x _ e h := by
    rw [List.forall₂_eq_eq_eq] at e; subst e
    rw [← ok_inj.1 h, prodList_eq]
  div n _ _ a b x v w _ e f h := by subst e; subst f; exact (ok_inj.1 h).symm
  fn n _ _ a x v _ e h := by subst e; exact (ok_inj.1 h).symm

/-- The value of an expression is what the machine computes. -/
theorem rat_value {e : Rpne} {v x : ℚ} (h : Means ratInterp e v) (h0 : e.nodes ≠ [])
    (hs : runNodes ratOps e.nodes.length e.nodes ⟨gatherInputs ratIe e.nodes, [], [], 0⟩ = ok ⟨[], [], [x], 0⟩) :
    v = e.q.toQ * x := by
  obtain ⟨y, w, e1, rfl, e2⟩ := C35_value rat_refines h h0 (fun _ _ => trivial) hs
  injection e1 with _ _ e3
  injection e3 with e3
  rw [e2, e3]; rfl

/-- What the machine computes for the result of an operator. -/
def ratRun : Out Rpne → Option ℚ
  | .val e false =>
    if e.nodes = [] then some 0
    else match runNodes ratOps e.nodes.length e.nodes ⟨gatherInputs ratIe e.nodes, [], [], 0⟩ with
      | .val ⟨[], [], [x], 0⟩ false => some (e.q.toQ * x)
      | _ => none
  | _ => none

theorem ratRun_value {x : Out Rpne} {w : ℚ} (h : ratRun x = some w) : ∃ e, x = ok e ∧ ∀ v, Means ratInterp e v → v = w := by
  unfold ratRun at h
  split at h
  · rename_i e
    refine ⟨e, rfl, fun v hv => ?_⟩
    split at h
    · rename_i h0
      injection h with h
      rcases hv with ⟨_, hv⟩ | ⟨t, _, hp, _⟩
      · rw [hv, h]
      · exact absurd (hp.symm.trans h0) (post_ne_nil t)
    · rename_i h0
      split at h
      · rename_i y hs
        injection h with h
        rw [rat_value hv h0 hs, h]
      · cases h
  · cases h

/-- Refutation scheme: the machine computes something else than `v`. -/
theorem refute {x : Out Rpne} {v : ℚ} (w : ℚ) (h : ratRun x = some w) (hv : v ≠ w) : ∃ e, x = ok e ∧ ¬ Means ratInterp e v := by
  obtain ⟨e, he, hu⟩ := ratRun_value h
  exact ⟨e, he, fun hm => hv (hu v hm)⟩

/-- `timesE` is what `k * a` builds. -/
example : imulExpr 2 (argE 0) = ok (timesE 2 (argE 0)) := rfl

/-- The zero expression is what `a - a` builds. -/
example : subExpr (argE 0) (argE 0) = ok {} := by decide +kernel

theorem sum_args {i j : Nat} {e : Rpne} (h : addExpr (argE i) (argE j) = ok e) : MeansU ratInterp e ((i + 2 : ℚ) + (j + 2)) := by
  rcases C34_sum_partial (argE_meansU i) (argE_meansU j) (by simp [argE, entityExpr]) (by simp [argE, entityExpr])
    (fun h => absurd h (by unfold EndsInSum; simp [argE, entityExpr, Op.id, Op.sum])) h with h | ⟨h, _⟩
  · exact h
  · have : (0 : ℚ) < (i + 2 : ℚ) + (j + 2) := by positivity
    exact absurd h this.ne'

/-- C35 applies to the sum `a + b`: shape, value and machine. -/
example : ∃ e, addExpr (argE 0) (argE 1) = ok e ∧ Means ratInterp e 5 ∧ e.nodes ≠ [] ∧
    (∃ t : Tree, t.Shape ∧ t.post = e.nodes) ∧
    ∃ s, runNodes ratOps e.nodes.length e.nodes ⟨gatherInputs ratIe e.nodes, [], [], 0⟩ = ok s := by
  obtain ⟨e, he⟩ := Out.exists_of_isOk (x := addExpr (argE 0) (argE 1)) (by decide +kernel)
  have h0 : e.nodes ≠ [] := by
    have h : (match addExpr (argE 0) (argE 1) with | .val e _ => decide (e.nodes ≠ []) | _ => false) = true := by decide +kernel
    rw [he] at h; exact of_decide_eq_true h
  have hr : ∃ s, runNodes ratOps e.nodes.length e.nodes ⟨gatherInputs ratIe e.nodes, [], [], 0⟩ = ok s := by
    refine Out.exists_of_isOk ?_
    have h : (match addExpr (argE 0) (argE 1) with
      | .val e _ => (runNodes ratOps e.nodes.length e.nodes ⟨gatherInputs ratIe e.nodes, [], [], 0⟩).isOk
      | _ => false) = true := by decide +kernel
    rw [he] at h; exact h
  have hm : Means ratInterp e 5 := by
    have := (sum_args he).means
    norm_num at this
    exact this
  obtain ⟨t, g, p, _⟩ := means_tree hm h0
  exact ⟨e, he, hm, h0, ⟨t, g.shape, p.symm⟩, hr⟩

/-- C34 with two sums and a common summand: `(a + b) + (b + c)` is `a + 2 b + c`. -/
example : ∃ l r e, addExpr (argE 0) (argE 1) = ok l ∧ addExpr (argE 1) (argE 2) = ok r ∧ addExpr l r = ok e ∧
    MeansU ratInterp l 5 ∧ MeansU ratInterp r 7 ∧ ratRun (ok e) = some 12 := by
  obtain ⟨l, hl⟩ := Out.exists_of_isOk (x := addExpr (argE 0) (argE 1)) (by decide +kernel)
  obtain ⟨r, hr⟩ := Out.exists_of_isOk (x := addExpr (argE 1) (argE 2)) (by decide +kernel)
  have h : ratRun (addExpr l r) = some 12 := by
    have h : (match addExpr (argE 0) (argE 1), addExpr (argE 1) (argE 2) with
      | .val l _, .val r _ => decide (ratRun (addExpr l r) = some 12)
      | _, _ => false) = true := by decide +kernel
    rw [hl, hr] at h; exact of_decide_eq_true h
  obtain ⟨e, he, -⟩ := ratRun_value h
  refine ⟨l, r, e, hl, hr, he, ?_, ?_, he ▸ h⟩
  · have := sum_args hl; norm_num at this; exact this
  · have := sum_args hr; norm_num at this; exact this

/-- **C33 fails**: `~(2 * a)` is `~a`; the factor is lost. -/
theorem C33_rev_false : ∃ (e : Rpne) (v : ℚ), Means ratInterp e v ∧ ∃ e', revExpr e = ok e' ∧ ¬ Means ratInterp e' (ratInterp.rev v) :=
  ⟨_, _, timesE_means 2 (by decide) (by decide) 0, refute 2 (by decide +kernel) (by simp [ratInterp])⟩

/-- **C33 fails**: `!(2 * a)` is `!a`; the factor is lost. -/
theorem C33_dual_false : ∃ (e : Rpne) (v : ℚ), Means ratInterp e v ∧ ∃ e', dualExpr e = ok e' ∧ ¬ Means ratInterp e' (ratInterp.pd v) :=
  ⟨_, _, timesE_means 2 (by decide) (by decide) 0, refute 2 (by decide +kernel) (by simp [ratInterp])⟩

/-- **C33 fails**: `(a - a) + 2 * b` is `b`; the factor is lost. -/
theorem C33_zero_plus_false : ∃ (l r : Rpne) (v w : ℚ), Means ratInterp l v ∧ Means ratInterp r w ∧
    ∃ e, addExpr l r = ok e ∧ ¬ Means ratInterp e (v + w) :=
  ⟨_, _, _, _, zero_means, timesE_means 2 (by decide) (by decide) 1, refute 3 (by decide +kernel) (by norm_num)⟩

/-- **C33 fails**: `(a - a) * b` is `b`. -/
theorem C33_zero_times_false : ∃ (l r : Rpne) (v w : ℚ), Means ratInterp l v ∧ Means ratInterp r w ∧
    ∃ e, gpExpr l r = ok e ∧ ¬ Means ratInterp e (ratInterp.gp v w) :=
  ⟨_, _, _, _, zero_means, argE_means 1, refute 3 (by decide +kernel) (by simp [ratInterp])⟩

/-- **C33 fails**: `(a - a) >> b` is `b`. -/
theorem C33_zero_contract_false : ∃ (l r : Rpne) (v w : ℚ), Means ratInterp l v ∧ Means ratInterp r w ∧
    ∃ e, lcExpr l r = ok e ∧ ¬ Means ratInterp e (ratInterp.lc v w) :=
  ⟨_, _, _, _, zero_means, argE_means 1, refute 3 (by decide +kernel) (by simp [ratInterp])⟩

/-- **C33 fails**: `(a - a) | b` is `b`. -/
theorem C33_zero_inner_false : ∃ (l r : Rpne) (v w : ℚ), Means ratInterp l v ∧ Means ratInterp r w ∧
    ∃ e, sipExpr l r = ok e ∧ ¬ Means ratInterp e (ratInterp.sip v w) :=
  ⟨_, _, _, _, zero_means, argE_means 1, refute 3 (by decide +kernel) (by simp [ratInterp])⟩

/-- The expression `a ^ b`. -/
theorem ep_args {i j : Nat} {e : Rpne} (h : epExpr (argE i) (argE j) = ok e) :
    Means ratInterp e (ratInterp.ep ((i : ℚ) + 2) ((j : ℚ) + 2)) :=
  C33_ep_partial (argE_means i) (argE_means j)
    (fun h => absurd h (by unfold EndsInEp; simp [argE, entityExpr, Op.id, Op.ep])) h

/-- **C33 fails**: `(a ^ b) ^ (2 * c)` is `a ^ b ^ c`; the factor is lost. -/
theorem C33_ep_false : ∃ (l r : Rpne) (v w : ℚ), Means ratInterp l v ∧ Means ratInterp r w ∧
    ∃ e, epExpr l r = ok e ∧ ¬ Means ratInterp e (ratInterp.ep v w) := by
  obtain ⟨l, hl⟩ := Out.exists_of_isOk (x := epExpr (argE 0) (argE 1)) (by decide +kernel)
  refine ⟨l, _, _, _, ep_args hl, timesE_means 2 (by decide) (by decide) 2, ?_⟩
  have : epExpr l (timesE 2 (argE 2)) = (do let x ← epExpr (argE 0) (argE 1); epExpr x (timesE 2 (argE 2))) := by rw [hl, ok_bind]
  rw [this]
  exact refute 24 (by decide +kernel) (by simp [ratInterp]; norm_num)

/-- **C33 fails**: `2 / a` is `1 / a`. -/
theorem C33_intDiv_false : ∃ (e : Rpne) (v : ℚ), Means ratInterp e v ∧
    ∃ e', intDivExpr 2 e = ok e' ∧ ¬ Means ratInterp e' (ratInterp.quot ((2 : ℚ) • ratInterp.one) v) :=
  ⟨_, _, argE_means 0, refute (1 / 2) (by decide +kernel) (by norm_num [ratInterp, Interp.one, Op.cscalar])⟩

/-- **C33 fails**: the constant `E` is converted to the node of `PI`. -/
theorem C33_constant_e_false (q : Rat32) (i j : Nat) : (RConst.mk i q).convert = (RConst.mk j q).convert := rfl

/-- **C33 fails**: `0 + a` is `1 + a` (a summand with numerator zero is not scaled). -/
theorem C33_zero_constant_false : ∃ (e : Rpne) (v : ℚ), Means ratInterp e v ∧ ratRun (addIntExpr 0 e) = some (v + 1) ∧ v + 1 ≠ 0 + v :=
  ⟨_, _, argE_means 0, by decide +kernel, by norm_num⟩

/-- **C34 fails**: `a / b + (2 * a) / b` is `2 * (a / b)`; the comparison of terms ignores the factor of the quotient. -/
theorem C34_quotient_false : ∃ (l r : Rpne) (v w : ℚ), Means ratInterp l v ∧ Means ratInterp r w ∧
    ∃ e, addExpr l r = ok e ∧ ¬ Means ratInterp e (v + w) := by
  obtain ⟨l, hl⟩ := Out.exists_of_isOk (x := divExpr (argE 0) (argE 1)) (by decide +kernel)
  obtain ⟨r, hr⟩ := Out.exists_of_isOk (x := divExpr (timesE 2 (argE 0)) (argE 1)) (by decide +kernel)
  refine ⟨l, r, _, _, C33_div (argE_means 0) (argE_means 1) (by simp [argE, entityExpr]) (by simp [argE, entityExpr]) hl,
    C33_div (timesE_means 2 (by decide) (by decide) 0) (argE_means 1) (by simp [timesE, argE, entityExpr])
      (by simp [argE, entityExpr]) hr, ?_⟩
  have : addExpr l r = (do
    let l ← divExpr (argE 0) (argE 1)
    let r ← divExpr (timesE 2 (argE 0)) (argE 1)
    addExpr l r) := by rw [hl, ok_bind, hr, ok_bind]
  rw [this]
  exact refute (4 / 3) (by decide +kernel) (by norm_num [ratInterp])

/-- **C34 fails**: `(c + d) - (a + b)`; the summands left over on the left are multiplied by the factor of the right operand. -/
theorem C34_difference_false : ∃ (l r : Rpne) (v w : ℚ), MeansU ratInterp l v ∧ MeansU ratInterp r w ∧
    ∃ e, subExpr l r = ok e ∧ ¬ Means ratInterp e (v - w) := by
  obtain ⟨l, hl⟩ := Out.exists_of_isOk (x := addExpr (argE 2) (argE 3)) (by decide +kernel)
  obtain ⟨r, hr⟩ := Out.exists_of_isOk (x := addExpr (argE 0) (argE 1)) (by decide +kernel)
  refine ⟨l, r, _, _, sum_args hl, sum_args hr, ?_⟩
  have : subExpr l r = (do
    let l ← addExpr (argE 2) (argE 3)
    let r ← addExpr (argE 0) (argE 1)
    subExpr l r) := by rw [hl, ok_bind, hr, ok_bind]
  rw [this]
  exact refute (-14) (by decide +kernel) (by norm_num)

/-- **C34 fails**: `(a + b) - (a + b)` is a sum without summands, which no machine evaluates. -/
theorem C34_cancel_false : ∃ (l : Rpne) (v : ℚ), MeansU ratInterp l v ∧ ∃ e, subExpr l l = ok e ∧
    ∀ (M : Ops ℚ) (ie : Nat → Nat → ℚ), runNodes M e.nodes.length e.nodes ⟨gatherInputs ie e.nodes, [], [], 0⟩ = .ub := by
  obtain ⟨l, hl⟩ := Out.exists_of_isOk (x := addExpr (argE 0) (argE 1)) (by decide +kernel)
  refine ⟨l, _, sum_args hl, ⟨[⟨Op.sum, 0, 0, ⟨0, 1⟩⟩], Rat32.one⟩, ?_, fun M ie => ?_⟩
  · have : subExpr l l = (do let l ← addExpr (argE 0) (argE 1); subExpr l l) := by rw [hl, ok_bind]
    rw [this]; decide +kernel
  · rfl

end Gal
