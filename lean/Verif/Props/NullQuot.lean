import Verif.Props.LambdaNull
import Verif.Props.QuotFalse

/-!
# Property C64: functions and quotients in an algebra with a null basis

They do not work.  The conversion to the null basis returns a multivector without the mark that a function is to be applied, the conversion of an
argument to the natural basis gives it room for more indeterminates than `divide` accepts, and the dividend is stored and read in different bases.
-/

namespace Gal

open Out

variable {K : Type} [Field K]

/-! ## Functions -/

/-- The conversion to the null basis ends with a sum, which is a fresh multivector. -/
theorem toNull_form (dim : Nat) (a : Mv) : ∃ X : Out Bld, toNullBasis dim a = X >>= fun s => ok s.finish := by
  refine ⟨a.view >>= fun na => toNullLoop dim (Bld.empty a.caps) (Bld.empty a.caps.double) na >>= fun p =>
    sortCollate p.2 a.caps.double >>= fun rhs => p.1.finish.view >>= fun na => rhs.view >>= fun nb =>
      sumTerms (na.length + nb.length) (Bld.empty (sumCaps p.1.finish.caps rhs.caps)) na nb, ?_⟩
  simp only [bind_assoc]
  rfl

/-- Other functions. -/
def Env.withFn (E : Env K) (g : MvOp → K → K) : Env K := { E with fn := g }

theorem withFn_prod (E : Env K) (g : MvOp → K → K) : ∀ is : List Ind, (E.withFn g).prod is = E.prod is
  | [] => rfl
  | [_] => rfl
  | i :: j :: is => by
    have := withFn_prod E g (j :: is)
    unfold Env.prod
    rw [this]
    rfl

theorem withFn_mon (E : Env K) (g : MvOp → K → K) (m : NMon) : (E.withFn g).mon .id m = E.mon .id m := by
  have h : ∀ v : K, (E.withFn g).app .id v = E.app .id v := fun v => by simp [Env.app]
  unfold Env.mon
  simp only [withFn_prod, h]

theorem withFn_term (E : Env K) (g : MvOp → K → K) : ∀ ms : List NMon, (E.withFn g).term .id ms = E.term .id ms
  | [] => rfl
  | [m] => withFn_mon E g m
  | m :: m' :: ms => by
    have := withFn_term E g (m' :: ms)
    unfold Env.term
    rw [this, withFn_mon]

theorem withFn_temps (E : Env K) (g : MvOp → K → K) (i : Nat) : ∀ n : NMv,
    tempLoop .id (E.withFn g) i n = tempLoop .id E i n >>= fun E' => ok (E'.withFn g) := by
  intro n
  induction n generalizing E i with
  | nil => rfl
  | cons t n ih =>
    rw [tempLoop, tempLoop, withFn_term, bind_assoc]
    congr 1
    funext v
    unfold Env.write
    show (if i < E.data.length then _ else _) >>= _ = _
    split
    · rw [ok_bind, ok_bind]
      exact ih { E with data := E.data.set i v } (i + 1)
    · rfl

theorem withFn_finalize (d : Nat) (g : MvOp → K → K) : ∀ (ps : List (Mv × Nat)) (E : Env K),
    finalizeTemps (some d) (E.withFn g) ps = finalizeTemps (some d) E ps >>= fun E' => ok (E'.withFn g)
  | [], _ => rfl
  | (a, id) :: ps, E => by
    obtain ⟨X, hX⟩ := toNull_form d a
    rw [finalizeTemps, finalizeTemps, toOutput]
    simp only [hX, bind_assoc, ok_bind]
    congr 1
    funext s
    have hop : s.finish.op = .id := rfl
    unfold computeTemp
    simp only [hop, bind_assoc]
    congr 1
    funext n
    rw [withFn_temps, bind_assoc]
    congr 1
    funext E'
    rw [ok_bind]
    exact withFn_finalize d g ps E'

theorem withFn_entity (d : Nat) (g : MvOp → K → K) (E : Env K) (a : Mv) (num den : Int) :
    finalizeEntity (some d) (E.withFn g) a num den = finalizeEntity (some d) E a num den := by
  obtain ⟨X, hX⟩ := toNull_form d a
  unfold finalizeEntity toOutput computeEntity
  simp only [hX, bind_assoc, ok_bind]
  congr 1
  funext s
  have hop : s.finish.op = .id := rfl
  simp only [hop, withFn_term]

/-- **C64: functions are not applied.**  In an algebra with a null basis the result of `compute` does not depend on what `sqrt`, `sin`, `cos` and
`tan` are. -/
theorem C64_functions_ignored (m : Metric) (E : Env K) (g : MvOp → K → K) (args : List (Arg K)) (c : Compiled) :
    runCompiled m true { E with fn := g } args c = runCompiled m true E args c := by
  unfold runCompiled nullDim
  simp only [if_true]
  congr 1
  funext dat
  show finalizeTemps _ (Env.withFn { E with data := dat } g) _ >>= _ = _
  rw [withFn_finalize, bind_assoc]
  congr 1
  funext E'
  rw [ok_bind]
  match c.state.args with
  | [] => rfl
  | [a] => simp only [finishCompute, withFn_entity]
  | a :: b :: l => simp only [finishCompute, finalizeEntities, withFn_entity]

theorem C64_lambda_ignored (m : Metric) (E : Env K) (g : MvOp → K → K) (args : List (Arg K)) (f : Lam) :
    f.compute m true { E with fn := g } args = f.compute m true E args := by
  unfold Lam.compute computeExpr
  simp only [C64_functions_ignored]

/-- A square root that is right for 4. -/
def rootEnv : Env ℚ := { numEnv with fn := fun o v => if o = .sqrt ∧ v = 4 then 2 else v }

/-- **C64 fails for functions**: for `x = 2`, `sqrt(x * x)` is 2 in the algebra of space, and 4 in the conformal algebra. -/
theorem C64_functions_false : rootEnv.fn .sqrt 4 = 2 ∧
    (Lam.fn Op.sqrt (.gp (.arg 0) (.arg 0))).compute ⟨3, 0, 0⟩ false rootEnv [scalarArg 2] = ok [⟨[0], [2]⟩] ∧
    (Lam.fn Op.sqrt (.gp (.arg 0) (.arg 0))).compute ⟨4, 1, 0⟩ true rootEnv [scalarArg 2] = ok [⟨[0], [4]⟩] := by
  refine ⟨by decide +kernel, oneResult_eq (by decide +kernel), oneResult_eq (by decide +kernel)⟩

/-! ## Quotients -/

/-- **C64: division by an argument does not compile.**  The conversion of an argument that reads its coefficients from the data triples the room
for indeterminates; `divide` has no branch for a divisor with room for two or more. -/
theorem C64_divisor_false {dim off : Nat} {d : Nat → Int} {v : CliffordAlgebra (diagForm K dim d)} {a : Arg K} (h : a.DenotesNull dim d off v)
    (hi : (a.ie off).caps.i ≠ 0) (x : Mv) (q : Rat32) {b : Mv} (hb : toNaturalBasis dim (a.ie off) = ok b) : divide x b q = .ub := by
  obtain ⟨n, hn, -⟩ := h
  rw [toNaturalBasis_refines dim hn.packed.represents] at hb
  obtain ⟨nr, -, rfl⟩ := map_eq_ok hb
  have hc : (layout (nullCaps (a.ie off).caps) nr).caps.i = 3 * (a.ie off).caps.i := by
    show (nullCaps (a.ie off).caps).i = _
    simp only [nullCaps, sumCaps, Caps.double]
    omega
  unfold divide
  split
  · rfl
  · rw [if_neg (by omega), if_neg (by omega)]

/-- The hypotheses of `C64_divisor_false` hold for a scalar. -/
example : ((scalarArg (2 : ℚ)).DenotesNull 5 (Metric.sq ⟨4, 1, 0⟩) 0 (pairsVal (K := ℚ) (nullElem ℚ 5 (Metric.sq ⟨4, 1, 0⟩)) [0] [2])) ∧
    ((scalarArg (2 : ℚ)).ie 0).caps.i ≠ 0 ∧ ∃ b, toNaturalBasis 5 ((scalarArg (2 : ℚ)).ie 0) = ok b :=
  ⟨C47_entity (dim := 5) (Metric.sq ⟨4, 1, 0⟩) (x := ⟨[0], [2]⟩) (off := 0) (by decide) (by decide) rfl (by decide), by decide +kernel,
    Out.exists_of_isOk (by decide +kernel)⟩

theorem ub_of_isUb {α : Type} {x : Out α} (h : (match x with | .ub => true | _ => false) = true) : x = .ub := by
  cases x with
  | ub => rfl
  | val a l => cases h

/-- For instance, no vector can be divided by a number. -/
theorem C64_scale_false (s : ℚ) (x : ℚ × ℚ) :
    (Lam.div (.arg 1) (.arg 0)).compute ⟨4, 1, 0⟩ true numEnv [scalarArg s, (⟨[8, 16], [x.1, x.2]⟩ : Entity ℚ).toArg] = .ub := by
  have ht : [scalarArg s, (⟨[8, 16], [x.1, x.2]⟩ : Entity ℚ).toArg].map (fun a => (a.ie, a.data.length)) =
      [scalarArg 2, exPair.toArg].map fun a => (a.ie, a.data.length) := rfl
  have h1 : argOffset [scalarArg s, (⟨[8, 16], [x.1, x.2]⟩ : Entity ℚ).toArg] = argOffset [scalarArg 2, exPair.toArg] := (offset_types ht).symm
  unfold Lam.compute computeExpr
  simp only [compile_types ht]
  rw [h1, ← bind_assoc]
  have : ((Lam.div (.arg 1) (.arg 0)).build (argOffset [scalarArg 2, exPair.toArg]) >>= fun e =>
      compileExpr ⟨4, 1, 0⟩ true (Lam.div (.arg 1) (.arg 0)).cap [scalarArg 2, exPair.toArg] e) = .ub := ub_of_isUb (by decide +kernel)
  rw [this]
  rfl

/-- **C64: a dividend that is an argument is read outside the data.**  `compute([](auto x) { return x / (x * x); }, x)` compiles, and is undefined. -/
theorem C64_inverse_false : ((Lam.div (.arg 0) (.gp (.arg 0) (.arg 0))).build (argOffset [exPair.toArg]) >>= fun e =>
      compileExpr ⟨4, 1, 0⟩ true (Lam.div (.arg 0) (.gp (.arg 0) (.arg 0))).cap [exPair.toArg] e).isOk = true ∧
    (Lam.div (.arg 0) (.gp (.arg 0) (.arg 0))).compute ⟨4, 1, 0⟩ true numEnv [exPair.toArg] = .ub :=
  ⟨by decide +kernel, ub_of_isUb (by decide +kernel)⟩

/-- **C64 fails for quotients**: for `s = 2` and `x = no + 3 ni`, the result of `(s * x) / (x * x)` is no element whose product with `x * x` is
`s * x`. -/
theorem C64_quotient_false : ∃ (z : Entity ℚ) (s x : CliffordAlgebra (diagForm ℚ 5 (Metric.sq ⟨4, 1, 0⟩))),
    (scalarArg (2 : ℚ)).DenotesNull 5 (Metric.sq ⟨4, 1, 0⟩) 0 s ∧ exPair.toArg.DenotesNull 5 (Metric.sq ⟨4, 1, 0⟩) 1 x ∧
    (Lam.div (.gp (.arg 0) (.arg 1)) (.gp (.arg 1) (.arg 1))).compute ⟨4, 1, 0⟩ true numEnv [scalarArg 2, exPair.toArg] = ok [z] ∧
    ∀ v, v * (x * x) = s * x → ¬ z.DenotesNull 5 (Metric.sq ⟨4, 1, 0⟩) v := by
  obtain ⟨C, hC⟩ := exists_isNullCoeff ℚ 5 (by decide) (by decide) (Metric.sq ⟨4, 1, 0⟩)
  obtain ⟨z, hz, hs⟩ := result_select (x := (Lam.div (.gp (.arg 0) (.arg 1)) (.gp (.arg 1) (.arg 1))).compute ⟨4, 1, 0⟩ true numEnv
    [scalarArg 2, exPair.toArg]) (dim := 5) (e := 8) (k := -4 / 3) (by decide +kernel)
  refine ⟨z, _, _, C47_entity (dim := 5) (Metric.sq ⟨4, 1, 0⟩) (x := ⟨[0], [2]⟩) (off := 0) (by decide) (by decide) rfl (by decide),
    C47_entity (dim := 5) (Metric.sq ⟨4, 1, 0⟩) (x := ⟨[8, 16], [1, 3]⟩) (off := 1) (by decide) (by decide) rfl (by decide), hz, fun v hv h => ?_⟩
  obtain ⟨k, h1, h2⟩ := C47_select hC h (e := 8) (by decide)
  rw [hs, ok_inj] at h1
  subst h1
  dsimp only at hv
  have e1 : pairsVal (K := ℚ) (nullElem ℚ 5 (Metric.sq ⟨4, 1, 0⟩)) [8, 16] [1, 3] =
      (1 : ℚ) • nullElem ℚ 5 (Metric.sq ⟨4, 1, 0⟩) (2 ^ 3) + (3 : ℚ) • nullElem ℚ 5 (Metric.sq ⟨4, 1, 0⟩) (2 ^ 4) := by
    simp [pairsVal]
  have e0 : pairsVal (K := ℚ) (nullElem ℚ 5 (Metric.sq ⟨4, 1, 0⟩)) [0] [2] = (2 : ℚ) • 1 := by
    rw [← cliffBlade_zero (K := ℚ) 5 (Metric.sq ⟨4, 1, 0⟩), ← nullElem_unmixed (K := ℚ) (by decide) (by decide) _ (by decide) (by decide)]
    simp [pairsVal]
  obtain ⟨g1, g2⟩ := nullElem_gen (K := ℚ) (n := 5) (by decide) (by decide) (Metric.sq ⟨4, 1, 0⟩)
  obtain ⟨n1, n2, n3⟩ := C25_null_vectors ℚ ⟨4, 1, 0⟩ (by decide) rfl
  have key : ∀ (a b : CliffordAlgebra (diagForm ℚ 5 (Metric.sq ⟨4, 1, 0⟩))), a * a = 0 → b * b = 0 → a * b + b * a = -2 →
      ((1 : ℚ) • a + (3 : ℚ) • b) * ((1 : ℚ) • a + (3 : ℚ) • b) = (-6 : ℚ) • 1 := by
    intro a b ha hb hab
    simp only [smul_mul_assoc, mul_smul_comm, mul_add, add_mul, ha, hb, smul_zero, zero_add, add_zero, one_smul]
    have hba : b * a = -2 - a * b := by rw [← hab]; abel
    rw [hba, show (-2 : CliffordAlgebra (diagForm ℚ 5 (Metric.sq ⟨4, 1, 0⟩))) = (-2 : ℚ) • 1 by
      rw [neg_smul, two_smul]; norm_num]
    module
  have hk : _ = _ := key (nullGen (K := ℚ) 5 (cliffGen ℚ 5 (Metric.sq ⟨4, 1, 0⟩)) (5 - 2)) (nullGen (K := ℚ) 5 (cliffGen ℚ 5 (Metric.sq ⟨4, 1, 0⟩)) (5 - 1))
    n1 n2 n3
  rw [← g1, ← g2] at hk
  rw [e1] at hv
  have h3 : (-6 : ℚ) • v = (2 : ℚ) • ((1 : ℚ) • nullElem ℚ 5 (Metric.sq ⟨4, 1, 0⟩) (2 ^ 3) + (3 : ℚ) • nullElem ℚ 5 (Metric.sq ⟨4, 1, 0⟩) (2 ^ 4)) := by
    have : v * ((-6 : ℚ) • 1) = _ := hk ▸ hv
    rw [mul_smul_comm, mul_one] at this
    rw [this, e0, smul_mul_assoc, one_mul]
  have h4 := congrArg (C 8) h3
  rw [map_smul, h2, map_smul, map_add, map_smul, map_smul, hC 8 (by decide) (2 ^ 3) (by decide), hC 8 (by decide) (2 ^ 4) (by decide),
    if_pos (by norm_num), if_neg (by decide), smul_zero, add_zero, smul_smul, smul_smul] at h4
  have := smul_one_inj h4
  norm_num at this

end Gal
