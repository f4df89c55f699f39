import Verif.Props.Steps
import Verif.Props.ConformalTuple
import Verif.Props.Conformal

/-!
# C53 in null bases: one lambda or two

As `Props/Steps`, for algebras with a null basis (engine.hpp:455-518; the conversion of the results is in cga.hpp).
-/

namespace Gal

open Out

variable {K : Type} [Field K]

/-- The value of the lambda with other lambdas in it. -/
theorem subst_val_null [CharZero K] {dim : Nat} {d : Nat → Int} (named : Nat → K)
    (D : CliffordAlgebra (diagForm K dim d) →ₗ[K] CliffordAlgebra (diagForm K dim d))
    (C : Nat → CliffordAlgebra (diagForm K dim d) →ₗ[K] CliffordAlgebra (diagForm K dim d)) (w : Nat → CliffordAlgebra (diagForm K dim d)) (s : Nat → Lam)
    (off off' : Nat → Nat) (f : Lam) : (f.subst s).val (nullInterp K dim d named D C w) off =
      f.val (nullInterp K dim d named D C fun k => (s k).val (nullInterp K dim d named D C w) off) off' := by
  induction f with
  | _ => simp only [Lam.subst, Lam.val, *] <;> rfl

/-- The result of a computation, as an argument of another, stands for the value of the lambda. -/
theorem result_stands_null {L : Type} [CharZero K] {m : Metric} (h2 : 2 ≤ m.dim) (hm : m.dim ≤ 8) (E : Env K) (args : List (Arg K))
    {w : Nat → CliffordAlgebra (diagForm K m.dim m.sq)}
    (hw : ∀ (k : Nat) (a : Arg K), args[k]? = some a → a.StandsForNull m.dim m.sq (argOffset args k) (w k))
    {D : CliffordAlgebra (diagForm K m.dim m.sq) →ₗ[K] CliffordAlgebra (diagForm K m.dim m.sq)} (hD : IsDual K m.dim m.sq D)
    {C : Nat → CliffordAlgebra (diagForm K m.dim m.sq) →ₗ[K] CliffordAlgebra (diagForm K m.dim m.sq)} (hC : IsNullCoeff K m.dim m.sq C)
    (g : Lam) (ho : g.Ordered (nullInterp K m.dim m.sq (fun k => E.consts.getD k 0) D C w) (argOffset args))
    (hr : g.Parts (NullElement m.dim) (GradeSafe m.dim) False args.length E.consts.length)
    {args' : List (Arg L)} (ht : args.map (fun a => (a.ie, a.data.length)) = args'.map fun a => (a.ie, a.data.length))
    (hk : g.checkNull m args' = true) {y : Entity K} (hy : g.compute m true E args = ok [y]) {off : Nat}
    (hl : off + y.elements.length ≤ 2 ^ 32) :
    y.toArg.StandsForNull m.dim m.sq off (g.val (nullInterp K m.dim m.sq (fun k => E.consts.getD k 0) D C w) (argOffset args)) := by
  obtain ⟨y', h1, h3⟩ := C61_null_partial h2 hm E args hw hD hC g ho hr ht hk
  rw [hy, ok_inj, List.cons.injEq] at h1
  obtain ⟨rfl, -⟩ := h1
  rw [← h3.value]
  exact (C47_entity m.sq h3.asc h3.elems h3.size hl).standsFor

/-- **C53 in steps, null bases.**  As `C53_steps_partial`. -/
theorem C53_null_steps_partial {L : Type} [CharZero K] {m : Metric} (h2 : 2 ≤ m.dim) (hm : m.dim ≤ 8) (E : Env K) (args bs : List (Arg K))
    {w : Nat → CliffordAlgebra (diagForm K m.dim m.sq)}
    (hw : ∀ (k : Nat) (a : Arg K), args[k]? = some a → a.StandsForNull m.dim m.sq (argOffset args k) (w k))
    {D : CliffordAlgebra (diagForm K m.dim m.sq) →ₗ[K] CliffordAlgebra (diagForm K m.dim m.sq)} (hD : IsDual K m.dim m.sq D)
    {C : Nat → CliffordAlgebra (diagForm K m.dim m.sq) →ₗ[K] CliffordAlgebra (diagForm K m.dim m.sq)} (hC : IsNullCoeff K m.dim m.sq C)
    (f : Lam) (s : Nat → Lam)
    (hb : ∀ (k : Nat) (a : Arg K), bs[k]? = some a → a.StandsForNull m.dim m.sq (argOffset bs k)
      ((s k).val (nullInterp K m.dim m.sq (fun k => E.consts.getD k 0) D C w) (argOffset args)))
    (hrf : f.Parts (NullElement m.dim) (GradeSafe m.dim) False bs.length E.consts.length)
    (hrs : (f.subst s).Parts (NullElement m.dim) (GradeSafe m.dim) False args.length E.consts.length)
    (hof : f.Ordered (nullInterp K m.dim m.sq (fun k => E.consts.getD k 0) D C fun k =>
      (s k).val (nullInterp K m.dim m.sq (fun k => E.consts.getD k 0) D C w) (argOffset args)) (argOffset bs))
    (hos : (f.subst s).Ordered (nullInterp K m.dim m.sq (fun k => E.consts.getD k 0) D C w) (argOffset args))
    {args' bs' : List (Arg L)} (ht : args.map (fun a => (a.ie, a.data.length)) = args'.map fun a => (a.ie, a.data.length))
    (ht' : bs.map (fun a => (a.ie, a.data.length)) = bs'.map fun a => (a.ie, a.data.length))
    (hkf : f.checkNull m bs' = true) (hks : (f.subst s).checkNull m args' = true) :
    ∃ x x', (f.subst s).compute m true E args = ok [x] ∧ f.compute m true E bs = ok [x'] ∧ ∀ e, e < 2 ^ m.dim → x.select m.dim e = x'.select m.dim e := by
  obtain ⟨x, x1, x2⟩ := C61_null_partial h2 hm E args hw hD hC (f.subst s) hos hrs ht hks
  obtain ⟨x', y1, y2⟩ := C61_null_partial h2 hm E bs hb hD hC f hof hrf ht' hkf
  rw [← subst_val_null _ D C w s (argOffset args) (argOffset bs) f] at y2
  refine ⟨x, x', x1, y1, fun e he => ?_⟩
  obtain ⟨c, c1, c2⟩ := C47_select hC x2 he
  obtain ⟨c', c1', c2'⟩ := C47_select hC y2 he
  rw [c1, c1', smul_one_inj (c2.symm.trans c2')]

/-- `-2 * (p >> q)`, the square of the distance of two points, in one lambda or in two. -/
example {m : Metric} (hm : m = cgaMetric) (E : Env ℚ) (a b c x y z : ℚ) : ∃ r t t',
    distanceLam.compute m true E [cgaArg [a, b, c], cgaArg [x, y, z]] = ok [r] ∧
    (Lam.scale (-2) (.lc (.arg 0) (.arg 1))).compute m true E [cgaArg [a, b, c], cgaArg [x, y, z]] = ok [t] ∧
    (Lam.scale (-2) (.arg 0)).compute m true E [r.toArg] = ok [t'] ∧ ∀ e, e < 2 ^ m.dim → t.select m.dim e = t'.select m.dim e := by
  have hd : m.dim = 5 := by rw [hm]; rfl
  have h2 : 2 ≤ m.dim := by omega
  have h8 : m.dim ≤ 8 := by omega
  obtain ⟨D, hD⟩ := exists_isDual ℚ m.dim h8 m.sq
  obtain ⟨C, hC⟩ := exists_isNullCoeff ℚ m.dim h2 h8 m.sq
  have hw := conformal_stand hd a b c x y z
  obtain ⟨r, hr, he⟩ : ∃ r : Entity ℚ, distanceLam.compute m true E [cgaArg [a, b, c], cgaArg [x, y, z]] = ok [r] ∧ r.elements = [0] ∧ r.data.length = 1 := by
    subst hm
    have := lam_ratPolys cgaMetric true E (args := [cgaArg [a, b, c], cgaArg [x, y, z]]) (by rfl) distance_ratPolys
    exact ⟨_, single_ok this, rfl, rfl⟩
  have k1 : distanceLam.checkNull (K := ℚ) m [cgaArg [0, 0, 0], cgaArg [0, 0, 0]] = true := by
    rw [hm]
    decide +kernel
  have k2 : (Lam.scale (-2) (.arg 0)).checkNull (K := ℚ) m [(⟨[0], [0]⟩ : Entity ℚ).toArg] = true := by
    rw [hm]
    decide +kernel
  have k3 : (Lam.scale (-2) (.lc (.arg 0) (.arg 1))).checkNull (K := ℚ) m [cgaArg [0, 0, 0], cgaArg [0, 0, 0]] = true := by
    rw [hm]
    decide +kernel
  have hs := result_stands_null h2 h8 E _ hw hD hC distanceLam ⟨trivial, trivial⟩ (by simp [distanceLam, Lam.Parts])
    (args' := [cgaArg [0, 0, 0], cgaArg (K := ℚ) [0, 0, 0]]) rfl k1 hr (off := 0) (by rw [he.1]; decide)
  obtain ⟨t, t', h3, h4, h5⟩ := C53_null_steps_partial h2 h8 E [cgaArg [a, b, c], cgaArg [x, y, z]] [r.toArg] hw hD hC (.scale (-2) (.arg 0))
    (fun _ => .lc (.arg 0) (.arg 1))
    (by
      intro k v hv
      match k with
      | 0 =>
        simp only [List.getElem?_cons_zero, Option.some.injEq] at hv
        subst hv
        exact hs
      | k + 1 => simp at hv)
    (by simp [Lam.Parts]) (by simp [Lam.subst, Lam.Parts]) trivial ⟨trivial, trivial⟩
    (args' := [cgaArg [0, 0, 0], cgaArg (K := ℚ) [0, 0, 0]]) (bs' := [(⟨[0], [0]⟩ : Entity ℚ).toArg]) rfl
    (by simp only [Entity.toArg, List.map_cons, List.map_nil, he.1, he.2]; rfl) k2 k3
  exact ⟨r, t, t', hr, h3, h4, h5⟩

end Gal
