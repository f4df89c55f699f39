import Verif.Props.Steps
import Verif.Props.SandwichPolys

/-!
# C53 with quotients: one lambda or two

As `Props/Steps`, for lambdas with quotients and functions (engine.hpp:455-518).
-/

namespace Gal

open Out

variable {K : Type} [Field K]

/-- The value of the lambda with other lambdas in it. -/
theorem subst_val_full [CharZero K] {dim : Nat} {d : Nat → Int} (named : Nat → K)
    (D : CliffordAlgebra (diagForm K dim d) →ₗ[K] CliffordAlgebra (diagForm K dim d)) (w : Nat → CliffordAlgebra (diagForm K dim d)) (F : Nat → K → K)
    (s : Nat → Lam) (off off' : Nat → Nat) (f : Lam) : (f.subst s).val (fullInterp K dim d named D w F) off =
      f.val (fullInterp K dim d named D (fun k => (s k).val (fullInterp K dim d named D w F) off) F) off' := by
  induction f with
  | _ => simp only [Lam.subst, Lam.val, *] <;> rfl

/-- No divisor is zero if none is zero in the lambda and in the lambdas put into it. -/
theorem subst_divides [CharZero K] {dim : Nat} {d : Nat → Int} (named : Nat → K)
    (D : CliffordAlgebra (diagForm K dim d) →ₗ[K] CliffordAlgebra (diagForm K dim d)) (w : Nat → CliffordAlgebra (diagForm K dim d)) (F : Nat → K → K)
    (s : Nat → Lam) (off off' : Nat → Nat) {nz : CliffordAlgebra (diagForm K dim d) → Prop} (hs : ∀ k, (s k).Divides nz (fullInterp K dim d named D w F) off)
    (f : Lam) (h : f.Divides nz (fullInterp K dim d named D (fun k => (s k).val (fullInterp K dim d named D w F) off) F) off') :
    (f.subst s).Divides nz (fullInterp K dim d named D w F) off := by
  induction f with
  | arg k => exact hs k
  | num | pi | elem => trivial
  | scale _ _ ih | divInt _ _ ih | neg _ ih | rev _ ih | dual _ ih | comp _ _ ih | grade _ _ ih | fn _ _ ih | addInt _ _ ih | intSub _ _ ih | subInt _ _ ih => exact ih h
  | add _ _ ih1 ih2 | sub _ _ ih1 ih2 | gp _ _ ih1 ih2 | lc _ _ ih1 ih2 | sip _ _ ih1 ih2 | ep _ _ ih1 ih2 | join _ _ ih1 ih2 | sandwich _ _ ih1 ih2
  | sprod _ _ ih1 ih2 => exact ⟨ih1 h.1, ih2 h.2⟩
  | div _ b ih1 ih2 => exact ⟨ih1 h.1, ih2 h.2.1, by rw [subst_val_full named D w F s off off' b]; exact h.2.2⟩
  | inv a ih => exact ⟨ih h.1, by rw [subst_val_full named D w F s off off' a]; exact h.2⟩

/-- The result of a computation, as an argument of another, stands for the value of the lambda. -/
theorem result_stands_quot {L : Type} [CharZero K] (m : Metric) (hm : m.dim ≤ 8) (E : Env K) (args : List (Arg K))
    {w : Nat → CliffordAlgebra (diagForm K m.dim m.sq)}
    (hw : ∀ (k : Nat) (a : Arg K), args[k]? = some a → a.StandsFor m.dim m.sq (argOffset args k) (w k))
    {D : CliffordAlgebra (diagForm K m.dim m.sq) →ₗ[K] CliffordAlgebra (diagForm K m.dim m.sq)} (hD : IsDual K m.dim m.sq D)
    (g : Lam) (ho : g.Ordered (fullInterp K m.dim m.sq (fun k => E.consts.getD k 0) D w E.named) (argOffset args))
    (hr : g.Parts (· < 2 ^ m.dim) (GradeSafe m.dim) True args.length E.consts.length)
    (h0 : g.Divides (fun v => scalarPart K m.dim m.sq v ≠ 0) (fullInterp K m.dim m.sq (fun k => E.consts.getD k 0) D w E.named) (argOffset args))
    {args' : List (Arg L)} (ht : args.map (fun a => (a.ie, a.data.length)) = args'.map fun a => (a.ie, a.data.length))
    (hcap : g.cap < 2 ^ 64) (hk : g.checkQuot m args' = true) {y : Entity K} (hy : g.compute m false E args = ok [y]) {off : Nat}
    (hl : off + y.elements.length ≤ 2 ^ 32) :
    y.toArg.StandsFor m.dim m.sq off (g.val (fullInterp K m.dim m.sq (fun k => E.consts.getD k 0) D w E.named) (argOffset args)) := by
  obtain ⟨y', h1, h2⟩ := C61_quot_partial m hm E args hw hD g ho hr h0 ht hcap hk
  rw [hy, ok_inj, List.cons.injEq] at h1
  obtain ⟨rfl, -⟩ := h1
  rw [← h2.value]
  exact (C45_entity m.sq h2.asc h2.elems h2.size hl).standsFor

/-- **C53 in steps, quotients and functions.**  As `C53_steps_partial`; no divisor of `f` and of the parts may be zero. -/
theorem C53_quot_steps_partial {L : Type} [CharZero K] (m : Metric) (hm : m.dim ≤ 8) (E : Env K) (args bs : List (Arg K))
    {w : Nat → CliffordAlgebra (diagForm K m.dim m.sq)}
    (hw : ∀ (k : Nat) (a : Arg K), args[k]? = some a → a.StandsFor m.dim m.sq (argOffset args k) (w k))
    {D : CliffordAlgebra (diagForm K m.dim m.sq) →ₗ[K] CliffordAlgebra (diagForm K m.dim m.sq)} (hD : IsDual K m.dim m.sq D)
    (f : Lam) (s : Nat → Lam)
    (hb : ∀ (k : Nat) (a : Arg K), bs[k]? = some a → a.StandsFor m.dim m.sq (argOffset bs k)
      ((s k).val (fullInterp K m.dim m.sq (fun k => E.consts.getD k 0) D w E.named) (argOffset args)))
    (hrf : f.Parts (· < 2 ^ m.dim) (GradeSafe m.dim) True bs.length E.consts.length)
    (hrs : (f.subst s).Parts (· < 2 ^ m.dim) (GradeSafe m.dim) True args.length E.consts.length)
    (hof : f.Ordered (fullInterp K m.dim m.sq (fun k => E.consts.getD k 0) D (fun k =>
      (s k).val (fullInterp K m.dim m.sq (fun k => E.consts.getD k 0) D w E.named) (argOffset args)) E.named) (argOffset bs))
    (hos : (f.subst s).Ordered (fullInterp K m.dim m.sq (fun k => E.consts.getD k 0) D w E.named) (argOffset args))
    (h0 : f.Divides (fun v => scalarPart K m.dim m.sq v ≠ 0) (fullInterp K m.dim m.sq (fun k => E.consts.getD k 0) D (fun k =>
      (s k).val (fullInterp K m.dim m.sq (fun k => E.consts.getD k 0) D w E.named) (argOffset args)) E.named) (argOffset bs))
    (h0' : ∀ k, (s k).Divides (fun v => scalarPart K m.dim m.sq v ≠ 0) (fullInterp K m.dim m.sq (fun k => E.consts.getD k 0) D w E.named) (argOffset args))
    {args' bs' : List (Arg L)} (ht : args.map (fun a => (a.ie, a.data.length)) = args'.map fun a => (a.ie, a.data.length))
    (ht' : bs.map (fun a => (a.ie, a.data.length)) = bs'.map fun a => (a.ie, a.data.length))
    (hcf : f.cap < 2 ^ 64) (hcs : (f.subst s).cap < 2 ^ 64) (hkf : f.checkQuot m bs' = true) (hks : (f.subst s).checkQuot m args' = true) :
    ∃ x x', (f.subst s).compute m false E args = ok [x] ∧ f.compute m false E bs = ok [x'] ∧ ∀ e, e < 2 ^ m.dim → x.select m.dim e = x'.select m.dim e := by
  obtain ⟨x, x1, x2⟩ := C61_quot_partial m hm E args hw hD (f.subst s) hos hrs (subst_divides _ D w E.named s (argOffset args) (argOffset bs) h0' f h0) ht hcs hks
  obtain ⟨x', y1, y2⟩ := C61_quot_partial m hm E bs hb hD f hof hrf h0 ht' hcf hkf
  rw [← subst_val_full _ D w E.named s (argOffset args) (argOffset bs) f] at y2
  exact ⟨x, x', x1, y1, fun e he => by rw [C45_select x2 he, C45_select y2 he]⟩

/-- `[](auto a) { return a >> a; }`, the first step of the example below (expr.hpp:1059-1086). -/
def normLam : Lam := .lc (.arg 0) (.arg 0)

theorem norm_polys : normLam.polys pgaMetric [planeArg (K := ℚ) [0, 0, 0, 0]] = some [(0, [(1, [(1, 2)]), (1, [(2, 2)]), (1, [(3, 2)])])] := by
  exact flatPolys_polys (by decide +kernel)

/-- A point divided by `a >> a` for a plane `a`: in one lambda or in two. -/
example {m : Metric} (hm : m = pgaMetric) (E : Env ℚ) (d a b c x y z : ℚ) : ∃ w : Nat → CliffordAlgebra (diagForm ℚ m.dim m.sq),
    (∀ (k : Nat) (v : Arg ℚ), [(⟨pgaPlaneIe, [d, a, b, c]⟩ : Arg ℚ), ⟨vgaPointIe, [x, y, z]⟩][k]? = some v →
      v.StandsFor m.dim m.sq (argOffset [(⟨pgaPlaneIe, [d, a, b, c]⟩ : Arg ℚ), ⟨vgaPointIe, [x, y, z]⟩] k) (w k)) ∧
    (scalarPart ℚ m.dim m.sq (leftContraction ℚ m.dim m.sq (w 0) (w 0)) ≠ 0 → ∃ r t t',
      normLam.compute m false E [⟨pgaPlaneIe, [d, a, b, c]⟩] = ok [r] ∧
      (Lam.div (.arg 1) (.lc (.arg 0) (.arg 0))).compute m false E [⟨pgaPlaneIe, [d, a, b, c]⟩, ⟨vgaPointIe, [x, y, z]⟩] = ok [t] ∧
      (Lam.div (.arg 0) (.arg 1)).compute m false E [⟨vgaPointIe, [x, y, z]⟩, r.toArg] = ok [t'] ∧
      ∀ e, e < 2 ^ m.dim → t.select m.dim e = t'.select m.dim e) := by
  obtain ⟨w, hw, hw1⟩ : ∃ w : Nat → CliffordAlgebra (diagForm ℚ m.dim m.sq),
      (∀ (k : Nat) (v : Arg ℚ), [(⟨pgaPlaneIe, [d, a, b, c]⟩ : Arg ℚ), ⟨vgaPointIe, [x, y, z]⟩][k]? = some v →
        v.StandsFor m.dim m.sq (argOffset [(⟨pgaPlaneIe, [d, a, b, c]⟩ : Arg ℚ), ⟨vgaPointIe, [x, y, z]⟩] k) (w k)) ∧
      (⟨vgaPointIe, [x, y, z]⟩ : Arg ℚ).StandsFor m.dim m.sq 0 (w 1) := by
    subst hm
    exact ⟨_, plane_point_stand d a b c x y z, C61_vga_point _ x y z (by decide)⟩
  refine ⟨w, hw, fun h0 => ?_⟩
  have h8 : m.dim ≤ 8 := by rw [hm]; decide
  obtain ⟨D, hD⟩ := exists_isDual ℚ m.dim h8 m.sq
  obtain ⟨r, hr, he⟩ : ∃ r : Entity ℚ, normLam.compute m false E [⟨pgaPlaneIe, [d, a, b, c]⟩] = ok [r] ∧ r.elements = [0] ∧ r.data.length = 1 := by
    subst hm
    have := lam_polys pgaMetric E (args := [planeArg [d, a, b, c]]) (by rfl) norm_polys
    exact ⟨_, single_ok this, rfl, rfl⟩
  have k1 : normLam.checkQuot (K := ℚ) m [⟨pgaPlaneIe, [1, 2, 3, 5]⟩] = true := by
    rw [hm]
    decide +kernel
  have k2 : (Lam.div (.arg 0) (.arg 1)).checkQuot (K := ℚ) m [⟨vgaPointIe, [7, 11, 13]⟩, (⟨[0], [0]⟩ : Entity ℚ).toArg] = true := by
    rw [hm]
    decide +kernel
  have k3 : (Lam.div (.arg 1) (.lc (.arg 0) (.arg 0))).checkQuot (K := ℚ) m [⟨pgaPlaneIe, [1, 2, 3, 5]⟩, ⟨vgaPointIe, [7, 11, 13]⟩] = true := by
    rw [hm]
    decide +kernel
  have hs := result_stands_quot m h8 E [⟨pgaPlaneIe, [d, a, b, c]⟩] (w := w)
    (fun k v hv => by
      match k with
      | 0 => exact hw 0 v hv
      | k + 1 => simp at hv) hD normLam ⟨trivial, trivial⟩ (by simp [normLam, Lam.Parts]) ⟨trivial, trivial⟩
    (args' := [⟨pgaPlaneIe, [(1 : ℚ), 2, 3, 5]⟩]) rfl (by decide) k1 hr (off := 3) (by rw [he.1]; decide)
  obtain ⟨t, t', h3, h4, h5⟩ := C53_quot_steps_partial m h8 E [⟨pgaPlaneIe, [d, a, b, c]⟩, ⟨vgaPointIe, [x, y, z]⟩] [⟨vgaPointIe, [x, y, z]⟩, r.toArg] hw hD
    (.div (.arg 0) (.arg 1)) (fun k => if k = 0 then .arg 1 else .lc (.arg 0) (.arg 0))
    (by
      intro k v hv
      match k with
      | 0 =>
        simp only [List.getElem?_cons_zero, Option.some.injEq] at hv
        subst hv
        exact hw1
      | 1 =>
        simp only [List.getElem?_cons_succ, List.getElem?_cons_zero, Option.some.injEq] at hv
        subst hv
        exact hs
      | k + 2 => simp at hv)
    (by simp [Lam.Parts]) (by simp [Lam.subst, Lam.Parts]) ⟨trivial, trivial⟩ ⟨trivial, trivial, trivial⟩ ⟨trivial, trivial, h0⟩
    (fun k => by
      split
      · trivial
      · exact ⟨trivial, trivial⟩)
    (args' := [⟨pgaPlaneIe, [(1 : ℚ), 2, 3, 5]⟩, ⟨vgaPointIe, [7, 11, 13]⟩]) (bs' := [⟨vgaPointIe, [7, 11, 13]⟩, (⟨[0], [0]⟩ : Entity ℚ).toArg]) rfl
    (by simp only [Entity.toArg, List.map_cons, List.map_nil, he.1, he.2]; rfl) (by decide) (by decide) k2 k3
  exact ⟨r, t, t', hr, h3, h4, h5⟩

end Gal
