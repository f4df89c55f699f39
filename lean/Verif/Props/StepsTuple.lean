import Verif.Props.ConformalTuple

/-!
# C53: one tuple or several calls

The results of a lambda that returns a tuple have the coefficients that separate calls return (engine.hpp:318-339, 455-518).
-/

namespace Gal

open Out

variable {K : Type} [Field K]

/-- **C53, the parts of tuples.**  `compute([](auto... a) { return std::tuple{f(a...), g(a...), ...}; }, args...)` and the calls `compute(f, args...)`,
`compute(g, args...)`, ... return entities with the same coefficients, if they pass the checks of C53. -/
theorem C53_tuple_parts_partial {L : Type} [CharZero K] (m : Metric) (hm : m.dim ≤ 8) (E : Env K) (args : List (Arg K))
    {w : Nat → CliffordAlgebra (diagForm K m.dim m.sq)}
    (hw : ∀ (k : Nat) (a : Arg K), args[k]? = some a → a.StandsFor m.dim m.sq (argOffset args k) (w k))
    {D : CliffordAlgebra (diagForm K m.dim m.sq) →ₗ[K] CliffordAlgebra (diagForm K m.dim m.sq)} (hD : IsDual K m.dim m.sq D)
    (fs : List Lam) (hne : fs ≠ [])
    (ho : ∀ f ∈ fs, f.Ordered (cliffInterp K m.dim m.sq (fun k => E.consts.getD k 0) D w) (argOffset args))
    (hr : ∀ f ∈ fs, f.InRange m.dim args.length E.consts.length)
    {args' : List (Arg L)} (ht : args.map (fun a => (a.ie, a.data.length)) = args'.map fun a => (a.ie, a.data.length))
    (hk : Lam.checkTuple m false args' fs = true) (hc : ∀ f ∈ fs, f.cap < 2 ^ 64) (hks : ∀ f ∈ fs, f.check m args' = true) :
    ∃ xs, Lam.computeTuple m false E args fs = ok xs ∧
      List.Forall₂ (fun x f => ∃ x', f.compute m false E args = ok [x'] ∧ ∀ e, e < 2 ^ m.dim → x.select m.dim e = x'.select m.dim e) xs fs := by
  obtain ⟨xs, h1, h2⟩ := C61_tuple_partial m hm E args hw hD fs hne ho hr ht hk
  refine ⟨xs, h1, ?_⟩
  rw [List.forall₂_map_right_iff] at h2
  clear h1 hk hne
  induction h2 with
  | nil => exact .nil
  | cons hx _ ih =>
    refine .cons ?_ (ih (fun f h => ho f (.tail _ h)) (fun f h => hr f (.tail _ h)) (fun f h => hc f (.tail _ h)) fun f h => hks f (.tail _ h))
    obtain ⟨x', y1, y2⟩ := C61_compute_partial m hm E args hw hD _ (ho _ (.head _)) (hr _ (.head _)) ht (hc _ (.head _)) (hks _ (.head _))
    exact ⟨x', y1, fun e he => by rw [C45_select hx he, C45_select y2 he]⟩

/-- The product of a plane and a point, and the reverse of the point. -/
example (E : Env ℚ) (d a b c x y z : ℚ) : ∃ r s r' s',
    Lam.computeTuple pgaMetric false E [⟨pgaPlaneIe, [d, a, b, c]⟩, ⟨vgaPointIe, [x, y, z]⟩] [.gp (.arg 0) (.arg 1), .rev (.arg 1)] = ok [r, s] ∧
    (Lam.gp (.arg 0) (.arg 1)).compute pgaMetric false E [⟨pgaPlaneIe, [d, a, b, c]⟩, ⟨vgaPointIe, [x, y, z]⟩] = ok [r'] ∧
    (Lam.rev (.arg 1)).compute pgaMetric false E [⟨pgaPlaneIe, [d, a, b, c]⟩, ⟨vgaPointIe, [x, y, z]⟩] = ok [s'] ∧
    (∀ e, e < 2 ^ 4 → r.select 4 e = r'.select 4 e) ∧ ∀ e, e < 2 ^ 4 → s.select 4 e = s'.select 4 e := by
  obtain ⟨D, hD⟩ := exists_isDual ℚ 4 (by decide) (Metric.sq pgaMetric)
  have k1 : (Lam.gp (.arg 0) (.arg 1)).check pgaMetric [⟨pgaPlaneIe, [1, 2, 3, 5]⟩, ⟨vgaPointIe, [(7 : ℚ), 11, 13]⟩] = true := by decide +kernel
  have k2 : (Lam.rev (.arg 1)).check pgaMetric [⟨pgaPlaneIe, [1, 2, 3, 5]⟩, ⟨vgaPointIe, [(7 : ℚ), 11, 13]⟩] = true := by decide +kernel
  obtain ⟨xs, h1, h2⟩ := C53_tuple_parts_partial pgaMetric (by decide) E _ (plane_point_stand d a b c x y z) hD [.gp (.arg 0) (.arg 1), .rev (.arg 1)] (by simp)
    (by simp [Lam.Ordered]) (by simp [Lam.InRange])
    (args' := [⟨pgaPlaneIe, [1, 2, 3, 5]⟩, ⟨vgaPointIe, [(7 : ℚ), 11, 13]⟩]) rfl (by decide +kernel) (by decide)
    (by
      intro f hf
      simp only [List.mem_cons, List.not_mem_nil, or_false] at hf
      rcases hf with rfl | rfl
      · exact k1
      · exact k2)
  match xs, h2 with
  | [r, s], .cons ⟨r', k1, k2⟩ (.cons ⟨s', k3, k4⟩ .nil) => exact ⟨r, s, r', s', h1, k1, k3, k2, k4⟩

/-- **C53, the parts of tuples in null bases.** -/
theorem C53_null_tuple_parts_partial {L : Type} [CharZero K] {m : Metric} (h2 : 2 ≤ m.dim) (hm : m.dim ≤ 8) (E : Env K) (args : List (Arg K))
    {w : Nat → CliffordAlgebra (diagForm K m.dim m.sq)}
    (hw : ∀ (k : Nat) (a : Arg K), args[k]? = some a → a.StandsForNull m.dim m.sq (argOffset args k) (w k))
    {D : CliffordAlgebra (diagForm K m.dim m.sq) →ₗ[K] CliffordAlgebra (diagForm K m.dim m.sq)} (hD : IsDual K m.dim m.sq D)
    {C : Nat → CliffordAlgebra (diagForm K m.dim m.sq) →ₗ[K] CliffordAlgebra (diagForm K m.dim m.sq)} (hC : IsNullCoeff K m.dim m.sq C)
    (fs : List Lam) (hne : fs ≠ [])
    (ho : ∀ f ∈ fs, f.Ordered (nullInterp K m.dim m.sq (fun k => E.consts.getD k 0) D C w) (argOffset args))
    (hr : ∀ f ∈ fs, f.Parts (NullElement m.dim) (GradeSafe m.dim) False args.length E.consts.length)
    {args' : List (Arg L)} (ht : args.map (fun a => (a.ie, a.data.length)) = args'.map fun a => (a.ie, a.data.length))
    (hk : Lam.checkTuple m true args' fs = true) (hks : ∀ f ∈ fs, f.checkNull m args' = true) :
    ∃ xs, Lam.computeTuple m true E args fs = ok xs ∧
      List.Forall₂ (fun x f => ∃ x', f.compute m true E args = ok [x'] ∧ ∀ e, e < 2 ^ m.dim → x.select m.dim e = x'.select m.dim e) xs fs := by
  obtain ⟨xs, h1, h3⟩ := C61_null_tuple_partial h2 hm E args hw hD hC fs hne ho hr ht hk
  refine ⟨xs, h1, ?_⟩
  rw [List.forall₂_map_right_iff] at h3
  clear h1 hk hne
  induction h3 with
  | nil => exact .nil
  | cons hx _ ih =>
    refine .cons ?_ (ih (fun f h => ho f (.tail _ h)) (fun f h => hr f (.tail _ h)) fun f h => hks f (.tail _ h))
    obtain ⟨x', y1, y2⟩ := C61_null_partial h2 hm E args hw hD hC _ (ho _ (.head _)) (hr _ (.head _)) ht (hks _ (.head _))
    refine ⟨x', y1, fun e he => ?_⟩
    obtain ⟨c, c1, c2⟩ := C47_select hC hx he
    obtain ⟨c', c1', c2'⟩ := C47_select hC y2 he
    rw [c1, c1', smul_one_inj (c2.symm.trans c2')]

/-- Two conformal points: `p >> q` and `~p`. -/
example {m : Metric} (hm : m = cgaMetric) (E : Env ℚ) (a b c x y z : ℚ) : ∃ r s r' s',
    Lam.computeTuple m true E [⟨cgaPointIe, [a, b, c]⟩, ⟨cgaPointIe, [x, y, z]⟩] [.lc (.arg 0) (.arg 1), .rev (.arg 0)] = ok [r, s] ∧
    (Lam.lc (.arg 0) (.arg 1)).compute m true E [⟨cgaPointIe, [a, b, c]⟩, ⟨cgaPointIe, [x, y, z]⟩] = ok [r'] ∧
    (Lam.rev (.arg 0)).compute m true E [⟨cgaPointIe, [a, b, c]⟩, ⟨cgaPointIe, [x, y, z]⟩] = ok [s'] ∧
    (∀ e, e < 2 ^ m.dim → r.select m.dim e = r'.select m.dim e) ∧ ∀ e, e < 2 ^ m.dim → s.select m.dim e = s'.select m.dim e := by
  have hd : m.dim = 5 := by rw [hm]; rfl
  have h2 : 2 ≤ m.dim := by omega
  have h8 : m.dim ≤ 8 := by omega
  obtain ⟨D, hD⟩ := exists_isDual ℚ m.dim h8 m.sq
  obtain ⟨C, hC⟩ := exists_isNullCoeff ℚ m.dim h2 h8 m.sq
  have k0 : Lam.checkTuple (K := ℚ) m true [⟨cgaPointIe, [1, 2, 3]⟩, ⟨cgaPointIe, [7, 11, 13]⟩] [.lc (.arg 0) (.arg 1), .rev (.arg 0)] = true := by
    rw [hm]
    decide +kernel
  have k1 : (Lam.lc (.arg 0) (.arg 1)).checkNull (K := ℚ) m [⟨cgaPointIe, [1, 2, 3]⟩, ⟨cgaPointIe, [7, 11, 13]⟩] = true := by
    rw [hm]
    decide +kernel
  have k2 : (Lam.rev (.arg 0)).checkNull (K := ℚ) m [⟨cgaPointIe, [1, 2, 3]⟩, ⟨cgaPointIe, [7, 11, 13]⟩] = true := by
    rw [hm]
    decide +kernel
  obtain ⟨xs, h1, h3⟩ := C53_null_tuple_parts_partial h2 h8 E _ (conformal_stand hd a b c x y z) hD hC [.lc (.arg 0) (.arg 1), .rev (.arg 0)] (by simp)
    (by simp [Lam.Ordered]) (by simp [Lam.Parts])
    (args' := [⟨cgaPointIe, [1, 2, 3]⟩, ⟨cgaPointIe, [(7 : ℚ), 11, 13]⟩]) rfl k0
    (by
      intro f hf
      simp only [List.mem_cons, List.not_mem_nil, or_false] at hf
      rcases hf with rfl | rfl
      · exact k1
      · exact k2)
  match xs, h3 with
  | [r, s], .cons ⟨r', j1, j2⟩ (.cons ⟨s', j3, j4⟩ .nil) => exact ⟨r, s, r', s', h1, j1, j3, j2, j4⟩

end Gal
