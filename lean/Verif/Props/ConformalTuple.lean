import Verif.Props.NamedArgs

/-!
# C61 for a tuple of conformal points

The contraction and the product of two conformal points, returned by one lambda.  The computations are the `compute` of engine.hpp:318-339, 455-518 with
several results; the points are those of cga.hpp:122-150.
-/

namespace Gal

open Out

variable {K : Type} [Field K]

/-- Two conformal points as arguments. -/
theorem conformal_stand [CharZero K] {m : Metric} (hd : m.dim = 5) (a b c x y z : K) : ∀ (k : Nat) (v : Arg K),
    [(⟨cgaPointIe, [a, b, c]⟩ : Arg K), ⟨cgaPointIe, [x, y, z]⟩][k]? = some v →
      v.StandsForNull m.dim m.sq (argOffset [(⟨cgaPointIe, [a, b, c]⟩ : Arg K), ⟨cgaPointIe, [x, y, z]⟩] k)
        (if k = 0 then conformalElement K m.dim m.sq a b c else conformalElement K m.dim m.sq x y z) := by
  have hp : ∀ (x y z : K) (off : Nat), off + 3 ≤ 2 ^ 32 → (⟨cgaPointIe, [x, y, z]⟩ : Arg K).StandsForNull m.dim m.sq off (conformalElement K m.dim m.sq x y z) := by
    rw [hd]
    exact fun x y z off h => C61_cga_point _ x y z h
  intro k v hv
  match k with
  | 0 =>
    simp only [List.getElem?_cons_zero, Option.some.injEq] at hv
    subst hv
    exact hp a b c _ (show 0 + 3 ≤ 2 ^ 32 by decide)
  | 1 =>
    simp only [List.getElem?_cons_succ, List.getElem?_cons_zero, Option.some.injEq] at hv
    subst hv
    exact hp x y z _ (show 3 + 3 ≤ 2 ^ 32 by decide)
  | k + 2 => simp at hv

/-- **C61, two conformal points and two results**: `compute([](auto p, auto q) { return std::tuple{p >> q, p * q}; }, p, q)` returns the contraction and the
product in the Clifford algebra. -/
theorem C61_conformal_tuple [CharZero K] {m : Metric} (hm : m = cgaMetric) (E : Env K) (a b c x y z : K) :
    ∃ r s, Lam.computeTuple m true E [⟨cgaPointIe, [a, b, c]⟩, ⟨cgaPointIe, [x, y, z]⟩] [.lc (.arg 0) (.arg 1), .gp (.arg 0) (.arg 1)] = ok [r, s] ∧
      r.DenotesNull m.dim m.sq (leftContraction K m.dim m.sq (conformalElement K m.dim m.sq a b c) (conformalElement K m.dim m.sq x y z)) ∧
      s.DenotesNull m.dim m.sq (conformalElement K m.dim m.sq a b c * conformalElement K m.dim m.sq x y z) := by
  have hd : m.dim = 5 := by rw [hm]; rfl
  have h2 : 2 ≤ m.dim := by omega
  have h8 : m.dim ≤ 8 := by omega
  obtain ⟨D, hD⟩ := exists_isDual K m.dim h8 m.sq
  obtain ⟨C, hC⟩ := exists_isNullCoeff K m.dim h2 h8 m.sq
  have hk : Lam.checkTuple (K := ℚ) m true [⟨cgaPointIe, [1, 2, 3]⟩, ⟨cgaPointIe, [7, 11, 13]⟩] [.lc (.arg 0) (.arg 1), .gp (.arg 0) (.arg 1)] = true := by
    rw [hm]
    decide +kernel
  obtain ⟨xs, h1, h3⟩ := C61_null_tuple_partial h2 h8 E _ (conformal_stand hd a b c x y z) hD hC [.lc (.arg 0) (.arg 1), .gp (.arg 0) (.arg 1)] (by simp)
    (by simp [Lam.Ordered]) (by simp [Lam.Parts])
    (args' := [⟨cgaPointIe, [1, 2, 3]⟩, ⟨cgaPointIe, [(7 : ℚ), 11, 13]⟩]) rfl hk
  match xs, h3 with
  | [r, s], .cons k1 (.cons k2 .nil) => exact ⟨r, s, h1, k1, k2⟩

/-- The hypothesis is met by the conformal algebra. -/
example (E : Env ℚ) : ∃ r s, Lam.computeTuple cgaMetric true E [⟨cgaPointIe, [1, 2, 3]⟩, ⟨cgaPointIe, [4, 5, 6]⟩]
    [.lc (.arg 0) (.arg 1), .gp (.arg 0) (.arg 1)] = ok [r, s] := by
  obtain ⟨r, s, h, -⟩ := C61_conformal_tuple rfl E (1 : ℚ) 2 3 4 5 6
  exact ⟨r, s, h⟩

end Gal
