import Verif.Props.StepsUse
import Verif.Props.Incidence

/-!
# C54 in one lambda

`p % (m * n)` in one lambda, for two motors (expr.hpp:932-960, 1127-1131).
-/

namespace Gal

open Out

variable {K : Type} [Field K] [CharZero K]

/-- **C54 (two motors, one lambda)**: `p % (m * n)` is the point moved by `n` and then by `m`. -/
theorem C54_product_one (E : Env K) (a b c d e f g h a' b' c' d' e' f' g' h' : K) (p : Fin 3 → K)
    (_h0 : a * a + d * d + f * f + g * g ≠ 0) (h1 : a' * a' + d' * d' + f' * f' + g' * g' ≠ 0) :
    ∃ q t : Fin 3 → K,
      (sandwichLam.compute pgaMetric false E [pointArg [p 0, p 1, p 2], motorArg [a', b', c', d', e', f', g', h']] >>= single >>= vgaPointOf) =
        ok (List.ofFn q) ∧
      (sandwichLam.compute pgaMetric false E [pointArg [q 0, q 1, q 2], motorArg [a, b, c, d, e, f, g, h]] >>= single >>= vgaPointOf) =
        ok (List.ofFn t) ∧
      (sandwichProduct.compute pgaMetric false E [pointArg [p 0, p 1, p 2], motorArg [a, b, c, d, e, f, g, h], motorArg [a', b', c', d', e', f', g', h']] >>=
        single >>= vgaPointOf) = ok (List.ofFn t) := by
  obtain ⟨r, q, t, hr, hq, ht, hx⟩ := C54_product E a b c d e f g h a' b' c' d' e' f' g' h' p _h0 h1
  refine ⟨q, t, hq, ht, ?_⟩
  have hp := lam_polys pgaMetric E (args := [motorArg [a, b, c, d, e, f, g, h], motorArg [a', b', c', d', e', f', g', h']]) (by rfl) motor_polys
  have he : r.toArg.ie = (⟨motorElements, [0, 0, 0, 0, 0, 0, 0, 0]⟩ : Entity ℚ).toArg.ie ∧ r.toArg.data.length = 8 ∧ r.elements.length = 8 := by
    rw [hr] at hp
    rw [ok_inj.1 hp]
    exact ⟨rfl, rfl, rfl⟩
  obtain ⟨y, y', e1, e2, e3⟩ := sandwich_product_steps pgaMetric (by decide) E (p := pointArg [p 0, p 1, p 2]) (C61_vga_point _ _ _ _ (by decide))
    (fun off h => C61_pga_motor _ _ _ _ _ _ _ _ _ (by omega)) (fun off h => C61_pga_motor _ _ _ _ _ _ _ _ _ (by omega)) hr
    (by rw [he.2.2]; exact (by decide : 3 + 8 + 8 ≤ 2 ^ 31))
    (p' := pointArg (K := ℚ) [0, 0, 0]) (a' := motorArg [0, 0, 0, 0, 0, 0, 0, 0]) (b' := motorArg [0, 0, 0, 0, 0, 0, 0, 0])
    (y' := (⟨motorElements, [0, 0, 0, 0, 0, 0, 0, 0]⟩ : Entity ℚ).toArg) rfl rfl rfl (by rw [he.1, he.2.1]; rfl)
    (by decide +kernel) (by decide +kernel) (by decide +kernel)
  rw [e2, ok_bind] at hx
  rw [e1, ok_bind, ← hx]
  exact vgaPointOf_select e3

/-- Two turns about different axes. -/
example (E : Env ℚ) : ∃ q t : Fin 3 → ℚ,
    (sandwichLam.compute pgaMetric false E [pointArg [1, 2, 3], motorArg [1, 0, 0, 0, 0, 0, 2, 0]] >>= single >>= vgaPointOf) = ok (List.ofFn q) ∧
    (sandwichLam.compute pgaMetric false E [pointArg [q 0, q 1, q 2], motorArg [1, 0, 0, 3, 0, 0, 0, 0]] >>= single >>= vgaPointOf) = ok (List.ofFn t) ∧
    (sandwichProduct.compute pgaMetric false E [pointArg [1, 2, 3], motorArg [1, 0, 0, 3, 0, 0, 0, 0], motorArg [1, 0, 0, 0, 0, 0, 2, 0]] >>=
      single >>= vgaPointOf) = ok (List.ofFn t) :=
  C54_product_one E 1 0 0 3 0 0 0 0 1 0 0 0 0 0 2 0 ![1, 2, 3] (by norm_num) (by norm_num)

end Gal
