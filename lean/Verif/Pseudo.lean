import Verif.MvFlat
import Verif.Blade
import Verif.Bits

/-!
# Constants and generic multivectors of an algebra (public/gal/geometric_algebra.hpp:80-132)
-/

namespace Gal

open Out

/-- `algebra::pseudoscalar` (geometric_algebra.hpp:83-87).  The element `(1 << dim) - 1` is narrowed to `elem_t`
(8 bits, algebra.hpp:11). -/
def pseudoscalar (m : Metric) : Mv :=
  ⟨⟨0, 1, 1⟩, 0, 1, 1, [], [⟨⟨1, 1⟩, ⟨0, 1⟩, 0, 0⟩], [⟨1, 0, (2 ^ m.dim - 1) % 256⟩], .id⟩

/-- `algebra::pseudoscalar_inv` (geometric_algebra.hpp:88-96). -/
def pseudoscalarInv (m : Metric) : Mv :=
  ⟨⟨0, 1, 1⟩, 0, 1, 1, [], [⟨if (m.dim * (m.dim - 1) / 2 + m.v) % 2 = 0 then ⟨1, 1⟩ else ⟨-1, 1⟩, ⟨0, 1⟩, 0, 0⟩],
    [⟨1, 0, (2 ^ m.dim - 1) % 256⟩], .id⟩

/-- The loop shared by `even_mv` and `bivector_mv` (geometric_algebra.hpp:106-112 and 124-130): `n` iterations left, loop
counter `i`, next indeterminate `id` (`uint32_t`, wraps), element `e` (`uint32_t`, narrowed to `elem_t` when stored).
`next_even` is given enough iterations by `C08_nextEven`. -/
def spanLoop : Nat → Nat → Nat → Nat → Bld → Out Bld
  | 0, _, _, _, b => ok b
  | n + 1, i, id, e, b => do
    let b ← b.putInd ⟨id, ⟨1, 1⟩⟩
    let b ← b.putMon ⟨⟨1, 1⟩, ⟨1, 1⟩, 1, i⟩
    let b ← b.putTerm ⟨1, i, e % 256⟩
    match nextEven 2 e with
    | none => .ub
    | some e' => spanLoop n (i + 1) ((id + 1) % 2 ^ 32) e' b

/-- `algebra::even_mv` (geometric_algebra.hpp:99-114); `1 << (dim - 1)` is undefined for dimension 0. -/
def evenMv (m : Metric) (id : Nat) : Out Mv :=
  if m.dim = 0 then .ub
  else do
    let k := 2 ^ (m.dim - 1)
    let b ← spanLoop k 0 id 0 (Bld.empty ⟨k, k, k⟩)
    return b.finish

/-- `algebra::bivector_mv` (geometric_algebra.hpp:117-132). -/
def bivectorMv (m : Metric) (id : Nat) : Out Mv := do
  let k := m.dim * (m.dim - 1) / 2
  let b ← spanLoop k 0 id 3 (Bld.empty ⟨k, k, k⟩)
  return b.finish

end Gal
