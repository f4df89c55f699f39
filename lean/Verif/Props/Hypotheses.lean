import Verif.Props.Entity
import Verif.Props.Crc
import Verif.Props.Refine
import Verif.Props.Reverse
import Verif.Props.Unique
import Verif.Props.LambdaFalse

/-!
# Cases that meet the hypotheses of theorems without an example beside them
-/

namespace Gal

open Out

/-- C29_scalar. -/
example : scalarIe 7 = constructIe 7 [0] := C29_scalar 7 (by decide)

/-- C07_crc32_range. -/
example : ∃ c, crc32 0xdeadbeef = some c ∧ c < 2 ^ 32 := C07_crc32_range _ (by decide)

/-- C07_crc32_surjective. -/
example : ∃ x, x < 2 ^ 32 ∧ crc32 x = some 0xcafebabe := C07_crc32_surjective _ (by decide)

/-- The tree of `a * ~b` (the operators are in expr.hpp:824-844, 932-960); the checksums do not matter for C35. -/
def productTree : Tree := .bin ⟨Op.gp, 9, 0, Rat32.one⟩ (.leaf ⟨Op.id, 1, 0, Rat32.one⟩) (.un ⟨Op.rev, 5, 0, Rat32.one⟩ (.leaf ⟨Op.id, 2, 3, Rat32.one⟩))

theorem productTree_shape : productTree.Shape := by
  simp [productTree, Tree.Shape, IsLeaf, IsUn, IsBin, Op.gp, Op.id, Op.rev]

/-- C35_postfix. -/
example {α : Type} (M : Ops α) (ie : Nat → Nat → α) : runNodes M 4 productTree.post ⟨gatherInputs ie productTree.post, [], [], 6⟩ =
    (do let v ← productTree.eval M ie []; return ⟨[], [], [v], 6⟩) := C35_postfix M ie [] 6 productTree_shape

/-- C35_reading. -/
example {α : Type} (M : Ops α) (ie : Nat → Nat → α) : productTree.eval M ie [] = productTree.eval M ie [] :=
  C35_reading M ie [] productTree_shape productTree_shape rfl

/-- C15_involution. -/
example : ∃ r, reverse (layout ⟨2, 5, 4⟩ exB) = ok r ∧ reverse r = ok (layout ⟨2, 5, 4⟩ exB) := by
  obtain ⟨r, h⟩ : ∃ r, reverse (layout ⟨2, 5, 4⟩ exB) = ok r := Out.exists_of_isOk (by decide +kernel)
  exact ⟨r, h, C15_involution (by decide +kernel) exB_canon.wf h⟩

/-- C23_zero_empty: the contrapositive for a multivector that is not empty. -/
example : ∃ ρ : Nat → ℚ, (∀ i, ρ i ≠ 0) ∧ ∃ e, coeff (intPow ρ) exB e ≠ 0 := by
  by_contra hn
  push Not at hn
  exact absurd (C23_zero_empty exB_canon hn) (by decide +kernel)

/-- C23_clifford: the contrapositive for two different multivectors. -/
example : ∃ ρ : Nat → ℚ, (∀ i, ρ i ≠ 0) ∧
    mvVal (intPow ρ) (cliffBlade ℚ 4 (Metric.sq pgaMetric)) exA ≠ mvVal (intPow ρ) (cliffBlade ℚ 4 (Metric.sq pgaMetric)) exB := by
  by_contra hn
  push Not at hn
  exact absurd (C23_clifford 4 (Metric.sq pgaMetric) exA_canon exB_canon (by decide +kernel) (by decide +kernel) hn) (by decide +kernel)

/-- C53_inner_false. -/
example : ∃ x, (Lam.sip (.arg 1) (.arg 0)).compute ⟨3, 0, 0⟩ false numEnv (bladeArgs 2 3) = ok [x] := by
  obtain ⟨w, D, x, h⟩ := C53_inner_false 2 3 (by decide) (by decide)
  exact ⟨x, h.2.2.1⟩

end Gal
