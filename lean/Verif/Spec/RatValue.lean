import Verif.Spec.Value
import Mathlib.Algebra.Algebra.Bilinear

/-!
# Specification: the rationals as an algebra for expressions

A concrete algebra for the examples and counterexamples of C33 and C34.
-/

namespace Gal

open Out

/-- The rationals as an algebra for expressions: argument `id` has the value `id + 2`. -/
def ratInterp : Interp ℚ where
  arg _ id := id + 2
  const o := o - 65539
  rev := LinearMap.id
  pd := LinearMap.id
  comp _ := LinearMap.id
  grd _ := LinearMap.id
  gp := LinearMap.mul ℚ ℚ
  lc := LinearMap.mul ℚ ℚ
  sip := LinearMap.mul ℚ ℚ
  ep := LinearMap.mul ℚ ℚ
  quot x y := x / y
  fn _ x := x
  rev_rev _ := rfl
  ep_assoc x y z := by simp [mul_assoc]
  quot_smul a b x y _ := by simp [mul_div_mul_comm]

/-- Argument number `i`. -/
def argE (i : Nat) : Rpne := entityExpr i i

theorem argE_meansU (i : Nat) : MeansU ratInterp (argE i) ((i : ℚ) + 2) := by
  refine Or.inr ⟨.leaf ⟨Op.id, i, i, ⟨0, 0⟩⟩, ?_, ?_, Rat32.one_wf, (by show (1 : Int) ≠ 0; decide), ?_, ?_⟩
  · unfold Tree.Good; exact Or.inl rfl
  · unfold Tree.post; rfl
  · unfold Tree.val; simp [argE, entityExpr, ratInterp]
  · intro x hx n hn
    simp only [Tree.terms, List.mem_singleton] at hx
    rw [hx, Tree.post, List.mem_singleton] at hn
    rw [hn]
    exact ⟨fun h => absurd h (by show Op.id ≠ Op.se; decide), fun h => absurd h (by unfold IsFun; dsimp only; decide)⟩

theorem MeansU.means {V : Type} [AddCommGroup V] [Module ℚ V] {I : Interp V} {e : Rpne} {v : V} (h : MeansU I e v) : Means I e v := by
  rcases h with h | ⟨t, g, p, w, n, v, _⟩
  · exact Or.inl h
  · exact Or.inr ⟨t, g, p, w, n, v⟩

theorem argE_means (i : Nat) : Means ratInterp (argE i) ((i : ℚ) + 2) := (argE_meansU i).means

/-- `k` times an expression. -/
def timesE (k : Int) (e : Rpne) : Rpne := ⟨e.nodes, ⟨k, 1⟩⟩

theorem timesE_means (k : Int) (hk : InI32 k) (h0 : k ≠ 0) (i : Nat) : Means ratInterp (timesE k (argE i)) (k * ((i : ℚ) + 2)) := by
  rcases argE_means i with ⟨h, _⟩ | ⟨t, g, p, _, _, hv⟩
  · cases h
  · refine Or.inr ⟨t, g, p, ⟨hk, by show InI32 1; decide, by show (0 : Int) < 1; decide⟩, h0, ?_⟩
    have h1 : (argE i).q.toQ = 1 := Rat32.toQ_one
    rw [h1, one_smul] at hv
    rw [← hv]; simp [timesE, Rat32.toQ]


theorem zero_means : Means ratInterp {} 0 := Or.inl ⟨rfl, rfl⟩

end Gal
