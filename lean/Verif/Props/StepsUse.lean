import Verif.Props.Steps
import Verif.Props.Metric

/-!
# C60 in one lambda

`p % (a * b)` in one lambda, for two planes (expr.hpp:932-960, 1127-1131).
-/

namespace Gal

open Out

variable {K : Type} [Field K] [CharZero K]

/-- `[](auto p, auto a, auto b) { return p % (a * b); }` (expr.hpp:932-960, 1127-1131). -/
def sandwichProduct : Lam := .sandwich (.arg 0) (.gp (.arg 1) (.arg 2))

/-- The parameters of `p % r` in `sandwichProduct` (expr.hpp:1127-1131). -/
def productStep (k : Nat) : Lam := if k = 0 then .arg 0 else .gp (.arg 1) (.arg 2)

omit [CharZero K] in
/-- Entities with the same coefficients are converted to the same point. -/
theorem vgaPointOf_select {x y : Entity K} (h : ∀ e, e < 2 ^ 4 → x.select 4 e = y.select 4 e) : vgaPointOf x = vgaPointOf y := by
  unfold vgaPointOf
  rw [h 13 (by decide), h 11 (by decide), h 7 (by decide), h 14 (by decide)]

omit [CharZero K] in
/-- What three arguments stand for. -/
theorem three_stand {dim : Nat} {d : Nat → Int} {p a b : Arg K} {v0 v1 v2 : CliffordAlgebra (diagForm K dim d)} (h0 : p.StandsFor dim d 0 v0)
    (h1 : a.StandsFor dim d p.data.length v1) (h2 : b.StandsFor dim d (p.data.length + a.data.length) v2) :
    ∀ (k : Nat) (v : Arg K), [p, a, b][k]? = some v → v.StandsFor dim d (argOffset [p, a, b] k) (if k = 0 then v0 else if k = 1 then v1 else v2) := by
  intro k v hv
  match k with
  | 0 =>
    simp only [List.getElem?_cons_zero, Option.some.injEq] at hv
    subst hv
    exact h0
  | 1 =>
    simp only [List.getElem?_cons_succ, List.getElem?_cons_zero, Option.some.injEq] at hv
    subst hv
    simpa [argOffset, argsSize] using h1
  | 2 =>
    simp only [List.getElem?_cons_succ, List.getElem?_cons_zero, Option.some.injEq] at hv
    subst hv
    simpa [argOffset, argsSize] using h2
  | k + 3 => simp at hv

omit [CharZero K] in
/-- What two arguments stand for. -/
theorem two_stand {dim : Nat} {d : Nat → Int} {a b : Arg K} {v1 v2 : CliffordAlgebra (diagForm K dim d)} (h1 : a.StandsFor dim d 0 v1)
    (h2 : b.StandsFor dim d a.data.length v2) :
    ∀ (k : Nat) (v : Arg K), [a, b][k]? = some v → v.StandsFor dim d (argOffset [a, b] k) (if k = 0 then v1 else v2) := by
  intro k v hv
  match k with
  | 0 =>
    simp only [List.getElem?_cons_zero, Option.some.injEq] at hv
    subst hv
    exact h1
  | 1 =>
    simp only [List.getElem?_cons_succ, List.getElem?_cons_zero, Option.some.injEq] at hv
    subst hv
    simpa [argOffset, argsSize] using h2
  | k + 2 => simp at hv

/-- `p % (a * b)` in one lambda or in two. -/
theorem sandwich_product_steps {L : Type} (m : Metric) (hm : m.dim ≤ 8) (E : Env K) {p a b : Arg K} {v0 v1 v2 : CliffordAlgebra (diagForm K m.dim m.sq)}
    (h0 : p.StandsFor m.dim m.sq 0 v0) (h1 : ∀ off, off ≤ 2 ^ 31 → a.StandsFor m.dim m.sq off v1) (h2 : ∀ off, off ≤ 2 ^ 31 → b.StandsFor m.dim m.sq off v2)
    {y : Entity K} (hy : (productLam.compute m false E [a, b] >>= single) = ok y)
    (hs : p.data.length + a.data.length + y.elements.length ≤ 2 ^ 31)
    {p' a' b' : Arg L} {y' : Arg L} (hp' : (p.ie, p.data.length) = (p'.ie, p'.data.length)) (ha' : (a.ie, a.data.length) = (a'.ie, a'.data.length))
    (hb' : (b.ie, b.data.length) = (b'.ie, b'.data.length)) (hy' : (y.toArg.ie, y.toArg.data.length) = (y'.ie, y'.data.length))
    (hk1 : productLam.check m [a', b'] = true) (hk2 : sandwichLam.check m [p', y'] = true) (hk3 : sandwichProduct.check m [p', a', b'] = true) :
    ∃ x x', (sandwichProduct.compute m false E [p, a, b] >>= single) = ok x ∧ (sandwichLam.compute m false E [p, y.toArg] >>= single) = ok x' ∧
      ∀ e, e < 2 ^ m.dim → x.select m.dim e = x'.select m.dim e := by
  obtain ⟨D, hD⟩ := exists_isDual K m.dim hm m.sq
  have hst := result_stands m hm E [a, b] (two_stand (h1 0 (by decide)) (h2 _ (by omega))) hD productLam ⟨trivial, trivial⟩ (by simp [productLam, Lam.InRange])
    (args' := [a', b']) (by simp [ha', hb']) (by decide) hk1 (single_ok hy) (off := p.data.length) (by omega)
  obtain ⟨x, x', e1, e2, e3⟩ := C53_steps_partial m hm E [p, a, b] [p, y.toArg] (three_stand h0 (h1 _ (by omega)) (h2 _ (by omega))) hD sandwichLam productStep
    (by
      intro k v hv
      match k with
      | 0 =>
        simp only [List.getElem?_cons_zero, Option.some.injEq] at hv
        subst hv
        exact h0
      | 1 =>
        simp only [List.getElem?_cons_succ, List.getElem?_cons_zero, Option.some.injEq] at hv
        subst hv
        exact hst
      | k + 2 => simp at hv)
    (by simp [sandwichLam, Lam.InRange]) (by simp [sandwichLam, Lam.subst, productStep, Lam.InRange]) ⟨trivial, trivial⟩ ⟨trivial, trivial, trivial⟩
    (args' := [p', a', b']) (bs' := [p', y']) (by simp [hp', ha', hb']) (by simp [hp', hy']) (by decide) (by decide) hk2 hk3
  refine ⟨x, x', ?_, by rw [e2, ok_bind]; rfl, e3⟩
  have : sandwichLam.subst productStep = sandwichProduct := rfl
  rw [← this, e1, ok_bind]
  rfl

/-- **C60 (two reflections, one lambda)**: `p % (a * b)` for two planes is the point reflected in `b` and then in `a`. -/
theorem C60_reflections_one (E : Env K) (n n' x : Fin 3 → K) (d d' : K) (h0 : n ⬝ᵥ n ≠ 0) (h0' : n' ⬝ᵥ n' ≠ 0) :
    (sandwichProduct.compute pgaMetric false E [pointArg [x 0, x 1, x 2], planeArg [d, n 0, n 1, n 2], planeArg [d', n' 0, n' 1, n' 2]] >>= single >>= vgaPointOf) =
      ok (List.ofFn (mirror n d (mirror n' d' x))) := by
  obtain ⟨r, hr, hx⟩ := C60_reflections E n n' x d d' h0 h0'
  have hp := lam_polys pgaMetric E (args := [planeArg [d, n 0, n 1, n 2], planeArg [d', n' 0, n' 1, n' 2]]) (by rfl) planes_polys
  have he : r.toArg.ie = (⟨[0, 3, 5, 6, 9, 10, 12], [0, 0, 0, 0, 0, 0, 0]⟩ : Entity ℚ).toArg.ie ∧ r.toArg.data.length = 7 ∧ r.elements.length = 7 := by
    rw [hr] at hp
    rw [ok_inj.1 hp]
    exact ⟨rfl, rfl, rfl⟩
  obtain ⟨y, y', e1, e2, e3⟩ := sandwich_product_steps pgaMetric (by decide) E (p := pointArg [x 0, x 1, x 2])
    (a := planeArg [d, n 0, n 1, n 2]) (b := planeArg [d', n' 0, n' 1, n' 2]) (C61_vga_point _ _ _ _ (by decide))
    (fun off h => C61_pga_plane _ _ _ _ _ (by omega)) (fun off h => C61_pga_plane _ _ _ _ _ (by omega)) hr (by rw [he.2.2]; exact (by decide : 3 + 4 + 7 ≤ 2 ^ 31))
    (p' := pointArg (K := ℚ) [0, 0, 0]) (a' := planeArg [0, 0, 0, 0]) (b' := planeArg [0, 0, 0, 0])
    (y' := (⟨[0, 3, 5, 6, 9, 10, 12], [0, 0, 0, 0, 0, 0, 0]⟩ : Entity ℚ).toArg) rfl rfl rfl (by rw [he.1, he.2.1]; rfl)
    (by decide +kernel) (by decide +kernel) (by decide +kernel)
  rw [e2, ok_bind] at hx
  rw [e1, ok_bind, ← hx]
  exact vgaPointOf_select e3

/-- Two planes with an angle between them, and a point on neither. -/
example (E : Env ℚ) : (sandwichProduct.compute pgaMetric false E [pointArg [1, 0, 0], planeArg [0, 1, 1, 0], planeArg [0, 1, 0, 0]] >>= single >>= vgaPointOf) =
    ok [0, 1, 0] := by
  have h := C60_reflections_one E ![1, 1, 0] ![1, 0, 0] ![1, 0, 0] 0 0 (by simp) (by simp)
  simp only [Matrix.cons_val_zero, Matrix.cons_val_one, Matrix.cons_val] at h
  rw [h, ofFn3]
  simp only [mirror, dot3, Pi.sub_apply, Pi.smul_apply, smul_eq_mul, Matrix.cons_val_zero, Matrix.cons_val_one, Matrix.cons_val]
  norm_num

end Gal
