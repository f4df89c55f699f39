import Verif.Props.Coords
import Verif.Props.Named
import Mathlib.Analysis.SpecialFunctions.Trigonometric.Basic

/-!
# Properties C37–C39: geometry of points, planes, lines and rotors

Operands are described by their coefficient vectors, so the statements apply to inputs as well as to intermediate results.
Every statement assumes that the operations involved are defined (no overflow, no rounding).
-/

namespace Gal

open Out

variable {K : Type} [Field K] [CharZero K]

local notation "u" => unitAt K

/-- Expand a product of explicit coefficient vectors. -/
macro "expand_table" "[" ns:Lean.Parser.Tactic.simpLemma,* "]" : tactic => `(tactic|
  simp only [map_add, map_sub, map_smul, map_neg, LinearMap.add_apply, LinearMap.sub_apply, LinearMap.smul_apply,
    LinearMap.neg_apply, tableMul_unit, tableMap_unit, Int.cast_zero, Int.cast_one, Int.cast_neg, zero_smul, one_smul, neg_smul,
    smul_neg, smul_zero, map_zero, LinearMap.zero_apply, $ns,*])

/-! ## Inputs -/

theorem denotes_coords {a : Mv} {n : Nat} {na : NMv} {f : (Nat → K) → (Nat →₀ K)} (hr : Represents a na) (hc : CanonMv na)
    (he : ElemsLt (2 ^ n) na) (hp : ∀ t ∈ na, ∀ m ∈ t.mons, ∀ i ∈ m.inds, 0 ≤ i.deg.num)
    (hv : ∀ ρ, coeffVec ρ na = f ρ) : Coords K n a f :=
  ⟨na, hr, hc, he, fun _ t ht m hm i hi h => absurd h (by have := hp t ht m hm i hi; omega), hv⟩

/-- The coefficient vector of a vector. -/
noncomputable def vectorVec (x y z : K) : Nat →₀ K := x • u 1 + y • u 2 + z • u 4

/-- The coefficient vector of a Euclidean rotor. -/
noncomputable def rotorVec (c s x y z : K) : Nat →₀ K := c • u 0 - s • (x • u 6 - y • u 5 + z • u 3)

/-- The coefficient vector of a projective point with weight `w`. -/
noncomputable def pointVec (w x y z : K) : Nat →₀ K := w • u 14 - x • u 13 + y • u 11 - z • u 7

/-- The coefficient vector of a plane. -/
noncomputable def planeVec (d x y z : K) : Nat →₀ K := d • u 1 + x • u 2 + y • u 4 + z • u 8

/-- The coefficient vector of a conformal point in the null basis. -/
noncomputable def conformalVec (x y z : K) : Nat →₀ K :=
  x • u 1 + y • u 2 + z • u 4 + u 8 + ((1 / 2 : K) * (x ^ 2 + y ^ 2 + z ^ 2)) • u 16

theorem coords_vector {id : Nat} (h : id + 3 ≤ 2 ^ 32) :
    Coords K 3 (vgaVectorIe id) fun ρ => vectorVec (ρ id) (ρ (id + 1)) (ρ (id + 2)) := by
  refine denotes_coords (constructIe_packed id [1, 2, 4] h).represents (genericN_canon _ (by decide) _)
    (by simp [ElemsLt, genericN]) (by simp [genericN, Rat32.one]) fun ρ => ?_
  unfold coeffVec vectorVec
  mv_value genericN
  abel

theorem coords_rotor {id : Nat} (h : id + 5 ≤ 2 ^ 32) :
    Coords K 3 (vgaRotorIe id) fun ρ => rotorVec (ρ id) (ρ (id + 1)) (ρ (id + 2)) (ρ (id + 3)) (ρ (id + 4)) := by
  refine denotes_coords (vgaRotor_packed h).represents (vgaRotor_canon id)
    (by simp [ElemsLt, vgaRotorN]) (by simp [vgaRotorN, Rat32.one]) fun ρ => ?_
  unfold coeffVec rotorVec
  mv_value vgaRotorN
  module

theorem coords_point {id : Nat} (h : id + 3 ≤ 2 ^ 32) :
    Coords K 4 (vgaPointIe id) fun ρ => pointVec 1 (ρ id) (ρ (id + 1)) (ρ (id + 2)) := by
  refine denotes_coords (vgaPoint_represents h) (vgaPoint_canon id)
    (by simp [ElemsLt, vgaPointN]) (by simp [vgaPointN, Rat32.one]) fun ρ => ?_
  unfold coeffVec pointVec
  mv_value vgaPointN
  module

theorem coords_plane {id : Nat} (h : id + 4 ≤ 2 ^ 32) :
    Coords K 4 (pgaPlaneIe id) fun ρ => planeVec (ρ id) (ρ (id + 1)) (ρ (id + 2)) (ρ (id + 3)) := by
  refine denotes_coords (constructIe_packed id [1, 2, 4, 8] h).represents (genericN_canon _ (by decide) _)
    (by simp [ElemsLt, genericN]) (by simp [genericN, Rat32.one]) fun ρ => ?_
  unfold coeffVec planeVec
  mv_value genericN
  abel

theorem coords_conformal {id : Nat} (h : id + 3 ≤ 2 ^ 32) :
    Coords K 5 (cgaPointIe id) fun ρ => conformalVec (ρ id) (ρ (id + 1)) (ρ (id + 2)) := by
  refine denotes_coords (cgaPoint_represents h) (cgaPoint_canon id)
    (by simp [ElemsLt, cgaPointN]) (by simp [cgaPointN, Rat32.one, Rat32.two]) fun ρ => ?_
  unfold coeffVec conformalVec
  mv_value cgaPointN
  module

/-! ## C37: conformal points -/

theorem conTable1 : conProduct cgaMetric 1 1 = (0, 1) ∧ conProduct cgaMetric 1 2 = (0, 0) ∧
    conProduct cgaMetric 1 4 = (0, 0) ∧ conProduct cgaMetric 1 8 = (0, 0) ∧ conProduct cgaMetric 1 16 = (0, 0) ∧
    conProduct cgaMetric 2 1 = (0, 0) ∧ conProduct cgaMetric 2 2 = (0, 1) ∧ conProduct cgaMetric 2 4 = (0, 0) ∧
    conProduct cgaMetric 2 8 = (0, 0) ∧ conProduct cgaMetric 2 16 = (0, 0) ∧ conProduct cgaMetric 4 1 = (0, 0) ∧
    conProduct cgaMetric 4 2 = (0, 0) := by decide +kernel

theorem conTable2 : conProduct cgaMetric 4 4 = (0, 1) ∧ conProduct cgaMetric 4 8 = (0, 0) ∧
    conProduct cgaMetric 4 16 = (0, 0) ∧ conProduct cgaMetric 8 1 = (0, 0) ∧ conProduct cgaMetric 8 2 = (0, 0) ∧
    conProduct cgaMetric 8 4 = (0, 0) ∧ conProduct cgaMetric 8 8 = (0, 1) ∧ conProduct cgaMetric 8 16 = (0, 0) ∧
    conProduct cgaMetric 16 1 = (0, 0) ∧ conProduct cgaMetric 16 2 = (0, 0) ∧ conProduct cgaMetric 16 4 = (0, 0) ∧
    conProduct cgaMetric 16 8 = (0, 0) := by decide +kernel

theorem conTable3 : conProduct cgaMetric 16 16 = (0, -1) := by decide +kernel

/-- The null-basis coefficient vector of a conformal point, in the natural basis. -/
theorem natural_conformal (x y z : K) : tableMap K (natTarget (K := K) 5 (unitAt K)) (conformalVec x y z) =
    x • u 1 + y • u 2 + z • u 4 + ((1 / 2 : K) * (1 - (x ^ 2 + y ^ 2 + z ^ 2))) • u 8 +
      ((1 / 2 : K) * (1 + (x ^ 2 + y ^ 2 + z ^ 2))) • u 16 := by
  unfold conformalVec
  expand_table []
  have t1 : natTarget (K := K) 5 (unitAt K) 1 = u 1 := by simp [natTarget]
  have t2 : natTarget (K := K) 5 (unitAt K) 2 = u 2 := by simp [natTarget]
  have t4 : natTarget (K := K) 5 (unitAt K) 4 = u 4 := by simp [natTarget]
  have t8 : natTarget (K := K) 5 (unitAt K) 8 = (2 : K)⁻¹ • u 8 + (2 : K)⁻¹ • u 16 := by simp [natTarget]
  have t16 : natTarget (K := K) 5 (unitAt K) 16 = - u 8 + u 16 := by simp [natTarget]
  rw [t1, t2, t4, t8, t16]
  module

/-- `p >> q` on conformal points given in the null basis (the conversion is done by the evaluator, dfa.hpp:621-628). -/
def conformalContract (p q : Mv) : Out Mv := do
  let p ← toNaturalBasis 5 p
  let q ← toNaturalBasis 5 q
  product (conProduct cgaMetric) p q

/-- C37: the contraction of two conformal points is the scalar `-½ |p - q|²`, for all coordinates; it has no other
component.  The result is the same in the null basis. -/
theorem C37_distance {p q r : Mv} {x y z x' y' z' : (Nat → K) → K} (hp : Coords K 5 p fun ρ => conformalVec (x ρ) (y ρ) (z ρ))
    (hq : Coords K 5 q fun ρ => conformalVec (x' ρ) (y' ρ) (z' ρ)) (h : conformalContract p q = ok r) :
    Coords K 5 r (fun ρ => (-(1 / 2 : K) * ((x ρ - x' ρ) ^ 2 + (y ρ - y' ρ) ^ 2 + (z ρ - z' ρ) ^ 2)) • u 0) ∧
    ∀ r', toNullBasis 5 r = ok r' →
      Coords K 5 r' fun ρ => (-(1 / 2 : K) * ((x ρ - x' ρ) ^ 2 + (y ρ - y' ρ) ^ 2 + (z ρ - z' ρ) ^ 2)) • u 0 := by
  unfold conformalContract at h
  simp only [bind_eq_ok] at h
  obtain ⟨p1, h1, q1, h2, h3⟩ := h
  have c1 := coords_natural (by decide) (by decide) hp h1
  have c2 := coords_natural (by decide) (by decide) hq h2
  have c3 := coords_con cgaMetric (by decide) c1 c2 h3
  have hr : Coords K 5 r (fun ρ => (-(1 / 2 : K) * ((x ρ - x' ρ) ^ 2 + (y ρ - y' ρ) ^ 2 + (z ρ - z' ρ) ^ 2)) • u 0) := by
    refine c3.congr fun ρ => ?_
    rw [natural_conformal, natural_conformal]
    expand_table [conTable1, conTable2, conTable3]
    module
  refine ⟨hr, fun r' h' => (coords_null (by decide) (by decide) hr h').congr fun ρ => ?_⟩
  have t0 : nullTarget (K := K) 5 (unitAt K) 0 = u 0 := by simp [nullTarget]
  rw [map_smul, tableMap_unit, t0]

/-- C37: `p >> p` is empty: the simplifier cancels every term, for every id. -/
theorem C37_null {id : Nat} (h : id + 3 ≤ 2 ^ 32) {r : Mv} (hr : conformalContract (cgaPointIe id) (cgaPointIe id) = ok r) :
    Represents r [] := by
  obtain ⟨nr, h1, h2, _, h4⟩ := (C37_distance (K := ℚ) (coords_conformal h) (coords_conformal h) hr).1.coeffs
  have : nr = [] := C23_zero_empty h2 fun ρ _ e => by rw [h4]; simp
  exact this ▸ h1

example : ∃ r, conformalContract (cgaPointIe 4) (cgaPointIe 4) = ok r := Out.exists_of_isOk (by decide +kernel)

example : ∃ r, conformalContract (cgaPointIe 4) (cgaPointIe 9) = ok r ∧ ∃ r', toNullBasis 5 r = ok r' :=
  Out.chain_of_isOk (by decide +kernel)

/-! ## C38: projective points and planes -/

theorem extTable1 : extProduct 1 1 = (0, 0) ∧ extProduct 1 2 = (3, 1) ∧ extProduct 1 4 = (5, 1) ∧
    extProduct 1 8 = (9, 1) ∧ extProduct 2 1 = (3, -1) ∧ extProduct 2 2 = (0, 0) ∧ extProduct 2 4 = (6, 1) ∧
    extProduct 2 8 = (10, 1) ∧ extProduct 4 1 = (5, -1) ∧ extProduct 4 2 = (6, -1) ∧ extProduct 4 4 = (0, 0) ∧
    extProduct 4 8 = (12, 1) := by decide +kernel

theorem extTable2 : extProduct 8 1 = (9, -1) ∧ extProduct 8 2 = (10, -1) ∧ extProduct 8 4 = (12, -1) ∧
    extProduct 8 8 = (0, 0) ∧ extProduct 3 1 = (0, 0) ∧ extProduct 3 2 = (0, 0) ∧ extProduct 3 4 = (7, 1) ∧
    extProduct 3 8 = (11, 1) ∧ extProduct 5 1 = (0, 0) ∧ extProduct 5 2 = (7, -1) ∧ extProduct 5 4 = (0, 0) ∧
    extProduct 5 8 = (13, 1) := by decide +kernel

theorem extTable3 : extProduct 6 1 = (7, 1) ∧ extProduct 6 2 = (0, 0) ∧ extProduct 6 4 = (0, 0) ∧
    extProduct 6 8 = (14, 1) ∧ extProduct 9 1 = (0, 0) ∧ extProduct 9 2 = (11, -1) ∧ extProduct 9 4 = (13, -1) ∧
    extProduct 9 8 = (0, 0) ∧ extProduct 10 1 = (11, 1) ∧ extProduct 10 2 = (0, 0) ∧ extProduct 10 4 = (14, -1) ∧
    extProduct 10 8 = (0, 0) := by decide +kernel

theorem extTable4 : extProduct 12 1 = (13, 1) ∧ extProduct 12 2 = (14, 1) ∧ extProduct 12 4 = (0, 0) ∧
    extProduct 12 8 = (0, 0) := by decide +kernel

theorem dualTab : poincareComplement 1 4 = (14, 1) ∧ poincareComplement 2 4 = (13, -1) ∧ poincareComplement 3 4 = (12, 1) ∧
    poincareComplement 4 4 = (11, 1) ∧ poincareComplement 5 4 = (10, -1) ∧ poincareComplement 6 4 = (9, 1) ∧
    poincareComplement 7 4 = (8, 1) ∧ poincareComplement 8 4 = (7, -1) ∧ poincareComplement 9 4 = (6, 1) ∧
    poincareComplement 10 4 = (5, -1) ∧ poincareComplement 11 4 = (4, -1) ∧ poincareComplement 12 4 = (3, 1) ∧
    poincareComplement 13 4 = (2, 1) ∧ poincareComplement 14 4 = (1, -1) := by decide +kernel

/-- `a & b`, which the library writes as `!(!a ^ !b)` (expr.hpp:1053-1057). -/
def joinMv (a b : Mv) : Out Mv := do
  let a ← poincareDual 4 a
  let b ← poincareDual 4 b
  let c ← product extProduct a b
  poincareDual 4 c

theorem coords_join {a b r : Mv} {f g : (Nat → K) → (Nat →₀ K)} (ha : Coords K 4 a f) (hb : Coords K 4 b g) (h : joinMv a b = ok r) :
    Coords K 4 r fun ρ => tableMap K (dualTable K 4) (tableMul K extProduct (tableMap K (dualTable K 4) (f ρ))
      (tableMap K (dualTable K 4) (g ρ))) := by
  unfold joinMv at h
  simp only [bind_eq_ok] at h
  obtain ⟨a1, h1, b1, h2, c, h3, h4⟩ := h
  exact coords_dual (by decide) (coords_ext (by decide) (coords_dual (by decide) ha h1) (coords_dual (by decide) hb h2) h3) h4

/-- The coefficient vector of the line with direction `d` and moment `m`:
`mx e01 + my e02 + mz e03 + dz e12 - dy e13 + dx e23`. -/
noncomputable def lineVec (dx dy dz mx my mz : K) : Nat →₀ K :=
  mx • u 3 + my • u 5 + mz • u 9 + dz • u 6 - dy • u 10 + dx • u 12

section join

variable {a b c r s : Mv} {w x y z w' x' y' z' w'' x'' y'' z'' : (Nat → K) → K}

/-- C38: the join of two points is the line with direction `w p' - w' p` and moment `p × p'`. -/
theorem C38_line (ha : Coords K 4 a fun ρ => pointVec (w ρ) (x ρ) (y ρ) (z ρ))
    (hb : Coords K 4 b fun ρ => pointVec (w' ρ) (x' ρ) (y' ρ) (z' ρ)) (h : joinMv a b = ok r) :
    Coords K 4 r fun ρ => lineVec (w ρ * x' ρ - w' ρ * x ρ) (w ρ * y' ρ - w' ρ * y ρ) (w ρ * z' ρ - w' ρ * z ρ)
      (y ρ * z' ρ - z ρ * y' ρ) (z ρ * x' ρ - x ρ * z' ρ) (x ρ * y' ρ - y ρ * x' ρ) := by
  refine (coords_join ha hb h).congr fun ρ => ?_
  unfold pointVec lineVec
  expand_table [extTable1, extTable2, extTable3, extTable4, dualTable, dualTab]
  module

/-- C38: the join of three Euclidean points is the plane with normal `-(p' - p) × (p'' - p)` through `p`. -/
theorem C38_plane (ha : Coords K 4 a fun ρ => pointVec 1 (x ρ) (y ρ) (z ρ))
    (hb : Coords K 4 b fun ρ => pointVec 1 (x' ρ) (y' ρ) (z' ρ))
    (hc : Coords K 4 c fun ρ => pointVec 1 (x'' ρ) (y'' ρ) (z'' ρ)) (h : joinMv a b = ok r) (h' : joinMv r c = ok s) :
    ∃ nx ny nz : (Nat → K) → K,
      (∀ ρ, nx ρ = (y' ρ - y ρ) * (z'' ρ - z ρ) - (z' ρ - z ρ) * (y'' ρ - y ρ) ∧
        ny ρ = (z' ρ - z ρ) * (x'' ρ - x ρ) - (x' ρ - x ρ) * (z'' ρ - z ρ) ∧
        nz ρ = (x' ρ - x ρ) * (y'' ρ - y ρ) - (y' ρ - y ρ) * (x'' ρ - x ρ)) ∧
      Coords K 4 s fun ρ => planeVec (nx ρ * x ρ + ny ρ * y ρ + nz ρ * z ρ) (-nx ρ) (-ny ρ) (-nz ρ) := by
  refine ⟨_, _, _, fun ρ => ⟨rfl, rfl, rfl⟩, ?_⟩
  refine (coords_join (C38_line ha hb h) hc h').congr fun ρ => ?_
  unfold pointVec lineVec planeVec
  expand_table [extTable1, extTable2, extTable3, extTable4, dualTable, dualTab]
  module

/-- C38 (README): the join of three points is a plane `d + a x + b y + c z = 0` that contains all three points, and it is
zero when the third point lies on the line through the other two. -/
theorem C38_incidence (ha : Coords K 4 a fun ρ => pointVec 1 (x ρ) (y ρ) (z ρ))
    (hb : Coords K 4 b fun ρ => pointVec 1 (x' ρ) (y' ρ) (z' ρ))
    (hc : Coords K 4 c fun ρ => pointVec 1 (x'' ρ) (y'' ρ) (z'' ρ)) (h : joinMv a b = ok r) (h' : joinMv r c = ok s) :
    ∃ D A B C : (Nat → K) → K, (Coords K 4 s fun ρ => planeVec (D ρ) (A ρ) (B ρ) (C ρ)) ∧
      (∀ ρ, D ρ + A ρ * x ρ + B ρ * y ρ + C ρ * z ρ = 0 ∧ D ρ + A ρ * x' ρ + B ρ * y' ρ + C ρ * z' ρ = 0 ∧
        D ρ + A ρ * x'' ρ + B ρ * y'' ρ + C ρ * z'' ρ = 0) ∧
      ∀ ρ (t : K), (x'' ρ = x ρ + t * (x' ρ - x ρ) ∧ y'' ρ = y ρ + t * (y' ρ - y ρ) ∧ z'' ρ = z ρ + t * (z' ρ - z ρ)) →
        D ρ = 0 ∧ A ρ = 0 ∧ B ρ = 0 ∧ C ρ = 0 := by
  obtain ⟨nx, ny, nz, e, hs⟩ := C38_plane ha hb hc h h'
  refine ⟨_, _, _, _, hs, fun ρ => ?_, fun ρ t ht => ?_⟩
  · obtain ⟨e1, e2, e3⟩ := e ρ
    rw [e1, e2, e3]
    exact ⟨by ring, by ring, by ring⟩
  · obtain ⟨e1, e2, e3⟩ := e ρ
    obtain ⟨t1, t2, t3⟩ := ht
    rw [e1, e2, e3, t1, t2, t3]
    exact ⟨by ring, by ring, by ring, by ring⟩

/-- C38: the meet `p ^ q ^ r` of three planes is the point on all three (Cramer's rule). -/
theorem C38_meet {d a' b' c' d' d'' e f g e' f' g' : (Nat → K) → K} (ha : Coords K 4 a fun ρ => planeVec (d ρ) (a' ρ) (b' ρ) (c' ρ))
    (hb : Coords K 4 b fun ρ => planeVec (d' ρ) (e ρ) (f ρ) (g ρ)) (hc : Coords K 4 c fun ρ => planeVec (d'' ρ) (e' ρ) (f' ρ) (g' ρ))
    (h : product extProduct a b = ok r) (h' : product extProduct r c = ok s) :
    ∃ W X Y Z : (Nat → K) → K, (Coords K 4 s fun ρ => pointVec (W ρ) (X ρ) (Y ρ) (Z ρ)) ∧
      (∀ ρ, W ρ = a' ρ * (f ρ * g' ρ - g ρ * f' ρ) - b' ρ * (e ρ * g' ρ - g ρ * e' ρ) + c' ρ * (e ρ * f' ρ - f ρ * e' ρ)) ∧
      ∀ ρ, d ρ * W ρ + a' ρ * X ρ + b' ρ * Y ρ + c' ρ * Z ρ = 0 ∧ d' ρ * W ρ + e ρ * X ρ + f ρ * Y ρ + g ρ * Z ρ = 0 ∧
        d'' ρ * W ρ + e' ρ * X ρ + f' ρ * Y ρ + g' ρ * Z ρ = 0 := by
  refine ⟨fun ρ => a' ρ * (f ρ * g' ρ - g ρ * f' ρ) - b' ρ * (e ρ * g' ρ - g ρ * e' ρ) + c' ρ * (e ρ * f' ρ - f ρ * e' ρ),
    fun ρ => -(d ρ * (f ρ * g' ρ - g ρ * f' ρ) - b' ρ * (d' ρ * g' ρ - g ρ * d'' ρ) + c' ρ * (d' ρ * f' ρ - f ρ * d'' ρ)),
    fun ρ => d ρ * (e ρ * g' ρ - g ρ * e' ρ) - a' ρ * (d' ρ * g' ρ - g ρ * d'' ρ) + c' ρ * (d' ρ * e' ρ - e ρ * d'' ρ),
    fun ρ => -(d ρ * (e ρ * f' ρ - f ρ * e' ρ) - a' ρ * (d' ρ * f' ρ - f ρ * d'' ρ) + b' ρ * (d' ρ * e' ρ - e ρ * d'' ρ)),
    ?_, fun ρ => rfl, fun ρ => ⟨by ring, by ring, by ring⟩⟩
  refine (coords_ext (by decide) (coords_ext (by decide) ha hb h) hc h').congr fun ρ => ?_
  unfold pointVec planeVec
  expand_table [extTable1, extTable2, extTable3, extTable4]
  module

end join

example : ∃ r, joinMv (vgaPointIe 0) (vgaPointIe 3) = ok r ∧ ∃ s, joinMv r (vgaPointIe 6) = ok s :=
  Out.chain_of_isOk (by decide +kernel)

example : ∃ r, product extProduct (pgaPlaneIe 0) (pgaPlaneIe 4) = ok r ∧ ∃ s, product extProduct r (pgaPlaneIe 8) = ok s :=
  Out.chain_of_isOk (by decide +kernel)

/-- The line constructor does not return Plücker coordinates: applied to the line with direction `d` and moment `m` (the
join of two points by C38_line) it returns the negated direction but the moment `(-mx, my, -mz)`. -/
theorem C38_line_constructor_false (dx dy dz mx my mz : K) :
    pgaLineOf ⟨[3, 5, 6, 9, 10, 12], [mx, my, dz, mz, -dy, dx]⟩ = ok [-dx, -dy, -dz, -mx, my, -mz] := by
  unfold pgaLineOf
  rw [select_of (k := 5) (by decide) (by decide) rfl rfl, select_of (k := 4) (by decide) (by decide) rfl rfl,
    select_of (k := 2) (by decide) (by decide) rfl rfl, select_of (k := 0) (by decide) (by decide) rfl rfl,
    select_of (k := 1) (by decide) (by decide) rfl rfl, select_of (k := 3) (by decide) (by decide) rfl rfl]
  rfl

/-! ## C39: rotations and reflections -/

theorem geoTable0 : geoProduct vgaMetric 0 0 = (0, 1) ∧ geoProduct vgaMetric 3 3 = (0, -1) ∧ geoProduct vgaMetric 5 5 = (0, -1) ∧
    geoProduct vgaMetric 6 6 = (0, -1) := by decide +kernel

theorem geoTable1 : geoProduct vgaMetric 0 1 = (1, 1) ∧ geoProduct vgaMetric 0 2 = (2, 1) ∧
    geoProduct vgaMetric 0 4 = (4, 1) ∧ geoProduct vgaMetric 3 1 = (2, -1) ∧ geoProduct vgaMetric 3 2 = (1, 1) ∧
    geoProduct vgaMetric 3 4 = (7, 1) ∧ geoProduct vgaMetric 5 1 = (4, -1) ∧ geoProduct vgaMetric 5 2 = (7, -1) ∧
    geoProduct vgaMetric 5 4 = (1, 1) ∧ geoProduct vgaMetric 6 1 = (7, 1) ∧ geoProduct vgaMetric 6 2 = (4, -1) ∧
    geoProduct vgaMetric 6 4 = (2, 1) := by decide +kernel

theorem geoTable2 : geoProduct vgaMetric 1 0 = (1, 1) ∧ geoProduct vgaMetric 1 3 = (2, 1) ∧
    geoProduct vgaMetric 1 5 = (4, 1) ∧ geoProduct vgaMetric 1 6 = (7, 1) ∧ geoProduct vgaMetric 2 0 = (2, 1) ∧
    geoProduct vgaMetric 2 3 = (1, -1) ∧ geoProduct vgaMetric 2 5 = (7, -1) ∧ geoProduct vgaMetric 2 6 = (4, 1) ∧
    geoProduct vgaMetric 4 0 = (4, 1) ∧ geoProduct vgaMetric 4 3 = (7, 1) ∧ geoProduct vgaMetric 4 5 = (1, -1) ∧
    geoProduct vgaMetric 4 6 = (2, -1) := by decide +kernel

theorem geoTable3 : geoProduct vgaMetric 7 0 = (7, 1) ∧ geoProduct vgaMetric 7 3 = (4, -1) ∧
    geoProduct vgaMetric 7 5 = (2, 1) ∧ geoProduct vgaMetric 7 6 = (1, -1) ∧ geoProduct vgaMetric 1 1 = (0, 1) ∧
    geoProduct vgaMetric 1 2 = (3, 1) ∧ geoProduct vgaMetric 1 4 = (5, 1) ∧ geoProduct vgaMetric 2 1 = (3, -1) ∧
    geoProduct vgaMetric 2 2 = (0, 1) ∧ geoProduct vgaMetric 2 4 = (6, 1) ∧ geoProduct vgaMetric 4 1 = (5, -1) ∧
    geoProduct vgaMetric 4 2 = (6, -1) := by decide +kernel

theorem geoTable4 : geoProduct vgaMetric 4 4 = (0, 1) := by decide +kernel

theorem gradeTab : gradeOf 3 0 = 0 ∧ gradeOf 3 1 = 1 ∧ gradeOf 3 2 = 1 ∧ gradeOf 3 4 = 1 ∧ gradeOf 3 3 = 2 ∧ gradeOf 3 5 = 2 ∧
    gradeOf 3 6 = 2 := by decide +kernel

theorem revTab : reverseTable K 3 0 = u 0 ∧ reverseTable K 3 1 = u 1 ∧ reverseTable K 3 2 = u 2 ∧ reverseTable K 3 4 = u 4 ∧
    reverseTable K 3 3 = - u 3 ∧ reverseTable K 3 5 = - u 5 ∧ reverseTable K 3 6 = - u 6 := by
  simp [reverseTable, gradeTab]

/-- `a % b`, which the library writes as `b * a * ~b` (expr.hpp:1127-1131). -/
def sandwichMv (m : Metric) (a b : Mv) : Out Mv := do
  let x ← product (geoProduct m) b a
  let br ← reverse b
  product (geoProduct m) x br

section rotor

variable {a b r : Mv} {c s l m n x y z : (Nat → K) → K}

/-- C39: the sandwich of a vector `v` by the rotor with cosine `c`, sine `s` and axis `n` is the vector
`(c² - s² |n|²) v + 2 c s (n × v) + 2 s² (n · v) n`, for all parameters. -/
theorem C39_rotate (ha : Coords K 3 a fun ρ => vectorVec (x ρ) (y ρ) (z ρ))
    (hb : Coords K 3 b fun ρ => rotorVec (c ρ) (s ρ) (l ρ) (m ρ) (n ρ)) (hp : ∃ nb, Packed b nb) (h : sandwichMv vgaMetric a b = ok r) :
    Coords K 3 r fun ρ =>
      let A := c ρ ^ 2 - s ρ ^ 2 * (l ρ ^ 2 + m ρ ^ 2 + n ρ ^ 2)
      let B := 2 * c ρ * s ρ
      let C := 2 * s ρ ^ 2 * (l ρ * x ρ + m ρ * y ρ + n ρ * z ρ)
      vectorVec (A * x ρ + B * (m ρ * z ρ - n ρ * y ρ) + C * l ρ) (A * y ρ + B * (n ρ * x ρ - l ρ * z ρ) + C * m ρ)
        (A * z ρ + B * (l ρ * y ρ - m ρ * x ρ) + C * n ρ) := by
  unfold sandwichMv at h
  simp only [bind_eq_ok] at h
  obtain ⟨p, h1, q, h2, h3⟩ := h
  refine (coords_geo vgaMetric (by decide) (coords_geo vgaMetric (by decide) hb ha h1) (coords_reverse (by decide) hb hp h2) h3).congr
    fun ρ => ?_
  unfold vectorVec rotorVec
  expand_table [show vgaMetric.dim = 3 from rfl, revTab, geoTable1, geoTable2, geoTable3, geoTable4]
  module

/-- C39: if the rotor has unit parameters (`c² + s² = 1`, unit axis), the sandwich of a vector keeps its length. -/
theorem C39_isometry (ha : Coords K 3 a fun ρ => vectorVec (x ρ) (y ρ) (z ρ))
    (hb : Coords K 3 b fun ρ => rotorVec (c ρ) (s ρ) (l ρ) (m ρ) (n ρ)) (hp : ∃ nb, Packed b nb) (h : sandwichMv vgaMetric a b = ok r) :
    ∃ x' y' z' : (Nat → K) → K, (Coords K 3 r fun ρ => vectorVec (x' ρ) (y' ρ) (z' ρ)) ∧
      ∀ ρ, c ρ ^ 2 + s ρ ^ 2 = 1 → l ρ ^ 2 + m ρ ^ 2 + n ρ ^ 2 = 1 →
        x' ρ ^ 2 + y' ρ ^ 2 + z' ρ ^ 2 = x ρ ^ 2 + y ρ ^ 2 + z ρ ^ 2 := by
  refine ⟨_, _, _, C39_rotate ha hb hp h, fun ρ h1 h2 => ?_⟩
  have h3 : c ρ ^ 2 = 1 - s ρ ^ 2 := by linear_combination h1
  have h4 : l ρ ^ 2 = 1 - m ρ ^ 2 - n ρ ^ 2 := by linear_combination h2
  generalize c ρ = c at *; generalize s ρ = s at *; generalize l ρ = l at *; generalize m ρ = m at *; generalize n ρ = n at *
  generalize x ρ = x; generalize y ρ = y; generalize z ρ = z
  have key : ∀ N : K, N = l ^ 2 + m ^ 2 + n ^ 2 →
      (((c ^ 2 - s ^ 2 * N) * x + 2 * c * s * (m * z - n * y) + 2 * s ^ 2 * (l * x + m * y + n * z) * l) ^ 2 +
      ((c ^ 2 - s ^ 2 * N) * y + 2 * c * s * (n * x - l * z) + 2 * s ^ 2 * (l * x + m * y + n * z) * m) ^ 2 +
      ((c ^ 2 - s ^ 2 * N) * z + 2 * c * s * (l * y - m * x) + 2 * s ^ 2 * (l * x + m * y + n * z) * n) ^ 2) =
      (c ^ 2 + s ^ 2 * N) ^ 2 * (x ^ 2 + y ^ 2 + z ^ 2) := by rintro N rfl; ring
  rw [key _ rfl, h2, mul_one, h1]; ring

/-- C39: the sandwich of a vector `v` by a vector `n` is `2 (n · v) n - |n|² v`: the part along `n` is kept and the part orthogonal to
it is negated, both scaled by `|n|²`. -/
theorem C39_reflect (ha : Coords K 3 a fun ρ => vectorVec (x ρ) (y ρ) (z ρ))
    (hb : Coords K 3 b fun ρ => vectorVec (l ρ) (m ρ) (n ρ)) (hp : ∃ nb, Packed b nb) (h : sandwichMv vgaMetric a b = ok r) :
    Coords K 3 r fun ρ =>
      let D := 2 * (l ρ * x ρ + m ρ * y ρ + n ρ * z ρ)
      let N := l ρ ^ 2 + m ρ ^ 2 + n ρ ^ 2
      vectorVec (D * l ρ - N * x ρ) (D * m ρ - N * y ρ) (D * n ρ - N * z ρ) := by
  unfold sandwichMv at h
  simp only [bind_eq_ok] at h
  obtain ⟨p, h1, q, h2, h3⟩ := h
  refine (coords_geo vgaMetric (by decide) (coords_geo vgaMetric (by decide) hb ha h1) (coords_reverse (by decide) hb hp h2) h3).congr
    fun ρ => ?_
  unfold vectorVec
  expand_table [show vgaMetric.dim = 3 from rfl, revTab, geoTable0, geoTable1, geoTable2, geoTable3, geoTable4]
  module

end rotor

/-- C39 over the reals: the sandwich of a vector by the rotor of half angle `θ/2` about the unit axis `n` is the rotation of the vector
by `θ` about `n` (Rodrigues' formula). -/
theorem C39_rodrigues {a b r : Mv} {t l m n x y z : (Nat → ℝ) → ℝ} (ha : Coords ℝ 3 a fun ρ => vectorVec (x ρ) (y ρ) (z ρ))
    (hb : Coords ℝ 3 b fun ρ => rotorVec (Real.cos (t ρ / 2)) (Real.sin (t ρ / 2)) (l ρ) (m ρ) (n ρ)) (hp : ∃ nb, Packed b nb)
    (h : sandwichMv vgaMetric a b = ok r) :
    ∃ x' y' z' : (Nat → ℝ) → ℝ, (Coords ℝ 3 r fun ρ => vectorVec (x' ρ) (y' ρ) (z' ρ)) ∧
      ∀ ρ, l ρ ^ 2 + m ρ ^ 2 + n ρ ^ 2 = 1 →
        let d := (1 - Real.cos (t ρ)) * (l ρ * x ρ + m ρ * y ρ + n ρ * z ρ)
        x' ρ = Real.cos (t ρ) * x ρ + Real.sin (t ρ) * (m ρ * z ρ - n ρ * y ρ) + d * l ρ ∧
        y' ρ = Real.cos (t ρ) * y ρ + Real.sin (t ρ) * (n ρ * x ρ - l ρ * z ρ) + d * m ρ ∧
        z' ρ = Real.cos (t ρ) * z ρ + Real.sin (t ρ) * (l ρ * y ρ - m ρ * x ρ) + d * n ρ := by
  refine ⟨_, _, _, C39_rotate ha hb hp h, fun ρ h1 => ?_⟩
  have hc : Real.cos (t ρ) = Real.cos (t ρ / 2) ^ 2 - Real.sin (t ρ / 2) ^ 2 := by
    rw [← Real.cos_two_mul']; congr 1; ring
  have hs : Real.sin (t ρ) = 2 * Real.cos (t ρ / 2) * Real.sin (t ρ / 2) := by
    rw [mul_right_comm, ← Real.sin_two_mul]; congr 1; ring
  have hd : 1 - Real.cos (t ρ) = 2 * Real.sin (t ρ / 2) ^ 2 := by
    have := Real.sin_sq_add_cos_sq (t ρ / 2)
    rw [hc]; linear_combination -this
  dsimp only
  rw [hd, h1, hc, hs]
  refine ⟨?_, ?_, ?_⟩ <;> ring

/-- The rotor and vector inputs satisfy the hypotheses of the theorems above. -/
theorem C39_inputs {i j : Nat} (hi : i + 3 ≤ 2 ^ 32) (hj : j + 5 ≤ 2 ^ 32) {r : Mv}
    (h : sandwichMv vgaMetric (vgaVectorIe i) (vgaRotorIe j) = ok r) :
    Coords K 3 r fun ρ =>
      let A := ρ j ^ 2 - ρ (j + 1) ^ 2 * (ρ (j + 2) ^ 2 + ρ (j + 3) ^ 2 + ρ (j + 4) ^ 2)
      let B := 2 * ρ j * ρ (j + 1)
      let C := 2 * ρ (j + 1) ^ 2 * (ρ (j + 2) * ρ i + ρ (j + 3) * ρ (i + 1) + ρ (j + 4) * ρ (i + 2))
      vectorVec (A * ρ i + B * (ρ (j + 3) * ρ (i + 2) - ρ (j + 4) * ρ (i + 1)) + C * ρ (j + 2))
        (A * ρ (i + 1) + B * (ρ (j + 4) * ρ i - ρ (j + 2) * ρ (i + 2)) + C * ρ (j + 3))
        (A * ρ (i + 2) + B * (ρ (j + 2) * ρ (i + 1) - ρ (j + 3) * ρ i) + C * ρ (j + 4)) :=
  C39_rotate (coords_vector hi) (coords_rotor hj) ⟨_, vgaRotor_packed hj⟩ h

example : ∃ r, sandwichMv vgaMetric (vgaVectorIe 0) (vgaRotorIe 3) = ok r := Out.exists_of_isOk (by decide +kernel)

example : ∃ r, sandwichMv vgaMetric (vgaVectorIe 0) (vgaVectorIe 3) = ok r := Out.exists_of_isOk (by decide +kernel)

theorem sandwich_result {m : Metric} (hm : m.dim ≤ 8) {a b r : Mv} {na nb : NMv} (ha : Operand m.dim a na) (hb : Result m.dim b nb)
    (h : sandwichMv m a b = ok r) : ∃ nr, Result m.dim r nr ∧ ∀ (ρ : Nat → ℚ), (∀ i, ρ i ≠ 0) →
      mvVal (intPow ρ) (cliffBlade ℚ m.dim m.sq) nr = mvVal (intPow ρ) (cliffBlade ℚ m.dim m.sq) nb *
        mvVal (intPow ρ) (cliffBlade ℚ m.dim m.sq) na *
        CliffordAlgebra.reverse (mvVal (intPow ρ) (cliffBlade ℚ m.dim m.sq) nb) := by
  unfold sandwichMv at h
  simp only [bind_eq_ok] at h
  obtain ⟨p, h1, q, h2, h3⟩ := h
  obtain ⟨np, rp, vp⟩ := geo_result hm hb.operand ha h1
  obtain ⟨nq, rq, vq⟩ := reverse_result hm hb h2
  obtain ⟨nr, rr, vr⟩ := geo_result hm rp.operand rq.operand h3
  exact ⟨nr, rr, fun ρ hρ => by rw [vr ρ hρ, vp ρ hρ, vq]⟩

/-- C39: sandwiches compose: applying `b` and then `c` is applying the product `c b`, as stored multivectors and in every
algebra. -/
theorem C39_compose {m : Metric} (hm : m.dim ≤ 8) {a b c x y w v : Mv} {na nb nc : NMv} (ha : Operand m.dim a na)
    (hb : Result m.dim b nb) (hc : Result m.dim c nc) (h1 : sandwichMv m a b = ok x) (h2 : sandwichMv m x c = ok w)
    (h3 : product (geoProduct m) c b = ok y) (h4 : sandwichMv m a y = ok v) : Same w v := by
  obtain ⟨nx, rx, vx⟩ := sandwich_result hm ha hb h1
  obtain ⟨nu, ru, vu⟩ := sandwich_result hm rx.operand hc h2
  obtain ⟨ny, ry, vy⟩ := geo_result hm hc.operand hb.operand h3
  obtain ⟨nv, rv, vv⟩ := sandwich_result hm ha ry h4
  refine same_of (d := m.sq) ru rv fun ρ hρ => ?_
  rw [vu ρ hρ, vx ρ hρ, vv ρ hρ, vy ρ hρ, CliffordAlgebra.reverse.map_mul]
  simp only [mul_assoc]

example : ∃ x, sandwichMv vgaMetric (constructIe 0 [1, 2]) (constructIe 2 [2]) = ok x ∧
    ∃ w, sandwichMv vgaMetric x (constructIe 3 [1, 4]) = ok w := Out.chain_of_isOk (by decide +kernel)

example : ∃ y, product (geoProduct vgaMetric) (constructIe 3 [1, 4]) (constructIe 2 [2]) = ok y ∧
    ∃ v, sandwichMv vgaMetric (constructIe 0 [1, 2]) y = ok v := Out.chain_of_isOk (by decide +kernel)

end Gal
