import Verif.Named
import Verif.Props.Engine
import Verif.Props.Null

/-!
# Property C30: named entities stand for the documented multivectors

`ie` of each named entity evaluates to the multivector its documentation and comments describe, and the constructor from a
computed entity undoes it.  Several tables are wrong; those are refuted.
-/

namespace Gal

open Out

variable {K : Type} [Field K]

theorem u32_eq {id k : Nat} (h : id + k < 2 ^ 32) : u32 id k = id + k := Nat.mod_eq_of_lt h

theorem toQ_one : Rat32.toQ ⟨1, 1⟩ = 1 := by simp [Rat32.toQ]
theorem toQ_two : Rat32.toQ ⟨2, 1⟩ = 2 := by simp [Rat32.toQ]
theorem toQ_neg_one : Rat32.toQ ⟨-1, 1⟩ = -1 := by simp [Rat32.toQ]
theorem toQ_half : Rat32.toQ ⟨1, 2⟩ = 1 / 2 := by simp [Rat32.toQ]
theorem toQ_neg_half : Rat32.toQ ⟨-1, 2⟩ = -(1 / 2) := by simp [Rat32.toQ]; norm_num
theorem rat_num_two : (2 : ℚ).num = 2 := rfl

/-- The stored numbers `ps` lie in the data from position `id` on. -/
def Reads (E : Env K) (id : Nat) (ps : List K) : Prop := ∀ i v, ps[i]? = some v → E.get (id + i) = ok v

/-- The multivector value of arrays: they are well formed, canonical, and stand for `f ρ` when indeterminate `i` has value
`ρ i` and element `e` is the vector `β e`. -/
def Denotes (K : Type) [Field K] (a : Mv)
    (f : ∀ (V : Type) [AddCommGroup V] [Module K V], (Nat → V) → (Nat → K) → V) : Prop :=
  ∃ n, Represents a n ∧ CanonMv n ∧ ∀ (V : Type) [AddCommGroup V] [Module K V] (β : Nat → V) (ρ : Nat → K),
    mvVal (intPow ρ) β n = f V β ρ

theorem canonMon_of {m : NMon} (hq : m.q.Canon) (hz : m.q.num ≠ 0) (hi : ∀ i ∈ m.inds, i.deg = ⟨1, 1⟩ ∨ i.deg = ⟨2, 1⟩)
    (ha : m.inds.Pairwise fun x y => x.id < y.id) (hd : m.degree = ⟨(m.inds.map fun i => i.deg.num).sum, 1⟩)
    (hr : InI32 m.degree.num) : CanonMon m where
  q := hq
  inds := fun i h => by rcases hi i h with h | h <;> exact ⟨by rw [h], by rw [h]; decide, by rw [h]; decide⟩
  asc := ha
  deg := hd
  degOk := hr
  nz := hz

theorem canonMons_one {m : NMon} (h : CanonMon m) : CanonMons [m] ∧ [m] ≠ [] := ⟨⟨by simpa using h, by simp⟩, by simp⟩

/-- A monomial with at most two distinct indeterminates to the first power. -/
theorem canonMon_const {q : Rat32} (hq : q.Canon) (hz : q.num ≠ 0) : CanonMon ⟨q, .zero, []⟩ :=
  canonMon_of hq hz (by simp) (by simp) (by rfl) (show InI32 (0 : Int) by decide)

theorem canonMon_var {q : Rat32} (hq : q.Canon) (hz : q.num ≠ 0) (i : Nat) : CanonMon ⟨q, .one, [⟨i, .one⟩]⟩ :=
  canonMon_of hq hz (by simp [Rat32.one]) (by simp) (by rfl) (show InI32 (1 : Int) by decide)

theorem canonMon_sq {q : Rat32} (hq : q.Canon) (hz : q.num ≠ 0) (i : Nat) : CanonMon ⟨q, .two, [⟨i, .two⟩]⟩ :=
  canonMon_of hq hz (by simp [Rat32.two]) (by simp) (by rfl) (show InI32 (2 : Int) by decide)

theorem canonMon_mul {q : Rat32} (hq : q.Canon) (hz : q.num ≠ 0) {i j : Nat} (h : i < j) :
    CanonMon ⟨q, .two, [⟨i, .one⟩, ⟨j, .one⟩]⟩ :=
  canonMon_of hq hz (by simp [Rat32.one]) (by simpa using h) (by rfl) (show InI32 (2 : Int) by decide)

theorem canon_c1 : Rat32.one.Canon := ⟨⟨by decide, by decide, by decide⟩, by decide⟩
theorem canon_cm1 : Rat32.minusOne.Canon := ⟨⟨by decide, by decide, by decide⟩, by decide⟩
theorem canon_chalf : Rat32.oneHalf.Canon := ⟨⟨by decide, by decide, by decide⟩, by decide⟩
theorem canon_cmhalf : Rat32.minusOneHalf.Canon := ⟨⟨by decide, by decide, by decide⟩, by decide⟩

/-- The value of a nested list with literal coefficients and degrees. -/
macro "mv_value" ns:Lean.Parser.Tactic.simpLemma,* : tactic => `(tactic|
  simp [$ns,*, mvVal, NTerm.val, monsVal, NMon.val, indsVal, Ind.val, intPow, Rat32.one, Rat32.minusOne, Rat32.two, Rat32.zero,
    Rat32.oneHalf, Rat32.minusOneHalf, toQ_one, toQ_two, toQ_neg_one, toQ_half, toQ_neg_half, rat_num_two])

/-! ## Vectors, rotors and points of the 3D Euclidean algebra -/

/-- C30: a vector is `x e0 + y e1 + z e2`. -/
theorem C30_vga_vector [CharZero K] {id : Nat} (h : id + 3 ≤ 2 ^ 32) : Denotes K (vgaVectorIe id) fun _ _ _ β ρ =>
    ρ id • β 1 + ρ (id + 1) • β 2 + ρ (id + 2) • β 4 := by
  refine ⟨genericN id [1, 2, 4], (constructIe_packed id [1, 2, 4] h).represents, genericN_canon _ (by decide) _, ?_⟩
  intro V _ _ β ρ
  mv_value genericN
  abel

/-- The arrays of `vga::rotor::ie` as nested lists. -/
def vgaRotorN (id : Nat) : NMv :=
  [⟨0, [⟨.one, .one, [⟨id, .one⟩]⟩]⟩, ⟨3, [⟨.minusOne, .two, [⟨id + 1, .one⟩, ⟨id + 4, .one⟩]⟩]⟩,
    ⟨5, [⟨.one, .two, [⟨id + 1, .one⟩, ⟨id + 3, .one⟩]⟩]⟩, ⟨6, [⟨.minusOne, .two, [⟨id + 1, .one⟩, ⟨id + 2, .one⟩]⟩]⟩]

theorem vgaRotor_packed {id : Nat} (h : id + 5 ≤ 2 ^ 32) : Packed (vgaRotorIe id) (vgaRotorN id) := by
  refine ⟨?_, ?_⟩
  · unfold vgaRotorIe
    rw [u32_eq (by omega), u32_eq (by omega), u32_eq (by omega), u32_eq (by omega), u32_eq (by omega)]
    rfl
  · exact ⟨show 7 ≤ 8 by omega, show 4 ≤ 4 by omega, show 4 ≤ 4 by omega⟩

theorem vgaRotor_canon (id : Nat) : CanonMv (vgaRotorN id) := by
  refine ⟨?_, by simp [vgaRotorN]⟩
  simp only [vgaRotorN, List.forall_mem_cons, List.not_mem_nil, false_implies, implies_true, and_true]
  exact ⟨canonMons_one (canonMon_var canon_c1 (by decide) _), canonMons_one (canonMon_mul canon_cm1 (by decide) (by omega)),
    canonMons_one (canonMon_mul canon_c1 (by decide) (by omega)), canonMons_one (canonMon_mul canon_cm1 (by decide) (by omega))⟩

/-- C30: a rotor with cosine `c`, sine `s` and axis `(x, y, z)` is `c - s (x e12 - y e02 + z e01)`. -/
theorem C30_vga_rotor [CharZero K] {id : Nat} (h : id + 5 ≤ 2 ^ 32) : Denotes K (vgaRotorIe id) fun _ _ _ β ρ =>
    ρ id • β 0 - ρ (id + 1) • (ρ (id + 2) • β 6 - ρ (id + 3) • β 5 + ρ (id + 4) • β 3) := by
  refine ⟨vgaRotorN id, (vgaRotor_packed h).represents, vgaRotor_canon id, ?_⟩
  intro V _ _ β ρ
  mv_value vgaRotorN
  module

/-- The arrays of `vga::point::ie` as nested lists. -/
def vgaPointN (id : Nat) : NMv :=
  [⟨7, [⟨.minusOne, .one, [⟨id + 2, .one⟩]⟩]⟩, ⟨11, [⟨.one, .one, [⟨id + 1, .one⟩]⟩]⟩,
    ⟨13, [⟨.minusOne, .one, [⟨id, .one⟩]⟩]⟩, ⟨14, [⟨.one, .zero, []⟩]⟩]

theorem vgaPoint_represents {id : Nat} (h : id + 3 ≤ 2 ^ 32) : Represents (vgaPointIe id) (vgaPointN id) := by
  refine ⟨?_, ?_⟩
  · unfold vgaPointIe
    rw [u32_eq (by omega), u32_eq (by omega), u32_eq (by omega)]
    rfl
  · exact ⟨show 3 ≤ 3 by omega, show 4 ≤ 4 by omega, show 4 ≤ 4 by omega⟩

theorem vgaPoint_canon (id : Nat) : CanonMv (vgaPointN id) := by
  refine ⟨?_, by simp [vgaPointN]⟩
  simp only [vgaPointN, List.forall_mem_cons, List.not_mem_nil, false_implies, implies_true, and_true]
  exact ⟨canonMons_one (canonMon_var canon_cm1 (by decide) _), canonMons_one (canonMon_var canon_c1 (by decide) _),
    canonMons_one (canonMon_var canon_cm1 (by decide) _), canonMons_one (canonMon_const canon_c1 (by decide))⟩

/-- C30: a Euclidean point enters the projective algebra as `e123 - x e023 + y e013 - z e012`. -/
theorem C30_vga_point [CharZero K] {id : Nat} (h : id + 3 ≤ 2 ^ 32) : Denotes K (vgaPointIe id) fun _ _ _ β ρ =>
    β 14 - ρ id • β 13 + ρ (id + 1) • β 11 - ρ (id + 2) • β 7 := by
  refine ⟨vgaPointN id, vgaPoint_represents h, vgaPoint_canon id, ?_⟩
  intro V _ _ β ρ
  mv_value vgaPointN
  module

/-! ## The projective algebra -/

/-- C30: a plane is `d e0 + x e1 + y e2 + z e3`. -/
theorem C30_pga_plane [CharZero K] {id : Nat} (h : id + 4 ≤ 2 ^ 32) : Denotes K (pgaPlaneIe id) fun _ _ _ β ρ =>
    ρ id • β 1 + ρ (id + 1) • β 2 + ρ (id + 2) • β 4 + ρ (id + 3) • β 8 := by
  refine ⟨genericN id [1, 2, 4, 8], (constructIe_packed id [1, 2, 4, 8] h).represents, genericN_canon _ (by decide) _, ?_⟩
  intro V _ _ β ρ
  mv_value genericN
  abel

/-- C30: a motor is a general even element. -/
theorem C30_pga_motor [CharZero K] {id : Nat} (h : id + 8 ≤ 2 ^ 32) : Denotes K (pgaMotorIe id) fun _ _ _ β ρ =>
    ρ id • β 0 + ρ (id + 1) • β 3 + ρ (id + 2) • β 5 + ρ (id + 3) • β 6 + ρ (id + 4) • β 9 + ρ (id + 5) • β 10 +
      ρ (id + 6) • β 12 + ρ (id + 7) • β 15 := by
  refine ⟨genericN id motorElements, (constructIe_packed id motorElements h).represents, genericN_canon _ (by decide) _, ?_⟩
  intro V _ _ β ρ
  mv_value genericN, motorElements
  abel

/-- The arrays of `pga::line::ie` as nested lists. -/
def pgaLineN (id : Nat) : NMv :=
  [⟨3, [⟨.minusOne, .one, [⟨id + 3, .one⟩]⟩]⟩, ⟨5, [⟨.one, .one, [⟨id + 4, .one⟩]⟩]⟩,
    ⟨6, [⟨.minusOne, .one, [⟨id + 2, .one⟩]⟩]⟩, ⟨9, [⟨.minusOne, .one, [⟨id + 5, .one⟩]⟩]⟩,
    ⟨10, [⟨.one, .one, [⟨id + 1, .one⟩]⟩]⟩, ⟨12, [⟨.minusOne, .one, [⟨id, .one⟩]⟩]⟩]

theorem pgaLine_packed {id : Nat} (h : id + 6 ≤ 2 ^ 32) : Packed (pgaLineIe id) (pgaLineN id) := by
  refine ⟨?_, ?_⟩
  · unfold pgaLineIe
    rw [u32_eq (by omega), u32_eq (by omega), u32_eq (by omega), u32_eq (by omega), u32_eq (by omega), u32_eq (by omega)]
    rfl
  · exact ⟨show 6 ≤ 6 by omega, show 6 ≤ 6 by omega, show 6 ≤ 6 by omega⟩

theorem pgaLine_canon (id : Nat) : CanonMv (pgaLineN id) := by
  refine ⟨?_, by simp [pgaLineN]⟩
  simp only [pgaLineN, List.forall_mem_cons, List.not_mem_nil, false_implies, implies_true, and_true]
  exact ⟨canonMons_one (canonMon_var canon_cm1 (by decide) _), canonMons_one (canonMon_var canon_c1 (by decide) _),
    canonMons_one (canonMon_var canon_cm1 (by decide) _), canonMons_one (canonMon_var canon_cm1 (by decide) _),
    canonMons_one (canonMon_var canon_c1 (by decide) _), canonMons_one (canonMon_var canon_cm1 (by decide) _)⟩

/-- C30: a line with direction `d` and moment `m` is
`-mx e01 + my e02 - mz e03 - dz e12 + dy e13 - dx e23`. -/
theorem C30_pga_line [CharZero K] {id : Nat} (h : id + 6 ≤ 2 ^ 32) : Denotes K (pgaLineIe id) fun _ _ _ β ρ =>
    - ρ (id + 3) • β 3 + ρ (id + 4) • β 5 - ρ (id + 5) • β 9 - ρ (id + 2) • β 6 + ρ (id + 1) • β 10 - ρ id • β 12 := by
  refine ⟨pgaLineN id, (pgaLine_packed h).represents, pgaLine_canon id, ?_⟩
  intro V _ _ β ρ
  mv_value pgaLineN
  module

/-! ## The conformal algebra -/

/-- The arrays of `cga::point::ie` as nested lists. -/
def cgaPointN (id : Nat) : NMv :=
  [⟨1, [⟨.one, .one, [⟨id, .one⟩]⟩]⟩, ⟨2, [⟨.one, .one, [⟨id + 1, .one⟩]⟩]⟩, ⟨4, [⟨.one, .one, [⟨id + 2, .one⟩]⟩]⟩,
    ⟨8, [⟨.one, .zero, []⟩]⟩,
    ⟨16, [⟨.oneHalf, .two, [⟨id, .two⟩]⟩, ⟨.oneHalf, .two, [⟨id + 1, .two⟩]⟩, ⟨.oneHalf, .two, [⟨id + 2, .two⟩]⟩]⟩]

theorem cgaPoint_represents {id : Nat} (h : id + 3 ≤ 2 ^ 32) : Represents (cgaPointIe id) (cgaPointN id) := by
  refine ⟨?_, ?_⟩
  · unfold cgaPointIe
    rw [u32_eq (by omega), u32_eq (by omega), u32_eq (by omega)]
    rfl
  · exact ⟨show 6 ≤ 6 by omega, show 7 ≤ 7 by omega, show 5 ≤ 5 by omega⟩

theorem cgaPoint_canon (id : Nat) : CanonMv (cgaPointN id) := by
  refine ⟨?_, by simp [cgaPointN]⟩
  simp only [cgaPointN, List.forall_mem_cons, List.not_mem_nil, false_implies, implies_true, and_true]
  refine ⟨canonMons_one (canonMon_var canon_c1 (by decide) _), canonMons_one (canonMon_var canon_c1 (by decide) _),
    canonMons_one (canonMon_var canon_c1 (by decide) _), canonMons_one (canonMon_const canon_c1 (by decide)), ⟨?_, ?_⟩, by simp⟩
  · simp only [List.forall_mem_cons, List.not_mem_nil, false_implies, implies_true, and_true]
    exact ⟨canonMon_sq canon_chalf (by decide) _, canonMon_sq canon_chalf (by decide) _, canonMon_sq canon_chalf (by decide) _⟩
  · simp [monKey, indKey, Prod.Lex.toLex_lt_toLex, List.cons_lt_cons_iff]

/-- C30: a conformal point is `x e1 + y e2 + z e3 + no + ½ (x² + y² + z²) ni`. -/
theorem C30_cga_point [CharZero K] {id : Nat} (h : id + 3 ≤ 2 ^ 32) : Denotes K (cgaPointIe id) fun _ _ _ β ρ =>
    ρ id • β 1 + ρ (id + 1) • β 2 + ρ (id + 2) • β 4 + β 8 +
      ((1 / 2 : K) * (ρ id ^ 2 + ρ (id + 1) ^ 2 + ρ (id + 2) ^ 2)) • β 16 := by
  refine ⟨cgaPointN id, cgaPoint_represents h, cgaPoint_canon id, ?_⟩
  intro V _ _ β ρ
  mv_value cgaPointN
  module

/-! ## Round trips through the run-time engine -/

macro "run_named" ns:Lean.Parser.Tactic.simpLemma,* : tactic => `(tactic|
  simp [$ns,*, mapO, Env.term, Env.mon, Env.prod, Env.factor, Env.pow, Env.app, Gal.pow, scaleBy, Rat32.one, Rat32.minusOne, Rat32.two,
    Rat32.zero, Rat32.oneHalf, Rat32.minusOneHalf, Rat32.cast])

theorem run_entity (E : Env K) {a : Mv} {n : NMv} {es : List Nat} {vs : List K} (ha : a.view = ok n) (ho : a.op = .id)
    (he : n.map (·.element) = es) (h : mapO (fun t : NTerm => E.term .id t.mons) n = ok vs) :
    computeEntity E a 1 1 = ok ⟨es, vs⟩ := by
  unfold computeEntity
  rw [ha, ok_bind, ho, h, ok_bind, pure_eq, he]
  congr 2
  exact (List.map_congr_left fun v _ => by simp [scaleBy]).trans (List.map_id _)

theorem select_of {dim k e : Nat} {es : List Nat} {vs : List K} {v : K} (he : e < 2 ^ dim) (hn : es.Nodup)
    (hk : es[k]? = some e) (hv : vs[k]? = some v) : (⟨es, vs⟩ : Entity K).select dim e = ok v :=
  C29_select_listed _ he hn hk hv

/-- C30: vector → engine → vector is the identity. -/
theorem C30_vga_vector_round_trip (E : Env K) {id : Nat} (h : id + 3 ≤ 2 ^ 32) (x y z : K) (hr : Reads E id [x, y, z]) :
    (computeEntity E (vgaVectorIe id) 1 1 >>= vectorOf 3) = ok [x, y, z] := by
  have h0 := hr 0 x rfl
  have h1 := hr 1 y rfl
  have h2 := hr 2 z rfl
  rw [Nat.add_zero] at h0
  have hx : computeEntity E (vgaVectorIe id) 1 1 = ok ⟨[1, 2, 4], [x, y, z]⟩ := by
    refine run_entity E (constructIe_packed id [1, 2, 4] h).represents.1 rfl rfl ?_
    run_named genericN, h0, h1, h2
  rw [hx, ok_bind]
  unfold vectorOf Entity.selectMany
  rw [if_neg (by simp)]
  simp only [mapO]
  rw [select_of (k := 0) (by decide) (by decide) rfl rfl, select_of (k := 1) (by decide) (by decide) rfl rfl,
    select_of (k := 2) (by decide) (by decide) rfl rfl]
  rfl

example : Reads (⟨[7, 3, 4, 5], [], fun _ _ _ => 0, fun _ v => v⟩ : Env ℚ) 1 [3, 4, 5] := by
  intro i v h
  match i with
  | 0 | 1 | 2 => simp at h; subst h; simp [Env.get, indConstantStart]
  | i + 3 => simp at h

/-- C30: point → engine in the projective algebra → point is the identity. -/
theorem C30_vga_point_round_trip (E : Env K) {id : Nat} (h : id + 3 ≤ 2 ^ 32) (x y z : K) (hr : Reads E id [x, y, z]) :
    (computeEntity E (vgaPointIe id) 1 1 >>= vgaPointOf) = ok [x, y, z] := by
  have h0 := hr 0 x rfl
  have h1 := hr 1 y rfl
  have h2 := hr 2 z rfl
  rw [Nat.add_zero] at h0
  have hx : computeEntity E (vgaPointIe id) 1 1 = ok ⟨[7, 11, 13, 14], [-z, y, -x, 1]⟩ := by
    refine run_entity E (vgaPoint_represents h).1 rfl rfl ?_
    run_named vgaPointN, h0, h1, h2
  rw [hx, ok_bind]
  unfold vgaPointOf
  rw [select_of (k := 2) (by decide) (by decide) rfl rfl, select_of (k := 1) (by decide) (by decide) rfl rfl,
    select_of (k := 0) (by decide) (by decide) rfl rfl, select_of (k := 3) (by decide) (by decide) rfl rfl]
  simp

/-- C30: the conversion of a Euclidean point to a projective one is inverted by the constructor, also after scaling by any
non-zero factor (the projective point is homogeneous). -/
theorem C30_vga_point_conversion (x y z c : K) (hc : c ≠ 0) :
    vgaPointOf ⟨(vgaPointToPga x y z).elements, (vgaPointToPga x y z).data.map (c * ·)⟩ = ok [x, y, z] := by
  unfold vgaPointOf vgaPointToPga
  simp only [List.map_cons, List.map_nil]
  rw [select_of (k := 2) (by decide) (by decide) rfl rfl, select_of (k := 1) (by decide) (by decide) rfl rfl,
    select_of (k := 0) (by decide) (by decide) rfl rfl, select_of (k := 3) (by decide) (by decide) rfl rfl]
  simp only [ok_bind, pure_eq]
  congr 2
  · field_simp
  · congr 1
    · field_simp
    · congr 1
      field_simp

/-- C30: the conversion of a Euclidean point to a projective one agrees with its expression in the projective algebra. -/
theorem C30_vga_point_same (E : Env K) {id : Nat} (h : id + 3 ≤ 2 ^ 32) (x y z : K) (hr : Reads E id [x, y, z]) :
    computeEntity E (vgaPointIe id) 1 1 = ok (vgaPointToPga x y z) := by
  have h0 := hr 0 x rfl
  have h1 := hr 1 y rfl
  have h2 := hr 2 z rfl
  rw [Nat.add_zero] at h0
  refine run_entity E (vgaPoint_represents h).1 rfl rfl ?_
  run_named vgaPointN, h0, h1, h2

/-- C30: plane → engine → plane is the identity. -/
theorem C30_pga_plane_round_trip (E : Env K) {id : Nat} (h : id + 4 ≤ 2 ^ 32) (d x y z : K) (hr : Reads E id [d, x, y, z]) :
    (computeEntity E (pgaPlaneIe id) 1 1 >>= pgaPlaneOf) = ok [d, x, y, z] := by
  have h0 := hr 0 d rfl
  have h1 := hr 1 x rfl
  have h2 := hr 2 y rfl
  have h3 := hr 3 z rfl
  rw [Nat.add_zero] at h0
  have hx : computeEntity E (pgaPlaneIe id) 1 1 = ok ⟨[1, 2, 4, 8], [d, x, y, z]⟩ := by
    refine run_entity E (constructIe_packed id [1, 2, 4, 8] h).represents.1 rfl rfl ?_
    run_named genericN, h0, h1, h2, h3
  rw [hx, ok_bind]
  unfold pgaPlaneOf Entity.selectMany
  rw [if_neg (by simp)]
  simp only [mapO]
  rw [select_of (k := 0) (by decide) (by decide) rfl rfl, select_of (k := 1) (by decide) (by decide) rfl rfl,
    select_of (k := 2) (by decide) (by decide) rfl rfl, select_of (k := 3) (by decide) (by decide) rfl rfl]
  rfl

/-- C30: motor → engine → motor is the identity, and `bivector()` is its grade-2 part. -/
theorem C30_pga_motor_round_trip (E : Env K) {id : Nat} (h : id + 8 ≤ 2 ^ 32) (a b c d e f g i : K)
    (hr : Reads E id [a, b, c, d, e, f, g, i]) :
    (computeEntity E (pgaMotorIe id) 1 1 >>= pgaMotorOf) = ok [a, b, c, d, e, f, g, i] ∧
      ∀ k < 16, popCount k = 2 → (computeEntity E (pgaMotorIe id) 1 1 >>= fun x => x.select 4 k) =
        (motorBivector [a, b, c, d, e, f, g, i]).select 4 k := by
  have h0 := hr 0 a rfl
  have h1 := hr 1 b rfl
  have h2 := hr 2 c rfl
  have h3 := hr 3 d rfl
  have h4 := hr 4 e rfl
  have h5 := hr 5 f rfl
  have h6 := hr 6 g rfl
  have h7 := hr 7 i rfl
  rw [Nat.add_zero] at h0
  have hx : computeEntity E (pgaMotorIe id) 1 1 = ok ⟨motorElements, [a, b, c, d, e, f, g, i]⟩ := by
    refine run_entity E (constructIe_packed id motorElements h).represents.1 rfl rfl ?_
    run_named genericN, motorElements, h0, h1, h2, h3, h4, h5, h6, h7
  rw [hx, ok_bind]
  constructor
  · unfold pgaMotorOf Entity.selectMany
    rw [if_neg (by simp [motorElements])]
    simp only [mapO, motorElements]
    rw [select_of (k := 0) (by decide) (by decide) rfl rfl, select_of (k := 1) (by decide) (by decide) rfl rfl,
      select_of (k := 2) (by decide) (by decide) rfl rfl, select_of (k := 3) (by decide) (by decide) rfl rfl,
      select_of (k := 4) (by decide) (by decide) rfl rfl, select_of (k := 5) (by decide) (by decide) rfl rfl,
      select_of (k := 6) (by decide) (by decide) rfl rfl, select_of (k := 7) (by decide) (by decide) rfl rfl]
    rfl
  · intro k hk hp
    rw [ok_bind]
    have hk' : k = 3 ∨ k = 5 ∨ k = 6 ∨ k = 9 ∨ k = 10 ∨ k = 12 := by
      revert hp
      revert k
      decide
    unfold motorBivector motorElements
    rcases hk' with rfl | rfl | rfl | rfl | rfl | rfl
    · rw [select_of (k := 1) (by decide) (by decide) rfl rfl, select_of (k := 0) (by decide) (by decide) rfl rfl]; rfl
    · rw [select_of (k := 2) (by decide) (by decide) rfl rfl, select_of (k := 1) (by decide) (by decide) rfl rfl]; rfl
    · rw [select_of (k := 3) (by decide) (by decide) rfl rfl, select_of (k := 2) (by decide) (by decide) rfl rfl]; rfl
    · rw [select_of (k := 4) (by decide) (by decide) rfl rfl, select_of (k := 3) (by decide) (by decide) rfl rfl]; rfl
    · rw [select_of (k := 5) (by decide) (by decide) rfl rfl, select_of (k := 4) (by decide) (by decide) rfl rfl]; rfl
    · rw [select_of (k := 6) (by decide) (by decide) rfl rfl, select_of (k := 5) (by decide) (by decide) rfl rfl]; rfl

/-- C30: line → engine → line is the identity. -/
theorem C30_pga_line_round_trip (E : Env K) {id : Nat} (h : id + 6 ≤ 2 ^ 32) (dx dy dz mx my mz : K)
    (hr : Reads E id [dx, dy, dz, mx, my, mz]) :
    (computeEntity E (pgaLineIe id) 1 1 >>= pgaLineOf) = ok [dx, dy, dz, mx, my, mz] := by
  have h0 := hr 0 dx rfl
  have h1 := hr 1 dy rfl
  have h2 := hr 2 dz rfl
  have h3 := hr 3 mx rfl
  have h4 := hr 4 my rfl
  have h5 := hr 5 mz rfl
  rw [Nat.add_zero] at h0
  have hx : computeEntity E (pgaLineIe id) 1 1 = ok ⟨[3, 5, 6, 9, 10, 12], [-mx, my, -dz, -mz, dy, -dx]⟩ := by
    refine run_entity E (pgaLine_packed h).represents.1 rfl rfl ?_
    run_named pgaLineN, h0, h1, h2, h3, h4, h5
  rw [hx, ok_bind]
  unfold pgaLineOf
  rw [select_of (k := 5) (by decide) (by decide) rfl rfl, select_of (k := 4) (by decide) (by decide) rfl rfl,
    select_of (k := 2) (by decide) (by decide) rfl rfl, select_of (k := 0) (by decide) (by decide) rfl rfl,
    select_of (k := 1) (by decide) (by decide) rfl rfl, select_of (k := 3) (by decide) (by decide) rfl rfl]
  simp

/-! ## The tables that are wrong -/

/-- The arrays of `pga::rotor::ie` as nested lists. -/
def pgaRotorN (id : Nat) : NMv :=
  [⟨0, [⟨.one, .one, [⟨id, .one⟩]⟩]⟩, ⟨6, [⟨.one, .one, [⟨id + 1, .one⟩]⟩]⟩,
    ⟨10, [⟨.minusOne, .two, [⟨id + 4, .one⟩, ⟨id + 1, .one⟩]⟩]⟩, ⟨12, [⟨.one, .two, [⟨id + 1, .one⟩, ⟨id + 3, .one⟩]⟩]⟩]

theorem pgaRotor_view {id : Nat} (h : id + 5 ≤ 2 ^ 32) : (pgaRotorIe id).view = ok (pgaRotorN id) := by
  unfold pgaRotorIe
  rw [u32_eq (by omega), u32_eq (by omega), u32_eq (by omega), u32_eq (by omega), u32_eq (by omega)]
  rfl

/-- C30 fails for projective rotors: whatever the data, the arrays stand for `c + s e12 - s z e13 + s y e23`; the comments
promise `c + s (z e12 - y e13 + x e23)`.  The axis coordinate `x` is not used at all. -/
theorem C30_pga_rotor_false [CharZero K] {id : Nat} (h : id + 5 ≤ 2 ^ 32) :
    ∃ n, (pgaRotorIe id).view = ok n ∧
      (∀ (V : Type) [AddCommGroup V] [Module K V] (β : Nat → V) (ρ : Nat → K), mvVal (intPow ρ) β n =
        ρ id • β 0 + ρ (id + 1) • (β 6 - ρ (id + 4) • β 10 + ρ (id + 3) • β 12)) ∧
      ∃ (β : Nat → K) (ρ : Nat → K), mvVal (intPow ρ) β n ≠
        ρ id • β 0 + ρ (id + 1) • (ρ (id + 4) • β 6 - ρ (id + 3) • β 10 + ρ (id + 2) • β 12) := by
  have hv : ∀ (V : Type) [AddCommGroup V] [Module K V] (β : Nat → V) (ρ : Nat → K), mvVal (intPow ρ) β (pgaRotorN id) =
        ρ id • β 0 + ρ (id + 1) • (β 6 - ρ (id + 4) • β 10 + ρ (id + 3) • β 12) := by
    intro V _ _ β ρ
    mv_value pgaRotorN
    module
  refine ⟨_, pgaRotor_view h, hv, fun e => if e = 6 then 1 else 0, fun i => if i = id + 1 then 1 else 0, ?_⟩
  rw [hv]
  simp

/-- C30 fails for projective rotors also in form: the factors of a product are not sorted, so the arrays are not canonical. -/
theorem C30_pga_rotor_order_false (id : Nat) : ¬ CanonMv (pgaRotorN id) := by
  intro h
  have := ((h.terms ⟨10, _⟩ (List.mem_cons_of_mem _ (List.mem_cons_of_mem _ (List.mem_cons_self)))).1.mons _
    (List.mem_cons_self)).asc
  simp at this

/-- The arrays of `pga::translator::ie` as nested lists. -/
def pgaTranslatorN (id : Nat) : NMv :=
  [⟨0, [⟨.one, .zero, []⟩]⟩, ⟨3, [⟨.minusOneHalf, .two, [⟨id + 1, .one⟩, ⟨id, .one⟩]⟩]⟩,
    ⟨5, [⟨.minusOneHalf, .two, [⟨id, .one⟩, ⟨id + 1, .one⟩]⟩]⟩, ⟨9, [⟨.minusOneHalf, .two, [⟨id + 1, .one⟩, ⟨id, .one⟩]⟩]⟩]

theorem pgaTranslator_view {id : Nat} (h : id + 4 ≤ 2 ^ 32) : (pgaTranslatorIe id).view = ok (pgaTranslatorN id) := by
  unfold pgaTranslatorIe
  rw [u32_eq (by omega), u32_eq (by omega), u32_eq (by omega)]
  rfl

/-- C30 fails for translators: whatever the data, the arrays stand for `1 - ½ d x (e01 + e02 + e03)`, a translation along
the diagonal; the comments promise `1 - ½ d (x e01 + y e02 + z e03)`. -/
theorem C30_pga_translator_false [CharZero K] {id : Nat} (h : id + 4 ≤ 2 ^ 32) :
    ∃ n, (pgaTranslatorIe id).view = ok n ∧
      (∀ (V : Type) [AddCommGroup V] [Module K V] (β : Nat → V) (ρ : Nat → K), mvVal (intPow ρ) β n =
        β 0 - ((1 / 2 : K) * ρ id * ρ (id + 1)) • (β 3 + β 5 + β 9)) ∧
      ∃ (β : Nat → K) (ρ : Nat → K), mvVal (intPow ρ) β n ≠
        β 0 - ((1 / 2 : K) * ρ id) • (ρ (id + 1) • β 3 + ρ (id + 2) • β 5 + ρ (id + 3) • β 9) := by
  have hv : ∀ (V : Type) [AddCommGroup V] [Module K V] (β : Nat → V) (ρ : Nat → K), mvVal (intPow ρ) β (pgaTranslatorN id) =
        β 0 - ((1 / 2 : K) * ρ id * ρ (id + 1)) • (β 3 + β 5 + β 9) := by
    intro V _ _ β ρ
    mv_value pgaTranslatorN
    module
  refine ⟨_, pgaTranslator_view h, hv, fun e => if e = 5 then 1 else 0, fun i => if i = id ∨ i = id + 1 then 1 else 0, ?_⟩
  rw [hv]
  simp

/-- C30 fails for projective directions: reading the arrays overruns them, whatever the identifier. -/
theorem C30_pga_vector_false (id : Nat) : (pgaVectorIe id).view = .ub := rfl

/-- C30 fails for 2D projective directions: reading the arrays overruns them, whatever the identifier. -/
theorem C30_pga2_vector_false (id : Nat) : (pga2VectorIe id).view = .ub := rfl

/-- The arrays of `pga2::point::ie` as nested lists. -/
def pga2PointN (id : Nat) : NMv :=
  [⟨3, [⟨.minusOne, .one, []⟩]⟩, ⟨5, [⟨.one, .one, [⟨id, .one⟩]⟩]⟩, ⟨6, [⟨.one, .zero, []⟩]⟩]

theorem pga2Point_view {id : Nat} (h : id + 2 ≤ 2 ^ 32) : (pga2PointIe id).view = ok (pga2PointN id) := by
  unfold pga2PointIe
  rw [u32_eq (by omega), u32_eq (by omega)]
  rfl

/-- C30 fails for 2D points: whatever the data, the arrays stand for `e12 + x e02 - e01`; the comments promise
`e12 + x e02 - y e01`. -/
theorem C30_pga2_point_false [CharZero K] {id : Nat} (h : id + 2 ≤ 2 ^ 32) :
    ∃ n, (pga2PointIe id).view = ok n ∧
      (∀ (V : Type) [AddCommGroup V] [Module K V] (β : Nat → V) (ρ : Nat → K), mvVal (intPow ρ) β n =
        β 6 + ρ id • β 5 - β 3) ∧
      ∃ (β : Nat → K) (ρ : Nat → K), mvVal (intPow ρ) β n ≠ β 6 + ρ id • β 5 - ρ (id + 1) • β 3 := by
  have hv : ∀ (V : Type) [AddCommGroup V] [Module K V] (β : Nat → V) (ρ : Nat → K), mvVal (intPow ρ) β (pga2PointN id) =
        β 6 + ρ id • β 5 - β 3 := by
    intro V _ _ β ρ
    mv_value pga2PointN
    module
  refine ⟨_, pga2Point_view h, hv, fun e => if e = 3 then 1 else 0, fun i => 0, ?_⟩
  rw [hv]
  simp

/-- C30 fails for the constructor of 2D points: it returns `(1/w, -1/w)` whatever the coordinates are. -/
theorem C30_pga2_point_of_false (x y w : K) : pga2PointOf ⟨[3, 5, 6], [-y, x, w]⟩ = ok [1 / w, -(1 / w)] := by
  unfold pga2PointOf
  rw [select_of (k := 1) (by decide) (by decide) rfl rfl, select_of (k := 0) (by decide) (by decide) rfl rfl,
    select_of (k := 2) (by decide) (by decide) rfl rfl]
  rfl

/-- C30: 2D line → engine → line is the identity. -/
theorem C30_pga2_line_round_trip (E : Env K) {id : Nat} (h : id + 3 ≤ 2 ^ 32) (d x y : K) (hr : Reads E id [d, x, y]) :
    (computeEntity E (pga2LineIe id) 1 1 >>= pga2LineOf) = ok [d, x, y] :=
  C30_vga_vector_round_trip E h d x y hr

/-- C30 and C25: conformal point → natural basis → null basis → engine → point is the identity. -/
theorem C30_cga_point_round_trip [CharZero K] (E : Env K) {id : Nat} (h : id + 3 ≤ 2 ^ 32) (x y z : K) (hr : Reads E id [x, y, z])
    {a : Mv} (ha : toNaturalBasis 5 (cgaPointIe id) = ok a) {b : Mv} (hb : toNullBasis 5 a = ok b) :
    (computeEntity E b 1 1 >>= vectorOf 5) = ok [x, y, z] := by
  have hp := C25_round_trip (by decide) (by decide) (cgaPoint_represents h) (cgaPoint_canon id)
    (by simp [ElemsLt, cgaPointN]) ha hb
  have h0 := hr 0 x rfl
  have h1 := hr 1 y rfl
  have h2 := hr 2 z rfl
  rw [Nat.add_zero] at h0
  have hx : computeEntity E b 1 1 =
      ok ⟨[1, 2, 4, 8, 16], [x, y, z, 1, 1 / 2 * x ^ 2 + (1 / 2 * y ^ 2 + 1 / 2 * z ^ 2)]⟩ := by
    refine run_entity E hp.represents.1 (by rw [hp.eq]; rfl) rfl ?_
    run_named cgaPointN, h0, h1, h2
    rw [powNat_eq _ _ (by decide), powNat_eq _ _ (by decide), powNat_eq _ _ (by decide)]
    ring
  rw [hx, ok_bind]
  unfold vectorOf Entity.selectMany
  rw [if_neg (by simp)]
  simp only [mapO]
  rw [select_of (k := 0) (by decide) (by decide) rfl rfl, select_of (k := 1) (by decide) (by decide) rfl rfl,
    select_of (k := 2) (by decide) (by decide) rfl rfl]
  rfl

example : (toNaturalBasis 5 (cgaPointIe 7) >>= toNullBasis 5).isOk = true := by decide +kernel

end Gal
