import Verif.Pseudo
import Verif.Props.Laws

/-!
# Properties C17 and C18: the pseudoscalar and its inverse, generic even multivectors and bivectors
-/

namespace Gal

open Out

/-- The multivector 1. -/
def oneN : NMv := [⟨0, [⟨⟨1, 1⟩, ⟨0, 1⟩, []⟩]⟩]

/-- The pseudoscalar: the product of all generators with coefficient 1. -/
def pseudoN (n : Nat) : NMv := [⟨2 ^ n - 1, [⟨⟨1, 1⟩, ⟨0, 1⟩, []⟩]⟩]

theorem dim_le_table {P : Metric → Prop} (n : Nat)
    (h : ∀ p, p < n + 1 → ∀ v, v < n + 1 → ∀ r, r < n + 1 → p + v + r ≤ n → P ⟨p, v, r⟩) (m : Metric) (hm : m.dim ≤ n) :
    P m := by
  obtain ⟨p, v, r⟩ := m
  unfold Metric.dim at hm
  simp only at hm
  exact h p (by omega) v (by omega) r (by omega) hm

/-- The stored pseudoscalar is the blade of all generators. -/
theorem C17_pseudoscalar (m : Metric) (hm : m.dim ≤ 8) : Packed (pseudoscalar m) (pseudoN m.dim) := by
  have h1 : 2 ^ m.dim - 1 < 256 := by
    have := Nat.pow_le_pow_right (n := 2) (by decide) hm
    have := Nat.two_pow_pos m.dim
    omega
  constructor
  · unfold pseudoscalar pseudoN
    rw [Nat.mod_eq_of_lt h1]
    rfl
  · exact ⟨Nat.le_refl 0, Nat.le_refl 1, Nat.le_refl 1⟩

/-- C17: in a non-degenerate signature the computed products of the two constants, in either order, are literally 1. -/
theorem C17_inverse (m : Metric) (hm : m.dim ≤ 8) (hr : m.r = 0) :
    product (geoProduct m) (pseudoscalar m) (pseudoscalarInv m) = ok (layout ⟨0, 1, 1⟩ oneN) ∧
    product (geoProduct m) (pseudoscalarInv m) (pseudoscalar m) = ok (layout ⟨0, 1, 1⟩ oneN) := by
  revert hr
  refine dim_le_table (P := fun m => m.r = 0 →
    product (geoProduct m) (pseudoscalar m) (pseudoscalarInv m) = ok (layout ⟨0, 1, 1⟩ oneN) ∧
    product (geoProduct m) (pseudoscalarInv m) (pseudoscalar m) = ok (layout ⟨0, 1, 1⟩ oneN)) 8 ?_ m hm
  intro p hp v hv r _ hs hr
  simp only at hr
  subst hr
  revert p v
  decide +kernel

/-- C17: in a degenerate signature the computed square of the pseudoscalar is literally empty. -/
theorem C17_degenerate (m : Metric) (hm : m.dim ≤ 8) (hr : m.r ≠ 0) :
    product (geoProduct m) (pseudoscalar m) (pseudoscalar m) = ok (layout ⟨0, 1, 1⟩ []) := by
  revert hr
  refine dim_le_table (P := fun m => m.r ≠ 0 →
    product (geoProduct m) (pseudoscalar m) (pseudoscalar m) = ok (layout ⟨0, 1, 1⟩ [])) 8 ?_ m hm
  have : ∀ p, p < 9 → ∀ v, v < 9 → ∀ r, r < 9 → p + v + r ≤ 8 → (r = 0 ∨
      product (geoProduct ⟨p, v, r⟩) (pseudoscalar ⟨p, v, r⟩) (pseudoscalar ⟨p, v, r⟩) = ok (layout ⟨0, 1, 1⟩ [])) := by
    decide +kernel
  exact fun p hp v hv r hr hs hr0 => (this p hp v hv r hr hs).resolve_left hr0

theorem cliffBlade_ne_zero (K : Type) [Field K] (n : Nat) (d : Nat → Int) (g : Nat) (hg : g < 2 ^ n) :
    cliffBlade K n d g ≠ 0 := by
  intro h
  have h1 := congrArg (bladeCoords K n d) h
  rw [bladeCoords_blade K n d g hg, map_zero] at h1
  have := DFunLike.congr_fun h1 g
  simp at this

theorem pseudo_square_table (m : Metric) (hm : m.dim ≤ 8) :
    geoProduct m (2 ^ m.dim - 1) (2 ^ m.dim - 1) =
      (0, if m.r ≠ 0 then 0 else if (m.dim * (m.dim - 1) / 2 + m.v) % 2 = 0 then 1 else -1) := by
  refine dim_le_table (P := fun m => geoProduct m (2 ^ m.dim - 1) (2 ^ m.dim - 1) =
      (0, if m.r ≠ 0 then 0 else if (m.dim * (m.dim - 1) / 2 + m.v) % 2 = 0 then 1 else -1)) 8 ?_ m hm
  decide +kernel

/-- C17 in the Clifford algebra: the blade of all generators times the value of the stored inverse, in either order, is 1. -/
theorem C17_clifford (K : Type) [Field K] [CharZero K] (m : Metric) (hm : m.dim ≤ 8) (hr : m.r = 0) :
    ∃ n, Packed (pseudoscalarInv m) n ∧ ∀ pw : Nat → ℚ → K,
      cliffBlade K m.dim m.sq (2 ^ m.dim - 1) * mvVal pw (cliffBlade K m.dim m.sq) n = 1 ∧
      mvVal pw (cliffBlade K m.dim m.sq) n * cliffBlade K m.dim m.sq (2 ^ m.dim - 1) = 1 := by
  have hp := Nat.two_pow_pos m.dim
  have h1 : 2 ^ m.dim - 1 < 256 := by
    have := Nat.pow_le_pow_right (n := 2) (by decide) hm
    omega
  have hsq := C10_geometric K m hm (2 ^ m.dim - 1) (2 ^ m.dim - 1) (by omega) (by omega)
  rw [pseudo_square_table m hm, if_neg (by simp [hr])] at hsq
  have hone : cliffBlade K m.dim m.sq 0 = 1 := bladeOf_zero _ _
  simp only [hone] at hsq
  refine ⟨[⟨2 ^ m.dim - 1, [⟨if (m.dim * (m.dim - 1) / 2 + m.v) % 2 = 0 then ⟨1, 1⟩ else ⟨-1, 1⟩, ⟨0, 1⟩, []⟩]⟩], ?_, ?_⟩
  · constructor
    · unfold pseudoscalarInv
      rw [Nat.mod_eq_of_lt h1]
      rfl
    · exact ⟨Nat.le_refl 0, Nat.le_refl 1, Nat.le_refl 1⟩
  · intro pw
    by_cases hc : (m.dim * (m.dim - 1) / 2 + m.v) % 2 = 0
    · simp only [if_pos hc] at hsq ⊢
      simp [mvVal, NTerm.val, monsVal, NMon.val, Rat32.toQ, hsq]
    · simp only [if_neg hc] at hsq ⊢
      simp [mvVal, NTerm.val, monsVal, NMon.val, Rat32.toQ, hsq]

/-- C17 in the Clifford algebra: in a degenerate signature the pseudoscalar has no inverse. -/
theorem C17_no_inverse (K : Type) [Field K] [CharZero K] (m : Metric) (hm : m.dim ≤ 8) (hr : m.r ≠ 0)
    (x : CliffordAlgebra (diagForm K m.dim m.sq)) : cliffBlade K m.dim m.sq (2 ^ m.dim - 1) * x ≠ 1 := by
  have hp := Nat.two_pow_pos m.dim
  have hsq := C10_geometric K m hm (2 ^ m.dim - 1) (2 ^ m.dim - 1) (by omega) (by omega)
  rw [pseudo_square_table m hm, if_pos hr] at hsq
  simp only [Int.cast_zero, zero_smul] at hsq
  intro h
  apply cliffBlade_ne_zero K m.dim m.sq (2 ^ m.dim - 1) (by omega)
  calc cliffBlade K m.dim m.sq (2 ^ m.dim - 1)
      = cliffBlade K m.dim m.sq (2 ^ m.dim - 1) * (cliffBlade K m.dim m.sq (2 ^ m.dim - 1) * x) := by rw [h, mul_one]
    _ = 0 := by rw [← mul_assoc, hsq, zero_mul]

example : (⟨4, 1, 0⟩ : Metric).dim ≤ 8 ∧ (⟨4, 1, 0⟩ : Metric).r = 0 ∧ (⟨3, 0, 1⟩ : Metric).dim ≤ 8 ∧ (⟨3, 0, 1⟩ : Metric).r ≠ 0 := by
  decide

/-! ## Generic multivectors -/

/-- One term `x_id e` per listed element, with consecutive ids. -/
def genericN : Nat → List Nat → NMv
  | _, [] => []
  | id, e :: es => ⟨e, [⟨⟨1, 1⟩, ⟨1, 1⟩, [⟨id, ⟨1, 1⟩⟩]⟩]⟩ :: genericN (id + 1) es

theorem genericN_size (es : List Nat) : ∀ id, (genericN id es).length = es.length ∧ nMons (genericN id es) = es.length ∧
    nInds (genericN id es) = es.length ∧ (genericN id es).map (·.element) = es := by
  induction es with
  | nil => intro id; simp [genericN]
  | cons e es ih =>
    intro id
    obtain ⟨h1, h2, h3, h4⟩ := ih (id + 1)
    refine ⟨by simp [genericN, h1], ?_, ?_, by simp [genericN, h4]⟩
    · simp only [genericN, nMons_cons, h2, List.length_cons, List.length_nil]; omega
    · simp only [genericN, nInds_cons, nIndsM_cons, nIndsM_nil, h3, List.length_cons, List.length_nil]; omega

theorem canon_one : (⟨1, 1⟩ : Rat32).Canon := by decide
theorem inI32_one : InI32 1 := by decide

/-- Generic multivectors over ascending elements are canonical. -/
theorem genericN_canon (es : List Nat) (h : es.Pairwise (· < ·)) (id : Nat) : CanonMv (genericN id es) := by
  constructor
  · intro t ht
    induction es generalizing id with
    | nil => exact (List.not_mem_nil ht).elim
    | cons e es ih =>
      unfold genericN at ht
      rcases List.mem_cons.1 ht with rfl | ht
      · refine ⟨⟨?_, List.pairwise_singleton _ _⟩, by simp⟩
        intro m hm
        simp only [List.mem_singleton] at hm
        subst hm
        refine ⟨⟨canon_one, ?_, List.pairwise_singleton _ _, rfl, inI32_one⟩, Int.one_ne_zero⟩
        intro i hi
        simp only [List.mem_singleton] at hi
        subst hi
        exact ⟨rfl, inI32_one, Int.one_ne_zero⟩
      · exact ih (List.pairwise_cons.1 h).2 _ ht
  · have := (genericN_size es id).2.2.2
    rw [← this, List.pairwise_map] at h
    exact h

/-- The elements visited by the loop. -/
def walk : Nat → Nat → Option (List Nat)
  | 0, _ => some []
  | n + 1, e => (nextEven 2 e).bind fun e' => (walk n e').map (e % 256 :: ·)

theorem spanLoop_eq (n : Nat) : ∀ (id e : Nat) (b : Bld) (es : List Nat), walk n e = some es → id + n ≤ 2 ^ 32 →
    RoomT b n n n → b.inds.length = b.mons.length → 
    spanLoop n b.mons.length id e b = ok (b.add (genericN id es)) := by
  induction n with
  | zero =>
    intro id e b es h _ _ _
    simp only [walk, Option.some.injEq] at h
    subst h
    simp [spanLoop, genericN]
  | succ n ih =>
    intro id e b es h hid hroom hlen
    unfold walk at h
    rw [Option.bind_eq_some_iff] at h
    obtain ⟨e', he, h⟩ := h
    rw [Option.map_eq_some_iff] at h
    obtain ⟨es', hes, rfl⟩ := h
    obtain ⟨⟨r1, r2⟩, r3⟩ := hroom
    unfold spanLoop Bld.putInd
    rw [if_pos (by omega), ok_bind]
    unfold Bld.putMon
    rw [if_pos (by simp only; omega), ok_bind, putTerm_ok (by simp only; omega), ok_bind, he]
    simp only
    have hb : (⟨b.caps, b.inds ++ [⟨id, ⟨1, 1⟩⟩], b.mons ++ [⟨⟨1, 1⟩, ⟨1, 1⟩, 1, b.mons.length⟩],
        b.terms ++ [⟨1, b.mons.length, e % 256⟩]⟩ : Bld) =
        b.add [⟨e % 256, [⟨⟨1, 1⟩, ⟨1, 1⟩, [⟨id, ⟨1, 1⟩⟩]⟩]⟩] := by
      simp [Bld.add, Bld.addMons, layTerms, layMons, allMons, indsOf, hlen]
    rw [hb]
    have hm : (b.add [⟨e % 256, [⟨⟨1, 1⟩, ⟨1, 1⟩, [⟨id, ⟨1, 1⟩⟩]⟩]⟩]).mons.length = b.mons.length + 1 := by
      rw [← hb]; simp
    have hi : (b.add [⟨e % 256, [⟨⟨1, 1⟩, ⟨1, 1⟩, [⟨id, ⟨1, 1⟩⟩]⟩]⟩]).inds.length = b.inds.length + 1 := by
      rw [← hb]; simp
    have ht : (b.add [⟨e % 256, [⟨⟨1, 1⟩, ⟨1, 1⟩, [⟨id, ⟨1, 1⟩⟩]⟩]⟩]).terms.length = b.terms.length + 1 := by
      rw [← hb]; simp
    cases n with
    | zero =>
      simp only [walk, Option.some.injEq] at hes
      subst hes
      simp only [spanLoop, genericN]
    | succ n =>
      rw [Nat.mod_eq_of_lt (by omega : id + 1 < 2 ^ 32), ← hm, ih (id + 1) e' _ es' hes (by omega)
        ⟨⟨by rw [hi, Bld.add_caps]; omega, by rw [hm, Bld.add_caps]; omega⟩, by rw [ht, Bld.add_caps]; omega⟩
        (by omega), ← Bld.add_cons]
      rfl

theorem even_walk_table : ∀ n, n < 8 → walk (2 ^ n) 0 = some ((List.range (2 ^ (n + 1))).filter fun e => popCount e % 2 = 0) := by
  decide +kernel

theorem bivector_walk_table : ∀ n, n < 5 →
    walk (n * (n - 1) / 2) 3 = some ((List.range (2 ^ n)).filter fun e => popCount e = 2) := by
  decide +kernel

theorem bivector_walk_wrong : ∀ n, n < 9 → 5 ≤ n →
    ∃ es ∈ walk (n * (n - 1) / 2) 3, 15 ∈ es := by
  have : ∀ n, n < 9 → 5 ≤ n → ((walk (n * (n - 1) / 2) 3).map (fun es => decide (15 ∈ es))) = some true := by
    decide +kernel
  intro n h1 h2
  have := this n h1 h2
  rw [Option.map_eq_some_iff] at this
  obtain ⟨es, h, h'⟩ := this
  exact ⟨es, h, of_decide_eq_true h'⟩

theorem filter_grade {n : Nat} (hn : n ≤ 8) (p : Nat → Bool) :
    (List.range (2 ^ n)).filter (fun e => p (popCount e)) = (List.range (2 ^ n)).filter (fun e => p (gradeOf n e)) := by
  apply List.filter_congr
  intro e he
  rw [popCount_eq_gradeOf hn (List.mem_range.1 he)]

theorem span_finish {k id e : Nat} {es : List Nat} (h : walk k e = some es) (hid : id + k ≤ 2 ^ 32) :
    spanLoop k 0 id e (Bld.empty ⟨k, k, k⟩) = ok ((Bld.empty ⟨k, k, k⟩).add (genericN id es)) :=
  spanLoop_eq k id e (Bld.empty ⟨k, k, k⟩) es h hid ⟨⟨by simp [Bld.empty], by simp [Bld.empty]⟩, by simp [Bld.empty]⟩ rfl

theorem walk_length {n : Nat} : ∀ {e : Nat} {es : List Nat}, walk n e = some es → es.length = n := by
  induction n with
  | zero => intro e es h; simp only [walk, Option.some.injEq] at h; subst h; rfl
  | succ n ih =>
    intro e es h
    unfold walk at h
    rw [Option.bind_eq_some_iff] at h
    obtain ⟨e', _, h⟩ := h
    rw [Option.map_eq_some_iff] at h
    obtain ⟨es', hes, rfl⟩ := h
    simp [ih hes]

/-- C18: `even_mv(id)` has exactly one term for every element of even grade, in ascending order; the `i`-th term is the
indeterminate `id + i`; the result is canonical. -/
theorem C18_even (m : Metric) (h0 : 0 < m.dim) (hm : m.dim ≤ 8) (id : Nat) (hid : id + 2 ^ (m.dim - 1) ≤ 2 ^ 32) :
    ∃ r n, evenMv m id = ok r ∧ Packed r n ∧ CanonMv n ∧
      n = genericN id ((List.range (2 ^ m.dim)).filter fun e => gradeOf m.dim e % 2 = 0) := by
  obtain ⟨k, hk⟩ : ∃ k, m.dim = k + 1 := ⟨m.dim - 1, by omega⟩
  have hw := even_walk_table k (by omega)
  have hf : ((List.range (2 ^ (k + 1))).filter fun e => popCount e % 2 = 0) =
      (List.range (2 ^ (k + 1))).filter fun e => gradeOf (k + 1) e % 2 = 0 :=
    filter_grade (by omega) (fun x => x % 2 = 0)
  rw [hf] at hw
  have hl := walk_length hw
  obtain ⟨s1, s2, s3, _⟩ := genericN_size ((List.range (2 ^ (k + 1))).filter fun e => gradeOf (k + 1) e % 2 = 0) id
  rw [hk] at hid ⊢
  refine ⟨layout ⟨2 ^ k, 2 ^ k, 2 ^ k⟩
    (genericN id ((List.range (2 ^ (k + 1))).filter fun e => gradeOf (k + 1) e % 2 = 0)), _, ?_, ?_, ?_, rfl⟩
  · unfold evenMv
    rw [if_neg (by omega), hk]
    simp only [Nat.add_sub_cancel] at hid ⊢
    rw [span_finish hw hid, ok_bind, Bld.finish_add]
    rfl
  · exact packed_layout ⟨by simp only; omega, by simp only; omega, by simp only; omega⟩
  · exact genericN_canon _ (List.Pairwise.filter _ List.pairwise_lt_range) id

example : (⟨4, 1, 0⟩ : Metric).dim ≤ 8 ∧ 0 < (⟨4, 1, 0⟩ : Metric).dim ∧ 7 + 2 ^ ((⟨4, 1, 0⟩ : Metric).dim - 1) ≤ 2 ^ 32 := by
  decide

/-- C18 (part): `bivector_mv(id)` for dimensions up to 4.  Missing: from dimension 5 on the claim is false, see
`C18_bivector_false`. -/
theorem C18_bivector_partial (m : Metric) (hm : m.dim ≤ 4) (id : Nat) (hid : id + m.dim * (m.dim - 1) / 2 ≤ 2 ^ 32) :
    ∃ r n, bivectorMv m id = ok r ∧ Packed r n ∧ CanonMv n ∧
      n = genericN id ((List.range (2 ^ m.dim)).filter fun e => gradeOf m.dim e = 2) := by
  have hw := bivector_walk_table m.dim (by omega)
  have hf : ((List.range (2 ^ m.dim)).filter fun e => popCount e = 2) =
      (List.range (2 ^ m.dim)).filter fun e => gradeOf m.dim e = 2 :=
    filter_grade (by omega) (fun x => x = 2)
  rw [hf] at hw
  have hl := walk_length hw
  obtain ⟨s1, s2, s3, _⟩ := genericN_size ((List.range (2 ^ m.dim)).filter fun e => gradeOf m.dim e = 2) id
  refine ⟨layout ⟨m.dim * (m.dim - 1) / 2, m.dim * (m.dim - 1) / 2, m.dim * (m.dim - 1) / 2⟩
    (genericN id ((List.range (2 ^ m.dim)).filter fun e => gradeOf m.dim e = 2)), _, ?_, ?_, ?_, rfl⟩
  · unfold bivectorMv
    simp only
    rw [span_finish hw hid, ok_bind, Bld.finish_add]
    rfl
  · exact packed_layout ⟨by simp only; omega, by simp only; omega, by simp only; omega⟩
  · exact genericN_canon _ (List.Pairwise.filter _ List.pairwise_lt_range) id

example : (⟨3, 0, 1⟩ : Metric).dim ≤ 4 ∧ 7 + (⟨3, 0, 1⟩ : Metric).dim * ((⟨3, 0, 1⟩ : Metric).dim - 1) / 2 ≤ 2 ^ 32 := by
  decide

/-- C18 fails for `bivector_mv` in every dimension from 5 to 8: the result has a term of grade 4. -/
theorem C18_bivector_false (m : Metric) (h5 : 5 ≤ m.dim) (hm : m.dim ≤ 8) (id : Nat)
    (hid : id + m.dim * (m.dim - 1) / 2 ≤ 2 ^ 32) :
    ∃ r n, bivectorMv m id = ok r ∧ Packed r n ∧ ∃ t ∈ n, gradeOf m.dim t.element = 4 := by
  obtain ⟨es, hw, h15⟩ := bivector_walk_wrong m.dim (by omega) h5
  have hl := walk_length hw
  obtain ⟨s1, s2, s3, s4⟩ := genericN_size es id
  refine ⟨layout ⟨m.dim * (m.dim - 1) / 2, m.dim * (m.dim - 1) / 2, m.dim * (m.dim - 1) / 2⟩ (genericN id es), genericN id es, ?_, ?_, ?_⟩
  · unfold bivectorMv
    simp only
    rw [span_finish hw hid, ok_bind, Bld.finish_add]
    rfl
  · exact packed_layout ⟨by simp only; omega, by simp only; omega, by simp only; omega⟩
  · rw [← s4, List.mem_map] at h15
    obtain ⟨t, ht, he⟩ := h15
    refine ⟨t, ht, ?_⟩
    rw [he]
    have : ∀ n, n < 9 → 5 ≤ n → gradeOf n 15 = 4 := by decide +kernel
    exact this m.dim (by omega) h5

end Gal
