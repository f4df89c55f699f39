import Verif.Props.Laws
import Mathlib.Tactic.Module

/-!
# Property C25: conversion between the null basis and the natural basis

The last two generators of the natural basis are `ep` (square 1) and `en` (square -1); the null basis replaces them by
`no = (ep + en) / 2` and `ni = en - ep`.  The specification interprets a basis element as a wedge of generators in
Mathlib's exterior algebra.
-/

namespace Gal

open Out

attribute [local irreducible] popCount

/-- Generators of the null basis, given those of the natural basis. -/
def nullGen {K A : Type} [Field K] [Ring A] [Algebra K A] (n : Nat) (e : Nat → A) (i : Nat) : A :=
  if i + 2 = n then (2 : K)⁻¹ • (e (n - 2) + e (n - 1)) else if i + 1 = n then e (n - 1) - e (n - 2) else e i

/-- Wedge of null generators. -/
noncomputable def nullBlade (K : Type) [Field K] (n g : Nat) : ExteriorAlgebra K (Fin n → K) :=
  bladeOf (nullGen (K := K) n (extGen K n)) n g

/-! ## The generators -/

/-- C25: in the conformal Clifford algebra the null generators square to zero and have inner product -1. -/
theorem C25_null_vectors (K : Type) [Field K] [CharZero K] (m : Metric) (hp : 1 ≤ m.p) (hv : m.v = 1) :
    let e := cliffGen K m.dim m.sq
    let no := nullGen (K := K) m.dim e (m.dim - 2)
    let ni := nullGen (K := K) m.dim e (m.dim - 1)
    no * no = 0 ∧ ni * ni = 0 ∧ no * ni + ni * no = -2 := by
  intro e no ni
  have hd : m.dim = m.p + m.v + m.r := rfl
  have H := cliffordGens K m.dim m.sq
  have h1 : e (m.dim - 2) * e (m.dim - 2) = 1 := by
    have := H.sq (m.dim - 2) (by omega)
    rw [this]
    unfold Metric.sq Metric.dot
    rw [if_neg (by omega), if_neg (by omega)]
    simp
  have h2 : e (m.dim - 1) * e (m.dim - 1) = -1 := by
    have := H.sq (m.dim - 1) (by omega)
    rw [this]
    unfold Metric.sq Metric.dot
    rw [if_neg (by omega), if_pos (by omega)]
    simp
  have h3 : e (m.dim - 1) * e (m.dim - 2) = - (e (m.dim - 2) * e (m.dim - 1)) :=
    H.anti _ _ (by omega) (by omega) (by omega)
  have hno : no = (2 : K)⁻¹ • (e (m.dim - 2) + e (m.dim - 1)) := if_pos (by omega)
  have hni : ni = e (m.dim - 1) - e (m.dim - 2) := by
    show nullGen _ _ _ = _
    unfold nullGen
    rw [if_neg (by omega), if_pos (by omega)]
  refine ⟨?_, ?_, ?_⟩
  · rw [hno, smul_mul_smul_comm, mul_add, add_mul, add_mul, h1, h2, h3]
    simp
  · rw [hni, mul_sub, sub_mul, sub_mul, h1, h2, h3]
    abel
  · rw [hno, hni, smul_mul_assoc, mul_smul_comm, ← smul_add, mul_sub, add_mul, add_mul, mul_add, sub_mul, sub_mul, h1, h2,
      h3]
    have : (e (m.dim - 2) * e (m.dim - 1) + -1 - (1 + -(e (m.dim - 2) * e (m.dim - 1))) +
        (-(e (m.dim - 2) * e (m.dim - 1)) - 1 + (-1 - e (m.dim - 2) * e (m.dim - 1)))) =
        (2 : K) • (-2 : CliffordAlgebra (diagForm K m.dim m.sq)) := by
      rw [show (2 : K) = ((2 : ℕ) : K) by norm_num, Nat.cast_smul_eq_nsmul, two_nsmul]
      abel_nf
      norm_num
    rw [this, smul_smul, inv_mul_cancel₀ (by norm_num), one_smul]

example : 1 ≤ (⟨4, 1, 0⟩ : Metric).p ∧ (⟨4, 1, 0⟩ : Metric).v = 1 := by decide

theorem bladeOf_congr_gen {A : Type} [Ring A] {e f : Nat → A} (n g : Nat) (h : ∀ i, i < n → e i = f i) :
    bladeOf e n g = bladeOf f n g := by
  induction n with
  | zero => rfl
  | succ n ih => rw [bladeOf, bladeOf, ih (fun i hi => h i (by omega)), h n (by omega)]

/-! ## Values of the conversions on basis elements -/

section coords
variable {K V : Type} [Field K] [AddCommGroup V] [Module K V]

/-- What `to_natural_basis` replaces basis element `g` by. -/
def natTarget (n : Nat) (β : Nat → V) (g : Nat) : V :=
  let no := 1 <<< (n - 2)
  let ni := 1 <<< (n - 1)
  if g &&& (no ^^^ ni) ≠ 0 then
    if g &&& no ≠ 0 ∧ g &&& ni ≠ 0 then β g
    else if g &&& no ≠ 0 then (2 : K)⁻¹ • β g + (2 : K)⁻¹ • β (g ^^^ (no ^^^ ni))
    else - β (g ^^^ (no ^^^ ni)) + β g
  else β g

/-- What `to_null_basis` replaces basis element `g` by. -/
def nullTarget (n : Nat) (β : Nat → V) (g : Nat) : V :=
  let ep := 1 <<< (n - 2)
  let en := 1 <<< (n - 1)
  if g &&& (ep ^^^ en) ≠ 0 then
    if g &&& en ≠ 0 ∧ g &&& ep ≠ 0 then β g
    else if g &&& ep ≠ 0 then β g + -((2 : K)⁻¹ • β (g ^^^ (ep ^^^ en)))
    else β (g ^^^ (ep ^^^ en)) + (2 : K)⁻¹ • β g
  else β g

end coords

theorem bits_table : ∀ k : Fin 7, ∀ g : Fin (2 ^ (k.val + 2)),
    (g.val &&& (1 <<< k.val ^^^ 1 <<< (k.val + 1)) ≠ 0 ↔ g.val.testBit k = true ∨ g.val.testBit (k + 1) = true) ∧
    (g.val &&& 1 <<< k.val ≠ 0 ↔ g.val.testBit k = true) ∧
    (g.val &&& 1 <<< (k.val + 1) ≠ 0 ↔ g.val.testBit (k + 1) = true) ∧
    (g.val ^^^ (1 <<< k.val ^^^ 1 <<< (k.val + 1))) < 2 ^ (k.val + 2) ∧
    (∀ j : Fin (k.val + 2), (g.val ^^^ (1 <<< k.val ^^^ 1 <<< (k.val + 1))).testBit j =
      if j.val < k then g.val.testBit j else !g.val.testBit j) := by decide +kernel

theorem blade_split (K : Type) [Field K] {k : Nat} (e : Nat → ExteriorAlgebra K (Fin (k + 2) → K)) (g : Nat) :
    bladeOf e (k + 2) g =
      bladeOf e k g * (if g.testBit k then e k else 1) * (if g.testBit (k + 1) then e (k + 1) else 1) := rfl

theorem natTarget_ext (K : Type) [Field K] [CharZero K] {n : Nat} (h2 : 2 ≤ n) (h8 : n ≤ 8) {g : Nat} (hg : g < 2 ^ n) :
    natTarget (K := K) n (extBlade K n) g = nullBlade K n g := by
  obtain ⟨k, rfl⟩ : ∃ k, n = k + 2 := ⟨n - 2, by omega⟩
  obtain ⟨t1, t2, t3, t4, t5⟩ := bits_table ⟨k, by omega⟩ ⟨g, hg⟩
  simp only at t1 t2 t3 t4 t5
  have H := exteriorGens K (k + 2)
  have sq0 := H.sq k (by omega)
  have sq1 := H.sq (k + 1) (by omega)
  have an := H.anti (k + 1) k (by omega) (by omega) (by omega)
  have hlow : bladeOf (nullGen (K := K) (k + 2) (extGen K (k + 2))) k g = bladeOf (extGen K (k + 2)) k g := by
    apply bladeOf_congr_gen
    intro i hi
    unfold nullGen
    rw [if_neg (by omega), if_neg (by omega)]
  have hno : nullGen (K := K) (k + 2) (extGen K (k + 2)) k =
      (2 : K)⁻¹ • (extGen K (k + 2) k + extGen K (k + 2) (k + 1)) := if_pos rfl
  have hni : nullGen (K := K) (k + 2) (extGen K (k + 2)) (k + 1) =
      extGen K (k + 2) (k + 1) - extGen K (k + 2) k := by
    unfold nullGen
    rw [if_neg (by omega), if_pos (by omega)]
    rfl
  have hx : bladeOf (extGen K (k + 2)) k (g ^^^ (1 <<< k ^^^ 1 <<< (k + 1))) = bladeOf (extGen K (k + 2)) k g := by
    apply bladeOf_congr
    intro j hj
    rw [t5 ⟨j, by omega⟩, if_pos (by simpa using hj)]
  have hxk := t5 ⟨k, by omega⟩
  have hxk1 := t5 ⟨k + 1, by omega⟩
  simp only [lt_irrefl, if_false] at hxk
  rw [if_neg (by simp)] at hxk1
  unfold natTarget nullBlade extBlade
  simp only [Nat.add_sub_cancel, show k + 2 - 1 = k + 1 by omega]
  rw [blade_split K (nullGen (K := K) (k + 2) (extGen K (k + 2))), hlow, hno, hni]
  simp only [blade_split K (extGen K (k + 2)), hx, hxk, hxk1, t1, t2, t3]
  generalize bladeOf (extGen K (k + 2)) k g = X
  generalize extGen K (k + 2) k = p at *
  generalize extGen K (k + 2) (k + 1) = q at *
  simp only [Int.cast_zero] at sq0 sq1
  cases h0 : g.testBit k <;> cases h1 : g.testBit (k + 1) <;> simp
  · rw [mul_sub]; abel
  · rw [mul_add, mul_smul_comm, mul_smul_comm]
  · simp only [mul_assoc, mul_sub, mul_add, add_mul, smul_mul_assoc, mul_smul_comm, sq0, sq1, an, mul_zero, mul_neg]
    module

theorem nullTarget_natTarget {K V : Type} [Field K] [CharZero K] [AddCommGroup V] [Module K V] {n : Nat} (h2 : 2 ≤ n)
    (h8 : n ≤ 8) (β : Nat → V) {g : Nat} (hg : g < 2 ^ n) :
    nullTarget (K := K) n (natTarget (K := K) n β) g = β g ∧ natTarget (K := K) n (nullTarget (K := K) n β) g = β g := by
  obtain ⟨k, rfl⟩ : ∃ k, n = k + 2 := ⟨n - 2, by omega⟩
  obtain ⟨t1, t2, t3, t4, t5⟩ := bits_table ⟨k, by omega⟩ ⟨g, hg⟩
  obtain ⟨u1, u2, u3, u4, u5⟩ := bits_table ⟨k, by omega⟩ ⟨_, t4⟩
  simp only at t1 t2 t3 t4 t5 u1 u2 u3
  have hxk := t5 ⟨k, by omega⟩
  have hxk1 := t5 ⟨k + 1, by omega⟩
  simp only [lt_irrefl, if_false] at hxk
  rw [if_neg (by simp)] at hxk1
  have hxx : g ^^^ (1 <<< k ^^^ 1 <<< (k + 1)) ^^^ (1 <<< k ^^^ 1 <<< (k + 1)) = g := by
    rw [Nat.xor_assoc, Nat.xor_self, Nat.xor_zero]
  unfold nullTarget natTarget
  simp only [Nat.add_sub_cancel, show k + 2 - 1 = k + 1 by omega, t1, t2, t3, u1, u2, u3, hxk, hxk1, hxx]
  generalize β g = x
  generalize β (g ^^^ (1 <<< k ^^^ 1 <<< (k + 1))) = y
  cases h0 : g.testBit k <;> cases h1 : g.testBit (k + 1) <;> simp
  · constructor <;> module
  · constructor <;> module

/-! ## The conversions on multivectors -/

theorem pushTermN_spec {t u : NTerm} {s : Rat32} {e : Nat} (hs : s.WF) (hp : ∀ m ∈ t.mons, PreMon m)
    (h : pushTermN t s e = ok u) :
    u.element = e % 256 ∧ (∀ m ∈ u.mons, PreMon m) ∧ (∀ m ∈ u.mons, ∃ m' ∈ t.mons, m.inds = m'.inds) ∧
      ∀ (K V : Type) [Field K] [CharZero K] [AddCommGroup V] [Module K V] (pw : Nat → ℚ → K) (β : Nat → V),
        u.val pw β = (s.toQ : K) • monsVal pw t.mons • β (e % 256) := by
  unfold pushTermN at h
  simp only [bind_eq_ok, pure_eq, ok_inj] at h
  obtain ⟨t', h1, rfl⟩ := h
  obtain ⟨h2, h3⟩ := mapQ_inds h1
  refine ⟨rfl, ?_, ?_, ?_⟩
  · intro m hm
    obtain ⟨m', hm', e1, e2, e3⟩ := h3 m hm
    have p := hp m' hm'
    exact ⟨Rat32.mul_canon p.q.1 hs e3, by rw [e1]; exact p.inds, by rw [e1]; exact p.asc, by rw [e1, e2]; exact p.deg,
      by rw [e2]; exact p.degOk⟩
  · intro m hm
    obtain ⟨m', hm', e1, _⟩ := h3 m hm
    exact ⟨m', hm', e1⟩
  · intro K V _ _ _ _ pw β
    have := (mapQ_term_val pw (c := s.toQ) (fun x y hx hy => by
      obtain ⟨e, w⟩ := Rat32.mul_spec hx hs hy
      exact ⟨by rw [e]; ring, w⟩) (fun m hm => (hp m hm).wf) h1).1
    unfold NTerm.val
    simp only
    rw [this, mul_smul]

/-- Invariant of the two conversion loops: what the kept terms `l` and the rewritten terms `r` satisfy. -/
structure NullSplit (n : Nat) (a l r : NMv)
    (T : ∀ (K V : Type) [Field K] [AddCommGroup V] [Module K V], (Nat → V) → Nat → V) : Prop where
  canon : CanonMv l
  src : ∀ t ∈ l, ∃ u ∈ a, t.element = u.element
  pre : ∀ t ∈ r, ∀ m ∈ t.mons, PreMon m
  elems : ElemsLt (2 ^ n) r
  inds : ∀ Q, IndsAll Q a → IndsAll Q l ∧ IndsAll Q r
  val : ∀ (K V : Type) [Field K] [CharZero K] [AddCommGroup V] [Module K V] (pw : Nat → ℚ → K) (β : Nat → V),
    mvVal pw β l + mvVal pw β r = mvVal pw (T K V β) a

variable {n : Nat} {T : ∀ (K V : Type) [Field K] [AddCommGroup V] [Module K V], (Nat → V) → Nat → V}

theorem NullSplit.nil : NullSplit n [] [] [] T :=
  ⟨⟨by simp, by simp⟩, by simp, by simp, fun _ h => (List.not_mem_nil h).elim, fun _ h => ⟨h, h⟩,
    fun _ _ _ _ _ _ _ _ => by simp⟩

/-- A term that is kept unchanged. -/
theorem NullSplit.keep {t u : NTerm} {a l r : NMv} (H : NullSplit n a l r T) (ca : CanonMv (t :: a)) (h8 : n ≤ 8)
    (ht : t.element < 2 ^ n) (h : pushTermN t Rat32.one t.element = ok u)
    (hT : ∀ (K V : Type) [Field K] [AddCommGroup V] [Module K V] (β : Nat → V), T K V β t.element = β t.element) :
    NullSplit n (t :: a) (u :: l) r T := by
  have h256 : 2 ^ n ≤ 256 := Nat.pow_le_pow_right (by decide) h8
  have hmod : t.element % 256 = t.element := Nat.mod_eq_of_lt (by omega)
  have hp := List.pairwise_cons.1 ca.asc
  obtain ⟨c1, c2⟩ := ca.terms t (by simp)
  obtain ⟨e1, e2, e3⟩ := pushTermN_one_canon c1 c2 h
  obtain ⟨_, _, f3, f4⟩ := pushTermN_spec (by decide) (fun m hm => (c1.mons m hm).toPreMon) h
  rw [hmod] at e1
  refine ⟨⟨?_, ?_⟩, ?_, H.pre, H.elems, ?_, ?_⟩
  · intro x hx
    rcases List.mem_cons.1 hx with rfl | hx
    · exact ⟨e2, e3⟩
    · exact H.canon.terms x hx
  · refine List.pairwise_cons.2 ⟨fun x hx => ?_, H.canon.asc⟩
    obtain ⟨y, hy, e⟩ := H.src x hx
    rw [e1, e]
    exact hp.1 y hy
  · intro x hx
    rcases List.mem_cons.1 hx with rfl | hx
    · exact ⟨t, by simp, e1⟩
    · obtain ⟨y, hy, e⟩ := H.src x hx
      exact ⟨y, by simp [hy], e⟩
  · intro Q hQ
    obtain ⟨q1, q2⟩ := H.inds Q (fun x hx => hQ x (by simp [hx]))
    refine ⟨.cons (fun m hm i hi => ?_) q1, q2⟩
    obtain ⟨m', hm', e⟩ := f3 m hm
    rw [e] at hi
    exact hQ t (by simp) m' hm' i hi
  · intro K V _ _ _ _ pw β
    rw [mvVal_cons, mvVal_cons, ← H.val, f4 K V pw β, hmod, add_assoc]
    congr 1
    unfold NTerm.val
    rw [hT]
    simp [Rat32.toQ, Rat32.one]

/-- A term that is replaced by two. -/
theorem NullSplit.split {t u v : NTerm} {a l r : NMv} {s s' : Rat32} {e e' : Nat} (H : NullSplit n a l r T)
    (ca : CanonMv (t :: a)) (h8 : n ≤ 8) (hs : s.WF) (hs' : s'.WF) (he : e < 2 ^ n) (he' : e' < 2 ^ n)
    (h : pushTermN t s e = ok u) (h' : pushTermN t s' e' = ok v)
    (hT : ∀ (K V : Type) [Field K] [CharZero K] [AddCommGroup V] [Module K V] (β : Nat → V),
      T K V β t.element = (s.toQ : K) • β e + (s'.toQ : K) • β e') :
    NullSplit n (t :: a) l (u :: v :: r) T := by
  have h256 : 2 ^ n ≤ 256 := Nat.pow_le_pow_right (by decide) h8
  have c1 := (ca.terms t (by simp)).1
  obtain ⟨e1, e2, e3, e4⟩ := pushTermN_spec hs (fun m hm => (c1.mons m hm).toPreMon) h
  obtain ⟨f1, f2, f3, f4⟩ := pushTermN_spec hs' (fun m hm => (c1.mons m hm).toPreMon) h'
  rw [Nat.mod_eq_of_lt (by omega)] at e1 f1
  refine ⟨H.canon, ?_, ?_, ?_, ?_, ?_⟩
  · intro x hx
    obtain ⟨y, hy, e⟩ := H.src x hx
    exact ⟨y, by simp [hy], e⟩
  · intro x hx
    rcases List.mem_cons.1 hx with rfl | hx
    · exact e2
    rcases List.mem_cons.1 hx with rfl | hx
    · exact f2
    · exact H.pre x hx
  · intro x hx
    rcases List.mem_cons.1 hx with rfl | hx
    · rw [e1]; exact he
    rcases List.mem_cons.1 hx with rfl | hx
    · rw [f1]; exact he'
    · exact H.elems x hx
  · intro Q hQ
    obtain ⟨q1, q2⟩ := H.inds Q (fun x hx => hQ x (by simp [hx]))
    refine ⟨q1, .cons (fun m hm i hi => ?_) (.cons (fun m hm i hi => ?_) q2)⟩
    · obtain ⟨m', hm', e⟩ := e3 m hm
      rw [e] at hi
      exact hQ t (by simp) m' hm' i hi
    · obtain ⟨m', hm', e⟩ := f3 m hm
      rw [e] at hi
      exact hQ t (by simp) m' hm' i hi
  · intro K V _ _ _ _ pw β
    rw [mvVal_cons, mvVal_cons, mvVal_cons, ← H.val, e4 K V pw β, f4 K V pw β, Nat.mod_eq_of_lt (by omega),
      Nat.mod_eq_of_lt (by omega)]
    unfold NTerm.val
    rw [hT]
    module

theorem toNaturalLoopN_spec (h2 : 2 ≤ n) (h8 : n ≤ 8) {a : NMv} : ∀ {o : NMv × NMv}, CanonMv a → ElemsLt (2 ^ n) a →
    toNaturalLoopN n a = ok o → NullSplit n a o.1 o.2 (fun K _ _ _ _ β => natTarget (K := K) n β) := by
  induction a with
  | nil => intro o _ _ h; simp only [toNaturalLoopN, ok_inj] at h; subst h; exact .nil
  | cons t a ih =>
    intro o ca ea h
    have ht := ea t (by simp)
    have ih' := fun {o} => ih (o := o) ca.tail (fun x hx => ea x (by simp [hx]))
    have hx : t.element ^^^ (1 <<< (n - 2) ^^^ 1 <<< (n - 1)) < 2 ^ n := by
      obtain ⟨k, rfl⟩ : ∃ k, n = k + 2 := ⟨n - 2, by omega⟩
      exact (bits_table ⟨k, by omega⟩ ⟨_, ht⟩).2.2.2.1
    unfold toNaturalLoopN at h
    dsimp only at h
    split at h
    · rename_i c1
      split at h
      · rename_i c2
        simp only [bind_eq_ok, pure_eq, ok_inj] at h
        obtain ⟨u, h1, o', h3, rfl⟩ := h
        exact (ih' h3).keep ca h8 ht h1 fun K V _ _ _ β => by
          unfold natTarget; dsimp only; rw [if_pos c1, if_pos c2]
      · rename_i c2
        split at h
        · rename_i c3
          simp only [bind_eq_ok, pure_eq, ok_inj] at h
          obtain ⟨u, h1, v, h1', o', h3, rfl⟩ := h
          exact (ih' h3).split ca h8 (by decide) (by decide) ht hx h1 h1' fun K V _ _ _ _ β => by
            unfold natTarget; dsimp only; rw [if_pos c1, if_neg c2, if_pos c3]
            simp [Rat32.toQ, Rat32.oneHalf]
        · rename_i c3
          simp only [bind_eq_ok, pure_eq, ok_inj] at h
          obtain ⟨u, h1, v, h1', o', h3, rfl⟩ := h
          exact (ih' h3).split ca h8 (by decide) (by decide) hx ht h1 h1' fun K V _ _ _ _ β => by
            unfold natTarget; dsimp only; rw [if_pos c1, if_neg c2, if_neg c3]
            simp [Rat32.toQ, Rat32.one, Rat32.minusOne]
    · rename_i c1
      simp only [bind_eq_ok, pure_eq, ok_inj] at h
      obtain ⟨u, h1, o', h3, rfl⟩ := h
      exact (ih' h3).keep ca h8 ht h1 fun K V _ _ _ β => by
        unfold natTarget; dsimp only; rw [if_neg c1]

theorem toNullLoopN_spec (h2 : 2 ≤ n) (h8 : n ≤ 8) {a : NMv} : ∀ {o : NMv × NMv}, CanonMv a → ElemsLt (2 ^ n) a →
    toNullLoopN n a = ok o → NullSplit n a o.1 o.2 (fun K _ _ _ _ β => nullTarget (K := K) n β) := by
  induction a with
  | nil => intro o _ _ h; simp only [toNullLoopN, ok_inj] at h; subst h; exact .nil
  | cons t a ih =>
    intro o ca ea h
    have ht := ea t (by simp)
    have ih' := fun {o} => ih (o := o) ca.tail (fun x hx => ea x (by simp [hx]))
    have hx : t.element ^^^ (1 <<< (n - 2) ^^^ 1 <<< (n - 1)) < 2 ^ n := by
      obtain ⟨k, rfl⟩ : ∃ k, n = k + 2 := ⟨n - 2, by omega⟩
      exact (bits_table ⟨k, by omega⟩ ⟨_, ht⟩).2.2.2.1
    unfold toNullLoopN at h
    dsimp only at h
    split at h
    · rename_i c1
      split at h
      · rename_i c2
        simp only [bind_eq_ok, pure_eq, ok_inj] at h
        obtain ⟨u, h1, o', h3, rfl⟩ := h
        exact (ih' h3).keep ca h8 ht h1 fun K V _ _ _ β => by
          unfold nullTarget; dsimp only; rw [if_pos c1, if_pos c2]
      · rename_i c2
        split at h
        · rename_i c3
          simp only [bind_eq_ok, pure_eq, ok_inj] at h
          obtain ⟨u, h1, v, h1', o', h3, rfl⟩ := h
          exact (ih' h3).split ca h8 (by decide) (by decide) ht hx h1 h1' fun K V _ _ _ _ β => by
            unfold nullTarget; dsimp only; rw [if_pos c1, if_neg c2, if_pos c3]
            simp [Rat32.toQ, Rat32.one, Rat32.minusOneHalf]
            module
        · rename_i c3
          simp only [bind_eq_ok, pure_eq, ok_inj] at h
          obtain ⟨u, h1, v, h1', o', h3, rfl⟩ := h
          exact (ih' h3).split ca h8 (by decide) (by decide) hx ht h1 h1' fun K V _ _ _ _ β => by
            unfold nullTarget; dsimp only; rw [if_pos c1, if_neg c2, if_neg c3]
            simp [Rat32.toQ, Rat32.one, Rat32.oneHalf]
    · rename_i c1
      simp only [bind_eq_ok, pure_eq, ok_inj] at h
      obtain ⟨u, h1, o', h3, rfl⟩ := h
      exact (ih' h3).keep ca h8 ht h1 fun K V _ _ _ β => by
        unfold nullTarget; dsimp only; rw [if_neg c1]

theorem NullSplit.finish {a l r s o : NMv} (H : NullSplit n a l r T) (ea : ElemsLt (2 ^ n) a)
    (h1 : sortCollateN r = ok s) (h2 : sumN l s = ok o) :
    CanonMv o ∧ ElemsLt (2 ^ n) o ∧ (∀ Q, IndsAll Q a → IndsAll Q o) ∧
      ∀ (K V : Type) [Field K] [CharZero K] [AddCommGroup V] [Module K V] (pw : Nat → ℚ → K) (β : Nat → V),
        mvVal pw β o = mvVal pw (T K V β) a := by
  have cs := sortCollateN_canon H.pre h1
  have es := ((sortCollateN_all (Q := fun _ => True) (E := fun e => e < 2 ^ n) (fun _ _ _ _ _ _ => trivial)
    H.elems).of_ok h1).2
  have el : ∀ t ∈ l, t.element < 2 ^ n := fun t ht => by
    obtain ⟨u, hu, e⟩ := H.src t ht
    rw [e]
    exact ea u hu
  refine ⟨sumN_canon H.canon cs h2, ?_, ?_, ?_⟩
  · exact ((sumN_all (Q := fun _ => True) (E := fun e => e < 2 ^ n) (fun _ _ _ _ _ _ => trivial)
      (fun _ _ _ _ _ _ => trivial) el es).of_ok h2).2
  · intro Q hQ
    obtain ⟨q1, q2⟩ := H.inds Q hQ
    have q3 := ((sortCollateN_all (E := fun _ => True) q2 (fun _ _ => trivial)).of_ok h1).1
    exact ((sumN_all (E := fun _ => True) q1 q3 (fun _ _ => trivial) (fun _ _ => trivial)).of_ok h2).1
  · intro K V _ _ _ _ pw β
    rw [(sumN_val pw β H.canon.wf cs.wf cs.intDegs h2).1,
      (sortCollateN_val pw β (fun t ht m hm => (H.pre t ht m hm).wf) h1).1, H.val]

theorem toNaturalN_spec (h2 : 2 ≤ n) (h8 : n ≤ 8) {a o : NMv} (ca : CanonMv a) (ea : ElemsLt (2 ^ n) a)
    (h : toNaturalN n a = ok o) : CanonMv o ∧ ElemsLt (2 ^ n) o ∧ (∀ Q, IndsAll Q a → IndsAll Q o) ∧
      ∀ (K V : Type) [Field K] [CharZero K] [AddCommGroup V] [Module K V] (pw : Nat → ℚ → K) (β : Nat → V),
        mvVal pw β o = mvVal pw (natTarget (K := K) n β) a := by
  unfold toNaturalN at h
  simp only [bind_eq_ok] at h
  obtain ⟨p, h1, s, h3, h4⟩ := h
  exact (toNaturalLoopN_spec h2 h8 ca ea h1).finish ea h3 h4

theorem toNullN_spec (h2 : 2 ≤ n) (h8 : n ≤ 8) {a o : NMv} (ca : CanonMv a) (ea : ElemsLt (2 ^ n) a)
    (h : toNullN n a = ok o) : CanonMv o ∧ ElemsLt (2 ^ n) o ∧ (∀ Q, IndsAll Q a → IndsAll Q o) ∧
      ∀ (K V : Type) [Field K] [CharZero K] [AddCommGroup V] [Module K V] (pw : Nat → ℚ → K) (β : Nat → V),
        mvVal pw β o = mvVal pw (nullTarget (K := K) n β) a := by
  unfold toNullN at h
  simp only [bind_eq_ok] at h
  obtain ⟨p, h1, s, h3, h4⟩ := h
  exact (toNullLoopN_spec h2 h8 ca ea h1).finish ea h3 h4

variable {a r s : Mv} {na : NMv}

/-- C25: `to_natural_basis` keeps the value, where operands are read in the null basis and the result in the natural
one. -/
theorem C25_to_natural (h2 : 2 ≤ n) (h8 : n ≤ 8) (ha : Represents a na) (ca : CanonMv na) (ea : ElemsLt (2 ^ n) na)
    (h : toNaturalBasis n a = ok r) :
    ∃ nr, Packed r nr ∧ CanonMv nr ∧ ElemsLt (2 ^ n) nr ∧
      (∀ (K : Type) [Field K] (ρ : Nat → K), NoPole ρ na → NoPole ρ nr) ∧
      ∀ (K : Type) [Field K] [CharZero K] (pw : Nat → ℚ → K),
        mvVal pw (extBlade K n) nr = mvVal pw (nullBlade K n) na := by
  rw [toNaturalBasis_refines n ha] at h
  obtain ⟨nr, hn, rfl⟩ := map_eq_ok h
  obtain ⟨e1, e2, e3, e4⟩ := toNaturalN_spec h2 h8 ca ea hn
  refine ⟨nr, packed_layout ((toNaturalN_fits n ha.2).of_ok hn), e1, e2,
    fun K _ ρ hp => (e3 _ (indsAll_noPole ca.intDegs hp)).noPole, ?_⟩
  intro K _ _ pw
  rw [e4 K _ pw]
  exact mvVal_congr pw fun t ht => natTarget_ext K h2 h8 (ea t ht)

/-- C25: `to_null_basis` keeps the value, where operands are read in the natural basis and the result in the null
one. -/
theorem C25_to_null (h2 : 2 ≤ n) (h8 : n ≤ 8) (ha : Represents a na) (ca : CanonMv na) (ea : ElemsLt (2 ^ n) na)
    (h : toNullBasis n a = ok r) :
    ∃ nr, Packed r nr ∧ CanonMv nr ∧ ElemsLt (2 ^ n) nr ∧
      (∀ (K : Type) [Field K] (ρ : Nat → K), NoPole ρ na → NoPole ρ nr) ∧
      ∀ (K : Type) [Field K] [CharZero K] (pw : Nat → ℚ → K),
        mvVal pw (nullBlade K n) nr = mvVal pw (extBlade K n) na := by
  rw [toNullBasis_refines n ha] at h
  obtain ⟨nr, hn, rfl⟩ := map_eq_ok h
  obtain ⟨e1, e2, e3, e4⟩ := toNullN_spec h2 h8 ca ea hn
  refine ⟨nr, packed_layout ((toNullN_fits n ha.2).of_ok hn), e1, e2,
    fun K _ ρ hp => (e3 _ (indsAll_noPole ca.intDegs hp)).noPole, ?_⟩
  intro K _ _ pw
  rw [mvVal_congr pw (fun t ht => (natTarget_ext K h2 h8 (e2 t ht)).symm), e4 K _ pw]
  exact mvVal_congr pw fun t ht => (nullTarget_natTarget h2 h8 (extBlade K n) (ea t ht)).1

/-- C25: converting to the natural basis and back restores the multivector literally. -/
theorem C25_round_trip (h2 : 2 ≤ n) (h8 : n ≤ 8) (ha : Represents a na) (ca : CanonMv na) (ea : ElemsLt (2 ^ n) na)
    (h : toNaturalBasis n a = ok r) (h' : toNullBasis n r = ok s) : Packed s na := by
  rw [toNaturalBasis_refines n ha] at h
  obtain ⟨nr, hn, rfl⟩ := map_eq_ok h
  obtain ⟨e1, e2, e3, e4⟩ := toNaturalN_spec h2 h8 ca ea hn
  have hp := (packed_layout ((toNaturalN_fits n ha.2).of_ok hn)).represents
  rw [toNullBasis_refines n hp] at h'
  obtain ⟨ns, hs, rfl⟩ := map_eq_ok h'
  obtain ⟨f1, f2, f3, f4⟩ := toNullN_spec h2 h8 e1 e2 hs
  have : ns = na := C23_unique f1 ca fun ρ _ e => by
    unfold coeff
    rw [f4 ℚ ℚ, e4 ℚ ℚ]
    exact mvVal_congr _ fun t ht => (nullTarget_natTarget h2 h8 _ (ea t ht)).2
  exact this ▸ packed_layout ((toNullN_fits n hp.2).of_ok hs)

/-- C25: converting to the null basis and back restores the multivector literally. -/
theorem C25_round_trip' (h2 : 2 ≤ n) (h8 : n ≤ 8) (ha : Represents a na) (ca : CanonMv na) (ea : ElemsLt (2 ^ n) na)
    (h : toNullBasis n a = ok r) (h' : toNaturalBasis n r = ok s) : Packed s na := by
  rw [toNullBasis_refines n ha] at h
  obtain ⟨nr, hn, rfl⟩ := map_eq_ok h
  obtain ⟨e1, e2, e3, e4⟩ := toNullN_spec h2 h8 ca ea hn
  have hp := (packed_layout ((toNullN_fits n ha.2).of_ok hn)).represents
  rw [toNaturalBasis_refines n hp] at h'
  obtain ⟨ns, hs, rfl⟩ := map_eq_ok h'
  obtain ⟨f1, f2, f3, f4⟩ := toNaturalN_spec h2 h8 e1 e2 hs
  have : ns = na := C23_unique f1 ca fun ρ _ e => by
    unfold coeff
    rw [f4 ℚ ℚ, e4 ℚ ℚ]
    exact mvVal_congr _ fun t ht => (nullTarget_natTarget h2 h8 _ (ea t ht)).1
  exact this ▸ packed_layout ((toNaturalN_fits n hp.2).of_ok hs)

/-- The hypotheses are met: a multivector with elements of every kind (neither, either and both of the last two
generators). -/
def exNull : NMv := [⟨0, [⟨⟨3, 1⟩, ⟨0, 1⟩, []⟩]⟩, ⟨9, [⟨⟨1, 2⟩, ⟨1, 1⟩, [⟨0, ⟨1, 1⟩⟩]⟩]⟩, ⟨17, [⟨⟨-2, 1⟩, ⟨0, 1⟩, []⟩]⟩,
  ⟨25, [⟨⟨1, 1⟩, ⟨2, 1⟩, [⟨1, ⟨2, 1⟩⟩]⟩]⟩]

example : Represents (layout ⟨2, 4, 4⟩ exNull) exNull ∧ CanonMv exNull ∧ ElemsLt (2 ^ 5) exNull ∧
    (∃ r, toNaturalBasis 5 (layout ⟨2, 4, 4⟩ exNull) = ok r ∧ ∃ s, toNullBasis 5 r = ok s) ∧
    (∃ r, toNullBasis 5 (layout ⟨2, 4, 4⟩ exNull) = ok r ∧ ∃ s, toNaturalBasis 5 r = ok s) :=
  ⟨by decide +kernel, by decide +kernel, by decide +kernel, Out.chain_of_isOk (by decide +kernel),
    Out.chain_of_isOk (by decide +kernel)⟩

end Gal
