import Verif.Rat32
import Mathlib.Data.Rat.Defs
import Mathlib.Algebra.Order.Field.Rat
import Mathlib.Tactic.FieldSimp
import Mathlib.Tactic.Ring
import Mathlib.Tactic.Linarith
import Mathlib.Tactic.Positivity
import Mathlib.Tactic.NormNum

/-!
# Specification of `rat` and helper lemmas

`toQ` is the rational number a `rat` stands for.  `WF` is the documented invariant "denominator kept greater than zero"
(numeric.hpp:164) together with representability.
-/

namespace Gal
namespace Rat32

open Out

/-- The rational number represented. -/
def toQ (r : Rat32) : ℚ := (r.num : ℚ) / (r.den : ℚ)

/-- Representable with positive denominator (the invariant of numeric.hpp:164-170). -/
structure WF (r : Rat32) : Prop where
  num : InI32 r.num
  den : InI32 r.den
  pos : 0 < r.den

instance (r : Rat32) : Decidable r.WF :=
  decidable_of_iff (InI32 r.num ∧ InI32 r.den ∧ 0 < r.den)
    ⟨fun h => ⟨h.1, h.2.1, h.2.2⟩, fun h => ⟨h.num, h.den, h.pos⟩⟩

/-- Lowest terms. -/
def Lowest (r : Rat32) : Prop := Int.gcd r.num r.den = 1

instance (r : Rat32) : Decidable r.Lowest := inferInstanceAs (Decidable (_ = _))

theorem WF.den_ne {r : Rat32} (h : r.WF) : (r.den : ℚ) ≠ 0 := by
  have := h.pos
  exact_mod_cast (by omega : r.den ≠ 0)

theorem tdiv_exact {a g : Int} (hd : g ∣ a) : a.tdiv g * g = a := Int.tdiv_mul_cancel hd

/-- Reducing keeps the value, the sign of the denominator and representability. -/
theorem reduce_spec {n d : Int} {r : Rat32} (h : reduce n d = ok r) (hd : 0 < d) :
    toQ r = (n : ℚ) / d ∧ 0 < r.den ∧ r.den ≤ d ∧ r.num.natAbs ≤ n.natAbs ∧
      Int.gcd r.num r.den = 1 ∧ n ≠ i32Min ∧ d ≠ i32Min := by
  unfold reduce at h
  rw [bind_eq_ok] at h
  obtain ⟨g, hg, h⟩ := h
  rw [cgcd_eq_ok] at hg
  obtain ⟨hn, hd', hg⟩ := hg
  have hgpos : 0 < Int.gcd n d := Int.gcd_pos_of_ne_zero_right n (by omega)
  split at h
  · rename_i hgt
    simp only [pure_eq, ok_inj] at h
    subst h
    have h1 : g ∣ n := hg ▸ Int.gcd_dvd_left ..
    have h2 : g ∣ d := hg ▸ Int.gcd_dvd_right ..
    obtain ⟨n', rfl⟩ := h1
    obtain ⟨d', rfl⟩ := h2
    have hg0 : g ≠ 0 := by omega
    have hd'pos : 0 < d' := by
      by_contra hc
      have : g * d' ≤ 0 := Int.mul_nonpos_of_nonneg_of_nonpos (by omega) (by omega)
      omega
    simp only [Int.mul_tdiv_cancel_left _ hg0]
    refine ⟨?_, hd'pos, ?_, ?_, ?_, hn, hd'⟩
    · simp only [toQ]
      push_cast
      have : (g : ℚ) ≠ 0 := by exact_mod_cast hg0
      have : (d' : ℚ) ≠ 0 := by exact_mod_cast (by omega : d' ≠ 0)
      field_simp
    · nlinarith
    · rw [Int.natAbs_mul]
      exact Nat.le_mul_of_pos_left _ (by omega)
    · have hh : (g.natAbs : Int) = g := by omega
      have : Int.gcd (g * n') (g * d') = g.natAbs * Int.gcd n' d' := Int.gcd_mul_left ..
      rw [this] at hg
      rw [Nat.cast_mul, hh] at hg
      have hq : g * (Int.gcd n' d' : Int) = g * 1 := by omega
      have := mul_left_cancel₀ hg0 hq
      exact_mod_cast this
  · simp only [pure_eq, ok_inj] at h
    subst h
    refine ⟨rfl, hd, le_refl _, le_refl _, ?_, hn, hd'⟩
    show Int.gcd n d = 1
    omega

theorem reduce_defined {n d : Int} (hn : n ≠ i32Min) (hd : d ≠ i32Min) :
    ∃ r, reduce n d = ok r := by
  unfold reduce
  have : cgcd n d = ok (Int.gcd n d : Int) := cgcd_eq_ok.2 ⟨hn, hd, rfl⟩
  rw [this, ok_bind]
  split <;> simp

/-- Where the gate is exact it is a plain reduction. -/
theorem gate_spec {r s : Rat32} (h : gate r = ok s) (hd : 0 < r.den) :
    toQ s = toQ r ∧ 0 < s.den ∧ s.den ≤ r.den ∧ s.num.natAbs ≤ r.num.natAbs ∧
      Int.gcd s.num s.den = 1 ∧ r.num ≠ i32Min := by
  unfold gate at h
  split at h
  · have := reduce_spec h hd
    exact ⟨this.1, this.2.1, this.2.2.1, this.2.2.2.1, this.2.2.2.2.1, this.2.2.2.2.2.1⟩
  · rw [bind_eq_ok] at h
    obtain ⟨g, hg, h⟩ := h
    have hred : reduce r.num r.den = ok s := by
      unfold reduce
      rw [hg, ok_bind]
      split at h
      · rename_i h1; rw [if_pos h1]; exact h
      · rename_i h1; rw [if_neg h1]
        split at h
        · simp [ok] at h
        · split at h
          · split at h <;>
            · exfalso
              rw [bind_eq_ok] at h
              obtain ⟨_, _, h⟩ := h
              simp [ok] at h
          · exact h
    have := reduce_spec hred hd
    exact ⟨this.1, this.2.1, this.2.2.1, this.2.2.2.1, this.2.2.2.2.1, this.2.2.2.2.2.1⟩

theorem gate_defined_small {r : Rat32} (hd : 0 < r.den) (hs : r.den < 1024) (hn : r.num ≠ i32Min) :
    ∃ s, gate r = ok s := by
  unfold gate
  rw [if_pos hs]
  exact reduce_defined hn (by unfold i32Min; omega)

theorem inI32_of_natAbs_le {a b : Int} (hb : InI32 b) (hb' : b ≠ i32Min) (h : a.natAbs ≤ b.natAbs) :
    InI32 a := by
  unfold InI32 i32Min i32Max at *
  omega

theorem inI32_of_pos_le {a b : Int} (hb : InI32 b) (ha : 0 < a) (h : a ≤ b) : InI32 a := by
  unfold InI32 i32Min i32Max at *
  omega

theorem gate_wf {r s : Rat32} (h : gate r = ok s) (hr : r.WF) : s.WF := by
  obtain ⟨_, hp, hle, hn, _, hne⟩ := gate_spec h hr.pos
  exact ⟨inI32_of_natAbs_le hr.num hne hn, inI32_of_pos_le hr.den hp hle, hp⟩

theorem reduce_wf {n d : Int} {s : Rat32} (h : reduce n d = ok s) (hn : InI32 n) (hd : InI32 d) (hp : 0 < d) :
    s.WF := by
  obtain ⟨_, hp', hle, hn', _, hne, _⟩ := reduce_spec h hp
  exact ⟨inI32_of_natAbs_le hn hne hn', inI32_of_pos_le hd hp' hle, hp'⟩

theorem zero_wf : zero.WF := by decide
theorem one_wf : one.WF := by decide
@[simp] theorem toQ_zero : toQ zero = 0 := by simp [toQ, zero]
@[simp] theorem toQ_one : toQ one = 1 := by simp [toQ, one]
@[simp] theorem toQ_minusOne : toQ minusOne = -1 := by simp [toQ, minusOne]

theorem toQ_eq_zero {r : Rat32} (h : r.WF) : toQ r = 0 ↔ r.num = 0 := by
  unfold toQ
  have := h.den_ne
  rw [div_eq_zero_iff]
  constructor
  · rintro (h | h)
    · exact_mod_cast h
    · contradiction
  · intro h; left; exact_mod_cast h

theorem isZero_iff {r : Rat32} (h : r.WF) : r.isZero = true ↔ toQ r = 0 := by
  rw [toQ_eq_zero h]; simp [isZero]

theorem mul_spec {a b r : Rat32} (ha : a.WF) (hb : b.WF) (h : mul a b = ok r) :
    toQ r = toQ a * toQ b ∧ r.WF := by
  unfold mul at h
  simp only [bind_eq_ok, chk_eq_ok] at h
  obtain ⟨n, ⟨hn, rfl⟩, d, ⟨hd, rfl⟩, h⟩ := h
  have hp : 0 < a.den * b.den := Int.mul_pos ha.pos hb.pos
  have h1 := ha.den_ne
  have h2 := hb.den_ne
  have key : ((a.num * b.num : Int) : ℚ) / ((a.den * b.den : Int) : ℚ) = toQ a * toQ b := by
    simp only [toQ]; push_cast; field_simp
  split at h
  · rename_i h0
    simp only [pure_eq, ok_inj] at h
    subst h
    refine ⟨?_, zero_wf⟩
    rw [toQ_zero, ← key, h0]; simp
  · split at h
    · obtain ⟨hs, _⟩ := gate_spec h hp
      exact ⟨hs.trans key, gate_wf h ⟨hn, hd, hp⟩⟩
    · simp only [pure_eq, ok_inj] at h
      subst h
      exact ⟨key, ⟨hn, hd, hp⟩⟩

theorem add_spec {a b r : Rat32} (ha : a.WF) (hb : b.WF) (h : add a b = ok r) :
    toQ r = toQ a + toQ b ∧ r.WF := by
  unfold add at h
  simp only [bind_eq_ok, chk_eq_ok] at h
  obtain ⟨x, ⟨_, rfl⟩, y, ⟨_, rfl⟩, n, ⟨hn, rfl⟩, h⟩ := h
  have hp : 0 < a.den * b.den := Int.mul_pos ha.pos hb.pos
  have h1 := ha.den_ne
  have h2 := hb.den_ne
  have key : ((a.num * b.den + b.num * a.den : Int) : ℚ) / ((a.den * b.den : Int) : ℚ) = toQ a + toQ b := by
    simp only [toQ]; push_cast; field_simp
  split at h
  · rename_i h0
    simp only [pure_eq, ok_inj] at h
    subst h
    refine ⟨?_, zero_wf⟩
    rw [toQ_zero, ← key, h0]; simp
  · simp only [bind_eq_ok, chk_eq_ok] at h
    obtain ⟨d, ⟨hd, rfl⟩, h⟩ := h
    split at h
    · obtain ⟨hs, _⟩ := gate_spec h hp
      exact ⟨hs.trans key, gate_wf h ⟨hn, hd, hp⟩⟩
    · simp only [pure_eq, ok_inj] at h
      subst h
      exact ⟨key, ⟨hn, hd, hp⟩⟩

theorem neg_spec {a r : Rat32} (ha : a.WF) (h : neg a = ok r) : toQ r = -toQ a ∧ r.WF := by
  unfold neg at h
  simp only [bind_eq_ok, chk_eq_ok, pure_eq, ok_inj] at h
  obtain ⟨n, ⟨hn, rfl⟩, rfl⟩ := h
  refine ⟨?_, ⟨hn, ha.den, ha.pos⟩⟩
  simp only [toQ]; push_cast; ring

theorem sub_spec {a b r : Rat32} (ha : a.WF) (hb : b.WF) (h : sub a b = ok r) :
    toQ r = toQ a - toQ b ∧ r.WF := by
  unfold sub at h
  rw [bind_eq_ok] at h
  obtain ⟨b', hb', h⟩ := h
  obtain ⟨e1, w1⟩ := neg_spec hb hb'
  obtain ⟨e2, w2⟩ := add_spec ha w1 h
  exact ⟨by rw [e2, e1]; ring, w2⟩

theorem imul_spec {k : Int} {a r : Rat32} (ha : a.WF) (h : imul k a = ok r) :
    toQ r = k * toQ a ∧ r.WF := by
  unfold imul at h
  split at h
  · rename_i h0
    simp only [ok_inj] at h
    subst h
    refine ⟨?_, zero_wf⟩
    rcases h0 with rfl | h0
    · simp
    · simp [toQ, zero, h0]
  · simp only [bind_eq_ok, chk_eq_ok, pure_eq, ok_inj] at h
    obtain ⟨n, ⟨hn, rfl⟩, rfl⟩ := h
    refine ⟨?_, ⟨hn, ha.den, ha.pos⟩⟩
    simp only [toQ]; push_cast; ring

theorem mulAssign_spec {a b r : Rat32} (ha : a.WF) (hb : b.WF) (h : mulAssign a b = ok r) :
    toQ r = toQ a * toQ b ∧ r.WF := by
  unfold mulAssign at h
  simp only [bind_eq_ok, chk_eq_ok] at h
  obtain ⟨n, ⟨hn, rfl⟩, d, ⟨hd, rfl⟩, h⟩ := h
  have hp : 0 < a.den * b.den := Int.mul_pos ha.pos hb.pos
  have h1 := ha.den_ne
  have h2 := hb.den_ne
  have key : ((a.num * b.num : Int) : ℚ) / ((a.den * b.den : Int) : ℚ) = toQ a * toQ b := by
    simp only [toQ]; push_cast; field_simp
  split at h
  · rename_i h0
    simp only [pure_eq, ok_inj] at h
    subst h
    refine ⟨?_, ⟨hn, by show InI32 1; decide, by show (0:Int) < 1; omega⟩⟩
    rw [← key]
    simp only [toQ]
    rw [h0]; simp
  · split at h
    · obtain ⟨hs, _⟩ := reduce_spec h hp
      exact ⟨hs.trans key, reduce_wf h hn hd hp⟩
    · simp only [pure_eq, ok_inj] at h
      subst h
      exact ⟨key, ⟨hn, hd, hp⟩⟩

theorem addAssign_spec {a b r : Rat32} (ha : a.WF) (hb : b.WF) (h : addAssign a b = ok r) :
    toQ r = toQ a + toQ b ∧ r.WF := by
  unfold addAssign at h
  simp only [bind_eq_ok, chk_eq_ok] at h
  obtain ⟨x, ⟨_, rfl⟩, y, ⟨_, rfl⟩, n, ⟨hn, rfl⟩, h⟩ := h
  have hp : 0 < a.den * b.den := Int.mul_pos ha.pos hb.pos
  have h1 := ha.den_ne
  have h2 := hb.den_ne
  have key : ((a.num * b.den + b.num * a.den : Int) : ℚ) / ((a.den * b.den : Int) : ℚ) = toQ a + toQ b := by
    simp only [toQ]; push_cast; field_simp
  split at h
  · rename_i h0
    simp only [pure_eq, ok_inj] at h
    subst h
    refine ⟨?_, ⟨hn, by show InI32 1; decide, by show (0:Int) < 1; omega⟩⟩
    rw [← key]
    simp only [toQ]
    rw [h0]; simp
  · simp only [bind_eq_ok, chk_eq_ok] at h
    obtain ⟨d, ⟨hd, rfl⟩, h⟩ := h
    split at h
    · obtain ⟨hs, _⟩ := reduce_spec h hp
      exact ⟨hs.trans key, reduce_wf h hn hd hp⟩
    · simp only [pure_eq, ok_inj] at h
      subst h
      exact ⟨key, ⟨hn, hd, hp⟩⟩

theorem divInt_spec {k : Int} {a r : Rat32} (ha : a.WF) (hk : k ≠ 0) (h : divInt a k = ok r) :
    toQ r = toQ a / k ∧ r.WF := by
  unfold divInt at h
  have h1 := ha.den_ne
  have hkq : (k : ℚ) ≠ 0 := by exact_mod_cast hk
  split at h
  · rename_i hneg
    simp only [bind_eq_ok, chk_eq_ok] at h
    obtain ⟨n, ⟨hn, rfl⟩, k', ⟨_, rfl⟩, d, ⟨hd, rfl⟩, h⟩ := h
    have hp : 0 < a.den * -k := Int.mul_pos ha.pos (by omega)
    obtain ⟨hs, _⟩ := gate_spec h hp
    refine ⟨hs.trans ?_, gate_wf h ⟨hn, hd, hp⟩⟩
    simp only [toQ]; push_cast; field_simp
  · simp only [bind_eq_ok, chk_eq_ok] at h
    obtain ⟨d, ⟨hd, rfl⟩, h⟩ := h
    have hp : 0 < a.den * k := Int.mul_pos ha.pos (by omega)
    obtain ⟨hs, _⟩ := gate_spec h hp
    refine ⟨hs.trans ?_, gate_wf h ⟨ha.num, hd, hp⟩⟩
    simp only [toQ]; push_cast; field_simp

theorem div_spec {a b r : Rat32} (ha : a.WF) (hb : b.WF) (hb0 : b.num ≠ 0) (h : div a b = ok r) :
    toQ r = toQ a / toQ b ∧ r.WF := by
  unfold div at h
  simp only [bind_eq_ok, chk_eq_ok] at h
  obtain ⟨n, ⟨hn, rfl⟩, d, ⟨hd, rfl⟩, h⟩ := h
  have h1 := ha.den_ne
  have h2 := hb.den_ne
  have h3 : (b.num : ℚ) ≠ 0 := by exact_mod_cast hb0
  have hdne : b.num * a.den ≠ 0 := mul_ne_zero hb0 (by have := ha.pos; omega)
  have key : ((a.num * b.den : Int) : ℚ) / ((b.num * a.den : Int) : ℚ) = toQ a / toQ b := by
    simp only [toQ]; push_cast; field_simp
  have key' : ((-(a.num * b.den) : Int) : ℚ) / ((-(b.num * a.den) : Int) : ℚ) = toQ a / toQ b := by
    rw [← key]; push_cast; rw [neg_div_neg_eq]
  split at h
  · rename_i h0
    simp only [pure_eq, ok_inj] at h
    subst h
    refine ⟨?_, zero_wf⟩
    rw [toQ_zero, ← key, h0]; simp
  · simp only [bind_eq_ok] at h
    obtain ⟨ad, had, h⟩ := h
    split at h
    · split at h
      · rename_i hneg
        simp only [bind_eq_ok, chk_eq_ok] at h
        obtain ⟨n', ⟨hn', rfl⟩, d', ⟨hd', rfl⟩, h⟩ := h
        have hp : 0 < -(b.num * a.den) := by omega
        obtain ⟨hs, _⟩ := gate_spec h hp
        exact ⟨hs.trans key', gate_wf h ⟨hn', hd', hp⟩⟩
      · have hp : 0 < b.num * a.den := by omega
        obtain ⟨hs, _⟩ := gate_spec h hp
        exact ⟨hs.trans key, gate_wf h ⟨hn, hd, hp⟩⟩
    · split at h
      · rename_i hneg
        simp only [bind_eq_ok, chk_eq_ok, pure_eq, ok_inj] at h
        obtain ⟨n', ⟨hn', rfl⟩, d', ⟨hd', rfl⟩, rfl⟩ := h
        exact ⟨key', ⟨hn', hd', by show 0 < -(b.num * a.den); omega⟩⟩
      · simp only [pure_eq, ok_inj] at h
        subst h
        exact ⟨key, ⟨hn, hd, by show 0 < b.num * a.den; omega⟩⟩

end Rat32
end Gal
