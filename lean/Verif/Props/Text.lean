import Std.Data.String.ToNat
import Verif.Literals
import Verif.Format
import Verif.Spec.Text
import Verif.Spec.NullValue
import Verif.Props.Entity
import Verif.Props.Expr
import Verif.Props.Pseudo

/-!
# C58, C59: literals and texts

The literals of the algebra headers denote what their names say, and the text `to_string` writes determines the entity.
-/

namespace Gal

open Out

/-! ## Literals -/

theorem numOfULL_of_lt {n : Nat} (h : n < 2 ^ 31) : numOfULL n = n := by
  unfold numOfULL
  rw [Nat.mod_eq_of_lt (by omega), if_pos h]

theorem numOfULL_neg {n : Nat} (h : n < 2 ^ 31) : numOfULL (negULL n) = -n := by
  unfold numOfULL negULL
  rw [Nat.mod_eq_of_lt (show n < 2 ^ 64 by omega)]
  rcases Nat.eq_zero_or_pos n with rfl | h0
  · simp
  · have h1 : (2 ^ 64 - n) % 2 ^ 64 = 2 ^ 64 - n := Nat.mod_eq_of_lt (by omega)
    have h2 : (2 ^ 64 - n) % 2 ^ 32 = 2 ^ 32 - n := by omega
    rw [h1, h2, if_neg (by omega)]
    omega

variable {V : Type} [AddCommGroup V] [Module ℚ V]

/-- **C58.**  A literal with the number `n` below 2^31 denotes `n` times the constant of its element, `-n` times for `_ips`. -/
theorem C58_number (I : Interp V) (l : Literal) {n : Nat} (h0 : n ≠ 0) (h : n < 2 ^ 31) :
    Means I (l.expr n) (((if l.negated then -1 else 1 : ℚ) * n) • I.const (Op.cscalar + l.element)) := by
  unfold Literal.expr
  cases hl : l.negated with
  | false =>
    have := C33_element I l.element (n := (n : Int)) ⟨by unfold i32Min; omega, by unfold i32Max; omega⟩ (by omega)
    simpa [numOfULL_of_lt h] using this
  | true =>
    have := C33_element I l.element (n := -(n : Int)) ⟨by unfold i32Min; omega, by unfold i32Max; omega⟩ (by omega)
    simpa [numOfULL_neg h] using this

example : Means ratInterp ((⟨['i', 'p', 's'], 7, true⟩ : Literal).expr 3) (((-1 : ℚ) * (3 : Nat)) • ratInterp.const (Op.cscalar + 7)) :=
  C58_number ratInterp ⟨['i', 'p', 's'], 7, true⟩ (by decide) (by decide)

/-- C58: without the bound, the factor of a literal is the number with the right sign, reduced modulo 2^32 to the range of `int`. -/
theorem C58_modular (l : Literal) (n : Nat) :
    ∃ k : Int, l.expr n = elementExpr l.element k ∧ InI32 k ∧ (2 ^ 32 : Int) ∣ k - (if l.negated then -1 else 1) * n := by
  have hn : ∀ n, InI32 (numOfULL n) ∧ (2 ^ 32 : Int) ∣ numOfULL n - n := by
    intro n
    unfold numOfULL InI32 i32Min i32Max
    split <;> constructor <;> omega
  refine ⟨_, rfl, (hn _).1, ?_⟩
  cases l.negated with
  | false => simpa using (hn n).2
  | true =>
    have := (hn (negULL n)).2
    simp only [if_true]
    unfold negULL at this ⊢
    omega

example : ∃ k : Int, (⟨['i', 'p', 's'], 7, true⟩ : Literal).expr (2 ^ 40 + 3) = elementExpr 7 k ∧ InI32 k ∧ (2 ^ 32 : Int) ∣ k - (-1) * (2 ^ 40 + 3 : Nat) :=
  C58_modular ⟨['i', 'p', 's'], 7, true⟩ (2 ^ 40 + 3)

/-- C58 needs the bound: a literal is read modulo 2^32. -/
theorem C58_number_false : (⟨['e', '0'], 1, false⟩ : Literal).expr (2 ^ 32 + 5) = elementExpr 1 5 := by decide

variable (K : Type) [Field K]

/-- **C58.**  The literal `_e` with digits `i`, `j`, … of the vector space algebra: its element is the product of the generators `i`, `j`, … in
this order. -/
theorem C58_vga {l : Literal} (hl : l ∈ vgaLiterals) {ds : List Char} (hn : l.name = 'e' :: ds) :
    cliffBlade K 3 (Metric.sq ⟨3, 0, 0⟩) l.element = namedProduct (cliffGen K 3 (Metric.sq ⟨3, 0, 0⟩)) ds := by
  simp only [vgaLiterals, List.mem_cons, List.not_mem_nil, or_false] at hl
  rcases hl with rfl | rfl | rfl | rfl | rfl | rfl | rfl | rfl | rfl <;> simp at hn <;> subst hn <;>
    simp [cliffBlade, namedProduct, bladeOf, Nat.testBit, mul_assoc]

/-- C58 for the projective algebra of space. -/
theorem C58_pga {l : Literal} (hl : l ∈ pgaLiterals) {ds : List Char} (hn : l.name = 'e' :: ds) :
    cliffBlade K 4 (Metric.sq ⟨3, 0, 1⟩) l.element = namedProduct (cliffGen K 4 (Metric.sq ⟨3, 0, 1⟩)) ds := by
  simp only [pgaLiterals, List.mem_cons, List.not_mem_nil, or_false] at hl
  rcases hl with rfl | rfl | rfl | rfl | rfl | rfl | rfl | rfl | rfl | rfl | rfl | rfl | rfl | rfl | rfl | rfl <;> simp at hn <;> subst hn <;>
    simp [cliffBlade, namedProduct, bladeOf, Nat.testBit, mul_assoc]

/-- C58 for the projective algebra of the plane. -/
theorem C58_pga2 {l : Literal} (hl : l ∈ pga2Literals) {ds : List Char} (hn : l.name = 'e' :: ds) :
    cliffBlade K 3 (Metric.sq ⟨2, 0, 1⟩) l.element = namedProduct (cliffGen K 3 (Metric.sq ⟨2, 0, 1⟩)) ds := by
  simp only [pga2Literals, List.mem_cons, List.not_mem_nil, or_false] at hl
  rcases hl with rfl | rfl | rfl | rfl | rfl | rfl | rfl | rfl <;> simp at hn <;> subst hn <;>
    simp [cliffBlade, namedProduct, bladeOf, Nat.testBit, mul_assoc]

/-- C58 for the conformal algebra, whose generators are counted from one and whose elements are those of the null basis. -/
theorem C58_cga [CharZero K] {l : Literal} (hl : l ∈ cgaLiterals) {ds : List Char} (hn : l.name = 'e' :: ds) :
    nullElem K 5 (Metric.sq ⟨4, 1, 0⟩) l.element = namedProduct (fun i => cliffGen K 5 (Metric.sq ⟨4, 1, 0⟩) (i - 1)) ds := by
  simp only [cgaLiterals, List.mem_cons, List.not_mem_nil, or_false] at hl
  rcases hl with rfl | rfl | rfl | rfl | rfl | rfl | rfl <;> simp at hn <;> subst hn <;>
    rw [← natTarget_cliff (K := K) (by decide) (by decide) _ (by decide)] <;>
    simp [natTarget, cliffBlade, namedProduct, bladeOf, Nat.testBit]

/-- C58: the literals `_no` and `_ni` of the conformal algebra are `(e₊ + e₋) / 2` and `e₋ - e₊`, where `e₊` and `e₋` are the last two generators. -/
theorem C58_null [CharZero K] {l : Literal} (hl : l ∈ cgaLiterals) :
    (l.name = ['n', 'o'] → nullElem K 5 (Metric.sq ⟨4, 1, 0⟩) l.element =
      (2 : K)⁻¹ • (cliffGen K 5 (Metric.sq ⟨4, 1, 0⟩) 3 + cliffGen K 5 (Metric.sq ⟨4, 1, 0⟩) 4)) ∧
    (l.name = ['n', 'i'] → nullElem K 5 (Metric.sq ⟨4, 1, 0⟩) l.element =
      cliffGen K 5 (Metric.sq ⟨4, 1, 0⟩) 4 - cliffGen K 5 (Metric.sq ⟨4, 1, 0⟩) 3) := by
  have h3 := cliffBlade_gen (K := K) (n := 5) (Metric.sq ⟨4, 1, 0⟩) (i := 3) (by decide)
  have h4 := cliffBlade_gen (K := K) (n := 5) (Metric.sq ⟨4, 1, 0⟩) (i := 4) (by decide)
  rw [← h3, ← h4]
  simp only [cgaLiterals, List.mem_cons, List.not_mem_nil, or_false] at hl
  constructor <;> intro hn <;> rcases hl with rfl | rfl | rfl | rfl | rfl | rfl | rfl <;> simp at hn <;>
    rw [← natTarget_cliff (K := K) (by decide) (by decide) _ (by decide)] <;> simp [natTarget, sub_eq_add_neg, add_comm]

/-- C58: in each algebra there is a literal `_ps`, and every literal of this name is the product of all generators in ascending order. -/
theorem C58_pseudo {m : Metric} {ls : List Literal} (hm : (m, ls) ∈ [((⟨3, 0, 0⟩ : Metric), vgaLiterals), (⟨3, 0, 1⟩, pgaLiterals), (⟨2, 0, 1⟩, pga2Literals),
    (⟨4, 1, 0⟩, cgaLiterals)]) : (∃ l ∈ ls, l.name = ['p', 's']) ∧ ∀ l ∈ ls, l.name = ['p', 's'] → l.negated = false ∧
      cliffBlade K m.dim m.sq l.element = ((List.range m.dim).map (cliffGen K m.dim m.sq)).prod := by
  have key : ∀ p ∈ [((⟨3, 0, 0⟩ : Metric), vgaLiterals), (⟨3, 0, 1⟩, pgaLiterals), (⟨2, 0, 1⟩, pga2Literals), (⟨4, 1, 0⟩, cgaLiterals)],
      (∃ l ∈ p.2, l.name = ['p', 's']) ∧ ∀ l ∈ p.2, l.name = ['p', 's'] → l.negated = false ∧ l.element = 2 ^ p.1.dim - 1 := by decide
  refine ⟨(key _ hm).1, fun l hl hn => ⟨((key _ hm).2 l hl hn).1, ?_⟩⟩
  rw [((key _ hm).2 l hl hn).2]
  have : ∀ (g : Nat → CliffordAlgebra (diagForm K m.dim m.sq)) (n k : Nat), k ≤ n → bladeOf g k (2 ^ n - 1) = ((List.range k).map g).prod := by
    intro g n k
    induction k with
    | zero => intro _; simp [bladeOf]
    | succ k ih =>
      intro hk
      rw [bladeOf, ih (by omega), List.range_succ, List.map_append, List.prod_append, Nat.testBit_two_pow_sub_one]
      simp [show k < n by omega]
  exact this _ _ _ (Nat.le_refl _)

example : ((⟨3, 0, 1⟩ : Metric), pgaLiterals) ∈ [((⟨3, 0, 0⟩ : Metric), vgaLiterals), (⟨3, 0, 1⟩, pgaLiterals), (⟨2, 0, 1⟩, pga2Literals),
    (⟨4, 1, 0⟩, cgaLiterals)] := by decide

/-- C58: the pseudoscalar of the conformal algebra is the same element in both bases. -/
theorem C58_pseudo_null [CharZero K] : nullElem K 5 (Metric.sq ⟨4, 1, 0⟩) 31 = cliffBlade K 5 (Metric.sq ⟨4, 1, 0⟩) 31 := by
  rw [← natTarget_cliff (K := K) (by decide) (by decide) _ (by decide)]
  simp [natTarget]

example : ∃ l ∈ pgaLiterals, ∃ ds, l.name = 'e' :: ds ∧ ds = ['0', '2', '3'] := ⟨⟨['e', '0', '2', '3'], 13, false⟩, by decide, _, rfl, rfl⟩

/-- The square of the pseudoscalar of an algebra whose literals include `_ips`. -/
theorem pseudo_sq (m : Metric) (hm : m.dim ≤ 8) (h : geoProduct m (2 ^ m.dim - 1) (2 ^ m.dim - 1) = (0, -1)) :
    cliffBlade K m.dim m.sq (2 ^ m.dim - 1) * cliffBlade K m.dim m.sq (2 ^ m.dim - 1) = -1 := by
  have hp := Nat.two_pow_pos m.dim
  rw [C10_geometric K m hm _ _ (by omega) (by omega), h]
  have hone : cliffBlade K m.dim m.sq 0 = 1 := bladeOf_zero _ _
  simp [hone]

theorem cliffConst_element (m : Metric) (named : Nat → K) (e : Nat) : cliffConst K m.dim m.sq named (Op.cscalar + e) = cliffBlade K m.dim m.sq e := by
  unfold cliffConst
  rw [if_neg (by unfold Op.cscalar Op.czero; omega), if_neg (by unfold Op.cscalar Op.cend; omega), Nat.add_sub_cancel_left]

theorem nullConst_element (m : Metric) (named : Nat → K) (e : Nat) : nullConst K m.dim m.sq named (Op.cscalar + e) = nullElem K m.dim m.sq e := by
  unfold nullConst
  rw [if_neg (by unfold Op.cscalar Op.czero; omega), if_neg (by unfold Op.cscalar Op.cend; omega), Nat.add_sub_cancel_left]

theorem ips_product [CharZero K] {m : Metric} (hm : m.dim ≤ 8) (hs : geoProduct m (2 ^ m.dim - 1) (2 ^ m.dim - 1) = (0, -1))
    (I : Interp (CliffordAlgebra (diagForm K m.dim m.sq))) (hg : ∀ x y, I.gp x y = x * y)
    (hc : I.const (Op.cscalar + (2 ^ m.dim - 1)) = cliffBlade K m.dim m.sq (2 ^ m.dim - 1)) {a b : Literal}
    (ha : a.element = 2 ^ m.dim - 1 ∧ a.negated = false) (hb : b.element = 2 ^ m.dim - 1 ∧ b.negated = true) {k n : Nat} (hk : k ≠ 0) (hn : n ≠ 0)
    (hk' : k < 2 ^ 31) (hn' : n < 2 ^ 31) {e : Rpne} (he : gpExpr (a.expr k) (b.expr n) = ok e) : Means I e (((k * n : Nat) : K) • 1) := by
  have := C33_gp_partial (C58_number I a hk hk') (C58_number I b hn hn')
    (by simp [Literal.expr, elementExpr]) (by simp [Literal.expr, elementExpr]) he
  convert this using 1
  rw [ha.1, hb.1, hc, ha.2, hb.2]
  simp only [if_true, Bool.false_eq_true, if_false, map_smul, LinearMap.smul_apply]
  rw [hg, pseudo_sq K m hm hs, smul_smul, ← Rat.cast_smul_eq_qsmul K]
  simp [mul_comm]

/-- **C58.**  In the vector space algebra `k_ps * n_ips` is `k n`: `_ips` is the inverse of `_ps`. -/
theorem C58_inverse [CharZero K] (named : Nat → K)
    (D : CliffordAlgebra (diagForm K 3 (Metric.sq ⟨3, 0, 0⟩)) →ₗ[K] CliffordAlgebra (diagForm K 3 (Metric.sq ⟨3, 0, 0⟩)))
    (w : Nat → CliffordAlgebra (diagForm K 3 (Metric.sq ⟨3, 0, 0⟩)))
    {a b : Literal} (ha : a ∈ vgaLiterals) (hb : b ∈ vgaLiterals) (na : a.name = ['p', 's']) (nb : b.name = ['i', 'p', 's']) {k n : Nat} (hk : k ≠ 0)
    (hn : n ≠ 0) (hk' : k < 2 ^ 31) (hn' : n < 2 ^ 31) {e : Rpne} (he : gpExpr (a.expr k) (b.expr n) = ok e) :
    Means (cliffInterp K 3 (Metric.sq ⟨3, 0, 0⟩) named D w) e (((k * n : Nat) : K) • 1) := by
  have h1 : ∀ l ∈ vgaLiterals, (l.name = ['p', 's'] → l.element = 7 ∧ l.negated = false) ∧ (l.name = ['i', 'p', 's'] → l.element = 7 ∧ l.negated = true) := by
    decide
  refine ips_product K (m := ⟨3, 0, 0⟩) (by decide) (by decide) (cliffInterp K 3 (Metric.sq ⟨3, 0, 0⟩) named D w) (fun _ _ => rfl) (cliffConst_element K ⟨3, 0, 0⟩ named 7)
    ((h1 a ha).1 na) ((h1 b hb).2 nb) hk hn hk' hn' he

/-- **C58.**  And in the conformal algebra. -/
theorem C58_inverse_cga [CharZero K] {m : Metric} (hm : m = ⟨4, 1, 0⟩) (named : Nat → K)
    (D : CliffordAlgebra (diagForm K m.dim m.sq) →ₗ[K] CliffordAlgebra (diagForm K m.dim m.sq))
    (C : Nat → CliffordAlgebra (diagForm K m.dim m.sq) →ₗ[K] CliffordAlgebra (diagForm K m.dim m.sq))
    (w : Nat → CliffordAlgebra (diagForm K m.dim m.sq))
    {a b : Literal} (ha : a ∈ cgaLiterals) (hb : b ∈ cgaLiterals) (na : a.name = ['p', 's']) (nb : b.name = ['i', 'p', 's']) {k n : Nat} (hk : k ≠ 0)
    (hn : n ≠ 0) (hk' : k < 2 ^ 31) (hn' : n < 2 ^ 31) {e : Rpne} (he : gpExpr (a.expr k) (b.expr n) = ok e) :
    Means (nullInterp K m.dim m.sq named D C w) e (((k * n : Nat) : K) • 1) := by
  have h1 : ∀ l ∈ cgaLiterals, (l.name = ['p', 's'] → l.element = 31 ∧ l.negated = false) ∧ (l.name = ['i', 'p', 's'] → l.element = 31 ∧ l.negated = true) := by
    decide
  have h31 : 2 ^ m.dim - 1 = 31 := by rw [hm]; decide
  have hs : geoProduct m (2 ^ m.dim - 1) (2 ^ m.dim - 1) = (0, -1) := by rw [hm]; decide
  have hp : nullElem K m.dim m.sq (2 ^ m.dim - 1) = cliffBlade K m.dim m.sq (2 ^ m.dim - 1) := by rw [h31, hm]; exact C58_pseudo_null K
  exact ips_product K (by rw [hm]; decide) hs (nullInterp K m.dim m.sq named D C w) (fun _ _ => rfl)
    ((nullConst_element K m named _).trans hp) (by rw [h31]; exact (h1 a ha).1 na) (by rw [h31]; exact (h1 b hb).2 nb) hk hn hk' hn' he

example : (gpExpr ((⟨['p', 's'], 7, false⟩ : Literal).expr 2) ((⟨['i', 'p', 's'], 7, true⟩ : Literal).expr 3)).isOk = true := by decide

/-! ## Texts -/

/-- Reading back the generators of an element. -/
def readGenerators (ds : List Char) : Nat := (ds.map fun c => 2 ^ (c.toNat - 48)).sum

theorem generator_table : ∀ e, e < 256 → readGenerators (generatorText 8 0 e) = e ∧ (generatorText 8 0 e).all Char.isDigit = true := by
  decide +kernel

theorem generatorText_inj {e e' : Nat} (h : e < 256) (h' : e' < 256) (he : generatorText 8 0 e = generatorText 8 0 e') : e = e' := by
  rw [← (generator_table e h).1, ← (generator_table e' h').1, he]

theorem digit_of_mem {e : Nat} (h : e < 256) {c : Char} (hc : c ∈ generatorText 8 0 e) : c.isDigit = true :=
  List.all_eq_true.1 (generator_table e h).2 c hc

theorem generatorText_nil {e : Nat} (h : e < 256) (he : generatorText 8 0 e = []) : e = 0 :=
  generatorText_inj h (by decide) (he.trans (by decide))

/-- What follows the number. -/
def suffixText (e : Nat) : List Char := (if e > 0 then ['e'] else []) ++ generatorText 8 0 e

theorem suffix_shape {e : Nat} (h : e < 256) : (e = 0 ∧ suffixText e = []) ∨
    ∃ d ds, suffixText e = 'e' :: d :: ds ∧ generatorText 8 0 e = d :: ds ∧ d.isDigit = true ∧ ∀ c ∈ ds, c.isDigit = true := by
  rcases Nat.eq_zero_or_pos e with rfl | h0
  · left
    exact ⟨rfl, by decide⟩
  · right
    cases hg : generatorText 8 0 e with
    | nil => exact absurd (generatorText_nil h hg) (by omega)
    | cons d ds =>
      refine ⟨d, ds, ?_, rfl, digit_of_mem h (by rw [hg]; simp), fun c hc => digit_of_mem h (by rw [hg]; simp [hc])⟩
      unfold suffixText
      rw [if_pos h0, hg]
      rfl

theorem append_suffix_inj {s t : List Char} (hs : NumberText s) (ht : NumberText t) {e e' : Nat} (h : e < 256) (h' : e' < 256)
    (heq : s ++ suffixText e = t ++ suffixText e') : s = t ∧ e = e' := by
  rcases suffix_shape h with ⟨rfl, hx⟩ | ⟨d, ds, hx, hg, hd, hds⟩ <;> rcases suffix_shape h' with ⟨rfl, hy⟩ | ⟨d', ds', hy, hg', hd', hds'⟩
  · rw [hx, List.append_nil, List.append_nil] at heq
    exact ⟨heq, rfl⟩
  · rw [hx, hy, List.append_nil] at heq
    obtain ⟨c, w, hc, hn⟩ := hs.2 _ _ heq
    simp only [List.cons.injEq] at hc
    rw [← hc.1, hd'] at hn
    cases hn
  · rw [hx, hy, List.append_nil] at heq
    obtain ⟨c, w, hc, hn⟩ := ht.2 _ _ heq.symm
    simp only [List.cons.injEq] at hc
    rw [← hc.1, hd] at hn
    cases hn
  · rw [hx, hy] at heq
    have key : s = t := by
      rcases List.append_eq_append_iff.1 heq with ⟨x, h1, h2⟩ | ⟨x, h1, h2⟩
      · cases x with
        | nil => simpa using h1.symm
        | cons y x =>
          simp only [List.cons_append, List.cons.injEq] at h2
          have : 'e' ∈ d :: ds := by rw [h2.2]; simp
          rcases List.mem_cons.1 this with h | h
          · rw [← h] at hd; exact absurd hd (by decide)
          · exact absurd (hds _ h) (by decide)
      · cases x with
        | nil => simpa using h1
        | cons y x =>
          simp only [List.cons_append, List.cons.injEq] at h2
          have : 'e' ∈ d' :: ds' := by rw [h2.2]; simp
          rcases List.mem_cons.1 this with h | h
          · rw [← h] at hd'; exact absurd hd' (by decide)
          · exact absurd (hds' _ h) (by decide)
    subst key
    refine ⟨rfl, generatorText_inj h h' ?_⟩
    rw [hg, hg']
    have := List.append_cancel_left heq
    simpa using this

theorem space_free {t : List Char} (ht : NumberText t) {e : Nat} (h : e < 256) : ' ' ∉ t ++ suffixText e := by
  intro hm
  rcases List.mem_append.1 hm with hm | hm
  · exact ht.1 hm
  · rcases suffix_shape h with ⟨_, hx⟩ | ⟨d, ds, hx, _, hd, hds⟩
    · rw [hx] at hm; cases hm
    · rw [hx] at hm
      simp only [List.mem_cons] at hm
      rcases hm with hm | hm | hm
      · exact absurd hm (by decide)
      · rw [← hm] at hd; exact absurd hd (by decide)
      · exact absurd (hds _ hm) (by decide)

/-- Words that are followed by a character which they do not contain can be told apart. -/
theorem word_inj {z : Char} {s t a b : List Char} (hs : z ∉ s) (ht : z ∉ t) (ha : a = [] ∨ ∃ u, a = z :: u) (hb : b = [] ∨ ∃ u, b = z :: u)
    (h : s ++ a = t ++ b) : s = t ∧ a = b := by
  induction s generalizing t with
  | nil =>
    cases t with
    | nil => exact ⟨rfl, h⟩
    | cons c t =>
      rcases ha with rfl | ⟨u, rfl⟩
      · simp at h
      · simp only [List.nil_append, List.cons_append, List.cons.injEq] at h
        exact absurd (by rw [h.1]; simp) ht
  | cons c s ih =>
    cases t with
    | nil =>
      rcases hb with rfl | ⟨u, rfl⟩
      · simp at h
      · simp only [List.nil_append, List.cons_append, List.cons.injEq] at h
        exact absurd (by rw [h.1]; simp) hs
    | cons c' t =>
      simp only [List.cons_append, List.cons.injEq] at h
      obtain ⟨h1, h2⟩ := ih (t := t) (fun hm => hs (by simp [hm])) (fun hm => ht (by simp [hm])) h.2
      exact ⟨by rw [h.1, h1], h2⟩

/-- The text after the first component. -/
def restText {K : Type} (num : K → List Char) (es : List Nat) (xs : List K) : List Char :=
  match es, xs with
  | [], _ | _, [] => []
  | es, xs => [' ', '+', ' '] ++ componentsText num es xs

theorem componentsText_cons {K : Type} (num : K → List Char) (e : Nat) (x : K) : ∀ {es : List Nat} {xs : List K}, xs.length = es.length →
    componentsText num (e :: es) (x :: xs) = (num x ++ suffixText e) ++ restText num es xs
  | [], [], _ => by simp [componentsText, restText, componentText, suffixText]
  | e' :: es, x' :: xs, _ => by simp [componentsText, restText, componentText, suffixText]

theorem restText_shape {K : Type} (num : K → List Char) : ∀ (es : List Nat) (xs : List K), restText num es xs = [] ∨ ∃ u, restText num es xs = ' ' :: u
  | [], _ => by simp [restText]
  | _ :: _, [] => by simp [restText]
  | e :: es, x :: xs => Or.inr ⟨_, rfl⟩

theorem componentsText_inj {K : Type} {num : K → List Char} (hnum : ∀ x, NumberText (num x)) : ∀ {es es' : List Nat} {xs xs' : List K},
    xs.length = es.length → xs'.length = es'.length → (∀ e ∈ es, e < 256) → (∀ e ∈ es', e < 256) → restText num es xs = restText num es' xs' →
    es = es' ∧ xs.map num = xs'.map num
  | [], [], [], [], _, _, _, _, _ => ⟨rfl, rfl⟩
  | [], e' :: es', [], x' :: xs', _, _, _, _, h => by simp [restText] at h
  | e :: es, [], x :: xs, [], _, _, _, _, h => by simp [restText] at h
  | e :: es, e' :: es', x :: xs, x' :: xs', h1, h2, h3, h4, h => by
    have l1 : xs.length = es.length := by simpa using h1
    have l2 : xs'.length = es'.length := by simpa using h2
    have h5 : componentsText num (e :: es) (x :: xs) = componentsText num (e' :: es') (x' :: xs') := by
      have := h
      simp only [restText] at this
      exact List.append_cancel_left this
    rw [componentsText_cons num e x l1, componentsText_cons num e' x' l2] at h5
    obtain ⟨h6, h7⟩ := word_inj (space_free (hnum x) (h3 e (by simp))) (space_free (hnum x') (h4 e' (by simp))) (restText_shape num es xs)
      (restText_shape num es' xs') h5
    obtain ⟨h8, h9⟩ := append_suffix_inj (hnum x) (hnum x') (h3 e (by simp)) (h4 e' (by simp)) h6
    obtain ⟨h10, h11⟩ := componentsText_inj hnum l1 l2 (fun e he => h3 e (by simp [he])) (fun e he => h4 e (by simp [he])) h7
    exact ⟨by rw [h9, h10], by simp [h8, h11]⟩

/-- **C59.**  Two entities that are written with the same text have the same elements, and their coefficients are written alike.  Missing: the
entity without elements, which is written like the scalar zero (`C59_zero_false`). -/
theorem C59_text_partial {K : Type} {num : K → List Char} (hnum : ∀ x, NumberText (num x)) {x y : Entity K} (hx : x.data.length = x.elements.length)
    (hy : y.data.length = y.elements.length) (ex : ∀ e ∈ x.elements, e < 2 ^ 8) (ey : ∀ e ∈ y.elements, e < 2 ^ 8) (x0 : x.elements ≠ [])
    (y0 : y.elements ≠ []) (h : x.toText num = y.toText num) : x.elements = y.elements ∧ x.data.map num = y.data.map num := by
  unfold Entity.toText at h
  rw [if_neg x0, if_neg y0] at h
  obtain ⟨es, xs⟩ := x
  obtain ⟨es', xs'⟩ := y
  dsimp only at *
  refine componentsText_inj hnum hx hy ex ey ?_
  match es, xs, es', xs', hx, hy, x0, y0 with
  | e :: es, x :: xs, e' :: es', x' :: xs', _, _, _, _ =>
    simp only [restText]
    rw [h]

/-- The text of digits, as for integers. -/
def exNum (n : Nat) : List Char := (Nat.repr n).toList

theorem exNum_digits (n : Nat) : ∀ c ∈ exNum n, c.isDigit = true := by
  intro c hc
  unfold exNum at hc
  rw [Nat.toList_repr] at hc
  exact Nat.isDigit_of_mem_toDigits (by decide) (by decide) hc

theorem exNum_text (n : Nat) : NumberText (exNum n) := by
  refine ⟨fun h => absurd (exNum_digits n _ h) (by decide), fun u v h => ?_⟩
  exact absurd (exNum_digits n 'e' (by rw [h]; simp)) (by decide)

example : (⟨[0, 6], [3, 5]⟩ : Entity Nat).toText exNum = ['3', ' ', '+', ' ', '5', 'e', '1', '2'] := by decide

example {y : Entity Nat} (hy : y.data.length = y.elements.length) (ey : ∀ e ∈ y.elements, e < 2 ^ 8) (y0 : y.elements ≠ [])
    (h : y.toText exNum = ['3', ' ', '+', ' ', '5', 'e', '1', '2']) : y.elements = [0, 6] :=
  (C59_text_partial (x := ⟨[0, 6], [3, 5]⟩) exNum_text rfl hy (by decide) ey (by decide) y0 (Eq.trans (by decide) h.symm)).1.symm

/-- The entity without elements is written like the scalar zero. -/
theorem C59_zero_false : (⟨[], []⟩ : Entity Nat).toText exNum = (⟨[0], [0]⟩ : Entity Nat).toText exNum := by decide

theorem zero_text {num : K → List Char} (hnum : ∀ x, NumberText (num x)) (hinj : ∀ x y, num x = num y → x = y) (h0 : num 0 = ['0']) {x : Entity K}
    (hx : x.data.length = x.elements.length) (ex : ∀ e ∈ x.elements, e < 2 ^ 8) (h : x.toText num = ['0']) {V : Type} [AddCommGroup V] [Module K V]
    (β : Nat → V) : pairsVal β x.elements x.data = 0 := by
  obtain ⟨es, xs⟩ := x
  dsimp only at *
  match es, xs, hx with
  | [], [], _ => rfl
  | e :: es, x :: xs, hx =>
    unfold Entity.toText at h
    have l1 : xs.length = es.length := by simpa using hx
    rw [if_neg (by simp), componentsText_cons num e x l1] at h
    have h1 : (num x ++ suffixText e) ++ restText num es xs = (num 0 ++ suffixText 0) ++ [] := by
      rw [h, h0]; decide
    obtain ⟨h2, h3⟩ := word_inj (space_free (hnum x) (ex e (by simp))) (space_free (hnum 0) (by decide)) (restText_shape num es xs) (Or.inl rfl) h1
    obtain ⟨h4, rfl⟩ := append_suffix_inj (hnum x) (hnum 0) (ex e (by simp)) (by decide) h2
    have hx0 := hinj _ _ h4
    subst hx0
    match es, xs, l1, h3 with
    | [], [], _, _ => simp [pairsVal]
    | _ :: _, _ :: _, _, h3 => simp [restText] at h3

/-- **C59.**  If every number is written in its own way and zero as `0`, two entities with the same text have the same value, whatever the basis. -/
theorem C59_value {num : K → List Char} (hnum : ∀ x, NumberText (num x)) (hinj : ∀ x y, num x = num y → x = y) (h0 : num 0 = ['0']) {x y : Entity K}
    (hx : x.data.length = x.elements.length) (hy : y.data.length = y.elements.length) (ex : ∀ e ∈ x.elements, e < 2 ^ 8)
    (ey : ∀ e ∈ y.elements, e < 2 ^ 8) (h : x.toText num = y.toText num) {V : Type} [AddCommGroup V] [Module K V] (β : Nat → V) :
    pairsVal β x.elements x.data = pairsVal β y.elements y.data := by
  have hz : ∀ z : Entity K, z.elements = [] → z.toText num = ['0'] := fun z hz => by unfold Entity.toText; rw [if_pos hz]
  by_cases x0 : x.elements = []
  · rw [zero_text K hnum hinj h0 hx ex (hz x x0), zero_text K hnum hinj h0 hy ey (h ▸ hz x x0)]
  · by_cases y0 : y.elements = []
    · rw [zero_text K hnum hinj h0 hy ey (hz y y0), zero_text K hnum hinj h0 hx ex (h.symm ▸ hz y y0)]
    · obtain ⟨h1, h2⟩ := C59_text_partial hnum hx hy ex ey x0 y0 h
      rw [h1, List.map_injective_iff.2 (fun a b => hinj a b) h2]

/-- A way to write rational numbers. -/
def exRat (q : ℚ) : List Char :=
  (if q.num < 0 then ['-'] else []) ++ (exNum q.num.natAbs ++ if q.den = 1 then [] else '/' :: exNum q.den)

theorem exRat_chars (q : ℚ) : ∀ c ∈ exRat q, c.isDigit = true ∨ c = '-' ∨ c = '/' := by
  intro c hc
  unfold exRat at hc
  simp only [List.mem_append] at hc
  rcases hc with hc | hc | hc
  · split at hc
    · right; left; simpa using hc
    · cases hc
  · exact Or.inl (exNum_digits _ c hc)
  · split at hc
    · cases hc
    · rcases List.mem_cons.1 hc with hc | hc
      · exact Or.inr (Or.inr hc)
      · exact Or.inl (exNum_digits _ c hc)

theorem exRat_text (q : ℚ) : NumberText (exRat q) := by
  refine ⟨fun h => ?_, fun u v h => ?_⟩
  · exact absurd (exRat_chars q _ h) (by decide)
  · exact absurd (exRat_chars q 'e' (by rw [h]; simp)) (by decide)

theorem exNum_inj {a b : Nat} (h : exNum a = exNum b) : a = b := Nat.repr_injective (String.toList_inj.1 h)

theorem exRat_inj (p q : ℚ) (h : exRat p = exRat q) : p = q := by
  unfold exRat at h
  have key : ∀ a b : ℚ, exNum a.num.natAbs ++ (if a.den = 1 then [] else '/' :: exNum a.den) =
      exNum b.num.natAbs ++ (if b.den = 1 then [] else '/' :: exNum b.den) → a.num.natAbs = b.num.natAbs ∧ a.den = b.den := by
    intro a b h
    obtain ⟨h1, h2⟩ := word_inj (z := '/') (fun hm => absurd (exNum_digits _ _ hm) (by decide)) (fun hm => absurd (exNum_digits _ _ hm) (by decide))
      (by split <;> simp) (by split <;> simp) h
    refine ⟨exNum_inj h1, ?_⟩
    split at h2 <;> split at h2
    · omega
    · cases h2
    · cases h2
    · simp only [List.cons.injEq, true_and] at h2
      exact exNum_inj h2
  have minus : ∀ a b : ℚ, ['-'] ++ (exNum a.num.natAbs ++ (if a.den = 1 then [] else '/' :: exNum a.den)) ≠
      [] ++ (exNum b.num.natAbs ++ (if b.den = 1 then [] else '/' :: exNum b.den)) := by
    intro a b h
    cases hb : exNum b.num.natAbs with
    | nil =>
      rw [hb, List.nil_append, List.nil_append] at h
      by_cases h1 : b.den = 1
      · rw [if_pos h1] at h; cases h
      · rw [if_neg h1] at h
        simp only [List.cons_append, List.cons.injEq] at h
        exact absurd h.1 (by decide)
    | cons c l =>
      rw [hb] at h
      simp only [List.cons_append, List.nil_append, List.cons.injEq] at h
      exact absurd (exNum_digits b.num.natAbs '-' (by rw [hb, ← h.1]; simp)) (by decide)
  by_cases hp : p.num < 0 <;> by_cases hq : q.num < 0
  · rw [if_pos hp, if_pos hq] at h
    obtain ⟨h1, h2⟩ := key p q (List.append_cancel_left h)
    exact Rat.ext (by omega) h2
  · rw [if_pos hp, if_neg hq] at h
    exact absurd h (minus p q)
  · rw [if_neg hp, if_pos hq] at h
    exact absurd h.symm (minus q p)
  · rw [if_neg hp, if_neg hq] at h
    obtain ⟨h1, h2⟩ := key p q h
    exact Rat.ext (by omega) h2

example (y : Entity ℚ) (hy : y.data.length = y.elements.length) (ey : ∀ e ∈ y.elements, e < 2 ^ 8)
    (h : (⟨[0, 6], [3 / 2, -5]⟩ : Entity ℚ).toText exRat = y.toText exRat) (β : Nat → ℚ) :
    pairsVal (K := ℚ) β [0, 6] [3 / 2, -5] = pairsVal (K := ℚ) β y.elements y.data :=
  C59_value ℚ exRat_text exRat_inj (by decide) (x := ⟨[0, 6], [3 / 2, -5]⟩) rfl hy (by decide) ey h β

/-- **C59.**  In the vector space algebra and the projective algebras an element is written with the name of its literal. -/
theorem C59_names {l : Literal} (hl : l ∈ vgaLiterals ∨ l ∈ pgaLiterals ∨ l ∈ pga2Literals) {ds : List Char} (hn : l.name = 'e' :: ds)
    {K : Type} (num : K → List Char) (x : K) : (⟨[l.element], [x]⟩ : Entity K).toText num = num x ++ l.name := by
  have h : ∀ l ∈ vgaLiterals ++ (pgaLiterals ++ pga2Literals), l.name.head? = some 'e' →
      (if l.element > 0 then ['e'] else []) ++ generatorText 8 0 l.element = l.name := by decide
  unfold Entity.toText
  rw [if_neg (by simp)]
  simp only [componentsText, componentText]
  rw [h l (by simp only [List.mem_append]; exact hl) (by rw [hn]; rfl)]

example : (⟨[14], [3]⟩ : Entity Nat).toText exNum = exNum 3 ++ ['e', '1', '2', '3'] :=
  C59_names (l := ⟨['e', '1', '2', '3'], 14, false⟩) (Or.inr (Or.inl (by decide))) rfl exNum 3

/-- **C59 fails for the names in the conformal algebra**: `1_e1` is written `1e0`, and `1_no` is written `1e3`. -/
theorem C59_names_false : (⟨['e', '1'], 1, false⟩ : Literal) ∈ cgaLiterals ∧ (⟨[1], [1]⟩ : Entity Nat).toText exNum = ['1', 'e', '0'] ∧
    (⟨['n', 'o'], 8, false⟩ : Literal) ∈ cgaLiterals ∧ (⟨[8], [1]⟩ : Entity Nat).toText exNum = ['1', 'e', '3'] := by decide

end Gal
