import Verif.Crc
import Mathlib.Data.Nat.Bitwise
import Mathlib.Logic.Function.Iterate
import Mathlib.Data.Fintype.EquivFin

/-!
# Property C07: checksums

Specification: the reflected CRC-32 computed one bit at a time.
-/

namespace Gal

/-- One bit of polynomial division by the reflected polynomial 0xEDB88320. -/
def crcBit (c : Nat) : Nat := if c % 2 = 1 then (c >>> 1) ^^^ 0xEDB88320 else c >>> 1

/-- One byte. -/
def crcByte (c b : Nat) : Nat := crcBit^[8] (c ^^^ b)

/-- CRC-32 of a byte string: initial value all ones, final complement. -/
def crcSpec (bytes : List Nat) : Nat := bytes.foldl crcByte 0xffffffff ^^^ 0xffffffff

/-- The four little-endian bytes of a 32-bit word. -/
def leBytes (x : Nat) : List Nat := [x % 256, x / 256 % 256, x / 65536 % 256, x / 16777216 % 256]

theorem crcTable_correct : ∀ i : Fin 256, crcTable[i.val]? = some (crcBit^[8] i.val) := by decide +kernel

theorem crcBit_lt {c : Nat} (h : c < 2 ^ 32) : crcBit c < 2 ^ 32 := by
  unfold crcBit
  have h1 : c >>> 1 < 2 ^ 32 := by rw [Nat.shiftRight_eq_div_pow]; omega
  split
  · exact Nat.xor_lt_two_pow h1 (by decide)
  · exact h1

theorem xor_mod_two (a b : Nat) : (a ^^^ b) % 2 = (a % 2 + b % 2) % 2 := by
  have := Nat.xor_mod_two_eq (m := a) (n := b)
  omega

/-- Polynomial division is linear over xor. -/
theorem crcBit_xor (a b : Nat) : crcBit (a ^^^ b) = crcBit a ^^^ crcBit b := by
  unfold crcBit
  rw [xor_mod_two, Nat.shiftRight_xor_distrib]
  rcases Nat.mod_two_eq_zero_or_one a with ha | ha <;> rcases Nat.mod_two_eq_zero_or_one b with hb | hb
  all_goals simp only [ha, hb]
  · simp
  · simp [Nat.xor_assoc]
  · simp [Nat.xor_assoc, Nat.xor_comm (b >>> 1)]
  · simp only [Nat.reduceAdd, Nat.reduceMod, if_neg (by decide : ¬ (0 = 1)), if_true]
    rw [Nat.xor_assoc, Nat.xor_comm (b >>> 1), ← Nat.xor_assoc 0xEDB88320, Nat.xor_self, Nat.zero_xor]

theorem crcBits_xor (n a b : Nat) : crcBit^[n] (a ^^^ b) = crcBit^[n] a ^^^ crcBit^[n] b := by
  induction n generalizing a b with
  | zero => rfl
  | succ n ih => rw [Function.iterate_succ_apply, Function.iterate_succ_apply, Function.iterate_succ_apply, crcBit_xor, ih]

/-- Low zero bits are just shifted out. -/
theorem crcBits_mul (n h : Nat) : crcBit^[n] (h * 2 ^ n) = h := by
  induction n with
  | zero => simp
  | succ n ih =>
    rw [Function.iterate_succ_apply]
    have : crcBit (h * 2 ^ (n + 1)) = h * 2 ^ n := by
      unfold crcBit
      have e : h * 2 ^ (n + 1) = 2 * (h * 2 ^ n) := by rw [Nat.pow_succ]; ac_rfl
      rw [e, if_neg (by omega), Nat.shiftRight_eq_div_pow]
      omega
    rw [this, ih]

theorem split_low (c : Nat) : c = (c >>> 8 * 2 ^ 8) ^^^ (c &&& 255) := by
  have h1 : c &&& 255 = c % 2 ^ 8 := Nat.and_two_pow_sub_one_eq_mod c 8
  rw [h1, Nat.shiftRight_eq_div_pow]
  apply Nat.eq_of_testBit_eq
  intro i
  rw [Nat.testBit_xor, Nat.testBit_mul_two_pow, Nat.testBit_div_two_pow, Nat.testBit_mod_two_pow]
  by_cases h : i < 8
  · simp [h, show ¬ 8 ≤ i by omega]
  · simp [h, show 8 ≤ i by omega]

theorem and_255_lt (c : Nat) : c &&& 255 < 256 := by
  rw [Nat.and_two_pow_sub_one_eq_mod c 8]; omega

/-- The table-driven byte step is eight bit steps. -/
theorem table_step (c b : Nat) (hb : b < 256) :
    ∃ t, crcTable[(c &&& 0xff) ^^^ b]? = some t ∧ (c >>> 8) ^^^ t = crcByte c b := by
  have hi : (c &&& 0xff) ^^^ b < 256 := Nat.xor_lt_two_pow (n := 8) (and_255_lt c) hb
  refine ⟨_, crcTable_correct ⟨_, hi⟩, ?_⟩
  unfold crcByte
  conv_rhs => rw [split_low c, Nat.xor_assoc, crcBits_xor, crcBits_mul]

/-- C07: `crc32_8` is the CRC-32 of one byte; the table is never read out of bounds. -/
theorem C07_crc32_8 (b : Nat) (h : b < 256) : crc32_8 b = some (crcSpec [b]) := by
  unfold crc32_8
  obtain ⟨t, h1, h2⟩ := table_step 0xffffffff b h
  simp only [h1, Option.bind_eq_bind, Option.bind_some]
  simp only [not32, crcSpec, List.foldl, ← h2]
  rfl

theorem and_255 (x : Nat) : x &&& 255 = x % 256 := Nat.and_two_pow_sub_one_eq_mod x 8

/-- C07: `crc32` is the reflected IEEE CRC-32 of the four little-endian bytes; the table is never read out of bounds. -/
theorem C07_crc32 (x : Nat) : crc32 x = some (crcSpec (leBytes x)) := by
  have step : ∀ n c y, ∃ t, crcLoop (n + 1) c y = crcLoop n t (y / 256) ∧ t = crcByte c (y % 256) := by
    intro n c y
    obtain ⟨t, h1, h2⟩ := table_step c (y % 256) (Nat.mod_lt _ (by decide))
    refine ⟨_, ?_, rfl⟩
    rw [← h2]
    rw [crcLoop, show y &&& 0xff = y % 256 from and_255 y, h1]
    simp only [Option.bind_eq_bind, Option.bind_some]
    rw [Nat.shiftRight_eq_div_pow y 8]
  unfold crc32 crcSpec leBytes
  obtain ⟨t1, e1, rfl⟩ := step 3 0xffffffff x
  obtain ⟨t2, e2, rfl⟩ := step 2 (crcByte 0xffffffff (x % 256)) (x / 256)
  obtain ⟨t3, e3, rfl⟩ := step 1 (crcByte (crcByte 0xffffffff (x % 256)) (x / 256 % 256)) (x / 256 / 256)
  obtain ⟨t4, e4, rfl⟩ := step 0 (crcByte (crcByte (crcByte 0xffffffff (x % 256)) (x / 256 % 256)) (x / 256 / 256 % 256))
    (x / 256 / 256 / 256)
  rw [e1, e2, e3, e4]
  simp only [crcLoop, Option.bind_eq_bind, Option.bind_some, List.foldl]
  rw [Nat.div_div_eq_div_mul, Nat.div_div_eq_div_mul]
  rfl

/-- The standard check word: the CRC-32 of the bytes "1234". -/
example : crc32 0x34333231 = some 0x9be3e0a3 := by decide

theorem crcBit_injective {a b : Nat} (ha : a < 2 ^ 32) (hb : b < 2 ^ 32) (h : crcBit a = crcBit b) : a = b := by
  -- the top bit of the result is the bit that was shifted out
  have top : ∀ c, c < 2 ^ 32 → (crcBit c).testBit 31 = decide (c % 2 = 1) := by
    intro c hc
    have h1 : (c >>> 1).testBit 31 = false := by
      apply Nat.testBit_lt_two_pow
      rw [Nat.shiftRight_eq_div_pow]; omega
    unfold crcBit
    split
    · rename_i h
      rw [Nat.testBit_xor, h1, show Nat.testBit 0xEDB88320 31 = true by decide]; simp [h]
    · rename_i h
      rw [h1]; simp [h]
  have hp : decide (a % 2 = 1) = decide (b % 2 = 1) := by rw [← top a ha, ← top b hb, h]
  have hp' : a % 2 = 1 ↔ b % 2 = 1 := by simpa using hp
  have hs : a >>> 1 = b >>> 1 := by
    unfold crcBit at h
    by_cases h1 : a % 2 = 1
    · rw [if_pos h1, if_pos (hp'.1 h1)] at h
      exact Nat.xor_left_injective h
    · rw [if_neg h1, if_neg (fun h2 => h1 (hp'.2 h2))] at h
      exact h
  rw [Nat.shiftRight_eq_div_pow, Nat.shiftRight_eq_div_pow] at hs
  omega

theorem crcBits_injective (n : Nat) : ∀ {a b : Nat}, a < 2 ^ 32 → b < 2 ^ 32 → crcBit^[n] a = crcBit^[n] b → a = b := by
  induction n with
  | zero => intro a b _ _ h; exact h
  | succ n ih =>
    intro a b ha hb h
    rw [Function.iterate_succ_apply, Function.iterate_succ_apply] at h
    exact crcBit_injective ha hb (ih (crcBit_lt ha) (crcBit_lt hb) h)

theorem crcBits_lt (n : Nat) : ∀ {c : Nat}, c < 2 ^ 32 → crcBit^[n] c < 2 ^ 32 := by
  induction n with
  | zero => intro c h; exact h
  | succ n ih => intro c h; rw [Function.iterate_succ_apply]; exact ih (crcBit_lt h)

/-- Running the four bytes of a word is the same as xoring the word in and running 32 bit steps. -/
theorem foldl_leBytes (c x : Nat) (hx : x < 2 ^ 32) : (leBytes x).foldl crcByte c = crcBit^[32] (c ^^^ x) := by
  have key : ∀ (n y c : Nat), crcBit^[n + 8] (c ^^^ y) = crcBit^[n] (crcByte c (y % 256) ^^^ (y / 256)) := by
    intro n y c
    rw [Function.iterate_add_apply]
    congr 1
    conv_lhs => rw [split_low y, ← Nat.xor_assoc, Nat.xor_comm c, Nat.xor_assoc, crcBits_xor, crcBits_mul,
      Nat.xor_comm, and_255, Nat.shiftRight_eq_div_pow]
    rfl
  rw [show (32 : Nat) = 24 + 8 by rfl, key, show (24 : Nat) = 16 + 8 by rfl, key, show (16 : Nat) = 8 + 8 by rfl, key,
    show (8 : Nat) = 0 + 8 by rfl, key]
  have h0 : x / 256 / 256 / 256 / 256 = 0 := by omega
  rw [h0, Nat.xor_zero]
  simp only [leBytes, List.foldl, Function.iterate_zero, id]
  rw [Nat.div_div_eq_div_mul, Nat.div_div_eq_div_mul]

/-- C07: distinct 32-bit words never receive the same checksum. -/
theorem C07_crc32_injective (x y : Nat) (hx : x < 2 ^ 32) (hy : y < 2 ^ 32) (h : crc32 x = crc32 y) : x = y := by
  rw [C07_crc32, C07_crc32, Option.some_inj] at h
  unfold crcSpec at h
  rw [foldl_leBytes _ _ hx, foldl_leBytes _ _ hy] at h
  have h1 := Nat.xor_left_injective h
  have h2 := crcBits_injective 32 (Nat.xor_lt_two_pow (by decide) hx) (Nat.xor_lt_two_pow (by decide) hy) h1
  exact Nat.xor_right_injective h2

example : ∃ x y : Nat, x < 2 ^ 32 ∧ y < 2 ^ 32 ∧ x ≠ y ∧ crc32 x ≠ crc32 y :=
  ⟨0xdeadbeef, 0xdeadbeee, by decide, by decide, by decide, by decide⟩

/-- C07: checksums are 32-bit words. -/
theorem C07_crc32_range (x : Nat) (hx : x < 2 ^ 32) : ∃ c, crc32 x = some c ∧ c < 2 ^ 32 := by
  refine ⟨_, C07_crc32 x, ?_⟩
  unfold crcSpec
  rw [foldl_leBytes _ _ hx]
  exact Nat.xor_lt_two_pow (crcBits_lt 32 (Nat.xor_lt_two_pow (by decide) hx)) (by decide)

/-- C07: on 32-bit words the checksum is a bijection, so every checksum value is also hit. -/
theorem C07_crc32_surjective (c : Nat) (hc : c < 2 ^ 32) : ∃ x, x < 2 ^ 32 ∧ crc32 x = some c := by
  let f : Fin (2 ^ 32) → Fin (2 ^ 32) := fun x => ⟨(C07_crc32_range x.val x.isLt).choose, (C07_crc32_range x.val x.isLt).choose_spec.2⟩
  have hf : ∀ x, crc32 x.val = some (f x).val := fun x => (C07_crc32_range x.val x.isLt).choose_spec.1
  have hinj : Function.Injective f := by
    intro x y h
    apply Fin.ext
    apply C07_crc32_injective _ _ x.isLt y.isLt
    rw [hf, hf, h]
  obtain ⟨x, hx⟩ := (Finite.injective_iff_surjective.1 hinj) ⟨c, hc⟩
  exact ⟨x.val, x.isLt, by rw [hf, hx]⟩

end Gal
