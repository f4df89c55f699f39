import Verif.Base

/-!
# Bit utilities (numeric.hpp:93-159, 507-519)

`uintN_t` values are naturals; every definition that could leave the range wraps explicitly.
-/

namespace Gal

/-- One smearing step `s |= s >> k` (numeric.hpp:105-109, 119-124). -/
def smear (s k : Nat) : Nat := s ||| (s >>> k)

/-- `next_pow_2` for a `w`-bit type (numeric.hpp:93-128) with the list of shifts used for that width. -/
def nextPow2 (w : Nat) (shifts : List Nat) (s : Nat) : Nat :=
  if s = 0 then 0
  else (shifts.foldl smear (s - 1) + 1) % 2 ^ w

/-- `next_pow_2<uint32_t>` (numeric.hpp:97-111). -/
def nextPow2_32 (s : Nat) : Nat := nextPow2 32 [1, 2, 4, 8, 16] s

/-- `next_pow_2<uint64_t>` (numeric.hpp:112-127). -/
def nextPow2_64 (s : Nat) : Nat := nextPow2 64 [1, 2, 4, 8, 16, 32] s

/-- `rot32` (numeric.hpp:131-134); the shift to the left wraps at 32 bits. -/
def rot32 (x : Nat) : Nat := (x >>> 8) ||| (((x &&& 0xff) <<< 24) % 2 ^ 32)

/-- `__builtin_clz` on the low `n` bits: number of leading zeros (numeric.hpp:140). -/
def clz : Nat → Nat → Nat
  | 0, _ => 0
  | n + 1, x => if x.testBit n then 0 else 1 + clz n x

/-- `31 - __builtin_clz(input)` (numeric.hpp:140) for callers that have established `input > 0`. -/
def lsi (x : Nat) : Nat := 31 - clz 32 x

/-- `leading_set_index` with GCC/Clang (numeric.hpp:137-140); `none` for the undefined `__builtin_clz(0)`. -/
def leadingSetIndex (x : Nat) : Option Nat := if x = 0 then none else some (lsi x)

/-- `leading_set_index` with MSVC (numeric.hpp:141-150).  `_BitScanReverse` stores the index of the most significant set
bit (here `31 - clz`), and the code subtracts it from 31 once more. -/
def leadingSetIndexMsvc (x : Nat) : Nat := if x = 0 then 32 else 31 - (31 - clz 32 x)

/-- `__builtin_popcount` on the low `n` bits (numeric.hpp:157). -/
def popBits : Nat → Nat → Nat
  | 0, _ => 0
  | n + 1, x => x % 2 + popBits n (x / 2)

/-- `pop_count` (numeric.hpp:154-161). -/
def popCount (x : Nat) : Nat := popBits 32 x

/-- The loop of `next_even` (numeric.hpp:513-518); `none` when `fuel` iterations were not enough. -/
def nextEvenLoop : Nat → Nat → Option Nat
  | 0, x => if popCount x % 2 = 1 then none else some x
  | fuel + 1, x => if popCount x % 2 = 1 then nextEvenLoop fuel ((x + 1) % 2 ^ 32) else some x

/-- `next_even` (numeric.hpp:509-520) with a bound on the number of loop iterations. -/
def nextEven (fuel : Nat) (x : Nat) : Option Nat := nextEvenLoop fuel ((x + 1) % 2 ^ 32)

end Gal
