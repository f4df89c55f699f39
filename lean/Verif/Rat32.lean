import Verif.Base

/-!
# `rat`: the compile-time rational (numeric.hpp:163-505)

Signed 32-bit arithmetic is checked: every intermediate value goes through `chk`.
-/

namespace Gal

open Out

/-- `rat` (numeric.hpp:171-174). -/
structure Rat32 where
  num : Int := 0
  den : Int := 1
  deriving DecidableEq, Repr, Inhabited

namespace Rat32

/-- `one` (numeric.hpp:255). -/
def one : Rat32 := ⟨1, 1⟩
/-- `minus_one` (numeric.hpp:256). -/
def minusOne : Rat32 := ⟨-1, 1⟩
/-- `one_half` (numeric.hpp:257). -/
def oneHalf : Rat32 := ⟨1, 2⟩
/-- `minus_one_half` (numeric.hpp:258). -/
def minusOneHalf : Rat32 := ⟨-1, 2⟩
/-- `zero` (numeric.hpp:259). -/
def zero : Rat32 := ⟨0, 1⟩

/-- `rat::is_zero` (numeric.hpp:176-179). -/
def isZero (r : Rat32) : Bool := r.num == 0

/-- `rat::is_unit` (numeric.hpp:181-184). -/
def isUnit (r : Rat32) : Bool := r.num == r.den

/-- `rat::reciprocal` (numeric.hpp:186-189): swaps the fields without looking at the sign. -/
def reciprocal (r : Rat32) : Rat32 := ⟨r.den, r.num⟩

/-- `rat::negation` (numeric.hpp:191-194) and unary `operator-` (numeric.hpp:401-404). -/
def neg (r : Rat32) : Out Rat32 := do
  let n ← chk (-r.num)
  return ⟨n, r.den⟩

/-- The common `auto gcd = std::gcd(n, d); if (gcd > 1) return {n / gcd, d / gcd}; else return {n, d}` pattern
(numeric.hpp:212-217, 234-239, 302-310, 339-347, 354-362).  The divisions cannot be undefined because `gcd > 1`. -/
def reduce (n d : Int) : Out Rat32 := do
  let g ← cgcd n d
  if g > 1 then return ⟨n.tdiv g, d.tdiv g⟩ else return ⟨n, d⟩

/-- `rat::operator*=` (numeric.hpp:202-220): reduces only when the new denominator exceeds 1. -/
def mulAssign (a b : Rat32) : Out Rat32 := do
  let n ← chk (a.num * b.num)
  let d ← chk (a.den * b.den)
  if n = 0 then return ⟨n, 1⟩
  else if d > 1 then reduce n d
  else return ⟨n, d⟩

/-- `rat::operator/=` (numeric.hpp:196-200). -/
def divAssign (a b : Rat32) : Out Rat32 := mulAssign a (reciprocal b)

/-- `rat::operator+=` (numeric.hpp:222-243). -/
def addAssign (a b : Rat32) : Out Rat32 := do
  let x ← chk (a.num * b.den)
  let y ← chk (b.num * a.den)
  let n ← chk (x + y)
  if n = 0 then return ⟨n, 1⟩
  else
    let d ← chk (a.den * b.den)
    if d > 1 then reduce n d else return ⟨n, d⟩

/-- `detail::abs(num_t)` (numeric.hpp:263-266). -/
def cabs (x : Int) : Out Int := if x < 0 then chk (-x) else ok x

/-- `detail::overflow_gate` (numeric.hpp:273-371).  Simplification: the two `double` comparisons
`abs(n/d) < 1e-7` and `abs(n/d/d) < 1e-7` (lines 321-330) are modelled as exact rational comparisons
`|n| * 10^7 < d` and `|n| * 10^7 < d * d`.  The ghost flag is raised on the three rounding branches. -/
def gate (r : Rat32) : Out Rat32 :=
  if r.den < 1024 then reduce r.num r.den
  else do
    let g ← cgcd r.num r.den
    if g > 1 then return ⟨r.num.tdiv g, r.den.tdiv g⟩
    else if (r.num.natAbs : Int) * 10000000 < r.den then .val zero true
    else if (r.num.natAbs : Int) * 10000000 < r.den * r.den then
      if r.num.tmod 2 = 1 then do
        let r' ← reduce ((r.num - 1).tdiv 2) (r.den.tdiv 2)
        .val r' true
      else do
        let r' ← reduce (r.num.tdiv 2) ((r.den - 1).tdiv 2)
        .val r' true
    else return r

/-- `operator==(rat, rat)` (numeric.hpp:374-379), with `gcd2 = gcd(rhs.den, rhs.den)` as written. -/
def eq (a b : Rat32) : Out Bool := do
  let g1 ← cgcd a.num a.den
  let g2 ← cgcd b.den b.den
  let n1 ← cdiv a.num g1
  let n2 ← cdiv b.num g2
  if n1 = n2 then
    let d1 ← cdiv a.den g1
    let d2 ← cdiv b.den g2
    return d1 == d2
  else return false

/-- `operator!=(rat, int)` (numeric.hpp:381-384). -/
def neInt (a : Rat32) (n : Int) : Bool := a.den != 1 || a.num != n

/-- `operator!=(rat, rat)` (numeric.hpp:386-389). -/
def ne (a b : Rat32) : Bool := a.num != b.num || a.den != b.den

/-- `operator<(rat, rat)` (numeric.hpp:391-394). -/
def lt (a b : Rat32) : Out Bool := do
  let x ← chk (a.num * b.den)
  let y ← chk (b.num * a.den)
  return decide (x < y)

/-- `operator>(rat, rat)` (numeric.hpp:396-399). -/
def gt (a b : Rat32) : Out Bool := do
  let x ← chk (a.num * b.den)
  let y ← chk (b.num * a.den)
  return decide (x > y)

/-- `operator*(int, rat)` (numeric.hpp:406-416). -/
def imul (k : Int) (r : Rat32) : Out Rat32 :=
  if k = 0 ∨ r.num = 0 then ok zero
  else do
    let n ← chk (r.num * k)
    return ⟨n, r.den⟩

/-- `operator*(rat, rat)` (numeric.hpp:418-434). -/
def mul (a b : Rat32) : Out Rat32 := do
  let n ← chk (a.num * b.num)
  let d ← chk (a.den * b.den)
  if n = 0 then return zero
  else if d > 1 then gate ⟨n, d⟩
  else return ⟨n, d⟩

/-- `operator/(rat, int)` (numeric.hpp:436-448). -/
def divInt (a : Rat32) (k : Int) : Out Rat32 :=
  if k < 0 then do
    let n ← chk (-a.num)
    let k' ← chk (-k)
    let d ← chk (a.den * k')
    gate ⟨n, d⟩
  else do
    let d ← chk (a.den * k)
    gate ⟨a.num, d⟩

/-- `operator/(rat, rat)` (numeric.hpp:450-479). -/
def div (a b : Rat32) : Out Rat32 := do
  let n ← chk (a.num * b.den)
  let d ← chk (b.num * a.den)
  if n = 0 then return zero
  else
    let ad ← cabs d
    if ad > 1 then
      if d < 0 then do
        let n' ← chk (-n)
        let d' ← chk (-d)
        gate ⟨n', d'⟩
      else gate ⟨n, d⟩
    else if d < 0 then do
      let n' ← chk (-n)
      let d' ← chk (-d)
      return ⟨n', d'⟩
    else return ⟨n, d⟩

/-- `operator+(rat, rat)` (numeric.hpp:481-500). -/
def add (a b : Rat32) : Out Rat32 := do
  let x ← chk (a.num * b.den)
  let y ← chk (b.num * a.den)
  let n ← chk (x + y)
  if n = 0 then return zero
  else
    let d ← chk (a.den * b.den)
    if d > 1 then gate ⟨n, d⟩ else return ⟨n, d⟩

/-- `operator-(rat, rat)` (numeric.hpp:502-505). -/
def sub (a b : Rat32) : Out Rat32 := do
  let b' ← neg b
  add a b'

end Rat32

end Gal
