import Verif.Expr

/-!
# The literals of the algebra headers

`1_e01`, `2_ps` and so on: each is an expression with one constant node.
-/

namespace Gal

/-- `static_cast<num_t>(n)` of an `unsigned long long` (numeric.hpp:163): the low 32 bits in two's complement, as GCC and Clang define it. -/
def numOfULL (n : Nat) : Int :=
  if n % 2 ^ 32 < 2 ^ 31 then (n % 2 ^ 32 : Nat) else ((n % 2 ^ 32 : Nat) : Int) - 2 ^ 32

/-- `-n` of an `unsigned long long` (vga.hpp:71, cga.hpp:71). -/
def negULL (n : Nat) : Nat := (2 ^ 64 - n % 2 ^ 64) % 2 ^ 64

/-- A literal: its suffix without the underscore, the basis element in its body, and whether the number is negated. -/
structure Literal where
  name : List Char
  element : Nat
  negated : Bool := false
  deriving DecidableEq, Repr

/-- The expression a literal with the number `n` makes, for instance vga.hpp:20-24 and 68-72. -/
def Literal.expr (l : Literal) (n : Nat) : Rpne := elementExpr l.element (numOfULL (if l.negated then negULL n else n))

/-- The literals of `vga` (vga.hpp:20-72). -/
def vgaLiterals : List Literal :=
  [⟨['e', '0'], 0b1, false⟩, ⟨['e', '1'], 0b10, false⟩, ⟨['e', '2'], 0b100, false⟩, ⟨['e', '0', '1'], 0b11, false⟩,
   ⟨['e', '0', '2'], 0b101, false⟩, ⟨['e', '1', '2'], 0b110, false⟩, ⟨['e', '0', '1', '2'], 0b111, false⟩, ⟨['p', 's'], 0b111, false⟩,
   ⟨['i', 'p', 's'], 0b111, true⟩]

/-- The literals of `pga` (pga.hpp:23-117). -/
def pgaLiterals : List Literal :=
  [⟨['e', '0'], 0b1, false⟩, ⟨['e', '1'], 0b10, false⟩, ⟨['e', '2'], 0b100, false⟩, ⟨['e', '3'], 0b1000, false⟩,
   ⟨['e', '0', '1'], 0b11, false⟩, ⟨['e', '0', '2'], 0b101, false⟩, ⟨['e', '0', '3'], 0b1001, false⟩, ⟨['e', '1', '2'], 0b110, false⟩,
   ⟨['e', '1', '3'], 0b1010, false⟩, ⟨['e', '2', '3'], 0b1100, false⟩, ⟨['e', '0', '1', '2'], 0b111, false⟩,
   ⟨['e', '0', '1', '3'], 0b1011, false⟩, ⟨['e', '0', '2', '3'], 0b1101, false⟩, ⟨['e', '1', '2', '3'], 0b1110, false⟩,
   ⟨['e', '0', '1', '2', '3'], 0b1111, false⟩, ⟨['p', 's'], 0b1111, false⟩]

/-- The literals of `pga2` (pga2.hpp:22-68). -/
def pga2Literals : List Literal :=
  [⟨['e', '0'], 0b1, false⟩, ⟨['e', '1'], 0b10, false⟩, ⟨['e', '2'], 0b100, false⟩, ⟨['e', '0', '1'], 0b11, false⟩,
   ⟨['e', '0', '2'], 0b101, false⟩, ⟨['e', '1', '2'], 0b110, false⟩, ⟨['e', '0', '1', '2'], 0b111, false⟩, ⟨['p', 's'], 0b111, false⟩]

/-- The literals of `cga` (cga.hpp:28-72). -/
def cgaLiterals : List Literal :=
  [⟨['e', '1'], 0b1, false⟩, ⟨['e', '2'], 0b10, false⟩, ⟨['e', '3'], 0b100, false⟩, ⟨['n', 'o'], 0b1000, false⟩,
   ⟨['n', 'i'], 0b10000, false⟩, ⟨['p', 's'], 0b11111, false⟩, ⟨['i', 'p', 's'], 0b11111, true⟩]

end Gal
