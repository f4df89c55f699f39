import Verif.Base

/-!
# The fixed-capacity stack (public/gal/stack.hpp)
-/

namespace Gal

open Out

/-- `stack<T, C>` (stack.hpp:10-15): `C` is the length of `data`. -/
structure Stk (α : Type) where
  data : List α
  count : Nat
  deriving DecidableEq, Repr

namespace Stk

variable {α : Type}

/-- A fresh `stack<T, C>{}` (stack.hpp:13-15): value-initialised entries, count 0. -/
def fresh (dflt : α) (cap : Nat) : Stk α := ⟨List.replicate cap dflt, 0⟩

/-- `empty` (stack.hpp:17-20). -/
def isEmpty (s : Stk α) : Bool := s.count == 0

/-- `clear` (stack.hpp:22-25). -/
def clear (s : Stk α) : Stk α := { s with count := 0 }

/-- Array read; outside the array is undefined (stack.hpp:27-35). -/
def read (s : Stk α) (i : Nat) : Out α :=
  match s.data[i]? with
  | some x => ok x
  | none => .ub

/-- `operator[]` (stack.hpp:27-35), reading. -/
def get (s : Stk α) (i : Nat) : Out α := s.read i

/-- `push` (stack.hpp:37-40). -/
def push (s : Stk α) (x : α) : Out (Stk α) :=
  if s.count < s.data.length then ok ⟨s.data.set s.count x, s.count + 1⟩ else .ub

/-- `size_t` subtraction, 64 bits, wraps (stack.hpp:44, 49, 55, 65). -/
def wsub (a b : Nat) : Nat := (a + (2 ^ 64 - b % 2 ^ 64)) % 2 ^ 64

/-- `pop()` (stack.hpp:42-45): `data[count--]` reads before it decrements. -/
def pop (s : Stk α) : Out (α × Stk α) := do
  let x ← s.read s.count
  return (x, { s with count := wsub s.count 1 })

/-- `pop(n)` (stack.hpp:47-51). -/
def popN (s : Stk α) (n : Nat) : Out (α × Stk α) := do
  let c := wsub s.count n
  let x ← s.read c
  return (x, { s with count := c })

/-- `peek()` (stack.hpp:53-61). -/
def peek (s : Stk α) : Out α := s.read (wsub s.count 1)

/-- `peek(i)` (stack.hpp:63-66). -/
def peekN (s : Stk α) (i : Nat) : Out α := s.read (wsub s.count i)

end Stk

end Gal
