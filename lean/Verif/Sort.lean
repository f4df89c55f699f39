import Verif.Base

/-!
# Compile-time sort (algorithm.hpp)

Ranges are index intervals `[first, last)` of a list that stands for the underlying array.  Accesses outside the array
are `ub`.  The comparator may itself be undefined (`Out Bool`), as it is for monomials whose degrees are `rat`s.
The overload without a comparator (algorithm.hpp:46-122) has the same text with `*a < *b` in place of `less(*a, *b)`, so
one definition models both.
-/

namespace Gal

open Out

variable {α : Type}

/-- `*(array + i)` (algorithm.hpp:32-43, 190-196). -/
def getAt (l : List α) (i : Nat) : Out α :=
  match l[i]? with
  | some a => ok a
  | none => .ub

/-- `detail::swap(array[i], array[j])` (algorithm.hpp:32-43). -/
def swapAt (l : List α) (i j : Nat) : Out (List α) := do
  let a ← getAt l i
  let b ← getAt l j
  if i = j then return l
  else return (l.set i b).set j a

/-- The partition loop (algorithm.hpp:190-196): `n` iterations left, positions `cursor` and `it`. -/
def partLoop (less : α → α → Out Bool) (pivot : α) : Nat → List α → Nat → Nat → Out (List α × Nat)
  | 0, l, cursor, _ => ok (l, cursor)
  | n + 1, l, cursor, it => do
    let x ← getAt l it
    if ← less x pivot then
      let l' ← swapAt l cursor it
      partLoop less pivot n l' (cursor + 1) (it + 1)
    else partLoop less pivot n l cursor (it + 1)

/-- The three-element case (algorithm.hpp:140-182). -/
def sort3 (less : α → α → Out Bool) (l : List α) (first : Nat) : Out (List α) := do
  let a ← getAt l first
  let b ← getAt l (first + 1)
  let c ← getAt l (first + 2)
  if ← less b a then
    if ← less c a then
      if ← less c b then swapAt l first (first + 2)
      else do
        let l ← swapAt l first (first + 1)
        swapAt l (first + 1) (first + 2)
    else swapAt l first (first + 1)
  else if ← less c a then do
    let l ← swapAt l first (first + 1)
    swapAt l first (first + 2)
  else if ← less c b then swapAt l (first + 1) (first + 2)
  else return l

/-- `detail::sort` (algorithm.hpp:125-201).  `fuel` bounds the recursion depth. -/
def csort (less : α → α → Out Bool) : Nat → List α → Nat → Nat → Out (List α)
  | 0, _, _, _ => .ub
  | fuel + 1, l, first, last =>
    if last - first < 2 then return l
    else if last - first < 3 then do
      let a ← getAt l first
      let b ← getAt l (first + 1)
      if ← less b a then swapAt l first (first + 1) else return l
    else if last - first < 4 then sort3 less l first
    else do
      let pivot ← getAt l (last - 1)
      let (l, cursor) ← partLoop less pivot (last - 1 - first) l first first
      let l ← swapAt l (last - 1) cursor
      let l ← csort less fuel l first cursor
      csort less fuel l (cursor + 1) last

/-- Sorting a whole array `[0, length)` (algorithm.hpp:125-201). -/
def sortAll (less : α → α → Out Bool) (l : List α) : Out (List α) := csort less (l.length + 1) l 0 l.length

end Gal
