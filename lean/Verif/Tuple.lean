import Verif.Base

/-!
# Tuples (public/gal/tuple.hpp)

Simplification: the element types of a tuple are not modelled, a tuple is the list of its values in one type.  An index
outside the tuple does not compile; that is `none` here.  `none` also stands for a failed `static_assert`.
-/

namespace Gal

namespace Tup

variable {α β : Type}

/-- `get<I>` (tuple.hpp:63-73). -/
def get (t : List α) (i : Nat) : Option α := t[i]?

/-- `back` (tuple.hpp:75-83). -/
def back (t : List α) : Option α := if t.length = 0 then none else get t (t.length - 1)

/-- `set<I>` (tuple.hpp:85-89). -/
def set (t : List α) (i : Nat) (v : α) : Option (List α) := if i < t.length then some (t.set i v) else none

/-- The fold expressions of `push_impl` and `append_impl` (tuple.hpp:178-188): copy `t[i]` to `out[i + shift]`, for the
listed indices in order. -/
def copyAt (t : List α) (shift : Nat) : List α → List Nat → Option (List α)
  | out, [] => some out
  | out, i :: is => do
    let v ← get t i
    let out ← set out (i + shift) v
    copyAt t shift out is

/-- `push` (tuple.hpp:93-101), starting from a value-initialised tuple. -/
def push [Inhabited α] (t : List α) (v : α) : Option (List α) := do
  let out ← set (List.replicate (t.length + 1) default) 0 v
  copyAt t 1 out (List.range t.length)

/-- `append` (tuple.hpp:103-111). -/
def append [Inhabited α] (t : List α) (v : α) : Option (List α) := do
  let out ← set (List.replicate (t.length + 1) default) t.length v
  copyAt t 0 out (List.range t.length)

/-- A pack expansion `get<F(I)>()...` (e.g. tuple.hpp:190-202). -/
def gather (t : List α) (f : Nat → Nat) (n : Nat) : Option (List α) := (List.range n).mapM fun i => get t (f i)

/-- `pop` and `pop_impl` (tuple.hpp:114-117, 190-202).  `make_index_sequence` of a negative count does not compile. -/
def pop (t : List α) : Option (α × List α) :=
  if t.length = 0 then none
  else if t.length - 1 = 0 then do
    let a ← get t 0
    return (a, [])
  else do
    let r ← gather t (fun i => 1 + i) (t.length - 1)
    let a ← get t 0
    return (a, r)

/-- `split_n` (tuple.hpp:204-230), with the two pack sizes. -/
def splitN (t : List α) (n1 n2 : Nat) : Option (List α × List α) :=
  if n1 = 0 then
    if n1 = 0 then some ([], [])
    else do
      let s ← gather t (fun i => i) n2
      return ([], s)
  else if n2 = 0 then do
    let f ← gather t (fun i => i) n1
    return (f, [])
  else do
    let f ← gather t (fun i => i) n1
    let s ← gather t (fun i => n1 + i) n2
    return (f, s)

/-- `split<I>` (tuple.hpp:121-125). -/
def split (t : List α) (i : Nat) : Option (List α × List α) :=
  if t.length < i then none else splitN t i (t.length - i)

/-- `split_drop<I>` (tuple.hpp:128-133). -/
def splitDrop (t : List α) (i : Nat) : Option (List α × List α) :=
  if t.length < i + 1 then none else splitN t i (t.length - i - 1)

/-- `find_t` (tuple.hpp:57-61, 163-176) with the type test as a predicate. -/
def find (p : α → Bool) (t : List α) : Nat → Nat → Option Nat
  | 0, _ => none
  | fuel + 1, i => do
    let x ← get t i
    if p x then some i
    else if i + 1 < t.length then find p t fuel (i + 1)
    else none

/-- `split_at_type` (tuple.hpp:137-142). -/
def splitAtType (p : α → Bool) (t : List α) : Option (List α × List α) := do
  let i ← find p t t.length 0
  splitDrop t i

/-- The argument list `apply` passes on (tuple.hpp:144-148, 232-236). -/
def applyArgs (t : List α) : Option (List α) := gather t (fun i => i) t.length

/-- The argument list `apply_reverse` passes on (tuple.hpp:150-154, 238-242). -/
def applyReverseArgs (t : List α) : Option (List α) := gather t (fun i => t.length - i - 1) t.length

/-- The fold of `mutate_impl` (tuple.hpp:244-248). -/
def mutateAt (f : α → α) : List α → List Nat → Option (List α)
  | t, [] => some t
  | t, i :: is => do
    let v ← get t i
    let t ← set t i (f v)
    mutateAt f t is

/-- `mutate` (tuple.hpp:156-160). -/
def mutate (f : α → α) (t : List α) : Option (List α) := mutateAt f t (List.range t.length)

end Tup

end Gal
