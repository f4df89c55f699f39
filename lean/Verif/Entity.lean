import Verif.MvFlat

/-!
# Entities (public/gal/entity.hpp)

The element list `E...` and the algebra are template parameters; here the element list is a field and the dimension an
argument.  `T` is an arbitrary field `K`.
-/

namespace Gal

open Out

/-- `construct_ie` (entity.hpp:15-26): `id + N` is `uint32_t` arithmetic. -/
def constructIe (id : Nat) (es : List Nat) : Mv :=
  let n := es.length
  ⟨⟨n, n, n⟩, n, n, n, (List.range n).map (fun i => ⟨(id + i) % 2 ^ 32, Rat32.one⟩),
    (List.range n).map (fun i => ⟨Rat32.one, Rat32.one, 1, i⟩),
    (List.range n).map (fun i => ⟨1, i, es.getD i 0⟩), .id⟩

/-- `indexof<E, I, E1, Es...>` (entity.hpp:28-43).  The pack has at least one element in the code; the empty list never
arises from `elementLut`. -/
def indexof (e : Nat) : Int → List Nat → Int
  | _, [] => -1
  | i, e1 :: es => if e = e1 then i else indexof e (i + 1) es

/-- `construct_element_lut` (entity.hpp:45-50) with the index sequence of length `2 ^ dim` (entity.hpp:63-65). -/
def elementLut (dim : Nat) (es : List Nat) : List Int := (List.range (2 ^ dim)).map fun n => indexof n 0 es

/-- `entity<A, T, E...>` (entity.hpp:57-131): the list `E...` and the array `data_`. -/
structure Entity (K : Type) where
  elements : List Nat
  data : List K

variable {K : Type} [Zero K]

/-- The look-up shared by all `select` overloads (entity.hpp:91, 97, 103): the index found, `none` for -1.  Reading the
table outside its `2 ^ dim` entries is undefined. -/
def Entity.lookup (dim : Nat) (x : Entity K) (e : Nat) : Out (Option Nat) :=
  match (elementLut dim x.elements)[e]? with
  | none => .ub
  | some i => ok (if i = -1 then none else some i.toNat)

/-- `data_[index]` (entity.hpp:121-129). -/
def Entity.at (x : Entity K) (i : Nat) : Out K :=
  match x.data[i]? with
  | none => .ub
  | some v => ok v

/-- `select(e) const` (entity.hpp:95-99; entity.hpp:156-159 for the empty pack). -/
def Entity.select (dim : Nat) (x : Entity K) (e : Nat) : Out K :=
  if x.elements = [] then ok 0
  else do
    match ← x.lookup dim e with
    | none => ok 0
    | some i => x.at i

/-- `select(e)` on a mutable entity (entity.hpp:101-105; 161-164): `none` is `nullptr`, otherwise the index pointed to. -/
def Entity.selectPtr (dim : Nat) (x : Entity K) (e : Nat) : Out (Option Nat) :=
  if x.elements = [] then ok none else x.lookup dim e

/-- `select<S...>() const` for two or more elements (entity.hpp:82-93).  For the empty pack `E...` the code returns a single
`{0}` whatever `S...` is (entity.hpp:150-154). -/
def Entity.selectMany (dim : Nat) (x : Entity K) (s : List Nat) : Out (List K) :=
  if x.elements = [] then ok [0]
  else mapO (x.select dim) s

/-- Writing through the pointer returned by `select(e)` (entity.hpp:101-105). -/
def Entity.put (x : Entity K) (i : Nat) (v : K) : Entity K := { x with data := x.data.set i v }

/-- `entity::ie` (entity.hpp:70-75; entity.hpp:140-143 for the empty pack). -/
def Entity.ie (x : Entity K) (id : Nat) : Mv := constructIe id x.elements

/-- `scalar::ie` (entity.hpp:204-207). -/
def scalarIe (id : Nat) : Mv :=
  ⟨⟨1, 1, 1⟩, 1, 1, 1, [⟨id, Rat32.one⟩], [⟨Rat32.one, Rat32.one, 1, 0⟩], [⟨1, 0, 0⟩], .id⟩

end Gal
