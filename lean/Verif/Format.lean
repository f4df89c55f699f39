import Verif.Entity

/-!
# `to_string` of an entity

Text is a list of characters.  How the stream writes a number is a parameter; nothing is assumed about it here.
-/

namespace Gal

/-- The loop that writes the generators of a basis element (format.hpp:30-39), starting with generator `j`.  The first argument bounds the
number of rounds; `elem_t` has eight bits (algebra.hpp:11), so eight are enough. -/
def generatorText : Nat → Nat → Nat → List Char
  | 0, _, _ => []
  | k + 1, j, e => if e = 0 then [] else (if e % 2 = 1 then (Nat.repr j).toList else []) ++ generatorText k (j + 1) (e / 2)

/-- One round of the loop over the elements, without the separator (format.hpp:24-39). -/
def componentText {K : Type} (num : K → List Char) (e : Nat) (x : K) : List Char :=
  num x ++ ((if e > 0 then ['e'] else []) ++ generatorText 8 0 e)

/-- The loop over the elements (format.hpp:22-45).  There are as many coefficients as elements; the model stops at the end of the shorter list. -/
def componentsText {K : Type} (num : K → List Char) : List Nat → List K → List Char
  | [], _ | _, [] => []
  | [e], x :: _ => componentText num e x
  | e :: es, x :: xs => componentText num e x ++ ([' ', '+', ' '] ++ componentsText num es xs)

/-- `to_string` (format.hpp:10-48); `num` is what the stream writes for a coefficient. -/
def Entity.toText {K : Type} (num : K → List Char) (x : Entity K) : List Char :=
  if x.elements = [] then ['0'] else componentsText num x.elements x.data

end Gal
