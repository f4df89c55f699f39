import Verif.Rat32
import Verif.Sort
import Verif.Blade

/-!
# Symbolic multivectors, nested view (algebra.hpp)

What the iterators of `mv` enumerate: a list of terms, each with a list of monomials, each with a list of indeterminates.
The functions here follow the loops of the C++ code but produce lists instead of writing into the three arrays; the
arrays, their offsets and their capacities are modelled in `Verif.MvFlat`, and `Verif.MvRefine` proves that the two agree.
-/

namespace Gal

open Out

/-- `ind` (algebra.hpp:37-41). -/
structure Ind where
  id : Nat := 0xffffffff
  deg : Rat32 := {}
  deriving DecidableEq, Repr, Inhabited

namespace Ind

/-- `operator==(ind, ind)` (algebra.hpp:45-48), with short-circuit evaluation. -/
def eq (a b : Ind) : Out Bool := if a.id = b.id then a.deg.eq b.deg else ok false

/-- `operator!=(ind, ind)` (algebra.hpp:50-53). -/
def ne (a b : Ind) : Bool := a.id != b.id || a.deg.ne b.deg

/-- `operator<(ind, ind)` (algebra.hpp:55-58), with short-circuit evaluation. -/
def lt (a b : Ind) : Out Bool :=
  if a.id < b.id then ok true else if a.id = b.id then a.deg.lt b.deg else ok false

/-- `operator^(ind, int)` (algebra.hpp:60-64). -/
def pow (a : Ind) (k : Int) : Out Ind := do
  let d ← a.deg.mulAssign ⟨k, 1⟩
  return ⟨a.id, d⟩

end Ind

/-- A monomial with its indeterminates: `mon` (algebra.hpp:69-75) seen through `const_mon_it` (algebra.hpp:252-314).  The
count is the length of `inds`. -/
structure NMon where
  q : Rat32
  degree : Rat32
  inds : List Ind
  deriving DecidableEq, Repr, Inhabited

/-- A term with its monomials: `term` (algebra.hpp:149-154) seen through `const_term_it` (algebra.hpp:376-434).  The
count is the length of `mons`. -/
structure NTerm where
  element : Nat
  mons : List NMon
  deriving DecidableEq, Repr, Inhabited

/-- What iterating over `mv` (algebra.hpp:472-738) yields. -/
abbrev NMv := List NTerm

/-- Apply a partial function to every element, in order. -/
def mapO {α β : Type} (f : α → Out β) : List α → Out (List β)
  | [] => ok []
  | x :: xs => do
    let y ← f x
    let ys ← mapO f xs
    return y :: ys

/-! ## Comparison of monomials -/

/-- The indeterminate loop of `operator==(mon_view, mon_view)` (algebra.hpp:92-102); only called on equal lengths. -/
def indsEq : List Ind → List Ind → Bool
  | x :: xs, y :: ys => if x.ne y then false else indsEq xs ys
  | _, _ => true

/-- `operator==(mon_view, mon_view)` (algebra.hpp:84-104). -/
def viewEq (a b : NMon) : Bool :=
  if a.degree.ne b.degree || a.inds.length != b.inds.length then false else indsEq a.inds b.inds

/-- The indeterminate loop and final count comparison of `operator<(mon_view, mon_view)` (algebra.hpp:118-145). -/
def indsLt : List Ind → List Ind → Out Bool
  | [], [] => ok false
  | [], _ :: _ => ok true
  | _ :: _, [] => ok false
  | x :: xs, y :: ys => do
    if ← x.lt y then return true
    else if ← y.lt x then return false
    else indsLt xs ys

/-- `operator<(mon_view, mon_view)` (algebra.hpp:106-147). -/
def viewLt (a b : NMon) : Out Bool := do
  if ← a.degree.lt b.degree then return true
  else if ← a.degree.gt b.degree then return false
  else indsLt a.inds b.inds

/-- `operator<(term, term)` (algebra.hpp:156-159). -/
def termLt (a b : NTerm) : Out Bool := ok (decide (a.element < b.element))

/-! ## Sum -/

/-- Outcome of the lexicographic comparison inside `sum` (algebra.hpp:849-914). -/
inductive Pick where
  | same | left | right
  deriving DecidableEq, Repr

/-- The indeterminate loop of `sum` (algebra.hpp:849-914): which monomial goes first. -/
def cmpInds : List Ind → List Ind → Out Pick
  | [], [] => ok .same
  | [], _ :: _ => ok .left
  | _ :: _, [] => ok .right
  | x :: xs, y :: ys => do
    if ← x.eq y then cmpInds xs ys
    else if ← x.lt y then return .left
    else return .right

/-- The monomial merge of `sum` (algebra.hpp:804-917).  Each iteration consumes a monomial, so the sum of the lengths is
enough fuel. -/
def sumMonsN : Nat → List NMon → List NMon → Out (List NMon)
  | 0, l, r => ok (l ++ r)
  | _ + 1, [], r => ok r
  | _ + 1, x :: l, [] => ok (x :: l)
  | fuel + 1, x :: l, y :: r =>
    if x.degree.ne y.degree then do
      if ← x.degree.lt y.degree then
        let rest ← sumMonsN fuel l (y :: r)
        return x :: rest
      else
        let rest ← sumMonsN fuel (x :: l) r
        return y :: rest
    else do
      match ← cmpInds x.inds y.inds with
      | .same =>
        let q ← x.q.add y.q
        let rest ← sumMonsN fuel l r
        if q.isZero then return rest else return { x with q := q } :: rest
      | .left =>
        let rest ← sumMonsN fuel l (y :: r)
        return x :: rest
      | .right =>
        let rest ← sumMonsN fuel (x :: l) r
        return y :: rest

/-- The term merge of `sum` (algebra.hpp:758-951). -/
def sumTermsN : Nat → NMv → NMv → Out NMv
  | 0, l, r => ok (l ++ r)
  | _ + 1, [], r => ok r
  | _ + 1, x :: l, [] => ok (x :: l)
  | fuel + 1, x :: l, y :: r =>
    if y.element = x.element then do
      let ms ← sumMonsN (x.mons.length + y.mons.length) x.mons y.mons
      let rest ← sumTermsN fuel l r
      if ms.length ≠ 0 then return ⟨x.element, ms⟩ :: rest else return rest
    else if x.element < y.element then do
      let rest ← sumTermsN fuel l (y :: r)
      return x :: rest
    else do
      let rest ← sumTermsN fuel (x :: l) r
      return y :: rest

/-- `detail::sum` (algebra.hpp:742-952). -/
def sumN (a b : NMv) : Out NMv := sumTermsN (a.length + b.length) a b

/-! ## Collation -/

/-- The accumulation loop of `collate` (algebra.hpp:1169-1181): adds the coefficients of the following monomials equal to
`m`, returns the coefficient and the remaining monomials. -/
def accN (m : NMon) : Rat32 → List NMon → Out (Rat32 × List NMon)
  | q, [] => ok (q, [])
  | q, y :: ys =>
    if viewEq m y then do
      let q ← q.add y.q
      accN m q ys
    else ok (q, y :: ys)

/-- The monomial loop of `collate` (algebra.hpp:1164-1201); the length is enough fuel. -/
def mergeRunN : Nat → List NMon → Out (List NMon)
  | 0, _ => ok []
  | _ + 1, [] => ok []
  | fuel + 1, m :: ms => do
    let (q, rest) ← accN m m.q ms
    let out ← mergeRunN fuel rest
    if q.isZero then return out else return { m with q := q } :: out

/-- The gathering loop of `collate` (algebra.hpp:1136-1153): monomials of the leading terms with the given element, and
the remaining terms. -/
def gatherN (el : Nat) : NMv → List NMon × NMv
  | [] => ([], [])
  | t :: ts => if t.element = el then let (ms, rest) := gatherN el ts; (t.mons ++ ms, rest) else ([], t :: ts)

/-- `detail::collate` (algebra.hpp:1119-1217); the number of terms is enough fuel. -/
def collateN : Nat → NMv → Out NMv
  | 0, _ => ok []
  | _ + 1, [] => ok []
  | fuel + 1, t :: ts => do
    let (ms, rest) := gatherN t.element (t :: ts)
    let sorted ← sortAll viewLt ms
    let merged ← mergeRunN sorted.length sorted
    let out ← collateN fuel rest
    if merged.length > 0 then return ⟨t.element, merged⟩ :: out else return out

/-- Sorting terms and collating them, the common tail of `product` (algebra.hpp:1387-1397), `poincare_dual`
(algebra.hpp:1254-1264) and the null basis conversions (null_algebra.hpp:64-81, 127-144). -/
def sortCollateN (ts : NMv) : Out NMv := do
  let sorted ← sortAll termLt ts
  collateN sorted.length sorted

/-! ## Product -/

/-- The indeterminate merge of `product` (algebra.hpp:1320-1367), with the running `degree`; the sum of the lengths is
enough fuel. -/
def mergeIndsN : Nat → Rat32 → List Ind → List Ind → Out (List Ind × Rat32)
  | 0, d, _, _ => ok ([], d)
  | _ + 1, d, [], [] => ok ([], d)
  | fuel + 1, d, [], y :: r => do
    let d ← d.addAssign y.deg
    let (out, d) ← mergeIndsN fuel d [] r
    return (y :: out, d)
  | fuel + 1, d, x :: l, [] => do
    let d ← d.addAssign x.deg
    let (out, d) ← mergeIndsN fuel d l []
    return (x :: out, d)
  | fuel + 1, d, x :: l, y :: r =>
    if x.id = y.id then do
      let next ← x.deg.add y.deg
      let d ← d.addAssign next
      let (out, d) ← mergeIndsN fuel d l r
      if next.neInt 0 then return (⟨x.id, next⟩ :: out, d) else return (out, d)
    else if x.id < y.id then do
      let d ← d.addAssign x.deg
      let (out, d) ← mergeIndsN fuel d l (y :: r)
      return (x :: out, d)
    else do
      let d ← d.addAssign y.deg
      let (out, d) ← mergeIndsN fuel d (x :: l) r
      return (y :: out, d)

/-- Body of the monomial loops of `product` (algebra.hpp:1312-1374); the coefficient is `multiplier * lhs.q * rhs.q`
evaluated left to right. -/
def mulMonN (k : Int) (x y : NMon) : Out NMon := do
  let (inds, degree) ← mergeIndsN (x.inds.length + y.inds.length) {} x.inds y.inds
  let q ← Rat32.imul k x.q
  let q ← q.mul y.q
  return ⟨q, degree, inds⟩

/-- Inner monomial loop of `product` (algebra.hpp:1310-1375). -/
def mulMonRowN (k : Int) (x : NMon) (r : List NMon) : Out (List NMon) := mapO (mulMonN k x) r

/-- Monomial loops of `product` (algebra.hpp:1308-1376). -/
def mulMonsN (k : Int) : List NMon → List NMon → Out (List NMon)
  | [], _ => ok []
  | x :: l, r => do
    let row ← mulMonRowN k x r
    let rest ← mulMonsN k l r
    return row ++ rest

/-- Inner term loop of `product` (algebra.hpp:1298-1382).  Elements are narrowed to `elem_t` when passed to `P`. -/
def mulTermRowN (P : Nat → Nat → Nat × Int) (x : NTerm) : NMv → Out NMv
  | [] => ok []
  | y :: r =>
    let (element, multiplier) := P (x.element % 256) (y.element % 256)
    if multiplier ≠ 0 then do
      let ms ← mulMonsN multiplier x.mons y.mons
      let rest ← mulTermRowN P x r
      return ⟨element, ms⟩ :: rest
    else mulTermRowN P x r

/-- Term loops of `product` (algebra.hpp:1296-1383). -/
def mulTermsN (P : Nat → Nat → Nat × Int) : NMv → NMv → Out NMv
  | [], _ => ok []
  | x :: l, r => do
    let row ← mulTermRowN P x r
    let rest ← mulTermsN P l r
    return row ++ rest

/-- `detail::product` (algebra.hpp:1272-1399). -/
def productN (P : Nat → Nat → Nat × Int) (a b : NMv) : Out NMv := do
  let ts ← mulTermsN P a b
  sortCollateN ts

/-! ## Scaling, negation, reversion -/

/-- Apply a function to the coefficient of a monomial (e.g. algebra.hpp:973-976). -/
def NMon.mapQ (f : Rat32 → Out Rat32) (m : NMon) : Out NMon := do
  let q ← f m.q
  return { m with q := q }

/-- Apply a function to all coefficients of a term (e.g. algebra.hpp:971-977). -/
def NTerm.mapQ (f : Rat32 → Out Rat32) (t : NTerm) : Out NTerm := do
  let ms ← mapO (NMon.mapQ f) t.mons
  return ⟨t.element, ms⟩

/-- `mv::scale` (algebra.hpp:514-520) and `detail::scale` (algebra.hpp:954-959): `q * mons[i].q`. -/
def scaleN (q : Rat32) (a : NMv) : Out NMv := mapO (NTerm.mapQ (fun x => q.mul x)) a

/-- `detail::shift` (algebra.hpp:961-966). -/
def shiftN (q : Rat32) (a : NMv) : Out NMv := sumN a [⟨0, [⟨q, Rat32.zero, []⟩]⟩]

/-- `detail::negate` (algebra.hpp:968-979). -/
def negateN (a : NMv) : Out NMv := mapO (NTerm.mapQ Rat32.neg) a

/-- Loop body of `detail::reverse` (algebra.hpp:1078-1091); `grade - 1` is evaluated in unsigned arithmetic, but never for
`grade = 0` because element 0 is skipped. -/
def reverseTermN (t : NTerm) : Out NTerm :=
  if t.element = 0 then ok t
  else
    let grade := popCount t.element
    if (grade * (grade - 1) / 2) % 2 = 1 then t.mapQ Rat32.neg else ok t

/-- `detail::reverse` (algebra.hpp:1073-1094). -/
def reverseN (a : NMv) : Out NMv := mapO reverseTermN a

/-! ## Poincaré dual -/

/-- Loop of `poincare_complement` (algebra.hpp:1103-1114); eight iterations are enough for an `elem_t`. -/
def complementLoop : Nat → Nat → Nat → Nat → Nat
  | 0, _, _, swaps => swaps
  | fuel + 1, element, grade, swaps =>
    if element > 0 then
      if element &&& 1 = 0 then complementLoop fuel (element >>> 1) grade (swaps + grade)
      else complementLoop fuel (element >>> 1) (grade - 1) swaps
    else swaps

/-- `detail::poincare_complement` (algebra.hpp:1096-1117), with the parameter narrowed to `elem_t`. -/
def poincareComplement (element dim : Nat) : Nat × Int :=
  let e := element % 256
  (((1 <<< dim) - 1) ^^^ e, swapSign (complementLoop 8 e (popCount e) 0))

/-- Loop body of `detail::poincare_dual` (algebra.hpp:1231-1246): coefficient `parity * mon.q`. -/
def dualTermN (dim : Nat) (t : NTerm) : Out NTerm := do
  let (g, parity) := poincareComplement t.element dim
  let t' ← t.mapQ (Rat32.imul parity)
  return ⟨g, t'.mons⟩

/-- `detail::poincare_dual` (algebra.hpp:1219-1266). -/
def dualN (dim : Nat) (a : NMv) : Out NMv := do
  let ts ← mapO (dualTermN dim) a
  sortCollateN ts

/-! ## Selection -/

/-- `mv::push` (algebra.hpp:613-636): the pushed term, scaled and moved to element `e` (narrowed to `elem_t`). -/
def pushTermN (t : NTerm) (s : Rat32) (e : Nat) : Out NTerm := do
  let t' ← t.mapQ (fun q => q.mul s)
  return ⟨e % 256, t'.mons⟩

/-- `mv::operator[]` (algebra.hpp:555-568) and `detail::component` (algebra.hpp:1401-1405). -/
def componentN (e : Nat) : NMv → Out NMv
  | [] => ok []
  | t :: ts =>
    if t.element = e % 256 then do
      let t' ← pushTermN t Rat32.one 0
      return [t']
    else componentN e ts

/-- `mv::select_grade` (algebra.hpp:570-610): stops at the first term of a higher grade. -/
def selectGradeN (grade : Nat) : NMv → NMv
  | [] => []
  | t :: ts =>
    if popCount t.element > grade then []
    else if popCount t.element < grade then selectGradeN grade ts
    else t :: selectGradeN grade ts

/-- `detail::extract` (algebra.hpp:1407-1435); every iteration advances one of the two cursors. -/
def extractN : Nat → NMv → List Nat → Out NMv
  | 0, _, _ => ok []
  | _ + 1, _, [] => ok []
  | _ + 1, [], _ :: _ => ok []
  | fuel + 1, t :: ts, e :: es =>
    if t.element > e then extractN fuel (t :: ts) es
    else if t.element < e then extractN fuel ts (e :: es)
    else do
      let t' ← pushTermN t Rat32.one e
      let rest ← extractN fuel ts (e :: es)
      return t' :: rest

/-! ## Null basis -/

/-- Loop of `to_null_basis` (null_algebra.hpp:34-61): unchanged terms and rewritten terms. -/
def toNullLoopN (dim : Nat) : NMv → Out (NMv × NMv)
  | [] => ok ([], [])
  | t :: ts =>
    let ep := 1 <<< (dim - 2)
    let en := 1 <<< (dim - 1)
    let enp := ep ^^^ en
    if t.element &&& enp ≠ 0 then
      if t.element &&& en ≠ 0 ∧ t.element &&& ep ≠ 0 then do
        let u ← pushTermN t Rat32.one t.element
        let (l, r) ← toNullLoopN dim ts
        return (u :: l, r)
      else if t.element &&& ep ≠ 0 then do
        let u ← pushTermN t Rat32.one t.element
        let v ← pushTermN t Rat32.minusOneHalf (t.element ^^^ enp)
        let (l, r) ← toNullLoopN dim ts
        return (l, u :: v :: r)
      else do
        let u ← pushTermN t Rat32.one (t.element ^^^ enp)
        let v ← pushTermN t Rat32.oneHalf t.element
        let (l, r) ← toNullLoopN dim ts
        return (l, u :: v :: r)
    else do
      let u ← pushTermN t Rat32.one t.element
      let (l, r) ← toNullLoopN dim ts
      return (u :: l, r)

/-- Loop of `to_natural_basis` (null_algebra.hpp:97-124). -/
def toNaturalLoopN (dim : Nat) : NMv → Out (NMv × NMv)
  | [] => ok ([], [])
  | t :: ts =>
    let no := 1 <<< (dim - 2)
    let ni := 1 <<< (dim - 1)
    let noi := no ^^^ ni
    if t.element &&& noi ≠ 0 then
      if t.element &&& no ≠ 0 ∧ t.element &&& ni ≠ 0 then do
        let u ← pushTermN t Rat32.one t.element
        let (l, r) ← toNaturalLoopN dim ts
        return (u :: l, r)
      else if t.element &&& no ≠ 0 then do
        let u ← pushTermN t Rat32.oneHalf t.element
        let v ← pushTermN t Rat32.oneHalf (t.element ^^^ noi)
        let (l, r) ← toNaturalLoopN dim ts
        return (l, u :: v :: r)
      else do
        let u ← pushTermN t Rat32.minusOne (t.element ^^^ noi)
        let v ← pushTermN t Rat32.one t.element
        let (l, r) ← toNaturalLoopN dim ts
        return (l, u :: v :: r)
    else do
      let u ← pushTermN t Rat32.one t.element
      let (l, r) ← toNaturalLoopN dim ts
      return (u :: l, r)

/-- `to_null_basis` (null_algebra.hpp:22-83). -/
def toNullN (dim : Nat) (a : NMv) : Out NMv := do
  let (l, r) ← toNullLoopN dim a
  let r ← sortCollateN r
  sumN l r

/-- `to_natural_basis` (null_algebra.hpp:85-147). -/
def toNaturalN (dim : Nat) (a : NMv) : Out NMv := do
  let (l, r) ← toNaturalLoopN dim a
  let r ← sortCollateN r
  sumN l r

/-! ## Division -/

/-- Coefficient of the quotient by a constant (algebra.hpp:995): `q * mon.q / m.q`, left to right. -/
def divConstN (q m : Rat32) (a : NMv) : Out NMv :=
  mapO (NTerm.mapQ (fun x => do let y ← q.mul x; y.div m)) a

/-- The indeterminate loop of `divide` (algebra.hpp:1015-1054): the indeterminates written and the flag `canceled`. -/
def divIndsN (d : Ind) : Bool → Bool → List Ind → Out (List Ind × Bool)
  | canceled, written, [] => ok (if written then [] else [d], canceled)
  | canceled, written, i :: is =>
    if written then do
      let (out, c) ← divIndsN d canceled true is
      return (i :: out, c)
    else if d.id = i.id then do
      let deg ← d.deg.add i.deg
      if deg.isZero then
        let (out, c) ← divIndsN d canceled true is
        return (⟨d.id, deg⟩ :: out, c)
      else divIndsN d true true is
    else if d.id < i.id then do
      let (out, c) ← divIndsN d canceled true is
      return (d :: i :: out, c)
    else do
      let (out, c) ← divIndsN d canceled false is
      return (i :: out, c)

end Gal
