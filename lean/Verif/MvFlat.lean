import Verif.MvNested

/-!
# Symbolic multivectors, array level (algebra.hpp)

`mv<A, I, M, T>` is three fixed-size arrays.  The model keeps, for each array, the list of entries written so far and the
capacity; entries between the two are default constructed.  Reading or writing at or beyond the capacity is `ub`.

Simplification: the loops read their (constant) operands through the nested view at the beginning instead of interleaved
with the writes.  For operands whose offsets stay inside the arrays the two orders are indistinguishable.
-/

namespace Gal

open Out

/-- `mon` (algebra.hpp:69-75). -/
structure Mon where
  q : Rat32 := {}
  degree : Rat32 := {}
  count : Nat := 0
  off : Nat := 0
  deriving DecidableEq, Repr, Inhabited

/-- `term` (algebra.hpp:149-154). -/
structure Term where
  count : Nat := 0
  off : Nat := 0
  element : Nat := 0
  deriving DecidableEq, Repr, Inhabited

/-- Capacities `I`, `M`, `T` of `mv` (algebra.hpp:472). -/
structure Caps where
  i : Nat
  m : Nat
  t : Nat
  deriving DecidableEq, Repr

/-- `mv_op` (algebra.hpp:442-449). -/
inductive MvOp where
  | id | sin | cos | tan | sqrt
  deriving DecidableEq, Repr

/-- `mv` (algebra.hpp:472-496); `szI`, `szM`, `szT` are `size` (algebra.hpp:181-186). -/
structure Mv where
  caps : Caps
  szI : Nat
  szM : Nat
  szT : Nat
  inds : List Ind
  mons : List Mon
  terms : List Term
  op : MvOp := .id
  deriving DecidableEq, Repr

/-- Reading one of the arrays of `mv`, of capacity `cap`, whose written prefix is `l` (algebra.hpp:472-496). -/
def rd {α : Type} [Inhabited α] (cap : Nat) (l : List α) (i : Nat) : Out α :=
  if i < cap then ok (l.getD i default) else .ub

/-- Reading `n` consecutive entries (algebra.hpp:472-496). -/
def rdRange {α : Type} [Inhabited α] (cap : Nat) (l : List α) : Nat → Nat → Out (List α)
  | _, 0 => ok []
  | off, n + 1 => do
    let x ← rd cap l off
    let xs ← rdRange cap l (off + 1) n
    return x :: xs

/-- Iterating over a monomial (algebra.hpp:305-313). -/
def viewMon (cap : Nat) (inds : List Ind) (m : Mon) : Out NMon := do
  let is ← rdRange cap inds m.off m.count
  return ⟨m.q, m.degree, is⟩

/-- Iterating over a term (algebra.hpp:425-433). -/
def viewTerm (caps : Caps) (inds : List Ind) (mons : List Mon) (t : Term) : Out NTerm := do
  let ms ← rdRange caps.m mons t.off t.count
  let ns ← mapO (viewMon caps.i inds) ms
  return ⟨t.element, ns⟩

/-- Iterating over a multivector (algebra.hpp:719-737). -/
def Mv.view (a : Mv) : Out NMv := do
  let ts ← rdRange a.caps.t a.terms 0 a.szT
  mapO (viewTerm a.caps a.inds a.mons) ts

/-! ## Writing -/

/-- The output arrays with their three write cursors (e.g. `out_ind_it`, `out_mon_it`, `out_term_it`,
algebra.hpp:754-756): a cursor is the length of the written prefix. -/
structure Bld where
  caps : Caps
  inds : List Ind
  mons : List Mon
  terms : List Term
  deriving DecidableEq, Repr

/-- `mv<A, I, M, T> out{}` with cursors at the beginning (e.g. algebra.hpp:748-756). -/
def Bld.empty (caps : Caps) : Bld := ⟨caps, [], [], []⟩

/-- `*out_ind_it++ = i` (e.g. algebra.hpp:785-788). -/
def Bld.putInd (b : Bld) (i : Ind) : Out Bld :=
  if b.inds.length < b.caps.i then ok { b with inds := b.inds ++ [i] } else .ub

/-- `*out_mon_it++ = m` (e.g. algebra.hpp:781-784). -/
def Bld.putMon (b : Bld) (m : Mon) : Out Bld :=
  if b.mons.length < b.caps.m then ok { b with mons := b.mons ++ [m] } else .ub

/-- `*out_term_it++ = t` (e.g. algebra.hpp:775-778). -/
def Bld.putTerm (b : Bld) (t : Term) : Out Bld :=
  if b.terms.length < b.caps.t then ok { b with terms := b.terms ++ [t] } else .ub

/-- Setting `out.size` from the cursors (e.g. algebra.hpp:763-765). -/
def Bld.finish (b : Bld) : Mv := ⟨b.caps, b.inds.length, b.mons.length, b.terms.length, b.inds, b.mons, b.terms, .id⟩

/-- Copy loop over indeterminates (e.g. algebra.hpp:785-788). -/
def copyInds : Bld → List Ind → Out Bld
  | b, [] => ok b
  | b, i :: is => do
    let b ← b.putInd i
    copyInds b is

/-- Copying one monomial with a new offset (e.g. algebra.hpp:781-788). -/
def copyMon (b : Bld) (m : NMon) : Out Bld := do
  let b' ← b.putMon ⟨m.q, m.degree, m.inds.length, b.inds.length⟩
  copyInds b' m.inds

/-- Copy loop over monomials (e.g. algebra.hpp:779-789). -/
def copyMons : Bld → List NMon → Out Bld
  | b, [] => ok b
  | b, m :: ms => do
    let b ← copyMon b m
    copyMons b ms

/-- Copying one term with a new offset, header first (algebra.hpp:775-789). -/
def copyTerm (b : Bld) (t : NTerm) : Out Bld := do
  let b' ← b.putTerm ⟨t.mons.length, b.mons.length, t.element⟩
  copyMons b' t.mons

/-- Copy loop over terms (algebra.hpp:773-790). -/
def copyTerms : Bld → NMv → Out Bld
  | b, [] => ok b
  | b, t :: ts => do
    let b ← copyTerm b t
    copyTerms b ts

/-- Copying one term, monomials first (algebra.hpp:934-949). -/
def copyTermLast (b : Bld) (t : NTerm) : Out Bld := do
  let b' ← copyMons b t.mons
  b'.putTerm ⟨t.mons.length, b.mons.length, t.element⟩

/-! ## Sum -/

/-- The monomial merge of `sum` (algebra.hpp:804-917). -/
def sumMons : Nat → Bld → List NMon → List NMon → Out Bld
  | 0, b, l, r => copyMons b (l ++ r)
  | _ + 1, b, [], r => copyMons b r
  | _ + 1, b, x :: l, [] => copyMons b (x :: l)
  | fuel + 1, b, x :: l, y :: r =>
    if x.degree.ne y.degree then do
      if ← x.degree.lt y.degree then
        let b ← copyMon b x
        sumMons fuel b l (y :: r)
      else
        let b ← copyMon b y
        sumMons fuel b (x :: l) r
    else do
      match ← cmpInds x.inds y.inds with
      | .same =>
        let q ← x.q.add y.q
        if q.isZero then sumMons fuel b l r
        else
          let b ← copyMon b { x with q := q }
          sumMons fuel b l r
      | .left =>
        let b ← copyMon b x
        sumMons fuel b l (y :: r)
      | .right =>
        let b ← copyMon b y
        sumMons fuel b (x :: l) r

/-- The term merge of `sum` (algebra.hpp:758-951). -/
def sumTerms : Nat → Bld → NMv → NMv → Out Bld
  | 0, b, l, r => copyTerms b (l ++ r)
  | _ + 1, b, [], r => copyTerms b r
  | _ + 1, b, x :: l, [] => copyTerms b (x :: l)
  | fuel + 1, b, x :: l, y :: r =>
    if y.element = x.element then do
      let b' ← sumMons (x.mons.length + y.mons.length) b x.mons y.mons
      let monCount := b'.mons.length - b.mons.length
      if monCount ≠ 0 then
        let b' ← b'.putTerm ⟨monCount, b.mons.length, x.element⟩
        sumTerms fuel b' l r
      else sumTerms fuel b' l r
    else if x.element < y.element then do
      let b ← copyTermLast b x
      sumTerms fuel b l (y :: r)
    else do
      let b ← copyTermLast b y
      sumTerms fuel b (x :: l) r

/-- Output capacities of `sum` (algebra.hpp:745-748). -/
def sumCaps (a b : Caps) : Caps := ⟨a.i + b.i, a.m + b.m, a.t + b.t⟩

/-- `detail::sum` (algebra.hpp:742-952). -/
def sum (a b : Mv) : Out Mv := do
  let na ← a.view
  let nb ← b.view
  let r ← sumTerms (na.length + nb.length) (Bld.empty (sumCaps a.caps b.caps)) na nb
  return r.finish

/-! ## Collation -/

/-- `*out_mons_it++ = m` in a loop (algebra.hpp:1141-1146). -/
def putMons : Bld → List Mon → Out Bld
  | b, [] => ok b
  | b, m :: ms => do
    let b ← b.putMon m
    putMons b ms

/-- The gathering loop of `collate` (algebra.hpp:1136-1153): copies the monomials of the leading terms with element `el`
from the temporary arrays, returns the remaining terms. -/
def gather (tmp : Bld) (el : Nat) : Bld → List Term → Out (Bld × List Term)
  | b, [] => ok (b, [])
  | b, t :: ts =>
    if t.element = el then do
      let ms ← rdRange tmp.caps.m tmp.mons t.off t.count
      let b ← putMons b ms
      gather tmp el b ts
    else ok (b, t :: ts)

/-- The comparator lambda of `collate` (algebra.hpp:1156-1159). -/
def monLtF (tmp : Bld) (x y : Mon) : Out Bool := do
  let a ← viewMon tmp.caps.i tmp.inds x
  let b ← viewMon tmp.caps.i tmp.inds y
  viewLt a b

/-- `current_mon == mon_view{*next_mon, …}` (algebra.hpp:1171). -/
def monEqF (tmp : Bld) (x y : Mon) : Out Bool := do
  let a ← viewMon tmp.caps.i tmp.inds x
  let b ← viewMon tmp.caps.i tmp.inds y
  return viewEq a b

/-- The accumulation loop of `collate` (algebra.hpp:1169-1181): positions `next` to the end of `mons`. -/
def acc (tmp : Bld) (mons : List Mon) (m : Mon) : Nat → Rat32 → Nat → Out (Rat32 × Nat)
  | 0, q, next => ok (q, next)
  | fuel + 1, q, next =>
    if next = mons.length then ok (q, next)
    else do
      let y ← getAt mons next
      if ← monEqF tmp m y then
        let q ← q.add y.q
        acc tmp mons m fuel q (next + 1)
      else return (q, next)

/-- Overwriting an already written monomial (algebra.hpp:1186). -/
def setMon (mons : List Mon) (i : Nat) (m : Mon) : Out (List Mon) :=
  if i < mons.length then ok (mons.set i m) else .ub

/-- The monomial loop of `collate` (algebra.hpp:1164-1201): `it` is `mon_it`, `writer` is `mon_writer`, and the results
overwrite the monomials being read.  Line 1193 reads `mon_it->count` again after the overwrite. -/
def mergeRun (tmp : Bld) : Nat → Bld → Nat → Nat → Out (Bld × Nat)
  | 0, b, _, writer => ok (b, writer)
  | fuel + 1, b, it, writer =>
    if it = b.mons.length then ok (b, writer)
    else do
      let m ← getAt b.mons it
      let (q, next) ← acc tmp b.mons m (b.mons.length - it) m.q (it + 1)
      if q.isZero then mergeRun tmp fuel b next writer
      else
        let mons ← setMon b.mons writer ⟨q, m.degree, m.count, b.inds.length⟩
        let m' ← getAt mons it
        let is ← rdRange tmp.caps.i tmp.inds m.off m'.count
        let b ← copyInds { b with mons := mons } is
        mergeRun tmp fuel b next (writer + 1)

/-- `detail::collate` (algebra.hpp:1119-1217).  Resetting `out_mons_it` to `mon_writer` (line 1209) is a truncation of the
written prefix; stale entries behind it are never addressed again. -/
def collate (tmp : Bld) : Nat → Bld → List Term → Out Bld
  | 0, b, _ => ok b
  | _ + 1, b, [] => ok b
  | fuel + 1, b, t :: ts => do
    let cursor := b.mons.length
    let (b1, rest) ← gather tmp t.element b (t :: ts)
    let sorted ← csort (monLtF tmp) (b1.mons.length - cursor + 1) b1.mons cursor b1.mons.length
    let (b2, writer) ← mergeRun tmp (b1.mons.length - cursor) { b1 with mons := sorted } cursor cursor
    let monCount := writer - cursor
    let b3 := { b2 with mons := b2.mons.take writer }
    if monCount > 0 then
      let b4 ← b3.putTerm ⟨monCount, cursor, t.element⟩
      collate tmp fuel b4 rest
    else collate tmp fuel b3 rest

/-- `operator<(term, term)` (algebra.hpp:156-159). -/
def termLtF (a b : Term) : Out Bool := ok (decide (a.element < b.element))

/-- Sort the temporary terms and collate into fresh arrays (algebra.hpp:1387-1398, 1254-1265; null_algebra.hpp:64-81). -/
def sortCollate (tmp : Bld) (caps : Caps) : Out Mv := do
  let ts ← sortAll termLtF tmp.terms
  let r ← collate tmp ts.length (Bld.empty caps) ts
  return r.finish

/-! ## Product -/

/-- The indeterminate merge of `product` (algebra.hpp:1320-1367). -/
def mergeInds : Nat → Bld → Rat32 → List Ind → List Ind → Out (Bld × Rat32)
  | 0, b, d, _, _ => ok (b, d)
  | _ + 1, b, d, [], [] => ok (b, d)
  | fuel + 1, b, d, [], y :: r => do
    let d ← d.addAssign y.deg
    let b ← b.putInd y
    mergeInds fuel b d [] r
  | fuel + 1, b, d, x :: l, [] => do
    let d ← d.addAssign x.deg
    let b ← b.putInd x
    mergeInds fuel b d l []
  | fuel + 1, b, d, x :: l, y :: r =>
    if x.id = y.id then do
      let next ← x.deg.add y.deg
      let d ← d.addAssign next
      if next.neInt 0 then
        let b ← b.putInd ⟨x.id, next⟩
        mergeInds fuel b d l r
      else mergeInds fuel b d l r
    else if x.id < y.id then do
      let b ← b.putInd x
      let d ← d.addAssign x.deg
      mergeInds fuel b d l (y :: r)
    else do
      let b ← b.putInd y
      let d ← d.addAssign y.deg
      mergeInds fuel b d (x :: l) r

/-- Body of the monomial loops of `product` (algebra.hpp:1312-1374). -/
def mulMon (k : Int) (b : Bld) (x y : NMon) : Out Bld := do
  let (b', degree) ← mergeInds (x.inds.length + y.inds.length) b {} x.inds y.inds
  let q ← Rat32.imul k x.q
  let q ← q.mul y.q
  b'.putMon ⟨q, degree, b'.inds.length - b.inds.length, b.inds.length⟩

/-- Inner monomial loop of `product` (algebra.hpp:1310-1375). -/
def mulMonRow (k : Int) (x : NMon) : Bld → List NMon → Out Bld
  | b, [] => ok b
  | b, y :: r => do
    let b ← mulMon k b x y
    mulMonRow k x b r

/-- Monomial loops of `product` (algebra.hpp:1308-1376). -/
def mulMons (k : Int) : Bld → List NMon → List NMon → Out Bld
  | b, [], _ => ok b
  | b, x :: l, r => do
    let b ← mulMonRow k x b r
    mulMons k b l r

/-- Inner term loop of `product` (algebra.hpp:1298-1382). -/
def mulTermRow (P : Nat → Nat → Nat × Int) (x : NTerm) : Bld → NMv → Out Bld
  | b, [] => ok b
  | b, y :: r =>
    let (element, multiplier) := P (x.element % 256) (y.element % 256)
    if multiplier ≠ 0 then do
      let b' ← mulMons multiplier b x.mons y.mons
      let b' ← b'.putTerm ⟨b'.mons.length - b.mons.length, b.mons.length, element⟩
      mulTermRow P x b' r
    else mulTermRow P x b r

/-- Term loops of `product` (algebra.hpp:1296-1383). -/
def mulTerms (P : Nat → Nat → Nat × Int) : Bld → NMv → NMv → Out Bld
  | b, [], _ => ok b
  | b, x :: l, r => do
    let b ← mulTermRow P x b r
    mulTerms P b l r

/-- Capacities of the temporary and output arrays of `product` (algebra.hpp:1279-1281). -/
def prodCaps (a b : Caps) : Caps := ⟨a.m * b.i + b.m * a.i, a.m * b.m, a.t * b.t⟩

/-- `detail::product` (algebra.hpp:1272-1399). -/
def product (P : Nat → Nat → Nat × Int) (a b : Mv) : Out Mv := do
  let na ← a.view
  let nb ← b.view
  let caps := prodCaps a.caps b.caps
  let tmp ← mulTerms P (Bld.empty caps) na nb
  sortCollate tmp caps

/-! ## In-place coefficient updates -/

/-- `mv::scale` (algebra.hpp:514-520), also `detail::scale` (algebra.hpp:954-959).  Default entries between the written
prefix and `size.mon` stay zero and are left out. -/
def scale (q : Rat32) (a : Mv) : Out Mv :=
  if a.szM ≤ a.caps.m then do
    let ms ← mapO (fun m : Mon => do let q' ← q.mul m.q; return { m with q := q' }) (a.mons.take a.szM)
    return { a with mons := ms ++ a.mons.drop a.szM }
  else .ub

/-- Updating `n` consecutive coefficients in place from position `off` (e.g. algebra.hpp:973-976). -/
def updQ (f : Rat32 → Out Rat32) : List Mon → Nat → Nat → Out (List Mon)
  | mons, _, 0 => ok mons
  | mons, off, n + 1 => do
    let m ← getAt mons off
    let q ← f m.q
    updQ f (mons.set off { m with q := q }) (off + 1) n

/-- Loop over terms that updates the coefficients of each term in place (algebra.hpp:971-977, 1076-1092). -/
def updTerms (f : Term → Option (Rat32 → Out Rat32)) : List Mon → List Term → Out (List Mon)
  | mons, [] => ok mons
  | mons, t :: ts =>
    match f t with
    | none => updTerms f mons ts
    | some g => do
      let mons ← updQ g mons t.off t.count
      updTerms f mons ts

/-- `detail::negate` (algebra.hpp:968-979). -/
def negate (a : Mv) : Out Mv := do
  let ts ← rdRange a.caps.t a.terms 0 a.szT
  let mons ← updTerms (fun _ => some Rat32.neg) a.mons ts
  return { a with mons := mons }

/-- Whether `reverse` negates a term (algebra.hpp:1078-1086). -/
def reverseNegates (t : Term) : Bool :=
  t.element ≠ 0 && (popCount t.element * (popCount t.element - 1) / 2) % 2 == 1

/-- `detail::reverse` (algebra.hpp:1073-1094). -/
def reverse (a : Mv) : Out Mv := do
  let ts ← rdRange a.caps.t a.terms 0 a.szT
  let mons ← updTerms (fun t => if reverseNegates t then some Rat32.neg else none) a.mons ts
  return { a with mons := mons }

/-- `detail::divide`, divisor without indeterminates (algebra.hpp:985-999). -/
def divideConst (a b : Mv) (q : Rat32) : Out Mv := do
  let m ← rd b.caps.m b.mons 0
  let ts ← rdRange a.caps.t a.terms 0 a.szT
  let mons ← updTerms (fun _ => some (fun x => do let y ← q.mul x; y.div m.q)) a.mons ts
  return { a with mons := mons }

/-- Monomial loop of `detail::divide`, divisor with one indeterminate (algebra.hpp:1012-1059). -/
def divideMons (d : Ind) (mq : Rat32) : Bld → List NMon → Out Bld
  | b, [] => ok b
  | b, x :: xs => do
    let (is, canceled) ← divIndsN d false false x.inds
    let b' ← copyInds b is
    let deg ← x.degree.sub d.deg
    let count := if canceled then x.inds.length - 1 else x.inds.length + 1
    let q ← x.q.div mq
    let b' ← b'.putMon ⟨q, deg, count, b.inds.length⟩
    divideMons d mq b' xs

/-- Term loop of `detail::divide` (algebra.hpp:1010-1062): the term header, including its offset, is copied unchanged. -/
def divideTerms (d : Ind) (mq : Rat32) : Bld → List (Term × NTerm) → Out Bld
  | b, [] => ok b
  | b, (t, n) :: ts => do
    let b ← divideMons d mq b n.mons
    let b ← b.putTerm t
    divideTerms d mq b ts

/-- `detail::divide` (algebra.hpp:981-1071).  `b.caps.i` is the template parameter `I2`; for `I2 ≥ 2` the function has no
return statement, and `M2 = 0` or `T2 = 0` is rejected at compile time: both are `ub` here. -/
def divide (a b : Mv) (q : Rat32) : Out Mv :=
  if b.caps.m = 0 ∨ b.caps.t = 0 then .ub
  else if b.caps.i = 0 then divideConst a b q
  else if b.caps.i = 1 then do
    let m ← rd b.caps.m b.mons 0
    let d ← rd b.caps.i b.inds 0
    let nd ← d.deg.neg
    let na ← a.view
    let ts ← rdRange a.caps.t a.terms 0 a.szT
    let r ← divideTerms ⟨d.id, nd⟩ m.q (Bld.empty ⟨a.caps.i + a.caps.m, a.caps.m, a.caps.t⟩) (ts.zip na)
    scale q r.finish
  else .ub

/-! ## Poincaré dual -/

/-- Writing loop of `poincare_dual` (algebra.hpp:1231-1246). -/
def dualTerms (dim : Nat) : Bld → NMv → Out Bld
  | b, [] => ok b
  | b, t :: ts => do
    let (g, parity) := poincareComplement t.element dim
    let t' ← t.mapQ (Rat32.imul parity)
    let b ← copyTerm b ⟨g, t'.mons⟩
    dualTerms dim b ts

/-- `detail::poincare_dual` (algebra.hpp:1219-1266).  `mon_views[i]` is read for `i < out.size.mon = in.size.mon`. -/
def poincareDual (dim : Nat) (a : Mv) : Out Mv := do
  let na ← a.view
  let tmp ← dualTerms dim (Bld.empty a.caps) na
  sortCollate tmp a.caps

/-! ## Selection and reshaping -/

/-- `mv::push` (algebra.hpp:613-636). -/
def push (b : Bld) (t : NTerm) (s : Rat32) (e : Nat) : Out Bld := do
  let t' ← t.mapQ (fun q => q.mul s)
  copyTermLast b ⟨e % 256, t'.mons⟩

/-- Loop of `mv::operator[]` (algebra.hpp:557-567). -/
def componentLoop (b : Bld) (e : Nat) : NMv → Out Bld
  | [] => ok b
  | t :: ts => if t.element = e % 256 then push b t Rat32.one 0 else componentLoop b e ts

/-- `mv::operator[]` (algebra.hpp:555-568) and `detail::component` (algebra.hpp:1401-1405). -/
def component (a : Mv) (e : Nat) : Out Mv := do
  let na ← a.view
  let b ← componentLoop (Bld.empty ⟨a.caps.i, a.caps.m, 1⟩) e na
  return b.finish

/-- Loop of `mv::select_grade` (algebra.hpp:577-604). -/
def selectLoop (grade : Nat) : Bld → NMv → Out Bld
  | b, [] => ok b
  | b, t :: ts =>
    if popCount t.element > grade then ok b
    else if popCount t.element < grade then selectLoop grade b ts
    else do
      let b ← copyTerm b t
      selectLoop grade b ts

/-- `mv::select_grade` (algebra.hpp:570-610). -/
def selectGrade (a : Mv) (grade : Nat) : Out Mv := do
  let na ← a.view
  let b ← selectLoop grade (Bld.empty a.caps) na
  return b.finish

/-- Loop of `detail::extract` (algebra.hpp:1415-1434). -/
def extractLoop : Nat → Bld → NMv → List Nat → Out Bld
  | 0, b, _, _ => ok b
  | _ + 1, b, _, [] => ok b
  | _ + 1, b, [], _ :: _ => ok b
  | fuel + 1, b, t :: ts, e :: es =>
    if t.element > e then extractLoop fuel b (t :: ts) es
    else if t.element < e then extractLoop fuel b ts (e :: es)
    else do
      let b ← push b t Rat32.one e
      extractLoop fuel b ts (e :: es)

/-- `detail::extract` (algebra.hpp:1407-1435). -/
def extract (a : Mv) (elements : List Nat) : Out Mv := do
  let na ← a.view
  let b ← extractLoop (na.length + elements.length) (Bld.empty ⟨a.caps.i, a.caps.m, elements.length⟩) na elements
  return b.finish

/-- `detail::shift` (algebra.hpp:961-966). -/
def shift (q : Rat32) (a : Mv) : Out Mv :=
  sum a ⟨⟨0, 1, 1⟩, 0, 1, 1, [], [⟨q, Rat32.zero, 0, 0⟩], [⟨1, 0, 0⟩], .id⟩

/-- `mv::resize` (algebra.hpp:638-663): copies the first `size` entries of each array. -/
def resize (a : Mv) (caps : Caps) : Out Mv :=
  if caps = a.caps then ok a
  else if a.szI ≤ caps.i ∧ a.szM ≤ caps.m ∧ a.szT ≤ caps.t then do
    let is ← rdRange a.caps.i a.inds 0 a.szI
    let ms ← rdRange a.caps.m a.mons 0 a.szM
    let ts ← rdRange a.caps.t a.terms 0 a.szT
    return ⟨caps, a.szI, a.szM, a.szT, is, ms, ts, .id⟩
  else .ub

/-- `mv::create_ref` (algebra.hpp:501-512): uses the capacity `T`, not the number of terms. -/
def createRef (a : Mv) (id : Nat) : Mv :=
  let n := a.caps.t
  ⟨⟨n, n, n⟩, n, n, n, (List.range n).map (fun i => ⟨id + i, Rat32.one⟩),
    (List.range n).map (fun i => ⟨Rat32.one, Rat32.one, 1, i⟩),
    (List.range n).map (fun i => ⟨1, i, (a.terms.getD i default).element⟩), .id⟩

/-- `mv::extent` (algebra.hpp:694-717). -/
def extent (a : Mv) : Out (Nat × Nat × Nat) := do
  let na ← a.view
  return (na.foldl (fun n t => t.mons.foldl (fun n m => if m.inds.length > n then m.inds.length else n) n) 0,
    na.foldl (fun n t => if t.mons.length > n then t.mons.length else n) 0, a.szT)

/-- `e<A, G, N, D>` (algebra.hpp:1439-1440). -/
def basisMv (g : Nat) (n d : Int) : Mv := ⟨⟨0, 1, 1⟩, 0, 1, 1, [], [⟨⟨n, d⟩, Rat32.zero, 0, 0⟩], [⟨1, 0, g⟩], .id⟩

/-! ## Null basis -/

/-- Loop of `to_null_basis` (null_algebra.hpp:34-61); `lhs` collects unchanged terms, `tmp` the rewritten ones. -/
def toNullLoop (dim : Nat) : Bld → Bld → NMv → Out (Bld × Bld)
  | lhs, tmp, [] => ok (lhs, tmp)
  | lhs, tmp, t :: ts =>
    let ep := 1 <<< (dim - 2)
    let en := 1 <<< (dim - 1)
    let enp := ep ^^^ en
    if t.element &&& enp ≠ 0 then
      if t.element &&& en ≠ 0 ∧ t.element &&& ep ≠ 0 then do
        let lhs ← push lhs t Rat32.one t.element
        toNullLoop dim lhs tmp ts
      else if t.element &&& ep ≠ 0 then do
        let tmp ← push tmp t Rat32.one t.element
        let tmp ← push tmp t Rat32.minusOneHalf (t.element ^^^ enp)
        toNullLoop dim lhs tmp ts
      else do
        let tmp ← push tmp t Rat32.one (t.element ^^^ enp)
        let tmp ← push tmp t Rat32.oneHalf t.element
        toNullLoop dim lhs tmp ts
    else do
      let lhs ← push lhs t Rat32.one t.element
      toNullLoop dim lhs tmp ts

/-- Loop of `to_natural_basis` (null_algebra.hpp:97-124). -/
def toNaturalLoop (dim : Nat) : Bld → Bld → NMv → Out (Bld × Bld)
  | lhs, tmp, [] => ok (lhs, tmp)
  | lhs, tmp, t :: ts =>
    let no := 1 <<< (dim - 2)
    let ni := 1 <<< (dim - 1)
    let noi := no ^^^ ni
    if t.element &&& noi ≠ 0 then
      if t.element &&& no ≠ 0 ∧ t.element &&& ni ≠ 0 then do
        let lhs ← push lhs t Rat32.one t.element
        toNaturalLoop dim lhs tmp ts
      else if t.element &&& no ≠ 0 then do
        let tmp ← push tmp t Rat32.oneHalf t.element
        let tmp ← push tmp t Rat32.oneHalf (t.element ^^^ noi)
        toNaturalLoop dim lhs tmp ts
      else do
        let tmp ← push tmp t Rat32.minusOne (t.element ^^^ noi)
        let tmp ← push tmp t Rat32.one t.element
        toNaturalLoop dim lhs tmp ts
    else do
      let lhs ← push lhs t Rat32.one t.element
      toNaturalLoop dim lhs tmp ts

/-- Capacities of `temp` and `rhs` in the null basis conversions (null_algebra.hpp:27, 73). -/
def Caps.double (c : Caps) : Caps := ⟨2 * c.i, 2 * c.m, 2 * c.t⟩

/-- `to_null_basis` (null_algebra.hpp:22-83). -/
def toNullBasis (dim : Nat) (a : Mv) : Out Mv := do
  let na ← a.view
  let (lhs, tmp) ← toNullLoop dim (Bld.empty a.caps) (Bld.empty a.caps.double) na
  let rhs ← sortCollate tmp a.caps.double
  sum lhs.finish rhs

/-- `to_natural_basis` (null_algebra.hpp:85-147). -/
def toNaturalBasis (dim : Nat) (a : Mv) : Out Mv := do
  let na ← a.view
  let (lhs, tmp) ← toNaturalLoop dim (Bld.empty a.caps) (Bld.empty a.caps.double) na
  let rhs ← sortCollate tmp a.caps.double
  sum lhs.finish rhs

end Gal
