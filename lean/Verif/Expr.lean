import Verif.MvNested
import Verif.Crc

/-!
# Expressions built by the operators of the lambda (expr.hpp)

An `rpne<A, S>` is an array of nodes in postfix order with a count and a rational factor.  Simplification: the active nodes
`nodes[0, count)` are a list and the capacity `S` is left out; C44 proves that the list never outgrows the declared capacity.
Reading `back()` of an empty expression is undefined behaviour.  Checksums are `uint32_t` and wrap.
-/

namespace Gal

open Out

/-- `node` (expr.hpp:82-124); the default `q` is `{0, 0}`. -/
structure Node where
  o : Nat
  checksum : Nat := 0
  ex : Nat := 0
  q : Rat32 := ⟨0, 0⟩
  deriving DecidableEq, Repr, Inhabited

namespace Op

/-- `op_id` (expr.hpp:31). -/
abbrev id : Nat := 0
/-- `op_cse` (expr.hpp:32). -/
abbrev cse : Nat := 1
/-- `op_se` (expr.hpp:34). -/
abbrev se : Nat := 2
/-- `op_noop` (expr.hpp:36). -/
abbrev noop : Nat := 3
/-- `op_rev` (expr.hpp:40). -/
abbrev rev : Nat := 4
/-- `op_pd` (expr.hpp:41). -/
abbrev pd : Nat := 5
/-- `op_sum` (expr.hpp:42). -/
abbrev sum : Nat := 6
/-- `op_gp` (expr.hpp:43). -/
abbrev gp : Nat := 7
/-- `op_ep` (expr.hpp:44). -/
abbrev ep : Nat := 8
/-- `op_lc` (expr.hpp:45). -/
abbrev lc : Nat := 9
/-- `op_sip` (expr.hpp:46). -/
abbrev sip : Nat := 10
/-- `op_comp` (expr.hpp:47). -/
abbrev comp : Nat := 11
/-- `op_div` (expr.hpp:48). -/
abbrev div : Nat := 12
/-- `op_grd` (expr.hpp:49). -/
abbrev grd : Nat := 13
/-- `op_sqrt` (expr.hpp:52). -/
abbrev sqrt : Nat := 14
/-- `op_sin` (expr.hpp:53). -/
abbrev sin : Nat := 15
/-- `op_cos` (expr.hpp:54). -/
abbrev cos : Nat := 16
/-- `op_tan` (expr.hpp:55). -/
abbrev tan : Nat := 17
/-- `c_zero` (expr.hpp:58). -/
abbrev czero : Nat := 65536
/-- `c_const_start` and `c_pi` (expr.hpp:59-60). -/
abbrev cpi : Nat := 65537
/-- `c_e` (expr.hpp:61). -/
abbrev ce : Nat := 65538
/-- `c_const_end` (expr.hpp:62). -/
abbrev cend : Nat := 65539
/-- `c_scalar` (expr.hpp:63). -/
abbrev cscalar : Nat := 65540

end Op

/-- `is_read_op` (expr.hpp:68-79). -/
def isReadOp (o : Nat) : Bool := o == Op.comp || o == Op.grd

/-- `node::operator==` (expr.hpp:115-118): the rational is not compared. -/
def Node.same (a b : Node) : Bool := a.o == b.o && a.checksum == b.checksum && a.ex == b.ex

/-- Node-wise comparison of two runs of nodes: `rpne::operator==` (expr.hpp:257-274) and the comparison loops of `operator+`
(expr.hpp:468-475, 562-569). -/
def nodesSame : List Node → List Node → Bool
  | [], [] => true
  | a :: as, b :: bs => a.same b && nodesSame as bs
  | _, _ => false

/-- `rpne` (expr.hpp:129-139); see the header for the capacity. -/
structure Rpne where
  nodes : List Node := []
  q : Rat32 := Rat32.one
  deriving DecidableEq, Repr, Inhabited

/-- Wrapping to `uint32_t`, the type of checksums and counts (expr.hpp:82-113, crc.hpp:49-58). -/
def w32 (x : Nat) : Nat := x % 2 ^ 32

/-- `detail::crc32` on a wrapped argument (crc.hpp:49-60). -/
def crcO (x : Nat) : Out Nat :=
  match crc32 (w32 x) with
  | some c => ok c
  | none => .ub

/-- `rpne::back` (expr.hpp:247-255); undefined when the expression is empty. -/
def backOf (ns : List Node) : Out Node :=
  match ns.getLast? with
  | some n => ok n
  | none => .ub

/-- `rpne::append(op)` (expr.hpp:237-240). -/
def appendOp (ns : List Node) (o : Nat) : Out (List Node) := do
  let b ← backOf ns
  let c ← crcO (o * 256 + b.checksum)
  return ns ++ [⟨o, c, 0, ⟨0, 0⟩⟩]

/-- `rpne_entities` (expr.hpp:277-313): the expression of argument `i` whose first indeterminate has id `id`. -/
def entityExpr (id i : Nat) : Rpne := ⟨[⟨Op.id, id, i, ⟨0, 0⟩⟩], Rat32.one⟩

/-- `rpne_pseudoscalar` (expr.hpp:315-320). -/
def pseudoscalarExpr (dim : Nat) (n : Int) : Rpne :=
  ⟨[⟨w32 (Op.cscalar + 2 ^ dim - 1), w32 (Op.cscalar + 2 ^ dim - 1), 0, ⟨0, 0⟩⟩], ⟨n, 1⟩⟩

/-- `rpne_from_constant` (expr.hpp:322-330). -/
def constExpr (n d : Int) : Rpne := ⟨[⟨Op.cscalar, Op.cscalar, 0, ⟨0, 0⟩⟩], ⟨n, d⟩⟩

/-- The constant basis element `E` (the literals of the algebra headers, e.g. cga.hpp `operator""_e0`): node `c_scalar + E`. -/
def elementExpr (e : Nat) (n : Int) : Rpne := ⟨[⟨Op.cscalar + e, Op.cscalar + e, 0, ⟨0, 0⟩⟩], ⟨n, 1⟩⟩

/-- `rpne_constant` (expr.hpp:363-366): `PI` has id `pi_ind`, `E` has id `e_ind` (expr.hpp:376-377). -/
structure RConst where
  id : Nat
  q : Rat32 := Rat32.one
  deriving DecidableEq, Repr

/-- `rpne_constant::convert` (expr.hpp:368-372): always the node of pi, whatever the id. -/
def RConst.convert (c : RConst) : Rpne := ⟨[⟨Op.cpi, Op.cpi, 0, ⟨0, 0⟩⟩], c.q⟩

/-! ## Sums -/

/-- A summand or factor: the `op_se` node and the nodes it spans (expr.hpp:34, 226-235). -/
structure Block where
  se : Node
  body : List Node
  deriving DecidableEq, Repr

/-- The nodes of a block in the array (expr.hpp:226-235). -/
def Block.flat (b : Block) : List Node := b.se :: b.body

/-- The nodes of a list of blocks in the array (expr.hpp:418-523). -/
def flatBlocks (bs : List Block) : List Node := bs.flatMap Block.flat

/-- Cut the operands of a sum into blocks, following `node::ex` (the index arithmetic of expr.hpp:418-523 and 536-618).
Simplification: the code walks the blocks while merging; here they are cut first.  A block that runs past the end is undefined
behaviour.  The length is enough fuel. -/
def cutBlocks : Nat → List Node → Out (List Block)
  | _, [] => ok []
  | 0, _ :: _ => .ub
  | fuel + 1, n :: ns =>
    if ns.length < n.ex then .ub
    else do
      let bs ← cutBlocks fuel (ns.drop n.ex)
      return ⟨n, ns.take n.ex⟩ :: bs

/-- The blocks of an expression whose last node is `op_sum`, without that node (expr.hpp:422-423, 541). -/
def summands (e : Rpne) : Out (List Block) := cutBlocks e.nodes.length e.nodes.dropLast

/-- A summand multiplied by a factor, `summand.q *= q` (expr.hpp:430, 446, 506, 515, 609). -/
def Block.scale (q : Rat32) (b : Block) : Out Block := do
  let q' ← b.se.q.mulAssign q
  return ⟨{ b.se with q := q' }, b.body⟩

/-- The comparison of two summands (expr.hpp:463-475). -/
def Block.same (a b : Block) : Bool := a.se.checksum == b.se.checksum && a.se.ex == b.se.ex && nodesSame a.body b.body

/-- Merging two sums (expr.hpp:417-524).  The remaining left summands are multiplied by the factor of the *right* sum
(line 446), as written.  The total number of blocks is enough fuel. -/
def mergeSums (lq rq : Rat32) : Nat → List Block → List Block → Out (List Block)
  | _, [], rs => mapO (Block.scale rq) rs
  | _, l :: ls, [] => mapO (Block.scale rq) (l :: ls)
  | 0, _ :: _, _ :: _ => .ub
  | fuel + 1, l :: ls, r :: rs =>
    if l.same r then do
      let x ← l.se.q.mul lq
      let y ← r.se.q.mul rq
      let q ← x.add y
      let out ← mergeSums lq rq fuel ls rs
      if q.isZero then return out else return ⟨⟨Op.se, l.se.checksum, l.se.ex, q⟩, l.body⟩ :: out
    else if l.se.checksum < r.se.checksum then do
      let b ← l.scale lq
      let out ← mergeSums lq rq fuel ls (r :: rs)
      return b :: out
    else do
      let b ← r.scale rq
      let out ← mergeSums lq rq fuel (l :: ls) rs
      return b :: out

/-- Merging a sum with an expression that is not a sum (expr.hpp:525-618): `non` is the block made of the latter. -/
def mergeTerm (sq : Rat32) (non : Block) : List Block → Out (List Block)
  | [] => ok [non]
  | b :: bs =>
    if b.se.checksum == non.se.checksum && b.se.ex == non.se.ex && nodesSame b.body non.body then do
      let x ← b.se.q.mul sq
      let q ← x.add non.se.q
      let rest ← mapO (Block.scale sq) bs
      if q.isZero then return rest else return { non with se := { non.se with q := q } } :: rest
    else if b.se.checksum > non.se.checksum then do
      let rest ← mapO (Block.scale sq) (b :: bs)
      return non :: rest
    else do
      let b' ← b.scale sq
      let rest ← mergeTerm sq non bs
      return b' :: rest

/-- The expression as a block, `op_se` with the checksum, length and factor of the expression (expr.hpp:545-551, 650-667). -/
def asBlock (e : Rpne) : Out Block := do
  let b ← backOf e.nodes
  return ⟨⟨Op.se, b.checksum, e.nodes.length, e.q⟩, e.nodes⟩

/-- The bloom filter over the operands starting at a node (expr.hpp:685-693, 1035-1043); the length is enough fuel. -/
def bloom : Nat → List Node → Nat → Nat
  | _, [], c => c
  | 0, _ :: _, c => c
  | fuel + 1, n :: ns, c => bloom fuel (ns.drop n.ex) (c ||| 2 ^ (n.checksum % 32))

/-- The end of `operator+` (expr.hpp:671-703): a single summand is unwrapped, otherwise the `op_sum` node is appended. -/
def finishSum (bs : List Block) : Rpne :=
  match bs with
  | [b] => ⟨b.body, b.se.q⟩
  | bs =>
    let ns := flatBlocks bs
    ⟨ns ++ [⟨Op.sum, bloom ns.length ns 0, bs.length, ⟨0, ns.length + 1⟩⟩], Rat32.one⟩

/-- `operator+(rpne, rpne)` (expr.hpp:379-703). -/
def addExpr (l r : Rpne) : Out Rpne :=
  if l.nodes = [] then ok ⟨r.nodes, Rat32.one⟩
  else if r.nodes = [] then ok ⟨l.nodes, Rat32.one⟩
  else do
    let lb ← backOf l.nodes
    let rb ← backOf r.nodes
    if lb.o = Op.sum then
      if rb.o = Op.sum then do
        let ls ← summands l
        let rs ← summands r
        let bs ← mergeSums l.q r.q (ls.length + rs.length) ls rs
        return finishSum bs
      else do
        let ls ← summands l
        let b ← asBlock r
        let bs ← mergeTerm l.q b ls
        return finishSum bs
    else if rb.o = Op.sum then do
      let rs ← summands r
      let b ← asBlock l
      let bs ← mergeTerm r.q b rs
      return finishSum bs
    else if lb.checksum = rb.checksum ∧ nodesSame l.nodes r.nodes then do
      let q ← l.q.add r.q
      if q.isZero then return {} else return ⟨l.nodes, q⟩
    else do
      let x ← asBlock l
      let y ← asBlock r
      if lb.checksum < rb.checksum then return finishSum [x, y] else return finishSum [y, x]

/-! ## Factors and differences -/

/-- `operator*(int, rpne)` (expr.hpp:705-718). -/
def imulExpr (n : Int) (e : Rpne) : Out Rpne :=
  if n = 0 ∨ e.nodes = [] then ok { e with nodes := [] }
  else do
    let q ← e.q.mulAssign ⟨n, 1⟩
    return { e with q := q }

/-- `operator*(int, rpne_constant)` and `operator*(rpne_constant, int)` (expr.hpp:720-730). -/
def imulConst (n : Int) (c : RConst) : Out RConst := do
  let q ← c.q.mulAssign ⟨n, 1⟩
  return { c with q := q }

/-- `operator/(rpne_constant, int)` (expr.hpp:732-736). -/
def idivConst (c : RConst) (d : Int) : Out RConst := do
  let q ← c.q.mulAssign ⟨1, d⟩
  return { c with q := q }

/-- Unary `operator-(rpne)` (expr.hpp:738-746). -/
def negExpr (e : Rpne) : Out Rpne :=
  if e.nodes = [] then ok e
  else do
    let q ← e.q.mulAssign Rat32.minusOne
    return { e with q := q }

/-- `operator-(rpne, rpne)` (expr.hpp:748-752). -/
def subExpr (l r : Rpne) : Out Rpne := do
  let r' ← negExpr r
  addExpr l r'

/-- `operator/(rpne, int)` (expr.hpp:754-762). -/
def divIntExpr (e : Rpne) (d : Int) : Out Rpne :=
  if e.nodes = [] then ok e
  else do
    let q ← e.q.mulAssign ⟨1, d⟩
    return { e with q := q }

/-- `operator+(int, rpne)` and `operator+(rpne, int)` (expr.hpp:800-804, 812-816). -/
def addIntExpr (n : Int) (e : Rpne) : Out Rpne := addExpr (constExpr n 1) e

/-- `operator-(int, rpne)` (expr.hpp:806-810). -/
def intSubExpr (n : Int) (e : Rpne) : Out Rpne := do
  let e' ← negExpr e
  addExpr (constExpr n 1) e'

/-- `operator-(rpne, int)` (expr.hpp:818-822). -/
def subIntExpr (e : Rpne) (n : Int) : Out Rpne := do
  let m ← chk (-n)
  addExpr (constExpr m 1) e

/-! ## Division and functions -/

/-- `operator/(int, rpne)` (expr.hpp:764-774): the factor of the constant is not taken over. -/
def intDivExpr (n : Int) (e : Rpne) : Out Rpne := do
  let ns ← appendOp ((constExpr n 1).nodes ++ e.nodes) Op.div
  return ⟨ns.dropLast ++ ns.getLast?.toList.map fun d => { d with q := e.q.reciprocal }, Rat32.one⟩

/-- `operator/(rpne, rpne)` (expr.hpp:776-786). -/
def divExpr (l r : Rpne) : Out Rpne := do
  let ns ← appendOp (l.nodes ++ r.nodes) Op.div
  let q ← l.q.div r.q
  return ⟨ns.dropLast ++ ns.getLast?.toList.map fun d => { d with q := q }, Rat32.one⟩

/-- `sqrt`, `sin`, `cos`, `tan` of an expression (expr.hpp:860-902). -/
def funExpr (o : Nat) (e : Rpne) : Out Rpne := do
  let ns ← appendOp e.nodes o
  return ⟨ns.dropLast ++ ns.getLast?.toList.map fun d => { d with q := e.q }, Rat32.one⟩

/-! ## Unary operators -/

/-- `operator~` (expr.hpp:824-844): a trailing reversion is removed; the factor is not taken over. -/
def revExpr (e : Rpne) : Out Rpne :=
  if e.nodes = [] then ok {}
  else do
    let b ← backOf e.nodes
    if b.o = Op.rev then return ⟨e.nodes.dropLast, Rat32.one⟩
    else do
      let ns ← appendOp e.nodes Op.rev
      return ⟨ns, Rat32.one⟩

/-- `operator!` (expr.hpp:846-858): the factor is not taken over. -/
def dualExpr (e : Rpne) : Out Rpne :=
  if e.nodes = [] then ok {}
  else do
    let ns ← appendOp e.nodes Op.pd
    return ⟨ns, Rat32.one⟩

/-- `rpne::operator[]` (expr.hpp:142-151). -/
def compExpr (e : Rpne) (i : Nat) : Out Rpne := do
  let b ← backOf e.nodes
  return ⟨e.nodes ++ [⟨Op.comp, w32 (b.checksum + i), i, ⟨0, 0⟩⟩], e.q⟩

/-- `rpne::select_grade` (expr.hpp:153-160); `~g` of an 8-bit value is `-g - 1`. -/
def gradeExpr (e : Rpne) (g : Nat) : Out Rpne := do
  let b ← backOf e.nodes
  return ⟨e.nodes ++ [⟨Op.grd, w32 (b.checksum + (2 ^ 32 - 1 - g)), g, ⟨0, 0⟩⟩], e.q⟩

/-! ## Products -/

/-- The common part of `*`, `>>` and `|` (expr.hpp:933-960, 1059-1087, 1089-1125): operands and the checksum of the node. -/
def productExpr (o : Nat) (l r : Rpne) (first second : List Node) (c : Nat) : Out Rpne := do
  let q ← l.q.mul r.q
  if q.isZero then return {}
  else do
    let c' ← crcO c
    return ⟨first ++ second ++ [⟨o, c', 0, ⟨0, 0⟩⟩], q⟩

/-- `operator*(rpne, rpne)` (expr.hpp:932-960): if one operand is zero the other one is returned, without its factor. -/
def gpExpr (l r : Rpne) : Out Rpne :=
  if l.nodes = [] then ok ⟨r.nodes, Rat32.one⟩
  else if r.nodes = [] then ok ⟨l.nodes, Rat32.one⟩
  else do
    let lb ← backOf l.nodes
    let rb ← backOf r.nodes
    productExpr Op.gp l r l.nodes r.nodes (lb.checksum + not32 rb.checksum + Op.gp * 256)

/-- `operator>>(rpne, rpne)` (expr.hpp:1059-1087). -/
def lcExpr (l r : Rpne) : Out Rpne :=
  if l.nodes = [] then ok ⟨r.nodes, Rat32.one⟩
  else if r.nodes = [] then ok ⟨l.nodes, Rat32.one⟩
  else do
    let lb ← backOf l.nodes
    let rb ← backOf r.nodes
    productExpr Op.lc l r l.nodes r.nodes (lb.checksum + not32 rb.checksum + Op.lc * 256)

/-- `operator|(rpne, rpne)` (expr.hpp:1089-1125): the operands are ordered by checksum. -/
def sipExpr (l r : Rpne) : Out Rpne :=
  if l.nodes = [] then ok ⟨r.nodes, Rat32.one⟩
  else if r.nodes = [] then ok ⟨l.nodes, Rat32.one⟩
  else do
    let lb ← backOf l.nodes
    let rb ← backOf r.nodes
    let c := lb.checksum + rb.checksum + Op.sip * 256
    if lb.checksum < rb.checksum then productExpr Op.sip l r l.nodes r.nodes c
    else productExpr Op.sip l r r.nodes l.nodes c

/-- `scalar_product` (expr.hpp:1133-1176). -/
def scalarProductExpr (l r : Rpne) : Out Rpne :=
  if l.nodes = [] then ok ⟨r.nodes, Rat32.one⟩
  else if r.nodes = [] then ok ⟨l.nodes, Rat32.one⟩
  else do
    let e ← sipExpr l r
    if e.nodes = [] then return e
    else do
      let b ← backOf e.nodes
      return ⟨e.nodes ++ [⟨Op.comp, b.checksum, 0, ⟨0, 0⟩⟩], e.q⟩

/-- `operator*(rpne, rpne_constant)` and `operator*(rpne_constant, rpne)` (expr.hpp:962-972): the constant is on the right. -/
def gpConst (e : Rpne) (c : RConst) : Out Rpne := gpExpr e c.convert

/-- `operator/(rpne, rpne_constant)` (expr.hpp:794-798). -/
def divConst (e : Rpne) (c : RConst) : Out Rpne := divExpr e c.convert

/-- `operator/(rpne_constant, rpne)` (expr.hpp:788-792). -/
def constDiv (c : RConst) (e : Rpne) : Out Rpne := divExpr c.convert e

/-- `operator%` (expr.hpp:1127-1131). -/
def sandwichExpr (l r : Rpne) : Out Rpne := do
  let x ← gpExpr r l
  let y ← revExpr r
  gpExpr x y

/-- A factor of an exterior product: an `op_se` node with factor zero (expr.hpp:1005-1007, 1012-1014, 1028-1031). -/
def factorNodes (e : Rpne) : Out (List Node) := do
  let b ← backOf e.nodes
  return ⟨Op.se, b.checksum, e.nodes.length, Rat32.zero⟩ :: e.nodes

/-- The end of `operator^` (expr.hpp:1035-1051).  The filter starts at the second node (line 1036), as written. -/
def finishEp (ns : List Node) (count : Nat) (q : Rat32) : Rpne :=
  ⟨ns ++ [⟨Op.ep, bloom ns.length (ns.drop 1) 0, count, ⟨0, ns.length + 1⟩⟩], q⟩

/-- `operator^(rpne, rpne)` (expr.hpp:974-1051): the factors of the operands are taken over only when neither operand is an
exterior product already. -/
def epExpr (l r : Rpne) : Out Rpne :=
  if l.nodes = [] ∨ r.nodes = [] ∨ r.q.isZero ∨ l.q.isZero then ok {}
  else do
    let lb ← backOf l.nodes
    let rb ← backOf r.nodes
    if lb.o = Op.ep then
      if rb.o = Op.ep then return finishEp (l.nodes.dropLast ++ r.nodes.dropLast) (lb.ex + rb.ex) Rat32.one
      else do
        let f ← factorNodes r
        return finishEp (l.nodes.dropLast ++ f) (lb.ex + 1) Rat32.one
    else if rb.o = Op.ep then do
      let f ← factorNodes l
      return finishEp (f ++ r.nodes.dropLast) (rb.ex + 1) Rat32.one
    else do
      let f ← factorNodes l
      let g ← factorNodes r
      let q ← l.q.mul r.q
      return finishEp (f ++ g) 2 q

/-- `operator&` (expr.hpp:1053-1057). -/
def joinExpr (l r : Rpne) : Out Rpne := do
  let x ← dualExpr l
  let y ← dualExpr r
  let z ← epExpr x y
  dualExpr z

/-! ## The exponential -/

/-- `exp` (expr.hpp:904-919). -/
def expExpr (dim : Nat) (e : Rpne) : Out Rpne := do
  let s ← sipExpr e e >>= (compExpr · 0)
  let p ← epExpr e e >>= (compExpr · (2 ^ dim - 1))
  let u ← negExpr s >>= funExpr Op.sqrt
  let mp ← negExpr p
  let u2 ← imulExpr 2 u
  let v ← divExpr mp u2
  let i1 ← intDivExpr 1 u
  let vs ← divExpr v s
  let i2 ← gpExpr vs (pseudoscalarExpr dim 1)
  let invNorm ← addExpr i1 i2
  let cosu ← funExpr Op.cos u
  let sinu ← funExpr Op.sin u
  let vsin ← gpExpr v sinu
  let vsinI ← gpExpr vsin (pseudoscalarExpr dim 1)
  let real ← subExpr cosu vsinI
  let vcos ← gpExpr v cosu
  let vcosI ← gpExpr vcos (pseudoscalarExpr dim 1)
  let ideal ← addExpr sinu vcosI
  let x ← gpExpr ideal invNorm
  let y ← gpExpr x e
  addExpr real y

/-- `rpne_concat` (expr.hpp:338-361): several results become the blocks of one expression. -/
def concatExpr (es : List Rpne) : Rpne :=
  ⟨es.flatMap fun e => ⟨Op.se, 0, e.nodes.length, e.q⟩ :: e.nodes, Rat32.one⟩

end Gal
