import Verif.Expr
import Verif.Stack

/-!
# Extraction of common subexpressions (`rpn_reshape`, dfa.hpp)

The nodes of the expression are an array of `C` entries that is modified in place.  `width_t` is `uint_fast32_t`; counts and offsets
never come near its end, so plain natural numbers are used and every subtraction that would wrap is undefined behaviour, except for
the reference counts, which do wrap (64 bits).  A read outside an array is undefined behaviour.
-/

namespace Gal

open Out

/-- `cse` (dfa.hpp:136-144). -/
structure Cse where
  crc : Nat
  offset : Nat
  count : Nat
  refs : Nat
  finalIndex : Nat := 0
  required : Bool
  deriving DecidableEq, Repr, Inhabited

/-- Array read `expr.nodes[i]`, `known.ses[i]`, undefined outside (dfa.hpp:146-151, expr.hpp:129-139). -/
def atO {α : Type} (l : List α) (i : Nat) : Out α :=
  match l[i]? with
  | some x => ok x
  | none => .ub

/-- Array write, undefined outside (dfa.hpp:146-151, expr.hpp:129-139). -/
def setO {α : Type} (l : List α) (i : Nat) (x : α) : Out (List α) := if i < l.length then ok (l.set i x) else .ub

/-- The inner `while` loops of `compare_se` (dfa.hpp:180-195): follow references to the first node of the known subexpression.  The
code does not stop on a cycle; here the fuel runs out, which is undefined behaviour. -/
def chase (known : List Cse) (nodes : List Node) : Nat → Node → Out Node
  | 0, _ => .ub
  | fuel + 1, n =>
    if n.o = Op.cse then do
      let c ← atO known n.ex
      let n' ← atO nodes c.offset
      chase known nodes fuel n'
    else ok n

/-- The loop of `compare_se` (dfa.hpp:162-204) at position `i`; `count` iterations are enough. -/
def compareLoop (known : List Cse) (nodes : List Node) (lo ro count : Nat) : Nat → Nat → Out Bool
  | 0, i => if i = count then ok true else .ub
  | fuel + 1, i =>
    if i = count then ok true
    else do
      let l ← atO nodes (lo + i)
      let r ← atO nodes (ro + i)
      if l.o = Op.cse ∧ r.o = Op.cse then
        if l.ex = r.ex then
          if l.checksum < lo then .ub else compareLoop known nodes lo ro count fuel (l.checksum - lo)
        else return false
      else do
        let l' ← chase known nodes (known.length + 1) l
        let r' ← chase known nodes (known.length + 1) r
        if l'.same r' then compareLoop known nodes lo ro count fuel (i + 1) else return false

/-- `compare_se` (dfa.hpp:153-207). -/
def compareSe (known : List Cse) (nodes : List Node) (l r : Cse) : Out Bool :=
  if l.crc ≠ r.crc ∨ l.count ≠ r.count then ok false else compareLoop known nodes l.offset r.offset l.count l.count 0

/-- The search of `register_se` (dfa.hpp:220-229) from position `i`. -/
def findSe (known : List Cse) (nodes : List Node) (next : Cse) : Nat → List Cse → Out (Option Nat)
  | _, [] => ok none
  | i, k :: ks => do
    let b ← compareSe known nodes k next
    if b then return some i else findSe known nodes next (i + 1) ks

/-- `register_se` (dfa.hpp:209-233): the new table and the position of the match plus one, or zero. -/
def registerSe (cap : Nat) (nodes : List Node) (known : List Cse) (crc offset count : Nat) (required : Bool) :
    Out (List Cse × Nat) := do
  let next : Cse := { crc, offset, count, refs := 1, required }
  let f ← findSe known nodes next 0 known
  match f with
  | some i => do
    let k ← atO known i
    return (known.set i { k with refs := k.refs + 1, required := required || k.required }, i + 1)
  | none => if known.length < cap then return (known ++ [next], 0) else .ub

/-- The state of the first loop of `rpn_reshape` (dfa.hpp:243-257). -/
structure Scan where
  nodes : List Node
  known : List Cse
  offsets : Stk Nat
  seRefs : List Nat
  seCount : Nat
  deriving DecidableEq, Repr

/-- `--known.ses[k].refs` (dfa.hpp:279, 386, 391, 421). -/
def decRef (known : List Cse) (k : Nat) : Out (List Cse) := do
  let c ← atO known k
  return known.set k { c with refs := Stk.wsub c.refs 1 }

/-- `--known.ses[n.ex].refs` if the node is a reference (dfa.hpp:276-280, 383-392). -/
def decNode (known : List Cse) (n : Node) : Out (List Cse) := if n.o = Op.cse then decRef known n.ex else ok known

/-- Turn the node at `offset` into a reference that skips to `stop` (dfa.hpp:282-285, 323-326, 360-363, 394-397, 434-437). -/
def setRef (nodes : List Node) (offset stop k : Nat) : Out (List Node) := do
  let n ← atO nodes offset
  return nodes.set offset { n with o := Op.cse, checksum := stop, ex := k }

/-- `if (se_count > 0) se_refs[se_count - 1] = se_i` (dfa.hpp:286-291, 327-330, 364-367, 398-401, 451-454). -/
def noteRef (s : Scan) (k : Nat) : Out Scan :=
  if s.seCount > 0 then do
    let r ← setO s.seRefs (s.seCount - 1) k
    return { s with seRefs := r }
  else ok s

/-- `known.ses[known.count - 1].required = true` (dfa.hpp:308, 312, 347, 351). -/
def requireLast (known : List Cse) : Out (List Cse) :=
  if known = [] then .ub
  else do
    let c ← atO known (known.length - 1)
    return known.set (known.length - 1) { c with required := true }

/-- `op_rev`, `op_pd` (dfa.hpp:269-294). -/
def scanUnary (cap i : Nat) (n : Node) (s : Scan) : Out Scan := do
  let offset ← s.offsets.peek
  if i < offset then .ub else do
  let (known, k) ← registerSe cap s.nodes s.known n.checksum offset (i - offset + 1) false
  if k > 0 then do
    let prev ← atO s.nodes offset
    let known ← decNode known prev
    let nodes ← setRef s.nodes offset (i + 1) (k - 1)
    noteRef { s with nodes, known } k
  else return { s with known }

/-- The divisor has to be available as a number (dfa.hpp:302-314). -/
def divRequire (i : Nat) (s : Scan) : Out (List Cse) :=
  if i > 2 then do
    let lastOffset ← s.offsets.peek
    let prev ← atO s.nodes lastOffset
    let before ← atO s.nodes (i - 1)
    if lastOffset = i - 2 ∧ isReadOp before.o = false then requireLast s.known
    else if lastOffset < i - 2 ∧ prev.o ≠ Op.cse ∧ prev.checksum ≠ i then requireLast s.known
    else ok s.known
  else ok s.known

/-- `op_div` (dfa.hpp:295-333). -/
def scanDiv (cap i : Nat) (n : Node) (s : Scan) : Out Scan := do
  let known ← divRequire i s
  let (_, offsets) ← s.offsets.pop
  let offset ← offsets.peek
  if i < offset then .ub else do
  let (known, k) ← registerSe cap s.nodes known n.checksum offset (i - offset + 1) true
  if k > 0 then do
    let nodes ← setRef s.nodes offset (i + 1) (k - 1)
    noteRef { s with nodes, known, offsets } k
  else return { s with known, offsets }

/-- The argument of a function has to be available as a number (dfa.hpp:341-353). -/
def fnRequire (i offset : Nat) (s : Scan) : Out (List Cse) :=
  if i > 2 then do
    let prev ← atO s.nodes offset
    let before ← atO s.nodes (i - 1)
    if offset = i - 2 ∧ isReadOp before.o = false then requireLast s.known
    else if offset < i - 2 ∧ ¬ (prev.o = Op.cse ∧ prev.checksum = i) then requireLast s.known
    else ok s.known
  else ok s.known

/-- `op_sqrt`, `op_sin`, `op_cos`, `op_tan` (dfa.hpp:334-370). -/
def scanFn (cap i : Nat) (n : Node) (s : Scan) : Out Scan := do
  let offset ← s.offsets.peek
  let known ← fnRequire i offset s
  if i < offset then .ub else do
  let (known, k) ← registerSe cap s.nodes known n.checksum offset (i - offset + 1) true
  if k > 0 then do
    let nodes ← setRef s.nodes offset (i + 1) (k - 1)
    noteRef { s with nodes, known } k
  else return { s with known }

/-- `op_gp`, `op_lc`, `op_sip` (dfa.hpp:371-404).  `offsets.pop()` reads the slot above the top (C27). -/
def scanBinary (cap i : Nat) (n : Node) (s : Scan) : Out Scan := do
  let (lastOffset, offsets) ← s.offsets.pop
  let offset ← offsets.peek
  if i < offset then .ub else do
  let (known, k) ← registerSe cap s.nodes s.known n.checksum offset (i - offset + 1) false
  if k > 0 then do
    let second ← atO s.nodes lastOffset
    let known ← decNode known second
    let first ← atO s.nodes offset
    let known ← decNode known first
    let nodes ← setRef s.nodes offset (i + 1) (k - 1)
    noteRef { s with nodes, known, offsets } k
  else return { s with known, offsets }

/-- `--known.ses[se_refs[j] - 1].refs` for the entries of the operands (dfa.hpp:417-423). -/
def decAll (known : List Cse) : List Nat → Out (List Cse)
  | [] => ok known
  | r :: rs =>
    if r > 0 then do
      let known ← decRef known (r - 1)
      decAll known rs
    else decAll known rs

/-- `op_sum`, `op_ep` (dfa.hpp:405-456). -/
def scanPoly (cap i : Nat) (n : Node) (s : Scan) : Out Scan :=
  if 2 * n.ex < 1 ∨ s.seCount < n.ex then .ub
  else do
  let (_, offsets) ← s.offsets.popN (2 * n.ex - 1)
  let offset ← offsets.peek
  if i < offset then .ub else do
  let (known, k) ← registerSe cap s.nodes s.known n.checksum offset (i - offset + 1) false
  let base := s.seCount - n.ex
  let seRefs := s.seRefs.take base ++ List.replicate n.ex 0 ++ s.seRefs.drop s.seCount
  if k > 0 then do
    let known ← decAll known ((s.seRefs.drop base).take n.ex)
    let nodes ← setRef s.nodes offset (i + 1) (k - 1)
    noteRef { nodes, known, offsets, seRefs, seCount := base } k
  else return { s with known, offsets, seRefs, seCount := base }

/-- One iteration of the first loop (dfa.hpp:259-467). -/
def scanNode (cap i : Nat) (s : Scan) : Out Scan := do
  let n ← atO s.nodes i
  if n.o = Op.comp ∨ n.o = Op.grd then return s
  else if n.o = Op.rev ∨ n.o = Op.pd then scanUnary cap i n s
  else if n.o = Op.div then scanDiv cap i n s
  else if n.o = Op.sqrt ∨ n.o = Op.sin ∨ n.o = Op.cos ∨ n.o = Op.tan then scanFn cap i n s
  else if n.o = Op.gp ∨ n.o = Op.lc ∨ n.o = Op.sip then scanBinary cap i n s
  else if n.o = Op.sum ∨ n.o = Op.ep then scanPoly cap i n s
  else if n.o = Op.se then do
    let offsets ← s.offsets.push i
    if s.seCount < cap then return { s with offsets, seCount := s.seCount + 1 } else .ub
  else do
    let offsets ← s.offsets.push i
    return { s with offsets }

/-- The first loop of `rpn_reshape` (dfa.hpp:259-467): nodes `i`, `i + 1`, …, `count` of them. -/
def scanLoop (cap : Nat) : Nat → Nat → Scan → Out Scan
  | 0, _, s => ok s
  | count + 1, i, s => do
    let s ← scanNode cap i s
    scanLoop cap count (i + 1) s

/-- The output while it is written: nodes, and the stack of positions of `op_se` nodes.  Simplification: the pair of a pointer into
`out` and the value of `out.count` after the append (dfa.hpp:492, 496, 554, 558) is the position of the node; the count is one more. -/
structure Emit where
  out : List Node
  stk : List Nat
  deriving DecidableEq, Repr

/-- Adjust the lengths of the operands (dfa.hpp:498-504, 560-566): `ps` are the positions of the operands and of the operation. -/
def fixLengths : List Node → List Nat → Out (List Node)
  | out, p :: p' :: ps => do
    let se ← atO out p
    if p' < p + 1 then .ub else fixLengths (out.set p { se with ex := p' - p - 1 }) (p' :: ps)
  | out, _ => ok out

/-- Append one node (dfa.hpp:487-508, 547-570).  The positions are kept with the last one first.  The filter `q.den` of the operation is
set to the length of the operands (dfa.hpp:507, 569). -/
def emitNode (n : Node) (s : Emit) : Out Emit :=
  let p := s.out.length
  let out := s.out ++ [n]
  if n.o = Op.se then ok ⟨out, p :: s.stk⟩
  else if n.o = Op.sum ∨ n.o = Op.ep then
    if s.stk.length < n.ex then .ub
    else do
      let ps := ((p :: s.stk).take (n.ex + 1)).reverse
      let out ← fixLengths out ps
      let first ← atO ps 0
      let last ← atO out p
      if out.length < first + 2 then .ub
      else return ⟨out.set p { last with q := ⟨last.q.num, out.length - (first + 1) - 1⟩ }, s.stk.drop n.ex⟩
  else ok ⟨out, s.stk⟩

/-- The copying loops (dfa.hpp:485-520, 545-582): from position `j` up to `stop`, references skip the nodes they stand for.  `count` steps
are enough. -/
def emitLoop (nodes : List Node) (stop : Nat) : Nat → Nat → Emit → Out Emit
  | 0, j, s => if j = stop then ok s else .ub
  | fuel + 1, j, s =>
    if j = stop then ok s
    else do
      let n ← atO nodes j
      let s ← emitNode n s
      emitLoop nodes stop fuel (if n.o = Op.cse then n.checksum else j + 1) s

/-- The second loop (dfa.hpp:477-530): write out the subexpressions that are used more than once or required. -/
def emitKnown : Nat → Nat → List Node → List Cse → Nat → List Node → Out (List Node × List Cse × List Node)
  | 0, _, nodes, known, _, out => ok (nodes, known, out)
  | fuel + 1, i, nodes, known, cseCount, out => do
    let c ← atO known i
    if c.refs > 1 ∨ c.required = true then do
      let known := known.set i { c with finalIndex := cseCount }
      let e ← emitLoop nodes (c.offset + c.count) c.count c.offset ⟨out, []⟩
      let nodes ← setRef nodes c.offset (c.offset + c.count) i
      emitKnown fuel (i + 1) nodes known (cseCount + 1) (e.out ++ [⟨Op.noop, 0, 0, Rat32.zero⟩])
    else emitKnown fuel (i + 1) nodes known cseCount out

/-- The passes that turn positions in the table into positions among the temporaries (dfa.hpp:532-540, 574-575). -/
def fixIndex (known : List Cse) (n : Node) : Out Node :=
  if n.o = Op.cse then do
    let c ← atO known n.ex
    return { n with ex := c.finalIndex }
  else ok n

/-- `rpn_reshape` (dfa.hpp:235-586) for an expression of capacity `cap`, before the references are renumbered: the table and the nodes. -/
def reshapeRaw (cap : Nat) (e : Rpne) : Out (List Cse × List Node) :=
  if cap < e.nodes.length then .ub
  else do
    let nodes := e.nodes ++ List.replicate (cap - e.nodes.length) ⟨0, 0, 0, ⟨0, 0⟩⟩
    let s ← scanLoop cap e.nodes.length 0 ⟨nodes, [], Stk.fresh 0 cap, List.replicate cap 0, 0⟩
    let (nodes, known, temps) ← emitKnown s.known.length 0 s.nodes s.known 0 []
    let m ← emitLoop nodes e.nodes.length e.nodes.length 0 ⟨temps, []⟩
    return (known, m.out)

/-- `rpn_reshape` (dfa.hpp:235-586).  Simplifications: the references in the final part are renumbered after the copy rather than during it;
the bound `3 * C` of the output is checked at the end. -/
def reshape (cap : Nat) (e : Rpne) : Out Rpne := do
  let (known, out) ← reshapeRaw cap e
  let ns ← mapO (fixIndex known) out
  if 3 * cap < ns.length then .ub else return ⟨ns, e.q⟩

end Gal
