import Verif.Machine

/-!
# Specification: expression trees

A tree is what an expression means before it is flattened.  `post` lists its nodes in postfix order, `eval` evaluates it
recursively with the operations of the machine, and `val` is its value in an abstract algebra.
-/

namespace Gal

open Out

mutual

/-- Expression trees; every inner vertex carries its node. -/
inductive Tree where
  /-- An input, a reference to a temporary or a constant. -/
  | leaf (n : Node)
  /-- One operand. -/
  | un (n : Node) (t : Tree)
  /-- Two operands. -/
  | bin (n : Node) (l r : Tree)
  /-- A sum or an exterior product of any number of operands. -/
  | poly (n : Node) (f : Forest)

/-- The operands of a sum or exterior product, each with its `op_se` node. -/
inductive Forest where
  | nil
  | cons (se : Node) (t : Tree) (f : Forest)

end

mutual

/-- The nodes of a tree in postfix order. -/
def Tree.post : Tree → List Node
  | .leaf n => [n]
  | .un n t => t.post ++ [n]
  | .bin n l r => l.post ++ r.post ++ [n]
  | .poly n f => f.post ++ [n]

/-- The nodes of the operands: each one is preceded by its `op_se` node. -/
def Forest.post : Forest → List Node
  | .nil => []
  | .cons se t f => se :: (t.post ++ f.post)

end

/-- Number of operands. -/
def Forest.length : Forest → Nat
  | .nil => 0
  | .cons _ _ f => f.length + 1

/-- Operations with one operand. -/
def IsUn (o : Nat) : Prop :=
  o = Op.rev ∨ o = Op.pd ∨ o = Op.comp ∨ o = Op.grd ∨ o = Op.sqrt ∨ o = Op.sin ∨ o = Op.cos ∨ o = Op.tan
/-- Operations with two operands. -/
def IsBin (o : Nat) : Prop := o = Op.gp ∨ o = Op.lc ∨ o = Op.sip ∨ o = Op.div
/-- Operations with any number of operands. -/
def IsPoly (o : Nat) : Prop := o = Op.sum ∨ o = Op.ep
/-- Operations without operands. -/
def IsLeaf (o : Nat) : Prop := o = Op.id ∨ o = Op.cse ∨ Op.czero ≤ o

mutual

/-- Every node has the arity of its operation, and the counts stored in the nodes are right. -/
def Tree.Shape : Tree → Prop
  | .leaf n => IsLeaf n.o
  | .un n t => IsUn n.o ∧ t.Shape
  | .bin n l r => IsBin n.o ∧ l.Shape ∧ r.Shape
  | .poly n f => IsPoly n.o ∧ n.ex = f.length ∧ 0 < f.length ∧ f.Shape

/-- As `Tree.Shape`: every `op_se` node spans exactly its operand. -/
def Forest.Shape : Forest → Prop
  | .nil => True
  | .cons se t f => se.o = Op.se ∧ se.ex = t.post.length ∧ t.Shape ∧ f.Shape

end

section eval

variable {α : Type} (M : Ops α) (ie : Nat → Nat → α) (temps : List (α × Nat))

/-- The value of a node without operands. -/
def leafEval (n : Node) : Out α :=
  if n.o = Op.id then M.input (ie n.ex n.checksum)
  else if n.o = Op.cse then
    match temps[n.ex]? with
    | none => .ub
    | some (t, id) => M.ref t id
  else M.const n.o

/-- A node with one operand. -/
def unEval (n : Node) (x : α) : Out α :=
  if n.o = Op.rev then M.rev x else if n.o = Op.pd then M.pd x else if n.o = Op.comp then M.comp n.ex x
  else if n.o = Op.grd then M.grd n.ex x else M.fn n.o n.q x

/-- A node with two operands. -/
def binEval (n : Node) (x y : α) : Out α :=
  if n.o = Op.gp then M.gp x y else if n.o = Op.lc then M.lc x y else if n.o = Op.sip then M.sip x y else M.div x y n.q

/-- A node with any number of operands, given in order. -/
def polyEval (n : Node) (xs : List α) : Out α := if n.o = Op.sum then M.sums xs.reverse else M.eps xs

/-- An operand of a sum or exterior product. -/
def seEval (n : Node) (v : α) : Out α := if n.q.num ≠ 0 then M.scale n.q v else ok v

mutual

/-- Recursive evaluation of a tree. -/
def Tree.eval : Tree → Out α
  | .leaf n => leafEval M ie temps n
  | .un n t => do let x ← t.eval; unEval M n x
  | .bin n l r => do let x ← l.eval; let y ← r.eval; binEval M n x y
  | .poly n f => do let xs ← f.eval; polyEval M n xs

/-- Recursive evaluation of the operands, in order. -/
def Forest.eval : Forest → Out (List α)
  | .nil => ok []
  | .cons se t f => do let x ← t.eval; let v ← seEval M se x; let vs ← f.eval; return v :: vs

end

end eval

end Gal
