import Verif.Spec.Value
import Verif.Subtree

/-!
# Specification: programs with temporaries

A program is a list of expression trees, the temporaries, followed by a main tree.  Leaves may refer to earlier temporaries.
`Program.Computes` says what it means for a program to stand for a tree: if every reference is replaced by the tree it stands for,
the result is that tree.
-/

namespace Gal

/-- The nodes agree in everything an evaluation reads: the operation, the checksum (first id of an input), the count, and the factor of
operands, quotients and functions.  The span stored in an `op_se` node is left out, as it depends on the layout. -/
def Node.Eqv (n m : Node) : Prop :=
  n.o = m.o ∧ n.checksum = m.checksum ∧ (n.o ≠ Op.se → n.ex = m.ex) ∧ (n.o = Op.se ∨ n.o = Op.div ∨ IsFun n.o → n.q = m.q)

mutual

/-- The trees are the same except for what `Node.Eqv` ignores. -/
def Tree.Eqv : Tree → Tree → Prop
  | .leaf n, u => ∃ m, u = .leaf m ∧ n.Eqv m
  | .un n t, u => ∃ m t', u = .un m t' ∧ n.Eqv m ∧ t.Eqv t'
  | .bin n l r, u => ∃ m l' r', u = .bin m l' r' ∧ n.Eqv m ∧ l.Eqv l' ∧ r.Eqv r'
  | .poly n f, u => ∃ m f', u = .poly m f' ∧ n.Eqv m ∧ f.Eqv f'

/-- See `Tree.Eqv`. -/
def Forest.Eqv : Forest → Forest → Prop
  | .nil, g => g = .nil
  | .cons se t f, g => ∃ se' t' f', g = .cons se' t' f' ∧ se.Eqv se' ∧ t.Eqv t' ∧ f.Eqv f'

end

mutual

/-- Replace every reference by the tree it stands for. -/
def Tree.expand (σ : Nat → Tree) : Tree → Tree
  | .leaf n => if n.o = Op.cse then σ n.ex else .leaf n
  | .un n t => .un n (t.expand σ)
  | .bin n l r => .bin n (l.expand σ) (r.expand σ)
  | .poly n f => .poly n (f.expand σ)

/-- See `Tree.expand`. -/
def Forest.expand (σ : Nat → Tree) : Forest → Forest
  | .nil => .nil
  | .cons se t f => .cons se (t.expand σ) (f.expand σ)

end

/-- Operations whose results may be shared: all except the selection of an element or a grade. -/
def IsShared (o : Nat) : Prop := o = Op.rev ∨ o = Op.pd ∨ IsFun o ∨ IsBin o ∨ IsPoly o

/-- No operation occurs twice with the same checksum and count. -/
def Tree.Distinct (t : Tree) : Prop :=
  ∀ (p q : Nat) (a b : Node), t.post[p]? = some a → t.post[q]? = some b → IsShared a.o → a.o = b.o → a.checksum = b.checksum → a.ex = b.ex → p = q

/-- The nodes of a program: each temporary is followed by `op_noop`. -/
def blocks (ts : List Tree) : List Node := ts.flatMap fun t => t.post ++ [⟨Op.noop, 0, 0, Rat32.zero⟩]

/-- All references are to temporaries before `b`. -/
def Tree.RefsBelow (t : Tree) (b : Nat) : Prop := ∀ n ∈ t.post, n.o = Op.cse → n.ex < b

/-- The program with temporaries `ts` and main tree `m` computes the tree `t`, with the subtrees `σ j` of `t` for the temporaries: every
reference goes to an earlier temporary, and replacing the references turns temporary `j` into `σ j` and the main tree into `t`. -/
def ComputesBy (σ : Nat → Tree) (ts : List Tree) (m t : Tree) : Prop :=
  (∀ j (t' : Tree), ts[j]? = some t' → t'.Shape ∧ t'.RefsBelow j ∧ (t'.expand σ).Eqv (σ j) ∧ ∃ p, t.At p (σ j)) ∧
    m.Shape ∧ m.RefsBelow ts.length ∧ (m.expand σ).Eqv t

/-- The program with temporaries `ts` and main tree `m` computes the tree `t`. -/
def Computes (ts : List Tree) (m t : Tree) : Prop := ∃ σ : Nat → Tree, ComputesBy σ ts m t

end Gal
