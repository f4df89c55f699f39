import Verif.Spec.Rounding
import Verif.Props.RunView
import Mathlib.Analysis.Real.Sqrt
import Mathlib.Analysis.SpecialFunctions.Trigonometric.Basic

/-!
# Specification: error bounds for programs with temporaries

A program stores the numbers of temporaries one after the other.  For each stored number there is the number of roundings it has been through, whether its
error is relative, and whether it is visibly not negative or not positive.  The bound is in terms of the *majorant*: the same program with absolute values for all
numbers.
-/

namespace Gal

/-- What is known of a stored number: roundings, whether the error is relative to the number itself, whether it is at least zero, and whether it is at
most zero. -/
structure SlotInfo where
  cost : Nat
  rel : Bool
  pos : Bool
  neg : Bool
  deriving DecidableEq

/-- A number that is given, or zero. -/
def SlotInfo.given (pos neg : Bool) : SlotInfo := ⟨0, true, pos, neg⟩

/-- A product. -/
def SlotInfo.mul (a b : SlotInfo) : SlotInfo :=
  ⟨a.cost + b.cost, a.rel && b.rel, (a.pos && b.pos) || (a.neg && b.neg), (a.pos && b.neg) || (a.neg && b.pos)⟩

/-- A power. -/
def SlotInfo.pow (a : SlotInfo) (n : Int) : SlotInfo := ⟨a.cost * n.natAbs, a.rel, a.pos || decide (n % 2 = 0), a.neg && decide (n % 2 = 1)⟩

/-- Stored numbers and their powers that a monomial may contain; only numbers with a relative error may be divisors. -/
def goodInd (I : List SlotInfo) (i : Ind) : Bool :=
  decide (i.id < I.length) && decide (i.id < indConstantStart) && decide (i.deg.den = 1) && decide (i.deg.num ≠ 0) && decide (i32Min < i.deg.num) &&
    decide (i.deg.num ≤ i32Max) && (decide (0 < i.deg.num) || (I.getD i.id (.given true true)).rel)

/-- What is known of a monomial before its own roundings. -/
def monInfo (I : List SlotInfo) (m : NMon) : SlotInfo :=
  m.inds.foldr (fun i s => ((I.getD i.id (.given true true)).pow i.deg.num).mul s) (.given (decide (0 < m.q.num)) (decide (m.q.num < 0)))

/-- The largest number of roundings in the numbers of the monomials. -/
def monsCost (I : List SlotInfo) (ms : List NMon) : Nat := (ms.map fun m => (monInfo I m).cost).foldr max 0

/-- What is known of the value of a function at a sum of monomials.  A sum has a relative error if all summands have the same sign; a square root is
taken only of a monomial that is at least zero and has a relative error, a sine or cosine of any monomial. -/
def termInfo (I : List SlotInfo) (o : MvOp) (ms : List NMon) : Option SlotInfo :=
  if ms ≠ [] ∧ ∀ m ∈ ms, m.q.WF ∧ ∀ i ∈ m.inds, goodInd I i then
    let c := termCost ms + monsCost I ms
    let r := ms.all fun m => (monInfo I m).rel
    let p := ms.all fun m => (monInfo I m).pos
    let n := ms.all fun m => (monInfo I m).neg
    if o = .id then some ⟨c, r && (p || n || decide (ms.length = 1)), p, n⟩
    else if ms.length = 1 ∧ ∀ m ∈ ms, m.q.num ≠ 0 then
      if o = .sqrt ∧ r ∧ p then some ⟨c + 1, true, true, false⟩
      else if o = .sin ∨ o = .cos then some ⟨c + 1, false, false, false⟩
      else none
    else none
  else none

/-- The numbers of one temporary. -/
def infoTerms (o : MvOp) : List SlotInfo → Nat → NMv → Option (List SlotInfo)
  | I, _, [] => some I
  | I, i, t :: ts => (termInfo I o t.mons).bind fun s => if i < I.length then infoTerms o (I.set i s) (i + 1) ts else none

/-- All temporaries. -/
def infoTemps : List SlotInfo → List (MvOp × NMv × Nat) → Option (List SlotInfo)
  | I, [] => some I
  | I, (o, n, id) :: ts => (infoTerms o I id n).bind fun I => infoTemps I ts

/-- The value of a monomial in stored numbers. -/
noncomputable def storedMon (d : List ℝ) (m : NMon) : ℝ := (m.q.toQ : ℝ) * (m.inds.map fun i => d.getD i.id 0 ^ i.deg.num).prod

/-- The functions; `tan` does not occur. -/
noncomputable def opVal : MvOp → ℝ → ℝ
  | .sqrt, x => Real.sqrt x
  | .sin, x => Real.sin x
  | .cos, x => Real.cos x
  | _, x => x

/-- Bounds for the functions: `|sin x| ≤ |x|` and `|cos x| ≤ 1 + |x|`, which also bound the effect of an error of `x`. -/
noncomputable def opMajorant : MvOp → ℝ → ℝ
  | .sqrt, x => Real.sqrt x
  | .cos, x => 1 + x
  | _, x => x

/-- The value of a sum of monomials, or of a function of it. -/
noncomputable def storedTerm (o : MvOp) (d : List ℝ) (ms : List NMon) : ℝ := opVal o (ms.map (storedMon d)).sum

/-- The value of a monomial with absolute values, for numbers that are at least zero. -/
noncomputable def majorantMon (d : List ℝ) (m : NMon) : ℝ := |(m.q.toQ : ℝ)| * (m.inds.map fun i => d.getD i.id 0 ^ i.deg.num).prod

/-- The same for a sum of monomials, or a function of it. -/
noncomputable def majorantTerm (o : MvOp) (d : List ℝ) (ms : List NMon) : ℝ := opMajorant o (ms.map (majorantMon d)).sum

/-- Storing the numbers of one temporary. -/
def storeTerms (f : List ℝ → List NMon → ℝ) : List ℝ → Nat → NMv → List ℝ
  | d, _, [] => d
  | d, i, t :: ts => storeTerms f (d.set i (f d t.mons)) (i + 1) ts

/-- Storing all temporaries. -/
def storeTemps (f : MvOp → List ℝ → List NMon → ℝ) : List ℝ → List (MvOp × NMv × Nat) → List ℝ
  | d, [] => d
  | d, (o, n, id) :: ts => storeTemps f (storeTerms (f o) d id n) ts

/-- No monomial divides by zero. -/
def PoleFree (d : List ℝ) (ms : List NMon) : Prop := ∀ m ∈ ms, ∀ i ∈ m.inds, i.deg.num < 0 → d.getD i.id 0 ≠ 0

/-- No number of a temporary divides by zero. -/
def PoleFreeTerms (o : MvOp) : List ℝ → Nat → NMv → Prop
  | _, _, [] => True
  | d, i, t :: ts => PoleFree d t.mons ∧ PoleFreeTerms o (d.set i (storedTerm o d t.mons)) (i + 1) ts

/-- No temporary divides by zero. -/
def PoleFreeTemps : List ℝ → List (MvOp × NMv × Nat) → Prop
  | _, [] => True
  | d, (o, n, id) :: ts => PoleFreeTerms o d id n ∧ PoleFreeTemps (storeTerms (storedTerm o) d id n) ts

/-- The program an expression compiles to, in algebras without null basis. -/
def viewedExpr {L : Type} (m : Metric) (cap : Nat) (args : List (Arg L)) (e : Out Rpne) : Option Viewed :=
  match (do
    let e ← e
    let c ← compileExpr m false cap args e
    c.viewed) with
  | .val v false => some v
  | _ => none

/-- The program a lambda compiles to, in algebras without null basis. -/
def Lam.viewedProgram {L : Type} (m : Metric) (args : List (Arg L)) (f : Lam) : Option Viewed := viewedExpr m f.cap args (f.build (argOffset args))

/-- The numbers stored before the temporaries are: the coefficients of the arguments and zeros. -/
def startData (args : List (Arg ℝ)) (size : Nat) : List ℝ :=
  (args.map fun a => a.data).flatten ++ List.replicate (size - (args.map fun a => a.data).flatten.length) 0

end Gal
