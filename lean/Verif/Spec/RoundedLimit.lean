import Verif.Spec.Rounding
import Mathlib.Topology.Instances.Real.Lemmas
import Mathlib.Analysis.Asymptotics.Lemmas

/-!
# Specification: computations with higher and higher precision

A family of arithmetics with its own inputs, constants and functions, and what has to hold in the exact computation for the results to converge.
-/

namespace Gal

open Out Filter Topology

variable {ι : Type}

/-- The numbers converge. -/
def Limit (l : Filter ι) (v : ι → ℝ) (w : ℝ) : Prop := Tendsto v l (𝓝 w)

/-- The error is at most a multiple of `u`, from some point on. -/
def Rate (l : Filter ι) (u : ι → ℝ) (v : ι → ℝ) (w : ℝ) : Prop := ∃ C, ∀ᶠ k in l, |v k - w| ≤ C * u k

/-! In the following, `N v w` says in which sense the numbers `v` approach `w`: `Limit l` or `Rate l u`. -/

/-- The functions approach `g` at `x`, for all arguments that approach `x`. -/
def TendsAt (N : (ι → ℝ) → ℝ → Prop) (f : ι → ℝ → ℝ) (g : ℝ → ℝ) (x : ℝ) : Prop :=
  ∀ y : ι → ℝ, N y x → N (fun k => f k (y k)) (g x)

/-- **Arithmetics that get better and better**, with the unit roundoffs `u`: as long as the exact result of an operation stays in a bounded range, the
error is at most a multiple of `u`, from some point on.  This allows underflow, and overflow may return anything.  Nothing is said about division by
zero. -/
structure Improving (l : Filter ι) (A : ι → Arith ℝ) (u : ι → ℝ) : Prop where
  nonneg : ∀ k, 0 ≤ u k
  small : Tendsto u l (𝓝 0)
  add : ∀ B, ∃ C, ∀ᶠ k in l, ∀ x y, |x + y| ≤ B → |(A k).add x y - (x + y)| ≤ C * u k
  mul : ∀ B, ∃ C, ∀ᶠ k in l, ∀ x y, |x * y| ≤ B → |(A k).mul x y - x * y| ≤ C * u k
  div : ∀ B, ∃ C, ∀ᶠ k in l, ∀ x y, y ≠ 0 → |x / y| ≤ B → |(A k).div x y - x / y| ≤ C * u k
  int : ∀ n : Int, ∃ C, ∀ᶠ k in l, |(A k).int n - n| ≤ C * u k

/-- Rounding to the nearest number of a binary format of IEEE 754 with `p` digits, ties to even: all numbers are multiples of `2 ^ emin` (gradual
underflow) and smaller than `2 ^ emax`. If the rounded number is not, the operation overflows and returns `inf`. -/
noncomputable def roundIeee (p : Nat) (emin emax : Int) (inf x : ℝ) : ℝ :=
  let q := max (Int.log 2 |x| + 1 - p) emin
  let r := nearestEven (x / 2 ^ q) * (2 : ℝ) ^ q
  if |r| < 2 ^ emax then r else inf

/-- Arithmetic in a binary format of IEEE 754: `float` has `p = 24`, `emin = -149` and `emax = 128`, `double` has `p = 53`, `emin = -1074` and
`emax = 1024`. What stands for the result of an overflow and of a division by zero, `inf`, is left open; there are no other infinities and no NaNs. -/
noncomputable def ieeeArith (p : Nat) (emin emax : Int) (inf : ℝ) : Arith ℝ where
  add x y := roundIeee p emin emax inf (x + y)
  mul x y := roundIeee p emin emax inf (x * y)
  div x y := if y = 0 then inf else roundIeee p emin emax inf (x / y)
  int n := roundIeee p emin emax inf n

/-- Lists of the same length approach a list place by place. -/
structure ListTends (N : (ι → ℝ) → ℝ → Prop) (v : ι → List ℝ) (w : List ℝ) : Prop where
  len : ∀ k, (v k).length = w.length
  lim : ∀ j, N (fun k => (v k).getD j 0) (w.getD j 0)

/-- No power of an indeterminate divides by zero, and roots are taken where they are continuous. -/
def FineInd (N : (ι → ℝ) → ℝ → Prop) (fp : ι → ℝ → Int → Int → ℝ) (E : Env ℝ) (i : Ind) : Prop :=
  ∀ s, E.get i.id = ok s → (i.deg.den > 1 → TendsAt N (fun k x => fp k x i.deg.num i.deg.den) (fun x => E.fpow x i.deg.num i.deg.den) s) ∧
    (i.deg.num < 0 → s ≠ 0)

/-- A monomial of a multivector to which the function `o` is applied: the function converges where it is applied. -/
def FineMon (N : (ι → ℝ) → ℝ → Prop) (fn : ι → MvOp → ℝ → ℝ) (fp : ι → ℝ → Int → Int → ℝ) (E : Env ℝ) (o : MvOp) (m : NMon) : Prop :=
  m.q.den ≠ 0 ∧ (∀ i ∈ m.inds, FineInd N fp E i) ∧ (o ≠ .id → ∀ v, E.mon .id m = ok v → TendsAt N (fun k => fn k o) (E.fn o) v)

/-- The same for all values of a temporary, in the order in which they are written. -/
def FineLoop (N : (ι → ℝ) → ℝ → Prop) (fn : ι → MvOp → ℝ → ℝ) (fp : ι → ℝ → Int → Int → ℝ) (o : MvOp) : Env ℝ → Nat → NMv → Prop
  | _, _, [] => True
  | E, i, t :: ts => (∀ m ∈ t.mons, FineMon N fn fp E o m) ∧ ∀ v E', E.term o t.mons = ok v → E.write i v = ok E' → FineLoop N fn fp o E' (i + 1) ts

/-- The same for all temporaries. -/
def FineTemps (N : (ι → ℝ) → ℝ → Prop) (fn : ι → MvOp → ℝ → ℝ) (fp : ι → ℝ → Int → Int → ℝ) (nd : Option Nat) : Env ℝ → List (Mv × Nat) → Prop
  | _, [] => True
  | E, (a, id) :: ps => ∀ b n, toOutput nd a = ok b → b.view = ok n → FineLoop N fn fp b.op E id n ∧
      ∀ E', computeTemp E b id = ok E' → FineTemps N fn fp nd E' ps

/-- **No division by zero in the exact computation**, and functions are applied where they converge. -/
structure FineRun (N : (ι → ℝ) → ℝ → Prop) (fn : ι → MvOp → ℝ → ℝ) (fp : ι → ℝ → Int → Int → ℝ) (m : Metric) (null : Bool) (E : Env ℝ) (args : List (Arg ℝ))
    (c : Compiled) : Prop where
  room : argsSize args ≤ c.state.nextId
  factor : c.state.args ≠ [] → c.q.den ≠ 0
  temps : ∀ data, fill (List.replicate (argsSize args + c.state.nextId - argsSize args) 0) 0 (args.map fun a => a.data) = ok data →
    FineTemps N fn fp (nullDim m null) { E with data := data } c.state.temps
  result : ∀ data E', fill (List.replicate (argsSize args + c.state.nextId - argsSize args) 0) 0 (args.map fun a => a.data) = ok data →
    finalizeTemps (nullDim m null) { E with data := data } c.state.temps = ok E' → ∀ a ∈ c.state.args, ∀ b n, toOutput (nullDim m null) a = ok b →
    b.view = ok n → ∀ t ∈ n, ∀ x ∈ t.mons, FineMon N fn fp E' b.op x

/-- Entities with the same elements, whose coefficients converge. -/
structure EntityTends (N : (ι → ℝ) → ℝ → Prop) (v : ι → Entity ℝ) (w : Entity ℝ) : Prop where
  elements : ∀ k, (v k).elements = w.elements
  data : ListTends N (fun k => (v k).data) w.data

/-- Lists of the same length are related place by place. -/
structure AllTends {α : Type} (R : (ι → α) → α → Prop) (d : α) (v : ι → List α) (w : List α) : Prop where
  len : ∀ k, (v k).length = w.length
  each : ∀ j, j < w.length → R (fun k => (v k).getD j d) (w.getD j d)

end Gal
