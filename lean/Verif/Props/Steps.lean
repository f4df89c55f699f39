import Verif.Props.NamedArgs

/-!
# C53: one lambda or two

A part of a lambda may be computed first, and its result passed to the rest as one more argument (engine.hpp:455-518).
-/

namespace Gal

open Out

variable {K : Type} [Field K]

/-- The lambda with other lambdas in place of its parameters, `[](auto... a) { return f(s0(a...), s1(a...), ...); }`: the parameters of a lambda are
expressions (expr.hpp:277-313), so it can be applied to any expressions. -/
def Lam.subst (f : Lam) (s : Nat → Lam) : Lam :=
  match f with
  | .arg k => s k
  | .num a b => .num a b
  | .pi a b => .pi a b
  | .elem e k => .elem e k
  | .scale k a => .scale k (a.subst s)
  | .divInt a d => .divInt (a.subst s) d
  | .neg a => .neg (a.subst s)
  | .rev a => .rev (a.subst s)
  | .dual a => .dual (a.subst s)
  | .comp a e => .comp (a.subst s) e
  | .grade a k => .grade (a.subst s) k
  | .fn o a => .fn o (a.subst s)
  | .add a b => .add (a.subst s) (b.subst s)
  | .sub a b => .sub (a.subst s) (b.subst s)
  | .addInt k a => .addInt k (a.subst s)
  | .intSub k a => .intSub k (a.subst s)
  | .subInt a k => .subInt (a.subst s) k
  | .gp a b => .gp (a.subst s) (b.subst s)
  | .lc a b => .lc (a.subst s) (b.subst s)
  | .sip a b => .sip (a.subst s) (b.subst s)
  | .ep a b => .ep (a.subst s) (b.subst s)
  | .join a b => .join (a.subst s) (b.subst s)
  | .sandwich a b => .sandwich (a.subst s) (b.subst s)
  | .sprod a b => .sprod (a.subst s) (b.subst s)
  | .div a b => .div (a.subst s) (b.subst s)
  | .inv a => .inv (a.subst s)

omit [Field K] in
/-- A computation with one result. -/
theorem single_ok {x : Out (List (Entity K))} {r : Entity K} (h : (x >>= single) = ok r) : x = ok [r] := by
  rw [bind_eq_ok] at h
  obtain ⟨l, hl, h⟩ := h
  match l, h with
  | [a], h =>
    rw [hl]
    have : a = r := by simpa [single] using h
    rw [this]

/-- The value of the lambda with other lambdas in it. -/
theorem subst_val [CharZero K] {dim : Nat} {d : Nat → Int} (named : Nat → K)
    (D : CliffordAlgebra (diagForm K dim d) →ₗ[K] CliffordAlgebra (diagForm K dim d)) (w : Nat → CliffordAlgebra (diagForm K dim d)) (s : Nat → Lam)
    (off off' : Nat → Nat) (f : Lam) : (f.subst s).val (cliffInterp K dim d named D w) off =
      f.val (cliffInterp K dim d named D fun k => (s k).val (cliffInterp K dim d named D w) off) off' := by
  induction f with
  | _ => simp only [Lam.subst, Lam.val, *] <;> rfl

/-- The result of a computation, as an argument of another, stands for the value of the lambda. -/
theorem result_stands {L : Type} [CharZero K] (m : Metric) (hm : m.dim ≤ 8) (E : Env K) (args : List (Arg K))
    {w : Nat → CliffordAlgebra (diagForm K m.dim m.sq)}
    (hw : ∀ (k : Nat) (a : Arg K), args[k]? = some a → a.StandsFor m.dim m.sq (argOffset args k) (w k))
    {D : CliffordAlgebra (diagForm K m.dim m.sq) →ₗ[K] CliffordAlgebra (diagForm K m.dim m.sq)} (hD : IsDual K m.dim m.sq D)
    (g : Lam) (ho : g.Ordered (cliffInterp K m.dim m.sq (fun k => E.consts.getD k 0) D w) (argOffset args))
    (hr : g.InRange m.dim args.length E.consts.length)
    {args' : List (Arg L)} (ht : args.map (fun a => (a.ie, a.data.length)) = args'.map fun a => (a.ie, a.data.length))
    (hcap : g.cap < 2 ^ 64) (hk : g.check m args' = true) {y : Entity K} (hy : g.compute m false E args = ok [y]) {off : Nat}
    (hl : off + y.elements.length ≤ 2 ^ 32) :
    y.toArg.StandsFor m.dim m.sq off (g.val (cliffInterp K m.dim m.sq (fun k => E.consts.getD k 0) D w) (argOffset args)) := by
  obtain ⟨y', h1, h2⟩ := C61_compute_partial m hm E args hw hD g ho hr ht hcap hk
  rw [hy, ok_inj, List.cons.injEq] at h1
  obtain ⟨rfl, -⟩ := h1
  rw [← h2.value]
  exact (C45_entity m.sq h2.asc h2.elems h2.size hl).standsFor

/-- **C53 in steps.**  Parts of a lambda may be computed first: `compute([](auto... a) { return f(s0(a...), s1(a...), ...); }, args...)` and
`compute(f, b0, b1, ...)`, where `bk` stands for the value of `sk` (`result_stands`), return entities with the same coefficients, if both lambdas pass the
check of C53. -/
theorem C53_steps_partial {L : Type} [CharZero K] (m : Metric) (hm : m.dim ≤ 8) (E : Env K) (args bs : List (Arg K))
    {w : Nat → CliffordAlgebra (diagForm K m.dim m.sq)}
    (hw : ∀ (k : Nat) (a : Arg K), args[k]? = some a → a.StandsFor m.dim m.sq (argOffset args k) (w k))
    {D : CliffordAlgebra (diagForm K m.dim m.sq) →ₗ[K] CliffordAlgebra (diagForm K m.dim m.sq)} (hD : IsDual K m.dim m.sq D)
    (f : Lam) (s : Nat → Lam)
    (hb : ∀ (k : Nat) (a : Arg K), bs[k]? = some a → a.StandsFor m.dim m.sq (argOffset bs k)
      ((s k).val (cliffInterp K m.dim m.sq (fun k => E.consts.getD k 0) D w) (argOffset args)))
    (hrf : f.InRange m.dim bs.length E.consts.length) (hrs : (f.subst s).InRange m.dim args.length E.consts.length)
    (hof : f.Ordered (cliffInterp K m.dim m.sq (fun k => E.consts.getD k 0) D fun k =>
      (s k).val (cliffInterp K m.dim m.sq (fun k => E.consts.getD k 0) D w) (argOffset args)) (argOffset bs))
    (hos : (f.subst s).Ordered (cliffInterp K m.dim m.sq (fun k => E.consts.getD k 0) D w) (argOffset args))
    {args' bs' : List (Arg L)} (ht : args.map (fun a => (a.ie, a.data.length)) = args'.map fun a => (a.ie, a.data.length))
    (ht' : bs.map (fun a => (a.ie, a.data.length)) = bs'.map fun a => (a.ie, a.data.length))
    (hcf : f.cap < 2 ^ 64) (hcs : (f.subst s).cap < 2 ^ 64) (hkf : f.check m bs' = true) (hks : (f.subst s).check m args' = true) :
    ∃ x x', (f.subst s).compute m false E args = ok [x] ∧ f.compute m false E bs = ok [x'] ∧ ∀ e, e < 2 ^ m.dim → x.select m.dim e = x'.select m.dim e := by
  obtain ⟨x, x1, x2⟩ := C61_compute_partial m hm E args hw hD (f.subst s) hos hrs ht hcs hks
  obtain ⟨x', y1, y2⟩ := C61_compute_partial m hm E bs hb hD f hof hrf ht' hcf hkf
  rw [← subst_val _ D w s (argOffset args) (argOffset bs) f] at y2
  exact ⟨x, x', x1, y1, fun e he => by rw [C45_select x2 he, C45_select y2 he]⟩

end Gal
