import Mathlib.Tactic.Basic

/-!
# Outcomes of C++ computations

Language-level semantics shared by the whole model: undefined behaviour is a value of its own, and the model keeps a
ghost flag that records whether the library's `overflow_gate` (numeric.hpp:273-371) rounded a coefficient.
-/

namespace Gal

universe u v

/-- Outcome of a C++ computation.  `ub` is undefined behaviour (signed overflow, division by zero, access outside an
array).  `val a lossy` is a defined result; the ghost flag `lossy` says that `overflow_gate` (numeric.hpp:273-371)
returned something else than an equal fraction on the way. -/
inductive Out (α : Type u) : Type u where
  | ub : Out α
  | val (a : α) (lossy : Bool) : Out α
  deriving DecidableEq, Repr

namespace Out

/-- Defined and exact result. -/
@[match_pattern] def ok {α : Type u} (a : α) : Out α := .val a false

/-- Sequencing: undefined behaviour is absorbing and the ghost flag is sticky. -/
protected def bind {α : Type u} {β : Type v} : Out α → (α → Out β) → Out β
  | .ub, _ => .ub
  | .val a l, f => match f a with
    | .ub => .ub
    | .val b l' => .val b (l || l')

instance : Monad Out where
  pure := ok
  bind := Out.bind

variable {α : Type u} {β : Type u} {γ : Type u}

@[simp] theorem pure_eq (a : α) : (pure a : Out α) = ok a := rfl
@[simp] theorem ub_bind (f : α → Out β) : (Out.ub >>= f) = Out.ub := rfl
@[simp] theorem ok_bind (a : α) (f : α → Out β) : (ok a >>= f) = f a := by
  show Out.bind (ok a) f = f a
  unfold Out.bind ok
  cases h : f a <;> simp [h]
@[simp] theorem ok_inj {a b : α} : ok a = ok b ↔ a = b := by
  constructor
  · intro h; cases h; rfl
  · rintro rfl; rfl
@[simp] theorem ub_ne_ok {a : α} : ¬ (Out.ub = ok a) := by intro h; cases h
@[simp] theorem ok_ne_ub {a : α} : ¬ (ok a = Out.ub) := by intro h; cases h

theorem bind_eq_ok {x : Out α} {f : α → Out β} {b : β} :
    (x >>= f) = ok b ↔ ∃ a, x = ok a ∧ f a = ok b := by
  show Out.bind x f = ok b ↔ _
  cases x with
  | ub => simp [Out.bind]
  | val a l =>
    cases l with
    | false =>
      constructor
      · intro h
        refine ⟨a, rfl, ?_⟩
        exact (ok_bind a f).symm.trans h
      · rintro ⟨a', h, h'⟩
        have e : a = a' := by injection h
        subst e
        exact (ok_bind a f).trans h'
    | true =>
      constructor
      · intro h
        unfold Out.bind at h
        cases hf : f a with
        | ub => simp [hf] at h
        | val b' l' => simp [hf, ok] at h
      · rintro ⟨a', h, _⟩
        unfold ok at h
        injection h with _ h2
        cases h2

instance : LawfulMonad Out := LawfulMonad.mk'
  (id_map := by
    intro α x
    show Out.bind x (fun a => ok (id a)) = x
    cases x with
    | ub => rfl
    | val a l => simp [Out.bind])
  (pure_bind := by intro α β a f; exact ok_bind a f)
  (bind_assoc := by
    intro α β γ x f g
    show Out.bind (Out.bind x f) g = Out.bind x (fun a => Out.bind (f a) g)
    cases x with
    | ub => rfl
    | val a l =>
      simp only [Out.bind]
      cases f a with
      | ub => rfl
      | val b l' =>
        simp only
        cases g b with
        | ub => rfl
        | val c l'' => simp [Bool.or_assoc])

/-- The computation is defined (not undefined behaviour). -/
def Defined (x : Out α) : Prop := x ≠ .ub

/-- Payload of a defined outcome, ignoring the ghost flag. -/
def get? : Out α → Option α
  | .ub => none
  | .val a _ => some a

end Out

open Out

/-- Smallest `int32_t` (`num_t`, `den_t`, numeric.hpp:163-166). -/
def i32Min : Int := -2147483648
/-- Largest `int32_t` (`num_t`, `den_t`, numeric.hpp:163-166). -/
def i32Max : Int := 2147483647

/-- `x` is representable as `int32_t` (`num_t`/`den_t`, numeric.hpp:163-166). -/
def InI32 (x : Int) : Prop := i32Min ≤ x ∧ x ≤ i32Max

instance (x : Int) : Decidable (InI32 x) := inferInstanceAs (Decidable (_ ∧ _))

/-- Result of a signed 32-bit arithmetic expression whose mathematical value is `x`: undefined when not
representable. -/
def chk (x : Int) : Out Int := if InI32 x then ok x else .ub

/-- C++ integer division (truncating) as in `num /= gcd` (numeric.hpp:215-216, 305-308); undefined for a zero divisor or an unrepresentable quotient. -/
def cdiv (a b : Int) : Out Int := if b = 0 then .ub else chk (a.tdiv b)

/-- C++ `std::gcd` on `int32_t` (numeric.hpp:212, 234, 302): undefined when an absolute value is not representable ([numeric.ops.gcd]). -/
def cgcd (a b : Int) : Out Int := if a = i32Min ∨ b = i32Min then .ub else ok (Int.gcd a b)

theorem chk_eq_ok {x y : Int} : chk x = ok y ↔ InI32 x ∧ x = y := by
  unfold chk
  split <;> simp_all

theorem chk_of {x : Int} (h : InI32 x) : chk x = ok x := by simp [chk, h]

theorem cdiv_eq_ok {a b y : Int} : cdiv a b = ok y ↔ b ≠ 0 ∧ InI32 (a.tdiv b) ∧ a.tdiv b = y := by
  unfold cdiv
  split
  · simp_all
  · simp_all [chk_eq_ok]

theorem cgcd_eq_ok {a b y : Int} :
    cgcd a b = ok y ↔ a ≠ i32Min ∧ b ≠ i32Min ∧ (Int.gcd a b : Int) = y := by
  unfold cgcd
  split
  · rename_i h
    constructor
    · intro h'; simp at h'
    · rintro ⟨h1, h2, _⟩; rcases h with h | h <;> contradiction
  · rename_i h
    rw [not_or] at h
    simp [h.1, h.2]

end Gal
