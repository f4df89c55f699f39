import Verif.Props.Capacity
import Verif.Spec.Lambda

/-!
# The expression a lambda builds fits its type
-/

namespace Gal

open Out

/-- **C44 (lambdas)**: whatever operators a lambda applies to its parameters, the expression it builds has at most as many nodes as the capacity in
its type, so no operator writes past the end of an array. -/
theorem C44_lambda {off : Nat → Nat} : ∀ {f : Lam} {e : Rpne}, f.build off = ok e → e.nodes.length ≤ f.cap := by
  intro f
  induction f with
  | arg k => intro e h; simp only [Lam.build, ok_inj] at h; subst h; exact Nat.le_refl _
  | num n d => intro e h; simp only [Lam.build, ok_inj] at h; subst h; exact Nat.le_refl _
  | pi n d => intro e h; simp only [Lam.build, bind_eq_ok, ok_inj] at h; obtain ⟨_, _, rfl⟩ := h; exact Nat.le_refl _
  | elem k n => intro e h; simp only [Lam.build, ok_inj] at h; subst h; exact Nat.le_refl _
  | scale n a ih =>
    intro e h; simp only [Lam.build, bind_eq_ok] at h; obtain ⟨x, hx, h⟩ := h
    exact (C44_scale (Or.inl h)).trans (ih hx)
  | divInt a d ih =>
    intro e h; simp only [Lam.build, bind_eq_ok] at h; obtain ⟨x, hx, h⟩ := h
    exact (C44_scale (Or.inr (Or.inr h))).trans (ih hx)
  | neg a ih =>
    intro e h; simp only [Lam.build, bind_eq_ok] at h; obtain ⟨x, hx, h⟩ := h
    exact (C44_scale (n := 1) (Or.inr (Or.inl h))).trans (ih hx)
  | rev a ih =>
    intro e h; simp only [Lam.build, bind_eq_ok] at h; obtain ⟨x, hx, h⟩ := h
    have := C44_unary (i := 0) (Or.inl h); have := ih hx; simp only [Lam.cap]; omega
  | dual a ih =>
    intro e h; simp only [Lam.build, bind_eq_ok] at h; obtain ⟨x, hx, h⟩ := h
    have := C44_unary (i := 0) (Or.inr (Or.inl h)); have := ih hx; simp only [Lam.cap]; omega
  | comp a i ih =>
    intro e h; simp only [Lam.build, bind_eq_ok] at h; obtain ⟨x, hx, h⟩ := h
    have := C44_unary (Or.inr (Or.inr (Or.inl h))); have := ih hx; simp only [Lam.cap]; omega
  | grade a i ih =>
    intro e h; simp only [Lam.build, bind_eq_ok] at h; obtain ⟨x, hx, h⟩ := h
    have := C44_unary (Or.inr (Or.inr (Or.inr (Or.inl h)))); have := ih hx; simp only [Lam.cap]; omega
  | fn o a ih =>
    intro e h; simp only [Lam.build, bind_eq_ok] at h; obtain ⟨x, hx, h⟩ := h
    have := C44_unary (Or.inr (Or.inr (Or.inr (Or.inr h)))); have := ih hx; simp only [Lam.cap]; omega
  | add a b iha ihb =>
    intro e h; simp only [Lam.build, bind_eq_ok] at h; obtain ⟨x, hx, y, hy, h⟩ := h
    have := C44_sum h; have := iha hx; have := ihb hy; simp only [Lam.cap]; omega
  | sub a b iha ihb =>
    intro e h; simp only [Lam.build, bind_eq_ok] at h; obtain ⟨x, hx, y, hy, h⟩ := h
    have := C44_difference h; have := iha hx; have := ihb hy; simp only [Lam.cap]; omega
  | addInt n a ih =>
    intro e h; simp only [Lam.build, bind_eq_ok] at h; obtain ⟨x, hx, h⟩ := h
    have := C44_sum h; have := ih hx; simp only [Lam.cap]; simp only [constExpr, List.length_singleton] at *; omega
  | intSub n a ih =>
    intro e h; simp only [Lam.build, intSubExpr, bind_eq_ok] at h; obtain ⟨x, hx, y, hy, h⟩ := h
    have := C44_sum h; have := C44_scale (n := 1) (Or.inr (Or.inl hy)); have := ih hx; simp only [Lam.cap]
    simp only [constExpr, List.length_singleton] at *; omega
  | subInt a n ih =>
    intro e h; simp only [Lam.build, subIntExpr, bind_eq_ok] at h; obtain ⟨x, hx, m, _, h⟩ := h
    have := C44_sum h; have := ih hx; simp only [Lam.cap]; simp only [constExpr, List.length_singleton] at *; omega
  | gp a b iha ihb =>
    intro e h; simp only [Lam.build, bind_eq_ok] at h; obtain ⟨x, hx, y, hy, h⟩ := h
    have := C44_binary (Or.inl h); have := iha hx; have := ihb hy; simp only [Lam.cap]; omega
  | lc a b iha ihb =>
    intro e h; simp only [Lam.build, bind_eq_ok] at h; obtain ⟨x, hx, y, hy, h⟩ := h
    have := C44_binary (Or.inr (Or.inl h)); have := iha hx; have := ihb hy; simp only [Lam.cap]; omega
  | sip a b iha ihb =>
    intro e h; simp only [Lam.build, bind_eq_ok] at h; obtain ⟨x, hx, y, hy, h⟩ := h
    have := C44_binary (Or.inr (Or.inr (Or.inl h))); have := iha hx; have := ihb hy; simp only [Lam.cap]; omega
  | ep a b iha ihb =>
    intro e h; simp only [Lam.build, bind_eq_ok] at h; obtain ⟨x, hx, y, hy, h⟩ := h
    have := C44_wedge h; have := iha hx; have := ihb hy; simp only [Lam.cap]; omega
  | join a b iha ihb =>
    intro e h; simp only [Lam.build, joinExpr, bind_eq_ok] at h; obtain ⟨x, hx, y, hy, x', hx', y', hy', z, hz, h⟩ := h
    have := C44_unary (i := 0) (Or.inr (Or.inl hx')); have := C44_unary (i := 0) (Or.inr (Or.inl hy'))
    have := C44_wedge hz; have := C44_unary (i := 0) (Or.inr (Or.inl h))
    have := iha hx; have := ihb hy; simp only [Lam.cap]; omega
  | sandwich a b iha ihb =>
    intro e h; simp only [Lam.build, sandwichExpr, bind_eq_ok] at h; obtain ⟨x, hx, y, hy, z, hz, y', hy', h⟩ := h
    have := C44_binary (Or.inl hz); have := C44_unary (i := 0) (Or.inl hy'); have := C44_binary (Or.inl h)
    have := iha hx; have := ihb hy; simp only [Lam.cap]; omega
  | sprod a b iha ihb =>
    intro e h; simp only [Lam.build, bind_eq_ok] at h; obtain ⟨x, hx, y, hy, h⟩ := h
    have := C44_scalar_product h; have := iha hx; have := ihb hy; simp only [Lam.cap]; omega
  | div a b iha ihb =>
    intro e h; simp only [Lam.build, bind_eq_ok] at h; obtain ⟨x, hx, y, hy, h⟩ := h
    have := C44_binary (Or.inr (Or.inr (Or.inr h))); have := iha hx; have := ihb hy; simp only [Lam.cap]; omega
  | inv a ih =>
    intro e h; simp only [Lam.build, bind_eq_ok] at h; obtain ⟨x, hx, h⟩ := h
    have := C44_int_quotient h; have := ih hx; simp only [Lam.cap]; omega

/-- `~(a ^ b) + 2 * a % b - 1 / a` is built. -/
example : ∃ e, (Lam.add (.rev (.ep (.arg 0) (.arg 1))) (.sub (.scale 2 (.sandwich (.arg 0) (.arg 1))) (.inv (.arg 0)))).build (fun k => 4 * k) = ok e :=
  Out.exists_of_isOk (by decide +kernel)

end Gal
