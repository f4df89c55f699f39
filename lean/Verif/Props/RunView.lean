import Verif.Props.Normalize
import Verif.Versor

/-!
# Evaluating a compiled expression through its nested views

What is determined at compile time is the same for all coefficients.  These lemmas turn a checked description of it into the run-time values.
-/

namespace Gal

open Out

variable {K : Type} [Field K]

/-- What the evaluation of a compiled expression reads. -/
structure Viewed where
  temps : List (MvOp × NMv × Nat)
  results : List (MvOp × NMv)
  nextId : Nat
  q : Rat32
  deriving DecidableEq

def Compiled.viewed (c : Compiled) : Out Viewed := do
  let ts ← mapO (fun p => do
    let n ← p.1.view
    return (p.1.op, n, p.2)) c.state.temps
  let rs ← mapO (fun a => do
    let n ← a.view
    return (a.op, n)) c.state.args
  return ⟨ts, rs, c.state.nextId, c.q⟩

/-- The temporaries. -/
def viewTemps : Env K → List (MvOp × NMv × Nat) → Out (Env K)
  | E, [] => ok E
  | E, (o, n, id) :: ts => do
    let E ← tempLoop o E id n
    viewTemps E ts

/-- One result. -/
def viewEntity (E : Env K) (o : MvOp) (n : NMv) (q : Rat32) : Out (Entity K) := do
  let vs ← mapO (fun t => E.term o t.mons) n
  return ⟨n.map (·.element), vs.map (scaleBy q.num q.den)⟩

theorem viewTemps_eq : ∀ (ts : List (Mv × Nat)) (vs : List (MvOp × NMv × Nat)) (E : Env K),
    mapO (fun p : Mv × Nat => do
      let n ← p.1.view
      return (p.1.op, n, p.2)) ts = ok vs → finalizeTemps none E ts = viewTemps E vs
  | [], vs, E, h => by
    simp only [mapO, ok_inj] at h
    subst h
    rfl
  | (a, id) :: ts, vs, E, h => by
    simp only [mapO, bind_eq_ok, pure_eq, ok_inj] at h
    obtain ⟨_, ⟨n, h1, rfl⟩, ys, h2, rfl⟩ := h
    rw [finalizeTemps, viewTemps]
    simp only [toOutput, ok_bind, computeTemp, h1]
    congr 1
    funext E'
    exact viewTemps_eq ts ys E' h2

/-- A compiled expression with one result is evaluated through its views. -/
theorem run_viewed (m : Metric) (E : Env K) (args : List (Arg K)) {c : Compiled} {ts : List (MvOp × NMv × Nat)} {o : MvOp} {n : NMv} {k : Nat}
    {q : Rat32} (h : c.viewed = ok ⟨ts, [(o, n)], k, q⟩) :
    runCompiled m false E args c = (do
      let data ← fill (List.replicate (argsSize args + k - argsSize args) 0) 0 (args.map fun a => a.data)
      let E ← viewTemps { E with data := data } ts
      let x ← viewEntity E o n q
      return [x]) := by
  simp only [Compiled.viewed, bind_eq_ok, pure_eq, ok_inj] at h
  obtain ⟨vs, h1, rs, h2, h3⟩ := h
  injection h3 with h4 h5 h6 h7
  subst h4 h6 h7
  obtain ⟨a, ha, hv⟩ : ∃ a, c.state.args = [a] ∧ a.op = o ∧ a.view = ok n := by
    match hc : c.state.args with
    | [] => rw [hc] at h2; simp [mapO, ok_inj] at h2; rw [← h2] at h5; cases h5
    | [a] =>
      rw [hc] at h2
      simp only [mapO, bind_eq_ok, pure_eq, ok_inj] at h2
      obtain ⟨_, ⟨n', h8, rfl⟩, ys, rfl, rfl⟩ := h2
      injection h5 with h9
      injection h9 with h10 h11
      subst h10 h11
      exact ⟨a, rfl, rfl, h8⟩
    | a :: b :: l =>
      rw [hc] at h2
      simp only [mapO, bind_eq_ok, pure_eq, ok_inj] at h2
      obtain ⟨_, ⟨n', h8, rfl⟩, ys, ⟨_, ⟨n'', h9, rfl⟩, zs, h10, rfl⟩, rfl⟩ := h2
      cases h5
  obtain ⟨rfl, hv⟩ := hv
  unfold runCompiled
  rw [ha]
  simp only [nullDim, Bool.false_eq_true, if_false, finishCompute, finalizeEntity, toOutput, ok_bind, computeEntity, hv, viewEntity, bind_assoc,
    pure_bind]
  congr 1
  funext data
  rw [viewTemps_eq _ _ _ h1]

/-- `compute` for an expression whose compilation, for some coefficients of the same types, has been checked. -/
theorem compute_viewed {L : Type} (m : Metric) (E : Env K) {args : List (Arg K)} {args' : List (Arg L)}
    (ht : args.map (fun a => (a.ie, a.data.length)) = args'.map fun a => (a.ie, a.data.length)) {cap : Nat} {e : Rpne}
    {ts : List (MvOp × NMv × Nat)} {o : MvOp} {n : NMv} {k : Nat} {q : Rat32}
    (h : (compileExpr m false cap args' e >>= Compiled.viewed) = ok ⟨ts, [(o, n)], k, q⟩) :
    (computeExpr m false cap E args e >>= single) = (do
      let data ← fill (List.replicate (argsSize args + k - argsSize args) 0) 0 (args.map fun a => a.data)
      let E ← viewTemps { E with data := data } ts
      viewEntity E o n q) := by
  rw [bind_eq_ok] at h
  obtain ⟨c, hc, hv⟩ := h
  rw [← compile_types ht] at hc
  unfold computeExpr
  rw [hc, ok_bind, run_viewed m E args hv]
  simp only [bind_assoc, pure_bind]
  congr 1
  funext data
  congr 1
  funext E'
  show (viewEntity E' o n q >>= fun x => ok x) = _
  exact bind_pure _

end Gal
