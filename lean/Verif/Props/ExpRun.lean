import Verif.ExpCompute
import Verif.Props.MotorRun

/-!
# What `compute` of the exponential reads and writes, in several algebras
-/

namespace Gal

open Out

variable {K : Type} [Field K]

/-- What the evaluation of a compiled expression reads, after the conversion to the null basis if there is one. -/
def Compiled.viewedAs (nd : Option Nat) (c : Compiled) : Out Viewed := do
  let ts ← mapO (fun p => do
    let b ← toOutput nd p.1
    let n ← b.view
    return (b.op, n, p.2)) c.state.temps
  let rs ← mapO (fun a => do
    let b ← toOutput nd a
    let n ← b.view
    return (b.op, n)) c.state.args
  return ⟨ts, rs, c.state.nextId, c.q⟩

theorem viewTemps_as (nd : Option Nat) : ∀ (ts : List (Mv × Nat)) (vs : List (MvOp × NMv × Nat)) (E : Env K),
    mapO (fun p : Mv × Nat => do
      let b ← toOutput nd p.1
      let n ← b.view
      return (b.op, n, p.2)) ts = ok vs → finalizeTemps nd E ts = viewTemps E vs
  | [], vs, E, h => by
    simp only [mapO, ok_inj] at h
    subst h
    rfl
  | (a, id) :: ts, vs, E, h => by
    simp only [mapO, bind_eq_ok, pure_eq, ok_inj] at h
    obtain ⟨_, ⟨b, h0, n, h1, rfl⟩, ys, h2, rfl⟩ := h
    rw [finalizeTemps, viewTemps]
    simp only [h0, ok_bind, computeTemp, h1]
    congr 1
    funext E'
    exact viewTemps_as nd ts ys E' h2

/-- A compiled expression with one result is evaluated through its views. -/
theorem run_viewedAs (m : Metric) (null : Bool) (E : Env K) (args : List (Arg K)) {c : Compiled} {ts : List (MvOp × NMv × Nat)} {o : MvOp} {n : NMv}
    {k : Nat} {q : Rat32} (h : c.viewedAs (nullDim m null) = ok ⟨ts, [(o, n)], k, q⟩) :
    runCompiled m null E args c = (do
      let data ← fill (List.replicate (argsSize args + k - argsSize args) 0) 0 (args.map fun a => a.data)
      let E ← viewTemps { E with data := data } ts
      let x ← viewEntity E o n q
      return [x]) := by
  simp only [Compiled.viewedAs, bind_eq_ok, pure_eq, ok_inj] at h
  obtain ⟨vs, h1, rs, h2, h3⟩ := h
  injection h3 with h4 h5 h6 h7
  subst h4 h6 h7
  obtain ⟨a, b, ha, hb, hv⟩ : ∃ a b, c.state.args = [a] ∧ toOutput (nullDim m null) a = ok b ∧ b.op = o ∧ b.view = ok n := by
    match hc : c.state.args with
    | [] => rw [hc] at h2; simp [mapO, ok_inj] at h2; rw [← h2] at h5; cases h5
    | [a] =>
      rw [hc] at h2
      simp only [mapO, bind_eq_ok, pure_eq, ok_inj] at h2
      obtain ⟨_, ⟨b, h0, n', h8, rfl⟩, ys, rfl, rfl⟩ := h2
      injection h5 with h9
      injection h9 with h10 h11
      subst h10 h11
      exact ⟨a, b, rfl, h0, rfl, h8⟩
    | a :: b :: l =>
      rw [hc] at h2
      simp only [mapO, bind_eq_ok, pure_eq, ok_inj] at h2
      obtain ⟨_, ⟨b, -, n', h8, rfl⟩, ys, ⟨_, ⟨b', -, n'', h9, rfl⟩, zs, h10, rfl⟩, rfl⟩ := h2
      cases h5
  obtain ⟨rfl, hv⟩ := hv
  unfold runCompiled
  rw [ha]
  simp only [finishCompute, finalizeEntity, hb, ok_bind, computeEntity, hv, viewEntity, bind_assoc, pure_bind]
  congr 1
  funext data
  rw [viewTemps_as _ _ _ _ h1]

/-- `exp` through its views, which are the same for all coefficients. -/
theorem exp_viewed {L : Type} (m : Metric) (null : Bool) (E : Env K) {x : Arg K} {x' : Arg L} (ht : (x.ie, x.data.length) = (x'.ie, x'.data.length))
    {ts : List (MvOp × NMv × Nat)} {o : MvOp} {n : NMv} {k : Nat} {q : Rat32}
    (h : (do
      let e ← expExpr m.dim (entityExpr 0 0)
      let c ← compileExpr m null 95 [x'] e
      c.viewedAs (nullDim m null)) = ok ⟨ts, [(o, n)], k, q⟩) :
    expOf m null E x = (do
      let data ← fill (List.replicate (argsSize [x] + k - argsSize [x]) 0) 0 [x.data]
      let E ← viewTemps { E with data := data } ts
      viewEntity E o n q) := by
  rw [bind_eq_ok] at h
  obtain ⟨e, he, h⟩ := h
  rw [bind_eq_ok] at h
  obtain ⟨c, hc, hv⟩ := h
  have ht' : [x].map (fun a => (a.ie, a.data.length)) = [x'].map fun a => (a.ie, a.data.length) := by simp only [List.map_cons, List.map_nil, ht]
  rw [← compile_types ht'] at hc
  unfold expOf computeExpr
  rw [he, ok_bind, hc, ok_bind, run_viewedAs m null E [x] hv]
  simp only [bind_assoc, pure_bind, List.map_cons, List.map_nil]
  congr 1
  funext data
  congr 1
  funext E'
  show (viewEntity E' o n q >>= fun x => ok x) = _
  exact bind_pure _

/-- A bivector with three coefficients. -/
def bivArg3 {K : Type} (d : List K) : Arg K := (⟨[3, 5, 6], d⟩ : Entity K).toArg

theorem spaceExp_viewed : (do
    let e ← expExpr (Metric.dim ⟨3, 0, 0⟩) (entityExpr 0 0)
    let c ← compileExpr ⟨3, 0, 0⟩ false 95 [bivArg3 (K := ℚ) [0, 0, 0]] e
    c.viewedAs (nullDim ⟨3, 0, 0⟩ false)) = ok
    ⟨[(.id, [], 3),
    (.id, [⟨0, [⟨⟨-1, 1⟩, ⟨2, 1⟩, [⟨0, ⟨2, 1⟩⟩]⟩, ⟨⟨-1, 1⟩, ⟨2, 1⟩, [⟨1, ⟨2, 1⟩⟩]⟩, ⟨⟨-1, 1⟩, ⟨2, 1⟩, [⟨2, ⟨2, 1⟩⟩]⟩]⟩], 3),
    (.sqrt, [⟨0, [⟨⟨-1, 1⟩, .one, [⟨3, .one⟩]⟩]⟩], 4),
    (.id, [], 5),
    (.cos, [⟨0, [⟨.one, .one, [⟨4, .one⟩]⟩]⟩], 5),
    (.id, [], 6),
    (.sin, [⟨0, [⟨.one, .one, [⟨4, .one⟩]⟩]⟩], 6),
    (.id, [⟨0, [⟨.one, .one, [⟨6, .one⟩]⟩]⟩], 7),
    (.id, [], 8),
    (.id, [], 8),
    (.id, [⟨0, [⟨.one, .one, [⟨4, ⟨-1, 1⟩⟩]⟩]⟩], 8),
    (.id, [⟨3, [⟨.one, ⟨3, 1⟩, [⟨0, .one⟩, ⟨7, .one⟩, ⟨8, .one⟩]⟩]⟩, ⟨5, [⟨.one, ⟨3, 1⟩, [⟨1, .one⟩, ⟨7, .one⟩, ⟨8, .one⟩]⟩]⟩, ⟨6, [⟨.one, ⟨3,
    1⟩, [⟨2, .one⟩, ⟨7, .one⟩, ⟨8, .one⟩]⟩]⟩], 9),
    (.id, [], 12)],
    [(.id, [⟨0, [⟨.one, .one, [⟨5, .one⟩]⟩]⟩, ⟨3, [⟨.one, .one, [⟨9, .one⟩]⟩]⟩, ⟨5, [⟨.one, .one, [⟨10, .one⟩]⟩]⟩, ⟨6, [⟨.one, .one, [⟨11,
    .one⟩]⟩]⟩])], 12, .one⟩ := by decide +kernel

theorem planeExp_viewed : (do
    let e ← expExpr (Metric.dim ⟨2, 0, 1⟩) (entityExpr 0 0)
    let c ← compileExpr ⟨2, 0, 1⟩ false 95 [bivArg3 (K := ℚ) [0, 0, 0]] e
    c.viewedAs (nullDim ⟨2, 0, 1⟩ false)) = ok
    ⟨[(.id, [], 3),
    (.id, [⟨0, [⟨⟨-1, 1⟩, ⟨2, 1⟩, [⟨2, ⟨2, 1⟩⟩]⟩]⟩], 3),
    (.sqrt, [⟨0, [⟨⟨-1, 1⟩, .one, [⟨3, .one⟩]⟩]⟩], 4),
    (.id, [], 5),
    (.cos, [⟨0, [⟨.one, .one, [⟨4, .one⟩]⟩]⟩], 5),
    (.id, [], 6),
    (.sin, [⟨0, [⟨.one, .one, [⟨4, .one⟩]⟩]⟩], 6),
    (.id, [⟨0, [⟨.one, .one, [⟨6, .one⟩]⟩]⟩], 7),
    (.id, [], 8),
    (.id, [], 8),
    (.id, [⟨0, [⟨.one, .one, [⟨4, ⟨-1, 1⟩⟩]⟩]⟩], 8),
    (.id, [⟨3, [⟨.one, ⟨3, 1⟩, [⟨0, .one⟩, ⟨7, .one⟩, ⟨8, .one⟩]⟩]⟩, ⟨5, [⟨.one, ⟨3, 1⟩, [⟨1, .one⟩, ⟨7, .one⟩, ⟨8, .one⟩]⟩]⟩, ⟨6, [⟨.one, ⟨3,
    1⟩, [⟨2, .one⟩, ⟨7, .one⟩, ⟨8, .one⟩]⟩]⟩], 9),
    (.id, [], 12)],
    [(.id, [⟨0, [⟨.one, .one, [⟨5, .one⟩]⟩]⟩, ⟨3, [⟨.one, .one, [⟨9, .one⟩]⟩]⟩, ⟨5, [⟨.one, .one, [⟨10, .one⟩]⟩]⟩, ⟨6, [⟨.one, .one, [⟨11,
    .one⟩]⟩]⟩])], 12, .one⟩ := by decide +kernel

theorem nullExp_viewed : (do
    let e ← expExpr (Metric.dim ⟨4, 1, 0⟩) (entityExpr 0 0)
    let c ← compileExpr ⟨4, 1, 0⟩ true 95 [bivArg3 (K := ℚ) [0, 0, 0]] e
    c.viewedAs (nullDim ⟨4, 1, 0⟩ true)) = ok
    ⟨[(.id, [], 3),
    (.id, [⟨0, [⟨⟨-1, 1⟩, ⟨2, 1⟩, [⟨0, ⟨2, 1⟩⟩]⟩, ⟨⟨-1, 1⟩, ⟨2, 1⟩, [⟨1, ⟨2, 1⟩⟩]⟩, ⟨⟨-1, 1⟩, ⟨2, 1⟩, [⟨2, ⟨2, 1⟩⟩]⟩]⟩], 3),
    (.id, [⟨0, [⟨⟨-1, 1⟩, .one, [⟨3, .one⟩]⟩]⟩], 4),
    (.id, [], 5),
    (.id, [⟨0, [⟨.one, .one, [⟨4, .one⟩]⟩]⟩], 5),
    (.id, [], 6),
    (.id, [⟨0, [⟨.one, .one, [⟨4, .one⟩]⟩]⟩], 6),
    (.id, [], 7),
    (.id, [⟨0, [⟨.one, .one, [⟨5, .one⟩]⟩]⟩], 7),
    (.id, [⟨0, [⟨.one, .one, [⟨4, ⟨-1, 1⟩⟩]⟩]⟩], 8),
    (.id, [], 9)],
    [(.id, [⟨0, [⟨.one, .one, [⟨6, .one⟩]⟩]⟩, ⟨3, [⟨.one, ⟨3, 1⟩, [⟨0, .one⟩, ⟨7, .one⟩, ⟨8, .one⟩]⟩]⟩, ⟨5, [⟨.one, ⟨3, 1⟩, [⟨1, .one⟩, ⟨7,
    .one⟩, ⟨8, .one⟩]⟩]⟩, ⟨6, [⟨.one, ⟨3, 1⟩, [⟨2, .one⟩, ⟨7, .one⟩, ⟨8, .one⟩]⟩]⟩])], 9, .one⟩ := by decide +kernel

theorem fourExp_viewed : (do
    let e ← expExpr (Metric.dim ⟨4, 0, 0⟩) (entityExpr 0 0)
    let c ← compileExpr ⟨4, 0, 0⟩ false 95 [(⟨[3, 5, 6, 9, 10, 12], [0, 0, 0, 0, 0, 0]⟩ : Entity ℚ).toArg] e
    c.viewedAs (nullDim ⟨4, 0, 0⟩ false)) = ok
    ⟨[(.id, [⟨15, [⟨⟨2, 1⟩, ⟨2, 1⟩, [⟨0, .one⟩, ⟨5, .one⟩]⟩, ⟨⟨-2, 1⟩, ⟨2, 1⟩, [⟨1, .one⟩, ⟨4, .one⟩]⟩, ⟨⟨2, 1⟩, ⟨2, 1⟩, [⟨2, .one⟩, ⟨3, .one⟩]⟩]⟩],
    6),
    (.id, [⟨0, [⟨⟨-1, 1⟩, ⟨2, 1⟩, [⟨0, ⟨2, 1⟩⟩]⟩, ⟨⟨-1, 1⟩, ⟨2, 1⟩, [⟨1, ⟨2, 1⟩⟩]⟩, ⟨⟨-1, 1⟩, ⟨2, 1⟩, [⟨2, ⟨2, 1⟩⟩]⟩, ⟨⟨-1, 1⟩, ⟨2, 1⟩, [⟨3, ⟨2,
    1⟩⟩]⟩, ⟨⟨-1, 1⟩, ⟨2, 1⟩, [⟨4, ⟨2, 1⟩⟩]⟩, ⟨⟨-1, 1⟩, ⟨2, 1⟩, [⟨5, ⟨2, 1⟩⟩]⟩]⟩], 7),
    (.sqrt, [⟨0, [⟨⟨-1, 1⟩, .one, [⟨7, .one⟩]⟩]⟩], 8),
    (.id, [⟨0, [⟨⟨-1, 2⟩, ⟨2, 1⟩, [⟨6, .one⟩, ⟨8, ⟨-1, 1⟩⟩]⟩]⟩], 9),
    (.sin, [⟨0, [⟨.one, .one, [⟨8, .one⟩]⟩]⟩], 10),
    (.id, [⟨15, [⟨.one, ⟨2, 1⟩, [⟨9, .one⟩, ⟨10, .one⟩]⟩]⟩], 11),
    (.cos, [⟨0, [⟨.one, .one, [⟨8, .one⟩]⟩]⟩], 12),
    (.id, [⟨15, [⟨.one, ⟨2, 1⟩, [⟨9, .one⟩, ⟨12, .one⟩]⟩]⟩], 13),
    (.id, [⟨0, [⟨.one, .one, [⟨10, .one⟩]⟩]⟩, ⟨15, [⟨.one, .one, [⟨13, .one⟩]⟩]⟩], 14),
    (.id, [⟨0, [⟨.one, .one, [⟨8, ⟨-1, 1⟩⟩]⟩]⟩], 16),
    (.id, [⟨0, [⟨.one, ⟨2, 1⟩, [⟨7, ⟨-1, 1⟩⟩, ⟨9, .one⟩]⟩]⟩], 17),
    (.id, [⟨3, [⟨.one, ⟨3, 1⟩, [⟨0, .one⟩, ⟨14, .one⟩, ⟨16, .one⟩]⟩, ⟨.one, ⟨3, 1⟩, [⟨0, .one⟩, ⟨15, .one⟩, ⟨17, .one⟩]⟩, ⟨⟨-1, 1⟩, ⟨3, 1⟩, [⟨5,
    .one⟩, ⟨14, .one⟩, ⟨17, .one⟩]⟩, ⟨⟨-1, 1⟩, ⟨3, 1⟩, [⟨5, .one⟩, ⟨15, .one⟩, ⟨16, .one⟩]⟩]⟩, ⟨5, [⟨.one, ⟨3, 1⟩, [⟨1, .one⟩, ⟨14, .one⟩, ⟨16,
    .one⟩]⟩, ⟨.one, ⟨3, 1⟩, [⟨1, .one⟩, ⟨15, .one⟩, ⟨17, .one⟩]⟩, ⟨.one, ⟨3, 1⟩, [⟨4, .one⟩, ⟨14, .one⟩, ⟨17, .one⟩]⟩, ⟨.one, ⟨3, 1⟩, [⟨4,
    .one⟩, ⟨15, .one⟩, ⟨16, .one⟩]⟩]⟩, ⟨6, [⟨.one, ⟨3, 1⟩, [⟨2, .one⟩, ⟨14, .one⟩, ⟨16, .one⟩]⟩, ⟨.one, ⟨3, 1⟩, [⟨2, .one⟩, ⟨15, .one⟩, ⟨17,
    .one⟩]⟩, ⟨⟨-1, 1⟩, ⟨3, 1⟩, [⟨3, .one⟩, ⟨14, .one⟩, ⟨17, .one⟩]⟩, ⟨⟨-1, 1⟩, ⟨3, 1⟩, [⟨3, .one⟩, ⟨15, .one⟩, ⟨16, .one⟩]⟩]⟩, ⟨9, [⟨⟨-1, 1⟩,
    ⟨3, 1⟩, [⟨2, .one⟩, ⟨14, .one⟩, ⟨17, .one⟩]⟩, ⟨⟨-1, 1⟩, ⟨3, 1⟩, [⟨2, .one⟩, ⟨15, .one⟩, ⟨16, .one⟩]⟩, ⟨.one, ⟨3, 1⟩, [⟨3, .one⟩, ⟨14, .one⟩,
    ⟨16, .one⟩]⟩, ⟨.one, ⟨3, 1⟩, [⟨3, .one⟩, ⟨15, .one⟩, ⟨17, .one⟩]⟩]⟩, ⟨10, [⟨.one, ⟨3, 1⟩, [⟨1, .one⟩, ⟨14, .one⟩, ⟨17, .one⟩]⟩, ⟨.one, ⟨3,
    1⟩, [⟨1, .one⟩, ⟨15, .one⟩, ⟨16, .one⟩]⟩, ⟨.one, ⟨3, 1⟩, [⟨4, .one⟩, ⟨14, .one⟩, ⟨16, .one⟩]⟩, ⟨.one, ⟨3, 1⟩, [⟨4, .one⟩, ⟨15, .one⟩, ⟨17,
    .one⟩]⟩]⟩, ⟨12, [⟨⟨-1, 1⟩, ⟨3, 1⟩, [⟨0, .one⟩, ⟨14, .one⟩, ⟨17, .one⟩]⟩, ⟨⟨-1, 1⟩, ⟨3, 1⟩, [⟨0, .one⟩, ⟨15, .one⟩, ⟨16, .one⟩]⟩, ⟨.one, ⟨3,
    1⟩, [⟨5, .one⟩, ⟨14, .one⟩, ⟨16, .one⟩]⟩, ⟨.one, ⟨3, 1⟩, [⟨5, .one⟩, ⟨15, .one⟩, ⟨17, .one⟩]⟩]⟩], 18)],
    [(.id, [⟨0, [⟨.one, .one, [⟨12, .one⟩]⟩]⟩, ⟨3, [⟨.one, .one, [⟨18, .one⟩]⟩]⟩, ⟨5, [⟨.one, .one, [⟨19, .one⟩]⟩]⟩, ⟨6, [⟨.one, .one, [⟨20,
    .one⟩]⟩]⟩, ⟨9, [⟨.one, .one, [⟨21, .one⟩]⟩]⟩, ⟨10, [⟨.one, .one, [⟨22, .one⟩]⟩]⟩, ⟨12, [⟨.one, .one, [⟨23, .one⟩]⟩]⟩, ⟨15, [⟨⟨-1, 1⟩, .one,
    [⟨11, .one⟩]⟩]⟩])], 24, .one⟩ := by decide +kernel

/-- `exp(l)` for a bivector of space. -/
theorem spaceExp_run (E : Env K) (a b c u : K) (hu : E.fn .sqrt (c * c + b * b + a * a) = u) :
    expOf ⟨3, 0, 0⟩ false E (bivArg3 [a, b, c]) = ok ⟨[0, 3, 5, 6], [E.fn .cos u, a * (E.fn .sin u * u⁻¹), b * (E.fn .sin u * u⁻¹),
      c * (E.fn .sin u * u⁻¹)]⟩ := by
  rw [exp_viewed ⟨3, 0, 0⟩ false E (x' := bivArg3 (K := ℚ) [0, 0, 0]) rfl spaceExp_viewed]
  simp [argsSize, bivArg3, Entity.toArg, fill, fill.fillOne, viewTemps, tempLoop, Env.write, viewEntity, mapO, Env.term, Env.mon, Env.prod, Env.factor,
    Env.get, Env.pow, Gal.pow, powNat, Env.app, indConstantStart, scaleBy, Rat32.one, pure_eq, ok_bind, hu]

/-- `exp(l)` for a point of the plane. -/
theorem planeExp_run (E : Env K) (a b c u : K) (hu : E.fn .sqrt (c * c) = u) :
    expOf ⟨2, 0, 1⟩ false E (bivArg3 [a, b, c]) = ok ⟨[0, 3, 5, 6], [E.fn .cos u, a * (E.fn .sin u * u⁻¹), b * (E.fn .sin u * u⁻¹),
      c * (E.fn .sin u * u⁻¹)]⟩ := by
  rw [exp_viewed ⟨2, 0, 1⟩ false E (x' := bivArg3 (K := ℚ) [0, 0, 0]) rfl planeExp_viewed]
  simp [argsSize, bivArg3, Entity.toArg, fill, fill.fillOne, viewTemps, tempLoop, Env.write, viewEntity, mapO, Env.term, Env.mon, Env.prod, Env.factor,
    Env.get, Env.pow, Gal.pow, powNat, Env.app, indConstantStart, scaleBy, Rat32.one, pure_eq, ok_bind, hu]

/-- `exp(l)` for a bivector of space in the conformal algebra: no function is applied. -/
theorem nullExp_run (E : Env K) (a b c : K) (h0 : c * c + b * b + a * a ≠ 0) :
    expOf ⟨4, 1, 0⟩ true E (bivArg3 [a, b, c]) = ok ⟨[0, 3, 5, 6], [c * c + b * b + a * a, a, b, c]⟩ := by
  have h : -(a * a) + (-(b * b) + -(c * c)) ≠ 0 := fun h => h0 (by linear_combination -h)
  rw [exp_viewed ⟨4, 1, 0⟩ true E (x' := bivArg3 (K := ℚ) [0, 0, 0]) rfl nullExp_viewed]
  simp [argsSize, bivArg3, Entity.toArg, fill, fill.fillOne, viewTemps, tempLoop, Env.write, viewEntity, mapO, Env.term, Env.mon, Env.prod, Env.factor,
    Env.get, Env.pow, Gal.pow, powNat, Env.app, indConstantStart, scaleBy, Rat32.one, pure_eq, ok_bind, mul_inv_cancel₀ h]

set_option maxRecDepth 4000 in
set_option maxHeartbeats 2000000 in
/-- `exp(l)` for a bivector of four-dimensional space. -/
theorem fourExp_run (E : Env K) (a b c d e f s p u v : K) (hp : 2 * (a * f) + (-(2 * (b * e)) + 2 * (c * d)) = p)
    (hs : -(a * a) + (-(b * b) + (-(c * c) + (-(d * d) + (-(e * e) + -(f * f))))) = s)
    (hu : E.fn .sqrt (f * f + e * e + d * d + c * c + b * b + a * a) = u) (hv : -1 / 2 * (p * u⁻¹) = v) :
    expOf ⟨4, 0, 0⟩ false E (⟨[3, 5, 6, 9, 10, 12], [a, b, c, d, e, f]⟩ : Entity K).toArg =
      ok ⟨[0, 3, 5, 6, 9, 10, 12, 15], [E.fn .cos u,
        a * (E.fn .sin u * u⁻¹) + (a * (v * E.fn .cos u * (s⁻¹ * v)) + (-(f * (E.fn .sin u * (s⁻¹ * v))) + -(f * (v * E.fn .cos u * u⁻¹)))),
        b * (E.fn .sin u * u⁻¹) + (b * (v * E.fn .cos u * (s⁻¹ * v)) + (e * (E.fn .sin u * (s⁻¹ * v)) + e * (v * E.fn .cos u * u⁻¹))),
        c * (E.fn .sin u * u⁻¹) + (c * (v * E.fn .cos u * (s⁻¹ * v)) + (-(d * (E.fn .sin u * (s⁻¹ * v))) + -(d * (v * E.fn .cos u * u⁻¹)))),
        -(c * (E.fn .sin u * (s⁻¹ * v))) + (-(c * (v * E.fn .cos u * u⁻¹)) + (d * (E.fn .sin u * u⁻¹) + d * (v * E.fn .cos u * (s⁻¹ * v)))),
        b * (E.fn .sin u * (s⁻¹ * v)) + (b * (v * E.fn .cos u * u⁻¹) + (e * (E.fn .sin u * u⁻¹) + e * (v * E.fn .cos u * (s⁻¹ * v)))),
        -(a * (E.fn .sin u * (s⁻¹ * v))) + (-(a * (v * E.fn .cos u * u⁻¹)) + (f * (E.fn .sin u * u⁻¹) + f * (v * E.fn .cos u * (s⁻¹ * v)))),
        -(v * E.fn .sin u)]⟩ := by
  rw [exp_viewed ⟨4, 0, 0⟩ false E (x' := (⟨[3, 5, 6, 9, 10, 12], [0, 0, 0, 0, 0, 0]⟩ : Entity ℚ).toArg) rfl fourExp_viewed]
  simp [argsSize, Entity.toArg, fill, fill.fillOne, viewTemps, tempLoop, Env.write, viewEntity, mapO, Env.term, Env.mon, Env.prod, Env.factor,
    Env.get, Env.pow, Gal.pow, powNat, Env.app, indConstantStart, scaleBy, Rat32.one, Rat32.cast, pure_eq, ok_bind, hp, hs, hu, hv]

end Gal
