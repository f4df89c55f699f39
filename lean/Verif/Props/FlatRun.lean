import Verif.Props.Repack
import Verif.Props.PolyRun

/-!
# Polynomials computed on nested multivectors

As `Lam.nestPolys`, without a null basis: the stack machine on multivectors without arrays gives the polynomials of `Lam.polys`, and the kernel
evaluates it faster.
-/

namespace Gal

open Out

/-- The operations of `mvOps` without a null basis on nested multivectors. -/
def flatOps (m : Metric) : Ops NMv := { nestOps m with input := ok }

/-- What is read from the evaluation on nested multivectors. -/
def flatView (q : Rat32) (s : RState NMv) : Out Viewed :=
  match s.temps, s.args with
  | [], [a] => ok ⟨[], [(.id, a)], s.nextId, q⟩
  | _, _ => .ub

/-- The nested multivector of an input that is laid out as usual, up to offsets that are not read. -/
def inputLay (a : Mv) : Out NMv := do
  let n ← a.view
  if nInds n ≤ a.caps.i ∧ nMons n ≤ a.caps.m ∧ n.length ≤ a.caps.t ∧ a.norm = (layout a.caps n).norm then ok n else .ub

/-- The polynomials of a lambda, computed on nested multivectors. -/
def Lam.flatPolys {L : Type} (m : Metric) (args : List (Arg L)) (f : Lam) : Option (List (Nat × List IntMono)) :=
  if args.isEmpty then none else readViewed (argsSize args) (do
    let e ← f.build (argOffset args)
    let r ← reshape f.cap e
    let ins ← mapO inputLay (gatherInputs (argMv args) r.nodes)
    let s ← runNodes (flatOps m) r.nodes.length r.nodes ⟨ins, [], [], argsSize args⟩
    flatView r.q s)

/-- **The operations on nested multivectors follow those on arrays.** -/
theorem flatOps_sim (m : Metric) : SimOps Lay Lay (mvOps m false) (flatOps m) where
  input {a b b'} h hb := by
    have hb' : ok b = ok b' := hb
    rw [ok_inj] at hb'
    subst hb'
    exact ⟨a, rfl, h⟩
  ref := (nestOps_sim m).ref
  size := (nestOps_sim m).size
  const := (nestOps_sim m).const
  scale := (nestOps_sim m).scale
  rev := (nestOps_sim m).rev
  pd := (nestOps_sim m).pd
  sums := (nestOps_sim m).sums
  eps := (nestOps_sim m).eps
  gp := (nestOps_sim m).gp
  lc := (nestOps_sim m).lc
  sip := (nestOps_sim m).sip
  div := (nestOps_sim m).div
  fn := (nestOps_sim m).fn
  comp := (nestOps_sim m).comp
  grd := (nestOps_sim m).grd

theorem inputLay_ok {a : Mv} {n : NMv} (h : inputLay a = ok n) : ∃ b, a.Like b ∧ Lay b n := by
  unfold inputLay at h
  rw [bind_eq_ok] at h
  obtain ⟨n', h1, h2⟩ := h
  split at h2
  · rename_i hc
    rw [ok_inj] at h2
    subst h2
    exact ⟨_, hc.2.2.2, _, ⟨hc.1, hc.2.1, hc.2.2.1⟩, rfl⟩
  · cases h2

theorem inputLays_ok : ∀ {as : List Mv} {ns : List NMv}, mapO inputLay as = ok ns → ∃ bs, List.Forall₂ Mv.Like as bs ∧ List.Forall₂ Lay bs ns
  | [], ns, h => by
    rw [mapO, ok_inj] at h
    subst h
    exact ⟨[], .nil, .nil⟩
  | a :: as, ns, h => by
    simp only [mapO, bind_eq_ok, pure_eq, ok_inj] at h
    obtain ⟨n, hn, ns', h', rfl⟩ := h
    obtain ⟨b, h1, h2⟩ := inputLay_ok hn
    obtain ⟨bs, h3, h4⟩ := inputLays_ok h'
    exact ⟨b :: bs, .cons h1 h3, .cons h2 h4⟩

/-- **The evaluation on nested multivectors gives the polynomials.** -/
theorem flatPolys_polys {L : Type} {m : Metric} {args : List (Arg L)} {f : Lam} {x : List (Nat × List IntMono)}
    (h : f.flatPolys m args = some x) : f.polys m args = some x := by
  unfold Lam.flatPolys at h
  unfold Lam.polys
  by_cases hne : args.isEmpty = true
  · rw [if_pos hne] at h
    cases h
  rw [if_neg hne] at h
  have key : ∀ y, (do
      let e ← f.build (argOffset args)
      let r ← reshape f.cap e
      let ins ← mapO inputLay (gatherInputs (argMv args) r.nodes)
      let s ← runNodes (flatOps m) r.nodes.length r.nodes ⟨ins, [], [], argsSize args⟩
      flatView r.q s) = ok y → (do
      let e ← f.build (argOffset args)
      let c ← compileExpr m false f.cap args e
      c.viewed) = ok y := by
    intro y hy
    simp only [bind_eq_ok] at hy
    obtain ⟨e, he, r, hr, ins, hi, s, hs, hy⟩ := hy
    rw [he, ok_bind]
    unfold compileExpr
    rw [if_neg hne, hr, ok_bind]
    obtain ⟨bs, hb1, hb2⟩ := inputLays_ok hi
    obtain ⟨t, ht, hrel⟩ := runNodes_sim (flatOps_sim m) _ _ (s := ⟨bs, [], [], argsSize args⟩) ⟨hb2, .nil, .nil, rfl⟩ hs
    have hst : SimState Mv.Like Mv.Like (⟨gatherInputs (argMv args) r.nodes, [], [], argsSize args⟩ : RState Mv) ⟨bs, [], [], argsSize args⟩ :=
      ⟨hb1, .nil, .nil, rfl⟩
    obtain ⟨u, hu, hrel'⟩ := runNodes_sim (mvOps_like m false) _ _ hst ht
    rw [hu, ok_bind, pure_eq, ok_bind]
    obtain ⟨si, st, sa, sn⟩ := s
    obtain ⟨ti, tt, ta, tn⟩ := t
    obtain ⟨ui, ut, ua, un⟩ := u
    obtain ⟨-, r2, r3, r4⟩ := hrel
    obtain ⟨-, l2, l3, l4⟩ := hrel'
    dsimp only at r2 r3 r4 l2 l3 l4
    unfold flatView at hy
    dsimp only at hy
    split at hy
    · cases r2
      cases l2
      cases r3 with
      | cons q1 q2 =>
        cases q2
        cases l3 with
        | cons w1 w2 =>
          cases w2
          obtain ⟨c, hc, rfl⟩ := q1
          rw [ok_inj] at hy
          subst hy
          unfold Compiled.viewed
          simp only [mapO, ok_bind, pure_eq, w1.view, view_layout hc, w1.op, l4, r4]
          rfl
    · cases hy
  generalize hz : (do
      let e ← f.build (argOffset args)
      let r ← reshape f.cap e
      let ins ← mapO inputLay (gatherInputs (argMv args) r.nodes)
      let s ← runNodes (flatOps m) r.nodes.length r.nodes ⟨ins, [], [], argsSize args⟩
      flatView r.q s) = z at h key
  rcases z with _ | ⟨y, l⟩
  · cases h
  · cases l
    · rw [key y rfl]
      exact h
    · unfold readViewed at h
      simp at h

end Gal
