import Verif.Props.NestedRun

/-!
# Offsets of monomials without indeterminates

A monomial without indeterminates records an offset that is never read.  Two multivectors that differ only there lead to the same results
(`compute_like`).  Named entities write such monomials by hand, with other offsets than the functions of the library.
-/

namespace Gal

open Out

/-- A monomial with offset 0 if it has no indeterminates. -/
def Mon.norm (m : Mon) : Mon := if m.count = 0 then { m with off := 0 } else m

/-- The same for all monomials. -/
def Mv.norm (a : Mv) : Mv := { a with mons := a.mons.map Mon.norm }

theorem Mon.norm_q (m : Mon) : m.norm.q = m.q := by unfold Mon.norm; split <;> rfl

theorem Mon.norm_set (m : Mon) (q : Rat32) : { m.norm with q := q } = ({ m with q := q } : Mon).norm := by
  unfold Mon.norm
  by_cases h : m.count = 0
  · rw [if_pos h, if_pos h]
  · rw [if_neg h, if_neg h]

theorem rd_norm (cap : Nat) (l : List Mon) (i : Nat) : rd cap (l.map Mon.norm) i = Mon.norm <$> rd cap l i := by
  unfold rd
  split
  · show ok _ = ok _
    congr 1
    have : (default : Mon) = Mon.norm default := rfl
    conv_lhs => rw [this]
    exact List.getD_map ..
  · rfl

theorem rdRange_norm (cap : Nat) (l : List Mon) : ∀ n i, rdRange cap (l.map Mon.norm) i n = List.map Mon.norm <$> rdRange cap l i n
  | 0, _ => rfl
  | n + 1, i => by
    rw [rdRange, rdRange, rd_norm, rdRange_norm cap l n]
    simp only [map_eq_pure_bind, bind_assoc, pure_bind, List.map_cons]

theorem viewMon_norm (cap : Nat) (inds : List Ind) (m : Mon) : viewMon cap inds m.norm = viewMon cap inds m := by
  unfold Mon.norm
  split
  · rename_i h
    unfold viewMon
    rw [h]
    rfl
  · rfl

theorem mapO_comp {α β γ : Type} (f : β → Out γ) (g : α → β) : ∀ l : List α, mapO f (l.map g) = mapO (fun a => f (g a)) l
  | [] => rfl
  | a :: l => by rw [List.map_cons, mapO, mapO, mapO_comp f g l]

theorem view_norm (a : Mv) : a.norm.view = a.view := by
  unfold Mv.view
  show (rdRange a.caps.t a.terms 0 a.szT >>= _) = _
  congr 1
  funext ts
  congr 1
  funext t
  unfold viewTerm
  show (rdRange a.caps.m (a.mons.map Mon.norm) t.off t.count >>= _) = _
  rw [rdRange_norm, map_eq_pure_bind, bind_assoc]
  congr 1
  funext ms
  rw [pure_bind, mapO_comp]
  congr 1
  congr 1
  funext m
  exact viewMon_norm _ _ _

/-- The offsets of monomials without indeterminates may differ. -/
def Mv.Like (a b : Mv) : Prop := a.norm = b.norm

section

variable {a b : Mv}

theorem Mv.Like.view (h : a.Like b) : a.view = b.view := by rw [← view_norm a, ← view_norm b, h]
theorem Mv.Like.caps (h : a.Like b) : a.caps = b.caps := by
  have e : a.norm.caps = b.norm.caps := by rw [show a.norm = b.norm from h]
  exact e
theorem Mv.Like.szI (h : a.Like b) : a.szI = b.szI := by
  have e : a.norm.szI = b.norm.szI := by rw [show a.norm = b.norm from h]
  exact e
theorem Mv.Like.szM (h : a.Like b) : a.szM = b.szM := by
  have e : a.norm.szM = b.norm.szM := by rw [show a.norm = b.norm from h]
  exact e
theorem Mv.Like.szT (h : a.Like b) : a.szT = b.szT := by
  have e : a.norm.szT = b.norm.szT := by rw [show a.norm = b.norm from h]
  exact e
theorem Mv.Like.inds (h : a.Like b) : a.inds = b.inds := by
  have e : a.norm.inds = b.norm.inds := by rw [show a.norm = b.norm from h]
  exact e
theorem Mv.Like.terms (h : a.Like b) : a.terms = b.terms := by
  have e : a.norm.terms = b.norm.terms := by rw [show a.norm = b.norm from h]
  exact e
theorem Mv.Like.op (h : a.Like b) : a.op = b.op := by
  have e : a.norm.op = b.norm.op := by rw [show a.norm = b.norm from h]
  exact e
theorem Mv.Like.mons (h : a.Like b) : a.mons.map Mon.norm = b.mons.map Mon.norm := congrArg Mv.mons h

theorem Mv.Like.refl (a : Mv) : a.Like a := rfl

/-- An operation that commutes with the normalisation respects the relation. -/
theorem like_of_norm {F : Mv → Out Mv} (hF : ∀ a, F a.norm = Mv.norm <$> F a) (h : a.Like b) {b' : Mv} (hb : F b = ok b') :
    ∃ a', F a = ok a' ∧ a'.Like b' := by
  have h1 := hF a
  rw [h, hF b, hb] at h1
  obtain ⟨a', e, e'⟩ := map_eq_ok h1.symm
  exact ⟨a', e, e'.symm⟩

theorem scale_norm (q : Rat32) (a : Mv) : scale q a.norm = Mv.norm <$> scale q a := by
  unfold scale
  show (if a.szM ≤ a.caps.m then _ else _) = _
  split
  · have : a.norm.mons.take a.norm.szM = (a.mons.take a.szM).map Mon.norm := (List.map_take ..).symm
    rw [this, mapO_comp]
    have key : ∀ l : List Mon, mapO (fun m : Mon => do let q' ← q.mul m.norm.q; return { m.norm with q := q' }) l =
        List.map Mon.norm <$> mapO (fun m : Mon => do let q' ← q.mul m.q; return { m with q := q' }) l := by
      intro l
      induction l with
      | nil => rfl
      | cons m l ih =>
        rw [mapO, mapO, ih]
        simp only [map_eq_pure_bind, bind_assoc, pure_bind, List.map_cons, Mon.norm_q, Mon.norm_set]
    rw [key]
    simp only [map_eq_pure_bind, bind_assoc, pure_bind]
    congr 1
    funext ms
    show pure _ = pure _
    congr 1
    simp only [Mv.norm, List.map_append, List.map_drop]
  · rfl

theorem getAt_norm (l : List Mon) (i : Nat) : getAt (l.map Mon.norm) i = Mon.norm <$> getAt l i := by
  unfold getAt
  rw [List.getElem?_map]
  cases l[i]? <;> rfl

theorem updQ_norm (f : Rat32 → Out Rat32) : ∀ (n : Nat) (l : List Mon) (i : Nat), updQ f (l.map Mon.norm) i n = List.map Mon.norm <$> updQ f l i n
  | 0, _, _ => rfl
  | n + 1, l, i => by
    rw [updQ, updQ, getAt_norm]
    simp only [map_eq_pure_bind, bind_assoc, pure_bind, Mon.norm_q, Mon.norm_set]
    congr 1
    funext m
    congr 1
    funext q
    rw [← List.map_set, updQ_norm f n, map_eq_pure_bind]

theorem updTerms_norm (f : Term → Option (Rat32 → Out Rat32)) : ∀ (ts : List Term) (l : List Mon),
    updTerms f (l.map Mon.norm) ts = List.map Mon.norm <$> updTerms f l ts
  | [], _ => rfl
  | t :: ts, l => by
    rw [updTerms, updTerms]
    cases f t with
    | none => exact updTerms_norm f ts l
    | some g =>
      dsimp only
      rw [updQ_norm]
      simp only [map_eq_pure_bind, bind_assoc, pure_bind]
      congr 1
      funext l'
      rw [updTerms_norm f ts, map_eq_pure_bind]

theorem reverse_norm (a : Mv) : reverse a.norm = Mv.norm <$> reverse a := by
  unfold reverse
  simp only [map_eq_pure_bind, bind_assoc, pure_bind]
  show (rdRange a.caps.t a.terms 0 a.szT >>= _) = _
  congr 1
  funext ts
  show (updTerms _ (a.mons.map Mon.norm) ts >>= _) = _
  rw [updTerms_norm]
  simp only [map_eq_pure_bind, bind_assoc, pure_bind]
  rfl

theorem resize_norm (c : Caps) (a : Mv) : resize a.norm c = Mv.norm <$> resize a c := by
  unfold resize
  show (if c = a.caps then _ else if a.szI ≤ c.i ∧ a.szM ≤ c.m ∧ a.szT ≤ c.t then _ else _) = _
  split
  · rfl
  · split
    · simp only [map_eq_pure_bind, bind_assoc, pure_bind]
      show (rdRange a.caps.i a.inds 0 a.szI >>= _) = _
      congr 1
      funext is
      show (rdRange a.caps.m (a.mons.map Mon.norm) 0 a.szM >>= _) = _
      rw [rdRange_norm]
      simp only [map_eq_pure_bind, bind_assoc, pure_bind]
      congr 1
    · rfl

theorem shrink_norm (a : Mv) : shrink a.norm = Mv.norm <$> shrink a := resize_norm _ a

theorem shrink_like {x y : Out Mv} {b' : Mv} (hx : ∀ {r}, y = ok r → ∃ r', x = ok r' ∧ r'.Like r) (hb : (do let r ← y; shrink r) = ok b') :
    ∃ a', (do let r ← x; shrink r) = ok a' ∧ a'.Like b' := by
  rw [bind_eq_ok] at hb
  obtain ⟨r, hr, hb⟩ := hb
  obtain ⟨r', e, hl⟩ := hx hr
  rw [e, ok_bind]
  exact like_of_norm shrink_norm hl hb

theorem like_of_eq {x y : Out Mv} (h : x = y) {b' : Mv} (hb : y = ok b') : ∃ a', x = ok a' ∧ a'.Like b' := ⟨b', by rw [h, hb], rfl⟩

variable {c d : Mv}

theorem product_like (P : Nat → Nat → Nat × Int) (h : a.Like b) (h' : c.Like d) : product P a c = product P b d := by
  unfold product
  rw [h.view, h'.view, h.caps, h'.caps]

theorem sum_like (h : a.Like b) (h' : c.Like d) : sum a c = sum b d := by
  unfold sum
  rw [h.view, h'.view, h.caps, h'.caps]

theorem toNullBasis_like (dim : Nat) (h : a.Like b) : toNullBasis dim a = toNullBasis dim b := by
  unfold toNullBasis
  rw [h.view, h.caps]

theorem toNaturalBasis_like (dim : Nat) (h : a.Like b) : toNaturalBasis dim a = toNaturalBasis dim b := by
  unfold toNaturalBasis
  rw [h.view, h.caps]

theorem createRef_like (h : a.Like b) (id : Nat) : createRef a id = createRef b id := by
  unfold createRef
  rw [h.caps, h.terms]

theorem divideConst_norm (q : Rat32) (d a : Mv) : divideConst a.norm d q = Mv.norm <$> divideConst a d q := by
  unfold divideConst
  simp only [map_eq_pure_bind, bind_assoc, pure_bind]
  congr 1
  funext m
  show (rdRange a.caps.t a.terms 0 a.szT >>= _) = _
  congr 1
  funext ts
  show (updTerms _ (a.mons.map Mon.norm) ts >>= _) = _
  rw [updTerms_norm]
  simp only [map_eq_pure_bind, bind_assoc, pure_bind]
  rfl

theorem rd_q_norm (cap : Nat) (l : List Mon) (i : Nat) : Mon.q <$> rd cap (l.map Mon.norm) i = Mon.q <$> rd cap l i := by
  rw [rd_norm]
  simp only [map_eq_pure_bind, bind_assoc, pure_bind, Mon.norm_q]

theorem rd_q_like (h : c.Like d) (i : Nat) : Mon.q <$> rd c.caps.m c.mons i = Mon.q <$> rd d.caps.m d.mons i := by
  rw [← rd_q_norm, h.mons, h.caps, rd_q_norm]

theorem bind_q {β : Type} (x : Out Mon) (f : Rat32 → Out β) : (x >>= fun m => f m.q) = (Mon.q <$> x) >>= f := by
  simp only [map_eq_pure_bind, bind_assoc, pure_bind]

theorem divideConst_like (q : Rat32) (h' : c.Like d) (a : Mv) : divideConst a c q = divideConst a d q := by
  unfold divideConst
  rw [bind_q (rd c.caps.m c.mons 0) fun mq => do
      let ts ← rdRange a.caps.t a.terms 0 a.szT
      let mons ← updTerms (fun _ => some (fun x => do let y ← q.mul x; y.div mq)) a.mons ts
      pure ({ a with mons := mons } : Mv),
    bind_q (rd d.caps.m d.mons 0) fun mq => do
      let ts ← rdRange a.caps.t a.terms 0 a.szT
      let mons ← updTerms (fun _ => some (fun x => do let y ← q.mul x; y.div mq)) a.mons ts
      pure ({ a with mons := mons } : Mv), rd_q_like h']

theorem divide_like (h : a.Like b) (h' : c.Like d) (q : Rat32) {b' : Mv} (hb : divide b d q = ok b') : ∃ a', divide a c q = ok a' ∧ a'.Like b' := by
  unfold divide at hb ⊢
  rw [h'.caps]
  by_cases c1 : d.caps.m = 0 ∨ d.caps.t = 0
  · rw [if_pos c1] at hb; cases hb
  rw [if_neg c1] at hb ⊢
  by_cases c2 : d.caps.i = 0
  · rw [if_pos c2] at hb ⊢
    rw [divideConst_like q h']
    exact like_of_norm (F := fun a => divideConst a d q) (divideConst_norm q d) h hb
  rw [if_neg c2] at hb ⊢
  by_cases c3 : d.caps.i = 1
  · rw [if_pos c3] at hb ⊢
    refine like_of_eq ?_ hb
    rw [← h'.caps, h'.inds, h.view, h.caps, h.terms, h.szT, bind_q (rd c.caps.m c.mons 0) fun mq => do
      let k ← rd c.caps.i d.inds 0
      let nd ← k.deg.neg
      let na ← b.view
      let ts ← rdRange b.caps.t b.terms 0 b.szT
      let r ← divideTerms ⟨k.id, nd⟩ mq (Bld.empty ⟨b.caps.i + b.caps.m, b.caps.m, b.caps.t⟩) (ts.zip na)
      scale q r.finish, rd_q_like h', ← bind_q, h'.caps]
  · rw [if_neg c3] at hb; cases hb

theorem foldArgs_like {f : Mv → Mv → Out Mv} (hf : ∀ {a b c d : Mv}, a.Like b → c.Like d → f a c = f b d) :
    ∀ {as bs : List Mv} {b' : Mv}, List.Forall₂ Mv.Like as bs → foldArgs f bs = ok b' → ∃ a', foldArgs f as = ok a' ∧ a'.Like b'
  | _, _, _, .nil, h => by cases h
  | _, _, _, .cons h1 .nil, h => by
    rw [foldArgs, ok_inj] at h
    subst h
    exact ⟨_, rfl, h1⟩
  | _, _, _, .cons h1 (.cons h2 h3), h => by
    rw [foldArgs, bind_eq_ok] at h
    obtain ⟨r, hr, h⟩ := h
    obtain ⟨x, hx, hl⟩ := foldArgs_like hf (.cons h2 h3) hr
    rw [foldArgs, hx, ok_bind, hf h1 hl, h]
    exact ⟨_, rfl, rfl⟩

/-- **The operations do not read those offsets.** -/
theorem mvOps_like (m : Metric) (null : Bool) : SimOps Mv.Like Mv.Like (mvOps m null) (mvOps m null) where
  input {a b b'} h hb := by
    cases null with
    | false => exact ⟨a, rfl, by cases hb; exact h⟩
    | true => exact like_of_eq (toNaturalBasis_like m.dim h) hb
  ref {a b b' id} h hb := by
    refine like_of_eq ?_ hb
    show ok (createRef a id) = ok (createRef b id)
    rw [createRef_like h]
  size h := h.szT
  const hb := like_of_eq rfl hb
  scale h hb := like_of_norm (scale_norm _) h hb
  rev h hb := like_of_norm reverse_norm h hb
  pd {a b b'} h hb := by
    refine like_of_eq ?_ hb
    show poincareDual m.dim a = poincareDual m.dim b
    unfold poincareDual
    rw [h.view, h.caps]
  sums h hb := shrink_like (fun hr => foldArgs_like sum_like h hr) hb
  eps h hb := shrink_like (fun hr => foldArgs_like (product_like _) h hr) hb
  gp h h' hb := shrink_like (fun hr => like_of_eq (product_like _ h h') hr) hb
  lc h h' hb := shrink_like (fun hr => like_of_eq (product_like _ h h') hr) hb
  sip h h' hb := shrink_like (fun hr => like_of_eq (product_like _ h h') hr) hb
  div h h' hb := divide_like h h' _ hb
  fn {a b b' o q} h hb := by
    have h' : Mv.Like { a with op := fnOp o } { b with op := fnOp o } := by
      unfold Mv.Like Mv.norm
      dsimp only
      rw [h.caps, h.szI, h.szM, h.szT, h.inds, h.terms, h.mons]
    exact like_of_norm (scale_norm _) h' hb
  comp {a b b' e} h hb := by
    refine shrink_like (fun hr => like_of_eq ?_ hr) hb
    show component a e = component b e
    unfold component
    rw [h.view, h.caps]
  grd {a b b' g} h hb := by
    refine shrink_like (fun hr => like_of_eq ?_ hr) hb
    show selectGrade a g = selectGrade b g
    unfold selectGrade
    rw [h.view, h.caps]

end

/-! ## Results -/

section

variable {K L : Type}

/-- Two arguments whose types differ only in those offsets. -/
def Arg.TypeLike (a : Arg K) (b : Arg L) : Prop := a.data.length = b.data.length ∧ ∀ id, (a.ie id).Like (b.ie id)

/-- Moreover, the coefficients are the same. -/
def Arg.Like (a b : Arg K) : Prop := a.data = b.data ∧ ∀ id, (a.ie id).Like (b.ie id)

variable {args : List (Arg K)} {args' : List (Arg L)}

theorem like_types {args args' : List (Arg K)} (h : List.Forall₂ Arg.Like args args') : List.Forall₂ Arg.TypeLike args args' :=
  h.imp fun _ _ h => ⟨by rw [h.1], h.2⟩

theorem like_sizes : ∀ {args args' : List (Arg K)}, List.Forall₂ Arg.Like args args' → args.map (fun a => a.data) = args'.map (fun a => a.data)
  | _, _, .nil => rfl
  | _, _, .cons h h' => by rw [List.map_cons, List.map_cons, h.1, like_sizes h']

theorem argsSize_like : ∀ {args : List (Arg K)} {args' : List (Arg L)}, List.Forall₂ Arg.TypeLike args args' → argsSize args = argsSize args'
  | _, _, .nil => rfl
  | _, _, .cons h h' => by
    have := argsSize_like h'
    unfold argsSize at this ⊢
    rw [List.map_cons, List.map_cons, List.sum_cons, List.sum_cons, h.1, this]

theorem argOffset_like (h : List.Forall₂ Arg.TypeLike args args') : argOffset args = argOffset args' := by
  funext i
  exact argsSize_like (List.forall₂_take i h)

theorem argMv_like (h : List.Forall₂ Arg.TypeLike args args') (i id : Nat) : (argMv args i id).Like (argMv args' i id) := by
  unfold argMv
  by_cases hi : i < args'.length
  · have hi' : i < args.length := by rw [h.length_eq]; exact hi
    rw [List.getElem?_eq_getElem hi, List.getElem?_eq_getElem hi']
    exact (List.Forall₂.get h hi' hi).2 id
  · rw [List.getElem?_eq_none (l := args) (by rw [h.length_eq]; omega), List.getElem?_eq_none (l := args') (by omega)]
    rfl

theorem gather_like (h : List.Forall₂ Arg.TypeLike args args') (ns : List Node) :
    List.Forall₂ Mv.Like (gatherInputs (argMv args) ns) (gatherInputs (argMv args') ns) := by
  unfold gatherInputs
  rw [List.forall₂_map_left_iff, List.forall₂_map_right_iff, List.forall₂_same]
  exact fun n _ => argMv_like h _ _

/-- **What is determined at compile time differs only in those offsets.** -/
theorem compile_like {m : Metric} {null : Bool} {cap : Nat} {e : Rpne} {c : Compiled} (h : List.Forall₂ Arg.TypeLike args args')
    (hc : compileExpr m null cap args' e = ok c) :
    ∃ c', compileExpr m null cap args e = ok c' ∧ SimState Mv.Like Mv.Like c'.state c.state ∧ c'.q = c.q := by
  unfold compileExpr at hc ⊢
  by_cases hne : args'.isEmpty = true
  · rw [if_pos hne] at hc
    cases hc
  rw [if_neg hne] at hc
  simp only [bind_eq_ok, pure_eq, ok_inj] at hc
  obtain ⟨p, hp, s, hs, rfl⟩ := hc
  have hne' : ¬ args.isEmpty = true := by
    rw [List.isEmpty_iff_length_eq_zero] at hne ⊢
    rw [h.length_eq]
    exact hne
  obtain ⟨s', hs', hrel⟩ := runNodes_sim (mvOps_like m null) _ _ (s := ⟨gatherInputs (argMv args) p.nodes, [], [], argsSize args⟩)
      ⟨gather_like h _, .nil, .nil, argsSize_like h⟩ hs
  refine ⟨⟨s', p.q⟩, ?_, hrel, rfl⟩
  rw [if_neg hne', hp, ok_bind, hs', ok_bind]
  rfl

variable [Field K]

theorem toOutput_like {nd : Option Nat} {a b : Mv} (h : a.Like b) {b' : Mv} (hb : toOutput nd b = ok b') : ∃ a', toOutput nd a = ok a' ∧ a'.Like b' := by
  cases nd with
  | none => cases hb; exact ⟨a, rfl, h⟩
  | some d => exact like_of_eq (toNullBasis_like d h) hb

theorem finalizeTemps_like {nd : Option Nat} : ∀ {ps qs : List (Mv × Nat)} {E E' : Env K}, List.Forall₂ (fun p q => p.1.Like q.1 ∧ p.2 = q.2) ps qs →
    finalizeTemps nd E qs = ok E' → finalizeTemps nd E ps = ok E'
  | _, _, _, _, .nil, h => h
  | (a, i) :: _, (b, j) :: _, E, E', .cons ⟨h1, h2⟩ h3, h => by
    dsimp only at h1 h2
    subst h2
    rw [finalizeTemps] at h ⊢
    simp only [bind_eq_ok] at h ⊢
    obtain ⟨b', hb, E1, hE, h⟩ := h
    obtain ⟨a', ha, hl⟩ := toOutput_like h1 hb
    refine ⟨a', ha, E1, ?_, finalizeTemps_like h3 h⟩
    unfold computeTemp at hE ⊢
    rw [hl.view, hl.op]
    exact hE

theorem finalizeEntity_like {nd : Option Nat} {a b : Mv} (h : a.Like b) {E : Env K} {n d : Int} {x : Entity K} (hb : finalizeEntity nd E b n d = ok x) :
    finalizeEntity nd E a n d = ok x := by
  unfold finalizeEntity at hb ⊢
  rw [bind_eq_ok] at hb
  obtain ⟨b', hb, hx⟩ := hb
  obtain ⟨a', ha, hl⟩ := toOutput_like h hb
  rw [ha, ok_bind]
  unfold computeEntity at hx ⊢
  rw [hl.view, hl.op]
  exact hx

theorem finalizeEntities_like {nd : Option Nat} {E : Env K} {n d : Int} : ∀ {as bs : List Mv} {xs : List (Entity K)}, List.Forall₂ Mv.Like as bs →
    mapO (fun a => finalizeEntity nd E a n d) bs = ok xs → mapO (fun a => finalizeEntity nd E a n d) as = ok xs
  | _, _, _, .nil, h => h
  | _, _, _, .cons h1 h2, h => by
    rw [mapO] at h ⊢
    simp only [bind_eq_ok] at h ⊢
    obtain ⟨x, hx, xs, hxs, h⟩ := h
    exact ⟨x, finalizeEntity_like h1 hx, xs, finalizeEntities_like h2 hxs, h⟩

theorem finishCompute_like {nd : Option Nat} {E : Env K} {q : Rat32} {as bs : List Mv} {xs : List (Entity K)} (h : List.Forall₂ Mv.Like as bs)
    (hb : finishCompute nd E q bs = ok xs) : finishCompute nd E q as = ok xs := by
  match as, bs, h with
  | [], [], .nil => exact hb
  | [a], [b], .cons h1 .nil =>
    rw [finishCompute] at hb ⊢
    rw [bind_eq_ok] at hb
    obtain ⟨x, hx, hb⟩ := hb
    rw [finalizeEntity_like h1 hx, ok_bind]
    exact hb
  | a :: a' :: as, b :: b' :: bs, .cons h1 (.cons h2 h3) =>
    rw [finishCompute] at hb ⊢
    · unfold finalizeEntities at hb ⊢
      exact finalizeEntities_like (List.rel_reverse (.cons h1 (.cons h2 h3))) hb
    all_goals simp

/-- **The result does not depend on the offsets of monomials without indeterminates.** -/
theorem compute_like {args args' : List (Arg K)} {m : Metric} {null : Bool} {cap : Nat} {E : Env K} {e : Rpne} {r : List (Entity K)}
    (h : List.Forall₂ Arg.Like args args') (hr : computeExpr m null cap E args' e = ok r) : computeExpr m null cap E args e = ok r := by
  unfold computeExpr at hr ⊢
  rw [bind_eq_ok] at hr
  obtain ⟨c, hc, hr⟩ := hr
  obtain ⟨c', hc', hrel, hq⟩ := compile_like (like_types h) hc
  rw [hc', ok_bind]
  unfold runCompiled at hr ⊢
  rw [argsSize_like (like_types h), like_sizes h, hrel.nextId, hq]
  simp only [bind_eq_ok] at hr ⊢
  obtain ⟨data, hd, E', hE, hr⟩ := hr
  exact ⟨data, hd, E', finalizeTemps_like hrel.temps hE, finishCompute_like hrel.args hr⟩

end

end Gal
