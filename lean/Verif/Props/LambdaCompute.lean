import Verif.Props.Lambda
import Verif.Props.ComputeNull
import Verif.Props.Sparse
import Verif.Props.Normalize

/-!
# Property C53: `compute` of a lambda

C53 and C45 put together: what `compute` returns for a lambda, stated in terms of the lambda only.
-/

namespace Gal

open Out

/-! ## The nodes of an expression -/

section

variable {P : Node → Prop}

/-- All nodes satisfy `P`. -/
def NodesP (P : Node → Prop) (ns : List Node) : Prop := ∀ n ∈ ns, P n

/-- All nodes of the blocks satisfy `P`. -/
def BlocksP (P : Node → Prop) (bs : List Block) : Prop := ∀ b ∈ bs, NodesP P b.flat

theorem nodesP_nil : NodesP P [] := by intro n hn; cases hn

theorem nodesP_append {xs ys : List Node} : NodesP P (xs ++ ys) ↔ NodesP P xs ∧ NodesP P ys := by
  unfold NodesP
  simp only [List.mem_append]
  exact ⟨fun h => ⟨fun n hn => h n (Or.inl hn), fun n hn => h n (Or.inr hn)⟩, fun h n hn => hn.elim (h.1 n) (h.2 n)⟩

theorem nodesP_one {n : Node} : NodesP P [n] ↔ P n := by simp [NodesP]

theorem nodesP_cons {n : Node} {ns : List Node} : NodesP P (n :: ns) ↔ P n ∧ NodesP P ns := by simp [NodesP]

theorem nodesP_dropLast {ns : List Node} (h : NodesP P ns) : NodesP P ns.dropLast := fun n hn => h n (List.dropLast_subset _ hn)

theorem blocksP_cons {b : Block} {bs : List Block} : BlocksP P (b :: bs) ↔ NodesP P b.flat ∧ BlocksP P bs := by
  unfold BlocksP; simp

theorem blocksP_nil : BlocksP P [] := by intro b hb; cases hb

theorem cutBlocks_blocksP : ∀ (k : Nat) {ns : List Node} {bs : List Block}, NodesP P ns → cutBlocks k ns = ok bs → BlocksP P bs
  | k, [], bs, _, h => by
    have : bs = [] := by cases k <;> · rw [cutBlocks, ok_inj] at h; exact h.symm
    rw [this]; exact blocksP_nil
  | 0, _ :: _, _, _, h => by cases h
  | k + 1, n :: ns, bs, hn, h => by
    rw [cutBlocks] at h
    split at h
    · cases h
    · simp only [bind_eq_ok, pure_eq, ok_inj] at h
      obtain ⟨cs, hcs, rfl⟩ := h
      rw [nodesP_cons] at hn
      refine blocksP_cons.2 ⟨?_, cutBlocks_blocksP k (fun x hx => hn.2 x (List.mem_of_mem_drop hx)) hcs⟩
      exact nodesP_cons.2 ⟨hn.1, fun x hx => hn.2 x (List.mem_of_mem_take hx)⟩

variable (hq : ∀ (n : Node) (q : Rat32), P n → P { n with q := q })

include hq

theorem scale_nodes {q : Rat32} {b c : Block} (hb : NodesP P b.flat) (h : b.scale q = ok c) : NodesP P c.flat := by
  unfold Block.scale at h
  simp only [bind_eq_ok, pure_eq, ok_inj] at h
  obtain ⟨q', _, rfl⟩ := h
  unfold Block.flat at hb ⊢
  rw [nodesP_cons] at hb ⊢
  exact ⟨hq _ _ hb.1, hb.2⟩

theorem scaleAll_nodes {q : Rat32} : ∀ {bs cs : List Block}, BlocksP P bs → mapO (Block.scale q) bs = ok cs → BlocksP P cs
  | [], cs, _, h => by rw [mapO_nil_ok.1 h]; exact blocksP_nil
  | b :: bs, cs, hb, h => by
    obtain ⟨y, ys, h1, h2, rfl⟩ := mapO_cons_ok.1 h
    rw [blocksP_cons] at hb
    exact blocksP_cons.2 ⟨scale_nodes hq hb.1 h1, scaleAll_nodes hb.2 h2⟩

variable (hc : ∀ n : Node, n.o < 11 → n.o ≠ Op.id → P n)

include hc

theorem mergeSums_nodes {lq rq : Rat32} : ∀ (k : Nat) {ls rs bs : List Block}, BlocksP P ls → BlocksP P rs → mergeSums lq rq k ls rs = ok bs →
    BlocksP P bs
  | k, [], rs, bs, _, hr, h => by
    rw [mergeSums] at h
    exact scaleAll_nodes hq hr h
  | k, l :: ls, [], bs, hl, _, h => by
    rw [mergeSums] at h
    exact scaleAll_nodes hq hl h
  | 0, _ :: _, _ :: _, _, _, _, h => by cases h
  | k + 1, l :: ls, r :: rs, bs, hl, hr, h => by
    rw [mergeSums] at h
    have hl' := blocksP_cons.1 hl
    have hr' := blocksP_cons.1 hr
    split at h
    · simp only [bind_eq_ok] at h
      obtain ⟨x, _, y, _, q, _, out, ho, h⟩ := h
      have ih := mergeSums_nodes k hl'.2 hr'.2 ho
      split at h
      · rw [pure_eq, ok_inj] at h; subst h; exact ih
      · rw [pure_eq, ok_inj] at h; subst h
        refine blocksP_cons.2 ⟨nodesP_cons.2 ⟨hc _ (by show Op.se < 11; decide) (by show ¬ Op.se = Op.id; decide), ?_⟩, ih⟩
        exact (nodesP_cons.1 hl'.1).2
    · split at h
      · simp only [bind_eq_ok, pure_eq, ok_inj] at h
        obtain ⟨b, hb, out, ho, rfl⟩ := h
        exact blocksP_cons.2 ⟨scale_nodes hq hl'.1 hb, mergeSums_nodes k hl'.2 hr ho⟩
      · simp only [bind_eq_ok, pure_eq, ok_inj] at h
        obtain ⟨b, hb, out, ho, rfl⟩ := h
        exact blocksP_cons.2 ⟨scale_nodes hq hr'.1 hb, mergeSums_nodes k hl hr'.2 ho⟩

omit hc in
theorem mergeTerm_nodes {sq : Rat32} {x : Block} (hx : NodesP P x.flat) : ∀ {bs cs : List Block}, BlocksP P bs → mergeTerm sq x bs = ok cs →
    BlocksP P cs
  | [], cs, _, h => by
    rw [mergeTerm, ok_inj] at h; subst h
    exact blocksP_cons.2 ⟨hx, blocksP_nil⟩
  | b :: bs, cs, hb, h => by
    rw [mergeTerm] at h
    have hb' := blocksP_cons.1 hb
    split at h
    · simp only [bind_eq_ok] at h
      obtain ⟨_, _, q, _, rest, hr, h⟩ := h
      have ih := scaleAll_nodes hq hb'.2 hr
      split at h
      · rw [pure_eq, ok_inj] at h; subst h; exact ih
      · rw [pure_eq, ok_inj] at h; subst h
        refine blocksP_cons.2 ⟨?_, ih⟩
        have := nodesP_cons.1 hx
        exact nodesP_cons.2 ⟨hq _ _ this.1, this.2⟩
    · split at h
      · simp only [bind_eq_ok, pure_eq, ok_inj] at h
        obtain ⟨rest, hr, rfl⟩ := h
        exact blocksP_cons.2 ⟨hx, scaleAll_nodes hq hb hr⟩
      · simp only [bind_eq_ok, pure_eq, ok_inj] at h
        obtain ⟨b', hb1, rest, hr, rfl⟩ := h
        exact blocksP_cons.2 ⟨scale_nodes hq hb'.1 hb1, mergeTerm_nodes hx hb'.2 hr⟩

omit hq

theorem finishSum_nodes {bs : List Block} (h : BlocksP P bs) : NodesP P (finishSum bs).nodes := by
  have flat : NodesP P (flatBlocks bs) := by
    intro n hn
    obtain ⟨b, hb, hn⟩ := List.mem_flatMap.1 hn
    exact h b hb n hn
  have sum : ∀ c k q, P ⟨Op.sum, c, k, q⟩ := fun _ _ _ => hc _ (by show Op.sum < 11; decide) (by show ¬ Op.sum = Op.id; decide)
  match bs, h, flat with
  | [], _, _ => exact nodesP_one.2 (sum _ _ _)
  | [b], h, _ => exact (nodesP_cons.1 (h b (by simp))).2
  | b :: c :: bs, _, flat => exact nodesP_append.2 ⟨flat, nodesP_one.2 (sum _ _ _)⟩

theorem asBlock_nodes {e : Rpne} {b : Block} (h : NodesP P e.nodes) (hb : asBlock e = ok b) : NodesP P b.flat := by
  unfold asBlock at hb
  simp only [bind_eq_ok, pure_eq, ok_inj] at hb
  obtain ⟨c, _, rfl⟩ := hb
  exact nodesP_cons.2 ⟨hc _ (by show Op.se < 11; decide) (by show ¬ Op.se = Op.id; decide), h⟩

include hq

theorem addExpr_nodes {l r e : Rpne} (hl : NodesP P l.nodes) (hr : NodesP P r.nodes) (he : addExpr l r = ok e) : NodesP P e.nodes := by
  have cut : ∀ {x : Rpne} {bs : List Block}, NodesP P x.nodes → summands x = ok bs → BlocksP P bs :=
    fun h hb => cutBlocks_blocksP _ (nodesP_dropLast h) hb
  unfold addExpr at he
  split at he
  · rw [ok_inj] at he; subst he; exact hr
  split at he
  · rw [ok_inj] at he; subst he; exact hl
  simp only [bind_eq_ok] at he
  obtain ⟨lb, _, rb, _, he⟩ := he
  split at he
  · split at he
    · simp only [bind_eq_ok, pure_eq, ok_inj] at he
      obtain ⟨ls, h1, rs, h2, bs, h3, rfl⟩ := he
      exact finishSum_nodes hc (mergeSums_nodes hq hc _ (cut hl h1) (cut hr h2) h3)
    · simp only [bind_eq_ok, pure_eq, ok_inj] at he
      obtain ⟨ls, h1, b, h2, bs, h3, rfl⟩ := he
      exact finishSum_nodes hc (mergeTerm_nodes hq (asBlock_nodes hc hr h2) (cut hl h1) h3)
  · split at he
    · simp only [bind_eq_ok, pure_eq, ok_inj] at he
      obtain ⟨rs, h1, b, h2, bs, h3, rfl⟩ := he
      exact finishSum_nodes hc (mergeTerm_nodes hq (asBlock_nodes hc hl h2) (cut hr h1) h3)
    · split at he
      · simp only [bind_eq_ok] at he
        obtain ⟨q, _, he⟩ := he
        split at he
        · rw [pure_eq, ok_inj] at he; subst he; exact nodesP_nil
        · rw [pure_eq, ok_inj] at he; subst he; exact hl
      · simp only [bind_eq_ok] at he
        obtain ⟨x, hx, y, hy, he⟩ := he
        have bx := asBlock_nodes hc hl hx
        have by' := asBlock_nodes hc hr hy
        split at he
        · rw [pure_eq, ok_inj] at he; subst he
          exact finishSum_nodes hc (blocksP_cons.2 ⟨bx, blocksP_cons.2 ⟨by', blocksP_nil⟩⟩)
        · rw [pure_eq, ok_inj] at he; subst he
          exact finishSum_nodes hc (blocksP_cons.2 ⟨by', blocksP_cons.2 ⟨bx, blocksP_nil⟩⟩)

omit hq hc

theorem negExpr_nodes {e e' : Rpne} (h : NodesP P e.nodes) (he : negExpr e = ok e') : NodesP P e'.nodes := by
  unfold negExpr at he
  split at he
  · rw [ok_inj] at he; subst he; exact h
  · simp only [bind_eq_ok, pure_eq, ok_inj] at he
    obtain ⟨_, _, rfl⟩ := he; exact h

include hc

theorem appendOp_nodes {ns ms : List Node} {o : Nat} (h : NodesP P ns) (h1 : o < 11) (h2 : o ≠ Op.id) (he : appendOp ns o = ok ms) : NodesP P ms := by
  obtain ⟨c, rfl⟩ := appendOp_ok he
  exact nodesP_append.2 ⟨h, nodesP_one.2 (hc _ h1 h2)⟩

theorem revExpr_nodes {e e' : Rpne} (h : NodesP P e.nodes) (he : revExpr e = ok e') : NodesP P e'.nodes := by
  unfold revExpr at he
  split at he
  · rw [ok_inj] at he; subst he; exact nodesP_nil
  · simp only [bind_eq_ok] at he
    obtain ⟨b, _, he⟩ := he
    split at he
    · rw [pure_eq, ok_inj] at he; subst he; exact nodesP_dropLast h
    · simp only [bind_eq_ok, pure_eq, ok_inj] at he
      obtain ⟨_, h1, rfl⟩ := he
      exact appendOp_nodes hc h (by decide) (by decide) h1

theorem dualExpr_nodes {e e' : Rpne} (h : NodesP P e.nodes) (he : dualExpr e = ok e') : NodesP P e'.nodes := by
  unfold dualExpr at he
  split at he
  · rw [ok_inj] at he; subst he; exact nodesP_nil
  · simp only [bind_eq_ok, pure_eq, ok_inj] at he
    obtain ⟨_, h1, rfl⟩ := he
    exact appendOp_nodes hc h (by decide) (by decide) h1

theorem productExpr_nodes {o c : Nat} {l r e : Rpne} {x y : List Node} (hx : NodesP P x) (hy : NodesP P y) (h1 : o < 11) (h2 : o ≠ Op.id)
    (he : productExpr o l r x y c = ok e) : NodesP P e.nodes := by
  unfold productExpr at he
  simp only [bind_eq_ok] at he
  obtain ⟨q, _, he⟩ := he
  split at he
  · rw [pure_eq, ok_inj] at he; subst he; exact nodesP_nil
  · simp only [bind_eq_ok, pure_eq, ok_inj] at he
    obtain ⟨_, _, rfl⟩ := he
    exact nodesP_append.2 ⟨nodesP_append.2 ⟨hx, hy⟩, nodesP_one.2 (hc _ h1 h2)⟩

theorem gpExpr_nodes {l r e : Rpne} (hl : NodesP P l.nodes) (hr : NodesP P r.nodes) (he : gpExpr l r = ok e) : NodesP P e.nodes := by
  unfold gpExpr at he
  split at he
  · rw [ok_inj] at he; subst he; exact hr
  split at he
  · rw [ok_inj] at he; subst he; exact hl
  simp only [bind_eq_ok] at he
  obtain ⟨_, _, _, _, he⟩ := he
  exact productExpr_nodes hc hl hr (by decide) (by decide) he

theorem lcExpr_nodes {l r e : Rpne} (hl : NodesP P l.nodes) (hr : NodesP P r.nodes) (he : lcExpr l r = ok e) : NodesP P e.nodes := by
  unfold lcExpr at he
  split at he
  · rw [ok_inj] at he; subst he; exact hr
  split at he
  · rw [ok_inj] at he; subst he; exact hl
  simp only [bind_eq_ok] at he
  obtain ⟨_, _, _, _, he⟩ := he
  exact productExpr_nodes hc hl hr (by decide) (by decide) he

theorem sipExpr_nodes {l r e : Rpne} (hl : NodesP P l.nodes) (hr : NodesP P r.nodes) (he : sipExpr l r = ok e) : NodesP P e.nodes := by
  unfold sipExpr at he
  split at he
  · rw [ok_inj] at he; subst he; exact hr
  split at he
  · rw [ok_inj] at he; subst he; exact hl
  simp only [bind_eq_ok] at he
  obtain ⟨_, _, _, _, he⟩ := he
  split at he
  · exact productExpr_nodes hc hl hr (by decide) (by decide) he
  · exact productExpr_nodes hc hr hl (by decide) (by decide) he

theorem factorNodes_nodes {e : Rpne} {ns : List Node} (h : NodesP P e.nodes) (he : factorNodes e = ok ns) : NodesP P ns := by
  unfold factorNodes at he
  simp only [bind_eq_ok, pure_eq, ok_inj] at he
  obtain ⟨_, _, rfl⟩ := he
  exact nodesP_cons.2 ⟨hc _ (by show Op.se < 11; decide) (by show ¬ Op.se = Op.id; decide), h⟩

theorem epExpr_nodes {l r e : Rpne} (hl : NodesP P l.nodes) (hr : NodesP P r.nodes) (he : epExpr l r = ok e) : NodesP P e.nodes := by
  have fin : ∀ {ns : List Node} {k : Nat} {q : Rat32}, NodesP P ns → NodesP P (finishEp ns k q).nodes := fun h =>
    nodesP_append.2 ⟨h, nodesP_one.2 (hc _ (by show Op.ep < 11; decide) (by show ¬ Op.ep = Op.id; decide))⟩
  unfold epExpr at he
  split at he
  · rw [ok_inj] at he; subst he; exact nodesP_nil
  simp only [bind_eq_ok] at he
  obtain ⟨_, _, _, _, he⟩ := he
  split at he
  · split at he
    · rw [pure_eq, ok_inj] at he; subst he
      exact fin (nodesP_append.2 ⟨nodesP_dropLast hl, nodesP_dropLast hr⟩)
    · simp only [bind_eq_ok, pure_eq, ok_inj] at he
      obtain ⟨f, hf, rfl⟩ := he
      exact fin (nodesP_append.2 ⟨nodesP_dropLast hl, factorNodes_nodes hc hr hf⟩)
  · split at he
    · simp only [bind_eq_ok, pure_eq, ok_inj] at he
      obtain ⟨f, hf, rfl⟩ := he
      exact fin (nodesP_append.2 ⟨factorNodes_nodes hc hl hf, nodesP_dropLast hr⟩)
    · simp only [bind_eq_ok, pure_eq, ok_inj] at he
      obtain ⟨f, hf, g, hg, q, _, rfl⟩ := he
      exact fin (nodesP_append.2 ⟨factorNodes_nodes hc hl hf, factorNodes_nodes hc hr hg⟩)

omit hc in
theorem lastq_nodes {ns ms : List Node} {o : Nat} {q : Rat32} (h : NodesP P ns) (hm : appendOp ns o = ok ms) (hn : ∀ c k q, P ⟨o, c, k, q⟩) :
    NodesP P (ms.dropLast ++ ms.getLast?.toList.map fun d => { d with q := q }) := by
  obtain ⟨c, rfl⟩ := appendOp_ok hm
  rw [List.dropLast_concat, List.getLast?_concat]
  exact nodesP_append.2 ⟨h, nodesP_one.2 (hn _ _ _)⟩

include hq

/-- The nodes of the expression a lambda builds are operators, or stand for the parameters, constants and selections in it. -/
theorem build_nodes {el gr : Nat → Prop} {quot : Prop} {nargs nc : Nat} {off : Nat → Nat}
    (harg : ∀ k, k < nargs → P ⟨Op.id, off k, k, ⟨0, 0⟩⟩) (hpi : 0 < nc → P ⟨Op.cpi, Op.cpi, 0, ⟨0, 0⟩⟩) (h0 : el 0)
    (helem : ∀ g, el g → P ⟨Op.cscalar + g, Op.cscalar + g, 0, ⟨0, 0⟩⟩) (hcomp : ∀ c g, el g → P ⟨Op.comp, c, g, ⟨0, 0⟩⟩)
    (hgrd : ∀ c g, gr g → P ⟨Op.grd, c, g, ⟨0, 0⟩⟩)
    (hquot : quot → ∀ o c k q, (o = Op.div ∨ o = Op.sqrt ∨ o = Op.sin ∨ o = Op.cos ∨ o = Op.tan) → P ⟨o, c, k, q⟩) :
    ∀ (f : Lam) {e : Rpne}, f.Parts el gr quot nargs nc → f.build off = ok e → NodesP P e.nodes
  | .arg k, e, h, he => by
    rw [Lam.build, ok_inj] at he; subst he
    exact nodesP_one.2 (harg k h)
  | .num n d, e, _, he => by
    rw [Lam.build, ok_inj] at he; subst he
    exact nodesP_one.2 (helem 0 h0)
  | .pi n d, e, h, he => by
    simp only [Lam.build, bind_eq_ok, ok_inj] at he
    obtain ⟨_, _, rfl⟩ := he
    exact nodesP_one.2 (hpi h)
  | .elem g n, e, h, he => by
    rw [Lam.build, ok_inj] at he; subst he
    exact nodesP_one.2 (helem g h)
  | .scale n a, e, h, he => by
    simp only [Lam.build, bind_eq_ok] at he
    obtain ⟨x, hx, he⟩ := he
    have ih := build_nodes harg hpi h0 helem hcomp hgrd hquot a h hx
    unfold imulExpr at he
    split at he
    · rw [ok_inj] at he; subst he; exact nodesP_nil
    · simp only [bind_eq_ok, pure_eq, ok_inj] at he
      obtain ⟨_, _, rfl⟩ := he; exact ih
  | .divInt a d, e, h, he => by
    simp only [Lam.build, bind_eq_ok] at he
    obtain ⟨x, hx, he⟩ := he
    have ih := build_nodes harg hpi h0 helem hcomp hgrd hquot a h hx
    unfold divIntExpr at he
    split at he
    · rw [ok_inj] at he; subst he; exact ih
    · simp only [bind_eq_ok, pure_eq, ok_inj] at he
      obtain ⟨_, _, rfl⟩ := he; exact ih
  | .neg a, e, h, he => by
    simp only [Lam.build, bind_eq_ok] at he
    obtain ⟨x, hx, he⟩ := he
    exact negExpr_nodes (build_nodes harg hpi h0 helem hcomp hgrd hquot a h hx) he
  | .rev a, e, h, he => by
    simp only [Lam.build, bind_eq_ok] at he
    obtain ⟨x, hx, he⟩ := he
    exact revExpr_nodes hc (build_nodes harg hpi h0 helem hcomp hgrd hquot a h hx) he
  | .dual a, e, h, he => by
    simp only [Lam.build, bind_eq_ok] at he
    obtain ⟨x, hx, he⟩ := he
    exact dualExpr_nodes hc (build_nodes harg hpi h0 helem hcomp hgrd hquot a h hx) he
  | .comp a g, e, h, he => by
    simp only [Lam.build, compExpr, bind_eq_ok, pure_eq, ok_inj] at he
    obtain ⟨x, hx, _, _, rfl⟩ := he
    exact nodesP_append.2 ⟨build_nodes harg hpi h0 helem hcomp hgrd hquot a h.2 hx, nodesP_one.2 (hcomp _ _ h.1)⟩
  | .grade a g, e, h, he => by
    simp only [Lam.build, gradeExpr, bind_eq_ok, pure_eq, ok_inj] at he
    obtain ⟨x, hx, _, _, rfl⟩ := he
    exact nodesP_append.2 ⟨build_nodes harg hpi h0 helem hcomp hgrd hquot a h.2 hx, nodesP_one.2 (hgrd _ _ h.1)⟩
  | .fn o a, e, h, he => by
    simp only [Lam.build, funExpr, bind_eq_ok, pure_eq, ok_inj] at he
    obtain ⟨x, hx, ns, hn, rfl⟩ := he
    exact lastq_nodes (build_nodes harg hpi h0 helem hcomp hgrd hquot a h.2 hx) hn (fun c k q => hquot h.1.1 _ _ _ _ (Or.inr h.1.2))
  | .add a b, e, h, he => by
    simp only [Lam.build, bind_eq_ok] at he
    obtain ⟨x, hx, y, hy, he⟩ := he
    exact addExpr_nodes hq hc (build_nodes harg hpi h0 helem hcomp hgrd hquot a h.1 hx) (build_nodes harg hpi h0 helem hcomp hgrd hquot b h.2 hy) he
  | .sub a b, e, h, he => by
    simp only [Lam.build, subExpr, bind_eq_ok] at he
    obtain ⟨x, hx, y, hy, z, hz, he⟩ := he
    exact addExpr_nodes hq hc (build_nodes harg hpi h0 helem hcomp hgrd hquot a h.1 hx) (negExpr_nodes (build_nodes harg hpi h0 helem hcomp hgrd hquot b h.2 hy) hz) he
  | .addInt n a, e, h, he => by
    simp only [Lam.build, addIntExpr, bind_eq_ok] at he
    obtain ⟨x, hx, he⟩ := he
    exact addExpr_nodes hq hc (nodesP_one.2 (helem 0 h0)) (build_nodes harg hpi h0 helem hcomp hgrd hquot a h hx) he
  | .intSub n a, e, h, he => by
    simp only [Lam.build, intSubExpr, bind_eq_ok] at he
    obtain ⟨x, hx, y, hy, he⟩ := he
    exact addExpr_nodes hq hc (nodesP_one.2 (helem 0 h0)) (negExpr_nodes (build_nodes harg hpi h0 helem hcomp hgrd hquot a h hx) hy) he
  | .subInt a n, e, h, he => by
    simp only [Lam.build, subIntExpr, bind_eq_ok] at he
    obtain ⟨x, hx, m, _, he⟩ := he
    exact addExpr_nodes hq hc (nodesP_one.2 (helem 0 h0)) (build_nodes harg hpi h0 helem hcomp hgrd hquot a h hx) he
  | .gp a b, e, h, he => by
    simp only [Lam.build, bind_eq_ok] at he
    obtain ⟨x, hx, y, hy, he⟩ := he
    exact gpExpr_nodes hc (build_nodes harg hpi h0 helem hcomp hgrd hquot a h.1 hx) (build_nodes harg hpi h0 helem hcomp hgrd hquot b h.2 hy) he
  | .lc a b, e, h, he => by
    simp only [Lam.build, bind_eq_ok] at he
    obtain ⟨x, hx, y, hy, he⟩ := he
    exact lcExpr_nodes hc (build_nodes harg hpi h0 helem hcomp hgrd hquot a h.1 hx) (build_nodes harg hpi h0 helem hcomp hgrd hquot b h.2 hy) he
  | .sip a b, e, h, he => by
    simp only [Lam.build, bind_eq_ok] at he
    obtain ⟨x, hx, y, hy, he⟩ := he
    exact sipExpr_nodes hc (build_nodes harg hpi h0 helem hcomp hgrd hquot a h.1 hx) (build_nodes harg hpi h0 helem hcomp hgrd hquot b h.2 hy) he
  | .ep a b, e, h, he => by
    simp only [Lam.build, bind_eq_ok] at he
    obtain ⟨x, hx, y, hy, he⟩ := he
    exact epExpr_nodes hc (build_nodes harg hpi h0 helem hcomp hgrd hquot a h.1 hx) (build_nodes harg hpi h0 helem hcomp hgrd hquot b h.2 hy) he
  | .join a b, e, h, he => by
    simp only [Lam.build, joinExpr, bind_eq_ok] at he
    obtain ⟨x, hx, y, hy, x', hx', y', hy', z, hz, he⟩ := he
    exact dualExpr_nodes hc (epExpr_nodes hc (dualExpr_nodes hc (build_nodes harg hpi h0 helem hcomp hgrd hquot a h.1 hx) hx')
      (dualExpr_nodes hc (build_nodes harg hpi h0 helem hcomp hgrd hquot b h.2 hy) hy') hz) he
  | .sandwich a b, e, h, he => by
    simp only [Lam.build, sandwichExpr, bind_eq_ok] at he
    obtain ⟨x, hx, y, hy, z, hz, u, hu, he⟩ := he
    have nx := build_nodes harg hpi h0 helem hcomp hgrd hquot a h.1 hx
    have ny := build_nodes harg hpi h0 helem hcomp hgrd hquot b h.2 hy
    exact gpExpr_nodes hc (gpExpr_nodes hc ny nx hz) (revExpr_nodes hc ny hu) he
  | .sprod a b, e, h, he => by
    simp only [Lam.build, bind_eq_ok] at he
    obtain ⟨x, hx, y, hy, he⟩ := he
    have nx := build_nodes harg hpi h0 helem hcomp hgrd hquot a h.1 hx
    have ny := build_nodes harg hpi h0 helem hcomp hgrd hquot b h.2 hy
    unfold scalarProductExpr at he
    split at he
    · rw [ok_inj] at he; subst he; exact ny
    split at he
    · rw [ok_inj] at he; subst he; exact nx
    simp only [bind_eq_ok] at he
    obtain ⟨z, hz, he⟩ := he
    have nz := sipExpr_nodes hc nx ny hz
    split at he
    · rw [pure_eq, ok_inj] at he; subst he; exact nz
    · simp only [bind_eq_ok, pure_eq, ok_inj] at he
      obtain ⟨_, _, rfl⟩ := he
      exact nodesP_append.2 ⟨nz, nodesP_one.2 (hcomp _ _ h0)⟩
  | .div a b, e, h, he => by
    simp only [Lam.build, divExpr, bind_eq_ok, pure_eq, ok_inj] at he
    obtain ⟨x, hx, y, hy, ns, hn, q, _, rfl⟩ := he
    exact lastq_nodes (nodesP_append.2 ⟨build_nodes harg hpi h0 helem hcomp hgrd hquot a h.2.1 hx, build_nodes harg hpi h0 helem hcomp hgrd hquot b h.2.2 hy⟩)
      hn (fun c k q => hquot h.1 _ _ _ _ (Or.inl rfl))
  | .inv a, e, h, he => by
    simp only [Lam.build, intDivExpr, bind_eq_ok, pure_eq, ok_inj] at he
    obtain ⟨x, hx, ns, hn, rfl⟩ := he
    exact lastq_nodes (nodesP_append.2 ⟨nodesP_one.2 (helem 0 h0), build_nodes harg hpi h0 helem hcomp hgrd hquot a h.2 hx⟩)
      hn (fun c k q => hquot h.1 _ _ _ _ (Or.inl rfl))

end

/-! ## C53 -/

variable {K : Type} [Field K]

theorem parts_of_inRange {dim nargs nc : Nat} : ∀ f : Lam, f.InRange dim nargs nc → f.Parts (· < 2 ^ dim) (GradeSafe dim) False nargs nc
  | .arg _, h | .pi _ _, h | .elem _ _, h => h
  | .num _ _, _ => trivial
  | .scale _ a, h | .divInt a _, h | .neg a, h | .rev a, h | .dual a, h | .addInt _ a, h | .intSub _ a, h | .subInt a _, h => parts_of_inRange a h
  | .comp a _, h | .grade a _, h => ⟨h.1, parts_of_inRange a h.2⟩
  | .add a b, h | .sub a b, h | .gp a b, h | .lc a b, h | .sip a b, h | .ep a b, h | .join a b, h | .sandwich a b, h | .sprod a b, h =>
    ⟨parts_of_inRange a h.1, parts_of_inRange b h.2⟩
  | .fn _ _, h | .div _ _, h | .inv _, h => h.elim

theorem plain_element {dim nc g : Nat} (hg : g < 2 ^ dim) : Plain dim nc ⟨Op.cscalar + g, Op.cscalar + g, 0, ⟨0, 0⟩⟩ := by
  refine ⟨fun _ => Or.inr (Or.inr ⟨by simp, by simpa using hg⟩), fun h => ?_, fun h => ?_, ?_, ?_⟩
  · simp only [Op.cscalar, Op.comp] at h; omega
  · simp only [Op.cscalar, Op.grd] at h; omega
  · simp only [Op.cscalar, Op.div, ne_eq]; omega
  · simp only [IsFun, Op.cscalar, Op.sqrt, Op.sin, Op.cos, Op.tan]; omega

theorem plain_pi {dim nc : Nat} (h0 : 0 < nc) : Plain dim nc ⟨Op.cpi, Op.cpi, 0, ⟨0, 0⟩⟩ :=
  ⟨fun _ => Or.inr (Or.inl ⟨by decide, by simpa using h0⟩), fun h => by simp [Op.cpi, Op.comp] at h, fun h => by simp [Op.cpi, Op.grd] at h,
    by simp [Op.cpi, Op.div], by simp [IsFun, Op.cpi, Op.sqrt, Op.sin, Op.cos, Op.tan]⟩

theorem plain_comp {dim nc c g : Nat} (hg : g < 2 ^ dim) : Plain dim nc ⟨Op.comp, c, g, ⟨0, 0⟩⟩ := by
  refine ⟨fun h => ?_, fun _ => hg, fun h => ?_, ?_, ?_⟩
  · simp [Op.czero, Op.comp] at h
  · simp [Op.comp, Op.grd] at h
  · simp [Op.comp, Op.div]
  · simp [IsFun, Op.comp, Op.sqrt, Op.sin, Op.cos, Op.tan]

theorem plain_grade {dim nc c g : Nat} (hg : GradeSafe dim g) : Plain dim nc ⟨Op.grd, c, g, ⟨0, 0⟩⟩ := by
  refine ⟨fun h => ?_, fun h => ?_, fun _ => hg, ?_, ?_⟩
  · simp [Op.czero, Op.grd] at h
  · simp [Op.comp, Op.grd] at h
  · simp [Op.grd, Op.div]
  · simp [IsFun, Op.grd, Op.sqrt, Op.sin, Op.cos, Op.tan]

omit [Field K] in
theorem build_supported {dim nc : Nat} {args : List (Arg K)} {f : Lam} {e : Rpne} (hf : f.InRange dim args.length nc)
    (he : f.build (argOffset args) = ok e) : Supported dim nc args e := by
  refine build_nodes (P := fun n => Plain dim nc n ∧ ArgNode args n) ?_ ?_ ?_ ?_ (Nat.two_pow_pos _) ?_ ?_ ?_ False.elim f (parts_of_inRange f hf) he
  · exact fun n q h => ⟨⟨h.1.const, h.1.comp, h.1.grd, h.1.div, h.1.fn⟩, h.2⟩
  · exact fun n h1 h2 => ⟨plain_of_lt h1, fun h => absurd h h2⟩
  · exact fun k hk => ⟨plain_of_lt (by show Op.id < 11; decide), fun _ => ⟨hk, rfl⟩⟩
  · exact fun h => ⟨plain_pi h, fun h => by simp [Op.cpi, Op.id] at h⟩
  · exact fun g hg => ⟨plain_element hg, fun h => by simp only [Op.cscalar, Op.id] at h; omega⟩
  · exact fun c g hg => ⟨plain_comp hg, fun h => by simp [Op.comp, Op.id] at h⟩
  · exact fun c g hg => ⟨plain_grade hg, fun h => by simp [Op.grd, Op.id] at h⟩

/-! ## Checks -/

theorem sharedOp_iff {o : Nat} : sharedOp o = true ↔ IsShared o := by
  unfold sharedOp IsShared IsFun IsBin IsPoly
  simp only [List.contains_eq_mem, List.mem_cons, List.not_mem_nil, or_false, decide_eq_true_eq]
  tauto

theorem noRepeat_sound : ∀ {ns : List Node}, noRepeat ns = true → ∀ (p q : Nat) (a b : Node), ns[p]? = some a → ns[q]? = some b → IsShared a.o →
    a.o = b.o → a.checksum = b.checksum → a.ex = b.ex → p = q
  | [], _, p, _, a, _, h, _, _, _, _, _ => by simp at h
  | n :: ns, hr, p, q, a, b, ha, hb, hs, ho, hc, he => by
    simp only [noRepeat, Bool.and_eq_true] at hr
    have diff : ∀ {x y : Node}, x = n → y ∈ ns → IsShared x.o → x.o = y.o → x.checksum = y.checksum → x.ex = y.ex → False := by
      rintro x y rfl hy h1 h2 h3 h4
      have := List.all_eq_true.1 hr.1 y hy
      rw [sharedOp_iff.2 h1, Node.same, h2, h3, h4] at this
      simp at this
    match p, q with
    | 0, 0 => rfl
    | 0, q + 1 =>
      rw [List.getElem?_cons_zero, Option.some.injEq] at ha
      rw [List.getElem?_cons_succ] at hb
      exact (diff ha.symm (List.mem_of_getElem? hb) hs ho hc he).elim
    | p + 1, 0 =>
      rw [List.getElem?_cons_zero, Option.some.injEq] at hb
      rw [List.getElem?_cons_succ] at ha
      exact (diff hb.symm (List.mem_of_getElem? ha) (ho ▸ hs) ho.symm hc.symm he.symm).elim
    | p + 1, q + 1 =>
      rw [List.getElem?_cons_succ] at ha hb
      rw [noRepeat_sound hr.2 p q a b ha hb hs ho hc he]

theorem factorsAgree_sound {ns : List Node} (h : factorsAgree ns = true) : ∀ a ∈ ns, ∀ b ∈ ns, a.same b = true → a.q = b.q := by
  intro a ha b hb hab
  have := List.all_eq_true.1 (List.all_eq_true.1 h a ha) b hb
  rw [hab] at this
  simpa using this

/-- A regular, checked expression is evaluated to its value. -/
theorem shareable_compute [CharZero K] (m : Metric) (hm : m.dim ≤ 8) (E : Env K) (args : List (Arg K))
    {w : Nat → CliffordAlgebra (diagForm K m.dim m.sq)}
    (hw : ∀ (k : Nat) (a : Arg K), args[k]? = some a → a.Denotes m.dim m.sq (argOffset args k) (w k))
    {D : CliffordAlgebra (diagForm K m.dim m.sq) →ₗ[K] CliffordAlgebra (diagForm K m.dim m.sq)} (hD : IsDual K m.dim m.sq D)
    {e : Rpne} {v : CliffordAlgebra (diagForm K m.dim m.sq)}
    (he : Means (cliffInterp K m.dim m.sq (fun k => E.consts.getD k 0) D w) e v) (hp : Supported m.dim E.consts.length args e)
    {cap : Nat} (hcap : cap < 2 ^ 64) (hs : shareable cap e = true)
    {c : Compiled} (hc : compileExpr m false cap args e = ok c) (hi : c.state.nextId ≤ indConstantStart) :
    ∃ x, runCompiled m false E args c = ok [x] ∧ x.Denotes m.dim m.sq v := by
  simp only [shareable, Bool.or_eq_true, Bool.and_eq_true] at hs
  rcases hs with hs | ⟨h1, h2⟩
  · exact C45_distinct_partial m hm E args hw hD he hp (noRepeat_sound hs) hcap hc hi
  · have hc' := hc
    obtain ⟨-, _, hr', _⟩ := compileExpr_eq_ok.1 hc'
    simp only [reshape, bind_eq_ok] at hr'
    obtain ⟨⟨known, out⟩, hraw, _⟩ := hr'
    refine C45_shared_partial m hm E args hw hD he hp (factorsAgree_sound h1) hcap hraw (refsEmitted_of_check (x := reshapeRaw cap e) ?_ hraw) hc hi
    unfold refsCheck
    rw [hraw] at h2 ⊢
    exact h2

/-- **C53.**  `compute(f, args...)` for a lambda `f` that passes the check for the types of the arguments returns, for all coefficients, the value
of `f`: every operator in `f` means the operation of the Clifford algebra. -/
theorem C53_compute_partial {L : Type} [CharZero K] (m : Metric) (hm : m.dim ≤ 8) (E : Env K) (args : List (Arg K))
    {w : Nat → CliffordAlgebra (diagForm K m.dim m.sq)}
    (hw : ∀ (k : Nat) (a : Arg K), args[k]? = some a → a.Denotes m.dim m.sq (argOffset args k) (w k))
    {D : CliffordAlgebra (diagForm K m.dim m.sq) →ₗ[K] CliffordAlgebra (diagForm K m.dim m.sq)} (hD : IsDual K m.dim m.sq D)
    (f : Lam) (ho : f.Ordered (cliffInterp K m.dim m.sq (fun k => E.consts.getD k 0) D w) (argOffset args)) (hr : f.InRange m.dim args.length E.consts.length)
    {args' : List (Arg L)} (ht : args.map (fun a => (a.ie, a.data.length)) = args'.map fun a => (a.ie, a.data.length))
    (hcap : f.cap < 2 ^ 64) (hk : f.check m args' = true) :
    ∃ x, f.compute m false E args = ok [x] ∧
      x.Denotes m.dim m.sq (f.val (cliffInterp K m.dim m.sq (fun k => E.consts.getD k 0) D w) (argOffset args)) := by
  have hoff : argOffset args' = argOffset args := by
    funext k
    have := congrArg (fun l => ((l.take k).map Prod.snd).sum) ht
    simp only [← List.map_take, List.map_map] at this
    exact this.symm
  unfold Lam.check at hk
  rw [hoff] at hk
  match he : f.build (argOffset args) with
  | .ub => rw [he] at hk; cases hk
  | .val e true => rw [he] at hk; cases hk
  | .val e false =>
    rw [he] at hk
    simp only [Bool.and_eq_true] at hk
    obtain ⟨⟨h1, h2⟩, h3⟩ := hk
    match hc : compileExpr m false f.cap args' e with
    | .ub => rw [hc] at h3; cases h3
    | .val c true => rw [hc] at h3; cases h3
    | .val c false =>
      rw [hc] at h3
      rw [← compile_types ht] at hc
      obtain ⟨x, x1, x2⟩ := shareable_compute m hm E args hw hD (C53_value_partial _ _ f h1 ho he) (build_supported hr he) hcap h2 hc
        (by simpa using h3)
      refine ⟨x, ?_, x2⟩
      have he' : f.build (argOffset args) = ok e := he
      have hc' : compileExpr m false f.cap args e = ok c := hc
      unfold Lam.compute computeExpr
      rw [he', ok_bind, hc', ok_bind, x1]

end Gal
