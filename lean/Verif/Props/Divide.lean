import Verif.Props.Laws

/-!
# Property C24: division of multivectors by a monomial
-/

namespace Gal

open Out

/-- C24: dividing by a constant. Multiplying the value back by the divisor gives `q` times the value of the operand. -/
theorem C24_constant {a b r : Mv} {na : NMv} {m : Mon} {q : Rat32} (ha : Packed a na) (wa : MvWF na)
    (hi : b.caps.i = 0) (hm : b.caps.m ≠ 0) (ht : b.caps.t ≠ 0) (hb : rd b.caps.m b.mons 0 = ok m)
    (hq : q.WF) (hmq : m.q.WF) (hz : m.q.toQ ≠ 0) (h : divide a b q = ok r) :
    ∃ nr, Packed r nr ∧ (CanonMv na → q.toQ ≠ 0 → CanonMv nr) ∧
      ∀ (K V : Type) [Field K] [CharZero K] [AddCommGroup V] [Module K V] (pw : Nat → ℚ → K) (β : Nat → V),
        (m.q.toQ : K) • mvVal pw β nr = (q.toQ : K) • mvVal pw β na := by
  unfold divide at h
  rw [if_neg (by tauto), if_pos hi, ha.eq, divideConst_layout ha.fits.t hb] at h
  obtain ⟨nr, hn, rfl⟩ := map_eq_ok h
  have hz' : m.q.num ≠ 0 := nz_of_toQ hmq hz
  have hstep : ∀ x y, x.WF → (do let y ← q.mul x; y.div m.q : Out Rat32) = ok y →
      y.toQ = (q.toQ / m.q.toQ) * x.toQ ∧ y.WF := by
    intro x y hx hy
    rw [bind_eq_ok] at hy
    obtain ⟨z, h1, h2⟩ := hy
    obtain ⟨e1, w1⟩ := Rat32.mul_spec hq hx h1
    obtain ⟨e2, w2⟩ := Rat32.div_spec w1 hmq hz' h2
    exact ⟨by rw [e2, e1]; ring, w2⟩
  refine ⟨nr, packed_layout ((mapO_fits (mapQ_size' _) ha.fits).of_ok hn), ?_, ?_⟩
  · intro ca hq0
    refine (mapT_canon (mapQ_term_canon fun x y cx nx hy => ?_) ca hn).1
    have hs := hstep x y cx.1 hy
    have hx : x.toQ ≠ 0 := fun h0 => nx ((Rat32.toQ_eq_zero cx.1).1 h0)
    rw [bind_eq_ok] at hy
    obtain ⟨z, h1, h2⟩ := hy
    refine ⟨Rat32.div_canon (Rat32.mul_spec hq cx.1 h1).2 hmq hz' h2, fun h0 => ?_⟩
    have := (Rat32.toQ_eq_zero hs.2).2 h0
    rw [hs.1] at this
    exact mul_ne_zero (div_ne_zero hq0 hz) hx this
  · intro K V _ _ _ _ pw β
    rw [(mapQ_mv_val pw β hstep wa hn).1, smul_smul]
    congr 1
    push_cast
    have : (m.q.toQ : K) ≠ 0 := by exact_mod_cast hz
    field_simp

example : let b : Mv := layout ⟨0, 1, 1⟩ [⟨0, [⟨⟨-3, 2⟩, ⟨0, 1⟩, []⟩]⟩]
    rd b.caps.m b.mons 0 = ok ⟨⟨-3, 2⟩, ⟨0, 1⟩, 0, 0⟩ ∧ (∃ r, divide (layout ⟨3, 3, 2⟩ exA) b ⟨2, 1⟩ = ok r) ∧
    (⟨-3, 2⟩ : Rat32).WF ∧ (⟨-3, 2⟩ : Rat32).toQ ≠ 0 :=
  ⟨by decide +kernel, Out.exists_of_isOk (by decide +kernel), by decide, by norm_num [Rat32.toQ]⟩

/-! ## Division by a power of an indeterminate -/

/-- Insert before the first larger id. -/
def insInd (d : Ind) : List Ind → List Ind
  | [] => [d]
  | i :: is => if d.id < i.id then d :: i :: is else i :: insInd d is

theorem insInd_length (d : Ind) (l : List Ind) : (insInd d l).length = l.length + 1 := by
  induction l with
  | nil => rfl
  | cons i l ih => unfold insInd; split <;> simp [ih]

theorem insInd_val {K : Type} [Field K] (pw : Nat → ℚ → K) (d : Ind) (l : List Ind) :
    indsVal pw (insInd d l) = d.val pw * indsVal pw l := by
  induction l with
  | nil => simp [insInd]
  | cons i l ih =>
    unfold insInd
    split
    · simp
    · rw [indsVal_cons, ih, indsVal_cons]; ring

theorem divIndsN_written (d : Ind) (c : Bool) (l : List Ind) : divIndsN d c true l = ok (l, c) := by
  induction l with
  | nil => rfl
  | cons i l ih => unfold divIndsN; rw [if_pos rfl, ih]; rfl

theorem divIndsN_absent (d : Ind) (l : List Ind) (h : ∀ i ∈ l, i.id ≠ d.id) :
    divIndsN d false false l = ok (insInd d l, false) := by
  induction l with
  | nil => rfl
  | cons i l ih =>
    unfold divIndsN insInd
    rw [if_neg (by simp), if_neg (fun e => h i (by simp) e.symm)]
    split
    · rw [divIndsN_written]; rfl
    · rw [ih (fun x hx => h x (by simp [hx]))]; rfl

/-- One quotient monomial when the divisor's indeterminate does not occur. -/
def divMonAbsent (d : Ind) (mq : Rat32) (x : NMon) : Out NMon := do
  let deg ← x.degree.sub d.deg
  let q ← x.q.div mq
  return ⟨q, deg, insInd d x.inds⟩

/-- One quotient term. -/
def divTermAbsent (d : Ind) (mq : Rat32) (t : NTerm) : Out NTerm := do
  let ms ← mapO (divMonAbsent d mq) t.mons
  return ⟨t.element, ms⟩

theorem copyInds_inv {b b' : Bld} {l : List Ind} (h : copyInds b l = ok b') : b' = { b with inds := b.inds ++ l } := by
  induction l generalizing b with
  | nil => simp only [copyInds, ok_inj] at h; subst h; simp
  | cons x l ih =>
    simp only [copyInds, bind_eq_ok] at h
    obtain ⟨c, h1, h2⟩ := h
    unfold Bld.putInd at h1
    split at h1
    · rw [ok_inj] at h1; subst h1
      rw [ih h2]; simp
    · cases h1

theorem divideMons_absent {d : Ind} {mq : Rat32} {ms : List NMon} : ∀ {b b' : Bld},
    (∀ m ∈ ms, ∀ i ∈ m.inds, i.id ≠ d.id) → divideMons d mq b ms = ok b' →
    ∃ out, mapO (divMonAbsent d mq) ms = ok out ∧ b' = b.addMons out := by
  induction ms with
  | nil => intro b b' _ h; simp only [divideMons, ok_inj] at h; subst h; exact ⟨[], rfl, by simp⟩
  | cons x ms ih =>
    intro b b' hx h
    unfold divideMons at h
    rw [divIndsN_absent d _ (hx x (by simp)), ok_bind] at h
    simp only [bind_eq_ok] at h
    obtain ⟨c, h1, deg, h2, q, h3, c', h4, h5⟩ := h
    have hc := copyInds_inv h1
    unfold Bld.putMon at h4
    split at h4
    · rw [ok_inj] at h4
      obtain ⟨out, e1, e2⟩ := ih (fun m hm => hx m (by simp [hm])) h5
      refine ⟨⟨q, deg, insInd d x.inds⟩ :: out, ?_, ?_⟩
      · rw [mapO_cons_ok]
        refine ⟨_, out, ?_, e1, rfl⟩
        unfold divMonAbsent
        rw [h2, ok_bind, h3, ok_bind]
        rfl
      · rw [e2, Bld.addMons_cons]
        congr 1
        subst h4 hc
        simp [Bld.addMons, layMons, indsOf, insInd_length]
    · cases h4

theorem mapO_divMon_length {d : Ind} {mq : Rat32} {ms out : List NMon} (h : mapO (divMonAbsent d mq) ms = ok out) :
    out.length = ms.length ∧ nIndsM out = nIndsM ms + ms.length := by
  induction ms generalizing out with
  | nil => rw [mapO_nil_ok] at h; subst h; simp
  | cons x ms ih =>
    rw [mapO_cons_ok] at h
    obtain ⟨y, ys, h1, h2, rfl⟩ := h
    obtain ⟨i1, i2⟩ := ih h2
    unfold divMonAbsent at h1
    simp only [bind_eq_ok, pure_eq, ok_inj] at h1
    obtain ⟨deg, _, q, _, rfl⟩ := h1
    simp only [List.length_cons, nIndsM_cons, i1, i2, insInd_length, true_and]
    omega

theorem divideTerms_absent {d : Ind} {mq : Rat32} {a : NMv} : ∀ {b b' : Bld},
    (∀ t ∈ a, ∀ m ∈ t.mons, ∀ i ∈ m.inds, i.id ≠ d.id) →
    divideTerms d mq b ((layTerms b.mons.length a).zip a) = ok b' →
    ∃ out, mapO (divTermAbsent d mq) a = ok out ∧ b' = b.add out := by
  induction a with
  | nil =>
    intro b b' _ h
    simp only [layTerms, List.zip_nil_right, divideTerms, ok_inj] at h
    subst h
    exact ⟨[], rfl, by simp⟩
  | cons t a ih =>
    intro b b' hx h
    simp only [layTerms, List.zip_cons_cons, divideTerms, bind_eq_ok] at h
    obtain ⟨c, h1, c', h2, h3⟩ := h
    obtain ⟨ms, e1, e2⟩ := divideMons_absent (hx t (by simp)) h1
    obtain ⟨l1, l2⟩ := mapO_divMon_length e1
    unfold Bld.putTerm at h2
    split at h2
    · rw [ok_inj] at h2
      have hc' : c' = b.add [⟨t.element, ms⟩] := by
        subst h2 e2
        rw [← Bld.add_single, l1]
        rfl
      have hlen : c'.mons.length = b.mons.length + t.mons.length := by
        rw [← h2, e2]
        simp [Bld.addMons_mons_length, l1]
      rw [← hlen] at h3
      obtain ⟨out, f1, f2⟩ := ih (fun x hx' => hx x (by simp [hx'])) h3
      refine ⟨⟨t.element, ms⟩ :: out, ?_, ?_⟩
      · rw [mapO_cons_ok]
        refine ⟨_, out, ?_, f1, rfl⟩
        unfold divTermAbsent
        rw [e1]
        rfl
      · rw [f2, hc', ← Bld.add_cons]
    · cases h2

theorem divTerms_fits {d : Ind} {mq : Rat32} {a out : NMv} (h : mapO (divTermAbsent d mq) a = ok out) :
    out.length = a.length ∧ nMons out = nMons a ∧ nInds out = nInds a + nMons a := by
  induction a generalizing out with
  | nil => rw [mapO_nil_ok] at h; subst h; simp
  | cons t a ih =>
    rw [mapO_cons_ok] at h
    obtain ⟨y, ys, h1, h2, rfl⟩ := h
    unfold divTermAbsent at h1
    simp only [bind_eq_ok, pure_eq, ok_inj] at h1
    obtain ⟨ms, h1, rfl⟩ := h1
    obtain ⟨i1, i2, i3⟩ := ih h2
    obtain ⟨l1, l2⟩ := mapO_divMon_length h1
    simp only [List.length_cons, nMons_cons, nInds_cons, i1, i2, i3, l1, l2, true_and]
    omega

theorem divMons_val {K : Type} [Field K] [CharZero K] (pw : Nat → ℚ → K) {d : Ind} {mq : Rat32} (hd : d.deg.WF)
    (hmq : mq.WF) (hz : mq.num ≠ 0) {ms out : List NMon} (hw : ∀ m ∈ ms, m.WF)
    (h : mapO (divMonAbsent d mq) ms = ok out) :
    (mq.toQ : K) * monsVal pw out = d.val pw * monsVal pw ms ∧ ∀ m ∈ out, m.WF := by
  have hz' : (mq.toQ : K) ≠ 0 := by
    have : mq.toQ ≠ 0 := fun h0 => hz ((Rat32.toQ_eq_zero hmq).1 h0)
    exact_mod_cast this
  induction ms generalizing out with
  | nil => rw [mapO_nil_ok] at h; subst h; simp
  | cons x ms ih =>
    rw [mapO_cons_ok] at h
    obtain ⟨y, ys, h1, h2, rfl⟩ := h
    obtain ⟨i1, i2⟩ := ih (fun m hm => hw m (by simp [hm])) h2
    unfold divMonAbsent at h1
    simp only [bind_eq_ok, pure_eq, ok_inj] at h1
    obtain ⟨deg, _, q, hq, rfl⟩ := h1
    obtain ⟨e, w⟩ := Rat32.div_spec (hw x (by simp)).q hmq hz hq
    constructor
    · rw [monsVal_cons, monsVal_cons, mul_add, i1, mul_add]
      congr 1
      unfold NMon.val
      simp only
      rw [e, insInd_val]
      push_cast
      field_simp
    · intro m hm
      rcases List.mem_cons.1 hm with rfl | hm
      · refine ⟨w, ?_⟩
        intro i hi
        have : ∀ {l : List Ind}, (∀ i ∈ l, i.deg.WF) → ∀ i ∈ insInd d l, i.deg.WF := by
          intro l
          induction l with
          | nil => intro _ i hi; simp [insInd] at hi; subst hi; exact hd
          | cons j l ih' =>
            intro hl i hi
            unfold insInd at hi
            split at hi
            · rcases List.mem_cons.1 hi with rfl | hi
              · exact hd
              · exact hl i hi
            · rcases List.mem_cons.1 hi with rfl | hi
              · exact hl i (by simp)
              · exact ih' (fun k hk => hl k (by simp [hk])) i hi
        exact this (hw x (by simp)).inds i hi
      · exact i2 m hm

theorem divTerms_val {K V : Type} [Field K] [CharZero K] [AddCommGroup V] [Module K V] (pw : Nat → ℚ → K) (β : Nat → V)
    {d : Ind} {mq : Rat32} (hd : d.deg.WF) (hmq : mq.WF) (hz : mq.num ≠ 0) {a out : NMv} (hw : MvWF a)
    (h : mapO (divTermAbsent d mq) a = ok out) :
    (mq.toQ : K) • mvVal pw β out = d.val pw • mvVal pw β a ∧ MvWF out := by
  induction a generalizing out with
  | nil => rw [mapO_nil_ok] at h; subst h; simp [MvWF]
  | cons t a ih =>
    rw [mapO_cons_ok] at h
    obtain ⟨y, ys, h1, h2, rfl⟩ := h
    unfold divTermAbsent at h1
    simp only [bind_eq_ok, pure_eq, ok_inj] at h1
    obtain ⟨ms, h1, rfl⟩ := h1
    obtain ⟨i1, i2⟩ := ih (fun x hx => hw x (by simp [hx])) h2
    obtain ⟨l1, l2⟩ := divMons_val pw hd hmq hz (hw t (by simp)) h1
    constructor
    · rw [mvVal_cons, mvVal_cons, smul_add, smul_add, i1]
      congr 1
      unfold NTerm.val
      simp only
      rw [smul_smul, l1, mul_smul]
    · intro x hx
      rcases List.mem_cons.1 hx with rfl | hx
      · exact l2
      · exact i2 x hx

/-- Division by a power of an indeterminate that does not occur in the dividend. -/
theorem divide_absent {a b r : Mv} {na : NMv} {m : Mon} {d : Ind} {q : Rat32} (ha : Packed a na) (hi : b.caps.i = 1)
    (hbm : rd b.caps.m b.mons 0 = ok m) (hbd : rd b.caps.i b.inds 0 = ok d)
    (hx : ∀ t ∈ na, ∀ m ∈ t.mons, ∀ i ∈ m.inds, i.id ≠ d.id) (h : divide a b q = ok r) :
    ∃ nd out, d.deg.neg = ok nd ∧ mapO (divTermAbsent ⟨d.id, nd⟩ m.q) na = ok out ∧
      Fits ⟨a.caps.i + a.caps.m, a.caps.m, a.caps.t⟩ out ∧ scale q (layout ⟨a.caps.i + a.caps.m, a.caps.m, a.caps.t⟩ out) = ok r := by
  unfold divide at h
  split at h
  · cases h
  rw [if_neg (by omega), hbm, ok_bind, hbd, ok_bind] at h
  simp only [bind_eq_ok] at h
  obtain ⟨nd, h1, na', h2, ts, h3, c, h4, h5⟩ := h
  rw [ha.eq] at h2 h3
  rw [view_layout ha.fits, ok_inj] at h2
  subst h2
  have h3' : ts = layTerms 0 na := by
    have := rdRange_append (cap := a.caps.t) (layTerms 0 na) (l := layTerms 0 na) (pre := []) (post := []) (by simp) rfl
      (by simpa using ha.fits.t)
    simp only [layout] at h3
    rw [layTerms_length, List.length_nil] at this
    rw [this, ok_inj] at h3
    exact h3.symm
  subst h3'
  obtain ⟨out, e1, e2⟩ := divideTerms_absent (d := ⟨d.id, nd⟩) (b := Bld.empty ⟨a.caps.i + a.caps.m, a.caps.m, a.caps.t⟩)
    hx h4
  subst e2
  rw [Bld.finish_add] at h5
  obtain ⟨f1, f2, f3⟩ := divTerms_fits e1
  have hf : Fits ⟨a.caps.i + a.caps.m, a.caps.m, a.caps.t⟩ out := by
    have g1 := ha.fits.i
    have g2 := ha.fits.m
    have g3 := ha.fits.t
    exact ⟨by simp only; omega, by simp only; omega, by simp only; omega⟩
  exact ⟨nd, out, h1, e1, hf, h5⟩

/-- C24 (part): dividing by `c·x^k`. Multiplying the value of the quotient back by the value of the divisor gives `q` times
the value of the dividend, provided the indeterminate `x` does not occur in the dividend.  Missing: with an occurrence of
`x` the claim is false, see `C24_power_false`; and the stored degree of the quotient is wrong even here, see
`C24_degree_false`. -/
theorem C24_power_partial {a b r : Mv} {na : NMv} {m : Mon} {d : Ind} {q : Rat32} (ha : Packed a na) (wa : MvWF na)
    (hi : b.caps.i = 1) (hbm : rd b.caps.m b.mons 0 = ok m) (hbd : rd b.caps.i b.inds 0 = ok d) (hq : q.WF)
    (hmq : m.q.WF) (hz : m.q.toQ ≠ 0) (hd : d.deg.WF) (hx : ∀ t ∈ na, ∀ m ∈ t.mons, ∀ i ∈ m.inds, i.id ≠ d.id)
    (h : divide a b q = ok r) :
    ∃ nr, Packed r nr ∧
      ∀ (K V : Type) [Field K] [CharZero K] [AddCommGroup V] [Module K V] (pw : Nat → ℚ → K) (β : Nat → V),
        pw d.id d.deg.toQ * pw d.id (-d.deg.toQ) = 1 →
        ((m.q.toQ : K) * pw d.id d.deg.toQ) • mvVal pw β nr = (q.toQ : K) • mvVal pw β na := by
  obtain ⟨nd, out, h1, e1, hf, h5⟩ := divide_absent ha hi hbm hbd hx h
  obtain ⟨en, wn⟩ := Rat32.neg_spec hd h1
  have hz' : m.q.num ≠ 0 := nz_of_toQ hmq hz
  have wout : MvWF out := (divTerms_val (K := ℚ) (V := ℚ) (fun _ _ => 0) (fun _ => 0) (d := ⟨d.id, nd⟩) wn hmq hz' wa e1).2
  obtain ⟨nr, p, _, hv⟩ := C21_scale (packed_layout hf) wout hq h5
  refine ⟨nr, p, ?_⟩
  intro K V _ _ _ _ pw β hpw
  have hv' := (divTerms_val pw β (d := ⟨d.id, nd⟩) wn hmq hz' wa e1).1
  rw [hv K V pw β, smul_smul, mul_comm _ (q.toQ : K), mul_smul, mul_comm (m.q.toQ : K), mul_smul, hv']
  unfold Ind.val
  simp only
  rw [en, smul_smul (pw d.id d.deg.toQ), hpw, one_smul]

/-- `x0^2`, `x0` and `3 x1`, as packed arrays. -/
def exSquare : Mv := layout ⟨1, 1, 1⟩ [⟨0, [⟨⟨1, 1⟩, ⟨2, 1⟩, [⟨0, ⟨2, 1⟩⟩]⟩]⟩]
def exVar : Mv := layout ⟨1, 1, 1⟩ [⟨0, [⟨⟨1, 1⟩, ⟨1, 1⟩, [⟨0, ⟨1, 1⟩⟩]⟩]⟩]
def exVar' : Mv := layout ⟨1, 1, 1⟩ [⟨0, [⟨⟨3, 1⟩, ⟨1, 1⟩, [⟨7, ⟨1, 1⟩⟩]⟩]⟩]

example : (∃ r, divide (layout ⟨3, 3, 2⟩ exA) exVar' ⟨2, 1⟩ = ok r) ∧
    rd exVar'.caps.m exVar'.mons 0 = ok ⟨⟨3, 1⟩, ⟨1, 1⟩, 1, 0⟩ ∧ rd exVar'.caps.i exVar'.inds 0 = ok ⟨7, ⟨1, 1⟩⟩ ∧
    (∀ t ∈ exA, ∀ m ∈ t.mons, ∀ i ∈ m.inds, i.id ≠ 7) :=
  ⟨Out.exists_of_isOk (by decide +kernel), by decide +kernel, by decide +kernel, by decide +kernel⟩

/-- C24 fails when the divisor's indeterminate occurs in the dividend: `x0^2 / x0` is computed as the constant 1. -/
theorem C24_power_false :
    ∃ r nr, divide exSquare exVar ⟨1, 1⟩ = ok r ∧ Represents r nr ∧
      ∃ ρ : Nat → ℚ, (∀ i, ρ i ≠ 0) ∧
        ρ 0 * coeff (intPow ρ) nr 0 ≠ coeff (intPow ρ) [⟨0, [⟨⟨1, 1⟩, ⟨2, 1⟩, [⟨0, ⟨2, 1⟩⟩]⟩]⟩] 0 := by
  obtain ⟨r, hr⟩ := Out.exists_of_isOk (x := divide exSquare exVar ⟨1, 1⟩) (by decide +kernel)
  refine ⟨r, [⟨0, [⟨⟨1, 1⟩, ⟨3, 1⟩, []⟩]⟩], hr, ?_, fun _ => 2, fun _ => by norm_num, ?_⟩
  · have : (divide exSquare exVar ⟨1, 1⟩ >>= fun r => ok (decide (Represents r [⟨0, [⟨⟨1, 1⟩, ⟨3, 1⟩, []⟩]⟩]))) = ok true := by
      decide +kernel
    rw [hr, ok_bind, ok_inj] at this
    exact of_decide_eq_true this
  · norm_num [coeff, mvVal, NTerm.val, monsVal, NMon.val, indsVal, Ind.val, intPow, Rat32.toQ]

/-- C24: the stored degree of a quotient has the wrong sign: `1 / x0` is stored with degree `+1`, so it is not canonical
and later comparisons of monomials misplace it. -/
theorem C24_degree_false :
    ∃ r nr, divide (layout ⟨0, 1, 1⟩ [⟨0, [⟨⟨1, 1⟩, ⟨0, 1⟩, []⟩]⟩]) exVar ⟨1, 1⟩ = ok r ∧ Packed r nr ∧
      nr = [⟨0, [⟨⟨1, 1⟩, ⟨1, 1⟩, [⟨0, ⟨-1, 1⟩⟩]⟩]⟩] ∧ ¬ CanonMv nr := by
  refine ⟨layout ⟨1, 1, 1⟩ [⟨0, [⟨⟨1, 1⟩, ⟨1, 1⟩, [⟨0, ⟨-1, 1⟩⟩]⟩]⟩], _, by decide +kernel, by decide +kernel, rfl,
    by decide +kernel⟩

end Gal
