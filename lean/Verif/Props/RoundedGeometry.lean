import Verif.Props.RoundedRun
import Verif.Props.Sandwich
import Verif.Props.ConformalPolys

/-!
# Property C57 for geometric operations: lengths, rotations, rigid motions and conformal distances
-/

namespace Gal

open Out

/-- An integer monomial as a monomial with a rational coefficient. -/
def IntMono.toRat (m : IntMono) : RatMono := (⟨m.1, 1⟩, m.2)

/-- Integer polynomials as polynomials with rational coefficients. -/
def toRatPolys (ps : List (Nat × List IntMono)) : List (Nat × List RatMono) := ps.map fun p => (p.1, p.2.map IntMono.toRat)

theorem mapM_of_forall₂ {α β : Type} {f : α → Option β} {l : List α} {r : List β} (h : List.Forall₂ (fun a b => f a = some b) l r) :
    l.mapM f = some r := by
  induction h with
  | nil => rfl
  | cons h _ ih => simp [List.mapM_cons, h, ih]

theorem readMon_rat {k : Nat} {m : NMon} {p : IntMono} (h : readMon k m = some p) : readRatMon k m = some p.toRat := by
  unfold readMon at h
  unfold readRatMon
  split at h
  · rename_i hc
    simp only [Option.map_eq_some_iff] at h
    obtain ⟨is, h1, rfl⟩ := h
    rw [if_pos ⟨hc.2, by rw [hc.1]; decide, by omega⟩, h1]
    unfold IntMono.toRat
    rw [Option.map_some, ← hc.1]
  · cases h

theorem readTerm_rat {k : Nat} {t : NTerm} {p : Nat × List IntMono} (h : readTerm k t = some p) :
    readRatTerm k t = some (p.1, p.2.map IntMono.toRat) := by
  unfold readTerm at h
  unfold readRatTerm
  split at h
  · cases h
  · rename_i hne
    rw [if_neg hne]
    simp only [Option.map_eq_some_iff] at h
    obtain ⟨ms, h1, rfl⟩ := h
    have h2 := mapM_some h1
    have h3 : List.Forall₂ (fun a b => readRatMon k a = some b) t.mons (ms.map IntMono.toRat) := by
      rw [List.forall₂_map_right_iff]
      exact h2.imp fun _ _ h => readMon_rat h
    rw [mapM_of_forall₂ h3]
    rfl

theorem polys_ratPolys {L : Type} {m : Metric} {args : List (Arg L)} {f : Lam} {ps : List (Nat × List IntMono)} (h : f.polys m args = some ps) :
    f.ratPolys m false args = some (⟨1, 1⟩, toRatPolys ps) := by
  unfold Lam.polys readViewed at h
  split at h
  · rename_i n k hv
    split at h
    · rename_i hk
      subst hk
      have hv' : (do
        let e ← f.build (argOffset args)
        let c ← compileExpr m false f.cap args e
        c.viewed) = ok ⟨[], [(.id, n)], argsSize args, ⟨1, 1⟩⟩ := hv
      simp only [bind_eq_ok] at hv'
      obtain ⟨e, he, c, hc, hcv⟩ := hv'
      have h2 : c.outView none = ok (.id, n, argsSize args, ⟨1, 1⟩) := by
        simp only [Compiled.viewed, bind_eq_ok, pure_eq, ok_inj] at hcv
        obtain ⟨vs, h1, rs, h2, h3⟩ := hcv
        injection h3 with h4 h5 h6 h7
        subst h4 h5
        unfold Compiled.outView
        have ht : c.state.temps = [] := by
          match hc : c.state.temps with
          | [] => rfl
          | p :: l =>
            rw [hc] at h1
            simp only [mapO, bind_eq_ok, pure_eq, ok_inj] at h1
            obtain ⟨_, _, _, _, h8⟩ := h1
            cases h8
        match hc : c.state.args with
        | [] => rw [hc] at h2; simp [mapO, ok_inj] at h2
        | [a] =>
          rw [hc] at h2
          simp only [mapO, bind_eq_ok, pure_eq, ok_inj] at h2
          obtain ⟨_, ⟨n', h8, rfl⟩, ys, rfl, h9⟩ := h2
          obtain ⟨h10, _⟩ := List.cons.inj h9
          obtain ⟨h11, rfl⟩ := Prod.mk.inj h10
          rw [ht]
          simp only [toOutput, ok_bind, h8, h11, h6, h7, pure_eq]
        | a :: b :: l =>
          rw [hc] at h2
          simp only [mapO, bind_eq_ok, pure_eq, ok_inj] at h2
          obtain ⟨_, _, _, ⟨_, _, _, _, rfl⟩, h9⟩ := h2
          cases h9
      unfold Lam.ratPolys
      rw [he, ok_bind, hc, ok_bind]
      show readOutView (argsSize args) (c.outView none) = _
      rw [h2]
      show (if argsSize args = argsSize args ∧ ((1 : Int) ≠ 0) ∧ (0 : Int) < 1 then (n.mapM (readRatTerm (argsSize args))).map ((⟨1, 1⟩ : Rat32), ·) else none) = _
      rw [if_pos ⟨rfl, by decide, by decide⟩]
      have h3 : List.Forall₂ (fun a b => readRatTerm (argsSize args) a = some b) n (toRatPolys ps) := by
        unfold toRatPolys
        rw [List.forall₂_map_right_iff]
        exact (mapM_some h).imp fun _ _ h => readTerm_rat h
      rw [mapM_of_forall₂ h3]
      rfl
    · cases h
  · cases h

theorem ratMonoVal_toRat (data : List ℝ) (m : IntMono) : ratVal ℝ ⟨1, 1⟩ * ratMonoVal data m.toRat = monoVal data m := by
  unfold ratVal ratMonoVal monoVal IntMono.toRat ratVal
  push_cast
  ring

/-- Roundings in an integer polynomial. -/
def intPolyCost (ms : List IntMono) : Nat := ratPolyCost (ms.map IntMono.toRat)

/-- `rounded_polys` for integer polynomials. -/
theorem rounded_intPolys {u : ℝ} (h0 : 0 ≤ u) (h1 : u < 1) {A : Arith ℝ} (hA : A.Standard u) {L : Type} (m : Metric) (E : Env ℝ)
    {args : List (Arg ℝ)} {args' : List (Arg L)} (ht : args.map (fun a => (a.ie, a.data.length)) = args'.map fun a => (a.ie, a.data.length))
    {f : Lam} {ps : List (Nat × List IntMono)} (h : f.polys m args' = some ps) :
    ∃ vs, (A.compute m false E args f >>= single) = ok ⟨ps.map Prod.fst, vs⟩ ∧
      List.Forall₂ (fun v p => NearSum u (intPolyCost p.2) v (p.2.map (monoVal (args.map fun a => a.data).flatten))) vs ps := by
  obtain ⟨vs, h2, h3⟩ := rounded_polys h0 h1 hA m false E ht (polys_ratPolys h)
  refine ⟨vs, ?_, ?_⟩
  · rw [h2]
    unfold toRatPolys
    rw [List.map_map]
    rfl
  · unfold toRatPolys at h3
    rw [List.forall₂_map_right_iff] at h3
    refine h3.imp fun v p h => ?_
    have e : ((p.2.map IntMono.toRat).map fun x => ratVal ℝ ⟨1, 1⟩ * ratMonoVal (args.map fun a => a.data).flatten x) =
        p.2.map (monoVal (args.map fun a => a.data).flatten) := by
      rw [List.map_map]
      exact List.map_congr_left fun x _ => ratMonoVal_toRat _ x
    rw [e] at h
    exact h

section geometry
variable {u : ℝ} (h0 : 0 ≤ u) (h1 : u < 1) {A : Arith ℝ} (hA : A.Standard u)
include h0 h1 hA

theorem nearSum_mul' {k l : Nat} {a b c : ℝ} {xs : List ℝ} (ha : Near u k a c) (hb : NearSum u l b xs) :
    NearSum u (k + l + 1) (A.mul b a) (xs.map fun x => x * c) := by
  obtain ⟨s, hs, rfl⟩ := ha
  obtain ⟨δ, hd, e⟩ := hA.mul b (c * s)
  rw [e]
  have h2 := hs.mul h0 h1 (closeToOne_delta h0 h1 hd)
  have h3 := hb.mul_right h0 h1 h2
  have key : ∀ {n : Nat} {y : ℝ} {xs : List ℝ}, NearSum u n y xs → NearSum u n (y * c) (xs.map fun x => x * c) := by
    intro n y xs h
    induction h with
    | nil => rw [zero_mul]; exact .nil
    | @cons x t y xs h2 _ ih =>
      have e : (x * t + y) * c = x * c * t + y * c := by ring
      rw [e]
      exact .cons h2 ih
  have e2 : b * (c * s) * (1 + δ) = b * (s * (1 + δ)) * c := by ring
  rw [e2]
  exact (key h3).mono h0 h1 (by omega)

/-- The error of a sum, with a bound for the absolute values. -/
theorem NearSum.bound {k l : Nat} {v x B : ℝ} {xs : List ℝ} (h : NearSum u k v xs) (hk : k ≤ l) (hx : xs.sum = x)
    (hB : (xs.map fun x => |x|).sum ≤ B) : |v - x| ≤ gam u l * B := by
  have h2 := (h.mono h0 h1 hk).abs_sub h0 h1
  rw [hx] at h2
  exact h2.trans (mul_le_mul_of_nonneg_left hB (gam_nonneg h0 h1 l))

end geometry

/-! ## Lengths -/

/-- `[](auto v) { return v * v; }`. -/
def squareLam : Lam := .gp (.arg 0) (.arg 0)

def squarePolys : List (Nat × List IntMono) := [(0, [(1, [(0, 2)]), (1, [(1, 2)]), (1, [(2, 2)])])]

theorem square_polys : squareLam.polys vgaMetric [vectorArg (K := ℚ) [0, 0, 0]] = some squarePolys := by
  decide +kernel

def dotPolys : List (Nat × List IntMono) := [(0, [(1, [(0, 1), (3, 1)]), (1, [(1, 1), (4, 1)]), (1, [(2, 1), (5, 1)])])]

theorem dot_polys : distanceLam.polys vgaMetric [vectorArg (K := ℚ) [0, 0, 0], vectorArg [0, 0, 0]] = some dotPolys := by
  decide +kernel

section theorems
variable {u : ℝ} (h0 : 0 ≤ u) (h1 : u < 1) {A : Arith ℝ} (hA : A.Standard u)
include h0 h1 hA

/-- **C57 (lengths)**: `v * v` for a vector is computed with a relative error of three roundings. -/
theorem C57_square (E : Env ℝ) (a b c : ℝ) :
    (squareLam.compute vgaMetric false E [vectorArg [a, b, c]] >>= single) = ok ⟨[0], [a ^ 2 + b ^ 2 + c ^ 2]⟩ ∧
    ∃ v, (A.compute vgaMetric false E [vectorArg [a, b, c]] squareLam >>= single) = ok ⟨[0], [v]⟩ ∧
      |v - (a ^ 2 + b ^ 2 + c ^ 2)| ≤ gam u 3 * (a ^ 2 + b ^ 2 + c ^ 2) := by
  constructor
  · rw [lam_polys vgaMetric E (by rfl) square_polys]
    simp only [vectorArg]
    poly_value squarePolys
    congr 3
    ring
  · obtain ⟨vs, h2, h3⟩ := rounded_intPolys h0 h1 hA vgaMetric E (args := [vectorArg [a, b, c]]) (by rfl) square_polys
    unfold squarePolys at h3
    rcases h3 with _ | ⟨h4, _ | _⟩
    rename_i v
    refine ⟨v, h2, h4.bound h0 h1 hA (by decide) ?_ (le_of_eq ?_)⟩
    · simp only [vectorArg]
      poly_value squarePolys
      ring
    · simp only [vectorArg]
      poly_value squarePolys
      simp only [abs_pow, sq_abs]
      ring

/-- **C57 (dot products)**: `v >> w` for two vectors is computed with an error of three roundings of the products. -/
theorem C57_dot (E : Env ℝ) (a b c x y z : ℝ) :
    (distanceLam.compute vgaMetric false E [vectorArg [a, b, c], vectorArg [x, y, z]] >>= single) = ok ⟨[0], [a * x + b * y + c * z]⟩ ∧
    ∃ v, (A.compute vgaMetric false E [vectorArg [a, b, c], vectorArg [x, y, z]] distanceLam >>= single) = ok ⟨[0], [v]⟩ ∧
      |v - (a * x + b * y + c * z)| ≤ gam u 3 * (|a| * |x| + |b| * |y| + |c| * |z|) := by
  constructor
  · rw [lam_polys vgaMetric E (by rfl) dot_polys]
    simp only [vectorArg]
    poly_value dotPolys
    congr 3
    ring
  · obtain ⟨vs, h2, h3⟩ := rounded_intPolys h0 h1 hA vgaMetric E (args := [vectorArg [a, b, c], vectorArg [x, y, z]]) (by rfl) dot_polys
    unfold dotPolys at h3
    rcases h3 with _ | ⟨h4, _ | _⟩
    rename_i v
    refine ⟨v, h2, h4.bound h0 h1 hA (by decide) ?_ (le_of_eq ?_)⟩
    · simp only [vectorArg]
      poly_value dotPolys
      ring
    · simp only [vectorArg]
      poly_value dotPolys
      simp only [abs_mul]
      ring

/-- **C57 (rotations)**: each coordinate of `v % r`, for a vector `v` and the rotor `r` with the stored numbers `w, s, x, y, z`, is off by at most
thirteen roundings of `(w² + s² |(x, y, z)|²) (|a| + |b| + |c|)`; the first factor is one for a rotor made from an angle and a unit axis. -/
theorem C57_rotate (E : Env ℝ) (a b c w s x y z : ℝ) :
    ∃ p v : Fin 3 → ℝ,
      (sandwichLam.compute vgaMetric false E [vectorArg [a, b, c], rotorArg [w, s, x, y, z]] >>= single >>= vectorOf 3) = ok (List.ofFn p) ∧
      (A.compute vgaMetric false E [vectorArg [a, b, c], rotorArg [w, s, x, y, z]] sandwichLam >>= single >>= vectorOf 3) = ok (List.ofFn v) ∧
      ∀ i, |v i - p i| ≤ gam u 13 * ((w ^ 2 + s ^ 2 * (x ^ 2 + y ^ 2 + z ^ 2)) * (|a| + |b| + |c|)) := by
  obtain ⟨vs, h2, h3⟩ := rounded_intPolys h0 h1 hA vgaMetric E (args := [vectorArg [a, b, c], rotorArg [w, s, x, y, z]]) (by rfl) rotate_polys
  unfold rotatePolys at h3
  rcases h3 with _ | ⟨h4, _ | ⟨h5, _ | ⟨h6, _ | _⟩⟩⟩
  rename_i v0 v1 v2
  refine ⟨![_, _, _], ![v0, v1, v2], (rotate_run E a b c w s x y z).trans rfl, ?_, ?_⟩
  · rw [h2, ok_bind]
    unfold vectorOf Entity.selectMany
    rw [if_neg (by simp [rotatePolys])]
    simp only [mapO]
    rw [select_of (k := 0) (by decide) (by decide) rfl rfl, select_of (k := 1) (by decide) (by decide) rfl rfl,
      select_of (k := 2) (by decide) (by decide) rfl rfl]
    rfl
  · have p1 : ∀ t k l m : ℝ, 0 ≤ |t| * ((|w| - |s| * |k|) ^ 2 + |s| ^ 2 * (|l| - |m|) ^ 2) := fun t k l m => by positivity
    have key : ∀ d e f k l m : ℝ, |d| * |w| ^ 2 + 2 * |w| * |s| * (|e| * |m| + |f| * |l|) + |s| ^ 2 * (|d| * (|k| ^ 2 + |l| ^ 2 + |m| ^ 2) +
        2 * |k| * (|e| * |l| + |f| * |m|)) ≤ (w ^ 2 + s ^ 2 * (k ^ 2 + l ^ 2 + m ^ 2)) * (|d| + |e| + |f|) := by
      intro d e f k l m
      have q1 := p1 e m k l
      have q2 := p1 f l k m
      rw [← sq_abs w, ← sq_abs s, ← sq_abs k, ← sq_abs l, ← sq_abs m]
      linarith
    have ab : ∀ t : ℝ, |-t| = |t| := abs_neg
    have a2 : |(2 : ℝ)| = 2 := abs_two
    intro i
    fin_cases i
    · refine h4.bound h0 h1 hA (by decide) ?_ ?_
      · simp only [vectorArg, rotorArg]
        poly_value rotatePolys
        show _ = _
        simp only [Matrix.cons_val_zero, Fin.zero_eta]
        ring
      · simp only [vectorArg, rotorArg]
        poly_value rotatePolys
        simp only [ab, abs_mul, abs_pow, a2]
        refine le_trans (le_of_eq ?_) (key a b c x y z)
        ring
    · refine h5.bound h0 h1 hA (by decide) ?_ ?_
      · simp only [vectorArg, rotorArg]
        poly_value rotatePolys
        show _ = _
        simp only [Matrix.cons_val_one, Fin.mk_one, Matrix.cons_val_zero]
        ring
      · simp only [vectorArg, rotorArg]
        poly_value rotatePolys
        simp only [ab, abs_mul, abs_pow, a2]
        refine le_trans (le_of_eq ?_) ((key b a c y x z).trans (le_of_eq ?_)) <;> ring
    · refine h6.bound h0 h1 hA (by decide) ?_ ?_
      · simp only [vectorArg, rotorArg]
        poly_value rotatePolys
        show _ = c * w ^ 2 + 2 * w * s * (x * b - y * a) + s ^ 2 * (c * (z ^ 2 - x ^ 2 - y ^ 2) + 2 * z * (a * x + b * y))
        ring
      · simp only [vectorArg, rotorArg]
        poly_value rotatePolys
        simp only [ab, abs_mul, abs_pow, a2]
        refine le_trans (le_of_eq ?_) ((key c a b z x y).trans (le_of_eq ?_)) <;> ring

omit h0 h1 hA in
theorem cauchy4 {a d f g b c e h T w : ℝ} (hw : a ^ 2 + d ^ 2 + f ^ 2 + g ^ 2 = w) (hw0 : 0 ≤ w) (hT : 0 ≤ T)
    (ht : b ^ 2 + c ^ 2 + e ^ 2 + h ^ 2 ≤ T ^ 2 * w) : |a| * |b| + |d| * |c| + |f| * |e| + |g| * |h| ≤ T * w := by
  have h2 : (|a| * |b| + |d| * |c| + |f| * |e| + |g| * |h|) ^ 2 ≤ (T * w) ^ 2 := by
    have h3 : (|a| * |b| + |d| * |c| + |f| * |e| + |g| * |h|) ^ 2 ≤ w * (b ^ 2 + c ^ 2 + e ^ 2 + h ^ 2) := by
      rw [← hw, ← sq_abs a, ← sq_abs b, ← sq_abs c, ← sq_abs d, ← sq_abs e, ← sq_abs f, ← sq_abs g, ← sq_abs h]
      nlinarith [sq_nonneg (|a| * |c| - |d| * |b|), sq_nonneg (|a| * |e| - |f| * |b|), sq_nonneg (|a| * |h| - |g| * |b|),
        sq_nonneg (|d| * |e| - |f| * |c|), sq_nonneg (|d| * |h| - |g| * |c|), sq_nonneg (|f| * |h| - |g| * |e|)]
    have h4 := mul_le_mul_of_nonneg_left ht hw0
    nlinarith
  exact abs_le_of_sq_le_sq h2 (by positivity) |>.trans' (le_abs_self _)

/-- **C57 (rigid motions)**: each coordinate of `p % m`, for a point and a motor whose rotational part is not zero, is off by at most 21 roundings of
`|x| + |y| + |z| + 2 T`, where `T` is the length of the other part of the motor relative to the length of the rotational part (the motor
translates by at most `2 T`). -/
theorem C57_move (E : Env ℝ) (x y z a b c d e f g h T : ℝ) (hw : a ^ 2 + d ^ 2 + f ^ 2 + g ^ 2 ≠ 0) (hT : 0 ≤ T)
    (ht : b ^ 2 + c ^ 2 + e ^ 2 + h ^ 2 ≤ T ^ 2 * (a ^ 2 + d ^ 2 + f ^ 2 + g ^ 2)) :
    ∃ p v : Fin 3 → ℝ,
      (sandwichLam.compute pgaMetric false E [pointArg [x, y, z], motorArg [a, b, c, d, e, f, g, h]] >>= single >>= vgaPointOf) = ok (List.ofFn p) ∧
      (A.compute pgaMetric false E [pointArg [x, y, z], motorArg [a, b, c, d, e, f, g, h]] sandwichLam >>= single >>= A.vgaPointOf) =
        ok (List.ofFn v) ∧
      ∀ i, |v i - p i| ≤ gam u 21 * (|x| + |y| + |z| + 2 * T) := by
  obtain ⟨vs, h2, h3⟩ := rounded_intPolys h0 h1 hA pgaMetric E (args := [pointArg [x, y, z], motorArg [a, b, c, d, e, f, g, h]]) (by rfl) move_polys
  unfold movePolys at h3
  rcases h3 with _ | ⟨h4, _ | ⟨h5, _ | ⟨h6, _ | ⟨h7, _ | _⟩⟩⟩⟩
  rename_i v0 v1 v2 v3
  have w0 : 0 < a ^ 2 + d ^ 2 + f ^ 2 + g ^ 2 := lt_of_le_of_ne (by positivity) hw.symm
  have h8 : Near u 4 v3 (a ^ 2 + d ^ 2 + f ^ 2 + g ^ 2) := by
    have := (h7.mono h0 h1 (show _ ≤ 4 by decide)).near h0 h1 (by
      intro t
      simp only [pointArg, motorArg]
      poly_value movePolys
      simp only [List.mem_cons, List.not_mem_nil, or_false]
      rintro (rfl | rfl | rfl | rfl) <;> positivity)
    refine this.imp fun t k => ⟨k.1, k.2.trans ?_⟩
    simp only [pointArg, motorArg]
    poly_value movePolys
    ring
  have h9 : Near u 5 (A.div 1 v3) (1 / (a ^ 2 + d ^ 2 + f ^ 2 + g ^ 2)) := near_div h0 h1 hA (Near.rfl' 1) h8
  have h10 : Near u 5 (-(A.div 1 v3)) (-(1 / (a ^ 2 + d ^ 2 + f ^ 2 + g ^ 2))) := by
    obtain ⟨t, k1, k2⟩ := h9
    exact ⟨t, k1, by rw [k2]; ring⟩
  refine ⟨![_, _, _], ![A.mul v2 (-(A.div 1 v3)), A.mul v1 (A.div 1 v3), A.mul v0 (-(A.div 1 v3))],
    (move_run E x y z a b c d e f g h).trans rfl, ?_, ?_⟩
  · rw [h2, ok_bind]
    unfold Arith.vgaPointOf
    rw [select_of (k := 2) (by decide) (by decide) rfl rfl, select_of (k := 1) (by decide) (by decide) rfl rfl,
      select_of (k := 0) (by decide) (by decide) rfl rfl, select_of (k := 3) (by decide) (by decide) rfl rfl]
    rfl
  · have ab : ∀ t : ℝ, |-t| = |t| := abs_neg
    have a2 : |(2 : ℝ)| = 2 := abs_two
    have hwe : a * a + d * d + f * f + g * g = a ^ 2 + d ^ 2 + f ^ 2 + g ^ 2 := by ring
    have hi : |1 / (a ^ 2 + d ^ 2 + f ^ 2 + g ^ 2)| = 1 / (a ^ 2 + d ^ 2 + f ^ 2 + g ^ 2) := abs_of_pos (by positivity)
    have c1 := cauchy4 (a := a) (d := d) (f := f) (g := g) (b := b) (c := c) (e := e) (h := h) rfl w0.le hT ht
    have c2 := cauchy4 (a := a) (d := d) (f := g) (g := f) (b := c) (c := b) (e := e) (h := h) (w := a ^ 2 + d ^ 2 + f ^ 2 + g ^ 2) (T := T)
      (by ring) w0.le hT (by linarith)
    have c3 := cauchy4 (a := a) (d := f) (f := g) (g := d) (b := e) (c := b) (e := c) (h := h) (w := a ^ 2 + d ^ 2 + f ^ 2 + g ^ 2) (T := T)
      (by ring) w0.le hT (by linarith)
    have s1 : ∀ t k l m n : ℝ, 0 ≤ |t| * ((|k| - |l|) ^ 2 + (|m| - |n|) ^ 2) := fun t k l m n => by positivity
    intro i
    fin_cases i
    · refine (nearSum_mul' h0 h1 hA h10 h6).bound h0 h1 hA (by decide) ?_ ?_
      · simp only [pointArg, motorArg]
        poly_value movePolys
        show _ = ((a * a - d * d - f * f + g * g) * x + 2 * (a * d - f * g) * y + 2 * (a * f + d * g) * z - 2 * (a * b + c * d + e * f + g * h)) /
          (a * a + d * d + f * f + g * g)
        rw [hwe]
        field_simp
        ring
      · simp only [pointArg, motorArg]
        poly_value movePolys
        simp only [ab, abs_mul, abs_pow, a2, hi]
        rw [← sub_nonneg]
        have q1 := s1 y a d f g
        have q2 := s1 z a f d g
        simp only [sq_abs, sub_sq] at q1 q2
        have hf : 0 ≤ ((a ^ 2 + d ^ 2 + f ^ 2 + g ^ 2) * (|x| + |y| + |z| + 2 * T) -
          (2 * (|a| * |b|) + 2 * (|c| * |d|) + 2 * (|e| * |f|) + 2 * (|g| * |h|) + |x| * (a ^ 2 + d ^ 2 + f ^ 2 + g ^ 2) + 2 * |y| * (|a| * |d| + |f| * |g|) +
            2 * |z| * (|a| * |f| + |d| * |g|))) / (a ^ 2 + d ^ 2 + f ^ 2 + g ^ 2) := by
          refine div_nonneg ?_ w0.le
          nlinarith
        refine hf.trans (le_of_eq ?_)
        simp only [sq_abs]
        field_simp
        ring
    · refine (nearSum_mul' h0 h1 hA h9 h5).bound h0 h1 hA (by decide) ?_ ?_
      · simp only [pointArg, motorArg]
        poly_value movePolys
        show _ = (-(2 * (a * d + f * g) * x) + (a * a - d * d + f * f - g * g) * y + 2 * (a * g - d * f) * z - 2 * (a * c - b * d + e * g - f * h)) /
          (a * a + d * d + f * f + g * g)
        rw [hwe]
        field_simp
        ring
      · simp only [pointArg, motorArg]
        poly_value movePolys
        simp only [ab, abs_mul, abs_pow, a2, hi]
        rw [← sub_nonneg]
        have q1 := s1 x a d f g
        have q2 := s1 z a g d f
        simp only [sq_abs, sub_sq] at q1 q2
        have hf : 0 ≤ ((a ^ 2 + d ^ 2 + f ^ 2 + g ^ 2) * (|x| + |y| + |z| + 2 * T) -
          (2 * (|a| * |c|) + 2 * (|b| * |d|) + 2 * (|e| * |g|) + 2 * (|f| * |h|) + |y| * (a ^ 2 + d ^ 2 + f ^ 2 + g ^ 2) + 2 * |x| * (|a| * |d| + |f| * |g|) +
            2 * |z| * (|a| * |g| + |d| * |f|))) / (a ^ 2 + d ^ 2 + f ^ 2 + g ^ 2) := by
          refine div_nonneg ?_ w0.le
          nlinarith
        refine hf.trans (le_of_eq ?_)
        simp only [sq_abs]
        field_simp
        ring
    · refine (nearSum_mul' h0 h1 hA h10 h4).bound h0 h1 hA (by decide) ?_ ?_
      · simp only [pointArg, motorArg]
        poly_value movePolys
        show _ = (-(2 * (a * f - d * g) * x) - 2 * (a * g + d * f) * y + (a * a + d * d - f * f - g * g) * z - 2 * (a * e - b * f - c * g + d * h)) /
          (a * a + d * d + f * f + g * g)
        rw [hwe]
        field_simp
        ring
      · simp only [pointArg, motorArg]
        poly_value movePolys
        simp only [ab, abs_mul, abs_pow, a2, hi]
        rw [← sub_nonneg]
        have q1 := s1 x a f d g
        have q2 := s1 y a g d f
        simp only [sq_abs, sub_sq] at q1 q2
        have hf : 0 ≤ ((a ^ 2 + d ^ 2 + f ^ 2 + g ^ 2) * (|x| + |y| + |z| + 2 * T) -
          (2 * (|a| * |e|) + 2 * (|b| * |f|) + 2 * (|c| * |g|) + 2 * (|d| * |h|) + |z| * (a ^ 2 + d ^ 2 + f ^ 2 + g ^ 2) + 2 * |x| * (|a| * |f| + |d| * |g|) +
            2 * |y| * (|a| * |g| + |d| * |f|))) / (a ^ 2 + d ^ 2 + f ^ 2 + g ^ 2) := by
          refine div_nonneg ?_ w0.le
          nlinarith
        refine hf.trans (le_of_eq ?_)
        simp only [sq_abs]
        field_simp
        ring

theorem near_add_nonneg {k l : Nat} {a b x y : ℝ} (hx : 0 ≤ x) (hy : 0 ≤ y) (ha : Near u k a x) (hb : Near u l b y) :
    Near u (max k l + 1) (A.add a b) (x + y) := by
  have := (nearSum_add h0 h1 hA ha hb.sum).near h0 h1 (by simp [hx, hy])
  simpa using this

omit hA in
theorem near_sqrt {fsqrt : ℝ → ℝ} (hs : ∀ x, 0 ≤ x → ∃ δ, |δ| ≤ u ∧ fsqrt x = Real.sqrt x * (1 + δ)) {k : Nat} {a x : ℝ} (hx : 0 ≤ x)
    (ha : Near u k a x) : Near u (k + 1) (fsqrt a) (Real.sqrt x) := by
  obtain ⟨t, ht, rfl⟩ := ha
  have t0 := ht.pos h0 h1
  obtain ⟨δ, hd, e⟩ := hs (x * t) (by positivity)
  have p0 := one_sub_pow_pos h0 h1 k
  have p1 := one_sub_pow_le h0 h1 k
  have hq : CloseToOne u k (Real.sqrt t) := by
    constructor
    · refine Real.le_sqrt_of_sq_le (le_trans ?_ ht.lo)
      nlinarith
    · have h2 : Real.sqrt t ≤ 1 / (1 - u) ^ k := by
        rw [Real.sqrt_le_left (by positivity)]
        have h3 : t ≤ 1 / (1 - u) ^ k := by rw [le_div_iff₀ p0]; exact ht.hi
        have h4 : 1 ≤ 1 / (1 - u) ^ k := by rw [le_div_iff₀ p0]; linarith
        nlinarith
      rw [le_div_iff₀ p0] at h2
      exact h2
  refine ⟨Real.sqrt t * (1 + δ), hq.mul h0 h1 (closeToOne_delta h0 h1 hd), ?_⟩
  rw [e, Real.sqrt_mul hx]
  ring

/-- **C57 (normalize)**: `normalize` of a vector (and of the axis of a rotor) computes each coordinate with a relative error of six roundings, so the
squared length of the result differs from one by at most twelve roundings. -/
theorem C57_normalize {fsqrt : ℝ → ℝ} (hs : ∀ x, 0 ≤ x → ∃ δ, |δ| ≤ u ∧ fsqrt x = Real.sqrt x * (1 + δ)) (x y z : ℝ)
    (hne : x ^ 2 + y ^ 2 + z ^ 2 ≠ 0) :
    ∃ a b c, A.normalize3 fsqrt x y z = [a, b, c] ∧
      |a - x / Real.sqrt (x ^ 2 + y ^ 2 + z ^ 2)| ≤ gam u 6 * |x / Real.sqrt (x ^ 2 + y ^ 2 + z ^ 2)| ∧
      |b - y / Real.sqrt (x ^ 2 + y ^ 2 + z ^ 2)| ≤ gam u 6 * |y / Real.sqrt (x ^ 2 + y ^ 2 + z ^ 2)| ∧
      |c - z / Real.sqrt (x ^ 2 + y ^ 2 + z ^ 2)| ≤ gam u 6 * |z / Real.sqrt (x ^ 2 + y ^ 2 + z ^ 2)| ∧
      |a ^ 2 + b ^ 2 + c ^ 2 - 1| ≤ gam u 12 := by
  have hsq : ∀ t : ℝ, Near u 1 (A.mul t t) (t ^ 2) := fun t => by
    rw [sq]
    exact near_mul h0 h1 hA (Near.rfl' t) (Near.rfl' t)
  have hsum : Near u 3 (A.add (A.add (A.mul x x) (A.mul y y)) (A.mul z z)) (x ^ 2 + y ^ 2 + z ^ 2) :=
    near_add_nonneg h0 h1 hA (by positivity) (by positivity) (near_add_nonneg h0 h1 hA (by positivity) (by positivity) (hsq x) (hsq y)) (hsq z)
  have hrt := near_sqrt h0 h1 hs (by positivity) hsum
  have hinv := near_div h0 h1 hA (Near.rfl' 1) hrt
  have w0 : 0 < x ^ 2 + y ^ 2 + z ^ 2 := lt_of_le_of_ne (by positivity) hne.symm
  have key : ∀ t : ℝ, Near u 6 (A.mul t (A.div 1 (fsqrt (A.add (A.add (A.mul x x) (A.mul y y)) (A.mul z z)))))
      (t / Real.sqrt (x ^ 2 + y ^ 2 + z ^ 2)) := fun t => by
    have := near_mul h0 h1 hA (Near.rfl' t) hinv
    rw [mul_one_div] at this
    exact this
  have err : ∀ t v : ℝ, Near u 6 v t → |v - t| ≤ gam u 6 * |t| := fun t v h => by
    have := h.sum.abs_sub h0 h1
    simpa using this
  refine ⟨_, _, _, rfl, err _ _ (key x), err _ _ (key y), err _ _ (key z), ?_⟩
  obtain ⟨r, hr, er⟩ := key x
  obtain ⟨s, hs', es⟩ := key y
  obtain ⟨t, ht, et⟩ := key z
  rw [er, es, et]
  have h2 : NearSum u 12 (x ^ 2 / (x ^ 2 + y ^ 2 + z ^ 2) * (r * r) + (y ^ 2 / (x ^ 2 + y ^ 2 + z ^ 2) * (s * s) +
      (z ^ 2 / (x ^ 2 + y ^ 2 + z ^ 2) * (t * t) + 0))) [x ^ 2 / (x ^ 2 + y ^ 2 + z ^ 2), y ^ 2 / (x ^ 2 + y ^ 2 + z ^ 2), z ^ 2 / (x ^ 2 + y ^ 2 + z ^ 2)] :=
    .cons (hr.mul h0 h1 hr) (.cons (hs'.mul h0 h1 hs') (.cons (ht.mul h0 h1 ht) .nil))
  have h3 := h2.bound h0 h1 hA (le_refl 12) (x := 1) (B := 1) (by
    simp only [List.sum_cons, List.sum_nil]
    field_simp
    ring) (le_of_eq (by
    have e1 : ∀ q : ℝ, |q ^ 2 / (x ^ 2 + y ^ 2 + z ^ 2)| = q ^ 2 / (x ^ 2 + y ^ 2 + z ^ 2) := fun q => abs_of_nonneg (by positivity)
    simp only [List.map_cons, List.map_nil, List.sum_cons, List.sum_nil, e1]
    field_simp
    ring))
  rw [mul_one] at h3
  refine (le_of_eq ?_).trans h3
  have e2 := Real.sq_sqrt w0.le
  congr 1
  rw [mul_pow, mul_pow, mul_pow, div_pow, div_pow, div_pow, e2]
  ring

/-- **C57 (conformal distances)**: `p >> q` for two conformal points is minus half the squared distance; with rounding it is off by at most 13
roundings of `|p|² + |q|²`.  The bound is not relative to the distance. -/
theorem C57_distance (E : Env ℝ) (a b c x y z : ℝ) :
    (distanceLam.compute cgaMetric true E [cgaArg [a, b, c], cgaArg [x, y, z]] >>= single) =
      ok ⟨[0], [-(1 / 2) * ((a - x) ^ 2 + (b - y) ^ 2 + (c - z) ^ 2)]⟩ ∧
    ∃ v, (A.compute cgaMetric true E [cgaArg [a, b, c], cgaArg [x, y, z]] distanceLam >>= single) = ok ⟨[0], [v]⟩ ∧
      |v - -(1 / 2) * ((a - x) ^ 2 + (b - y) ^ 2 + (c - z) ^ 2)| ≤
        gam u 13 * ((a ^ 2 + b ^ 2 + c ^ 2) + (x ^ 2 + y ^ 2 + z ^ 2)) := by
  constructor
  · rw [lam_ratPolys cgaMetric true E (by rfl) distance_ratPolys]
    simp [distanceRatPolys, ratPolyVal, ratMonoVal, ratVal, cgaArg, Rat32.one]
    ring
  · obtain ⟨vs, h2, h3⟩ := rounded_polys h0 h1 hA cgaMetric true E (args := [cgaArg [a, b, c], cgaArg [x, y, z]]) (by rfl) distance_ratPolys
    unfold distanceRatPolys at h3
    rcases h3 with _ | ⟨h4, _ | _⟩
    rename_i v
    refine ⟨v, h2, h4.bound h0 h1 hA (by decide) ?_ ?_⟩
    · simp [ratMonoVal, ratVal, cgaArg, Rat32.one]
      ring
    · have s1 : ∀ s t : ℝ, |s| * |t| ≤ 1 / 2 * (s ^ 2 + t ^ 2) := fun s t => by
        rw [← sq_abs s, ← sq_abs t]
        nlinarith [sq_nonneg (|s| - |t|)]
      have q1 := s1 a x
      have q2 := s1 b y
      have q3 := s1 c z
      simp [ratMonoVal, ratVal, cgaArg, Rat32.one, abs_mul]
      linarith

end theorems

/-- In single precision, the squared length of every vector is computed with a relative error below 2e-7 (unless it overflows or underflows). -/
example (E : Env ℝ) (a b c : ℝ) :
    ∃ v, ((binaryArith ℝ 24).compute vgaMetric false E [vectorArg [a, b, c]] squareLam >>= single) = ok ⟨[0], [v]⟩ ∧
      |v - (a ^ 2 + b ^ 2 + c ^ 2)| ≤ 2e-7 * (a ^ 2 + b ^ 2 + c ^ 2) := by
  obtain ⟨v, h2, h3⟩ := (C57_square (by positivity) (by norm_num) (C57_binary 24) E a b c).2
  refine ⟨v, h2, h3.trans (mul_le_mul_of_nonneg_right ?_ (by positivity))⟩
  refine (gam_le (by norm_num) (by norm_num)).trans ?_
  norm_num

/-- In double precision, rotating a vector with a rotor made from an angle and a unit axis moves no coordinate by more than 2e-15 times the sum of
the absolute values of the coordinates. -/
example (E : Env ℝ) (a b c x y z θ : ℝ) (hk : x ^ 2 + y ^ 2 + z ^ 2 = 1) :
    ∃ p v : Fin 3 → ℝ,
      (sandwichLam.compute vgaMetric false E [vectorArg [a, b, c], rotorArg [Real.cos θ, Real.sin θ, x, y, z]] >>= single >>= vectorOf 3) =
        ok (List.ofFn p) ∧
      ((binaryArith ℝ 53).compute vgaMetric false E [vectorArg [a, b, c], rotorArg [Real.cos θ, Real.sin θ, x, y, z]] sandwichLam >>= single
        >>= vectorOf 3) = ok (List.ofFn v) ∧ ∀ i, |v i - p i| ≤ 2e-15 * (|a| + |b| + |c|) := by
  obtain ⟨p, v, h2, h3, h4⟩ := C57_rotate (by positivity) (by norm_num) (C57_binary 53) E a b c (Real.cos θ) (Real.sin θ) x y z
  refine ⟨p, v, h2, h3, fun i => (h4 i).trans ?_⟩
  rw [hk, mul_one, Real.cos_sq_add_sin_sq, one_mul]
  refine mul_le_mul_of_nonneg_right ((gam_le (by norm_num) (by norm_num)).trans ?_) (by positivity)
  norm_num

/-- In single precision, `normalize` returns a vector of length one up to 1e-6 (squared), if `std::sqrt` is correctly rounded. -/
example (x y z : ℝ) (h : x ^ 2 + y ^ 2 + z ^ 2 ≠ 0) :
    ∃ a b c, (binaryArith ℝ 24).normalize3 (fun s => roundBits 24 (Real.sqrt s)) x y z = [a, b, c] ∧ |a ^ 2 + b ^ 2 + c ^ 2 - 1| ≤ 1e-6 := by
  obtain ⟨a, b, c, h2, _, _, _, h3⟩ := C57_normalize (u := (2 : ℝ)⁻¹ ^ 24) (by positivity) (by norm_num) (C57_binary 24)
    (fsqrt := fun s => roundBits 24 (Real.sqrt s)) (fun s _ => roundBits_delta 24 _) x y z h
  exact ⟨a, b, c, h2, h3.trans ((gam_le (by norm_num) (by norm_num)).trans (by norm_num))⟩

/-- A screw motion about the third axis in single precision. -/
example (E : Env ℝ) (x y z : ℝ) :
    ∃ p v : Fin 3 → ℝ,
      (sandwichLam.compute pgaMetric false E [pointArg [x, y, z], motorArg [3, 0, 0, 4, 5, 0, 0, 5]] >>= single >>= vgaPointOf) =
        ok (List.ofFn p) ∧
      ((binaryArith ℝ 24).compute pgaMetric false E [pointArg [x, y, z], motorArg [3, 0, 0, 4, 5, 0, 0, 5]] sandwichLam >>= single
        >>= (binaryArith ℝ 24).vgaPointOf) = ok (List.ofFn v) ∧ ∀ i, |v i - p i| ≤ gam ((2 : ℝ)⁻¹ ^ 24) 21 * (|x| + |y| + |z| + 2 * 2) :=
  C57_move (by positivity) (by norm_num) (C57_binary 24) E x y z 3 0 0 4 5 0 0 5 2 (by norm_num) (by norm_num) (by norm_num)

/-- The hypotheses of `C57_lambda` for the distance of two conformal points. -/
example (E : Env ℝ) (a b c x y z : ℝ) :=
  C57_lambda (by positivity) (by norm_num) (C57_binary 24) cgaMetric true E (args := [cgaArg [a, b, c], cgaArg [x, y, z]]) (by rfl)
    distance_ratPolys

/-- The hypotheses of `C57_coefficient` for `3/2 x² / y - 1` at `x = 3`, `y = 5`. -/
example : ∃ v, (binaryArith ℝ 24).term (⟨[3, 5], [], fun s _ _ => s, fun _ s => s⟩ : Env ℝ) .id
    [⟨⟨3, 2⟩, .zero, [⟨0, ⟨2, 1⟩⟩, ⟨1, ⟨-1, 1⟩⟩]⟩, ⟨⟨-1, 1⟩, .zero, []⟩] = ok v ∧ |v - (17 / 10 : ℝ)| ≤ gam ((2 : ℝ)⁻¹ ^ 24) 8 * (37 / 10) := by
  set E : Env ℝ := ⟨[3, 5], [], fun s _ _ => s, fun _ s => s⟩ with hE
  have e0 : E.rho 0 = 3 := by simp [hE, Env.rho, indConstantStart]
  have e1 : E.rho 1 = 5 := by simp [hE, Env.rho, indConstantStart]
  have i0 : EvalInd E ⟨0, ⟨2, 1⟩⟩ := ⟨Or.inr ⟨by decide, by simp [hE]⟩, by decide, by decide, by decide, fun h => absurd h (by decide)⟩
  have i1 : EvalInd E ⟨1, ⟨-1, 1⟩⟩ := ⟨Or.inr ⟨by decide, by simp [hE]⟩, by decide, by decide, by decide, fun _ => by rw [e1]; norm_num⟩
  have q0 : (⟨2, 1⟩ : Rat32).toQ = 2 := by norm_num [Rat32.toQ]
  have q1 : (⟨-1, 1⟩ : Rat32).toQ = -1 := by norm_num [Rat32.toQ]
  have q2 : (⟨3, 2⟩ : Rat32).toQ = 3 / 2 := by norm_num [Rat32.toQ]
  obtain ⟨v, h2, h3⟩ := C57_coefficient (by positivity) (by norm_num) (C57_binary 24) E
    [⟨⟨3, 2⟩, .zero, [⟨0, ⟨2, 1⟩⟩, ⟨1, ⟨-1, 1⟩⟩]⟩, ⟨⟨-1, 1⟩, .zero, []⟩] (by simp) (by
      intro m hm
      simp only [List.mem_cons, List.not_mem_nil, or_false] at hm
      rcases hm with rfl | rfl
      · refine ⟨by decide, fun i hi => ?_⟩
        simp only [List.mem_cons, List.not_mem_nil, or_false] at hi
        rcases hi with rfl | rfl
        · exact ⟨i0, rfl⟩
        · exact ⟨i1, rfl⟩
      · exact ⟨by decide, fun i hi => absurd hi (by simp)⟩)
  have p0 : E.pw 0 2 = 9 := by
    unfold Env.pw
    rw [if_pos (by norm_num), e0]
    norm_num
  have p1 : E.pw 1 (-1) = 1 / 5 := by
    unfold Env.pw
    rw [if_pos (by norm_num), e1]
    norm_num
  refine ⟨v, h2, ?_⟩
  simp only [monsVal, List.map_cons, List.map_nil, List.sum_cons, List.sum_nil, NMon.val, indsVal, List.prod_cons, List.prod_nil, Ind.val, q0, q1, q2,
    p0, p1] at h3
  have c8 : termCost [⟨⟨3, 2⟩, .zero, [⟨0, ⟨2, 1⟩⟩, ⟨1, ⟨-1, 1⟩⟩]⟩, ⟨⟨-1, 1⟩, .zero, []⟩] = 8 := by decide
  rw [c8] at h3
  norm_num at h3 ⊢
  exact h3

deriving instance DecidableEq for Entity

/-- Number types for the examples below; no function is called. -/
def plainEnv : Env ℚ := ⟨[], [], fun x _ _ => x, fun _ x => x⟩

/-- C57, refuted for relative errors: in single precision `p >> q` is `1/2` (a negative squared distance) if both points are `(997, 2001, 1/2)`, and zero
for the points `(1000, 2000, 3/2)` and `(1000, 2000, 1/2)`, whose distance is one. -/
theorem C57_relative_false :
    ((binaryArith ℚ 24).compute cgaMetric true plainEnv [cgaArg [997, 2001, 1 / 2], cgaArg [997, 2001, 1 / 2]] distanceLam >>= single) =
      ok ⟨[0], [1 / 2]⟩ ∧
    ((binaryArith ℚ 24).compute cgaMetric true plainEnv [cgaArg [1000, 2000, 3 / 2], cgaArg [1000, 2000, 1 / 2]] distanceLam >>= single) =
      ok ⟨[0], [0]⟩ ∧
    (distanceLam.compute cgaMetric true plainEnv [cgaArg [1000, 2000, 3 / 2], cgaArg [1000, 2000, 1 / 2]] >>= single) = ok ⟨[0], [-1 / 2]⟩ := by
  decide +kernel

end Gal
