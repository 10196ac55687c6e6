import Verif.Lemmas.FloatNewton
import Verif.Lemmas.RoundingModes

/-! C118: a position bound to a straight-sided element by the Newton mapping in `double` arithmetic lies in it up to the tolerances and rounding errors. -/

namespace Verif.Props.C118
open Verif.Model.NewtonKernel Verif.Model.FloatExpr Verif.Model.FloatNewton Verif.Spec.Rounding Verif.Spec.LinearElements Verif.Props.C59
open Verif.Lemmas Verif.Lemmas.RoundingModes

/-! ### Statement -/

/-- Three doubles of magnitude at most `M`. -/
def Doubles (M : ℝ) (v : V3 ℝ) : Prop := (IsFloat 53 (-1074) v.x ∧ IsFloat 53 (-1074) v.y ∧ IsFloat 53 (-1074) v.z) ∧ |v.x| ≤ M ∧ |v.y| ≤ M ∧ |v.z| ≤ M

/-- The scaling of the residual in direction `d`: one number for hexahedra, one for each direction otherwise. -/
def scale (s : Shape) (sc : V3 ℝ) (d : ℕ) : ℝ :=
  match s, d with
  | .hex, _ => sc.x
  | _, 0 => sc.x
  | _, 1 => sc.y
  | _, _ => sc.z

/-- The rounding errors of the map of the element, relative to the largest coordinate. -/
noncomputable def roundingError : Shape → ℝ
  | .pyr => 1 / 2 ^ 37
  | _ => 1 / 2 ^ 42

/-- The distance between the position and the image of the stored reference position that is possible in direction `d` if the tolerance is `T`. -/
noncomputable def distance (s : Shape) (sc : V3 ℝ) (T M : ℝ) (d : ℕ) : ℝ := (1 + 1 / 2 ^ 51) * (T + 2 ^ (-1074 : ℤ)) / scale s sc d + roundingError s * M

/-- The conclusion about the stored reference position `xi` of the position `q`. -/
def Inside (s : Shape) (c : ℕ → V3 ℝ) (sc : V3 ℝ) (tol T M δ : ℝ) (q : V3 ℝ) (xi : V3 Double) : Prop :=
  ∃ x, finite s xi = some x ∧ InRef (5 * δ + 1 / 2 ^ 42) s x ∧ (((s = .pyr → x.z ≠ 1) ∧ Within s (X s c x) q (distance s sc T M)) ∨
    (s = .pyr ∧ Within s (c 4) q (fun _ => (1 + 1 / 2 ^ 51) * tol) ∧ Within s x ⟨-1, -1, 1⟩ (fun _ => (1 + 1 / 2 ^ 51) * tol)))

/-! ### Bounded coordinates -/

theorem errF_eq (s : Shape) : FloatNewton.errF s = roundingError s := by
  cases s <;> simp only [FloatNewton.errF, roundingError, FloatExpr.w] <;> norm_num

/-- Bounding a coordinate by `lo` and `hi`. -/
theorem clamp {o : Ops Double} (ho : FloatOps o) {lo hi : Fin64} (hl : lo.1 ≤ hi.1) (v : Double) :
    o.kmax (o.kmin v (some hi)) (some lo) = none ∨ ∃ a : Fin64, o.kmax (o.kmin v (some hi)) (some lo) = some a ∧ lo.1 ≤ a.1 ∧ a.1 ≤ hi.1 := by
  have top : ∀ a : Fin64, a.1 ≤ hi.1 → ∃ b : Fin64, o.kmax (some a) (some lo) = some b ∧ lo.1 ≤ b.1 ∧ b.1 ≤ hi.1 := by
    intro a ha
    rw [ho.kmax]
    split_ifs with h
    · exact ⟨lo, rfl, le_rfl, hl⟩
    · exact ⟨a, rfl, (not_le.1 h).le, ha⟩
  cases v with
  | none =>
    rcases ho.kminNone (some hi) with h | h <;> rw [h]
    · rcases ho.kmaxNone (some lo) with g | g <;> rw [g]
      · exact .inl rfl
      · exact .inr ⟨lo, rfl, le_rfl, hl⟩
    · exact .inr (top hi le_rfl)
  | some a =>
    rw [ho.kmin]
    split_ifs with h
    · exact .inr (top a h)
    · exact .inr (top hi le_rfl)

theorem finite_inv {s : Shape} {v : V3 Double} {x : V3 ℝ} (h : finite s v = some x) :
    ∃ a b : Fin64, v.x = some a ∧ v.y = some b ∧ x.x = a.1 ∧ x.y = b.1 ∧ IsFloat 53 (-1074) x.z ∧ (s ≠ .quad → ∃ d : Fin64, v.z = some d ∧ x.z = d.1) := by
  obtain ⟨v0, v1, v2⟩ := v
  cases s
  case quad =>
    cases v0 <;> cases v1 <;> simp only [finite, reduceCtorEq, Option.some.injEq] at h
    subst h
    exact ⟨_, _, rfl, rfl, rfl, rfl, Rounding.float_zero, fun h => absurd rfl h⟩
  all_goals
    cases v0 <;> cases v1 <;> cases v2 <;> simp only [finite, reduceCtorEq, Option.some.injEq] at h
    rename_i a b d
    subst h
    exact ⟨_, _, rfl, rfl, rfl, rfl, d.2, fun _ => ⟨_, rfl, rfl⟩⟩

/-! ### Soundness -/

/-- **C118.** Let the straight-sided element have the vertices `c` and let the particle be at `q`, with coordinates of magnitude at most `M`. If the Newton mapping in `double` arithmetic, with any
rounding mode and any contractions, with any starting point and any Newton steps, accepts the particle, then the stored reference position consists of finite numbers, is in the reference element enlarged by
five times the tolerance of the collapsed coordinates and rounding errors, and the exact map of the element takes it to `q` up to the tolerance divided by the scaling of the residual and rounding errors
of `2^-42 M` (`2^-37 M` for pyramids). For a pyramid this is unless the particle and the stored reference position are at the apex. -/
theorem accepted_inside_double {rnd : ℝ → ℝ} (R : Rounding 53 (-1074) rnd) (s : Shape) (c : ℕ → V3 ℝ) (sc : V3 ℝ) (hs : 0 < sc.x ∧ 0 < sc.y ∧ 0 < sc.z) (M : ℝ) (hM : 2 ^ (-910 : ℤ) ≤ M)
    (hc : ∀ i, Doubles M (c i)) {tol : ℝ} {I : Impl Double} (hI : FloatImpl rnd tol s c sc I) {o : Ops Double} (ho : FloatOps o) (t : Settings Double) (T lo hi : Fin64) (ht : t.tol = some T)
    (hlo : t.lo = some lo) (hhi : t.hi = some hi) {δ : ℝ} (hδ : δ ≤ 1 / 8) (h1 : -1 - δ ≤ lo.1) (h2 : lo.1 ≤ hi.1) (h3 : hi.1 ≤ 1 + δ) (h0 : 0 ≤ δ) (p : V3 Double) (q : V3 ℝ)
    (hp : finite s p = some q) (hq : Doubles M q) (start : Option (V3 Double)) (xi : V3 Double) (h : tryCandidate o I t p start = some xi) : Inside s c sc tol T.1 M δ q xi := by
  obtain ⟨hr, ⟨eta, hx, -⟩, -⟩ := C36.accepted_sound o I t p start xi h
  rw [hlo, hhi] at hx
  rw [ht] at hr
  have hM' : 2 ^ 90 * FloatExpr.tiny ≤ M := by
    refine le_trans (le_of_eq ?_) hM
    unfold FloatExpr.tiny
    rw [show (2 : ℝ) ^ 90 = 2 ^ (90 : ℤ) by norm_num, ← zpow_add₀ (by norm_num)]
    norm_num
  -- the stored position is finite
  obtain ⟨x, hfx⟩ : ∃ x, finite s xi = some x := by
    cases hf : finite s xi with
    | some x => exact ⟨x, rfl⟩
    | none => rw [hI.residualNone xi p hf, ho.leNone] at hr; exact absurd hr (by simp)
  obtain ⟨e, he⟩ : ∃ e, finite s ⟨o.kmax (o.kmin eta.x (some hi)) (some lo), o.kmax (o.kmin eta.y (some hi)) (some lo), o.kmax (o.kmin eta.z (some hi)) (some lo)⟩ = some e := by
    cases hf : finite s ⟨o.kmax (o.kmin eta.x (some hi)) (some lo), o.kmax (o.kmin eta.y (some hi)) (some lo), o.kmax (o.kmin eta.z (some hi)) (some lo)⟩ with
    | some e => exact ⟨e, rfl⟩
    | none => rw [hx, hI.collapsedNone _ hf] at hfx; cases hfx
  obtain ⟨x', hx', r0, r1, r2⟩ := hI.collapsed _ e he
  rw [← hx, hfx] at hx'
  obtain rfl : x = x' := by simpa using hx'
  obtain ⟨a, b, va, vb, ea, eb, fez, hz⟩ := finite_inv he
  have bnd : ∀ v : Double, ∀ a : Fin64, o.kmax (o.kmin v (some hi)) (some lo) = some a → -1 - δ ≤ a.1 ∧ a.1 ≤ 1 + δ := by
    intro v a hv
    rcases clamp ho h2 v with g | ⟨a', g, g1, g2⟩ <;> rw [g] at hv
    · cases hv
    · cases hv; exact ⟨h1.trans g1, g2.trans h3⟩
  obtain ⟨xa, xb, -, -, fxa, fxb, fxz, -⟩ := finite_inv hfx
  obtain ⟨good, inref⟩ := FloatNewton.stored R h0 hδ s e x fez (fxa ▸ xa.2) (fxb ▸ xb.2) (ea ▸ bnd _ _ va) (eb ▸ bnd _ _ vb)
    (fun hn => by obtain ⟨d, hd, hd'⟩ := hz hn; exact hd' ▸ bnd _ _ hd) r0 r1 r2
  have hw : FloatExpr.w = 1 / 2 ^ 51 := rfl
  have hw' : FloatExpr.w * 512 = 1 / 2 ^ 42 := by rw [hw]; norm_num
  rw [hw'] at inref
  refine ⟨x, hfx, inref, ?_⟩
  obtain ⟨ra, rb⟩ := hI.residual xi p x q hfx hp
  by_cases hap : s = .pyr ∧ apexF rnd tol c x q
  · right
    obtain ⟨rfl, ⟨g0, g1, g2⟩, k0, k1, k2⟩ := hap
    have f1 := FloatNewton.one_float
    have fm := Rounding.float_neg f1
    have c4 := (hc 4).1
    rw [← hw]
    exact ⟨rfl, ⟨FloatNewton.unround_sub R c4.1 hq.1.1 g0, FloatNewton.unround_sub R c4.2.1 hq.1.2.1 g1, fun _ => FloatNewton.unround_sub R c4.2.2 hq.1.2.2 g2⟩,
      FloatNewton.unround_sub R (fxa ▸ xa.2) fm k0, FloatNewton.unround_sub R (fxb ▸ xb.2) fm k1, fun _ => FloatNewton.unround_sub R fxz f1 k2⟩
  · left
    obtain ⟨rn, rf⟩ := rb hap
    by_cases hz1 : s = .pyr ∧ rnd (x.z - 1) = 0
    · rw [rn hz1, ho.leNone] at hr; exact absurd hr (by simp)
    obtain ⟨f, f0, f1, f2, r, hr', hrv⟩ := rf hz1
    rw [hr', ho.le, decide_eq_true_eq, hrv] at hr
    have hzn : s = .pyr → x.z ≠ 1 := fun hs' hx1 => hz1 ⟨hs', by rw [hx1, sub_self]; exact R.exact 0 (Rounding.float_zero)⟩
    obtain ⟨d0, d1, d2⟩ := FloatNewton.resid_err R hM' s c x q f (fun i => (hc i).2) hq.2 good hzn f0 f1 f2
    obtain ⟨m0, m1, m2⟩ := FloatNewton.measure_le R s sc f hs hr
    rw [errF_eq] at d0 d1 d2
    have sum : ∀ u v A B : ℝ, |u - v| ≤ B → |u| ≤ A → |v| ≤ A + B := fun u v A B h1 h2 => by
      have : |v| ≤ |v - u| + |u| := by simpa using abs_add_le (v - u) u
      rw [abs_sub_comm v u] at this
      linarith
    exact ⟨hzn, sum _ _ _ _ d0 m0, sum _ _ _ _ d1 m1, fun hn => sum _ _ _ _ (d2 hn) (m2 hn)⟩

/-- **C118**, for the second attempt with a grid of starting points. -/
theorem accepted_final_inside_double {rnd : ℝ → ℝ} (R : Rounding 53 (-1074) rnd) (s : Shape) (c : ℕ → V3 ℝ) (sc : V3 ℝ) (hs : 0 < sc.x ∧ 0 < sc.y ∧ 0 < sc.z) (M : ℝ) (hM : 2 ^ (-910 : ℤ) ≤ M)
    (hc : ∀ i, Doubles M (c i)) {tol : ℝ} {I : Impl Double} (hI : FloatImpl rnd tol s c sc I) {o : Ops Double} (ho : FloatOps o) (t : Settings Double) (T lo hi : Fin64) (ht : t.tol = some T)
    (hlo : t.lo = some lo) (hhi : t.hi = some hi) {δ : ℝ} (hδ : δ ≤ 1 / 8) (h1 : -1 - δ ≤ lo.1) (h2 : lo.1 ≤ hi.1) (h3 : hi.1 ≤ 1 + δ) (h0 : 0 ≤ δ) (p : V3 Double) (q : V3 ℝ)
    (hp : finite s p = some q) (hq : Doubles M q) (grid : List (V3 Double)) (xi : V3 Double) (h : acceptFinal o I t grid p = some xi) : Inside s c sc tol T.1 M δ q xi := by
  obtain ⟨start, -, hst⟩ := C36.accepted_final_sound o I t grid p xi h
  exact accepted_inside_double R s c sc hs M hM hc hI ho t T lo hi ht hlo hhi hδ h1 h2 h3 h0 p q hp hq (some start) xi hst

/-! ### Example: an implementation without contractions -/

section Example
variable {rnd : ℝ → ℝ}

/-- The double nearest by `rnd`. -/
noncomputable def toDouble (R : Rounding 53 (-1074) rnd) (x : ℝ) : Double := some ⟨rnd x, R.float x⟩

open Classical in
/-- An implementation: the residual and the coordinates without contractions, Newton steps that do nothing. -/
noncomputable def exImpl (R : Rounding 53 (-1074) rnd) (tol : ℝ) (s : Shape) (c : ℕ → V3 ℝ) (sc : V3 ℝ) : Impl Double where
  initial _ := ⟨toDouble R 0, toDouble R 0, toDouble R 0⟩
  residual xi p :=
    (match finite s xi, finite s p with
      | some x, some q =>
        if s = .pyr ∧ apexF rnd tol c x q then toDouble R 0
        else if s = .pyr ∧ rnd (x.z - 1) = 0 then none
        else toDouble R (measureF rnd s sc ⟨FloatExpr.run rnd (newtonF s c x q).x, FloatExpr.run rnd (newtonF s c x q).y, FloatExpr.run rnd (newtonF s c x q).z⟩)
      | _, _ => none, xi)
  step xi _ _ := xi
  toCollapsed v := v
  fromCollapsed e :=
    match finite s e with
    | some v => ⟨toDouble R (FloatExpr.run rnd (fromCollapsed s v).x), toDouble R (FloatExpr.run rnd (fromCollapsed s v).y), toDouble R (FloatExpr.run rnd (fromCollapsed s v).z)⟩
    | none => ⟨none, none, none⟩

theorem measure_float (R : Rounding 53 (-1074) rnd) (s : Shape) (sc f : V3 ℝ) : rnd (measureF rnd s sc f) = measureF rnd s sc f := by
  refine R.exact _ ?_
  have mx : ∀ a b : ℝ, IsFloat 53 (-1074) a → IsFloat 53 (-1074) b → IsFloat 53 (-1074) (max a b) := fun a b ha hb => by
    rcases max_choice a b with h | h <;> rw [h] <;> assumption
  cases s
  · exact mx _ _ (R.float _) (R.float _)
  · exact R.float _
  all_goals exact mx _ _ (mx _ _ (R.float _) (R.float _)) (R.float _)

open Classical in
theorem exImpl_ok (R : Rounding 53 (-1074) rnd) (tol : ℝ) (s : Shape) (c : ℕ → V3 ℝ) (sc : V3 ℝ) : FloatImpl rnd tol s c sc (exImpl R tol s c sc) where
  residual xi p x q hx hq := by
    have e : ((exImpl R tol s c sc).residual xi p).1 = if s = .pyr ∧ apexF rnd tol c x q then toDouble R 0
        else if s = .pyr ∧ rnd (x.z - 1) = 0 then none
        else toDouble R (measureF rnd s sc ⟨FloatExpr.run rnd (newtonF s c x q).x, FloatExpr.run rnd (newtonF s c x q).y, FloatExpr.run rnd (newtonF s c x q).z⟩) := by
      simp only [exImpl, hx, hq]
    rw [e]
    refine ⟨fun h => ?_, fun h => ⟨fun g => ?_, fun g => ?_⟩⟩
    · rw [if_pos h]; exact ⟨_, rfl, R.exact 0 Rounding.float_zero⟩
    · rw [if_neg h, if_pos g]
    · rw [if_neg h, if_neg g]
      have safe : ∀ e, e = (newtonF s c x q).x ∨ e = (newtonF s c x q).y ∨ e = (newtonF s c x q).z → FloatExpr.Safe rnd e := by
        cases s
        case pyr =>
          have hz : rnd (x.z - 1) ≠ 0 := fun hz => g ⟨rfl, hz⟩
          have hz' : FloatExpr.run rnd (Expr.sub (lit x.z) (lit 1)) ≠ 0 := hz
          rintro e (rfl | rfl | rfl) <;> simp only [newtonF, Verif.Model.FloatLinear.Pyr.newtonF, lit3, HAdd.hAdd, Add.add, HSub.hSub, Sub.sub, HMul.hMul, Mul.mul, HDiv.hDiv, Div.div, Neg.neg, FloatExpr.Safe, and_true, true_and] <;> repeat' first | exact hz' | constructor
        all_goals rintro e (rfl | rfl | rfl) <;> repeat' first | trivial | constructor
      exact ⟨_, FloatExpr.run_res rnd _ (safe _ (.inl rfl)), FloatExpr.run_res rnd _ (safe _ (.inr (.inl rfl))), FloatExpr.run_res rnd _ (safe _ (.inr (.inr rfl))), _, rfl, measure_float R s sc _⟩
  residualNone xi p hx := by simp only [exImpl, hx]
  collapsed e v hv := by
    have fl : ∀ e, e = (fromCollapsed s v).x ∨ e = (fromCollapsed s v).y ∨ e = (fromCollapsed s v).z → FloatExpr.Safe rnd e ∧ rnd (FloatExpr.run rnd e) = FloatExpr.run rnd e := by
      obtain ⟨a, b, -, -, ha, hb, hz, -⟩ := finite_inv hv
      have f0 := R.exact _ (ha ▸ a.2 : IsFloat 53 (-1074) v.x)
      have f1 := R.exact _ (hb ▸ b.2 : IsFloat 53 (-1074) v.y)
      have f2 := R.exact _ hz
      have f3 : rnd 0 = 0 := R.exact _ Rounding.float_zero
      cases s <;> rintro e (rfl | rfl | rfl) <;> refine ⟨by repeat' first | trivial | constructor, ?_⟩ <;> first | assumption | exact R.exact _ (R.float _)
    refine ⟨⟨FloatExpr.run rnd (fromCollapsed s v).x, FloatExpr.run rnd (fromCollapsed s v).y, FloatExpr.run rnd (fromCollapsed s v).z⟩, ?_, FloatExpr.run_res rnd _ (fl _ (.inl rfl)).1,
      FloatExpr.run_res rnd _ (fl _ (.inr (.inl rfl))).1, FloatExpr.run_res rnd _ (fl _ (.inr (.inr rfl))).1⟩
    have e1 : (exImpl R tol s c sc).fromCollapsed e = ⟨toDouble R (FloatExpr.run rnd (fromCollapsed s v).x), toDouble R (FloatExpr.run rnd (fromCollapsed s v).y),
        toDouble R (FloatExpr.run rnd (fromCollapsed s v).z)⟩ := by simp only [exImpl, hv]
    have e2 := (fl _ (.inl rfl)).2
    have e3 := (fl _ (.inr (.inl rfl))).2
    have e4 := (fl _ (.inr (.inr rfl))).2
    rw [e1]
    cases s <;> simp only [finite, toDouble, e2, e3, e4] <;> rfl
  collapsedNone e he := by
    have : (exImpl R tol s c sc).fromCollapsed e = ⟨none, none, none⟩ := by simp only [exImpl, he]
    rw [this]
    cases s <;> rfl

open Classical in
/-- Comparisons of doubles; a number that is not finite is taken as a NaN. -/
noncomputable def exOps : Ops Double where
  gt a b := match a, b with | some a, some b => decide (a.1 > b.1) | _, _ => false
  le a b := match a, b with | some a, some b => decide (a.1 ≤ b.1) | _, _ => false
  absGt15 a := match a with | some a => decide (|a.1| > 15) | none => false
  isfinite a := a.isSome
  kmin a b := match a, b with | some a, some b => if a.1 ≤ b.1 then some a else some b | none, b => b | a, none => a
  kmax a b := match a, b with | some a, some b => if a.1 ≤ b.1 then some b else some a | none, b => b | a, none => a

theorem exOps_ok : FloatOps exOps where
  le a b := by simp [exOps]
  leNone b := by cases b <;> rfl
  kmin a b := by simp [exOps]
  kmax a b := by simp [exOps]
  kminNone b := by cases b <;> exact .inr rfl
  kmaxNone b := by cases b <;> exact .inr rfl

theorem runs (x : ℝ) : FloatExpr.run rnd (lit x) = x := rfl
theorem run_add (a b : Expr) : FloatExpr.run rnd (a + b) = rnd (FloatExpr.run rnd a + FloatExpr.run rnd b) := rfl
theorem run_sub (a b : Expr) : FloatExpr.run rnd (a - b) = rnd (FloatExpr.run rnd a - FloatExpr.run rnd b) := rfl
theorem run_mul (a b : Expr) : FloatExpr.run rnd (a * b) = rnd (FloatExpr.run rnd a * FloatExpr.run rnd b) := rfl
theorem run_neg (a : Expr) : FloatExpr.run rnd (-a) = -FloatExpr.run rnd a := rfl

/-- The square with the vertices `(-1, -1)`, `(1, -1)`, `(1, 1)`, `(-1, 1)`. -/
def square (k : ℕ) : V3 ℝ := ([⟨-1, -1, 0⟩, ⟨1, -1, 0⟩, ⟨1, 1, 0⟩, ⟨-1, 1, 0⟩] : List (V3 ℝ)).getD k ⟨0, 0, 0⟩

/-- An integer. -/
def dbl (k : ℤ) (h : |k| < 100) : Fin64 := ⟨k, by
  have := Rounding.float_int (p := 53) (emin := -1074) (by norm_num) (by norm_num) (m := k) (by linarith)
  simpa using this⟩

/-- The centre of a square is accepted with default rounding; all hypotheses of the theorem hold. -/
example : ∃ (rnd : ℝ → ℝ) (R : Rounding 53 (-1074) rnd), (∀ i, Doubles 1 (square i)) ∧ FloatImpl rnd 0 .quad square ⟨1, 1, 1⟩ (exImpl R 0 .quad square ⟨1, 1, 1⟩) ∧ FloatOps exOps ∧
    tryCandidate exOps (exImpl R 0 .quad square ⟨1, 1, 1⟩) ⟨some (dbl 0 (by decide)), 10, some (dbl 1 (by decide)), some (dbl (-1) (by decide))⟩ ⟨toDouble R 0, toDouble R 0, none⟩ none =
      some ⟨toDouble R 0, toDouble R 0, toDouble R 0⟩ := by
  have R := nearest_rounding (nearestEven_spec (p := 53) (emin := -1074) (by norm_num)).toNearest
  have z0 : toDouble R 0 = some (dbl 0 (by decide)) := by
    unfold toDouble dbl
    simp only [Option.some.injEq, Subtype.mk.injEq, Int.cast_zero]
    exact R.exact 0 Rounding.float_zero
  refine ⟨_, R, ?_, exImpl_ok _ _ _ _ _, exOps_ok, ?_⟩
  · have f0 : IsFloat 53 (-1074) (0 : ℝ) := Rounding.float_zero
    have f1 := FloatNewton.one_float
    have fm := Rounding.float_neg f1
    intro i
    rcases i with _ | _ | _ | _ | i <;> refine ⟨⟨?_, ?_, ?_⟩, ?_, ?_, ?_⟩ <;> simp only [square, List.getD_cons_zero, List.getD_cons_succ, List.getD_nil] <;> first | assumption | norm_num
  · have q : ∀ k : ℤ, |k| < 2 ^ 53 → nearestEven 53 (-1074) (k * 2 ^ (-2 : ℤ)) = k * 2 ^ (-2 : ℤ) := fun k hk => R.exact _ ⟨k, -2, hk, by norm_num, rfl⟩
    have q0 := q 0 (by norm_num)
    have q1 := q 1 (by norm_num)
    have q2 := q (-1) (by norm_num)
    have q3 := q 4 (by norm_num)
    have q4 := q (-4) (by norm_num)
    have q5 := q 2 (by norm_num)
    have q6 := q (-2) (by norm_num)
    norm_num at q0 q1 q2 q3 q4 q5 q6
    have hrun : FloatExpr.run (nearestEven 53 (-1074)) (newtonF .quad square ⟨0, 0, 0⟩ ⟨0, 0, 0⟩).x = 0 ∧ FloatExpr.run (nearestEven 53 (-1074)) (newtonF .quad square ⟨0, 0, 0⟩ ⟨0, 0, 0⟩).y = 0 := by
      constructor <;>
      simp only [newtonF, Verif.Model.FloatLinear.Quad.newtonF, lit3, square, List.getD_cons_zero, List.getD_cons_succ, runs, run_add, run_sub, run_mul, run_neg] <;> norm_num [q0, q1, q2, q3, q4, q5, q6]
    have hres : ∀ v : Double, ((exImpl R 0 .quad square ⟨1, 1, 1⟩).residual ⟨toDouble R 0, toDouble R 0, v⟩ ⟨toDouble R 0, toDouble R 0, none⟩).1 = toDouble R 0 := by
      intro v
      have hf : ∀ u : Double, finite .quad ⟨toDouble R 0, toDouble R 0, u⟩ = some ⟨0, 0, 0⟩ := fun u => by
        simp only [z0, finite, dbl, Int.cast_zero]
      simp only [exImpl, hf, reduceCtorEq, false_and, if_false, measureF, hrun.1, hrun.2, abs_zero, zero_mul, q0, max_self]
    have hgt : exOps.gt (toDouble R 0) (some (dbl 0 (by decide))) = false := by rw [z0]; simp [exOps]
    have hle : exOps.le (toDouble R 0) (some (dbl 0 (by decide))) = true := by rw [z0]; simp [exOps]
    have hcl : exOps.kmax (exOps.kmin (toDouble R 0) (some (dbl 1 (by decide)))) (some (dbl (-1) (by decide))) = toDouble R 0 := by rw [z0]; simp [exOps, dbl]
    have hinv : (xInverse exOps (exImpl R 0 .quad square ⟨1, 1, 1⟩) ⟨toDouble R 0, toDouble R 0, none⟩ 10 (some (dbl 0 (by decide))) none) = (⟨toDouble R 0, toDouble R 0, toDouble R 0⟩, true) := by
      have hi : (exImpl R 0 .quad square ⟨1, 1, 1⟩).initial ⟨toDouble R 0, toDouble R 0, none⟩ = ⟨toDouble R 0, toDouble R 0, toDouble R 0⟩ := rfl
      simp only [xInverse, Option.getD_none, hi, hres, show (10 : ℤ).toNat = 9 + 1 from rfl, iterate, hgt, Bool.false_and, Bool.false_eq_true, if_false, hle]
    have hfc : (exImpl R 0 .quad square ⟨1, 1, 1⟩).fromCollapsed ⟨toDouble R 0, toDouble R 0, toDouble R 0⟩ = ⟨toDouble R 0, toDouble R 0, toDouble R 0⟩ := by
      have hf : finite .quad ⟨toDouble R 0, toDouble R 0, toDouble R 0⟩ = some ⟨0, 0, 0⟩ := by simp only [z0, finite, dbl, Int.cast_zero]
      simp only [exImpl, hf, fromCollapsed, runs]
    have htc : ∀ v, (exImpl R 0 .quad square ⟨1, 1, 1⟩).toCollapsed v = v := fun _ => rfl
    simp only [tryCandidate, hinv, htc, hcl, hfc, hres, hle, Bool.and_self, if_true]

end Example

end Verif.Props.C118
