import Verif.Model.NanNewton
import Verif.Lemmas.FloatLinear
import Verif.Props.C36_NewtonInverse
import Verif.Lemmas.RoundingModes

/-! C119: particles whose position is NaN in some directions and the Newton mapping. -/

namespace Verif.Props.C119
open Verif.Model.NewtonKernel Verif.Model.FloatExpr Verif.Model.NanNewton Verif.Spec.LinearElements Verif.Spec.Rounding

variable {rnd : ℝ → ℝ}

/-! ### Expressions without a value -/

/-- The expression has a NaN as one of its arguments. -/
def HasNan : Expr → Prop
  | .lit _ => False
  | .add a b => HasNan a ∨ HasNan b
  | .sub a b => HasNan a ∨ HasNan b
  | .mul a b => HasNan a ∨ HasNan b
  | .div a b => HasNan a ∨ HasNan b ∨ b = lit 0
  | .neg a => HasNan a

theorem no_value {e : Expr} {r : Bool} {v : ℝ} (h : Res rnd e r v) : ¬ HasNan e := by
  induction h with
  | lit => exact id
  | add _ _ ha hb => exact fun h => h.elim ha hb
  | sub _ _ ha hb => exact fun h => h.elim ha hb
  | mul _ _ ha hb => exact fun h => h.elim ha hb
  | round _ h => exact h
  | div _ h2 hy ha hb =>
    rintro (h | h | h)
    · exact ha h
    · exact hb h
    · subst h
      cases h2 with
      | lit => exact hy rfl
      | round h => cases h
  | neg _ h => exact h

theorem computes_nan {e : Expr} {out : Num} (h : HasNan e) (hc : Computes rnd e out) : out = none := by
  cases out with
  | none => rfl
  | some v => exact absurd h (no_value hc)

/-- A direction of the position that is NaN makes this direction of the residual NaN. -/
theorem nan_direction (s : Shape) (c : ℕ → V3 ℝ) (xi p : V3 Num) :
    (p.x = none → HasNan (newtonF s c xi p).x) ∧ (p.y = none → HasNan (newtonF s c xi p).y) ∧ (s ≠ .quad → p.z = none → HasNan (newtonF s c xi p).z) := by
  have n : HasNan (arg none) := .inr (.inr rfl)
  obtain ⟨p0, p1, p2⟩ := p
  refine ⟨?_, ?_, fun hq => ?_⟩ <;> rintro rfl
  · cases s
    · exact .inl (.inl (.inl (.inl n)))
    · exact .inl (.inl (.inl (.inl (.inl (.inl (.inl (.inl n)))))))
    · exact .inl (.inl (.inl (.inl (.inl (.inl n)))))
    · exact .inl (.inl (.inl (.inl (.inl n))))
    · exact .inl (.inl (.inl (.inl n)))
  · cases s
    · exact .inl (.inl (.inl (.inl n)))
    · exact .inl (.inl (.inl (.inl (.inl (.inl (.inl (.inl n)))))))
    · exact .inl (.inl (.inl (.inl (.inl (.inl n)))))
    · exact .inl (.inl (.inl (.inl (.inl n))))
    · exact .inl (.inl (.inl (.inl n)))
  · cases s
    · exact absurd rfl hq
    · exact .inl (.inl (.inl (.inl (.inl (.inl (.inl (.inl n)))))))
    · exact .inl (.inl (.inl (.inl (.inl (.inl n)))))
    · exact .inl (.inl (.inl (.inl (.inl n))))
    · exact .inl (.inl (.inl (.inl n)))

/-! ### What an accepted position satisfies -/

/-- A position that is NaN in all directions which the shape uses. -/
def AllNan (s : Shape) (p : V3 Num) : Prop := p.x = none ∧ p.y = none ∧ (s ≠ .quad → p.z = none)

/-- **C119, what holds.** A particle whose position is NaN in all directions is rejected: in every rounding mode, with any contractions, starting points and Newton steps. -/
theorem all_nan_rejected_partial (s : Shape) (hs : s ≠ .hex) (c : ℕ → V3 ℝ) (sc : V3 ℝ) (tol : ℝ) {I : Impl Num} (hI : NanImpl rnd tol s c sc I) {o : Ops Num} (ho : NanOps o) (t : Settings Num)
    (p : V3 Num) (hp : AllNan s p) (start : Option (V3 Num)) : tryCandidate o I t p start = none := by
  cases h : tryCandidate o I t p start with
  | none => rfl
  | some xi =>
    obtain ⟨hr, -, -⟩ := C36.accepted_sound o I t p start xi h
    obtain ⟨-, rb⟩ := hI xi p
    have hap : ¬ (s = .pyr ∧ apex rnd tol c xi p) := by
      rintro ⟨-, ⟨⟨x, hx, -⟩, -⟩, -⟩
      rw [hp.1] at hx; cases hx
    obtain ⟨f, c0, c1, c2, e⟩ := rb hap
    obtain ⟨n0, n1, n2⟩ := nan_direction s c xi p
    have f0 := computes_nan (n0 hp.1) c0
    have f1 := computes_nan (n1 hp.2.1) c1
    have hm : measureN rnd s sc f = none := by
      by_cases hq : s = .quad
      · subst hq; simp only [measureN, f0, f1]; rfl
      · have f2 := computes_nan (n2 hq (hp.2.2 hq)) c2
        cases s <;> first | exact absurd rfl hq | exact absurd rfl hs | (simp only [measureN, f0, f1, f2]; rfl)
    rw [e, hm, ho.leNan] at hr
    cases hr

theorem fmax_le {a b : Num} {m : ℝ} (h : fmax a b = some m) : (∀ v, a = some v → v ≤ m) ∧ (∀ v, b = some v → v ≤ m) := by
  cases a <;> cases b <;> simp only [fmax, Option.some.injEq, reduceCtorEq] at h <;> subst h <;> constructor <;> rintro v ⟨⟩ <;> simp

/-- **C119, what holds.** If a particle is accepted, the measure of the residual at the stored reference position is within the tolerance in every direction in which the residual is a number, and it is a
number in at least one direction. (For a pyramid: unless the particle is at the apex.) -/
theorem accepted_directions_partial (s : Shape) (hs : s ≠ .hex) (c : ℕ → V3 ℝ) (sc : V3 ℝ) (tol : ℝ) {I : Impl Num} (hI : NanImpl rnd tol s c sc I) {o : Ops Num} (ho : NanOps o) (t : Settings Num)
    (T : ℝ) (ht : t.tol = some T) (p : V3 Num) (start : Option (V3 Num)) (xi : V3 Num) (h : tryCandidate o I t p start = some xi) (hap : ¬ (s = .pyr ∧ apex rnd tol c xi p)) :
    ∃ f : V3 Num, Computes rnd (newtonF s c xi p).x f.x ∧ Computes rnd (newtonF s c xi p).y f.y ∧ Computes rnd (newtonF s c xi p).z f.z ∧ (∀ v, f.x = some v → rnd (|v| * sc.x) ≤ T) ∧
      (∀ v, f.y = some v → rnd (|v| * sc.y) ≤ T) ∧ (s ≠ .quad → ∀ v, f.z = some v → rnd (|v| * sc.z) ≤ T) ∧ (f.x ≠ none ∨ f.y ≠ none ∨ (s ≠ .quad ∧ f.z ≠ none)) := by
  obtain ⟨hr, -, -⟩ := C36.accepted_sound o I t p start xi h
  obtain ⟨-, rb⟩ := hI xi p
  obtain ⟨f, c0, c1, c2, e⟩ := rb hap
  rw [e, ht] at hr
  cases hm : measureN rnd s sc f with
  | none => rw [hm, ho.leNan] at hr; cases hr
  | some m =>
    rw [hm, ho.le] at hr
    have sc' : ∀ (g : Num) (u v : ℝ), g = some v → scaled rnd g u = some (rnd (|v| * u)) := fun g u v h => by rw [h]; rfl
    have two : ∀ (g0 g1 : Num) (u0 u1 m : ℝ), fmax (scaled rnd g0 u0) (scaled rnd g1 u1) = some m → m ≤ T → (∀ v, g0 = some v → rnd (|v| * u0) ≤ T) ∧ (∀ v, g1 = some v → rnd (|v| * u1) ≤ T) :=
      fun g0 g1 u0 u1 m h hT => ⟨fun v hv => ((fmax_le h).1 _ (sc' _ _ _ hv)).trans hT, fun v hv => ((fmax_le h).2 _ (sc' _ _ _ hv)).trans hT⟩
    have snn : ∀ (g : Num) (u : ℝ), scaled rnd g u = none ↔ g = none := fun g u => by simp [scaled]
    refine ⟨f, c0, c1, c2, ?_⟩
    by_cases hq : s = .quad
    · subst hq
      obtain ⟨a, b⟩ := two _ _ _ _ _ hm hr
      refine ⟨a, b, fun h => absurd rfl h, ?_⟩
      by_contra hn
      push Not at hn
      simp only [measureN, (snn _ _).2 hn.1, (snn _ _).2 hn.2.1, fmax] at hm
      cases hm
    · have hm3 : fmax (fmax (scaled rnd f.x sc.x) (scaled rnd f.y sc.y)) (scaled rnd f.z sc.z) = some m := by
        cases s <;> first | exact absurd rfl hq | exact absurd rfl hs | exact hm
      have hz : ∀ v, f.z = some v → rnd (|v| * sc.z) ≤ T := fun v hv => ((fmax_le hm3).2 _ (sc' _ _ _ hv)).trans hr
      have hxy : (∀ v, f.x = some v → rnd (|v| * sc.x) ≤ T) ∧ (∀ v, f.y = some v → rnd (|v| * sc.y) ≤ T) := by
        cases hi : fmax (scaled rnd f.x sc.x) (scaled rnd f.y sc.y) with
        | some k => exact two _ _ _ _ _ hi (((fmax_le hm3).1 k hi).trans hr)
        | none =>
          constructor <;> intro v hv <;> simp only [sc' _ _ _ hv] at hi
          · cases hg : scaled rnd f.y sc.y <;> rw [hg] at hi <;> cases hi
          · cases hg : scaled rnd f.x sc.x <;> rw [hg] at hi <;> cases hi
      refine ⟨hxy.1, hxy.2, fun _ => hz, ?_⟩
      by_contra hn
      push Not at hn
      simp only [(snn _ _).2 hn.1, (snn _ _).2 hn.2.1, (snn _ _).2 (hn.2.2 hq), fmax] at hm3
      cases hm3

/-! ### A particle whose position is NaN in one direction can be bound -/

/-- **C119, finding.** A particle with a first coordinate NaN is accepted by a quadrilateral, with the reference position `(0, 0)`, whenever its second coordinate is within the tolerance of that of the image
of `(0, 0)`. -/
theorem nan_accepted (c : ℕ → V3 ℝ) (sc : V3 ℝ) {I : Impl Num} (hI : QuadNanImpl rnd c sc I) {o : Ops Num} (ho : NanOps o) (t : Settings Num) (T lo hi y : ℝ) (ht : t.tol = some T)
    (hlo : t.lo = some lo) (hhi : t.hi = some hi) (h0 : lo ≤ 0) (h1 : 0 ≤ hi) (z : Num)
    (hy : ∀ v, Res rnd (newtonF .quad c ⟨some 0, some 0, some 0⟩ ⟨none, some y, z⟩).y false v → rnd (|v| * sc.y) ≤ T) :
    tryCandidate o I t ⟨none, some y, z⟩ none = some ⟨some 0, some 0, some 0⟩ := by
  obtain ⟨v, hv, hres⟩ : ∃ v : ℝ, v ≤ T ∧ (I.residual ⟨some 0, some 0, some 0⟩ ⟨none, some y, z⟩).1 = some v := by
    obtain ⟨f, c0, c1, -, e⟩ := (hI.residual ⟨some 0, some 0, some 0⟩ ⟨none, some y, z⟩).2 (by simp)
    have f0 := computes_nan ((nan_direction .quad c ⟨some 0, some 0, some 0⟩ ⟨none, some y, z⟩).1 rfl) c0
    cases hf : f.y with
    | none =>
      rw [hf] at c1
      refine absurd ⟨_, Lemmas.FloatExpr.run_res rnd _ ?_⟩ c1
      repeat' first | trivial | constructor
    | some v =>
      rw [hf] at c1
      refine ⟨rnd (|v| * sc.y), hy v c1, ?_⟩
      rw [e]
      simp only [measureN, f0, hf, scaled, Option.map_none, Option.map_some, fmax]
  have hinv : xInverse o I ⟨none, some y, z⟩ t.maxIterations (some T) none = (⟨some 0, some 0, some 0⟩, true) := by
    have hgt : o.gt (some v) (some T) = false := by
      rw [← Bool.not_eq_true, ho.gt]; exact not_lt.2 hv
    have hle : o.le (some v) (some T) = true := (ho.le _ _).2 hv
    simp only [xInverse, Option.getD_none, hI.initial, hres]
    cases t.maxIterations.toNat <;> simp only [iterate, hgt, Bool.false_and, Bool.false_eq_true, if_false, hle]
  have hcl : o.kmax (o.kmin (some 0) (some hi)) (some lo) = some 0 := by rw [ho.kmin, ho.kmax, min_eq_left h1, max_eq_left h0]
  have hle : o.le (some v) (some T) = true := (ho.le _ _).2 hv
  simp only [tryCandidate, ht, hinv, hI.toCollapsed, hI.fromCollapsed, hlo, hhi, hcl, hres, hle, Bool.and_self, if_true]

/-! ### Example -/

/-- The square with the vertices `(-1, -1)`, `(1, -1)`, `(1, 1)`, `(-1, 1)`. -/
def square (k : ℕ) : V3 ℝ := ([⟨-1, -1, 0⟩, ⟨1, -1, 0⟩, ⟨1, 1, 0⟩, ⟨-1, 1, 0⟩] : List (V3 ℝ)).getD k ⟨0, 0, 0⟩

open Classical in
/-- A value that can be computed. -/
noncomputable def value (rnd : ℝ → ℝ) (e : Expr) : Num := if h : ∃ v, Res rnd e false v then some h.choose else none

theorem value_computes (e : Expr) : Computes rnd e (value rnd e) := by
  unfold value
  split_ifs with h
  · exact h.choose_spec
  · exact h

/-- An implementation for a quadrilateral whose Newton steps do nothing. -/
noncomputable def quadI (rnd : ℝ → ℝ) (c : ℕ → V3 ℝ) (sc : V3 ℝ) : Impl Num where
  initial _ := ⟨some 0, some 0, some 0⟩
  residual xi p := (measureN rnd .quad sc ⟨value rnd (newtonF .quad c xi p).x, value rnd (newtonF .quad c xi p).y, value rnd (newtonF .quad c xi p).z⟩, xi)
  step xi _ _ := xi
  toCollapsed xi := ⟨xi.x, xi.y, some 0⟩
  fromCollapsed e := ⟨e.x, e.y, some 0⟩

theorem quadI_ok (c : ℕ → V3 ℝ) (sc : V3 ℝ) : QuadNanImpl rnd c sc (quadI rnd c sc) where
  residual xi p := ⟨fun h => absurd h.1 (by simp), fun _ => ⟨_, value_computes _, value_computes _, value_computes _, rfl⟩⟩
  initial _ := rfl
  toCollapsed _ := rfl
  fromCollapsed _ := rfl

open Classical in
/-- Comparisons. -/
noncomputable def ops : Ops Num where
  gt a b := match a, b with | some a, some b => decide (a > b) | _, _ => false
  le a b := match a, b with | some a, some b => decide (a ≤ b) | _, _ => false
  absGt15 a := match a with | some a => decide (|a| > 15) | none => false
  isfinite a := a.isSome
  kmin a b := match a, b with | some a, some b => some (min a b) | _, b => b
  kmax a b := match a, b with | some a, some b => some (max a b) | _, b => b

theorem ops_ok : NanOps ops where
  gt a b := by simp [ops]
  le a b := by simp [ops]
  leNan b := by cases b <;> rfl
  kmin a b := rfl
  kmax a b := rfl

/-- **C119, finding.** It is not true that a particle whose position is NaN in some direction is never bound to a cell, in the default rounding mode. -/
theorem nan_position_bound : ¬ ∀ (rnd : ℝ → ℝ), NearestEven 53 (-1074) rnd → ∀ (c : ℕ → V3 ℝ) (sc : V3 ℝ) (I : Impl Num) (o : Ops Num) (t : Settings Num) (p : V3 Num), QuadNanImpl rnd c sc I → NanOps o →
    (p.x = none ∨ p.y = none) → tryCandidate o I t p none = none := by
  intro h
  have N := Lemmas.RoundingModes.nearestEven_spec (p := 53) (emin := -1074) (by norm_num)
  have R := Lemmas.RoundingModes.nearest_rounding N.toNearest
  have := h _ N square ⟨1, 1, 1⟩ (quadI _ square ⟨1, 1, 1⟩) ops ⟨some (1 / 2 ^ 30), 10, some 1, some (-1)⟩ ⟨none, some 0, none⟩ (quadI_ok _ _) ops_ok (.inl rfl)
  rw [nan_accepted square ⟨1, 1, 1⟩ (quadI_ok _ _) ops_ok _ (1 / 2 ^ 30) (-1) 1 0 rfl rfl rfl (by norm_num) (by norm_num) none ?_] at this
  · cases this
  · intro v hv
    have ht := Lemmas.FloatExpr.tiny_le
    have a := Lemmas.FloatLinear.quad_acc R (M := 1) (p := 0) (v0 := -1) (v1 := -1) (v2 := 1) (v3 := 1) (x := 0) (y := 0) (by norm_num at ht ⊢; linarith) (by simp) (by simp) (by simp) (by simp) (by simp)
      (by norm_num) (by norm_num)
    have e := Lemmas.FloatLinear.Acc.err a (C := 128) (by norm_num) (by norm_num) hv
    have e0 : (Lemmas.FloatLinear.quadComp 0 (-1) (-1) 1 1 0 0).eval = 0 := by
      show -(0 : ℝ) + 1 / 4 * -1 * (0 - 1) * (0 - 1) - -1 * (1 / 4 * (0 - 1) * (0 + 1)) + 1 / 4 * 1 * (0 + 1) * (0 + 1) - 1 * (1 / 4 * (0 - 1) * (0 + 1)) = 0
      norm_num
    rw [e0, sub_zero] at e
    have f : IsFloat 53 (-1074) ((1 : ℝ) / 2 ^ 30) := ⟨1, -30, by norm_num, by norm_num, by norm_num⟩
    rw [← R.exact _ f]
    refine R.mono (le_trans (le_of_eq (mul_one _)) (e.trans ?_))
    unfold Lemmas.FloatExpr.w
    norm_num

/-- The hypotheses of the theorems on accepted and rejected particles hold for this implementation; the particle at `(NaN, 0)` is accepted. -/
example : NanImpl rnd 0 .quad square ⟨1, 1, 1⟩ (quadI rnd square ⟨1, 1, 1⟩) ∧ AllNan .quad ⟨none, none, some 0⟩ := ⟨(quadI_ok _ _).residual, rfl, rfl, fun h => absurd rfl h⟩

end Verif.Props.C119
