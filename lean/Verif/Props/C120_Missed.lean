import Verif.Props.C120_FloatRegular3
import Verif.Lemmas.FloatRegularLost

/-! C120: runs exist, and a position that is missed with the default tolerance. -/

namespace Verif.Props.C120
open Verif.Spec (Shape3 InRef3)
open Verif.Spec.Rounding Verif.Model Verif.Model.NewtonKernel Verif.Model.FloatExpr Verif.Model.FloatRegular3
open Verif.Model.RegularMap (indexV)
open Verif.Lemmas.FloatExpr Verif.Lemmas.FloatRegular3
open Verif.Lemmas.FloatRegularLost (near ex)
open Verif.Lemmas.Rounding (rnd_zero)
open Verif.Lemmas.RoundingModes (nearest_rounding)
open Verif.Spec.LinearElements (V3.get)
open Verif.Props.C39 (AffineImage)
open Verif.Props.C40 (InElement3 shape)

variable {rnd : ℝ → ℝ}

/-! ### Runs exist -/

/-- The test always has a result: no division by zero. -/
theorem runs {A : Matrix (Fin 3) (Fin 3) ℝ} {b : Fin 3 → ℝ} {c : ℕ → V3 ℝ} {L : ℝ} {p : V3 ℝ} {s : Shape3} (R : Rounding 53 (-1074) rnd) (hs : Size L s c p) (h : AffineImage (shape s) A b c) (hdet : A.det ≠ 0)
    (ht : relError L A ≤ 1 / 100000) {tol0 : ℝ} (h0 : 0 < tol0) (code : Shape3 → ℤ) (hcode : Function.Injective code) : ∃ x e, RunOn rnd tol0 code s c p x e := by
  obtain ⟨hne, hb, he, hw⟩ := facts R hs h hdet
  have hV := run_res rnd (vol (vert s c 0) (vert s c 1) (vert s c 2) (vert s c 3)) (by simp [vol, dotp, cross, edge, Safe, HAdd.hAdd, HSub.hSub, HMul.hMul, Add.add, Sub.sub, Mul.mul])
  have h1 := (triple_err R hs.low hs.edge3 hs.edge1 hs.edge2 hV).1
  rw [he] at h1
  have hV0 := (inverse_err R hne hb ht hw h1).1
  have one : ∀ N, (∃ n, Res rnd N false n) → ∃ x, Res rnd (local1 N (vol (vert s c 0) (vert s c 1) (vert s c 2) (vert s c 3))) false x := by
    rintro N ⟨n, hn⟩
    exact ⟨_, .sub (.mul hn (.div (.lit 2) hV hV0)) (.lit 1)⟩
  have dots : ∀ a b c d : V3 ℝ, ∀ v, ∃ n, Res rnd (dotp (edge a v) (cross (edge b v) (edge c v))) false n := fun a b c d v =>
    ⟨_, run_res rnd _ (by simp [dotp, cross, edge, Safe, HAdd.hAdd, HSub.hSub, HMul.hMul, Add.add, Sub.sub, Mul.mul])⟩
  obtain ⟨x0, r0⟩ := one _ (dots p (vert s c 2) (vert s c 3) p (vert s c 0))
  obtain ⟨x1, r1⟩ := one _ (dots p (vert s c 3) (vert s c 1) p (vert s c 0))
  obtain ⟨x2, r2⟩ := one _ (dots p (vert s c 1) (vert s c 2) p (vert s c 0))
  have hg : ∀ d, CoordMap.zeroGuard tol0 d ≠ 0 := fun d hd => by
    have := (guard_abs (d := d) h0).1
    rw [hd, abs_zero] at this
    linarith
  have col : ∀ x d, ∃ y, Res rnd (collapse x (CoordMap.zeroGuard tol0 d)) false y := fun x d =>
    ⟨_, .sub (.mul (.add (.lit 1) (.lit x)) (.div (.lit 2) (.lit _) (hg d))) (.lit 1)⟩
  have col2 : ∀ x d, ∃ y, Res rnd (collapse2 x (CoordMap.zeroGuard tol0 d)) false y := fun x d =>
    ⟨_, .sub (.div (.round (.mul (.lit 2) (.add (.lit 1) (.lit x)))) (.lit _) (hg d)) (.lit 1)⟩
  have het := eta_shape (rnd := rnd) tol0 code hcode s ⟨x0, x1, x2⟩
  suffices hsuf : ∃ e : V3 ℝ, Res rnd (eta rnd tol0 code (code s) ⟨x0, x1, x2⟩).x false e.x ∧ Res rnd (eta rnd tol0 code (code s) ⟨x0, x1, x2⟩).y false e.y ∧ Res rnd (eta rnd tol0 code (code s) ⟨x0, x1, x2⟩).z false e.z by
    obtain ⟨e, hE⟩ := hsuf
    exact ⟨⟨x0, x1, x2⟩, e, ⟨r0, r1, r2⟩, hE⟩
  rw [het]
  cases s with
  | hex => exact ⟨⟨_, _, _⟩, .lit _, .lit _, .lit _⟩
  | prism => exact ⟨⟨_, _, _⟩, (col _ _).choose_spec, .lit _, .lit _⟩
  | pyr => exact ⟨⟨_, _, _⟩, (col _ _).choose_spec, (col _ _).choose_spec, .lit _⟩
  | tet => exact ⟨⟨_, _, _⟩, (col2 _ _).choose_spec, (col _ _).choose_spec, .lit _⟩

/-! ### Values that do not depend on what is fused -/

/-- There is only one value. -/
def Only (rnd : ℝ → ℝ) (e : Expr) (v : ℝ) : Prop := ∀ r x, Res rnd e r x → x = v

theorem only_edge (a b : ℝ) : Only rnd (lit a - lit b) (rnd (a - b)) := by
  intro r x h
  cases h with
  | sub ha hb => rw [res_lit ha, res_lit hb]
  | round h => cases h

theorem prod_cases {a b : Expr} {x y m : ℝ} {r : Bool} (ha : Only rnd a x) (hb : Only rnd b y) (h : Res rnd (a * b) r m) : m = x * y ∨ m = rnd (x * y) := by
  have raw : ∀ v, Res rnd (a * b) true v → v = x * y := by
    intro v hv
    cases hv with
    | mul h1 h2 => rw [ha _ _ h1, hb _ _ h2]
  cases r with
  | true => exact .inl (raw m h)
  | false =>
    cases h with
    | round h => exact .inr (by rw [raw _ h])

theorem prod_zero (R : Rounding 53 (-1074) rnd) {a b : Expr} {x y m : ℝ} {r : Bool} (ha : Only rnd a x) (hb : Only rnd b y) (h0 : x * y = 0) (h : Res rnd (a * b) r m) : m = 0 := by
  rcases prod_cases ha hb h with h | h <;> rw [h, h0]
  exact rnd_zero R

theorem idem (R : Rounding 53 (-1074) rnd) (x : ℝ) : rnd (rnd x) = rnd x := R.exact _ (R.float x)

theorem only_det (R : Rounding 53 (-1074) rnd) {a b c d : Expr} {x y z w : ℝ} (ha : Only rnd a x) (hb : Only rnd b y) (hc : Only rnd c z) (hd : Only rnd d w) (h0 : z * w = 0) : Only rnd (a * b - c * d) (rnd (x * y)) := by
  intro r v h
  cases h with
  | sub h1 h2 =>
    rw [prod_zero R hc hd h0 h2, sub_zero]
    rcases prod_cases ha hb h1 with h | h <;> rw [h]
    exact idem R _
  | round h => cases h

/-- A sum of three products of which only the first is not zero. -/
theorem only_dot_first (R : Rounding 53 (-1074) rnd) {a b : V3 Expr} {x y a1 b1 a2 b2 : ℝ} (ha : Only rnd a.x x) (hb : Only rnd b.x y) (h1 : Only rnd a.y a1) (g1 : Only rnd b.y b1) (h2 : Only rnd a.z a2) (g2 : Only rnd b.z b2)
    (z1 : a1 * b1 = 0) (z2 : a2 * b2 = 0) : Only rnd (dotp a b) (rnd (x * y)) := by
  intro r v h
  cases h with
  | add hs h3 =>
    rw [prod_zero R h2 g2 z2 h3, add_zero]
    cases hs with
    | add hp hq =>
      rw [prod_zero R h1 g1 z1 hq, add_zero, idem R]
      rcases prod_cases ha hb hp with h | h <;> rw [h]
      exact idem R _
    | round h => cases h
  | round h => cases h

/-- A sum of three products of which only the last is not zero. -/
theorem only_dot_last (R : Rounding 53 (-1074) rnd) {a b : V3 Expr} {x y a1 b1 a2 b2 : ℝ} (ha : Only rnd a.z x) (hb : Only rnd b.z y) (h1 : Only rnd a.x a1) (g1 : Only rnd b.x b1) (h2 : Only rnd a.y a2) (g2 : Only rnd b.y b2)
    (z1 : a1 * b1 = 0) (z2 : a2 * b2 = 0) : Only rnd (dotp a b) (rnd (x * y)) := by
  intro r v h
  cases h with
  | add hs h3 =>
    have : ∀ r m, Res rnd (a.x * b.x + a.y * b.y) r m → m = 0 := by
      intro r m hm
      cases hm with
      | add hp hq => rw [prod_zero R h1 g1 z1 hp, prod_zero R h2 g2 z2 hq, add_zero, rnd_zero R]
      | round h => cases h
    rw [this _ _ hs, zero_add]
    rcases prod_cases ha hb h3 with h | h <;> rw [h]
    exact idem R _
  | round h => cases h

theorem local_cases {N V : Expr} {n d x : ℝ} (hN : Only rnd N n) (hV : Only rnd V d) (h : Res rnd (local1 N V) false x) : x = rnd (n * rnd (2 / d) - 1) ∨ x = rnd (rnd (n * rnd (2 / d)) - 1) := by
  have hi : Only rnd (lit 2 / V) (rnd (2 / d)) := by
    intro r v h
    cases h with
    | div h1 h2 _ => rw [res_lit h1, hV _ _ h2]
    | round h => cases h
  cases h with
  | sub hm ho =>
    rw [res_lit ho]
    rcases prod_cases hN hi hm with h | h
    · exact .inl (by rw [h])
    · exact .inr (by rw [h])
  | round h => cases h

/-! ### Two boxes -/

/-- A box with edges `784143185`, `770796739` and `761264643` whose first vertex is `(o, 0, 0)`. -/
def box (o : ℝ) (k : ℕ) : V3 ℝ :=
  match k with
  | 0 => ⟨o, 0, 0⟩
  | 1 => ⟨o + 784143185, 0, 0⟩
  | 2 => ⟨o + 784143185, 770796739, 0⟩
  | 3 => ⟨o, 770796739, 0⟩
  | 4 => ⟨o, 0, 761264643⟩
  | 5 => ⟨o + 784143185, 0, 761264643⟩
  | 6 => ⟨o + 784143185, 770796739, 761264643⟩
  | _ => ⟨o, 770796739, 761264643⟩

/-- The map of the box. -/
noncomputable def boxA : Matrix (Fin 3) (Fin 3) ℝ := !![784143185 / 2, 0, 0; 0, 770796739 / 2, 0; 0, 0, 761264643 / 2]
/-- The centre of the box. -/
noncomputable def boxB (o : ℝ) : Fin 3 → ℝ := ![o + 784143185 / 2, 770796739 / 2, 761264643 / 2]

theorem box_affine (o : ℝ) : AffineImage (shape .hex) boxA (boxB o) (box o) := by
  intro k v hk
  have : k < 8 := by
    by_contra hc
    push Not at hc
    have : (Verif.Spec.LinearElements.refVerts (K := ℝ) (shape .hex))[k]? = none := List.getElem?_eq_none (by simpa [Verif.Spec.LinearElements.refVerts, shape] using hc)
    rw [this] at hk
    cases hk
  interval_cases k <;> simp only [Verif.Spec.LinearElements.refVerts, shape, List.getElem?_cons_zero, List.getElem?_cons_succ, Option.some.injEq] at hk <;> subst hk <;> funext i <;> fin_cases i <;>
    simp [V3.get, box, boxA, boxB, Matrix.mulVec, dotProduct, Fin.sum_univ_three] <;> ring

theorem boxA_det : boxA.det ≠ 0 := by
  rw [Matrix.det_fin_three]
  simp [boxA]

/-- A position in the first box, next to the face between the boxes. -/
noncomputable def missed : V3 ℝ := ⟨784143185 - 1 / 2 ^ 23, 1, 1⟩

theorem first_rejected (N : Nearest 53 (-1074) rnd) {tol0 : ℝ} {code : Shape3 → ℤ} {x e : V3 ℝ} (hr : RunOn rnd tol0 code .hex (box 0) missed x e) : 1 + 1 / 2 ^ 52 ≤ x.x := by
  have R := nearest_rounding N
  have i53 : ∀ z : ℤ, |z| ≤ 2 ^ 53 → rnd z = z := fun z hz => Verif.Lemmas.FloatRegularLost.lit R z hz
  have hA : rnd 784143185 = 784143185 := by have := i53 784143185 (by norm_num); norm_num at this; exact this
  have hB : rnd 770796739 = 770796739 := by have := i53 770796739 (by norm_num); norm_num at this; exact this
  have hC : rnd 761264643 = 761264643 := by have := i53 761264643 (by norm_num); norm_num at this; exact this
  have h0 : rnd 0 = 0 := rnd_zero R
  have hP : rnd (784143185 - 1 / 2 ^ 23) = 784143185 - 1 / 2 ^ 23 := ex R (784143185 * 2 ^ 23 - 1) (-23) (by norm_num) (by norm_num) (by norm_num)
  have hbc : rnd (770796739 * 761264643) = 4584221127659369 * 2 ^ 7 := near N 4584221127659369 7 (by norm_num) (by norm_num) (by norm_num) (by norm_num) (by norm_num [abs_lt])
  have hab : rnd (784143185 * 770796739) = 4721992264899013 * 2 ^ 7 := near N 4721992264899013 7 (by norm_num) (by norm_num) (by norm_num) (by norm_num) (by norm_num [abs_lt])
  have hV : rnd (761264643 * (4721992264899013 * 2 ^ 7)) = 6695623986026474 * 2 ^ 36 := near N 6695623986026474 36 (by norm_num) (by norm_num) (by norm_num) (by norm_num) (by norm_num [abs_lt])
  have hN : rnd ((784143185 - 1 / 2 ^ 23) * (4584221127659369 * 2 ^ 7)) = 6695623986026475 * 2 ^ 36 := near N 6695623986026475 36 (by norm_num) (by norm_num) (by norm_num) (by norm_num) (by norm_num [abs_lt])
  have hi : rnd (2 / (6695623986026474 * 2 ^ 36)) = 6058407594566340 / 2 ^ 140 := near N 6058407594566340 (-140) (by norm_num) (by norm_num) (by norm_num) (by norm_num) (by norm_num [abs_lt])
  have hq : rnd (6695623986026475 * 2 ^ 36 * (6058407594566340 / 2 ^ 140)) = 4503599627370497 / 2 ^ 51 := near N 4503599627370497 (-51) (by norm_num) (by norm_num) (by norm_num) (by norm_num) (by norm_num [abs_lt])
  have hf : rnd (6695623986026475 * 2 ^ 36 * (6058407594566340 / 2 ^ 140) - 1) = 4503599627370497 / 2 ^ 52 := near N 4503599627370497 (-52) (by norm_num) (by norm_num) (by norm_num) (by norm_num) (by norm_num [abs_lt])
  have hu : rnd (4503599627370497 / 2 ^ 51 - 1) = 4503599627370498 / 2 ^ 52 := ex R 4503599627370498 (-52) (by norm_num) (by norm_num) (by norm_num) |>.trans (by norm_num)
  -- the edges
  have e10x : Only rnd (edge (box 0 1) (box 0 0)).x 784143185 := by have := only_edge (rnd := rnd) (0 + 784143185) 0; rwa [show (0 : ℝ) + 784143185 - 0 = 784143185 by norm_num, hA] at this
  have z00 : Only rnd (lit 0 - lit 0) 0 := by have := only_edge (rnd := rnd) 0 0; rwa [sub_zero, h0] at this
  have e20y : Only rnd (edge (box 0 3) (box 0 0)).y 770796739 := by have := only_edge (rnd := rnd) 770796739 0; rwa [sub_zero, hB] at this
  have e30z : Only rnd (edge (box 0 4) (box 0 0)).z 761264643 := by have := only_edge (rnd := rnd) 761264643 0; rwa [sub_zero, hC] at this
  have erx : Only rnd (edge missed (box 0 0)).x (784143185 - 1 / 2 ^ 23) := by have := only_edge (rnd := rnd) (784143185 - 1 / 2 ^ 23) 0; rwa [sub_zero, hP] at this
  have ery : Only rnd (edge missed (box 0 0)).y (rnd (1 - 0)) := only_edge 1 0
  have erz : Only rnd (edge missed (box 0 0)).z (rnd (1 - 0)) := only_edge 1 0
  have det0 : ∀ {a b c d : Expr} {x y z w : ℝ}, Only rnd a x → Only rnd b y → Only rnd c z → Only rnd d w → z * w = 0 → x * y = 0 → Only rnd (a * b - c * d) 0 := by
    intro a b c d x y z w ha hb hc hd h1 h2
    have := only_det R ha hb hc hd h1
    rwa [h2, h0] at this
  -- the volume
  have cpz : Only rnd (cross (edge (box 0 1) (box 0 0)) (edge (box 0 3) (box 0 0))).z (4721992264899013 * 2 ^ 7) := by
    have := only_det R e10x e20y z00 z00 (by norm_num)
    rwa [hab] at this
  have hvol : Only rnd (vol (box 0 0) (box 0 1) (box 0 3) (box 0 4)) (6695623986026474 * 2 ^ 36) := by
    have := only_dot_last R (a := edge (box 0 4) (box 0 0)) (b := cross (edge (box 0 1) (box 0 0)) (edge (box 0 3) (box 0 0))) e30z cpz z00 (det0 z00 z00 z00 e20y (by norm_num) (by norm_num)) z00
      (det0 z00 z00 e10x z00 (by norm_num) (by norm_num)) (by norm_num) (by norm_num)
    rwa [hV] at this
  -- the product
  have cqx : Only rnd (cross (edge (box 0 3) (box 0 0)) (edge (box 0 4) (box 0 0))).x (4584221127659369 * 2 ^ 7) := by
    have := only_det R e20y e30z z00 z00 (by norm_num)
    rwa [hbc] at this
  have hnum : Only rnd (dotp (edge missed (box 0 0)) (cross (edge (box 0 3) (box 0 0)) (edge (box 0 4) (box 0 0)))) (6695623986026475 * 2 ^ 36) := by
    have := only_dot_first R (a := edge missed (box 0 0)) (b := cross (edge (box 0 3) (box 0 0)) (edge (box 0 4) (box 0 0))) erx cqx ery (det0 z00 z00 z00 e30z (by norm_num) (by norm_num)) erz
      (det0 z00 z00 e20y z00 (by norm_num) (by norm_num)) (by norm_num) (by norm_num)
    rwa [hN] at this
  have := local_cases hnum hvol hr.1.1
  rw [hi] at this
  rcases this with h | h
  · rw [h, hf]; norm_num
  · rw [h, hq, hu]; norm_num

theorem second_rejected (N : Nearest 53 (-1074) rnd) {tol0 : ℝ} {code : Shape3 → ℤ} {x e : V3 ℝ} (hr : RunOn rnd tol0 code .hex (box 784143185) missed x e) : x.x ≤ -1 - 1 / 2 ^ 52 := by
  have R := nearest_rounding N
  have i53 : ∀ z : ℤ, |z| ≤ 2 ^ 53 → rnd z = z := fun z hz => Verif.Lemmas.FloatRegularLost.lit R z hz
  have hA : rnd 784143185 = 784143185 := by have := i53 784143185 (by norm_num); norm_num at this; exact this
  have hB : rnd 770796739 = 770796739 := by have := i53 770796739 (by norm_num); norm_num at this; exact this
  have hC : rnd 761264643 = 761264643 := by have := i53 761264643 (by norm_num); norm_num at this; exact this
  have h0 : rnd 0 = 0 := rnd_zero R
  have hP : rnd (-1 / 2 ^ 23) = -1 / 2 ^ 23 := ex R (-1) (-23) (by norm_num) (by norm_num) (by norm_num)
  have hbc : rnd (770796739 * 761264643) = 4584221127659369 * 2 ^ 7 := near N 4584221127659369 7 (by norm_num) (by norm_num) (by norm_num) (by norm_num) (by norm_num [abs_lt])
  have hab : rnd (784143185 * 770796739) = 4721992264899013 * 2 ^ 7 := near N 4721992264899013 7 (by norm_num) (by norm_num) (by norm_num) (by norm_num) (by norm_num [abs_lt])
  have hV : rnd (761264643 * (4721992264899013 * 2 ^ 7)) = 6695623986026474 * 2 ^ 36 := near N 6695623986026474 36 (by norm_num) (by norm_num) (by norm_num) (by norm_num) (by norm_num [abs_lt])
  have hN : rnd (-1 / 2 ^ 23 * (4584221127659369 * 2 ^ 7)) = -4584221127659369 / 2 ^ 16 := (ex R (-4584221127659369) (-16) (by norm_num) (by norm_num) (by norm_num)).trans (by norm_num)
  have hi : rnd (2 / (6695623986026474 * 2 ^ 36)) = 6058407594566340 / 2 ^ 140 := near N 6058407594566340 (-140) (by norm_num) (by norm_num) (by norm_num) (by norm_num) (by norm_num [abs_lt])
  have hq : rnd (-4584221127659369 / 2 ^ 16 * (6058407594566340 / 2 ^ 140)) = -6166862597241750 / 2 ^ 104 := near N (-6166862597241750) (-104) (by norm_num) (by norm_num) (by norm_num) (by norm_num) (by norm_num [abs_lt])
  have hf : rnd (-4584221127659369 / 2 ^ 16 * (6058407594566340 / 2 ^ 140) - 1) = -4503599627370497 / 2 ^ 52 := near N (-4503599627370497) (-52) (by norm_num) (by norm_num) (by norm_num) (by norm_num) (by norm_num [abs_lt])
  have hu : rnd (-6166862597241750 / 2 ^ 104 - 1) = -4503599627370497 / 2 ^ 52 := near N (-4503599627370497) (-52) (by norm_num) (by norm_num) (by norm_num) (by norm_num) (by norm_num [abs_lt])
  have zaa : Only rnd (lit 784143185 - lit 784143185) 0 := by have := only_edge (rnd := rnd) 784143185 784143185; rwa [sub_self, h0] at this
  have z00 : Only rnd (lit 0 - lit 0) 0 := by have := only_edge (rnd := rnd) 0 0; rwa [sub_zero, h0] at this
  have e10x : Only rnd (edge (box 784143185 1) (box 784143185 0)).x 784143185 := by
    have := only_edge (rnd := rnd) (784143185 + 784143185) 784143185
    rwa [show (784143185 : ℝ) + 784143185 - 784143185 = 784143185 by norm_num, hA] at this
  have e20y : Only rnd (edge (box 784143185 3) (box 784143185 0)).y 770796739 := by have := only_edge (rnd := rnd) 770796739 0; rwa [sub_zero, hB] at this
  have e30z : Only rnd (edge (box 784143185 4) (box 784143185 0)).z 761264643 := by have := only_edge (rnd := rnd) 761264643 0; rwa [sub_zero, hC] at this
  have erx : Only rnd (edge missed (box 784143185 0)).x (-1 / 2 ^ 23) := by
    have := only_edge (rnd := rnd) (784143185 - 1 / 2 ^ 23) 784143185
    rwa [show (784143185 : ℝ) - 1 / 2 ^ 23 - 784143185 = -1 / 2 ^ 23 by norm_num, hP] at this
  have ery : Only rnd (edge missed (box 784143185 0)).y (rnd (1 - 0)) := only_edge 1 0
  have erz : Only rnd (edge missed (box 784143185 0)).z (rnd (1 - 0)) := only_edge 1 0
  have det0 : ∀ {a b c d : Expr} {x y z w : ℝ}, Only rnd a x → Only rnd b y → Only rnd c z → Only rnd d w → z * w = 0 → x * y = 0 → Only rnd (a * b - c * d) 0 := by
    intro a b c d x y z w ha hb hc hd h1 h2
    have := only_det R ha hb hc hd h1
    rwa [h2, h0] at this
  have cpz : Only rnd (cross (edge (box 784143185 1) (box 784143185 0)) (edge (box 784143185 3) (box 784143185 0))).z (4721992264899013 * 2 ^ 7) := by
    have := only_det R e10x e20y z00 zaa (by norm_num)
    rwa [hab] at this
  have hvol : Only rnd (vol (box 784143185 0) (box 784143185 1) (box 784143185 3) (box 784143185 4)) (6695623986026474 * 2 ^ 36) := by
    have := only_dot_last R (a := edge (box 784143185 4) (box 784143185 0)) (b := cross (edge (box 784143185 1) (box 784143185 0)) (edge (box 784143185 3) (box 784143185 0))) e30z cpz zaa
      (det0 z00 z00 z00 e20y (by norm_num) (by norm_num)) z00 (det0 z00 zaa e10x z00 (by norm_num) (by norm_num)) (by norm_num) (by norm_num)
    rwa [hV] at this
  have cqx : Only rnd (cross (edge (box 784143185 3) (box 784143185 0)) (edge (box 784143185 4) (box 784143185 0))).x (4584221127659369 * 2 ^ 7) := by
    have := only_det R e20y e30z z00 z00 (by norm_num)
    rwa [hbc] at this
  have hnum : Only rnd (dotp (edge missed (box 784143185 0)) (cross (edge (box 784143185 3) (box 784143185 0)) (edge (box 784143185 4) (box 784143185 0)))) (-4584221127659369 / 2 ^ 16) := by
    have := only_dot_first R (a := edge missed (box 784143185 0)) (b := cross (edge (box 784143185 3) (box 784143185 0)) (edge (box 784143185 4) (box 784143185 0))) erx cqx ery
      (det0 z00 zaa zaa e30z (by norm_num) (by norm_num)) erz (det0 zaa z00 e20y zaa (by norm_num) (by norm_num)) (by norm_num) (by norm_num)
    rwa [hN] at this
  have := local_cases hnum hvol hr.1.1
  rw [hi] at this
  rcases this with h | h
  · rw [h, hf]; norm_num
  · rw [h, hq, hu]; norm_num

/-- **C120** (finding). With rounding to nearest a position (three doubles) strictly inside the first of two boxes that share a face is accepted by neither of them, for all tolerances below `2⁻⁵²`, so also for the default
tolerance `0` of the three dimensional test, and however products are fused. -/
theorem hex_missed (N : Nearest 53 (-1074) rnd) :
    (IsFloat 53 (-1074) missed.x ∧ IsFloat 53 (-1074) missed.y ∧ IsFloat 53 (-1074) missed.z) ∧
    (∃ a : V3 ℝ, (-1 < a.x ∧ a.x < 1) ∧ (-1 < a.y ∧ a.y < 1) ∧ (-1 < a.z ∧ a.z < 1) ∧ V3.get missed = boxA.mulVec (V3.get a) + boxB 0) ∧
    ∀ o : ℝ, o = 0 ∨ o = 784143185 → ∀ (tol0 ktol : ℝ) (code : Shape3 → ℤ), Function.Injective code → 0 ≤ ktol → ktol < 1 / 2 ^ 52 → ∀ x e, RunOn rnd tol0 code .hex (box o) missed x e → accept rnd ktol x e = none := by
  have R := nearest_rounding N
  refine ⟨⟨?_, ?_, ?_⟩, ⟨⟨1 - 1 / 2 ^ 22 / 784143185, 2 / 770796739 - 1, 2 / 761264643 - 1⟩, ?_, ?_, ?_, ?_⟩, ?_⟩
  · exact ⟨784143185 * 2 ^ 23 - 1, -23, by norm_num, by norm_num, by unfold missed; norm_num⟩
  · exact ⟨1, 0, by norm_num, by norm_num, by unfold missed; norm_num⟩
  · exact ⟨1, 0, by norm_num, by norm_num, by unfold missed; norm_num⟩
  · constructor <;> norm_num
  · constructor <;> norm_num
  · constructor <;> norm_num
  · funext i
    fin_cases i <;> simp [V3.get, missed, boxA, boxB, Matrix.mulVec, dotProduct, Fin.sum_univ_three] <;> norm_num
  · intro o ho tol0 ktol code hcode hk0 hk x e hr
    have hex : e.x = x.x := by
      have := hr.2.1
      rw [eta_shape tol0 code hcode .hex x] at this
      exact res_lit this
    have hne : accept rnd ktol x e ≠ some x := by
      rw [Ne, accept_iff hk0, hex]
      rintro ⟨⟨h1, h2⟩, -⟩
      have hu : rnd (1 / 2 ^ 52) = 1 / 2 ^ 52 := ex R 1 (-52) (by norm_num) (by norm_num) (by norm_num)
      rcases ho with rfl | rfl
      · have hx := first_rejected N hr
        have h3 := h2 (by linarith [show (0 : ℝ) < 1 / 2 ^ 52 by positivity])
        have h4 : rnd (1 / 2 ^ 52) ≤ rnd (x.x - 1) := R.mono (by linarith)
        rw [hu] at h4
        linarith
      · have hx := second_rejected N hr
        have h3 := h1 (by linarith [show (0 : ℝ) < 1 / 2 ^ 52 by positivity])
        have h4 : rnd (1 / 2 ^ 52) ≤ rnd (-1 - x.x) := R.mono (by linarith)
        rw [hu] at h4
        linarith
    unfold accept at hne ⊢
    split_ifs at hne ⊢
    · exact absurd rfl hne
    · rfl

/-! ### The hypotheses can be met: the reference elements -/

/-- The reference element of each shape as an element of the mesh. -/
noncomputable def refElement (s : Shape3) (k : ℕ) : V3 ℝ := (Verif.Spec.LinearElements.refVerts (shape s)).getD k ⟨0, 0, 0⟩

theorem refElement_affine (s : Shape3) : AffineImage (shape s) 1 0 (refElement s) := by
  intro k v hk
  rw [Matrix.one_mulVec, add_zero]
  unfold refElement
  rw [List.getD_eq_getElem?_getD, hk]
  rfl

theorem refElement_size (s : Shape3) : Size 2 s (refElement s) ⟨-1 / 2, -1 / 2, -1 / 2⟩ := by
  have v0 : vert s (refElement s) 0 = ⟨-1, -1, -1⟩ := by cases s <;> rfl
  have v1 : vert s (refElement s) 1 = ⟨1, -1, -1⟩ := by cases s <;> rfl
  have v2 : vert s (refElement s) 2 = ⟨-1, 1, -1⟩ := by cases s <;> rfl
  have v3 : vert s (refElement s) 3 = ⟨-1, -1, 1⟩ := by cases s <;> rfl
  refine ⟨?_, le_self_pow₀ (by norm_num) (by norm_num), ?_, ?_, ?_, ?_⟩
  · exact (zpow_le_one_of_nonpos₀ (by norm_num) (by norm_num)).trans (by norm_num)
  · rw [v0, v1]; refine ⟨?_, ?_, ?_⟩ <;> norm_num
  · rw [v0, v2]; refine ⟨?_, ?_, ?_⟩ <;> norm_num
  · rw [v0, v3]; refine ⟨?_, ?_, ?_⟩ <;> norm_num
  · rw [v0]; refine ⟨?_, ?_, ?_⟩ <;> norm_num [abs_le]

theorem refElement_error : relError 2 (1 : Matrix (Fin 3) (Fin 3) ℝ) = 1 / 2 ^ 51 := by
  unfold relError
  rw [Matrix.det_one]
  norm_num

/-- A position in the reference element of each shape: there is a run, every run accepts it, and `accepted` applies to it. -/
example (R : Rounding 53 (-1074) rnd) (s : Shape3) (code : Shape3 → ℤ) (hcode : Function.Injective code) :
    ∃ x e, RunOn rnd (1 / 10 ^ 12) code s (refElement s) ⟨-1 / 2, -1 / 2, -1 / 2⟩ x e ∧ accept rnd (1 / 2 ^ 30) x e = some x ∧ |x.x + 1 / 2| ≤ 530 / 2 ^ 51 := by
  have ht : tiny ≤ 1 / 10 ^ 12 := tiny_le.trans (by norm_num)
  have hdet : (1 : Matrix (Fin 3) (Fin 3) ℝ).det ≠ 0 := by rw [Matrix.det_one]; norm_num
  have hp : V3.get (⟨-1 / 2, -1 / 2, -1 / 2⟩ : V3 ℝ) = (1 : Matrix (Fin 3) (Fin 3) ℝ).mulVec (V3.get ⟨-1 / 2, -1 / 2, -1 / 2⟩) + 0 := by rw [Matrix.one_mulVec, add_zero]
  obtain ⟨x, e, hr⟩ := runs R (refElement_size s) (refElement_affine s) hdet (by rw [refElement_error]; norm_num) (tol0 := 1 / 10 ^ 12) (by norm_num) code hcode
  have ha := found_partial R (refElement_size s) (refElement_affine s) hdet (tol0 := 1 / 10 ^ 12) (ktol := 1 / 2 ^ 30) (n := 1) ⟨1, -30, by norm_num, by norm_num, by norm_num⟩ (by norm_num) ht (by norm_num) (by norm_num) (by norm_num)
    (by rw [refElement_error]; norm_num) code hcode (a := ⟨-1 / 2, -1 / 2, -1 / 2⟩) (by cases s <;> norm_num [InRef3]) (by cases s <;> norm_num [Apart]) hp hr
  refine ⟨x, e, hr, ha, ?_⟩
  have := (local_coordinates R (refElement_size s) (refElement_affine s) hdet (by rw [refElement_error]; norm_num) hp hr).1
  rw [refElement_error] at this
  dsimp only at this
  rw [show x.x - -1 / 2 = x.x + 1 / 2 by ring] at this
  refine this.trans ?_
  norm_num [abs_le]

end Verif.Props.C120
