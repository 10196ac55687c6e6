import Verif.Lemmas.FloatExpansion

/-! Lemmas for C114: the loops of the six shapes. -/

namespace Verif.Lemmas.FloatExpansion
open Verif.Lemmas.Rounding Verif.Spec.Rounding Verif.Spec.FloatExpansion Verif.Model Verif.Model.FloatKernels Verif.Model.FloatExpansion
  Verif.Model.ExpansionLooping Verif.Model.BasisReference

variable {δ B : ℝ} {rnd : ℝ → ℝ}

/-- Additions to the same entries with values near to the exact ones. -/
def Adds (δ B v : ℝ) (a : List (ℕ × ℝ)) (b : List (ℕ × Option ℝ)) : Prop :=
  List.Forall₂ (fun x y => x.1 = y.1 ∧ IsFloat 53 (-1074) x.2 ∧ Near δ B v 3 x.2 y.2) a b

theorem Adds.snoc {v : ℝ} {a : List (ℕ × ℝ)} {b : List (ℕ × Option ℝ)} (h : Adds δ B v a b) (m : ℕ) {x : ℝ} {X : Option ℝ} (hf : IsFloat 53 (-1074) x) (hx : Near δ B v 3 x X) :
    Adds δ B v (a ++ [(m, x)]) (b ++ [(m, X)]) :=
  List.rel_append h (List.Forall₂.cons ⟨rfl, hf, hx⟩ List.Forall₂.nil)

/-- States of the projection loops. -/
def PrRel (δ B v : ℝ) (s : PrF) (t : PrSt ℝ) : Prop := s.mode = t.mode ∧ Adds δ B v s.adds t.adds

theorem project_near (R : Rounding 53 (-1074) rnd) (hδ : 0 ≤ δ) (hB : 1 ≤ B) (shape : Shape) (n : ℕ) (v : ℝ) {l0 l1 l2 : List ℝ} {L0 L1 L2 : List (Option ℝ)}
    (h0 : Space δ B l0 L0) (h1 : Space δ B l1 L1) (h2 : Space δ B l2 L2) :
    Opt2 (Adds δ B v) (loopProjectF rnd shape n v l0 l1 l2) (loopProject shape n v L0 L1 L2) := by
  have mul : ∀ {x a : ℝ} {k : ℕ} {X E : Option ℝ}, Near δ B v k x X → Entry δ B a E → Near δ B v (k + 1) (rnd (x * a)) (Dbl.mul X E) := near_mul R hδ hB
  have up : ∀ {x : ℝ} {k : ℕ} {X : Option ℝ}, Near δ B v k x X → k ≤ 3 → Near δ B v 3 x X := fun h hk => near_mono hδ hB h hk
  have ini : Near δ B v 0 v (some v) := near_init v
  have nil : Adds δ B v [] [] := List.Forall₂.nil
  cases shape with
  | quad =>
    refine forLoop2 (fun _ => Adds δ B v) n (fun qx _ s t hs => ?_) nil
    refine forLoop2 (fun _ => Adds δ B v) n (fun px _ s t hs => ?_) hs
    refine (read2 h0 px).bind fun a A _ _ ha => (read2 h1 qx).bind fun b C _ _ hb => ?_
    exact hs.snoc _ (R.float _) (up (mul (mul ini ha) hb) (by norm_num))
  | tri =>
    refine (forLoop2 (fun _ => PrRel δ B v) n (fun px _ s t hs => ?_) (s := ⟨0, []⟩) (t := ⟨0, []⟩) ⟨rfl, nil⟩).map fun a b h => h.2
    refine forLoop2 (fun _ => PrRel δ B v) (n - px) (fun _ _ s t hs => ?_) hs
    obtain ⟨hm, hs⟩ := hs
    rw [hm]
    have hr : Opt2 (Entry δ B) (if t.mode = 1 then some 1 else Mem.read l0 (px : ℤ)) (if t.mode = 1 then some (some 1) else Mem.read L0 (px : ℤ)) := by
      split_ifs
      · exact entry_one hδ hB
      · exact read2 h0 px
    refine hr.bind fun a A _ _ ha => (read2 h1 t.mode).bind fun b C _ _ hb => ?_
    exact ⟨rfl, hs.snoc _ (R.float _) (up (mul (mul ini ha) hb) (by norm_num))⟩
  | hex =>
    refine forLoop2 (fun _ => Adds δ B v) n (fun rx _ s t hs => ?_) nil
    refine (read2 h2 rx).bind fun c C _ _ hc => ?_
    refine forLoop2 (fun _ => Adds δ B v) n (fun qx _ s t hs => ?_) hs
    refine (read2 h1 qx).bind fun b Bb _ _ hb => ?_
    refine forLoop2 (fun _ => Adds δ B v) n (fun px _ s t hs => ?_) hs
    refine (read2 h0 px).bind fun a A _ _ ha => ?_
    exact hs.snoc _ (R.float _) (near_comm (mul (near_comm (mul (near_comm (mul ini hc)) hb)) ha))
  | prism =>
    refine (forLoop2 (fun _ (s : ℕ × PrF) (t : ℕ × PrSt ℝ) => s.1 = t.1 ∧ PrRel δ B v s.2 t.2) n (fun p _ s t hs => ?_) (s := (0, ⟨0, []⟩)) (t := (0, ⟨0, []⟩))
      ⟨rfl, rfl, nil⟩).map fun a b h => h.2.2
    obtain ⟨hr, hs⟩ := hs
    refine (read2 h0 p).bind fun a A _ _ ha => ?_
    refine Opt2.map (R := PrRel δ B v) ?_ fun x y hxy => ⟨by rw [hr], hxy⟩
    refine forLoop2 (fun _ => PrRel δ B v) n (fun q _ s' t' hs => ?_) hs
    refine (read2 h1 q).bind fun b Bb _ _ hb => ?_
    refine forLoop2 (fun _ => PrRel δ B v) (n - p) (fun r _ s' t' hs => ?_) hs
    rw [hr]
    refine (read2 h2 (t.1 + r)).bind fun c C _ _ hc => ?_
    obtain ⟨hm, hs⟩ := hs
    refine ⟨by simp [hm], ?_⟩
    dsimp only
    rw [hm]
    split_ifs
    · exact hs.snoc _ (R.float _) (up (mul (mul ini hb) hc) (by norm_num))
    · exact hs.snoc _ (R.float _) (mul (mul (mul ini ha) hb) hc)
  | pyr =>
    refine (forLoop2 (fun _ => PrRel δ B v) n (fun p _ s t hs => ?_) (s := ⟨0, []⟩) (t := ⟨0, []⟩) ⟨rfl, nil⟩).map fun a b h => h.2
    refine (read2 h0 p).bind fun a A _ _ ha => ?_
    refine forLoop2 (fun _ => PrRel δ B v) n (fun q _ s t hs => ?_) hs
    refine (read2 h1 q).bind fun b Bb _ _ hb => ?_
    refine forLoop2 (fun _ => PrRel δ B v) _ (fun r _ s t hs => ?_) hs
    obtain ⟨hm, hs⟩ := hs
    rw [hm]
    refine (read2 h2 t.mode).bind fun c C _ _ hc => ?_
    refine ⟨rfl, ?_⟩
    dsimp only
    split_ifs
    · exact hs.snoc _ (R.float _) (up (mul ini hc) (by norm_num))
    · exact hs.snoc _ (R.float _) (mul (mul (mul ini ha) hb) hc)
  | tet =>
    refine (forLoop2 (fun _ (s : ℕ × PrF) (t : ℕ × PrSt ℝ) => s.1 = t.1 ∧ PrRel δ B v s.2 t.2) n (fun p _ s t hs => ?_) (s := (0, ⟨0, []⟩)) (t := (0, ⟨0, []⟩))
      ⟨rfl, rfl, nil⟩).map fun a b h => h.2.2
    refine (read2 h0 p).bind fun a A _ _ ha => ?_
    refine forLoop2 (fun _ (s : ℕ × PrF) (t : ℕ × PrSt ℝ) => s.1 = t.1 ∧ PrRel δ B v s.2 t.2) (n - p) (fun q _ s t hs => ?_) hs
    obtain ⟨hr, hs⟩ := hs
    rw [hr]
    refine (read2 h1 t.1).bind fun b Bb _ _ hb => ?_
    refine Opt2.map (R := PrRel δ B v) ?_ fun x y hxy => ⟨rfl, hxy⟩
    refine forLoop2 (fun _ => PrRel δ B v) _ (fun r _ s' t' hs => ?_) hs
    obtain ⟨hm, hs⟩ := hs
    rw [hm]
    refine (read2 h2 t'.mode).bind fun c C _ _ hc => ?_
    refine ⟨rfl, ?_⟩
    dsimp only
    split_ifs
    · exact hs.snoc _ (R.float _) (up (mul ini hc) (by norm_num))
    · exact hs.snoc _ (R.float _) (up (mul (mul ini hb) hc) (by norm_num))
    · exact hs.snoc _ (R.float _) (mul (mul (mul ini ha) hb) hc)

/-! ### Evaluation -/

/-- After the first `k` terms of an evaluation. -/
def EvOk (δ B : ℝ) (dofs : List ℝ) (k : ℕ) (acc : ℝ) (V : Option ℝ) : Prop := k ≤ dofs.length ∧ Accum δ B 0 k ((dofs.take k).map (|·|)).sum acc V

theorem ev_init (dofs : List ℝ) : EvOk δ B dofs 0 0 (some 0) := ⟨Nat.zero_le _, by simpa using accum_init (δ := δ) (B := B) 0⟩

theorem ev_step (R : Rounding 53 (-1074) rnd) (hδ : 0 ≤ δ) (hB : 1 ≤ B) {dofs : List ℝ} {k : ℕ} {acc c t : ℝ} {V T : Option ℝ} (h : EvOk δ B dofs k acc V)
    (hc : Mem.read dofs (k : ℤ) = some c) (ht : Term δ B c t T) : EvOk δ B dofs (k + 1) (rnd (t + acc)) (Dbl.add V T) := by
  rw [Mem.read_ofNat] at hc
  obtain ⟨hk, hck⟩ := List.getElem?_eq_some_iff.mp hc
  refine ⟨hk, ?_⟩
  have := accum_step R hδ hB h.2 ht
  rwa [List.take_add_one, hc, List.map_append, List.sum_append, Option.toList_some, List.map_singleton, List.sum_singleton]

/-- A last product of at most three entries, contracted or not. -/
theorem ev_mulAdd (R : Rounding 53 (-1074) rnd) (hδ : 0 ≤ δ) (hB : 1 ≤ B) {dofs : List ℝ} {k j : ℕ} {acc c x a : ℝ} {V X E : Option ℝ} (contract : Bool) (h : EvOk δ B dofs k acc V)
    (hc : Mem.read dofs (k : ℤ) = some c) (hx : Near δ B c j x X) (ha : Entry δ B a E) (hj : j ≤ 2) :
    EvOk δ B dofs (k + 1) (mulAdd rnd contract x a acc) (Dbl.add V (Dbl.mul X E)) := by
  unfold mulAdd
  cases contract
  · exact ev_step R hδ hB h hc ((near_mul R hδ hB hx ha).term hδ hB (by omega))
  · exact ev_step R hδ hB h hc ((near_exact hδ hB hx ha).term hδ hB (by omega))

/-- The same when the term is computed in another order. -/
theorem ev_mulAdd' (R : Rounding 53 (-1074) rnd) (hδ : 0 ≤ δ) (hB : 1 ≤ B) {dofs : List ℝ} {k : ℕ} {acc c x a : ℝ} {V T : Option ℝ} (contract : Bool) (h : EvOk δ B dofs k acc V)
    (hc : Mem.read dofs (k : ℤ) = some c) (h1 : Term δ B c (rnd (x * a)) T) (h2 : Term δ B c (x * a) T) :
    EvOk δ B dofs (k + 1) (mulAdd rnd contract x a acc) (Dbl.add V T) := by
  unfold mulAdd
  cases contract
  · exact ev_step R hδ hB h hc h1
  · exact ev_step R hδ hB h hc h2

theorem mul_eq_some {X Y : Option ℝ} {z : ℝ} (h : Dbl.mul X Y = some z) : ∃ x y, X = some x ∧ Y = some y ∧ z = x * y := by
  cases X with
  | none => simp at h
  | some x => cases Y with
    | none => simp at h
    | some y => exact ⟨x, y, rfl, rfl, by simpa using h.symm⟩

/-- Facts about the constants. -/
theorem consts (hδ : 0 ≤ δ) (hB : 1 ≤ B) : 1 ≤ q ∧ 0 < η ∧ η ≤ 1 ∧ 1 ≤ B + δ ∧ B ≤ B + δ ∧ growth δ B = q ^ 3 * (B + δ) ^ 3 := by
  refine ⟨q_ge, η_pos, ?_, by linarith, by linarith, by unfold growth; ring⟩
  unfold η
  exact zpow_le_one_of_nonpos₀ (by norm_num) (by norm_num)

theorem App.term {v t y M m ε : ℝ} {T : Option ℝ} (hT : T = some y) (h : App t y M m ε) (h1 : m ≤ |v| * B ^ 3) (h2 : M - m ≤ |v| * (growth δ B - B ^ 3))
    (h3 : ε ≤ 3 * η * (1 + |v|) * growth δ B) : Term δ B v t T := by
  intro z hz
  obtain rfl : y = z := Option.some.inj (hT.symm.trans hz)
  exact ⟨h.1.trans h1, h.2.trans (by linarith)⟩

/-- hexahedron: `coeff * etmp0 * (x1 * etmp2)`. -/
theorem hex_term (R : Rounding 53 (-1074) rnd) (hδ : 0 ≤ δ) (hB : 1 ≤ B) {c a b d : ℝ} {A Bb D : Option ℝ} (ha : Entry δ B a A) (hb : Entry δ B b Bb) (hd : Entry δ B d D) :
    Term δ B c (rnd (rnd (c * a) * rnd (b * d))) (Dbl.mul (Dbl.mul (some c) A) (Dbl.mul Bb D)) ∧
    Term δ B c (rnd (c * a) * rnd (b * d)) (Dbl.mul (Dbl.mul (some c) A) (Dbl.mul Bb D)) := by
  obtain ⟨hq, hη, hη1, hA1, hAB, hG⟩ := consts hδ hB
  cases hT : Dbl.mul (Dbl.mul (some c) A) (Dbl.mul Bb D) with
  | none => exact ⟨fun y hy => by simp at hy, fun y hy => by simp at hy⟩
  | some z =>
    obtain ⟨x, y, hx, hy, rfl⟩ := mul_eq_some hT
    obtain ⟨c', a', hc', ha', rfl⟩ := mul_eq_some hx
    obtain ⟨b', d', hb', hd', rfl⟩ := mul_eq_some hy
    obtain rfl : c = c' := Option.some.inj hc'
    have h := (((app_self c).mul (ha.app ha')).rnd R).mul (((hb.app hb').mul (hd.app hd')).rnd R)
    have h' := h.rnd R
    have hc := abs_nonneg c
    set α := B + δ with hα
    have e1 : growth δ B = q * (q * q) * (α * (α * α)) := by rw [hG]; ring
    have b0 : 0 ≤ α := by linarith
    have q0 : 0 ≤ q := by linarith
    have hα2 : 1 ≤ α * α := by nlinarith
    have hq2 : q ≤ q * q := by nlinarith
    have hq3 : q * q ≤ q * (q * q) := by nlinarith
    have hG1 : q * q * (α * (α * α)) ≤ growth δ B := by rw [e1]; exact mul_le_mul_of_nonneg_right hq3 (by positivity)
    have hm : |c| * B * (B * B) = |c| * B ^ 3 := by ring
    have t1 : α * α ≤ α * (α * α) := by nlinarith
    have t2 : α ≤ α * (α * α) := by nlinarith
    have u1 : q * (α * α) ≤ q * q * (α * (α * α)) := mul_le_mul hq2 t1 (by positivity) (by positivity)
    have u2 : q * α ≤ q * q * (α * (α * α)) := mul_le_mul hq2 t2 (by positivity) (by positivity)
    have u3 : 1 ≤ q * q * (α * (α * α)) := le_trans (by nlinarith) u2
    set Z := q * q * (α * (α * α)) with hZ
    -- the underflow of the product
    have hε : (q * (0 * (B + δ) + 0 * |c| + 0 * 0) + η) * (q * ((B + δ) * (B + δ))) + (q * (0 * (B + δ) + 0 * (B + δ) + 0 * 0) + η) * (q * (|c| * (B + δ))) +
        (q * (0 * (B + δ) + 0 * |c| + 0 * 0) + η) * (q * (0 * (B + δ) + 0 * (B + δ) + 0 * 0) + η) ≤ 2 * η * (1 + |c|) * Z := by
      rw [← hα]
      have v1 : η * (q * (α * α)) ≤ η * Z := mul_le_mul_of_nonneg_left u1 hη.le
      have v2 : η * |c| * (q * α) ≤ η * |c| * Z := mul_le_mul_of_nonneg_left u2 (by positivity)
      have v3 : η * η ≤ η * Z := mul_le_mul_of_nonneg_left (by linarith) hη.le
      have v4 : 0 ≤ η * |c| * Z := by positivity
      nlinarith
    have hZG : 2 * η * (1 + |c|) * Z ≤ 2 * η * (1 + |c|) * growth δ B := mul_le_mul_of_nonneg_left hG1 (by positivity)
    have hZ0 : 0 ≤ η * (1 + |c|) * growth δ B := by have : 0 ≤ growth δ B := by linarith
                                                    positivity
    refine ⟨App.term rfl h' hm.le (le_of_eq ?_) ?_, App.term rfl h hm.le ?_ ?_⟩
    · rw [e1]; ring
    · have v1 : q * (2 * η * (1 + |c|) * Z) = 2 * η * (1 + |c|) * growth δ B := by rw [e1, hZ]; ring
      have v2 := mul_le_mul_of_nonneg_left hε q0
      have v3 : η ≤ η * (1 + |c|) * growth δ B := by
        have w1 : 1 ≤ growth δ B := by linarith
        have w2 : 1 ≤ (1 + |c|) * growth δ B := by nlinarith
        nlinarith
      linarith
    · rw [hm]
      have : q * (|c| * (B + δ)) * (q * ((B + δ) * (B + δ))) = |c| * Z := by rw [hZ, ← hα]; ring
      rw [this]
      have := mul_le_mul_of_nonneg_left hG1 hc
      linarith
    · linarith

/-- prism: `coeff * (etmp0 * etmp1 * etmp2)` and `coeff * (etmp1 * etmp2)`. -/
theorem prism_term (R : Rounding 53 (-1074) rnd) (hδ : 0 ≤ δ) (hB : 1 ≤ B) {c : ℝ} {t : ℝ} {T : Option ℝ}
    (ht : ∀ y, T = some y → ∃ j : ℕ, j ≤ 3 ∧ App t y (q ^ 2 * (B + δ) ^ j) (B ^ j) (2 * η * (q * (B + δ)))) :
    Term δ B c (rnd (c * t)) (Dbl.mul (some c) T) ∧ Term δ B c (c * t) (Dbl.mul (some c) T) := by
  obtain ⟨hq, hη, hη1, hA1, hAB, hG⟩ := consts hδ hB
  cases hT : Dbl.mul (some c) T with
  | none => exact ⟨fun y hy => by simp at hy, fun y hy => by simp at hy⟩
  | some z =>
    obtain ⟨x, y, hx, hy, rfl⟩ := mul_eq_some hT
    obtain rfl : c = x := Option.some.inj hx
    obtain ⟨j, hj, hA⟩ := ht y hy
    have h := (app_self c).mul hA
    have h' := h.rnd R
    have hc := abs_nonneg c
    set α := B + δ with hα
    have b0 : 0 ≤ α := by linarith
    have q0 : 0 ≤ q := by linarith
    have hBj : B ^ j ≤ B ^ 3 := pow_le_pow_right₀ hB hj
    have hαj : α ^ j ≤ α ^ 3 := pow_le_pow_right₀ hA1 hj
    have hdiff : q ^ 3 * α ^ j - B ^ j ≤ q ^ 3 * α ^ 3 - B ^ 3 := by
      obtain ⟨i, hi⟩ := Nat.exists_eq_add_of_le hj
      have e1 : α ^ 3 = α ^ j * α ^ i := by rw [← pow_add, ← hi]
      have e2 : B ^ 3 = B ^ j * B ^ i := by rw [← pow_add, ← hi]
      rw [e1, e2]
      have w1 : B ^ i ≤ α ^ i := pow_le_pow_left₀ (by linarith) hAB i
      have w2 : B ^ j ≤ α ^ j := pow_le_pow_left₀ (by linarith) hAB j
      have w3 : 1 ≤ B ^ i := one_le_pow₀ hB
      have w4 : 1 ≤ q ^ 3 := one_le_pow₀ hq
      have w5 : 0 ≤ B ^ j := by positivity
      have w6 : α ^ j ≤ q ^ 3 * α ^ j := by have : 0 ≤ α ^ j := by positivity
                                            nlinarith
      have w7 : q ^ 3 * α ^ j * (B ^ i) ≤ q ^ 3 * α ^ j * α ^ i := mul_le_mul_of_nonneg_left w1 (by positivity)
      have w8 : 0 ≤ (q ^ 3 * α ^ j - B ^ j) * (B ^ i - 1) := mul_nonneg (by linarith) (by linarith)
      nlinarith
    have hq23 : q ^ 2 ≤ q ^ 3 := pow_le_pow_right₀ hq (by norm_num)
    have m1 : |c| * B ^ j ≤ |c| * B ^ 3 := mul_le_mul_of_nonneg_left hBj hc
    have hqα : q * (q * α) ≤ growth δ B := by
      rw [hG]
      have w1 : q * q ≤ q ^ 3 := by nlinarith [sq_nonneg q]
      have w2 : α ≤ α ^ 3 := by nlinarith [mul_self_nonneg α, mul_nonneg b0 b0]
      have := mul_le_mul w1 w2 b0 (by positivity)
      linarith
    have g1 : 1 ≤ growth δ B := by
      have : 1 ≤ q * (q * α) := by
        have : 1 ≤ q * α := by nlinarith
        nlinarith
      linarith
    refine ⟨App.term rfl h' m1 ?_ ?_, App.term rfl h m1 ?_ ?_⟩
    · rw [hG]
      have := mul_le_mul_of_nonneg_left hdiff hc
      have e : q * (|c| * (q ^ 2 * α ^ j)) = |c| * (q ^ 3 * α ^ j) := by ring
      rw [e]; linarith
    · have v1 : 2 * η * |c| * (q * (q * α)) ≤ 2 * η * |c| * growth δ B := mul_le_mul_of_nonneg_left hqα (by positivity)
      have v2 : η ≤ η * growth δ B := by nlinarith
      have v3 : 0 ≤ η * |c| * growth δ B := by positivity
      linarith
    · rw [hG]
      have := mul_le_mul_of_nonneg_left hdiff hc
      have w : |c| * (q ^ 2 * α ^ j) ≤ |c| * (q ^ 3 * α ^ j) := mul_le_mul_of_nonneg_left (mul_le_mul_of_nonneg_right hq23 (by positivity)) hc
      linarith
    · have v0 : q * α ≤ q * (q * α) := by have : 0 ≤ q * α := by positivity
                                          nlinarith
      have v1 : 2 * η * |c| * (q * α) ≤ 2 * η * |c| * growth δ B := mul_le_mul_of_nonneg_left (v0.trans hqα) (by positivity)
      have v3 : 0 ≤ η * |c| * growth δ B := by positivity
      have v4 : 0 ≤ η * growth δ B := by positivity
      linarith

theorem prism_tmp (R : Rounding 53 (-1074) rnd) (hδ : 0 ≤ δ) (hB : 1 ≤ B) {a b d : ℝ} {A Bb D : Option ℝ} (ha : Entry δ B a A) (hb : Entry δ B b Bb) (hd : Entry δ B d D) (s : Prop) [Decidable s] :
    ∀ y, (if s then Dbl.mul Bb D else Dbl.mul (Dbl.mul A Bb) D) = some y →
      ∃ j : ℕ, j ≤ 3 ∧ App (if s then rnd (b * d) else rnd (rnd (a * b) * d)) y (q ^ 2 * (B + δ) ^ j) (B ^ j) (2 * η * (q * (B + δ))) := by
  obtain ⟨hq, hη, hη1, hA1, hAB, hG⟩ := consts hδ hB
  have hqα : 1 ≤ q * (B + δ) := by nlinarith
  intro y hy
  by_cases h : s
  · rw [if_pos h] at hy ⊢
    obtain ⟨b', d', hb', hd', rfl⟩ := mul_eq_some hy
    obtain ⟨h1, h2⟩ := ((hb.app hb').mul (hd.app hd')).rnd R
    refine ⟨2, by norm_num, by rw [pow_two B]; exact h1, h2.trans ?_⟩
    have w : q * ((B + δ) * (B + δ)) ≤ q ^ 2 * (B + δ) ^ 2 := by
      have e : q ^ 2 * (B + δ) ^ 2 = q * (q * ((B + δ) * (B + δ))) := by ring
      rw [e]
      have : 0 ≤ q * ((B + δ) * (B + δ)) := by positivity
      nlinarith
    have v : η ≤ η * (q * (B + δ)) := by nlinarith
    have e2 : B ^ 2 = B * B := pow_two B
    rw [e2]
    linarith
  · rw [if_neg h] at hy ⊢
    obtain ⟨x, d', hx, hd', rfl⟩ := mul_eq_some hy
    obtain ⟨a', b', ha', hb', rfl⟩ := mul_eq_some hx
    obtain ⟨h1, h2⟩ := ((((ha.app ha').mul (hb.app hb')).rnd R).mul (hd.app hd')).rnd R
    refine ⟨3, le_rfl, by convert h1 using 1; ring, h2.trans ?_⟩
    have v : η ≤ η * (q * (B + δ)) := by nlinarith
    nlinarith

/-- States of the evaluation loops. -/
def EvRel (δ B : ℝ) (dofs : List ℝ) (s : EvF) (t : EvSt ℝ) : Prop := s.mode = t.mode ∧ EvOk δ B dofs s.mode s.evaluation t.evaluation

theorem evaluate_near (R : Rounding 53 (-1074) rnd) (hδ : 0 ≤ δ) (hB : 1 ≤ B) (contract : ℕ → Bool) (shape : Shape) (n : ℕ) (dofs : List ℝ) {l0 l1 l2 : List ℝ} {L0 L1 L2 : List (Option ℝ)}
    (h0 : Space δ B l0 L0) (h1 : Space δ B l1 L1) (h2 : Space δ B l2 L2) :
    Opt2 (fun a b => ∃ k, EvOk δ B dofs k a b) (loopEvaluateF rnd contract shape n dofs l0 l1 l2) (loopEvaluate shape n dofs L0 L1 L2) := by
  have mul : ∀ {v x a : ℝ} {k : ℕ} {X E : Option ℝ}, Near δ B v k x X → Entry δ B a E → Near δ B v (k + 1) (rnd (x * a)) (Dbl.mul X E) := near_mul R hδ hB
  have ini : ∀ v, Near δ B v 0 v (some v) := near_init
  have z : EvRel δ B dofs ⟨0, 0⟩ ⟨0, some 0⟩ := ⟨rfl, ev_init dofs⟩
  cases shape with
  | quad =>
    refine (forLoop2 (fun qx => EvOk δ B dofs (qx * n)) n (fun qx _ s t hs => ?_) (by simpa using ev_init dofs)).mono fun a b h => ⟨_, h⟩
    rw [show (qx + 1) * n = qx * n + n by ring]
    refine forLoop2 (fun px => EvOk δ B dofs (qx * n + px)) n (fun px _ s t hs => ?_) hs
    refine (Opt2.refl (Mem.read dofs ((qx * n + px : ℕ) : ℤ))).bind fun c c' hc _ e => ?_
    subst e
    refine (read2 h0 px).bind fun a A _ _ ha => (read2 h1 qx).bind fun b Bb _ _ hb => ?_
    exact ev_mulAdd R hδ hB _ hs hc (mul (ini c) ha) hb (by norm_num)
  | tri =>
    refine (forLoop2 (fun _ => EvRel δ B dofs) n (fun px _ s t hs => ?_) z).map fun a b h => ⟨_, h.2⟩
    refine forLoop2 (fun _ => EvRel δ B dofs) (n - px) (fun _ _ s t hs => ?_) hs
    obtain ⟨hm, hs⟩ := hs
    rw [hm] at hs ⊢
    have hr : Opt2 (Entry δ B) (if t.mode = 1 then some 1 else Mem.read l0 (px : ℤ)) (if t.mode = 1 then some (some 1) else Mem.read L0 (px : ℤ)) := by
      split_ifs
      · exact entry_one hδ hB
      · exact read2 h0 px
    refine (Opt2.refl (Mem.read dofs (t.mode : ℤ))).bind fun c c' hc _ e => ?_
    subst e
    refine hr.bind fun a A _ _ ha => (read2 h1 t.mode).bind fun b C _ _ hb => ?_
    exact ⟨rfl, ev_mulAdd R hδ hB _ hs hc (mul (ini c) ha) hb (by norm_num)⟩
  | hex =>
    refine (forLoop2 (fun rx => EvOk δ B dofs (rx * n * n)) n (fun rx _ s t hs => ?_) (by simpa using ev_init dofs)).mono fun a b h => ⟨_, h⟩
    refine (read2 h2 rx).bind fun d D _ _ hd => ?_
    rw [show (rx + 1) * n * n = n * n + rx * n * n by ring]
    refine forLoop2 (fun qx => EvOk δ B dofs (qx * n + rx * n * n)) n (fun qx _ s t hs => ?_) (by simpa using hs)
    refine (read2 h1 qx).bind fun b Bb _ _ hb => ?_
    rw [show (qx + 1) * n + rx * n * n = n + (qx * n + rx * n * n) by ring]
    refine forLoop2 (fun px => EvOk δ B dofs (px + (qx * n + rx * n * n))) n (fun px _ s t hs => ?_) (by simpa using hs)
    refine (Opt2.refl (Mem.read dofs ((px + (qx * n + rx * n * n) : ℕ) : ℤ))).bind fun c c' hc _ e => ?_
    subst e
    refine (read2 h0 px).bind fun a A _ _ ha => ?_
    obtain ⟨t1, t2⟩ := hex_term R hδ hB (c := c) ha hb hd
    have := ev_mulAdd' R hδ hB (contract 0) hs hc t1 t2
    rw [show px + 1 + (qx * n + rx * n * n) = px + (qx * n + rx * n * n) + 1 by ring]
    exact this
  | prism =>
    refine (forLoop2 (fun _ (s : ℕ × EvF) (t : ℕ × EvSt ℝ) => s.1 = t.1 ∧ EvRel δ B dofs s.2 t.2) n (fun p _ s t hs => ?_) (s := (0, ⟨0, 0⟩)) (t := (0, ⟨0, some 0⟩))
      ⟨rfl, z⟩).map fun a b h => ⟨_, h.2.2⟩
    obtain ⟨hr, hs⟩ := hs
    refine (read2 h0 p).bind fun a A _ _ ha => ?_
    refine Opt2.map (R := EvRel δ B dofs) ?_ fun x y hxy => ⟨by rw [hr], hxy⟩
    refine forLoop2 (fun _ => EvRel δ B dofs) n (fun q _ s' t' hs => ?_) hs
    refine (read2 h1 q).bind fun b Bb _ _ hb => ?_
    refine forLoop2 (fun _ => EvRel δ B dofs) (n - p) (fun r _ s' t' hs => ?_) hs
    rw [hr]
    refine (read2 h2 (t.1 + r)).bind fun d D _ _ hd => ?_
    obtain ⟨hm, hs⟩ := hs
    rw [hm] at hs ⊢
    refine (Opt2.refl (Mem.read dofs (t'.mode : ℤ))).bind fun c c' hc _ e => ?_
    subst e
    obtain ⟨t1, t2⟩ := prism_term R hδ hB (c := c) (prism_tmp R hδ hB ha hb hd (p = 0 ∧ r = 1))
    exact ⟨rfl, ev_mulAdd' R hδ hB (contract 0) hs hc t1 t2⟩
  | pyr =>
    refine (forLoop2 (fun _ => EvRel δ B dofs) n (fun p _ s t hs => ?_) z).map fun a b h => ⟨_, h.2⟩
    refine (read2 h0 p).bind fun a A _ _ ha => ?_
    refine forLoop2 (fun _ => EvRel δ B dofs) n (fun q _ s t hs => ?_) hs
    refine (read2 h1 q).bind fun b Bb _ _ hb => ?_
    refine forLoop2 (fun _ => EvRel δ B dofs) _ (fun r _ s t hs => ?_) hs
    obtain ⟨hm, hs⟩ := hs
    rw [hm] at hs ⊢
    refine (read2 h2 t.mode).bind fun d D _ _ hd => ?_
    refine (Opt2.refl (Mem.read dofs (t.mode : ℤ))).bind fun c c' hc _ e => ?_
    subst e
    refine ⟨rfl, ?_⟩
    dsimp only
    split_ifs
    · exact ev_mulAdd R hδ hB _ hs hc (ini c) hd (by norm_num)
    · exact ev_mulAdd R hδ hB _ hs hc (mul (mul (ini c) ha) hb) hd (by norm_num)
  | tet =>
    refine (forLoop2 (fun _ (s : ℕ × EvF) (t : ℕ × EvSt ℝ) => s.1 = t.1 ∧ EvRel δ B dofs s.2 t.2) n (fun p _ s t hs => ?_) (s := (0, ⟨0, 0⟩)) (t := (0, ⟨0, some 0⟩))
      ⟨rfl, z⟩).map fun a b h => ⟨_, h.2.2⟩
    refine (read2 h0 p).bind fun a A _ _ ha => ?_
    refine forLoop2 (fun _ (s : ℕ × EvF) (t : ℕ × EvSt ℝ) => s.1 = t.1 ∧ EvRel δ B dofs s.2 t.2) (n - p) (fun q _ s t hs => ?_) hs
    obtain ⟨hr, hs⟩ := hs
    rw [hr]
    refine (read2 h1 t.1).bind fun b Bb _ _ hb => ?_
    refine Opt2.map (R := EvRel δ B dofs) ?_ fun x y hxy => ⟨rfl, hxy⟩
    refine forLoop2 (fun _ => EvRel δ B dofs) _ (fun r _ s' t' hs => ?_) hs
    obtain ⟨hm, hs⟩ := hs
    rw [hm] at hs ⊢
    refine (read2 h2 t'.mode).bind fun d D _ _ hd => ?_
    refine (Opt2.refl (Mem.read dofs (t'.mode : ℤ))).bind fun c c' hc _ e => ?_
    subst e
    refine ⟨rfl, ?_⟩
    dsimp only
    split_ifs
    · exact ev_mulAdd R hδ hB _ hs hc (ini c) hd (by norm_num)
    · exact ev_mulAdd R hδ hB _ hs hc (mul (ini c) hb) hd (by norm_num)
    · exact ev_mulAdd R hδ hB _ hs hc (mul (mul (ini c) ha) hb) hd (by norm_num)

end Verif.Lemmas.FloatExpansion
