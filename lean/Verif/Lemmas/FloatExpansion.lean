import Verif.Model.FloatExpansion
import Verif.Spec.FloatExpansion
import Verif.Lemmas.Rounding
import Mathlib.Algebra.Order.Ring.Pow
import Mathlib.Tactic.GCongr

/-! Lemmas for C114: errors of the loops over the modes. -/

namespace Verif.Lemmas.FloatExpansion
open Verif.Lemmas.Rounding Verif.Spec.Rounding Verif.Spec.FloatExpansion Verif.Model Verif.Model.FloatKernels Verif.Model.FloatExpansion
  Verif.Model.ExpansionLooping Verif.Model.BasisReference

/-! ### Programs that read the same entries -/

/-- Both fail, or both end in related states. -/
def Opt2 {α β : Type*} (R : α → β → Prop) : Option α → Option β → Prop
  | some a, some b => R a b
  | none, none => True
  | _, _ => False

theorem Opt2.bind {α β γ ε : Type*} {R : α → β → Prop} {S : γ → ε → Prop} {x : Option α} {y : Option β} {f : α → Option γ} {g : β → Option ε}
    (h : Opt2 R x y) (hf : ∀ a b, x = some a → y = some b → R a b → Opt2 S (f a) (g b)) : Opt2 S (x.bind f) (y.bind g) := by
  cases x <;> cases y
  · trivial
  · exact absurd h (by simp [Opt2])
  · exact absurd h (by simp [Opt2])
  · exact hf _ _ rfl rfl h

theorem Opt2.map {α β γ ε : Type*} {R : α → β → Prop} {S : γ → ε → Prop} {x : Option α} {y : Option β} {f : α → γ} {g : β → ε}
    (h : Opt2 R x y) (hf : ∀ a b, R a b → S (f a) (g b)) : Opt2 S (x.map f) (y.map g) := by
  cases x <;> cases y
  · trivial
  · exact absurd h (by simp [Opt2])
  · exact absurd h (by simp [Opt2])
  · exact hf _ _ h

theorem Opt2.mono {α β : Type*} {R S : α → β → Prop} {x : Option α} {y : Option β} (h : Opt2 R x y) (hf : ∀ a b, R a b → S a b) : Opt2 S x y := by
  have := h.map (f := id) (g := id) hf
  simpa using this

theorem Opt2.refl {α : Type*} (x : Option α) : Opt2 (fun a b => a = b) x x := by cases x <;> simp [Opt2]

theorem read2 {α β : Type*} {R : α → β → Prop} {l : List α} {L : List β} (h : List.Forall₂ R l L) (i : ℕ) : Opt2 R (Mem.read l (i : ℤ)) (Mem.read L (i : ℤ)) := by
  rw [Mem.read_ofNat, Mem.read_ofNat]
  induction h generalizing i with
  | nil => simp [Opt2]
  | cons h _ ih =>
    cases i with
    | zero => simpa [Opt2] using h
    | succ i => simpa using ih i

theorem forLoop2 {σ τ : Type*} (R : ℕ → σ → τ → Prop) {f : ℕ → σ → Option σ} {g : ℕ → τ → Option τ} (n : ℕ)
    (h : ∀ i < n, ∀ s t, R i s t → Opt2 (R (i + 1)) (f i s) (g i t)) {s : σ} {t : τ} (h0 : R 0 s t) : Opt2 (R n) (forLoop n f s) (forLoop n g t) := by
  induction n with
  | zero => exact h0
  | succ n ih => exact (ih fun i hi => h i (by omega)).bind fun a b _ _ hab => h n (by omega) a b hab

/-! ### Products -/

theorem q_ge : 1 ≤ q := by have := two_pos (-52); unfold q; linarith

theorem η_pos : 0 < η := two_pos _

theorem err {rnd : ℝ → ℝ} (R : Rounding 53 (-1074) rnd) (x : ℝ) : |rnd x - x| ≤ (q - 1) * |x| + η := by
  have := error R (by norm_num) x
  unfold q η
  convert this using 3
  norm_num

/-- `x` approximates the product `X` of `v` and `k` entries. -/
def Near (δ B v : ℝ) (k : ℕ) (x : ℝ) (X : Option ℝ) : Prop :=
  ∀ y, X = some y → |y| ≤ |v| * B ^ k ∧ |x - y| ≤ |v| * ((q * (B + δ)) ^ k - B ^ k) + k * η * (q * (B + δ)) ^ k

/-- Entry of a local space. -/
def Entry (δ B : ℝ) (a : ℝ) (b : Option ℝ) : Prop := ∀ x, b = some x → |a - x| ≤ δ ∧ |x| ≤ B

variable {δ B : ℝ}

theorem near_init (v : ℝ) : Near δ B v 0 v (some v) := by
  intro y hy; obtain rfl := Option.some.inj hy; simp

theorem entry_one (hδ : 0 ≤ δ) (hB : 1 ≤ B) : Entry δ B 1 (some 1) := by
  intro y hy; obtain rfl := Option.some.inj hy; simpa using ⟨hδ, hB⟩

/-- The product before rounding. -/
theorem near_prod (hδ : 0 ≤ δ) (hB : 1 ≤ B) {v x a : ℝ} {k : ℕ} {X E : Option ℝ} (h : Near δ B v k x X) (he : Entry δ B a E) {y : ℝ}
    (hy : Dbl.mul X E = some y) :
    |y| ≤ |v| * B ^ (k + 1) ∧ |x * a| ≤ (|v| + k * η) * (q * (B + δ)) ^ k * (B + δ) ∧
      |x * a - y| ≤ |v| * ((q * (B + δ)) ^ k * (B + δ) - B ^ (k + 1)) + k * η * (q * (B + δ)) ^ k * (B + δ) := by
  obtain ⟨z, rfl, e, rfl, rfl⟩ : ∃ z, X = some z ∧ ∃ e, E = some e ∧ y = z * e := by
    cases X with
    | none => simp at hy
    | some z => cases E with
      | none => simp at hy
      | some e => exact ⟨z, rfl, e, rfl, by simpa using hy.symm⟩
  obtain ⟨h1, h2⟩ := h z rfl
  obtain ⟨h3, h4⟩ := he e rfl
  set P := (q * (B + δ)) ^ k with hP
  have ha : |a| ≤ B + δ := by
    have : |a| ≤ |a - e| + |e| := by simpa using abs_add_le (a - e) e
    linarith
  have hx : |x| ≤ (|v| + k * η) * P := by
    have : |x| ≤ |x - z| + |z| := by simpa using abs_add_le (x - z) z
    linarith
  have hBk : (0 : ℝ) ≤ B ^ k := by positivity
  refine ⟨?_, ?_, ?_⟩
  · rw [abs_mul, pow_succ, ← mul_assoc]
    exact mul_le_mul h1 h4 (abs_nonneg _) (by positivity)
  · rw [abs_mul]
    exact mul_le_mul hx ha (abs_nonneg _) ((abs_nonneg _).trans hx)
  · have e1 : x * a - z * e = (x - z) * a + z * (a - e) := by ring
    rw [e1]
    refine (abs_add_le _ _).trans ?_
    rw [abs_mul, abs_mul]
    have h5 : |x - z| * |a| ≤ (|v| * (P - B ^ k) + k * η * P) * (B + δ) := mul_le_mul h2 ha (abs_nonneg _) ((abs_nonneg _).trans h2)
    have h6 : |z| * |a - e| ≤ (|v| * B ^ k) * δ := mul_le_mul h1 h3 (abs_nonneg _) (by positivity)
    rw [pow_succ]
    nlinarith

theorem near_mul {rnd : ℝ → ℝ} (R : Rounding 53 (-1074) rnd) (hδ : 0 ≤ δ) (hB : 1 ≤ B) {v x a : ℝ} {k : ℕ} {X E : Option ℝ} (h : Near δ B v k x X) (he : Entry δ B a E) :
    Near δ B v (k + 1) (rnd (x * a)) (Dbl.mul X E) := by
  intro y hy
  obtain ⟨h1, h2, h3⟩ := near_prod hδ hB h he hy
  refine ⟨h1, ?_⟩
  have h4 := err R (x * a)
  have hq := q_ge
  have hη := η_pos
  have h5 : |rnd (x * a) - y| ≤ |rnd (x * a) - x * a| + |x * a - y| := abs_sub_le _ _ _
  have h6 := mul_le_mul_of_nonneg_left h2 (by linarith : 0 ≤ q - 1)
  have h7 : 1 ≤ (q * (B + δ)) ^ (k + 1) := one_le_pow₀ (by nlinarith)
  have h8 : (q * (B + δ)) ^ (k + 1) = (q * (B + δ)) ^ k * (B + δ) * q := by rw [pow_succ]; ring
  have h9 : η ≤ η * (q * (B + δ)) ^ (k + 1) := by nlinarith
  push_cast
  rw [h8] at h9 ⊢
  nlinarith

/-- The product before rounding, as needed for fused operations. -/
theorem near_exact (hδ : 0 ≤ δ) (hB : 1 ≤ B) {v x a : ℝ} {k : ℕ} {X E : Option ℝ} (h : Near δ B v k x X) (he : Entry δ B a E) :
    Near δ B v (k + 1) (x * a) (Dbl.mul X E) := by
  intro y hy
  obtain ⟨h1, h2, h3⟩ := near_prod hδ hB h he hy
  refine ⟨h1, h3.trans ?_⟩
  have hq := q_ge
  have hη := η_pos
  have h8 : (q * (B + δ)) ^ (k + 1) = (q * (B + δ)) ^ k * (B + δ) * q := by rw [pow_succ]; ring
  have h9 : 0 ≤ (q * (B + δ)) ^ k * (B + δ) := by positivity
  have h10 : (q * (B + δ)) ^ k * (B + δ) ≤ (q * (B + δ)) ^ (k + 1) := by rw [h8]; nlinarith
  have h11 : (k : ℝ) * η * ((q * (B + δ)) ^ k * (B + δ)) ≤ (k + 1) * η * (q * (B + δ)) ^ (k + 1) := by
    refine mul_le_mul (by nlinarith) h10 h9 (by positivity)
  have h12 := mul_le_mul_of_nonneg_left h10 (abs_nonneg v)
  push_cast
  nlinarith

theorem near_comm {v x a : ℝ} {k : ℕ} {X E : Option ℝ} {rnd : ℝ → ℝ} (h : Near δ B v k (rnd (x * a)) (Dbl.mul X E)) : Near δ B v k (rnd (a * x)) (Dbl.mul E X) := by
  rw [mul_comm a x]
  have : Dbl.mul E X = Dbl.mul X E := by cases E <;> cases X <;> simp [mul_comm]
  rwa [this]

theorem near_mono (hδ : 0 ≤ δ) (hB : 1 ≤ B) {v x : ℝ} {k m : ℕ} {X : Option ℝ} (h : Near δ B v k x X) (hkm : k ≤ m) : Near δ B v m x X := by
  obtain ⟨j, rfl⟩ := Nat.exists_eq_add_of_le hkm
  clear hkm
  induction j with
  | zero => exact h
  | succ j ih =>
    intro y hy
    obtain ⟨h1, h2⟩ := ih y hy
    have hq := q_ge
    have hη := η_pos
    have hA : B ≤ q * (B + δ) := by nlinarith
    have hA1 : 1 ≤ q * (B + δ) := by linarith
    set A := q * (B + δ) with hAdef
    have hp1 : 0 ≤ B ^ (k + j) := by positivity
    have hp2 : B ^ (k + j) ≤ A ^ (k + j) := pow_le_pow_left₀ (by linarith) hA _
    have h3 : B ^ (k + j) ≤ B ^ (k + j + 1) := by rw [pow_succ]; nlinarith
    have h4 : A ^ (k + j) ≤ A ^ (k + j + 1) := by rw [pow_succ]; nlinarith
    have h5 : A ^ (k + j) - B ^ (k + j) ≤ A ^ (k + j + 1) - B ^ (k + j + 1) := by
      rw [pow_succ, pow_succ]
      have h6 : (A ^ (k + j) - B ^ (k + j)) * 1 ≤ (A ^ (k + j) - B ^ (k + j)) * B := mul_le_mul_of_nonneg_left hB (by linarith)
      have h7 : A ^ (k + j) * B ≤ A ^ (k + j) * A := mul_le_mul_of_nonneg_left hA (by linarith)
      linarith
    refine ⟨h1.trans (mul_le_mul_of_nonneg_left h3 (abs_nonneg _)), h2.trans ?_⟩
    have h8 := mul_le_mul_of_nonneg_left h5 (abs_nonneg v)
    have h9 : ((k + j : ℕ) : ℝ) * η * A ^ (k + j) ≤ ((k + (j + 1) : ℕ) : ℝ) * η * A ^ (k + j + 1) := by
      refine mul_le_mul ?_ h4 (by linarith) (by positivity)
      refine mul_le_mul_of_nonneg_right ?_ hη.le
      push_cast; linarith
    have : k + (j + 1) = k + j + 1 := by ring
    rw [this] at h9 ⊢
    linarith

/-! ### Sums -/

theorem growth_ge (hδ : 0 ≤ δ) (hB : 1 ≤ B) : B ^ 3 ≤ growth δ B ∧ 1 ≤ growth δ B := by
  have hq := q_ge
  have hA : B ≤ q * (B + δ) := by nlinarith
  have h1 := pow_le_pow_left₀ (by linarith : 0 ≤ B) hA 3
  exact ⟨h1, (one_le_pow₀ hB).trans h1⟩

/-- `t` approximates the term `T`: a product of `v` and at most three entries. -/
def Term (δ B v t : ℝ) (T : Option ℝ) : Prop :=
  ∀ y, T = some y → |y| ≤ |v| * B ^ 3 ∧ |t - y| ≤ |v| * (growth δ B - B ^ 3) + 3 * η * (1 + |v|) * growth δ B

theorem Near.term (hδ : 0 ≤ δ) (hB : 1 ≤ B) {v t : ℝ} {k : ℕ} {T : Option ℝ} (h : Near δ B v k t T) (hk : k ≤ 3) : Term δ B v t T := by
  intro y hy
  obtain ⟨h1, h2⟩ := near_mono hδ hB h hk y hy
  refine ⟨h1, h2.trans ?_⟩
  have hη := η_pos
  obtain ⟨-, g2⟩ := growth_ge hδ hB
  have hG : (q * (B + δ)) ^ 3 = growth δ B := rfl
  rw [hG]
  have h3 : 0 ≤ η * |v| * growth δ B := by positivity
  push_cast
  nlinarith

/-- `|X| ≤ m` and `x` is within `M - m + ε` of `X`. -/
def App (x X M m ε : ℝ) : Prop := |X| ≤ m ∧ |x - X| ≤ M - m + ε

theorem App.mul {x X M m ε y Y N p φ : ℝ} (h : App x X M m ε) (k : App y Y N p φ) : App (x * y) (X * Y) (M * N) (m * p) (ε * N + φ * M + ε * φ) := by
  obtain ⟨h1, h2⟩ := h
  obtain ⟨k1, k2⟩ := k
  have hy : |y| ≤ N + φ := by
    have : |y| ≤ |y - Y| + |Y| := by simpa using abs_add_le (y - Y) Y
    linarith
  refine ⟨?_, ?_⟩
  · rw [abs_mul]; exact mul_le_mul h1 k1 (abs_nonneg _) ((abs_nonneg _).trans h1)
  · rw [show x * y - X * Y = (x - X) * y + X * (y - Y) by ring]
    refine (abs_add_le _ _).trans ?_
    rw [abs_mul, abs_mul]
    have a1 : |x - X| * |y| ≤ (M - m + ε) * (N + φ) := mul_le_mul h2 hy (abs_nonneg _) ((abs_nonneg _).trans h2)
    have a2 : |X| * |y - Y| ≤ m * (N - p + φ) := mul_le_mul h1 k2 (abs_nonneg _) ((abs_nonneg _).trans h1)
    linarith

theorem App.rnd {rnd : ℝ → ℝ} (R : Rounding 53 (-1074) rnd) {x X M m ε : ℝ} (h : App x X M m ε) : App (rnd x) X (q * M) m (q * ε + η) := by
  obtain ⟨h1, h2⟩ := h
  refine ⟨h1, ?_⟩
  have hx : |x| ≤ M + ε := by
    have : |x| ≤ |x - X| + |X| := by simpa using abs_add_le (x - X) X
    linarith
  have h3 := err R x
  have h4 : |rnd x - X| ≤ |rnd x - x| + |x - X| := abs_sub_le _ _ _
  have h5 := mul_le_mul_of_nonneg_left hx (by have := q_ge; linarith : 0 ≤ q - 1)
  linarith

theorem app_self (c : ℝ) : App c c |c| |c| 0 := ⟨le_rfl, by simp⟩

theorem Entry.app {a x : ℝ} {b : Option ℝ} (h : Entry δ B a b) (hb : b = some x) : App a x (B + δ) B 0 := by
  obtain ⟨h1, h2⟩ := h x hb
  exact ⟨h2, by linarith⟩

/-- After `k` terms. -/
def Accum (δ B c : ℝ) (k : ℕ) (W acc : ℝ) (V : Option ℝ) : Prop :=
  0 ≤ W ∧ ∀ y, V = some y → |y| ≤ |c| + B ^ 3 * W ∧ |acc - y| ≤ sumError δ B k c W

theorem accum_init (c : ℝ) : Accum δ B c 0 0 c (some c) := by
  refine ⟨le_rfl, fun y hy => ?_⟩
  obtain rfl := Option.some.inj hy
  simp [sumError]

theorem accum_step {rnd : ℝ → ℝ} (R : Rounding 53 (-1074) rnd) (hδ : 0 ≤ δ) (hB : 1 ≤ B) {c W acc v t : ℝ} {k : ℕ} {V T : Option ℝ} (h : Accum δ B c k W acc V)
    (ht : Term δ B v t T) : Accum δ B c (k + 1) (W + |v|) (rnd (t + acc)) (Dbl.add V T) := by
  obtain ⟨hW, h⟩ := h
  refine ⟨by positivity, fun y hy => ?_⟩
  obtain ⟨z, rfl, e, rfl, rfl⟩ : ∃ z, V = some z ∧ ∃ e, T = some e ∧ y = z + e := by
    cases V with
    | none => simp [Dbl.add] at hy
    | some z => cases T with
      | none => simp [Dbl.add] at hy
      | some e => exact ⟨z, rfl, e, rfl, by simpa using hy.symm⟩
  obtain ⟨h1, h2⟩ := h z rfl
  obtain ⟨h3, h4⟩ := ht e rfl
  obtain ⟨g1, g2⟩ := growth_ge hδ hB
  have hq := q_ge
  have hη := η_pos
  unfold sumError at *
  set G := growth δ B
  have hqk : 1 ≤ q ^ k := one_le_pow₀ hq
  set Q := q ^ k
  refine ⟨(abs_add_le _ _).trans (by linarith), ?_⟩
  set M := |c| + G * (W + 4 * η * (k + W)) with hM
  have hacc : |acc| ≤ Q * M := by
    have : |acc| ≤ |acc - z| + |z| := by simpa using abs_add_le (acc - z) z
    linarith
  have ht' : |t| ≤ G * (|v| + 3 * η * (1 + |v|)) := by
    have : |t| ≤ |t - e| + |e| := by simpa using abs_add_le (t - e) e
    linarith
  have h5 : |rnd (t + acc) - (z + e)| ≤ |rnd (t + acc) - (t + acc)| + (|t - e| + |acc - z|) := by
    have e1 : rnd (t + acc) - (z + e) = (rnd (t + acc) - (t + acc)) + ((t - e) + (acc - z)) := by ring
    rw [e1]; exact (abs_add_le _ _).trans (by linarith [abs_add_le (t - e) (acc - z)])
  have h6 := err R (t + acc)
  have h7 : (q - 1) * |t + acc| ≤ (q - 1) * (G * (|v| + 3 * η * (1 + |v|)) + Q * M) :=
    mul_le_mul_of_nonneg_left ((abs_add_le _ _).trans (by linarith)) (by linarith)
  have e2 : q ^ (k + 1) = Q * q := pow_succ _ _
  rw [e2]
  have hv := abs_nonneg v
  have h8 : q * (G * (|v| + 3 * η * (1 + |v|))) + η ≤ Q * q * (G * (|v| + 4 * η * (1 + |v|))) := by
    have a1 : q ≤ Q * q := by nlinarith
    have a2 : q * (G * (|v| + 3 * η * (1 + |v|))) ≤ Q * q * (G * (|v| + 3 * η * (1 + |v|))) := mul_le_mul_of_nonneg_right a1 (by positivity)
    have a3 : 1 ≤ Q * q * G := by
      have : 1 ≤ Q * q := by linarith
      nlinarith
    have a4 : η * 1 ≤ η * (1 + |v|) := mul_le_mul_of_nonneg_left (by linarith) hη.le
    have a5 : 1 * (η * (1 + |v|)) ≤ Q * q * G * (η * (1 + |v|)) := mul_le_mul_of_nonneg_right a3 (by positivity)
    linarith
  have e3 : Q * q * (|c| + G * (W + |v| + 4 * η * ((k + 1 : ℕ) + (W + |v|)))) = q * (Q * M) + Q * q * (G * (|v| + 4 * η * (1 + |v|))) := by
    rw [hM]; push_cast; ring
  rw [e3]
  linarith

theorem accum_mono (hδ : 0 ≤ δ) (hB : 1 ≤ B) {c W W' : ℝ} {k m : ℕ} (hkm : k ≤ m) (hW : 0 ≤ W) (hW' : W ≤ W') : sumError δ B k c W ≤ sumError δ B m c W' := by
  obtain ⟨g1, g2⟩ := growth_ge hδ hB
  have hq := q_ge
  have hη := η_pos
  unfold sumError
  have h1 : q ^ k ≤ q ^ m := pow_le_pow_right₀ hq hkm
  have h2 : 1 ≤ q ^ k := one_le_pow₀ hq
  have h3 : (k : ℝ) ≤ m := by exact_mod_cast hkm
  set G := growth δ B
  have hG : 0 ≤ G := by linarith
  have h4 : |c| + G * (W + 4 * η * (k + W)) ≤ |c| + G * (W + 4 * η * (m + W')) := by gcongr
  have h5 : q ^ k * (|c| + G * (W + 4 * η * (k + W))) ≤ q ^ m * (|c| + G * (W + 4 * η * (m + W'))) := mul_le_mul h1 h4 (by positivity) (by positivity)
  have h6 : B ^ 3 * (W' - W) ≤ q ^ m * G * (W' - W) := mul_le_mul_of_nonneg_right (by nlinarith) (by linarith)
  nlinarith

end Verif.Lemmas.FloatExpansion
