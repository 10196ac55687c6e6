import Verif.Model.FloatVerlet
import Verif.Model.Electrostatic
import Verif.Lemmas.FloatDiagnostics
import Mathlib.Tactic.FieldSimp
import Mathlib.Tactic.Abel

/-!
# C125: velocity Verlet in floating point arithmetic

Users rely on the trajectories being those of the velocity Verlet method for the fields at the particles, over as many steps as they run, and on its being time reversible.
-/

namespace Verif.Props.C125
open Verif.Spec.Rounding Verif.Lemmas.Rounding Verif.Lemmas.FloatDiagnostics Verif.Model.FloatVerlet

variable {rnd : ℝ → ℝ}

/-! ### Specification -/

/-- A step of velocity Verlet: half a kick with the acceleration `-k e`, a move, half a kick at the new position. `k` is half the time step times charge over mass (and the coefficient of the field). -/
def verlet (dt k e e' : ℝ) (s : ℝ × ℝ) : ℝ × ℝ := (s.1 + dt * (s.2 - k * e), s.2 - k * e - k * e')

/-- Steps with the fields of a list. -/
def trajectory (dt k : ℝ) : List ℝ → ℝ × ℝ → ℝ × ℝ
  | e :: e' :: es, s => trajectory dt k (e' :: es) (verlet dt k e e' s)
  | _, s => s

/-- The factor of the half kicks. -/
noncomputable def half (prm : Params) : ℝ := prm.eCoefficient * prm.dt * prm.q / (2 * prm.m)

/-- The relative error of `k` roundings one after the other. -/
noncomputable def growth (k : ℕ) : ℝ := (1 + (2 : ℝ) ^ (-52 : ℤ)) ^ k

/-- The smallest positive double. -/
noncomputable def tiny : ℝ := (2 : ℝ) ^ (-1074 : ℤ)

/-- The error of the factor of the half kicks from underflow. -/
noncomputable def factorTiny (prm : Params) : ℝ := ((|prm.eCoefficient| + 1) * |prm.q| + 1) / |prm.m| * tiny + tiny

/-- The error of a half kick from underflow, for fields up to `E`. -/
noncomputable def kickTiny (prm : Params) (E : ℝ) : ℝ := E * factorTiny prm + 2 * tiny

/-- The specification is the model of the kernels in exact arithmetic (Model/Electrostatic.lean), before the boundary condition. -/
theorem verlet_is_kernel (prm : Verif.Model.Electrostatic.Params) (p : Verif.Model.Electrostatic.Particle) (e' : ℝ × ℝ) :
    let k := half ⟨prm.dt, prm.eCoefficient, p.q, p.m⟩
    let p1 := Verif.Model.Electrostatic.verlet1 prm p
    let p2 := Verif.Model.Electrostatic.verlet2 prm { p1 with e := e' }
    p1.pos = Verif.Model.Electrostatic.periodic prm ((verlet prm.dt k p.e.1 e'.1 (p.pos.1, p.v0)).1, (verlet prm.dt k p.e.2 e'.2 (p.pos.2, p.v1)).1) ∧
      p2.v0 = (verlet prm.dt k p.e.1 e'.1 (p.pos.1, p.v0)).2 ∧ p2.v1 = (verlet prm.dt k p.e.2 e'.2 (p.pos.2, p.v1)).2 := by
  have hk : prm.eCoefficient * (prm.dt * (1 / 2)) * p.q / p.m = half ⟨prm.dt, prm.eCoefficient, p.q, p.m⟩ := by
    unfold half
    rw [show prm.eCoefficient * (prm.dt * (1 / 2)) * p.q = prm.eCoefficient * prm.dt * p.q / 2 by ring, div_div]
  simp only [Verif.Model.Electrostatic.verlet1, Verif.Model.Electrostatic.verlet2, Verif.Model.Electrostatic.halfKick, hk, verlet, mul_comm _ (half _)]
  exact ⟨trivial, trivial, trivial⟩

/-! ### One step -/

theorem weaken {k l : ℕ} {t t' X X' y x : ℝ} (h₀ : Near k t X y x) (hk : k ≤ l) (ht : t ≤ t') (hX : X ≤ X') : Near l t' X' y x := by
  have h := h₀.mono hk ht
  refine ⟨h.1, h.2.1.trans hX, h.2.2.trans ?_⟩
  have := mul_le_mul_of_nonneg_left hX (by have := one_le_pow' l; linarith : (0 : ℝ) ≤ (1 + (2 : ℝ) ^ (-52 : ℤ)) ^ l - 1)
  linarith

theorem factor (R : Rounding 53 (-1074) rnd) (prm : Params) (hm : prm.m ≠ 0) : Near 4 (factorTiny prm) |half prm| (halfKickF rnd prm) (half prm) := by
  have h1 := (Near.refl (prm.dt * (1 / 2))).round R
  have h2 := (h1.mul prm.eCoefficient).round R
  have h3 := (h2.mul prm.q).round R
  have h4 := (h3.mul (1 / prm.m)).round R
  have hm' : 0 < |prm.m| := abs_pos.2 hm
  unfold halfKickF
  dsimp only
  convert h4 using 1
  · unfold factorTiny tiny
    rw [abs_div, abs_one]
    field_simp
    ring
  · rw [← abs_mul, ← abs_mul, ← abs_mul]
    congr 1
    unfold half
    field_simp
  · rw [one_div_mul_eq_div, mul_comm prm.q]
  · unfold half
    field_simp

theorem kick_near (R : Rounding 53 (-1074) rnd) (fused : Bool) (prm : Params) (hm : prm.m ≠ 0) {E e : ℝ} (he : |e| ≤ E) {k : ℕ} (hk : 5 ≤ k) {t V y x : ℝ} (h : Near k t V y x) :
    Near (k + 1) (t + kickTiny prm E) (V + |half prm| * E) (kickF rnd fused (halfKickF rnd prm) e y) (x - half prm * e) := by
  have htiny : 0 < tiny := zpow_pos (by norm_num) _
  have f := factor R prm hm
  have p1 := f.mul e
  have hp : Near 5 (E * factorTiny prm + tiny) (|half prm| * E) (if fused then e * halfKickF rnd prm else rnd (e * halfKickF rnd prm)) (e * half prm) := by
    have ht : |e| * factorTiny prm ≤ E * factorTiny prm := mul_le_mul_of_nonneg_right he f.1
    have hX : |e| * |half prm| ≤ |half prm| * E := by rw [mul_comm]; exact mul_le_mul_of_nonneg_left he (abs_nonneg _)
    split
    · exact weaken p1 (by norm_num) (by linarith) hX
    · exact weaken (p1.round R) le_rfl (by unfold tiny; linarith) hX
  have h2 := (h.add ((hp.mono hk le_rfl).mul (-1))).round R
  rw [abs_neg, abs_one, one_mul, one_mul, neg_one_mul, neg_one_mul, ← sub_eq_add_neg, ← sub_eq_add_neg, mul_comm e (half prm)] at h2
  refine h2.mono le_rfl (le_of_eq ?_)
  unfold kickTiny tiny
  ring

theorem move_near (R : Rounding 53 (-1074) rnd) (fused : Bool) (dt : ℝ) {k : ℕ} {t V y x : ℝ} (h : Near k t V y x) {l : ℕ} (hl : k + 1 ≤ l) {t' X y' x' : ℝ} (h' : Near l t' X y' x') :
    Near (l + 1) (t' + |dt| * t + 2 * tiny) (X + |dt| * V) (moveF rnd fused dt y y') (x' + dt * x) := by
  have htiny : 0 < tiny := zpow_pos (by norm_num) _
  have p1 := h.mul dt
  have hp : Near l (|dt| * t + tiny) (|dt| * V) (if fused then dt * y else rnd (dt * y)) (dt * x) := by
    split
    · exact p1.mono (by omega) (by linarith)
    · exact (p1.round R).mono hl le_rfl
  refine ((h'.add hp).round R).mono le_rfl (le_of_eq ?_)
  unfold tiny
  ring

/-! ### Many steps -/

theorem run_near (R : Rounding 53 (-1074) rnd) (c : ℕ → Bool) (prm : Params) (hm : prm.m ≠ 0) {E : ℝ} : ∀ (n : ℕ) (e : ℝ) (es : List ℝ), es.length = n → (∀ f ∈ e :: es, |f| ≤ E) →
    ∀ (j : ℕ) (T V Tx X : ℝ) (s s' : ℝ × ℝ), 0 ≤ T → 0 ≤ V → Near (5 + 2 * j) T V s'.2 s.2 → Near (6 + 2 * j) Tx X s'.1 s.1 →
      Near (5 + 2 * (j + n)) (T + n * (2 * kickTiny prm E)) (V + n * (2 * (|half prm| * E))) (runF rnd c prm (e :: es) s').2 (trajectory prm.dt (half prm) (e :: es) s).2 ∧
      Near (6 + 2 * (j + n)) (Tx + n * (|prm.dt| * (T + n * (2 * kickTiny prm E)) + 2 * tiny)) (X + n * (|prm.dt| * (V + n * (2 * (|half prm| * E)))))
        (runF rnd c prm (e :: es) s').1 (trajectory prm.dt (half prm) (e :: es) s).1 := by
  have htiny : 0 < tiny := zpow_pos (by norm_num) _
  intro n
  induction n with
  | zero =>
    intro e es hes _ j T V Tx X s s' _ _ h h'
    rw [List.length_eq_zero_iff] at hes
    subst hes
    simpa [runF, trajectory] using ⟨h, h'⟩
  | succ n ih =>
    intro e es hes hE j T V Tx X s s' hT hV h h'
    obtain ⟨e', r, rfl⟩ : ∃ e' r, es = e' :: r := by
      cases es with
      | nil => simp at hes
      | cons e' r => exact ⟨e', r, rfl⟩
    have hE0 : 0 ≤ E := (abs_nonneg e).trans (hE e (by simp))
    have hkE : 0 ≤ |half prm| * E := mul_nonneg (abs_nonneg _) hE0
    have hft : 0 ≤ factorTiny prm := (factor R prm hm).1
    have hkt : 0 ≤ kickTiny prm E := by unfold kickTiny; have := mul_nonneg hE0 hft; linarith
    have a1 := kick_near R (c 0) prm hm (hE e (by simp)) (by omega) h
    have a2 := move_near R (c 1) prm.dt a1 (l := 5 + 2 * j + 1 + 1) le_rfl (h'.mono (by omega) le_rfl)
    have a3 := kick_near R (c 2) prm hm (hE e' (by simp)) (by omega) a1
    have b := ih e' r (by simpa using hes) (fun f hf => hE f (List.mem_cons_of_mem _ hf)) (j + 1) (T + 2 * kickTiny prm E) (V + 2 * (|half prm| * E))
      (Tx + |prm.dt| * (T + kickTiny prm E) + 2 * tiny) (X + |prm.dt| * (V + |half prm| * E))
      (verlet prm.dt (half prm) e e' s) (stepF rnd c prm e e' s') (by linarith) (by linarith)
      (weaken a3 (by omega) (le_of_eq (by ring)) (le_of_eq (by ring)))
      (a2.mono (by omega) le_rfl)
    obtain ⟨b1, b2⟩ := b
    have hn0 : (0 : ℝ) ≤ n := Nat.cast_nonneg n
    have hnn : (0 : ℝ) ≤ n * (2 * kickTiny prm E) := by positivity
    have hnn' : (0 : ℝ) ≤ n * (2 * (|half prm| * E)) := by positivity
    constructor
    · refine weaken b1 (by omega) (le_of_eq ?_) (le_of_eq ?_)
      · push_cast; ring
      · push_cast; ring
    · have m1 : |prm.dt| * (T + kickTiny prm E) ≤ |prm.dt| * (T + (n + 1) * (2 * kickTiny prm E)) := mul_le_mul_of_nonneg_left (by nlinarith) (abs_nonneg _)
      have m2 : |prm.dt| * (V + |half prm| * E) ≤ |prm.dt| * (V + (n + 1) * (2 * (|half prm| * E))) := mul_le_mul_of_nonneg_left (by nlinarith) (abs_nonneg _)
      refine weaken b2 (by omega) ?_ ?_
      · push_cast
        rw [show T + 2 * kickTiny prm E + n * (2 * kickTiny prm E) = T + (n + 1) * (2 * kickTiny prm E) by ring]
        linarith
      · push_cast
        rw [show V + 2 * (|half prm| * E) + n * (2 * (|half prm| * E)) = V + (n + 1) * (2 * (|half prm| * E)) by ring]
        linarith

/-- **Trajectories**: after `n` steps the computed velocity and position are those of velocity Verlet with the same fields, up to `2 n + 6` roundings relative to the largest velocity and position the fields up to `E` allow,
and underflow. -/
theorem run_error (R : Rounding 53 (-1074) rnd) (c : ℕ → Bool) (prm : Params) (hm : prm.m ≠ 0) (n : ℕ) (fields : List ℝ) (hn : fields.length = n + 1) (E : ℝ) (hE : ∀ f ∈ fields, |f| ≤ E) (x v : ℝ) :
    |(runF rnd c prm fields (x, v)).2 - (trajectory prm.dt (half prm) fields (x, v)).2| ≤
      (growth (2 * n + 5) - 1) * (|v| + n * (2 * (|half prm| * E))) + growth (2 * n + 5) * (n * (2 * kickTiny prm E)) ∧
    |(runF rnd c prm fields (x, v)).1 - (trajectory prm.dt (half prm) fields (x, v)).1| ≤
      (growth (2 * n + 6) - 1) * (|x| + n * (|prm.dt| * (|v| + n * (2 * (|half prm| * E))))) + growth (2 * n + 6) * (n * (|prm.dt| * (n * (2 * kickTiny prm E)) + 2 * tiny)) := by
  cases fields with
  | nil => simp at hn
  | cons e es =>
    have h := run_near R c prm hm n e es (by simpa using hn) hE 0 0 |v| 0 |x| (x, v) (x, v) le_rfl (abs_nonneg _) ((Near.refl v).mono (by omega) le_rfl) ((Near.refl x).mono (by omega) le_rfl)
    simp only [zero_add] at h
    rw [add_comm 5, add_comm 6] at h
    exact ⟨h.1.2.2, h.2.2.2⟩

/-! ### Reversibility -/

/-- The velocity is turned around. -/
def turn (s : ℝ × ℝ) : ℝ × ℝ := (s.1, -s.2)

theorem trajectory_append (dt k : ℝ) (G : List ℝ) : ∀ (e' e : ℝ) (s : ℝ × ℝ), trajectory dt k (G ++ [e', e]) s = verlet dt k e' e (trajectory dt k (G ++ [e']) s) := by
  induction G with
  | nil => intro e' e s; rfl
  | cons g G ih =>
    intro e' e s
    cases G with
    | nil => rfl
    | cons g' G => exact ih e' e _

/-- In exact arithmetic the trajectory is retraced. -/
theorem trajectory_reverse (dt k : ℝ) (fields : List ℝ) : ∀ s, trajectory dt k fields.reverse (turn (trajectory dt k fields s)) = turn s := by
  induction fields with
  | nil => intro s; rfl
  | cons e r ih =>
    intro s
    cases r with
    | nil => rfl
    | cons e' r =>
      have h := ih (verlet dt k e e' s)
      rw [List.reverse_cons] at h
      rw [List.reverse_cons, List.reverse_cons, List.append_assoc]
      change trajectory dt k (r.reverse ++ [e', e]) (turn (trajectory dt k (e' :: r) (verlet dt k e e' s))) = turn s
      rw [trajectory_append, h]
      unfold verlet turn
      ext
      · dsimp only; ring
      · dsimp only; ring

/-- **Time reversal**: if the velocity is turned around after `n` steps and the fields are met in the opposite order, after `n` more steps the particle is back where it started with the opposite velocity, up to `4 n + 6`
roundings. -/
theorem reversal_error (R : Rounding 53 (-1074) rnd) (c : ℕ → Bool) (prm : Params) (hm : prm.m ≠ 0) (n : ℕ) (fields : List ℝ) (hn : fields.length = n + 1) (E : ℝ) (hE : ∀ f ∈ fields, |f| ≤ E) (x v : ℝ) :
    |(runF rnd c prm fields.reverse (turn (runF rnd c prm fields (x, v)))).2 + v| ≤
      (growth (4 * n + 5) - 1) * (|v| + 2 * n * (2 * (|half prm| * E))) + growth (4 * n + 5) * (2 * n * (2 * kickTiny prm E)) ∧
    |(runF rnd c prm fields.reverse (turn (runF rnd c prm fields (x, v)))).1 - x| ≤
      (growth (4 * n + 6) - 1) * (|x| + 2 * n * (|prm.dt| * (|v| + 2 * n * (2 * (|half prm| * E))))) +
        growth (4 * n + 6) * (2 * n * (|prm.dt| * (2 * n * (2 * kickTiny prm E)) + 2 * tiny)) := by
  have htiny : 0 < tiny := zpow_pos (by norm_num) _
  have back := trajectory_reverse prm.dt (half prm) fields (x, v)
  cases fields with
  | nil => simp at hn
  | cons e es =>
    have hE0 : 0 ≤ E := (abs_nonneg e).trans (hE e (by simp))
    have hkE : 0 ≤ |half prm| * E := mul_nonneg (abs_nonneg _) hE0
    have hft : 0 ≤ factorTiny prm := (factor R prm hm).1
    have hkt : 0 ≤ kickTiny prm E := by unfold kickTiny; have := mul_nonneg hE0 hft; linarith
    have hn0 : (0 : ℝ) ≤ n := Nat.cast_nonneg n
    obtain ⟨h1, h2⟩ := run_near R c prm hm n e es (by simpa using hn) hE 0 0 |v| 0 |x| (x, v) (x, v) le_rfl (abs_nonneg _) ((Near.refl v).mono (by omega) le_rfl) ((Near.refl x).mono (by omega) le_rfl)
    obtain ⟨g, G, hG⟩ : ∃ g G, (e :: es).reverse = g :: G := by
      cases h : (e :: es).reverse with
      | nil => simp at h
      | cons g G => exact ⟨g, G, rfl⟩
    have hlen : G.length = n := by
      have := congrArg List.length hG
      simp at this hn
      omega
    have h1' := h1.mul (-1)
    rw [abs_neg, abs_one, one_mul, one_mul, neg_one_mul, neg_one_mul] at h1'
    rw [zero_add] at h1' h2
    have k := run_near R c prm hm n g G hlen (fun f hf => hE f (by rw [← List.mem_reverse, hG]; exact hf)) n _ _ _ _ (turn (trajectory prm.dt (half prm) (e :: es) (x, v))) (turn (runF rnd c prm (e :: es) (x, v)))
      h1'.1 (by positivity) h1' h2
    rw [← hG, back] at k
    obtain ⟨k1, k2⟩ := k
    constructor
    · have := ((k1.mono (l := 4 * n + 5) (by omega) le_rfl).2.2)
      unfold turn at this
      dsimp only at this
      rw [sub_neg_eq_add] at this
      refine this.trans (le_of_eq ?_)
      unfold growth
      ring
    · have b : |x| + n * (|prm.dt| * (|v| + n * (2 * (|half prm| * E)))) + n * (|prm.dt| * (|v| + n * (2 * (|half prm| * E)) + n * (2 * (|half prm| * E)))) ≤
          |x| + 2 * n * (|prm.dt| * (|v| + 2 * n * (2 * (|half prm| * E)))) := by
        have : 0 ≤ n * (|prm.dt| * (n * (2 * (|half prm| * E)))) := by positivity
        nlinarith
      have d : 0 + n * (|prm.dt| * (0 + n * (2 * kickTiny prm E)) + 2 * tiny) + n * (|prm.dt| * (0 + n * (2 * kickTiny prm E) + n * (2 * kickTiny prm E)) + 2 * tiny) ≤
          2 * n * (|prm.dt| * (2 * n * (2 * kickTiny prm E)) + 2 * tiny) := by
        have : 0 ≤ n * (|prm.dt| * (n * (2 * kickTiny prm E))) := by positivity
        nlinarith
      have := (weaken k2 (l := 4 * n + 6) (by omega) d b).2.2
      exact this

/-! ### Without a field -/

/-- **Without a field or a charge the velocity does not change at all**, over any number of steps. -/
theorem free_velocity (R : Rounding 53 (-1074) rnd) (c : ℕ → Bool) (prm : Params) (fields : List ℝ) (h0 : prm.q = 0 ∨ ∀ f ∈ fields, f = 0) : ∀ (x v : ℝ), IsFloat 53 (-1074) v → (runF rnd c prm fields (x, v)).2 = v := by
  have kick : ∀ (fused : Bool) (e v : ℝ), (prm.q = 0 ∨ e = 0) → IsFloat 53 (-1074) v → kickF rnd fused (halfKickF rnd prm) e v = v := by
    intro fused e v h hv
    have : e * halfKickF rnd prm = 0 := by
      rcases h with h | h
      · simp [halfKickF, h, rnd_zero R]
      · rw [h, zero_mul]
    unfold kickF
    rw [this, rnd_zero R, ite_self, sub_zero, R.exact _ hv]
  induction fields with
  | nil => intro x v _; rfl
  | cons e r ih =>
    intro x v hv
    cases r with
    | nil => rfl
    | cons e' r =>
      have g : ∀ f ∈ e :: e' :: r, prm.q = 0 ∨ f = 0 := fun f hf => h0.imp id fun h => h f hf
      simp only [runF, stepF]
      rw [kick (c 0) e v (g e (by simp)) hv, kick (c 2) e' v (g e' (by simp)) hv]
      exact ih (h0.imp id fun h f hf => h f (List.mem_cons_of_mem _ hf)) _ v hv

/-! ### The hypotheses are met -/

/-- Thousand steps in an oscillating field. -/
example (R : Rounding 53 (-1074) rnd) (c : ℕ → Bool) :
    |(runF rnd c ⟨1 / 100, 1, -1, 1⟩ ((List.range 1001).map fun i => (-1 : ℝ) ^ i) (0, 1)).2 - (trajectory (1 / 100) (-1 / 200) ((List.range 1001).map fun i => (-1 : ℝ) ^ i) (0, 1)).2| ≤
      (growth 2005 - 1) * 11 + growth 2005 * (2000 * kickTiny ⟨1 / 100, 1, -1, 1⟩ 1) := by
  have h := (run_error R c ⟨1 / 100, 1, -1, 1⟩ one_ne_zero 1000 ((List.range 1001).map fun i => (-1 : ℝ) ^ i) (by simp) 1 (by
    intro f hf
    obtain ⟨i, -, rfl⟩ := List.mem_map.1 hf
    simp) 0 1).1
  have hk : half ⟨1 / 100, 1, -1, 1⟩ = -1 / 200 := by norm_num [half]
  rw [hk] at h
  refine h.trans (le_of_eq ?_)
  rw [abs_div, abs_neg, abs_one, abs_of_pos (by norm_num : (0 : ℝ) < 200)]
  push_cast
  ring

end Verif.Props.C125
