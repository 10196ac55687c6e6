import Verif.Model.Bary
import Verif.Lemmas.Expansion
import Mathlib.Tactic.Ring

/-! Loops over mutable arrays. -/

namespace Verif.Lemmas
open Verif.Model Verif.Model.Bary Verif.Model.JacobiCoeff

theorem forLoop_inv {σ : Type*} (n : ℕ) (body : ℕ → σ → Option σ) (I : ℕ → σ → Prop) (s : σ) (h0 : I 0 s)
    (h : ∀ i < n, ∀ s, I i s → ∃ s', body i s = some s' ∧ I (i + 1) s') :
    ∃ s', forLoop n body s = some s' ∧ I n s' := by
  induction n with
  | zero => exact ⟨s, rfl, h0⟩
  | succ n ih =>
    obtain ⟨s1, h1, h2⟩ := ih fun i hi => h i (by omega)
    obtain ⟨s2, h3, h4⟩ := h n (by omega) s1 h2
    exact ⟨s2, by rw [forLoop, h1, Option.bind_some, h3], h4⟩

/-- `forLoop_inv` with a consequence of the invariant. -/
theorem forLoop_imp {σ : Type*} {Q : σ → Prop} (n : ℕ) {body : ℕ → σ → Option σ} (I : ℕ → σ → Prop) (s : σ) (h0 : I 0 s)
    (h : ∀ i < n, ∀ s, I i s → ∃ s', body i s = some s' ∧ I (i + 1) s') (hQ : ∀ s', I n s' → Q s') :
    ∃ s', forLoop n body s = some s' ∧ Q s' := by
  obtain ⟨s', h1, h2⟩ := forLoop_inv n body I s h0 h
  exact ⟨s', h1, hQ s' h2⟩

theorem forLoop_bind_imp {σ τ : Type*} {Q : τ → Prop} (n : ℕ) {body : ℕ → σ → Option σ} {k : σ → Option τ}
    (I : ℕ → σ → Prop) (s : σ) (h0 : I 0 s)
    (h : ∀ i < n, ∀ s, I i s → ∃ s', body i s = some s' ∧ I (i + 1) s')
    (hQ : ∀ s', I n s' → ∃ t, k s' = some t ∧ Q t) :
    ∃ t, (forLoop n body s).bind k = some t ∧ Q t := by
  obtain ⟨s', h1, h2⟩ := forLoop_inv n body I s h0 h
  rw [h1]; exact hQ s' h2

theorem forLoop_congr {σ : Type*} (n : ℕ) (b b' : ℕ → σ → Option σ) (s : σ) (h : ∀ i < n, ∀ s, b i s = b' i s) :
    forLoop n b s = forLoop n b' s := by
  induction n with
  | zero => rfl
  | succ n ih =>
    rw [forLoop, forLoop, ih fun i hi => h i (by omega)]
    cases forLoop n b' s with
    | none => rfl
    | some t => exact h n (by omega) t

variable {K : Type*}

/-- `a'` is `a` outside of the addresses `adr 0, …, adr (n-1)`. -/
def Frame (n : ℕ) (adr : ℕ → ℕ) (a a' : Arr K) : Prop :=
  a'.size = a.size ∧ ∀ x, (∀ i < n, x ≠ adr i) → a'.val x = a.val x

theorem Frame.refl (n : ℕ) (adr : ℕ → ℕ) (a : Arr K) : Frame n adr a a := ⟨rfl, fun _ _ => rfl⟩

theorem Frame.trans {n : ℕ} {adr : ℕ → ℕ} {a b c : Arr K} (h : Frame n adr a b) (h' : Frame n adr b c) :
    Frame n adr a c := ⟨h'.1.trans h.1, fun x hx => (h'.2 x hx).trans (h.2 x hx)⟩

theorem Frame.update {n : ℕ} {adr : ℕ → ℕ} {a b : Arr K} (h : Frame n adr a b) (i : ℕ) (hi : i < n) (v : Dbl K) :
    Frame n adr a ⟨b.size, Function.update b.val (adr i) v⟩ :=
  ⟨h.1, fun x hx => by dsimp only; rw [Function.update_of_ne (hx i hi)]; exact h.2 x hx⟩

theorem write_ok (a : Arr K) (i : ℕ) (v : Dbl K) (h : i < a.size) :
    a.write i v = some ⟨a.size, Function.update a.val i v⟩ := if_pos h

theorem read_ok (a : Arr K) (i : ℕ) (h : i < a.size) : a.read i = some (a.val i) := if_pos h

/-- A loop that writes `g i` at `adr i`. -/
theorem write_loop (n : ℕ) (adr : ℕ → ℕ) (hadr : ∀ i < n, ∀ j < n, adr i = adr j → i = j) (g : ℕ → Dbl K) (a : Arr K)
    (hb : ∀ i < n, adr i < a.size) :
    ∃ a', forLoop n (fun i a => a.write (adr i) (g i)) a = some a' ∧ Frame n adr a a' ∧
      ∀ i < n, a'.val (adr i) = g i := by
  obtain ⟨a', h1, h2, h3⟩ := forLoop_inv n (fun i a => a.write (adr i) (g i))
    (fun k a' => Frame n adr a a' ∧ ∀ i < n, i < k → a'.val (adr i) = g i) a ⟨Frame.refl _ _ _, by omega⟩ (by
      rintro k hk s ⟨hf, hv⟩
      refine ⟨_, write_ok _ _ _ (by rw [hf.1]; exact hb k hk), hf.update k hk _, fun i hi hik => ?_⟩
      by_cases h : i = k
      · subst h; simp
      · dsimp only; rw [Function.update_of_ne (fun he => h (hadr i hi k hk he))]; exact hv i hi (by omega))
  exact ⟨a', h1, h2, fun i hi => h3 i hi hi⟩

/-- A loop that replaces the value `v` at `adr i` by `g i v`. -/
theorem rmw_loop (n : ℕ) (adr : ℕ → ℕ) (hadr : ∀ i < n, ∀ j < n, adr i = adr j → i = j) (g : ℕ → Dbl K → Dbl K)
    (a : Arr K) (hb : ∀ i < n, adr i < a.size) :
    ∃ a', forLoop n (fun i (a : Arr K) => (a.read (adr i)).bind fun v => a.write (adr i) (g i v)) a = some a' ∧
      Frame n adr a a' ∧ ∀ i < n, a'.val (adr i) = g i (a.val (adr i)) := by
  obtain ⟨a', h1, h2, h3⟩ := forLoop_inv n
    (fun i (a : Arr K) => (a.read (adr i)).bind fun v => a.write (adr i) (g i v))
    (fun k a' => Frame n adr a a' ∧ ∀ i < n, a'.val (adr i) = if i < k then g i (a.val (adr i)) else a.val (adr i)) a
    ⟨Frame.refl _ _ _, fun i _ => by simp⟩ (by
      rintro k hk s ⟨hf, hv⟩
      have hs : adr k < s.size := by rw [hf.1]; exact hb k hk
      refine ⟨_, by rw [read_ok _ _ hs, Option.bind_some, write_ok _ _ _ hs], hf.update k hk _, fun i hi => ?_⟩
      by_cases h : i = k
      · subst h; simp [hv i hi]
      · dsimp only; rw [Function.update_of_ne (fun he => h (hadr i hi k hk he)), hv i hi]
        by_cases hik : i < k
        · rw [if_pos hik, if_pos (by omega)]
        · rw [if_neg hik, if_neg (by omega)])
  refine ⟨a', h1, h2, fun i hi => ?_⟩
  rw [h3 i hi, if_pos hi]

/-- The addresses `i * N + b` of a blocked array are distinct. -/
theorem block_inj {N i j b c : ℕ} (hb : b < N) (hc : c < N) (h : i * N + b = j * N + c) : i = j ∧ b = c := by
  have h1 : (i * N + b) / N = i := by
    rw [Nat.mul_comm, Nat.mul_add_div (by omega), Nat.div_eq_of_lt hb, Nat.add_zero]
  have h2 : (j * N + c) / N = j := by
    rw [Nat.mul_comm, Nat.mul_add_div (by omega), Nat.div_eq_of_lt hc, Nat.add_zero]
  have : i = j := by rw [← h1, h, h2]
  subst this; omega

theorem block_lt {N n i b : ℕ} (hi : i < n) (hb : b < N) : i * N + b < n * N := by
  have : (i + 1) * N ≤ n * N := Nat.mul_le_mul_right _ hi
  rw [Nat.succ_mul] at this; omega

/-- A double loop that replaces the value `v` at `i * N + b` by `g i b v`. -/
theorem rmw_loop2 (n N : ℕ) (body : ℕ → ℕ → Arr K → Option (Arr K)) (g : ℕ → ℕ → Dbl K → Dbl K)
    (hbody : ∀ i < n, ∀ b < N, ∀ a : Arr K, n * N ≤ a.size →
      body i b a = some ⟨a.size, Function.update a.val (i * N + b) (g i b (a.val (i * N + b)))⟩)
    (a : Arr K) (hs : n * N ≤ a.size) :
    ∃ a', forLoop n (fun i a => forLoop N (body i) a) a = some a' ∧ a'.size = a.size ∧
      (∀ x, n * N ≤ x → a'.val x = a.val x) ∧
      ∀ i < n, ∀ b < N, a'.val (i * N + b) = g i b (a.val (i * N + b)) := by
  set I : ℕ → ℕ → Arr K → Prop := fun k l a' => a'.size = a.size ∧ (∀ x, n * N ≤ x → a'.val x = a.val x) ∧
    ∀ i < n, ∀ b < N, a'.val (i * N + b) =
      if i < k ∨ (i = k ∧ b < l) then g i b (a.val (i * N + b)) else a.val (i * N + b) with hI
  obtain ⟨a', h1, h2, h3, h4⟩ := forLoop_inv n (fun i a => forLoop N (body i) a) (fun k => I k 0) a
    ⟨rfl, fun _ _ => rfl, fun i _ b _ => by simp⟩ (by
      intro k hk s hs0
      obtain ⟨s', h1, h2, h3, h4⟩ := forLoop_inv N (body k) (I k) s hs0 (by
        rintro l hl t ⟨h2, h3, h4⟩
        refine ⟨_, hbody k hk l hl t (by omega), h2, fun x hx => ?_, fun i hi b hb => ?_⟩
        · have := block_lt hk hl
          dsimp only; rw [Function.update_of_ne (by omega)]; exact h3 x hx
        · by_cases h : i = k ∧ b = l
          · obtain ⟨rfl, rfl⟩ := h
            simp [h4 i hi b hb]
          · dsimp only; rw [Function.update_of_ne (fun he => h (block_inj hb hl he)), h4 i hi b hb]
            have : (i < k ∨ i = k ∧ b < l) ↔ (i < k ∨ i = k ∧ b < l + 1) := by omega
            simp only [this])
      refine ⟨s', h1, h2, h3, fun i hi b hb => ?_⟩
      rw [h4 i hi b hb]
      have : (i < k ∨ i = k ∧ b < N) ↔ (i < k + 1 ∨ i = k + 1 ∧ b < 0) := by omega
      simp only [this])
  refine ⟨a', h1, h2, h3, fun i hi b hb => ?_⟩
  rw [h4 i hi b hb, if_pos (Or.inl hi)]

/-- The state of a lane before step `i`. -/
def lane {L : Type*} (N : ℕ) (step : ℕ → ℕ → L → Dbl K → L × Dbl K) (l0 : L) (a : Arr K) (b : ℕ) : ℕ → L
  | 0 => l0
  | i + 1 => (step i b (lane N step l0 a b i) (a.val (i * N + b))).1

/-- A double loop over rows and lanes: lanes are independent. -/
theorem lane_loop {L : Type*} (n N : ℕ) (body : ℕ → ℕ → (ℕ → L) × Arr K → Option ((ℕ → L) × Arr K))
    (step : ℕ → ℕ → L → Dbl K → L × Dbl K)
    (hbody : ∀ i < n, ∀ b < N, ∀ (l : ℕ → L) (a : Arr K), n * N ≤ a.size →
      body i b (l, a) = some (Function.update l b (step i b (l b) (a.val (i * N + b))).1,
        ⟨a.size, Function.update a.val (i * N + b) (step i b (l b) (a.val (i * N + b))).2⟩))
    (l0 : L) (a : Arr K) (hs : n * N ≤ a.size) :
    ∃ l' a', forLoop n (fun i s => forLoop N (body i) s) ((fun _ => l0), a) = some (l', a') ∧ a'.size = a.size ∧
      (∀ x, n * N ≤ x → a'.val x = a.val x) ∧ (∀ b < N, l' b = lane N step l0 a b n) ∧
      ∀ i < n, ∀ b < N, a'.val (i * N + b) = (step i b (lane N step l0 a b i) (a.val (i * N + b))).2 := by
  set I : ℕ → ℕ → (ℕ → L) × Arr K → Prop := fun k l s => s.2.size = a.size ∧ (∀ x, n * N ≤ x → s.2.val x = a.val x) ∧
    (∀ b < N, s.1 b = lane N step l0 a b (if b < l then k + 1 else k)) ∧
    ∀ i < n, ∀ b < N, s.2.val (i * N + b) =
      if i < k ∨ (i = k ∧ b < l) then (step i b (lane N step l0 a b i) (a.val (i * N + b))).2
      else a.val (i * N + b) with hI
  obtain ⟨s', h1, h2, h3, h4, h5⟩ := forLoop_inv n (fun i s => forLoop N (body i) s) (fun k => I k 0) ((fun _ => l0), a)
    ⟨rfl, fun _ _ => rfl, fun b _ => by simp [lane], fun i _ b _ => by simp⟩ (by
      intro k hk s hs0
      obtain ⟨s', h1, h2, h3, h4, h5⟩ := forLoop_inv N (body k) (I k) s hs0 (by
        rintro l hl ⟨t1, t2⟩ ⟨h2, h3, h4, h5⟩
        simp only [] at h2 h3 h4 h5
        refine ⟨_, hbody k hk l hl t1 t2 (by omega), h2, fun x hx => ?_, fun b hb => ?_, fun i hi b hb => ?_⟩
        · have := block_lt hk hl
          dsimp only
          rw [Function.update_of_ne (by omega)]; exact h3 x hx
        · simp only []
          by_cases h : b = l
          · subst h
            rw [Function.update_self, h4 b hb, h5 k hk b hb]
            simp [lane]
          · rw [Function.update_of_ne h, h4 b hb]
            have : b < l ↔ b < l + 1 := by omega
            simp only [this]
        · simp only []
          by_cases h : i = k ∧ b = l
          · obtain ⟨rfl, rfl⟩ := h
            rw [Function.update_self, h4 b hb, h5 i hi b hb]
            simp
          · rw [Function.update_of_ne (fun he => h (block_inj hb hl he)), h5 i hi b hb]
            have : (i < k ∨ i = k ∧ b < l) ↔ (i < k ∨ i = k ∧ b < l + 1) := by omega
            simp only [this])
      refine ⟨s', h1, h2, h3, fun b hb => ?_, fun i hi b hb => ?_⟩
      · rw [h4 b hb]; simp [hb]
      · rw [h5 i hi b hb]
        have : (i < k ∨ i = k ∧ b < N) ↔ (i < k + 1 ∨ i = k + 1 ∧ b < 0) := by omega
        simp only [this])
  refine ⟨s'.1, s'.2, h1, h2, h3, fun b hb => ?_, fun i hi b hb => ?_⟩
  · rw [h4 b hb]; simp
  · rw [h5 i hi b hb, if_pos (Or.inl hi)]

variable [Field K] [DecidableEq K]

/-- The sum of a list of doubles, from left to right. -/
def dsum (l : List (Dbl K)) : Dbl K := l.foldl Dbl.add (some 0)

omit [DecidableEq K] in
@[simp] theorem dsum_nil : dsum ([] : List (Dbl K)) = some 0 := rfl

omit [DecidableEq K] in
theorem dsum_snoc (l : List (Dbl K)) (v : Dbl K) : dsum (l ++ [v]) = Dbl.add (dsum l) v := by simp [dsum]

theorem dsum_some (l : List K) : dsum (l.map some) = some l.sum := by
  have : ∀ (l : List K) (x : K), (l.map some).foldl Dbl.add (some x) = some (x + l.sum) := by
    intro l
    induction l with
    | nil => intro x; simp
    | cons a l ih => intro x; rw [List.map_cons, List.foldl_cons, Dbl.add_some, ih, List.sum_cons, add_assoc]
  rw [dsum, this, zero_add]

end Verif.Lemmas
