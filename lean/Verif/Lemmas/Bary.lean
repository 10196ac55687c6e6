import Verif.Lemmas.Arr
import Mathlib.Data.List.GetD

/-! What the functions of the barycentric interpolation compute. -/

namespace Verif.Lemmas
open Verif.Model Verif.Model.Bary Verif.Model.JacobiCoeff

variable {K : Type*} [Field K] [DecidableEq K]

omit [Field K] [DecidableEq K] in
theorem read_getD [Zero K] (l : List K) (i : ℕ) (h : i < l.length) : Mem.read l (i : ℤ) = some (l.getD i 0) := by
  rw [Mem.read_ofNat, List.getElem?_eq_getElem h, List.getD_eq_getElem _ _ h]

/-- `bw_i / (z_i - coord)`. -/
def quot (z bw : List K) (coord : K) (i : ℕ) : Dbl K := Dbl.div (bw.getD i 0) (z.getD i 0 - coord)

/-- The value of `div_values[ix]` after `preprocess_weights`. -/
def wt (n : ℕ) (z bw : List K) (coord : K) (i : ℕ) : Dbl K :=
  if ∃ j < n, z.getD j 0 = coord then (if z.getD i 0 = coord then some 1 else some 0)
  else Dbl.mul (quot z bw coord i) (recip (dsum ((List.range n).map (quot z bw coord))))

/-- The nodes are distinct. -/
def Distinct (n : ℕ) (z : List K) : Prop := ∀ i < n, ∀ j < n, z.getD i 0 = z.getD j 0 → i = j

theorem stride_inj (off stride : ℕ) (hs : 0 < stride) (i j : ℕ) (h : off + i * stride = off + j * stride) : i = j :=
  Nat.eq_of_mul_eq_mul_right hs (Nat.add_left_cancel h)

theorem preprocessWeights_eq (n : ℕ) (coord : K) (z bw : List K) (off stride : ℕ) (a : Arr K) (hs : 0 < stride)
    (hz : n ≤ z.length) (hbw : n ≤ bw.length) (hd : Distinct n z) (hb : ∀ i < n, off + i * stride < a.size) :
    ∃ a', preprocessWeights n coord z bw off stride a = some a' ∧ Frame n (fun i => off + i * stride) a a' ∧
      ∀ i < n, a'.val (off + i * stride) = wt n z bw coord i := by
  unfold preprocessWeights
  set adr : ℕ → ℕ := fun i => off + i * stride with hadr
  have hinj : ∀ i < n, ∀ j < n, adr i = adr j → i = j := fun i _ j _ h => stride_inj off stride hs i j h
  obtain ⟨a1, e1, f1, v1⟩ := write_loop n adr hinj (fun _ => some 0) a hb
  rw [e1, Option.bind_some]
  -- the search
  obtain ⟨s, e2, f2, g2, v2⟩ := forLoop_inv n (fun ix (s : Bool × Arr K) =>
    if s.1 then some s else
    (Mem.read z (ix : ℤ)).bind fun zi =>
    let xdiff := zi - coord
    if xdiff = 0 then (s.2.write (off + ix * stride) (some 1)).map fun a => (true, a)
    else some s) (fun k s => Frame n adr a s.2 ∧ (s.1 = true ↔ ∃ j < k, z.getD j 0 = coord) ∧
      ∀ i < n, s.2.val (adr i) = if i < k ∧ z.getD i 0 = coord then some 1 else some 0) (false, a1)
    ⟨f1, by simp, fun i hi => by simp [v1 i hi]⟩ (by
      rintro k hk ⟨fl, t⟩ ⟨hf, hg, hv⟩
      simp only [] at hf hg hv
      have hkb : adr k < t.size := by rw [hf.1]; exact hb k hk
      by_cases hfl : fl = true
      · refine ⟨(fl, t), by simp [hfl], hf, ?_, ?_⟩
        · obtain ⟨j, hj, hjc⟩ := hg.mp hfl
          simp only [hfl, true_iff]
          exact ⟨j, by omega, hjc⟩
        · intro i hi
          obtain ⟨j, hj, hjc⟩ := hg.mp hfl
          rw [hv i hi]
          have : (i < k ∧ z.getD i 0 = coord) ↔ (i < k + 1 ∧ z.getD i 0 = coord) := by
            constructor
            · rintro ⟨h1, h2⟩; exact ⟨by omega, h2⟩
            · rintro ⟨h1, h2⟩
              have := hd i hi j (by omega) (h2.trans hjc.symm)
              exact ⟨by omega, h2⟩
          simp only [this]
      · simp only [hfl]
        rw [read_getD z k (by omega)]
        by_cases hc : z.getD k 0 = coord
        · refine ⟨(true, ⟨t.size, Function.update t.val (adr k) (some 1)⟩), ?_, hf.update k hk _, ?_, ?_⟩
          · have : adr k = off + k * stride := rfl
            simp only [Option.bind_some, Bool.false_eq_true, if_false]
            rw [if_pos (sub_eq_zero.mpr hc), ← this, write_ok _ _ _ hkb]; rfl
          · simp only [true_iff]; exact ⟨k, by omega, hc⟩
          · intro i hi
            dsimp only
            by_cases h : i = k
            · subst h; simp only [Function.update_self]; rw [if_pos ⟨by omega, hc⟩]
            · rw [Function.update_of_ne (fun he => h (hinj i hi k hk he)), hv i hi]
              have : (i < k ∧ z.getD i 0 = coord) ↔ (i < k + 1 ∧ z.getD i 0 = coord) := by
                constructor
                · rintro ⟨h1, h2⟩; exact ⟨by omega, h2⟩
                · rintro ⟨h1, h2⟩; exact ⟨by omega, h2⟩
              simp only [this]
        · refine ⟨(fl, t), ?_, hf, ?_, ?_⟩
          · simp only [Option.bind_some, Bool.false_eq_true, if_false]
            rw [if_neg (sub_ne_zero.mpr hc), Bool.eq_false_iff.mpr hfl]
          · simp only []
            rw [hg]
            constructor
            · rintro ⟨j, hj, h⟩; exact ⟨j, by omega, h⟩
            · rintro ⟨j, hj, h⟩
              refine ⟨j, ?_, h⟩
              rcases Nat.lt_succ_iff_lt_or_eq.mp hj with h' | h'
              · exact h'
              · subst h'; exact absurd h hc
          · intro i hi
            dsimp only
            rw [hv i hi]
            have : (i < k ∧ z.getD i 0 = coord) ↔ (i < k + 1 ∧ z.getD i 0 = coord) := by
              constructor
              · rintro ⟨h1, h2⟩; exact ⟨by omega, h2⟩
              · rintro ⟨h1, h2⟩
                refine ⟨?_, h2⟩
                rcases Nat.lt_succ_iff_lt_or_eq.mp h1 with h' | h'
                · exact h'
                · subst h'; exact absurd h2 hc
            simp only [this])
  rw [e2, Option.bind_some]
  by_cases hnode : ∃ j < n, z.getD j 0 = coord
  · rw [if_pos (g2.mpr hnode)]
    refine ⟨s.2, rfl, f2, fun i hi => ?_⟩
    have := v2 i hi
    rw [show off + i * stride = adr i from rfl, this, wt, if_pos hnode]
    simp [hi]
  · rw [if_neg (fun h => hnode (g2.mp h))]
    obtain ⟨t, e3, f3, g3, v3⟩ := forLoop_inv n (fun ix (s : Dbl K × Arr K) =>
      (Mem.read z (ix : ℤ)).bind fun zi =>
      (Mem.read bw (ix : ℤ)).bind fun bwi =>
      let xdiff := zi - coord
      let bwOverDiff := Dbl.div bwi xdiff
      (s.2.write (off + ix * stride) bwOverDiff).map fun a => (Dbl.add s.1 bwOverDiff, a))
      (fun k s => Frame n adr a s.2 ∧ s.1 = dsum ((List.range k).map (quot z bw coord)) ∧
        ∀ i < n, i < k → s.2.val (adr i) = quot z bw coord i) (some 0, s.2) ⟨f2, rfl, by omega⟩ (by
        rintro k hk ⟨d, t⟩ ⟨hf, hg, hv⟩
        simp only [] at hf hg hv
        have hkb : adr k < t.size := by rw [hf.1]; exact hb k hk
        refine ⟨(Dbl.add d (quot z bw coord k), ⟨t.size, Function.update t.val (adr k) (quot z bw coord k)⟩), ?_,
          hf.update k hk _, ?_, ?_⟩
        · rw [read_getD z k (by omega), read_getD bw k (by omega)]
          have : adr k = off + k * stride := rfl
          simp [quot, ← this, write_ok _ _ _ hkb]
        · simp only []; rw [map_range_succ, dsum_snoc, hg]
        · intro i hi hik
          dsimp only
          by_cases h : i = k
          · subst h; simp
          · rw [Function.update_of_ne (fun he => h (hinj i hi k hk he))]; exact hv i hi (by omega))
    rw [e3, Option.bind_some]
    obtain ⟨a4, e4, f4, v4⟩ := rmw_loop n adr hinj (fun _ v => Dbl.mul v (recip t.1)) t.2
      (fun i hi => by rw [f3.1]; exact hb i hi)
    refine ⟨a4, e4, f3.trans f4, fun i hi => ?_⟩
    rw [show off + i * stride = adr i from rfl, v4 i hi, v3 i hi hi, wt, if_neg hnode, g3]

/-- `div_values[ix * N + blockx]` after `preprocess_weights_block`. -/
theorem preprocessWeightsBlock_eq (N n : ℕ) (coord z bw : List K) (a : Arr K) (hc : N ≤ coord.length)
    (hz : n ≤ z.length) (hbw : n ≤ bw.length) (hs : n * N ≤ a.size) :
    ∃ a', preprocessWeightsBlock N n coord z bw a = some a' ∧ a'.size = a.size ∧
      (∀ x, n * N ≤ x → a'.val x = a.val x) ∧
      ∀ i < n, ∀ b < N, a'.val (i * N + b) = wt n z bw (coord.getD b 0) i := by
  unfold preprocessWeightsBlock
  obtain ⟨a1, e1, s1, f1, v1⟩ := rmw_loop2 n N (fun ix blockx a => a.write (ix * N + blockx) (some 0))
    (fun _ _ _ => some 0) (fun i hi b hb a ha => write_ok _ _ _ (Nat.lt_of_lt_of_le (block_lt hi hb) ha)) a hs
  rw [e1, Option.bind_some]
  obtain ⟨l2, a2, e2, s2, f2, g2, v2⟩ := lane_loop n N (fun ix blockx (s : (ℕ → Bool) × Arr K) =>
    (Mem.read z (ix : ℤ)).bind fun zi =>
    (Mem.read coord (blockx : ℤ)).bind fun c =>
    let xdiff := zi - c
    if xdiff = 0 then (s.2.write (ix * N + blockx) (some 1)).map fun a => (Function.update s.1 blockx true, a)
    else some s)
    (fun i b l v => if z.getD i 0 = coord.getD b 0 then (true, some 1) else (l, v)) (by
      intro i hi b hb l a ha
      have hlt := Nat.lt_of_lt_of_le (block_lt hi hb) ha
      simp only []
      rw [read_getD z i (by omega), read_getD coord b (by omega)]
      simp only [Option.bind_some, sub_eq_zero]
      by_cases h : z.getD i 0 = coord.getD b 0
      · rw [if_pos h, write_ok _ _ _ hlt]; simp only [if_pos h]; rfl
      · rw [if_neg h]; simp only [if_neg h, Function.update_eq_self]) false a1 (by omega)
  rw [e2, Option.bind_some]
  have hlane : ∀ b, ∀ k, lane N (fun i b (l : Bool) v => if z.getD i 0 = coord.getD b 0 then (true, some 1) else (l, v))
      false a1 b k = true ↔ ∃ j < k, z.getD j 0 = coord.getD b 0 := by
    intro b k
    induction k with
    | zero => simp [lane]
    | succ k ih =>
      rw [lane]
      by_cases h : z.getD k 0 = coord.getD b 0
      · rw [if_pos h]; simp only [true_iff]; exact ⟨k, by omega, h⟩
      · rw [if_neg h]
        dsimp only
        rw [ih]
        constructor
        · rintro ⟨j, hj, e⟩; exact ⟨j, by omega, e⟩
        · rintro ⟨j, hj, e⟩
          refine ⟨j, ?_, e⟩
          rcases Nat.lt_succ_iff_lt_or_eq.mp hj with h' | h'
          · exact h'
          · subst h'; exact absurd e h
  have on_iff : ∀ b < N, (l2 b = true ↔ ∃ j < n, z.getD j 0 = coord.getD b 0) := fun b hb => by
    rw [g2 b hb, hlane]
  have v2' : ∀ i < n, ∀ b < N, a2.val (i * N + b) = if z.getD i 0 = coord.getD b 0 then some 1 else some 0 := by
    intro i hi b hb
    rw [v2 i hi b hb, v1 i hi b hb]
    split_ifs <;> rfl
  dsimp only
  obtain ⟨l3, a3, e3, s3, f3, g3, v3⟩ := lane_loop n N (fun ix blockx (s : (ℕ → Dbl K) × Arr K) =>
    (Mem.read z (ix : ℤ)).bind fun zi =>
    (Mem.read coord (blockx : ℤ)).bind fun c =>
    (Mem.read bw (ix : ℤ)).bind fun bwi =>
    let xdiff := zi - c
    let bwOverDiff := Dbl.div bwi xdiff
    (s.2.read (ix * N + blockx)).bind fun old =>
    (s.2.write (ix * N + blockx) (if l2 blockx then old else bwOverDiff)).map fun a =>
      (Function.update s.1 blockx (Dbl.add (s.1 blockx) bwOverDiff), a))
    (fun i b l v => (Dbl.add l (quot z bw (coord.getD b 0) i), if l2 b then v else quot z bw (coord.getD b 0) i)) (by
      intro i hi b hb l a ha
      have hlt := Nat.lt_of_lt_of_le (block_lt hi hb) ha
      simp only []
      rw [read_getD z i (by omega), read_getD coord b (by omega), read_getD bw i (by omega), read_ok _ _ hlt]
      simp only [Option.bind_some]
      rw [write_ok _ _ _ hlt]
      rfl) (some 0) a2 (by omega)
  rw [e3, Option.bind_some]
  have hden : ∀ b, ∀ k, lane N (fun i b (l : Dbl K) v => (Dbl.add l (quot z bw (coord.getD b 0) i),
      if l2 b then v else quot z bw (coord.getD b 0) i)) (some 0) a2 b k =
      dsum ((List.range k).map (quot z bw (coord.getD b 0))) := by
    intro b k
    induction k with
    | zero => rfl
    | succ k ih => rw [lane, map_range_succ, dsum_snoc, ih]
  obtain ⟨a4, e4, s4, f4, v4⟩ := rmw_loop2 n N (fun ix blockx (a : Arr K) => (a.read (ix * N + blockx)).bind fun v =>
    a.write (ix * N + blockx) (Dbl.mul v (if l2 blockx then some 1 else recip (l3 blockx))))
    (fun _ b v => Dbl.mul v (if l2 b then some 1 else recip (l3 b))) (by
      intro i hi b hb a ha
      have hlt := Nat.lt_of_lt_of_le (block_lt hi hb) ha
      rw [read_ok _ _ hlt, Option.bind_some, write_ok _ _ _ hlt]) a3 (by omega)
  refine ⟨a4, e4, by omega, fun x hx => ?_, fun i hi b hb => ?_⟩
  · rw [f4 x hx, f3 x hx, f2 x hx, f1 x hx]
  · rw [v4 i hi b hb, v3 i hi b hb, v2' i hi b hb, (g3 b hb).trans (hden b n), wt]
    by_cases h : ∃ j < n, z.getD j 0 = coord.getD b 0
    · rw [if_pos h]
      have hl := (on_iff b hb).mpr h
      simp only [hl, if_true, mul_some_one]
    · rw [if_neg h]
      have hl : ¬ l2 b = true := fun h' => h ((on_iff b hb).mp h')
      simp only [hl, Bool.false_eq_true, if_false]

end Verif.Lemmas
