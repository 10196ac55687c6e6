import Verif.Model.HaloCells
import Verif.Props.C25_MeshTuple

/-! C23: the cells requested by the halo extension. -/

namespace Verif.Props.C23
open Verif.Model.MeshHierarchy Verif.Model.HaloCells Verif.Lemmas Verif.Spec Verif.Props.C25

theorem mem_intRange (s e x : ℤ) : x ∈ intRange s e ↔ s ≤ x ∧ x < e := by
  unfold intRange
  simp only [List.mem_map, List.mem_range]
  constructor
  · rintro ⟨k, hk, rfl⟩; omega
  · rintro ⟨h1, h2⟩; exact ⟨(x - s).toNat, by omega, by omega⟩

theorem offsets_bound (m : MH) (h3 : m.ndim ≤ 3) (w : ℤ) (ox : ℕ → ℤ) (h : ox ∈ offsets m w) : ∀ d < m.ndim, -w ≤ ox d ∧ ox d ≤ w := by
  unfold offsets at h
  simp only [List.mem_flatMap, List.mem_map, mem_intRange] at h
  obtain ⟨o2, h2, o1, h1, o0, h0, rfl⟩ := h
  intro d hd
  have e : ∀ d, d < m.ndim → offsetStart m w d = -w ∧ offsetEnd m w d = w + 1 := fun d hd => by simp [offsetStart, offsetEnd, hd]
  obtain rfl | rfl | rfl : d = 0 ∨ d = 1 ∨ d = 2 := by omega
  · have := e 0 hd; simp only [if_true]; omega
  · have := e 1 hd; simp only [if_true, Nat.one_ne_zero, if_false]; omega
  · have := e 2 hd; simp only [OfNat.ofNat_ne_zero, OfNat.ofNat_ne_one, if_false]; omega

theorem offsets_all (m : MH) (h3 : m.ndim ≤ 3) (w : ℤ) (f : ℕ → ℤ) (h : ∀ d < m.ndim, -w ≤ f d ∧ f d ≤ w) :
    ∃ ox ∈ offsets m w, ∀ d < m.ndim, ox d = f d := by
  have key : ∀ d, ∃ o, offsetStart m w d ≤ o ∧ o < offsetEnd m w d ∧ (d < m.ndim → o = f d) := by
    intro d
    by_cases hd : d < m.ndim
    · exact ⟨f d, by simp [offsetStart, hd, h d hd], by simp [offsetEnd, hd]; have := h d hd; omega, fun _ => rfl⟩
    · exact ⟨0, by simp [offsetStart, hd], by simp [offsetEnd, hd], fun h => absurd h hd⟩
  obtain ⟨o0, a0, b0, c0⟩ := key 0
  obtain ⟨o1, a1, b1, c1⟩ := key 1
  obtain ⟨o2, a2, b2, c2⟩ := key 2
  refine ⟨fun d => if d = 0 then o0 else if d = 1 then o1 else o2, ?_, ?_⟩
  · unfold offsets
    simp only [List.mem_flatMap, List.mem_map, mem_intRange]
    exact ⟨o2, ⟨a2, b2⟩, o1, ⟨a1, b1⟩, o0, ⟨a0, b0⟩, rfl⟩
  · intro d hd
    obtain rfl | rfl | rfl : d = 0 ∨ d = 1 ∨ d = 2 := by omega
    · simpa using c0 hd
    · simpa using c1 hd
    · simpa using c2 hd

theorem mem_setInsert (l : List ℤ) (a x : ℤ) : x ∈ setInsert l a ↔ x ∈ l ∨ x = a := by
  unfold setInsert
  split_ifs with h
  · constructor
    · exact Or.inl
    · rintro (h' | rfl) <;> assumption
  · simp

theorem nodup_setInsert {l : List ℤ} (h : l.Nodup) (a : ℤ) : (setInsert l a).Nodup := by
  unfold setInsert
  split_ifs with ha
  · exact h
  · rw [List.nodup_append]
    exact ⟨h, List.nodup_singleton a, fun x hx y hy => by rw [List.mem_singleton] at hy; subst hy; rintro rfl; exact ha hx⟩

/-- A loop of conditional insertions. -/
theorem foldlM_insert {α : Type} (l : List α) (step : List ℤ → α → Option (List ℤ)) (Q : α → ℤ → Prop)
    (h : ∀ a ∈ l, ∀ s : List ℤ, s.Nodup → ∃ s', step s a = some s' ∧ s'.Nodup ∧ ∀ x, x ∈ s' ↔ x ∈ s ∨ Q a x) (s : List ℤ) (hs : s.Nodup) :
    ∃ s', l.foldlM step s = some s' ∧ s'.Nodup ∧ ∀ x, x ∈ s' ↔ x ∈ s ∨ ∃ a ∈ l, Q a x := by
  induction l generalizing s with
  | nil => exact ⟨s, rfl, hs, by simp⟩
  | cons a l ih =>
    obtain ⟨s1, h1, n1, m1⟩ := h a (by simp) s hs
    obtain ⟨s2, h2, n2, m2⟩ := ih (fun b hb => h b (by simp [hb])) s1 n1
    refine ⟨s2, ?_, n2, fun x => ?_⟩
    · rw [List.foldlM_cons, h1]; exact h2
    · rw [m2, m1]
      simp only [List.mem_cons, exists_eq_or_imp, or_assoc]

variable {m : MH}

/-- The cell an offset leads to. -/
theorem offsetTuple_eq (hm : Grid m) {g ox : ℕ → ℤ} (hg : InGrid m g) {w : ℤ} (hw : ∀ d < m.ndim, w ≤ m.dims d * m.ncf)
    (ho : ∀ d < m.ndim, -w ≤ ox d ∧ ox d ≤ w) :
    InGrid m (fun d => (g d + ox d) % (m.dims d * m.ncf)) ∧
    ∀ d < m.ndim + m.ndim, offsetTuple m g ox d = meshTupleToMhTuple m (fun d => (g d + ox d) % (m.dims d * m.ncf)) d := by
  have hpos : ∀ d < m.ndim, 0 < m.dims d * m.ncf := fun d hd => mul_pos (hm.2.1 d hd) hm.2.2
  have e : ∀ d < m.ndim, offsetDimLinear m g ox d = (g d + ox d) % (m.dims d * m.ncf) := by
    intro d hd
    have h1 := hg d hd; have h2 := hw d hd; have h3 := ho d hd
    unfold offsetDimLinear cellCounts
    rw [Int.tmod_eq_emod_of_nonneg (by omega), Int.add_emod_right]
  refine ⟨fun d hd => ⟨Int.emod_nonneg _ (hpos d hd).ne', Int.emod_lt_of_pos _ (hpos d hd)⟩, fun d hd => ?_⟩
  unfold offsetTuple meshTupleToMhTuple
  by_cases h : d < m.ndim
  · rw [if_pos h, if_pos h, e d h]
  · rw [if_neg h, if_neg h, e (d - m.ndim) (by omega)]

theorem globalTuple_ok (hm : Grid m) {cell : ℤ} (h0 : 0 ≤ cell) (h1 : cell < ncellsGlobal m) :
    InGrid m (globalTuple m cell) ∧ tupleToLinearGlobal m (meshTupleToMhTuple m (globalTuple m cell)) = cell := by
  have ok := Grid.ok hm
  have hf := hm.2.2
  obtain ⟨hT, hi⟩ := tupleToLinear_linearToTuple ok h0 h1
  have hg : InGrid m (globalTuple m cell) := by
    intro d hd
    obtain ⟨⟨a, b⟩, c, e⟩ := hT d hd
    unfold globalTuple
    exact ⟨by positivity, by nlinarith⟩
  refine ⟨hg, ?_⟩
  conv_rhs => rw [← hi]
  refine tupleToLinear_congr ok fun d hd => ?_
  unfold meshTupleToMhTuple globalTuple
  by_cases h : d < m.ndim
  · obtain ⟨⟨a, b⟩, c, e⟩ := hT d h
    rw [if_pos h, Int.tdiv_eq_ediv_of_nonneg (by positivity), add_comm, Int.add_mul_ediv_right _ _ hf.ne', Int.ediv_eq_zero_of_lt c e, zero_add]
  · obtain ⟨⟨a, b⟩, c, e⟩ := hT (d - m.ndim) (by omega)
    rw [show d - m.ndim + m.ndim = d by omega] at c e
    rw [if_neg h, show d - m.ndim + m.ndim = d by omega, Int.tmod_eq_emod_of_nonneg (by positivity), add_comm,
      Int.add_mul_emod_self_right, Int.emod_eq_of_lt c e]

/-- The linear index of a cell is what `tuple_to_linear_global` gives for its tuple. -/
theorem hasLinearIndex_iff (hm : Grid m) {c : ℕ → ℤ} (hc : InGrid m c) (id : ℤ) :
    HasLinearIndex m c id ↔ tupleToLinearGlobal m (meshTupleToMhTuple m c) = id := by
  constructor
  · rintro ⟨t, ht, rfl⟩
    refine tupleToLinear_congr (Grid.ok hm) fun d hd => ?_
    unfold meshTupleToMhTuple
    by_cases h : d < m.ndim
    · obtain ⟨a, b, e⟩ := ht d h
      rw [if_pos h, Int.tdiv_eq_ediv_of_nonneg (hc d h).1, a, add_comm, Int.add_mul_ediv_right _ _ hm.2.2.ne', Int.ediv_eq_zero_of_lt b e,
        zero_add]
    · obtain ⟨a, b, e⟩ := ht (d - m.ndim) (by omega)
      rw [show d - m.ndim + m.ndim = d by omega] at a b e
      rw [if_neg h, Int.tmod_eq_emod_of_nonneg (hc _ (by omega)).1, a, add_comm, Int.add_mul_emod_self_right, Int.emod_eq_of_lt b e]
  · rintro rfl
    exact ((cell_index_bijective m hm).1 c hc).1

/-- The stencil cells of one cell. -/
theorem stencil (hm : Grid m) (h3 : m.ndim ≤ 3) (w : ℤ) (hw : ∀ d < m.ndim, w ≤ m.dims d * m.ncf) (pbc : Bool) (owned : List ℤ)
    {g : ℕ → ℤ} (hg : InGrid m g) (s : List ℤ) (hs : s.Nodup) :
    ∃ s', (offsets m w).foldlM (haloStep m pbc owned g) s = some s' ∧ s'.Nodup ∧
      ∀ x, x ∈ s' ↔ x ∈ s ∨ (x ∉ owned ∧ ∃ c, InGrid m c ∧ HasLinearIndex m c x ∧ Within m w pbc g c) := by
  have ok := Grid.ok hm
  have hpos : ∀ d < m.ndim, 0 < m.dims d * m.ncf := fun d hd => mul_pos (hm.2.1 d hd) hm.2.2
  obtain ⟨s', h1, h2, h3'⟩ := foldlM_insert (offsets m w) (haloStep m pbc owned g)
    (fun ox x => x ∉ owned ∧ valid m pbc g ox = true ∧ x = tupleToLinearGlobal m (offsetTuple m g ox)) (by
      intro ox hox s hs
      obtain ⟨hin, heq⟩ := offsetTuple_eq hm hg hw (offsets_bound m h3 w ox hox)
      have hr := tupleToLinear_range ok (tupleOk m hm _ hin)
      rw [← tupleToLinear_congr ok heq] at hr
      refine ⟨if tupleToLinearGlobal m (offsetTuple m g ox) ∉ owned ∧ valid m pbc g ox = true then
          setInsert s (tupleToLinearGlobal m (offsetTuple m g ox)) else s, ?_, ?_, ?_⟩
      · unfold haloStep
        simp only
        rw [if_neg (not_not.mpr hr.2), if_neg (by omega)]
      · split_ifs
        · exact nodup_setInsert hs _
        · exact hs
      · intro x
        split_ifs with hc
        · rw [mem_setInsert]
          constructor
          · rintro (h | rfl)
            · exact Or.inl h
            · exact Or.inr ⟨hc.1, hc.2, rfl⟩
          · rintro (h | ⟨_, _, h⟩)
            · exact Or.inl h
            · exact Or.inr h
        · constructor
          · exact Or.inl
          · rintro (h | ⟨a, b, rfl⟩)
            · exact h
            · exact absurd ⟨a, b⟩ hc) s hs
  refine ⟨s', h1, h2, fun x => ?_⟩
  rw [h3']
  refine or_congr Iff.rfl ?_
  constructor
  · rintro ⟨ox, hox, hno, hv, rfl⟩
    refine ⟨hno, ?_⟩
    have hob := offsets_bound m h3 w ox hox
    obtain ⟨hin, heq⟩ := offsetTuple_eq hm hg hw hob
    refine ⟨_, hin, (hasLinearIndex_iff hm hin _).mpr (tupleToLinear_congr ok heq).symm, fun d hd => ?_⟩
    have hb := hob d hd
    cases pbc with
    | true =>
      simp only [if_true]
      refine ⟨(g d + ox d) / (m.dims d * m.ncf), ?_⟩
      have := Int.emod_add_mul_ediv (g d + ox d) (m.dims d * m.ncf)
      rw [mul_comm ((g d + ox d) / _), this, abs_le]
      omega
    | false =>
      simp only [Bool.false_eq_true, if_false]
      unfold valid at hv
      rw [List.all_eq_true] at hv
      have := hv d (List.mem_range.mpr hd)
      simp only [Bool.false_or, Bool.and_eq_true, decide_eq_true_eq] at this
      simp only [cellCounts, ge_iff_le] at this
      rw [Int.emod_eq_of_lt this.1 this.2, abs_le]
      omega
  · rintro ⟨hno, c, hc, hcx, hwi⟩
    have hex : ∃ f : ℕ → ℤ, ∀ d < m.ndim, (-w ≤ f d ∧ f d ≤ w) ∧ (g d + f d) % (m.dims d * m.ncf) = c d ∧
        (pbc = false → 0 ≤ g d + f d ∧ g d + f d < m.dims d * m.ncf) := by
      have : ∀ d, ∃ o : ℤ, d < m.ndim → (-w ≤ o ∧ o ≤ w) ∧ (g d + o) % (m.dims d * m.ncf) = c d ∧
          (pbc = false → 0 ≤ g d + o ∧ g d + o < m.dims d * m.ncf) := by
        intro d
        by_cases hd : d < m.ndim
        · have hw := hwi d hd
          have hcd := hc d hd
          cases pbc with
          | true =>
            simp only [if_true] at hw
            obtain ⟨k, hk⟩ := hw
            rw [abs_le] at hk
            refine ⟨c d + k * (m.dims d * m.ncf) - g d, fun _ => ⟨hk, ?_, by simp⟩⟩
            rw [show g d + (c d + k * (m.dims d * m.ncf) - g d) = c d + k * (m.dims d * m.ncf) by ring, Int.add_mul_emod_self_right,
              Int.emod_eq_of_lt hcd.1 hcd.2]
          | false =>
            simp only [Bool.false_eq_true, if_false] at hw
            rw [abs_le] at hw
            refine ⟨c d - g d, fun _ => ⟨hw, ?_, ?_⟩⟩
            · rw [show g d + (c d - g d) = c d by ring, Int.emod_eq_of_lt hcd.1 hcd.2]
            · intro _; rw [show g d + (c d - g d) = c d by ring]; exact hcd
        · exact ⟨0, fun h => absurd h hd⟩
      choose f hf using this
      exact ⟨f, hf⟩
    obtain ⟨f, hf⟩ := hex
    obtain ⟨ox, hox, hoe⟩ := offsets_all m h3 w f fun d hd => (hf d hd).1
    refine ⟨ox, hox, hno, ?_, ?_⟩
    · unfold valid
      rw [List.all_eq_true]
      intro d hd
      have hd := List.mem_range.mp hd
      cases pbc with
      | true => simp
      | false =>
        have := (hf d hd).2.2 rfl
        simp only [Bool.false_or, Bool.and_eq_true, decide_eq_true_eq, cellCounts, hoe d hd]
        omega
    · obtain ⟨hin, heq⟩ := offsetTuple_eq hm hg hw (offsets_bound m h3 w ox hox)
      rw [tupleToLinear_congr ok heq, ← (hasLinearIndex_iff hm hc x).mp hcx]
      refine tupleToLinear_congr ok fun d hd => ?_
      unfold meshTupleToMhTuple
      by_cases h : d < m.ndim
      · rw [if_pos h, if_pos h]; dsimp only; rw [hoe d h, (hf d h).2.1]
      · rw [if_neg h, if_neg h]; dsimp only; rw [hoe (d - m.ndim) (by omega), (hf (d - m.ndim) (by omega)).2.1]

theorem minDim_le (m : MH) : ∀ d < m.ndim, minDim m ≤ m.dims d := by
  unfold minDim
  have key : ∀ (l : List ℕ) (a : ℤ), (l.foldl (fun a d => min a (m.dims d)) a) ≤ a ∧
      ∀ d ∈ l, (l.foldl (fun a d => min a (m.dims d)) a) ≤ m.dims d := by
    intro l
    induction l with
    | nil => intro a; simp
    | cons b l ih =>
      intro a
      rw [List.foldl_cons]
      obtain ⟨h1, h2⟩ := ih (min a (m.dims b))
      refine ⟨le_trans h1 (min_le_left _ _), fun d hd => ?_⟩
      rcases List.mem_cons.mp hd with rfl | hd
      · exact le_trans h1 (min_le_right _ _)
      · exact h2 d hd
  intro d hd
  exact (key _ _).2 d (List.mem_range.mpr hd)

/-- The cells requested by `extend_halos_fixed_offset` with an offset `w`, in one to three dimensions: those within `w` of a cell this rank
owns or claimed, across periodic boundaries if `pbc` is set and inside of the domain if not, that this rank does not own. Each is requested
once. -/
theorem requested_cells_exact (m : MH) (hm : Grid m) (h3 : m.ndim ≤ 3) (w : ℤ) (h0 : 0 ≤ w)
    (hw : ∀ d < m.ndim, w ≤ m.dims d * m.ncf) (pbc : Bool) (owned unowned : List ℤ)
    (hcells : ∀ x ∈ owned ++ unowned, 0 ≤ x ∧ x < ncellsGlobal m) :
    ∃ S, requestedCells m w pbc owned unowned = some (some S) ∧ S.Nodup ∧
      ∀ x, x ∈ S ↔ x ∉ owned ∧ ∃ c, InGrid m c ∧ HasLinearIndex m c x ∧
        ∃ base ∈ owned ++ unowned, ∃ b, InGrid m b ∧ HasLinearIndex m b base ∧ Within m w pbc b c := by
  have hmin : w ≤ minDim m * m.ncf := by
    have : ∃ d < m.ndim, minDim m = m.dims d := by
      unfold minDim
      have key : ∀ (l : List ℕ) (a : ℤ), (∃ d < m.ndim, a = m.dims d) → (∀ d ∈ l, d < m.ndim) →
          ∃ d < m.ndim, (l.foldl (fun a d => min a (m.dims d)) a) = m.dims d := by
        intro l
        induction l with
        | nil => intro a ha _; exact ha
        | cons b l ih =>
          intro a ha hl
          rw [List.foldl_cons]
          refine ih _ ?_ fun d hd => hl d (by simp [hd])
          rcases min_choice a (m.dims b) with h | h
          · rw [h]; exact ha
          · rw [h]; exact ⟨b, hl b (by simp), rfl⟩
      exact key _ _ ⟨0, hm.1, rfl⟩ fun d hd => List.mem_range.mp hd
    obtain ⟨d, hd, e⟩ := this
    rw [e]; exact hw d hd
  obtain ⟨S, h1, h2, h4⟩ := foldlM_insert (owned ++ unowned)
    (fun remote cell => (offsets m w).foldlM (haloStep m pbc owned (globalTuple m cell)) remote)
    (fun cell x => x ∉ owned ∧ ∃ c, InGrid m c ∧ HasLinearIndex m c x ∧ Within m w pbc (globalTuple m cell) c)
    (fun cell hcell s hs => stencil hm h3 w hw pbc owned (globalTuple_ok hm (hcells cell hcell).1 (hcells cell hcell).2).1 s hs) [] List.nodup_nil
  refine ⟨S, ?_, h2, fun x => ?_⟩
  · unfold requestedCells
    rw [if_neg (by omega), if_neg (not_not.mpr hmin)]
    unfold haloCells
    rw [h1]; rfl
  · rw [h4]
    simp only [List.not_mem_nil, false_or]
    constructor
    · rintro ⟨base, hb, hno, c, hc, hcx, hwi⟩
      obtain ⟨hg, hgi⟩ := globalTuple_ok hm (hcells base hb).1 (hcells base hb).2
      exact ⟨hno, c, hc, hcx, base, hb, _, hg, (hasLinearIndex_iff hm hg _).mpr hgi, hwi⟩
    · rintro ⟨hno, c, hc, hcx, base, hb, b, hbg, hbi, hwi⟩
      refine ⟨base, hb, hno, c, hc, hcx, fun d hd => ?_⟩
      obtain ⟨hg, hgi⟩ := globalTuple_ok hm (hcells base hb).1 (hcells base hb).2
      have := (cell_index_bijective m hm).2.1 _ _ hg hbg (by rw [hgi, (hasLinearIndex_iff hm hbg _).mp hbi]) d hd
      rw [this]
      exact hwi d hd

/-- A negative offset has no effect, and an offset larger than the domain is refused. -/
theorem offset_limits (m : MH) (hm : Grid m) (pbc : Bool) (owned unowned : List ℤ) (w : ℤ) :
    (w < 0 → requestedCells m w pbc owned unowned = some none) ∧
    ((∃ d < m.ndim, m.dims d * m.ncf < w) → requestedCells m w pbc owned unowned = none) := by
  constructor
  · intro h; unfold requestedCells; rw [if_pos h]
  · rintro ⟨d, hd, h⟩
    have h1 := minDim_le m d hd
    have h2 := hm.2.2
    have h3 := hm.2.1 d hd
    unfold requestedCells
    rw [if_neg (by nlinarith), if_pos (by nlinarith)]

/-- Without the limit the stencil function would compute wrong cells: in C++ the remainder of a negative number is negative. -/
theorem wide_stencil_fails : haloCells ⟨1, fun _ => 2, 1⟩ 3 true [0] [] [] = none := by decide +kernel

/-- A periodic 4 by 3 grid; the rank owns cell 0 and claimed nothing else. -/
example : requestedCells ⟨2, fun d => if d = 0 then 4 else 3, 1⟩ 1 true [0] [] = some (some [11, 8, 9, 3, 1, 7, 4, 5]) := by decide +kernel
example : requestedCells ⟨2, fun d => if d = 0 then 4 else 3, 1⟩ 1 false [0] [] = some (some [1, 4, 5]) := by decide +kernel
example : Grid ⟨2, fun d => if d = 0 then 4 else 3, 1⟩ := ⟨by decide, fun d _ => by dsimp only; split_ifs <;> omega, by decide⟩

end Verif.Props.C23
