import Verif.Props.C03_CellId

namespace Verif.Props.C04
open Verif.Model.CellId

theorem lookup_foldl_cons (l : List (ℤ × ℤ)) (m : IMap) (k : ℤ) :
    (l.foldl (fun m p => p :: m) m).lookup k = ((l.reverse ++ m).lookup k) := by
  have : l.foldl (fun m p => p :: m) m = l.reverse ++ m := by
    induction l generalizing m with
    | nil => rfl
    | cons a as ih => simp [ih]
  rw [this]

theorem lookup_of_mem_nodup (l : IMap) (hnd : (l.map Prod.fst).Nodup) (k v : ℤ) (h : (k, v) ∈ l) :
    l.lookup k = some v := by
  induction l with
  | nil => simp at h
  | cons a as ih =>
    rw [List.map_cons, List.nodup_cons] at hnd
    rcases List.mem_cons.1 h with rfl | h'
    · simp [List.lookup]
    · have hne : k ≠ a.1 := fun e => hnd.1 (List.mem_map.2 ⟨(k, v), h', e⟩)
      obtain ⟨a1, a2⟩ := a
      simp only [List.lookup]
      have : (k == a1) = false := by simpa using hne
      rw [this]; exact ih hnd.2 h'

theorem geomToExp_at (gids : List ℤ) (hnd : gids.Nodup) (e : ℕ) (g : ℤ) (h : gids[e]? = some g) :
    (geomToExp gids).at? g = some (e : ℤ) := by
  unfold geomToExp IMap.at?
  rw [lookup_foldl_cons, List.append_nil]
  apply lookup_of_mem_nodup
  · rw [List.map_reverse, List.nodup_reverse, List.map_map]
    have : (gids.zipIdx.map (Prod.fst ∘ fun p : ℤ × ℕ => (p.1, (p.2 : ℤ)))) = gids := by
      have : (Prod.fst ∘ fun p : ℤ × ℕ => (p.1, (p.2 : ℤ))) = (Prod.fst : ℤ × ℕ → ℤ) := rfl
      rw [this, List.zipIdx_map_fst]
    rw [this]; exact hnd
  · rw [List.mem_reverse, List.mem_map]
    exact ⟨(g, e), by rw [List.mk_mem_zipIdx_iff_getElem?]; exact h, rfl⟩

theorem geomToExp_at_none (gids : List ℤ) (g : ℤ) (h : g ∉ gids) : (geomToExp gids).at? g = none := by
  unfold geomToExp IMap.at?
  rw [lookup_foldl_cons, List.append_nil, List.lookup_eq_none_iff]
  intro p hp
  rw [List.mem_reverse, List.mem_map] at hp
  obtain ⟨⟨a, b⟩, hab, rfl⟩ := hp
  have := List.mem_of_getElem? (List.mk_mem_zipIdx_iff_getElem?.1 hab)
  simp only [bne_iff_ne, ne_eq]
  rintro rfl; exact h this

/-- The fold of the constructor, as an invariant over the processed prefix. -/
theorem fold_spec (g2e : IMap) (l : List (ℤ × ℕ)) (m0 : IMap) (E : ℤ → ℤ)
    (hE : ∀ p ∈ l, g2e.at? p.1 = some (E p.1)) :
    l.foldl (fun acc p => acc.bind fun m => (g2e.at? p.1).map fun e => ((p.2 : ℤ), e) :: m) (some m0)
      = some ((l.map fun p => ((p.2 : ℤ), E p.1)).reverse ++ m0) := by
  induction l generalizing m0 with
  | nil => rfl
  | cons a as ih =>
    rw [List.foldl_cons]
    have ha := hE a (by simp)
    simp only [Option.bind_some, ha, Option.map_some]
    rw [ih _ fun p hp => hE p (List.mem_cons_of_mem _ hp)]
    simp

/-- **C04.** Let the expansion list carry one expansion per local geometry (`gids`, distinct, in any
order) and let `mapToNektar` be the translation's list of local geometry ids. Then the map can be
built, `get_exp_id` is defined for every NESO cell and gives an expansion built on exactly the geometry
of that cell; different cells get different expansions; cells outside the range throw. -/
theorem cell_to_exp_consistent (gids mapToNektar : List ℤ) (hg : gids.Nodup) (hm : mapToNektar.Nodup)
    (hsub : ∀ g ∈ mapToNektar, g ∈ gids) :
    ∃ m, nesoCellsToExp gids mapToNektar = some m ∧
      (∀ (c : ℕ) (g : ℤ), mapToNektar[c]? = some g →
        ∃ e : ℕ, getExpId m c = some (e : ℤ) ∧ gids[e]? = some g) ∧
      (∀ (c c' : ℕ), c < mapToNektar.length → c' < mapToNektar.length →
        getExpId m c = getExpId m c' → c = c') ∧
      (∀ c : ℤ, (c < 0 ∨ (mapToNektar.length : ℤ) ≤ c) → getExpId m c = none) := by
  classical
  set E : ℤ → ℤ := fun g => (gids.idxOf g : ℤ) with hEdef
  have hE : ∀ p ∈ mapToNektar.zipIdx, (geomToExp gids).at? p.1 = some (E p.1) := by
    rintro ⟨a, b⟩ hab
    have ha := hsub a (List.mem_of_getElem? (List.mk_mem_zipIdx_iff_getElem?.1 hab))
    exact geomToExp_at gids hg _ _ (by
      rw [List.getElem?_eq_getElem (List.idxOf_lt_length_iff.2 ha)]; simp)
  have hfold := fold_spec (geomToExp gids) mapToNektar.zipIdx [] E hE
  refine ⟨_, hfold, ?_⟩
  rw [List.append_nil]
  set m := ((mapToNektar.zipIdx.map fun p => ((p.2 : ℤ), E p.1)).reverse) with hmdef
  have hnd : (m.map Prod.fst).Nodup := by
    rw [hmdef, List.map_reverse, List.nodup_reverse, List.map_map]
    have : (Prod.fst ∘ fun p : ℤ × ℕ => ((p.2 : ℤ), E p.1)) =
        (fun n : ℕ => (n : ℤ)) ∘ (Prod.snd : ℤ × ℕ → ℕ) := rfl
    rw [this, ← List.map_map, List.zipIdx_map_snd]
    exact (List.nodup_range').map (fun a b h => by simpa using h)
  have hget : ∀ (c : ℕ) (g : ℤ), mapToNektar[c]? = some g → getExpId m c = some (E g) := by
    intro c g hc
    apply lookup_of_mem_nodup _ hnd
    rw [hmdef, List.mem_reverse, List.mem_map]
    exact ⟨(g, c), List.mk_mem_zipIdx_iff_getElem?.2 hc, rfl⟩
  refine ⟨?_, ?_, ?_⟩
  · intro c g hc
    refine ⟨gids.idxOf g, hget c g hc, ?_⟩
    have ha := hsub g (List.mem_of_getElem? hc)
    rw [List.getElem?_eq_getElem (List.idxOf_lt_length_iff.2 ha)]; simp
  · intro c c' hc hc' h
    rw [hget c _ (List.getElem?_eq_getElem hc), hget c' _ (List.getElem?_eq_getElem hc')] at h
    have h' : gids.idxOf mapToNektar[c] = gids.idxOf mapToNektar[c'] := by simpa [hEdef] using h
    have e1 := hsub _ (List.getElem_mem hc)
    have h2 := (List.idxOf_inj e1).1 h'
    exact (List.Nodup.getElem_inj_iff hm).1 h2
  · intro c hc
    unfold getExpId IMap.at?
    rw [List.lookup_eq_none_iff]
    intro p hp
    rw [hmdef, List.mem_reverse, List.mem_map] at hp
    obtain ⟨⟨a, b⟩, hab, rfl⟩ := hp
    have hb : b < mapToNektar.length := by
      have := List.mk_mem_zipIdx_iff_getElem?.1 hab
      exact (List.getElem?_eq_some_iff.1 this).1
    simp only [bne_iff_ne, ne_eq]
    omega

/-- If some local geometry has no expansion the construction throws (`std::map::at`). -/
theorem cell_to_exp_missing (gids pre post : List ℤ) (g : ℤ) (hg : g ∉ gids) :
    nesoCellsToExp gids (pre ++ g :: post) = none := by
  have hnone : ∀ l : List (ℤ × ℕ), l.foldl (fun acc p => acc.bind fun m =>
      ((geomToExp gids).at? p.1).map fun e => ((p.2 : ℤ), e) :: m) (none : Option IMap) = none := by
    intro l; induction l with
    | nil => rfl
    | cons a as ih => simpa using ih
  unfold nesoCellsToExp
  simp only [List.zipIdx_append, List.zipIdx_cons, List.foldl_append, List.foldl_cons,
    geomToExp_at_none gids g hg, Option.map_none, Option.bind_none]
  rw [show (Option.bind _ fun _ : IMap => (none : Option IMap)) = none from Option.bind_fun_none _]
  exact hnone _

/-- Non-vacuity: the expansion order differs from the id order. -/
example : ([20, 3, 7] : List ℤ).Nodup ∧ ([3, 7, 20] : List ℤ).Nodup ∧
    (∀ g ∈ ([3, 7, 20] : List ℤ), g ∈ ([20, 3, 7] : List ℤ)) ∧
    (nesoCellsToExp [20, 3, 7] [3, 7, 20]).bind (fun m => getExpId m 2) = some 0 := by decide

end Verif.Props.C04
