import Verif.Spec.MapperConstruct
import Verif.Props.C22_Container
import Verif.Props.C05_ParameterStore
import Verif.Props.C55_MapChain
import Mathlib.Data.List.Count

/-! C94: every element is given to exactly one mapper, with the settings of the user. -/

namespace Verif.Props.C94
open Verif.Model Verif.Model.GeomContainer Verif.Model.ParameterStore Verif.Model.RemoteGeom Verif.Model.MapperConstruct Verif.Spec.MapperConstruct
open Verif.Props.C22

/-! ### Settings -/

section settings
variable {K : Type}

theorem read_real (config : Store K) (k : String) (d : K) (h : ∀ i, config.lookup k ≠ some (.int i)) :
    ∃ v, accessed (getReal config k d) = some v ∧ ReadsReal config k d v := by
  unfold getReal
  have hc := C05.contains_iff config k
  unfold find at hc
  by_cases hk : contains config k = true
  · rw [if_pos hk]
    obtain ⟨v, hv⟩ := Option.isSome_iff_exists.mp (hc.mp hk)
    cases v with
    | int i => exact absurd hv (h i)
    | real x => exact ⟨x, by simp only [find, hv, accessed], Or.inr hv⟩
  · rw [if_neg hk]
    refine ⟨d, rfl, Or.inl ⟨?_, rfl⟩⟩
    rw [hc] at hk
    exact Option.not_isSome_iff_eq_none.mp hk

theorem read_int (config : Store K) (k : String) (d : ℤ) (h : ∀ x, config.lookup k ≠ some (.real x)) :
    ∃ v, accessed (getInt config k d) = some v ∧ ReadsInt config k d v := by
  unfold getInt
  have hc := C05.contains_iff config k
  unfold find at hc
  by_cases hk : contains config k = true
  · rw [if_pos hk]
    obtain ⟨v, hv⟩ := Option.isSome_iff_exists.mp (hc.mp hk)
    cases v with
    | real x => exact absurd hv (h x)
    | int i => exact ⟨i, by simp only [find, hv, accessed], Or.inr hv⟩
  · rw [if_neg hk]
    refine ⟨d, rfl, Or.inl ⟨?_, rfl⟩⟩
    rw [hc] at hk
    exact Option.not_isSome_iff_eq_none.mp hk

variable [DivisionRing K]

/-- The settings of a Newton mapper are those of the configuration, except that the upper end of the range of the grid size is read from the key of the
lower end. -/
theorem newton_settings_partial (trunc : K → ℤ) (config : Store K) (hc : WellTyped config) (n : ℕ) :
    ∃ s, newtonSettings trunc config n = some s ∧ SettingsFrom "MapParticlesNewton/grid_size_min" trunc config n s := by
  obtain ⟨tol, h1, r1⟩ := read_real config "MapParticlesNewton/newton_tol" (1 / 10 ^ 8) (hc.1 _ (by simp))
  obtain ⟨it, h2, r2⟩ := read_int config "MapParticlesNewton/newton_max_iteration" 51 (hc.2 _ (by simp))
  obtain ⟨ct, h3, r3⟩ := read_real config "MapParticlesNewton/contained_tol" tol (hc.1 _ (by simp))
  obtain ⟨fa, h4, r4⟩ := read_real config "MapParticlesNewton/num_modes_factor" 1 (hc.1 _ (by simp))
  obtain ⟨lo, h5, r5⟩ := read_int config "MapParticlesNewton/grid_size_min" 2 (hc.2 _ (by simp))
  obtain ⟨hi, h6, r6⟩ := read_int config "MapParticlesNewton/grid_size_min" 4 (hc.2 _ (by simp))
  refine ⟨⟨tol, it, ct, min (max (trunc (n * fa)) lo) hi⟩, ?_, r1, r2, r3, fa, lo, hi, r4, r5, r6, rfl⟩
  unfold newtonSettings
  rw [h1, Option.bind_some, h2, Option.bind_some, h3, Option.bind_some, h4, Option.bind_some, h5, Option.bind_some, h6, Option.map_some]

/-- A grid size set by the user is used for all elements, whatever their number of modes. -/
theorem grid_size_forced (trunc : K → ℤ) (config : Store K) (g : ℤ) (hg : config.lookup "MapParticlesNewton/grid_size_min" = some (.int g)) (n : ℕ)
    (s : NewtonSettings K) (h : SettingsFrom "MapParticlesNewton/grid_size_min" trunc config n s) : s.gridSize = g := by
  obtain ⟨-, -, -, fa, lo, hi, -, h1, h2, h3⟩ := h
  have e1 : lo = g := by rcases h1 with h1 | h1 <;> rw [hg] at h1 <;> simp at h1; exact h1.symm
  have e2 : hi = g := by rcases h2 with h2 | h2 <;> rw [hg] at h2 <;> simp at h2; exact h2.symm
  rw [h3, e1, e2]
  omega

theorem get_set_other (config : Store K) (key k : String) (v : Value K) (h : k ≠ key) (d : K) (i : ℤ) :
    getReal (setParam config key v) k d = getReal config k d ∧ getInt (setParam config key v) k i = getInt config k i := by
  have hf : find (setParam config key v) k = find config k := by rw [C05.find_set, if_neg (Ne.symm h)]
  have hcon : contains (setParam config key v) k = contains config k := by
    rw [Bool.eq_iff_iff, C05.contains_iff, C05.contains_iff, hf]
  unfold getReal getInt
  rw [hcon, hf]
  exact ⟨rfl, rfl⟩

/-- The value of "MapParticlesNewton/grid_size_max" has no effect on any mapper. -/
theorem grid_size_max_ignored (trunc : K → ℤ) (config : Store K) (v : Value K) (ndim : ℕ) (m : Mesh2) (g : Graph) (remote : List Remote) :
    construct trunc (setParam config "MapParticlesNewton/grid_size_max" v) ndim m g remote = construct trunc config ndim m g remote := by
  have hr : ∀ k d, k ≠ "MapParticlesNewton/grid_size_max" → getReal (setParam config "MapParticlesNewton/grid_size_max" v) k d = getReal config k d :=
    fun k d h => (get_set_other config _ k v h d 0).1
  have hi : ∀ k i, k ≠ "MapParticlesNewton/grid_size_max" → getInt (setParam config "MapParticlesNewton/grid_size_max" v) k i = getInt config k i :=
    fun k i h => (get_set_other config _ k v h 0 i).2
  have hn : ∀ n, newtonSettings trunc (setParam config "MapParticlesNewton/grid_size_max" v) n = newtonSettings trunc config n := by
    intro n
    unfold newtonSettings
    simp (discharger := decide) only [hr, hi]
  have h2 : construct2D trunc (setParam config "MapParticlesNewton/grid_size_max" v) m = construct2D trunc config m := by
    unfold construct2D regular2D newton
    rw [hr "MapParticles2DRegular/tol" _ (by decide)]
    simp only [hn]
  have h3 : construct3D trunc (setParam config "MapParticlesNewton/grid_size_max" v) g remote = construct3D trunc config g remote := by
    unfold construct3D regular3D newtonIf newton
    rw [hr "MapParticles3DRegular/tol" _ (by decide), hi "MapParticles3D/all_generic_newton" _ (by decide), hr "MapParticlesHost/tol" _ (by decide)]
    simp only [hn]
  unfold construct
  rw [h2, h3]

/-- The property fails: a user who asks for at most `2` starting points in each direction gets `4`. -/
theorem grid_size_max_not_respected : ∃ (config : Store ℚ) (s : NewtonSettings ℚ), WellTyped config ∧
    newtonSettings Int.floor config 4 = some s ∧ ¬ SettingsFrom "MapParticlesNewton/grid_size_max" Int.floor config 4 s := by
  refine ⟨[("MapParticlesNewton/grid_size_max", .int 2)], ⟨1 / 10 ^ 8, 51, 1 / 10 ^ 8, 4⟩, ⟨?_, ?_⟩, ?_, ?_⟩
  · intro k hk i
    simp only [List.mem_cons, List.not_mem_nil, or_false] at hk
    rcases hk with rfl | rfl | rfl | rfl | rfl | rfl <;> simp [List.lookup]
  · intro k hk i
    simp only [List.mem_cons, List.not_mem_nil, or_false] at hk
    rcases hk with rfl | rfl | rfl <;> simp [List.lookup]
  · simp [newtonSettings, getReal, getInt, contains, accessed]
  · rintro ⟨-, -, -, fa, lo, hi, -, -, h2, h3⟩
    have : hi = 2 := by rcases h2 with h2 | h2 <;> simp [List.lookup] at h2; exact h2.symm
    rw [this] at h3
    dsimp only at h3
    omega

end settings

/-! ### Lists -/

theorem count_filter_ite {α : Type} [DecidableEq α] (p : α → Prop) [DecidablePred p] (l : List α) (a : α) :
    (l.filter fun x => decide (p x)).count a = if p a then l.count a else 0 := by
  by_cases h : p a
  · rw [if_pos h, List.count_filter (by simpa using h)]
  · rw [if_neg h, List.count_eq_zero]
    intro hm
    exact h (by simpa using (List.mem_filter.mp hm).2)

theorem maxModes_spec (l : List ℕ) : (∀ k ∈ l, k ≤ maxModes l) ∧ (maxModes l = 0 ∨ maxModes l ∈ l) := by
  unfold maxModes
  have h : ∀ (l : List ℕ) (a : ℕ), a ≤ l.foldl max a ∧ (∀ k ∈ l, k ≤ l.foldl max a) ∧ (l.foldl max a = a ∨ l.foldl max a ∈ l) := by
    intro l
    induction l with
    | nil => intro a; simp
    | cons b l ih =>
      intro a
      rw [List.foldl_cons]
      obtain ⟨h1, h2, h3⟩ := ih (max a b)
      refine ⟨by omega, ?_, ?_⟩
      · intro k hk
        rcases List.mem_cons.mp hk with rfl | hk
        · omega
        · exact h2 k hk
      · rcases h3 with h3 | h3
        · rcases Nat.le_total a b with hab | hab
          · right; rw [h3, Nat.max_eq_right hab]; simp
          · left; rw [h3, Nat.max_eq_left hab]
        · right; simp [h3]
  exact ⟨(h l 0).2.1, (h l 0).2.2⟩

theorem modesOf_greatest (c : LocalRemote) : GreatestModes c.loc c.rem (maxModes (modesOf c)) := by
  obtain ⟨h1, h2⟩ := maxModes_spec (modesOf c)
  refine ⟨fun e he k hk => ?_, fun r hr k hk => ?_, ?_⟩
  · exact le_trans ((maxModes_spec e.2.numModes).1 k hk) (h1 _ (List.mem_append_left _ (List.mem_map_of_mem (f := fun e : ℤ × Geom => maxModes e.2.numModes) he)))
  · exact le_trans ((maxModes_spec r.geom.numModes).1 k hk) (h1 _ (List.mem_append_right _ (List.mem_map_of_mem (f := fun r : Remote => maxModes r.geom.numModes) hr)))
  · rcases Nat.eq_zero_or_pos (maxModes (modesOf c)) with h0 | h0
    · exact Or.inl h0
    right
    rcases h2 with h2 | h2
    · omega
    rcases List.mem_append.mp h2 with h | h
    · obtain ⟨e, he, hm⟩ := List.mem_map.mp h
      refine Or.inl ⟨e, he, ?_⟩
      rcases (maxModes_spec e.2.numModes).2 with h3 | h3
      · omega
      · rw [← hm]; exact h3
    · obtain ⟨r, hr, hm⟩ := List.mem_map.mp h
      refine Or.inr ⟨r, hr, ?_⟩
      rcases (maxModes_spec r.geom.numModes).2 with h3 | h3
      · omega
      · rw [← hm]; exact h3

/-! ### Three dimensions -/

instance (a : Prop) [Decidable a] (w : Which) (g : Geom) : Decidable (MeantFor a w g) := by
  cases w <;> unfold MeantFor <;> infer_instance

/-- Each 3D element is meant for exactly one mapper. -/
theorem meant_for_one (a : Prop) (g : Geom) (hg : ∃ s, g.shape = .poly s) : ∃! w, MeantFor a w g := by
  classical
  obtain ⟨s, hs⟩ := hg
  by_cases ha : a
  · refine ⟨.generic, Or.inl ha, ?_⟩
    rintro (_ | _ | _) h
    · exact absurd ha h.1
    · exact absurd ha h.1
    · rfl
  by_cases hr : g.gtype = .eRegular
  · refine ⟨.regular, ⟨ha, hr⟩, ?_⟩
    rintro (_ | _ | _) h
    · rfl
    · exact absurd hr h.2.1
    · rcases h with h | h
      · exact absurd h ha
      · exact absurd hr h.1
  by_cases hl : ∀ m ∈ g.numModes, m = 2
  · refine ⟨.linear s, ⟨ha, hr, hl, hs⟩, ?_⟩
    rintro (_ | t | _) h
    · exact absurd h.2 hr
    · have := h.2.2.2
      rw [hs] at this
      cases this; rfl
    · rcases h with h | ⟨-, m, hm, hne⟩
      · exact absurd h ha
      · exact absurd (hl m hm) hne
  · refine ⟨.generic, Or.inr ⟨hr, by push Not at hl; exact hl⟩, ?_⟩
    rintro (_ | t | _) h
    · exact absurd h.2 hr
    · exact absurd h.2.2.1 hl
    · rfl

/-- The member of a `GeometryTypes3D` for a shape. -/
def shapeOf (t : Types) : PolyShape → LocalRemote
  | .tet => t.tet
  | .pyr => t.pyr
  | .prism => t.prism
  | .hex => t.hex

theorem pushTypes_spec (ps : List Push) (t : Types) (h : ∀ p ∈ ps, hasPoly p) : ∃ t', pushTypes ps t = some t' ∧
    ∀ s, shapeOf t' s = (ps.filter fun p => decide (p.geom.shape = .poly s)).foldl LocalRemote.pushBack (shapeOf t s) := by
  induction ps generalizing t with
  | nil => exact ⟨t, rfl, fun s => rfl⟩
  | cons p ps ih =>
    obtain ⟨s, hs⟩ := h p (by simp)
    rw [pushTypes, types_pushBack t p s hs, Option.bind_some]
    obtain ⟨t', h1, h2⟩ := ih _ fun q hq => h q (by simp [hq])
    refine ⟨t', h1, fun s' => ?_⟩
    rw [h2, List.filter_cons]
    cases s <;> cases s' <;> simp [hs, shapeOf]

theorem merge_spec (t : Types) (h : ((t.tet.loc ++ t.pyr.loc ++ t.prism.loc ++ t.hex.loc).map Prod.fst).Nodup) :
    merge t = ⟨t.tet.loc ++ t.pyr.loc ++ t.prism.loc ++ t.hex.loc, t.tet.rem ++ t.pyr.rem ++ t.prism.rem ++ t.hex.rem⟩ := by
  have n1 : ((t.tet.loc ++ t.pyr.loc ++ t.prism.loc).map Prod.fst).Nodup := by
    rw [List.map_append] at h; exact (List.nodup_append.mp h).1
  have n2 : ((t.tet.loc ++ t.pyr.loc).map Prod.fst).Nodup := by
    rw [List.map_append] at n1; exact (List.nodup_append.mp n1).1
  have n3 : (t.tet.loc.map Prod.fst).Nodup := by
    rw [List.map_append] at n2; exact (List.nodup_append.mp n2).1
  unfold merge
  dsimp only
  rw [assign_all t.tet.loc [] (by simpa using n3), List.nil_append, assign_all _ _ n2, assign_all _ _ n1, assign_all _ _ h]
  simp

theorem filter_shapes {α : Type} [DecidableEq α] (l : List α) (geom : α → Geom) (hl : ∀ e ∈ l, ∃ s, (geom e).shape = .poly s) (p : Geom → Prop) [DecidablePred p] :
    ((l.filter fun e => decide (p (geom e) ∧ (geom e).shape = .poly .tet)) ++ (l.filter fun e => decide (p (geom e) ∧ (geom e).shape = .poly .pyr)) ++
      (l.filter fun e => decide (p (geom e) ∧ (geom e).shape = .poly .prism)) ++ (l.filter fun e => decide (p (geom e) ∧ (geom e).shape = .poly .hex))).Perm
    (l.filter fun e => decide (p (geom e))) := by
  rw [List.perm_iff_count]
  intro a
  simp only [List.count_append]
  rw [count_filter_ite (fun e => p (geom e) ∧ (geom e).shape = .poly .tet), count_filter_ite (fun e => p (geom e) ∧ (geom e).shape = .poly .pyr),
    count_filter_ite (fun e => p (geom e) ∧ (geom e).shape = .poly .prism), count_filter_ite (fun e => p (geom e) ∧ (geom e).shape = .poly .hex),
    count_filter_ite (fun e => p (geom e))]
  by_cases ha : a ∈ l
  · obtain ⟨s, hs⟩ := hl a ha
    by_cases hp : p (geom a) <;> cases s <;> simp [hs, hp]
  · simp [List.count_eq_zero.mpr ha]

theorem elements_poly (g : Graph) (hg : GoodGraph g) : ∀ e ∈ elements g, ∃ s, e.2.shape = .poly s := by
  intro e he
  simp only [elements, List.mem_append] at he
  rcases he with ((he | he) | he) | he
  · exact ⟨_, hg.tet e he⟩
  · exact ⟨_, hg.pyr e he⟩
  · exact ⟨_, hg.prism e he⟩
  · exact ⟨_, hg.hex e he⟩

/-- The container the constructor makes. -/
theorem container_spec (b : Bool) (g : Graph) (hg : GoodGraph g) (remote : List Remote) (hr : ∀ r ∈ remote, ∃ s, r.geom.shape = .poly s) :
    ∃ c, container3D b g remote = some c ∧
      (c.regular.size = ((elements g).filter fun e => decide (MeantFor (b = true) .regular e.2)).length +
        (remote.filter fun r => decide (MeantFor (b = true) .regular r.geom)).length) ∧
      (∀ s, (shapeOf c.deformedLinear s).loc = (elements g).filter (fun e => decide (MeantFor (b = true) (.linear s) e.2)) ∧
        (shapeOf c.deformedLinear s).rem = remote.filter (fun r => decide (MeantFor (b = true) (.linear s) r.geom))) ∧
      (merge c.deformedNonLinear).loc.Perm ((elements g).filter fun e => decide (MeantFor (b = true) .generic e.2)) ∧
      (merge c.deformedNonLinear).rem.Perm (remote.filter fun r => decide (MeantFor (b = true) .generic r.geom)) ∧
      c.deformedNonLinear.size = (merge c.deformedNonLinear).size := by
  have hids : ((elements g).map Prod.fst).Nodup := hg.ids
  have hle := elements_poly g hg
  have nodup_of : ∀ (t : Types) (p : Geom → Prop) [DecidablePred p],
      (∀ s, (shapeOf t s).loc = (elements g).filter (fun e => decide (p e.2 ∧ e.2.shape = .poly s))) →
      (∀ s, (shapeOf t s).rem = remote.filter (fun r => decide (p r.geom ∧ r.geom.shape = .poly s))) →
      (merge t).loc.Perm ((elements g).filter fun e => decide (p e.2)) ∧ (merge t).rem.Perm (remote.filter fun r => decide (p r.geom)) ∧ t.size = (merge t).size := by
    intro t p _ hl hm
    have e1 := hl .tet; have e2 := hl .pyr; have e3 := hl .prism; have e4 := hl .hex
    have m1 := hm .tet; have m2 := hm .pyr; have m3 := hm .prism; have m4 := hm .hex
    simp only [shapeOf] at e1 e2 e3 e4 m1 m2 m3 m4
    have hp := filter_shapes (elements g) (fun e => e.2) hle p
    have hp2 := filter_shapes remote (fun r => r.geom) hr p
    rw [← e1, ← e2, ← e3, ← e4] at hp
    rw [← m1, ← m2, ← m3, ← m4] at hp2
    have hn : ((t.tet.loc ++ t.pyr.loc ++ t.prism.loc ++ t.hex.loc).map Prod.fst).Nodup := by
      rw [(hp.map Prod.fst).nodup_iff]
      exact List.Nodup.sublist (List.Sublist.map _ List.filter_sublist) hids
    rw [merge_spec t hn]
    refine ⟨hp, hp2, ?_⟩
    simp only [Types.size, LocalRemote.size, List.length_append]
    omega
  cases b with
  | false =>
    obtain ⟨c, h1, h2, -⟩ := container_is_partition g hg remote hr
    have hk : ∀ (p : Geom), MeantFor (false = true) .regular p ↔ IsKind p .regular := by intro p; simp [MeantFor, IsKind]
    have hk2 : ∀ (p : Geom) s, MeantFor (false = true) (.linear s) p ↔ Goes p .deformedLinear s := by intro p s; simp [MeantFor, Goes, IsKind, and_assoc]
    have hk3 : ∀ (p : Geom), MeantFor (false = true) .generic p ↔ IsKind p .deformedNonLinear := by intro p; simp [MeantFor, IsKind]
    simp only [hk, hk2, hk3]
    refine ⟨c, h1, ?_, ?_, ?_⟩
    · have q1 := (nodup_of c.regular (fun p => IsKind p .regular) (fun s => (show (shapeOf c.regular s).loc = (bucket c .regular s).loc by cases s <;> rfl).trans ((h2 .regular s).1.trans (List.filter_congr (fun e _ => decide_eq_decide.mpr Iff.rfl))))
        (fun s => (show (shapeOf c.regular s).rem = (bucket c .regular s).rem by cases s <;> rfl).trans ((h2 .regular s).2.trans (List.filter_congr (fun e _ => decide_eq_decide.mpr Iff.rfl)))))
      rw [q1.2.2, LocalRemote.size, q1.1.length_eq, q1.2.1.length_eq]
    · intro s
      rw [← (h2 .deformedLinear s).1, ← (h2 .deformedLinear s).2]
      cases s <;> exact ⟨rfl, rfl⟩
    · exact nodup_of c.deformedNonLinear (fun p => IsKind p .deformedNonLinear) (fun s => (show (shapeOf c.deformedNonLinear s).loc = (bucket c .deformedNonLinear s).loc by cases s <;> rfl).trans ((h2 .deformedNonLinear s).1.trans (List.filter_congr (fun e _ => decide_eq_decide.mpr Iff.rfl))))
        (fun s => (show (shapeOf c.deformedNonLinear s).rem = (bucket c .deformedNonLinear s).rem by cases s <;> rfl).trans ((h2 .deformedNonLinear s).2.trans (List.filter_congr (fun e _ => decide_eq_decide.mpr Iff.rfl))))
  | true =>
    obtain ⟨t1, h1, h2⟩ := pushTypes_spec ((elements g).map fun e => .loc e.1 e.2) {} (by
      intro p hp; obtain ⟨e, he, rfl⟩ := List.mem_map.mp hp; exact hle e he)
    obtain ⟨t2, h3, h4⟩ := pushTypes_spec (remote.map .rem) t1 (by
      intro p hp; obtain ⟨e, he, rfl⟩ := List.mem_map.mp hp; exact hr e he)
    refine ⟨{ deformedNonLinear := t2 }, ?_, ?_, ?_, ?_⟩
    · unfold container3D
      rw [show getAllElements3d g = elements g from all_elements g hg]
      simp only [Bool.not_true, Bool.false_eq_true, if_false]
      rw [h1, Option.bind_some, h3, Option.map_some]
    · simp [MeantFor, Types.size, LocalRemote.size]
    · intro s
      cases s <;> simp [MeantFor, shapeOf]
    · have hk3 : ∀ (p : Geom), MeantFor (true = true) .generic p ↔ True := by intro p; simp [MeantFor]
      simp only [hk3]
      have hs : ∀ s, shapeOf t2 s = ⟨(elements g).filter (fun e => decide (e.2.shape = .poly s)), remote.filter (fun r => decide (r.geom.shape = .poly s))⟩ := by
        intro s
        have he : shapeOf {} s = ⟨[], []⟩ := by cases s <;> rfl
        rw [h4, h2, he, List.filter_map, List.filter_map, push_locals, push_remotes]
        · simp only [List.nil_append]; rfl
        · simp only [List.nil_append]
          exact List.Nodup.sublist (List.Sublist.map _ List.filter_sublist) hids
      exact nodup_of t2 (fun _ => True) (fun s => by rw [hs]; simp) (fun s => by rw [hs]; simp)

theorem newton_spec {K : Type} [DivisionRing K] (trunc : K → ℤ) (config : Store K) (hc : WellTyped config) (c : LocalRemote) (n : ℕ) (hn : n = c.size) :
    ∃ m, (if n > 0 then (newton trunc config (modesOf c) c.loc c.rem).map some else some none) = some m ∧ locOf m = c.loc ∧ remOf m = c.rem ∧
      (m.isSome ↔ 0 < c.size) ∧ ∀ p, m = some p → ∃ s k, p.settings = some s ∧ GreatestModes p.loc p.rem k ∧
        SettingsFrom "MapParticlesNewton/grid_size_min" trunc config k s := by
  subst hn
  by_cases h : c.size > 0
  · obtain ⟨s, h1, h2⟩ := newton_settings_partial trunc config hc (maxModes (modesOf c))
    refine ⟨some ⟨c.loc, c.rem, some s⟩, ?_, rfl, rfl, by simp [h], ?_⟩
    · rw [if_pos h, newton, h1]
      simp only [Option.map_some]
      rw [if_pos (show c.loc.length + c.rem.length > 0 from h)]
    · rintro p hp
      cases hp
      exact ⟨s, _, rfl, modesOf_greatest c, h2⟩
  · refine ⟨none, if_neg h, ?_, ?_, by simp; omega, by simp⟩
    · have : c.loc.length = 0 := by unfold LocalRemote.size at h; omega
      exact (List.length_eq_zero_iff.mp this).symm
    · have : c.rem.length = 0 := by unfold LocalRemote.size at h; omega
      exact (List.length_eq_zero_iff.mp this).symm

/-- The constructor of the 3D mapper, for any mesh and any configuration of the right types: each mapper holds exactly the elements it is meant for, it is made
exactly if there are any, and its settings are those of the configuration (with the upper end of the grid size read from the key of the lower end). -/
theorem mappers_3d {K : Type} [DivisionRing K] (trunc : K → ℤ) (config : Store K) (hc : WellTyped config) (g : Graph) (hg : GoodGraph g) (remote : List Remote)
    (hr : ∀ r ∈ remote, ∃ s, r.geom.shape = .poly s) :
    ∃ M a, construct3D trunc config g remote = some M ∧ ReadsInt config "MapParticles3D/all_generic_newton" 0 a ∧
      (∀ w, (locals3 M w).Perm ((elements g).filter fun e => decide (MeantFor (a ≠ 0) w e.2)) ∧
        (remotes3 M w).Perm (remote.filter fun r => decide (MeantFor (a ≠ 0) w r.geom))) ∧
      (∀ w, (newtonOf M w).isSome → locals3 M w ≠ [] ∨ remotes3 M w ≠ []) ∧
      (∀ w p, newtonOf M w = some p → ∃ s k, p.settings = some s ∧ GreatestModes p.loc p.rem k ∧
        SettingsFrom "MapParticlesNewton/grid_size_min" trunc config k s) ∧
      (M.regular.isSome → locals3 M .regular ≠ [] ∨ remotes3 M .regular ≠ []) ∧
      (∀ p, M.regular = some p → ReadsReal config "MapParticles3DRegular/tol" 0 p.settings) ∧
      ReadsReal config "MapParticlesHost/tol" 0 M.hostTol := by
  obtain ⟨a, ha, ra⟩ := read_int config "MapParticles3D/all_generic_newton" 0 (hc.2 _ (by simp))
  obtain ⟨ht, hht, rht⟩ := read_real config "MapParticlesHost/tol" 0 (hc.1 _ (by simp))
  obtain ⟨rt, hrt, rrt⟩ := read_real config "MapParticles3DRegular/tol" 0 (hc.1 _ (by simp))
  obtain ⟨c, h1, h2, h3, h4, h5, h6⟩ := container_spec (decide (a ≠ 0)) g hg remote hr
  have hdec : (decide (a ≠ 0) = true) = (a ≠ 0) := by simp
  simp only [hdec] at h2 h3 h4 h5
  obtain ⟨mt, t1, t2, t3, t4, t5⟩ := newton_spec trunc config hc c.deformedLinear.tet _ rfl
  obtain ⟨mr, r1, r2, r3, r4, r5⟩ := newton_spec trunc config hc c.deformedLinear.prism _ rfl
  obtain ⟨mh, x1, x2, x3, x4, x5⟩ := newton_spec trunc config hc c.deformedLinear.hex _ rfl
  obtain ⟨mp, p1, p2, p3, p4, p5⟩ := newton_spec trunc config hc c.deformedLinear.pyr _ rfl
  obtain ⟨mn, n1, n2, n3, n4, n5⟩ := newton_spec trunc config hc (merge c.deformedNonLinear) _ h6
  have hreg : ∃ m, (if c.regular.size > 0 then (regular3D config g remote).map some else some none) = some m ∧
      locOf m = (elements g).filter (fun e => decide (MeantFor (a ≠ 0) .regular e.2)) ∧ remOf m = remote.filter (fun r => decide (MeantFor (a ≠ 0) .regular r.geom)) ∧
      (m.isSome → 0 < c.regular.size) ∧ ∀ p, m = some p → p.settings = rt := by
    by_cases h : c.regular.size > 0
    · refine ⟨some ⟨(elements g).filter (fun e => decide (MeantFor (a ≠ 0) .regular e.2)), remote.filter (fun r => decide (MeantFor (a ≠ 0) .regular r.geom)), rt⟩, ?_, rfl, rfl,
        fun _ => h, fun p hp => by cases hp; rfl⟩
      have ha0 : ¬ a ≠ 0 := by
        intro hne
        rw [h2] at h
        have hf : ∀ p, ¬ MeantFor (a ≠ 0) .regular p := fun p hp => hp.1 hne
        simp [hf] at h
      rw [if_pos h, regular3D, hrt, show getAllElements3d g = elements g from all_elements g hg]
      simp only [Option.map_some]
      congr 3
      · exact List.filter_congr fun e _ => decide_eq_decide.mpr ⟨fun h => ⟨ha0, h⟩, fun h => h.2⟩
      · exact List.filter_congr fun e _ => decide_eq_decide.mpr ⟨fun h => ⟨ha0, h⟩, fun h => h.2⟩
    · refine ⟨none, if_neg h, ?_, ?_, by simp, by simp⟩
      · rw [h2] at h
        exact (List.length_eq_zero_iff.mp (by omega)).symm
      · rw [h2] at h
        exact (List.length_eq_zero_iff.mp (by omega)).symm
  obtain ⟨mg, g1, g2, g3, g4, g5⟩ := hreg
  have hpos : ∀ {α β : Type} {l : List α} {k : List β}, 0 < l.length + k.length → l ≠ [] ∨ k ≠ [] := by
    intro α β l k h
    by_contra hcon
    push Not at hcon
    rw [hcon.1, hcon.2] at h
    simp at h
  refine ⟨⟨mg, mt, mr, mh, mp, mn, ht⟩, a, ?_, ra, ?_, ?_, ?_, ?_, ?_, rht⟩
  · unfold construct3D newtonIf
    rw [ha, Option.bind_some, h1, Option.bind_some, g1, Option.bind_some, t1, Option.bind_some, r1, Option.bind_some, x1, Option.bind_some, p1, Option.bind_some,
      n1, Option.bind_some, hht, Option.map_some]
  · rintro (_ | (_ | _ | _ | _) | _)
    · exact ⟨List.Perm.of_eq g2, List.Perm.of_eq g3⟩
    · exact ⟨List.Perm.of_eq (t2.trans (h3 .tet).1), List.Perm.of_eq (t3.trans (h3 .tet).2)⟩
    · exact ⟨List.Perm.of_eq (p2.trans (h3 .pyr).1), List.Perm.of_eq (p3.trans (h3 .pyr).2)⟩
    · exact ⟨List.Perm.of_eq (r2.trans (h3 .prism).1), List.Perm.of_eq (r3.trans (h3 .prism).2)⟩
    · exact ⟨List.Perm.of_eq (x2.trans (h3 .hex).1), List.Perm.of_eq (x3.trans (h3 .hex).2)⟩
    · exact ⟨(List.Perm.of_eq n2).trans h4, (List.Perm.of_eq n3).trans h5⟩
  · rintro (_ | (_ | _ | _ | _) | _) h
    · simp [newtonOf] at h
    · exact hpos (by simp only [locals3, remotes3, newtonOf]; rw [t2, t3]; exact t4.mp h)
    · exact hpos (by simp only [locals3, remotes3, newtonOf]; rw [p2, p3]; exact p4.mp h)
    · exact hpos (by simp only [locals3, remotes3, newtonOf]; rw [r2, r3]; exact r4.mp h)
    · exact hpos (by simp only [locals3, remotes3, newtonOf]; rw [x2, x3]; exact x4.mp h)
    · exact hpos (by simp only [locals3, remotes3, newtonOf]; rw [n2, n3]; exact n4.mp h)
  · rintro (_ | (_ | _ | _ | _) | _) p h
    · simp [newtonOf] at h
    · exact t5 p h
    · exact p5 p h
    · exact r5 p h
    · exact x5 p h
    · exact n5 p h
  · intro h
    refine hpos ?_
    simp only [locals3, remotes3]
    rw [g2, g3, ← h2]
    exact g4 h
  · intro p hp
    rw [g5 p hp]
    exact rrt

/-- Together, the mappers of the constructor hold each element of the rank and each element of another rank exactly once. -/
theorem partition_3d {K : Type} [DivisionRing K] (trunc : K → ℤ) (config : Store K) (hc : WellTyped config) (g : Graph) (hg : GoodGraph g) (remote : List Remote)
    (hr : ∀ r ∈ remote, ∃ s, r.geom.shape = .poly s) (M : Mappers3D K) (hM : construct3D trunc config g remote = some M) :
    (used3 M).Perm (elements g) ∧ (usedRemote3 M).Perm remote := by
  obtain ⟨M', a, h1, -, h2, -⟩ := mappers_3d trunc config hc g hg remote hr
  rw [hM] at h1
  cases h1
  have key : ∀ {α : Type} [DecidableEq α] (l : List α) (geom : α → Geom) (hl : ∀ e ∈ l, ∃ s, (geom e).shape = .poly s) (F : Which → List α),
      (∀ w, (F w).Perm (l.filter fun e => decide (MeantFor (a ≠ 0) w (geom e)))) →
      (F .regular ++ F (.linear .tet) ++ F (.linear .pyr) ++ F (.linear .prism) ++ F (.linear .hex) ++ F .generic).Perm l := by
    intro α _ l geom hl F hF
    rw [List.perm_iff_count]
    intro x
    simp only [List.count_append]
    rw [(hF .regular).count_eq, (hF (.linear .tet)).count_eq, (hF (.linear .pyr)).count_eq, (hF (.linear .prism)).count_eq, (hF (.linear .hex)).count_eq,
      (hF .generic).count_eq]
    rw [count_filter_ite fun e => MeantFor (a ≠ 0) .regular (geom e), count_filter_ite fun e => MeantFor (a ≠ 0) (.linear .tet) (geom e),
      count_filter_ite fun e => MeantFor (a ≠ 0) (.linear .pyr) (geom e), count_filter_ite fun e => MeantFor (a ≠ 0) (.linear .prism) (geom e),
      count_filter_ite fun e => MeantFor (a ≠ 0) (.linear .hex) (geom e), count_filter_ite fun e => MeantFor (a ≠ 0) .generic (geom e)]
    by_cases hx : x ∈ l
    · obtain ⟨w, hw, hu⟩ := meant_for_one (a ≠ 0) (geom x) (hl x hx)
      have hw' : ∀ w', (if MeantFor (a ≠ 0) w' (geom x) then l.count x else 0) = if w' = w then l.count x else 0 := by
        intro w'
        by_cases e : w' = w
        · rw [if_pos e, if_pos (e ▸ hw)]
        · rw [if_neg e, if_neg fun h => e (hu w' h)]
      rw [hw', hw', hw', hw', hw', hw']
      rcases w with _ | (_ | _ | _ | _) | _ <;> simp
    · simp [List.count_eq_zero.mpr hx]
  exact ⟨key (elements g) (fun e => e.2) (elements_poly g hg) (locals3 M) fun w => (h2 w).1,
    key remote (fun r => r.geom) hr (remotes3 M) fun w => (h2 w).2⟩

/-! ### Two dimensions -/

theorem countTypes_spec (l : List GType) (c : ℕ × ℕ) (h : ∀ t ∈ l, t = .eRegular ∨ t = .eDeformed) :
    countTypes l c = some (c.1 + l.count .eRegular, c.2 + l.count .eDeformed) := by
  induction l generalizing c with
  | nil => simp [countTypes]
  | cons t l ih =>
    have ih' := fun c => ih c fun t ht => h t (by simp [ht])
    rcases h t (by simp) with rfl | rfl
    · rw [countTypes, if_pos rfl, ih']
      simp
      omega
    · rw [countTypes, if_neg (by decide), if_pos rfl, ih']
      simp
      omega

/-- An element Nektar++ calls neither regular nor deformed is refused. -/
theorem unknown_type_refused (l : List GType) (c : ℕ × ℕ) (t : GType) (ht : t ∈ l) (h1 : t ≠ .eRegular) (h2 : t ≠ .eDeformed) : countTypes l c = none := by
  induction l generalizing c with
  | nil => simp at ht
  | cons u l ih =>
    rw [countTypes]
    rcases List.mem_cons.mp ht with rfl | ht
    · rw [if_neg h1, if_neg h2]
    · split_ifs
      · exact ih _ ht
      · exact ih _ ht
      · rfl

theorem all_elements_2d (m : Mesh2) (h : Mesh2Ok m) : getAllElements2d m = elements2 m := by
  unfold getAllElements2d elements2
  have h1 := h.ids
  have n1 : (m.tri.map Prod.fst).Nodup := by
    rw [List.map_append] at h1; exact (List.nodup_append.mp h1).1
  rw [assign_all m.tri [] (by simpa using n1), List.nil_append, assign_all _ _ h1]

/-- The constructor of the 2D mapper, for any mesh of regular and deformed elements and any configuration of the right types: the elements the mapper looks at
are each element of the rank and each element of other ranks exactly once, **except the deformed triangles**. Regular elements are given to the mapper for
regular elements and deformed quadrilaterals to the Newton mapper; the settings are those of the configuration. -/
theorem mappers_2d_partial {K : Type} [DivisionRing K] (trunc : K → ℤ) (config : Store K) (hc : WellTyped config) (m : Mesh2) (hm : Mesh2Ok m)
    (hk : ∀ e ∈ elements2 m, Known2 e.2) (hr : ∀ r ∈ remotes2 m, Known2 r.geom) :
    ∃ M, construct2D trunc config m = some M ∧
      (used2 M).Perm ((elements2 m).filter fun e => decide (¬ DeformedTri e.2)) ∧ (usedRemote2 M).Perm ((remotes2 m).filter fun r => decide (¬ DeformedTri r.geom)) ∧
      (∀ e ∈ M.regular.loc, e.2.gtype = .eRegular) ∧ (∀ r ∈ M.regular.rem, r.geom.gtype = .eRegular) ∧
      (∀ e ∈ locOf M.newtonQuad, e.2.gtype = .eDeformed ∧ e.2.shape = .quad) ∧ (∀ r ∈ remOf M.newtonQuad, r.geom.gtype = .eDeformed ∧ r.geom.shape = .quad) ∧
      ReadsReal config "MapParticles2DRegular/tol" (1 / 10 ^ 12) M.regular.settings ∧
      (∀ p, M.newtonQuad = some p → p.loc ≠ [] ∨ p.rem ≠ [] → ∃ s k, p.settings = some s ∧
        (∀ e ∈ p.loc, e.2.numModes ≤ k) ∧ (∀ r ∈ p.rem, r.geom.numModes ≤ k) ∧ (k = 0 ∨ (∃ e ∈ p.loc, e.2.numModes = k) ∨ ∃ r ∈ p.rem, r.geom.numModes = k) ∧
        SettingsFrom "MapParticlesNewton/grid_size_min" trunc config k s) := by
  obtain ⟨rt, hrt, rrt⟩ := read_real config "MapParticles2DRegular/tol" (1 / 10 ^ 12) (hc.1 _ (by simp))
  have c1 : ∀ c, countTypes ((elements2 m).map fun e => e.2.gtype) c = _ := fun c => countTypes_spec _ c (by
    intro t ht; obtain ⟨e, he, rfl⟩ := List.mem_map.mp ht; exact hk e he)
  have c2 : ∀ c, countTypes (m.remoteTri.map fun r => r.geom.gtype) c = _ := fun c => countTypes_spec _ c (by
    intro t ht; obtain ⟨e, he, rfl⟩ := List.mem_map.mp ht; exact hr e (List.mem_append_left _ he))
  have c3 : ∀ c, countTypes (m.remoteQuad.map fun r => r.geom.gtype) c = _ := fun c => countTypes_spec _ c (by
    intro t ht; obtain ⟨e, he, rfl⟩ := List.mem_map.mp ht; exact hr e (List.mem_append_right _ he))
  unfold construct2D
  dsimp only
  rw [all_elements_2d m hm, c1, Option.bind_some, c2, Option.bind_some, c3, Option.bind_some]
  dsimp only
  generalize hR : 0 + List.count GType.eRegular ((elements2 m).map fun e => e.2.gtype) + List.count GType.eRegular (m.remoteTri.map fun r => r.geom.gtype) +
    List.count GType.eRegular (m.remoteQuad.map fun r => r.geom.gtype) = R
  generalize hD : 0 + List.count GType.eDeformed ((elements2 m).map fun e => e.2.gtype) + List.count GType.eDeformed (m.remoteTri.map fun r => r.geom.gtype) +
    List.count GType.eDeformed (m.remoteQuad.map fun r => r.geom.gtype) = D
  have hpart : ∀ {α : Type} [DecidableEq α] (l l' : List α) (geom : α → Geom2), (∀ e ∈ l, Known2 (geom e)) →
      l'.Sublist l →
      (∀ e ∈ l, (geom e).shape = .quad → l'.count e = l.count e) →
      ((l.filter fun e => decide ((geom e).gtype = .eRegular)) ++ (l'.filter fun e => decide ((geom e).gtype = .eDeformed ∧ (geom e).shape = .quad))).Perm
        (l.filter fun e => decide (¬ DeformedTri (geom e))) := by
    intro α _ l l' geom h1 h3 h5
    rw [List.perm_iff_count]
    intro x
    rw [List.count_append, count_filter_ite (fun e => (geom e).gtype = .eRegular), count_filter_ite (fun e => (geom e).gtype = .eDeformed ∧ (geom e).shape = .quad),
      count_filter_ite (fun e => ¬ DeformedTri (geom e))]
    by_cases hx : x ∈ l
    · have hkx := h1 x hx
      have h5x := h5 x hx
      unfold Known2 at hkx
      unfold DeformedTri
      rcases hkx with hg | hg
      · simp [hg]
      · have hs : (geom x).shape = .tri ∨ (geom x).shape = .quad := by cases (geom x).shape <;> simp
        rcases hs with hs | hs
        · simp [hg, hs]
        · simp [hg, hs, h5x hs]
    · have hx' : x ∉ l' := fun h => hx (h3.subset h)
      simp [List.count_eq_zero.mpr hx, List.count_eq_zero.mpr hx']
  have e1 := hpart (elements2 m) (elements2 m) (fun e => e.2) hk (List.Sublist.refl _) (fun _ _ _ => rfl)
  have e2 := hpart (remotes2 m) m.remoteQuad (fun r => r.geom) hr (List.sublist_append_right _ _) (by
      intro r _ hs
      unfold remotes2
      have h0 : m.remoteTri.count r = 0 := List.count_eq_zero.mpr fun h => by rw [hm.remoteTri r h] at hs; cases hs
      rw [List.count_append, h0, Nat.zero_add])
  -- no regular elements if the count is zero
  have hR0 : R = 0 → (elements2 m).filter (fun e => decide (e.2.gtype = .eRegular)) = [] ∧ (remotes2 m).filter (fun r => decide (r.geom.gtype = .eRegular)) = [] := by
    intro h0
    constructor
    · rw [List.filter_eq_nil_iff]
      intro e he hg
      have : List.count GType.eRegular ((elements2 m).map fun e => e.2.gtype) = 0 := by omega
      exact List.count_eq_zero.mp this (List.mem_map.mpr ⟨e, he, by simpa using hg⟩)
    · rw [List.filter_eq_nil_iff]
      intro e he hg
      rcases List.mem_append.mp he with he | he
      · have : List.count GType.eRegular (m.remoteTri.map fun e => e.geom.gtype) = 0 := by omega
        exact List.count_eq_zero.mp this (List.mem_map.mpr ⟨e, he, by simpa using hg⟩)
      · have : List.count GType.eRegular (m.remoteQuad.map fun e => e.geom.gtype) = 0 := by omega
        exact List.count_eq_zero.mp this (List.mem_map.mpr ⟨e, he, by simpa using hg⟩)
  have hD0 : D = 0 → (elements2 m).filter (fun e => decide (e.2.gtype = .eDeformed ∧ e.2.shape = .quad)) = [] ∧
      m.remoteQuad.filter (fun r => decide (r.geom.gtype = .eDeformed ∧ r.geom.shape = .quad)) = [] := by
    intro h0
    constructor
    · rw [List.filter_eq_nil_iff]
      intro e he hg
      have : List.count GType.eDeformed ((elements2 m).map fun e => e.2.gtype) = 0 := by omega
      exact List.count_eq_zero.mp this (List.mem_map.mpr ⟨e, he, (of_decide_eq_true hg).1⟩)
    · rw [List.filter_eq_nil_iff]
      intro e he hg
      have : List.count GType.eDeformed (m.remoteQuad.map fun e => e.geom.gtype) = 0 := by omega
      exact List.count_eq_zero.mp this (List.mem_map.mpr ⟨e, he, (of_decide_eq_true hg).1⟩)
  set QL := (elements2 m).filter (fun e => decide (e.2.gtype = .eDeformed ∧ e.2.shape = .quad)) with hQL
  set QR := m.remoteQuad.filter (fun r => decide (r.geom.gtype = .eDeformed ∧ r.geom.shape = .quad)) with hQR
  have hn : ∃ n : Option (Mapper Geom2 Remote2 (Option (NewtonSettings K))),
      (if D > 0 then (newton trunc config (QL.map (fun e => e.2.numModes) ++ QR.map (fun r => r.geom.numModes)) QL QR).map some else some none) = some n ∧
      locOf n = QL ∧ remOf n = QR ∧ ∀ p, n = some p → p.loc ≠ [] ∨ p.rem ≠ [] → ∃ s k, p.settings = some s ∧
        (∀ e ∈ p.loc, e.2.numModes ≤ k) ∧ (∀ r ∈ p.rem, r.geom.numModes ≤ k) ∧ (k = 0 ∨ (∃ e ∈ p.loc, e.2.numModes = k) ∨ ∃ r ∈ p.rem, r.geom.numModes = k) ∧
        SettingsFrom "MapParticlesNewton/grid_size_min" trunc config k s := by
    by_cases hd : D > 0
    · obtain ⟨s, h1, h2⟩ := newton_settings_partial trunc config hc (maxModes (QL.map (fun e => e.2.numModes) ++ QR.map (fun r => r.geom.numModes)))
      refine ⟨some ⟨QL, QR, if QL.length + QR.length > 0 then some s else none⟩, ?_, rfl, rfl, ?_⟩
      · rw [if_pos hd, newton, h1]; rfl
      · intro p hp hne
        cases hp
        dsimp only at hne ⊢
        have hpos : QL.length + QR.length > 0 := by
          rcases hne with h | h
          · have := List.length_pos_iff.mpr h; omega
          · have := List.length_pos_iff.mpr h; omega
        obtain ⟨m1, m2⟩ := maxModes_spec (QL.map (fun e => e.2.numModes) ++ QR.map (fun r => r.geom.numModes))
        refine ⟨s, _, if_pos hpos, fun e he => m1 _ (List.mem_append_left _ (List.mem_map.mpr ⟨e, he, rfl⟩)),
          fun r hr => m1 _ (List.mem_append_right _ (List.mem_map.mpr ⟨r, hr, rfl⟩)), ?_, h2⟩
        rcases m2 with m2 | m2
        · exact Or.inl m2
        · right
          rcases List.mem_append.mp m2 with h | h
          · obtain ⟨e, he, h⟩ := List.mem_map.mp h; exact Or.inl ⟨e, he, h⟩
          · obtain ⟨e, he, h⟩ := List.mem_map.mp h; exact Or.inr ⟨e, he, h⟩
    · exact ⟨none, if_neg hd, (hD0 (by omega)).1.symm, (hD0 (by omega)).2.symm, by simp⟩
  obtain ⟨n, n1, n2, n3, n4⟩ := hn
  refine ⟨⟨R, D, n, ⟨(elements2 m).filter (fun e => decide (e.2.gtype = .eRegular)), (remotes2 m).filter (fun r => decide (r.geom.gtype = .eRegular)), rt⟩⟩,
    ?_, ?_, ?_, ?_, ?_, ?_, ?_, rrt, n4⟩
  · rw [n1, Option.bind_some, regular2D, hrt, all_elements_2d m hm]; rfl
  · unfold used2
    dsimp only
    rw [n2]
    by_cases h0 : R > 0
    · rw [if_pos h0]; exact e1
    · rw [if_neg h0]; rw [(hR0 (by omega)).1] at e1; exact e1
  · unfold usedRemote2
    dsimp only
    rw [n3]
    by_cases h0 : R > 0
    · rw [if_pos h0]; exact e2
    · rw [if_neg h0]; rw [(hR0 (by omega)).2] at e2; exact e2
  · intro e he; simpa using (List.mem_filter.mp he).2
  · intro e he; simpa using (List.mem_filter.mp he).2
  · dsimp only; rw [n2]; intro e he; exact of_decide_eq_true (List.mem_filter.mp he).2
  · dsimp only; rw [n3]; intro e he; exact of_decide_eq_true (List.mem_filter.mp he).2

/-- A deformed triangle is given to no mapper. -/
theorem deformed_triangle_unused {K : Type} [DivisionRing K] (trunc : K → ℤ) (config : Store K) (hc : WellTyped config) (m : Mesh2) (hm : Mesh2Ok m)
    (hk : ∀ e ∈ elements2 m, Known2 e.2) (hr : ∀ r ∈ remotes2 m, Known2 r.geom) (M : Mappers2D K) (hM : construct2D trunc config m = some M) :
    (∀ e ∈ elements2 m, DeformedTri e.2 → e ∉ used2 M) ∧ ∀ r ∈ remotes2 m, DeformedTri r.geom → r ∉ usedRemote2 M := by
  obtain ⟨M', h1, h2, h3, -⟩ := mappers_2d_partial trunc config hc m hm hk hr
  rw [hM] at h1
  cases h1
  refine ⟨fun e _ hd he => ?_, fun r _ hd hr => ?_⟩
  · exact of_decide_eq_true (List.mem_filter.mp (h2.mem_iff.mp he)).2 hd
  · exact of_decide_eq_true (List.mem_filter.mp (h3.mem_iff.mp hr)).2 hd

/-- If all triangles are regular, the elements the mapper looks at are each element of the rank and each known element of other ranks exactly once. -/
theorem partition_2d {K : Type} [DivisionRing K] (trunc : K → ℤ) (config : Store K) (hc : WellTyped config) (m : Mesh2) (hm : Mesh2Ok m)
    (hk : ∀ e ∈ elements2 m, Known2 e.2) (hr : ∀ r ∈ remotes2 m, Known2 r.geom) (hd : ∀ e ∈ elements2 m, ¬ DeformedTri e.2)
    (hdr : ∀ r ∈ remotes2 m, ¬ DeformedTri r.geom) (M : Mappers2D K) (hM : construct2D trunc config m = some M) :
    (used2 M).Perm (elements2 m) ∧ (usedRemote2 M).Perm (remotes2 m) := by
  obtain ⟨M', h1, h2, h3, -⟩ := mappers_2d_partial trunc config hc m hm hk hr
  rw [hM] at h1
  cases h1
  rw [List.filter_eq_self.mpr fun e he => decide_eq_true (hd e he)] at h2
  rw [List.filter_eq_self.mpr fun e he => decide_eq_true (hdr e he)] at h3
  exact ⟨h2, h3⟩

/-- A particle at a position no mapper accepts stops the program when its cell is mapped: `acc` is what the elements of the mappers accept, so a particle in a
deformed triangle and in no other element is such a particle. -/
theorem unaccepted_particle_fatal {K : Type*} {acc : (ℕ → K) → Set (C55.Assignment K)} (regular : Option (MapChain.Stage K))
    (deformed : Option (MapChain.Stage K × MapChain.Stage K)) (hr : ∀ s, regular = some s → C55.Sound acc s)
    (hd : ∀ d, deformed = some d → C55.Sound acc d.1 ∧ C55.Sound acc d.2) (g : MapChain.Cells K) (i : ℕ) (hi : i < g.length) (q : CoarseLookup.Particle K)
    (hq : q ∈ g[i]) (hrank : q.rank < 0) (hacc : acc q.pos = ∅) : MapChain.map2D regular deformed i g = none := by
  by_contra hne
  obtain ⟨g', hg'⟩ := Option.ne_none_iff_exists'.mp hne
  obtain ⟨h1, h2⟩ := C55.map2D_correct regular deformed i g g' hr hd hg'
  have hlen : g.length = g'.length := List.Forall₂.length_eq h1
  have hrel := (List.forall₂_iff_get.mp h1).2 i hi (hlen ▸ hi)
  obtain ⟨j, hj, hjq⟩ := List.getElem_of_mem hq
  have hl := List.Forall₂.length_eq hrel
  have hq2 := (List.forall₂_iff_get.mp hrel).2 j hj (hl ▸ hj)
  simp only [List.get_eq_getElem] at hq2
  rw [hjq] at hq2
  have hpos := h2 i (hlen ▸ hi) rfl _ (List.getElem_mem (l := g'[i]'(hlen ▸ hi)) (n := j) (hl ▸ hj))
  rcases hq2 with h | ⟨-, a, ha, -⟩
  · rw [h] at hpos; omega
  · rw [hacc] at ha; exact ha

/-- A domain that is neither two nor three dimensional is refused. -/
theorem other_dimension_refused {K : Type} [DivisionRing K] (trunc : K → ℤ) (config : Store K) (ndim : ℕ) (m : Mesh2) (g : Graph) (remote : List Remote)
    (h2 : ndim ≠ 2) (h3 : ndim ≠ 3) : construct trunc config ndim m g remote = none := by
  unfold construct
  rw [if_neg h2, if_neg h3]

/-! ### Examples -/

/-- A deformed triangle beside a regular one and two quadrilaterals, and remote quadrilaterals. -/
def exMesh : Mesh2 where
  tri := [(3, ⟨.eRegular, .tri, 2, 0⟩), (5, ⟨.eDeformed, .tri, 3, 1⟩)]
  quad := [(8, ⟨.eDeformed, .quad, 2, 2⟩), (9, ⟨.eRegular, .quad, 2, 3⟩)]
  remoteTri := []
  remoteQuad := [⟨1, 4, ⟨.eDeformed, .quad, 2, 4⟩⟩]

example : Mesh2Ok exMesh := ⟨by decide, by decide, by decide, by decide, by decide⟩
example : ∀ e ∈ elements2 exMesh, Known2 e.2 := by unfold Known2; decide
example : WellTyped ([("MapParticlesNewton/newton_tol", .real (1 / 100 : ℚ)), ("MapParticles3D/all_generic_newton", .int 1)] : Store ℚ) := by
  refine ⟨?_, ?_⟩
  · intro k hk i
    simp only [List.mem_cons, List.not_mem_nil, or_false] at hk
    rcases hk with rfl | rfl | rfl | rfl | rfl | rfl <;> simp [List.lookup]
  · intro k hk i
    simp only [List.mem_cons, List.not_mem_nil, or_false] at hk
    rcases hk with rfl | rfl | rfl <;> simp [List.lookup]

/-- The property fails in 2D: the deformed triangle of `exMesh` is in no mapper. -/
theorem all_elements_2d_fails : ∃ M, construct2D Int.floor ([] : Store ℚ) exMesh = some M ∧ ∃ e ∈ elements2 exMesh, e ∉ used2 M := by
  have hm : Mesh2Ok exMesh := ⟨by decide, by decide, by decide, by decide, by decide⟩
  have hk : ∀ e ∈ elements2 exMesh, Known2 e.2 := by unfold Known2; decide
  have hr : ∀ r ∈ remotes2 exMesh, Known2 r.geom := by unfold Known2; decide
  have hw : WellTyped ([] : Store ℚ) := ⟨by simp, by simp⟩
  obtain ⟨M, h1, -⟩ := mappers_2d_partial Int.floor ([] : Store ℚ) hw exMesh hm hk hr
  exact ⟨M, h1, (5, ⟨.eDeformed, .tri, 3, 1⟩), by decide, (deformed_triangle_unused Int.floor _ hw exMesh hm hk hr M h1).1 _ (by decide) (by decide)⟩

example : (construct3D Int.floor ([] : Store ℚ) exGraph [⟨1, 3, ⟨.eRegular, [2, 2, 2], .poly .tet, 8⟩⟩]).isSome := by
  obtain ⟨M, a, h, -⟩ := mappers_3d Int.floor ([] : Store ℚ) ⟨by simp, by simp⟩ exGraph ⟨by decide, by decide, by decide, by decide, by decide⟩
    [⟨1, 3, ⟨.eRegular, [2, 2, 2], .poly .tet, 8⟩⟩] (by intro r hr; simp at hr; subst hr; exact ⟨_, rfl⟩)
  rw [h]; rfl

end Verif.Props.C94
