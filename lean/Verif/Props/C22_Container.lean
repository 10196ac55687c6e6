import Verif.Model.GeomContainer
import Mathlib.Data.List.Perm.Basic
import Mathlib.Data.List.Nodup
import Mathlib.Tactic.Ring

/-! C22: the containers partition the geometries. -/

namespace Verif.Props.C22
open Verif.Model.RemoteGeom Verif.Model.GeomContainer

/-- The three kinds of geometries. -/
inductive Kind where
  | regular
  | deformedLinear
  | deformedNonLinear
  deriving DecidableEq

/-- A geometry is regular if Nektar++ says so; otherwise it is linear if its map has two modes in each direction. -/
def IsKind (g : Geom) : Kind → Prop
  | .regular => g.gtype = .eRegular
  | .deformedLinear => g.gtype ≠ .eRegular ∧ ∀ m ∈ g.numModes, m = 2
  | .deformedNonLinear => g.gtype ≠ .eRegular ∧ ∃ m ∈ g.numModes, m ≠ 2

instance (g : Geom) (k : Kind) : Decidable (IsKind g k) := by cases k <;> unfold IsKind <;> infer_instance

/-- The member of the container for a kind and a shape. -/
def bucket (c : Container) (k : Kind) (s : PolyShape) : LocalRemote :=
  let t := match k with
    | .regular => c.regular
    | .deformedLinear => c.deformedLinear
    | .deformedNonLinear => c.deformedNonLinear
  match s with
  | .tet => t.tet
  | .pyr => t.pyr
  | .prism => t.prism
  | .hex => t.hex

/-- Each geometry has exactly one kind, and each 3D geometry one bucket. -/
theorem kind_unique (g : Geom) : ∃! k, IsKind g k := by
  by_cases h : g.gtype = .eRegular
  · refine ⟨.regular, h, ?_⟩
    rintro (_ | _ | _) hk
    · rfl
    · exact absurd h hk.1
    · exact absurd h hk.1
  · by_cases h2 : ∀ m ∈ g.numModes, m = 2
    · refine ⟨.deformedLinear, ⟨h, h2⟩, ?_⟩
      rintro (_ | _ | _) hk
      · exact absurd hk h
      · rfl
      · obtain ⟨_, m, hm, hne⟩ := hk; exact absurd (h2 m hm) hne
    · push Not at h2
      refine ⟨.deformedNonLinear, ⟨h, h2⟩, ?_⟩
      rintro (_ | _ | _) hk
      · exact absurd hk h
      · obtain ⟨m, hm, hne⟩ := h2; exact absurd (hk.2 m hm) hne
      · rfl

theorem isLinear_iff (l : List ℕ) : isLinear l = true ↔ ∀ m ∈ l, m = 2 := by
  induction l with
  | nil => simp [isLinear]
  | cons m l ih =>
    rw [isLinear]
    by_cases h : m = 2
    · simp [h, ih]
    · simp [h]

/-- The geometry goes to the bucket `k`, `s`. -/
def Goes (g : Geom) (k : Kind) (s : PolyShape) : Prop := IsKind g k ∧ g.shape = .poly s

instance (g : Geom) (k : Kind) (s : PolyShape) : Decidable (Goes g k s) := by unfold Goes; infer_instance

theorem types_pushBack (c : Types) (p : Push) (s : PolyShape) (h : p.geom.shape = .poly s) :
    c.pushBack p = some (match s with
      | .tet => { c with tet := c.tet.pushBack p }
      | .pyr => { c with pyr := c.pyr.pushBack p }
      | .prism => { c with prism := c.prism.pushBack p }
      | .hex => { c with hex := c.hex.pushBack p }) := by
  unfold Types.pushBack
  cases s <;> simp [h]

/-- One `push_back`: the bucket of the geometry takes it and no other changes; only a geometry with no 3D shape is refused. -/
theorem pushBack_spec (c : Container) (p : Push) :
    ((∃ i, p.geom.shape = .other i) → c.pushBack p = none) ∧
    ((∃ s, p.geom.shape = .poly s) → ∃ c', c.pushBack p = some c' ∧ ∀ k s,
      bucket c' k s = if Goes p.geom k s then (bucket c k s).pushBack p else bucket c k s) := by
  constructor
  · rintro ⟨i, h⟩
    have : ∀ t : Types, t.pushBack p = none := by intro t; unfold Types.pushBack; simp [h]
    unfold Container.pushBack
    simp [this]
  · rintro ⟨s, h⟩
    obtain ⟨k, hk, hu⟩ := kind_unique p.geom
    have hg : ∀ k' s', Goes p.geom k' s' ↔ k' = k ∧ s' = s := by
      intro k' s'
      unfold Goes
      rw [h]
      constructor
      · rintro ⟨a, b⟩; cases b; exact ⟨hu _ a, rfl⟩
      · rintro ⟨rfl, rfl⟩; exact ⟨hk, rfl⟩
    simp only [hg]
    unfold Container.pushBack
    cases k with
    | regular =>
      rw [if_pos (show p.geom.gtype = .eRegular from hk), types_pushBack _ _ _ h]
      refine ⟨_, rfl, ?_⟩
      rintro (_ | _ | _) (_ | _ | _ | _) <;> cases s <;> rfl
    | deformedLinear =>
      rw [if_neg hk.1, if_pos ((isLinear_iff _).mpr hk.2), types_pushBack _ _ _ h]
      refine ⟨_, rfl, ?_⟩
      rintro (_ | _ | _) (_ | _ | _ | _) <;> cases s <;> rfl
    | deformedNonLinear =>
      have hl : ¬ isLinear p.geom.numModes = true := by
        rw [isLinear_iff]; obtain ⟨_, m, hm, hne⟩ := hk
        exact fun h' => hne (h' m hm)
      rw [if_neg hk.1, if_neg hl, types_pushBack _ _ _ h]
      refine ⟨_, rfl, ?_⟩
      rintro (_ | _ | _) (_ | _ | _ | _) <;> cases s <;> rfl

def hasPoly (p : Push) : Prop := ∃ s, p.geom.shape = .poly s

/-- Any history of `push_back`s: it is refused exactly if some geometry has no 3D shape; otherwise each bucket has received exactly the geometries of its
kind and shape, in order. -/
theorem pushAll_spec (ps : List Push) (c : Container) :
    ((∃ p ∈ ps, ¬ hasPoly p) → pushAll ps c = none) ∧
    ((∀ p ∈ ps, hasPoly p) → ∃ c', pushAll ps c = some c' ∧ ∀ k s,
      bucket c' k s = (ps.filter fun p => Goes p.geom k s).foldl LocalRemote.pushBack (bucket c k s)) := by
  induction ps generalizing c with
  | nil => exact ⟨by simp, fun _ => ⟨c, rfl, fun k s => rfl⟩⟩
  | cons p ps ih =>
    rw [pushAll]
    by_cases hp : hasPoly p
    · obtain ⟨c', h1, h2⟩ := (pushBack_spec c p).2 hp
      rw [h1, Option.bind_some]
      constructor
      · rintro ⟨q, hq, hn⟩
        rcases List.mem_cons.mp hq with rfl | hq
        · exact absurd hp hn
        · exact (ih c').1 ⟨q, hq, hn⟩
      · intro hall
        obtain ⟨c'', h3, h4⟩ := (ih c').2 fun q hq => hall q (by simp [hq])
        refine ⟨c'', h3, fun k s => ?_⟩
        rw [h4, h2, List.filter_cons]
        by_cases hg : Goes p.geom k s <;> simp [hg]
    · have hp' : ∃ i, p.geom.shape = .other i := by
        cases h : p.geom.shape with
        | poly s => exact absurd ⟨s, h⟩ hp
        | other i => exact ⟨i, rfl⟩
      rw [(pushBack_spec c p).1 hp']
      exact ⟨fun _ => rfl, fun hall => absurd (hall p (by simp)) hp⟩

/-! ### Maps -/

variable {G : Type}

theorem mapAssign_new (m : List (ℤ × G)) (i : ℤ) (g : G) (h : i ∉ m.map Prod.fst) : mapAssign m i g = m ++ [(i, g)] := by
  unfold mapAssign
  rw [if_neg]
  simp only [List.any_eq_true, beq_iff_eq, not_exists, not_and]
  rintro x hx rfl
  exact h (List.mem_map_of_mem hx)

theorem assign_all (l m : List (ℤ × G)) (h : ((m ++ l).map Prod.fst).Nodup) : l.foldl (fun m e => mapAssign m e.1 e.2) m = m ++ l := by
  induction l generalizing m with
  | nil => simp
  | cons e l ih =>
    rw [List.foldl_cons, mapAssign_new _ _ _ ?_, ih]
    · simp
    · simpa using h
    · simp only [List.map_append, List.map_cons] at h
      intro hm
      have := (List.nodup_append.mp h).2.2 _ hm e.1 (by simp)
      exact this rfl

theorem push_locals (l : List (ℤ × Geom)) (c : LocalRemote) (h : ((c.loc ++ l).map Prod.fst).Nodup) :
    (l.map fun e => Push.loc e.1 e.2).foldl LocalRemote.pushBack c = ⟨c.loc ++ l, c.rem⟩ := by
  have : ∀ (l : List (ℤ × Geom)) (c : LocalRemote), (l.map fun e => Push.loc e.1 e.2).foldl LocalRemote.pushBack c =
      ⟨l.foldl (fun m e => mapAssign m e.1 e.2) c.loc, c.rem⟩ := by
    intro l
    induction l with
    | nil => intro c; rfl
    | cons e l ih => intro c; rw [List.map_cons, List.foldl_cons, ih]; rfl
  rw [this, assign_all _ _ h]

theorem push_remotes (l : List Remote) (c : LocalRemote) : (l.map Push.rem).foldl LocalRemote.pushBack c = ⟨c.loc, c.rem ++ l⟩ := by
  induction l generalizing c with
  | nil => simp
  | cons e l ih => rw [List.map_cons, List.foldl_cons, ih]; simp [LocalRemote.pushBack]

/-- The elements of the mesh: each id belongs to one element, and the four maps hold the shapes they are named after. -/
structure GoodGraph (g : Graph) : Prop where
  ids : ((g.tet ++ g.pyr ++ g.prism ++ g.hex).map Prod.fst).Nodup
  tet : ∀ e ∈ g.tet, e.2.shape = .poly .tet
  pyr : ∀ e ∈ g.pyr, e.2.shape = .poly .pyr
  prism : ∀ e ∈ g.prism, e.2.shape = .poly .prism
  hex : ∀ e ∈ g.hex, e.2.shape = .poly .hex

/-- `get_all_elements_3d` returns the elements of all four shapes. -/
theorem all_elements (g : Graph) (h : GoodGraph g) : getAllElements3d g = g.tet ++ g.pyr ++ g.prism ++ g.hex := by
  unfold getAllElements3d
  have h1 := h.ids
  dsimp only
  have n1 : ((g.tet ++ g.pyr ++ g.prism).map Prod.fst).Nodup := by
    rw [List.map_append] at h1; exact (List.nodup_append.mp h1).1
  have n2 : ((g.tet ++ g.pyr).map Prod.fst).Nodup := by
    rw [List.map_append] at n1; exact (List.nodup_append.mp n1).1
  have n3 : (g.tet.map Prod.fst).Nodup := by
    rw [List.map_append] at n2; exact (List.nodup_append.mp n2).1
  rw [assign_all g.tet [] (by simpa using n3), List.nil_append, assign_all _ _ n2, assign_all _ _ n1, assign_all _ _ h1]

/-- `get_element_3d` returns an element of the mesh, and fails exactly if there is none. -/
theorem get_element (g : Graph) :
    (∀ e, getElement3d g = some e → ∃ i, (i, e) ∈ g.tet ++ g.pyr ++ g.prism ++ g.hex) ∧
    (getElement3d g = none ↔ g.tet ++ g.pyr ++ g.prism ++ g.hex = []) := by
  obtain ⟨t, p, r, x⟩ := g
  unfold getElement3d
  rcases t with _ | ⟨⟨i, a⟩, t⟩
  · rcases p with _ | ⟨⟨i, a⟩, p⟩
    · rcases r with _ | ⟨⟨i, a⟩, r⟩
      · rcases x with _ | ⟨⟨i, a⟩, x⟩
        · simp
        · simp only [List.length_nil, gt_iff_lt, lt_irrefl, if_false, List.length_cons, Nat.succ_pos, if_true, List.head?_cons, Option.map_some]
          exact ⟨fun e he => ⟨i, by cases he; simp⟩, by simp⟩
      · simp only [List.length_nil, gt_iff_lt, lt_irrefl, if_false, List.length_cons, Nat.succ_pos, if_true, List.head?_cons, Option.map_some]
        exact ⟨fun e he => ⟨i, by cases he; simp⟩, by simp⟩
    · simp only [List.length_nil, gt_iff_lt, lt_irrefl, if_false, List.length_cons, Nat.succ_pos, if_true, List.head?_cons, Option.map_some]
      exact ⟨fun e he => ⟨i, by cases he; simp⟩, by simp⟩
  · simp only [gt_iff_lt, List.length_cons, Nat.succ_pos, if_true, List.head?_cons, Option.map_some]
    exact ⟨fun e he => ⟨i, by cases he; simp⟩, by simp⟩

/-- The elements of the mesh. -/
def elements (g : Graph) : List (ℤ × Geom) := g.tet ++ g.pyr ++ g.prism ++ g.hex

/-- The number of elements in all buckets. -/
def total (c : Container) : ℕ := c.regular.size + c.deformedLinear.size + c.deformedNonLinear.size

/-- `assemble_geometry_container_3d`: the bucket of a kind and a shape holds exactly the elements of the mesh and the remote geometries of this kind and
shape, each as often as it was given, for any number of elements and remote geometries. -/
theorem container_is_partition (g : Graph) (hg : GoodGraph g) (remote : List Remote) (hr : ∀ r ∈ remote, ∃ s, r.geom.shape = .poly s) :
    ∃ c, assemble g remote {} = some c ∧ (∀ k s,
      (bucket c k s).loc = (elements g).filter (fun e => Goes e.2 k s) ∧ (bucket c k s).rem = remote.filter (fun r => Goes r.geom k s)) ∧
      total c = (elements g).length + remote.length := by
  unfold assemble
  rw [all_elements g hg]
  change ∃ c, (pushAll ((elements g).map _) _).bind _ = _ ∧ _
  have hpoly : ∀ e ∈ elements g, ∃ s, e.2.shape = .poly s := by
    intro e he
    simp only [elements, List.mem_append] at he
    rcases he with ((he | he) | he) | he
    · exact ⟨_, hg.tet e he⟩
    · exact ⟨_, hg.pyr e he⟩
    · exact ⟨_, hg.prism e he⟩
    · exact ⟨_, hg.hex e he⟩
  obtain ⟨c1, h1, h2⟩ := (pushAll_spec ((elements g).map fun e => .loc e.1 e.2) {}).2 (by
    intro p hp; obtain ⟨e, he, rfl⟩ := List.mem_map.mp hp; exact hpoly e he)
  obtain ⟨c2, h3, h4⟩ := (pushAll_spec (remote.map .rem) c1).2 (by
    intro p hp; obtain ⟨e, he, rfl⟩ := List.mem_map.mp hp; exact hr e he)
  rw [h1, Option.bind_some, h3]
  have hids : ((elements g).map Prod.fst).Nodup := hg.ids
  have hb : ∀ k s, bucket c2 k s = ⟨(elements g).filter (fun e => Goes e.2 k s), remote.filter (fun r => Goes r.geom k s)⟩ := by
    intro k s
    have he : bucket {} k s = ⟨[], []⟩ := by cases k <;> cases s <;> rfl
    rw [h4, h2, List.filter_map, List.filter_map, he]
    have e1 : ((fun p : Push => decide (Goes p.geom k s)) ∘ fun e : ℤ × Geom => Push.loc e.1 e.2) = fun e => decide (Goes e.2 k s) := rfl
    have e2 : ((fun p : Push => decide (Goes p.geom k s)) ∘ Push.rem) = fun r => decide (Goes r.geom k s) := rfl
    rw [e1, e2, push_locals _ _ (by simpa using hids.sublist (List.filter_sublist.map _)), push_remotes]
    simp
  refine ⟨c2, rfl, fun k s => by rw [hb]; exact ⟨rfl, rfl⟩, ?_⟩
  have hsz : total c2 = (((elements g).countP (fun e => Goes e.2 .regular .tet) + remote.countP (fun r => Goes r.geom .regular .tet)) +
      ((elements g).countP (fun e => Goes e.2 .regular .pyr) + remote.countP (fun r => Goes r.geom .regular .pyr)) +
      ((elements g).countP (fun e => Goes e.2 .regular .prism) + remote.countP (fun r => Goes r.geom .regular .prism)) +
      ((elements g).countP (fun e => Goes e.2 .regular .hex) + remote.countP (fun r => Goes r.geom .regular .hex))) +
      (((elements g).countP (fun e => Goes e.2 .deformedLinear .tet) + remote.countP (fun r => Goes r.geom .deformedLinear .tet)) +
      ((elements g).countP (fun e => Goes e.2 .deformedLinear .pyr) + remote.countP (fun r => Goes r.geom .deformedLinear .pyr)) +
      ((elements g).countP (fun e => Goes e.2 .deformedLinear .prism) + remote.countP (fun r => Goes r.geom .deformedLinear .prism)) +
      ((elements g).countP (fun e => Goes e.2 .deformedLinear .hex) + remote.countP (fun r => Goes r.geom .deformedLinear .hex))) +
      (((elements g).countP (fun e => Goes e.2 .deformedNonLinear .tet) + remote.countP (fun r => Goes r.geom .deformedNonLinear .tet)) +
      ((elements g).countP (fun e => Goes e.2 .deformedNonLinear .pyr) + remote.countP (fun r => Goes r.geom .deformedNonLinear .pyr)) +
      ((elements g).countP (fun e => Goes e.2 .deformedNonLinear .prism) + remote.countP (fun r => Goes r.geom .deformedNonLinear .prism)) +
      ((elements g).countP (fun e => Goes e.2 .deformedNonLinear .hex) + remote.countP (fun r => Goes r.geom .deformedNonLinear .hex))) := by
    simp only [List.countP_eq_length_filter]
    have b : ∀ k s, (bucket c2 k s).size = ((elements g).filter (fun e => Goes e.2 k s)).length + (remote.filter (fun r => Goes r.geom k s)).length := by
      intro k s; rw [hb]; rfl
    rw [← b, ← b, ← b, ← b, ← b, ← b, ← b, ← b, ← b, ← b, ← b, ← b]; rfl
  have count : ∀ {A : Type} (l : List A) (f : A → Geom), (∀ a ∈ l, ∃ s, (f a).shape = .poly s) →
      l.length = l.countP (fun a => Goes (f a) .regular .tet) + l.countP (fun a => Goes (f a) .regular .pyr) +
      l.countP (fun a => Goes (f a) .regular .prism) + l.countP (fun a => Goes (f a) .regular .hex) +
      (l.countP (fun a => Goes (f a) .deformedLinear .tet) + l.countP (fun a => Goes (f a) .deformedLinear .pyr) +
      l.countP (fun a => Goes (f a) .deformedLinear .prism) + l.countP (fun a => Goes (f a) .deformedLinear .hex)) +
      (l.countP (fun a => Goes (f a) .deformedNonLinear .tet) + l.countP (fun a => Goes (f a) .deformedNonLinear .pyr) +
      l.countP (fun a => Goes (f a) .deformedNonLinear .prism) + l.countP (fun a => Goes (f a) .deformedNonLinear .hex)) := by
    intro A l f hl
    induction l with
    | nil => simp
    | cons a l ih =>
      have ih := ih fun x hx => hl x (by simp [hx])
      obtain ⟨s, hs⟩ := hl a (by simp)
      obtain ⟨k, hk, hu⟩ := kind_unique (f a)
      have hgo : ∀ k' s', Goes (f a) k' s' ↔ k' = k ∧ s' = s := by
        intro k' s'
        unfold Goes
        rw [hs]
        constructor
        · rintro ⟨a, b⟩; cases b; exact ⟨hu _ a, rfl⟩
        · rintro ⟨rfl, rfl⟩; exact ⟨hk, rfl⟩
      simp only [List.countP_cons, hgo, List.length_cons]
      cases k <;> cases s <;> simp <;> omega
  rw [hsz, count (elements g) Prod.snd hpoly, count remote Remote.geom hr]
  ring

/-- A geometry without a 3D shape is refused. -/
theorem other_shape_refused (g : Graph) (remote : List Remote) (r : Remote) (hr : r ∈ remote) (i : ℤ) (hi : r.geom.shape = .other i) :
    assemble g remote {} = none := by
  unfold assemble
  cases pushAll ((getAllElements3d g).map fun e => .loc e.1 e.2) {} with
  | none => rfl
  | some c =>
    exact (pushAll_spec (remote.map .rem) c).1 ⟨.rem r, List.mem_map_of_mem hr, by rintro ⟨s, hs⟩; rw [Push.geom, hi] at hs; cases hs⟩

def exGraph : Graph where
  tet := [(4, ⟨.eRegular, [2, 2, 2], .poly .tet, 0⟩), (9, ⟨.eDeformed, [2, 2, 2], .poly .tet, 1⟩)]
  pyr := []
  prism := [(5, ⟨.eDeformed, [2, 3, 2], .poly .prism, 2⟩)]
  hex := [(7, ⟨.eRegular, [2, 2, 2], .poly .hex, 3⟩)]

example : GoodGraph exGraph := ⟨by decide, by decide, by decide, by decide, by decide⟩
example : (assemble exGraph [⟨1, 3, ⟨.eRegular, [2, 2, 2], .poly .tet, 8⟩⟩] {}).map total = some 5 := by decide
example : (assemble exGraph [⟨1, 3, ⟨.eRegular, [2, 2, 2], .poly .tet, 8⟩⟩] {}).map (fun c => c.regular.tet.size) = some 2 := by decide
example : (assemble exGraph [⟨1, 3, ⟨.eRegular, [2, 2, 2], .other 3, 8⟩⟩] {}).map total = none := by decide

/-- Assignment to a map: the last value of a key counts, other keys are kept. -/
theorem assigned {G : Type} (m : List (ℤ × G)) (id : ℤ) (g : G) (k : ℤ) : (mapAssign m id g).lookup k = if k = id then some g else m.lookup k := by
  unfold mapAssign
  split_ifs with h hk hk
  · subst hk
    induction m with
    | nil => simp at h
    | cons a m ih =>
      by_cases ha : a.1 = k
      · simp [List.lookup_cons, ha]
      · simp only [List.any_cons, Bool.or_eq_true, beq_iff_eq, ha, false_or] at h
        rw [List.map_cons, if_neg ha, List.lookup_cons, beq_eq_false_iff_ne.2 (Ne.symm ha)]
        exact ih (by simpa using h)
  · clear h
    induction m with
    | nil => rfl
    | cons a m ih =>
      by_cases ha : a.1 = id
      · rw [List.map_cons, if_pos ha, List.lookup_cons, beq_eq_false_iff_ne.2 hk, List.lookup_cons, ha, beq_eq_false_iff_ne.2 hk]
        exact ih
      · rw [List.map_cons, if_neg ha, List.lookup_cons, List.lookup_cons]
        cases k == a.1 with
        | true => rfl
        | false => exact ih
  · subst hk
    induction m with
    | nil => simp
    | cons a m ih =>
      simp only [List.any_cons, Bool.or_eq_true, beq_iff_eq, not_or] at h
      rw [List.cons_append, List.lookup_cons, beq_eq_false_iff_ne.2 (Ne.symm h.1)]
      exact ih (by simpa using h.2)
  · rw [List.lookup_append]
    simp [List.lookup_cons, beq_eq_false_iff_ne.2 hk]

end Verif.Props.C22
