import Verif.Spec.Generic3D
import Verif.Props.C15_Bary
import Verif.Props.C16_BaryBlock
import Verif.Lemmas.NewtonMemory

/-! Lemmas for C81. -/

namespace Verif.Lemmas.Generic3D
open Verif.Spec Verif.Lemmas Verif.Spec.Generic3D Verif.Model Verif.Model.Bary Verif.Model.JacobiCoeff Verif.Model.Generic3D Verif.Model.NewtonKernel
  Verif.Model.NewtonMemory Verif.Model.CoordMap Verif.Lemmas.NewtonMemory

variable {K : Type*} [Field K] [LinearOrder K]

theorem blocks_length {α : Type*} (w : ℕ) (b : ℕ → List α) (hb : ∀ k, (b k).length = w) : ∀ n, ((List.range n).flatMap b).length = n * w
  | 0 => by simp
  | n + 1 => by
    rw [List.range_succ, List.flatMap_append, List.length_append, blocks_length w b hb n, List.flatMap_cons, List.flatMap_nil, List.append_nil, hb]
    ring

theorem blocks_get {α : Type*} (w : ℕ) (b : ℕ → List α) (hb : ∀ k, (b k).length = w) (tail : List α) : ∀ n k f, k < n → f < w →
    ((List.range n).flatMap b ++ tail)[k * w + f]? = (b k)[f]?
  | 0, k, f, hk, _ => absurd hk (Nat.not_lt_zero k)
  | n + 1, k, f, hk, hf => by
    rw [List.range_succ, List.flatMap_append, List.append_assoc]
    rcases Nat.lt_succ_iff_lt_or_eq.1 hk with h | rfl
    · have h' := blocks_get w b hb ([n].flatMap b ++ tail) n k f h hf
      exact h'
    · rw [List.getElem?_append_right (by rw [blocks_length w b hb]; omega), blocks_length w b hb, List.flatMap_cons, List.flatMap_nil, List.append_nil,
        Nat.add_sub_cancel_left, List.getElem?_append_left (by rw [hb]; exact hf)]

theorem getElem?_getD_of_lt (l : List K) (k : ℕ) (h : k < l.length) : some (l.getD k 0) = l[k]? := by
  rw [List.getD_eq_getElem _ _ h, List.getElem?_eq_getElem h]

theorem interlace3_component (n : ℕ) (v : ℕ → List K) (tail : List K) (f : ℕ) (hf : f < 3) (hv : (v f).length = n) :
    IsComponent 3 f n (interlace3 n v ++ tail) (v f) := by
  refine ⟨hv, fun k hk => ?_⟩
  unfold interlace3
  rw [blocks_get 3 _ (fun _ => rfl) tail n k f hk hf, ← getElem?_getD_of_lt _ _ (by omega)]
  interval_cases f <;> rfl

theorem interlace9_component (n : ℕ) (D : ℕ → ℕ → List K) (tail : List K) (i j : ℕ) (hi : i < 3) (hj : j < 3) (hv : (D i j).length = n) :
    IsComponent 9 (3 * i + j) n (interlace9 n D ++ tail) (D i j) := by
  refine ⟨hv, fun k hk => ?_⟩
  unfold interlace9
  rw [blocks_get 9 _ (fun _ => rfl) tail n k (3 * i + j) hk (by omega), ← getElem?_getD_of_lt _ _ (by omega)]
  interval_cases i <;> interval_cases j <;> rfl

theorem interlace3_length (n : ℕ) (v : ℕ → List K) : (interlace3 n v).length = n * 3 := blocks_length 3 _ (fun _ => rfl) n
theorem interlace9_length (n : ℕ) (D : ℕ → ℕ → List K) : (interlace9 n D).length = n * 9 := blocks_length 9 _ (fun _ => rfl) n

theorem getD_append_left (z t : List K) (i : ℕ) (hi : i < z.length) : (z ++ t).getD i 0 = z.getD i 0 := by
  rw [List.getD_eq_getElem?_getD, List.getD_eq_getElem?_getD, List.getElem?_append_left hi]

/-- Nodes and weights with other data after them. -/
theorem rule_tail {n : ℕ} {z w : List K} (hz : z.length = n) (hw : w.length = n) (h : BaryRule n z w) (t u : List K) : BaryRule n (z ++ t) (w ++ u) where
  pos := h.pos
  z_length := by rw [List.length_append]; omega
  bw_length := by rw [List.length_append]; omega
  distinct i hi j hj e := by
    rw [getD_append_left _ _ _ (by omega), getD_append_left _ _ _ (by omega)] at e
    exact h.distinct i hi j hj e
  weights := by
    obtain ⟨κ, hκ, hw'⟩ := h.weights
    refine ⟨κ, hκ, fun i hi => ?_⟩
    rw [getD_append_left _ _ _ (by omega), hw' i hi]
    congr 2
    refine Finset.prod_congr rfl fun j hj => ?_
    have := Finset.mem_range.1 (Finset.mem_erase.1 hj).2
    rw [getD_append_left _ _ _ (by omega), getD_append_left _ _ _ (by omega)]

/-! ### The data written -/

/-- What the kernels need of the device data. -/
structure DevOk (g : Geom3 K) (n : Fin 3 → ℕ) (z w : Fin 3 → List K) (d : Dev K) : Prop where
  n0 : d.n0 = n 0
  n1 : d.n1 = n 1
  n2 : d.n2 = n 2
  shape : d.shape = g.shape
  scaling : d.scaling = g.scaling
  z0 : ∃ t, d.buf.drop d.z0 = z 0 ++ t
  z1 : ∃ t, d.buf.drop d.z1 = z 1 ++ t
  z2 : ∃ t, d.buf.drop d.z2 = z 2 ++ t
  w0 : ∃ t, d.buf.drop d.bw0 = w 0 ++ t
  w1 : ∃ t, d.buf.drop d.bw1 = w 1 ++ t
  w2 : ∃ t, d.buf.drop d.bw2 = w 2 ++ t
  phys : ∃ t, d.buf.drop d.physvals = interlace3 (n 0 * n 1 * n 2) g.phys ++ t
  deriv : ∃ t, d.buf.drop d.physvalsDeriv = interlace9 (n 0 * n 1 * n 2) g.deriv ++ t

theorem drop_exists {α : Type*} (l a b c : List α) (k : ℕ) (e : l = a ++ (b ++ c)) (h : a.length = k) : ∃ t, l.drop k = b ++ t := by
  subst h e; exact ⟨c, List.drop_left⟩

theorem writeData_ok (g : Geom3 K) (n : Fin 3 → ℕ) (z w : Fin 3 → List K) (h : GeomOk g n z w) :
    ∃ d, writeData g = some (d, n 0 + n 1 + n 2) ∧ DevOk g n z w d := by
  unfold writeData
  rw [h.base]
  dsimp only
  rw [h.length 0, h.length 1, h.length 2, if_pos h.points, if_pos (by omega)]
  refine ⟨_, rfl, ?_⟩
  have hl : ∀ i, (z i).length = n i := h.length
  have hw : ∀ i, (w i).length = n i := h.wlength
  constructor
  · rfl
  · rfl
  · rfl
  · rfl
  · rfl
  · exact drop_exists _ [] (z 0) _ _ (by simp only [List.append_assoc, List.nil_append]; rfl) rfl
  · exact drop_exists _ (z 0) (z 1) _ _ (by simp only [List.append_assoc]; rfl) (by simp [hl] <;> omega)
  · exact drop_exists _ (z 0 ++ z 1) (z 2) _ _ (by simp only [List.append_assoc]; rfl) (by simp [hl] <;> omega)
  · exact drop_exists _ (z 0 ++ z 1 ++ z 2) (w 0) _ _ (by simp only [List.append_assoc]; rfl) (by simp [hl] <;> omega)
  · exact drop_exists _ (z 0 ++ z 1 ++ z 2 ++ w 0) (w 1) _ _ (by simp only [List.append_assoc]; rfl) (by simp [hl, hw] <;> omega)
  · exact drop_exists _ (z 0 ++ z 1 ++ z 2 ++ w 0 ++ w 1) (w 2) _ _ (by simp only [List.append_assoc]; rfl) (by simp [hl, hw] <;> omega)
  · exact drop_exists _ (z 0 ++ z 1 ++ z 2 ++ w 0 ++ w 1 ++ w 2) (interlace3 (n 0 * n 1 * n 2) g.phys) _ _ (by simp only [List.append_assoc]; rfl) (by simp [hl, hw] <;> omega)
  · exact drop_exists _ (z 0 ++ z 1 ++ z 2 ++ w 0 ++ w 1 ++ w 2 ++ interlace3 (n 0 * n 1 * n 2) g.phys) (interlace9 (n 0 * n 1 * n 2) g.deriv) [] _
      (by simp only [List.append_assoc, List.append_nil]) (by simp only [List.length_append, hl, hw, interlace3_length]; omega)

/-! ### The kernels -/

/-- The element's maps, and the implementation without memory. -/
structure Maps (K : Type*) where
  X : Fin 3 → K → K → K → K
  J : Fin 3 → Fin 3 → K → K → K → K

/-- The collapsed coordinates of a point. -/
def collapsed (code : Shape3 → ℤ) (tol : K) (shape : ℤ) (x : V3 K) : K × K × K := dispatchTo3 code tol shape x.x x.y x.z

/-- The values of a function at the collapsed coordinates. -/
def atEta (F : K → K → K → K) (eta : K × K × K) : K := F eta.1 eta.2.1 eta.2.2

/-- The nine entries of the matrix. -/
def entries (m : Maps K) (eta : K × K × K) (k : ℕ) : K := atEta (m.J (Fin.ofNat 3 (k / 3)) (Fin.ofNat 3 (k % 3))) eta

/-- The implementation without memory. -/
def pureImpl (code : Shape3 → ℤ) (tol : K) (shape : ℤ) (s : V3 K) (m : Maps K) : Impl (Dbl K) where
  initial _ := ⟨some (-2 / 10), some (-2 / 10), some (-2 / 10)⟩
  residual xi p :=
    let f : V3 (Dbl K) := match fin3 xi with
      | some x => let eta := collapsed code tol shape x
        ⟨subD (some (atEta (m.X 0) eta)) p.x, subD (some (atEta (m.X 1) eta)) p.y, subD (some (atEta (m.X 2) eta)) p.z⟩
      | none => ⟨none, none, none⟩
    (relativeErrorD s f, f)
  step xi _ f := ofFin ((fin3 xi).bind fun x => (fin3 f).bind fun f => cramerStep (entries m (collapsed code tol shape x)) x f)
  toCollapsed xi := lift3 (dispatchTo3 code tol shape) xi
  fromCollapsed eta := lift3 (dispatchFrom3 code shape) eta

theorem fin3_some {v : V3 (Dbl K)} {w : V3 K} (h : fin3 v = some w) : v = ⟨some w.x, some w.y, some w.z⟩ := by
  obtain ⟨x, y, t⟩ := v
  cases x <;> cases y <;> cases t <;> simp_all [fin3]
  subst h; exact ⟨rfl, rfl, rfl⟩

theorem dsum_none : ∀ (l : List (Dbl K)), none ∈ l → dsum l = none := by
  intro l
  induction l using List.reverseRecOn with
  | nil => simp
  | append_singleton l a ih =>
    intro h
    rw [dsum_snoc]
    rcases List.mem_append.1 h with h | h
    · rw [ih h]; rfl
    · rw [List.mem_singleton] at h
      subst h
      cases dsum l <;> rfl

/-- The weights of the nodes for a coordinate. -/
noncomputable def wts (n : ℕ) (z : List K) (coord : Dbl K) (i : ℕ) : Dbl K := coord.map fun c => (lag n z i).eval c

/-- The weights stored after a call of `newton_residual` for the point `xi`. -/
def AtPoint (code : Shape3 → ℤ) (tol : K) (d : Dev K) (xi : V3 (Dbl K)) (m : Arr K) : Prop :=
  let eta := lift3 (dispatchTo3 code tol d.shape) xi
  HoldsW d.n0 m 0 1 (wts d.n0 (d.buf.drop d.z0) eta.x) ∧ HoldsW d.n1 m (0 + d.n0) 1 (wts d.n1 (d.buf.drop d.z1) eta.y) ∧
    HoldsW d.n2 m (0 + d.n0 + d.n1) 1 (wts d.n2 (d.buf.drop d.z2) eta.z)

theorem weightsD_eq (n : ℕ) (coord : Dbl K) (z bw : List K) (off : ℕ) (m : Arr K) (h : BaryRule n z bw) (hm : off + n ≤ m.size) :
    ∃ m', weightsD n coord z bw off m = some m' ∧ Frame n (fun i => off + i * 1) m m' ∧ ∀ i < n, m'.val (off + i * 1) = wts n z coord i := by
  unfold weightsD
  cases coord with
  | none =>
    obtain ⟨m', e, hf, hv⟩ := write_loop n (fun i => off + i * 1) (fun i _ j _ h => by omega) (fun _ => (none : Dbl K)) m
      (fun i hi => by omega)
    exact ⟨m', e, hf, fun i hi => hv i hi⟩
  | some c =>
    obtain ⟨m', e, hf, hv⟩ := preprocessWeights_eq n c z bw off 1 m (by omega) h.z_length h.bw_length h.distinct (fun i hi => by omega)
    exact ⟨m', e, hf, fun i hi => by rw [hv i hi, wt_eq n z bw c h i hi]; rfl⟩

theorem weightsD3_eq {g : Geom3 K} {n : Fin 3 → ℕ} {z w : Fin 3 → List K} {d : Dev K} (hd : DevOk g n z w d) (h : GeomOk g n z w) (c0 c1 c2 : Dbl K) (m : Arr K)
    (hm : n 0 + n 1 + n 2 ≤ m.size) :
    ∃ m1 m2 m3, weightsD d.n0 c0 (d.buf.drop d.z0) (d.buf.drop d.bw0) 0 m = some m1 ∧
      weightsD d.n1 c1 (d.buf.drop d.z1) (d.buf.drop d.bw1) (0 + d.n0) m1 = some m2 ∧
      weightsD d.n2 c2 (d.buf.drop d.z2) (d.buf.drop d.bw2) (0 + d.n0 + d.n1) m2 = some m3 ∧ m3.size = m.size ∧
      HoldsW d.n0 m3 0 1 (wts d.n0 (d.buf.drop d.z0) c0) ∧ HoldsW d.n1 m3 (0 + d.n0) 1 (wts d.n1 (d.buf.drop d.z1) c1) ∧
      HoldsW d.n2 m3 (0 + d.n0 + d.n1) 1 (wts d.n2 (d.buf.drop d.z2) c2) := by
  obtain ⟨t0, e0⟩ := hd.z0
  obtain ⟨t1, e1⟩ := hd.z1
  obtain ⟨t2, e2⟩ := hd.z2
  obtain ⟨u0, v0⟩ := hd.w0
  obtain ⟨u1, v1⟩ := hd.w1
  obtain ⟨u2, v2⟩ := hd.w2
  have r0 := rule_tail (h.length 0) (h.wlength 0) (h.rule 0) t0 u0
  have r1 := rule_tail (h.length 1) (h.wlength 1) (h.rule 1) t1 u1
  have r2 := rule_tail (h.length 2) (h.wlength 2) (h.rule 2) t2 u2
  rw [← e0, ← v0, ← hd.n0] at r0
  rw [← e1, ← v1, ← hd.n1] at r1
  rw [← e2, ← v2, ← hd.n2] at r2
  have k0 := hd.n0
  have k1 := hd.n1
  have k2 := hd.n2
  obtain ⟨m1, a1, f1, x1⟩ := weightsD_eq d.n0 c0 _ _ 0 m r0 (by omega)
  obtain ⟨m2, a2, f2, x2⟩ := weightsD_eq d.n1 c1 _ _ (0 + d.n0) m1 r1 (by rw [f1.1]; omega)
  obtain ⟨m3, a3, f3, x3⟩ := weightsD_eq d.n2 c2 _ _ (0 + d.n0 + d.n1) m2 r2 (by rw [f2.1, f1.1]; omega)
  refine ⟨m1, m2, m3, a1, a2, a3, by rw [f3.1, f2.1, f1.1], fun i hi => ?_, fun i hi => ?_, fun i hi => ?_⟩
  · rw [read_ok _ _ (by rw [f3.1, f2.1, f1.1]; omega), f3.2 _ (fun j _ => by dsimp only; omega), f2.2 _ (fun j _ => by dsimp only; omega), x1 i hi]
  · rw [read_ok _ _ (by rw [f3.1, f2.1, f1.1]; omega), f3.2 _ (fun j _ => by dsimp only; omega), x2 i hi]
  · rw [read_ok _ _ (by rw [f3.1, f2.1, f1.1]; omega), x3 i hi]

/-- The interpolation of a component with the stored weights. -/
theorem eval_component {g : Geom3 K} {n : Fin 3 → ℕ} {z w : Fin 3 → List K} {d : Dev K} (hd : DevOk g n z w d) (h : GeomOk g n z w) (N f : ℕ) (p pf : List K)
    (hc : IsComponent N f (n 0 * n 1 * n 2) p pf) (F : K → K → K → K) (hF : Interpolates n z pf F) (eta : K × K × K) :
    dsum (rows3 d.n2 0 0 (fun _ => d.n1) (fun _ _ => d.n0) (term3 d.n0 d.n1 p N f (wts d.n0 (d.buf.drop d.z0) (some eta.1))
      (wts d.n1 (d.buf.drop d.z1) (some eta.2.1)) (wts d.n2 (d.buf.drop d.z2) (some eta.2.2)))) = some (atEta F eta) := by
  obtain ⟨hn, c, rfl⟩ := hF
  obtain ⟨t0, e0⟩ := hd.z0
  obtain ⟨t1, e1⟩ := hd.z1
  obtain ⟨t2, e2⟩ := hd.z2
  obtain ⟨u0, v0⟩ := hd.w0
  obtain ⟨u1, v1⟩ := hd.w1
  obtain ⟨u2, v2⟩ := hd.w2
  rw [e0, e1, e2, hd.n0, hd.n1, hd.n2]
  have r0 := rule_tail (h.length 0) (h.wlength 0) (h.rule 0) t0 u0
  have r1 := rule_tail (h.length 1) (h.wlength 1) (h.rule 1) t1 u1
  have r2 := rule_tail (h.length 2) (h.wlength 2) (h.rule 2) t2 u2
  rw [Verif.Props.C16.component3 hc, atEta, ← tensor3_exact (n 0) (n 1) (n 2) (z 0 ++ t0) (z 1 ++ t1) (z 2 ++ t2) r0.distinct r1.distinct r2.distinct c]
  refine dsum_rows3 (n 2) (fun _ => n 1) (fun _ _ => n 0) _ _ fun i2 hi2 i1 hi1 i0 hi0 => ?_
  rw [term3, wts, wts, wts, Option.map_some, Option.map_some, Option.map_some, Dbl.mul_some, Dbl.mul_some, Dbl.mul_some, Nat.mul_one, Nat.add_zero,
    Verif.Props.C15.getD_of_some (hn.2 i2 hi2 i1 hi1 i0 hi0), getD_append_left _ _ _ (by rw [h.length]; exact hi0),
    getD_append_left _ _ _ (by rw [h.length]; exact hi1), getD_append_left _ _ _ (by rw [h.length]; exact hi2)]
  congr 1; ring

/-- Coordinates that are not finite. -/
theorem eval_none (n0 n1 n2 : ℕ) (h0 : 0 < n0) (h1 : 0 < n1) (h2 : 0 < n2) (p z0 z1 z2 : List K) (N f : ℕ) :
    dsum (rows3 n2 0 0 (fun _ => n1) (fun _ _ => n0) (term3 n0 n1 p N f (wts n0 z0 none) (wts n1 z1 none) (wts n2 z2 none))) = none := by
  refine dsum_none _ ?_
  simp only [rows3, rows2_nil, List.append_nil, List.mem_flatMap, List.mem_range, List.mem_map]
  exact ⟨0, h2, 0, h1, 0, h0, rfl⟩

theorem fin9_eq (v : ℕ → Dbl K) (e : ℕ → K) (h : ∀ k < 9, v k = some (e k)) : ∃ e', fin9 v = some e' ∧ ∀ k < 9, e' k = e k := by
  unfold fin9
  rw [if_pos (by
    rw [List.all_eq_true]
    intro k hk
    rw [h k (List.mem_range.1 hk)]
    rfl)]
  exact ⟨_, rfl, fun k hk => by rw [h k hk]; rfl⟩

theorem cramerStep_congr (J J' : ℕ → K) (h : ∀ k < 9, J k = J' k) (xi f : V3 K) : cramerStep J xi f = cramerStep J' xi f := by
  unfold cramerStep
  simp only [h 0 (by omega), h 1 (by omega), h 2 (by omega), h 3 (by omega), h (3 + 0) (by omega), h (3 + 1) (by omega), h (3 + 2) (by omega), h (6 + 0) (by omega), h (6 + 1) (by omega),
    h (6 + 2) (by omega)]

/-- The implementation computes the maps and uses its local memory as it assumes. -/
theorem generic_refines (code : Shape3 → ℤ) (tol : K) (g : Geom3 K) (n : Fin 3 → ℕ) (z w : Fin 3 → List K) (h : GeomOk g n z w) (d : Dev K) (hd : DevOk g n z w d)
    (m : Maps K) (hX : ∀ i : Fin 3, Interpolates n z (g.phys i) (m.X i)) (hJ : ∀ i j : Fin 3, Interpolates n z (g.deriv i j) (m.J i j)) :
    Refines (generic3D code tol d) (pureImpl code tol g.shape g.scaling m) (fun a => n 0 + n 1 + n 2 ≤ a.size) (AtPoint code tol d) where
  initial _ := rfl
  toCollapsed _ := by simp only [generic3D, pureImpl, hd.shape]
  fromCollapsed _ := by simp only [generic3D, pureImpl, hd.shape]
  residual xi p a ha := by
    obtain ⟨tp, ep⟩ := hd.phys
    simp only [generic3D, residualM]
    obtain ⟨m1, m2, m3, e1, e2, e3, hs, v0, v1, v2⟩ := weightsD3_eq hd h (lift3 (dispatchTo3 code tol d.shape) xi).x (lift3 (dispatchTo3 code tol d.shape) xi).y
      (lift3 (dispatchTo3 code tol d.shape) xi).z a ha
    rw [e1, Option.bind_some, e2, Option.bind_some, e3, Option.bind_some]
    obtain ⟨o, eo, -, vo⟩ := computeDir210InterlacedT_eq 3 d.n0 d.n1 d.n2 (d.buf.drop d.physvals) m3 0 (0 + d.n0) (0 + d.n0 + d.n1) 1 _ _ _ ⟨3, fun _ => none⟩ v0 v1 v2
      (by rw [ep, List.length_append, interlace3_length, hd.n0, hd.n1, hd.n2]; omega) (le_refl 3)
    rw [eo, Option.map_some]
    refine ⟨m3, ?_, by rw [hs]; exact ha, v0, v1, v2⟩
    simp only [Option.some.injEq, Prod.mk.injEq, and_true]
    have hv : ∀ f < 3, o.val f = (fin3 xi).map fun x => atEta (m.X (Fin.ofNat 3 f)) (collapsed code tol g.shape x) := by
      intro f hf
      rw [vo f hf]
      cases hx : fin3 xi with
      | none =>
        simp only [lift3, hx]
        exact eval_none _ _ _ (by rw [hd.n0]; exact (h.rule 0).pos) (by rw [hd.n1]; exact (h.rule 1).pos) (by rw [hd.n2]; exact (h.rule 2).pos) _ _ _ _ _ _
      | some x =>
        simp only [lift3, hx]
        rw [ep, Option.map_some, ← hd.shape]
        refine eval_component hd h 3 f _ (g.phys f) (interlace3_component _ _ _ f hf ?_) (m.X (Fin.ofNat 3 f)) ?_ (collapsed code tol d.shape x)
        · have := h.phys (Fin.ofNat 3 f)
          rwa [show ((Fin.ofNat 3 f : Fin 3) : ℕ) = f from Nat.mod_eq_of_lt hf] at this
        · have := hX (Fin.ofNat 3 f)
          rwa [show ((Fin.ofNat 3 f : Fin 3) : ℕ) = f from Nat.mod_eq_of_lt hf] at this
    rw [hd.scaling, hv 0 (by omega), hv 1 (by omega), hv 2 (by omega)]
    simp only [pureImpl]
    cases hx : fin3 xi with
    | none => rfl
    | some x => rfl
  step xi p f a ha hat := by
    obtain ⟨tp, ep⟩ := hd.deriv
    simp only [generic3D, stepM]
    obtain ⟨v0, v1, v2⟩ := hat
    obtain ⟨o, eo, -, vo⟩ := computeDir210InterlacedT_eq 9 d.n0 d.n1 d.n2 (d.buf.drop d.physvalsDeriv) a 0 (0 + d.n0) (0 + d.n0 + d.n1) 1 _ _ _ ⟨9, fun _ => none⟩ v0 v1 v2
      (by rw [ep, List.length_append, interlace9_length, hd.n0, hd.n1, hd.n2]; omega) (le_refl 9)
    rw [eo, Option.map_some]
    simp only [pureImpl, Option.some.injEq]
    cases hx : fin3 xi with
    | none =>
      cases fin9 o.val <;> rfl
    | some x =>
      have hv : ∀ k < 9, o.val k = some (entries m (collapsed code tol g.shape x) k) := by
        intro k hk
        rw [vo k hk, ← hd.shape]
        simp only [lift3, hx]
        have hi : ((Fin.ofNat 3 (k / 3) : Fin 3) : ℕ) = k / 3 := Nat.mod_eq_of_lt (by omega)
        have hj : ((Fin.ofNat 3 (k % 3) : Fin 3) : ℕ) = k % 3 := Nat.mod_eq_of_lt (by omega)
        have hk' : k = 3 * (k / 3) + k % 3 := by omega
        have h1 := h.deriv (Fin.ofNat 3 (k / 3)) (Fin.ofNat 3 (k % 3))
        have h2 := hJ (Fin.ofNat 3 (k / 3)) (Fin.ofNat 3 (k % 3))
        rw [hi, hj] at h1 h2
        have hc := interlace9_component (n 0 * n 1 * n 2) g.deriv tp (k / 3) (k % 3) (by omega) (by omega) h1
        rw [← hk', ← ep] at hc
        exact eval_component hd h 9 k _ _ hc _ h2 (collapsed code tol d.shape x)
      obtain ⟨e', h1, h2⟩ := fin9_eq o.val _ hv
      rw [h1, Option.bind_some, Option.bind_some, Option.bind_some]
      cases hf : fin3 f with
      | none => rfl
      | some f' =>
        rw [Option.bind_some, Option.bind_some, cramerStep_congr _ _ h2]

end Verif.Lemmas.Generic3D
