import Verif.Lemmas.Bary
import Verif.Lemmas.Expansion2

/-! The evaluation loops of the barycentric interpolation. -/

namespace Verif.Lemmas
open Verif.Model Verif.Model.Bary Verif.Model.JacobiCoeff

variable {K : Type*} [Field K] [DecidableEq K]

/-- The `f`-th function's contribution of the point `(i0, i1)`. -/
def term2 (n0 : ℕ) (p : List K) (nf f : ℕ) (w0 w1 : ℕ → Dbl K) (i1 i0 : ℕ) : Dbl K :=
  Dbl.mul (some (p.getD ((i1 * n0 + i0) * nf + f) 0)) (Dbl.mul (w0 i0) (w1 i1))

def term3 (n0 n1 : ℕ) (p : List K) (nf f : ℕ) (w0 w1 w2 : ℕ → Dbl K) (i2 i1 i0 : ℕ) : Dbl K :=
  Dbl.mul (some (p.getD ((i2 * (n0 * n1) + i1 * n0 + i0) * nf + f) 0))
    (Dbl.mul (w0 i0) (Dbl.mul (w2 i2) (w1 i1)))

/-- The weights `w` are stored from `off` on. -/
def HoldsW (n : ℕ) (d : Arr K) (off stride : ℕ) (w : ℕ → Dbl K) : Prop := ∀ i < n, d.read (off + i * stride) = some (w i)

theorem idx2_lt {n0 n1 i0 i1 : ℕ} (h0 : i0 < n0) (h1 : i1 < n1) : i1 * n0 + i0 < n0 * n1 := by
  rw [Nat.mul_comm n0]; exact block_lt h1 h0

theorem idx3_lt {n0 n1 n2 i0 i1 i2 : ℕ} (h0 : i0 < n0) (h1 : i1 < n1) (h2 : i2 < n2) :
    i2 * (n0 * n1) + i1 * n0 + i0 < n0 * n1 * n2 := by
  rw [Nat.add_assoc, Nat.mul_comm (n0 * n1) n2]; exact block_lt h2 (idx2_lt h0 h1)

theorem idxf_lt {k n nf f : ℕ} (hk : k < n) (hf : f < nf) : k * nf + f < nf * n := by
  rw [Nat.mul_comm nf]; exact block_lt hk hf

theorem computeDir10_eq (n0 n1 : ℕ) (p : List K) (d : Arr K) (off0 off1 stride : ℕ) (w0 w1 : ℕ → Dbl K)
    (h0 : HoldsW n0 d off0 stride w0) (h1 : HoldsW n1 d off1 stride w1) (hp : n0 * n1 ≤ p.length) :
    computeDir10 n0 n1 p d off0 off1 stride = some (dsum (rows2 n1 0 (fun _ => n0) (term2 n0 p 1 0 w0 w1))) := by
  unfold computeDir10
  refine forLoop_eq n1 _ (fun i1 => dsum (rows2 i1 0 (fun _ => n0) (term2 n0 p 1 0 w0 w1))) _ (by simp) fun i1 hi1 => ?_
  simp only [h1 i1 hi1, Option.bind_some]
  rw [← rows2_full i1 (fun _ => n0)]
  refine forLoop_eq n0 _ (fun i0 => dsum (rows2 i1 i0 (fun _ => n0) (term2 n0 p 1 0 w0 w1))) _ rfl fun i0 hi0 => ?_
  have := idx2_lt hi0 hi1
  rw [read_getD p _ (by omega), h0 i0 hi0, rows2_succ, dsum_snoc]
  simp only [Option.bind_some, term2, Nat.mul_one, Nat.add_zero, dmul_assoc3]

theorem computeDir210_eq (n0 n1 n2 : ℕ) (p : List K) (d : Arr K) (off0 off1 off2 stride : ℕ) (w0 w1 w2 : ℕ → Dbl K)
    (h0 : HoldsW n0 d off0 stride w0) (h1 : HoldsW n1 d off1 stride w1) (h2 : HoldsW n2 d off2 stride w2)
    (hp : n0 * n1 * n2 ≤ p.length) :
    computeDir210 n0 n1 n2 p d off0 off1 off2 stride =
      some (dsum (rows3 n2 0 0 (fun _ => n1) (fun _ _ => n0) (term3 n0 n1 p 1 0 w0 w1 w2))) := by
  unfold computeDir210
  refine forLoop_eq n2 _ (fun i2 => dsum (rows3 i2 0 0 (fun _ => n1) (fun _ _ => n0) (term3 n0 n1 p 1 0 w0 w1 w2))) _
    (by simp) fun i2 hi2 => ?_
  simp only [h2 i2 hi2, Option.bind_some]
  rw [← rows3_full' i2 (fun _ => n1) (fun _ _ => n0)]
  refine forLoop_eq n1 _ (fun i1 => dsum (rows3 i2 i1 0 (fun _ => n1) (fun _ _ => n0) (term3 n0 n1 p 1 0 w0 w1 w2))) _
    rfl fun i1 hi1 => ?_
  simp only [h1 i1 hi1, Option.bind_some]
  rw [← rows3_full i2 i1 (fun _ => n1) (fun _ _ => n0)]
  refine forLoop_eq n0 _ (fun i0 => dsum (rows3 i2 i1 i0 (fun _ => n1) (fun _ _ => n0) (term3 n0 n1 p 1 0 w0 w1 w2))) _
    rfl fun i0 hi0 => ?_
  have := idx3_lt hi0 hi1 hi2
  rw [read_getD p _ (by omega), h0 i0 hi0, rows3_succ, dsum_snoc]
  simp only [Option.bind_some, term3, Nat.mul_one, Nat.add_zero, dmul_assoc3]

/-- A loop over a local array. -/
theorem update_loop (N : ℕ) (body : ℕ → (ℕ → Dbl K) → Option (ℕ → Dbl K)) (g : ℕ → Dbl K → Dbl K)
    (hb : ∀ i < N, ∀ t, body i t = some (Function.update t i (g i (t i)))) (t : ℕ → Dbl K) :
    ∃ t', forLoop N body t = some t' ∧ (∀ i < N, t' i = g i (t i)) ∧ ∀ i, N ≤ i → t' i = t i := by
  obtain ⟨t', h1, h2, h3⟩ := forLoop_inv N body (fun k t' => (∀ i < N, t' i = if i < k then g i (t i) else t i) ∧
    ∀ i, N ≤ i → t' i = t i) t ⟨fun i _ => by simp, fun _ _ => rfl⟩ (by
      rintro k hk s ⟨hs, hs'⟩
      refine ⟨_, hb k hk s, fun i hi => ?_, fun i hi => by rw [Function.update_of_ne (by omega)]; exact hs' i hi⟩
      by_cases h : i = k
      · subst h; simp [hs i hi]
      · rw [Function.update_of_ne h, hs i hi]
        have : i < k ↔ i < k + 1 := by omega
        simp only [this])
  exact ⟨t', h1, fun i hi => by rw [h2 i hi, if_pos hi], h3⟩

theorem update_loop_imp {Q : (ℕ → Dbl K) → Prop} (N : ℕ) {body : ℕ → (ℕ → Dbl K) → Option (ℕ → Dbl K)}
    (g : ℕ → Dbl K → Dbl K) (hb : ∀ i < N, ∀ t, body i t = some (Function.update t i (g i (t i)))) (t : ℕ → Dbl K)
    (hQ : ∀ t', (∀ i < N, t' i = g i (t i)) → Q t') : ∃ t', forLoop N body t = some t' ∧ Q t' := by
  obtain ⟨t', h1, h2, _⟩ := update_loop N body g hb t
  exact ⟨t', h1, hQ t' h2⟩

theorem copy_out (N : ℕ) (tmp : ℕ → Dbl K) (output : Arr K) (ho : N ≤ output.size) :
    ∃ o, forLoop N (fun ix (o : Arr K) => o.write ix (tmp ix)) output = some o ∧ Frame N id output o ∧
      ∀ f < N, o.val f = tmp f :=
  write_loop N id (fun _ _ _ _ h => h) tmp output (fun i hi => by simp only [id]; omega)

theorem computeDir10InterlacedT_eq (N n0 n1 : ℕ) (p : List K) (d : Arr K) (off0 off1 stride : ℕ) (w0 w1 : ℕ → Dbl K)
    (output : Arr K)
    (h0 : HoldsW n0 d off0 stride w0) (h1 : HoldsW n1 d off1 stride w1) (hp : N * (n0 * n1) ≤ p.length)
    (ho : N ≤ output.size) :
    ∃ o, computeDir10InterlacedT N n0 n1 p d off0 off1 stride output = some o ∧ Frame N id output o ∧
      ∀ f < N, o.val f = dsum (rows2 n1 0 (fun _ => n0) (term2 n0 p N f w0 w1)) := by
  unfold computeDir10InterlacedT
  refine forLoop_bind_imp n1 (fun i1 (t : ℕ → Dbl K) =>
    ∀ f < N, t f = dsum (rows2 i1 0 (fun _ => n0) (term2 n0 p N f w0 w1))) (fun _ => some 0) (fun f _ => by simp) (by
      intro i1 hi1 t ht
      simp only [h1 i1 hi1, Option.bind_some]
      refine forLoop_imp n0 (fun i0 (t : ℕ → Dbl K) =>
        ∀ f < N, t f = dsum (rows2 i1 i0 (fun _ => n0) (term2 n0 p N f w0 w1))) t ht (by
          intro i0 hi0 t ht
          simp only [h0 i0 hi0, Option.bind_some]
          refine update_loop_imp N (fun f v => Dbl.add v (term2 n0 p N f w0 w1 i1 i0)) (by
            intro f hf t
            have := idxf_lt (idx2_lt hi0 hi1) hf
            rw [read_getD p _ (by omega)]
            rfl) t ?_
          intro t' v f hf
          rw [v f hf, ht f hf, rows2_succ, dsum_snoc]) ?_
      intro t' v f hf
      rw [v f hf]
      exact congrArg dsum (rows2_full i1 (fun _ => n0) _)) ?_
  intro tmp v1
  obtain ⟨o, e2, f2, v2⟩ := copy_out N tmp output ho
  exact ⟨o, e2, f2, fun f hf => by rw [v2 f hf, v1 f hf]⟩

theorem computeDir210InterlacedT_eq (N n0 n1 n2 : ℕ) (p : List K) (d : Arr K) (off0 off1 off2 stride : ℕ)
    (w0 w1 w2 : ℕ → Dbl K) (output : Arr K)
    (h0 : HoldsW n0 d off0 stride w0) (h1 : HoldsW n1 d off1 stride w1) (h2 : HoldsW n2 d off2 stride w2)
    (hp : N * (n0 * n1 * n2) ≤ p.length) (ho : N ≤ output.size) :
    ∃ o, computeDir210InterlacedT N n0 n1 n2 p d off0 off1 off2 stride output = some o ∧ Frame N id output o ∧
      ∀ f < N, o.val f = dsum (rows3 n2 0 0 (fun _ => n1) (fun _ _ => n0) (term3 n0 n1 p N f w0 w1 w2)) := by
  unfold computeDir210InterlacedT
  refine forLoop_bind_imp n2 (fun i2 (t : ℕ → Dbl K) => ∀ f < N,
    t f = dsum (rows3 i2 0 0 (fun _ => n1) (fun _ _ => n0) (term3 n0 n1 p N f w0 w1 w2))) (fun _ => some 0)
    (fun f _ => by simp) (by
      intro i2 hi2 t ht
      simp only [h2 i2 hi2, Option.bind_some]
      refine forLoop_imp n1 (fun i1 (t : ℕ → Dbl K) => ∀ f < N,
        t f = dsum (rows3 i2 i1 0 (fun _ => n1) (fun _ _ => n0) (term3 n0 n1 p N f w0 w1 w2))) t ht (by
          intro i1 hi1 t ht
          simp only [h1 i1 hi1, Option.bind_some]
          refine forLoop_imp n0 (fun i0 (t : ℕ → Dbl K) => ∀ f < N,
            t f = dsum (rows3 i2 i1 i0 (fun _ => n1) (fun _ _ => n0) (term3 n0 n1 p N f w0 w1 w2))) t ht (by
              intro i0 hi0 t ht
              simp only [h0 i0 hi0, Option.bind_some]
              refine update_loop_imp N (fun f v => Dbl.add v (term3 n0 n1 p N f w0 w1 w2 i2 i1 i0)) (by
                intro f hf t
                have := idxf_lt (idx3_lt hi0 hi1 hi2) hf
                rw [read_getD p _ (by omega)]
                rfl) t ?_
              intro t' v f hf
              rw [v f hf, ht f hf, rows3_succ, dsum_snoc]) ?_
          intro t' v f hf
          rw [v f hf]
          exact congrArg dsum (rows3_full i2 i1 (fun _ => n1) (fun _ _ => n0) _)) ?_
      intro t' v f hf
      rw [v f hf]
      exact congrArg dsum (rows3_full' i2 (fun _ => n1) (fun _ _ => n0) _)) ?_
  intro tmp v1
  obtain ⟨o, e2, f2, v2⟩ := copy_out N tmp output ho
  exact ⟨o, e2, f2, fun f hf => by rw [v2 f hf, v1 f hf]⟩

theorem computeDir10Interlaced_eq (nf n0 n1 : ℕ) (p : List K) (d : Arr K) (off0 off1 stride : ℕ) (w0 w1 : ℕ → Dbl K)
    (output : Arr K) (so : ℕ) (hso : 0 < so)
    (h0 : HoldsW n0 d off0 stride w0) (h1 : HoldsW n1 d off1 stride w1) (hp : nf * (n0 * n1) ≤ p.length)
    (ho : ∀ f < nf, f * so < output.size) :
    ∃ o, computeDir10Interlaced nf n0 n1 p d off0 off1 stride output so = some o ∧
      Frame nf (fun f => f * so) output o ∧
      ∀ f < nf, o.val (f * so) = dsum (rows2 n1 0 (fun _ => n0) (term2 n0 p nf f w0 w1)) := by
  unfold computeDir10Interlaced
  have hinj : ∀ i < nf, ∀ j < nf, i * so = j * so → i = j := fun i _ j _ h => Nat.eq_of_mul_eq_mul_right hso h
  obtain ⟨o0, e0, f0, v0⟩ := write_loop nf (fun f => f * so) hinj (fun _ => some 0) output ho
  rw [e0, Option.bind_some]
  exact forLoop_inv n1 _ (fun i1 (o : Arr K) => Frame nf (fun f => f * so) output o ∧
    ∀ f < nf, o.val (f * so) = dsum (rows2 i1 0 (fun _ => n0) (term2 n0 p nf f w0 w1))) o0
    ⟨f0, fun f hf => by rw [v0 f hf]; simp⟩ (by
      intro i1 hi1 t ht
      simp only [h1 i1 hi1, Option.bind_some]
      refine forLoop_imp n0 (fun i0 (o : Arr K) => Frame nf (fun f => f * so) output o ∧
        ∀ f < nf, o.val (f * so) = dsum (rows2 i1 i0 (fun _ => n0) (term2 n0 p nf f w0 w1))) t ht (by
          intro i0 hi0 t ht
          simp only [h0 i0 hi0, Option.bind_some]
          obtain ⟨t', e, hf', v⟩ := rmw_loop nf (fun f => f * so) hinj
            (fun f v => Dbl.add v (term2 n0 p nf f w0 w1 i1 i0)) t (fun f hf => by rw [ht.1.1]; exact ho f hf)
          refine ⟨t', ?_, ht.1.trans hf', fun f hf => ?_⟩
          · rw [← e]
            refine forLoop_congr _ _ _ _ fun f hf a => ?_
            have := idxf_lt (idx2_lt hi0 hi1) hf
            rw [read_getD p _ (by omega)]
            rfl
          · rw [v f hf, ht.2 f hf, rows2_succ, dsum_snoc]) ?_
      intro t' v
      refine ⟨v.1, fun f hf => ?_⟩
      rw [v.2 f hf]
      exact congrArg dsum (rows2_full i1 (fun _ => n0) _))

theorem computeDir210Interlaced_eq (nf n0 n1 n2 : ℕ) (p : List K) (d : Arr K) (off0 off1 off2 stride : ℕ)
    (w0 w1 w2 : ℕ → Dbl K) (output : Arr K) (so : ℕ) (hso : 0 < so)
    (h0 : HoldsW n0 d off0 stride w0) (h1 : HoldsW n1 d off1 stride w1) (h2 : HoldsW n2 d off2 stride w2)
    (hp : nf * (n0 * n1 * n2) ≤ p.length) (ho : ∀ f < nf, f * so < output.size) :
    ∃ o, computeDir210Interlaced nf n0 n1 n2 p d off0 off1 off2 stride output so = some o ∧
      Frame nf (fun f => f * so) output o ∧
      ∀ f < nf, o.val (f * so) = dsum (rows3 n2 0 0 (fun _ => n1) (fun _ _ => n0) (term3 n0 n1 p nf f w0 w1 w2)) := by
  unfold computeDir210Interlaced
  have hinj : ∀ i < nf, ∀ j < nf, i * so = j * so → i = j := fun i _ j _ h => Nat.eq_of_mul_eq_mul_right hso h
  obtain ⟨o0, e0, f0, v0⟩ := write_loop nf (fun f => f * so) hinj (fun _ => some 0) output ho
  dsimp only
  rw [e0, Option.bind_some]
  exact forLoop_inv n2 _ (fun i2 (o : Arr K) => Frame nf (fun f => f * so) output o ∧ ∀ f < nf,
    o.val (f * so) = dsum (rows3 i2 0 0 (fun _ => n1) (fun _ _ => n0) (term3 n0 n1 p nf f w0 w1 w2))) o0
    ⟨f0, fun f hf => by rw [v0 f hf]; simp⟩ (by
      intro i2 hi2 t ht
      simp only [h2 i2 hi2, Option.bind_some]
      refine forLoop_imp n1 (fun i1 (o : Arr K) => Frame nf (fun f => f * so) output o ∧ ∀ f < nf,
        o.val (f * so) = dsum (rows3 i2 i1 0 (fun _ => n1) (fun _ _ => n0) (term3 n0 n1 p nf f w0 w1 w2))) t ht (by
          intro i1 hi1 t ht
          simp only [h1 i1 hi1, Option.bind_some]
          refine forLoop_imp n0 (fun i0 (o : Arr K) => Frame nf (fun f => f * so) output o ∧ ∀ f < nf,
            o.val (f * so) = dsum (rows3 i2 i1 i0 (fun _ => n1) (fun _ _ => n0) (term3 n0 n1 p nf f w0 w1 w2))) t ht (by
              intro i0 hi0 t ht
              simp only [h0 i0 hi0, Option.bind_some]
              obtain ⟨t', e, hf', v⟩ := rmw_loop nf (fun f => f * so) hinj
                (fun f v => Dbl.add v (term3 n0 n1 p nf f w0 w1 w2 i2 i1 i0)) t
                (fun f hf => by rw [ht.1.1]; exact ho f hf)
              refine ⟨t', ?_, ht.1.trans hf', fun f hf => ?_⟩
              · rw [← e]
                refine forLoop_congr _ _ _ _ fun f hf a => ?_
                have := idxf_lt (idx3_lt hi0 hi1 hi2) hf
                rw [read_getD p _ (by omega)]
                rfl
              · rw [v f hf, ht.2 f hf, rows3_succ, dsum_snoc]) ?_
          intro t' v
          refine ⟨v.1, fun f hf => ?_⟩
          rw [v.2 f hf]
          exact congrArg dsum (rows3_full i2 i1 (fun _ => n1) (fun _ _ => n0) _)) ?_
      intro t' v
      refine ⟨v.1, fun f hf => ?_⟩
      rw [v.2 f hf]
      exact congrArg dsum (rows3_full' i2 (fun _ => n1) (fun _ _ => n0) _))

theorem readBlock_eq (N : ℕ) (d : Arr K) (base : ℕ) (g : ℕ → Dbl K → Dbl K) (w : ℕ → Dbl K)
    (h : ∀ b < N, d.read (base + b) = some (w b)) :
    ∃ r, readBlock N d base g = some r ∧ ∀ b < N, r b = g b (w b) := by
  unfold readBlock
  obtain ⟨t, e, v, _⟩ := update_loop N (fun blockx b => (d.read (base + blockx)).bind fun v =>
    some (Function.update b blockx (g blockx v))) (fun b _ => g b (w b)) (by
      intro b hb t
      simp only [h b hb, Option.bind_some]) (fun _ => none)
  exact ⟨t, e, v⟩

theorem computeDir210InterlacedBlock_eq (N nf n0 n1 n2 : ℕ) (p : List K) (d0 d1 d2 : Arr K)
    (w0 w1 w2 : ℕ → ℕ → Dbl K) (output : Arr K)
    (h0 : ∀ i < n0, ∀ b < N, d0.read (i * N + b) = some (w0 b i))
    (h1 : ∀ i < n1, ∀ b < N, d1.read (i * N + b) = some (w1 b i))
    (h2 : ∀ i < n2, ∀ b < N, d2.read (i * N + b) = some (w2 b i))
    (hp : nf * (n0 * n1 * n2) ≤ p.length) (ho : nf * N ≤ output.size) :
    ∃ o, computeDir210InterlacedBlock N nf n0 n1 n2 p d0 d1 d2 output = some o ∧ o.size = output.size ∧
      (∀ x, nf * N ≤ x → o.val x = output.val x) ∧
      ∀ f < nf, ∀ b < N, o.val (f * N + b) =
        dsum (rows3 n2 0 0 (fun _ => n1) (fun _ _ => n0) (term3 n0 n1 p nf f (w0 b) (w1 b) (w2 b))) := by
  unfold computeDir210InterlacedBlock
  obtain ⟨o0, e0, s0, f0, v0⟩ := rmw_loop2 nf N (fun f blockx o => o.write (f * N + blockx) (some 0))
    (fun _ _ _ => some 0) (fun i hi b hb a ha => write_ok _ _ _ (Nat.lt_of_lt_of_le (block_lt hi hb) ha)) output ho
  dsimp only
  rw [e0, Option.bind_some]
  exact forLoop_inv n2 _ (fun i2 (o : Arr K) => o.size = output.size ∧ (∀ x, nf * N ≤ x → o.val x = output.val x) ∧
    ∀ f < nf, ∀ b < N, o.val (f * N + b) =
      dsum (rows3 i2 0 0 (fun _ => n1) (fun _ _ => n0) (term3 n0 n1 p nf f (w0 b) (w1 b) (w2 b)))) o0
    ⟨s0, f0, fun f hf b hb => by rw [v0 f hf b hb]; simp⟩ (by
      intro i2 hi2 t ht
      obtain ⟨b2, eb2, vb2⟩ := readBlock_eq N d2 (i2 * N) (fun _ v => v) (fun b => w2 b i2) (h2 i2 hi2)
      simp only [eb2, Option.bind_some]
      refine forLoop_imp n1 (fun i1 (o : Arr K) => o.size = output.size ∧
        (∀ x, nf * N ≤ x → o.val x = output.val x) ∧ ∀ f < nf, ∀ b < N, o.val (f * N + b) =
          dsum (rows3 i2 i1 0 (fun _ => n1) (fun _ _ => n0) (term3 n0 n1 p nf f (w0 b) (w1 b) (w2 b)))) t ht (by
          intro i1 hi1 t ht
          obtain ⟨b1, eb1, vb1⟩ := readBlock_eq N d1 (i1 * N) (fun b v => Dbl.mul v (b2 b)) (fun b => w1 b i1)
            (h1 i1 hi1)
          simp only [eb1, Option.bind_some]
          refine forLoop_imp n0 (fun i0 (o : Arr K) => o.size = output.size ∧
            (∀ x, nf * N ≤ x → o.val x = output.val x) ∧ ∀ f < nf, ∀ b < N, o.val (f * N + b) =
              dsum (rows3 i2 i1 i0 (fun _ => n1) (fun _ _ => n0) (term3 n0 n1 p nf f (w0 b) (w1 b) (w2 b)))) t ht (by
              intro i0 hi0 t ht
              obtain ⟨b0, eb0, vb0⟩ := readBlock_eq N d0 (i0 * N) (fun b v => Dbl.mul v (b1 b)) (fun b => w0 b i0)
                (h0 i0 hi0)
              simp only [eb0, Option.bind_some]
              obtain ⟨t', e, s', f', v⟩ := rmw_loop2 nf N (fun f blockx (o : Arr K) =>
                  (Mem.read p (((i2 * (n0 * n1) + i1 * n0 + i0) * nf + f : ℕ) : ℤ)).bind fun funcCoeff =>
                  (o.read (f * N + blockx)).bind fun old =>
                  o.write (f * N + blockx) (Dbl.add old (Dbl.mul (b0 blockx) (some funcCoeff))))
                (fun f b v => Dbl.add v (term3 n0 n1 p nf f (w0 b) (w1 b) (w2 b) i2 i1 i0)) (by
                  intro f hf b hb a ha
                  have hlt := Nat.lt_of_lt_of_le (block_lt hf hb) ha
                  have := idxf_lt (idx3_lt hi0 hi1 hi2) hf
                  rw [read_getD p _ (by omega), read_ok _ _ hlt]
                  simp only [Option.bind_some]
                  rw [write_ok _ _ _ hlt, vb0 b hb, vb1 b hb, vb2 b hb, term3, dmul_comm _ (some _),
                    dmul_comm (w1 b i1)]) t (by omega)
              refine ⟨t', ?_, s'.trans ht.1, fun x hx => (f' x hx).trans (ht.2.1 x hx), fun f hf b hb => ?_⟩
              · rw [← e]
                refine forLoop_congr _ _ _ _ fun f hf a => ?_
                have := idxf_lt (idx3_lt hi0 hi1 hi2) hf
                rw [read_getD p _ (by omega)]
                rfl
              · rw [v f hf b hb, ht.2.2 f hf b hb, rows3_succ, dsum_snoc]) ?_
          intro t' v
          refine ⟨v.1, v.2.1, fun f hf b hb => ?_⟩
          rw [v.2.2 f hf b hb]
          exact congrArg dsum (rows3_full i2 i1 (fun _ => n1) (fun _ _ => n0) _)) ?_
      intro t' v
      refine ⟨v.1, v.2.1, fun f hf b hb => ?_⟩
      rw [v.2.2 f hf b hb]
      exact congrArg dsum (rows3_full' i2 (fun _ => n1) (fun _ _ => n0) _))

end Verif.Lemmas
