import Verif.Lemmas.HWFloat
import Verif.Lemmas.Spectral

/-!
# Rounding errors of the physical properties
-/

set_option linter.unusedSectionVars false

namespace Verif.Gen

open Spec Rounding Accurate

variable {h w : ℕ} [NeZero h] [NeZero w] {dx : ℝ} {N : ℕ} {E : Fld h w →ₗ[ℝ] Fld h w}
variable {X : Type*} [NormedAddCommGroup X] [NormedSpace ℝ X] [FiniteDimensional ℝ X]
variable {Fn Fn' : ∀ m : Mach h w dx N E, X → F (Rd m.R) h w} {G G' : X → Fld h w}
variable {c c' : ∀ m : Mach h w dx N E, X → Rd m.R} {cG cG' : X → ℝ}

theorem contDiff_entry (i : ZMod h) (j : ZMod w) : ContDiff ℝ 1 fun f : Fld h w => f i j :=
  smooth_of_linear (Y := Fld h w) (Z := ℝ) ⟨⟨fun f => f i j, fun _ _ => rfl⟩, fun _ _ => rfl⟩

theorem contDiff_fld {G : X → Fld h w} (H : ∀ i j, ContDiff ℝ 1 fun x => G x i j) : ContDiff ℝ 1 G :=
  contDiff_pi.2 fun i => contDiff_pi.2 fun j => H i j

theorem AccF.mulF (H : AccF Fn G) (H' : AccF Fn' G') :
    AccF (fun m x => fun i j => Fn m x i j * Fn' m x i j) (fun x => fun i j => G x i j * G' x i j) := by
  refine Op.comp (δ := Mach.δ) (v := fun m (t : F (Rd m.R) h w × F (Rd m.R) h w) => (ex t.1, ex t.2)) (v' := vF)
    (op := fun m t => fun i j => t.1 i j * t.2 i j)
    (G' := fun y : Fld h w × Fld h w => fun i j => y.1 i j * y.2 i j)
    ⟨?_, fun r => ⟨r * r, mul_self_nonneg r, fun m t ht => ?_⟩⟩ (H.prod H' Mach.δ0) Mach.δ1
  · exact contDiff_fld fun i j => ((contDiff_entry i j).comp contDiff_fst).mul ((contDiff_entry i j).comp contDiff_snd)
  · have hr : 0 ≤ r := (norm_nonneg _).trans ht
    have h1 : ‖ex t.1‖ ≤ r := (norm_fst_le (ex t.1, ex t.2)).trans ht
    have h2 : ‖ex t.2‖ ≤ r := (norm_snd_le (ex t.1, ex t.2)).trans ht
    have := m.δ0
    refine Fld.norm_le (by positivity) fun i j => ?_
    refine (m.R.mul_err (t.1 i j).val (t.2 i j).val).trans ?_
    have e1 : |(t.1 i j).val| ≤ r := (Fld.le_norm (ex t.1) i j).trans h1
    have e2 : |(t.2 i j).val| ≤ r := (Fld.le_norm (ex t.2) i j).trans h2
    rw [abs_mul, mul_comm _ m.δ]
    exact mul_le_mul m.u_le (mul_le_mul e1 e2 (abs_nonneg _) hr) (by positivity) m.δ0

theorem AccF.sq (H : AccF Fn G) :
    AccF (fun m x => fun i j => Fn m x i j ^ 2) (fun x => fun i j => G x i j ^ 2) := by
  refine Op.comp (δ := Mach.δ) (v := vF) (v' := vF) (op := fun m (t : F (Rd m.R) h w) => (fun i j => t i j ^ 2 : F (Rd m.R) h w))
    (G' := fun y : Fld h w => fun i j => y i j ^ 2) ⟨?_, fun r => ⟨r ^ 2, sq_nonneg r, fun m t ht => ?_⟩⟩ H Mach.δ1
  · exact contDiff_fld fun i j => (contDiff_entry i j).pow 2
  · have hr : 0 ≤ r := (norm_nonneg _).trans ht
    have := m.δ0
    refine Fld.norm_le (by positivity) fun i j => ?_
    refine (m.R.pow_err (t i j).val).trans ?_
    have e1 : |(t i j).val| ≤ r := (Fld.le_norm (ex t) i j).trans ht
    rw [abs_pow, mul_comm _ m.δ]
    exact mul_le_mul m.u_le (pow_le_pow_left₀ (abs_nonneg _) e1 2) (by positivity) m.δ0

theorem AccF.gradX (hdx : dx ≠ 0) (H : AccF Fn G) :
    AccF (fun m x => Spec.gradX (⟨dx⟩ : Rd m.R) (Fn m x)) (fun x => Spec.gradX dx (G x)) := by
  let L : Fld h w →ₗ[ℝ] Fld h w := ⟨⟨fun y => Spec.gradX dx y, fun y z => by
      funext i j; simp only [Spec.gradX, Pi.add_apply]; ring⟩, fun a y => by
      funext i j; simp only [Spec.gradX, Pi.smul_apply, smul_eq_mul, RingHom.id_apply]; ring⟩
  have hc := (LinearMap.toContinuousLinearMap L).le_opNorm
  refine Op.comp (δ := Mach.δ) (v := vF) (v' := vF) (op := fun m (t : F (Rd m.R) h w) => Spec.gradX (⟨dx⟩ : Rd m.R) t)
    (G' := fun y : Fld h w => L y) ⟨smooth_of_linear L, fun r => ⟨6 * (‖LinearMap.toContinuousLinearMap L‖ * |r|),
      by positivity, fun m t ht => ?_⟩⟩ H Mach.δ1
  have hr : 0 ≤ r := (norm_nonneg _).trans ht
  have := m.δ0
  refine Fld.norm_le (by positivity) fun i j => ?_
  refine (gradX_ap m.u0 m.u1 t (⟨dx⟩ : Rd m.R) i j hdx).trans ?_
  have e1 := m.qf_le 3 (by push_cast; linarith [m.bracket, m.u0])
  have e2 : |Spec.gradX dx (ex t) i j| ≤ ‖LinearMap.toContinuousLinearMap L‖ * |r| := by
    refine (Fld.le_norm (Spec.gradX dx (ex t)) i j).trans ((hc (ex t)).trans ?_)
    rw [abs_of_nonneg hr]
    exact mul_le_mul_of_nonneg_left ht (norm_nonneg _)
  push_cast at e1
  calc _ ≤ (2 * 3 * m.δ) * (‖LinearMap.toContinuousLinearMap L‖ * |r|) :=
        mul_le_mul e1 e2 (abs_nonneg _) (by positivity)
    _ = _ := by ring

theorem AccS.mean (H : AccF Fn G) : AccS (fun m x => m.a.mean (Fn m x)) (fun x => avg (G x)) := by
  let L : Fld h w →ₗ[ℝ] ℝ := ⟨⟨fun y => avg y, avg_add'⟩, avg_smul'⟩
  refine Op.comp (δ := Mach.δ) (v := vF) (v' := vS) (op := fun m (t : F (Rd m.R) h w) => m.a.mean t)
    (G' := fun y : Fld h w => L y) ⟨smooth_of_linear _, fun r => ⟨|r|, abs_nonneg r, fun m t ht => ?_⟩⟩ H
    Mach.δ1
  have hr : 0 ≤ r := (norm_nonneg _).trans ht
  refine (m.mean t r fun i j => (Fld.le_norm _ i j).trans ht).trans ?_
  rw [mul_comm, abs_of_nonneg hr]
  exact mul_le_mul_of_nonneg_left m.η_le hr

theorem AccS.neg (H : AccS c cG) : AccS (fun m x => -c m x) (fun x => -cG x) :=
  Op.comp (δ := Mach.δ) (v := vS) (v' := vS) (op := fun m (t : Rd m.R) => -t) (G' := fun y : ℝ => -y)
    ⟨contDiff_neg, fun _ => ⟨0, le_rfl, fun m t _ => by
      rw [show vS m (-t) = -vS m t from rfl, sub_self, norm_zero, zero_mul]⟩⟩ H Mach.δ1

theorem AccS.mul (H : AccS c cG) (H' : AccS c' cG') : AccS (fun m x => c m x * c' m x) (fun x => cG x * cG' x) := by
  refine Op.comp (δ := Mach.δ) (v := fun m (t : Rd m.R × Rd m.R) => (t.1.val, t.2.val)) (v' := vS)
    (op := fun m t => t.1 * t.2) (G' := fun y : ℝ × ℝ => y.1 * y.2)
    ⟨contDiff_fst.mul contDiff_snd, fun r => ⟨r * r, mul_self_nonneg r, fun m t ht => ?_⟩⟩ (H.prod H' Mach.δ0) Mach.δ1
  have hr : 0 ≤ r := (norm_nonneg _).trans ht
  have h1 : |t.1.val| ≤ r := (norm_fst_le (t.1.val, t.2.val)).trans ht
  have h2 : |t.2.val| ≤ r := (norm_snd_le (t.1.val, t.2.val)).trans ht
  refine (m.R.mul_err t.1.val t.2.val).trans ?_
  rw [abs_mul, mul_comm _ m.δ]
  exact mul_le_mul m.u_le (mul_le_mul h1 h2 (abs_nonneg _) hr) (by positivity) m.δ0

theorem AccS.halve (H : AccS c cG) : AccS (fun m x => c m x / ((2 : ℕ) : Rd m.R)) (fun x => cG x / 2) := by
  refine Op.comp (δ := Mach.δ) (v := vS) (v' := vS) (op := fun m (t : Rd m.R) => t / ((2 : ℕ) : Rd m.R))
    (G' := fun y : ℝ => y / 2) ⟨contDiff_id.div_const 2, fun r => ⟨|r|, abs_nonneg r, fun m t ht => ?_⟩⟩ H Mach.δ1
  have hr : 0 ≤ r := (norm_nonneg _).trans ht
  have h1 : |t.val| ≤ r := ht
  have := m.R.div_err t.val ((2 : ℕ) : ℝ) (by norm_num)
  have e : |t.val / ((2 : ℕ) : ℝ)| ≤ r := by
    rw [abs_div]
    norm_num
    linarith
  rw [abs_of_nonneg hr, mul_comm]
  push_cast at this e
  exact this.trans (mul_le_mul m.u_le e (abs_nonneg _) m.δ0)

/-- the entries of the Fourier transform depend smoothly on the field -/
theorem contDiff_dft (k : ZMod h) (l : ZMod w) : ContDiff ℝ 1 fun f : Fld h w => D (cx f) k l := by
  unfold D S cx
  refine ContDiff.sum fun i _ => ContDiff.sum fun j _ => ContDiff.mul ?_ contDiff_const
  exact Complex.ofRealCLM.contDiff.comp (contDiff_entry i j)

end Verif.Gen
