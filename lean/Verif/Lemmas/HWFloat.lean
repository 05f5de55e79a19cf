import Verif.Lemmas.HWGen
import Verif.Lemmas.Accurate
import Verif.Lemmas.Rounding
import Verif.Lemmas.HWODE

/-!
# Rounding errors of a whole time step
-/

set_option linter.unusedSectionVars false

namespace Verif.Gen

open Spec Rounding Accurate

variable {h w : ℕ} [NeZero h] [NeZero w]

theorem Fld.norm_le {f : Fld h w} {r : ℝ} (hr : 0 ≤ r) (H : ∀ i j, |f i j| ≤ r) : ‖f‖ ≤ r :=
  (pi_norm_le_iff_of_nonneg hr).2 fun i => (pi_norm_le_iff_of_nonneg hr).2 fun j => H i j

theorem Fld.le_norm (f : Fld h w) (i : ZMod h) (j : ZMod w) : |f i j| ≤ ‖f‖ :=
  (norm_le_pi_norm (f i) j).trans (norm_le_pi_norm f i)

/-- a machine with unit roundoff `u` whose means and Poisson solver have a relative error of `η` -/
structure Mach (h w : ℕ) [NeZero h] [NeZero w] (dx : ℝ) (N : ℕ) (E : Fld h w →ₗ[ℝ] Fld h w) where
  u : ℝ
  R : Rounded u
  η : ℝ
  a : Fa (Rd R) h w
  u0 : 0 ≤ u
  η0 : 0 ≤ η
  small : u + η ≤ 1
  bracket : 28 * u ≤ 1
  diffuse : 12 * N * u ≤ 1
  half : a.half.val = 1 / 2
  truthy : ∀ x, a.truthy x = true ↔ x.val ≠ 0
  mean : ∀ (f : F (Rd R) h w) M, (∀ i j, |ex f i j| ≤ M) → |(a.mean f).val - avg (ex f)| ≤ η * M
  rows : ∀ (f : F (Rd R) h w) M, (∀ i j, |ex f i j| ≤ M) → ∀ j,
    |(a.rows f j).val - (∑ i, ex f i j) / (h : ℝ)| ≤ η * M
  sol : ∀ (f : F (Rd R) h w) M, (∀ i j, |ex f i j| ≤ M) → ∀ i j, |ex (a.sol f) i j - E (ex f) i j| ≤ η * M

variable {dx : ℝ} {N : ℕ} {E : Fld h w →ₗ[ℝ] Fld h w}

/-- precision of a machine -/
def Mach.δ (m : Mach h w dx N E) : ℝ := m.u + m.η

theorem Mach.δ0 (m : Mach h w dx N E) : 0 ≤ m.δ := add_nonneg m.u0 m.η0
theorem Mach.δ1 (m : Mach h w dx N E) : m.δ ≤ 1 := m.small
theorem Mach.u_le (m : Mach h w dx N E) : m.u ≤ m.δ := by have := m.η0; unfold Mach.δ; linarith
theorem Mach.η_le (m : Mach h w dx N E) : m.η ≤ m.δ := by have := m.u0; unfold Mach.δ; linarith
theorem Mach.u1 (m : Mach h w dx N E) : m.u < 1 := by have := m.bracket; linarith

theorem Mach.qf_le (m : Mach h w dx N E) (k : ℕ) (hk : 2 * k * m.u ≤ 1) : qf m.u ^ k - 1 ≤ 2 * k * m.δ := by
  refine (qf_pow_le_gam k (by linarith) m.u1).trans ?_
  unfold gam
  have := m.u_le
  have := m.u0
  rw [div_le_iff₀ (by linarith)]
  have e : 0 ≤ (k : ℝ) * m.u := by positivity
  have e2 : (k : ℝ) * m.u ≤ k * m.δ := mul_le_mul_of_nonneg_left m.u_le (by positivity)
  nlinarith

/-- values of fields, pairs and numbers -/
abbrev vF (m : Mach h w dx N E) : F (Rd m.R) h w → Fld h w := ex
abbrev vP (m : Mach h w dx N E) (t : F (Rd m.R) h w × F (Rd m.R) h w) : Fld h w × Fld h w := (ex t.1, ex t.2)
abbrev vS (m : Mach h w dx N E) : Rd m.R → ℝ := Rd.val

variable {X : Type*} [NormedAddCommGroup X] [NormedSpace ℝ X] [FiniteDimensional ℝ X]

abbrev AccF (Fn : ∀ m : Mach h w dx N E, X → F (Rd m.R) h w) (G : X → Fld h w) : Prop := Acc Mach.δ vF Fn G
abbrev AccS (Fn : ∀ m : Mach h w dx N E, X → Rd m.R) (G : X → ℝ) : Prop := Acc Mach.δ vS Fn G
abbrev AccP (Fn : ∀ m : Mach h w dx N E, X → F (Rd m.R) h w × F (Rd m.R) h w) (G : X → Fld h w × Fld h w) : Prop :=
  Acc Mach.δ vP Fn G

/-- smoothness of linear and bilinear operations on fields -/
theorem smooth_of_linear {Y Z : Type*} [NormedAddCommGroup Y] [NormedSpace ℝ Y] [FiniteDimensional ℝ Y]
    [NormedAddCommGroup Z] [NormedSpace ℝ Z] (L : Y →ₗ[ℝ] Z) : ContDiff ℝ 1 (fun y => L y) :=
  (LinearMap.toContinuousLinearMap L).contDiff

section ops

variable {Fn Fn' : ∀ m : Mach h w dx N E, X → F (Rd m.R) h w} {G G' : X → Fld h w}

theorem AccF.add (H : AccF Fn G) (H' : AccF Fn' G') :
    AccF (fun m x => addG (Fn m x) (Fn' m x)) (fun x => addG (G x) (G' x)) := by
  refine Op.comp (δ := Mach.δ) (v := fun m (t : F (Rd m.R) h w × F (Rd m.R) h w) => (ex t.1, ex t.2)) (v' := vF)
    (op := fun m t => addG t.1 t.2)
    (G' := fun y : Fld h w × Fld h w => addG y.1 y.2) ⟨?_, fun r => ⟨2 * |r|, by positivity, fun m t ht => ?_⟩⟩
    (H.prod H' Mach.δ0) Mach.δ1
  · exact (contDiff_fst.add contDiff_snd : ContDiff ℝ 1 fun y : Fld h w × Fld h w => y.1 + y.2)
  · have hr : 0 ≤ r := (norm_nonneg _).trans ht
    have h1 : ‖ex t.1‖ ≤ r := (norm_fst_le (ex t.1, ex t.2)).trans ht
    have h2 : ‖ex t.2‖ ≤ r := (norm_snd_le (ex t.1, ex t.2)).trans ht
    have := m.δ0
    refine Fld.norm_le (by positivity) fun i j => ?_
    refine (m.R.add_err (t.1 i j).val (t.2 i j).val).trans ?_
    have e1 : |(t.1 i j).val| ≤ r := (Fld.le_norm (ex t.1) i j).trans h1
    have e2 : |(t.2 i j).val| ≤ r := (Fld.le_norm (ex t.2) i j).trans h2
    rw [abs_of_nonneg hr, mul_comm _ m.δ]
    exact mul_le_mul m.u_le ((abs_add_le _ _).trans (by linarith)) (abs_nonneg _) m.δ0

theorem AccF.sub (H : AccF Fn G) (H' : AccF Fn' G') :
    AccF (fun m x => fun i j => Fn m x i j - Fn' m x i j) (fun x => fun i j => G x i j - G' x i j) := by
  refine Op.comp (δ := Mach.δ) (v := fun m (t : F (Rd m.R) h w × F (Rd m.R) h w) => (ex t.1, ex t.2)) (v' := vF)
    (op := fun m t => fun i j => t.1 i j - t.2 i j)
    (G' := fun y : Fld h w × Fld h w => fun i j => y.1 i j - y.2 i j) ⟨?_, fun r => ⟨2 * |r|, by positivity, fun m t ht => ?_⟩⟩
    (H.prod H' Mach.δ0) Mach.δ1
  · exact (contDiff_fst.sub contDiff_snd : ContDiff ℝ 1 fun y : Fld h w × Fld h w => y.1 - y.2)
  · have hr : 0 ≤ r := (norm_nonneg _).trans ht
    have h1 : ‖ex t.1‖ ≤ r := (norm_fst_le (ex t.1, ex t.2)).trans ht
    have h2 : ‖ex t.2‖ ≤ r := (norm_snd_le (ex t.1, ex t.2)).trans ht
    have := m.δ0
    refine Fld.norm_le (by positivity) fun i j => ?_
    refine (m.R.sub_err (t.1 i j).val (t.2 i j).val).trans ?_
    have e1 : |(t.1 i j).val| ≤ r := (Fld.le_norm (ex t.1) i j).trans h1
    have e2 : |(t.2 i j).val| ≤ r := (Fld.le_norm (ex t.2) i j).trans h2
    rw [abs_of_nonneg hr, mul_comm _ m.δ]
    exact mul_le_mul m.u_le ((abs_sub _ _).trans (by linarith)) (abs_nonneg _) m.δ0

theorem AccF.mul {c : ∀ m : Mach h w dx N E, X → Rd m.R} {cG : X → ℝ} (Hc : AccS c cG) (H : AccF Fn G) :
    AccF (fun m x => mulG (c m x) (Fn m x)) (fun x => mulG (cG x) (G x)) := by
  refine Op.comp (δ := Mach.δ) (v := fun m (t : Rd m.R × F (Rd m.R) h w) => (t.1.val, ex t.2)) (v' := vF)
    (op := fun m t => mulG t.1 t.2)
    (G' := fun y : ℝ × Fld h w => mulG y.1 y.2) ⟨?_, fun r => ⟨r * r, mul_self_nonneg r, fun m t ht => ?_⟩⟩
    (Hc.prod H Mach.δ0) Mach.δ1
  · exact (contDiff_fst.smul contDiff_snd : ContDiff ℝ 1 fun y : ℝ × Fld h w => y.1 • y.2)
  · have hr : 0 ≤ r := (norm_nonneg _).trans ht
    have h1 : ‖t.1.val‖ ≤ r := (norm_fst_le (t.1.val, ex t.2)).trans ht
    have h2 : ‖ex t.2‖ ≤ r := (norm_snd_le (t.1.val, ex t.2)).trans ht
    have := m.δ0
    refine Fld.norm_le (by positivity) fun i j => ?_
    refine (m.R.mul_err t.1.val (t.2 i j).val).trans ?_
    have e2 : |(t.2 i j).val| ≤ r := (Fld.le_norm (ex t.2) i j).trans h2
    rw [abs_mul, mul_comm _ m.δ]
    exact mul_le_mul m.u_le (mul_le_mul h1 e2 (abs_nonneg _) hr) (by positivity) m.δ0

/-- a scalar minus, broadcast over a field -/
theorem AccF.subMean (H : AccF Fn G) :
    AccF (fun m x => fun i j => Fn m x i j - m.a.mean (Fn m x)) (fun x => fun i j => G x i j - avg (G x)) := by
  let L : Fld h w →ₗ[ℝ] Fld h w := ⟨⟨fun y => (fun _ _ => avg y), fun y z => by
      funext i j; exact avg_add' y z⟩, fun c y => by funext i j; exact avg_smul' c y⟩
  have := Op.comp (δ := Mach.δ) (v := vF) (v' := vF)
    (op := fun m (t : F (Rd m.R) h w) => (fun _ _ => m.a.mean t : F (Rd m.R) h w))
    (G' := fun y : Fld h w => L y) ⟨smooth_of_linear _, fun r => ⟨|r|, abs_nonneg r, fun m t ht => ?_⟩⟩ H
    Mach.δ1
  · exact H.sub this
  · have hr : 0 ≤ r := (norm_nonneg _).trans ht
    have := m.δ0
    refine Fld.norm_le (by positivity) fun i j => ?_
    refine (m.mean t r fun i j => (Fld.le_norm _ i j).trans ht).trans ?_
    rw [mul_comm, abs_of_nonneg hr]
    exact mul_le_mul_of_nonneg_left m.η_le hr

theorem AccF.nz (H : AccF Fn G) : AccF (fun m x => nzG m.a (Fn m x)) (fun x => nonZonal (G x)) := by
  let L : Fld h w →ₗ[ℝ] Fld h w := ⟨⟨fun y => (fun _ j => (∑ i, y i j) / (h : ℝ)), fun y z => by
      funext i j; simp only [Pi.add_apply, Finset.sum_add_distrib, add_div]⟩, fun c y => by
      funext i j; simp only [Pi.smul_apply, smul_eq_mul, ← Finset.mul_sum, mul_div_assoc, RingHom.id_apply]⟩
  have := Op.comp (δ := Mach.δ) (v := vF) (v' := vF)
    (op := fun m (t : F (Rd m.R) h w) => (fun _ j => m.a.rows t j : F (Rd m.R) h w))
    (G' := fun y : Fld h w => L y) ⟨smooth_of_linear _, fun r => ⟨|r|, abs_nonneg r, fun m t ht => ?_⟩⟩ H
    Mach.δ1
  · exact H.sub this
  · have hr : 0 ≤ r := (norm_nonneg _).trans ht
    have := m.δ0
    refine Fld.norm_le (by positivity) fun i j => ?_
    refine (m.rows t r (fun i j => (Fld.le_norm _ i j).trans ht) j).trans ?_
    rw [mul_comm, abs_of_nonneg hr]
    exact mul_le_mul_of_nonneg_left m.η_le hr

theorem AccF.sol (H : AccF Fn G) : AccF (fun m x => m.a.sol (Fn m x)) (fun x => E (G x)) := by
  refine Op.comp (δ := Mach.δ) (v := vF) (v' := vF) (op := fun m (t : F (Rd m.R) h w) => m.a.sol t)
    (G' := fun y : Fld h w => E y) ⟨smooth_of_linear _, fun r => ⟨|r|, abs_nonneg r, fun m t ht => ?_⟩⟩ H
    Mach.δ1
  have hr : 0 ≤ r := (norm_nonneg _).trans ht
  have := m.δ0
  refine Fld.norm_le (by positivity) fun i j => ?_
  refine (m.sol t r (fun i j => (Fld.le_norm _ i j).trans ht) i j).trans ?_
  rw [mul_comm, abs_of_nonneg hr]
  exact mul_le_mul_of_nonneg_left m.η_le hr

theorem AccF.grad (hdx : dx ≠ 0) (H : AccF Fn G) :
    AccF (fun m x => gradY (⟨dx⟩ : Rd m.R) (Fn m x)) (fun x => gradY dx (G x)) := by
  let L : Fld h w →ₗ[ℝ] Fld h w := ⟨⟨fun y => gradY dx y, gradY_add dx⟩, gradY_smul dx⟩
  have hc := (LinearMap.toContinuousLinearMap L).le_opNorm
  refine Op.comp (δ := Mach.δ) (v := vF) (v' := vF) (op := fun m (t : F (Rd m.R) h w) => gradY (⟨dx⟩ : Rd m.R) t)
    (G' := fun y : Fld h w => L y) ⟨smooth_of_linear L, fun r => ⟨6 * (‖LinearMap.toContinuousLinearMap L‖ * |r|),
      by positivity, fun m t ht => ?_⟩⟩ H Mach.δ1
  have hr : 0 ≤ r := (norm_nonneg _).trans ht
  have := m.δ0
  refine Fld.norm_le (by positivity) fun i j => ?_
  refine (gradY_ap m.u0 m.u1 t (⟨dx⟩ : Rd m.R) i j hdx).trans ?_
  have e1 := m.qf_le 3 (by push_cast; linarith [m.bracket, m.u0])
  have e2 : |gradY dx (ex t) i j| ≤ ‖LinearMap.toContinuousLinearMap L‖ * |r| := by
    refine (Fld.le_norm (gradY dx (ex t)) i j).trans ((hc (ex t)).trans ?_)
    rw [abs_of_nonneg hr]
    exact mul_le_mul_of_nonneg_left ht (norm_nonneg _)
  push_cast at e1
  calc _ ≤ (2 * 3 * m.δ) * (‖LinearMap.toContinuousLinearMap L‖ * |r|) :=
        mul_le_mul e1 e2 (abs_nonneg _) (by positivity)
    _ = _ := by ring

theorem AccF.lapN (hdx : dx ≠ 0) (H : AccF Fn G) :
    AccF (fun m x => (lap (⟨dx⟩ : Rd m.R))^[N] (Fn m x)) (fun x => (lap dx)^[N] (G x)) := by
  let L : Fld h w →ₗ[ℝ] Fld h w := ⟨⟨fun y => lap dx y, lap_add dx⟩, lap_smul dx⟩
  have hL : ∀ y, (lap dx)^[N] y = (L ^ N) y := fun y => (Module.End.pow_apply L N y).symm
  refine Op.comp (δ := Mach.δ) (v := vF) (v' := vF) (op := fun m (t : F (Rd m.R) h w) => (lap (⟨dx⟩ : Rd m.R))^[N] t)
    (G' := fun y : Fld h w => (lap dx)^[N] y) ⟨?_, fun r => ⟨2 * (6 * N : ℕ) * ((8 / dx ^ 2) ^ N * |r|),
      by positivity, fun m t ht => ?_⟩⟩ H Mach.δ1
  · simp only [hL]; exact smooth_of_linear _
  have hr : 0 ≤ r := (norm_nonneg _).trans ht
  have := m.δ0
  refine Fld.norm_le (by positivity) fun i j => ?_
  refine (lap_iter_ap m.u0 m.u1 t (⟨dx⟩ : Rd m.R) hdx N (fun i j => (Fld.le_norm _ i j).trans ht) i j).trans ?_
  have e1 := m.qf_le (6 * N) (by push_cast; linarith [m.diffuse])
  rw [abs_of_nonneg hr]
  calc _ ≤ (2 * (6 * N : ℕ) * m.δ) * ((8 / dx ^ 2) ^ N * r) := mul_le_mul_of_nonneg_right e1 (by positivity)
    _ = _ := by ring

theorem AccF.bracket (hdx : dx ≠ 0) (H : AccF Fn G) (H' : AccF Fn' G') :
    AccF (fun m x => jac (⟨dx⟩ : Rd m.R) (Fn m x) (Fn' m x)) (fun x => jac dx (G x) (G' x)) := by
  let B : Fld h w →ₗ[ℝ] Fld h w →ₗ[ℝ] Fld h w := LinearMap.mk₂ ℝ (fun p v => jac dx p v)
    (fun p p' v => jac_add_left dx p p' v) (fun c p v => jac_smul_left dx c p v)
    (fun p v v' => jac_add_right dx p v v') (fun c p v => jac_smul_right dx c p v)
  refine Op.comp (δ := Mach.δ) (v := fun m (t : F (Rd m.R) h w × F (Rd m.R) h w) => (ex t.1, ex t.2)) (v' := vF)
    (op := fun m t => jac (⟨dx⟩ : Rd m.R) t.1 t.2)
    (G' := fun y : Fld h w × Fld h w => jac dx y.1 y.2) ⟨?_, fun r => ⟨28 * (2 * r * r / dx ^ 2),
      mul_nonneg (by norm_num) (div_nonneg (by nlinarith [mul_self_nonneg r]) (sq_nonneg _)), fun m t ht => ?_⟩⟩
    (F := fun m x => (Fn m x, Fn' m x)) (G := fun x => (G x, G' x)) (H.prod H' Mach.δ0) Mach.δ1
  · have e : (fun y : Fld h w × Fld h w => jac dx y.1 y.2) = fun y => B.toContinuousBilinearMap y.1 y.2 := rfl
    rw [e]
    fun_prop
  · have hr : 0 ≤ r := (norm_nonneg _).trans ht
    have h1 : ‖ex t.1‖ ≤ r := (norm_fst_le (ex t.1, ex t.2)).trans ht
    have h2 : ‖ex t.2‖ ≤ r := (norm_snd_le (ex t.1, ex t.2)).trans ht
    have := m.δ0
    refine Fld.norm_le (by positivity) fun i j => ?_
    refine (jac_ap m.u0 m.u1 t.1 t.2 (⟨dx⟩ : Rd m.R) i j hdx).trans ?_
    have e1 := m.qf_le 14 (by push_cast; linarith [m.bracket])
    have e2 := jacSize_le (dx := dx) (fun i j => (Fld.le_norm (ex t.1) i j).trans h1)
      (fun i j => (Fld.le_norm (ex t.2) i j).trans h2) i j
    push_cast at e1
    calc _ ≤ (2 * 14 * m.δ) * (2 * r * r / dx ^ 2) :=
          mul_le_mul e1 e2 (by unfold jacSize; positivity) (by positivity)
      _ = _ := by ring

theorem AccS.const (c : ℝ) : AccS (fun (m : Mach h w dx N E) (_ : X) => (⟨c⟩ : Rd m.R)) (fun _ => c) :=
  Acc.exact contDiff_const fun _ _ => rfl

theorem AccS.half : AccS (fun (m : Mach h w dx N E) (_ : X) => m.a.half) (fun _ => 1 / 2) :=
  Acc.exact contDiff_const fun m _ => m.half

theorem AccS.nat (n : ℕ) : AccS (fun (m : Mach h w dx N E) (_ : X) => ((n : ℕ) : Rd m.R)) (fun _ => (n : ℝ)) :=
  Acc.exact contDiff_const fun _ _ => rfl

theorem AccS.sixth : AccS (fun (m : Mach h w dx N E) (_ : X) => ((1 : ℕ) : Rd m.R) / ((6 : ℕ) : Rd m.R))
    (fun _ => ((1 : ℕ) : ℝ) / ((6 : ℕ) : ℝ)) := by
  refine ⟨contDiff_const, fun r => ⟨1, zero_le_one, fun m x _ => ?_⟩⟩
  have := m.R.div_err ((1 : ℕ) : ℝ) ((6 : ℕ) : ℝ) (by norm_num)
  refine this.trans ?_
  have e : |((1 : ℕ) : ℝ) / ((6 : ℕ) : ℝ)| ≤ 1 := by norm_num [abs_le]
  calc _ ≤ m.δ * 1 := mul_le_mul m.u_le e (abs_nonneg _) m.δ0
    _ = _ := by ring

end ops

/-- exact arithmetic -/
noncomputable def exFa (E : Fld h w →ₗ[ℝ] Fld h w) : Fa ℝ h w where
  half := 1 / 2
  truthy x := decide (x ≠ 0)
  mean := avg
  rows f j := (∑ i, f i j) / (h : ℝ)
  sol := E

/-- the coefficients as numbers of a machine -/
def co {u : ℝ} (R : Rounded u) (P : Coeffs ℝ) : Coeffs (Rd R) :=
  ⟨P.N, ⟨P.c1⟩, ⟨P.nu⟩, ⟨P.poisson_bracket_coeff⟩, ⟨P.kappa_coeff⟩, P.zonal⟩

section steps

variable {P : Coeffs ℝ} (hdx : dx ≠ 0) (hN : P.N = N)
variable {n o p x : ∀ m : Mach h w dx N E, X → F (Rd m.R) h w} {nG oG pG xG : X → Fld h w}
variable (Hn : AccF n nG) (Ho : AccF o oG) (Hp : AccF p pG) (Hx : AccF x xG)

include Ho in
theorem AccF.phi : AccF (fun m x => phiG m.a (o m x)) (fun x => phiG (exFa E) (oG x)) := Ho.subMean.sol

include Hn Hp in
theorem AccF.coup : AccF (fun m x => coupG m.a (co m.R P) (p m x) (n m x)) (fun x => coupG (exFa E) P (pG x) (nG x)) := by
  unfold coupG co
  cases P.zonal
  · exact Hp.sub Hn
  · exact Hp.nz.sub Hn.nz

include hdx Hx Hp Hn in
theorem AccF.br : AccF (fun m y => brG m.a (co m.R P) (⟨dx⟩ : Rd m.R) (x m y) (p m y) (n m y))
    (fun y => brG (exFa E) P dx (xG y) (pG y) (nG y)) := by
  unfold brG
  by_cases t : P.poisson_bracket_coeff = 0
  · have e1 : ∀ m : Mach h w dx N E, ¬ m.a.truthy (co m.R P).poisson_bracket_coeff = true := fun m => by
      rw [m.truthy]; exact not_not.2 t
    have e2 : ¬ (exFa E).truthy P.poisson_bracket_coeff = true := by simpa [exFa] using t
    simp only [e1, e2]
    exact Hx
  · have e1 : ∀ m : Mach h w dx N E, m.a.truthy (co m.R P).poisson_bracket_coeff = true := fun m => by
      rw [m.truthy]; exact t
    have e2 : (exFa E).truthy P.poisson_bracket_coeff = true := by simpa [exFa] using t
    simp only [e1, e2, if_true]
    exact Hx.add (AccF.mul (AccS.const (-P.poisson_bracket_coeff)) (Hp.bracket hdx Hn))

include hdx hN Hx Hn in
theorem AccF.dif : AccF (fun m y => difG m.a (co m.R P) (⟨dx⟩ : Rd m.R) (x m y) (n m y))
    (fun y => difG (exFa E) P dx (xG y) (nG y)) := by
  subst hN
  unfold difG
  by_cases t : P.nu = 0
  · have e1 : ∀ m : Mach h w dx P.N E, ¬ m.a.truthy (co m.R P).nu = true := fun m => by
      rw [m.truthy]; exact not_not.2 t
    have e2 : ¬ (exFa E).truthy P.nu = true := by simpa [exFa] using t
    simp only [e1, e2]
    exact Hx
  · have e1 : ∀ m : Mach h w dx P.N E, m.a.truthy (co m.R P).nu = true := fun m => by
      rw [m.truthy]; exact t
    have e2 : (exFa E).truthy P.nu = true := by simpa [exFa] using t
    simp only [e1, e2, if_true]
    exact Hx.add (AccF.mul (AccS.const P.nu) (Hn.lapN hdx))

include hdx Hx Hp in
theorem AccF.kap : AccF (fun m y => kapG m.a (co m.R P) (⟨dx⟩ : Rd m.R) (x m y) (p m y))
    (fun y => kapG (exFa E) P dx (xG y) (pG y)) := by
  unfold kapG
  by_cases t : P.kappa_coeff = 0
  · have e1 : ∀ m : Mach h w dx N E, ¬ m.a.truthy (co m.R P).kappa_coeff = true := fun m => by
      rw [m.truthy]; exact not_not.2 t
    have e2 : ¬ (exFa E).truthy P.kappa_coeff = true := by simpa [exFa] using t
    simp only [e1, e2]
    exact Hx
  · have e1 : ∀ m : Mach h w dx N E, m.a.truthy (co m.R P).kappa_coeff = true := fun m => by
      rw [m.truthy]; exact t
    have e2 : (exFa E).truthy P.kappa_coeff = true := by simpa [exFa] using t
    simp only [e1, e2, if_true]
    exact Hx.add (AccF.mul (AccS.const (-P.kappa_coeff)) (Hp.grad hdx))

include hdx hN Hn Ho Hp in
theorem AccF.rho : AccF (fun m y => rhoG m.a (co m.R P) (⟨dx⟩ : Rd m.R) (n m y) (o m y) (p m y))
    (fun y => rhoG (exFa E) P dx (nG y) (oG y) (pG y)) :=
  AccF.dif hdx hN Ho (AccF.br hdx Ho Hp (AccF.mul (AccS.const P.c1) (AccF.coup Hn Hp)))

include hdx hN Hn Hp in
theorem AccF.rhn : AccF (fun m y => rhnG m.a (co m.R P) (⟨dx⟩ : Rd m.R) (n m y) (p m y))
    (fun y => rhnG (exFa E) P dx (nG y) (pG y)) :=
  AccF.dif hdx hN Hn (AccF.kap hdx Hp (AccF.br hdx Hn Hp (AccF.mul (AccS.const P.c1) (AccF.coup Hn Hp))))

variable {y k : ∀ m : Mach h w dx N E, X → F (Rd m.R) h w × F (Rd m.R) h w} {yG kG : X → Fld h w × Fld h w}
variable {c dt : ∀ m : Mach h w dx N E, X → Rd m.R} {cG dtG : X → ℝ}

theorem AccP.mk (H1 : AccF n nG) (H2 : AccF o oG) : AccP (fun m z => (n m z, o m z)) (fun z => (nG z, oG z)) :=
  Acc.prod H1 H2 Mach.δ0

theorem AccP.fst (H : AccP y yG) : AccF (fun m z => (y m z).1) (fun z => (yG z).1) :=
  Op.comp (δ := Mach.δ) (v := vP) (v' := vF) (op := fun _ t => t.1) (G' := fun t => t.1)
    ⟨contDiff_fst, fun _ => ⟨0, le_rfl, fun m t _ => by simp⟩⟩ H Mach.δ1

theorem AccP.snd (H : AccP y yG) : AccF (fun m z => (y m z).2) (fun z => (yG z).2) :=
  Op.comp (δ := Mach.δ) (v := vP) (v' := vF) (op := fun _ t => t.2) (G' := fun t => t.2)
    ⟨contDiff_snd, fun _ => ⟨0, le_rfl, fun m t _ => by simp⟩⟩ H Mach.δ1

include hdx hN in
theorem AccP.slope (Hdt : AccS dt dtG) (H : AccP y yG) (Hp : AccF p pG) :
    AccP (fun m z => slopeG m.a (co m.R P) (⟨dx⟩ : Rd m.R) (dt m z) (y m z).1 (y m z).2 (p m z))
      (fun z => slopeG (exFa E) P dx (dtG z) (yG z).1 (yG z).2 (pG z)) :=
  AccP.mk (AccF.mul Hdt (AccF.rhn hdx hN H.fst Hp)) (AccF.mul Hdt (AccF.rho hdx hN H.fst H.snd Hp))

include hdx hN in
theorem AccP.slopePhi (Hdt : AccS dt dtG) (H : AccP y yG) :
    AccP (fun m z => slopePhiG m.a (co m.R P) (⟨dx⟩ : Rd m.R) (dt m z) (y m z))
      (fun z => slopePhiG (exFa E) P dx (dtG z) (yG z)) :=
  AccP.slope hdx hN Hdt H (AccF.phi H.snd)

theorem AccP.stage (Hc : AccS c cG) (H : AccP y yG) (Hk : AccP k kG) :
    AccP (fun m z => stageG (c m z) (y m z) (k m z)) (fun z => stageG (cG z) (yG z) (kG z)) :=
  AccP.mk ((AccF.mul Hc Hk.fst).add H.fst) ((AccF.mul Hc Hk.snd).add H.snd)

theorem AccP.sum (H : AccP y yG) (Hk : AccP k kG) :
    AccP (fun m z => sumG (y m z) (k m z)) (fun z => sumG (yG z) (kG z)) :=
  AccP.mk (Hk.fst.add H.fst) (Hk.snd.add H.snd)

include hdx hN in
theorem AccP.euler (Hdt : AccS dt dtG) (H : AccP y yG) (Hp : AccF p pG) :
    AccP (fun m z => eulerY m.a (co m.R P) (⟨dx⟩ : Rd m.R) (dt m z) (y m z) (p m z))
      (fun z => eulerY (exFa E) P dx (dtG z) (yG z) (pG z)) :=
  AccP.sum H (AccP.slope hdx hN Hdt H Hp)

include hdx hN in
theorem AccP.rk4 (Hdt : AccS dt dtG) (H : AccP y yG) (Hp : AccF p pG) :
    AccP (fun m z => rk4Y m.a (co m.R P) (⟨dx⟩ : Rd m.R) (dt m z) (y m z) (p m z))
      (fun z => rk4Y (exFa E) P dx (dtG z) (yG z) (pG z)) := by
  have k1 := AccP.slope (P := P) hdx hN Hdt H Hp
  have k2 := AccP.slopePhi (P := P) hdx hN Hdt (AccP.stage AccS.half H k1)
  have k3 := AccP.slopePhi (P := P) hdx hN Hdt (AccP.stage AccS.half H k2)
  have k4 := AccP.slopePhi (P := P) hdx hN Hdt (AccP.sum H k3)
  exact AccP.stage AccS.sixth H (AccP.sum (AccP.stage (AccS.nat 2) (AccP.stage (AccS.nat 2) k1 k2) k3) k4)

end steps

end Verif.Gen
