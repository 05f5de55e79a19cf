import Verif.Lemmas.Budget
import Verif.Lemmas.Modes
import Verif.Lemmas.Spectral
import Verif.Lemmas.MolStable
import Mathlib.Analysis.SpecialFunctions.ExpDeriv

/-!
# How fast the energy can grow
-/

namespace Verif

open Spec Complex

section fields
variable {h w : ℕ} [NeZero h] [NeZero w]

/-- the hyperdiffusion takes kinetic energy out -/
theorem phi_hyper_nonneg (P : Params) (hnu : 0 ≤ P.nu) (o : Fld h w) :
    0 ≤ S (fun i j => phiF P.dx o i j * hyper P o i j) := by
  set s : ZMod h → ZMod w → ℝ := fun k l =>
    sig 1 k l * P.dx ^ 2 * ((-1) ^ (P.N + 1) * P.nu * (-(fsym k l) / P.dx ^ 2) ^ P.N) with hs
  have key : (((h : ℝ) * (w : ℝ) * S (fun i j => phiF P.dx o i j * hyper P o i j) : ℝ) : ℂ)
      = ((S fun k l => s k l * ‖D (cx o) k l‖ ^ 2 : ℝ) : ℂ) := by
    rw [ofReal_mul, S_cx_mul]
    push_cast
    rw [← parseval]
    have : ((S fun k l => s k l * ‖D (cx o) k l‖ ^ 2 : ℝ) : ℂ)
        = S fun k l => ((s k l * ‖D (cx o) k l‖ ^ 2 : ℝ) : ℂ) := by
      unfold S; push_cast; rfl
    rw [this]
    refine S_congr fun k l => ?_
    rw [D_phiF, D_hyper, map_mul, conj_ofReal, hs]
    push_cast
    rw [← mul_conj']; ring
  have e : (h : ℝ) * (w : ℝ) * S (fun i j => phiF P.dx o i j * hyper P o i j)
      = S fun k l => s k l * ‖D (cx o) k l‖ ^ 2 := by exact_mod_cast key
  have pos : 0 ≤ S fun k l => s k l * ‖D (cx o) k l‖ ^ 2 := S_nonneg fun k l => by
    refine mul_nonneg ?_ (sq_nonneg _)
    have f0 : 0 ≤ fsym k l / P.dx ^ 2 := by unfold fsym; positivity
    have e1 : (-1) ^ (P.N + 1) * P.nu * (-(fsym k l) / P.dx ^ 2) ^ P.N = -(P.nu * (fsym k l / P.dx ^ 2) ^ P.N) := by
      rw [neg_div, neg_pow (fsym k l / P.dx ^ 2), pow_succ]
      have : ((-1 : ℝ) ^ P.N) * (-1) ^ P.N = 1 := by rw [← mul_pow]; norm_num
      linear_combination (-P.nu * (fsym k l / P.dx ^ 2) ^ P.N) * this
    simp only [hs]
    rw [e1]
    have a : 0 ≤ P.nu * (fsym k l / P.dx ^ 2) ^ P.N := by positivity
    have b : 0 ≤ -sig 1 k l * P.dx ^ 2 := mul_nonneg (neg_nonneg.2 (sig_one_nonpos k l)) (sq_nonneg _)
    nlinarith [mul_nonneg a b]
  rw [← e] at pos
  exact nonneg_of_mul_nonneg_right pos cardR_pos

/-- the central difference of the potential along y carries at most the kinetic energy -/
theorem gradY_phi_le {dx : ℝ} (hdx : dx ≠ 0) (o : Fld h w) :
    S (fun i j => gradY dx (phiF dx o) i j ^ 2) ≤ -S (fun i j => phiF dx o i j * o i j) := by
  have e1 : S (fun k l => -lamb k l / dx ^ 2 * ‖D (cx (phiF dx o)) k l‖ ^ 2)
      = -(dx ^ 2 * S fun k l => sig 1 k l * ‖D (cx o) k l‖ ^ 2) := by
    rw [← S_mul_left, ← S_neg]
    refine S_congr fun k l => ?_
    rw [D_phiF, norm_mul, norm_real, Real.norm_eq_abs, mul_pow, sq_abs]
    by_cases h0 : k = 0 ∧ l = 0
    · simp [sig, h0]
    · have hl : lamb k l ≠ 0 := fun e => h0 ((lamb_eq_zero k l).mp e)
      unfold sig
      rw [if_neg h0, pow_one]
      field_simp
  rw [← phiF_form] at e1
  have b := grad_sq_le dx (phiF dx o)
  rw [e1, ← mul_neg, mul_div_cancel_left₀ _ cardR_pos.ne', S_add] at b
  have c : 0 ≤ S (fun i j => gradX dx (phiF dx o) i j ^ 2) := S_nonneg fun i j => sq_nonneg _
  simp only [mul_comm (phiF dx o _ _)]
  linarith

/-- the particle flux is at most the energy -/
theorem gamN_le {dx : ℝ} (hdx : dx ≠ 0) (n o : Fld h w) :
    |gamN dx n (phiF dx o)| ≤ avg (fun i j => n i j * n i j - phiF dx o i j * o i j) / 2 := by
  have g := gradY_phi_le hdx o
  have key : |S (fun i j => n i j * gradY dx (phiF dx o) i j)|
      ≤ S (fun i j => n i j * n i j - phiF dx o i j * o i j) / 2 := by
    rw [S_sub]
    have a : 0 ≤ S (fun i j => (n i j - gradY dx (phiF dx o) i j) ^ 2) := S_nonneg fun i j => sq_nonneg _
    have b : 0 ≤ S (fun i j => (n i j + gradY dx (phiF dx o) i j) ^ 2) := S_nonneg fun i j => sq_nonneg _
    have ea : S (fun i j => (n i j - gradY dx (phiF dx o) i j) ^ 2) = S (fun i j => n i j * n i j)
        + S (fun i j => gradY dx (phiF dx o) i j ^ 2) - 2 * S (fun i j => n i j * gradY dx (phiF dx o) i j) := by
      rw [← S_mul_left, ← S_add, ← S_sub]
      exact S_congr fun i j => by ring
    have eb : S (fun i j => (n i j + gradY dx (phiF dx o) i j) ^ 2) = S (fun i j => n i j * n i j)
        + S (fun i j => gradY dx (phiF dx o) i j ^ 2) + 2 * S (fun i j => n i j * gradY dx (phiF dx o) i j) := by
      rw [← S_mul_left, ← S_add, ← S_add]
      exact S_congr fun i j => by ring
    rw [abs_le]
    constructor <;> linarith
  unfold gamN avg
  rw [abs_neg, abs_div, abs_of_pos (cardR_pos (h := h) (w := w)), div_right_comm]
  exact div_le_div_of_nonneg_right key cardR_pos.le

theorem energy_hyper_nonpos (P : Params) (hnu : 0 ≤ P.nu) (n o : Fld h w) :
    avg (fun i j => n i j * hyper P n i j - phiF P.dx o i j * hyper P o i j) ≤ 0 := by
  have a := S_hyper_le P hnu n
  have b := phi_hyper_nonneg P hnu o
  unfold avg
  rw [S_sub]
  exact div_nonpos_of_nonpos_of_nonneg (by linarith) cardR_pos.le

theorem enstrophy_hyper_nonpos (P : Params) (hnu : 0 ≤ P.nu) (n o : Fld h w) :
    avg (fun i j => (n i j - o i j) * (hyper P n i j - hyper P o i j)) ≤ 0 := by
  have := avg_hyper_nonpos P hnu (fun i j => n i j - o i j)
  simp only [hyper_sub]
  exact this

theorem gamC_nonneg {c1 : ℝ} (hc : 0 ≤ c1) (n p : Fld h w) : 0 ≤ gamC c1 n p := by
  unfold gamC avg
  exact mul_nonneg hc (div_nonneg (S_nonneg fun i j => sq_nonneg _) cardR_pos.le)

end fields

namespace ODE

open Set Metric

variable {E : Type*} [NormedAddCommGroup E] [NormedSpace ℝ E]
variable (A : E →L[ℝ] E) (B : E →L[ℝ] E →L[ℝ] E) (Q : E →L[ℝ] E →L[ℝ] ℝ)

/-- a quadratic form along the Runge–Kutta trajectory is close to that along the solution -/
theorem rk4_form [FiniteDimensional ℝ E] {T : ℝ} {Y : ℝ → E} (hT : 0 ≤ T) (hY : Solves (F A B) T Y) :
    ∃ C dt0 : ℝ, 0 ≤ C ∧ 0 < dt0 ∧ ∀ dt, 0 ≤ dt → dt ≤ dt0 → ∀ k : ℕ, k * dt ≤ T →
      |Q ((rk4 (F A B) dt)^[k] (Y 0)) ((rk4 (F A B) dt)^[k] (Y 0)) - Q (Y (k * dt)) (Y (k * dt))| ≤ C * dt ^ 4 := by
  have : ProperSpace E := FiniteDimensional.proper ℝ E
  obtain ⟨C0, d0, hC0, hd0, H⟩ := rk4_global A B hT hY
  obtain ⟨Mb, hMb⟩ := isCompact_Icc.bddAbove_image hY.continuousOn.norm
  have hY' : ∀ t ∈ Icc 0 T, ‖Y t‖ ≤ Mb := fun t ht => hMb (mem_image_of_mem _ ht)
  have cG : ContDiff ℝ 1 fun y => Q y y := by fun_prop
  obtain ⟨K, hK⟩ := (cG.locallyLipschitz.locallyLipschitzOn
      (s := closedBall (0 : E) (Mb + C0))).exists_lipschitzOnWith_of_compact (isCompact_closedBall _ _)
  refine ⟨K * C0, min d0 1, mul_nonneg K.2 hC0, lt_min hd0 one_pos, fun dt h0 h1 k hk => ?_⟩
  have b := H dt h0 (h1.trans (min_le_left _ _)) k hk
  have y := hY' (k * dt) ⟨by positivity, hk⟩
  have d4 : dt ^ 4 ≤ 1 := pow_le_one₀ h0 (h1.trans (min_le_right _ _))
  have z : ‖(rk4 (F A B) dt)^[k] (Y 0)‖ ≤ Mb + C0 := by
    have := norm_add_le ((rk4 (F A B) dt)^[k] (Y 0) - Y (k * dt)) (Y (k * dt))
    rw [sub_add_cancel] at this
    nlinarith
  have l := hK.dist_le_mul ((rk4 (F A B) dt)^[k] (Y 0)) (by simpa using z) (Y (k * dt)) (by simpa using y.trans (by linarith))
  rw [Real.dist_eq, dist_eq_norm] at l
  refine l.trans ?_
  rw [mul_assoc]
  exact mul_le_mul_of_nonneg_left b K.2

/-- a form whose rate is at most `K` times itself grows at most exponentially -/
theorem form_gronwall {T K : ℝ} {Y : ℝ → E} (hY : Solves (F A B) T Y) (hr : ∀ y, rate A B Q y ≤ K * Q y y) :
    ∀ t ∈ Icc 0 T, Q (Y t) (Y t) ≤ Real.exp (K * t) * Q (Y 0) (Y 0) := by
  have dg : ∀ t ∈ Icc 0 T, HasDerivWithinAt (fun t => Real.exp (-(K * t)) * Q (Y t) (Y t))
      (Real.exp (-(K * t)) * (rate A B Q (Y t) - K * Q (Y t) (Y t))) (Icc 0 T) t := by
    intro t ht
    have e : HasDerivWithinAt (fun t : ℝ => Real.exp (-(K * t))) (Real.exp (-(K * t)) * (-K)) (Icc 0 T) t := by
      have := (((hasDerivAt_id t).const_mul K).neg).exp
      simp only [id, mul_one] at this
      exact this.hasDerivWithinAt
    refine (e.mul (deriv_Q Q (hY t ht) (hY t ht))).congr_deriv ?_
    unfold rate
    ring
  intro t ht
  have key := image_le_of_deriv_right_le_deriv_boundary (f := fun t => Real.exp (-(K * t)) * Q (Y t) (Y t))
    (B := fun _ => Q (Y 0) (Y 0)) (B' := fun _ => 0) (a := 0) (b := T)
    (fun t ht => (dg t ht).continuousWithinAt)
    (fun t ht => ((dg t ⟨ht.1, ht.2.le⟩).mono (fun y hy => ⟨ht.1.trans hy.1, hy.2⟩ : Icc t T ⊆ Icc 0 T)).mono_of_mem_nhdsWithin
      (Icc_mem_nhdsGE ht.2))
    (by simp) continuousOn_const (fun t _ => hasDerivWithinAt_const _ _ _)
    (fun t _ => mul_nonpos_of_nonneg_of_nonpos (Real.exp_pos _).le (sub_nonpos.2 (hr _))) ht
  have e : Real.exp (K * t) * (Real.exp (-(K * t)) * Q (Y t) (Y t)) = Q (Y t) (Y t) := by
    rw [← mul_assoc, ← Real.exp_add, add_neg_cancel, Real.exp_zero, one_mul]
  rw [← e]
  exact mul_le_mul_of_nonneg_left key (Real.exp_pos _).le

/-- a form driven by another one that grows at most exponentially -/
theorem form_driven {T K : ℝ} {Y : ℝ → E} (hY : Solves (F A B) T Y) (Q' : E →L[ℝ] E →L[ℝ] ℝ)
    (hr : ∀ y, rate A B Q y ≤ K * Q y y) (hr' : ∀ y, rate A B Q' y ≤ K * Q y y) (hK : 0 ≤ K) :
    ∀ t ∈ Icc 0 T, Q' (Y t) (Y t) ≤ Q' (Y 0) (Y 0) + (Real.exp (K * t) - 1) * Q (Y 0) (Y 0) := by
  have g := form_gronwall A B Q hY hr
  intro t ht
  refine image_le_of_deriv_right_le_deriv_boundary (f := fun t => Q' (Y t) (Y t)) (f' := fun t => rate A B Q' (Y t))
    (B := fun t => Q' (Y 0) (Y 0) + (Real.exp (K * t) - 1) * Q (Y 0) (Y 0))
    (B' := fun t => K * Real.exp (K * t) * Q (Y 0) (Y 0)) (a := 0) (b := T)
    (fun t ht => (deriv_Q Q' (hY t ht) (hY t ht)).continuousWithinAt)
    (fun t ht => ((deriv_Q Q' (hY t ⟨ht.1, ht.2.le⟩) (hY t ⟨ht.1, ht.2.le⟩)).mono
      (fun y hy => ⟨ht.1.trans hy.1, hy.2⟩ : Icc t T ⊆ Icc 0 T)).mono_of_mem_nhdsWithin (Icc_mem_nhdsGE ht.2))
    (by simp) (by fun_prop) (fun t _ => ?_) (fun t ht => ?_) ht
  · have := ((((hasDerivAt_id t).const_mul K).exp.sub_const 1).mul_const (Q (Y 0) (Y 0))).const_add (Q' (Y 0) (Y 0))
    simp only [id, mul_one] at this
    exact (this.congr_deriv (by ring)).hasDerivWithinAt
  · refine (hr' _).trans ?_
    rw [mul_assoc]
    exact mul_le_mul_of_nonneg_left (g t ⟨ht.1, ht.2.le⟩) hK

end ODE

end Verif
