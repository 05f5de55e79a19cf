import Verif.Lemmas.Budget

/-!
# Quadratic forms along Runge–Kutta trajectories of which every `s`-th state is seen
-/

namespace Verif.ODE

open Set Metric Finset

variable {E : Type*} [NormedAddCommGroup E] [NormedSpace ℝ E]
variable (A : E →L[ℝ] E) (B : E →L[ℝ] E →L[ℝ] E) (Q : E →L[ℝ] E →L[ℝ] ℝ)

attribute [local irreducible] e3 e2 in
/-- `rk4_budget` with the trapezoidal rule over every `s`-th state -/
theorem rk4_budget_snaps [FiniteDimensional ℝ E] {T : ℝ} {Y : ℝ → E} (hT : 0 ≤ T) (hY : Solves (F A B) T Y) :
    ∃ C dt0 : ℝ, 0 ≤ C ∧ 0 < dt0 ∧ ∀ dt, 0 ≤ dt → dt ≤ dt0 → ∀ s : ℕ, 1 ≤ s → ∀ k : ℕ, k * (s * dt) ≤ T →
      |Q ((rk4 (F A B) dt)^[k * s] (Y 0)) ((rk4 (F A B) dt)^[k * s] (Y 0)) - Q (Y 0) (Y 0)
        - (s * dt) * ∑ j ∈ range k, (rate A B Q ((rk4 (F A B) dt)^[j * s] (Y 0))
            + rate A B Q ((rk4 (F A B) dt)^[(j + 1) * s] (Y 0))) / 2| ≤ C * (s * dt) ^ 2 := by
  have : ProperSpace E := FiniteDimensional.proper ℝ E
  obtain ⟨C0, d0, hC0, hd0, H⟩ := rk4_global A B hT hY
  have hc := hY.continuousOn
  obtain ⟨Mb, hMb⟩ := isCompact_Icc.bddAbove_image hc.norm
  have hY' : ∀ t ∈ Icc 0 T, ‖Y t‖ ≤ Mb := fun t ht => hMb (mem_image_of_mem _ ht)
  -- Lipschitz constants on a ball
  have cF : ContDiff ℝ 1 (F A B) := contDiff_F A B
  have cG : ContDiff ℝ 1 fun y => Q y y := by fun_prop
  have cR : ContDiff ℝ 1 (rate A B Q) := by
    unfold rate
    exact ((Q.contDiff.comp cF).clm_apply contDiff_id).add (Q.contDiff.clm_apply cF)
  have lip : ∀ {f : E → ℝ}, ContDiff ℝ 1 f → ∃ K : ℝ, 0 ≤ K ∧ ∀ u v : E, ‖u‖ ≤ Mb + 1 → ‖v‖ ≤ Mb + 1 →
      |f u - f v| ≤ K * ‖u - v‖ := by
    intro f hf
    obtain ⟨K, hK⟩ := (hf.locallyLipschitz.locallyLipschitzOn
      (s := closedBall (0 : E) (Mb + 1))).exists_lipschitzOnWith_of_compact (isCompact_closedBall _ _)
    refine ⟨K, K.2, fun u v hu hv => ?_⟩
    have := hK.dist_le_mul u (by simpa using hu) v (by simpa using hv)
    rwa [Real.dist_eq, dist_eq_norm] at this
  obtain ⟨KG, hKG, LG⟩ := lip cG
  obtain ⟨KR, hKR, LR⟩ := lip cR
  -- derivatives of the form along the solution
  have dY : ∀ t ∈ Icc 0 T, HasDerivWithinAt Y (e1 A B (Y t)) (Icc 0 T) t := hY
  have c2 : Continuous (e2 A B) := by unfold e2 e1 L F; fun_prop
  have c3 : Continuous (e3 A B) := by unfold e3 e2 e1 L F; fun_prop
  have c1 : Continuous (e1 A B) := by unfold e1 F; fun_prop
  let q1 : E → ℝ := fun y => Q (e1 A B y) y + Q y (e1 A B y)
  let q2 : E → ℝ := fun y => Q (e2 A B y) y + 2 * Q (e1 A B y) (e1 A B y) + Q y (e2 A B y)
  let q3 : E → ℝ := fun y => Q (e3 A B y) y + 3 * Q (e2 A B y) (e1 A B y) + 3 * Q (e1 A B y) (e2 A B y)
    + Q y (e3 A B y)
  have hq3 : Continuous q3 := by
    simp only [q3]; fun_prop
  obtain ⟨M, hM⟩ := isCompact_Icc.bddAbove_image (hq3.abs.comp_continuousOn hc)
  have hM' : ∀ t ∈ Icc 0 T, |q3 (Y t)| ≤ M := fun t ht => hM (mem_image_of_mem _ ht)
  have hM0 : 0 ≤ M := (abs_nonneg _).trans (hM' 0 ⟨le_rfl, hT⟩)
  have D1 : ∀ t ∈ Icc 0 T, HasDerivWithinAt (fun t => Q (Y t) (Y t)) (q1 (Y t)) (Icc 0 T) t :=
    fun t ht => deriv_Q Q (dY t ht) (dY t ht)
  have D2 : ∀ t ∈ Icc 0 T, HasDerivWithinAt (fun t => q1 (Y t)) (q2 (Y t)) (Icc 0 T) t := fun t ht =>
    ((deriv_Q Q (deriv_e1 (hY t ht)) (dY t ht)).add (deriv_Q Q (dY t ht) (deriv_e1 (hY t ht)))).congr_deriv
      (by simp only [q2]; ring)
  have D3 : ∀ t ∈ Icc 0 T, HasDerivWithinAt (fun t => q2 (Y t)) (q3 (Y t)) (Icc 0 T) t := fun t ht =>
    (((deriv_Q Q (deriv_e2 (hY t ht)) (dY t ht)).add
      ((deriv_Q Q (deriv_e1 (hY t ht)) (deriv_e1 (hY t ht))).const_mul 2)).add
      (deriv_Q Q (dY t ht) (deriv_e2 (hY t ht)))).congr_deriv (by simp only [q3]; ring)
  set C := KG * C0 + T * M + T * KR * C0 with hC
  refine ⟨C, min (min 1 d0) (1 / (C0 + 1)), by positivity, by positivity, fun dt hdt hle s hs k hk => ?_⟩
  have hdt1 : dt ≤ 1 := hle.trans ((min_le_left _ _).trans (min_le_left _ _))
  have hdt0 : dt ≤ d0 := hle.trans ((min_le_left _ _).trans (min_le_right _ _))
  have hdtC : C0 * dt ^ 4 ≤ 1 := by
    have h1 : dt ^ 4 ≤ dt := pow_le_of_le_one hdt hdt1 (by norm_num)
    have h2 : dt ≤ 1 / (C0 + 1) := hle.trans (min_le_right _ _)
    calc C0 * dt ^ 4 ≤ C0 * (1 / (C0 + 1)) := mul_le_mul_of_nonneg_left (h1.trans h2) hC0
      _ = C0 / (C0 + 1) := by ring
      _ ≤ 1 := by rw [div_le_one (by positivity)]; linarith
  have hs1 : (1 : ℝ) ≤ s := by exact_mod_cast hs
  obtain ⟨d, hd⟩ : ∃ d : ℝ, d = s * dt := ⟨_, rfl⟩
  rw [← hd] at hk ⊢
  have hd0 : 0 ≤ d := by rw [hd]; positivity
  have hdd : dt ≤ d := by rw [hd]; nlinarith
  obtain ⟨x, hx⟩ : ∃ x : ℕ → E, ∀ j, (rk4 (F A B) dt)^[j * s] (Y 0) = x j := ⟨_, fun _ => rfl⟩
  simp only [hx]
  have near : ∀ j ≤ k, ‖x j - Y (j * d)‖ ≤ C0 * dt ^ 4 ∧ ‖x j‖ ≤ Mb + 1 ∧ ‖Y (j * d)‖ ≤ Mb + 1 := by
    intro j hj
    have hjk : (j : ℝ) * d ≤ T :=
      (mul_le_mul_of_nonneg_right (by exact_mod_cast hj) hd0).trans hk
    have ej : ((j * s : ℕ) : ℝ) * dt = j * d := by rw [hd]; push_cast; ring
    have hn := H dt hdt hdt0 (j * s) (by rw [ej]; exact hjk)
    rw [hx, ej] at hn
    have hb := hY' (j * d) ⟨by positivity, hjk⟩
    refine ⟨hn, ?_, by linarith⟩
    have := norm_le_norm_add_norm_sub' (x j) (Y (j * d))
    linarith
  have nG := (LG _ _ (near k le_rfl).2.1 (near k le_rfl).2.2).trans
    (mul_le_mul_of_nonneg_left (near k le_rfl).1 hKG)
  have p4 : dt ^ 4 ≤ d ^ 2 :=
    (pow_le_pow_of_le_one hdt hdt1 (by norm_num : 2 ≤ 4)).trans (pow_le_pow_left₀ hdt hdd 2)
  have tr := trapezoid_sum D1 D2 D3 hM' hd0 k hk
  have nR : ∀ j ≤ k, |rate A B Q (x j) - q1 (Y (j * d))| ≤ KR * (C0 * dt ^ 4) :=
    fun j hj => (LR _ _ (near j hj).2.1 (near j hj).2.2).trans
      (mul_le_mul_of_nonneg_left (near j hj).1 hKR)
  have sumb : |∑ j ∈ range k, (rate A B Q (x j) + rate A B Q (x (j + 1))) / 2
        - ∑ j ∈ range k, (q1 (Y (j * d)) + q1 (Y ((j + 1 : ℕ) * d))) / 2| ≤ k * (KR * (C0 * dt ^ 4)) := by
    rw [← sum_sub_distrib]
    refine (abs_sum_le_sum_abs _ _).trans ?_
    have : ∀ j ∈ range k, |(rate A B Q (x j) + rate A B Q (x (j + 1))) / 2
        - (q1 (Y (j * d)) + q1 (Y ((j + 1 : ℕ) * d))) / 2| ≤ KR * (C0 * dt ^ 4) := by
      intro j hj
      have a1 := abs_le.1 (nR j (mem_range.1 hj).le)
      have a2 := abs_le.1 (nR (j + 1) (mem_range.1 hj))
      rw [abs_le]
      constructor <;> linarith [a1.1, a1.2, a2.1, a2.2]
    refine (sum_le_sum this).trans ?_
    rw [sum_const, card_range, nsmul_eq_mul]
  have s1 : d * (k * (KR * (C0 * dt ^ 4))) ≤ T * KR * C0 * d ^ 2 := by
    calc d * (k * (KR * (C0 * dt ^ 4))) = k * d * (KR * C0 * dt ^ 4) := by ring
      _ ≤ T * (KR * C0 * d ^ 2) := by gcongr
      _ = _ := by ring
  have s2 : k * (M * d ^ 3) ≤ T * M * d ^ 2 := by
    calc k * (M * d ^ 3) = k * d * (M * d ^ 2) := by ring
      _ ≤ T * (M * d ^ 2) := by gcongr
      _ = _ := by ring
  have s3 : KG * (C0 * dt ^ 4) ≤ KG * C0 * d ^ 2 := by
    rw [← mul_assoc]; exact mul_le_mul_of_nonneg_left p4 (by positivity)
  have a1 := abs_le.1 nG
  have a2 := abs_le.1 tr
  have a3 := abs_le.1 sumb
  have e : C * d ^ 2 = KG * C0 * d ^ 2 + T * M * d ^ 2 + T * KR * C0 * d ^ 2 := by rw [hC]; ring
  rw [e, abs_le]
  have u1 := mul_le_mul_of_nonneg_left a3.1 hd0
  have u2 := mul_le_mul_of_nonneg_left a3.2 hd0
  constructor <;> linarith [a1.1, a1.2, a2.1, a2.2]

end Verif.ODE
