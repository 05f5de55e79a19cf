import Verif.Lemmas.Convergence

/-!
# Quadratic invariants along Runge–Kutta trajectories

For a quadratic form `Q y y` its change over many steps is the sum of its rates, up to the error of
the trapezoidal rule.
-/

namespace Verif.ODE

open Set Metric Finset

variable {E : Type*} [NormedAddCommGroup E] [NormedSpace ℝ E]

/-- error of one trapezoidal step for a three times differentiable function -/
theorem trapezoid_step {T M : ℝ} {g g1 g2 g3 : ℝ → ℝ}
    (h1 : ∀ t ∈ Icc 0 T, HasDerivWithinAt g (g1 t) (Icc 0 T) t)
    (h2 : ∀ t ∈ Icc 0 T, HasDerivWithinAt g1 (g2 t) (Icc 0 T) t)
    (h3 : ∀ t ∈ Icc 0 T, HasDerivWithinAt g2 (g3 t) (Icc 0 T) t)
    (hM : ∀ t ∈ Icc 0 T, |g3 t| ≤ M) {a d : ℝ} (ha : 0 ≤ a) (hd : 0 ≤ d) (hT : a + d ≤ T) :
    |g (a + d) - g a - d * (g1 a + g1 (a + d)) / 2| ≤ M * d ^ 3 := by
  have hsub : Icc a (a + d) ⊆ Icc 0 T := Icc_subset_Icc ha hT
  have ma : a ∈ Icc a (a + d) := ⟨le_rfl, by linarith⟩
  have mb : a + d ∈ Icc a (a + d) := ⟨by linarith, le_rfl⟩
  have hM0 : 0 ≤ M := (abs_nonneg _).trans (hM a (hsub ma))
  have hconv : Convex ℝ (Icc a (a + d)) := convex_Icc a (a + d)
  have len : ∀ x ∈ Icc a (a + d), ∀ y ∈ Icc a (a + d), |x - y| ≤ d := by
    intro x hx y hy
    rw [abs_le]; constructor <;> linarith [hx.1, hx.2, hy.1, hy.2]
  have b2 : ∀ x ∈ Icc a (a + d), ∀ y ∈ Icc a (a + d), |g2 x - g2 y| ≤ M * d := by
    intro x hx y hy
    have := hconv.norm_image_sub_le_of_norm_hasDerivWithin_le (f := g2) (f' := g3) (C := M)
      (fun z hz => (h3 z (hsub hz)).mono hsub) (fun z hz => hM z (hsub hz)) hy hx
    exact this.trans (mul_le_mul_of_nonneg_left (len x hx y hy) hM0)
  -- `g1 x - g1 a - (x - a) g2 x` is quadratic
  have b1 : ∀ x ∈ Icc a (a + d), |g1 x - g1 a - (x - a) * g2 x| ≤ M * d ^ 2 := by
    intro x hx
    have := hconv.norm_image_sub_le_of_norm_hasDerivWithin_le (f := fun z => g1 z - z * g2 x)
      (f' := fun z => g2 z - g2 x) (C := M * d)
      (fun z hz => by
        have := ((h2 z (hsub hz)).mono hsub).sub ((hasDerivWithinAt_id z (Icc a (a + d))).mul_const (g2 x))
        exact this.congr_deriv (by simp)) (fun z hz => b2 z hz x hx) ma hx
    have e : g1 x - g1 a - (x - a) * g2 x = (g1 x - x * g2 x) - (g1 a - a * g2 x) := by ring
    rw [e]
    refine this.trans ?_
    calc M * d * ‖x - a‖ ≤ M * d * d := mul_le_mul_of_nonneg_left (len x hx a ma) (by positivity)
      _ = M * d ^ 2 := by ring
  have hψ := hconv.norm_image_sub_le_of_norm_hasDerivWithin_le
    (f := fun x => g x - (x - a) * (g1 a + g1 x) / 2)
    (f' := fun x => (g1 x - g1 a - (x - a) * g2 x) / 2) (C := M * d ^ 2)
    (fun x hx => by
      have d1 := (h1 x (hsub hx)).mono hsub
      have d2 := (h2 x (hsub hx)).mono hsub
      have d3 := (((hasDerivWithinAt_id x (Icc a (a + d))).sub_const a).mul (d2.const_add (g1 a))).div_const 2
      refine (d1.sub d3).congr_deriv ?_
      simp only [id]
      ring)
    (fun x hx => by
      rw [Real.norm_eq_abs, abs_div, abs_two]
      have := b1 x hx
      have := abs_nonneg (g1 x - g1 a - (x - a) * g2 x)
      linarith) ma mb
  simp only [sub_self, zero_mul, zero_div, sub_zero, add_sub_cancel_left, Real.norm_eq_abs, abs_of_nonneg hd]
    at hψ
  have e : g (a + d) - g a - d * (g1 a + g1 (a + d)) / 2 = g (a + d) - d * (g1 a + g1 (a + d)) / 2 - g a := by
    ring
  rw [e]
  exact hψ.trans (by rw [mul_assoc, ← pow_succ])

/-- the composite rule -/
theorem trapezoid_sum {T M : ℝ} {g g1 g2 g3 : ℝ → ℝ}
    (h1 : ∀ t ∈ Icc 0 T, HasDerivWithinAt g (g1 t) (Icc 0 T) t)
    (h2 : ∀ t ∈ Icc 0 T, HasDerivWithinAt g1 (g2 t) (Icc 0 T) t)
    (h3 : ∀ t ∈ Icc 0 T, HasDerivWithinAt g2 (g3 t) (Icc 0 T) t)
    (hM : ∀ t ∈ Icc 0 T, |g3 t| ≤ M) {d : ℝ} (hd : 0 ≤ d) (k : ℕ) (hk : k * d ≤ T) :
    |g (k * d) - g 0 - d * ∑ j ∈ range k, (g1 (j * d) + g1 ((j + 1 : ℕ) * d)) / 2| ≤ k * (M * d ^ 3) := by
  induction k with
  | zero => simp
  | succ k ih =>
    have hk' : (k : ℝ) * d + d ≤ T := by push_cast at hk; linarith
    have i := ih (by linarith)
    have s := trapezoid_step h1 h2 h3 hM (a := k * d) (by positivity) hd hk'
    have e : ((k + 1 : ℕ) : ℝ) * d = k * d + d := by push_cast; ring
    rw [sum_range_succ, e]
    have e2 : g (k * d + d) - g 0 - d * (∑ j ∈ range k, (g1 (j * d) + g1 ((j + 1 : ℕ) * d)) / 2
          + (g1 (k * d) + g1 (k * d + d)) / 2)
        = (g (k * d) - g 0 - d * ∑ j ∈ range k, (g1 (j * d) + g1 ((j + 1 : ℕ) * d)) / 2)
          + (g (k * d + d) - g (k * d) - d * (g1 (k * d) + g1 (k * d + d)) / 2) := by ring
    rw [e2]
    refine (abs_add_le _ _).trans ?_
    have : ((k + 1 : ℕ) : ℝ) * (M * d ^ 3) = k * (M * d ^ 3) + M * d ^ 3 := by push_cast; ring
    linarith

variable (A : E →L[ℝ] E) (B : E →L[ℝ] E →L[ℝ] E) (Q : E →L[ℝ] E →L[ℝ] ℝ)

/-- rate of change of `Q y y` -/
noncomputable def rate (y : E) : ℝ := Q (F A B y) y + Q y (F A B y)

section
variable {A B}
theorem deriv_Q {u v : ℝ → E} {u' v' : E} {s : Set ℝ} {t : ℝ} (hu : HasDerivWithinAt u u' s t)
    (hv : HasDerivWithinAt v v' s t) :
    HasDerivWithinAt (fun t => Q (u t) (v t)) (Q u' (v t) + Q (u t) v') s t :=
  (Q.hasFDerivAt.comp_hasDerivWithinAt t hu).clm_apply hv
end

attribute [local irreducible] e3 e2 in
/-- along every solution and every Runge–Kutta trajectory started on it -/
theorem rk4_budget [FiniteDimensional ℝ E] {T : ℝ} {Y : ℝ → E} (hT : 0 ≤ T) (hY : Solves (F A B) T Y) :
    ∃ C dt0 : ℝ, 0 ≤ C ∧ 0 < dt0 ∧ ∀ dt, 0 ≤ dt → dt ≤ dt0 → ∀ k : ℕ, k * dt ≤ T →
      |Q ((rk4 (F A B) dt)^[k] (Y 0)) ((rk4 (F A B) dt)^[k] (Y 0)) - Q (Y 0) (Y 0)
        - dt * ∑ j ∈ range k, (rate A B Q ((rk4 (F A B) dt)^[j] (Y 0))
            + rate A B Q ((rk4 (F A B) dt)^[j + 1] (Y 0))) / 2| ≤ C * dt ^ 2 ∧
      ((∀ y, rate A B Q y = 0) →
        |Q ((rk4 (F A B) dt)^[k] (Y 0)) ((rk4 (F A B) dt)^[k] (Y 0)) - Q (Y 0) (Y 0)| ≤ C * dt ^ 4) := by
  have : ProperSpace E := FiniteDimensional.proper ℝ E
  obtain ⟨C0, d0, hC0, hd0, H⟩ := rk4_global A B hT hY
  have hc := hY.continuousOn
  obtain ⟨Mb, hMb⟩ := isCompact_Icc.bddAbove_image hc.norm
  have hY' : ∀ t ∈ Icc 0 T, ‖Y t‖ ≤ Mb := fun t ht => hMb (mem_image_of_mem _ ht)
  -- Lipschitz constants on a ball
  have cF : ContDiff ℝ 1 (F A B) := contDiff_F A B
  have cG : ContDiff ℝ 1 fun y => Q y y := by fun_prop
  have cR : ContDiff ℝ 1 (rate A B Q) := by
    unfold rate
    exact ((Q.contDiff.comp cF).clm_apply contDiff_id).add (Q.contDiff.clm_apply cF)
  have lip : ∀ {f : E → ℝ}, ContDiff ℝ 1 f → ∃ K : ℝ, 0 ≤ K ∧ ∀ u v : E, ‖u‖ ≤ Mb + 1 → ‖v‖ ≤ Mb + 1 →
      |f u - f v| ≤ K * ‖u - v‖ := by
    intro f hf
    obtain ⟨K, hK⟩ := (hf.locallyLipschitz.locallyLipschitzOn
      (s := closedBall (0 : E) (Mb + 1))).exists_lipschitzOnWith_of_compact (isCompact_closedBall _ _)
    refine ⟨K, K.2, fun u v hu hv => ?_⟩
    have := hK.dist_le_mul u (by simpa using hu) v (by simpa using hv)
    rwa [Real.dist_eq, dist_eq_norm] at this
  obtain ⟨KG, hKG, LG⟩ := lip cG
  obtain ⟨KR, hKR, LR⟩ := lip cR
  -- derivatives of the form along the solution
  have dY : ∀ t ∈ Icc 0 T, HasDerivWithinAt Y (e1 A B (Y t)) (Icc 0 T) t := hY
  have c2 : Continuous (e2 A B) := by unfold e2 e1 L F; fun_prop
  have c3 : Continuous (e3 A B) := by unfold e3 e2 e1 L F; fun_prop
  have c1 : Continuous (e1 A B) := by unfold e1 F; fun_prop
  let q1 : E → ℝ := fun y => Q (e1 A B y) y + Q y (e1 A B y)
  let q2 : E → ℝ := fun y => Q (e2 A B y) y + 2 * Q (e1 A B y) (e1 A B y) + Q y (e2 A B y)
  let q3 : E → ℝ := fun y => Q (e3 A B y) y + 3 * Q (e2 A B y) (e1 A B y) + 3 * Q (e1 A B y) (e2 A B y)
    + Q y (e3 A B y)
  have hq3 : Continuous q3 := by
    simp only [q3]; fun_prop
  obtain ⟨M, hM⟩ := isCompact_Icc.bddAbove_image (hq3.abs.comp_continuousOn hc)
  have hM' : ∀ t ∈ Icc 0 T, |q3 (Y t)| ≤ M := fun t ht => hM (mem_image_of_mem _ ht)
  have hM0 : 0 ≤ M := (abs_nonneg _).trans (hM' 0 ⟨le_rfl, hT⟩)
  have D1 : ∀ t ∈ Icc 0 T, HasDerivWithinAt (fun t => Q (Y t) (Y t)) (q1 (Y t)) (Icc 0 T) t :=
    fun t ht => deriv_Q Q (dY t ht) (dY t ht)
  have D2 : ∀ t ∈ Icc 0 T, HasDerivWithinAt (fun t => q1 (Y t)) (q2 (Y t)) (Icc 0 T) t := fun t ht =>
    ((deriv_Q Q (deriv_e1 (hY t ht)) (dY t ht)).add (deriv_Q Q (dY t ht) (deriv_e1 (hY t ht)))).congr_deriv
      (by simp only [q2]; ring)
  have D3 : ∀ t ∈ Icc 0 T, HasDerivWithinAt (fun t => q2 (Y t)) (q3 (Y t)) (Icc 0 T) t := fun t ht =>
    (((deriv_Q Q (deriv_e2 (hY t ht)) (dY t ht)).add
      ((deriv_Q Q (deriv_e1 (hY t ht)) (deriv_e1 (hY t ht))).const_mul 2)).add
      (deriv_Q Q (dY t ht) (deriv_e2 (hY t ht)))).congr_deriv (by simp only [q3]; ring)
  set C := KG * C0 + T * M + T * KR * C0 with hC
  refine ⟨C, min (min 1 d0) (1 / (C0 + 1)), by positivity, by positivity, fun dt hdt hle k hk => ?_⟩
  have hdt1 : dt ≤ 1 := hle.trans ((min_le_left _ _).trans (min_le_left _ _))
  have hdt0 : dt ≤ d0 := hle.trans ((min_le_left _ _).trans (min_le_right _ _))
  have hdtC : C0 * dt ^ 4 ≤ 1 := by
    have h1 : dt ^ 4 ≤ dt := pow_le_of_le_one hdt hdt1 (by norm_num)
    have h2 : dt ≤ 1 / (C0 + 1) := hle.trans (min_le_right _ _)
    calc C0 * dt ^ 4 ≤ C0 * (1 / (C0 + 1)) := mul_le_mul_of_nonneg_left (h1.trans h2) hC0
      _ = C0 / (C0 + 1) := by ring
      _ ≤ 1 := by rw [div_le_one (by positivity)]; linarith
  have near : ∀ j ≤ k, ‖(rk4 (F A B) dt)^[j] (Y 0) - Y (j * dt)‖ ≤ C0 * dt ^ 4 ∧
      ‖(rk4 (F A B) dt)^[j] (Y 0)‖ ≤ Mb + 1 ∧ ‖Y (j * dt)‖ ≤ Mb + 1 := by
    intro j hj
    have hjk : (j : ℝ) * dt ≤ T :=
      (mul_le_mul_of_nonneg_right (by exact_mod_cast hj) hdt).trans hk
    have hn := H dt hdt hdt0 j hjk
    have hb := hY' (j * dt) ⟨by positivity, hjk⟩
    refine ⟨hn, ?_, by linarith⟩
    have := norm_le_norm_add_norm_sub' ((rk4 (F A B) dt)^[j] (Y 0)) (Y (j * dt))
    linarith
  have nG := (LG _ _ (near k le_rfl).2.1 (near k le_rfl).2.2).trans
    (mul_le_mul_of_nonneg_left (near k le_rfl).1 hKG)
  have p4 : dt ^ 4 ≤ dt ^ 2 := pow_le_pow_of_le_one hdt hdt1 (by norm_num)
  have hp4 : 0 ≤ dt ^ 4 := by positivity
  constructor
  · have tr := trapezoid_sum D1 D2 D3 hM' hdt k hk
    have nR : ∀ j ≤ k, |rate A B Q ((rk4 (F A B) dt)^[j] (Y 0)) - q1 (Y (j * dt))| ≤ KR * (C0 * dt ^ 4) :=
      fun j hj => (LR _ _ (near j hj).2.1 (near j hj).2.2).trans
        (mul_le_mul_of_nonneg_left (near j hj).1 hKR)
    have sumb : |∑ j ∈ range k, (rate A B Q ((rk4 (F A B) dt)^[j] (Y 0))
            + rate A B Q ((rk4 (F A B) dt)^[j + 1] (Y 0))) / 2
          - ∑ j ∈ range k, (q1 (Y (j * dt)) + q1 (Y ((j + 1 : ℕ) * dt))) / 2| ≤ k * (KR * (C0 * dt ^ 4)) := by
      rw [← sum_sub_distrib]
      refine (abs_sum_le_sum_abs _ _).trans ?_
      have : ∀ j ∈ range k, |(rate A B Q ((rk4 (F A B) dt)^[j] (Y 0))
            + rate A B Q ((rk4 (F A B) dt)^[j + 1] (Y 0))) / 2
          - (q1 (Y (j * dt)) + q1 (Y ((j + 1 : ℕ) * dt))) / 2| ≤ KR * (C0 * dt ^ 4) := by
        intro j hj
        have a1 := abs_le.1 (nR j (mem_range.1 hj).le)
        have a2 := abs_le.1 (nR (j + 1) (mem_range.1 hj))
        rw [abs_le]
        constructor <;> linarith [a1.1, a1.2, a2.1, a2.2]
      refine (sum_le_sum this).trans ?_
      rw [sum_const, card_range, nsmul_eq_mul]
    have s1 : dt * (k * (KR * (C0 * dt ^ 4))) ≤ T * KR * C0 * dt ^ 2 := by
      calc dt * (k * (KR * (C0 * dt ^ 4))) = k * dt * (KR * C0 * dt ^ 4) := by ring
        _ ≤ T * (KR * C0 * dt ^ 2) := by gcongr
        _ = _ := by ring
    have s2 : k * (M * dt ^ 3) ≤ T * M * dt ^ 2 := by
      calc k * (M * dt ^ 3) = k * dt * (M * dt ^ 2) := by ring
        _ ≤ T * (M * dt ^ 2) := by gcongr
        _ = _ := by ring
    have s3 : KG * (C0 * dt ^ 4) ≤ KG * C0 * dt ^ 2 := by
      rw [← mul_assoc]; exact mul_le_mul_of_nonneg_left p4 (by positivity)
    have a1 := abs_le.1 nG
    have a2 := abs_le.1 tr
    have a3 := abs_le.1 sumb
    have e : C * dt ^ 2 = KG * C0 * dt ^ 2 + T * M * dt ^ 2 + T * KR * C0 * dt ^ 2 := by rw [hC]; ring
    rw [e, abs_le]
    have u1 := mul_le_mul_of_nonneg_left a3.1 hdt
    have u2 := mul_le_mul_of_nonneg_left a3.2 hdt
    constructor <;> linarith [a1.1, a1.2, a2.1, a2.2]
  · intro h0
    have const : Q (Y (k * dt)) (Y (k * dt)) = Q (Y 0) (Y 0) := by
      have hm : (k : ℝ) * dt ∈ Icc 0 T := ⟨by positivity, hk⟩
      have := (convex_Icc 0 T).norm_image_sub_le_of_norm_hasDerivWithin_le (C := 0) D1
        (fun t _ => by
          have : q1 (Y t) = 0 := h0 (Y t)
          rw [this, norm_zero]) ⟨le_rfl, hT⟩ hm
      rw [zero_mul, norm_le_zero_iff, sub_eq_zero] at this
      exact this
    rw [← const]
    refine nG.trans ?_
    rw [← mul_assoc]
    refine mul_le_mul_of_nonneg_right ?_ hp4
    rw [hC]
    have : 0 ≤ T * M := by positivity
    have : 0 ≤ T * KR * C0 := by positivity
    linarith

end Verif.ODE
