import Verif.Lemmas.RK4
import Mathlib.Analysis.ODE.ExistUnique
import Mathlib.Analysis.SpecialFunctions.SmoothTransition
import Mathlib.Analysis.Calculus.Deriv.MeanValue
import Mathlib.Analysis.SpecialFunctions.ExpDeriv
import Mathlib.Analysis.Normed.Module.FiniteDimension

/-!
# Convergence of the Runge–Kutta and Euler methods, and existence of exact solutions
-/

namespace Verif.ODE

open Set Metric

variable {E : Type*} [NormedAddCommGroup E] [NormedSpace ℝ E]

/-- a one-step method `y ↦ y + dt · inc dt y` of local order `r + 1` along a solution, with a smooth
increment function: started near the solution it stays within a constant times the initial error plus
`dt^r` -/
theorem one_step_global' [FiniteDimensional ℝ E] {T : ℝ} {Y : ℝ → E} (hT : 0 ≤ T)
    (hc : ContinuousOn Y (Icc 0 T)) (inc : ℝ × E → E) (hinc : ContDiff ℝ 1 inc) (r : ℕ) (hr : 0 < r)
    (hloc : ∃ C, 0 ≤ C ∧ ∀ t dt, 0 ≤ t → 0 ≤ dt → t + dt ≤ T →
      ‖(Y t + dt • inc (dt, Y t)) - Y (t + dt)‖ ≤ C * dt ^ (r + 1)) :
    ∃ C δ : ℝ, 0 ≤ C ∧ 0 < δ ∧ ∀ dt, 0 ≤ dt → dt ≤ δ → ∀ (t0 : ℝ) (z0 : E), 0 ≤ t0 → ‖z0 - Y t0‖ ≤ δ →
      ∀ k : ℕ, t0 + k * dt ≤ T →
      ‖(fun y => y + dt • inc (dt, y))^[k] z0 - Y (t0 + k * dt)‖ ≤ C * (‖z0 - Y t0‖ + dt ^ r) := by
  have : ProperSpace E := FiniteDimensional.proper ℝ E
  obtain ⟨C0, hC0, hl⟩ := hloc
  obtain ⟨M, hM⟩ := isCompact_Icc.bddAbove_image hc.norm
  have hM' : ∀ t ∈ Icc 0 T, ‖Y t‖ ≤ M := fun t ht => hM (mem_image_of_mem _ ht)
  obtain ⟨K, hK⟩ := (hinc.locallyLipschitz.locallyLipschitzOn
    (s := Icc (0 : ℝ) 1 ×ˢ closedBall (0 : E) (M + 1))).exists_lipschitzOnWith_of_compact
      (isCompact_Icc.prod (isCompact_closedBall _ _))
  have hLip : ∀ dt ∈ Icc (0 : ℝ) 1, ∀ u v : E, ‖u‖ ≤ M + 1 → ‖v‖ ≤ M + 1 →
      ‖inc (dt, u) - inc (dt, v)‖ ≤ K * ‖u - v‖ := by
    intro dt hdt u v hu hv
    have := hK.dist_le_mul (dt, u) ⟨hdt, by simpa using hu⟩ (dt, v) ⟨hdt, by simpa using hv⟩
    rw [dist_eq_norm] at this
    refine this.trans_eq ?_
    rw [Prod.dist_eq, dist_self, dist_eq_norm, max_eq_right (norm_nonneg _)]
  set Q := (1 + C0 * T) * Real.exp (K * T) with hQ
  have hQ0 : 0 ≤ Q := by positivity
  refine ⟨Q, min 1 (1 / (2 * (Q + 1))), hQ0, by positivity, fun dt h0 hdt t0 z0 ht0 hz k => ?_⟩
  have hd1 : dt ≤ 1 := hdt.trans (min_le_left _ _)
  set d := ‖z0 - Y t0‖ with hd
  have hd0 : 0 ≤ d := norm_nonneg _
  have hd2 : Q * (d + dt ^ r) ≤ 1 := by
    have h1 : dt ^ r ≤ dt := pow_le_of_le_one h0 hd1 hr.ne'
    have h2 : dt ≤ 1 / (2 * (Q + 1)) := hdt.trans (min_le_right _ _)
    have h3 : d ≤ 1 / (2 * (Q + 1)) := hz.trans (min_le_right _ _)
    calc Q * (d + dt ^ r) ≤ Q * (1 / (2 * (Q + 1)) + 1 / (2 * (Q + 1))) :=
          mul_le_mul_of_nonneg_left (by linarith) hQ0
      _ = Q / (Q + 1) := by field_simp; ring
      _ ≤ 1 := by rw [div_le_one (by positivity)]; linarith
  have hbd : ∀ k : ℕ, t0 + k * dt ≤ T →
      (d + C0 * dt ^ (r + 1) * k) * Real.exp (K * (k * dt)) ≤ Q * (d + dt ^ r) := by
    intro k hk
    have hk' : (k : ℝ) * dt ≤ T := by linarith
    have hkn : (0 : ℝ) ≤ k * dt := by positivity
    have h1 : Real.exp (K * (k * dt)) ≤ Real.exp (K * T) :=
      Real.exp_le_exp.2 (mul_le_mul_of_nonneg_left hk' K.2)
    have h2 : C0 * dt ^ (r + 1) * k ≤ C0 * T * dt ^ r := by
      calc C0 * dt ^ (r + 1) * k = C0 * (k * dt) * dt ^ r := by ring
        _ ≤ C0 * T * dt ^ r := by gcongr
    have h3 : d + C0 * dt ^ (r + 1) * k ≤ (1 + C0 * T) * (d + dt ^ r) := by
      have : 0 ≤ C0 * T * d := by positivity
      have : 0 ≤ dt ^ r := by positivity
      nlinarith
    calc _ ≤ (1 + C0 * T) * (d + dt ^ r) * Real.exp (K * T) :=
          mul_le_mul h3 h1 (Real.exp_pos _).le (by positivity)
      _ = Q * (d + dt ^ r) := by rw [hQ]; ring
  have key : ∀ k : ℕ, t0 + k * dt ≤ T →
      ‖(fun y => y + dt • inc (dt, y))^[k] z0 - Y (t0 + k * dt)‖
        ≤ (d + C0 * dt ^ (r + 1) * k) * Real.exp (K * (k * dt)) := by
    intro k
    induction k with
    | zero => intro _; simp [hd]
    | succ k ih =>
      intro hk
      push_cast at hk
      have hk' : t0 + (k : ℝ) * dt ≤ T := by nlinarith
      have hkn : (0 : ℝ) ≤ t0 + k * dt := by positivity
      have e := ih hk'
      set t := t0 + k * dt with ht
      set u := (fun y => y + dt • inc (dt, y))^[k] z0 with hu
      rw [Function.iterate_succ_apply', ← hu]
      have hb := hbd k hk'
      have hYk := hM' t ⟨hkn, hk'⟩
      have hun : ‖u‖ ≤ M + 1 := by
        have h1 := norm_add_le (Y t) (u - Y t)
        rw [add_sub_cancel] at h1
        linarith [e.trans (hb.trans hd2)]
      have hL := hLip dt ⟨h0, hd1⟩ u (Y t) hun (by linarith)
      have hlo := hl t dt hkn h0 (by rw [ht]; linarith)
      have es : (u + dt • inc (dt, u)) - Y (t0 + (k + 1 : ℕ) * dt)
          = (u - Y t) + dt • (inc (dt, u) - inc (dt, Y t))
            + ((Y t + dt • inc (dt, Y t)) - Y (t + dt)) := by
        have : t0 + ((k + 1 : ℕ) : ℝ) * dt = t + dt := by rw [ht]; push_cast; ring
        rw [this, smul_sub]; abel
      show ‖(u + dt • inc (dt, u)) - Y (t0 + (k + 1 : ℕ) * dt)‖ ≤ _
      rw [es]
      have h1 : ‖dt • (inc (dt, u) - inc (dt, Y t))‖ ≤ dt * (K * ‖u - Y t‖) := by
        rw [norm_smul, Real.norm_of_nonneg h0]
        exact mul_le_mul_of_nonneg_left hL h0
      have h2 := (norm_add_le ((u - Y t) + dt • (inc (dt, u) - inc (dt, Y t)))
        ((Y t + dt • inc (dt, Y t)) - Y (t + dt))).trans
          (add_le_add (norm_add_le _ _) le_rfl)
      have h3 : (1 + K * dt) * Real.exp (K * (k * dt)) ≤ Real.exp (K * ((k + 1 : ℕ) * dt)) := by
        have : (K : ℝ) * ((k + 1 : ℕ) * dt) = K * dt + K * (k * dt) := by push_cast; ring
        rw [this, Real.exp_add]
        gcongr
        linarith [Real.add_one_le_exp ((K : ℝ) * dt)]
      have h4 : 1 ≤ Real.exp (K * ((k + 1 : ℕ) * dt)) := Real.one_le_exp (by positivity)
      calc _ ≤ ‖u - Y t‖ + dt * (K * ‖u - Y t‖) + C0 * dt ^ (r + 1) := by linarith
        _ = (1 + K * dt) * ‖u - Y t‖ + C0 * dt ^ (r + 1) := by ring
        _ ≤ (1 + K * dt) * ((d + C0 * dt ^ (r + 1) * k) * Real.exp (K * (k * dt))) + C0 * dt ^ (r + 1) := by
            gcongr
        _ = (d + C0 * dt ^ (r + 1) * k) * ((1 + K * dt) * Real.exp (K * (k * dt))) + C0 * dt ^ (r + 1) * 1 := by ring
        _ ≤ (d + C0 * dt ^ (r + 1) * k) * Real.exp (K * ((k + 1 : ℕ) * dt))
              + C0 * dt ^ (r + 1) * Real.exp (K * ((k + 1 : ℕ) * dt)) := by gcongr
        _ = _ := by push_cast; ring
  intro hk
  exact (key k hk).trans (hbd k hk)

/-- started on the solution, such a method has order `r` over the whole interval -/
theorem one_step_global [FiniteDimensional ℝ E] {T : ℝ} {Y : ℝ → E} (hT : 0 ≤ T)
    (hc : ContinuousOn Y (Icc 0 T)) (inc : ℝ × E → E) (hinc : ContDiff ℝ 1 inc) (r : ℕ) (hr : 0 < r)
    (hloc : ∃ C, 0 ≤ C ∧ ∀ t dt, 0 ≤ t → 0 ≤ dt → t + dt ≤ T →
      ‖(Y t + dt • inc (dt, Y t)) - Y (t + dt)‖ ≤ C * dt ^ (r + 1)) :
    ∃ C dt0 : ℝ, 0 ≤ C ∧ 0 < dt0 ∧ ∀ dt, 0 ≤ dt → dt ≤ dt0 → ∀ k : ℕ, k * dt ≤ T →
      ‖(fun y => y + dt • inc (dt, y))^[k] (Y 0) - Y (k * dt)‖ ≤ C * dt ^ r := by
  obtain ⟨C, δ, hC, hδ, H⟩ := one_step_global' hT hc inc hinc r hr hloc
  refine ⟨C, δ, hC, hδ, fun dt h0 hdt k hk => ?_⟩
  have := H dt h0 hdt 0 (Y 0) le_rfl (by simpa using hδ.le) k (by rwa [zero_add])
  simpa using this

variable (A : E →L[ℝ] E) (B : E →L[ℝ] E →L[ℝ] E)

theorem contDiff_F : ContDiff ℝ 1 (F A B) := by
  unfold F
  fun_prop

/-- the Runge–Kutta method started near a solution -/
theorem rk4_near [FiniteDimensional ℝ E] {T : ℝ} {Y : ℝ → E} (hT : 0 ≤ T) (hY : Solves (F A B) T Y) :
    ∃ C δ : ℝ, 0 ≤ C ∧ 0 < δ ∧ ∀ dt, 0 ≤ dt → dt ≤ δ → ∀ (t0 : ℝ) (z0 : E), 0 ≤ t0 → ‖z0 - Y t0‖ ≤ δ →
      ∀ k : ℕ, t0 + k * dt ≤ T →
      ‖(rk4 (F A B) dt)^[k] z0 - Y (t0 + k * dt)‖ ≤ C * (‖z0 - Y t0‖ + dt ^ 4) := by
  have hF := contDiff_F A B
  let inc : ℝ × E → E := fun z =>
    (1 / 6 : ℝ) • (F A B z.2 + (2 : ℝ) • F A B (z.2 + (z.1 / 2) • F A B z.2)
      + (2 : ℝ) • F A B (z.2 + (z.1 / 2) • F A B (z.2 + (z.1 / 2) • F A B z.2))
      + F A B (z.2 + z.1 • F A B (z.2 + (z.1 / 2) • F A B (z.2 + (z.1 / 2) • F A B z.2))))
  have hi : ContDiff ℝ 1 inc := by
    have g1 : ContDiff ℝ 1 fun z : ℝ × E => F A B z.2 := hF.comp contDiff_snd
    have g2 : ContDiff ℝ 1 fun z : ℝ × E => F A B (z.2 + (z.1 / 2) • F A B z.2) :=
      hF.comp (contDiff_snd.add ((contDiff_fst.div_const 2).smul g1))
    have g3 : ContDiff ℝ 1 fun z : ℝ × E =>
        F A B (z.2 + (z.1 / 2) • F A B (z.2 + (z.1 / 2) • F A B z.2)) :=
      hF.comp (contDiff_snd.add ((contDiff_fst.div_const 2).smul g2))
    have g4 : ContDiff ℝ 1 fun z : ℝ × E =>
        F A B (z.2 + z.1 • F A B (z.2 + (z.1 / 2) • F A B (z.2 + (z.1 / 2) • F A B z.2))) :=
      hF.comp (contDiff_snd.add (contDiff_fst.smul g3))
    exact (((g1.add (g2.const_smul (2 : ℝ))).add (g3.const_smul (2 : ℝ))).add g4).const_smul (1 / 6 : ℝ)
  have e : ∀ dt y, rk4 (F A B) dt y = y + dt • inc (dt, y) := by
    intro dt y
    simp only [rk4, inc, smul_smul]
    congr 2
    ring
  have e' : ∀ dt, rk4 (F A B) dt = fun y => y + dt • inc (dt, y) := fun dt => funext (e dt)
  obtain ⟨C, hC, hl⟩ := rk4_local A B hY
  simp only [e']
  refine one_step_global' hT hY.continuousOn inc hi 4 (by norm_num) ⟨C, hC, fun t dt h0 hdt ht => ?_⟩
  rw [← e]
  exact hl t dt h0 hdt ht

/-- **the Runge–Kutta method converges with order four** -/
theorem rk4_global [FiniteDimensional ℝ E] {T : ℝ} {Y : ℝ → E} (hT : 0 ≤ T) (hY : Solves (F A B) T Y) :
    ∃ C dt0 : ℝ, 0 ≤ C ∧ 0 < dt0 ∧ ∀ dt, 0 ≤ dt → dt ≤ dt0 → ∀ k : ℕ, k * dt ≤ T →
      ‖(rk4 (F A B) dt)^[k] (Y 0) - Y (k * dt)‖ ≤ C * dt ^ 4 := by
  obtain ⟨C, δ, hC, hδ, H⟩ := rk4_near A B hT hY
  refine ⟨C, δ, hC, hδ, fun dt h0 hdt k hk => ?_⟩
  have := H dt h0 hdt 0 (Y 0) le_rfl (by simpa using hδ.le) k (by rwa [zero_add])
  simpa using this

/-- the Euler method started near a solution -/
theorem euler_near [FiniteDimensional ℝ E] {T : ℝ} {Y : ℝ → E} (hT : 0 ≤ T) (hY : Solves (F A B) T Y) :
    ∃ C δ : ℝ, 0 ≤ C ∧ 0 < δ ∧ ∀ dt, 0 ≤ dt → dt ≤ δ → ∀ (t0 : ℝ) (z0 : E), 0 ≤ t0 → ‖z0 - Y t0‖ ≤ δ →
      ∀ k : ℕ, t0 + k * dt ≤ T →
      ‖(euler (F A B) dt)^[k] z0 - Y (t0 + k * dt)‖ ≤ C * (‖z0 - Y t0‖ + dt) := by
  obtain ⟨C, hC, hl⟩ := euler_local A B hY
  have := one_step_global' hT hY.continuousOn (fun z => F A B z.2) ((contDiff_F A B).comp contDiff_snd)
    1 one_pos ⟨C, hC, hl⟩
  simp only [pow_one] at this
  exact this

/-- **the Euler method converges with order one** -/
theorem euler_global [FiniteDimensional ℝ E] {T : ℝ} {Y : ℝ → E} (hT : 0 ≤ T)
    (hY : Solves (F A B) T Y) :
    ∃ C dt0 : ℝ, 0 ≤ C ∧ 0 < dt0 ∧ ∀ dt, 0 ≤ dt → dt ≤ dt0 → ∀ k : ℕ, k * dt ≤ T →
      ‖(euler (F A B) dt)^[k] (Y 0) - Y (k * dt)‖ ≤ C * dt := by
  obtain ⟨C, hC, hl⟩ := euler_local A B hY
  have := one_step_global hT hY.continuousOn (fun z => F A B z.2) ((contDiff_F A B).comp contDiff_snd)
    1 one_pos ⟨C, hC, hl⟩
  simp only [pow_one] at this
  exact this

/-- **existence of exact solutions on every interval**, if a positive definite quadratic form grows at
most exponentially -/
theorem exists_solution [FiniteDimensional ℝ E] (Q : E →L[ℝ] E →L[ℝ] ℝ) (lam : ℝ)
    (hpos : ∀ y, ‖y‖ ^ 2 ≤ Q y y)
    (hlam : ∀ y, Q (F A B y) y + Q y (F A B y) ≤ lam * Q y y) {T : ℝ} (hT : 0 ≤ T) (y0 : E) :
    ∃ Y : ℝ → E, Y 0 = y0 ∧ Solves (F A B) T Y := by
  have : ProperSpace E := FiniteDimensional.proper ℝ E
  have : CompleteSpace E := FiniteDimensional.complete ℝ E
  wlog hl : 0 ≤ lam generalizing lam
  · exact this 0 (fun y => (hlam y).trans (by
      have h1 : 0 ≤ Q y y := (sq_nonneg _).trans (hpos y)
      have h2 : lam * Q y y ≤ 0 := mul_nonpos_of_nonpos_of_nonneg (not_le.1 hl).le h1
      linarith)) le_rfl
  set S := Q y0 y0 * Real.exp (lam * T) with hS
  have hq0 : 0 ≤ Q y0 y0 := (sq_nonneg _).trans (hpos y0)
  have hS0 : 0 ≤ S := by positivity
  let th : E → ℝ := fun y => Real.smoothTransition (S + 2 - Q y y)
  let G : E → E := fun y => th y • F A B y
  have hth : ContDiff ℝ 1 th := by
    have h1 : ContDiff ℝ 1 fun y : E => S + 2 - Q y y := by fun_prop
    exact (Real.smoothTransition.contDiff (n := 1)).comp h1
  have hG : ContDiff ℝ 1 G := hth.smul (contDiff_F A B)
  -- `G` is bounded
  obtain ⟨M, hM⟩ := (isCompact_closedBall (0 : E) (S + 2)).bddAbove_image
    (hG.continuous.norm.continuousOn)
  have hGb : ∀ y, ‖G y‖ ≤ |M| := by
    intro y
    by_cases hy : Q y y ≤ S + 2
    · refine (hM (mem_image_of_mem _ ?_)).trans (le_abs_self M)
      rw [mem_closedBall, dist_zero_right]
      have h1 := (hpos y).trans hy
      nlinarith [norm_nonneg y]
    · have h1 : th y = 0 := Real.smoothTransition.zero_of_nonpos (by linarith [not_le.1 hy])
      simp [G, h1]
  let Mn : NNReal := ⟨|M|, abs_nonneg M⟩
  let an : NNReal := ⟨|M| * T, by positivity⟩
  obtain ⟨K, hK⟩ := (hG.locallyLipschitz.locallyLipschitzOn
    (s := closedBall y0 an)).exists_lipschitzOnWith_of_compact (isCompact_closedBall _ _)
  have hPL : IsPicardLindelof (fun _ => G) (tmin := 0) (tmax := T) ⟨0, le_rfl, hT⟩ y0 an 0 Mn K :=
    { lipschitzOnWith := fun _ _ => hK
      continuousOn := fun _ _ => continuousOn_const
      norm_le := fun _ _ x _ => hGb x
      mul_max_le := by
        show |M| * max (T - 0) (0 - 0) ≤ |M| * T - 0
        rw [sub_zero, sub_zero, sub_zero, max_eq_left hT] }
  obtain ⟨Y, hY0, hY⟩ := hPL.exists_eq_forall_mem_Icc_hasDerivWithinAt₀
  refine ⟨Y, hY0, ?_⟩
  -- the quadratic form along `Y`
  let g : ℝ → ℝ := fun t => Real.exp (-lam * t) * Q (Y t) (Y t)
  have hd : ∀ t ∈ Icc 0 T, HasDerivWithinAt g
      (Real.exp (-lam * t) * (-lam) * Q (Y t) (Y t)
        + Real.exp (-lam * t) * (Q (G (Y t)) (Y t) + Q (Y t) (G (Y t)))) (Icc 0 T) t := by
    intro t ht
    have h1 : HasDerivWithinAt (fun t => Real.exp (-lam * t)) (Real.exp (-lam * t) * (-lam)) (Icc 0 T) t := by
      have := ((hasDerivAt_id t).const_mul (-lam)).exp.hasDerivWithinAt (s := Icc 0 T)
      exact this.congr_deriv (by simp)
    have h2 : HasDerivWithinAt (fun t => Q (Y t) (Y t)) (Q (G (Y t)) (Y t) + Q (Y t) (G (Y t)))
        (Icc 0 T) t := (Q.hasFDerivAt.comp_hasDerivWithinAt t (hY t ht)).clm_apply (hY t ht)
    exact h1.mul h2
  have hanti : AntitoneOn g (Icc 0 T) := by
    refine antitoneOn_of_hasDerivWithinAt_nonpos (convex_Icc 0 T)
      (fun t ht => (hd t ht).continuousWithinAt)
      (f' := fun t => Real.exp (-lam * t) * (-lam) * Q (Y t) (Y t)
        + Real.exp (-lam * t) * (Q (G (Y t)) (Y t) + Q (Y t) (G (Y t))))
      (fun t ht => (hd t (interior_subset ht)).mono interior_subset) (fun t _ => ?_)
    have h1 : Q (G (Y t)) (Y t) + Q (Y t) (G (Y t))
        = th (Y t) * (Q (F A B (Y t)) (Y t) + Q (Y t) (F A B (Y t))) := by
      simp only [G, map_smul, smul_apply, smul_eq_mul]; ring
    have h2 : th (Y t) * (Q (F A B (Y t)) (Y t) + Q (Y t) (F A B (Y t))) ≤ lam * Q (Y t) (Y t) := by
      have hq : 0 ≤ Q (Y t) (Y t) := (sq_nonneg _).trans (hpos _)
      have t0 : 0 ≤ th (Y t) := Real.smoothTransition.nonneg _
      have t1 : th (Y t) ≤ 1 := Real.smoothTransition.le_one _
      calc _ ≤ th (Y t) * (lam * Q (Y t) (Y t)) := mul_le_mul_of_nonneg_left (hlam _) t0
        _ ≤ 1 * (lam * Q (Y t) (Y t)) := mul_le_mul_of_nonneg_right t1 (by positivity)
        _ = _ := one_mul _
    rw [h1]
    have h3 := Real.exp_pos (-lam * t)
    nlinarith
  intro t ht
  have hq : Q (Y t) (Y t) ≤ S := by
    have h1 : g t ≤ g 0 := hanti ⟨le_rfl, hT⟩ ht ht.1
    simp only [g, mul_zero, Real.exp_zero, one_mul, hY0] at h1
    have h2 : Real.exp (lam * t) ≤ Real.exp (lam * T) :=
      Real.exp_le_exp.2 (mul_le_mul_of_nonneg_left ht.2 hl)
    have h3 : Real.exp (lam * t) * Real.exp (-lam * t) = 1 := by
      rw [← Real.exp_add]; simp
    calc Q (Y t) (Y t) = Real.exp (lam * t) * (Real.exp (-lam * t) * Q (Y t) (Y t)) := by
          rw [← mul_assoc, h3, one_mul]
      _ ≤ Real.exp (lam * T) * Q y0 y0 :=
          mul_le_mul h2 h1 (mul_nonneg (Real.exp_pos _).le ((sq_nonneg _).trans (hpos _)))
            (Real.exp_pos _).le
      _ = S := by rw [hS, mul_comm]
  have h1 : th (Y t) = 1 := Real.smoothTransition.one_of_one_le (by linarith)
  have h2 : G (Y t) = F A B (Y t) := by simp only [G, h1, one_smul]
  have := hY t ht
  rwa [h2] at this

/-- exact solutions are unique -/
theorem solution_unique [FiniteDimensional ℝ E] {T : ℝ} {Y Z : ℝ → E} (hY : Solves (F A B) T Y)
    (hZ : Solves (F A B) T Z) (h0 : Y 0 = Z 0) : EqOn Y Z (Icc 0 T) := by
  have : ProperSpace E := FiniteDimensional.proper ℝ E
  obtain ⟨M, hM⟩ := isCompact_Icc.bddAbove_image hY.continuousOn.norm
  obtain ⟨N, hN⟩ := isCompact_Icc.bddAbove_image hZ.continuousOn.norm
  obtain ⟨K, hK⟩ := ((contDiff_F A B).locallyLipschitz.locallyLipschitzOn
    (s := closedBall (0 : E) (max M N))).exists_lipschitzOnWith_of_compact (isCompact_closedBall _ _)
  refine ODE_solution_unique_of_mem_Icc_right (v := fun _ => F A B) (s := fun _ => closedBall 0 (max M N))
    (fun _ _ => hK) hY.continuousOn (fun t ht => ?_) (fun t ht => ?_) hZ.continuousOn (fun t ht => ?_)
    (fun t ht => ?_) h0
  · exact (hY t ⟨ht.1, ht.2.le⟩).mono_of_mem_nhdsWithin (Icc_mem_nhdsGE_of_mem ht)
  · rw [mem_closedBall, dist_zero_right]
    exact (hM (mem_image_of_mem _ ⟨ht.1, ht.2.le⟩)).trans (le_max_left _ _)
  · exact (hZ t ⟨ht.1, ht.2.le⟩).mono_of_mem_nhdsWithin (Icc_mem_nhdsGE_of_mem ht)
  · rw [mem_closedBall, dist_zero_right]
    exact (hN (mem_image_of_mem _ ⟨ht.1, ht.2.le⟩)).trans (le_max_right _ _)

end Verif.ODE
