import Verif.Lemmas.Budget
import Mathlib.MeasureTheory.Integral.IntervalIntegral.FundThmCalculus
import Mathlib.Topology.Algebra.Module.FiniteDimensionBilinear
import Mathlib.Analysis.Calculus.Deriv.Prod

/-!
# Integrating a quadratic quantity along with the solution

A system `y' = F y` together with a scalar `e' = Q y y` that is advanced by the same method
(the conservation test stores such a scalar in the state), and a constant that turns the scalar into
a quadratic form.
-/

set_option linter.unusedSectionVars false

namespace Verif.ODE

open Set Metric Finset

variable {E : Type*} [NormedAddCommGroup E] [NormedSpace ℝ E] [FiniteDimensional ℝ E]
variable (A : E →L[ℝ] E) (B : E →L[ℝ] E →L[ℝ] E) (Q G : E →L[ℝ] E →L[ℝ] ℝ)

/-- linear part of the extended system -/
noncomputable def augA : E × ℝ × ℝ →L[ℝ] E × ℝ × ℝ := (A.comp (.fst ℝ E (ℝ × ℝ))).prod 0

/-- quadratic part of the extended system -/
noncomputable def augB : E × ℝ × ℝ →L[ℝ] E × ℝ × ℝ →L[ℝ] E × ℝ × ℝ :=
  (LinearMap.mk₂ ℝ (fun u v : E × ℝ × ℝ => ((B u.1 v.1, Q u.1 v.1, 0) : E × ℝ × ℝ))
    (fun u u' v => by simp) (fun c u v => by simp) (fun u v v' => by simp)
    (fun c u v => by simp)).toContinuousBilinearMap

/-- the scalar as a quadratic form -/
noncomputable def augE : E × ℝ × ℝ →L[ℝ] E × ℝ × ℝ →L[ℝ] ℝ :=
  (LinearMap.mk₂ ℝ (fun u v : E × ℝ × ℝ => u.2.1 * v.2.2)
    (fun u u' v => by simp [add_mul]) (fun c u v => by simp [mul_assoc]) (fun u v v' => by simp [mul_add])
    (fun c u v => by simp; ring)).toContinuousBilinearMap

theorem augE_apply (u v : E × ℝ × ℝ) : augE u v = u.2.1 * v.2.2 := rfl

theorem F_aug (z : E × ℝ × ℝ) : F (augA A) (augB B Q) z = (F A B z.1, Q z.1 z.1, 0) := by
  have : F (augA A) (augB B Q) z = (A z.1, 0) + (B z.1 z.1, Q z.1 z.1, 0) := rfl
  rw [this]
  simp [F]

theorem rate_augE (z : E × ℝ × ℝ) :
    rate (augA A) (augB B Q) augE z = Q z.1 z.1 * z.2.2 := by
  unfold rate
  rw [F_aug, augE_apply, augE_apply]
  simp

/-- a continuous function on an interval has a primitive -/
theorem exists_primitive {T : ℝ} (hT : 0 ≤ T) {f : ℝ → ℝ} (hf : ContinuousOn f (Icc 0 T)) (e0 : ℝ) :
    ∃ e : ℝ → ℝ, e 0 = e0 ∧ ∀ t ∈ Icc 0 T, HasDerivWithinAt e (f t) (Icc 0 T) t := by
  have hc : Continuous (IccExtend hT ((Icc 0 T).domRestrict f)) :=
    continuous_IccExtend_iff.2 (continuousOn_iff_continuous_domRestrict.1 hf)
  refine ⟨fun t => e0 + ∫ x in (0 : ℝ)..t, IccExtend hT ((Icc 0 T).domRestrict f) x, by simp, fun t ht => ?_⟩
  have := (hc.integral_hasStrictDerivAt 0 t).hasDerivAt.const_add e0
  rw [IccExtend_of_mem hT _ ht] at this
  exact this.hasDerivWithinAt

/-- every solution extends -/
theorem aug_solution {T : ℝ} {Y : ℝ → E} (hT : 0 ≤ T) (hY : Solves (F A B) T Y) (e0 : ℝ) :
    ∃ e : ℝ → ℝ, e 0 = e0 ∧ (∀ t ∈ Icc 0 T, HasDerivWithinAt e (Q (Y t) (Y t)) (Icc 0 T) t) ∧
      Solves (F (augA A) (augB B Q)) T fun t => (Y t, e t, 1) := by
  obtain ⟨e, h0, he⟩ := exists_primitive hT (f := fun t => Q (Y t) (Y t))
    (by have := hY.continuousOn; fun_prop) e0
  refine ⟨e, h0, he, fun t ht => ?_⟩
  rw [F_aug]
  exact (hY t ht).prodMk ((he t ht).prodMk (hasDerivWithinAt_const ..))

/-- a smooth function of the state converges with the same order -/
theorem observable {Z : Type*} [NormedAddCommGroup Z] [NormedSpace ℝ Z] [FiniteDimensional ℝ Z] {T : ℝ}
    {Y : ℝ → Z} (hc : ContinuousOn Y (Icc 0 T)) {f : Z → ℝ} (hf : ContDiff ℝ 1 f)
    (M : ℝ → Z → Z) (p : ℕ)
    (H : ∃ C dt0 : ℝ, 0 ≤ C ∧ 0 < dt0 ∧ ∀ dt, 0 ≤ dt → dt ≤ dt0 → ∀ k : ℕ, k * dt ≤ T →
      ‖(M dt)^[k] (Y 0) - Y (k * dt)‖ ≤ C * dt ^ (p + 1)) :
    ∃ C dt0 : ℝ, 0 ≤ C ∧ 0 < dt0 ∧ ∀ dt, 0 ≤ dt → dt ≤ dt0 → ∀ k : ℕ, k * dt ≤ T →
      |f ((M dt)^[k] (Y 0)) - f (Y (k * dt))| ≤ C * dt ^ (p + 1) := by
  have : ProperSpace Z := FiniteDimensional.proper ℝ Z
  obtain ⟨C0, d0, hC0, hd0, H⟩ := H
  obtain ⟨Mb, hMb⟩ := isCompact_Icc.bddAbove_image hc.norm
  have hY' : ∀ t ∈ Icc 0 T, ‖Y t‖ ≤ Mb := fun t ht => hMb (mem_image_of_mem _ ht)
  obtain ⟨K, hK⟩ := (hf.locallyLipschitz.locallyLipschitzOn
    (s := closedBall (0 : Z) (Mb + 1))).exists_lipschitzOnWith_of_compact (isCompact_closedBall _ _)
  refine ⟨K * C0, min (min 1 d0) (1 / (C0 + 1)), by positivity, by positivity, fun dt hdt hle k hk => ?_⟩
  have hdt1 : dt ≤ 1 := hle.trans ((min_le_left _ _).trans (min_le_left _ _))
  have hn := H dt hdt (hle.trans ((min_le_left _ _).trans (min_le_right _ _))) k hk
  have hdtC : C0 * dt ^ (p + 1) ≤ 1 := by
    have h1 : dt ^ (p + 1) ≤ dt := pow_le_of_le_one hdt hdt1 (by omega)
    have h2 : dt ≤ 1 / (C0 + 1) := hle.trans (min_le_right _ _)
    calc C0 * dt ^ (p + 1) ≤ C0 * (1 / (C0 + 1)) := mul_le_mul_of_nonneg_left (h1.trans h2) hC0
      _ = C0 / (C0 + 1) := by ring
      _ ≤ 1 := by rw [div_le_one (by positivity)]; linarith
  have hb := hY' (k * dt) ⟨by positivity, hk⟩
  have hb' := norm_le_norm_add_norm_sub' ((M dt)^[k] (Y 0)) (Y (k * dt))
  have := hK.dist_le_mul ((M dt)^[k] (Y 0)) (by simp; linarith) (Y (k * dt)) (by simp; linarith)
  rw [Real.dist_eq, dist_eq_norm] at this
  rw [mul_assoc]
  exact this.trans (mul_le_mul_of_nonneg_left hn K.2)

variable {A B Q G}

/-- the difference between the accumulated scalar and the quadratic form `G` along a solution -/
theorem deriv_gap {T : ℝ} {Y : ℝ → E} (hY : Solves (F A B) T Y) {e : ℝ → ℝ}
    (he : ∀ t ∈ Icc 0 T, HasDerivWithinAt e (Q (Y t) (Y t)) (Icc 0 T) t) :
    ∀ t ∈ Icc 0 T, HasDerivWithinAt (fun t => e t - G (Y t) (Y t))
      (Q (Y t) (Y t) - rate A B G (Y t)) (Icc 0 T) t :=
  fun t ht => (he t ht).sub (deriv_Q G (hY t ht) (hY t ht))

/-- if `Q` is the rate of `G`, the gap stays what it was -/
theorem gap_const {T : ℝ} {Y : ℝ → E} (hT : 0 ≤ T) (hY : Solves (F A B) T Y) {e : ℝ → ℝ}
    (he : ∀ t ∈ Icc 0 T, HasDerivWithinAt e (Q (Y t) (Y t)) (Icc 0 T) t)
    (hQ : ∀ y, Q y y = rate A B G y) {t : ℝ} (ht : t ∈ Icc 0 T) :
    e t - G (Y t) (Y t) = e 0 - G (Y 0) (Y 0) := by
  have := (convex_Icc 0 T).norm_image_sub_le_of_norm_hasDerivWithin_le (C := 0) (deriv_gap (G := G) hY he)
    (fun t _ => by rw [hQ, sub_self, norm_zero]) ⟨le_rfl, hT⟩ ht
  rw [zero_mul, norm_le_zero_iff, sub_eq_zero] at this
  exact this

/-- if `Q` exceeds the rate of `G` at the start, the gap grows linearly for a while -/
theorem gap_grows {T : ℝ} {Y : ℝ → E} (hT : 0 < T) (hY : Solves (F A B) T Y) {e : ℝ → ℝ}
    (he : ∀ t ∈ Icc 0 T, HasDerivWithinAt e (Q (Y t) (Y t)) (Icc 0 T) t)
    (hQ : rate A B G (Y 0) < Q (Y 0) (Y 0)) :
    ∃ T1 c, 0 < T1 ∧ T1 ≤ T ∧ 0 < c ∧ ∀ t ∈ Icc 0 T1,
      c * t ≤ e t - G (Y t) (Y t) - (e 0 - G (Y 0) (Y 0)) := by
  have hc := hY.continuousOn
  have cR : Continuous fun y => Q y y - rate A B G y := by
    unfold rate F; fun_prop
  have hcont : ContinuousOn (fun t => Q (Y t) (Y t) - rate A B G (Y t)) (Icc 0 T) :=
    cR.comp_continuousOn hc
  set c := (Q (Y 0) (Y 0) - rate A B G (Y 0)) / 2 with hcd
  have hc0 : 0 < c := by rw [hcd]; linarith
  have hev := (hcont 0 ⟨le_rfl, hT.le⟩).eventually_mem (Ioi_mem_nhds (show c < _ by
    change c < Q (Y 0) (Y 0) - rate A B G (Y 0); linarith))
  obtain ⟨δ, hδ, hball⟩ := Metric.mem_nhdsWithin_iff.1 hev
  refine ⟨min (δ / 2) T, c, lt_min (by linarith) hT, min_le_right _ _, hc0, fun t ht => ?_⟩
  have hsub : Icc 0 (min (δ / 2) T) ⊆ Icc 0 T := Icc_subset_Icc le_rfl (min_le_right _ _)
  have hpos : ∀ s ∈ Icc 0 (min (δ / 2) T), c ≤ Q (Y s) (Y s) - rate A B G (Y s) := by
    intro s hs
    have := hball (a := s) ⟨by
      rw [mem_ball, Real.dist_eq, sub_zero, abs_of_nonneg hs.1]
      linarith [hs.2.trans (min_le_left _ _)], hsub hs⟩
    exact le_of_lt this
  have hd : ∀ s ∈ Icc 0 (min (δ / 2) T), HasDerivWithinAt (fun s => e s - G (Y s) (Y s) - c * s)
      (Q (Y s) (Y s) - rate A B G (Y s) - c) (Icc 0 (min (δ / 2) T)) s := fun s hs =>
    (((deriv_gap (G := G) hY he s (hsub hs)).mono hsub).sub
      ((hasDerivWithinAt_id s _).const_mul c)).congr_deriv (by simp)
  have mono : MonotoneOn (fun s => e s - G (Y s) (Y s) - c * s) (Icc 0 (min (δ / 2) T)) := by
    refine monotoneOn_of_hasDerivWithinAt_nonneg (convex_Icc _ _) (fun s hs => (hd s hs).continuousWithinAt)
      (fun s hs => (hd s (interior_subset hs)).mono interior_subset) (fun s hs => ?_)
    have := hpos s (interior_subset hs)
    linarith
  have := mono ⟨le_rfl, ht.1.trans ht.2⟩ ht ht.1
  simp only [mul_zero, sub_zero] at this
  linarith

/-- a method of order `p + 1` for the extended system -/
def Converges (M : ℝ → E × ℝ × ℝ → E × ℝ × ℝ) (p : ℕ) : Prop :=
  ∀ (T : ℝ) (Z : ℝ → E × ℝ × ℝ), 0 ≤ T → Solves (F (augA A) (augB B Q)) T Z →
    ∃ C dt0 : ℝ, 0 ≤ C ∧ 0 < dt0 ∧ ∀ dt, 0 ≤ dt → dt ≤ dt0 → ∀ k : ℕ, k * dt ≤ T →
      ‖(M dt)^[k] (Z 0) - Z (k * dt)‖ ≤ C * dt ^ (p + 1)

theorem converges_rk4 : Converges (A := A) (B := B) (Q := Q) (rk4 (F (augA A) (augB B Q))) 3 :=
  fun _ _ hT hZ => rk4_global _ _ hT hZ
theorem converges_euler : Converges (A := A) (B := B) (Q := Q) (euler (F (augA A) (augB B Q))) 0 := by
  intro T Z hT hZ
  simpa only [zero_add, pow_one] using euler_global _ _ hT hZ

/-- the gap, as a function of the extended state -/
noncomputable def gap (G : E →L[ℝ] E →L[ℝ] ℝ) (z : E × ℝ × ℝ) : ℝ := z.2.1 - G z.1 z.1

theorem contDiff_gap : ContDiff ℝ 1 (gap G) := by unfold gap; fun_prop

/-- if `Q` is the rate of `G`, the accumulated scalar follows `G` -/
theorem aug_track {M : ℝ → E × ℝ × ℝ → E × ℝ × ℝ} {p : ℕ} (hM : Converges (A := A) (B := B) (Q := Q) M p)
    {T : ℝ} {Y : ℝ → E} (hT : 0 ≤ T) (hY : Solves (F A B) T Y) (hQ : ∀ y, Q y y = rate A B G y) (e0 : ℝ) :
    ∃ C dt0 : ℝ, 0 ≤ C ∧ 0 < dt0 ∧ ∀ dt, 0 ≤ dt → dt ≤ dt0 → ∀ k : ℕ, k * dt ≤ T →
      |gap G ((M dt)^[k] (Y 0, e0, 1)) - gap G (Y 0, e0, 1)| ≤ C * dt ^ (p + 1) := by
  obtain ⟨e, rfl, he, hZ⟩ := aug_solution A B Q hT hY e0
  obtain ⟨C, d, hC, hd, H⟩ := observable hZ.continuousOn (contDiff_gap (G := G)) M p (hM T _ hT hZ)
  refine ⟨C, d, hC, hd, fun dt hdt hle k hk => ?_⟩
  have := H dt hdt hle k hk
  have e1 : gap G (Y (k * dt), e (k * dt), 1) = gap G (Y 0, e 0, 1) :=
    gap_const hT hY he hQ ⟨by positivity, hk⟩
  rwa [e1] at this

/-- if `Q` exceeds the rate of `G` at the start, the accumulated scalar leaves `G` -/
theorem aug_drift {M : ℝ → E × ℝ × ℝ → E × ℝ × ℝ} {p : ℕ} (hM : Converges (A := A) (B := B) (Q := Q) M p)
    {T : ℝ} {Y : ℝ → E} (hT : 0 < T) (hY : Solves (F A B) T Y)
    (hQ : rate A B G (Y 0) < Q (Y 0) (Y 0)) (e0 : ℝ) :
    ∃ T1 c dt0 : ℝ, 0 < T1 ∧ 0 < c ∧ 0 < dt0 ∧ ∀ dt, 0 ≤ dt → dt ≤ dt0 → ∀ k : ℕ, T1 / 2 ≤ k * dt →
      k * dt ≤ T1 → c ≤ gap G ((M dt)^[k] (Y 0, e0, 1)) - gap G (Y 0, e0, 1) := by
  obtain ⟨e, rfl, he, hZ⟩ := aug_solution A B Q hT.le hY e0
  obtain ⟨T1, c, hT1, hle1, hc, hg⟩ := gap_grows hT hY he hQ
  obtain ⟨C, d, hC, hd, H⟩ := observable hZ.continuousOn (contDiff_gap (G := G)) M p (hM T _ hT.le hZ)
  refine ⟨T1, c * T1 / 4, min (min 1 d) (c * T1 / (4 * (C + 1))), hT1, by positivity, by positivity,
    fun dt hdt hle k hk1 hk => ?_⟩
  have hdt1 : dt ≤ 1 := hle.trans ((min_le_left _ _).trans (min_le_left _ _))
  have h1 := H dt hdt (hle.trans ((min_le_left _ _).trans (min_le_right _ _))) k (hk.trans hle1)
  have h2 : c * (k * dt) ≤ gap G (Y (k * dt), e (k * dt), 1) - gap G (Y 0, e 0, 1) :=
    hg (k * dt) ⟨by positivity, hk⟩
  have h3 : C * dt ^ (p + 1) ≤ c * T1 / 4 := by
    have a1 : dt ^ (p + 1) ≤ dt := pow_le_of_le_one hdt hdt1 (by omega)
    have a2 : dt ≤ c * T1 / (4 * (C + 1)) := hle.trans (min_le_right _ _)
    calc C * dt ^ (p + 1) ≤ C * (c * T1 / (4 * (C + 1))) := mul_le_mul_of_nonneg_left (a1.trans a2) hC
      _ = (c * T1 / 4) * (C / (C + 1)) := by field_simp
      _ ≤ (c * T1 / 4) * 1 := by
        refine mul_le_mul_of_nonneg_left ?_ (by positivity)
        rw [div_le_one (by positivity)]; linarith
      _ = _ := mul_one _
  have h4 := (abs_le.1 h1).1
  have h5 := mul_le_mul_of_nonneg_left hk1 hc.le
  linarith

end Verif.ODE
