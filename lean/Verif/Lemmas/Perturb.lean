import Verif.Lemmas.Convergence

/-!
# One-step methods with errors in every step
-/

namespace Verif.ODE

open Set Metric

variable {E V : Type*} [NormedAddCommGroup E] [NormedSpace ℝ E] [NormedAddCommGroup V] [NormedSpace ℝ V]

/-- A method `y ↦ y + dt · inc dt y p` that reads a second component `p`, which should be `q y`.  If
every step is off by at most `ε` and `p` by at most `L ε`, the deviation from the run without errors
is at most `C ε / dt`. -/
theorem perturbed [FiniteDimensional ℝ E] [FiniteDimensional ℝ V] (inc : ℝ × E × V → E)
    (hinc : ContDiff ℝ 1 inc) (q : E →L[ℝ] V) (M : ℝ) {T L : ℝ} (hT : 0 ≤ T) (hL : 0 ≤ L) :
    ∃ C δ : ℝ, 0 ≤ C ∧ 0 < δ ∧ ∀ dt, 0 < dt → dt ≤ δ → ∀ ε, 0 ≤ ε → ε ≤ δ * dt →
      ∀ (z y : ℕ → E) (p : ℕ → V) (n : ℕ), n * dt ≤ T → (∀ j ≤ n, ‖z j‖ ≤ M) →
      (∀ j < n, z (j + 1) = z j + dt • inc (dt, z j, q (z j))) → ‖y 0 - z 0‖ ≤ ε →
      (∀ j ≤ n, ‖p j - q (y j)‖ ≤ L * ε) → (∀ j < n, ‖y (j + 1) - (y j + dt • inc (dt, y j, p j))‖ ≤ ε) →
      ∀ k ≤ n, ‖y k - z k‖ ≤ C * (ε / dt) := by
  have : ProperSpace E := FiniteDimensional.proper ℝ E
  have : ProperSpace V := FiniteDimensional.proper ℝ V
  set R := ‖q‖ * (M + 1) + 1 with hR
  obtain ⟨K, hK⟩ := (hinc.locallyLipschitz.locallyLipschitzOn
    (s := Icc (0 : ℝ) 1 ×ˢ (closedBall (0 : E) (M + 1) ×ˢ closedBall (0 : V) R))).exists_lipschitzOnWith_of_compact
      (isCompact_Icc.prod ((isCompact_closedBall _ _).prod (isCompact_closedBall _ _)))
  have hLip : ∀ dt ∈ Icc (0 : ℝ) 1, ∀ u v : E, ∀ a b : V, ‖u‖ ≤ M + 1 → ‖v‖ ≤ M + 1 → ‖a‖ ≤ R → ‖b‖ ≤ R →
      ‖inc (dt, u, a) - inc (dt, v, b)‖ ≤ K * (‖u - v‖ + ‖a - b‖) := by
    intro dt hdt u v a b hu hv ha hb
    have := hK.dist_le_mul (dt, u, a) ⟨hdt, by simpa using hu, by simpa using ha⟩ (dt, v, b)
      ⟨hdt, by simpa using hv, by simpa using hb⟩
    rw [dist_eq_norm] at this
    refine this.trans (mul_le_mul_of_nonneg_left ?_ K.2)
    rw [Prod.dist_eq, Prod.dist_eq, dist_self, dist_eq_norm, dist_eq_norm]
    exact max_le (by positivity) (max_le (by linarith [norm_nonneg (a - b)]) (by linarith [norm_nonneg (u - v)]))
  set K' : ℝ := K * (1 + ‖q‖) with hK'
  have hK0 : (0 : ℝ) ≤ K := K.2
  have hK'0 : 0 ≤ K' := by positivity
  set Q := (1 + T * (1 + K * L)) * Real.exp (K' * T) with hQ
  have hQ0 : 0 ≤ Q := by positivity
  refine ⟨Q, min 1 (min (1 / (Q + 1)) (1 / (L + 1))), hQ0, by positivity,
    fun dt h0 hdt ε hε hεd z y p n hn hz hzs h1 hp hy => ?_⟩
  have hd1 : dt ≤ 1 := hdt.trans (min_le_left _ _)
  have hdle : ε / dt ≤ min 1 (min (1 / (Q + 1)) (1 / (L + 1))) := by rwa [div_le_iff₀ h0]
  have hεdt : ε ≤ ε / dt := by rw [le_div_iff₀ h0]; nlinarith
  have hQ1 : Q * (ε / dt) ≤ 1 := by
    have : ε / dt ≤ 1 / (Q + 1) := hdle.trans ((min_le_right _ _).trans (min_le_left _ _))
    calc Q * (ε / dt) ≤ Q * (1 / (Q + 1)) := mul_le_mul_of_nonneg_left this hQ0
      _ = Q / (Q + 1) := by ring
      _ ≤ 1 := by rw [div_le_one (by positivity)]; linarith
  have hL1 : L * ε ≤ 1 := by
    have : ε ≤ 1 / (L + 1) := hεdt.trans (hdle.trans ((min_le_right _ _).trans (min_le_right _ _)))
    calc L * ε ≤ L * (1 / (L + 1)) := mul_le_mul_of_nonneg_left this hL
      _ = L / (L + 1) := by ring
      _ ≤ 1 := by rw [div_le_one (by positivity)]; linarith
  have hbd : ∀ k ≤ n, (1 + k * (1 + dt * (K * L))) * ε * Real.exp (K' * (k * dt)) ≤ Q * (ε / dt) := by
    intro k hk
    have hkn : (k : ℝ) * dt ≤ T := by
      have : (k : ℝ) ≤ n := by exact_mod_cast hk
      nlinarith
    have e1 : Real.exp (K' * (k * dt)) ≤ Real.exp (K' * T) :=
      Real.exp_le_exp.2 (mul_le_mul_of_nonneg_left hkn hK'0)
    have e2 : (1 + k * (1 + dt * (K * L))) * ε ≤ (1 + T * (1 + K * L)) * (ε / dt) := by
      have a1 : (k : ℝ) * ε ≤ T * (ε / dt) := by
        rw [mul_div_assoc', le_div_iff₀ h0]
        nlinarith
      have a2 : dt * (K * L) ≤ K * L := mul_le_of_le_one_left (by positivity) hd1
      have a3 : (k : ℝ) * ε * (1 + dt * (K * L)) ≤ T * (ε / dt) * (1 + K * L) :=
        mul_le_mul a1 (by linarith) (by positivity) (by positivity)
      calc _ = ε + (k : ℝ) * ε * (1 + dt * (K * L)) := by ring
        _ ≤ ε / dt + T * (ε / dt) * (1 + K * L) := add_le_add hεdt a3
        _ = _ := by ring
    calc _ ≤ (1 + T * (1 + K * L)) * (ε / dt) * Real.exp (K' * T) :=
          mul_le_mul e2 e1 (Real.exp_pos _).le (by positivity)
      _ = Q * (ε / dt) := by rw [hQ]; ring
  have key : ∀ k ≤ n, ‖y k - z k‖ ≤ (1 + k * (1 + dt * (K * L))) * ε * Real.exp (K' * (k * dt)) := by
    intro k
    induction k with
    | zero => intro _; simpa using h1
    | succ k ih =>
      intro hk
      have hk' : k ≤ n := by omega
      have e := ih hk'
      have hb := hbd k hk'
      have hzk := hz k hk'
      have hyn : ‖y k‖ ≤ M + 1 := by
        have t := norm_add_le (z k) (y k - z k)
        rw [add_sub_cancel] at t
        linarith [e.trans (hb.trans hQ1)]
      have hpn : ‖p k‖ ≤ R := by
        have t := norm_add_le (q (y k)) (p k - q (y k))
        rw [add_sub_cancel] at t
        have t2 := q.le_opNorm (y k)
        have t3 : ‖q‖ * ‖y k‖ ≤ ‖q‖ * (M + 1) := mul_le_mul_of_nonneg_left hyn (norm_nonneg _)
        linarith [hp k hk']
      have hqn : ‖q (z k)‖ ≤ R := by
        have t2 := q.le_opNorm (z k)
        have t3 : ‖q‖ * ‖z k‖ ≤ ‖q‖ * (M + 1) := mul_le_mul_of_nonneg_left (by linarith) (norm_nonneg _)
        linarith
      have hl := hLip dt ⟨h0.le, hd1⟩ (y k) (z k) (p k) (q (z k)) hyn (by linarith) hpn hqn
      have hpq : ‖p k - q (z k)‖ ≤ L * ε + ‖q‖ * ‖y k - z k‖ := by
        have t := norm_add_le (p k - q (y k)) (q (y k - z k))
        rw [map_sub, sub_add_sub_cancel] at t
        have t2 := q.le_opNorm (y k - z k)
        rw [map_sub] at t2
        linarith [hp k hk']
      have hl' : ‖inc (dt, y k, p k) - inc (dt, z k, q (z k))‖ ≤ K' * ‖y k - z k‖ + K * L * ε := by
        refine hl.trans ((mul_le_mul_of_nonneg_left (add_le_add_right hpq _) hK0).trans_eq ?_)
        rw [hK']; ring
      have es : y (k + 1) - z (k + 1) = (y (k + 1) - (y k + dt • inc (dt, y k, p k)))
          + ((y k - z k) + dt • (inc (dt, y k, p k) - inc (dt, z k, q (z k)))) := by
        rw [hzs k (by omega), smul_sub]; abel
      have hs : ‖dt • (inc (dt, y k, p k) - inc (dt, z k, q (z k)))‖ ≤ dt * (K' * ‖y k - z k‖ + K * L * ε) := by
        rw [norm_smul, Real.norm_of_nonneg h0.le]
        exact mul_le_mul_of_nonneg_left hl' h0.le
      have t := (norm_add_le (y (k + 1) - (y k + dt • inc (dt, y k, p k)))
        ((y k - z k) + dt • (inc (dt, y k, p k) - inc (dt, z k, q (z k))))).trans
          (add_le_add (hy k (by omega)) (norm_add_le _ _))
      have h3 : (1 + K' * dt) * Real.exp (K' * (k * dt)) ≤ Real.exp (K' * ((k + 1 : ℕ) * dt)) := by
        have : K' * ((k + 1 : ℕ) * dt) = K' * dt + K' * (k * dt) := by push_cast; ring
        rw [this, Real.exp_add]
        gcongr
        linarith [Real.add_one_le_exp (K' * dt)]
      have h4 : 1 ≤ Real.exp (K' * ((k + 1 : ℕ) * dt)) := Real.one_le_exp (by positivity)
      rw [es]
      calc _ ≤ (1 + K' * dt) * ‖y k - z k‖ + (1 + dt * (K * L)) * ε := by linarith
        _ ≤ (1 + K' * dt) * ((1 + k * (1 + dt * (K * L))) * ε * Real.exp (K' * (k * dt)))
              + (1 + dt * (K * L)) * ε := by gcongr
        _ = (1 + k * (1 + dt * (K * L))) * ε * ((1 + K' * dt) * Real.exp (K' * (k * dt)))
              + (1 + dt * (K * L)) * ε * 1 := by ring
        _ ≤ (1 + k * (1 + dt * (K * L))) * ε * Real.exp (K' * ((k + 1 : ℕ) * dt))
              + (1 + dt * (K * L)) * ε * Real.exp (K' * ((k + 1 : ℕ) * dt)) := by gcongr
        _ = _ := by push_cast; ring
  exact fun k hk => (key k hk).trans (hbd k hk)

end Verif.ODE
