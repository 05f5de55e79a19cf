import Verif.Props.Float
import Verif.Props.PDEConvergence

/-!
# Property theorem C108: what is computed in floating point converges to the equations

C86 (exact arithmetic against the partial differential equations) and C103 (floating point against exact
arithmetic) together.
-/

set_option linter.unusedSectionVars false

namespace Verif.Props

open Arr NS Spec Set Rounding

/-- difference between a floating-point array and a function of `(y, x)` at the grid points -/
noncomputable def floatErr {u : ℝ} {R : Rounded u} (dx : ℝ) (a : Arr (Rd R)) (F : ℝ → ℝ → ℝ) (i j : ℕ) : ℝ :=
  (a.at' i j).val - F (i * dx) (j * dx)

theorem rms_perturb {h w : ℕ} (h0 : 0 < h) (w0 : 0 < w) {f g : ℕ → ℕ → ℝ} {e r : ℝ} (he : 0 ≤ e)
    (H : ∀ i j, i < h → j < w → |f i j - g i j| ≤ e) (hg : rms h w g ≤ r) : rms h w f ≤ 2 * (r + e) := by
  have hc : (0 : ℝ) < (h : ℝ) * w := by positivity
  have hr : 0 ≤ r := (Real.sqrt_nonneg _).trans hg
  unfold rms at *
  rw [Real.sqrt_le_left hr, div_le_iff₀ hc] at hg
  rw [Real.sqrt_le_left (by positivity), div_le_iff₀ hc]
  have h1 : ∑ i ∈ Finset.range h, ∑ j ∈ Finset.range w, f i j ^ 2
      ≤ ∑ i ∈ Finset.range h, ∑ j ∈ Finset.range w, (2 * g i j ^ 2 + 2 * e ^ 2) := by
    refine Finset.sum_le_sum fun i hi => Finset.sum_le_sum fun j hj => ?_
    have := abs_le.1 (H i j (Finset.mem_range.1 hi) (Finset.mem_range.1 hj))
    have h2 : (f i j - g i j) ^ 2 ≤ e ^ 2 := sq_le_sq' this.1 this.2
    nlinarith [sq_nonneg (f i j - 2 * g i j)]
  have h3 : ∑ i ∈ Finset.range h, ∑ j ∈ Finset.range w, (2 * g i j ^ 2 + 2 * e ^ 2)
      = 2 * (∑ i ∈ Finset.range h, ∑ j ∈ Finset.range w, g i j ^ 2) + h * w * (2 * e ^ 2) := by
    simp only [Finset.sum_add_distrib, Finset.sum_const, Finset.card_range, nsmul_eq_mul, ← Finset.mul_sum]
    ring
  rw [h3] at h1
  nlinarith [mul_nonneg hr he, mul_nonneg hc.le (mul_nonneg hr he), mul_nonneg hc.le (sq_nonneg r), mul_nonneg hc.le (sq_nonneg e)]

/-- **C108.** Let `n, w, p` be a smooth solution of the Hasegawa–Wakatani equations on the periodic box
`Ly × Lx` and the time interval `[0, T]`.  There is one constant `C` such that on every `h × w` grid of that box,
for every small enough time step and every arithmetic that is accurate enough for it, the time steppers
evaluated in that arithmetic, started from rounded samples of the solution at time 0, raise no error and stay
within `C dx²` of the samples of the solution in root mean square and within `C dx` at every grid point, at
every step up to time `T` (the potential from the first step on). -/
theorem C108_floating_point_converges (P : Params) (hnu : 0 ≤ P.nu) {Ly Lx T B : ℝ} {r : ℕ} (hT : 0 ≤ T) (hr : 4 ≤ r)
    (hr' : 2 * P.N + 2 ≤ r) {nf wf pf : ℝ → ℕ → ℕ → ℝ → ℝ → ℝ} (H : HWSolution P Ly Lx T r B nf wf pf) :
    ∃ C, 0 ≤ C ∧ ∀ (h w : ℕ) (dx : ℝ), 0 < h → 0 < w → 0 < dx → h * dx = Ly → w * dx = Lx →
      ∀ (b : Backend) (dx0 k0 : ℝ) (test : Bool), Std b h w →
      ∀ hw, hw = HW.init b dx0 P.N P.c1 P.nu k0 P.pb P.kappa P.zonal test →
      ∀ s, IsState test h w s → Consistent hw dx s →
        Sampled h w dx (nf 0 0 0) (arrOf s "density") → Sampled h w dx (wf 0 0 0) (arrOf s "omega") →
      ∃ δ, 0 < δ ∧ ∀ dt, 0 < dt → dt ≤ δ →
        ∀ (u : ℝ) (R : Rounded u) (A : Gen.Arith (Rd R)) (η : ℝ), 0 ≤ u → 0 ≤ η → u + η ≤ δ * dt →
        Accurate A b η h w ⟨dx⟩ → ∀ step, step = Step.rk4 ∨ step = Step.euler →
        ∀ x0 : Gen.State (Rd R), FloatClose h w (u + η) x0 s → ∀ k : ℕ, k * dt ≤ T →
        ∃ x, Gen.iterate (floatStep A hw dx (step dt)) k x0 = .ok x ∧
          (rms h w (floatErr dx x.density (nf (k * dt) 0 0)) ≤ C * dx ^ 2 ∧
            rms h w (floatErr dx x.omega (wf (k * dt) 0 0)) ≤ C * dx ^ 2 ∧
            (0 < k → rms h w (floatErr dx x.phi (pf (k * dt) 0 0)) ≤ C * dx ^ 2)) ∧
          ∀ i j, i < h → j < w → |floatErr dx x.density (nf (k * dt) 0 0) i j| ≤ C * dx ∧
            |floatErr dx x.omega (wf (k * dt) 0 0) i j| ≤ C * dx ∧
            (0 < k → |floatErr dx x.phi (pf (k * dt) 0 0) i j| ≤ C * dx) := by
  obtain ⟨C, hC, HC⟩ := C86_converges_to_pde P hnu hT hr hr' H
  generalize hK : max (2 * (C + 1)) (Real.sqrt (Ly * Lx) * (2 * (C + 1))) = K
  have hK1 : 2 * (C + 1) ≤ K := hK ▸ le_max_left _ _
  have hK2 : Real.sqrt (Ly * Lx) * (2 * (C + 1)) ≤ K := hK ▸ le_max_right _ _
  refine ⟨K, le_trans (by positivity) hK1, ?_⟩
  intro h w dx h0 w0 hdx hy hx b dx0 k0 test hb hw ehw s hs hcon sn so
  have hb' : Std hw.backend h w := by rw [ehw]; exact hb
  have hs' : IsState hw.TEST_CONSERVATION h w s := by rw [ehw]; exact hs
  obtain ⟨dt0, hdt0, HC⟩ := HC h w dx h0 w0 hdx hy hx b dx0 k0 test hb hw ehw s hs sn so
  obtain ⟨N, O, -, -, -, C', δ, hC', hδ, HF⟩ := C103_floating_point h0 w0 hb' hdx.ne' s hs' hcon T hT
  refine ⟨min (min dt0 δ) (dx ^ 2 / (C' + 1)), lt_min (lt_min hdt0 hδ) (by positivity), ?_⟩
  intro dt hdt hle u R A η u0 η0 hp hA step hstep x0 hx0 k hk
  have l1 : dt ≤ dt0 := hle.trans ((min_le_left _ _).trans (min_le_left _ _))
  have l2 : dt ≤ δ := hle.trans ((min_le_left _ _).trans (min_le_right _ _))
  have p1 : u + η ≤ δ * dt := hp.trans (mul_le_mul_of_nonneg_right ((min_le_left _ _).trans (min_le_right _ _)) hdt.le)
  have p2 : u + η ≤ dx ^ 2 / (C' + 1) * dt := hp.trans (mul_le_mul_of_nonneg_right (min_le_right _ _) hdt.le)
  have p3 : C' * ((u + η) / dt) ≤ dx ^ 2 := by
    have q : (u + η) / dt ≤ dx ^ 2 / (C' + 1) := by rw [div_le_iff₀ hdt]; exact p2
    have q2 : C' * ((u + η) / dt) ≤ C' * (dx ^ 2 / (C' + 1)) := mul_le_mul_of_nonneg_left q hC'
    have q3 : C' * (dx ^ 2 / (C' + 1)) ≤ dx ^ 2 := by
      rw [mul_div_assoc', div_le_iff₀ (by positivity)]
      nlinarith [sq_nonneg dx]
    exact q2.trans q3
  have hA' : Accurate A hw.backend η h w ⟨dx⟩ := by rw [ehw]; exact hA
  obtain ⟨ex, hex⟩ : ∃ e : ℕ, step dt = Step.rk4 dt ∧ e = 4 ∨ step dt = Step.euler dt ∧ e = 1 := by
    rcases hstep with rfl | rfl
    · exact ⟨4, .inl ⟨rfl, rfl⟩⟩
    · exact ⟨1, .inr ⟨rfl, rfl⟩⟩
  obtain ⟨x, e, hcl, -⟩ := HF dt hdt l2 u R A η u0 η0 p1 hA' (step dt) ex hex x0 hx0 k hk
  obtain ⟨s1, c1, e1, -, -, -, hd⟩ := hcl {}
  obtain ⟨s2, c2, e2, r1, r2, r3⟩ := HC dt hdt.le l1 k hk step hstep {}
  obtain ⟨rfl, rfl⟩ := Prod.mk.inj (Except.ok.inj (e1.symm.trans e2))
  have key : ∀ (a : Arr (Rd R)) (F : ℝ → ℝ → ℝ) (n : Arr ℝ), (∀ i j, i < h → j < w → |(a.at' i j).val - n.at' i j| ≤ C' * ((u + η) / dt)) →
      rms h w (gridErr dx n F) ≤ C * dx ^ 2 → rms h w (floatErr dx a F) ≤ 2 * (C + 1) * dx ^ 2 := by
    intro a F n ha hn
    have := rms_perturb (f := floatErr dx a F) (g := gridErr dx n F) (e := dx ^ 2) h0 w0 (sq_nonneg dx)
      (fun i j hi hj => by
        unfold floatErr gridErr
        rw [sub_sub_sub_cancel_right]
        exact (ha i j hi hj).trans p3) hn
    linarith
  have t1 := key x.density (nf (k * dt) 0 0) _ (fun i j hi hj => (hd i j hi hj).1) r1
  have t2 := key x.omega (wf (k * dt) 0 0) _ (fun i j hi hj => (hd i j hi hj).2.1) r2
  have t3 := fun hk0 => key x.phi (pf (k * dt) 0 0) _ (fun i j hi hj => (hd i j hi hj).2.2) (r3 hk0)
  have up : ∀ {y : ℝ}, y ≤ 2 * (C + 1) * dx ^ 2 → y ≤ K * dx ^ 2 := fun hy =>
    hy.trans (mul_le_mul_of_nonneg_right hK1 (sq_nonneg dx))
  have pw : ∀ {f : ℕ → ℕ → ℝ}, rms h w f ≤ 2 * (C + 1) * dx ^ 2 → ∀ i j, i < h → j < w → |f i j| ≤ K * dx := by
    intro f hf i j hi hj
    have e4 : Real.sqrt (h * w) * (2 * (C + 1) * dx ^ 2) = Real.sqrt (Ly * Lx) * (2 * (C + 1)) * dx := by
      have : Ly * Lx = h * w * dx ^ 2 := by rw [← hy, ← hx]; ring
      rw [this, Real.sqrt_mul (by positivity : (0 : ℝ) ≤ (h : ℝ) * w) (dx ^ 2), Real.sqrt_sq hdx.le]; ring
    have := abs_le_of_rms h0 w0 hf hi hj
    rw [e4] at this
    exact this.trans (mul_le_mul_of_nonneg_right hK2 hdx.le)
  exact ⟨x, e, ⟨up t1, up t2, fun hk0 => up (t3 hk0)⟩,
    fun i j hi hj => ⟨pw t1 i j hi hj, pw t2 i j hi hj, fun hk0 => pw (t3 hk0) i j hi hj⟩⟩

/-! ### non-vacuity: the drift wave, computed with binary floating-point numbers -/

example : ∃ C, ∀ m : ℕ, 0 < m → ∀ hw, hw = HW.init numpyBackend 1 1 3 (1 / 10) 1 1 (40 / 3) false true →
    ∃ dt : ℝ, 0 < dt ∧ ∃ (p : ℕ) (A : Gen.Arith (Rd (Rounded.binary p))) (x0 : Gen.State (Rd (Rounded.binary p))),
      ∀ k : ℕ, 0 < k → k * dt ≤ 5 → ∃ x, Gen.iterate (floatStep A hw (2 * Real.pi / m) (.rk4 dt)) k x0 = .ok x ∧
        rms m m (floatErr (2 * Real.pi / m) x.phi fun y _ => amp (k * dt) * Real.cos (y - 4 * (k * dt)))
          ≤ C * (2 * Real.pi / m) ^ 2 := by
  obtain ⟨C, -, H⟩ := C108_floating_point_converges _ (by norm_num) (by norm_num) le_rfl (by norm_num)
    (drift_wave 5)
  refine ⟨C, fun m hm hw ehw => ?_⟩
  have hm' : (m : ℝ) ≠ 0 := by positivity
  have hb : Std hw.backend m m := by rw [ehw]; exact .inl rfl
  obtain ⟨s, hs, hc, h1, h2⟩ := exists_sampled_state hw (2 * Real.pi / m) hm hm hb true
    (modeFam (5 / 3 * amp 0) (4 / 3 * amp 0) (4 * 0) 0 0) (modeFam (- amp 0) 0 (4 * 0) 0 0)
  obtain ⟨δ, hδ, H⟩ := H m m (2 * Real.pi / m) hm hm (by positivity) (by field_simp) (by field_simp)
    numpyBackend 1 1 true (.inl rfl) hw ehw s hs hc h1 h2
  obtain ⟨p, A, η, η0, hp, hA⟩ := C103_arithmetic_exists (hw := hw) hm hm hb (2 * Real.pi / m) (δ * δ) (by positivity)
  have hA' : Accurate A numpyBackend η m m ⟨2 * Real.pi / m⟩ := by rw [ehw] at hA; exact hA
  let x0 : Gen.State (Rd (Rounded.binary p)) :=
    ⟨tab m m fun i j => ⟨(arrOf s "density").at' i j⟩, tab m m fun i j => ⟨(arrOf s "omega").at' i j⟩,
      tab m m fun i j => ⟨(arrOf s "phi").at' i j⟩⟩
  have hx : FloatClose m m (2 ^ (-(p : ℤ)) + η) x0 s := by
    refine ⟨⟨rfl, rfl⟩, ⟨rfl, rfl⟩, ⟨rfl, rfl⟩, fun i j hi hj => ?_⟩
    have : (0 : ℝ) ≤ 2 ^ (-(p : ℤ)) + η := by positivity
    simp only [x0, tab_at' _ _ _ hi hj, sub_self, abs_zero, this, and_self]
  refine ⟨δ, hδ, p, A, x0, fun k hk hkT => ?_⟩
  obtain ⟨x, e, ⟨-, -, q⟩, -⟩ := H δ hδ le_rfl _ _ A η (by positivity) η0 hp hA' _ (.inl rfl) x0 hx k hkT
  refine ⟨x, e, ?_⟩
  have : (modeFam (amp (k * δ)) 0 (4 * (k * δ)) 0 0 : ℝ → ℝ → ℝ)
      = fun y _ => amp (k * δ) * Real.cos (y - 4 * (k * δ)) := by
    funext y x; rw [modeFam_zero]; ring
  rw [← this]; exact q hk

end Verif.Props
