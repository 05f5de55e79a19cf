import Verif.Lemmas.Truncation
import Verif.Props.HW
import Mathlib.Analysis.SpecialFunctions.Trigonometric.Deriv

/-!
# Property theorems C10, C74, C75: accuracy on smooth functions

`Samples dx F a`: the array `a` holds the values of the periodic function `F`
on the grid.  `Partials r D B`: `D a b` is `∂y^a ∂x^b (D 0 0)`, all of them
bounded by `B` up to total order `r`.
-/

set_option linter.unusedSectionVars false

namespace Verif.Props

open Arr NS Spec

/-! ## C10 -/

/-- **C10 (gradient along y).** -/
theorem C10_gradient_y (F Fy Fyy Fyyy : ℝ → ℝ → ℝ) (h1 : HasPartialY F Fy) (h2 : HasPartialY Fy Fyy) (h3 : HasPartialY Fyy Fyyy)
    (M : ℝ) (hM : ∀ y x, |Fyyy y x| ≤ M) (a : Arr ℝ) (hh : 0 < a.h) (hw : 0 < a.w) (dx : ℝ) (hdx : 0 < dx)
    (ha : Samples dx F a) (axis : Int) (hax : axis = 0 ∨ axis = -2) :
    ∃ r, NumpyGradients.periodic_gradient a dx axis = .ok r ∧
      ∀ i j, i < a.h → j < a.w → |r.at' i j - Fy (i * dx) (j * dx)| ≤ M / 6 * dx ^ 2 := by
  have : NeZero a.h := ⟨hh.ne'⟩
  have : NeZero a.w := ⟨hw.ne'⟩
  have hy : NumpyGradients.periodic_gradient a dx axis
      = .ok (ofField (gradY dx (samp a.h a.w dx F))) := by
    rw [← numpy_periodic_gradient_y, ← samples_eq ha]
    rcases hax with rfl | rfl <;>
      simp [NumpyGradients.periodic_gradient, NumpyGradients.gradient]
  refine ⟨_, hy, fun i j hi hj => ?_⟩
  rw [gradY_samp (samples_per ha), samp_at hi hj]
  have h := central_first (f := fun y => F y (j * dx)) (fun t => h1 t _) (fun t => h2 t _)
    (fun t => h3 t _) (fun t => hM t _) (i * dx) hdx.le
  have e := div_bound hdx 3 h
  refine le_trans (le_of_eq ?_) (e.trans_eq (by ring))
  congr 1
  unfold cdY; field_simp

/-- **C10 (gradient along x).** -/
theorem C10_gradient_x (F Fx Fxx Fxxx : ℝ → ℝ → ℝ) (h1 : HasPartialX F Fx) (h2 : HasPartialX Fx Fxx) (h3 : HasPartialX Fxx Fxxx)
    (M : ℝ) (hM : ∀ y x, |Fxxx y x| ≤ M) (a : Arr ℝ) (hh : 0 < a.h) (hw : 0 < a.w) (dx : ℝ) (hdx : 0 < dx)
    (ha : Samples dx F a) (axis : Int) (hax : axis = 1 ∨ axis = -1) :
    ∃ r, NumpyGradients.periodic_gradient a dx axis = .ok r ∧
      ∀ i j, i < a.h → j < a.w → |r.at' i j - Fx (i * dx) (j * dx)| ≤ M / 6 * dx ^ 2 := by
  have : NeZero a.h := ⟨hh.ne'⟩
  have : NeZero a.w := ⟨hw.ne'⟩
  have hy : NumpyGradients.periodic_gradient a dx axis
      = .ok (ofField (gradX dx (samp a.h a.w dx F))) := by
    rw [← numpy_periodic_gradient_x, ← samples_eq ha]
    rcases hax with rfl | rfl <;>
      simp [NumpyGradients.periodic_gradient, NumpyGradients.gradient]
  refine ⟨_, hy, fun i j hi hj => ?_⟩
  rw [gradX_samp (samples_per ha), samp_at hi hj]
  have h := central_first (f := fun x => F (i * dx) x) (fun t => h1 _ t) (fun t => h2 _ t)
    (fun t => h3 _ t) (fun t => hM _ t) (j * dx) hdx.le
  have e := div_bound hdx 3 h
  refine le_trans (le_of_eq ?_) (e.trans_eq (by ring))
  congr 1
  unfold cdX; field_simp

/-- **C10 (Laplacian).** For every function with partial derivatives up to
order 4 bounded by `B`. -/
theorem C10_laplace (D : ℕ → ℕ → ℝ → ℝ → ℝ) (B : ℝ) (hD : Partials 4 D B) (a : Arr ℝ) (hh : 0 < a.h)
    (hw : 0 < a.w) (dx : ℝ) (hdx : 0 < dx) (ha : Samples dx (D 0 0) a) :
    ∃ r, NumpyGradients.periodic_laplace a dx = .ok r ∧
      ∀ i j, i < a.h → j < a.w →
        |r.at' i j - (D 2 0 (i * dx) (j * dx) + D 0 2 (i * dx) (j * dx))| ≤ B / 6 * dx ^ 2 := by
  have : NeZero a.h := ⟨hh.ne'⟩
  have : NeZero a.w := ⟨hw.ne'⟩
  refine ⟨ofField (lap dx (samp a.h a.w dx (D 0 0))), ?_, fun i j hi hj => ?_⟩
  · rw [← numpy_periodic_laplace_ofField, ← samples_eq ha]
  · rw [lap_samp (samples_per ha), samp_at hi hj]
    exact (Lh_err hD (a := 0) (b := 0) (by omega) hdx _ _).trans_eq (by ring)

/-- **C10 (powers of the Laplacian).** -/
theorem C10_laplace_N (N : ℕ) (D : ℕ → ℕ → ℝ → ℝ → ℝ) (B : ℝ) (hD : Partials (2 * N + 2) D B) (a : Arr ℝ)
    (hh : 0 < a.h) (hw : 0 < a.w) (dx : ℝ) (hdx : 0 < dx) (ha : Samples dx (D 0 0) a) :
    ∃ r, NumpyGradients.periodic_laplace_N a dx N = .ok r ∧
      ∀ i j, i < a.h → j < a.w →
        |r.at' i j - (lapFam^[N] D) 0 0 (i * dx) (j * dx)| ≤ N * 2 ^ N * B / 12 * dx ^ 2 := by
  have : NeZero a.h := ⟨hh.ne'⟩
  have : NeZero a.w := ⟨hw.ne'⟩
  refine ⟨ofField ((lap dx)^[N] (samp a.h a.w dx (D 0 0))), ?_, fun i j hi hj => ?_⟩
  · rw [← numpy_periodic_laplace_N_ofField, ← samples_eq ha]
  · rw [lap_iterate_samp (samples_per ha), samp_at hi hj]
    exact (Lh_iterate_err hdx N hD _ _).trans_eq (by ring)

/-! ## C74 -/

/-- **C74.** On samples of smooth functions the Poisson bracket differs from
`∂x ζ ∂y ψ - ∂y ζ ∂x ψ` by at most `22/9 A C dx²`. -/
theorem C74_bracket_second_order (Z P : ℕ → ℕ → ℝ → ℝ → ℝ) (A C : ℝ) (hZ : Partials 4 Z A)
    (hP : Partials 4 P C) (z p : Arr ℝ) (hh : 0 < z.h) (hw : 0 < z.w) (eh : p.h = z.h) (ew : p.w = z.w)
    (dx : ℝ) (hdx : 0 < dx) (hz : Samples dx (Z 0 0) z) (hp : Samples dx (P 0 0) p) :
    ∃ r, NumpyArakawa.periodic_arakawa_vec z p dx = .ok r ∧
      ∀ i j, i < z.h → j < z.w →
        |r.at' i j - (Z 0 1 (i * dx) (j * dx) * P 1 0 (i * dx) (j * dx)
          - Z 1 0 (i * dx) (j * dx) * P 0 1 (i * dx) (j * dx))| ≤ 22 / 9 * (A * C) * dx ^ 2 := by
  have : NeZero z.h := ⟨hh.ne'⟩
  have : NeZero z.w := ⟨hw.ne'⟩
  have e1 := samples_eq hz
  have e2 := samples_eq hp
  have hp' := samples_per hp
  rw [eh, ew] at e2 hp'
  refine ⟨ofField (jac dx (samp z.h z.w dx (Z 0 0)) (samp z.h z.w dx (P 0 0))), ?_, fun i j hi hj => ?_⟩
  · rw [← numpy_arakawa_vec_ofField, ← e1, ← e2]
  · rw [jac_samp (samples_per hz) hp', samp_at hi hj]
    exact Jh_err hZ hP hdx _ _

/-! ## C75 -/

/-- **C75.** On samples of smooth periodic density, vorticity and potential the
right-hand side computed by `gradient_2d` differs from that of the
Hasegawa–Wakatani equations by at most a constant times `dx²`, at every grid
point, for every coefficient, every order of the hyperdiffusion and both forms of the
adiabatic coupling. -/
theorem C75_rhs_second_order (b : Backend) (P : Params) (hdx : 0 < P.dx)
    (dx0 k0 : ℝ) (test : Bool) (y : NS Val) (hres : ∀ k ∈ y.keys, k ∉ reservedNames) (n o p : Arr ℝ)
    (hh : 0 < n.h) (hw : 0 < n.w) (hb : Std b n.h n.w)
    (eo : o.h = n.h ∧ o.w = n.w) (ep : p.h = n.h ∧ p.w = n.w)
    (hn : y.get? "density" = some (.arr n)) (ho : y.get? "omega" = some (.arr o))
    (hage : y.get? "age" = none ∨ ∃ a, y.get? "age" = some (.num a)) (dt : ℝ) (c : Calls)
    (nf wf pf : ℕ → ℕ → ℝ → ℝ → ℝ) (B : ℝ) (r : ℕ) (hr : 4 ≤ r) (hr' : 2 * P.N + 2 ≤ r)
    (pn : Partials r nf B) (po : Partials r wf B) (pp : Partials r pf B)
    (sn : Samples P.dx (nf 0 0) n) (so : Samples P.dx (wf 0 0) o) (sp : Samples P.dx (pf 0 0) p) :
    ∃ g c' gn go, (HW.init b dx0 P.N P.c1 P.nu k0 P.pb P.kappa P.zonal test).gradient_2d y
        (some (.arr p)) dt P.dx P.zonal c = .ok (g, c') ∧
      g.get? "density" = some (.arr gn) ∧ g.get? "omega" = some (.arr go) ∧
      ∀ i j, i < n.h → j < n.w →
        |gn.at' i j - pdeN P (n.h * P.dx) nf pf (i * P.dx) (j * P.dx)| ≤ pdeK P B * P.dx ^ 2 ∧
        |go.at' i j - pdeO P (n.h * P.dx) nf wf pf (i * P.dx) (j * P.dx)| ≤ pdeK P B * P.dx ^ 2 := by
  have : NeZero n.h := ⟨hh.ne'⟩
  have : NeZero n.w := ⟨hw.ne'⟩
  have e1 := samples_eq sn
  have e2 := samples_eq so
  have e3 := samples_eq sp
  have qn := samples_per sn
  have qo := samples_per so
  have qp := samples_per sp
  rw [eo.1, eo.2] at e2 qo
  rw [ep.1, ep.2] at e3 qp
  have H := (C23_gradient_2d (h := n.h) (w := n.w) b hb P dx0 k0 test y hres
    (samp n.h n.w P.dx (nf 0 0)) (samp n.h n.w P.dx (wf 0 0)) (samp n.h n.w P.dx (pf 0 0))
    (by rw [← e1]; exact hn) (by rw [← e2]; exact ho) hage dt c).1
  obtain ⟨g, c', eg, gn, go, -, -⟩ := H
  rw [← e3] at eg
  refine ⟨g, c', _, _, eg, gn, go, fun i j hi hj => ?_⟩
  have hi' : ((i : ZMod n.h).val : ℝ) = i := by rw [ZMod.val_natCast, Nat.mod_eq_of_lt hi]
  have hj' : ((j : ZMod n.w).val : ℝ) = j := by rw [ZMod.val_natCast, Nat.mod_eq_of_lt hj]
  have h1 := rhsN_err P hdx hr hr' pn pp qn qp (i : ZMod n.h) (j : ZMod n.w)
  have h2 := rhsO_err P hdx hr hr' pn po pp qn qo qp (i : ZMod n.h) (j : ZMod n.w)
  rw [hi', hj'] at h1 h2
  rw [ofField_at' _ hi hj, ofField_at' _ hi hj]
  exact ⟨h1, h2⟩

/-- the entries of the plane-wave family `sin y cos x` and its derivatives -/
noncomputable def waveFam (a b : ℕ) (y x : ℝ) : ℝ :=
  Real.sin (y + a * (Real.pi / 2)) * Real.cos (x + b * (Real.pi / 2))

theorem waveFam_partials (r : ℕ) : Partials r waveFam 1 where
  dy a b _ y x := by
    have h := ((Real.hasDerivAt_sin (y + a * (Real.pi / 2))).comp_add_const y (a * (Real.pi / 2))).mul_const
      (Real.cos (x + b * (Real.pi / 2)))
    refine h.congr_deriv ?_
    unfold waveFam
    rw [← Real.sin_add_pi_div_two]
    congr 2; push_cast; ring
  dx a b _ y x := by
    have h := ((Real.hasDerivAt_cos (x + b * (Real.pi / 2))).comp_add_const x (b * (Real.pi / 2))).const_mul
      (Real.sin (y + a * (Real.pi / 2)))
    refine h.congr_deriv ?_
    unfold waveFam
    rw [← Real.cos_add_pi_div_two]
    congr 2; push_cast; ring
  bound a b _ y x := by
    unfold waveFam
    rw [abs_mul]
    exact mul_le_one₀ (Real.abs_sin_le_one _) (abs_nonneg _) (Real.abs_cos_le_one _)

/-- samples of `sin y cos x` on the 8 × 8 grid of the box `[0, 2π)²` -/
noncomputable def waveArr : Arr ℝ :=
  tab 8 8 fun i j => waveFam 0 0 (i * (Real.pi / 4)) (j * (Real.pi / 4))

theorem waveArr_samples : Samples (Real.pi / 4) (waveFam 0 0) waveArr where
  entry i j hi hj := tab_at' _ _ _ hi hj
  periodY y x := by
    show waveFam 0 0 (y + (8 : ℕ) * (Real.pi / 4)) x = _
    unfold waveFam
    congr 1
    have : y + ((8 : ℕ) : ℝ) * (Real.pi / 4) + ((0 : ℕ) : ℝ) * (Real.pi / 2)
      = (y + ((0 : ℕ) : ℝ) * (Real.pi / 2)) + 2 * Real.pi := by push_cast; ring
    rw [this, Real.sin_add_two_pi]
  periodX y x := by
    show waveFam 0 0 y (x + (8 : ℕ) * (Real.pi / 4)) = _
    unfold waveFam
    congr 1
    have : x + ((8 : ℕ) : ℝ) * (Real.pi / 4) + ((0 : ℕ) : ℝ) * (Real.pi / 2)
      = (x + ((0 : ℕ) : ℝ) * (Real.pi / 2)) + 2 * Real.pi := by push_cast; ring
    rw [this, Real.cos_add_two_pi]

example := C10_gradient_y _ _ _ _ ((waveFam_partials 3).dy 0 0 (by decide))
  ((waveFam_partials 3).dy 1 0 (by decide)) ((waveFam_partials 3).dy 2 0 (by decide)) 1
  ((waveFam_partials 3).bound 3 0 (by decide)) waveArr (by decide) (by decide) (Real.pi / 4)
  (by positivity) waveArr_samples 0 (.inl rfl)
example := C10_gradient_x _ _ _ _ ((waveFam_partials 3).dx 0 0 (by decide))
  ((waveFam_partials 3).dx 0 1 (by decide)) ((waveFam_partials 3).dx 0 2 (by decide)) 1
  ((waveFam_partials 3).bound 0 3 (by decide)) waveArr (by decide) (by decide) (Real.pi / 4)
  (by positivity) waveArr_samples (-1) (.inr rfl)
example := C10_laplace waveFam 1 (waveFam_partials 4) waveArr (by decide) (by decide) (Real.pi / 4)
  (by positivity) waveArr_samples
example := C10_laplace_N 3 waveFam 1 (waveFam_partials 8) waveArr (by decide) (by decide) (Real.pi / 4)
  (by positivity) waveArr_samples
example := C74_bracket_second_order waveFam waveFam 1 1 (waveFam_partials 4) (waveFam_partials 4)
  waveArr waveArr (by decide) (by decide) rfl rfl (Real.pi / 4) (by positivity) waveArr_samples
  waveArr_samples

example := C75_rhs_second_order numpyBackend ⟨Real.pi / 4, 3, 1, 1 / 10, 1, 1, true⟩
  (by show 0 < Real.pi / 4; positivity) 1 1 true
  [("density", .arr waveArr), ("omega", .arr waveArr), ("age", .num 7)] (by decide)
  waveArr waveArr waveArr (by decide) (by decide) (.inl rfl) ⟨rfl, rfl⟩ ⟨rfl, rfl⟩ rfl rfl
  (.inr ⟨7, rfl⟩) (1 / 2) {} waveFam waveFam waveFam 1 8 (by decide) (by decide) (waveFam_partials 8)
  (waveFam_partials 8) (waveFam_partials 8) waveArr_samples waveArr_samples waveArr_samples

end Verif.Props
