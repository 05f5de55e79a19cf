import Verif.Model.Phiml
import Verif.Model.Gradients
import Verif.Props.Common

/-!
# Property theorem C90: the PhiML operators
-/

set_option linter.unusedSectionVars false

namespace Verif.Props

open Arr Spec

section fields
variable {h w : ℕ} [NeZero h] [NeZero w]

private theorem padAt (f : Fld h w) {a b : ℕ} (ha : a < h + 2) (hb : b < w + 2) :
    (tab (h + 2) (w + 2) fun i j => f ((i : ZMod h) - (1 : ℕ)) ((j : ZMod w) - (1 : ℕ))).at' a b
      = f ((a : ZMod h) - (1 : ℕ)) ((b : ZMod w) - (1 : ℕ)) := tab_at' _ _ _ ha hb

private theorem phiml_laplace_ofField (f : Fld h w) (dx : ℝ) :
    PhimlGradients.periodic_laplace (ofField f) dx = .ok (ofField (Spec.lap dx f)) := by
  unfold PhimlGradients.periodic_laplace Phiml.convolve
  rw [padWrap_ofField]
  simp only [Py.ok_bind, Py.pure_eq, mul_one, map_tab, ofField_h, ofField_w]
  congr 1
  refine tab_congr rfl rfl fun i j hi hj => ?_
  simp only [Fin.sum_univ_three, PhimlGradients.laplace_kernel]
  simp only [Matrix.cons_val, Fin.val_zero, Fin.val_one, Fin.val_two]
  rw [padAt f (by omega) (by omega), padAt f (by omega) (by omega), padAt f (by omega) (by omega),
    padAt f (by omega) (by omega), padAt f (by omega) (by omega), padAt f (by omega) (by omega),
    padAt f (by omega) (by omega), padAt f (by omega) (by omega), padAt f (by omega) (by omega)]
  unfold Spec.lap
  congr 1
  push_cast
  rw [show (i : ZMod h) + 2 - 1 = i + 1 by ring, show (j : ZMod w) + 2 - 1 = j + 1 by ring]
  simp only [add_zero, add_sub_cancel_right]
  ring

private theorem phiml_gradient_y (f : Fld h w) (dx : ℝ) :
    PhimlGradients.periodic_gradient (ofField f) dx .y = .ok (ofField (Spec.gradY dx f)) := by
  unfold PhimlGradients.periodic_gradient Phiml.spatial_gradient
  rw [padWrap_ofField]
  simp only [Py.ok_bind, Py.pure_eq, mul_one, ofField_h, ofField_w]
  congr 1
  refine tab_congr rfl rfl fun i j hi hj => ?_
  rw [padAt f (by omega) (by omega), padAt f (by omega) (by omega)]
  unfold Spec.gradY
  push_cast
  rw [show (i : ZMod h) + 2 - 1 = i + 1 by ring]
  simp only [add_sub_cancel_right]
  rw [mul_comm dx]

private theorem phiml_gradient_x (f : Fld h w) (dx : ℝ) :
    PhimlGradients.periodic_gradient (ofField f) dx .x = .ok (ofField (Spec.gradX dx f)) := by
  unfold PhimlGradients.periodic_gradient Phiml.spatial_gradient
  rw [padWrap_ofField]
  simp only [Py.ok_bind, Py.pure_eq, mul_one, ofField_h, ofField_w]
  congr 1
  refine tab_congr rfl rfl fun i j hi hj => ?_
  rw [padAt f (by omega) (by omega), padAt f (by omega) (by omega)]
  unfold Spec.gradX
  push_cast
  rw [show (j : ZMod w) + 2 - 1 = j + 1 by ring]
  simp only [add_sub_cancel_right]
  rw [mul_comm dx]

private theorem lamb_nat {i j : ℕ} (hi : i < h) (hj : j < w) :
    -((2 * Real.pi) ^ 2) * (fftfreq h i ^ 2 + fftfreq w j ^ 2) = lamb (i : ZMod h) (j : ZMod w) := by
  unfold lamb; rw [kap_cast hi, kap_cast hj]

private theorem phiml_poisson_ofField (f : Fld h w) (dx : ℝ) (m : ℕ) :
    PhimlPoisson.fourier_poisson_single (ofField f) dx m
      = .ok (ofField fun i j => mult (sig m) f i j * dx ^ 2) := by
  classical
  unfold PhimlPoisson.fourier_poisson_single Phiml.safe_div Phiml.k_squared
  simp only [toComplex_ofField, fft2_ofField, Py.ok_bind, ofField_h, ofField_w, map_tab]
  rw [show ofField (D (cx f)) = tab h w fun i j => D (cx f) i j from rfl, zip_tab]
  simp only [Py.ok_bind]
  rw [show (tab h w fun i j => if (-((2 * Real.pi) ^ 2) * (fftfreq h i ^ 2 + fftfreq w j ^ 2)) ^ m = 0 then 0
        else D (cx f) i j / (((-((2 * Real.pi) ^ 2) * (fftfreq h i ^ 2 + fftfreq w j ^ 2)) ^ m : ℝ) : ℂ))
      = ofField fun k l => ((sig m k l : ℝ) : ℂ) * D (cx f) k l from ?_, ifft2_ofField]
  · rfl
  refine tab_congr rfl rfl fun i j hi hj => ?_
  rw [lamb_nat hi hj]
  unfold sig
  beta_reduce
  by_cases h0 : (i : ZMod h) = 0 ∧ (j : ZMod w) = 0
  · rw [if_pos h0, (lamb_eq_zero _ _).mpr h0]
    cases m <;> simp
  · have hne : lamb (i : ZMod h) (j : ZMod w) ≠ 0 := fun e => h0 ((lamb_eq_zero _ _).mp e)
    rw [if_neg h0, if_neg (pow_ne_zero _ hne)]
    push_cast; ring

private theorem phiml_fourier_ofField (f : Fld h w) (dx : ℝ) (m : ℕ) :
    PhimlGradients.fourier_laplace (ofField f) dx m
      = .ok (ofField fun i j => mult (fun k l => lamb k l ^ m) f i j * (1 / dx ^ 2)) := by
  unfold PhimlGradients.fourier_laplace Phiml.k_squared
  simp only [toComplex_ofField, fft2_ofField, Py.ok_bind, ofField_h, ofField_w, map_tab]
  rw [show ofField (D (cx f)) = tab h w fun i j => D (cx f) i j from rfl, zip_tab]
  simp only [Py.ok_bind]
  rw [show (tab h w fun i j => D (cx f) i j
        * (((-((2 * Real.pi) ^ 2) * (fftfreq h i ^ 2 + fftfreq w j ^ 2)) ^ m : ℝ) : ℂ))
      = ofField fun k l => ((lamb k l ^ m : ℝ) : ℂ) * D (cx f) k l from ?_, ifft2_ofField]
  · simp only [Py.ok_bind, Py.pure_eq]
    rw [real_ofField]
    congr 1
    unfold ofField
    rw [map_tab]
    refine tab_congr rfl rfl fun i j hi hj => ?_
    exact div_eq_mul_one_div _ _
  refine tab_congr rfl rfl fun i j hi hj => ?_
  rw [lamb_nat hi hj, mul_comm]

private theorem lamb_pow_neg (m : ℕ) (k : ZMod h) (l : ZMod w) : lamb (-k) (-l) ^ m = lamb k l ^ m := by
  rw [lamb_neg]

private theorem mult_zero (s : Fld h w) : mult s (fun _ _ => 0) = fun _ _ => 0 := by
  funext i j
  simp [mult, D, ID, S]

private theorem phiml_poisson_zero (dx : ℝ) (m : ℕ) :
    PhimlPoisson.fourier_poisson_single (ofField fun (_ : ZMod h) (_ : ZMod w) => (0 : ℝ)) dx m
      = .ok (ofField fun (_ : ZMod h) (_ : ZMod w) => (0 : ℝ)) := by
  rw [phiml_poisson_ofField, mult_zero]
  simp

end fields

/-! ## C90 -/

/-- **C90 (difference operators).** On every non-empty field the PhiML operators
return what the NumPy operators return. -/
theorem C90_phiml_differences (a : Arr ℝ) (dx : ℝ) (h0 : 0 < a.h) (w0 : 0 < a.w) :
    PhimlGradients.periodic_laplace a dx = NumpyGradients.periodic_laplace a dx ∧
    (∀ N, PhimlGradients.periodic_laplace_N a dx N = NumpyGradients.periodic_laplace_N a dx N) ∧
    PhimlGradients.periodic_gradient a dx .y = NumpyGradients.periodic_gradient a dx (-2) ∧
    PhimlGradients.periodic_gradient a dx .x = NumpyGradients.periodic_gradient a dx (-1) := by
  obtain ⟨h, w, f, _, e1, e2, rfl, -⟩ := exists_fields a a rfl rfl
  rw [← e1] at h0; rw [← e2] at w0
  have : NeZero h := ⟨h0.ne'⟩
  have : NeZero w := ⟨w0.ne'⟩
  refine ⟨?_, fun N => ?_, ?_, ?_⟩
  · rw [phiml_laplace_ofField, numpy_periodic_laplace_ofField]
  · clear e1 e2
    induction N generalizing f with
    | zero => rfl
    | succ N ih =>
      unfold PhimlGradients.periodic_laplace_N NumpyGradients.periodic_laplace_N
      rw [phiml_laplace_ofField, numpy_periodic_laplace_ofField]
      exact ih _
  · rw [phiml_gradient_y, ← numpy_periodic_gradient_y]
    simp [NumpyGradients.periodic_gradient, NumpyGradients.gradient]
  · rw [phiml_gradient_x, ← numpy_periodic_gradient_x]
    simp [NumpyGradients.periodic_gradient, NumpyGradients.gradient]

example := C90_phiml_differences (tab 5 4 fun i j => (i * i + 3 * j : ℝ)) (1 / 2) (by decide) (by decide)

/-- **C90 (Poisson solver).** `fourier_poisson_single` of the PhiML backend
returns what the NumPy solver returns, for every number of inversions. -/
theorem C90_phiml_poisson (a : Arr ℝ) (dx : ℝ) (times : ℕ) (h0 : 0 < a.h) (w0 : 0 < a.w) :
    PhimlPoisson.fourier_poisson_single a dx times
      = NumpyPoisson.fourier_poisson_double a dx times := by
  obtain ⟨h, w, f, _, e1, e2, rfl, -⟩ := exists_fields a a rfl rfl
  rw [← e1] at h0; rw [← e2] at w0
  have : NeZero h := ⟨h0.ne'⟩
  have : NeZero w := ⟨w0.ne'⟩
  rw [phiml_poisson_ofField, numpy_poisson_ofField]

example := C90_phiml_poisson (tab 5 4 fun i j => (i * i + 3 * j : ℝ)) (1 / 2) 2 (by decide) (by decide)

/-- **C90 (spectral Laplacian).** `fourier_laplace` of the PhiML backend returns
the spectral Laplacian of every field. -/
theorem C90_phiml_fourier_laplace (a : Arr ℝ) (dx : ℝ) (h0 : 0 < a.h) (w0 : 0 < a.w) :
    ∃ r, PhimlGradients.fourier_laplace a dx 1 = .ok r ∧ r.h = a.h ∧ r.w = a.w ∧
      IsLaplacian a.h a.w dx a.at' r.at' := by
  obtain ⟨h, w, f, _, e1, e2, rfl, -⟩ := exists_fields a a rfl rfl
  rw [← e1] at h0; rw [← e2] at w0
  have : NeZero h := ⟨h0.ne'⟩
  have : NeZero w := ⟨w0.ne'⟩
  refine ⟨_, phiml_fourier_ofField f dx 1, rfl, rfl, ?_⟩
  simp only [ofField_h, ofField_w]
  refine (isLaplacian_iff (at_ofField f) (at_ofField _)).mpr fun k l => ?_
  rw [D_mult_scaled _ (lamb_pow_neg 1)]
  simp only [pow_one]
  rw [div_eq_mul_one_div (lamb k l)]

example := C90_phiml_fourier_laplace (tab 5 4 fun i j => (i * i + 3 * j : ℝ)) (1 / 2) (by decide)
  (by decide)

/-- **C90 (inverse).** For every order `N ≥ 1`, `fourier_poisson_single` inverts
`fourier_laplace` up to the mean of the field. -/
theorem C90_phiml_inverse (a : Arr ℝ) (dx : ℝ) (N : ℕ) (h0 : 0 < a.h) (w0 : 0 < a.w) (hdx : dx ≠ 0)
    (hN : 1 ≤ N) :
    ∃ r b, PhimlGradients.fourier_laplace a dx N = .ok r ∧
      PhimlPoisson.fourier_poisson_single r dx N = .ok b ∧ b.h = a.h ∧ b.w = a.w ∧
      ∀ i j, i < a.h → j < a.w → b.at' i j = a.at' i j - Spec.mean a.h a.w a.at' := by
  obtain ⟨h, w, f, _, e1, e2, rfl, -⟩ := exists_fields a a rfl rfl
  rw [← e1] at h0; rw [← e2] at w0
  have : NeZero h := ⟨h0.ne'⟩
  have : NeZero w := ⟨w0.ne'⟩
  refine ⟨_, _, phiml_fourier_ofField f dx N, phiml_poisson_ofField _ dx N, rfl, rfl, ?_⟩
  intro i j hi hj
  simp only [ofField_h, ofField_w] at hi hj ⊢
  rw [ofField_at' _ hi hj, ofField_at' _ hi hj, spec_mean_of (at_ofField f)]
  have key : (fun i j => mult (sig N) (fun i j => mult (fun k l => lamb k l ^ N) f i j * (1 / dx ^ 2)) i j * dx ^ 2)
      = fun i j => f i j - avg f := by
    refine mult_ext ?_
    rw [D_mult_scaled _ (sig_neg N), D_mult_scaled _ (lamb_pow_neg N)]
    funext k l
    rw [D_center]
    unfold sig
    by_cases hz : k = 0 ∧ l = 0
    · simp [hz, show N ≠ 0 by omega]
    · have hne : lamb k l ≠ 0 := fun e => hz ((lamb_eq_zero _ _).mp e)
      simp only [hz, if_false]
      rw [← mul_assoc, ← Complex.ofReal_mul,
        show 1 / lamb k l ^ N * dx ^ 2 * (lamb k l ^ N * (1 / dx ^ 2)) = 1 by field_simp]
      simp
  exact congrFun (congrFun key _) _

example := C90_phiml_inverse (tab 5 4 fun i j => (i * i + 3 * j : ℝ)) (1 / 2) 3 (by decide) (by decide)
  (by norm_num) (by norm_num)

/-- **C90 (powers).** `fourier_laplace` of order `N + 1` is `dx²` times
`fourier_laplace` applied to the result of order `N`: the spacing enters only
once instead of `N + 1` times. -/
theorem C90_phiml_powers_partial (a : Arr ℝ) (dx : ℝ) (N : ℕ) (h0 : 0 < a.h) (w0 : 0 < a.w)
    (hdx : dx ≠ 0) :
    ∃ r s, PhimlGradients.fourier_laplace a dx N = .ok r ∧
      PhimlGradients.fourier_laplace r dx 1 = .ok s ∧ s.h = a.h ∧ s.w = a.w ∧
      PhimlGradients.fourier_laplace a dx (N + 1) = .ok (s.map (· * dx ^ 2)) := by
  obtain ⟨h, w, f, _, e1, e2, rfl, -⟩ := exists_fields a a rfl rfl
  rw [← e1] at h0; rw [← e2] at w0
  have : NeZero h := ⟨h0.ne'⟩
  have : NeZero w := ⟨w0.ne'⟩
  refine ⟨_, _, phiml_fourier_ofField f dx N, phiml_fourier_ofField _ dx 1, rfl, rfl, ?_⟩
  rw [phiml_fourier_ofField]
  have key : (fun i j => mult (fun k l => lamb k l ^ (N + 1)) f i j * (1 / dx ^ 2))
      = fun i j => mult (fun k l => lamb k l ^ 1)
          (fun i j => mult (fun k l => lamb k l ^ N) f i j * (1 / dx ^ 2)) i j * (1 / dx ^ 2) * dx ^ 2 := by
    have e : ∀ x : ℝ, x * (1 / dx ^ 2) * dx ^ 2 = x * 1 := fun x => by field_simp
    simp only [e]
    refine mult_ext ?_
    rw [D_mult_scaled _ (lamb_pow_neg _), D_mult_scaled _ (lamb_pow_neg 1),
      D_mult_scaled _ (lamb_pow_neg N)]
    funext k l
    rw [← mul_assoc, ← Complex.ofReal_mul]
    congr 2
    ring
  rw [key]
  rfl

/-- **C90 (powers, violated).** Hence `fourier_laplace` of order 2 is not two
applications of the Laplacian if the spacing is not 1. -/
theorem C90_phiml_powers_violated : ∃ (a r s t : Arr ℝ) (dx : ℝ),
    PhimlGradients.fourier_laplace a dx 1 = .ok r ∧ PhimlGradients.fourier_laplace r dx 1 = .ok s ∧
    PhimlGradients.fourier_laplace a dx 2 = .ok t ∧ t ≠ s := by
  let a : Arr ℝ := tab 1 2 fun _ j => j
  obtain ⟨r, s, hr, hs, sh, sw, ht⟩ := C90_phiml_powers_partial a 2 1 (by decide) (by decide) (by norm_num)
  obtain ⟨t, b, ht', hb, -, -, hv⟩ := C90_phiml_inverse a 2 2 (by decide) (by decide) (by norm_num)
    (by norm_num)
  refine ⟨a, r, s, t, 2, hr, hs, ht', ?_⟩
  have et : t = s.map (· * 2 ^ 2) := by
    have := ht'.symm.trans ht
    simpa using this
  intro e
  -- then `s = 4 s`, so `s = 0`, and the inverse of `t` would be 0
  have hz : s = s.map fun _ => 0 := by
    cases s with
    | mk h w g =>
      subst e
      simp only [Arr.map, Arr.mk.injEq, heq_eq_eq, true_and] at et ⊢
      funext i j
      have := congrFun (congrFun et i) j
      linarith
  have d : ∀ i j, i < a.h → j < a.w → a.at' i j - Spec.mean a.h a.w a.at' = 0 := by
    have hs0 : s = ofField fun (_ : ZMod 1) (_ : ZMod 2) => (0 : ℝ) := by
      rw [hz]
      exact tab_congr (f := fun _ _ => (0 : ℝ)) (g := fun _ _ => (0 : ℝ)) sh sw fun _ _ _ _ => rfl
    rw [e, hs0, phiml_poisson_zero] at hb
    intro i j hi hj
    rw [← hv i j hi hj, ← Except.ok.inj hb]
    exact ofField_at' _ hi hj
  have h1 := d 0 0 (by decide) (by decide)
  have h2 := d 0 1 (by decide) (by decide)
  have a0 : a.at' 0 0 = 0 := by simp [a, tab_at']
  have a1 : a.at' 0 1 = 1 := by simp [a, tab_at']
  rw [a0] at h1; rw [a1] at h2
  linarith

example := C90_phiml_powers_partial (tab 5 4 fun i j => (i * i + 3 * j : ℝ)) (1 / 2) 3 (by decide) (by decide) (by norm_num)

end Verif.Props
