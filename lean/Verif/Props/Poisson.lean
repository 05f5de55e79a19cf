import Verif.Props.Common
import Mathlib.Tactic.FieldSimp

/-!
# Property theorems C11–C17: the Poisson solvers
-/

set_option linter.unusedSectionVars false

namespace Verif.Props

open Arr Spec

/-! ## C11 -/

/-- **C11.** `get_phi` succeeds on every non-empty field, returns a real field
of the same shape with zero mean whose spectral Laplacian is
`omega - mean(omega)`, and it is the only such field. -/
theorem C11_get_phi_inverts_laplacian (hw : HW) (omega : Arr ℝ) (dx : ℝ) (c : Calls)
    (h0 : 0 < omega.h) (w0 : 0 < omega.w) (hb : Std hw.backend omega.h omega.w) (hdx : dx ≠ 0) :
    ∃ phi c', hw.get_phi omega dx c = .ok (phi, c') ∧ phi.h = omega.h ∧ phi.w = omega.w ∧
      Spec.mean phi.h phi.w phi.at' = 0 ∧
      IsLaplacian phi.h phi.w dx phi.at'
        (fun i j => omega.at' i j - Spec.mean omega.h omega.w omega.at') ∧
      ∀ q : Arr ℝ, q.h = omega.h → q.w = omega.w → Spec.mean q.h q.w q.at' = 0 →
        IsLaplacian q.h q.w dx q.at'
          (fun i j => omega.at' i j - Spec.mean omega.h omega.w omega.at') → q = phi := by
  obtain ⟨h, w, o, o', e1, e2, rfl, -⟩ := exists_fields omega omega rfl rfl
  rw [← e1] at h0; rw [← e2] at w0
  have : NeZero h := ⟨h0.ne'⟩
  have : NeZero w := ⟨w0.ne'⟩
  simp only [ofField_h, ofField_w] at *
  refine ⟨_, _, get_phi_ofField hw hb.good o dx c, rfl, rfl, ?_, ?_, ?_⟩
  · exact (spec_mean_of (h := h) (w := w) (at_ofField _)).trans (avg_phiF dx o)
  · have hm := spec_mean_of (at_ofField o)
    simp only [ofField_h, ofField_w]
    rw [hm]
    exact (isLaplacian_iff (at_ofField _)
      (fun i j hi hj => by rw [ofField_at' o hi hj])).mpr (phiF_lap hdx o)
  · intro q hq hq' hq0 hL
    obtain ⟨h', w', _, r, e3, e4, e5, rfl⟩ := exists_fields (ofField o) q hq hq'
    simp only [ofField_h, ofField_w] at e3 e4
    subst e3; subst e4
    congr 1
    have hm := spec_mean_of (at_ofField o)
    simp only [ofField_h, ofField_w] at hq0 hL
    rw [hm] at hL
    refine phiF_unique hdx o r ?_ ?_
    · rw [spec_mean_of (at_ofField r), avg, div_eq_zero_iff, or_iff_left card_ne] at hq0
      exact hq0
    · exact (isLaplacian_iff (at_ofField r) (fun i j hi hj => by rw [ofField_at' o hi hj])).mp hL

example := C11_get_phi_inverts_laplacian (HW.init numbaBackend 1 3 1 1 1)
  (tab 5 4 fun i j => (i * i + 3 * j : ℝ)) (1 / 2) {} (by decide) (by decide)
  (.inr ⟨rfl, by decide, by decide⟩) (by norm_num)

/-- **C11 (sanity of the specification).** The coefficients `coef` used by the
specification determine the samples, so the statement above is not about a
lossy representation. -/
theorem C11_coef_determines_samples (a b : Arr ℝ) (h0 : 0 < a.h) (w0 : 0 < a.w) (hh : b.h = a.h)
    (hw : b.w = a.w) (H : ∀ k < a.h, ∀ l < a.w, coef a.h a.w a.at' k l = coef a.h a.w b.at' k l) :
    a = b := by
  obtain ⟨h, w, f, g, e1, e2, rfl, rfl⟩ := exists_fields a b hh hw
  rw [← e1] at h0; rw [← e2] at w0
  have : NeZero h := ⟨h0.ne'⟩
  have : NeZero w := ⟨w0.ne'⟩
  simp only [ofField_h, ofField_w] at *
  congr 1
  refine mult_ext ?_
  funext k l
  have := H k.val (ZMod.val_lt k) l.val (ZMod.val_lt l)

  rw [spec_coef_of (at_ofField f), spec_coef_of (at_ofField g)] at this
  simpa using this

/-! ## C12 -/

/-- **C12 (inside `get_phi`).** Both backends give the same potential. -/
theorem C12_get_phi_backends_agree (hw hw' : HW) (omega : Arr ℝ) (dx : ℝ) (c : Calls)
    (hn : hw.backend = numpyBackend) (hn' : hw'.backend = numbaBackend)
    (h0 : 0 < omega.h) (w0 : 0 < omega.w) (hh : omega.h ≤ 65536) (hw0 : omega.w ≤ 65536) :
    hw.get_phi omega dx c = hw'.get_phi omega dx c := by
  obtain ⟨h, w, o, o', e1, e2, rfl, -⟩ := exists_fields omega omega rfl rfl
  rw [← e1] at h0; rw [← e2] at w0
  have : NeZero h := ⟨h0.ne'⟩
  have : NeZero w := ⟨w0.ne'⟩
  simp only [ofField_h, ofField_w] at *
  rw [get_phi_ofField hw (hn ▸ numpyBackend_good), get_phi_ofField hw' (hn' ▸ numbaBackend_good hh hw0)]

example := C12_get_phi_backends_agree (HW.init numpyBackend 1 3 1 1 1) (HW.init numbaBackend 1 3 1 1 1)
  (tab 5 4 fun i j => (i * i + 3 * j : ℝ)) (1 / 2) {} rfl rfl (by decide) (by decide) (by decide) (by decide)

/-- **C12 (direct calls).** Without centring, the Numba solver's result exceeds
the NumPy solver's by the constant `mean(tensor)*dx²/1e14`. -/
theorem C12_direct_difference (t : Arr ℝ) (dx : ℝ) (h0 : 0 < t.h) (w0 : 0 < t.w)
    (hh : t.h ≤ 65536) (hw : t.w ≤ 65536) :
    ∃ r r', NumpyPoisson.fourier_poisson_double t dx = .ok r ∧
      NumbaPoisson.fourier_poisson_double t dx = .ok r' ∧ r.h = t.h ∧ r.w = t.w ∧
      r'.h = t.h ∧ r'.w = t.w ∧ ∀ i j, i < t.h → j < t.w →
        r'.at' i j = r.at' i j + Spec.mean t.h t.w t.at' * dx ^ 2 / 10 ^ 14 := by
  obtain ⟨h, w, f, _, e1, e2, rfl, -⟩ := exists_fields t t rfl rfl
  rw [← e1] at h0; rw [← e2] at w0
  have : NeZero h := ⟨h0.ne'⟩
  have : NeZero w := ⟨w0.ne'⟩
  simp only [ofField_h, ofField_w] at *
  refine ⟨_, _, numpy_poisson_ofField f dx 1, numba_poisson_ofField hh hw f dx 1, rfl, rfl, rfl, rfl, ?_⟩
  intro i j hi hj

  rw [ofField_at' _ hi hj, ofField_at' _ hi hj, spec_mean_of (at_ofField f), sigNumba_split]
  ring

example := C12_direct_difference (tab 5 4 fun i j => (i * i + 3 * j : ℝ)) (1 / 2)
  (by decide) (by decide) (by decide) (by decide)

/-! ## C13 -/

/-- **C13.** `get_phi` is linear, ignores a constant offset, commutes with
translations, is symmetric and negative. -/
theorem C13_get_phi_structure (hw : HW) (u v : Arr ℝ) (dx : ℝ) (c : Calls)
    (h0 : 0 < u.h) (w0 : 0 < u.w) (hh : v.h = u.h) (hw' : v.w = u.w)
    (hb : Std hw.backend u.h u.w) :
    ∃ pu pv c', hw.get_phi u dx c = .ok (pu, c') ∧ hw.get_phi v dx c = .ok (pv, c') ∧
      (∀ x y z : ℝ, hw.get_phi (lin x u y v z) dx c = .ok (lin x pu y pv 0, c')) ∧
      (∀ s t : ℤ, hw.get_phi (u.roll s t) dx c = .ok (pu.roll s t, c')) ∧
      inner u pv = inner pu v ∧ inner u pu ≤ 0 := by
  obtain ⟨h, w, f, g, e1, e2, rfl, rfl⟩ := exists_fields u v hh hw'
  rw [← e1] at h0; rw [← e2] at w0
  have : NeZero h := ⟨h0.ne'⟩
  have : NeZero w := ⟨w0.ne'⟩
  simp only [ofField_h, ofField_w] at *
  refine ⟨_, _, _, get_phi_ofField hw hb.good f dx c, get_phi_ofField hw hb.good g dx c, ?_, ?_, ?_, ?_⟩
  · intro x y z
    rw [lin_ofField, lin_ofField, get_phi_ofField hw hb.good, phiF_lin]
    simp
  · intro s t
    rw [roll_ofField, roll_ofField, get_phi_ofField hw hb.good]
    exact congrArg (fun z => Except.ok (ofField z, _)) (phiF_shift dx f _ _)
  · rw [inner_ofField, inner_ofField, phiF_symm]
  · rw [inner_ofField]; exact phiF_neg dx f

example := C13_get_phi_structure (HW.init numpyBackend 1 3 1 1 1)
  (tab 5 4 fun i j => (i * i + 3 * j : ℝ)) (tab 5 4 fun i j => (i - 3 * j : ℝ)) (1 / 2) {}
  (by decide) (by decide) rfl rfl (.inl rfl)

/-! ## C14 -/

/-- **C14.** Up to 65536 points the Numba frequency table is the standard one. -/
theorem C14_fftfreq (n k : ℕ) (hn : n ≤ 65536) (hk : k < n) :
    NumbaPoisson.custom_fftfreq n k = (if 2 * k < n then (k : ℝ) else (k : ℝ) - n) / n ∧
    NumbaPoisson.custom_fftfreq n k = fftfreq n k := by
  refine ⟨?_, custom_fftfreq_eq hn hk⟩
  rw [custom_fftfreq_eq hn hk, fftfreq, fftfreqInt_eq hk]
  split <;> push_cast <;> rfl

example := C14_fftfreq 65536 40000 (by decide) (by decide)

/-- **C14 (limit of the domain).** For every larger `n` the `int16` table
overflows and differs from `np.fft.fftfreq`. -/
theorem C14_fftfreq_overflow (n : ℕ) (hn : 65536 < n) :
    ∃ k < n, NumbaPoisson.custom_fftfreq n k ≠ fftfreq n k := by
  refine ⟨32768, by omega, ?_⟩
  unfold NumbaPoisson.custom_fftfreq fftfreq
  have hn0 : (n : ℝ) ≠ 0 := Nat.cast_ne_zero.mpr (by omega)
  have e1 : NumbaPoisson.custom_fftfreqInt n 32768 = -32768 := by
    unfold NumbaPoisson.custom_fftfreqInt
    rw [if_pos (by omega)]; decide
  have e2 : fftfreqInt n 32768 = 32768 := by
    unfold fftfreqInt
    rw [if_pos (by omega)]; decide
  rw [e1, e2]
  intro e
  rw [div_left_inj' hn0] at e
  norm_num at e

example := C14_fftfreq_overflow 100000 (by decide)

/-! ## C15 -/

/-- `m` successive calls of the solver with `times=1` -/
noncomputable def solves (dx : ℝ) : ℕ → Arr ℝ → Py (Arr ℝ)
  | 0, t => .ok t
  | m + 1, t => do solves dx m (← NumpyPoisson.fourier_poisson_double t dx)

/-- **C15, what does hold.** `m` successive solves give `dx^(2(m-1))` times the
result of `times=m`; both agree if `dx = 1`. -/
theorem C15_times_partial (t : Arr ℝ) (dx : ℝ) (m : ℕ) (hm : 1 ≤ m) (h0 : 0 < t.h) (w0 : 0 < t.w) :
    ∃ r, NumpyPoisson.fourier_poisson_double t dx m = .ok r ∧
      solves dx m t = .ok (r.map (· * (dx ^ 2) ^ (m - 1))) ∧
      (dx = 1 → solves dx m t = .ok r) := by
  obtain ⟨h, w, f, _, e1, e2, rfl, -⟩ := exists_fields t t rfl rfl
  rw [← e1] at h0; rw [← e2] at w0
  have : NeZero h := ⟨h0.ne'⟩
  have : NeZero w := ⟨w0.ne'⟩
  simp only [ofField_h, ofField_w] at *
  have key : solves dx m (ofField f)
      = .ok ((ofField fun i j => mult (sig m) f i j * dx ^ 2).map (· * (dx ^ 2) ^ (m - 1))) := by
    rw [map_ofField]
    have : ∀ m : ℕ, ∀ f : Fld h w, solves dx (m + 1) (ofField f)
        = .ok (ofField fun i j => mult (sig (m + 1)) f i j * dx ^ 2 * (dx ^ 2) ^ m) := by
      intro m
      induction m with
      | zero =>
        intro f
        rw [solves, numpy_poisson_ofField, Py.ok_bind, solves]; simp
      | succ m ih =>
        intro f
        rw [solves, numpy_poisson_ofField, Py.ok_bind, ih]
        congr 2
        funext i j
        rw [mult_sig_succ]
        ring
    obtain ⟨m, rfl⟩ : ∃ k, m = k + 1 := ⟨m - 1, by omega⟩
    exact this m f
  refine ⟨_, numpy_poisson_ofField f dx m, key, ?_⟩
  rintro rfl
  rw [key]
  simp [map_ofField]

example := C15_times_partial (tab 5 4 fun i j => (i * i + 3 * j : ℝ)) (1 / 2) 3 (by decide) (by decide) (by decide)

/-- **C15 violated**: for `m ≥ 2`, a spacing with `dx² ≠ 1`, `dx ≠ 0` and any
non-constant field, `times=m` differs from `m` successive solves. -/
theorem C15_times_violated (t : Arr ℝ) (dx : ℝ) (m : ℕ) (hm : 2 ≤ m) (hdx : dx ≠ 0) (hdx1 : dx ^ 2 ≠ 1)
    (h0 : 0 < t.h) (w0 : 0 < t.w)
    (hnc : ∃ i j, i < t.h ∧ j < t.w ∧ t.at' i j ≠ t.at' 0 0) :
    NumpyPoisson.fourier_poisson_double t dx m ≠ solves dx m t := by
  obtain ⟨r, e, e', -⟩ := C15_times_partial t dx m (by omega) h0 w0
  rw [e, e']
  intro H
  obtain ⟨h, w, f, _, e1, e2, rfl, -⟩ := exists_fields t t rfl rfl
  rw [← e1] at h0; rw [← e2] at w0
  have : NeZero h := ⟨h0.ne'⟩
  have : NeZero w := ⟨w0.ne'⟩
  simp only [ofField_h, ofField_w] at *
  rw [numpy_poisson_ofField] at e
  cases e
  rw [map_ofField] at H
  injection H with H
  have H := ofField_inj H
  have hq : (dx ^ 2) ^ (m - 1) ≠ 1 := by
    intro hq
    rw [pow_eq_one_iff_of_nonneg (sq_nonneg dx) (by omega)] at hq
    exact hdx1 hq
  have hz : mult (sig m) f = fun _ _ => 0 := by
    funext i j
    have := congrFun (congrFun H i) j
    have h2 : mult (sig m) f i j * dx ^ 2 * ((dx ^ 2) ^ (m - 1) - 1) = 0 := by linarith
    rcases mul_eq_zero.mp h2 with h3 | h3
    · exact (mul_eq_zero.mp h3).resolve_right (pow_ne_zero 2 hdx)
    · exact absurd (sub_eq_zero.mp h3) hq
  have hc := const_of_mult_sig_zero (by omega) hz
  obtain ⟨i, j, hi, hj, hne⟩ := hnc
  rw [ofField_at' f hi hj, ofField_at' f h0 w0] at hne
  exact hne (by rw [hc _ _, hc ((0 : ℕ) : ZMod h) _])

example := C15_times_violated (tab 2 2 fun i _ => (i : ℝ)) 2 2 (by decide) (by norm_num) (by norm_num)
  (by decide) (by decide) ⟨1, 0, by decide, by decide, by
    rw [tab_at' _ _ _ (by decide) (by decide), tab_at' _ _ _ (by decide) (by decide)]; norm_num⟩

/-! ## C16 -/

/-- **C16, what does hold.** On square grids the general solver equals the
double-precision solver. -/
theorem C16_general_solver_partial (t : Arr ℝ) (dx : ℝ) (m : ℕ) (hsq : t.h = t.w) :
    NumpyPoisson.fourier_poisson_numpy t dx m = NumpyPoisson.fourier_poisson_double t dx m := by
  obtain ⟨h, w, f, _, e1, e2, rfl, -⟩ := exists_fields t t rfl rfl
  simp only [ofField_h, ofField_w] at hsq
  subst hsq
  by_cases h0 : h = 0
  · subst h0
    unfold NumpyPoisson.fourier_poisson_numpy NumpyPoisson.fourier_poisson_double fft2
    rw [if_pos (by left; rfl)]
    rfl
  · have : NeZero h := ⟨h0⟩
    rw [numpy_poisson_ofField, numpy_general_poisson_ofField]

example := C16_general_solver_partial (tab 3 3 fun i j => (i * i + 3 * j : ℝ)) (1 / 2) 1 rfl

/-- **C16 violated**: on a non-square grid the general solver raises
`ValueError` (both sides ≥ 2), or returns an array of the wrong shape (one
side 1). -/
theorem C16_general_solver_violated (t : Arr ℝ) (dx : ℝ) (m : ℕ) (h0 : 0 < t.h) (w0 : 0 < t.w)
    (hsq : t.h ≠ t.w) :
    (2 ≤ t.h → 2 ≤ t.w → NumpyPoisson.fourier_poisson_numpy t dx m = .error .valueError) ∧
    (t.h = 1 ∨ t.w = 1 → ∃ r, NumpyPoisson.fourier_poisson_numpy t dx m = .ok r ∧
      r.h = max t.h t.w ∧ r.w = max t.h t.w) := by
  unfold NumpyPoisson.fourier_poisson_numpy
  have ef : fft2 t.toComplex = .ok _ := if_neg (by change ¬(t.h = 0 ∨ t.w = 0); omega)
  rw [ef]
  simp only [Py.ok_bind]
  constructor
  · intro h2 w2
    have : ∀ (F : Arr ℂ) (G : Arr ℝ) (k : ℂ → ℝ → ℂ), F.h = t.h → F.w = t.w → G.h = t.w → G.w = t.h →
        Arr.zip k F G = .error .valueError := by
      intro F G k e1 e2 e3 e4
      unfold Arr.zip
      rw [e1, e2, e3, e4]
      have : bdim t.h t.w = none := by unfold bdim; rw [if_neg hsq, if_neg (by omega), if_neg (by omega)]
      rw [this]
    rw [this _ _ _ rfl rfl rfl rfl]
    rfl
  · intro h1
    have : ∀ (F : Arr ℂ) (G : Arr ℝ) (k : ℂ → ℝ → ℂ), F.h = t.h → F.w = t.w → G.h = t.w → G.w = t.h →
        ∃ r, Arr.zip k F G = .ok r ∧ r.h = max t.h t.w ∧ r.w = max t.h t.w := by
      intro F G k e1 e2 e3 e4
      unfold Arr.zip
      rw [e1, e2, e3, e4]
      have b1 : bdim t.h t.w = some (max t.h t.w) := by
        unfold bdim; rw [if_neg hsq]
        split
        · congr 1; omega
        · rw [if_pos (by omega)]; congr 1; omega
      have b2 : bdim t.w t.h = some (max t.h t.w) := by
        unfold bdim; rw [if_neg hsq.symm]
        split
        · congr 1; omega
        · rw [if_pos (by omega)]; congr 1; omega
      rw [b1, b2]
      exact ⟨_, rfl, rfl, rfl⟩
    obtain ⟨r, e, e1, e2⟩ := this (tab t.h t.w _) (tab t.w t.h _) _ rfl rfl rfl rfl
    rw [map_tab]
    change ∃ r, (Arr.zip _ (tab t.h t.w _) _ >>= _) = _ ∧ _
    rw [e]
    have : ifft2 r = .ok _ := if_neg (by omega)
    simp only [Py.ok_bind]
    rw [this]
    exact ⟨_, rfl, e1, e2⟩

example := (C16_general_solver_violated (tab 2 3 fun i j => (i * i + 3 * j : ℝ)) (1 / 2) 1
  (by decide) (by decide) (by decide)).1 (by decide) (by decide)
example := (C16_general_solver_violated (tab 1 3 fun i j => (i * i + 3 * j : ℝ)) (1 / 2) 1
  (by decide) (by decide) (by decide)).2 (.inl rfl)

/-! ## C17 -/

/-- **C17 violated**: `fourier_laplace` never returns; on every non-empty grid it
raises `NameError`. -/
theorem C17_fourier_laplace_violated (grid : Arr ℝ) (dx : ℝ) (N : ℕ) (h0 : 0 < grid.h) (w0 : 0 < grid.w) :
    NumpyGradients.fourier_laplace grid dx N = .error (.nameError "times") := by
  unfold NumpyGradients.fourier_laplace
  rw [if_neg (by omega)]

example := C17_fourier_laplace_violated (tab 2 2 fun i j => (i + j : ℝ)) 1 1 (by decide) (by decide)

end Verif.Props
