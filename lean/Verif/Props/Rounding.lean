import Verif.Lemmas.Rounding
import Verif.Lemmas.HWBasic
import Verif.Props.Stencils
import Verif.Props.Accuracy

/-!
# Property theorem C97: rounding errors of the difference operators and the bracket

The functions are run with arbitrary operations of relative error at most `u` (`Spec.Rounded`; doubles
have `u = 2^-53`), and compared with the same functions in exact arithmetic, on the same numbers.
Overflow and underflow are excluded by this model of the operations.
-/

set_option linter.unusedSectionVars false

namespace Verif.Props

open Arr Spec Rounding

variable {u : ℝ} {R : Rounded u}

/-- the numbers held by an array of computed numbers -/
def exactly (a : Arr (Rd R)) : Arr ℝ := a.map Rd.val

private theorem exactly_ofField {h w : ℕ} [NeZero h] [NeZero w] (f : ZMod h → ZMod w → Rd R) :
    exactly (ofField f) = ofField (ex f) := by unfold exactly; rw [map_ofField]; rfl

private theorem toField (a : Arr (Rd R)) (h0 : 0 < a.h) (w0 : 0 < a.w) : ∃ (h w : ℕ) (_ : NeZero h) (_ : NeZero w)
    (f : ZMod h → ZMod w → Rd R), a = ofField f := by
  obtain ⟨h, w, f, -, e1, e2, e3, -⟩ := exists_fields a a rfl rfl
  exact ⟨h, w, ⟨by omega⟩, ⟨by omega⟩, f, e3⟩

/-- **C97 (gradient).** Every entry of `periodic_gradient` has a relative error of at most three
roundings, whatever the field: differences of neighbouring values do not amplify rounding errors. -/
theorem C97_gradient (h0 : 0 ≤ u) (h1 : 3 * u < 1) (a : Arr (Rd R)) (hh : 0 < a.h) (hw : 0 < a.w) (dx : Rd R)
    (hdx : dx.val ≠ 0) (axis : Int) (hax : axis = 0 ∨ axis = 1) :
    ∃ r e, NumpyGradients.periodic_gradient a dx axis = .ok r ∧
      NumbaGradients.periodic_gradient a dx axis = .ok r ∧
      NumpyGradients.periodic_gradient (exactly a) dx.val axis = .ok e ∧
      ∀ i j, i < a.h → j < a.w → |(r.at' i j).val - e.at' i j| ≤ gam u 3 * |e.at' i j| := by
  obtain ⟨h, w, _, _, f, rfl⟩ := toField a hh hw
  have hu : u < 1 := by linarith
  have hq := qf_pow_le_gam 3 (by push_cast; linarith) hu
  rw [(C02_backends_identical _ dx).2.2 axis hax, exactly_ofField]
  rcases hax with rfl | rfl
  · refine ⟨_, _, numpy_periodic_gradient_y f dx, numpy_periodic_gradient_y f dx, numpy_periodic_gradient_y _ _,
      fun i j hi hj => ?_⟩
    change i < h at hi
    change j < w at hj
    rw [ofField_at' _ hi hj, ofField_at' _ hi hj]
    exact (gradY_ap h0 hu f dx _ _ hdx).trans (mul_le_mul_of_nonneg_right hq (abs_nonneg _))
  · refine ⟨_, _, numpy_periodic_gradient_x f dx, numpy_periodic_gradient_x f dx, numpy_periodic_gradient_x _ _,
      fun i j hi hj => ?_⟩
    change i < h at hi
    change j < w at hj
    rw [ofField_at' _ hi hj, ofField_at' _ hi hj]
    exact (gradX_ap h0 hu f dx _ _ hdx).trans (mul_le_mul_of_nonneg_right hq (abs_nonneg _))

/-- **C97 (iterated Laplacian).** If no value exceeds `M`, every entry of `periodic_laplace_N` is within
`6 N` roundings of `(8/dx²)^N * M`.  (`N = 1` is `periodic_laplace`.) -/
theorem C97_laplace_N (h0 : 0 ≤ u) (N : ℕ) (h1 : u < 1) (hN : 6 * N * u < 1) (a : Arr (Rd R)) (hh : 0 < a.h)
    (hw : 0 < a.w) (dx : Rd R) (hdx : dx.val ≠ 0) (M : ℝ)
    (hM : ∀ i j, i < a.h → j < a.w → |(a.at' i j).val| ≤ M) :
    ∃ r e, NumpyGradients.periodic_laplace_N a dx N = .ok r ∧
      NumbaGradients.periodic_laplace_N a dx N = .ok r ∧
      NumpyGradients.periodic_laplace_N (exactly a) dx.val N = .ok e ∧
      ∀ i j, i < a.h → j < a.w →
        |(r.at' i j).val - e.at' i j| ≤ gam u (6 * N) * ((8 / dx.val ^ 2) ^ N * M) := by
  obtain ⟨h, w, _, _, f, rfl⟩ := toField a hh hw
  have hM' : ∀ i j, |ex f i j| ≤ M := fun i j => by
    have := hM i.val j.val (ZMod.val_lt i) (ZMod.val_lt j)
    rw [ofField_at' _ (ZMod.val_lt i) (ZMod.val_lt j)] at this
    simpa [ex] using this
  have hM0 : 0 ≤ M := (abs_nonneg _).trans (hM' 0 0)
  refine ⟨_, ofField ((lap dx.val)^[N] (ex f)), numpy_periodic_laplace_N_ofField f dx N, numba_periodic_laplace_N_ofField f dx N, ?_,
    fun i j hi hj => ?_⟩
  · rw [exactly_ofField]; exact numpy_periodic_laplace_N_ofField _ _ N
  · change i < h at hi
    change j < w at hj
    rw [ofField_at' _ hi hj, ofField_at' _ hi hj]
    exact (lap_iter_ap h0 h1 f dx hdx N hM' _ _).trans (mul_le_mul_of_nonneg_right
      (qf_pow_le_gam _ (by push_cast; linarith) h1) (by positivity))

/-- **C97 (Laplacian).** Entry-wise: the error is at most six roundings of the sum of the absolute values
of the five terms. -/
theorem C97_laplace (h0 : 0 ≤ u) (h1 : 6 * u < 1) (a : Arr (Rd R)) (hh : 0 < a.h)
    (hw : 0 < a.w) (dx : Rd R) (hdx : dx.val ≠ 0) :
    ∃ r e, NumpyGradients.periodic_laplace a dx = .ok r ∧ NumbaGradients.periodic_laplace a dx = .ok r ∧
      NumpyGradients.periodic_laplace (exactly a) dx.val = .ok e ∧
      ∀ i j, i < a.h → j < a.w → |(r.at' i j).val - e.at' i j| ≤ gam u 6 *
        ((|(a.at' (down a.h i) j).val| + |(a.at' i (down a.w j)).val| + 4 * |(a.at' i j).val|
          + |(a.at' i (up a.w j)).val| + |(a.at' (up a.h i) j).val|) / dx.val ^ 2) := by
  obtain ⟨h, w, _, _, f, rfl⟩ := toField a hh hw
  have hu : u < 1 := by linarith
  have hq := qf_pow_le_gam 6 (by push_cast; linarith) hu
  refine ⟨_, ofField (lap dx.val (ex f)), numpy_periodic_laplace_ofField f dx, numba_periodic_laplace_ofField f dx, ?_, fun i j hi hj => ?_⟩
  · rw [exactly_ofField]; exact numpy_periodic_laplace_ofField _ _
  · have cu : ∀ {n : ℕ} (i : ℕ), ((up n i : ℕ) : ZMod n) = i + 1 := fun i => by
      unfold up; rw [ZMod.natCast_mod]; push_cast; rfl
    have cd : ∀ {n : ℕ} [NeZero n] (i : ℕ), ((down n i : ℕ) : ZMod n) = i - 1 := fun {n} _ i => by
      unfold down
      have := NeZero.pos n
      rw [ZMod.natCast_mod, Nat.cast_add, Nat.cast_sub this]; simp; ring
    change i < h at hi
    change j < w at hj
    rw [ofField_at' _ hi hj, ofField_at' _ hi hj]
    change _ ≤ gam u 6 * ((|((ofField f).at' (down h i) j).val| + |((ofField f).at' i (down w j)).val| + 4 * _
      + |((ofField f).at' i (up w j)).val| + |((ofField f).at' (up h i) j).val|) / dx.val ^ 2)
    have lh : down h i < h ∧ up h i < h := ⟨Nat.mod_lt _ hh, Nat.mod_lt _ hh⟩
    have lw : down w j < w ∧ up w j < w := ⟨Nat.mod_lt _ hw, Nat.mod_lt _ hw⟩
    rw [ofField_at' f lh.1 hj, ofField_at' f hi lw.1, ofField_at' f hi hj, ofField_at' f hi lw.2,
      ofField_at' f lh.2 hj]
    have e := lap_ap h0 hu f dx i j hdx
    have hs : 0 ≤ lapSize dx.val (ex f) i j := by unfold lapSize; positivity
    refine e.trans ((mul_le_mul_of_nonneg_right hq hs).trans_eq ?_)
    unfold lapSize ex
    rw [cu, cu, cd, cd]

/-- **C97 (bracket).** If no entry of `zeta` exceeds `A` and none of `psi` exceeds `B`, every entry of the
bracket is within 14 roundings of `2 A B / dx²`.  All fused variants round identically. -/
theorem C97_bracket (h0 : 0 ≤ u) (h1 : 14 * u < 1) (z p : Arr (Rd R)) (hh : p.h = z.h) (hw : p.w = z.w)
    (hz : 0 < z.h) (wz : 0 < z.w) (dx : Rd R) (hdx : dx.val ≠ 0) (A B : ℝ)
    (hA : ∀ i j, i < z.h → j < z.w → |(z.at' i j).val| ≤ A)
    (hB : ∀ i j, i < z.h → j < z.w → |(p.at' i j).val| ≤ B) :
    ∃ r e, NumpyArakawa.periodic_arakawa_vec z p dx = .ok r ∧
      NumbaArakawa.periodic_arakawa_vec z p dx = .ok r ∧
      NumbaArakawa.periodic_arakawa_stencil z p dx = .ok r ∧
      NumpyArakawa.periodic_arakawa_vec (exactly z) (exactly p) dx.val = .ok e ∧
      r.h = z.h ∧ r.w = z.w ∧ e.h = z.h ∧ e.w = z.w ∧
      ∀ i j, i < z.h → j < z.w → |(r.at' i j).val - e.at' i j| ≤ gam u 14 * (2 * A * B / dx.val ^ 2) := by
  obtain ⟨h, w, f, g, e1, e2, rfl, rfl⟩ := exists_fields z p hh hw
  rw [← e1] at hz; rw [← e2] at wz
  have : NeZero h := ⟨hz.ne'⟩
  have : NeZero w := ⟨wz.ne'⟩
  have hu : u < 1 := by linarith
  have hq := qf_pow_le_gam 14 (by push_cast; linarith) hu
  have hA' : ∀ i j, |ex f i j| ≤ A := fun i j => by
    have := hA i.val j.val (ZMod.val_lt i) (ZMod.val_lt j)
    rw [ofField_at' _ (ZMod.val_lt i) (ZMod.val_lt j)] at this
    simpa [ex] using this
  have hB' : ∀ i j, |ex g i j| ≤ B := fun i j => by
    have := hB i.val j.val (ZMod.val_lt i) (ZMod.val_lt j)
    rw [ofField_at' _ (ZMod.val_lt i) (ZMod.val_lt j)] at this
    simpa [ex] using this
  have hA0 : 0 ≤ A := (abs_nonneg _).trans (hA' 0 0)
  have hB0 : 0 ≤ B := (abs_nonneg _).trans (hB' 0 0)
  refine ⟨_, ofField (jac dx.val (ex f) (ex g)), numpy_arakawa_vec_ofField f g dx, numba_arakawa_vec_ofField f g dx,
    numba_arakawa_stencil_ofField f g dx, ?_, rfl, rfl, rfl, rfl, fun i j hi hj => ?_⟩
  · rw [exactly_ofField, exactly_ofField]; exact numpy_arakawa_vec_ofField _ _ _
  · change i < h at hi
    change j < w at hj
    rw [ofField_at' _ hi hj, ofField_at' _ hi hj]
    refine (jac_ap h0 hu f g dx _ _ hdx).trans (mul_le_mul hq (jacSize_le hA' hB' _ _) ?_ ?_)
    · unfold jacSize; positivity
    · have := one_le_pow₀ (n := 14) (one_le_qf h0 hu); linarith

private theorem avg_abs_le {h w : ℕ} [NeZero h] [NeZero w] {g : Fld h w} {E : ℝ} (hE : ∀ i j, |g i j| ≤ E) :
    |avg g| ≤ E := by
  have hp : (0 : ℝ) < (h : ℝ) * w := by
    have := NeZero.pos h; have := NeZero.pos w; positivity
  unfold avg
  rw [abs_div, abs_of_pos hp, div_le_iff₀ hp]
  calc |S g| ≤ ∑ i, ∑ j, |g i j| :=
        (Finset.abs_sum_le_sum_abs _ _).trans (Finset.sum_le_sum fun i _ => Finset.abs_sum_le_sum_abs _ _)
    _ ≤ ∑ _i : ZMod h, ∑ _j : ZMod w, E := Finset.sum_le_sum fun i _ => Finset.sum_le_sum fun j _ => hE i j
    _ = E * (h * w) := by simp [ZMod.card]; ring

/-- **C97 (conservation).** The computed bracket conserves mean, `zeta` and `psi` squared up to rounding:
the means of `r`, `zeta * r` and `psi * r`, which vanish exactly for the exact bracket (C05), are at most
14 roundings of the size of the terms. -/
theorem C97_bracket_conserves (h0 : 0 ≤ u) (h1 : 14 * u < 1) (z p : Arr (Rd R)) (hh : p.h = z.h) (hw : p.w = z.w)
    (hz : 0 < z.h) (wz : 0 < z.w) (dx : Rd R) (hdx : dx.val ≠ 0) (A B : ℝ)
    (hA : ∀ i j, i < z.h → j < z.w → |(z.at' i j).val| ≤ A)
    (hB : ∀ i j, i < z.h → j < z.w → |(p.at' i j).val| ≤ B) :
    ∃ r, NumpyArakawa.periodic_arakawa_vec z p dx = .ok r ∧
      |Spec.mean z.h z.w fun i j => (r.at' i j).val| ≤ gam u 14 * (2 * A * B / dx.val ^ 2) ∧
      |Spec.mean z.h z.w fun i j => (z.at' i j).val * (r.at' i j).val| ≤ gam u 14 * (2 * A ^ 2 * B / dx.val ^ 2) ∧
      |Spec.mean z.h z.w fun i j => (p.at' i j).val * (r.at' i j).val| ≤ gam u 14 * (2 * A * B ^ 2 / dx.val ^ 2) := by
  obtain ⟨r, e, e1, -, -, e4, rh, rw', eh, ew, err⟩ := C97_bracket h0 h1 z p hh hw hz wz dx hdx A B hA hB
  refine ⟨r, e1, ?_⟩
  obtain ⟨h, w, f, g, d1, d2, rfl, rfl⟩ := exists_fields z p hh hw
  rw [← d1] at hz; rw [← d2] at wz
  have : NeZero h := ⟨hz.ne'⟩
  have : NeZero w := ⟨wz.ne'⟩
  rw [exactly_ofField, exactly_ofField, numpy_arakawa_vec_ofField] at e4
  rw [numpy_arakawa_vec_ofField] at e1
  cases e4
  cases e1
  clear rh rw' eh ew hh hw d1 d2
  change ∀ i j, i < h → j < w → _ at hA hB err
  change |Spec.mean h w _| ≤ _ ∧ |Spec.mean h w _| ≤ _ ∧ |Spec.mean h w _| ≤ _
  have hA' : ∀ i j, |(f i j).val| ≤ A := fun i j => by
    have := hA i.val j.val (ZMod.val_lt i) (ZMod.val_lt j)
    rw [ofField_at' _ (ZMod.val_lt i) (ZMod.val_lt j)] at this
    simpa using this
  have hB' : ∀ i j, |(g i j).val| ≤ B := fun i j => by
    have := hB i.val j.val (ZMod.val_lt i) (ZMod.val_lt j)
    rw [ofField_at' _ (ZMod.val_lt i) (ZMod.val_lt j)] at this
    simpa using this
  have hE : ∀ i j, |(jac dx f g i j).val - jac dx.val (ex f) (ex g) i j| ≤ gam u 14 * (2 * A * B / dx.val ^ 2) :=
    fun i j => by
      have := err i.val j.val (ZMod.val_lt i) (ZMod.val_lt j)
      rw [ofField_at' _ (ZMod.val_lt i) (ZMod.val_lt j), ofField_at' _ (ZMod.val_lt i) (ZMod.val_lt j)] at this
      simpa using this
  have hA0 : 0 ≤ A := (abs_nonneg _).trans (hA' 0 0)
  have hB0 : 0 ≤ B := (abs_nonneg _).trans (hB' 0 0)
  refine ⟨?_, ?_, ?_⟩
  · rw [spec_mean_of (g := fun i j => (jac dx f g i j).val) fun i j hi hj => by rw [ofField_at' _ hi hj]]
    have e : avg (fun i j => (jac dx f g i j).val)
        = avg (fun i j => (jac dx f g i j).val - jac dx.val (ex f) (ex g) i j) := by
      rw [avg_sub, avg_of_S (S_jac _ _ _), sub_zero]
    rw [e]
    exact avg_abs_le hE
  · rw [spec_mean_of (g := fun i j => (f i j).val * (jac dx f g i j).val) fun i j hi hj => by
      rw [ofField_at' _ hi hj, ofField_at' _ hi hj]]
    have e : avg (fun i j => (f i j).val * (jac dx f g i j).val)
        = avg (fun i j => (f i j).val * ((jac dx f g i j).val - jac dx.val (ex f) (ex g) i j)) := by
      have e0 : avg (fun i j => (f i j).val * jac dx.val (ex f) (ex g) i j) = 0 :=
        avg_of_S (S_jac_left dx.val (ex f) (ex g))
      simp only [mul_sub]
      rw [avg_sub, e0, sub_zero]
    rw [e]
    refine avg_abs_le fun i j => ?_
    rw [abs_mul]
    exact (mul_le_mul (hA' i j) (hE i j) (abs_nonneg _) hA0).trans_eq (by ring)
  · rw [spec_mean_of (g := fun i j => (g i j).val * (jac dx f g i j).val) fun i j hi hj => by
      rw [ofField_at' _ hi hj, ofField_at' _ hi hj]]
    have e : avg (fun i j => (g i j).val * (jac dx f g i j).val)
        = avg (fun i j => (g i j).val * ((jac dx f g i j).val - jac dx.val (ex f) (ex g) i j)) := by
      have e0 : avg (fun i j => (g i j).val * jac dx.val (ex f) (ex g) i j) = 0 :=
        avg_of_S (S_jac_right dx.val (ex f) (ex g))
      simp only [mul_sub]
      rw [avg_sub, e0, sub_zero]
    rw [e]
    refine avg_abs_le fun i j => ?_
    rw [abs_mul]
    exact (mul_le_mul (hB' i j) (hE i j) (abs_nonneg _) hB0).trans_eq (by ring)

/-- **C97 (total error).** The Laplacian of a smooth function, computed with rounding from samples that are
themselves off by at most `δ`: the discretisation error shrinks like `dx²`, the errors of samples and
roundings grow like `1/dx²`. -/
theorem C97_laplace_total (h0 : 0 ≤ u) (h1 : 6 * u < 1) (D : ℕ → ℕ → ℝ → ℝ → ℝ) (B : ℝ) (hD : Partials 4 D B)
    (a : Arr (Rd R)) (hh : 0 < a.h) (hw : 0 < a.w) (dx : Rd R) (hdx : 0 < dx.val) (δ : ℝ)
    (ha : ∀ i j, i < a.h → j < a.w → |(a.at' i j).val - D 0 0 (i * dx.val) (j * dx.val)| ≤ δ)
    (py : ∀ y x, D 0 0 (y + a.h * dx.val) x = D 0 0 y x) (px : ∀ y x, D 0 0 y (x + a.w * dx.val) = D 0 0 y x) :
    ∃ r, NumpyGradients.periodic_laplace a dx = .ok r ∧ ∀ i j, i < a.h → j < a.w →
      |(r.at' i j).val - (D 2 0 (i * dx.val) (j * dx.val) + D 0 2 (i * dx.val) (j * dx.val))|
        ≤ B / 6 * dx.val ^ 2 + 8 * (δ + gam u 6 * (B + δ)) / dx.val ^ 2 := by
  have hsam : Samples dx.val (D 0 0) (tab a.h a.w fun i j => D 0 0 (i * dx.val) (j * dx.val)) :=
    ⟨fun i j hi hj => tab_at' _ _ _ hi hj, py, px⟩
  obtain ⟨r0, q1, q2⟩ := C10_laplace D B hD _ hh hw dx.val hdx hsam
  have hM : ∀ i j, i < a.h → j < a.w → |(a.at' i j).val| ≤ B + δ := fun i j hi hj => by
    have t := abs_add_le ((a.at' i j).val - D 0 0 (i * dx.val) (j * dx.val)) (D 0 0 (i * dx.val) (j * dx.val))
    rw [sub_add_cancel] at t
    have := ha i j hi hj
    have := hD.bound 0 0 (by omega) (i * dx.val) (j * dx.val)
    linarith
  obtain ⟨r, e, k1, -, k3, k4⟩ := C97_laplace_N h0 1 (by linarith) (by push_cast; linarith) a hh hw dx hdx.ne'
    (B + δ) hM
  obtain ⟨h, w, _, _, f, rfl⟩ := toField a hh hw
  have l1 : NumpyGradients.periodic_laplace_N (ofField f) dx 1 = NumpyGradients.periodic_laplace (ofField f) dx := by
    rw [numpy_periodic_laplace_N_ofField, numpy_periodic_laplace_ofField]; rfl
  rw [l1] at k1
  refine ⟨r, k1, fun i j hi hj => ?_⟩
  rw [exactly_ofField, numpy_periodic_laplace_N_ofField] at k3
  cases k3
  have e0 : (tab (ofField f).h (ofField f).w fun i j => D 0 0 (i * dx.val) (j * dx.val))
      = ofField (h := h) (w := w) fun i j => D 0 0 (i.val * dx.val) (j.val * dx.val) := by
    refine tab_congr rfl rfl fun i j hi hj => ?_
    change i < h at hi
    change j < w at hj
    beta_reduce
    rw [ZMod.val_natCast, ZMod.val_natCast, Nat.mod_eq_of_lt hi, Nat.mod_eq_of_lt hj]
  rw [e0, numpy_periodic_laplace_ofField] at q1
  cases q1
  have t1 := k4 i j hi hj
  have t2 := q2 i j hi hj
  change i < h at hi
  change j < w at hj
  rw [ofField_at' _ hi hj] at t1 t2
  have t3 : |lap dx.val (ex f) i j - lap dx.val (fun (i : ZMod h) (j : ZMod w) => D 0 0 (i.val * dx.val) (j.val * dx.val)) i j|
      ≤ 8 / dx.val ^ 2 * δ := by
    have := lap_bound (dx := dx.val) (M := δ)
      (f := fun i j => ex f i j - (fun (i : ZMod h) (j : ZMod w) => D 0 0 (i.val * dx.val) (j.val * dx.val)) i j)
      (fun i j => by
        have := ha i.val j.val (ZMod.val_lt i) (ZMod.val_lt j)
        rw [ofField_at' _ (ZMod.val_lt i) (ZMod.val_lt j)] at this
        simpa [ex] using this) i j
    rwa [lap_sub] at this
  have s1 := abs_sub_le (r.at' i j).val (lap dx.val (ex f) i j)
    (D 2 0 (i * dx.val) (j * dx.val) + D 0 2 (i * dx.val) (j * dx.val))
  have s2 := abs_sub_le (lap dx.val (ex f) i j)
    (lap dx.val (fun (i : ZMod h) (j : ZMod w) => D 0 0 (i.val * dx.val) (j.val * dx.val)) i j)
    (D 2 0 (i * dx.val) (j * dx.val) + D 0 2 (i * dx.val) (j * dx.val))
  rw [pow_one, Function.iterate_one] at t1
  calc _ ≤ gam u 6 * (8 / dx.val ^ 2 * (B + δ)) + (8 / dx.val ^ 2 * δ + B / 6 * dx.val ^ 2) := by linarith
    _ = _ := by ring

/-! ### non-vacuity: double precision -/

example := C97_gradient (R := Rounded.binary 53) (by positivity) (by norm_num)
  (tab 3 2 fun i j => ((i * 7 + j : ℕ) : Rd (Rounded.binary 53))) (by decide) (by decide) ⟨1 / 10⟩ (by norm_num) 0
  (.inl rfl)

example := C97_laplace_N (R := Rounded.binary 53) (by positivity) 3 (by norm_num) (by norm_num)
  (tab 3 2 fun i j => ((i + j : ℕ) : Rd (Rounded.binary 53))) (by decide) (by decide) ⟨1 / 10⟩ (by norm_num) 5
  (fun i j hi hj => by
    change i < 3 at hi
    change j < 2 at hj
    rw [tab_at' _ _ _ hi hj, val_cast, abs_of_nonneg (by positivity)]
    have : i + j ≤ 5 := by omega
    exact_mod_cast this)

example := C97_bracket_conserves (R := Rounded.binary 53) (by positivity) (by norm_num)
  (tab 3 2 fun i j => ((i + j : ℕ) : Rd (Rounded.binary 53))) (tab 3 2 fun i j => ((i * j : ℕ) : Rd (Rounded.binary 53)))
  rfl rfl (by decide) (by decide) ⟨1 / 10⟩ (by norm_num) 5 6
  (fun i j hi hj => by
    change i < 3 at hi
    change j < 2 at hj
    rw [tab_at' _ _ _ hi hj, val_cast, abs_of_nonneg (by positivity)]
    have : i + j ≤ 5 := by omega
    exact_mod_cast this)
  (fun i j hi hj => by
    change i < 3 at hi
    change j < 2 at hj
    rw [tab_at' _ _ _ hi hj, val_cast, abs_of_nonneg (by positivity)]
    have : i * j ≤ 3 * 2 := Nat.mul_le_mul (by omega) (by omega)
    exact_mod_cast this)

example := C97_laplace (R := Rounded.binary 53) (by positivity) (by norm_num)
  (tab 3 2 fun i j => ((i * 7 + j : ℕ) : Rd (Rounded.binary 53))) (by decide) (by decide) ⟨1 / 10⟩ (by norm_num)

example := C97_bracket (R := Rounded.binary 53) (by positivity) (by norm_num)
  (tab 3 2 fun i j => ((i + j : ℕ) : Rd (Rounded.binary 53))) (tab 3 2 fun i j => ((i * j : ℕ) : Rd (Rounded.binary 53)))
  rfl rfl (by decide) (by decide) ⟨1 / 10⟩ (by norm_num) 5 6
  (fun i j hi hj => by
    change i < 3 at hi
    change j < 2 at hj
    rw [tab_at' _ _ _ hi hj, val_cast, abs_of_nonneg (by positivity)]
    have : i + j ≤ 5 := by omega
    exact_mod_cast this)
  (fun i j hi hj => by
    change i < 3 at hi
    change j < 2 at hj
    rw [tab_at' _ _ _ hi hj, val_cast, abs_of_nonneg (by positivity)]
    have : i * j ≤ 3 * 2 := Nat.mul_le_mul (by omega) (by omega)
    exact_mod_cast this)

end Verif.Props
