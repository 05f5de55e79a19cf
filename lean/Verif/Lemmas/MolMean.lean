import Verif.Lemmas.Sampling
import Verif.Lemmas.HWBasic
import Mathlib.MeasureTheory.Integral.IntervalIntegral.FundThmCalculus
import Mathlib.MeasureTheory.Integral.IntervalIntegral.Periodic
import Mathlib.MeasureTheory.Integral.DominatedConvergence

/-!
# Grid means of periodic functions against integrals
-/

set_option linter.unusedSectionVars false

namespace Verif

open Spec Arr Set MeasureTheory intervalIntegral

variable {h w : ℕ} [NeZero h] [NeZero w]

/-- midpoint rule on one cell -/
theorem midpoint {f f1 f2 : ℝ → ℝ} (h0 : ∀ t, HasDerivAt f (f1 t) t) (h1 : ∀ t, HasDerivAt f1 (f2 t) t)
    {M : ℝ} (hM : ∀ t, |f2 t| ≤ M) (c : ℝ) {s : ℝ} (hs : 0 ≤ s) :
    |(∫ x in (c - s)..(c + s), f x) - 2 * s * f c| ≤ M * s ^ 3 / 3 := by
  have hc : Continuous f := continuous_iff_continuousAt.mpr fun t => (h0 t).continuousAt
  have hi : ∀ a b, IntervalIntegrable f volume a b := fun a b => hc.intervalIntegrable a b
  have e : ∀ s, (∫ x in (c - s)..(c + s), f x) = (∫ x in c..(c + s), f x) - ∫ x in c..(c - s), f x :=
    fun s => (integral_interval_sub_left (hi _ _) (hi _ _)).symm
  have d : ∀ t, HasDerivAt (fun u => ∫ x in c..u, f x) (f t) t := fun t =>
    integral_hasDerivAt_right (hi _ _) (hc.stronglyMeasurableAtFilter _ _) hc.continuousAt
  have := growth (E := ℝ) (u := fun s => (∫ x in (c - s)..(c + s), f x) - 2 * s * f c)
    (u' := fun s => f (c + s) + f (c - s) - 2 * f c) (c := M) (T := s) 2 (by simp)
    (fun t _ => by
      have := (((d (c + t)).comp_const_add c t).sub ((d (c - t)).comp_const_sub c t)).sub
        (((hasDerivAt_id t).const_mul 2).mul_const (f c))
      refine HasDerivAt.hasDerivWithinAt ?_
      simp only [e]
      refine this.congr_deriv ?_
      ring)
    (fun t ht => second_le h0 h1 hM c ht.1) s ⟨hs, le_rfl⟩
  rw [Real.norm_eq_abs] at this
  refine this.trans_eq ?_
  norm_num

/-- the rectangle rule for a periodic function -/
theorem periodic_rule {f f1 f2 : ℝ → ℝ} (h0 : ∀ t, HasDerivAt f (f1 t) t)
    (h1 : ∀ t, HasDerivAt f1 (f2 t) t) {M : ℝ} (hM : ∀ t, |f2 t| ≤ M) {n : ℕ} {dx : ℝ} (hdx : 0 < dx)
    (hp : ∀ t, f (t + n * dx) = f t) :
    |dx * (∑ i ∈ Finset.range n, f (i * dx)) - ∫ x in 0..(n * dx), f x| ≤ n * (M * dx ^ 3 / 24) := by
  have hc : Continuous f := continuous_iff_continuousAt.mpr fun t => (h0 t).continuousAt
  have hi : ∀ a b, IntervalIntegrable f volume a b := fun a b => hc.intervalIntegrable a b
  have e1 : ∫ x in 0..(n * dx), f x = ∫ x in (-(dx / 2))..(-(dx / 2) + n * dx), f x := by
    have := Function.Periodic.intervalIntegral_add_eq (f := f) (T := n * dx) hp 0 (-(dx / 2))
    rwa [zero_add] at this
  have e2 := sum_integral_adjacent_intervals (f := f) (μ := volume) (n := n)
    (a := fun i : ℕ => -(dx / 2) + i * dx) (fun k _ => hi _ _)
  simp only [Nat.cast_zero, zero_mul, add_zero] at e2
  rw [e1, ← e2, Finset.mul_sum, ← Finset.sum_sub_distrib]
  refine (Finset.abs_sum_le_sum_abs _ _).trans ?_
  have : ∀ i ∈ Finset.range n, |dx * f (i * dx) - ∫ x in (-(dx / 2) + (i : ℝ) * dx)..(-(dx / 2) + ((i + 1 : ℕ) : ℝ) * dx), f x|
      ≤ M * dx ^ 3 / 24 := by
    intro i _
    have := midpoint h0 h1 hM (i * dx) (s := dx / 2) (by linarith)
    rw [abs_sub_comm]
    have e3 : -(dx / 2) + (i : ℝ) * dx = i * dx - dx / 2 := by ring
    have e4 : -(dx / 2) + ((i + 1 : ℕ) : ℝ) * dx = i * dx + dx / 2 := by push_cast; ring
    rw [e3, e4]
    have e5 : 2 * (dx / 2) = dx := by ring
    rw [e5] at this
    exact this.trans_eq (by ring)
  refine (Finset.sum_le_sum this).trans_eq ?_
  simp

/-- functions with bounded partial derivatives are continuous in both variables -/
theorem Spec.Partials.continuous {r : ℕ} {D : ℕ → ℕ → ℝ → ℝ → ℝ} {B : ℝ} (hD : Partials r D B) (hr : 1 ≤ r) :
    Continuous fun z : ℝ × ℝ => D 0 0 z.1 z.2 := by
  have hB := hD.nonneg
  have hy : ∀ y y' x, |D 0 0 y x - D 0 0 y' x| ≤ B * |y - y'| := by
    intro y y' x
    have := Convex.norm_image_sub_le_of_norm_hasDerivWithin_le (f := fun y => D 0 0 y x)
      (f' := fun y => D 1 0 y x) (s := univ) (C := B)
      (fun t _ => (hD.dy 0 0 (by omega) t x).hasDerivWithinAt)
      (fun t _ => hD.bound 1 0 (by omega) t x) convex_univ (mem_univ y') (mem_univ y)
    exact this
  have hx : ∀ y x x', |D 0 0 y x - D 0 0 y x'| ≤ B * |x - x'| := by
    intro y x x'
    have := Convex.norm_image_sub_le_of_norm_hasDerivWithin_le (f := fun x => D 0 0 y x)
      (f' := fun x => D 0 1 y x) (s := univ) (C := B)
      (fun t _ => (hD.dx 0 0 (by omega) y t).hasDerivWithinAt)
      (fun t _ => hD.bound 0 1 (by omega) y t) convex_univ (mem_univ x') (mem_univ x)
    exact this
  refine LipschitzWith.continuous (K := ⟨2 * B, by positivity⟩) (LipschitzWith.of_dist_le_mul ?_)
  rintro ⟨y, x⟩ ⟨y', x'⟩
  rw [Real.dist_eq, Prod.dist_eq, Real.dist_eq, Real.dist_eq]
  change |D 0 0 y x - D 0 0 y' x'| ≤ 2 * B * _
  have e : D 0 0 y x - D 0 0 y' x' = (D 0 0 y x - D 0 0 y' x) + (D 0 0 y' x - D 0 0 y' x') := by ring
  rw [e]
  refine (abs_add_le _ _).trans ?_
  have h1 := hy y y' x
  have h2 := hx y' x x'
  have h3 := mul_le_mul_of_nonneg_left (le_max_left |y - y'| |x - x'|) hB
  have h4 := mul_le_mul_of_nonneg_left (le_max_right |y - y'| |x - x'|) hB
  change _ ≤ 2 * B * max |y - y'| |x - x'|
  linarith

/-- sum over the grid as a double sum over indices -/
theorem S_samp (dx : ℝ) (F : ℝ → ℝ → ℝ) :
    S (samp h w dx F) = ∑ j ∈ Finset.range w, ∑ i ∈ Finset.range h, F (i * dx) (j * dx) := by
  unfold S
  rw [← sum_fin_ofField, Finset.sum_range, Finset.sum_comm]
  refine Finset.sum_congr rfl fun j _ => ?_
  rw [Finset.sum_range]
  refine Finset.sum_congr rfl fun i _ => ?_
  change F (((i : ℕ) : ZMod h).val * dx) (((j : ℕ) : ZMod w).val * dx) = _
  rw [ZMod.val_natCast, ZMod.val_natCast, Nat.mod_eq_of_lt i.2, Nat.mod_eq_of_lt j.2]

/-- the grid mean of a function with zero integral is of second order -/
theorem avg_samp_le {D : ℕ → ℕ → ℝ → ℝ → ℝ} {B dx Ly Lx : ℝ} (hD : Partials 2 D B) (hdx : 0 < dx)
    (hp : Per h w dx (D 0 0)) (hy : h * dx = Ly) (hx : w * dx = Lx)
    (h0 : ∫ x in 0..Lx, ∫ y in 0..Ly, D 0 0 y x = 0) :
    |avg (samp h w dx (D 0 0))| ≤ B * dx ^ 2 / 12 := by
  have hh : (0 : ℝ) < h := Nat.cast_pos.mpr (NeZero.pos h)
  have hw : (0 : ℝ) < w := Nat.cast_pos.mpr (NeZero.pos w)
  have hB := hD.nonneg
  have hc := hD.continuous (by omega)
  have cy : ∀ y, Continuous fun x => D 0 0 y x := fun y => hc.comp (by fun_prop : Continuous fun x : ℝ => (y, x))
  have ci : Continuous fun x => ∫ y in 0..Ly, D 0 0 y x :=
    continuous_parametric_intervalIntegral_of_continuous' (f := fun x y => D 0 0 y x)
      (hc.comp (by fun_prop : Continuous fun z : ℝ × ℝ => (z.2, z.1))) 0 Ly
  have cs : Continuous fun x => ∑ i ∈ Finset.range h, D 0 0 (i * dx) x :=
    continuous_finsetSum _ fun i _ => cy _
  have cs' : Continuous fun x => dx * ∑ i ∈ Finset.range h, D 0 0 (i * dx) x := continuous_const.mul cs
  -- rule in y, for each x
  have ry : ∀ x, |dx * (∑ i ∈ Finset.range h, D 0 0 (i * dx) x) - ∫ y in 0..Ly, D 0 0 y x|
      ≤ h * (B * dx ^ 3 / 24) := fun x => by
    rw [← hy]
    exact periodic_rule (fun t => hD.dy 0 0 (by omega) t x) (fun t => hD.dy 1 0 (by omega) t x)
      (fun t => hD.bound 2 0 (by omega) t x) hdx (fun t => hp.y t x)
  -- rule in x, for each row
  have rx : ∀ y, |dx * (∑ j ∈ Finset.range w, D 0 0 y (j * dx)) - ∫ x in 0..Lx, D 0 0 y x|
      ≤ w * (B * dx ^ 3 / 24) := fun y => by
    rw [← hx]
    exact periodic_rule (fun t => hD.dx 0 0 (by omega) y t) (fun t => hD.dx 0 1 (by omega) y t)
      (fun t => hD.bound 0 2 (by omega) y t) hdx (fun t => hp.x y t)
  have a1 : |∫ x in 0..Lx, (dx * (∑ i ∈ Finset.range h, D 0 0 (i * dx) x) - ∫ y in 0..Ly, D 0 0 y x)|
      ≤ h * (B * dx ^ 3 / 24) * |Lx - 0| :=
    intervalIntegral.norm_integral_le_of_norm_le_const (C := h * (B * dx ^ 3 / 24)) (a := 0) (b := Lx)
      (f := fun x => dx * (∑ i ∈ Finset.range h, D 0 0 (i * dx) x) - ∫ y in 0..Ly, D 0 0 y x) fun x _ => ry x
  rw [integral_sub (cs'.intervalIntegrable _ _) (ci.intervalIntegrable _ _), h0, sub_zero,
    intervalIntegral.integral_const_mul,
    integral_finsetSum fun i _ => (cy _).intervalIntegrable _ _, sub_zero] at a1
  have a2 : |∑ i ∈ Finset.range h, (dx * (∑ j ∈ Finset.range w, D 0 0 (i * dx) (j * dx))
      - ∫ x in 0..Lx, D 0 0 (i * dx) x)| ≤ h * (w * (B * dx ^ 3 / 24)) := by
    refine (Finset.abs_sum_le_sum_abs _ _).trans ((Finset.sum_le_sum fun i (_ : i ∈ Finset.range h) => rx ((i : ℝ) * dx)).trans_eq ?_)
    simp
  rw [Finset.sum_sub_distrib, ← Finset.mul_sum] at a2
  have e : S (samp h w dx (D 0 0))
      = ∑ i ∈ Finset.range h, ∑ j ∈ Finset.range w, D 0 0 (i * dx) (j * dx) := by
    rw [S_samp, Finset.sum_comm]
  rw [← e] at a2
  have hL : |Lx| = w * dx := by rw [← hx, abs_of_pos (by positivity)]
  rw [hL] at a1
  set I := ∑ i ∈ Finset.range h, ∫ x in 0..Lx, D 0 0 (i * dx) x
  have a3 : |dx * dx * S (samp h w dx (D 0 0))| ≤ h * w * dx ^ 4 * B / 12 := by
    have e2 : dx * dx * S (samp h w dx (D 0 0)) = dx * (dx * S (samp h w dx (D 0 0)) - I) + dx * I := by ring
    rw [e2]
    refine (abs_add_le _ _).trans ?_
    rw [abs_mul dx, abs_of_pos hdx]
    have := mul_le_mul_of_nonneg_left a2 hdx.le
    calc _ ≤ dx * (h * (w * (B * dx ^ 3 / 24))) + h * (B * dx ^ 3 / 24) * (w * dx) := add_le_add this a1
      _ = _ := by ring
  unfold avg
  rw [abs_div, abs_of_pos (mul_pos hh hw), div_le_iff₀ (mul_pos hh hw)]
  rw [abs_mul, abs_of_pos (mul_pos hdx hdx)] at a3
  refine le_of_mul_le_mul_left (a := dx * dx) (a3.trans_eq (by ring)) (by positivity)

end Verif
