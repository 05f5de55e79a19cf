import Verif.Lemmas.BoxMean
import Mathlib.MeasureTheory.Integral.IntervalIntegral.IntegrationByParts

/-!
# Integration by parts on the periodic box
-/

namespace Verif

open Spec Set MeasureTheory intervalIntegral

/-- the derivatives of a family of partial derivatives -/
theorem partials_shift {r q c d : ℕ} {D : ℕ → ℕ → ℝ → ℝ → ℝ} {B : ℝ} (hD : Partials r D B) (h : q + (c + d) ≤ r) :
    Partials q (fun a b => D (c + a) (d + b)) B :=
  ⟨fun a b hab => hD.dy (c + a) (d + b) (by omega), fun a b hab => hD.dx (c + a) (d + b) (by omega),
    fun a b hab => hD.bound (c + a) (d + b) (by omega)⟩

/-- iterated integrals of a continuous function may be exchanged -/
theorem integral_exchange {F : ℝ → ℝ → ℝ} (hF : Continuous fun z : ℝ × ℝ => F z.1 z.2) {a b : ℝ} (ha : 0 ≤ a) (hb : 0 ≤ b) :
    ∫ x in 0..a, ∫ y in 0..b, F y x = ∫ y in 0..b, ∫ x in 0..a, F y x := by
  simp only [integral_of_le ha, integral_of_le hb]
  refine integral_integral_swap (f := fun x y => F y x) ?_
  rw [Measure.prod_restrict]
  have hc : Continuous (Function.uncurry fun x y => F y x) := hF.comp continuous_swap
  refine IntegrableOn.mono_set (t := Icc 0 a ×ˢ Icc 0 b) ?_ (prod_mono Ioc_subset_Icc_self Ioc_subset_Icc_self)
  exact hc.continuousOn.integrableOn_compact (isCompact_Icc.prod isCompact_Icc)

/-- integration by parts over a period -/
theorem parts_period {f g k : ℝ → ℝ} {L : ℝ} (hf : ∀ t, HasDerivAt f (g t) t) (hg : ∀ t, HasDerivAt g (k t) t)
    (hk : Continuous k) (p0 : f L = f 0) (p1 : g L = g 0) : ∫ t in 0..L, f t * k t = -∫ t in 0..L, g t ^ 2 := by
  have cg : Continuous g := continuous_iff_continuousAt.mpr fun t => (hg t).continuousAt
  have := integral_mul_deriv_eq_deriv_mul (a := 0) (b := L) (u := f) (v := g) (u' := g) (v' := k) (fun t _ => hf t)
    (fun t _ => hg t) (cg.intervalIntegrable _ _) (hk.intervalIntegrable _ _)
  rw [this, p0, p1]
  simp only [sub_self, zero_sub, sq]

theorem periodic_dy {E : ℕ → ℕ → ℝ → ℝ → ℝ} {B Ly Lx : ℝ} {r : ℕ} (hr : 1 ≤ r) (hE : Partials r E B)
    (hp : Periodic2 Ly Lx (E 0 0)) : Periodic2 Ly Lx (E 1 0) := fun y x => by
  have h0 := fun y x => hE.dy 0 0 (by omega) y x
  constructor
  · have h1 := (h0 (y + Ly) x).comp_add_const y Ly
    have e : (fun y => E 0 0 (y + Ly) x) = fun y => E 0 0 y x := funext fun y => (hp y x).1
    rw [e] at h1
    exact h1.unique (h0 y x)
  · have h1 := h0 y (x + Lx)
    have e : (fun y => E 0 0 y (x + Lx)) = fun y => E 0 0 y x := funext fun y => (hp y x).2
    rw [e] at h1
    exact h1.unique (h0 y x)

theorem periodic_dx {E : ℕ → ℕ → ℝ → ℝ → ℝ} {B Ly Lx : ℝ} {r : ℕ} (hr : 1 ≤ r) (hE : Partials r E B)
    (hp : Periodic2 Ly Lx (E 0 0)) : Periodic2 Ly Lx (E 0 1) := fun y x => by
  have h0 := fun y x => hE.dx 0 0 (by omega) y x
  constructor
  · have h1 := h0 (y + Ly) x
    have e : (fun x => E 0 0 (y + Ly) x) = fun x => E 0 0 y x := funext fun x => (hp y x).1
    rw [e] at h1
    exact h1.unique (h0 y x)
  · have h1 := (h0 y (x + Lx)).comp_add_const x Lx
    have e : (fun x => E 0 0 y (x + Lx)) = fun x => E 0 0 y x := funext fun x => (hp y x).2
    rw [e] at h1
    exact h1.unique (h0 y x)

/-- sums of double integrals -/
theorem integral2_add {Ly Lx : ℝ} (F G : ℝ → ℝ → ℝ) (cF : Continuous fun z : ℝ × ℝ => F z.1 z.2)
    (cG : Continuous fun z : ℝ × ℝ => G z.1 z.2) : ∫ x in 0..Lx, ∫ y in 0..Ly, (F y x + G y x)
      = (∫ x in 0..Lx, ∫ y in 0..Ly, F y x) + ∫ x in 0..Lx, ∫ y in 0..Ly, G y x := by
  have i1 : ∀ F : ℝ → ℝ → ℝ, (Continuous fun z : ℝ × ℝ => F z.1 z.2) → ∀ x, IntervalIntegrable (fun y => F y x) volume 0 Ly :=
    fun F cF x => (cF.comp (by fun_prop : Continuous fun y : ℝ => (y, x))).intervalIntegrable _ _
  have i2 : ∀ F : ℝ → ℝ → ℝ, (Continuous fun z : ℝ × ℝ => F z.1 z.2) →
      IntervalIntegrable (fun x => ∫ y in 0..Ly, F y x) volume 0 Lx := fun F cF =>
    (continuous_parametric_intervalIntegral_of_continuous' (f := fun x y => F y x)
      (cF.comp continuous_swap) 0 Ly).intervalIntegrable _ _
  rw [← integral_add (i2 F cF) (i2 G cG)]
  refine integral_congr fun x _ => ?_
  exact integral_add (i1 F cF x) (i1 G cG x)

theorem boxMean_add {Ly Lx : ℝ} (F G : ℝ → ℝ → ℝ) (cF : Continuous fun z : ℝ × ℝ => F z.1 z.2)
    (cG : Continuous fun z : ℝ × ℝ => G z.1 z.2) :
    (boxMean Ly Lx fun y x => F y x + G y x) = boxMean Ly Lx F + boxMean Ly Lx G := by
  unfold boxMean
  rw [integral2_add F G cF cG, add_div]

/-- Green's identity on the periodic box -/
theorem box_parts {E : ℕ → ℕ → ℝ → ℝ → ℝ} {B Ly Lx : ℝ} {r : ℕ} (hr : 3 ≤ r) (hE : Partials r E B)
    (hp : Periodic2 Ly Lx (E 0 0)) (ly : 0 < Ly) (lx : 0 < Lx) :
    boxMean Ly Lx (fun y x => E 0 0 y x * (E 2 0 y x + E 0 2 y x))
      = -boxMean Ly Lx fun y x => E 0 1 y x ^ 2 + E 1 0 y x ^ 2 := by
  have c : ∀ a b, a + b ≤ 2 → Continuous fun z : ℝ × ℝ => E a b z.1 z.2 := fun a b hab =>
    (partials_shift hE (by omega : 1 + (a + b) ≤ r)).continuous (r := 1) le_rfl
  have cy : ∀ a b, a + b ≤ 2 → ∀ x, Continuous fun y => E a b y x := fun a b hab x =>
    (c a b hab).comp (by fun_prop : Continuous fun y : ℝ => (y, x))
  have cx : ∀ a b, a + b ≤ 2 → ∀ y, Continuous fun x => E a b y x := fun a b hab y =>
    (c a b hab).comp (by fun_prop : Continuous fun x : ℝ => (y, x))
  have p10 := periodic_dy (by omega) hE hp
  have p01 := periodic_dx (by omega) hE hp
  have iy : ∀ x, ∫ y in 0..Ly, E 0 0 y x * E 2 0 y x = -∫ y in 0..Ly, E 1 0 y x ^ 2 := fun x =>
    parts_period (fun t => hE.dy 0 0 (by omega) t x) (fun t => hE.dy 1 0 (by omega) t x) (cy 2 0 (by omega) x)
      (by simpa using (hp 0 x).1) (by simpa using (p10 0 x).1)
  have ix : ∀ y, ∫ x in 0..Lx, E 0 0 y x * E 0 2 y x = -∫ x in 0..Lx, E 0 1 y x ^ 2 := fun y =>
    parts_period (fun t => hE.dx 0 0 (by omega) y t) (fun t => hE.dx 0 1 (by omega) y t) (cx 0 2 (by omega) y)
      (by simpa using (hp y 0).2) (by simpa using (p01 y 0).2)
  have c00 := c 0 0 (by omega)
  have c20 := c 2 0 (by omega)
  have c02 := c 0 2 (by omega)
  have c10 := c 1 0 (by omega)
  have c01 := c 0 1 (by omega)
  have add2 := @integral2_add Ly Lx
  unfold boxMean
  have l1 : ∫ x in 0..Lx, ∫ y in 0..Ly, E 0 0 y x * (E 2 0 y x + E 0 2 y x)
      = (∫ x in 0..Lx, ∫ y in 0..Ly, E 0 0 y x * E 2 0 y x) + ∫ x in 0..Lx, ∫ y in 0..Ly, E 0 0 y x * E 0 2 y x := by
    rw [← add2 _ _ (c00.mul c20) (c00.mul c02)]
    simp only [mul_add]
  have l2 := add2 (fun y x => E 0 1 y x ^ 2) (fun y x => E 1 0 y x ^ 2) (c01.pow 2) (c10.pow 2)
  rw [l1, l2]
  rw [integral_exchange (F := fun y x => E 0 0 y x * E 0 2 y x) (c00.mul c02) lx.le ly.le]
  rw [integral_exchange (F := fun y x => E 0 1 y x ^ 2) (c01.pow 2) lx.le ly.le]
  simp only [iy, ix, intervalIntegral.integral_neg]
  ring

end Verif
