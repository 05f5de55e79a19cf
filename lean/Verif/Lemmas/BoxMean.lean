import Verif.Spec.Measured
import Verif.Lemmas.MolMain

/-!
# Grid averages of products of smooth functions
-/

namespace Verif

open Spec Set MeasureTheory intervalIntegral

variable {h w : ℕ} [NeZero h] [NeZero w]

theorem partials_sub_const {D : ℕ → ℕ → ℝ → ℝ → ℝ} {B m : ℝ} {r : ℕ} (hD : Partials r D B) (hm : |m| ≤ B) :
    Partials r (fun a b y x => if a = 0 ∧ b = 0 then D 0 0 y x - m else D a b y x) (2 * B) := by
  have hB := hD.nonneg
  refine ⟨fun a b hab y x => ?_, fun a b hab y x => ?_, fun a b hab y x => ?_⟩
  · have := hD.dy a b hab y x
    have e : ¬(a + 1 = 0 ∧ b = 0) := by omega
    simp only [e, if_false]
    split_ifs with h
    · obtain ⟨rfl, rfl⟩ := h
      exact this.sub_const m
    · exact this
  · have := hD.dx a b hab y x
    have e : ¬(a = 0 ∧ b + 1 = 0) := by omega
    simp only [e, if_false]
    split_ifs with h
    · obtain ⟨rfl, rfl⟩ := h
      exact this.sub_const m
    · exact this
  · have := hD.bound a b hab y x
    split_ifs with h
    · have h1 := hD.bound 0 0 (by omega) y x
      have := abs_sub (D 0 0 y x) m
      linarith
    · linarith

theorem boxMean_abs_le {F : ℝ → ℝ → ℝ} {B Ly Lx : ℝ} (hF : ∀ y x, |F y x| ≤ B) (ly : 0 < Ly) (lx : 0 < Lx) :
    |boxMean Ly Lx F| ≤ B := by
  unfold boxMean
  rw [abs_div, abs_of_pos (mul_pos ly lx), div_le_iff₀ (mul_pos ly lx)]
  have h1 : ∀ x, ‖∫ y in 0..Ly, F y x‖ ≤ B * Ly := fun x => by
    have := norm_integral_le_of_norm_le_const (a := 0) (b := Ly) (C := B) (f := fun y => F y x) fun y _ => hF y x
    rwa [sub_zero, abs_of_pos ly] at this
  have h2 := norm_integral_le_of_norm_le_const (a := 0) (b := Lx) (C := B * Ly)
    (f := fun x => ∫ y in 0..Ly, F y x) fun x _ => h1 x
  rw [sub_zero, abs_of_pos lx, Real.norm_eq_abs] at h2
  linarith

/-- the grid mean of a smooth function is its mean over the box, to second order -/
theorem avg_samp_box {D : ℕ → ℕ → ℝ → ℝ → ℝ} {B dx Ly Lx : ℝ} (hD : Partials 2 D B) (hdx : 0 < dx)
    (hp : Per h w dx (D 0 0)) (hy : h * dx = Ly) (hx : w * dx = Lx) :
    |avg (samp h w dx (D 0 0)) - boxMean Ly Lx (D 0 0)| ≤ B * dx ^ 2 / 6 := by
  have hh : (0 : ℝ) < h := Nat.cast_pos.mpr (NeZero.pos h)
  have hw : (0 : ℝ) < w := Nat.cast_pos.mpr (NeZero.pos w)
  have ly : 0 < Ly := by rw [← hy]; positivity
  have lx : 0 < Lx := by rw [← hx]; positivity
  set m := boxMean Ly Lx (D 0 0) with hm
  have hmB : |m| ≤ B := boxMean_abs_le (fun y x => hD.bound 0 0 (by omega) y x) ly lx
  have hc := hD.continuous (by omega)
  have cx : ∀ x, Continuous fun y => D 0 0 y x := fun x => hc.comp (by fun_prop : Continuous fun y : ℝ => (y, x))
  have ci : Continuous fun x => ∫ y in 0..Ly, D 0 0 y x :=
    continuous_parametric_intervalIntegral_of_continuous' (f := fun x y => D 0 0 y x)
      (hc.comp (by fun_prop : Continuous fun z : ℝ × ℝ => (z.2, z.1))) 0 Ly
  have h0 : ∫ x in 0..Lx, ∫ y in 0..Ly, (D 0 0 y x - m) = 0 := by
    have e1 : ∀ x, ∫ y in 0..Ly, (D 0 0 y x - m) = (∫ y in 0..Ly, D 0 0 y x) - Ly * m := fun x => by
      rw [integral_sub ((cx x).intervalIntegrable _ _) (continuous_const.intervalIntegrable _ _)]
      simp
    simp only [e1]
    rw [integral_sub (ci.intervalIntegrable _ _) (continuous_const.intervalIntegrable _ _)]
    simp only [intervalIntegral.integral_const, sub_zero, smul_eq_mul]
    rw [hm]; unfold boxMean
    field_simp
    ring
  have key := avg_samp_le (partials_sub_const hD hmB) hdx
    (h := h) (w := w) (by
      refine ⟨fun y x => ?_, fun y x => ?_⟩ <;> simp only [true_and, if_true]
      · rw [hp.y]
      · rw [hp.x]) hy hx (by simpa using h0)
  have e : avg (samp h w dx fun y x => if 0 = 0 ∧ 0 = 0 then D 0 0 y x - m else D 0 0 y x)
      = avg (samp h w dx (D 0 0)) - m := by
    have : (samp h w dx fun y x => if 0 = 0 ∧ 0 = 0 then D 0 0 y x - m else D 0 0 y x)
        = fun i j => samp h w dx (D 0 0) i j - (fun _ _ => m) i j := by
      funext i j; simp [samp]
    rw [this]
    unfold avg
    rw [S_sub]
    have : S (fun (_ : ZMod h) (_ : ZMod w) => m) = h * w * m := by
      unfold S; simp; ring
    rw [this]; field_simp
  rw [e] at key
  linarith

/-- partial derivatives of a product, up to order two -/
def mulFam (D E : ℕ → ℕ → ℝ → ℝ → ℝ) (a b : ℕ) (y x : ℝ) : ℝ := match a, b with
  | 0, 0 => D 0 0 y x * E 0 0 y x
  | 1, 0 => D 1 0 y x * E 0 0 y x + D 0 0 y x * E 1 0 y x
  | 0, 1 => D 0 1 y x * E 0 0 y x + D 0 0 y x * E 0 1 y x
  | 2, 0 => (D 2 0 y x * E 0 0 y x + D 1 0 y x * E 1 0 y x) + (D 1 0 y x * E 1 0 y x + D 0 0 y x * E 2 0 y x)
  | 1, 1 => (D 1 1 y x * E 0 0 y x + D 1 0 y x * E 0 1 y x) + (D 0 1 y x * E 1 0 y x + D 0 0 y x * E 1 1 y x)
  | 0, 2 => (D 0 2 y x * E 0 0 y x + D 0 1 y x * E 0 1 y x) + (D 0 1 y x * E 0 1 y x + D 0 0 y x * E 0 2 y x)
  | _, _ => 0

theorem mulFam_partials {D E : ℕ → ℕ → ℝ → ℝ → ℝ} {A B : ℝ} (hD : Partials 2 D A) (hE : Partials 2 E B) :
    Partials 2 (mulFam D E) (4 * (A * B)) := by
  have hA := hD.nonneg
  have hB := hE.nonneg
  refine ⟨fun a b hab y x => ?_, fun a b hab y x => ?_, fun a b hab y x => ?_⟩
  · have d := fun a b hab => hD.dy a b hab y x
    have e := fun a b hab => hE.dy a b hab y x
    have c : (a = 0 ∧ b = 0) ∨ (a = 1 ∧ b = 0) ∨ (a = 0 ∧ b = 1) := by omega
    rcases c with ⟨rfl, rfl⟩ | ⟨rfl, rfl⟩ | ⟨rfl, rfl⟩
    · exact (d 0 0 (by omega)).mul (e 0 0 (by omega))
    · exact ((d 1 0 (by omega)).mul (e 0 0 (by omega))).add ((d 0 0 (by omega)).mul (e 1 0 (by omega)))
    · refine (((d 0 1 (by omega)).mul (e 0 0 (by omega))).add ((d 0 0 (by omega)).mul (e 0 1 (by omega)))).congr_deriv ?_
      simp only [mulFam]; ring
  · have d := fun a b hab => hD.dx a b hab y x
    have e := fun a b hab => hE.dx a b hab y x
    have c : (a = 0 ∧ b = 0) ∨ (a = 1 ∧ b = 0) ∨ (a = 0 ∧ b = 1) := by omega
    rcases c with ⟨rfl, rfl⟩ | ⟨rfl, rfl⟩ | ⟨rfl, rfl⟩
    · exact (d 0 0 (by omega)).mul (e 0 0 (by omega))
    · exact ((d 1 0 (by omega)).mul (e 0 0 (by omega))).add ((d 0 0 (by omega)).mul (e 1 0 (by omega)))
    · exact ((d 0 1 (by omega)).mul (e 0 0 (by omega))).add ((d 0 0 (by omega)).mul (e 0 1 (by omega)))
  · have m : ∀ a b c d, a + b ≤ 2 → c + d ≤ 2 → |D a b y x * E c d y x| ≤ A * B := fun a b c d h1 h2 => by
      rw [abs_mul]
      exact mul_le_mul (hD.bound a b h1 y x) (hE.bound c d h2 y x) (abs_nonneg _) hA
    have hAB : 0 ≤ A * B := mul_nonneg hA hB
    have c : (a = 0 ∧ b = 0) ∨ (a = 1 ∧ b = 0) ∨ (a = 0 ∧ b = 1) ∨ (a = 2 ∧ b = 0) ∨ (a = 1 ∧ b = 1) ∨ (a = 0 ∧ b = 2) := by
      omega
    rcases c with ⟨rfl, rfl⟩ | ⟨rfl, rfl⟩ | ⟨rfl, rfl⟩ | ⟨rfl, rfl⟩ | ⟨rfl, rfl⟩ | ⟨rfl, rfl⟩ <;> simp only [mulFam]
    · linarith [m 0 0 0 0 (by omega) (by omega)]
    · linarith [abs_add_of (m 1 0 0 0 (by omega) (by omega)) (m 0 0 1 0 (by omega) (by omega))]
    · linarith [abs_add_of (m 0 1 0 0 (by omega) (by omega)) (m 0 0 0 1 (by omega) (by omega))]
    · linarith [abs_add_of (abs_add_of (m 2 0 0 0 (by omega) (by omega)) (m 1 0 1 0 (by omega) (by omega)))
        (abs_add_of (m 1 0 1 0 (by omega) (by omega)) (m 0 0 2 0 (by omega) (by omega)))]
    · linarith [abs_add_of (abs_add_of (m 1 1 0 0 (by omega) (by omega)) (m 1 0 0 1 (by omega) (by omega)))
        (abs_add_of (m 0 1 1 0 (by omega) (by omega)) (m 0 0 1 1 (by omega) (by omega)))]
    · linarith [abs_add_of (abs_add_of (m 0 2 0 0 (by omega) (by omega)) (m 0 1 0 1 (by omega) (by omega)))
        (abs_add_of (m 0 1 0 1 (by omega) (by omega)) (m 0 0 0 2 (by omega) (by omega)))]

/-- Cauchy–Schwarz, in the form used below: fields of root mean square at most `a` and `b` -/
theorem avg_mul_le {f g : Fld h w} {a b : ℝ} (ha : 0 ≤ a) (hb : 0 ≤ b) (hf : Q f ≤ (h : ℝ) * w * a ^ 2)
    (hg : Q g ≤ (h : ℝ) * w * b ^ 2) : |avg fun i j => f i j * g i j| ≤ a * b := by
  have hc : (0 : ℝ) < (h : ℝ) * w := cardR_pos
  have key : (S fun i j => f i j * g i j) ^ 2 ≤ Q f * Q g := by
    have := Finset.sum_mul_sq_le_sq_mul_sq (Finset.univ : Finset (ZMod h × ZMod w)) (fun z => f z.1 z.2) fun z => g z.1 z.2
    unfold Q S
    simp only [Fintype.sum_prod_type] at this
    exact this
  unfold avg
  rw [abs_div, abs_of_pos hc, div_le_iff₀ hc]
  refine abs_le_of_sq_le_sq ?_ (by positivity)
  refine key.trans ?_
  calc Q f * Q g ≤ ((h : ℝ) * w * a ^ 2) * ((h : ℝ) * w * b ^ 2) := mul_le_mul hf hg (Q_nonneg _) (by positivity)
    _ = _ := by ring

/-- products of approximations approximate the mean of the product -/
theorem avg_product {D E : ℕ → ℕ → ℝ → ℝ → ℝ} {A B K M dx Ly Lx : ℝ} {f g : Fld h w} (hD : Partials 2 D A)
    (hE : Partials 2 E B) (hdx : 0 < dx) (pD : Per h w dx (D 0 0)) (pE : Per h w dx (E 0 0)) (hy : h * dx = Ly)
    (hx : w * dx = Lx) (hK : 0 ≤ K) (hM : 0 ≤ M) (hf : Q (f - samp h w dx (D 0 0)) ≤ (h : ℝ) * w * (K * dx ^ 2) ^ 2)
    (hg : Q (g - samp h w dx (E 0 0)) ≤ (h : ℝ) * w * (M * dx ^ 2) ^ 2) :
    |(avg fun i j => f i j * g i j) - boxMean Ly Lx fun y x => D 0 0 y x * E 0 0 y x|
      ≤ (K * M * dx ^ 2 + K * B + A * M + A * B) * dx ^ 2 := by
  have hA := hD.nonneg
  have hB := hE.nonneg
  set d := samp h w dx (D 0 0)
  set e := samp h w dx (E 0 0)
  have qd : Q d ≤ (h : ℝ) * w * A ^ 2 := Q_bound fun i j => hD.bound 0 0 (by omega) _ _
  have qe : Q e ≤ (h : ℝ) * w * B ^ 2 := Q_bound fun i j => hE.bound 0 0 (by omega) _ _
  have h1 := avg_mul_le (by positivity) (by positivity) hf hg
  have h2 := avg_mul_le (by positivity) hB hf qe
  have h3 := avg_mul_le hA (by positivity) qd hg
  have h4 := avg_samp_box (h := h) (w := w) (mulFam_partials hD hE) hdx
    ⟨fun y x => by simp only [mulFam]; rw [pD.y, pE.y], fun y x => by simp only [mulFam]; rw [pD.x, pE.x]⟩ hy hx
  have split : (avg fun i j => f i j * g i j) = (avg fun i j => (f - d) i j * (g - e) i j)
      + (avg fun i j => (f - d) i j * e i j) + (avg fun i j => d i j * (g - e) i j)
      + avg (samp h w dx (mulFam D E 0 0)) := by
    unfold avg
    rw [← add_div, ← add_div, ← add_div, ← S_add, ← S_add, ← S_add]
    congr 1
    refine S_congr fun i j => ?_
    have : samp h w dx (mulFam D E 0 0) i j = d i j * e i j := rfl
    rw [this]
    simp only [Pi.sub_apply]; ring
  have hbox : boxMean Ly Lx (fun y x => D 0 0 y x * E 0 0 y x) = boxMean Ly Lx (mulFam D E 0 0) := rfl
  rw [split, hbox]
  have t := abs_add_of (abs_add_of (abs_add_of h1 h2) h3) h4
  rw [← add_sub_assoc] at t
  refine t.trans ?_
  nlinarith [mul_nonneg hA hB, mul_nonneg (mul_nonneg hA hB) (sq_nonneg dx)]

end Verif
