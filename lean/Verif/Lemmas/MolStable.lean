import Verif.Lemmas.MolPhi
import Verif.Lemmas.HWField
import Verif.Lemmas.HWODE

/-!
# Estimates for convergence: stability of the semi-discrete equations
-/

set_option linter.unusedSectionVars false

namespace Verif

open Spec Arr Set

variable {h w : ℕ} [NeZero h] [NeZero w]

theorem Q_add_le' (f g : Fld h w) : Q (f + g) ≤ 2 * Q f + 2 * Q g := Q_add_le f g

theorem dirichlet_add_le (f g : Fld h w) :
    dirichlet (f + g) (f + g) ≤ 2 * dirichlet f f + 2 * dirichlet g g := by
  unfold dirichlet
  rw [← S_mul_left, ← S_mul_left, ← S_add]
  refine S_le fun i j => ?_
  simp only [Pi.add_apply]
  nlinarith [sq_nonneg ((f (i + 1) j - f i j) - (g (i + 1) j - g i j)),
    sq_nonneg ((f i (j + 1) - f i j) - (g i (j + 1) - g i j))]

/-- removing the zonal mean does not increase the norm -/
theorem Q_nonZonal_le (f : Fld h w) : Q (nonZonal f) ≤ Q f := by
  unfold Q S
  rw [Finset.sum_comm, Finset.sum_comm (f := fun i j => f i j ^ 2)]
  refine Finset.sum_le_sum fun j _ => ?_
  have hh : (0 : ℝ) < h := Nat.cast_pos.mpr (NeZero.pos h)
  set m := ∑ i', f i' j with hm
  have e : ∀ i, nonZonal f i j ^ 2 = f i j ^ 2 - 2 * (m / h) * f i j + (m / h) ^ 2 := by
    intro i; unfold nonZonal; rw [← hm]; ring
  simp only [e, Finset.sum_add_distrib, Finset.sum_sub_distrib, ← Finset.mul_sum, ← hm, Finset.sum_const,
    Finset.card_univ, ZMod.card, nsmul_eq_mul]
  have : 2 * (m / h) * m - h * (m / h) ^ 2 = m ^ 2 / h := by field_simp; ring
  have : 0 ≤ m ^ 2 / h := by positivity
  linarith

theorem nonZonal_sub (f g : Fld h w) (i : ZMod h) (j : ZMod w) :
    nonZonal (fun i j => f i j - g i j) i j = nonZonal f i j - nonZonal g i j := by
  unfold nonZonal
  rw [Finset.sum_sub_distrib]; ring

theorem couple_sub (z : Bool) (p q n m : Fld h w) (i : ZMod h) (j : ZMod w) :
    couple z p n i j - couple z q m i j
      = couple z (fun i j => p i j - q i j) (fun i j => n i j - m i j) i j := by
  unfold couple
  cases z
  · simp; ring
  · simp [nonZonal_sub]; ring

theorem Q_couple_le (z : Bool) (p n : Fld h w) : Q (couple z p n) ≤ 2 * Q p + 2 * Q n := by
  have e : couple z p n = fun i j => couple z p (fun _ _ => 0) i j + couple z (fun _ _ => 0) n i j := by
    funext i j
    unfold couple
    cases z
    · simp; ring
    · simp [nonZonal]; ring
  have hp : Q (couple z p (fun _ _ => 0)) ≤ Q p := by
    unfold couple
    cases z
    · simp
    · have : (fun i j => nonZonal p i j - nonZonal (fun _ _ => 0) i j) = nonZonal p := by
        funext i j; simp [nonZonal]
      simp only [if_true, this]
      exact Q_nonZonal_le p
  have hn : Q (couple z (fun _ _ => 0) n) ≤ Q n := by
    unfold couple
    cases z
    · simp [Q]
    · have : (fun i j => nonZonal (fun _ _ => 0) i j - nonZonal n i j) = fun i j => - nonZonal n i j := by
        funext i j; simp [nonZonal]
      simp only [if_true, this]
      have e2 : Q (fun i j => - nonZonal n i j) = Q (nonZonal n) := S_congr fun i j => by ring
      rw [e2]
      exact Q_nonZonal_le n
  rw [e]
  refine (Q_add_le _ _).trans ?_
  linarith

theorem S_hyper_le (P : Params) (hnu : 0 ≤ P.nu) (f : Fld h w) : S (fun i j => f i j * hyper P f i j) ≤ 0 := by
  have := avg_hyper_nonpos P hnu f
  unfold avg at this
  by_contra hc
  push Not at hc
  have := div_pos hc (cardR_pos (h := h) (w := w))
  linarith

theorem hyper_sub (P : Params) (f g : Fld h w) (i : ZMod h) (j : ZMod w) :
    hyper P f i j - hyper P g i j = hyper P (fun i j => f i j - g i j) i j := by
  unfold hyper
  have : ∀ (m : ℕ) (f g : Fld h w), (lap P.dx)^[m] (fun i j => f i j - g i j)
      = fun i j => (lap P.dx)^[m] f i j - (lap P.dx)^[m] g i j := by
    intro m
    induction m with
    | zero => intro f g; rfl
    | succ m ih =>
      intro f g
      simp only [Function.iterate_succ_apply]
      have e : lap P.dx (fun i j => f i j - g i j) = fun i j => lap P.dx f i j - lap P.dx g i j := by
        funext i j; unfold lap; ring
      rw [e, ih]
  rw [this]; ring

/-- difference of two brackets -/
theorem jac_diff (dx : ℝ) (p q u v : Fld h w) (i : ZMod h) (j : ZMod w) :
    jac dx p u i j - jac dx q v i j
      = jac dx p (fun i j => u i j - v i j) i j + jac dx (fun i j => p i j - q i j) v i j := by
  unfold jac; ring

theorem gradY_diff (dx : ℝ) (p q : Fld h w) (i : ZMod h) (j : ZMod w) :
    gradY dx p i j - gradY dx q i j = gradY dx (fun i j => p i j - q i j) i j := by
  unfold gradY; ring

/-- growth of the density error -/
theorem stable_N (P : Params) (hdx : 0 < P.dx) (hnu : 0 ≤ P.nu) {M : ℝ} (n n' p p' : Fld h w)
    (hy : ∀ i j, |n (i + 1) j - n i j| ≤ M) (hx : ∀ i j, |n i (j + 1) - n i j| ≤ M) :
    2 * S (fun i j => (n' i j - n i j) * (rhsN P n' p' i j - rhsN P n p i j))
      ≤ (3 * |P.c1| + |P.pb| + |P.kappa|) * Q (fun i j => n' i j - n i j)
        + 2 * |P.c1| * Q (fun i j => p' i j - p i j)
        + (|P.pb| * (80 / 9 * (M / P.dx) ^ 2) + |P.kappa|)
          * (dirichlet (fun i j => p' i j - p i j) (fun i j => p' i j - p i j) / P.dx ^ 2) := by
  set e : Fld h w := fun i j => n' i j - n i j with he
  set d : Fld h w := fun i j => p' i j - p i j with hd
  have split : ∀ i j, (n' i j - n i j) * (rhsN P n' p' i j - rhsN P n p i j)
      = P.c1 * (e i j * couple P.zonal d e i j) + (-P.pb) * (e i j * jac P.dx p' e i j)
        + (-P.pb) * (e i j * jac P.dx d n i j) + (-P.kappa) * (e i j * gradY P.dx d i j)
        + e i j * hyper P e i j := by
    intro i j
    have h1 := couple_sub P.zonal p' p n' n i j
    have h2 := jac_diff P.dx p' p n' n i j
    have h3 := gradY_diff P.dx p' p i j
    have h4 := hyper_sub P n' n i j
    change _ = couple P.zonal d e i j at h1
    change _ = jac P.dx p' e i j + jac P.dx d n i j at h2
    change _ = gradY P.dx d i j at h3
    change _ = hyper P e i j at h4
    change e i j * _ = _
    unfold rhsN
    linear_combination e i j * P.c1 * h1 - e i j * P.pb * h2 - e i j * P.kappa * h3 + e i j * h4
  rw [S_congr split]
  simp only [S_add, S_mul_left, S_jac_right]
  have a1 := S_mul_abs_le P.c1 e (couple P.zonal d e)
  have a2 := S_mul_abs_le (-P.pb) e (jac P.dx d n)
  have a3 := S_mul_abs_le (-P.kappa) e (gradY P.dx d)
  have a4 := S_hyper_le P hnu e
  rw [abs_neg] at a2 a3
  have b1 := mul_le_mul_of_nonneg_left (Q_couple_le P.zonal d e) (abs_nonneg P.c1)
  have b2 := mul_le_mul_of_nonneg_left (jac_sq_le hdx d n hy hx) (abs_nonneg P.pb)
  have b3 := mul_le_mul_of_nonneg_left (gradY_sq_le hdx d) (abs_nonneg P.kappa)
  have e2 : 80 / 9 * M ^ 2 / P.dx ^ 4 * dirichlet d d
      = 80 / 9 * (M / P.dx) ^ 2 * (dirichlet d d / P.dx ^ 2) := by field_simp
  rw [e2] at b2
  nlinarith

/-- growth of the vorticity error -/
theorem stable_O (P : Params) (hdx : 0 < P.dx) (hnu : 0 ≤ P.nu) {M : ℝ} (n n' o o' p p' : Fld h w)
    (hy : ∀ i j, |o (i + 1) j - o i j| ≤ M) (hx : ∀ i j, |o i (j + 1) - o i j| ≤ M) :
    2 * S (fun i j => (o' i j - o i j) * (rhsO P n' o' p' i j - rhsO P n o p i j))
      ≤ (|P.c1| + |P.pb|) * Q (fun i j => o' i j - o i j)
        + 2 * |P.c1| * Q (fun i j => n' i j - n i j)
        + 2 * |P.c1| * Q (fun i j => p' i j - p i j)
        + |P.pb| * (80 / 9 * (M / P.dx) ^ 2)
          * (dirichlet (fun i j => p' i j - p i j) (fun i j => p' i j - p i j) / P.dx ^ 2) := by
  set e : Fld h w := fun i j => n' i j - n i j with he
  set v : Fld h w := fun i j => o' i j - o i j with hv
  set d : Fld h w := fun i j => p' i j - p i j with hd
  have split : ∀ i j, (o' i j - o i j) * (rhsO P n' o' p' i j - rhsO P n o p i j)
      = P.c1 * (v i j * couple P.zonal d e i j) + (-P.pb) * (v i j * jac P.dx p' v i j)
        + (-P.pb) * (v i j * jac P.dx d o i j) + v i j * hyper P v i j := by
    intro i j
    have h1 := couple_sub P.zonal p' p n' n i j
    have h2 := jac_diff P.dx p' p o' o i j
    have h4 := hyper_sub P o' o i j
    change _ = couple P.zonal d e i j at h1
    change _ = jac P.dx p' v i j + jac P.dx d o i j at h2
    change _ = hyper P v i j at h4
    change v i j * _ = _
    unfold rhsO
    linear_combination v i j * P.c1 * h1 - v i j * P.pb * h2 + v i j * h4
  rw [S_congr split]
  simp only [S_add, S_mul_left, S_jac_right]
  have a1 := S_mul_abs_le P.c1 v (couple P.zonal d e)
  have a2 := S_mul_abs_le (-P.pb) v (jac P.dx d o)
  have a4 := S_hyper_le P hnu v
  rw [abs_neg] at a2
  have b1 := mul_le_mul_of_nonneg_left (Q_couple_le P.zonal d e) (abs_nonneg P.c1)
  have b2 := mul_le_mul_of_nonneg_left (jac_sq_le hdx d o hy hx) (abs_nonneg P.pb)
  have e2 : 80 / 9 * M ^ 2 / P.dx ^ 4 * dirichlet d d
      = 80 / 9 * (M / P.dx) ^ 2 * (dirichlet d d / P.dx ^ 2) := by field_simp
  rw [e2] at b2
  nlinarith

/-- growth rate of the squared error -/
noncomputable def molA (P : Params) (B L : ℝ) : ℝ :=
  5 * |P.c1| + |P.pb| + |P.kappa| + 8 * |P.c1| * poin L ^ 2
    + 2 * (2 * |P.pb| * (80 / 9 * B ^ 2) + |P.kappa|) * poin L + 1

/-- influence of the error of the potential -/
noncomputable def molC (P : Params) (B : ℝ) : ℝ :=
  8 * |P.c1| + 2 * (2 * |P.pb| * (80 / 9 * B ^ 2) + |P.kappa|)

theorem molA_nonneg (P : Params) (B L : ℝ) : 0 ≤ molA P B L := by
  have := poin_nonneg L
  unfold molA; positivity

theorem molC_nonneg (P : Params) (B : ℝ) : 0 ≤ molC P B := by unfold molC; positivity

/-- stability of the semi-discrete equations around smooth fields -/
theorem stable (P : Params) (hdx : 0 < P.dx) (hnu : 0 ≤ P.nu) {B L : ℝ} (hh : h * P.dx ≤ L) (hw : w * P.dx ≤ L)
    (n n' o o' p : Fld h w) (ny : ∀ i j, |n (i + 1) j - n i j| ≤ B * P.dx)
    (nx : ∀ i j, |n i (j + 1) - n i j| ≤ B * P.dx) (oy : ∀ i j, |o (i + 1) j - o i j| ≤ B * P.dx)
    (ox : ∀ i j, |o i (j + 1) - o i j| ≤ B * P.dx) :
    2 * S (fun i j => (n' i j - n i j) * (rhsN P n' (phiF P.dx o') i j - rhsN P n p i j))
      + 2 * S (fun i j => (o' i j - o i j) * (rhsO P n' o' (phiF P.dx o') i j - rhsO P n o p i j))
      ≤ (molA P B L - 1) * (Q (fun i j => n' i j - n i j) + Q (fun i j => o' i j - o i j))
        + molC P B * (Q (phiF P.dx o - p) + dirichlet (phiF P.dx o - p) (phiF P.dx o - p) / P.dx ^ 2) := by
  have h1 := stable_N P hdx hnu n n' p (phiF P.dx o') ny nx
  have h2 := stable_O P hdx hnu n n' o o' p (phiF P.dx o') oy ox
  have eM : B * P.dx / P.dx = B := by field_simp
  rw [eM] at h1 h2
  set e : Fld h w := fun i j => n' i j - n i j with he
  set v : Fld h w := fun i j => o' i j - o i j with hv
  set d0 : Fld h w := phiF P.dx o - p with hd0
  have ed : (fun i j => phiF P.dx o' i j - p i j) = phiF P.dx v + d0 := by
    have : phiF P.dx v = fun i j => phiF P.dx o' i j - phiF P.dx o i j := by
      have := phiF_lin P.dx 1 (-1) 0 o' o
      simp only [one_mul, neg_mul, add_zero, ← sub_eq_add_neg] at this
      exact this
    rw [this]
    funext i j
    simp [hd0]
  rw [ed] at h1 h2
  have q1 := Q_add_le' (phiF P.dx v) d0
  have q2 := dirichlet_add_le (phiF P.dx v) d0
  have q3 := phi_Q hdx hh hw v
  have q4 := phi_dirichlet hdx hh hw v
  have q5 : dirichlet (phiF P.dx v + d0) (phiF P.dx v + d0) / P.dx ^ 2
      ≤ 2 * poin L * Q v + 2 * (dirichlet d0 d0 / P.dx ^ 2) := by
    rw [div_le_iff₀ (by positivity)]
    have : (2 * poin L * Q v + 2 * (dirichlet d0 d0 / P.dx ^ 2)) * P.dx ^ 2
        = 2 * (poin L * P.dx ^ 2 * Q v) + 2 * dirichlet d0 d0 := by field_simp
    rw [this]; linarith
  have q6 : Q (phiF P.dx v + d0) ≤ 2 * poin L ^ 2 * Q v + 2 * Q d0 := by linarith
  have hQe := Q_nonneg e
  have hQv := Q_nonneg v
  have hQd := Q_nonneg d0
  have hpn := poin_nonneg L
  have hDd : 0 ≤ dirichlet d0 d0 / P.dx ^ 2 := div_nonneg (dirichlet_self_nonneg d0) (by positivity)
  set X := Q (phiF P.dx v + d0)
  set Y := dirichlet (phiF P.dx v + d0) (phiF P.dx v + d0) / P.dx ^ 2
  set k1 := |P.c1|
  set k2 := |P.pb| * (80 / 9 * B ^ 2)
  set k3 := |P.kappa|
  have k1n : 0 ≤ k1 := abs_nonneg _
  have k2n : 0 ≤ k2 := by positivity
  have k3n : 0 ≤ k3 := abs_nonneg _
  have kpn : 0 ≤ |P.pb| := abs_nonneg _
  have m1 : (4 * k1) * X ≤ (4 * k1) * (2 * poin L ^ 2 * Q v + 2 * Q d0) :=
    mul_le_mul_of_nonneg_left q6 (by positivity)
  have m2 : (2 * k2 + k3) * Y ≤ (2 * k2 + k3) * (2 * poin L * Q v + 2 * (dirichlet d0 d0 / P.dx ^ 2)) :=
    mul_le_mul_of_nonneg_left q5 (by positivity)
  have eA : molA P B L - 1 = 5 * k1 + |P.pb| + k3 + 8 * k1 * poin L ^ 2 + 2 * (2 * k2 + k3) * poin L := by
    unfold molA; ring
  have eC : molC P B = 8 * k1 + 2 * (2 * k2 + k3) := by unfold molC; ring
  rw [eA, eC]
  set Z := dirichlet d0 d0 / P.dx ^ 2
  have t1 : 0 ≤ (8 * k1 * poin L ^ 2 + 2 * (2 * k2 + k3) * poin L) * Q e := by positivity
  have t2 : 0 ≤ (4 * k1 + k3) * Q v := by positivity
  have t3 : 0 ≤ 8 * k1 * Z + 2 * (2 * k2 + k3) * Q d0 := by positivity
  linarith

end Verif
