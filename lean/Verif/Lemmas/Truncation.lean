import Verif.Lemmas.MolMean
import Verif.Spec.PDE

/-!
# Truncation error of the semi-discrete right-hand side
-/

set_option linter.unusedSectionVars false

namespace Verif

open Spec Arr Set

variable {h w : ℕ} [NeZero h] [NeZero w]

/-- constant of the truncation error -/
noncomputable def pdeK (P : Params) (B : ℝ) : ℝ :=
  |P.c1| * (B / 12) + |P.pb| * (22 / 9 * (B * B)) + |P.kappa| * (B / 6) + |P.nu| * (P.N * 2 ^ P.N * B / 12)

theorem pdeK_nonneg (P : Params) {B : ℝ} (hB : 0 ≤ B) : 0 ≤ pdeK P B := by unfold pdeK; positivity

private theorem abs4 {a b c d A B C D : ℝ} (ha : |a| ≤ A) (hb : |b| ≤ B) (hc : |c| ≤ C) (hd : |d| ≤ D) :
    |a - b - c + d| ≤ A + B + C + D := by
  have ha := abs_le.mp ha
  have hb := abs_le.mp hb
  have hc := abs_le.mp hc
  have hd := abs_le.mp hd
  rw [abs_le]
  constructor <;> linarith [ha.1, ha.2, hb.1, hb.2, hc.1, hc.2, hd.1, hd.2]

private theorem cabs {c e E : ℝ} (h : |e| ≤ E) : |c * e| ≤ |c| * E := by
  rw [abs_mul]; exact mul_le_mul_of_nonneg_left h (abs_nonneg _)

/-- the mean over y is second-order accurate -/
theorem nonZonal_err {D : ℕ → ℕ → ℝ → ℝ → ℝ} {B dx : ℝ} (hD : Partials 2 D B) (hdx : 0 < dx)
    (hp : Per h w dx (D 0 0)) (i : ZMod h) (j : ZMod w) :
    |nonZonal (samp h w dx (D 0 0)) i j - fluct (h * dx) (D 0 0) (i.val * dx) (j.val * dx)|
      ≤ B / 24 * dx ^ 2 := by
  have hh : (0 : ℝ) < h := Nat.cast_pos.mpr (NeZero.pos h)
  have r := periodic_rule (n := h) (fun t => hD.dy 0 0 (by omega) t (j.val * dx))
    (fun t => hD.dy 1 0 (by omega) t (j.val * dx)) (fun t => hD.bound 2 0 (by omega) t (j.val * dx)) hdx
    (fun t => hp.y t _)
  have e : ∑ i' : ZMod h, samp h w dx (D 0 0) i' j = ∑ i ∈ Finset.range h, D 0 0 (i * dx) (j.val * dx) := by
    rw [Finset.sum_range]
    have := sum_fin_ofField (h := h) (w := 1) (K := ℝ) (fun i' _ => D 0 0 (i'.val * dx) (j.val * dx))
    simp only [Finset.univ_unique, Finset.sum_singleton] at this
    unfold samp
    rw [← this]
    refine Finset.sum_congr rfl fun m _ => ?_
    rw [ZMod.val_natCast, Nat.mod_eq_of_lt m.2]
  unfold nonZonal fluct
  rw [e]
  set s := ∑ i ∈ Finset.range h, D 0 0 (i * dx) (j.val * dx)
  set I := ∫ y' in 0..(h * dx), D 0 0 y' (j.val * dx)
  have e2 : samp h w dx (D 0 0) i j - s / h - (D 0 0 (i.val * dx) (j.val * dx) - I / (h * dx))
      = -((dx * s - I) / (h * dx)) := by
    unfold samp; field_simp; ring
  rw [e2, abs_neg, abs_div, abs_of_pos (mul_pos hh hdx), div_le_iff₀ (mul_pos hh hdx)]
  exact r.trans_eq (by ring)

theorem couple_err {nf pf : ℕ → ℕ → ℝ → ℝ → ℝ} {B dx : ℝ} (pn : Partials 2 nf B) (pp : Partials 2 pf B)
    (hdx : 0 < dx) (qn : Per h w dx (nf 0 0)) (qp : Per h w dx (pf 0 0)) (z : Bool) (i : ZMod h) (j : ZMod w) :
    |couple z (samp h w dx (pf 0 0)) (samp h w dx (nf 0 0)) i j
      - coupling z (h * dx) (pf 0 0) (nf 0 0) (i.val * dx) (j.val * dx)| ≤ B / 12 * dx ^ 2 := by
  have hB := pn.nonneg
  unfold couple coupling
  cases z
  · have : (0 : ℝ) ≤ B / 12 * dx ^ 2 := by positivity
    simpa [samp] using this
  · have a := abs_le.mp (nonZonal_err pp hdx qp i j)
    have b := abs_le.mp (nonZonal_err pn hdx qn i j)
    simp only [if_true]
    rw [abs_le]
    constructor <;> linarith [a.1, a.2, b.1, b.2]

variable (P : Params) (hdx : 0 < P.dx) {nf wf pf : ℕ → ℕ → ℝ → ℝ → ℝ} {B : ℝ} {r : ℕ} (hr : 4 ≤ r)
  (hr' : 2 * P.N + 2 ≤ r) (pn : Partials r nf B) (po : Partials r wf B) (pp : Partials r pf B)
  (qn : Per h w P.dx (nf 0 0)) (qo : Per h w P.dx (wf 0 0)) (qp : Per h w P.dx (pf 0 0))

include hdx hr hr' pn pp qn qp in
theorem rhsN_err (i : ZMod h) (j : ZMod w) :
    |rhsN P (samp h w P.dx (nf 0 0)) (samp h w P.dx (pf 0 0)) i j
      - pdeN P (h * P.dx) nf pf (i.val * P.dx) (j.val * P.dx)| ≤ pdeK P B * P.dx ^ 2 := by
  have bC := couple_err (pn.mono (by omega : 2 ≤ r)) (pp.mono (by omega : 2 ≤ r)) hdx qn qp P.zonal i j
  have bN := Jh_err (pp.mono hr) (pn.mono hr) hdx (i.val * P.dx) (j.val * P.dx)
  have bY := cdY_err (pp.mono hr) (a := 0) (b := 0) (by omega) hdx (i.val * P.dx) (j.val * P.dx)
  have lN := Lh_iterate_err hdx P.N (pn.mono hr') (i.val * P.dx) (j.val * P.dx)
  have s1 : |(-1 : ℝ) ^ (P.N + 1) * P.nu| = |P.nu| := by
    rw [abs_mul, abs_pow]; simp
  have e : rhsN P (samp h w P.dx (nf 0 0)) (samp h w P.dx (pf 0 0)) i j
        - pdeN P (h * P.dx) nf pf (i.val * P.dx) (j.val * P.dx)
      = P.c1 * (couple P.zonal (samp h w P.dx (pf 0 0)) (samp h w P.dx (nf 0 0)) i j
            - coupling P.zonal (h * P.dx) (pf 0 0) (nf 0 0) (i.val * P.dx) (j.val * P.dx))
        - P.pb * (Jh P.dx (pf 0 0) (nf 0 0) (i.val * P.dx) (j.val * P.dx)
          - (pf 0 1 (i.val * P.dx) (j.val * P.dx) * nf 1 0 (i.val * P.dx) (j.val * P.dx)
            - pf 1 0 (i.val * P.dx) (j.val * P.dx) * nf 0 1 (i.val * P.dx) (j.val * P.dx)))
        - P.kappa * (cdY P.dx (pf 0 0) (i.val * P.dx) (j.val * P.dx) - pf (0 + 1) 0 (i.val * P.dx) (j.val * P.dx))
        + (-1) ^ (P.N + 1) * P.nu * ((Lh P.dx)^[P.N] (nf 0 0) (i.val * P.dx) (j.val * P.dx)
          - (lapFam^[P.N] nf) 0 0 (i.val * P.dx) (j.val * P.dx)) := by
    have j1 := congrFun (congrFun (jac_samp qp qn) i) j
    have g1 := congrFun (congrFun (gradY_samp qp) i) j
    have l1 := congrFun (congrFun (lap_iterate_samp qn P.N) i) j
    simp only [rhsN, hyper, pdeN, j1, g1, l1, zero_add]
    simp only [samp]
    ring
  rw [e]
  refine (abs4 (cabs bC) (cabs bN) (cabs bY) (cabs lN)).trans_eq ?_
  rw [s1]; unfold pdeK; ring

include hdx hr hr' pn po pp qn qo qp in
theorem rhsO_err (i : ZMod h) (j : ZMod w) :
    |rhsO P (samp h w P.dx (nf 0 0)) (samp h w P.dx (wf 0 0)) (samp h w P.dx (pf 0 0)) i j
      - pdeO P (h * P.dx) nf wf pf (i.val * P.dx) (j.val * P.dx)| ≤ pdeK P B * P.dx ^ 2 := by
  have hB := pn.nonneg
  have bC := couple_err (pn.mono (by omega : 2 ≤ r)) (pp.mono (by omega : 2 ≤ r)) hdx qn qp P.zonal i j
  have bO := Jh_err (pp.mono hr) (po.mono hr) hdx (i.val * P.dx) (j.val * P.dx)
  have lO := Lh_iterate_err hdx P.N (po.mono hr') (i.val * P.dx) (j.val * P.dx)
  have s1 : |(-1 : ℝ) ^ (P.N + 1) * P.nu| = |P.nu| := by
    rw [abs_mul, abs_pow]; simp
  have e : rhsO P (samp h w P.dx (nf 0 0)) (samp h w P.dx (wf 0 0)) (samp h w P.dx (pf 0 0)) i j
        - pdeO P (h * P.dx) nf wf pf (i.val * P.dx) (j.val * P.dx)
      = P.c1 * (couple P.zonal (samp h w P.dx (pf 0 0)) (samp h w P.dx (nf 0 0)) i j
            - coupling P.zonal (h * P.dx) (pf 0 0) (nf 0 0) (i.val * P.dx) (j.val * P.dx))
        - P.pb * (Jh P.dx (pf 0 0) (wf 0 0) (i.val * P.dx) (j.val * P.dx)
          - (pf 0 1 (i.val * P.dx) (j.val * P.dx) * wf 1 0 (i.val * P.dx) (j.val * P.dx)
            - pf 1 0 (i.val * P.dx) (j.val * P.dx) * wf 0 1 (i.val * P.dx) (j.val * P.dx)))
        - 0
        + (-1) ^ (P.N + 1) * P.nu * ((Lh P.dx)^[P.N] (wf 0 0) (i.val * P.dx) (j.val * P.dx)
          - (lapFam^[P.N] wf) 0 0 (i.val * P.dx) (j.val * P.dx)) := by
    have j1 := congrFun (congrFun (jac_samp qp qo) i) j
    have l1 := congrFun (congrFun (lap_iterate_samp qo P.N) i) j
    simp only [rhsO, hyper, pdeO, j1, l1]
    simp only [samp]
    ring
  rw [e]
  refine (abs4 (C := |P.kappa| * (B / 6) * P.dx ^ 2) (cabs bC) (cabs bO) (by simp; positivity)
    (cabs lO)).trans_eq ?_
  rw [s1]; unfold pdeK; ring

end Verif
