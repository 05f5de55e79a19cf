import Verif.Lemmas.BoxMean

/-!
# Differences of the computed potential against derivatives of the exact one
-/

set_option linter.unusedSectionVars false

namespace Verif

open Spec Set Complex

variable {h w : ℕ} [NeZero h] [NeZero w]

/-- root mean square at most `K dx²` -/
def Small (dx K : ℝ) (f : Fld h w) : Prop := Q f ≤ (h : ℝ) * w * (K * dx ^ 2) ^ 2

theorem Small.add {dx K M : ℝ} {f g : Fld h w} (hK : 0 ≤ K) (hM : 0 ≤ M) (hf : Small dx K f) (hg : Small dx M g) :
    Small dx (2 * (K + M)) (f + g) := by
  unfold Small at *
  have hc : (0 : ℝ) < (h : ℝ) * w := cardR_pos
  refine (Q_add_le' f g).trans ?_
  have e : (h : ℝ) * w * (2 * (K + M) * dx ^ 2) ^ 2 = 2 * ((h : ℝ) * w * (K * dx ^ 2) ^ 2)
      + 2 * ((h : ℝ) * w * (M * dx ^ 2) ^ 2) + (h : ℝ) * w * (dx ^ 2) ^ 2 * (2 * K ^ 2 + 2 * M ^ 2 + 8 * (K * M)) := by ring
  have : 0 ≤ (h : ℝ) * w * (dx ^ 2) ^ 2 * (2 * K ^ 2 + 2 * M ^ 2 + 8 * (K * M)) := by positivity
  linarith

theorem Small.of_abs {dx K : ℝ} {f : Fld h w} (H : ∀ i j, |f i j| ≤ K * dx ^ 2) : Small dx K f := Q_bound H

theorem Small.of_le {dx c K : ℝ} {f g : Fld h w} (H : Q f ≤ c ^ 2 * Q g) (hg : Small dx K g) :
    Small dx (c * K) f := by
  unfold Small at *
  have := H.trans (mul_le_mul_of_nonneg_left hg (sq_nonneg c))
  refine this.trans_eq ?_
  ring

theorem small_of_sq {dx K : ℝ} {f : Fld h w} (hK : 0 ≤ K) (H : Q f ≤ (h : ℝ) * w * (K * dx ^ 4)) :
    Small dx (Real.sqrt K) f := by
  unfold Small
  rw [mul_pow, Real.sq_sqrt hK]
  exact H.trans_eq (by ring)

/-- the difference in x, like `gradY_sq_le` -/
theorem gradX_sq_le {dx : ℝ} (hdx : 0 < dx) (z : Fld h w) : Q (gradX dx z) ≤ dirichlet z z / dx ^ 2 := by
  set gx : Fld h w := fun i j => z i (j + 1) - z i j with hgx
  have key : ∀ i j, gradX dx z i j ^ 2 ≤ (1 / (2 * dx ^ 2)) * (gx i j ^ 2 + gx i (j - 1) ^ 2) := by
    intro i j
    have e : gradX dx z i j = (gx i j + gx i (j - 1)) / (2 * dx) := by
      unfold gradX
      push_cast
      congr 1
      simp only [hgx, sub_add_cancel]; ring
    rw [e, div_pow, div_le_iff₀ (by positivity)]
    have e2 : 1 / (2 * dx ^ 2) * (gx i j ^ 2 + gx i (j - 1) ^ 2) * (2 * dx) ^ 2
        = 2 * (gx i j ^ 2 + gx i (j - 1) ^ 2) := by field_simp
    rw [e2]
    nlinarith [sq_nonneg (gx i j - gx i (j - 1))]
  refine (S_le key).trans ?_
  rw [S_mul_left, S_add]
  have t2 : S (fun i j => gx i (j - 1) ^ 2) = Q gx := by
    have := Q_shift gx 0 (-1)
    simpa [sub_eq_add_neg, Q] using this
  rw [t2, dirichlet_eq]
  change 1 / (2 * dx ^ 2) * (Q gx + Q gx) ≤ _
  have := Q_nonneg (fun i j => z (i + 1) j - z i j : Fld h w)
  rw [le_div_iff₀ (by positivity)]
  have e : 1 / (2 * dx ^ 2) * (Q gx + Q gx) * dx ^ 2 = Q gx := by field_simp; ring
  rw [e]
  linarith

/-- the five-point Laplacian of the potential is at most the vorticity -/
theorem lap_phi_le {dx : ℝ} (hdx : 0 < dx) (u : Fld h w) : Q (lap dx (phiF dx u)) ≤ Q u := by
  have h2 : S (fun k l => ‖D (cx (lap dx (phiF dx u))) k l‖ ^ 2) ≤ S (fun k l => ‖D (cx u) k l‖ ^ 2) := by
    refine S_le fun k l => ?_
    rw [D_lap, D_phiF, norm_mul, norm_mul, norm_real, norm_real, mul_pow, mul_pow, Real.norm_eq_abs, Real.norm_eq_abs,
      sq_abs, sq_abs, ← mul_assoc, ← mul_pow]
    refine mul_le_of_le_one_left (sq_nonneg _) ?_
    have e : -fsym k l / dx ^ 2 * (sig 1 k l * dx ^ 2) = -(fsym k l * sig 1 k l) := by field_simp
    rw [e, neg_sq]
    unfold sig
    split
    · simp
    · next h0 =>
      have hl : lamb k l ≠ 0 := fun e => h0 ((lamb_eq_zero k l).mp e)
      have hn := lamb_nonpos k l
      have f0 : 0 ≤ fsym k l := by unfold fsym; positivity
      have f1 : fsym k l ≤ -lamb k l := by
        have h1 := (sym_err (abs_kap_le k)).1
        have h2 := (sym_err (abs_kap_le l)).1
        unfold fsym lamb
        nlinarith
      rw [pow_one, mul_one_div, div_pow, div_le_one (by positivity)]
      nlinarith
  rw [Q_parseval, Q_parseval] at h2
  exact le_of_mul_le_mul_left h2 cardR_pos

/-! ### the potential computed from an approximate vorticity -/

/-- the computed potential is the exact one, shifted by its grid mean, plus the potential of a residual -/
theorem potential_split {dx : ℝ} (hdx : 0 < dx) (o p : Fld h w) :
    phiF dx o = phiF dx (o - slap dx p) + p - fun _ _ => avg p := by
  have h1 := phiF_lin dx 1 (-1) 0 o (slap dx p)
  simp only [one_mul, neg_mul, add_zero, ← sub_eq_add_neg] at h1
  have h2 := phiF_slap hdx.ne' p
  funext i j
  have h3 := congrFun (congrFun h1 i) j
  change phiF dx (o - slap dx p) i j = _ at h3
  have h4 := congrFun (congrFun h2 i) j
  simp only [Pi.sub_apply, Pi.add_apply]
  rw [h3, h4]; ring

section potential
variable {E : ℕ → ℕ → ℝ → ℝ → ℝ} {W : ℝ → ℝ → ℝ} {B K dx Ly Lx L : ℝ} {o : Fld h w}

/-- constant of the residual -/
noncomputable def errK (K B : ℝ) : ℝ := 2 * (K + Real.sqrt (resK B))

theorem errK_nonneg (hK : 0 ≤ K) (B : ℝ) : 0 ≤ errK K B := by unfold errK; positivity

theorem residual_small (hK : 0 ≤ K) (hE : Partials 4 E B) (hdx : 0 < dx) (hp : Per h w dx (E 0 0))
    (hW : ∀ y x, E 2 0 y x + E 0 2 y x = W y x) (ho : Small dx K (o - samp h w dx W)) :
    Small dx (errK K B) (o - slap dx (samp h w dx (E 0 0))) := by
  have h1 := small_of_sq (resK_nonneg B) (residual_le (h := h) (w := w) hE hdx hp hW)
  have := ho.add hK (Real.sqrt_nonneg _) h1
  refine le_trans (le_of_eq ?_) this
  congr 1
  funext i j
  simp

theorem lap_add_field (f g : Fld h w) : lap dx (f + g) = lap dx f + lap dx g := by
  funext i j; simp only [lap, Pi.add_apply]; ring
theorem gradY_add_field (f g : Fld h w) : gradY dx (f + g) = gradY dx f + gradY dx g := by
  funext i j; simp only [gradY, Pi.add_apply]; ring
theorem gradX_add_field (f g : Fld h w) : gradX dx (f + g) = gradX dx f + gradX dx g := by
  funext i j; simp only [gradX, Pi.add_apply]; ring
theorem lap_sub_const (f : Fld h w) (c : ℝ) : lap dx (f - fun _ _ => c) = lap dx f := by
  funext i j; simp only [lap, Pi.sub_apply]; push_cast; ring
theorem gradY_sub_const (f : Fld h w) (c : ℝ) : gradY dx (f - fun _ _ => c) = gradY dx f := by
  funext i j; simp only [gradY, Pi.sub_apply]; ring
theorem gradX_sub_const (f : Fld h w) (c : ℝ) : gradX dx (f - fun _ _ => c) = gradX dx f := by
  funext i j; simp only [gradX, Pi.sub_apply]; ring

theorem phi_small (hK : 0 ≤ K) (hE : Partials 4 E B) (hdx : 0 < dx) (hp : Per h w dx (E 0 0))
    (hW : ∀ y x, E 2 0 y x + E 0 2 y x = W y x) (hy : h * dx = Ly) (hx : w * dx = Lx) (ly : Ly ≤ L) (lx : Lx ≤ L)
    (h0 : ∫ x in 0..Lx, ∫ y in 0..Ly, E 0 0 y x = 0) (ho : Small dx K (o - samp h w dx W)) :
    Small dx (2 * (poin L * errK K B + B / 12)) (phiF dx o - samp h w dx (E 0 0)) := by
  have hB := hE.nonneg
  have hr := residual_small hK hE hdx hp hW ho
  have hm := avg_samp_le (hE.mono (by omega : 2 ≤ 4)) hdx hp hy hx h0
  have h1 := Small.of_le (phi_Q hdx (hy.trans_le ly) (hx.trans_le lx) _) hr
  have h2 : Small dx (B / 12) (fun (_ : ZMod h) (_ : ZMod w) => -avg (samp h w dx (E 0 0))) :=
    Small.of_abs fun i j => by rw [abs_neg]; linarith
  have := h1.add (mul_nonneg (poin_nonneg L) (errK_nonneg hK B)) (by positivity) h2
  refine le_trans (le_of_eq ?_) this
  rw [potential_split hdx o (samp h w dx (E 0 0))]
  congr 1
  funext i j
  simp only [Pi.add_apply, Pi.sub_apply]; ring

theorem grad_small (hK : 0 ≤ K) (hE : Partials 4 E B) (hdx : 0 < dx) (hp : Per h w dx (E 0 0))
    (hW : ∀ y x, E 2 0 y x + E 0 2 y x = W y x) (hy : h * dx = Ly) (hx : w * dx = Lx) (ly : Ly ≤ L) (lx : Lx ≤ L)
    (ho : Small dx K (o - samp h w dx W)) :
    Small dx (2 * (Real.sqrt (poin L) * errK K B + B / 6)) (gradY dx (phiF dx o) - samp h w dx (E 1 0)) ∧
      Small dx (2 * (Real.sqrt (poin L) * errK K B + B / 6)) (gradX dx (phiF dx o) - samp h w dx (E 0 1)) := by
  have hB := hE.nonneg
  have hr := residual_small hK hE hdx hp hW ho
  have hd := phi_dirichlet hdx (hy.trans_le ly) (hx.trans_le lx) (o - slap dx (samp h w dx (E 0 0)))
  have hd' : dirichlet (phiF dx (o - slap dx (samp h w dx (E 0 0)))) (phiF dx (o - slap dx (samp h w dx (E 0 0)))) / dx ^ 2
      ≤ Real.sqrt (poin L) ^ 2 * Q (o - slap dx (samp h w dx (E 0 0))) := by
    rw [Real.sq_sqrt (poin_nonneg L), div_le_iff₀ (by positivity)]
    linarith
  have c0 := mul_nonneg (Real.sqrt_nonneg (poin L)) (errK_nonneg hK B)
  constructor
  · have h1 := Small.of_le ((gradY_sq_le hdx _).trans hd') hr
    have h2 : Small dx (B / 6) (gradY dx (samp h w dx (E 0 0)) - samp h w dx (E 1 0)) := Small.of_abs fun i j => by
      rw [gradY_samp hp]
      have := cdY_err hE (a := 0) (b := 0) (by omega) hdx (i.val * dx) (j.val * dx)
      refine this.trans_eq (by ring)
    have := h1.add c0 (by positivity) h2
    refine le_trans (le_of_eq ?_) this
    rw [potential_split hdx o (samp h w dx (E 0 0)), gradY_sub_const, gradY_add_field, add_sub_assoc]
  · have h1 := Small.of_le ((gradX_sq_le hdx _).trans hd') hr
    have h2 : Small dx (B / 6) (gradX dx (samp h w dx (E 0 0)) - samp h w dx (E 0 1)) := Small.of_abs fun i j => by
      rw [gradX_samp hp]
      have := cdX_err hE (a := 0) (b := 0) (by omega) hdx (i.val * dx) (j.val * dx)
      refine this.trans_eq (by ring)
    have := h1.add c0 (by positivity) h2
    refine le_trans (le_of_eq ?_) this
    rw [potential_split hdx o (samp h w dx (E 0 0)), gradX_sub_const, gradX_add_field, add_sub_assoc]

theorem lap_small (hK : 0 ≤ K) (hE : Partials 4 E B) (hdx : 0 < dx) (hp : Per h w dx (E 0 0))
    (hW : ∀ y x, E 2 0 y x + E 0 2 y x = W y x) (ho : Small dx K (o - samp h w dx W)) :
    Small dx (2 * (errK K B + B / 6)) (lap dx (phiF dx o) - samp h w dx W) := by
  have hB := hE.nonneg
  have hr := residual_small hK hE hdx hp hW ho
  have h1 : Small dx (errK K B) (lap dx (phiF dx (o - slap dx (samp h w dx (E 0 0))))) := (lap_phi_le hdx _).trans hr
  have h2 : Small dx (B / 6) (lap dx (samp h w dx (E 0 0)) - samp h w dx W) := Small.of_abs fun i j => by
    rw [lap_samp hp]
    have := Lh_err hE (a := 0) (b := 0) (by omega) hdx (i.val * dx) (j.val * dx)
    simp only [Pi.sub_apply, samp]
    rw [← hW]
    exact this.trans_eq (by ring)
  have := h1.add (errK_nonneg hK B) (by positivity) h2
  refine le_trans (le_of_eq ?_) this
  rw [potential_split hdx o (samp h w dx (E 0 0)), lap_sub_const, lap_add_field, add_sub_assoc]

end potential

end Verif
