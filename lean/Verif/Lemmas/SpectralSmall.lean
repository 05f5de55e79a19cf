import Verif.Lemmas.Measured
import Mathlib.Analysis.Real.Pi.Bounds

/-!
# The spectral derivative of the computed potential
-/

set_option linter.unusedSectionVars false

namespace Verif

open Spec Arr Set Complex

variable {h w : ℕ} [NeZero h] [NeZero w]

/-- `g` is the spectral y-derivative of `f` -/
def DyF (dx : ℝ) (f g : Fld h w) : Prop := ∀ k l, D (cx g) k l = if 2 * k.val = h then 0
  else I * ((2 * Real.pi * kap k / dx : ℝ) : ℂ) * D (cx f) k l

theorem DyF.unique {dx : ℝ} {f g g' : Fld h w} (H : DyF dx f g) (H' : DyF dx f g') : g = g' := by
  have : cx g = cx g' := D_inj (by funext k l; rw [H k l, H' k l])
  funext i j
  have := congrFun (congrFun this i) j
  exact ofReal_injective this

theorem DyF.add {dx : ℝ} {f f' g g' : Fld h w} (H : DyF dx f g) (H' : DyF dx f' g') : DyF dx (f + f') (g + g') := by
  intro k l
  have e : ∀ a b : Fld h w, D (cx (a + b)) k l = D (cx a) k l + D (cx b) k l := fun a b => by
    have : cx (a + b) = fun i j => cx a i j + cx b i j := by
      funext i j; simp only [cx, Pi.add_apply]; push_cast; rfl
    rw [this, D_add]
  rw [e, e, H, H']
  split_ifs <;> ring

theorem DyF.sub_const {dx : ℝ} {f g : Fld h w} (H : DyF dx f g) (c : ℝ) : DyF dx (f - fun _ _ => c) g := by
  intro k l
  rw [H k l]
  split_ifs with h1
  · rfl
  · have e : cx (f - fun _ _ => c) = fun i j => cx f i j - (fun _ _ => (c : ℂ)) i j := by
      funext i j; simp only [cx, Pi.sub_apply]; push_cast; rfl
    rw [e, D_sub, D_const]
    beta_reduce
    by_cases hk : k = 0 ∧ l = 0
    · rw [hk.1, (kap_eq_zero _).mpr rfl]; simp
    · rw [if_neg hk, sub_zero]

/-- the spectral derivative of the potential is controlled by the vorticity -/
theorem dy_phi_le {dx L : ℝ} (hdx : 0 < dx) (hh : h * dx ≤ L) (hw : w * dx ≤ L) (u g : Fld h w)
    (H : DyF dx (phiF dx u) g) : Q g ≤ Real.sqrt (poin L) ^ 2 * Q u := by
  rw [Real.sq_sqrt (poin_nonneg L)]
  have h2 : S (fun k l => ‖D (cx g) k l‖ ^ 2) ≤ S (fun k l => poin L * ‖D (cx u) k l‖ ^ 2) := by
    refine S_le fun k l => ?_
    rw [H k l]
    split_ifs with hk
    · have := poin_nonneg L
      rw [norm_zero, zero_pow two_ne_zero]
      positivity
    · rw [D_phiF, norm_mul, norm_mul, norm_mul, norm_I, one_mul, norm_real, norm_real, mul_pow, mul_pow, Real.norm_eq_abs,
        Real.norm_eq_abs, sq_abs, sq_abs, ← mul_assoc]
      refine mul_le_mul_of_nonneg_right ?_ (sq_nonneg _)
      have e : (2 * Real.pi * kap k / dx) ^ 2 * (sig 1 k l * dx ^ 2) ^ 2
          = (2 * Real.pi * kap k) ^ 2 * sig 1 k l ^ 2 * dx ^ 2 := by field_simp
      rw [e]
      have h1 : (2 * Real.pi * kap k) ^ 2 ≤ -lamb k l := by
        unfold lamb
        nlinarith [sq_nonneg (Real.pi * kap l)]
      have h3 := lamb_sig (k := k) (l := l)
      have h4 := sig_le hdx hh hw k l
      have h5 := mul_le_mul_of_nonneg_right h1 (sq_nonneg (sig 1 k l))
      rw [h3] at h5
      nlinarith [sq_nonneg dx]
  rw [S_mul_left, Q_parseval, Q_parseval] at h2
  have e : poin L * ((h : ℝ) * (w : ℝ) * Q u) = (h : ℝ) * (w : ℝ) * (poin L * Q u) := by ring
  rw [e] at h2
  exact le_of_mul_le_mul_left h2 cardR_pos

/-- symbol of the difference of spectral and central difference derivative -/
theorem theta_sub_sin {t : ℝ} (ht : |t| ≤ Real.pi / 2) :
    (2 * t - Real.sin (2 * t)) ^ 2 ≤ ((4 * Real.sin t ^ 2) ^ 3 : ℝ) := by
  have key : ∀ t : ℝ, 0 ≤ t → t ≤ Real.pi / 2 →
      0 ≤ 2 * t - Real.sin (2 * t) ∧ 2 * t - Real.sin (2 * t) ≤ (2 * Real.sin t) ^ 3 := by
    intro t t0 t1
    have a1 : 2 / Real.pi * t ≤ Real.sin t := Real.mul_le_sin t0 t1
    have hp := Real.pi_pos
    have a2 : t ≤ Real.pi / 2 * Real.sin t := by
      have := mul_le_mul_of_nonneg_left a1 (by positivity : 0 ≤ Real.pi / 2)
      have e : Real.pi / 2 * (2 / Real.pi * t) = t := by field_simp
      rwa [e] at this
    have a3 : 2 * t - (2 * t) ^ 3 / 6 ≤ Real.sin (2 * t) := by
      rcases t0.eq_or_lt with rfl | hpos
      · simp
      · exact (Real.sin_gt_sub_cube (by linarith)).le
    refine ⟨by linarith [Real.sin_le (by linarith : 0 ≤ 2 * t)], ?_⟩
    have s0 : 0 ≤ Real.sin t := Real.sin_nonneg_of_nonneg_of_le_pi t0 (by linarith)
    have a4 : (2 * t) ^ 3 / 6 ≤ (2 * Real.sin t) ^ 3 := by
      have : t ^ 3 ≤ (Real.pi / 2 * Real.sin t) ^ 3 := pow_le_pow_left₀ t0 a2 3
      have hp3 : Real.pi ^ 3 ≤ 48 := by
        have h4 : Real.pi ≤ 3.15 := Real.pi_lt_d2.le
        exact (pow_le_pow_left₀ hp.le h4 3).trans (by norm_num)
      have s3 : 0 ≤ Real.sin t ^ 3 := by positivity
      rw [mul_pow, div_pow] at this
      nlinarith
    linarith
  have fin : ∀ t : ℝ, 0 ≤ t → t ≤ Real.pi / 2 → (2 * t - Real.sin (2 * t)) ^ 2 ≤ ((4 * Real.sin t ^ 2) ^ 3 : ℝ) := by
    intro t t0 t1
    obtain ⟨k1, k2⟩ := key t t0 t1
    have := pow_le_pow_left₀ k1 k2 2
    refine this.trans_eq (by ring)
  rcases le_total 0 t with h0 | h0
  · exact fin t h0 (by rwa [abs_of_nonneg h0] at ht)
  · have := fin (-t) (by linarith) (by rwa [abs_of_nonpos h0] at ht)
    rw [mul_neg, Real.sin_neg, Real.sin_neg, neg_sq] at this
    refine le_trans (le_of_eq ?_) this
    ring

/-- forward difference along y -/
def fd (f : Fld h w) : Fld h w := fun i j => f (i + 1) j - f i j

theorem ec_sub_neg {n : ℕ} [NeZero n] (k : ZMod n) :
    ec k - ec (-k) = 2 * I * ((Real.sin (2 * Real.pi * kap k) : ℝ) : ℂ) := by
  have hc : ec (-k) = (starRingEnd ℂ) (ec k) := by
    rw [ec_conj]
  rw [hc, ec_kap]
  have e : I * ((2 * Real.pi * kap k : ℝ) : ℂ) = ((2 * Real.pi * kap k : ℝ) : ℂ) * I := mul_comm _ _
  rw [e, exp_mul_I, ← ofReal_cos, ← ofReal_sin]
  simp only [map_add, map_mul, conj_ofReal, conj_I]
  ring

/-- spectral and central-difference derivative differ by a third difference -/
theorem dy_grad_le {dx : ℝ} (hdx : 0 < dx) (f g : Fld h w) (H : DyF dx f g) :
    Q (g - gradY dx f) ≤ (1 / dx) ^ 2 * Q (fd (fd (fd f))) := by
  have h2 : S (fun k l => ‖D (cx (g - gradY dx f)) k l‖ ^ 2) ≤ S (fun k l => (1 / dx) ^ 2 * ‖D (cx (fd (fd (fd f)))) k l‖ ^ 2) := by
    refine S_le fun k l => ?_
    have e : cx (g - gradY dx f) = fun i j => cx g i j - cx (gradY dx f) i j := by
      funext i j; simp only [cx, Pi.sub_apply]; push_cast; rfl
    have e3 : ∀ u : Fld h w, D (cx (fd u)) k l = (ec k - 1) * D (cx u) k l := fun u => D_fdY u k l
    rw [e, D_sub, e3, e3, e3]
    beta_reduce
    rw [H k l, D_gradY, ec_sub_neg]
    have er0 : ‖(ec k - 1) * ((ec k - 1) * ((ec k - 1) * D (cx f) k l))‖ ^ 2
        = 4 * Real.sin (Real.pi * kap k) ^ 2 * (4 * Real.sin (Real.pi * kap k) ^ 2
        * (4 * Real.sin (Real.pi * kap k) ^ 2 * ‖D (cx f) k l‖ ^ 2)) := by
      rw [norm_mul, norm_mul, norm_mul, mul_pow, mul_pow, mul_pow, norm_ec_one]
    rw [er0]
    have hs := theta_sub_sin (abs_kap_le k)
    have er : (1 / dx) ^ 2 * (4 * Real.sin (Real.pi * kap k) ^ 2 * (4 * Real.sin (Real.pi * kap k) ^ 2
        * (4 * Real.sin (Real.pi * kap k) ^ 2 * ‖D (cx f) k l‖ ^ 2)))
        = (1 / dx) ^ 2 * (4 * Real.sin (Real.pi * kap k) ^ 2) ^ 3 * ‖D (cx f) k l‖ ^ 2 := by ring
    rw [er]
    split_ifs with hk
    · have hneg : -k = k := by
        have : (2 : ZMod h) * k = 0 := by
          have := congrArg (Nat.cast : ℕ → ZMod h) hk
          simpa using this
        rw [neg_eq_iff_add_eq_zero, ← two_mul, this]
      rw [← ec_sub_neg, hneg]
      simp only [sub_self, zero_div, zero_mul, norm_zero, zero_pow two_ne_zero]
      positivity
    · have e4 : I * ((2 * Real.pi * kap k / dx : ℝ) : ℂ) * D (cx f) k l
          - 2 * I * ((Real.sin (2 * Real.pi * kap k) : ℝ) : ℂ) / ((2 * dx : ℝ) : ℂ) * D (cx f) k l
          = I * (((2 * (Real.pi * kap k) - Real.sin (2 * (Real.pi * kap k))) / dx : ℝ) : ℂ) * D (cx f) k l := by
        have : (dx : ℂ) ≠ 0 := ofReal_ne_zero.mpr hdx.ne'
        have e5 : 2 * (Real.pi * kap k) = 2 * Real.pi * kap k := by ring
        rw [e5]
        push_cast
        field_simp
      rw [e4, norm_mul, norm_mul, norm_I, one_mul, norm_real, mul_pow, Real.norm_eq_abs, sq_abs]
      refine mul_le_mul_of_nonneg_right ?_ (sq_nonneg _)
      rw [div_pow, one_div, inv_pow, div_eq_inv_mul]
      exact mul_le_mul_of_nonneg_left hs (by positivity)
  rw [S_mul_left, Q_parseval, Q_parseval] at h2
  have e : (1 / dx) ^ 2 * ((h : ℝ) * (w : ℝ) * Q (fd (fd (fd f)))) = (h : ℝ) * (w : ℝ) * ((1 / dx) ^ 2 * Q (fd (fd (fd f)))) := by
    ring
  rw [e] at h2
  exact le_of_mul_le_mul_left h2 cardR_pos

/-! ### third differences of samples -/

/-- difference of a family of partial derivatives along y -/
def fdFam (dx : ℝ) (D : ℕ → ℕ → ℝ → ℝ → ℝ) : ℕ → ℕ → ℝ → ℝ → ℝ := fun a b y x => D a b (y + dx) x - D a b y x

theorem fdFam_partials {r : ℕ} {D : ℕ → ℕ → ℝ → ℝ → ℝ} {B dx : ℝ} (hD : Partials (r + 1) D B) (hdx : 0 < dx) :
    Partials r (fdFam dx D) (B * dx) := by
  refine ⟨fun a b hab y x => ?_, fun a b hab y x => ?_, fun a b hab y x => ?_⟩
  · exact ((hD.dy a b (by omega) (y + dx) x).comp_add_const y dx).sub (hD.dy a b (by omega) y x)
  · exact (hD.dx a b (by omega) (y + dx) x).sub (hD.dx a b (by omega) y x)
  · have := Convex.norm_image_sub_le_of_norm_hasDerivWithin_le (f := fun y => D a b y x)
      (f' := fun y => D (a + 1) b y x) (s := univ) (C := B)
      (fun t _ => (hD.dy a b (by omega) t x).hasDerivWithinAt)
      (fun t _ => hD.bound (a + 1) b (by omega) t x) convex_univ (mem_univ y) (mem_univ (y + dx))
    rw [add_sub_cancel_left, Real.norm_eq_abs, Real.norm_eq_abs, abs_of_pos hdx] at this
    exact this

theorem fdFam_per {D : ℕ → ℕ → ℝ → ℝ → ℝ} {dx : ℝ} (hp : Per h w dx (D 0 0)) : Per h w dx (fdFam dx D 0 0) := by
  refine ⟨fun y x => ?_, fun y x => ?_⟩
  · simp only [fdFam]
    rw [add_right_comm, hp.1, hp.1]
  · simp only [fdFam]
    rw [hp.2, hp.2]

theorem fd_samp {D : ℕ → ℕ → ℝ → ℝ → ℝ} {dx : ℝ} (hp : Per h w dx (D 0 0)) :
    fd (samp h w dx (D 0 0)) = samp h w dx (fdFam dx D 0 0) := by
  funext i j
  simp only [fd]
  unfold samp
  rw [sampUp hp]
  rfl

theorem fd3_small {D : ℕ → ℕ → ℝ → ℝ → ℝ} {B dx : ℝ} (hD : Partials 3 D B) (hdx : 0 < dx) (hp : Per h w dx (D 0 0)) :
    Q (fd (fd (fd (samp h w dx (D 0 0))))) ≤ (h : ℝ) * w * (B * dx ^ 3) ^ 2 := by
  rw [fd_samp hp, fd_samp (fdFam_per hp), fd_samp (fdFam_per (fdFam_per hp))]
  refine Q_bound fun i j => ?_
  have := (fdFam_partials (fdFam_partials (fdFam_partials hD hdx) hdx) hdx).bound 0 0 (by omega) (i.val * dx) (j.val * dx)
  refine le_trans this (le_of_eq (by ring))

theorem dy_small {E : ℕ → ℕ → ℝ → ℝ → ℝ} {W : ℝ → ℝ → ℝ} {B K dx Ly Lx L : ℝ} {o g : Fld h w}
    (hK : 0 ≤ K) (hE : Partials 4 E B) (hdx : 0 < dx) (hp : Per h w dx (E 0 0))
    (hW : ∀ y x, E 2 0 y x + E 0 2 y x = W y x) (hy : h * dx = Ly) (hx : w * dx = Lx) (ly : Ly ≤ L) (lx : Lx ≤ L)
    (ho : Small dx K (o - samp h w dx W)) (H : DyF dx (phiF dx o) g) :
    Small dx (2 * (Real.sqrt (poin L) * errK K B + 2 * (B + B / 6))) (g - samp h w dx (E 1 0)) := by
  have hB := hE.nonneg
  have hr := residual_small hK hE hdx hp hW ho
  obtain ⟨g1, H1⟩ := exists_dy (phiF dx (o - slap dx (samp h w dx (E 0 0)))) dx
  obtain ⟨g2, H2⟩ := exists_dy (samp h w dx (E 0 0)) dx
  have H1' : DyF dx _ g1 := H1
  have H2' : DyF dx _ g2 := H2
  have H3 := (H1'.add H2').sub_const (avg (samp h w dx (E 0 0)))
  rw [← potential_split hdx o] at H3
  have eg := H.unique H3
  have c0 := mul_nonneg (Real.sqrt_nonneg (poin L)) (errK_nonneg hK B)
  have s1 := Small.of_le (dy_phi_le hdx (hy.trans_le ly) (hx.trans_le lx) _ _ H1') hr
  have s2 : Small dx B (g2 - gradY dx (samp h w dx (E 0 0))) := by
    refine (dy_grad_le hdx _ _ H2').trans ?_
    have := mul_le_mul_of_nonneg_left (fd3_small (h := h) (w := w) (hE.mono (by omega : 3 ≤ 4)) hdx hp)
      (sq_nonneg (1 / dx))
    refine this.trans (le_of_eq ?_)
    field_simp
  have s3 : Small dx (B / 6) (gradY dx (samp h w dx (E 0 0)) - samp h w dx (E 1 0)) := Small.of_abs fun i j => by
    rw [gradY_samp hp]
    have := cdY_err hE (a := 0) (b := 0) (by omega) hdx (i.val * dx) (j.val * dx)
    refine this.trans_eq (by ring)
  have := s1.add c0 (by positivity) (s2.add hB (by positivity) s3)
  refine le_trans (le_of_eq ?_) this
  rw [eg]
  congr 1
  funext i j
  simp only [Pi.add_apply, Pi.sub_apply]
  ring

end Verif
