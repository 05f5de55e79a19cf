import Verif.Lemmas.HWODE
import Verif.Lemmas.MolPhi
import Verif.Spec.Modes

/-!
# The right-hand side in Fourier space
-/

set_option linter.unusedSectionVars false

namespace Verif

open Arr Complex Spec Matrix
open scoped ComplexConjugate

variable {h w : ℕ} [NeZero h] [NeZero w]

theorem ec_inj {n : ℕ} [NeZero n] {k : ZMod n} (e : ec k = 1) : k = 0 := by
  refine ZMod.injective_stdAddChar (N := n) ?_
  rw [AddChar.map_zero_eq_one]; exact e

theorem D_nonZonal (f : Fld h w) (k : ZMod h) (l : ZMod w) :
    D (cx (nonZonal f)) k l = if k = 0 then 0 else D (cx f) k l := by
  set r : Fld h w := fun _ j => (∑ i', f i' j) / (h : ℝ) with hr
  have e : cx (nonZonal f) = fun i j => cx f i j - cx r i j := by
    funext i j; simp [cx, nonZonal, hr]
  rw [e, D_sub]
  beta_reduce
  split
  · next hk =>
    subst hk
    have hh : ((h : ℂ)) ≠ 0 := Nat.cast_ne_zero.mpr (NeZero.ne h)
    rw [sub_eq_zero]
    simp only [D, S, zero_mul, neg_zero, ec_zero, one_mul, cx, hr]
    rw [Finset.sum_comm]
    rw [Finset.sum_const, Finset.card_univ, ZMod.card, nsmul_eq_mul, Finset.mul_sum]
    refine Finset.sum_congr rfl fun j _ => ?_
    rw [← Finset.sum_mul]
    push_cast
    field_simp
  · next hk =>
    have h1 := D_shift (cx r) 1 0 k l
    have h2 : shift 1 0 (cx r) = cx r := by funext i j; simp [shift, cx, hr]
    rw [h2] at h1
    simp only [mul_one, mul_zero, neg_zero, ec_zero] at h1
    have h3 : ec (-k) ≠ 1 := fun q => hk (neg_eq_zero.1 (ec_inj q))
    have h4 : (ec (-k) - 1) * D (cx r) k l = 0 := by linear_combination -h1
    rcases mul_eq_zero.1 h4 with q | q
    · exact absurd (sub_eq_zero.1 q) h3
    · rw [q, sub_zero]

theorem D_couple (z : Bool) (p n : Fld h w) (k : ZMod h) (l : ZMod w) :
    D (cx (couple z p n)) k l = if z ∧ k = 0 then 0 else D (cx p) k l - D (cx n) k l := by
  cases z
  · have e : cx (couple false p n) = fun i j => cx p i j - cx n i j := by funext i j; simp [cx, couple]
    rw [e, D_sub]; simp
  · have e : cx (couple true p n) = fun i j => cx (nonZonal p) i j - cx (nonZonal n) i j := by
      funext i j; simp [cx, couple]
    rw [e, D_sub]
    beta_reduce
    rw [D_nonZonal, D_nonZonal]
    by_cases hk : k = 0 <;> simp [hk]

theorem D_lapN (dx : ℝ) (N : ℕ) (f : Fld h w) (k : ZMod h) (l : ZMod w) :
    D (cx ((lap dx)^[N] f)) k l = ((-(fsym k l) / dx ^ 2 : ℝ) : ℂ) ^ N * D (cx f) k l := by
  induction N with
  | zero => simp
  | succ N ih => rw [Function.iterate_succ_apply', D_lap, ih, pow_succ]; ring

theorem D_hyper (P : Params) (f : Fld h w) (k : ZMod h) (l : ZMod w) :
    D (cx (hyper P f)) k l
      = (((-1) ^ (P.N + 1) * P.nu * (-(fsym k l) / P.dx ^ 2) ^ P.N : ℝ) : ℂ) * D (cx f) k l := by
  have e : cx (hyper P f) = fun i j => (((-1) ^ (P.N + 1) * P.nu : ℝ) : ℂ) * cx ((lap P.dx)^[P.N] f) i j := by
    funext i j; simp [cx, hyper]
  rw [e, D_smul]
  beta_reduce
  rw [D_lapN]
  push_cast; ring

theorem sin_kap_sq {n k : ℕ} [NeZero n] (hk : k < n) :
    Real.sin (Real.pi * kap (k : ZMod n)) ^ 2 = Real.sin (Real.pi * k / n) ^ 2 := by
  have hn : (n : ℝ) ≠ 0 := Nat.cast_ne_zero.mpr (NeZero.ne n)
  rw [kap_cast hk]
  unfold fftfreq
  rw [fftfreqInt_eq hk]
  split
  · congr 2; push_cast; ring
  · have : Real.pi * (((k : ℤ) - (n : ℤ) : ℤ) / (n : ℝ)) = Real.pi * k / n - Real.pi := by
      push_cast; field_simp
    rw [this, Real.sin_sub_pi, neg_sq]

theorem fsym_lapSym {k l : ℕ} (hk : k < h) (hl : l < w) (dx : ℝ) :
    -(fsym (k : ZMod h) (l : ZMod w)) / dx ^ 2 = lapSym h w dx k l := by
  unfold fsym lapSym
  rw [sin_kap_sq hk, sin_kap_sq hl]; ring

theorem ec_derSym (k : ℕ) (dx : ℝ) :
    (ec (k : ZMod h) - ec (-(k : ZMod h))) / ((2 * dx : ℝ) : ℂ) = derSym h dx k := by
  have h1 := ec_exp (n := h) k 1
  have h2 := ec_neg_exp (n := h) k 1
  simp only [Nat.cast_one, mul_one] at h1 h2
  rw [h1, h2]
  unfold derSym
  have e : 2 * (Real.pi : ℂ) * I * ((k : ℂ) / (h : ℂ)) = ((2 * Real.pi * k / h : ℝ) : ℂ) * I := by push_cast; ring
  generalize (2 * Real.pi * k / h : ℝ) = t at e ⊢
  rw [e, ofReal_div, ofReal_sin, Complex.sin, neg_mul]
  push_cast
  linear_combination (-(exp (-(t * I)) - exp (t * I)) / (2 * (dx : ℂ))) * I_mul_I

theorem cast_eq_zero {n k : ℕ} (hk : k < n) : (k : ZMod n) = 0 ↔ k = 0 := by
  rw [ZMod.natCast_eq_zero_iff]
  constructor
  · intro h; exact Nat.eq_zero_of_dvd_of_lt h hk
  · rintro rfl; simp

theorem sig_potSym {k l : ℕ} (hk : k < h) (hl : l < w) {dx : ℝ} :
    sig 1 (k : ZMod h) (l : ZMod w) * dx ^ 2 = potSym h w dx k l := by
  unfold sig potSym
  simp only [cast_eq_zero hk, cast_eq_zero hl]
  split
  · simp
  · have := wave_sq (h := h) (w := w) (dx := dx) hk hl
    have e : wave h dx k ^ 2 + wave w dx l ^ 2 = -(lamb (k : ZMod h) (l : ZMod w) / dx ^ 2) := by linarith
    rw [e, pow_one, div_neg, neg_div, neg_neg, one_div, one_div, inv_div]; ring

/-- amplitudes of a mode -/
noncomputable def ampl (k : ZMod h) (l : ZMod w) : Pair h w →ₗ[ℝ] (Fin 2 → ℂ) where
  toFun u := ![D (cx u.1) k l, D (cx u.2) k l]
  map_add' u v := by
    have e : ∀ f g : Fld h w, D (cx (f + g)) k l = D (cx f) k l + D (cx g) k l := by
      intro f g
      have : cx (f + g) = fun i j => cx f i j + cx g i j := by funext i j; simp [cx]
      rw [this, D_add]
    rw [Prod.fst_add, Prod.snd_add, e, e]
    simp
  map_smul' c u := by
    have e : ∀ f : Fld h w, D (cx (c • f)) k l = (c : ℂ) * D (cx f) k l := by
      intro f
      have : cx (c • f) = fun i j => (c : ℂ) * cx f i j := by funext i j; simp [cx]
      rw [this, D_smul]
    rw [Prod.smul_fst, Prod.smul_snd, e, e]
    ext i
    fin_cases i <;> simp

theorem ampl_apply (k : ZMod h) (l : ZMod w) (u : Pair h w) :
    ampl k l u = ![D (cx u.1) k l, D (cx u.2) k l] := rfl

theorem ampl_linU (P : Params) {k l : ℕ} (hk : k < h) (hl : l < w) (u : Pair h w) :
    ampl (k : ZMod h) (l : ZMod w) (linU P u) = modeMat P h w k l *ᵥ ampl (k : ZMod h) (l : ZMod w) u := by
  have eN : cx (rhsN { P with pb := 0 } u.1 (phiF P.dx u.2)) = fun i j =>
      ((P.c1 : ℂ) * cx (couple P.zonal (phiF P.dx u.2) u.1) i j - (P.kappa : ℂ) * cx (gradY P.dx (phiF P.dx u.2)) i j)
        + cx (hyper P u.1) i j := by
    funext i j; simp [cx, rhsN, hyper]
  have eO : cx (rhsO { P with pb := 0 } u.1 u.2 (phiF P.dx u.2)) = fun i j =>
      (P.c1 : ℂ) * cx (couple P.zonal (phiF P.dx u.2) u.1) i j + cx (hyper P u.2) i j := by
    funext i j; simp [cx, rhsO, hyper]
  have hc := D_couple P.zonal (phiF P.dx u.2) u.1 (k : ZMod h) (l : ZMod w)
  simp only [cast_eq_zero hk] at hc
  rw [D_phiF, sig_potSym hk hl] at hc
  have hN : D (cx (rhsN { P with pb := 0 } u.1 (phiF P.dx u.2))) (k : ZMod h) (l : ZMod w)
      = (modeMat P h w k l *ᵥ ampl (k : ZMod h) (l : ZMod w) u) 0 := by
    rw [eN, D_add, D_sub, D_smul, D_smul]
    beta_reduce
    rw [hc, D_gradY, ec_derSym, D_phiF, sig_potSym hk hl, D_hyper, fsym_lapSym hk hl]
    simp only [ampl_apply, modeMat, mulVec, dotProduct, Fin.sum_univ_two, couSym, hypSym]
    by_cases q : P.zonal ∧ k = 0
    · simp [q]; ring
    · rw [if_neg q, if_neg q]; simp; ring
  have hO : D (cx (rhsO { P with pb := 0 } u.1 u.2 (phiF P.dx u.2))) (k : ZMod h) (l : ZMod w)
      = (modeMat P h w k l *ᵥ ampl (k : ZMod h) (l : ZMod w) u) 1 := by
    rw [eO, D_add, D_smul]
    beta_reduce
    rw [hc, D_hyper, fsym_lapSym hk hl]
    simp only [ampl_apply, modeMat, mulVec, dotProduct, Fin.sum_univ_two, couSym, hypSym]
    by_cases q : P.zonal ∧ k = 0
    · simp [q]
    · rw [if_neg q, if_neg q]; simp; ring
  rw [ampl_apply]
  ext i
  fin_cases i
  · exact hN
  · exact hO

end Verif
