import Verif.Lemmas.MolJac
import Verif.Lemmas.PhiField

/-!
# Estimates for convergence: the potential
-/

set_option linter.unusedSectionVars false

namespace Verif

open Spec Arr Complex
open scoped ComplexConjugate

variable {h w : ℕ} [NeZero h] [NeZero w]

theorem kap_int {n : ℕ} [NeZero n] (k : ZMod n) (hk : k ≠ 0) : 1 ≤ (n * kap k) ^ 2 := by
  have hn : (n : ℝ) ≠ 0 := Nat.cast_ne_zero.mpr (NeZero.ne n)
  have e : (n : ℝ) * kap k = (fftfreqInt n k.val : ℤ) := by
    unfold kap fftfreq; field_simp
  have h0 : fftfreqInt n k.val ≠ 0 := by
    intro h0
    refine hk ((kap_eq_zero k).mp ?_)
    unfold kap fftfreq; rw [h0]; simp
  rw [e]
  have : 1 ≤ (fftfreqInt n k.val) ^ 2 := by
    have := sq_nonneg (fftfreqInt n k.val)
    rcases eq_or_ne ((fftfreqInt n k.val) ^ 2) 0 with h1 | h1
    · exact absurd (pow_eq_zero_iff two_ne_zero |>.mp h1) h0
    · omega
  exact_mod_cast this

/-- the Poincaré constant of a box with sides at most `L` -/
noncomputable def poin (L : ℝ) : ℝ := L ^ 2 / (4 * Real.pi ^ 2)

theorem poin_nonneg (L : ℝ) : 0 ≤ poin L := by unfold poin; positivity

theorem sig_le {dx L : ℝ} (hdx : 0 < dx) (hh : h * dx ≤ L) (hw : w * dx ≤ L) (k : ZMod h) (l : ZMod w) :
    -sig 1 k l * dx ^ 2 ≤ poin L := by
  unfold sig
  split
  · simpa using poin_nonneg L
  · next h0 =>
    have hn : ∀ {n : ℕ} [NeZero n] (k : ZMod n), n * dx ≤ L → k ≠ 0 → dx ^ 2 ≤ L ^ 2 * kap k ^ 2 := by
      intro n _ k hL hk
      have h1 := kap_int k hk
      have hp : 0 < (n : ℝ) * dx := mul_pos (Nat.cast_pos.mpr (NeZero.pos n)) hdx
      have h2 : ((n : ℝ) * dx) ^ 2 ≤ L ^ 2 := pow_le_pow_left₀ hp.le hL 2
      have h3 : dx ^ 2 * 1 ≤ dx ^ 2 * (n * kap k) ^ 2 := mul_le_mul_of_nonneg_left h1 (sq_nonneg _)
      have h4 : ((n : ℝ) * dx) ^ 2 * kap k ^ 2 ≤ L ^ 2 * kap k ^ 2 :=
        mul_le_mul_of_nonneg_right h2 (sq_nonneg _)
      nlinarith
    have key : dx ^ 2 ≤ L ^ 2 * (kap k ^ 2 + kap l ^ 2) := by
      by_cases hk : k = 0
      · have hl : l ≠ 0 := fun e => h0 ⟨hk, e⟩
        have := hn l hw hl
        nlinarith [mul_nonneg (sq_nonneg L) (sq_nonneg (kap k))]
      · have := hn k hh hk
        nlinarith [mul_nonneg (sq_nonneg L) (sq_nonneg (kap l))]
    have hl : lamb k l < 0 := lt_of_le_of_ne (lamb_nonpos k l) fun e => h0 ((lamb_eq_zero k l).mp e)
    have e : -(1 / lamb k l ^ 1) * dx ^ 2 = dx ^ 2 / (-lamb k l) := by
      rw [pow_one, div_neg]; ring
    rw [e, div_le_iff₀ (by linarith)]
    unfold poin lamb
    have hpi := Real.pi_pos
    have e2 : L ^ 2 / (4 * Real.pi ^ 2) * -(-(2 * Real.pi) ^ 2 * (kap k ^ 2 + kap l ^ 2))
        = L ^ 2 * (kap k ^ 2 + kap l ^ 2) := by field_simp; ring
    rw [e2]; exact key

theorem lamb_sig (k : ZMod h) (l : ZMod w) : -lamb k l * sig 1 k l ^ 2 = -sig 1 k l := by
  unfold sig
  split
  · simp
  · next h0 =>
    have hl : lamb k l ≠ 0 := fun e => h0 ((lamb_eq_zero k l).mp e)
    rw [pow_one]; field_simp

theorem cardR_pos : (0 : ℝ) < (h : ℝ) * (w : ℝ) :=
  mul_pos (Nat.cast_pos.mpr (NeZero.pos h)) (Nat.cast_pos.mpr (NeZero.pos w))

/-- the differences of the potential are controlled by the vorticity -/
theorem phi_dirichlet {dx L : ℝ} (hdx : 0 < dx) (hh : h * dx ≤ L) (hw : w * dx ≤ L) (u : Fld h w) :
    dirichlet (phiF dx u) (phiF dx u) ≤ poin L * dx ^ 2 * Q u := by
  have h1 := dirichlet_le_spectral (phiF dx u)
  have h2 : S (fun k l => -lamb k l * ‖D (cx (phiF dx u)) k l‖ ^ 2)
      ≤ S (fun k l => poin L * dx ^ 2 * ‖D (cx u) k l‖ ^ 2) := by
    refine S_le fun k l => ?_
    rw [D_phiF, norm_mul, norm_real, mul_pow, Real.norm_eq_abs, sq_abs, ← mul_assoc]
    refine mul_le_mul_of_nonneg_right ?_ (sq_nonneg _)
    rw [mul_pow, ← mul_assoc, lamb_sig]
    have := sig_le hdx hh hw k l
    nlinarith [sq_nonneg dx]
  rw [S_mul_left, Q_parseval] at h2
  have h3 := h1.trans h2
  have e : poin L * dx ^ 2 * ((h : ℝ) * (w : ℝ) * Q u) = (h : ℝ) * (w : ℝ) * (poin L * dx ^ 2 * Q u) := by ring
  rw [e] at h3
  exact le_of_mul_le_mul_left h3 cardR_pos

/-- the potential is controlled by the vorticity -/
theorem phi_Q {dx L : ℝ} (hdx : 0 < dx) (hh : h * dx ≤ L) (hw : w * dx ≤ L) (u : Fld h w) :
    Q (phiF dx u) ≤ poin L ^ 2 * Q u := by
  have h2 : S (fun k l => ‖D (cx (phiF dx u)) k l‖ ^ 2) ≤ S (fun k l => poin L ^ 2 * ‖D (cx u) k l‖ ^ 2) := by
    refine S_le fun k l => ?_
    rw [D_phiF, norm_mul, norm_real, mul_pow, Real.norm_eq_abs, sq_abs]
    refine mul_le_mul_of_nonneg_right ?_ (sq_nonneg _)
    have h1 := sig_le hdx hh hw k l
    have h0 : 0 ≤ -sig 1 k l * dx ^ 2 := mul_nonneg (by linarith [sig_one_nonpos k l]) (sq_nonneg _)
    have := pow_le_pow_left₀ h0 h1 2
    rw [neg_mul, neg_sq] at this
    exact this
  rw [S_mul_left, Q_parseval, Q_parseval] at h2
  refine le_of_mul_le_mul_left (a := (h : ℝ) * (w : ℝ)) ?_ cardR_pos
  linarith

/-! ### the five-point Laplacian against the spectral one -/

/-- minus the symbol of the five-point Laplacian, times `dx²` -/
noncomputable def fsym (k : ZMod h) (l : ZMod w) : ℝ :=
  4 * Real.sin (Real.pi * kap k) ^ 2 + 4 * Real.sin (Real.pi * kap l) ^ 2

theorem ec_second {n : ℕ} [NeZero n] (k : ZMod n) :
    ec k + ec (-k) - 2 = ((-(4 * Real.sin (Real.pi * kap k) ^ 2) : ℝ) : ℂ) := by
  rw [← norm_ec_one, ← ec_conj]
  have h1 : ec k * conj (ec k) = 1 := by rw [ec_conj, ← ec_add, add_neg_cancel, ec_zero]
  have h2 : ((‖ec k - 1‖ ^ 2 : ℝ) : ℂ) = (ec k - 1) * conj (ec k - 1) := by
    rw [mul_conj, normSq_eq_norm_sq]
  push_cast at h2 ⊢
  rw [h2, map_sub, map_one]
  linear_combination h1

theorem D_lap (dx : ℝ) (f : Fld h w) (k : ZMod h) (l : ZMod w) :
    D (cx (lap dx f)) k l = ((-(fsym k l) / dx ^ 2 : ℝ) : ℂ) * D (cx f) k l := by
  have e : cx (lap dx f) = fun i j =>
      ((1 / dx ^ 2 : ℝ) : ℂ) * (shift (-1) 0 (cx f) i j + (shift 1 0 (cx f) i j + (shift 0 (-1) (cx f) i j
        + (shift 0 1 (cx f) i j - 4 * cx f i j)))) := by
    funext i j
    change ((lap dx f i j : ℝ) : ℂ) = _
    simp only [lap, shift, sub_neg_eq_add, sub_zero, cx]
    push_cast; ring
  rw [e, D_smul, D_add, D_add, D_add, D_sub, D_smul]
  beta_reduce
  rw [D_shift, D_shift, D_shift, D_shift]
  simp only [mul_neg, mul_one, neg_neg, mul_zero, neg_zero, ec_zero]
  have h1 := ec_second k
  have h2 := ec_second l
  unfold fsym
  push_cast at h1 h2 ⊢
  linear_combination (1 / (dx : ℂ) ^ 2) * D (cx f) k l * (h1 + h2)

theorem abs_kap_le {n : ℕ} [NeZero n] (k : ZMod n) : |Real.pi * kap k| ≤ Real.pi / 2 := by
  have hn : (0 : ℝ) < n := Nat.cast_pos.mpr (NeZero.pos n)
  have hk := ZMod.val_lt k
  have h1 : |(2 * fftfreqInt n k.val : ℤ)| ≤ n := by
    rw [fftfreqInt_eq hk, abs_le]
    split <;> constructor <;> omega
  have h2 : |2 * ((fftfreqInt n k.val : ℤ) : ℝ)| ≤ n := by exact_mod_cast h1
  rw [abs_mul, abs_of_pos Real.pi_pos]
  have h3 : |kap k| ≤ 1 / 2 := by
    unfold kap fftfreq
    rw [abs_div, abs_of_pos hn, div_le_iff₀ hn]
    rw [abs_mul] at h2
    norm_num at h2
    linarith
  nlinarith [Real.pi_pos]

/-- how far a quadratic symbol is from the five-point one -/
theorem sym_err {x : ℝ} (hx : |x| ≤ Real.pi / 2) :
    0 ≤ 4 * x ^ 2 - 4 * Real.sin x ^ 2 ∧
    4 * x ^ 2 - 4 * Real.sin x ^ 2 ≤ Real.pi ^ 4 / 192 * (4 * Real.sin x ^ 2) ^ 2 := by
  have key : ∀ x : ℝ, 0 ≤ x → x ≤ Real.pi / 2 → 0 ≤ 4 * x ^ 2 - 4 * Real.sin x ^ 2 ∧
      4 * x ^ 2 - 4 * Real.sin x ^ 2 ≤ Real.pi ^ 4 / 192 * (4 * Real.sin x ^ 2) ^ 2 := by
    intro x h0 h1
    rcases h0.eq_or_lt with e | hp
    · rw [← e]; simp
    have s0 := Real.sin_le hp.le
    have s1 := Real.mul_le_sin h0 h1
    have s2 := (Real.sin_gt_sub_cube hp).le
    have hpi := Real.pi_pos
    have hpi4 := Real.pi_le_four
    have s3 : 0 ≤ 2 / Real.pi * x := by positivity
    have c0 : 0 ≤ x - x ^ 3 / 6 := by
      have : x ^ 2 ≤ 4 := by nlinarith
      nlinarith
    have q1 : (x - x ^ 3 / 6) ^ 2 ≤ Real.sin x ^ 2 := pow_le_pow_left₀ c0 s2 2
    have q2 : (2 / Real.pi * x) ^ 4 ≤ Real.sin x ^ 4 := pow_le_pow_left₀ s3 s1 4
    have q3 : Real.sin x ^ 2 ≤ x ^ 2 := pow_le_pow_left₀ (s3.trans s1) s0 2
    refine ⟨by linarith, ?_⟩
    have e1 : Real.pi ^ 4 / 192 * (4 * Real.sin x ^ 2) ^ 2 = Real.pi ^ 4 / 12 * Real.sin x ^ 4 := by ring
    have e2 : Real.pi ^ 4 / 12 * (2 / Real.pi * x) ^ 4 = 4 / 3 * x ^ 4 := by field_simp; ring
    rw [e1]
    have q4 : Real.pi ^ 4 / 12 * (2 / Real.pi * x) ^ 4 ≤ Real.pi ^ 4 / 12 * Real.sin x ^ 4 :=
      mul_le_mul_of_nonneg_left q2 (by positivity)
    rw [e2] at q4
    nlinarith [sq_nonneg (x ^ 3)]
  rcases abs_cases x with ⟨e, h0⟩ | ⟨e, h0⟩
  · rw [e] at hx; exact key x h0 hx
  · rw [e] at hx
    have := key (-x) (by linarith) hx
    rwa [Real.sin_neg, neg_sq, neg_sq] at this

theorem lamb_fsym (k : ZMod h) (l : ZMod w) :
    |lamb k l + fsym k l| ≤ Real.pi ^ 4 / 192 * fsym k l ^ 2 := by
  have h1 := sym_err (abs_kap_le k)
  have h2 := sym_err (abs_kap_le l)
  have e : lamb k l = -(4 * (Real.pi * kap k) ^ 2 + 4 * (Real.pi * kap l) ^ 2) := by unfold lamb; ring
  set a := 4 * Real.sin (Real.pi * kap k) ^ 2 with ha
  set b := 4 * Real.sin (Real.pi * kap l) ^ 2 with hb
  have a0 : 0 ≤ a := by positivity
  have b0 : 0 ≤ b := by positivity
  have e2 : fsym k l = a + b := rfl
  have c0 : 0 ≤ Real.pi ^ 4 / 192 * (2 * a * b) := by positivity
  rw [abs_of_nonpos (by rw [e, e2]; linarith [h1.1, h2.1]), e, e2]
  nlinarith [h1.2, h2.2]

/-- the spectral Laplacian -/
noncomputable def slap (dx : ℝ) (f : Fld h w) : Fld h w := fun i j => mult lamb f i j * (1 / dx ^ 2)

theorem D_slap (dx : ℝ) (f : Fld h w) (k : ZMod h) (l : ZMod w) :
    D (cx (slap dx f)) k l = ((lamb k l / dx ^ 2 : ℝ) : ℂ) * D (cx f) k l := by
  unfold slap
  rw [D_mult_scaled _ lamb_neg]
  simp only [mul_one_div]

theorem phiF_slap {dx : ℝ} (hdx : dx ≠ 0) (f : Fld h w) :
    phiF dx (slap dx f) = fun i j => f i j - avg f := by
  refine (phiF_unique hdx _ _ (S_center f) fun k l => ?_).symm
  rw [D_center, D_center, D_slap]
  split <;> simp

theorem slap_lap {dx : ℝ} (hdx : 0 < dx) (f : Fld h w) :
    Q (fun i j => slap dx f i j - lap dx f i j) ≤ (Real.pi ^ 4 / 192 * dx ^ 2) ^ 2 * Q (lap dx (lap dx f)) := by
  have h2 : S (fun k l => ‖D (cx fun i j => slap dx f i j - lap dx f i j) k l‖ ^ 2)
      ≤ S (fun k l => (Real.pi ^ 4 / 192 * dx ^ 2) ^ 2 * ‖D (cx (lap dx (lap dx f))) k l‖ ^ 2) := by
    refine S_le fun k l => ?_
    have e : (cx fun i j => slap dx f i j - lap dx f i j)
        = fun i j => cx (slap dx f) i j - cx (lap dx f) i j := by
      funext i j; push_cast; rfl
    rw [e, D_sub]
    beta_reduce
    rw [D_slap, D_lap, D_lap, D_lap, ← sub_mul, ← ofReal_sub, ← mul_assoc, ← ofReal_mul, norm_mul,
      norm_mul, norm_real, norm_real, mul_pow, Real.norm_eq_abs, Real.norm_eq_abs, mul_pow (|_|), sq_abs,
      ← mul_assoc]
    refine mul_le_mul_of_nonneg_right ?_ (sq_nonneg _)
    have e1 : lamb k l / dx ^ 2 - -fsym k l / dx ^ 2 = (lamb k l + fsym k l) / dx ^ 2 := by ring
    have e2 : (Real.pi ^ 4 / 192 * dx ^ 2) ^ 2 * |-fsym k l / dx ^ 2 * (-fsym k l / dx ^ 2)| ^ 2
        = (Real.pi ^ 4 / 192 * fsym k l ^ 2 / dx ^ 2) ^ 2 := by
      rw [sq_abs]; field_simp
    rw [e1, e2, div_pow, div_pow]
    refine div_le_div_of_nonneg_right ?_ (by positivity)
    rw [← sq_abs]
    exact pow_le_pow_left₀ (abs_nonneg _) (lamb_fsym k l) 2
  rw [S_mul_left, Q_parseval, Q_parseval] at h2
  refine le_of_mul_le_mul_left (a := (h : ℝ) * (w : ℝ)) ?_ cardR_pos
  linarith

end Verif
