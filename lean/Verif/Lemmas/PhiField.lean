import Verif.Lemmas.HWBasic
import Verif.Spec.Fourier

/-!
# Fourier facts about the potential
-/

set_option linter.unusedSectionVars false

namespace Verif

open Arr Complex Spec
open scoped ComplexConjugate

variable {h w : ℕ} [NeZero h] [NeZero w]

theorem sum_range_at {K : Type} [AddCommMonoid K] (G : ℕ → ℕ → K) (g : ZMod h → ZMod w → K)
    (e : ∀ i j, i < h → j < w → G i j = g i j) :
    (∑ m ∈ Finset.range h, ∑ n ∈ Finset.range w, G m n) = S g := by
  unfold S
  rw [← sum_fin_ofField, Finset.sum_range]
  refine Finset.sum_congr rfl fun i _ => ?_
  rw [Finset.sum_range]
  exact Finset.sum_congr rfl fun j _ => e _ _ i.2 j.2

theorem spec_mean_of {G : ℕ → ℕ → ℝ} {g : Fld h w} (e : ∀ i j, i < h → j < w → G i j = g i j) :
    Spec.mean h w G = avg g := by
  unfold Spec.mean avg; rw [sum_range_at G g e]

theorem spec_coef_of {G : ℕ → ℕ → ℝ} {g : Fld h w} (e : ∀ i j, i < h → j < w → G i j = g i j)
    (k l : ℕ) : coef h w G k l = D (cx g) k l := by
  unfold coef D
  refine sum_range_at _ _ fun m n hm hn => ?_
  rw [e m n hm hn, ec_neg_exp, ec_neg_exp, ← exp_add]
  congr 2
  ring

theorem wave_eq {n : ℕ} [NeZero n] (dx : ℝ) {k : ℕ} (hk : k < n) :
    wave n dx k = 2 * Real.pi * kap (k : ZMod n) / dx := by
  rw [kap_cast hk]
  unfold wave fftfreq
  rw [fftfreqInt_eq hk]
  have : ((if 2 * k < n then (k : Int) else (k : Int) - n : Int) : ℝ)
      = if 2 * k < n then (k : ℝ) else (k : ℝ) - n := by split <;> push_cast <;> rfl
  rw [this, mul_div_assoc, mul_div_assoc, div_div]

theorem wave_sq {dx : ℝ} {k l : ℕ} (hk : k < h) (hl : l < w) :
    -(wave h dx k ^ 2 + wave w dx l ^ 2) = lamb (k : ZMod h) (l : ZMod w) / dx ^ 2 := by
  rw [wave_eq dx hk, wave_eq dx hl]
  unfold lamb; ring

theorem isLaplacian_iff {F G : ℕ → ℕ → ℝ} {f g : Fld h w} {dx : ℝ}
    (eF : ∀ i j, i < h → j < w → F i j = f i j) (eG : ∀ i j, i < h → j < w → G i j = g i j) :
    IsLaplacian h w dx F G ↔ ∀ k l, D (cx g) k l = ((lamb k l / dx ^ 2 : ℝ) : ℂ) * D (cx f) k l := by
  unfold IsLaplacian
  constructor
  · intro H k l
    have := H k.val (ZMod.val_lt k) l.val (ZMod.val_lt l)
    rw [spec_coef_of eF, spec_coef_of eG, wave_sq (ZMod.val_lt k) (ZMod.val_lt l)] at this
    simpa using this
  · intro H k hk l hl
    rw [spec_coef_of eF, spec_coef_of eG, wave_sq hk hl]
    exact H k l

theorem ID_delta (c : ℂ) : ID (fun (k : ZMod h) (l : ZMod w) => if k = 0 ∧ l = 0 then c else 0)
    = fun _ _ => c / ((h : ℂ) * (w : ℂ)) := by
  funext i j
  unfold ID S
  congr 1
  rw [Finset.sum_eq_single 0, Finset.sum_eq_single 0]
  · simp
  · intro l _ hl; simp [hl]
  · simp
  · intro k _ hk; simp [hk]
  · simp

theorem cardC_ne : ((h : ℂ) * (w : ℂ)) ≠ 0 :=
  mul_ne_zero (Nat.cast_ne_zero.mpr (NeZero.ne h)) (Nat.cast_ne_zero.mpr (NeZero.ne w))

theorem D_const (c : ℂ) : D (fun (_ : ZMod h) (_ : ZMod w) => c)
    = fun k l => if k = 0 ∧ l = 0 then (h : ℂ) * (w : ℂ) * c else 0 := by
  rw [← D_ID (fun (k : ZMod h) (l : ZMod w) => if k = 0 ∧ l = 0 then (h : ℂ) * (w : ℂ) * c else 0),
    ID_delta]
  congr 1
  funext _ _
  rw [mul_div_cancel_left₀ _ cardC_ne]

theorem cx_mulr (f : Fld h w) (c : ℝ) : cx (fun i j => f i j * c) = fun i j => (c : ℂ) * cx f i j := by
  funext i j; push_cast; ring

theorem D_mult_scaled (s : Fld h w) (hs : ∀ k l, s (-k) (-l) = s k l) (f : Fld h w) (c : ℝ) :
    D (cx fun i j => mult s f i j * c) = fun k l => ((s k l * c : ℝ) : ℂ) * D (cx f) k l := by
  rw [cx_mulr, D_smul, D_mult s hs]
  funext k l; push_cast; ring

theorem D_center (f : Fld h w) (k : ZMod h) (l : ZMod w) :
    D (cx fun i j => f i j - avg f) k l = if k = 0 ∧ l = 0 then 0 else D (cx f) k l := by
  have : (cx fun i j => f i j - avg f) = fun i j => cx f i j - ((avg f : ℝ) : ℂ) := by
    funext i j; push_cast; rfl
  by_cases h0 : k = 0 ∧ l = 0
  · rw [if_pos h0, h0.1, h0.2, D_zero_zero]
    have e : S (cx fun i j => f i j - avg f) = ((S fun i j => f i j - avg f : ℝ) : ℂ) := by
      unfold S; push_cast; rfl
    rw [e, S_center]; simp
  · rw [if_neg h0, this, D_sub, D_const]
    simp only
    rw [if_neg h0, sub_zero]

/-- Fourier coefficients of the potential -/
theorem D_phiF (dx : ℝ) (o : Fld h w) (k : ZMod h) (l : ZMod w) :
    D (cx (phiF dx o)) k l = ((sig 1 k l * dx ^ 2 : ℝ) : ℂ) * D (cx o) k l := by
  unfold phiF
  rw [D_mult_scaled _ (sig_neg 1)]
  simp only
  rw [D_center]
  split
  · next h0 => simp [sig, h0]
  · rfl

theorem phiF_sum (dx : ℝ) (o : Fld h w) : S (phiF dx o) = 0 := by
  have e : D (cx (phiF dx o)) 0 0 = ((S (phiF dx o) : ℝ) : ℂ) := by
    rw [D_zero_zero]; unfold S; push_cast; rfl
  rw [D_phiF] at e
  simp only [sig, and_self, if_true, one_ne_zero, if_false] at e
  have : ((S (phiF dx o) : ℝ) : ℂ) = 0 := by rw [← e]; simp
  exact_mod_cast this

theorem avg_phiF (dx : ℝ) (o : Fld h w) : avg (phiF dx o) = 0 := by
  unfold avg; rw [phiF_sum, zero_div]

theorem phiF_lap {dx : ℝ} (hdx : dx ≠ 0) (o : Fld h w) (k : ZMod h) (l : ZMod w) :
    D (cx fun i j => o i j - avg o) k l = ((lamb k l / dx ^ 2 : ℝ) : ℂ) * D (cx (phiF dx o)) k l := by
  rw [D_center, D_phiF]
  split
  · next h0 => rw [(lamb_eq_zero k l).mpr h0]; simp
  · next h0 =>
    have hl : lamb k l ≠ 0 := fun e => h0 ((lamb_eq_zero k l).mp e)
    rw [← mul_assoc, ← ofReal_mul]
    have : lamb k l / dx ^ 2 * (sig 1 k l * dx ^ 2) = 1 := by
      unfold sig; rw [if_neg h0, pow_one]; field_simp
    rw [this]; simp

theorem phiF_unique {dx : ℝ} (hdx : dx ≠ 0) (o q : Fld h w) (h0 : S q = 0)
    (hq : ∀ k l, D (cx fun i j => o i j - avg o) k l = ((lamb k l / dx ^ 2 : ℝ) : ℂ) * D (cx q) k l) :
    q = phiF dx o := by
  refine mult_ext ?_
  funext k l
  by_cases hkl : k = 0 ∧ l = 0
  · rw [hkl.1, hkl.2, D_zero_zero, D_zero_zero]
    have e : ∀ f : Fld h w, S (cx f) = ((S f : ℝ) : ℂ) := by
      intro f; unfold S; push_cast; rfl
    rw [e, e, h0, phiF_sum]
  · have e := (hq k l).symm.trans (phiF_lap hdx o k l)
    have hl : lamb k l ≠ 0 := fun e => hkl ((lamb_eq_zero k l).mp e)
    have : ((lamb k l / dx ^ 2 : ℝ) : ℂ) ≠ 0 := by
      exact_mod_cast div_ne_zero hl (pow_ne_zero 2 hdx)
    exact mul_left_cancel₀ this e

theorem phiF_lin (dx a b c : ℝ) (u v : Fld h w) :
    phiF dx (fun i j => a * u i j + b * v i j + c) = fun i j => a * phiF dx u i j + b * phiF dx v i j := by
  refine mult_ext ?_
  funext k l
  have e1 : (cx fun i j => a * phiF dx u i j + b * phiF dx v i j)
      = fun i j => (a : ℂ) * cx (phiF dx u) i j + (b : ℂ) * cx (phiF dx v) i j := by
    funext i j; push_cast; rfl
  have e2 : (cx fun i j => a * u i j + b * v i j + c)
      = fun i j => ((a : ℂ) * cx u i j + (b : ℂ) * cx v i j) + (c : ℂ) := by
    funext i j; push_cast; rfl
  rw [D_phiF, e1, D_add, D_smul, D_smul]
  simp only
  rw [D_phiF, D_phiF, e2, D_add (fun i j => (a : ℂ) * cx u i j + (b : ℂ) * cx v i j), D_add, D_smul, D_smul,
    D_const]
  simp only
  by_cases h0 : k = 0 ∧ l = 0
  · simp [sig, h0]
  · rw [if_neg h0]; ring

theorem cx_shift (s : ZMod h) (t : ZMod w) (f : Fld h w) : cx (shift s t f) = shift s t (cx f) := rfl

theorem phiF_shift (dx : ℝ) (o : Fld h w) (s : ZMod h) (t : ZMod w) :
    phiF dx (shift s t o) = shift s t (phiF dx o) := by
  refine mult_ext ?_
  funext k l
  rw [D_phiF, cx_shift, cx_shift, D_shift, D_shift, D_phiF]; ring

/-- real Fourier multipliers are self-adjoint -/
theorem S_cx_mul (u v : Fld h w) : ((S fun i j => u i j * v i j : ℝ) : ℂ)
    = S fun i j => cx u i j * conj (cx v i j) := by
  unfold S
  push_cast
  refine Finset.sum_congr rfl fun i _ => Finset.sum_congr rfl fun j _ => ?_
  rw [conj_ofReal]

theorem phiF_symm (dx : ℝ) (u v : Fld h w) :
    S (fun i j => u i j * phiF dx v i j) = S fun i j => phiF dx u i j * v i j := by
  have key : ((h : ℂ) * (w : ℂ)) * ((S (fun i j => u i j * phiF dx v i j) : ℝ) : ℂ)
      = ((h : ℂ) * (w : ℂ)) * ((S (fun i j => phiF dx u i j * v i j) : ℝ) : ℂ) := by
    rw [S_cx_mul, S_cx_mul, ← parseval, ← parseval]
    refine S_congr fun k l => ?_
    rw [D_phiF, D_phiF, map_mul, conj_ofReal]; ring
  have := mul_left_cancel₀ cardC_ne key
  exact_mod_cast this

theorem sig_one_nonpos (k : ZMod h) (l : ZMod w) : sig 1 k l ≤ 0 := by
  unfold sig
  split
  · simp
  · rw [pow_one]; exact div_nonpos_of_nonneg_of_nonpos zero_le_one (lamb_nonpos k l)

/-- quadratic form of the potential in Fourier space -/
theorem phiF_form (dx : ℝ) (u : Fld h w) :
    ((h : ℝ) * (w : ℝ)) * S (fun i j => u i j * phiF dx u i j)
      = dx ^ 2 * S fun k l => sig 1 k l * ‖D (cx u) k l‖ ^ 2 := by
  have key : (((h : ℝ) * (w : ℝ) * S (fun i j => u i j * phiF dx u i j) : ℝ) : ℂ)
      = ((dx ^ 2 * S fun k l => sig 1 k l * ‖D (cx u) k l‖ ^ 2 : ℝ) : ℂ) := by
    rw [ofReal_mul, S_cx_mul]
    push_cast
    rw [← parseval]
    have : ((S fun k l => sig 1 k l * ‖D (cx u) k l‖ ^ 2 : ℝ) : ℂ)
        = S fun k l => ((sig 1 k l * ‖D (cx u) k l‖ ^ 2 : ℝ) : ℂ) := by
      unfold S; push_cast; rfl
    rw [this, ← S_mul_left]
    refine S_congr fun k l => ?_
    rw [D_phiF, map_mul, conj_ofReal]
    push_cast
    rw [← mul_conj']; ring
  exact_mod_cast key

theorem phiF_neg (dx : ℝ) (u : Fld h w) : S (fun i j => u i j * phiF dx u i j) ≤ 0 := by
  have hc : (0 : ℝ) < (h : ℝ) * (w : ℝ) :=
    mul_pos (Nat.cast_pos.mpr (NeZero.pos h)) (Nat.cast_pos.mpr (NeZero.pos w))
  have e := phiF_form dx u
  have : S (fun k l => sig 1 k l * ‖D (cx u) k l‖ ^ 2) ≤ 0 := by
    have : 0 ≤ S (fun k l => -(sig 1 k l * ‖D (cx u) k l‖ ^ 2)) := S_nonneg fun k l => by
      nlinarith [sig_one_nonpos k l, sq_nonneg ‖D (cx u) k l‖]
    rw [S_neg] at this; linarith
  by_contra hpos
  push Not at hpos
  have h1 := mul_pos hc hpos
  have h2 : dx ^ 2 * S (fun k l => sig 1 k l * ‖D (cx u) k l‖ ^ 2) ≤ 0 :=
    mul_nonpos_of_nonneg_of_nonpos (sq_nonneg _) this
  linarith

/-! ### facts used by C12, C15, C16 -/

theorem D_mult_add (s t : Fld h w) (f : Fld h w) (i : ZMod h) (j : ZMod w) :
    mult (fun k l => s k l + t k l) f i j = mult s f i j + mult t f i j := by
  unfold mult
  have : (fun k l => ((s k l + t k l : ℝ) : ℂ) * D (cx f) k l)
      = fun k l => (s k l : ℂ) * D (cx f) k l + (t k l : ℂ) * D (cx f) k l := by
    funext k l; push_cast; ring
  rw [this, ID_add]; rfl

theorem sigNumba_split (f : Fld h w) (i : ZMod h) (j : ZMod w) :
    mult (sigNumba 1) f i j = mult (sig 1) f i j + avg f / 10 ^ 14 := by
  classical
  have e : (sigNumba 1 : Fld h w)
      = fun k l => sig 1 k l + if k = 0 ∧ l = 0 then 1 / 10 ^ 14 else 0 := by
    funext k l
    unfold sigNumba sig
    by_cases h0 : k = 0 ∧ l = 0 <;> simp [h0]
  rw [e, D_mult_add]
  congr 1
  unfold mult
  have e2 : (fun (k : ZMod h) (l : ZMod w) => ((if k = 0 ∧ l = 0 then 1 / 10 ^ 14 else 0 : ℝ) : ℂ) * D (cx f) k l)
      = fun k l => if k = 0 ∧ l = 0 then ((S f / 10 ^ 14 : ℝ) : ℂ) else 0 := by
    funext k l
    by_cases h0 : k = 0 ∧ l = 0
    · rw [if_pos h0, if_pos h0, h0.1, h0.2, D_zero_zero]
      have e : S (cx f) = ((S f : ℝ) : ℂ) := by unfold S; push_cast; rfl
      rw [e]; push_cast; ring
    · rw [if_neg h0, if_neg h0]; simp
  rw [e2, ID_delta]
  have : (((S f / 10 ^ 14 : ℝ) : ℂ) / ((h : ℂ) * (w : ℂ))) = ((S f / 10 ^ 14 / ((h : ℝ) * (w : ℝ)) : ℝ) : ℂ) := by
    push_cast; rfl
  rw [this, ofReal_re]
  unfold avg; ring

theorem sig_succ (m : ℕ) (k : ZMod h) (l : ZMod w) : sig (m + 2) k l = sig (m + 1) k l * sig 1 k l := by
  unfold sig
  by_cases h0 : k = 0 ∧ l = 0
  · simp [h0]
  · simp only [h0, if_false]
    rw [one_div_mul_one_div, ← pow_add]

theorem mult_sig_succ (m : ℕ) (dx : ℝ) (f : Fld h w) (i : ZMod h) (j : ZMod w) :
    mult (sig (m + 1)) (fun i j => mult (sig 1) f i j * dx ^ 2) i j = mult (sig (m + 2)) f i j * dx ^ 2 := by
  have : mult (sig (m + 1)) (fun i j => mult (sig 1) f i j * dx ^ 2)
      = fun i j => mult (sig (m + 2)) f i j * dx ^ 2 := by
    refine mult_ext ?_
    rw [D_mult _ (sig_neg _), D_mult_scaled _ (sig_neg _), D_mult_scaled _ (sig_neg _)]
    funext k l
    rw [sig_succ]; push_cast; ring
  rw [this]

theorem const_of_mult_sig_zero {m : ℕ} (_hm : 1 ≤ m) {f : Fld h w} (hz : mult (sig m) f = fun _ _ => 0)
    (i : ZMod h) (j : ZMod w) : f i j = avg f := by
  have e := D_mult (sig m) (sig_neg m) f
  rw [hz] at e
  have hc : f = fun _ _ => avg f := by
    refine mult_ext ?_
    funext k l
    have e0 : (cx fun (_ : ZMod h) (_ : ZMod w) => avg f) = fun _ _ => ((avg f : ℝ) : ℂ) := rfl
    rw [e0, D_const]
    beta_reduce
    by_cases h0 : k = 0 ∧ l = 0
    · rw [if_pos h0, h0.1, h0.2, D_zero_zero]
      have e : S (cx f) = ((S f : ℝ) : ℂ) := by unfold S; push_cast; rfl
      rw [e]
      unfold avg
      push_cast
      rw [mul_div_cancel₀ _ cardC_ne]
    · rw [if_neg h0]
      have e1 := congrFun (congrFun e k) l
      have e2 : (cx fun (_ : ZMod h) (_ : ZMod w) => (0 : ℝ)) = fun _ _ => (0 : ℂ) := by
        funext i j; simp
      rw [e2, D_const] at e1
      simp only [mul_zero, ite_self] at e1
      have hs : sig m k l ≠ 0 := by
        unfold sig; rw [if_neg h0]
        exact one_div_ne_zero (pow_ne_zero _ fun e => h0 ((lamb_eq_zero k l).mp e))
      rcases mul_eq_zero.mp e1.symm with e3 | e3
      · exact absurd (by exact_mod_cast e3) hs
      · exact e3
  exact congrFun (congrFun hc i) j

/-- the general solver on square grids -/
theorem numpy_general_poisson_ofField {n : ℕ} [NeZero n] (f : Fld n n) (dx : ℝ) (m : ℕ) :
    NumpyPoisson.fourier_poisson_numpy (ofField f) dx m
      = .ok (ofField fun i j => mult (sig m) f i j * dx ^ 2) := by
  classical
  unfold NumpyPoisson.fourier_poisson_numpy
  simp only [toComplex_ofField, fft2_ofField, Py.ok_bind, ofField_h, ofField_w, map_tab]
  rw [show ofField (D (cx f)) = tab n n fun i j => D (cx f) i j from rfl, zip_tab]
  simp only [Py.ok_bind]
  have e : (tab n n fun i j => if (-((2 * Real.pi) ^ 2) * (fftfreq n j ^ 2 + fftfreq n i ^ 2)) ^ m ≠ 0
        then D (cx f) i j / (((-((2 * Real.pi) ^ 2) * (fftfreq n j ^ 2 + fftfreq n i ^ 2)) ^ m : ℝ) : ℂ) else 0)
      = ofField fun k l => ((sig m k l : ℝ) : ℂ) * D (cx f) k l := by
    refine tab_congr rfl rfl fun i j hi hj => ?_
    have hl : -((2 * Real.pi) ^ 2) * (fftfreq n j ^ 2 + fftfreq n i ^ 2)
        = lamb (i : ZMod n) (j : ZMod n) := by
      unfold lamb; rw [kap_cast hi, kap_cast hj]; ring
    rw [hl]
    unfold sig
    beta_reduce
    by_cases h0 : (i : ZMod n) = 0 ∧ (j : ZMod n) = 0
    · rw [if_pos h0, (lamb_eq_zero _ _).mpr h0]
      cases m with
      | zero => simp
      | succ m => simp
    · rw [if_neg h0]
      have hne : lamb (i : ZMod n) (j : ZMod n) ≠ 0 := fun e => h0 ((lamb_eq_zero _ _).mp e)
      rw [if_pos (pow_ne_zero _ hne)]
      push_cast; ring
  rw [e, ifft2_ofField]
  rfl

end Verif
