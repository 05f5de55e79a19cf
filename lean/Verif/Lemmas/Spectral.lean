import Verif.Lemmas.PhiField
import Mathlib.Analysis.SpecialFunctions.Trigonometric.Bounds

/-!
# Evaluation of the spectral diagnostics on torus fields
-/

set_option linter.unusedSectionVars false

namespace Verif

open Arr Complex Spec Properties
open scoped ComplexConjugate

variable {h w : ℕ} [NeZero h] [NeZero w]

theorem hw_pos : (0 : ℝ) < (h : ℝ) * (w : ℝ) :=
  mul_pos (Nat.cast_pos.mpr (NeZero.pos h)) (Nat.cast_pos.mpr (NeZero.pos w))

theorem fft2Ortho_ofField (f : Fld h w) : fft2Ortho (ofField f).toComplex
    = .ok (ofField fun k l => D (cx f) k l / ((Real.sqrt ((h : ℝ) * (w : ℝ)) : ℝ) : ℂ)) := by
  unfold fft2Ortho
  rw [toComplex_ofField, fft2_ofField]
  rfl

theorem norm_sq_ortho (z : ℂ) : ‖z / ((Real.sqrt ((h : ℝ) * (w : ℝ)) : ℝ) : ℂ)‖ ^ 2
    = ‖z‖ ^ 2 / ((h : ℝ) * (w : ℝ)) := by
  rw [norm_div, div_pow, norm_real, Real.norm_eq_abs, sq_abs, Real.sq_sqrt hw_pos.le]

theorem ofFn_eq_range (n : ℕ) (g : ℕ → ℝ) :
    (List.ofFn fun i : Fin n => g i) = (List.range n).map g := by
  apply List.ext_getElem <;> simp

theorem sum_map_range (n : ℕ) (g : ℕ → ℝ) : ((List.range n).map g).sum = ∑ i ∈ Finset.range n, g i := by
  rw [← ofFn_eq_range, List.sum_ofFn, Finset.sum_range]

/-- sum of row `i` -/
noncomputable def rowSum (f : Fld h w) (i : ZMod h) : ℝ := ∑ j, f i j

theorem meanLast_ofField (f : Fld h w) :
    meanLast (ofField f) = (List.range h).map fun i : ℕ => rowSum f (i : ZMod h) / (w : ℝ) := by
  rw [← ofFn_eq_range]
  unfold meanLast rowSum
  congr 1
  funext i
  congr 1
  cases w with
  | zero => exact absurd rfl (NeZero.ne 0)
  | succ w =>
    have hc : ∀ (n : ℕ) (i : Fin (n + 1)), (((i : ℕ) : ZMod (n + 1)) : Fin (n + 1)) = i :=
      fun n i => ZMod.natCast_zmod_val (n := n + 1) i
    exact Finset.sum_congr rfl fun j _ => by
      change f _ ((j : ℕ) : ZMod (w+1)) = _
      congr 1; exact hc w j

theorem sum_range_zmod (g : ZMod h → ℝ) : ∑ i ∈ Finset.range h, g (i : ZMod h) = ∑ i, g i := by
  have := sum_range_at (h := h) (w := 1) (fun i _ => g (i : ZMod h)) (fun i _ => g i)
    (fun _ _ _ _ => rfl)
  simpa [S] using this

theorem mean1_meanLast (f : Fld h w) : mean1 (meanLast (ofField f)) = avg f := by
  rw [meanLast_ofField]
  unfold mean1 avg S
  rw [sum_map_range, sum_range_zmod fun i => rowSum f i / (w : ℝ)]
  simp only [List.length_map, List.length_range]
  rw [← Finset.sum_div, div_div, mul_comm (w : ℝ)]
  rfl

/-! ### thermal energy -/

theorem parseval_sq (f : Fld h w) :
    S (fun k l => ‖D (cx f) k l‖ ^ 2) = ((h : ℝ) * (w : ℝ)) * S fun i j => f i j ^ 2 := by
  have key : ((S (fun k l => ‖D (cx f) k l‖ ^ 2) : ℝ) : ℂ)
      = (((h : ℝ) * (w : ℝ) * S fun i j => f i j ^ 2 : ℝ) : ℂ) := by
    have e1 : ((S (fun k l => ‖D (cx f) k l‖ ^ 2) : ℝ) : ℂ)
        = S fun k l => D (cx f) k l * conj (D (cx f) k l) := by
      unfold S; push_cast
      simp only [mul_conj']
    rw [e1, parseval, ← S_cx_mul]
    push_cast
    congr 2
    exact S_congr fun i j => (sq (f i j)).symm
  exact_mod_cast key

theorem energy_N_ofField (f : Fld h w) :
    get_energy_N_spectrally (ofField f) = .ok (avg (fun i j => f i j ^ 2) / 2) := by
  unfold get_energy_N_spectrally get_energy_N_ky
  rw [fft2Ortho_ofField]
  simp only [Py.ok_bind, Py.pure_eq, map_ofField]
  rw [mean1_meanLast]
  congr 1
  unfold avg
  have : (S fun k l => ‖D (cx f) k l / ((Real.sqrt ((h : ℝ) * (w : ℝ)) : ℝ) : ℂ)‖ ^ 2 / 2)
      = S (fun i j => f i j ^ 2) / 2 := by
    rw [S_div]
    simp only [norm_sq_ortho]
    rw [S_div, parseval_sq, mul_div_cancel_left₀ _ card_ne]
  rw [this]; ring

/-! ### kinetic energy -/

theorem fftfreqD_wave (n : ℕ) [NeZero n] (dx : ℝ) {i : ℕ} (hi : i < n) :
    fftfreqD n dx i * 2 * Real.pi = 2 * Real.pi * kap (i : ZMod n) / dx := by
  rw [kap_cast hi]
  unfold fftfreqD fftfreq
  rw [← div_div]; ring

theorem energy_V_ofField {n : ℕ} [NeZero n] (p : Fld n n) (dx : ℝ) :
    get_energy_V_spectrally (ofField p) dx
      = .ok (avg (fun k l => -lamb k l / dx ^ 2 * ‖D (cx p) k l‖ ^ 2) / ((n : ℝ) * n) / 2) := by
  unfold get_energy_V_spectrally get_energy_V_ky
  rw [fft2Ortho_ofField]
  simp only [Py.ok_bind, Py.pure_eq]
  have e1 : (.ok ((meshKy (ofField p).h (ofField p).w dx).map (· ^ 2))
      + .ok ((meshKx (ofField p).h (ofField p).w dx).map (· ^ 2)) : Py (Arr ℝ))
      = .ok (ofField fun (k : ZMod n) (l : ZMod n) => -lamb k l / dx ^ 2) := by
    unfold meshKy meshKx
    simp only [ofField_h, ofField_w, map_tab, ok_add]
    congr 1
    refine tab_congr rfl rfl fun i j hi hj => ?_
    rw [fftfreqD_wave n dx hi, fftfreqD_wave n dx hj]
    unfold lamb; ring
  rw [e1]
  simp only [Py.ok_bind, map_ofField]
  rw [toComplex_ofField]
  have e2 : ∀ (f g k : ZMod n → ZMod n → ℂ), (.ok (ofField f) * .ok (ofField g) * .ok (ofField k) : Py (Arr ℂ))
      = .ok (ofField fun i j => f i j * g i j * k i j) := by
    intro f g k
    change (.ok (tab n n _) * .ok (tab n n _) * .ok (tab n n _) : Py (Arr ℂ)) = _
    rw [ok_mul, ok_mul]; rfl
  rw [e2]
  simp only [Py.ok_bind, map_ofField]
  rw [mean1_meanLast]
  congr 1
  unfold avg
  have : (S fun k l => ‖((-lamb k l / dx ^ 2 : ℝ) : ℂ) * (D (cx p) k l / ((Real.sqrt ((n : ℝ) * n) : ℝ) : ℂ))
      * conj (D (cx p) k l / ((Real.sqrt ((n : ℝ) * n) : ℝ) : ℂ))‖ / 2)
      = S (fun k l => -lamb k l / dx ^ 2 * ‖D (cx p) k l‖ ^ 2) / ((n : ℝ) * n) / 2 := by
    rw [← S_div, ← S_div]
    refine S_congr fun k l => ?_
    rw [mul_assoc, norm_mul, norm_mul, RCLike.norm_conj, ← sq, norm_sq_ortho, norm_real, Real.norm_eq_abs,
      abs_of_nonneg (div_nonneg (neg_nonneg.mpr (lamb_nonpos k l)) (sq_nonneg dx))]
    ring
  rw [this]; ring

/-- kinetic spectral energy of a potential -/
theorem energy_V_phi {n : ℕ} [NeZero n] (o : Fld n n) {dx : ℝ} (hdx : dx ≠ 0) :
    avg (fun k l => -lamb k l / dx ^ 2 * ‖D (cx (phiF dx o)) k l‖ ^ 2) / ((n : ℝ) * n) / 2
      = -avg (fun i j => phiF dx o i j * o i j) / 2 := by
  have e := phiF_form dx o
  have e1 : S (fun k l => -lamb k l / dx ^ 2 * ‖D (cx (phiF dx o)) k l‖ ^ 2)
      = -(dx ^ 2 * S fun k l => sig 1 k l * ‖D (cx o) k l‖ ^ 2) := by
    rw [← S_mul_left, ← S_neg]
    refine S_congr fun k l => ?_
    rw [D_phiF, norm_mul, norm_real, Real.norm_eq_abs, mul_pow, sq_abs]
    by_cases h0 : k = 0 ∧ l = 0
    · simp [sig, h0]
    · have hl : lamb k l ≠ 0 := fun e => h0 ((lamb_eq_zero k l).mp e)
      unfold sig
      rw [if_neg h0, pow_one]
      field_simp
  unfold avg
  rw [e1, ← e]
  have hn := card_ne (h := n) (w := n)
  have : S (fun i j => phiF dx o i j * o i j) = S (fun i j => o i j * phiF dx o i j) :=
    S_congr fun i j => mul_comm _ _
  rw [this]
  field_simp

/-! ### finite-difference energy -/

theorem energy_ofField (n p : Fld h w) (dx : ℝ) : get_energy (ofField n) (ofField p) dx
    = .ok (avg (fun i j => n i j ^ 2 + (gradX dx p i j ^ 2 + gradY dx p i j ^ 2)) / 2) := by
  unfold get_energy
  simp only [gradient_m1, gradient_m2, Py.ok_bind, map_ofField, add_ofField, mean_ofField', Py.pure_eq]

theorem enstrophy_ofField (n o : Fld h w) (dx : ℝ) : get_enstrophy (ofField n) (ofField o) dx
    = .ok (avg (fun i j => (n i j - o i j) ^ 2) / 2) := by
  unfold get_enstrophy
  simp only [sub_ofField, Py.ok_bind, map_ofField, mean_ofField', Py.pure_eq]

theorem enstrophy_phi_ofField (n p : Fld h w) (dx : ℝ) : get_enstrophy_phi (ofField n) (ofField p) dx
    = .ok (avg (fun i j => (n i j - (lap dx p i j - avg (lap dx p))) ^ 2) / 2) := by
  unfold get_enstrophy_phi
  simp only [numpy_periodic_laplace_N_ofField, sub_ofField, Py.ok_bind, map_ofField, mean_ofField', Py.pure_eq,
    Function.iterate_one]

/-- `ec` in terms of the signed frequency -/
theorem ec_kap {n : ℕ} [NeZero n] (k : ZMod n) : ec k = exp (I * ((2 * Real.pi * kap k : ℝ) : ℂ)) := by
  have hk := ZMod.val_lt k
  have h1 : ((fftfreqInt n k.val : ℤ) : ZMod n) = k := by
    rw [fftfreqInt_eq hk]
    split <;> simp
  conv_lhs => rw [← h1]
  change ZMod.stdAddChar _ = _
  rw [ZMod.stdAddChar_coe]
  congr 1
  unfold kap fftfreq
  push_cast
  ring

theorem norm_ec_sub {n : ℕ} [NeZero n] (k : ZMod n) : ‖ec k - ec (-k)‖ ≤ 2 * |2 * Real.pi * kap k| := by
  rw [← ec_conj, ec_kap]
  set t : ℝ := 2 * Real.pi * kap k
  have e : conj (exp (I * (t : ℂ))) = exp (-(I * (t : ℂ))) := by
    rw [← exp_conj]; congr 1; simp
  have e2 : exp (I * (t : ℂ)) - conj (exp (I * (t : ℂ))) = 2 * I * ((Real.sin t : ℝ) : ℂ) := by
    rw [e, ofReal_sin, Complex.sin, mul_comm I (t : ℂ), ← neg_mul]
    ring_nf
    rw [I_sq]; ring
  rw [e2, norm_mul, norm_mul, norm_I, norm_real, Real.norm_eq_abs]
  have := Real.abs_sin_le_abs (x := t)
  norm_num
  linarith

theorem D_gradY (dx : ℝ) (f : Fld h w) (k : ZMod h) (l : ZMod w) :
    D (cx (gradY dx f)) k l = (ec k - ec (-k)) / ((2 * dx : ℝ) : ℂ) * D (cx f) k l := by
  have e : cx (gradY dx f) = fun i j =>
      (1 / ((2 * dx : ℝ) : ℂ)) * (shift (-1) 0 (cx f) i j - shift 1 0 (cx f) i j) := by
    funext i j
    change ((gradY dx f i j : ℝ) : ℂ) = _
    simp only [gradY, shift, sub_neg_eq_add, sub_zero, cx]
    push_cast; ring
  rw [e, D_smul, D_sub]
  beta_reduce
  rw [D_shift, D_shift]
  simp only [mul_neg, mul_one, neg_neg, mul_zero, neg_zero, ec_zero]
  ring

theorem D_gradX (dx : ℝ) (f : Fld h w) (k : ZMod h) (l : ZMod w) :
    D (cx (gradX dx f)) k l = (ec l - ec (-l)) / ((2 * dx : ℝ) : ℂ) * D (cx f) k l := by
  have e : cx (gradX dx f) = fun i j =>
      (1 / ((2 * dx : ℝ) : ℂ)) * (shift 0 (-1) (cx f) i j - shift 0 1 (cx f) i j) := by
    funext i j
    change ((gradX dx f i j : ℝ) : ℂ) = _
    simp only [gradX, shift, sub_neg_eq_add, sub_zero, cx]
    push_cast; ring
  rw [e, D_smul, D_sub]
  beta_reduce
  rw [D_shift, D_shift]
  simp only [mul_neg, mul_one, neg_neg, mul_zero, neg_zero, ec_zero]
  ring

theorem fd_symbol_le {n : ℕ} [NeZero n] (dx : ℝ) (k : ZMod n) (z : ℂ) :
    ‖(ec k - ec (-k)) / ((2 * dx : ℝ) : ℂ) * z‖ ^ 2 ≤ (2 * Real.pi * kap k) ^ 2 / dx ^ 2 * ‖z‖ ^ 2 := by
  rw [norm_mul, norm_div, mul_pow, div_pow, norm_real, Real.norm_eq_abs, sq_abs]
  have h1 := norm_ec_sub k
  have h2 : ‖ec k - ec (-k)‖ ^ 2 ≤ (2 * |2 * Real.pi * kap k|) ^ 2 :=
    pow_le_pow_left₀ (norm_nonneg _) h1 2
  rw [mul_pow, sq_abs] at h2
  refine mul_le_mul_of_nonneg_right ?_ (sq_nonneg _)
  rw [mul_pow]
  have h3 : (2 * Real.pi * kap k) ^ 2 / dx ^ 2 = 2 ^ 2 * (2 * Real.pi * kap k) ^ 2 / (2 ^ 2 * dx ^ 2) := by
    rw [mul_div_mul_left]; norm_num
  rw [h3]
  exact div_le_div_of_nonneg_right h2 (by positivity)

theorem S_le {f g : Fld h w} (hfg : ∀ i j, f i j ≤ g i j) : S f ≤ S g :=
  Finset.sum_le_sum fun i _ => Finset.sum_le_sum fun j _ => hfg i j

theorem grad_sq_le (dx : ℝ) (p : Fld h w) :
    S (fun i j => gradX dx p i j ^ 2 + gradY dx p i j ^ 2)
      ≤ S (fun k l => -lamb k l / dx ^ 2 * ‖D (cx p) k l‖ ^ 2) / ((h : ℝ) * (w : ℝ)) := by
  rw [le_div_iff₀ hw_pos, mul_comm, S_add, mul_add, ← parseval_sq, ← parseval_sq, ← S_add]
  refine S_le fun k l => ?_
  rw [D_gradX, D_gradY]
  have := fd_symbol_le dx k (D (cx p) k l)
  have := fd_symbol_le dx l (D (cx p) k l)
  have e : -lamb k l / dx ^ 2 * ‖D (cx p) k l‖ ^ 2
      = (2 * Real.pi * kap l) ^ 2 / dx ^ 2 * ‖D (cx p) k l‖ ^ 2
        + (2 * Real.pi * kap k) ^ 2 / dx ^ 2 * ‖D (cx p) k l‖ ^ 2 := by
    unfold lamb; ring
  linarith

/-! ### spectral particle flux -/

/-- summand of the spectral flux -/
noncomputable def fluxK {n : ℕ} [NeZero n] (dx : ℝ) (a p : Fld n n) : Fld n n := fun k l =>
  (D (cx a) k l * I * ((2 * Real.pi * kap k / dx : ℝ) : ℂ) * conj (D (cx p) k l)).re / ((n : ℝ) * n)

theorem gamma_n_spectral_ofField {n : ℕ} [NeZero n] (a p : Fld n n) (dx : ℝ) :
    get_gamma_n_spectrally (ofField a) (ofField p) dx
      = .ok ((∑ k ∈ Finset.range (n / 2), rowSum (fluxK dx a p) (k : ZMod n) / (n : ℝ)) / ((n / 2 : ℕ) : ℝ)) := by
  unfold get_gamma_n_spectrally get_gamma_n_ky
  rw [fft2Ortho_ofField, fft2Ortho_ofField]
  simp only [Py.ok_bind, Py.pure_eq]
  have e1 : meshKy (ofField a).h (ofField a).w dx = ofField fun (k : ZMod n) (_ : ZMod n) => 2 * Real.pi * kap k / dx := by
    unfold meshKy
    exact tab_congr rfl rfl fun i j hi hj => fftfreqD_wave n dx hi
  rw [e1, map_ofField, map_ofField, toComplex_ofField]
  have e2 : ∀ (f g k : ZMod n → ZMod n → ℂ), (.ok (ofField f) * .ok (ofField g) * .ok (ofField k) : Py (Arr ℂ))
      = .ok (ofField fun i j => f i j * g i j * k i j) := by
    intro f g k
    change (.ok (tab n n _) * .ok (tab n n _) * .ok (tab n n _) : Py (Arr ℂ)) = _
    rw [ok_mul, ok_mul]; rfl
  rw [e2]
  simp only [Py.ok_bind]
  rw [real_ofField, meanLast_ofField]
  have hle : n / 2 ≤ n := Nat.div_le_self _ _
  unfold mean1
  simp only [ofField_h, ← List.map_take, List.take_range, Nat.min_eq_left hle, List.length_map, List.length_range]
  rw [sum_map_range]
  congr 2
  refine Finset.sum_congr rfl fun k _ => ?_
  congr 2
  funext i j
  unfold fluxK
  have hs : ((Real.sqrt ((n : ℝ) * n) : ℝ) : ℂ) * ((Real.sqrt ((n : ℝ) * n) : ℝ) : ℂ) = (((n : ℝ) * n : ℝ) : ℂ) := by
    rw [← ofReal_mul, Real.mul_self_sqrt hw_pos.le]
  rw [map_div₀, conj_ofReal]
  have : D (cx a) i j / ((Real.sqrt ((n : ℝ) * n) : ℝ) : ℂ) * I * ((2 * Real.pi * kap i / dx : ℝ) : ℂ)
      * (conj (D (cx p) i j) / ((Real.sqrt ((n : ℝ) * n) : ℝ) : ℂ))
      = (D (cx a) i j * I * ((2 * Real.pi * kap i / dx : ℝ) : ℂ) * conj (D (cx p) i j)) / (((n : ℝ) * n : ℝ) : ℂ) := by
    rw [← hs]; ring
  rw [this, div_ofReal_re]

theorem half_sum (r : ℕ → ℝ) (m : ℕ) (hm : 1 ≤ m) (r0 : r 0 = 0) (rm : r m = 0)
    (hr : ∀ k, 0 < k → k < 2 * m → r (2 * m - k) = r k) :
    ∑ k ∈ Finset.range (2 * m), r k = 2 * ∑ k ∈ Finset.range m, r k := by
  obtain ⟨m, rfl⟩ : ∃ q, m = q + 1 := ⟨m - 1, by omega⟩
  rw [two_mul (m + 1), Finset.sum_range_add, two_mul]
  congr 1
  rw [Finset.sum_range_succ' (fun x => r (m + 1 + x)), Finset.sum_range_succ' r]
  rw [add_zero, rm, r0, add_zero, add_zero, ← Finset.sum_range_reflect (fun k => r (k + 1))]
  refine Finset.sum_congr rfl fun k hk => ?_
  rw [Finset.mem_range] at hk
  have := hr (m + 1 + (k + 1)) (by omega) (by omega)
  rw [← this]
  congr 1
  omega

theorem kap_neg {n : ℕ} [NeZero n] (k : ZMod n) (hk : 2 * k.val ≠ n) : kap (-k) = -kap k := by
  unfold kap fftfreq
  rcases fftfreqInt_neg k with e | e
  · rw [e]; push_cast; ring
  · have h0 : k.val = 0 := by
      by_contra h0
      have : NeZero k := ⟨fun e => h0 ((ZMod.val_eq_zero k).mpr e)⟩
      have h1 : (-k).val = n - k.val := ZMod.val_neg_of_ne_zero k
      have h2 := ZMod.val_lt k
      rw [e] at h1
      omega
    rw [e]
    have : k = 0 := (ZMod.val_eq_zero k).mp h0
    rw [this]
    simp [fftfreqInt]

theorem rowSum_fluxK_neg {n : ℕ} [NeZero n] (dx : ℝ) (a p : Fld n n) (k : ZMod n) (hk : 2 * k.val ≠ n) :
    rowSum (fluxK dx a p) (-k) = rowSum (fluxK dx a p) k := by
  unfold rowSum
  rw [← Equiv.sum_comp (Equiv.neg (ZMod n))]
  refine Finset.sum_congr rfl fun l _ => ?_
  simp only [Equiv.neg_apply, fluxK]
  rw [D_real_symm, D_real_symm, kap_neg k hk]
  congr 1
  rw [conj_conj, ← conj_re]
  congr 1
  rw [map_mul, map_mul, map_mul, conj_conj, conj_I, conj_ofReal]
  push_cast
  ring

/-- the spectral flux is the physical flux with the spectral derivative -/
theorem flux_total {n : ℕ} [NeZero n] (dx : ℝ) (a p g : Fld n n)
    (hg : ∀ k l, D (cx g) k l = if 2 * k.val = n then 0
      else I * ((2 * Real.pi * kap k / dx : ℝ) : ℂ) * D (cx p) k l) :
    ∑ k : ZMod n, (if 2 * k.val = n then 0 else rowSum (fluxK dx a p) k)
      = -S fun i j => a i j * g i j := by
  have e1 : ((n : ℂ) * (n : ℂ)) * ((S fun i j => a i j * g i j : ℝ) : ℂ)
      = S fun k l => D (cx a) k l * conj (D (cx g) k l) := by
    rw [S_cx_mul, parseval]
  have e2 := congrArg Complex.re e1
  have e3 : (((n : ℂ) * (n : ℂ)) * ((S fun i j => a i j * g i j : ℝ) : ℂ)).re
      = (n : ℝ) * n * S fun i j => a i j * g i j := by
    rw [← ofReal_re ((n : ℝ) * n * S fun i j => a i j * g i j)]
    congr 1; push_cast; rfl
  rw [e3] at e2
  have e4 : (S fun k l => D (cx a) k l * conj (D (cx g) k l)).re
      = -((n : ℝ) * n * ∑ k : ZMod n, (if 2 * k.val = n then 0 else rowSum (fluxK dx a p) k)) := by
    unfold S
    rw [Complex.re_sum, Finset.mul_sum, ← Finset.sum_neg_distrib]
    refine Finset.sum_congr rfl fun k _ => ?_
    rw [Complex.re_sum]
    by_cases hk : 2 * k.val = n
    · rw [if_pos hk, mul_zero, neg_zero]
      refine Finset.sum_eq_zero fun l _ => ?_
      beta_reduce
      rw [hg, if_pos hk]; simp
    · rw [if_neg hk]
      unfold rowSum
      rw [Finset.mul_sum, ← Finset.sum_neg_distrib]
      refine Finset.sum_congr rfl fun l _ => ?_
      beta_reduce
      rw [hg, if_neg hk]
      unfold fluxK
      rw [mul_div_cancel₀ _ card_ne, map_mul, map_mul, conj_I, conj_ofReal, ← neg_re]
      congr 1; ring
  rw [e4] at e2
  have hn := card_ne (h := n) (w := n)
  have : (n : ℝ) * n * (S (fun i j => a i j * g i j)
      + ∑ k : ZMod n, (if 2 * k.val = n then 0 else rowSum (fluxK dx a p) k)) = 0 := by
    rw [mul_add, e2]; ring
  rcases mul_eq_zero.mp this with h1 | h1
  · exact absurd h1 hn
  · linarith

theorem gamma_n_spectral_even {n : ℕ} [NeZero n] (a p g : Fld n n) (dx : ℝ) (m : ℕ) (hm : n = 2 * m)
    (hg : ∀ k l, D (cx g) k l = if 2 * k.val = n then 0
      else I * ((2 * Real.pi * kap k / dx : ℝ) : ℂ) * D (cx p) k l) :
    (∑ k ∈ Finset.range (n / 2), rowSum (fluxK dx a p) (k : ZMod n) / (n : ℝ)) / ((n / 2 : ℕ) : ℝ)
      = -avg fun i j => a i j * g i j := by
  have hn0 := NeZero.pos n
  have hm1 : 1 ≤ m := by omega
  have hval : ∀ k, k < n → ((k : ZMod n)).val = k := fun k hk => by
    rw [ZMod.val_natCast, Nat.mod_eq_of_lt hk]
  set r : ℕ → ℝ := fun k => if 2 * (k : ZMod n).val = n then 0 else rowSum (fluxK dx a p) (k : ZMod n)
  have e1 : ∑ k ∈ Finset.range n, r k = -S fun i j => a i j * g i j := by
    rw [← flux_total dx a p g hg, ← sum_range_zmod]
  have e2 : ∑ k ∈ Finset.range n, r k = 2 * ∑ k ∈ Finset.range m, r k := by
    conv_lhs => rw [hm]
    refine half_sum r m hm1 ?_ ?_ ?_
    · change (if _ then _ else _) = _
      rw [if_neg (by simp; omega)]
      unfold rowSum
      refine Finset.sum_eq_zero fun l _ => ?_
      unfold fluxK
      rw [Nat.cast_zero, (kap_eq_zero _).mpr rfl]; simp
    · change (if _ then _ else _) = _
      rw [if_pos (by rw [hval m (by omega)]; exact hm.symm)]
    · intro k k0 k1
      have hc : ((2 * m - k : ℕ) : ZMod n) = -(k : ZMod n) := by
        rw [Nat.cast_sub (by omega), ← hm]; simp
      have hv1 : ((k : ZMod n)).val = k := hval k (by omega)
      change (if _ then _ else _) = (if _ then _ else _)
      rw [hv1, hval (2 * m - k) (by omega)]
      by_cases hk : 2 * k = n
      · rw [if_pos hk, if_pos (by omega)]
      · rw [if_neg hk, if_neg (by omega), hc, rowSum_fluxK_neg]
        rw [hv1]; exact hk
  have e3 : ∑ k ∈ Finset.range (n / 2), rowSum (fluxK dx a p) (k : ZMod n) / (n : ℝ)
      = (∑ k ∈ Finset.range m, r k) / n := by
    rw [Finset.sum_div, show n / 2 = m by omega]
    refine Finset.sum_congr rfl fun k hk => ?_
    rw [Finset.mem_range] at hk
    change _ = (if _ then _ else _) / _
    rw [if_neg]
    rw [hval k (by omega)]; omega
  rw [e3, show n / 2 = m by omega]
  have e4 : ∑ k ∈ Finset.range m, r k = -(S fun i j => a i j * g i j) / 2 := by linarith
  rw [e4]
  unfold avg
  have : (n : ℝ) = 2 * m := by rw [hm]; push_cast; ring
  have hn : (n : ℝ) ≠ 0 := Nat.cast_ne_zero.mpr (NeZero.ne n)
  have hm0 : (m : ℝ) ≠ 0 := Nat.cast_ne_zero.mpr (by omega)
  rw [this]
  field_simp

theorem isDy_iff {F G : ℕ → ℕ → ℝ} {f g : Fld h w} {dx : ℝ}
    (eF : ∀ i j, i < h → j < w → F i j = f i j) (eG : ∀ i j, i < h → j < w → G i j = g i j) :
    IsDy h w dx F G ↔ ∀ k l, D (cx g) k l = if 2 * k.val = h then 0
      else I * ((2 * Real.pi * kap k / dx : ℝ) : ℂ) * D (cx f) k l := by
  unfold IsDy
  constructor
  · intro H k l
    have := H k.val (ZMod.val_lt k) l.val (ZMod.val_lt l)
    rw [spec_coef_of eF, spec_coef_of eG, wave_eq dx (ZMod.val_lt k)] at this
    simpa using this
  · intro H k hk l hl
    rw [spec_coef_of eF, spec_coef_of eG, wave_eq dx hk]
    have := H k l
    rw [ZMod.val_natCast, Nat.mod_eq_of_lt hk] at this
    exact this

/-- the spectral y-derivative exists as a real field -/
theorem exists_dy (f : Fld h w) (dx : ℝ) : ∃ g : Fld h w, ∀ k l, D (cx g) k l = if 2 * k.val = h then 0
      else I * ((2 * Real.pi * kap k / dx : ℝ) : ℂ) * D (cx f) k l := by
  let G : ZMod h → ZMod w → ℂ := fun k l => if 2 * k.val = h then 0
      else I * ((2 * Real.pi * kap k / dx : ℝ) : ℂ) * D (cx f) k l
  have hG : ∀ k l, G (-k) (-l) = conj (G k l) := by
    intro k l
    have hv : 2 * (-k).val = h ↔ 2 * k.val = h := by
      by_cases h0 : k = 0
      · simp [h0]
      · have : NeZero k := ⟨h0⟩
        rw [ZMod.val_neg_of_ne_zero k]
        have := ZMod.val_lt k
        omega
    change (if _ then _ else _) = conj (if _ then _ else _)
    by_cases hk : 2 * k.val = h
    · rw [if_pos hk, if_pos (hv.mpr hk)]; simp
    · rw [if_neg hk, if_neg (fun e => hk (hv.mp e)), D_real_symm, kap_neg k hk, map_mul, map_mul, conj_I,
        conj_ofReal]
      push_cast; ring
  refine ⟨fun i j => (ID G i j).re, fun k l => ?_⟩
  have : (cx fun i j => (ID G i j).re) = ID G := by
    funext i j; exact ID_real_re G hG i j
  rw [this, D_ID]

end Verif
