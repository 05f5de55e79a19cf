import Verif.Lemmas.Run2Props
import Verif.Spec.Properties

/-!
# The values of the property functions, as formulas in the samples
-/

set_option linter.unusedSectionVars false

namespace Verif

open Arr Spec Properties RunProperties Complex
open scoped ComplexConjugate

section ring
variable {h w : ℕ} [NeZero h] [NeZero w]

theorem up_lt (i : ℕ) : up h i < h := Nat.mod_lt _ (NeZero.pos h)
theorem down_lt (i : ℕ) : down h i < h := Nat.mod_lt _ (NeZero.pos h)
theorem cast_up (i : ℕ) : ((up h i : ℕ) : ZMod h) = i + 1 := by
  unfold up; rw [ZMod.natCast_mod]; push_cast; rfl
theorem cast_down (i : ℕ) : ((down h i : ℕ) : ZMod h) = i - 1 := by
  unfold down; rw [ZMod.natCast_mod, Nat.cast_add, Nat.cast_sub (NeZero.pos h)]; simp [sub_eq_add_neg]

theorem diffY_ofField (dx : ℝ) (f : Fld h w) {i j : ℕ} (hj : j < w) :
    diffY h dx (ofField f).at' i j = gradY dx f i j := by
  unfold diffY gradY
  rw [ofField_at' f (up_lt i) hj, ofField_at' f (down_lt i) hj, cast_up, cast_down]; norm_num

theorem diffX_ofField (dx : ℝ) (f : Fld h w) {i j : ℕ} (hi : i < h) :
    diffX w dx (ofField f).at' i j = gradX dx f i j := by
  unfold diffX gradX
  rw [ofField_at' f hi (up_lt j), ofField_at' f hi (down_lt j), cast_up, cast_down]; norm_num

theorem lap5_ofField (dx : ℝ) (f : Fld h w) {i j : ℕ} (hi : i < h) (hj : j < w) :
    lap5 h w dx (ofField f).at' i j = lap dx f i j := by
  unfold lap5 lap
  rw [ofField_at' f hi (up_lt j), ofField_at' f hi (down_lt j), ofField_at' f (up_lt i) hj,
    ofField_at' f (down_lt i) hj, ofField_at' f hi hj, cast_up, cast_down, cast_up, cast_down]
  push_cast; ring

/-- samples as a field -/
theorem samples (d : ℕ → ℕ → ℝ) (i j : ℕ) (hi : i < h) (hj : j < w) :
    d i j = (fun (a : ZMod h) (b : ZMod w) => d a.val b.val) i j := by
  simp only [ZMod.val_natCast, Nat.mod_eq_of_lt hi, Nat.mod_eq_of_lt hj]

/-- the spectral Laplacian exists as a real field -/
theorem exists_laplacian (f : Fld h w) (dx : ℝ) :
    ∃ g : Fld h w, ∀ k l, D (cx g) k l = ((lamb k l / dx ^ 2 : ℝ) : ℂ) * D (cx f) k l :=
  ⟨mult (fun k l => lamb k l / dx ^ 2) f, fun k l => by rw [D_mult _ fun k l => by rw [lamb_neg]]⟩

end ring

section square
variable {n : ℕ} [NeZero n]

theorem energy_V_laplacian (p g : Fld n n) (dx : ℝ)
    (hg : ∀ k l, D (cx g) k l = ((lamb k l / dx ^ 2 : ℝ) : ℂ) * D (cx p) k l) :
    avg (fun k l => -lamb k l / dx ^ 2 * ‖D (cx p) k l‖ ^ 2) / ((n : ℝ) * n) / 2
      = -avg (fun i j => p i j * g i j) / 2 := by
  have e1 : ((n : ℂ) * (n : ℂ)) * ((S fun i j => p i j * g i j : ℝ) : ℂ)
      = S fun k l => D (cx p) k l * conj (D (cx g) k l) := by
    rw [S_cx_mul, parseval]
  have e2 : (S fun k l => D (cx p) k l * conj (D (cx g) k l))
      = ((-(S fun k l => -lamb k l / dx ^ 2 * ‖D (cx p) k l‖ ^ 2) : ℝ) : ℂ) := by
    rw [← S_neg]
    unfold S
    push_cast
    refine Finset.sum_congr rfl fun k _ => Finset.sum_congr rfl fun l _ => ?_
    rw [hg, map_mul, conj_ofReal]
    have : D (cx p) k l * conj (D (cx p) k l) = ((‖D (cx p) k l‖ : ℝ) : ℂ) ^ 2 := by
      rw [mul_conj, normSq_eq_norm_sq]; push_cast; rfl
    calc _ = ((lamb k l / dx ^ 2 : ℝ) : ℂ) * (D (cx p) k l * conj (D (cx p) k l)) := by ring
      _ = _ := by rw [this]; push_cast; ring
  have e3 : (n : ℝ) * n * (S fun i j => p i j * g i j) = -(S fun k l => -lamb k l / dx ^ 2 * ‖D (cx p) k l‖ ^ 2) := by
    have := e1.trans e2
    exact_mod_cast this
  have hn := card_ne (h := n) (w := n)
  have e4 : (S fun k l => -lamb k l / dx ^ 2 * ‖D (cx p) k l‖ ^ 2) = -((n : ℝ) * n * S fun i j => p i j * g i j) := by
    linarith
  unfold avg
  rw [e4]
  field_simp

theorem half_sum' (r : ℕ → ℝ) (N : ℕ) (r0 : r 0 = 0) (rc : ∀ k, k < N → N ≤ 2 * k + 1 → 2 * k ≤ N + 1 → r k = 0)
    (hr : ∀ k, 0 < k → k < N → r (N - k) = r k) :
    ∑ k ∈ Finset.range N, r k = 2 * ∑ k ∈ Finset.range (N / 2), r k := by
  rcases Nat.even_or_odd' N with ⟨m, rfl | rfl⟩
  · rcases Nat.eq_zero_or_pos m with rfl | hm
    · simp
    rw [half_sum r m hm r0 (rc m (by omega) (by omega) (by omega)) hr, show 2 * m / 2 = m by omega]
  · rw [show (2 * m + 1) / 2 = m by omega, show 2 * m + 1 = (m + 1) + m by omega, Finset.sum_range_add,
      Finset.sum_range_succ, rc m (by omega) (by omega) (by omega), add_zero, two_mul]
    congr 1
    have : ∑ k ∈ Finset.range m, r (m + 1 + k) = ∑ k ∈ Finset.range m, r (k + 1) := by
      rw [← Finset.sum_range_reflect (fun k => r (k + 1))]
      refine Finset.sum_congr rfl fun k hk => ?_
      rw [Finset.mem_range] at hk
      rw [← hr (m + 1 + k) (by omega) (by omega)]
      congr 1; omega
    rw [this]
    have h1 := Finset.sum_range_succ r m
    have h2 := Finset.sum_range_succ' r m
    rw [r0, add_zero] at h2
    rw [rc m (by omega) (by omega) (by omega), add_zero] at h1
    rw [← h2, h1]

/-- the modes the half spectrum does not see -/
def Cut (k : ZMod n) : Prop := n ≤ 2 * k.val + 1 ∧ 2 * k.val ≤ n + 1

instance (k : ZMod n) : Decidable (Cut k) := inferInstanceAs (Decidable (_ ∧ _))

/-- the flux of the modes that are not cut off -/
theorem flux_cut (dx : ℝ) (a p g : Fld n n)
    (hg : ∀ k l, D (cx g) k l = if Cut k then 0 else I * ((2 * Real.pi * kap k / dx : ℝ) : ℂ) * D (cx p) k l) :
    ∑ k : ZMod n, (if Cut k then 0 else rowSum (fluxK dx a p) k) = -S fun i j => a i j * g i j := by
  have e1 : ((n : ℂ) * (n : ℂ)) * ((S fun i j => a i j * g i j : ℝ) : ℂ)
      = S fun k l => D (cx a) k l * conj (D (cx g) k l) := by
    rw [S_cx_mul, parseval]
  have e2 := congrArg Complex.re e1
  have e3 : (((n : ℂ) * (n : ℂ)) * ((S fun i j => a i j * g i j : ℝ) : ℂ)).re
      = (n : ℝ) * n * S fun i j => a i j * g i j := by
    rw [← ofReal_re ((n : ℝ) * n * S fun i j => a i j * g i j)]
    congr 1; push_cast; rfl
  rw [e3] at e2
  have e4 : (S fun k l => D (cx a) k l * conj (D (cx g) k l)).re
      = -((n : ℝ) * n * ∑ k : ZMod n, (if Cut k then 0 else rowSum (fluxK dx a p) k)) := by
    unfold S
    rw [Complex.re_sum, Finset.mul_sum, ← Finset.sum_neg_distrib]
    refine Finset.sum_congr rfl fun k _ => ?_
    rw [Complex.re_sum]
    by_cases hk : Cut k
    · rw [if_pos hk, mul_zero, neg_zero]
      refine Finset.sum_eq_zero fun l _ => ?_
      beta_reduce
      rw [hg, if_pos hk]; simp
    · rw [if_neg hk]
      unfold rowSum
      rw [Finset.mul_sum, ← Finset.sum_neg_distrib]
      refine Finset.sum_congr rfl fun l _ => ?_
      beta_reduce
      rw [hg, if_neg hk]
      unfold fluxK
      rw [mul_div_cancel₀ _ card_ne, map_mul, map_mul, conj_I, conj_ofReal, ← neg_re]
      congr 1; ring
  rw [e4] at e2
  have hn := card_ne (h := n) (w := n)
  have : (n : ℝ) * n * (S (fun i j => a i j * g i j)
      + ∑ k : ZMod n, (if Cut k then 0 else rowSum (fluxK dx a p) k)) = 0 := by
    rw [mul_add, e2]; ring
  rcases mul_eq_zero.mp this with h1 | h1
  · exact absurd h1 hn
  · linarith

theorem cut_neg (k : ZMod n) : Cut (-k) ↔ Cut k := by
  by_cases h0 : k = 0
  · simp [h0]
  · have : NeZero k := ⟨h0⟩
    unfold Cut
    rw [ZMod.val_neg_of_ne_zero k]
    have := ZMod.val_lt k
    omega

theorem gamma_n_spectral_cut (h2 : 2 ≤ n) (a p g : Fld n n) (dx : ℝ)
    (hg : ∀ k l, D (cx g) k l = if Cut k then 0 else I * ((2 * Real.pi * kap k / dx : ℝ) : ℂ) * D (cx p) k l) :
    (∑ k ∈ Finset.range (n / 2), rowSum (fluxK dx a p) (k : ZMod n) / (n : ℝ)) / ((n / 2 : ℕ) : ℝ)
      = -((n : ℝ) / (2 * (n / 2 : ℕ)) * avg fun i j => a i j * g i j) := by
  have hval : ∀ k, k < n → ((k : ZMod n)).val = k := fun k hk => by
    rw [ZMod.val_natCast, Nat.mod_eq_of_lt hk]
  set r : ℕ → ℝ := fun k => if Cut (k : ZMod n) then 0 else rowSum (fluxK dx a p) (k : ZMod n) with hrdef
  have e1 : ∑ k ∈ Finset.range n, r k = -S fun i j => a i j * g i j := by
    rw [← flux_cut dx a p g hg, ← sum_range_zmod]
  have e2 : ∑ k ∈ Finset.range n, r k = 2 * ∑ k ∈ Finset.range (n / 2), r k := by
    refine half_sum' r n ?_ ?_ ?_
    · simp only [hrdef]
      split
      · rfl
      · unfold rowSum
        refine Finset.sum_eq_zero fun l _ => ?_
        unfold fluxK
        rw [Nat.cast_zero, (kap_eq_zero _).mpr rfl]; simp
    · intro k h1 h2 h3
      simp only [hrdef]
      rw [if_pos]
      unfold Cut
      rw [hval k h1]
      exact ⟨h2, h3⟩
    · intro k k0 k1
      have hc : ((n - k : ℕ) : ZMod n) = -(k : ZMod n) := by
        rw [Nat.cast_sub (by omega)]; simp
      simp only [hrdef, hc, cut_neg]
      by_cases hk : Cut (k : ZMod n)
      · rw [if_pos hk, if_pos hk]
      · rw [if_neg hk, if_neg hk, rowSum_fluxK_neg]
        unfold Cut at hk
        rw [hval k k1] at hk ⊢
        omega
  have e3 : ∑ k ∈ Finset.range (n / 2), rowSum (fluxK dx a p) (k : ZMod n) / (n : ℝ)
      = (∑ k ∈ Finset.range (n / 2), r k) / n := by
    rw [Finset.sum_div]
    refine Finset.sum_congr rfl fun k hk => ?_
    rw [Finset.mem_range] at hk
    simp only [hrdef]
    rw [if_neg]
    unfold Cut
    rw [hval k (by omega)]; omega
  rw [e3]
  have e4 : ∑ k ∈ Finset.range (n / 2), r k = -(S fun i j => a i j * g i j) / 2 := by linarith
  rw [e4]
  unfold avg
  have hn : (n : ℝ) ≠ 0 := Nat.cast_ne_zero.mpr (NeZero.ne n)
  have hm0 : ((n / 2 : ℕ) : ℝ) ≠ 0 := Nat.cast_ne_zero.mpr (by omega)
  field_simp

theorem isDyLow_iff {F G : ℕ → ℕ → ℝ} {f g : Fld n n} {dx : ℝ}
    (eF : ∀ i j, i < n → j < n → F i j = f i j) (eG : ∀ i j, i < n → j < n → G i j = g i j) :
    IsDyLow n n dx F G ↔ ∀ k l, D (cx g) k l = if Cut k then 0
      else I * ((2 * Real.pi * kap k / dx : ℝ) : ℂ) * D (cx f) k l := by
  unfold IsDyLow Cut
  constructor
  · intro H k l
    have := H k.val (ZMod.val_lt k) l.val (ZMod.val_lt l)
    rw [spec_coef_of eF, spec_coef_of eG, wave_eq dx (ZMod.val_lt k)] at this
    simpa using this
  · intro H k hk l hl
    rw [spec_coef_of eF, spec_coef_of eG, wave_eq dx hk]
    have := H k l
    simp only [ZMod.val_natCast, Nat.mod_eq_of_lt hk] at this
    exact this

theorem exists_dyLow (f : Fld n n) (dx : ℝ) : ∃ g : Fld n n, ∀ k l, D (cx g) k l = if Cut k then 0
      else I * ((2 * Real.pi * kap k / dx : ℝ) : ℂ) * D (cx f) k l := by
  let G : ZMod n → ZMod n → ℂ := fun k l => if Cut k then 0
      else I * ((2 * Real.pi * kap k / dx : ℝ) : ℂ) * D (cx f) k l
  have hG : ∀ k l, G (-k) (-l) = conj (G k l) := by
    intro k l
    change (if _ then _ else _) = conj (if _ then _ else _)
    by_cases hk : Cut k
    · rw [if_pos hk, if_pos ((cut_neg k).2 hk)]; simp
    · rw [if_neg hk, if_neg (fun e => hk ((cut_neg k).1 e)), D_real_symm, kap_neg k (fun e => hk (by unfold Cut; omega)),
        map_mul, map_mul, conj_I, conj_ofReal]
      push_cast; ring
  refine ⟨fun i j => (ID G i j).re, fun k l => ?_⟩
  have : (cx fun i j => (ID G i j).re) = ID G := by
    funext i j; exact ID_real_re G hG i j
  rw [this, D_ID]

end square

section line
variable {m : ℕ} [NeZero m]

theorem mul_outer (u v : ℕ → ℂ) : (.ok (tab m 1 fun i _ => u i) * .ok (tab 1 m fun _ j => v j) : Py (Arr ℂ))
    = .ok (tab m m fun i j => u i * v j) := by
  change Arr.zip (fun x y : ℂ => x * y) _ _ = _
  unfold Arr.zip
  have e1 : bdim m 1 = some m := by unfold bdim; split_ifs <;> simp_all
  have e2 : bdim 1 m = some m := by unfold bdim; split_ifs <;> simp_all
  simp only [tab_h, tab_w, e1, e2]
  congr 1
  refine tab_congr rfl rfl fun i j hi hj => ?_
  rw [bidx_lt hi, bidx_lt hj, show bidx 1 j = 0 from rfl, show bidx 1 i = 0 from rfl, tab_at' _ _ _ hi one_pos,
    tab_at' _ _ _ one_pos hj]

theorem mul_rows (u : ℕ → ℕ → ℂ) (v : ℕ → ℂ) : (.ok (tab m m u) * .ok (tab 1 m fun _ j => v j) : Py (Arr ℂ))
    = .ok (tab m m fun i j => u i j * v j) := by
  change Arr.zip (fun x y : ℂ => x * y) _ _ = _
  unfold Arr.zip
  have e1 : bdim m 1 = some m := by unfold bdim; split_ifs <;> simp_all
  simp only [tab_h, tab_w, e1, bdim_self]
  congr 1
  refine tab_congr rfl rfl fun i j hi hj => ?_
  rw [bidx_lt hi, bidx_lt hj, show bidx 1 i = 0 from rfl, tab_at' _ _ _ hi hj, tab_at' _ _ _ one_pos hj]

/-- on a single row of points the array of wave numbers and the transform are multiplied to an outer product -/
theorem energy_V_row (p : Fld 1 m) (dx : ℝ) :
    get_energy_V_spectrally (ofField p) dx
      = .ok ((∑ k ∈ Finset.range m, wave m dx k ^ 2) / m * avg (fun i j => p i j ^ 2) / 2) := by
  unfold get_energy_V_spectrally get_energy_V_ky
  rw [fft2Ortho_ofField]
  simp only [Py.ok_bind, Py.pure_eq]
  have e1 : (.ok ((meshKy (ofField p).h (ofField p).w dx).map (· ^ 2))
      + .ok ((meshKx (ofField p).h (ofField p).w dx).map (· ^ 2)) : Py (Arr ℝ))
      = .ok (tab m 1 fun i _ => wave m dx i ^ 2) := by
    unfold meshKy meshKx
    simp only [ofField_h, ofField_w, map_tab, ok_add]
    congr 1
    refine tab_congr rfl rfl fun i j hi hj => ?_
    rw [fftfreqD_wave m dx hi, fftfreqD_wave 1 dx hj, wave_eq dx hi]
    have : kap ((j : ℕ) : ZMod 1) = 0 := (kap_eq_zero _).2 (Subsingleton.elim _ _)
    rw [this]; ring
  rw [e1]
  simp only [Py.ok_bind]
  set q : ℕ → ℂ := fun j => D (cx p) 0 (j : ZMod m) / ((Real.sqrt (((1 : ℕ) : ℝ) * m) : ℝ) : ℂ) with hq
  have e2 : (ofField fun (k : ZMod 1) (l : ZMod m) => D (cx p) k l / ((Real.sqrt (((1 : ℕ) : ℝ) * m) : ℝ) : ℂ))
      = tab 1 m fun _ j => q j := by
    refine tab_congr rfl rfl fun i j hi hj => ?_
    rw [hq]
    beta_reduce
    rw [show ((i : ℕ) : ZMod 1) = 0 from Subsingleton.elim _ _]
  rw [e2, map_tab]
  have e3 : (tab m 1 fun i _ => wave m dx i ^ 2 : Arr ℝ).toComplex = tab m 1 fun i _ => ((wave m dx i ^ 2 : ℝ) : ℂ) := rfl
  rw [e3, mul_outer, mul_rows]
  simp only [Py.ok_bind, map_tab]
  have e4 : (tab m m fun i j => ‖((wave m dx i ^ 2 : ℝ) : ℂ) * q j * conj (q j)‖ / 2)
      = ofField fun (a b : ZMod m) => wave m dx a.val ^ 2 * ‖D (cx p) 0 b‖ ^ 2 / m / 2 := by
    refine tab_congr rfl rfl fun i j hi hj => ?_
    beta_reduce
    rw [ZMod.val_natCast, Nat.mod_eq_of_lt hi, mul_assoc, norm_mul, norm_mul, RCLike.norm_conj, ← sq, hq, norm_sq_ortho,
      norm_real, Real.norm_eq_abs, abs_of_nonneg (sq_nonneg _)]
    push_cast
    ring
  rw [e4, mean1_meanLast]
  congr 1
  have e5 : S (fun (a b : ZMod m) => wave m dx a.val ^ 2 * ‖D (cx p) 0 b‖ ^ 2 / m / 2)
      = (∑ k ∈ Finset.range m, wave m dx k ^ 2) * (∑ b : ZMod m, ‖D (cx p) 0 b‖ ^ 2) / m / 2 := by
    have hs : ∑ k ∈ Finset.range m, wave m dx k ^ 2 = ∑ a : ZMod m, wave m dx a.val ^ 2 := by
      rw [← sum_range_zmod]
      refine Finset.sum_congr rfl fun k hk => ?_
      rw [ZMod.val_natCast, Nat.mod_eq_of_lt (Finset.mem_range.1 hk)]
    rw [hs, Finset.sum_mul_sum, Finset.sum_div, Finset.sum_div]
    refine Finset.sum_congr rfl fun a _ => ?_
    rw [Finset.sum_div, Finset.sum_div]
  have e6 : ∑ b : ZMod m, ‖D (cx p) 0 b‖ ^ 2 = (m : ℝ) * S fun i j => p i j ^ 2 := by
    have := parseval_sq p
    unfold S at this ⊢
    rw [Fintype.sum_eq_single (0 : ZMod 1) fun x hx => absurd (Subsingleton.elim _ _) hx] at this
    rw [this]; push_cast; ring
  have hm : (m : ℝ) ≠ 0 := Nat.cast_ne_zero.2 (NeZero.ne m)
  unfold avg
  rw [e5, e6]
  push_cast
  field_simp

end line

end Verif
