import Verif.Props.Common
import Verif.Lemmas.Spectral
import Mathlib.Analysis.SpecialFunctions.Complex.Arg

/-!
# C72: phase differences between density and potential (`get_delta_ky`)
-/

set_option linter.unusedSectionVars false

namespace Verif.Props

open Arr Spec Properties Complex
open scoped ComplexConjugate

section

variable {h w : ℕ} [NeZero h] [NeZero w]

/-- phase difference of one mode -/
noncomputable def modePhase (f g : Fld h w) : Fld h w := fun k l => arg (conj (D (cx f) k l) * D (cx g) k l)

theorem delta_ofField (f g : Fld h w) : get_delta_ky (ofField f) (ofField g)
    = .ok (((List.range h).map fun k : ℕ => rowSum (modePhase f g) (k : ZMod h) / (w : ℝ)).take (w / 2)) := by
  unfold get_delta_ky
  rw [fft2Ortho_ofField, fft2Ortho_ofField]
  simp only [Py.ok_bind, Py.pure_eq, map_ofField]
  have hm : ∀ a b : ZMod h → ZMod w → ℂ, (.ok (ofField a) * .ok (ofField b) : Py (Arr ℂ))
      = .ok (ofField fun i j => a i j * b i j) := fun a b => ok_mul ..
  rw [hm]
  simp only [Py.ok_bind, map_ofField]
  have : (fun k l => arg (conj (D (cx f) k l / ((Real.sqrt ((h : ℝ) * (w : ℝ)) : ℝ) : ℂ)) *
      (D (cx g) k l / ((Real.sqrt ((h : ℝ) * (w : ℝ)) : ℝ) : ℂ)))) = modePhase f g := by
    funext k l
    have h0 : (0 : ℝ) < 1 / Real.sqrt ((h : ℝ) * (w : ℝ)) ^ 2 := by
      have := hw_pos (h := h) (w := w)
      positivity
    unfold modePhase
    rw [← arg_real_mul (conj (D (cx f) k l) * D (cx g) k l) h0, map_div₀, conj_ofReal]
    congr 1
    push_cast
    ring
  rw [this, meanLast_ofField]
  rfl

theorem modePhase_mem (f g : Fld h w) (k : ZMod h) : |rowSum (modePhase f g) k / (w : ℝ)| ≤ Real.pi := by
  have hw : (0 : ℝ) < w := Nat.cast_pos.mpr (NeZero.pos w)
  rw [abs_div, abs_of_pos hw, div_le_iff₀ hw]
  unfold rowSum
  refine (Finset.abs_sum_le_sum_abs _ _).trans ((Finset.sum_le_card_nsmul _ _ _ fun l _ => abs_arg_le_pi _).trans ?_)
  rw [Finset.card_univ, ZMod.card, nsmul_eq_mul, mul_comm]

theorem modePhase_shift (f g : Fld h w) (s : ZMod h) (t : ZMod w) :
    modePhase (shift s t f) (shift s t g) = modePhase f g := by
  funext k l
  have e : ∀ u : Fld h w, cx (shift s t u) = shift s t (cx u) := fun _ => rfl
  unfold modePhase
  rw [e, e, D_shift, D_shift]
  congr 1
  rw [map_mul, map_mul, ec_conj, ec_conj]
  have h1 : ec (-(-(k * s))) * ec (-(k * s)) = 1 := by rw [← ec_add, neg_add_cancel, ec_zero]
  have h2 : ec (-(-(l * t))) * ec (-(l * t)) = 1 := by rw [← ec_add, neg_add_cancel, ec_zero]
  calc _ = (ec (-(-(k * s))) * ec (-(k * s))) * (ec (-(-(l * t))) * ec (-(l * t))) *
        (conj (D (cx f) k l) * D (cx g) k l) := by ring
    _ = _ := by rw [h1, h2, one_mul, one_mul]

/-- phase between a field and a positive multiple of a translate of it -/
theorem modePhase_translate (f : Fld h w) {c : ℝ} (hc : 0 < c) (s : ZMod h) (k : ZMod h) (l : ZMod w)
    (h0 : D (cx f) k l ≠ 0) :
    modePhase f (fun i j => c * f (i - s) (j - 0)) k l = arg (ec (-(k * s))) := by
  have e : cx (fun i j => c * f (i - s) (j - 0)) = fun i j => (c : ℂ) * shift s 0 (cx f) i j := by
    funext i j
    simp [cx, shift]
  unfold modePhase
  rw [e, D_smul]
  beta_reduce
  rw [D_shift, mul_zero, neg_zero, ec_zero, mul_one]
  have hpos : 0 < c * ‖D (cx f) k l‖ ^ 2 := mul_pos hc (by positivity)
  rw [← arg_real_mul (ec (-(k * s))) hpos]
  congr 1
  push_cast
  rw [← Complex.conj_mul']
  ring

end

/-- **C72 (range and invariance).** For fields of the same shape `get_delta_ky`
returns `min(h, w // 2)` phases in `[-π, π]`; they do not change when both
fields are rolled by the same offsets. -/
theorem C72_phase_range (n p : Arr ℝ) (hh : p.h = n.h) (hw : p.w = n.w) (h0 : 0 < n.h) (w0 : 0 < n.w) :
    ∃ l, get_delta_ky n p = .ok l ∧ l.length = min n.h (n.w / 2) ∧ (∀ x ∈ l, |x| ≤ Real.pi) ∧
      ∀ s t : ℤ, get_delta_ky (n.roll s t) (p.roll s t) = .ok l := by
  obtain ⟨h, w, f, g, e1, e2, rfl, rfl⟩ := exists_fields n p hh hw
  rw [← e1] at h0; rw [← e2] at w0
  have : NeZero h := ⟨h0.ne'⟩
  have : NeZero w := ⟨w0.ne'⟩
  refine ⟨_, delta_ofField f g, ?_, fun x hx => ?_, fun s t => ?_⟩
  · simp [min_comm]
  · obtain ⟨k, -, rfl⟩ := List.mem_map.mp (List.mem_of_mem_take hx)
    exact modePhase_mem f g _
  · rw [roll_ofField, roll_ofField, delta_ofField]
    have := modePhase_shift f g (s : ZMod h) (t : ZMod w)
    unfold shift at this
    rw [this]

/-- **C72 (in phase).** The phases between a field and a positive multiple of it are 0. -/
theorem C72_in_phase (n : Arr ℝ) (h0 : 0 < n.h) (w0 : 0 < n.w) {c : ℝ} (hc : 0 < c) :
    ∃ l, get_delta_ky n (n.map (c * ·)) = .ok l ∧ l.length = min n.h (n.w / 2) ∧ ∀ x ∈ l, x = 0 := by
  obtain ⟨h, w, f, _, e1, e2, rfl, -⟩ := exists_fields n n rfl rfl
  rw [← e1] at h0; rw [← e2] at w0
  have : NeZero h := ⟨h0.ne'⟩
  have : NeZero w := ⟨w0.ne'⟩
  refine ⟨_, delta_ofField f (fun i j => c * f i j), by simp [min_comm], fun x hx => ?_⟩
  obtain ⟨k, -, rfl⟩ := List.mem_map.mp (List.mem_of_mem_take hx)
  have : rowSum (modePhase f (fun i j => c * f i j)) (k : ZMod h) = 0 := by
    refine Finset.sum_eq_zero fun l _ => ?_
    by_cases hz : D (cx f) (k : ZMod h) l = 0
    · unfold modePhase
      rw [hz, map_zero, zero_mul, arg_zero]
    · have := modePhase_translate f hc 0 (k : ZMod h) l hz
      simpa using this
  rw [this, zero_div]

/-- **C72 (translated field).** If the second field is a positive multiple of the
first one moved by `s` points along y, the phase at wave number `k` is the angle
`-2πks/h`, provided this lies in `(-π, π)` and no mode of that wave number vanishes. -/
theorem C72_translated_phase (n : Arr ℝ) (h0 : 0 < n.h) (w0 : 0 < n.w) {c : ℝ} (hc : 0 < c) (s : ℤ) :
    ∃ l, get_delta_ky n ((n.roll s 0).map (c * ·)) = .ok l ∧ l.length = min n.h (n.w / 2) ∧
      ∀ k (hk : k < l.length), (∀ j < n.w, Spec.coef n.h n.w n.at' k j ≠ 0) → 2 * |k * s| < n.h →
        l[k] = -(2 * Real.pi * (k * s / n.h)) := by
  obtain ⟨h, w, f, _, e1, e2, rfl, -⟩ := exists_fields n n rfl rfl
  rw [← e1] at h0; rw [← e2] at w0
  have : NeZero h := ⟨h0.ne'⟩
  have : NeZero w := ⟨w0.ne'⟩
  rw [roll_ofField, map_ofField]
  refine ⟨_, delta_ofField _ _, by simp [min_comm], fun k hk hcoef hks => ?_⟩
  have hkh : k < h := by
    simp at hk
    omega
  have hw' : (w : ℝ) ≠ 0 := Nat.cast_ne_zero.mpr w0.ne'
  have hh' : (0 : ℝ) < h := Nat.cast_pos.mpr h0
  rw [List.getElem_take, List.getElem_map, List.getElem_range]
  have key : ∀ l : ZMod w, modePhase f (fun i j => c * f (i - (s : ZMod h)) (j - ((0 : ℤ) : ZMod w))) (k : ZMod h) l
      = -(2 * Real.pi * (k * s / h)) := by
    intro l
    have hD : D (cx f) (k : ZMod h) l ≠ 0 := by
      have := hcoef l.val (ZMod.val_lt l)
      simp only [ofField_h, ofField_w] at this
      rw [spec_coef_of (at_ofField f)] at this
      simpa using this
    rw [Int.cast_zero, modePhase_translate f hc _ _ _ hD]
    have e : ec (-((k : ZMod h) * (s : ZMod h))) = exp (((-(2 * Real.pi * (k * s / h)) : ℝ) : ℂ) * I) := by
      have := ZMod.stdAddChar_coe (N := h) (-((k : ℤ) * s))
      push_cast at this
      rw [ec, this]
      congr 1
      push_cast
      ring
    rw [e, arg_exp_mul_I, toIocMod_eq_self]
    have hb : |(k : ℝ) * s / h| < 1 / 2 := by
      rw [abs_div, abs_of_pos hh', div_lt_iff₀ hh']
      have : (2 * |(k : ℝ) * s|) < h := by exact_mod_cast hks
      linarith
    rw [abs_lt] at hb
    have := Real.pi_pos
    constructor
    · nlinarith
    · nlinarith
  unfold rowSum
  rw [Finset.sum_congr rfl fun l _ => key l]
  simp only [Finset.sum_const, Finset.card_univ, ZMod.card, nsmul_eq_mul, ofField_h]
  field_simp

example := C72_phase_range (tab 6 8 fun i j => (i * i + 3 * j : ℝ)) (tab 6 8 fun i j => (i - 2 * j : ℝ)) rfl rfl
  (by decide) (by decide)

example := C72_in_phase (tab 6 8 fun i j => (i * i + 3 * j : ℝ)) (by decide) (by decide) (c := 2) (by norm_num)

/-- the field with a single peak: no mode vanishes, and moving it by one point
gives the phase `-2π/6` at wave number 1 -/
example : ∃ l, get_delta_ky (tab 6 8 fun i j => if i = 0 ∧ j = 0 then (1 : ℝ) else 0)
    ((roll (tab 6 8 fun i j => if i = 0 ∧ j = 0 then (1 : ℝ) else 0) 1 0).map (2 * ·)) = .ok l ∧
    ∃ hk : 1 < l.length, l[1] = -(2 * Real.pi * (1 / 6)) := by
  obtain ⟨l, e1, e2, e3⟩ := C72_translated_phase (tab 6 8 fun i j => if i = 0 ∧ j = 0 then (1 : ℝ) else 0)
    (by decide) (by decide) (c := 2) (by norm_num) 1
  have e2 : l.length = 4 := e2
  refine ⟨l, e1, by omega, ?_⟩
  rw [e3 1 (by omega)]
  · norm_num
  · intro j hj
    have : Spec.coef 6 8 (tab 6 8 fun i j => if i = 0 ∧ j = 0 then (1 : ℝ) else 0).at' 1 j = 1 := by
      unfold Spec.coef
      rw [Finset.sum_eq_single_of_mem 0 (by simp), Finset.sum_eq_single_of_mem 0 (by simp)]
      · rw [tab_at' _ _ _ (by decide) (by decide)]
        simp
      · intro b hb hb0
        rw [tab_at' _ _ _ (by decide) (Finset.mem_range.mp hb)]
        simp [hb0]
      · intro b hb hb0
        refine Finset.sum_eq_zero fun q hq => ?_
        rw [tab_at' _ _ _ (Finset.mem_range.mp hb) (Finset.mem_range.mp hq)]
        simp [hb0]
    intro h
    rw [tab_h, tab_w, this] at h
    exact one_ne_zero h
  · decide

end Verif.Props
