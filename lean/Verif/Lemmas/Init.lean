import Verif.Model.Init
import Verif.Lemmas.Poisson
import Verif.Spec.Fourier
import Mathlib.Tactic.Linarith
import Mathlib.Tactic.FieldSimp

/-!
# Lemmas about the initialisations
-/

set_option linter.unusedSectionVars false

namespace Verif.Init

open Arr Complex NoiseArgs
open scoped ComplexConjugate

variable {h w : ℕ} [NeZero h] [NeZero w]

theorem hw_ne : ((h : ℝ) * (w : ℝ)) ≠ 0 :=
  mul_ne_zero (Nat.cast_ne_zero.mpr (NeZero.ne h)) (Nat.cast_ne_zero.mpr (NeZero.ne w))

theorem mean_S (f : ZMod h → ZMod w → ℝ) : (ofField f).mean = S f / ((h : ℝ) * (w : ℝ)) := mean_ofField f

theorem map_ofField {α β : Type} (g : α → β) (f : ZMod h → ZMod w → α) :
    (ofField f).map g = ofField fun i j => g (f i j) := rfl

theorem mean_sub_const (f : ZMod h → ZMod w → ℝ) (c : ℝ) :
    (ofField fun i j => f i j - c).mean = (ofField f).mean - c := by
  rw [mean_S, mean_S, S_sub, S_const]
  rw [sub_div, mul_div_cancel_left₀ _ hw_ne]

theorem mean_div_const (f : ZMod h → ZMod w → ℝ) (c : ℝ) :
    (ofField fun i j => f i j / c).mean = (ofField f).mean / c := by
  rw [mean_S, mean_S, S_div]; ring

/-- the two last steps of `get_fft_noise` -/
theorem normalise (f : ZMod h → ZMod w → ℝ) (hs : std (ofField f) ≠ 0) :
    let y := (ofField f).map fun x => x / std (ofField f)
    let z := y.map fun x => x - y.mean
    ∃ g : ZMod h → ZMod w → ℝ, z = ofField g ∧ (ofField g).mean = 0 ∧ (ofField fun i j => g i j ^ 2).mean = 1 := by
  simp only [map_ofField, mean_div_const]
  refine ⟨_, rfl, ?_, ?_⟩
  · rw [mean_sub_const, mean_div_const, sub_self]
  · have e : (fun (i : ZMod h) (j : ZMod w) => (f i j / std (ofField f) - (ofField f).mean / std (ofField f)) ^ 2)
        = fun i j => (f i j - (ofField f).mean) ^ 2 / std (ofField f) ^ 2 := by
      funext i j; rw [← sub_div, div_pow]
    rw [e, mean_div_const]
    have h0 : 0 ≤ (ofField fun (i : ZMod h) (j : ZMod w) => (f i j - (ofField f).mean) ^ 2).mean := by
      rw [mean_S]
      refine div_nonneg (Finset.sum_nonneg fun i _ => Finset.sum_nonneg fun j _ => sq_nonneg _) (by positivity)
    have h1 : std (ofField f) ^ 2 = (ofField fun (i : ZMod h) (j : ZMod w) => (f i j - (ofField f).mean) ^ 2).mean := by
      unfold std
      rw [map_ofField, Real.sq_sqrt h0]
    rw [h1, div_self]
    rw [← h1]
    exact pow_ne_zero 2 hs

theorem std_eq_zero (f : ZMod h → ZMod w → ℝ) (hs : std (ofField f) = 0) (i : ZMod h) (j : ZMod w) :
    f i j = (ofField f).mean := by
  unfold std at hs
  rw [map_ofField, mean_S, Real.sqrt_eq_zero (by
    refine div_nonneg (Finset.sum_nonneg fun i _ => Finset.sum_nonneg fun j _ => sq_nonneg _) (by positivity)),
    div_eq_zero_iff, or_iff_left hw_ne] at hs
  unfold S at hs
  rw [Finset.sum_eq_zero_iff_of_nonneg (fun i _ => Finset.sum_nonneg fun j _ => sq_nonneg _)] at hs
  have := hs i (Finset.mem_univ i)
  rw [Finset.sum_eq_zero_iff_of_nonneg (fun j _ => sq_nonneg _)] at this
  have := this j (Finset.mem_univ j)
  have := pow_eq_zero_iff (two_ne_zero) |>.1 this
  linarith

/-! ### the frequency mask -/

theorem step_pos (m k : ℝ) : 0 < step m k := by unfold step; positivity

theorem step_lt_one (m k : ℝ) : step m k < 1 := by
  unfold step
  rw [div_lt_one (by positivity)]
  have := Real.exp_pos ((m - k) * 1000)
  linarith

theorem step_le {m m' : ℝ} (k : ℝ) : step m' k ≤ step m k ↔ m ≤ m' := by
  unfold step
  rw [one_div_le_one_div (by positivity) (by positivity), add_le_add_iff_left, Real.exp_le_exp]
  constructor <;> intro h <;> linarith

theorem weight_le_one (a : NoiseArgs) (k : ℝ) : a.weight k ≤ 1 := by
  unfold weight
  have h1 := step_pos a.minFreq k
  have h2 := step_lt_one a.minFreq k
  have h3 := step_pos a.maxFreq k
  simp only
  split_ifs <;> linarith

/-- the mask is non-negative unless both bounds are given in the wrong order -/
theorem weight_nonneg (a : NoiseArgs) (k : ℝ) :
    0 ≤ a.weight k ↔ (a.minFreq = 0 ∨ a.maxFreq = 0 ∨ a.minFreq ≤ a.maxFreq) := by
  unfold weight
  have h1 := step_pos a.minFreq k
  have h2 := step_lt_one a.maxFreq k
  have h4 := step_le (m := a.minFreq) (m' := a.maxFreq) k
  simp only
  by_cases c1 : a.minFreq = 0
  · have e0 : 0 ≤ (if a.maxFreq ≠ 0 then 1 - step a.maxFreq k else 1) := by split_ifs <;> linarith
    simp only [c1, ne_eq, not_true_eq_false, if_false, true_or, iff_true]
    simpa using e0
  · by_cases c2 : a.maxFreq = 0
    · simp only [c1, c2, ne_eq, not_true_eq_false, not_false_eq_true, if_false, if_true, true_or, or_true, iff_true]
      linarith
    · simp only [c1, c2, ne_eq, not_false_eq_true, if_true, false_or]
      rw [← h4]
      constructor <;> intro h <;> linarith

theorem weight_pos (a : NoiseArgs) (k : ℝ) (h : a.minFreq = 0 ∨ a.maxFreq = 0 ∨ a.minFreq < a.maxFreq) :
    0 < a.weight k := by
  have h0 := (weight_nonneg a k).2 (by rcases h with h | h | h; exacts [.inl h, .inr (.inl h), .inr (.inr h.le)])
  refine lt_of_le_of_ne h0 fun e => ?_
  unfold weight at e
  have h1 := step_pos a.minFreq k
  have h2 := step_lt_one a.maxFreq k
  have h4 := step_le (m := a.maxFreq) (m' := a.minFreq) k
  simp only at e
  split_ifs at e with c1 c2 c2
  · rcases h with h | h | h
    · exact c2 h
    · exact c1 h
    · have : a.maxFreq ≤ a.minFreq := h4.1 (by linarith)
      linarith
  all_goals linarith

/-! ### the noise -/

/-- `k` on the dual torus -/
noncomputable def kF (a : NoiseArgs) (k : ZMod h) (l : ZMod w) : ℝ :=
  |kap k * h / a.size * a.scale| ^ a.factor + |kap l * w / a.size * a.scale| ^ a.factor

theorem kap_neg_abs {n : ℕ} [NeZero n] (k : ZMod n) (c d e : ℝ) : |kap (-k) * c / d * e| = |kap k * c / d * e| := by
  rcases fftfreqInt_neg k with e' | e'
  · have : kap (-k) = -kap k := by unfold kap fftfreq; rw [e']; push_cast; ring
    rw [this]
    have : -kap k * c / d * e = -(kap k * c / d * e) := by ring
    rw [this, abs_neg]
  · rw [e']

theorem kF_neg (a : NoiseArgs) (k : ZMod h) (l : ZMod w) : kF a (-k) (-l) = kF a k l := by
  unfold kF; rw [kap_neg_abs, kap_neg_abs]

theorem kF_pos (a : NoiseArgs) (hs : a.size ≠ 0) (hc : a.scale ≠ 0) (k : ZMod h) (l : ZMod w)
    (hkl : ¬ (k = 0 ∧ l = 0)) : 0 < kF a k l := by
  have hh : (h : ℝ) ≠ 0 := Nat.cast_ne_zero.mpr (NeZero.ne h)
  have hw' : (w : ℝ) ≠ 0 := Nat.cast_ne_zero.mpr (NeZero.ne w)
  unfold kF
  by_cases hk : k = 0
  · have hl : l ≠ 0 := fun e => hkl ⟨hk, e⟩
    have : 0 < |kap l * w / a.size * a.scale| :=
      abs_pos.2 (mul_ne_zero (div_ne_zero (mul_ne_zero (fun e => hl ((kap_eq_zero l).1 e)) hw') hs) hc)
    have := pow_pos this a.factor
    have := pow_nonneg (abs_nonneg (kap k * h / a.size * a.scale)) a.factor
    linarith
  · have : 0 < |kap k * h / a.size * a.scale| :=
      abs_pos.2 (mul_ne_zero (div_ne_zero (mul_ne_zero (fun e => hk ((kap_eq_zero k).1 e)) hh) hs) hc)
    have := pow_pos this a.factor
    have := pow_nonneg (abs_nonneg (kap l * w / a.size * a.scale)) a.factor
    linarith

open Classical in
/-- the factor multiplying the random numbers -/
noncomputable def filt (a : NoiseArgs) (k : ZMod h) (l : ZMod w) : ℝ :=
  (if k = 0 ∧ l = 0 then 0 else 1 / kF a k l) * a.weight (kF a k l)

theorem filt_neg (a : NoiseArgs) (k : ZMod h) (l : ZMod w) : filt a (-k) (-l) = filt a k l := by
  unfold filt; rw [kF_neg]; simp

/-- the transformed field as a field on the torus -/
theorem fft_field (a : NoiseArgs) (ha : a.h = h) (hb : a.w = w) (rndj : ℕ → ℕ → ℂ) :
    (Arr.tab a.h a.w fun i j => rndj i j * (a.invK i j : ℂ) * (a.weight (a.k i j) : ℂ))
      = ofField (h := h) (w := w) fun k l => rndj k.val l.val * (filt a k l : ℂ) := by
  refine tab_congr ha hb fun i j hi hj => ?_
  rw [ha] at hi
  rw [hb] at hj
  have e1 : ((i : ZMod h)).val = i := by rw [ZMod.val_natCast, Nat.mod_eq_of_lt hi]
  have e2 : ((j : ZMod w)).val = j := by rw [ZMod.val_natCast, Nat.mod_eq_of_lt hj]
  have ek : a.k i j = kF a (i : ZMod h) (j : ZMod w) := by
    unfold NoiseArgs.k kF
    rw [kap_cast hi, kap_cast hj, ha, hb]
  have e3 : (i = 0 ∧ j = 0) ↔ ((i : ZMod h) = 0 ∧ (j : ZMod w) = 0) := by
    rw [← ZMod.val_eq_zero, ← ZMod.val_eq_zero, e1, e2]
  simp only [e1, e2, filt, NoiseArgs.invK, ek]
  push_cast
  by_cases c : i = 0 ∧ j = 0
  · rw [if_pos c, if_pos (e3.1 c)]; ring
  · rw [if_neg c, if_neg (fun q => c (e3.2 q))]; push_cast; ring

theorem ID_conj (g : ZMod h → ZMod w → ℂ) (i : ZMod h) (j : ZMod w) :
    conj (ID g i j) = ID (fun k l => conj (g (-k) (-l))) i j := by
  unfold ID
  rw [map_div₀, map_mul, conj_natCast, conj_natCast]
  congr 1
  have e : S (fun k l => conj (g (-k) (-l)) * (ec (i * k) * ec (j * l)))
      = S (fun k l => conj (g k l) * (ec (i * -k) * ec (j * -l))) := by
    unfold S
    rw [← Equiv.sum_comp (Equiv.neg (ZMod h))]
    refine Finset.sum_congr rfl fun k _ => ?_
    rw [← Equiv.sum_comp (Equiv.neg (ZMod w))]
    refine Finset.sum_congr rfl fun l _ => ?_
    simp
  rw [e]
  unfold S
  rw [map_sum]
  refine Finset.sum_congr rfl fun k _ => ?_
  rw [map_sum]
  refine Finset.sum_congr rfl fun l _ => ?_
  rw [map_mul, map_mul, ec_conj, ec_conj]
  simp

/-- a draw whose real part has no mode gives no field; any other gives one -/
theorem raw_ne (a : NoiseArgs) (hs : a.size ≠ 0) (hc : a.scale ≠ 0)
    (hm : a.minFreq = 0 ∨ a.maxFreq = 0 ∨ a.minFreq < a.maxFreq) (r : ZMod h → ZMod w → ℂ) (k : ZMod h) (l : ZMod w)
    (hkl : ¬ (k = 0 ∧ l = 0)) (hr : r k l + conj (r (-k) (-l)) ≠ 0) :
    std (ofField fun i j => (ID (fun k l => r k l * (filt a k l : ℂ)) i j).re) ≠ 0 := by
  intro h0
  set g : ZMod h → ZMod w → ℂ := fun k l => r k l * (filt a k l : ℂ) with hg
  set f : ZMod h → ZMod w → ℝ := fun i j => (ID g i j).re with hf
  have hconst := std_eq_zero f h0
  -- the Hermitian part of the spectrum
  set G : ZMod h → ZMod w → ℂ := fun k l => (g k l + conj (g (-k) (-l))) with hG
  have hGs : ∀ k l, G (-k) (-l) = conj (G k l) := by
    intro k l
    simp only [hG, neg_neg, map_add, conj_conj]; ring
  have e1 := ID_conj g
  have e2 : ∀ i j, ID G i j = ((2 * f i j : ℝ) : ℂ) := by
    intro i j
    rw [hG, ID_add]
    simp only
    rw [← e1, Complex.add_conj]
  have e3 : D (fun i j => ((2 * f i j : ℝ) : ℂ)) = G := by
    rw [← funext₂ e2, D_ID]
  -- the mean vanishes
  have hG0 : G 0 0 = 0 := by simp [hG, hg, filt]
  have e4 : (ofField f).mean = 0 := by
    have : D (fun i j => ((2 * f i j : ℝ) : ℂ)) 0 0 = 0 := by rw [e3, hG0]
    rw [D_zero_zero] at this
    have h2 : S (fun i j => ((2 * f i j : ℝ) : ℂ)) = ((2 * S f : ℝ) : ℂ) := by
      rw [← S_mul_left]
      unfold S
      push_cast
      rfl
    rw [h2] at this
    have h3 : (2 * S f : ℝ) = 0 := by exact_mod_cast this
    rw [mean_S, show S f = 0 by linarith, zero_div]
  have e5 : G = fun _ _ => 0 := by
    rw [← e3]
    funext k l
    simp only [hconst, e4, mul_zero, ofReal_zero]
    unfold D
    simp only [zero_mul]
    exact S_zero
  have e6 : G k l = (r k l + conj (r (-k) (-l))) * (filt a k l : ℂ) := by
    simp only [hG, hg, map_mul, filt_neg, conj_ofReal]; ring
  have hfil : filt a k l ≠ 0 := by
    unfold filt
    rw [if_neg hkl]
    exact mul_ne_zero (one_div_ne_zero (kF_pos a hs hc k l hkl).ne') (weight_pos a _ hm).ne'
  have : G k l = 0 := congrFun (congrFun e5 k) l
  rw [e6] at this
  rcases mul_eq_zero.1 this with h1 | h1
  · exact hr h1
  · exact hfil (by exact_mod_cast h1)

/-- value of `get_fft_noise` once the assertion holds -/
theorem noise_eq (a : NoiseArgs) (ha : a.h = h) (hb : a.w = w) (hs : a.size ≠ 0) (hc : a.scale ≠ 0)
    (hm : a.minFreq = 0 ∨ a.maxFreq = 0 ∨ a.minFreq ≤ a.maxFreq) (rndj : ℕ → ℕ → ℂ) :
    let f : ZMod h → ZMod w → ℝ := fun i j => (ID (fun k l => rndj k.val l.val * (filt a k l : ℂ)) i j).re
    (std (ofField f) = 0 ∧ get_fft_noise a rndj = .ok none) ∨
    (std (ofField f) ≠ 0 ∧ ∃ g : ZMod h → ZMod w → ℝ, get_fft_noise a rndj = .ok (some (ofField g)) ∧
      (ofField g).mean = 0 ∧ (ofField fun i j => g i j ^ 2).mean = 1) := by
  intro f
  have h0 := NeZero.pos h
  have w0 := NeZero.pos w
  have e : get_fft_noise a rndj = (if std (ofField f) = 0 then .ok none else
      .ok (some ((((ofField f).map fun x => x / std (ofField f)).map fun x =>
        x - ((ofField f).map fun x => x / std (ofField f)).mean)))) := by
    unfold get_fft_noise
    rw [if_neg (by omega), if_neg (by tauto), if_neg (by
      rw [not_not]; exact ⟨fun i _ j _ => weight_le_one a _, fun i _ j _ => (weight_nonneg a _).2 hm⟩)]
    simp only
    rw [fft_field a ha hb, ifft2_ofField]
    simp only [Py.ok_bind, real_ofField]
    by_cases hz : std (ofField f) = 0
    · rw [if_pos hz]; exact if_pos hz
    · rw [if_neg hz]; exact if_neg hz
  rw [e]
  by_cases hz : std (ofField f) = 0
  · left; exact ⟨hz, if_pos hz⟩
  · right
    refine ⟨hz, ?_⟩
    rw [if_neg hz]
    obtain ⟨g, g1, g2, g3⟩ := normalise f hz
    exact ⟨g, by rw [g1], g2, g3⟩

end Verif.Init
