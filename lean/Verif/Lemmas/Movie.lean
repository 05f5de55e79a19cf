import Verif.Model.Movie
import Verif.Lemmas.Double
import Mathlib.Data.Int.DivMod
import Mathlib.Algebra.Order.Field.Basic

/-!
# Lemmas about `movie.py`
-/

set_option linter.unusedSectionVars false

namespace Verif.Movie

open H5IO

/-! ### `range` -/

theorem pyRange_zero (n s : ℕ) (hn : 1 ≤ n) (hs : 1 ≤ s) :
    pyRange 0 n s = (List.range ((n - 1) / s + 1)).map fun i => ((s * i : ℕ) : ℤ) := by
  unfold pyRange
  have e : ((n : ℤ) - 0 + s - 1).fdiv s = (((n - 1) / s + 1 : ℕ) : ℤ) := by
    rw [Int.fdiv_eq_ediv_of_nonneg _ (by positivity)]
    rw [show (n : ℤ) - 0 + s - 1 = ((n - 1 + s : ℕ) : ℤ) by omega]
    norm_cast
    rw [Nat.add_div_right _ hs]
  rw [e, Int.toNat_natCast]
  simp

theorem pyRange_one (n : ℕ) : pyRange 0 n 1 = (List.range n).map fun i : ℕ => (i : ℤ) := by
  unfold pyRange
  have : ((n : ℤ) - 0 + 1 - 1).fdiv 1 = (n : ℤ) := by simp
  rw [this]
  simp

theorem pyRange_head (a b s : ℤ) (hab : a < b) (hs : 1 ≤ s) : (pyRange a b s).head? = some a := by
  unfold pyRange
  have e : 1 ≤ (b - a + s - 1).fdiv s := by
    rw [Int.fdiv_eq_ediv_of_nonneg _ (by omega)]
    apply Int.le_ediv_of_mul_le (by omega)
    omega
  obtain ⟨k, hk⟩ : ∃ k : ℕ, ((b - a + s - 1).fdiv s).toNat = k + 1 := ⟨_, (Nat.succ_pred (by omega)).symm⟩
  rw [hk, List.range_succ_eq_map]
  simp

/-! ### Rounded arithmetic -/

section
variable {K : Type} [Field K] [LinearOrder K] [IsStrictOrderedRing K] [FloorRing K] {fl : K → K}

theorem pow_le_pow_two {m n : ℕ} (h : m ≤ n) : (2 : K) ^ m ≤ 2 ^ n := pow_le_pow_right₀ (by norm_num) h

theorem fl_between (hfl : Spec.RelError fl) {x : K} (h1 : 1 / 2 ^ 1000 ≤ x) (h2 : x ≤ 2 ^ 1000) :
    x * (1 - 1 / 2 ^ 53) ≤ fl x ∧ fl x ≤ x * (1 + 1 / 2 ^ 53) := by
  have hx : 0 < x := lt_of_lt_of_le (by positivity) h1
  have h3 : (1 : K) / 2 ^ 1022 ≤ 1 / 2 ^ 1000 :=
    one_div_le_one_div_of_le (by positivity) (pow_le_pow_two (by norm_num))
  have h4 : (2 : K) ^ 1000 ≤ 2 ^ 1023 := pow_le_pow_two (by norm_num)
  have := hfl.rel x (by rw [abs_of_pos hx]; exact h3.trans h1) (by rw [abs_of_pos hx]; exact h2.trans h4)
  rw [abs_of_pos hx, abs_le, div_eq_mul_one_div] at this
  constructor <;> linarith

/-- bounds by factors 2, up to `2^1000` -/
theorem fl_half (hfl : Spec.RelError fl) {x : K} (h1 : 1 / 2 ^ 1000 ≤ x) (h2 : x ≤ 2 ^ 1000) :
    x / 2 ≤ fl x ∧ fl x ≤ 2 * x := by
  have hx : 0 < x := lt_of_lt_of_le (by positivity) h1
  obtain ⟨a, b⟩ := fl_between hfl h1 h2
  have : (1 : K) / 2 ^ 53 ≤ 1 / 2 := by norm_num
  constructor <;> nlinarith


/-- four rounding errors -/
theorem four_errors {N dt u f y zd r : K} (hN1 : 1 ≤ N) (hdt : 0 < dt) (u0 : 0 < u) (u1 : u ≤ 1 / 1000)
    (hNu : N * u ≤ 1 / 16) (a1 : N * (1 - u) ≤ f) (a2 : f ≤ N * (1 + u)) (b1 : f * dt * (1 - u) ≤ y)
    (b2 : y ≤ f * dt * (1 + u)) (c1 : y * (1 - u) ≤ zd * dt) (c2 : zd * dt ≤ y * (1 + u))
    (e1 : zd * (1 - u) ≤ r) (e2 : r ≤ zd * (1 + u)) : |r - N| < 1 / 2 := by
  -- y ≤ N dt (1+u)^2 etc.
  have y1 : N * dt * (1 - u) ^ 2 ≤ y := by
    have : N * (1 - u) * dt * (1 - u) ≤ f * dt * (1 - u) :=
      mul_le_mul_of_nonneg_right (mul_le_mul_of_nonneg_right a1 hdt.le) (by linarith)
    linarith
  have y2 : y ≤ N * dt * (1 + u) ^ 2 := by
    have : f * dt * (1 + u) ≤ N * (1 + u) * dt * (1 + u) :=
      mul_le_mul_of_nonneg_right (mul_le_mul_of_nonneg_right a2 hdt.le) (by linarith)
    linarith
  have z1 : N * (1 - u) ^ 3 ≤ zd := by
    have h := mul_le_mul_of_nonneg_right y1 (show 0 ≤ 1 - u by linarith)
    have h' : N * (1 - u) ^ 3 * dt ≤ zd * dt := by
      calc N * (1 - u) ^ 3 * dt = N * dt * (1 - u) ^ 2 * (1 - u) := by ring
        _ ≤ _ := h.trans c1
    exact le_of_mul_le_mul_right h' hdt
  have z2 : zd ≤ N * (1 + u) ^ 3 := by
    have h := mul_le_mul_of_nonneg_right y2 (show 0 ≤ 1 + u by linarith)
    have h' : zd * dt ≤ N * (1 + u) ^ 3 * dt := by
      calc zd * dt ≤ _ := c2.trans h
        _ = _ := by ring
    exact le_of_mul_le_mul_right h' hdt
  have r1 : N * (1 - u) ^ 4 ≤ r := by
    have h := mul_le_mul_of_nonneg_right z1 (show 0 ≤ 1 - u by linarith)
    calc N * (1 - u) ^ 4 = N * (1 - u) ^ 3 * (1 - u) := by ring
      _ ≤ _ := h.trans e1
  have r2 : r ≤ N * (1 + u) ^ 4 := by
    have h := mul_le_mul_of_nonneg_right z2 (show 0 ≤ 1 + u by linarith)
    calc r ≤ _ := e2.trans h
      _ = _ := by ring
  have s1 : 1 - 5 * u ≤ (1 - u) ^ 4 := by nlinarith [pow_pos u0 2, pow_pos u0 3, pow_pos u0 4]
  have s2 : (1 + u) ^ 4 ≤ 1 + 5 * u := by
    have : (1 + u) ^ 4 = 1 + 4 * u + u * (6 * u + 4 * u ^ 2 + u ^ 3) := by ring
    have h6 : 6 * u + 4 * u ^ 2 + u ^ 3 ≤ 1 := by nlinarith [pow_pos u0 2]
    nlinarith
  have t1 := mul_le_mul_of_nonneg_left s1 (show (0 : K) ≤ N by linarith)
  have t2 := mul_le_mul_of_nonneg_left s2 (show (0 : K) ≤ N by linarith)
  rw [abs_lt]
  constructor <;> linarith

set_option exponentiation.threshold 2000 in
theorem round_frames (hfl : Spec.RelError fl) (N : ℕ) (hN : N ≤ 2 ^ 49) (dt : K) (h1 : 1 / 2 ^ 100 ≤ dt) (h2 : dt ≤ 2 ^ 100) :
    roundEven (fl (fl (fl (fl (N : K) * dt) - 0) / dt)) = N := by
  have hdt : 0 < dt := lt_of_lt_of_le (by positivity) h1
  apply roundEven_near
  rw [sub_zero]
  rcases Nat.eq_zero_or_pos N with rfl | hpos
  · simp only [Nat.cast_zero, hfl.zero, zero_mul, zero_div, Int.cast_zero, sub_self, abs_zero]
    norm_num
  · have hN1 : (1 : K) ≤ N := by exact_mod_cast hpos
    have hN2 : (N : K) ≤ 2 ^ 49 := by exact_mod_cast hN
    have p1 : (1 : K) / 2 ^ 1000 ≤ 1 / 2 ^ 102 := one_div_le_one_div_of_le (by positivity) (pow_le_pow_two (by norm_num))
    have p2 : (2 : K) ^ 153 ≤ 2 ^ 1000 := pow_le_pow_two (by norm_num)
    have q : (1 : K) / 2 ^ 102 = 1 / 2 ^ 100 / 4 := by norm_num
    have q0 : (0 : K) < 1 / 2 ^ 102 := by positivity
    have big : (2 : K) ^ 49 * 2 ^ 100 * 4 ≤ 2 ^ 153 := by norm_num
    have q3 : (1 : K) ≤ 2 ^ 100 := one_le_pow₀ (by norm_num)
    have q4 : (1 : K) / 2 ^ 102 ≤ 1 := by rw [div_le_one (by positivity)]; exact one_le_pow₀ (by norm_num)
    have q5 : (2 : K) ^ 49 ≤ 2 ^ 153 := pow_le_pow_two (by norm_num)
    -- fl N
    obtain ⟨a1, a2⟩ := fl_between hfl (x := (N : K)) (by linarith) (by linarith)
    obtain ⟨a1', a2'⟩ := fl_half hfl (x := (N : K)) (by linarith) (by linarith)
    have m1 : (N : K) * dt ≤ 2 ^ 49 * 2 ^ 100 := mul_le_mul hN2 h2 hdt.le (by positivity)
    have m2 : dt ≤ (N : K) * dt := le_mul_of_one_le_left hdt.le hN1
    have b0 : (N : K) * dt / 2 ≤ fl N * dt := by
      have := mul_le_mul_of_nonneg_right a1' hdt.le
      linarith
    have b0' : fl N * dt ≤ 2 * (N * dt) := by
      have := mul_le_mul_of_nonneg_right a2' hdt.le
      linarith
    obtain ⟨b1, b2⟩ := fl_between hfl (x := fl N * dt) (by linarith) (by linarith)
    obtain ⟨b1', b2'⟩ := fl_half hfl (x := fl N * dt) (by linarith) (by linarith)
    generalize fl (fl N * dt) = y at b1 b2 b1' b2' ⊢
    obtain ⟨c1, c2⟩ := fl_between hfl (x := y) (by linarith) (by linarith)
    obtain ⟨c1', c2'⟩ := fl_half hfl (x := y) (by linarith) (by linarith)
    have c1'' : (N : K) / 8 * dt ≤ fl y := by linarith
    have c2'' : fl y ≤ 8 * N * dt := by linarith
    generalize fl y = z at c1 c2 c1' c2' c1'' c2'' ⊢
    have d1 : (N : K) / 8 ≤ z / dt := (le_div_iff₀ hdt).2 c1''
    have d2 : z / dt ≤ 8 * N := (div_le_iff₀ hdt).2 c2''
    obtain ⟨e1, e2⟩ := fl_between hfl (x := z / dt) (by
      have : (1 : K) / 2 ^ 102 ≤ 1 / 8 := by norm_num
      linarith) (by
      have : (8 : K) * 2 ^ 49 ≤ 2 ^ 153 := by norm_num
      linarith)
    generalize fl (z / dt) = r at e1 e2 ⊢
    have hz : z = z / dt * dt := (div_mul_cancel₀ _ hdt.ne').symm
    generalize z / dt = zd at hz d1 d2 e1 e2
    subst hz
    have hNu : (N : K) * (1 / 2 ^ 53) ≤ 1 / 16 := by
      calc (N : K) * (1 / 2 ^ 53) ≤ 2 ^ 49 * (1 / 2 ^ 53) := mul_le_mul_of_nonneg_right hN2 (by positivity)
        _ = 1 / 16 := by norm_num
    rw [Int.cast_natCast]
    exact four_errors hN1 hdt (by positivity) (by norm_num) hNu a1 a2 b1 b2 c1 c2 e1 e2

end

/-! ### Colour limits -/

section
variable {K : Type} [Field K] [LinearOrder K] [IsStrictOrderedRing K]

theorem mem_entries (a : Arr K) (x : K) : x ∈ entries a ↔ ∃ i j, a.get i j = x := by
  simp [entries, List.mem_flatMap]

theorem npMax_spec (a : Arr K) (m : K) (h : npMax a = .ok m) : (∃ i j, a.get i j = m) ∧ ∀ i j, a.get i j ≤ m := by
  unfold npMax at h
  split at h
  · rename_i m' hm
    injection h with h
    subst h
    rw [List.max?_eq_some_iff] at hm
    exact ⟨(mem_entries a _).1 hm.1, fun i j => hm.2 _ ((mem_entries a _).2 ⟨i, j, rfl⟩)⟩
  · cases h

theorem npMin_spec (a : Arr K) (m : K) (h : npMin a = .ok m) : (∃ i j, a.get i j = m) ∧ ∀ i j, m ≤ a.get i j := by
  unfold npMin at h
  split at h
  · rename_i m' hm
    injection h with h
    subst h
    rw [List.min?_eq_some_iff] at hm
    exact ⟨(mem_entries a _).1 hm.1, fun i j => hm.2 _ ((mem_entries a _).2 ⟨i, j, rfl⟩)⟩
  · cases h

theorem entries_ne_nil (a : Arr K) (h0 : 0 < a.h) (w0 : 0 < a.w) : entries a ≠ [] := by
  intro h
  have : a.get ⟨0, h0⟩ ⟨0, w0⟩ ∈ entries a := (mem_entries _ _).2 ⟨_, _, rfl⟩
  rw [h] at this
  cases this

theorem npMax_ok (a : Arr K) (h0 : 0 < a.h) (w0 : 0 < a.w) : ∃ m, npMax a = .ok m := by
  unfold npMax
  cases hm : (entries a).max? with
  | none => exact absurd (List.max?_eq_none_iff.1 hm) (entries_ne_nil a h0 w0)
  | some m => exact ⟨m, rfl⟩

theorem npMin_ok (a : Arr K) (h0 : 0 < a.h) (w0 : 0 < a.w) : ∃ m, npMin a = .ok m := by
  unfold npMin
  cases hm : (entries a).min? with
  | none => exact absurd (List.min?_eq_none_iff.1 hm) (entries_ne_nil a h0 w0)
  | some m => exact ⟨m, rfl⟩

theorem smooth_le (nm pm : K) : nm ≤ new_cbar_max_smooth nm pm ∧ new_cbar_max_smooth nm pm ≤ max nm pm := by
  unfold new_cbar_max_smooth
  split_ifs with h
  · rw [max_eq_right h.le]
    constructor <;> linarith
  · exact ⟨le_rfl, le_max_left _ _⟩

end

end Verif.Movie
