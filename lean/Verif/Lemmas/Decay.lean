import Verif.Lemmas.EnergyBound
import Verif.Lemmas.HWField

/-!
# How fast hyperdiffusion removes what is not constant
-/

set_option linter.unusedSectionVars false

namespace Verif

open Spec Complex

/-- minus the largest nonzero eigenvalue of the five-point Laplacian of an `h × w` grid (or less) -/
noncomputable def muF (h w : ℕ) (dx : ℝ) : ℝ := 4 * Real.sin (Real.pi / (max h w : ℕ)) ^ 2 / dx ^ 2

theorem muF_nonneg (h w : ℕ) (dx : ℝ) : 0 ≤ muF h w dx := by unfold muF; positivity

theorem sin_kap_ge {n m : ℕ} [NeZero n] (hm : n ≤ m) (k : ZMod n) (hk : k ≠ 0) :
    Real.sin (Real.pi / m) ^ 2 ≤ Real.sin (Real.pi * kap k) ^ 2 := by
  have hn : (0 : ℝ) < n := Nat.cast_pos.mpr (NeZero.pos n)
  have hm' : (n : ℝ) ≤ m := Nat.cast_le.mpr hm
  have hpi := Real.pi_pos
  have a := abs_kap_le k
  have b : Real.pi / m ≤ |Real.pi * kap k| := by
    rw [abs_mul, abs_of_pos hpi]
    have c : 1 ≤ n * |kap k| := by
      have := kap_int k hk
      rw [← sq_abs, abs_mul, Nat.abs_cast] at this
      exact (one_le_sq_iff₀ (by positivity)).1 this
    rw [div_le_iff₀ (hn.trans_le hm'), mul_assoc]
    refine le_mul_of_one_le_right hpi.le (c.trans ?_)
    rw [mul_comm]
    exact mul_le_mul_of_nonneg_left hm' (abs_nonneg _)
  have e : Real.sin (Real.pi * kap k) ^ 2 = Real.sin |Real.pi * kap k| ^ 2 := by
    rcases abs_cases (Real.pi * kap k) with h | h <;> rw [h.1]
    rw [Real.sin_neg, neg_sq]
  rw [e]
  have p : 0 ≤ Real.pi / m := by positivity
  refine pow_le_pow_left₀ (Real.sin_nonneg_of_nonneg_of_le_pi p (b.trans (a.trans (by linarith)))) ?_ 2
  exact Real.sin_le_sin_of_le_of_le_pi_div_two (by linarith) a b

section fields
variable {h w : ℕ} [NeZero h] [NeZero w]

theorem fsym_ge (dx : ℝ) {k : ZMod h} {l : ZMod w} (h0 : ¬(k = 0 ∧ l = 0)) : muF h w dx ≤ fsym k l / dx ^ 2 := by
  unfold muF fsym
  refine div_le_div_of_nonneg_right ?_ (sq_nonneg _)
  have a := sq_nonneg (Real.sin (Real.pi * kap k))
  have b := sq_nonneg (Real.sin (Real.pi * kap l))
  rcases not_and_or.1 h0 with hk | hl
  · have := sin_kap_ge (le_max_left h w) k hk
    linarith
  · have := sin_kap_ge (le_max_right h w) l hl
    linarith

theorem fsym_zero : fsym (0 : ZMod h) (0 : ZMod w) = 0 := by
  unfold fsym; rw [(kap_eq_zero _).2 rfl, (kap_eq_zero _).2 rfl]; simp

theorem hyper_sym (P : Params) (k : ZMod h) (l : ZMod w) :
    (-1) ^ (P.N + 1) * P.nu * (-(fsym k l) / P.dx ^ 2) ^ P.N = -(P.nu * (fsym k l / P.dx ^ 2) ^ P.N) := by
  rw [neg_div, neg_pow (fsym k l / P.dx ^ 2), pow_succ]
  have : ((-1 : ℝ) ^ P.N) * (-1) ^ P.N = 1 := by rw [← mul_pow]; norm_num
  linear_combination (-P.nu * (fsym k l / P.dx ^ 2) ^ P.N) * this

/-- Parseval for two fields whose coefficients are real multiples of those of a third one -/
theorem S_mul_sym {f g o : Fld h w} {s t : ZMod h → ZMod w → ℝ} (hf : ∀ k l, D (cx f) k l = (s k l : ℂ) * D (cx o) k l)
    (hg : ∀ k l, D (cx g) k l = (t k l : ℂ) * D (cx o) k l) :
    (h : ℝ) * (w : ℝ) * S (fun i j => f i j * g i j) = S fun k l => s k l * t k l * ‖D (cx o) k l‖ ^ 2 := by
  have key : (((h : ℝ) * (w : ℝ) * S (fun i j => f i j * g i j) : ℝ) : ℂ)
      = ((S fun k l => s k l * t k l * ‖D (cx o) k l‖ ^ 2 : ℝ) : ℂ) := by
    rw [ofReal_mul, S_cx_mul]
    push_cast
    rw [← parseval]
    have : ((S fun k l => s k l * t k l * ‖D (cx o) k l‖ ^ 2 : ℝ) : ℂ)
        = S fun k l => ((s k l * t k l * ‖D (cx o) k l‖ ^ 2 : ℝ) : ℂ) := by
      unfold S; push_cast; rfl
    rw [this]
    refine S_congr fun k l => ?_
    rw [hf, hg, map_mul, conj_ofReal]
    push_cast
    rw [← mul_conj']; ring
  exact_mod_cast key

theorem S_single (x : ℝ) : S (fun (k : ZMod h) (l : ZMod w) => if k = 0 ∧ l = 0 then x else 0) = x := by
  unfold S
  rw [Finset.sum_eq_single 0 (fun k _ hk => Finset.sum_eq_zero fun l _ => if_neg fun e => hk e.1) (by simp)]
  rw [Finset.sum_eq_single 0 (fun l _ hl => if_neg fun e => hl e.2) (by simp)]
  simp

theorem muF_pow_le (P : Params) (hnu : 0 ≤ P.nu) {k : ZMod h} {l : ZMod w} (h0 : ¬(k = 0 ∧ l = 0)) :
    P.nu * muF h w P.dx ^ P.N ≤ P.nu * (fsym k l / P.dx ^ 2) ^ P.N :=
  mul_le_mul_of_nonneg_left (pow_le_pow_left₀ (muF_nonneg _ _ _) (fsym_ge _ h0) _) hnu

/-- hyperdiffusion damps the deviations from the mean -/
theorem S_hyper_decay (P : Params) (hN : 1 ≤ P.N) (hnu : 0 ≤ P.nu) (f : Fld h w) :
    S (fun i j => f i j * hyper P f i j)
      ≤ -(P.nu * muF h w P.dx ^ P.N) * (S (fun i j => f i j ^ 2) - S f ^ 2 / (h * w)) := by
  have hc := cardR_pos (h := h) (w := w)
  have e := S_mul_sym (f := f) (g := hyper P f) (o := f) (s := fun _ _ => 1) (fun k l => by simp) (fun k l => D_hyper P f k l)
  have d0 : ‖D (cx f) 0 0‖ ^ 2 = S f ^ 2 := by
    rw [D_zero_zero]
    have : S (cx f) = ((S f : ℝ) : ℂ) := by unfold S cx; push_cast; rfl
    rw [this, norm_real, Real.norm_eq_abs, sq_abs]
  have le : S (fun k l => 1 * ((-1) ^ (P.N + 1) * P.nu * (-(fsym k l) / P.dx ^ 2) ^ P.N) * ‖D (cx f) k l‖ ^ 2)
      ≤ S (fun k l => -(P.nu * muF h w P.dx ^ P.N) * (‖D (cx f) k l‖ ^ 2 - if k = 0 ∧ l = 0 then S f ^ 2 else 0)) := by
    refine S_le fun k l => ?_
    rw [hyper_sym, one_mul]
    by_cases h0 : k = 0 ∧ l = 0
    · rw [if_pos h0, h0.1, h0.2, fsym_zero, d0, zero_div, zero_pow (by omega)]
      simp
    · rw [if_neg h0, sub_zero]
      have := mul_le_mul_of_nonneg_right (muF_pow_le P hnu h0) (sq_nonneg ‖D (cx f) k l‖)
      linarith
  rw [← e, S_mul_left, S_sub, S_single, parseval_sq] at le
  have e2 : -(P.nu * muF h w P.dx ^ P.N) * ((h : ℝ) * w * S (fun i j => f i j ^ 2) - S f ^ 2)
      = (h * w) * (-(P.nu * muF h w P.dx ^ P.N) * (S (fun i j => f i j ^ 2) - S f ^ 2 / (h * w))) := by
    have hh : (h : ℝ) ≠ 0 := Nat.cast_ne_zero.mpr (NeZero.ne h)
    have hw' : (w : ℝ) ≠ 0 := Nat.cast_ne_zero.mpr (NeZero.ne w)
    field_simp
  rw [e2] at le
  exact le_of_mul_le_mul_left le hc

/-- hyperdiffusion damps the kinetic energy -/
theorem phi_hyper_decay (P : Params) (hnu : 0 ≤ P.nu) (o : Fld h w) :
    P.nu * muF h w P.dx ^ P.N * -S (fun i j => phiF P.dx o i j * o i j) ≤ S (fun i j => phiF P.dx o i j * hyper P o i j) := by
  have hc := cardR_pos (h := h) (w := w)
  have e1 := S_mul_sym (f := phiF P.dx o) (g := hyper P o) (o := o) (s := fun k l => sig 1 k l * P.dx ^ 2)
    (fun k l => by rw [D_phiF]) (fun k l => D_hyper P o k l)
  have e2 := S_mul_sym (f := phiF P.dx o) (g := o) (o := o) (s := fun k l => sig 1 k l * P.dx ^ 2) (t := fun _ _ => 1)
    (fun k l => by rw [D_phiF]) (fun k l => by simp)
  refine le_of_mul_le_mul_left (a := (h : ℝ) * w) ?_ hc
  rw [e1]
  have e3 : (h : ℝ) * w * (P.nu * muF h w P.dx ^ P.N * -S (fun i j => phiF P.dx o i j * o i j))
      = -(P.nu * muF h w P.dx ^ P.N) * (h * w * S (fun i j => phiF P.dx o i j * o i j)) := by ring
  rw [e3, e2, ← S_mul_left]
  refine S_le fun k l => ?_
  rw [hyper_sym]
  by_cases h0 : k = 0 ∧ l = 0
  · simp [sig, h0]
  · have a := muF_pow_le P hnu h0
    have b : 0 ≤ -sig 1 k l * P.dx ^ 2 * ‖D (cx o) k l‖ ^ 2 :=
      mul_nonneg (mul_nonneg (neg_nonneg.2 (sig_one_nonpos k l)) (sq_nonneg _)) (sq_nonneg _)
    nlinarith [mul_le_mul_of_nonneg_right a b]

theorem gamN_shift (dx c : ℝ) (n p : Fld h w) : gamN dx (fun i j => n i j - c) p = gamN dx n p := by
  unfold gamN avg
  have : S (fun i j => (n i j - c) * gradY dx p i j) = S (fun i j => n i j * gradY dx p i j) := by
    have e : S (fun i j => (n i j - c) * gradY dx p i j)
        = S (fun i j => n i j * gradY dx p i j) - c * S (gradY dx p) := by
      rw [← S_mul_left, ← S_sub]; exact S_congr fun i j => by ring
    rw [e, S_gradY, mul_zero, sub_zero]
  rw [this]

theorem S_dev (f : Fld h w) : S (fun i j => (f i j - avg f) ^ 2) = S (fun i j => f i j ^ 2) - S f ^ 2 / (h * w) := by
  have hh : (h : ℝ) ≠ 0 := Nat.cast_ne_zero.mpr (NeZero.ne h)
  have hw' : (w : ℝ) ≠ 0 := Nat.cast_ne_zero.mpr (NeZero.ne w)
  have e1 : S (fun i j => (f i j - avg f) ^ 2)
      = S (fun i j => f i j ^ 2) - 2 * avg f * S f + S (fun (_ : ZMod h) (_ : ZMod w) => avg f ^ 2) := by
    rw [← S_mul_left, ← S_sub, ← S_add]; exact S_congr fun i j => by ring
  rw [e1]
  have : S (fun (_ : ZMod h) (_ : ZMod w) => avg f ^ 2) = h * w * avg f ^ 2 := by
    simp [S, ZMod.card]; ring
  rw [this]; unfold avg; field_simp; ring

/-- the mean square deviation -/
theorem avg_dev (f : Fld h w) : avg (fun i j => (f i j - avg f) ^ 2) = avg (fun i j => f i j ^ 2) - avg f ^ 2 := by
  have hh : (h : ℝ) ≠ 0 := Nat.cast_ne_zero.mpr (NeZero.ne h)
  have hw' : (w : ℝ) ≠ 0 := Nat.cast_ne_zero.mpr (NeZero.ne w)
  have e := S_dev f
  have : avg (fun i j => (f i j - avg f) ^ 2) = S (fun i j => (f i j - avg f) ^ 2) / (h * w) := rfl
  rw [this, e]
  unfold avg
  field_simp

/-- the mean square is at least the square of the mean -/
theorem avg_sq_le (f : Fld h w) : avg f ^ 2 ≤ avg fun i j => f i j ^ 2 := by
  have e := avg_dev f
  have : 0 ≤ avg (fun i j => (f i j - avg f) ^ 2) := div_nonneg (S_nonneg fun i j => sq_nonneg _) cardR_pos.le
  linarith

/-- the energy of the fluctuations -/
noncomputable def flE (dx : ℝ) (n o : Fld h w) : ℝ :=
  avg (fun i j => (n i j - avg n) ^ 2 - phiF dx o i j * o i j) / 2

theorem flE_eq (dx : ℝ) (n o : Fld h w) :
    flE dx n o = avg (fun i j => n i j * n i j - phiF dx o i j * o i j) / 2 - avg n * avg n / 2 := by
  unfold flE
  have e := avg_dev n
  rw [avg_sub, avg_sub, e]
  simp only [sq]
  ring

theorem gamN_flE {dx : ℝ} (hdx : dx ≠ 0) (n o : Fld h w) : |gamN dx n (phiF dx o)| ≤ flE dx n o := by
  have := gamN_le hdx (fun i j => n i j - avg n) o
  rw [gamN_shift] at this
  unfold flE
  simpa only [sq] using this

theorem flE_nonneg {dx : ℝ} (hdx : dx ≠ 0) (n o : Fld h w) : 0 ≤ flE dx n o := (abs_nonneg _).trans (gamN_flE hdx n o)

/-- hyperdiffusion removes the energy of the fluctuations -/
theorem hyper_flE (P : Params) (hN : 1 ≤ P.N) (hnu : 0 ≤ P.nu) (n o : Fld h w) :
    avg (fun i j => n i j * hyper P n i j - phiF P.dx o i j * hyper P o i j)
      ≤ -(2 * (P.nu * muF h w P.dx ^ P.N)) * flE P.dx n o := by
  have a := S_hyper_decay P hN hnu n
  have b := phi_hyper_decay P hnu o
  rw [← S_dev] at a
  unfold flE avg at *
  rw [S_sub, S_sub]
  have hc := cardR_pos (h := h) (w := w)
  rw [div_le_iff₀ hc]
  have : ∀ x y c : ℝ, -(2 * c) * ((x - y) / ((h : ℝ) * w) / 2) * (h * w) = -c * x + c * y := by
    intro x y c
    have hh : (h : ℝ) ≠ 0 := Nat.cast_ne_zero.mpr (NeZero.ne h)
    have hw' : (w : ℝ) ≠ 0 := Nat.cast_ne_zero.mpr (NeZero.ne w)
    field_simp; ring
  rw [this]
  linarith

/-- the coupling does not feed the fluctuations through the mean -/
theorem gamC_mean (P : Params) (hc : 0 ≤ P.c1) (n p : Fld h w) (hp : avg p = 0) :
    c1m P * avg n ^ 2 ≤ gamC P.c1 (cpl P.zonal n) (cpl P.zonal p) := by
  unfold c1m
  cases hz : P.zonal
  · simp only [cpl, Bool.false_eq_true, if_false]
    unfold gamC
    refine mul_le_mul_of_nonneg_left ?_ hc
    have e := avg_sq_le (fun i j => n i j - p i j)
    rw [avg_sub, hp, sub_zero] at e
    exact e
  · simp only [if_true, zero_mul]
    exact gamC_nonneg hc _ _

end fields

end Verif
