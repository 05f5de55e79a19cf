import Verif.Spec.DriftWave
import Verif.Lemmas.NoBracket
import Mathlib.Analysis.Complex.Polynomial.Basic
import Mathlib.Analysis.SpecificLimits.Basic

/-!
# Growing and decaying waves
-/

namespace Verif

open Matrix Complex Spec Filter
open scoped ComplexConjugate
open scoped Topology

/-! ### roots of a quadratic with real sum -/

section roots
variable {A B b : ℝ} {r1 r2 : ℂ}

theorem roots_aux (hs : r1 + r2 = -(A : ℂ)) (hp : r1 * r2 = B + b * I) :
    r1.re + r2.re = -A ∧ 0 ≤ B - r1.re * r2.re ∧ 0 ≤ A ^ 2 - 4 * (r1.re * r2.re) ∧
      b ^ 2 = (B - r1.re * r2.re) * (A ^ 2 - 4 * (r1.re * r2.re)) := by
  have s1 := congrArg re hs
  have s2 := congrArg im hs
  have p1 := congrArg re hp
  have p2 := congrArg im hp
  simp only [add_re, add_im, neg_re, neg_im, ofReal_re, ofReal_im, mul_re, mul_im, I_re, I_im] at s1 s2 p1 p2
  have y : r2.im = -r1.im := by linarith
  rw [y] at p1 p2
  have e1 : r1.re + r2.re = -A := s1
  have eA : A = -(r1.re + r2.re) := by linarith
  have eB : B - r1.re * r2.re = r1.im ^ 2 := by linear_combination -p1
  have eb : b = r1.im * (r2.re - r1.re) := by linear_combination -p2
  refine ⟨e1, by rw [eB]; positivity, ?_, ?_⟩
  · rw [eA]; nlinarith [sq_nonneg (r1.re - r2.re)]
  · rw [eB, eb, eA]; ring

/-- one of the two roots has positive real part exactly if `A² B < b²` -/
theorem roots_growing (hA : 0 ≤ A) (hB : 0 ≤ B) (hs : r1 + r2 = -(A : ℂ)) (hp : r1 * r2 = B + b * I) :
    (0 < r1.re ∨ 0 < r2.re) ↔ A ^ 2 * B < b ^ 2 := by
  obtain ⟨e1, hy, hd, hb⟩ := roots_aux hs hp
  set p := r1.re * r2.re with hpdef
  have key : (0 < r1.re ∨ 0 < r2.re) ↔ p < 0 := by
    constructor
    · rintro (h | h)
      · have : r2.re < 0 := by linarith
        nlinarith
      · have : r1.re < 0 := by linarith
        nlinarith
    · intro h
      by_contra hc
      push Not at hc
      nlinarith [mul_nonneg (neg_nonneg.2 hc.1) (neg_nonneg.2 hc.2)]
  rw [key, hb]
  constructor
  · intro h
    have h1 : 0 < 4 * (B - p) + A ^ 2 := by nlinarith [sq_nonneg A]
    nlinarith [mul_pos (neg_pos.2 h) h1]
  · intro h
    by_contra hc
    push Not at hc
    nlinarith [mul_nonneg hy hc, mul_nonneg hd hc, mul_nonneg (sq_nonneg A) hc]

/-- both roots have negative real part exactly if `b² < A² B` -/
theorem roots_decaying (hA : 0 ≤ A) (hs : r1 + r2 = -(A : ℂ)) (hp : r1 * r2 = B + b * I) (h : b ^ 2 < A ^ 2 * B) :
    r1.re < 0 ∧ r2.re < 0 := by
  obtain ⟨e1, hy, hd, hb⟩ := roots_aux hs hp
  set p := r1.re * r2.re with hpdef
  have hp0 : 0 < p := by
    by_contra hc
    push Not at hc
    rw [hb] at h
    nlinarith [mul_nonneg hy (neg_nonneg.2 hc), mul_nonneg hd (neg_nonneg.2 hc),
      mul_nonneg (sq_nonneg A) (neg_nonneg.2 hc)]
  constructor
  · by_contra hc
    push Not at hc
    have : r2.re ≤ 0 := by linarith
    nlinarith [mul_nonneg hc (neg_nonneg.2 this)]
  · by_contra hc
    push Not at hc
    have : r1.re ≤ 0 := by linarith
    nlinarith [mul_nonneg hc (neg_nonneg.2 this)]

theorem exists_roots (s p : ℂ) : ∃ r1 r2 : ℂ, r1 + r2 = -s ∧ r1 * r2 = p := by
  obtain ⟨z, hz⟩ := IsAlgClosed.exists_pow_nat_eq (s ^ 2 - 4 * p) (n := 2) (by norm_num)
  refine ⟨(-s + z) / 2, (-s - z) / 2, by ring, ?_⟩
  linear_combination -(1 / 4 : ℂ) * hz

end roots

/-! ### the matrix of a mode -/

section mode
variable {P : Params} {h w k l : ℕ}

theorem potSym_nonpos (h w : ℕ) (dx : ℝ) (k l : ℕ) : potSym h w dx k l ≤ 0 := by
  unfold potSym
  split
  · rfl
  · exact div_nonpos_of_nonpos_of_nonneg (by norm_num) (by positivity)

theorem dissSym_nonneg (hn : 0 ≤ P.nu) : 0 ≤ dissSym P h w k l := by
  unfold dissSym hypSym
  have hl : 0 ≤ -lapSym h w P.dx k l := by unfold lapSym; rw [← neg_div, neg_mul, neg_neg]; positivity
  have e : -((-1) ^ (P.N + 1) * P.nu * lapSym h w P.dx k l ^ P.N) = P.nu * (-lapSym h w P.dx k l) ^ P.N := by
    rw [neg_pow (lapSym h w P.dx k l), pow_succ]; ring
  rw [e]
  exact mul_nonneg hn (pow_nonneg hl _)

theorem couSym_nonneg (hc : 0 ≤ P.c1) : 0 ≤ couSym P k := by
  unfold couSym; split
  · rfl
  · exact hc

theorem dampSym_nonneg (hc : 0 ≤ P.c1) : 0 ≤ dampSym P h w k l := by
  unfold dampSym
  have := potSym_nonpos h w P.dx k l
  exact mul_nonneg (couSym_nonneg hc) (by linarith)

/-- characteristic polynomial of the matrix of a mode -/
theorem modeMat_char (g : ℂ) :
    (modeMat P h w k l 0 0 - g) * (modeMat P h w k l 1 1 - g) - modeMat P h w k l 0 1 * modeMat P h w k l 1 0
      = g ^ 2 + ((dampSym P h w k l + 2 * dissSym P h w k l : ℝ) : ℂ) * g
        + (((dissSym P h w k l * (dampSym P h w k l + dissSym P h w k l) : ℝ) : ℂ) + driveSym P h w k l * I) := by
  simp only [modeMat, dampSym, dissSym, driveSym, derSym, of_apply, cons_val', cons_val_zero, cons_val_one,
    cons_val_fin_one]
  push_cast
  ring

theorem eigen_root {M : Matrix (Fin 2) (Fin 2) ℂ} {v : Fin 2 → ℂ} {g : ℂ} (hv : v ≠ 0) (e : M *ᵥ v = g • v) :
    (M 0 0 - g) * (M 1 1 - g) - M 0 1 * M 1 0 = 0 := by
  have e0 := congrFun e 0
  have e1 := congrFun e 1
  simp only [mulVec, dotProduct, Fin.sum_univ_two, Pi.smul_apply, smul_eq_mul] at e0 e1
  by_cases h1 : v 1 = 0
  · have h0 : v 0 ≠ 0 := by
      intro h0
      apply hv
      funext i
      fin_cases i
      · exact h0
      · exact h1
    apply mul_right_cancel₀ h0
    linear_combination (M 1 1 - g) * e0 - M 0 1 * e1
  · apply mul_right_cancel₀ h1
    linear_combination (M 0 0 - g) * e1 - M 1 0 * e0

theorem root_eigen {M : Matrix (Fin 2) (Fin 2) ℂ} {g : ℂ} (e : (M 0 0 - g) * (M 1 1 - g) - M 0 1 * M 1 0 = 0) :
    M *ᵥ ![g - M 1 1, M 1 0] = g • ![g - M 1 1, M 1 0] := by
  funext i
  fin_cases i
  · simp [mulVec, dotProduct, Fin.sum_univ_two]
    linear_combination -e
  · simp [mulVec, dotProduct, Fin.sum_univ_two]
    ring

theorem modeMat_10 : modeMat P h w k l 1 0 = -(couSym P k : ℂ) := by simp [modeMat]

theorem modeMat_11 : modeMat P h w k l 1 1 = ((couSym P k * potSym h w P.dx k l + hypSym P h w k l : ℝ) : ℂ) := by
  simp [modeMat]

theorem mode_roots (P : Params) (h w k l : ℕ) : ∃ r1 r2 : ℂ,
    r1 + r2 = -((dampSym P h w k l + 2 * dissSym P h w k l : ℝ) : ℂ) ∧
    r1 * r2 = ((dissSym P h w k l * (dampSym P h w k l + dissSym P h w k l) : ℝ) : ℂ) + driveSym P h w k l * I ∧
    ∀ g, (modeMat P h w k l 0 0 - g) * (modeMat P h w k l 1 1 - g) - modeMat P h w k l 0 1 * modeMat P h w k l 1 0 = 0
      ↔ g = r1 ∨ g = r2 := by
  obtain ⟨r1, r2, hs, hp⟩ := exists_roots ((dampSym P h w k l + 2 * dissSym P h w k l : ℝ) : ℂ)
    (((dissSym P h w k l * (dampSym P h w k l + dissSym P h w k l) : ℝ) : ℂ) + driveSym P h w k l * I)
  refine ⟨r1, r2, hs, hp, fun g => ?_⟩
  rw [modeMat_char]
  have : g ^ 2 + ((dampSym P h w k l + 2 * dissSym P h w k l : ℝ) : ℂ) * g
        + (((dissSym P h w k l * (dampSym P h w k l + dissSym P h w k l) : ℝ) : ℂ) + driveSym P h w k l * I)
      = (g - r1) * (g - r2) := by linear_combination g * hs - hp
  rw [this, mul_eq_zero, sub_eq_zero, sub_eq_zero]

theorem unstable_couSym (hc : 0 ≤ P.c1) (hn : 0 ≤ P.nu) (hu : Unstable P h w k l) : couSym P k ≠ 0 := by
  intro e
  unfold Unstable at hu
  have : driveSym P h w k l = 0 := by unfold driveSym; rw [e]; ring
  rw [this] at hu
  have h1 := dissSym_nonneg (h := h) (w := w) (k := k) (l := l) hn
  have h2 := dampSym_nonneg (h := h) (w := w) (k := k) (l := l) hc
  have : 0 ≤ (dampSym P h w k l + 2 * dissSym P h w k l) ^ 2 *
    (dissSym P h w k l * (dampSym P h w k l + dissSym P h w k l)) := by positivity
  norm_num at hu
  linarith

/-- an unstable mode has an eigenvector with growing amplitude and nonzero density -/
theorem unstable_eigen (hc : 0 ≤ P.c1) (hn : 0 ≤ P.nu) (hu : Unstable P h w k l) :
    ∃ (g : ℂ) (v : Fin 2 → ℂ), v 0 ≠ 0 ∧ v 1 ≠ 0 ∧ modeMat P h w k l *ᵥ v = g • v ∧ 0 < g.re := by
  have c0 := unstable_couSym hc hn hu
  have h1 := dissSym_nonneg (h := h) (w := w) (k := k) (l := l) hn
  have h2 := dampSym_nonneg (h := h) (w := w) (k := k) (l := l) hc
  obtain ⟨r1, r2, hs, hp, hr⟩ := mode_roots P h w k l
  have main : ∀ g, (g = r1 ∨ g = r2) → 0 < g.re →
      ∃ (g : ℂ) (v : Fin 2 → ℂ), v 0 ≠ 0 ∧ v 1 ≠ 0 ∧ modeMat P h w k l *ᵥ v = g • v ∧ 0 < g.re := by
    intro g hg hre
    refine ⟨g, _, ?_, ?_, root_eigen ((hr g).2 hg), hre⟩
    · simp only [cons_val_zero]
      rw [modeMat_11, sub_ne_zero]
      intro e
      have := congrArg re e
      rw [ofReal_re] at this
      have q := mul_nonneg (couSym_nonneg (k := k) hc) (neg_nonneg.2 (potSym_nonpos h w P.dx k l))
      unfold dissSym at h1
      linarith
    · simp only [cons_val_one, cons_val_fin_one, modeMat_10]
      simpa using c0
  rcases (roots_growing (by linarith) (by positivity) hs hp).2 hu with h | h
  · exact main r1 (.inl rfl) h
  · exact main r2 (.inr rfl) h

theorem eigen_unstable (hc : 0 ≤ P.c1) (hn : 0 ≤ P.nu) {g : ℂ} {v : Fin 2 → ℂ} (hv : v ≠ 0)
    (e : modeMat P h w k l *ᵥ v = g • v) (hg : 0 < g.re) : Unstable P h w k l := by
  have h1 := dissSym_nonneg (h := h) (w := w) (k := k) (l := l) hn
  have h2 := dampSym_nonneg (h := h) (w := w) (k := k) (l := l) hc
  obtain ⟨r1, r2, hs, hp, hr⟩ := mode_roots P h w k l
  refine (roots_growing (by linarith) (by positivity) hs hp).1 ?_
  rcases (hr g).1 (eigen_root hv e) with rfl | rfl
  · exact .inl hg
  · exact .inr hg

/-- every pair of amplitudes is a sum of two decaying eigenvectors -/
theorem damped_eigen (hc : 0 < couSym P k) (hn : 0 ≤ P.nu) (hd : Damped P h w k l) :
    ∃ r1 r2 : ℂ, r1.re < 0 ∧ r2.re < 0 ∧ ∀ v : Fin 2 → ℂ, ∃ v1 v2, v = v1 + v2 ∧
      modeMat P h w k l *ᵥ v1 = r1 • v1 ∧ modeMat P h w k l *ᵥ v2 = r2 • v2 := by
  have h1 := dissSym_nonneg (h := h) (w := w) (k := k) (l := l) hn
  have h2 : 0 < dampSym P h w k l := by
    unfold dampSym
    have := potSym_nonpos h w P.dx k l
    exact mul_pos hc (by linarith)
  obtain ⟨r1, r2, hs, hp, hr⟩ := mode_roots P h w k l
  obtain ⟨n1, n2⟩ := roots_decaying (by linarith) hs hp hd
  refine ⟨r1, r2, n1, n2, fun v => ?_⟩
  have hne : r1 ≠ r2 := by
    intro e
    have e2 : (r1 - r2) ^ 2 = ((dampSym P h w k l ^ 2 : ℝ) : ℂ) - 4 * (driveSym P h w k l * I) := by
      have : (r1 - r2) ^ 2 = (r1 + r2) ^ 2 - 4 * (r1 * r2) := by ring
      rw [this, hs, hp]; push_cast; ring
    rw [e, sub_self] at e2
    have := congrArg re e2
    rw [sub_re, ofReal_re] at this
    simp at this
    exact (pow_pos h2 2).ne this
  have hne' : r1 - r2 ≠ 0 := sub_ne_zero.2 hne
  set M := modeMat P h w k l with hM
  have c0 : M 1 0 ≠ 0 := by rw [hM, modeMat_10]; simpa using hc.ne'
  have ev1 := root_eigen ((hr r1).2 (.inl rfl))
  have ev2 := root_eigen ((hr r2).2 (.inr rfl))
  set α : ℂ := (v 0 - (r2 - M 1 1) * (v 1 / M 1 0)) / (r1 - r2) with hα
  set β : ℂ := v 1 / M 1 0 - α with hβ
  refine ⟨α • ![r1 - M 1 1, M 1 0], β • ![r2 - M 1 1, M 1 0], ?_, ?_, ?_⟩
  · have ea : α * (r1 - r2) = v 0 - (r2 - M 1 1) * (v 1 / M 1 0) := by rw [hα]; field_simp
    funext i
    fin_cases i
    · simp [hβ]
      linear_combination -ea
    · simp [hβ]
      field_simp
      ring
  · rw [mulVec_smul, ev1, smul_comm]
  · rw [mulVec_smul, ev2, smul_comm]

/-- without dissipation every driven mode is unstable -/
theorem unstable_of_drive (hnu : P.nu = 0) (hb : driveSym P h w k l ≠ 0) : Unstable P h w k l := by
  have : dissSym P h w k l = 0 := by unfold dissSym hypSym; rw [hnu]; ring
  unfold Unstable
  rw [this]
  have : 0 < driveSym P h w k l ^ 2 := by positivity
  simpa using this

end mode

/-! ### size of the polynomials of the two methods -/

/-- Taylor polynomial of the fourth order -/
noncomputable def tay (z : ℂ) : ℂ := 1 + z + z ^ 2 / 2 + z ^ 3 / 6 + z ^ 4 / 24

theorem tay_near {z : ℂ} (hz : ‖z‖ ≤ 1) : ‖tay z - (1 + z)‖ ≤ ‖z‖ ^ 2 := by
  have e : tay z - (1 + z) = z ^ 2 * (1 / 2 + z / 6 + z ^ 2 / 24) := by unfold tay; ring
  rw [e, norm_mul, norm_pow]
  have h1 : ‖(1 / 2 + z / 6 + z ^ 2 / 24 : ℂ)‖ ≤ 1 := by
    refine (norm_add_le _ _).trans ?_
    have a := norm_add_le (1 / 2 : ℂ) (z / 6)
    rw [norm_div, norm_div] at a
    rw [norm_div, norm_pow]
    norm_num at a ⊢
    have : ‖z‖ ^ 2 ≤ 1 := pow_le_one₀ (norm_nonneg _) hz
    linarith
  exact mul_le_of_le_one_right (by positivity) h1

theorem grow_euler {g : ℂ} {dt : ℝ} : 1 + dt * g.re ≤ ‖1 + dt * g‖ := by
  have := Complex.re_le_norm (1 + dt * g)
  simpa using this

theorem grow_rk4 {g : ℂ} {dt : ℝ} (h0 : 0 ≤ dt) (h1 : dt * ‖g‖ ≤ 1) (h2 : dt * ‖g‖ ^ 2 ≤ g.re / 2) :
    1 + dt * (g.re / 2) ≤ ‖tay (dt * g)‖ := by
  have nz : ‖(dt * g : ℂ)‖ = dt * ‖g‖ := by rw [norm_mul, norm_real, Real.norm_of_nonneg h0]
  have a := tay_near (z := dt * g) (by rw [nz]; exact h1)
  have b := grow_euler (g := g) (dt := dt)
  have c := norm_sub_norm_le (1 + dt * g : ℂ) (tay (dt * g))
  rw [norm_sub_rev] at c
  rw [nz] at a
  nlinarith [mul_le_mul_of_nonneg_left h2 h0]

theorem decay_euler {g : ℂ} {dt : ℝ} (h2 : dt * ‖g‖ ^ 2 ≤ -g.re) (hd : -1 ≤ dt * g.re) (h0 : 0 ≤ dt) :
    ‖1 + dt * g‖ ≤ 1 + dt * (g.re / 2) := by
  have e : ‖1 + dt * g‖ ^ 2 = 1 + 2 * (dt * g.re) + (dt * ‖g‖) ^ 2 := by
    rw [← normSq_eq_norm_sq, mul_pow, ← normSq_eq_norm_sq, normSq_apply, normSq_apply]
    simp
    ring
  refine abs_le_of_sq_le_sq' (a := ‖1 + dt * g‖) ?_ (by linarith) |>.2
  rw [e]
  nlinarith [mul_le_mul_of_nonneg_left h2 h0, sq_nonneg (dt * g.re)]

theorem decay_rk4 {g : ℂ} {dt : ℝ} (h0 : 0 ≤ dt) (h1 : dt * ‖g‖ ≤ 1) (h2 : dt * ‖g‖ ^ 2 ≤ -g.re / 4) :
    ‖tay (dt * g)‖ ≤ 1 + dt * (g.re / 4) := by
  have nz : ‖(dt * g : ℂ)‖ = dt * ‖g‖ := by rw [norm_mul, norm_real, Real.norm_of_nonneg h0]
  have a := tay_near (z := dt * g) (by rw [nz]; exact h1)
  have r := Complex.abs_re_le_norm g
  have r1 := (abs_le.1 r).1
  have hre : g.re ≤ 0 := by nlinarith [mul_nonneg h0 (sq_nonneg ‖g‖)]
  have b := decay_euler (g := g) (dt := dt) (by linarith) (by nlinarith) h0
  have c := norm_sub_norm_le (tay (dt * g)) (1 + dt * g : ℂ)
  rw [nz] at a
  nlinarith [mul_le_mul_of_nonneg_left h2 h0]

/-! ### amplitude of a wave -/

section wave
variable {h w : ℕ} [NeZero h] [NeZero w]

theorem D_wv_self (k : ZMod h) (l : ZMod w) : D (wv k l) k l = (h : ℂ) * w := by
  unfold D wv
  have : (fun (i : ZMod h) (j : ZMod w) => ec (k * i) * ec (l * j) * (ec (-(k * i)) * ec (-(l * j)))) = fun _ _ => 1 := by
    funext i j
    have a : ec (k * i) * ec (-(k * i)) = 1 := by rw [← ec_add, add_neg_cancel, ec_zero]
    have b : ec (l * j) * ec (-(l * j)) = 1 := by rw [← ec_add, add_neg_cancel, ec_zero]
    linear_combination (ec (l * j) * ec (-(l * j))) * a + b
  rw [this]
  simp [S]

theorem D_oneWave {k : ZMod h} {l : ZMod w} (hne : k ≠ -k) (z : ℂ) :
    D (cx (oneWave k l 0 z)) k l = (h * w / 2 : ℂ) * z := by
  have e : cx (oneWave k l 0 z) = fun i j => z / 2 * wv k l i j + conj z / 2 * wv (-k) (-l) i j := by
    funext i j
    rw [← conj_wv]
    change ((0 + (z * wv k l i j).re : ℝ) : ℂ) = _
    have := add_conj (z * wv k l i j)
    rw [map_mul] at this
    push_cast at this ⊢
    linear_combination -(1 / 2 : ℂ) * this
  rw [e, D_add, D_smul, D_smul]
  beta_reduce
  rw [D_wv_self, D_wv (k := -k) (l := -l) (fun e => hne (congrArg Prod.fst e))]
  ring

theorem abs_oneWave_le (k : ZMod h) (l : ZMod w) (z : ℂ) (i : ZMod h) (j : ZMod w) :
    |oneWave k l 0 z i j| ≤ ‖z‖ := by
  unfold oneWave
  rw [zero_add]
  refine (Complex.abs_re_le_norm _).trans ?_
  have n : ∀ {n : ℕ} [NeZero n] (x : ZMod n), ‖ec x‖ = 1 := by
    intro n _ x
    have := norm_ec x
    rw [← sq_eq_sq₀ (norm_nonneg _) zero_le_one, ← normSq_eq_norm_sq, normSq_apply]
    linarith
  rw [norm_mul, wv, norm_mul, n, n, mul_one, mul_one]

/-- a large Fourier coefficient needs a large value -/
theorem exists_large (f : Fld h w) (k : ZMod h) (l : ZMod w) : ∃ i j, ‖D (cx f) k l‖ ≤ h * w * |f i j| := by
  by_contra hc
  push Not at hc
  have n : ∀ {n : ℕ} [NeZero n] (x : ZMod n), ‖ec x‖ = 1 := by
    intro n _ x
    have := norm_ec x
    rw [← sq_eq_sq₀ (norm_nonneg _) zero_le_one, ← normSq_eq_norm_sq, normSq_apply]
    linarith
  have hw0 : (0 : ℝ) < h * w := by
    have := NeZero.pos h
    have := NeZero.pos w
    positivity
  have b : ‖D (cx f) k l‖ ≤ ∑ i : ZMod h, ∑ j : ZMod w, |f i j| := by
    unfold D S
    refine (norm_sum_le _ _).trans (Finset.sum_le_sum fun i _ => (norm_sum_le _ _).trans (Finset.sum_le_sum fun j _ => ?_))
    rw [norm_mul, norm_mul, n, n, mul_one, mul_one]
    simp [cx]
  have c : ∑ i : ZMod h, ∑ j : ZMod w, |f i j| < ∑ _i : ZMod h, ∑ _j : ZMod w, ‖D (cx f) k l‖ / (h * w) := by
    refine Finset.sum_lt_sum_of_nonempty Finset.univ_nonempty fun i _ =>
      Finset.sum_lt_sum_of_nonempty Finset.univ_nonempty fun j _ => ?_
    rw [lt_div_iff₀ hw0, mul_comm]
    exact hc i j
  rw [Finset.sum_const, Finset.sum_const, Finset.card_univ, Finset.card_univ, ZMod.card, ZMod.card, nsmul_eq_mul,
    nsmul_eq_mul] at c
  have : (h : ℝ) * (w * (‖D (cx f) k l‖ / (h * w))) = ‖D (cx f) k l‖ := by
    rw [← mul_assoc, mul_div_cancel₀ _ hw0.ne']
  linarith

end wave

end Verif
