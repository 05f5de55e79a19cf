import Verif.Lemmas.HWLinear
import Verif.Lemmas.Convergence
import Mathlib.Topology.Algebra.Module.FiniteDimensionBilinear
import Mathlib.Analysis.Normed.Group.Constructions
import Mathlib.Analysis.Calculus.Deriv.Pi
import Mathlib.Analysis.Calculus.Deriv.Prod

/-!
# The semi-discrete Hasegawa–Wakatani equations as a quadratic ordinary differential equation
-/

set_option linter.unusedSectionVars false

namespace Verif

open Arr Spec

variable {h w : ℕ} [NeZero h] [NeZero w]

/-- density and vorticity -/
abbrev Pair (h w : ℕ) := Fld h w × Fld h w

theorem jac_add_left (dx : ℝ) (u v p : Fld h w) : jac dx (u + v) p = jac dx u p + jac dx v p := by
  funext i j
  have := jac_lin_left dx 1 1 u v p i j
  simp only [one_mul] at this
  exact this
theorem jac_add_right (dx : ℝ) (p u v : Fld h w) : jac dx p (u + v) = jac dx p u + jac dx p v := by
  funext i j
  have := jac_lin_right dx 1 1 p u v i j
  simp only [one_mul] at this
  exact this
theorem jac_smul_left (dx c : ℝ) (u p : Fld h w) : jac dx (c • u) p = c • jac dx u p := by
  funext i j
  have := jac_lin_left dx c 0 u u p i j
  simp only [zero_mul, add_zero] at this
  exact this
theorem jac_smul_right (dx c : ℝ) (p u : Fld h w) : jac dx p (c • u) = c • jac dx p u := by
  funext i j
  have := jac_lin_right dx c 0 p u u i j
  simp only [zero_mul, add_zero] at this
  exact this

/-- advection of the second pair by the first one -/
noncomputable def bilU (P : Params) : Pair h w →ₗ[ℝ] Pair h w →ₗ[ℝ] Pair h w :=
  LinearMap.mk₂ ℝ (fun u v => (-P.pb) • (jac P.dx (phiF P.dx u.2) v.1, jac P.dx (phiF P.dx u.2) v.2))
    (fun u u' v => by
      rw [Prod.snd_add, phiF_add, jac_add_left, jac_add_left, ← smul_add, Prod.mk_add_mk])
    (fun c u v => by
      rw [Prod.smul_snd, phiF_smul, jac_smul_left, jac_smul_left, smul_comm c]
      rfl)
    (fun u v v' => by
      rw [Prod.fst_add, Prod.snd_add, jac_add_right, jac_add_right, ← smul_add, Prod.mk_add_mk])
    (fun c u v => by
      rw [Prod.smul_fst, Prod.smul_snd, jac_smul_right, jac_smul_right, smul_comm c]
      rfl)

/-- linear part, as a continuous map -/
noncomputable def linC (P : Params) : Pair h w →L[ℝ] Pair h w := (linU P).toContinuousLinearMap
/-- quadratic part, as a continuous map -/
noncomputable def bilC (P : Params) : Pair h w →L[ℝ] Pair h w →L[ℝ] Pair h w :=
  (bilU P).toContinuousBilinearMap

theorem linC_apply (P : Params) (u : Pair h w) : linC P u = rhsU { P with pb := 0 } u := rfl
theorem bilC_apply (P : Params) (u v : Pair h w) :
    bilC P u v = (-P.pb) • (jac P.dx (phiF P.dx u.2) v.1, jac P.dx (phiF P.dx u.2) v.2) := rfl

theorem rhsU_eq (P : Params) : (rhsU P : Pair h w → Pair h w) = ODE.F (linC P) (bilC P) := by
  funext u
  unfold ODE.F
  rw [linC_apply, bilC_apply]
  refine Prod.ext ?_ ?_
  · funext i j
    simp only [rhsU, rhsN, hyper, Prod.fst_add, Prod.smul_fst, Pi.add_apply, Pi.smul_apply, smul_eq_mul]
    ring
  · funext i j
    simp only [rhsU, rhsO, hyper, Prod.snd_add, Prod.smul_snd, Pi.add_apply, Pi.smul_apply, smul_eq_mul]
    ring

theorem rk4U_eq {E : Type} [NormedAddCommGroup E] [NormedSpace ℝ E] (F : E → E) (dt : ℝ) (u : E) :
    rk4U F dt u = ODE.rk4 F dt u := by
  unfold rk4U ODE.rk4
  have e2 : ∀ v : E, (1 / 2 : ℝ) • dt • v + u = u + (dt / 2) • v := fun v => by module
  simp only [e2]
  have e3 : ∀ v : E, dt • v + u = u + dt • v := fun v => by module
  simp only [e3]
  module

/-- `Σ n n' + Σ Ω Ω'` -/
noncomputable def innU : Pair h w →ₗ[ℝ] Pair h w →ₗ[ℝ] ℝ :=
  LinearMap.mk₂ ℝ (fun u v => S (fun i j => u.1 i j * v.1 i j) + S (fun i j => u.2 i j * v.2 i j))
    (fun u u' v => by
      simp only [Prod.fst_add, Prod.snd_add, Pi.add_apply, add_mul, S_add]; ring)
    (fun c u v => by
      simp only [Prod.smul_fst, Prod.smul_snd, Pi.smul_apply, smul_eq_mul, mul_assoc, S, ← Finset.mul_sum]
      ring)
    (fun u v v' => by
      simp only [Prod.fst_add, Prod.snd_add, Pi.add_apply, mul_add, S_add]; ring)
    (fun c u v => by
      simp only [Prod.smul_fst, Prod.smul_snd, Pi.smul_apply, smul_eq_mul, mul_left_comm _ c, S,
        ← Finset.mul_sum]
      ring)

noncomputable def innC : Pair h w →L[ℝ] Pair h w →L[ℝ] ℝ := innU.toContinuousBilinearMap

theorem innC_apply (u v : Pair h w) :
    innC u v = S (fun i j => u.1 i j * v.1 i j) + S (fun i j => u.2 i j * v.2 i j) := rfl

theorem innC_comm (u v : Pair h w) : innC u v = innC v u := by
  rw [innC_apply, innC_apply]
  simp only [mul_comm]

theorem sq_le_S (f : Fld h w) (i : ZMod h) (j : ZMod w) : f i j ^ 2 ≤ S fun i j => f i j * f i j := by
  unfold S
  have h1 : f i j ^ 2 ≤ ∑ j', f i j' * f i j' := by
    rw [sq]
    exact Finset.single_le_sum (f := fun j' => f i j' * f i j') (fun _ _ => mul_self_nonneg _)
      (Finset.mem_univ j)
  refine h1.trans ?_
  exact Finset.single_le_sum (f := fun i' => ∑ j', f i' j' * f i' j')
    (fun _ _ => Finset.sum_nonneg fun _ _ => mul_self_nonneg _) (Finset.mem_univ i)

theorem norm_sq_le (u : Pair h w) : ‖u‖ ^ 2 ≤ innC u u := by
  have h0 : 0 ≤ innC u u := by
    rw [innC_apply]
    exact add_nonneg (Finset.sum_nonneg fun _ _ => Finset.sum_nonneg fun _ _ => mul_self_nonneg _)
      (Finset.sum_nonneg fun _ _ => Finset.sum_nonneg fun _ _ => mul_self_nonneg _)
  have h1 : ‖u‖ ≤ Real.sqrt (innC u u) := by
    have hs := Real.sqrt_nonneg (innC u u)
    have a1 : 0 ≤ S (fun i j => u.1 i j * u.1 i j) :=
      Finset.sum_nonneg fun _ _ => Finset.sum_nonneg fun _ _ => mul_self_nonneg _
    have a2 : 0 ≤ S (fun i j => u.2 i j * u.2 i j) :=
      Finset.sum_nonneg fun _ _ => Finset.sum_nonneg fun _ _ => mul_self_nonneg _
    rw [Prod.norm_def]
    refine max_le ?_ ?_
    · refine (pi_norm_le_iff_of_nonneg hs).2 fun i => (pi_norm_le_iff_of_nonneg hs).2 fun j => ?_
      refine Real.le_sqrt_of_sq_le ?_
      rw [Real.norm_eq_abs, sq_abs, innC_apply]
      exact (sq_le_S u.1 i j).trans (by linarith)
    · refine (pi_norm_le_iff_of_nonneg hs).2 fun i => (pi_norm_le_iff_of_nonneg hs).2 fun j => ?_
      refine Real.le_sqrt_of_sq_le ?_
      rw [Real.norm_eq_abs, sq_abs, innC_apply]
      exact (sq_le_S u.2 i j).trans (by linarith)
  calc ‖u‖ ^ 2 ≤ Real.sqrt (innC u u) ^ 2 := by gcongr
    _ = innC u u := Real.sq_sqrt h0

theorem innC_bil (P : Params) (u : Pair h w) : innC u (bilC P u u) = 0 := by
  rw [bilC_apply, map_smul, innC_apply]
  dsimp only
  rw [S_jac_right, S_jac_right, add_zero, smul_zero]

/-- for every initial state the semi-discrete equations have a solution on every time interval -/
theorem exists_solutionU (P : Params) {T : ℝ} (hT : 0 ≤ T) (u0 : Pair h w) :
    ∃ Y : ℝ → Pair h w, Y 0 = u0 ∧ ODE.Solves (ODE.F (linC P) (bilC P)) T Y := by
  refine ODE.exists_solution (linC P) (bilC P) innC (2 * (‖(innC : Pair h w →L[ℝ] _)‖ * ‖(linC P : Pair h w →L[ℝ] _)‖)) norm_sq_le
    (fun u => ?_) hT u0
  have e : innC u (ODE.F (linC P) (bilC P) u) = innC u (linC P u) := by
    unfold ODE.F
    rw [map_add, innC_bil, add_zero]
  rw [innC_comm (ODE.F _ _ u) u, e]
  have h1 : innC u (linC P u) ≤ ‖(innC : Pair h w →L[ℝ] _)‖ * ‖(linC P : Pair h w →L[ℝ] _)‖ * innC u u := by
    have a1 := (le_abs_self _).trans (innC.le_opNorm₂ u (linC P u))
    have a2 := (linC P).le_opNorm u
    have a3 := norm_sq_le u
    calc innC u (linC P u) ≤ ‖(innC : Pair h w →L[ℝ] _)‖ * ‖u‖ * ‖linC P u‖ := a1
      _ ≤ ‖(innC : Pair h w →L[ℝ] _)‖ * ‖u‖ * (‖(linC P : Pair h w →L[ℝ] _)‖ * ‖u‖) := by gcongr
      _ = ‖(innC : Pair h w →L[ℝ] _)‖ * ‖(linC P : Pair h w →L[ℝ] _)‖ * ‖u‖ ^ 2 := by ring
      _ ≤ _ := by gcongr
  linarith

/-- differentiation of a pair of fields is pointwise -/
theorem hasDeriv_pair {Y : ℝ → Pair h w} {Y' : Pair h w} {s : Set ℝ} {t : ℝ} :
    HasDerivWithinAt Y Y' s t ↔
      ∀ i j, HasDerivWithinAt (fun x => (Y x).1 i j) (Y'.1 i j) s t ∧
        HasDerivWithinAt (fun x => (Y x).2 i j) (Y'.2 i j) s t := by
  constructor
  · intro H i j
    have h1 : HasDerivWithinAt (fun x => (Y x).1) Y'.1 s t :=
      (ContinuousLinearMap.fst ℝ (Fld h w) (Fld h w)).hasFDerivAt.comp_hasDerivWithinAt t H
    have h2 : HasDerivWithinAt (fun x => (Y x).2) Y'.2 s t :=
      (ContinuousLinearMap.snd ℝ (Fld h w) (Fld h w)).hasFDerivAt.comp_hasDerivWithinAt t H
    exact ⟨hasDerivWithinAt_pi.1 (hasDerivWithinAt_pi.1 h1 i) j,
      hasDerivWithinAt_pi.1 (hasDerivWithinAt_pi.1 h2 i) j⟩
  · intro H
    have h1 : HasDerivWithinAt (fun x => (Y x).1) Y'.1 s t :=
      hasDerivWithinAt_pi.2 fun i => hasDerivWithinAt_pi.2 fun j => (H i j).1
    have h2 : HasDerivWithinAt (fun x => (Y x).2) Y'.2 s t :=
      hasDerivWithinAt_pi.2 fun i => hasDerivWithinAt_pi.2 fun j => (H i j).2
    exact h1.prodMk h2

theorem abs_le_of_norm {u v : Pair h w} {r : ℝ} (H : ‖u - v‖ ≤ r) (i : ZMod h) (j : ZMod w) :
    |u.1 i j - v.1 i j| ≤ r ∧ |u.2 i j - v.2 i j| ≤ r := by
  have h1 : ‖u.1 - v.1‖ ≤ r := (norm_fst_le (u - v)).trans H
  have h2 : ‖u.2 - v.2‖ ≤ r := (norm_snd_le (u - v)).trans H
  exact ⟨(norm_le_pi_norm ((u.1 - v.1) i) j).trans ((norm_le_pi_norm (u.1 - v.1) i).trans h1),
    (norm_le_pi_norm ((u.2 - v.2) i) j).trans ((norm_le_pi_norm (u.2 - v.2) i).trans h2)⟩

end Verif
