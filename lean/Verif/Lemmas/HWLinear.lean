import Verif.Lemmas.HWField
import Mathlib.Algebra.BigOperators.Group.Finset.Basic
import Mathlib.Data.Nat.Factorial.Basic

/-!
# The time step on mean fields and on linear dynamics
-/

set_option linter.unusedSectionVars false

namespace Verif

open Arr Spec

variable {h w : ℕ} [NeZero h] [NeZero w]

/-! ### means after one step -/

theorem gradS_diff (P : Params) (hN : 1 ≤ P.N ∨ P.nu = 0) (dx0 dt : ℝ) (p : Fld h w) (s : Sta h w) :
    avg (gradS P dx0 dt p s).1 = avg (gradS P dx0 dt p s).2.1 := by
  unfold gradS
  simp only [avg_rhsN P hN, avg_rhsO P hN]

theorem rk4S_diff (P : Params) (hN : 1 ≤ P.N ∨ P.nu = 0) (dx0 dt : ℝ) (s : Sta h w) :
    avg (rk4S P dx0 dt s).1 - avg (rk4S P dx0 dt s).2.1 = avg s.1 - avg s.2.1 := by
  unfold rk4S
  simp only [Prod.fst_add, Prod.snd_add, Prod.smul_fst, Prod.smul_snd, avg_add', avg_smul',
    gradS_diff P hN]
  ring

theorem eulerS_diff (P : Params) (hN : 1 ≤ P.N ∨ P.nu = 0) (dx0 dt : ℝ) (p : Fld h w) (s : Sta h w) :
    avg (eulerS P dx0 dt p s).1 - avg (eulerS P dx0 dt p s).2.1 = avg s.1 - avg s.2.1 := by
  unfold eulerS
  simp only [Prod.fst_add, Prod.snd_add, Prod.smul_fst, Prod.smul_snd, avg_add', avg_smul',
    gradS_diff P hN]
  ring

theorem gradS_mean (P : Params) (hN : 1 ≤ P.N ∨ P.nu = 0) (dx0 dt : ℝ) (p : Fld h w) (s : Sta h w) :
    avg (gradS P dx0 dt p s).1 = c1m P * (avg p - avg s.1) := avg_rhsN P hN _ _

theorem rk4S_mean (P : Params) (hN : 1 ≤ P.N ∨ P.nu = 0) (dx0 dt : ℝ) (s : Sta h w)
    (hp : avg s.2.2.1 = 0 ∨ c1m P = 0) :
    avg (rk4S P dx0 dt s).1 = (1 - c1m P * dt + (c1m P * dt) ^ 2 / 2 - (c1m P * dt) ^ 3 / 6
      + (c1m P * dt) ^ 4 / 24) * avg s.1 := by
  unfold rk4S
  simp only [Prod.fst_add, Prod.smul_fst, avg_add', avg_smul', gradS_mean P hN, avg_phiF]
  rcases hp with hp | hp <;> rw [hp] <;> ring

theorem eulerS_mean (P : Params) (hN : 1 ≤ P.N ∨ P.nu = 0) (dx0 dt : ℝ) (p : Fld h w) (s : Sta h w)
    (hp : avg p = 0 ∨ c1m P = 0) :
    avg (eulerS P dx0 dt p s).1 = (1 - c1m P * dt) * avg s.1 := by
  unfold eulerS
  simp only [Prod.fst_add, Prod.smul_fst, avg_add', avg_smul', gradS_mean P hN]
  rcases hp with hp | hp <;> rw [hp] <;> ring

/-! ### linear dynamics -/

theorem phiF_add (dx : ℝ) (u v : Fld h w) : phiF dx (u + v) = phiF dx u + phiF dx v := by
  have := phiF_lin dx 1 1 0 u v
  simp only [one_mul, add_zero] at this
  exact this

theorem phiF_smul (dx c : ℝ) (u : Fld h w) : phiF dx (c • u) = c • phiF dx u := by
  have := phiF_lin dx c 0 0 u u
  simp only [zero_mul, add_zero] at this
  exact this

theorem lap_add (dx : ℝ) (f g : Fld h w) : lap dx (f + g) = lap dx f + lap dx g := by
  funext i j; simp only [lap, Pi.add_apply]; ring
theorem lap_smul (dx c : ℝ) (f : Fld h w) : lap dx (c • f) = c • lap dx f := by
  funext i j; simp only [lap, Pi.smul_apply, smul_eq_mul]; ring
theorem lapN_add (dx : ℝ) (N : ℕ) (f g : Fld h w) : (lap dx)^[N] (f + g) = (lap dx)^[N] f + (lap dx)^[N] g := by
  induction N generalizing f g with
  | zero => rfl
  | succ N ih => simp only [Function.iterate_succ_apply, lap_add, ih]
theorem lapN_smul (dx c : ℝ) (N : ℕ) (f : Fld h w) : (lap dx)^[N] (c • f) = c • (lap dx)^[N] f := by
  induction N generalizing f with
  | zero => rfl
  | succ N ih => simp only [Function.iterate_succ_apply, lap_smul, ih]

theorem hyper_add (P : Params) (f g : Fld h w) : hyper P (f + g) = hyper P f + hyper P g := by
  funext i j; simp only [hyper, lapN_add, Pi.add_apply]; ring
theorem hyper_smul (P : Params) (c : ℝ) (f : Fld h w) : hyper P (c • f) = c • hyper P f := by
  funext i j; simp only [hyper, lapN_smul, Pi.smul_apply, smul_eq_mul]; ring

theorem gradY_add (dx : ℝ) (f g : Fld h w) : gradY dx (f + g) = gradY dx f + gradY dx g := by
  funext i j; simp only [gradY, Pi.add_apply]; ring
theorem gradY_smul (dx c : ℝ) (f : Fld h w) : gradY dx (c • f) = c • gradY dx f := by
  funext i j; simp only [gradY, Pi.smul_apply, smul_eq_mul]; ring

theorem nonZonal_add (f g : Fld h w) : nonZonal (f + g) = nonZonal f + nonZonal g := by
  funext i j; simp only [nonZonal, Pi.add_apply, Finset.sum_add_distrib]; ring
theorem nonZonal_smul (c : ℝ) (f : Fld h w) : nonZonal (c • f) = c • nonZonal f := by
  funext i j; simp only [nonZonal, Pi.smul_apply, smul_eq_mul, ← Finset.mul_sum]; ring

theorem couple_add (z : Bool) (p q n m : Fld h w) :
    couple z (p + q) (n + m) = couple z p n + couple z q m := by
  cases z
  · funext i j; simp only [couple, Bool.false_eq_true, if_false, Pi.add_apply]; ring
  · funext i j; simp only [couple, if_true, nonZonal_add, Pi.add_apply]; ring
theorem couple_smul (z : Bool) (c : ℝ) (p n : Fld h w) : couple z (c • p) (c • n) = c • couple z p n := by
  cases z
  · funext i j; simp only [couple, Bool.false_eq_true, if_false, Pi.smul_apply, smul_eq_mul]; ring
  · funext i j; simp only [couple, if_true, nonZonal_smul, Pi.smul_apply, smul_eq_mul]; ring

/-- the right-hand side as a map of (density, vorticity), the potential being computed -/
noncomputable def rhsU (P : Params) (u : Fld h w × Fld h w) : Fld h w × Fld h w :=
  (rhsN P u.1 (phiF P.dx u.2), rhsO P u.1 u.2 (phiF P.dx u.2))

/-- linear part of the right-hand side -/
noncomputable def linU (P : Params) : (Fld h w × Fld h w) →ₗ[ℝ] (Fld h w × Fld h w) where
  toFun u := rhsU { P with pb := 0 } u
  map_add' u v := by
    refine Prod.ext ?_ ?_
    · funext i j
      simp only [rhsU, rhsN, Prod.fst_add, Prod.snd_add, phiF_add, couple_add, gradY_add, hyper_add,
        Pi.add_apply]
      ring
    · funext i j
      simp only [rhsU, rhsO, Prod.fst_add, Prod.snd_add, phiF_add, couple_add, hyper_add, Pi.add_apply]
      ring
  map_smul' c u := by
    refine Prod.ext ?_ ?_
    · funext i j
      simp only [rhsU, rhsN, Prod.smul_fst, Prod.smul_snd, phiF_smul, couple_smul, gradY_smul, hyper_smul,
        Pi.smul_apply, smul_eq_mul, RingHom.id_apply]
      ring
    · funext i j
      simp only [rhsU, rhsO, Prod.smul_fst, Prod.smul_snd, phiF_smul, couple_smul, hyper_smul,
        Pi.smul_apply, smul_eq_mul, RingHom.id_apply]
      ring

theorem rhsU_of_pb (P : Params) (hpb : P.pb = 0) (u : Fld h w × Fld h w) : rhsU P u = linU P u := by
  have : P = { P with pb := 0 } := by cases P; simp only at hpb; subst hpb; rfl
  change rhsU P u = rhsU { P with pb := 0 } u
  rw [← this]

/-- density and vorticity of a state -/
def prj (s : Sta h w) : Fld h w × Fld h w := (s.1, s.2.1)

theorem prj_add (s t : Sta h w) : prj (s + t) = prj s + prj t := rfl
theorem prj_smul (c : ℝ) (s : Sta h w) : prj (c • s) = c • prj s := rfl
theorem prj_gradS (P : Params) (dx0 dt : ℝ) (s : Sta h w) :
    prj (gradS P dx0 dt (phiF P.dx s.2.1) s) = rhsU P (prj s) := rfl

/-- one classical Runge–Kutta step for `u' = F u` -/
noncomputable def rk4U {E : Type} [AddCommGroup E] [Module ℝ E] (F : E → E) (dt : ℝ) (u : E) : E :=
  let k1 := dt • F u
  let k2 := dt • F ((1 / 2 : ℝ) • k1 + u)
  let k3 := dt • F ((1 / 2 : ℝ) • k2 + u)
  let k4 := dt • F (k3 + u)
  (1 / 6 : ℝ) • (k4 + ((2 : ℝ) • k3 + ((2 : ℝ) • k2 + k1))) + u

theorem prj_rk4S (P : Params) (dx0 dt : ℝ) (s : Sta h w) (hs : s.2.2.1 = phiF P.dx s.2.1) :
    prj (rk4S P dx0 dt s) = rk4U (rhsU P) dt (prj s) := by
  unfold rk4S rk4U
  rw [hs]
  rfl

theorem prj_eulerS (P : Params) (dx0 dt : ℝ) (s : Sta h w) (hs : s.2.2.1 = phiF P.dx s.2.1) :
    prj (eulerS P dx0 dt s.2.2.1 s) = dt • rhsU P (prj s) + prj s := by
  unfold eulerS
  rw [hs]
  rfl

theorem rk4U_linear {E : Type} [AddCommGroup E] [Module ℝ E] (A : E →ₗ[ℝ] E) (dt : ℝ) (u : E) :
    rk4U A dt u = ∑ k ∈ Finset.range 5, (dt ^ k / (k.factorial : ℝ)) • (A ^ k) u := by
  unfold rk4U
  simp only [Finset.sum_range_succ, Finset.range_zero, Finset.sum_empty, map_add, map_smul, pow_zero, pow_succ,
    Module.End.mul_apply, Module.End.one_apply, Nat.factorial, Nat.cast_one, one_mul]
  norm_num
  module

end Verif
