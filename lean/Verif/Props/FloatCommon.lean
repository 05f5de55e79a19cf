import Verif.Lemmas.HWFloat
import Verif.Props.Perturb

/-!
# The exact step as the limit of the computed ones
-/

set_option linter.unusedSectionVars false

namespace Verif.Props

open Arr NS Spec Set Gen Rounding Accurate

variable {hw : HW} {dx : ℝ} {h w : ℕ} [NeZero h] [NeZero w]

/-- the coefficients of a solver object -/
def coef (hw : HW) : Coeffs ℝ := ⟨hw.N, hw.c1, hw.nu, hw.poisson_bracket_coeff, hw.kappa_coeff, hw.zonal⟩

/-- a Fourier multiplier as a linear map -/
noncomputable def multL (s : ZMod h → ZMod w → ℝ) : Fld h w →ₗ[ℝ] Fld h w where
  toFun f := mult s f
  map_add' f g := by
    funext i j
    have e : cx (f + g) = fun i j => cx f i j + cx g i j := by
      funext i j; simp only [cx, Pi.add_apply]; push_cast; rfl
    unfold mult
    rw [e, D_add]
    simp only [mul_add]
    rw [ID_add]
    rfl
  map_smul' c f := by
    funext i j
    have e : cx (c • f) = fun i j => (c : ℂ) * cx f i j := by
      funext i j; simp only [cx, Pi.smul_apply, smul_eq_mul]; push_cast; rfl
    unfold mult
    rw [e, D_smul]
    have e2 : (fun k l => (s k l : ℂ) * ((c : ℂ) * D (cx f) k l)) = fun k l => (c : ℂ) * ((s k l : ℂ) * D (cx f) k l) := by
      funext k l; ring
    rw [e2, ID_smul]
    simp

/-- the exact Poisson solver on all fields -/
theorem solver_exists {b : Backend} (hb : Std b h w) (dx : ℝ) : ∃ E : Fld h w →ₗ[ℝ] Fld h w,
    (∀ f : Fld h w, b.poisson_solver (ofField f) dx = .ok (ofField (E f))) ∧
    ∀ o : Fld h w, E (fun i j => o i j - avg o) = phiF dx o := by
  have key : ∀ s : ZMod h → ZMod w → ℝ, (∀ f : Fld h w, b.poisson_solver (ofField f) dx
      = .ok (ofField fun i j => mult s f i j * dx ^ 2)) → ∃ E : Fld h w →ₗ[ℝ] Fld h w,
      ∀ f : Fld h w, b.poisson_solver (ofField f) dx = .ok (ofField (E f)) := by
    intro s hs
    refine ⟨dx ^ 2 • multL s, fun f => ?_⟩
    rw [hs]
    congr 2
    funext i j
    exact mul_comm _ _
  have : ∃ E : Fld h w →ₗ[ℝ] Fld h w, ∀ f : Fld h w, b.poisson_solver (ofField f) dx = .ok (ofField (E f)) := by
    rcases hb with rfl | ⟨rfl, hh, hw⟩
    · exact key (sig 1) fun f => numpy_poisson_ofField f dx 1
    · exact key (sigNumba 1) fun f => numba_poisson_ofField hh hw f dx 1
  obtain ⟨E, hE⟩ := this
  refine ⟨E, hE, fun o => ?_⟩
  have := hE fun i j => o i j - avg o
  rw [hb.good.solver _ _ (S_center o)] at this
  injection this with this
  exact (ofField_inj this).symm

section link
variable {E : Fld h w →ₗ[ℝ] Fld h w}

theorem coup_ex (P : Coeffs ℝ) (p n : Fld h w) : coupG (exFa E) P p n = couple P.zonal p n := rfl

theorem br_ex (P : Coeffs ℝ) (dx : ℝ) (x p f : Fld h w) (i : ZMod h) (j : ZMod w) :
    brG (exFa E) P dx x p f i j = x i j - P.poisson_bracket_coeff * jac dx p f i j := by
  unfold brG exFa
  by_cases t : P.poisson_bracket_coeff = 0
  · simp [t]
  · simp only [ne_eq, t, not_false_eq_true, decide_true, if_true, addG, mulG]; ring

theorem dif_ex (P : Coeffs ℝ) (dx : ℝ) (x f : Fld h w) (i : ZMod h) (j : ZMod w) :
    difG (exFa E) P dx x f i j = x i j + P.nu * ((lap dx)^[P.N] f) i j := by
  unfold difG exFa
  by_cases t : P.nu = 0
  · simp [t]
  · simp only [ne_eq, t, not_false_eq_true, decide_true, if_true, addG, mulG]

theorem kap_ex (P : Coeffs ℝ) (dx : ℝ) (x p : Fld h w) (i : ZMod h) (j : ZMod w) :
    kapG (exFa E) P dx x p i j = x i j - P.kappa_coeff * gradY dx p i j := by
  unfold kapG exFa
  by_cases t : P.kappa_coeff = 0
  · simp [t]
  · simp only [ne_eq, t, not_false_eq_true, decide_true, if_true, addG, mulG]; ring

theorem rhn_ex (n p : Fld h w) : rhnG (exFa E) (coef hw) dx n p = rhsN (parOf hw dx) n p := by
  funext i j
  unfold rhnG rhsN
  rw [dif_ex, kap_ex, br_ex, hyper_parOf]
  rfl

theorem rho_ex (n o p : Fld h w) : rhoG (exFa E) (coef hw) dx n o p = rhsO (parOf hw dx) n o p := by
  funext i j
  unfold rhoG rhsO
  rw [dif_ex, br_ex, hyper_parOf]
  rfl

theorem phi_ex (hE : ∀ o : Fld h w, E (fun i j => o i j - avg o) = phiF dx o) (o : Fld h w) :
    phiG (exFa E) o = phiF dx o := hE o

theorem euler_ex (dt dx0 : ℝ) (s : Sta h w) :
    eulerY (exFa E) (coef hw) dx dt (prj s) s.2.2.1 = prj (stepS (parOf hw dx) dx0 (.euler dt) s) := by
  unfold eulerY sumG slopeG
  rw [rhn_ex, rho_ex]
  rfl

theorem rk4_ex (hE : ∀ o : Fld h w, E (fun i j => o i j - avg o) = phiF dx o) (dt dx0 : ℝ) (s : Sta h w) :
    rk4Y (exFa E) (coef hw) dx dt (prj s) s.2.2.1 = prj (stepS (parOf hw dx) dx0 (.rk4 dt) s) := by
  have e1 : ∀ n o p : Fld h w, slopeG (exFa E) (coef hw) dx dt n o p
      = dt • ((rhsN (parOf hw dx) n p, rhsO (parOf hw dx) n o p) : Fld h w × Fld h w) := fun n o p => by
    unfold slopeG; rw [rhn_ex, rho_ex]; rfl
  have e2 : ∀ y : Fld h w × Fld h w, slopePhiG (exFa E) (coef hw) dx dt y = dt • rhsU (parOf hw dx) y := fun y => by
    unfold slopePhiG; rw [e1, phi_ex hE]; rfl
  have e3 : ∀ (c : ℝ) (y k : Fld h w × Fld h w), stageG c y k = c • k + y := fun _ _ _ => rfl
  have e4 : ∀ (y k : Fld h w × Fld h w), sumG y k = k + y := fun _ _ => rfl
  unfold rk4Y
  simp only [e1, e2, e3, e4, Nat.cast_ofNat, Nat.cast_one]
  rfl

end link

end Verif.Props
