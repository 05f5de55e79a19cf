import Verif.Lemmas.Growth
import Mathlib.Analysis.Calculus.Deriv.Shift
import Mathlib.Analysis.Calculus.Deriv.Mul
import Mathlib.Analysis.Normed.Operator.Bilinear
import Mathlib.Analysis.Calculus.FDeriv.Bilinear
import Mathlib.Topology.Order.Compact
import Mathlib.Analysis.Calculus.Deriv.Linear
import Mathlib.Analysis.SpecialFunctions.Exp
import Mathlib.Analysis.Calculus.ContDiff.RCLike
import Mathlib.Analysis.Calculus.ContDiff.Operations
import Mathlib.Topology.Algebra.MetricSpace.Lipschitz
import Mathlib.Topology.MetricSpace.ProperSpace

/-!
# Order of the Runge–Kutta methods for a quadratic right-hand side
-/

namespace Verif.ODE

open Set

variable {E : Type*} [NormedAddCommGroup E] [NormedSpace ℝ E] (A : E →L[ℝ] E) (B : E →L[ℝ] E →L[ℝ] E)

/-- quadratic right-hand side -/
noncomputable def F (y : E) : E := A y + B y y
/-- its derivative -/
noncomputable def L (y v : E) : E := A v + B y v + B v y

/-- classical Runge–Kutta step -/
noncomputable def rk4 (F : E → E) (h : ℝ) (y : E) : E :=
  let g1 := F y
  let g2 := F (y + (h / 2) • g1)
  let g3 := F (y + (h / 2) • g2)
  let g4 := F (y + h • g3)
  y + (h / 6) • (g1 + (2 : ℝ) • g2 + (2 : ℝ) • g3 + g4)

/-- first to fifth derivative along a solution -/
noncomputable def e1 (y : E) : E := F A B y
noncomputable def e2 (y : E) : E := L A B y (e1 A B y)
noncomputable def e3 (y : E) : E := L A B y (e2 A B y) + (2 : ℝ) • B (e1 A B y) (e1 A B y)
noncomputable def e4 (y : E) : E := L A B y (e3 A B y)
  + (3 : ℝ) • (B (e1 A B y) (e2 A B y) + B (e2 A B y) (e1 A B y))
noncomputable def e5 (y : E) : E := L A B y (e4 A B y)
  + (4 : ℝ) • (B (e1 A B y) (e3 A B y) + B (e3 A B y) (e1 A B y)) + (6 : ℝ) • B (e2 A B y) (e2 A B y)

theorem F_add (y v : E) : F A B (y + v) = F A B y + L A B y v + B v v := by
  simp only [F, L, map_add, add_apply]; abel
theorem L_add (y u v : E) : L A B y (u + v) = L A B y u + L A B y v := by
  simp only [L, map_add, add_apply]; abel
theorem L_smul (y v : E) (c : ℝ) : L A B y (c • v) = c • L A B y v := by
  simp only [L, map_smul, smul_apply, smul_add]

/-- `h^5`-remainder of the Runge–Kutta step -/
noncomputable def R (h : ℝ) (y : E) : E :=
  let g := F A B y
  let p0 := (1 / 2 : ℝ) • L A B y g
  let p1 := (1 / 4 : ℝ) • B g g
  let p := p0 + h • p1
  let q0 := (1 / 2 : ℝ) • L A B y g
  let q1 := (1 / 2 : ℝ) • L A B y p0 + (1 / 4 : ℝ) • B g g
  let q2 := (1 / 2 : ℝ) • L A B y p1 + (1 / 4 : ℝ) • (B g p0 + B p0 g)
  let q3 := (1 / 4 : ℝ) • (B g p1 + B p1 g + B p p)
  let q := q0 + h • q1 + h ^ 2 • q2 + h ^ 3 • q3
  (1 / 6 : ℝ) • ((2 : ℝ) • q3 + L A B y q2 + h • L A B y q3 + B g q1 + h • B g q2 + h ^ 2 • B g q3
    + B q1 g + h • B q2 g + h ^ 2 • B q3 g + B q q)

theorem rk4_expand (h : ℝ) (y : E) :
    rk4 (F A B) h y = y + h • e1 A B y + (h ^ 2 / 2) • e2 A B y + (h ^ 3 / 6) • e3 A B y
      + (h ^ 4 / 24) • e4 A B y + h ^ 5 • R A B h y := by
  simp only [rk4, R, e1, e2, e3, e4]
  generalize hg : F A B y = g
  have hF : ∀ v, F A B (y + v) = g + L A B y v + B v v := fun v => by rw [F_add, hg]
  set p0 := (1 / 2 : ℝ) • L A B y g with hp0
  set p1 := (1 / 4 : ℝ) • B g g with hp1
  set p := p0 + h • p1 with hp
  set q1 := (1 / 2 : ℝ) • L A B y p0 + (1 / 4 : ℝ) • B g g with hq1
  set q2 := (1 / 2 : ℝ) • L A B y p1 + (1 / 4 : ℝ) • (B g p0 + B p0 g) with hq2
  set q3 := (1 / 4 : ℝ) • (B g p1 + B p1 g + B p p) with hq3
  set q := p0 + h • q1 + h ^ 2 • q2 + h ^ 3 • q3 with hq
  have h2 : F A B (y + (h / 2) • g) = g + h • p := by
    rw [hF, hp, hp0, hp1]
    simp only [L_smul, map_smul, smul_apply]
    module
  have hLp : L A B y p = L A B y p0 + h • L A B y p1 := by
    rw [hp, L_add, L_smul A B y p1 h]
  have hBgp : B g p = B g p0 + h • B g p1 := by rw [hp]; simp only [map_add, map_smul]
  have hBpg : B p g = B p0 g + h • B p1 g := by
    rw [hp]; simp only [map_add, map_smul, add_apply, smul_apply]
  have h3 : F A B (y + (h / 2) • (g + h • p)) = g + h • q := by
    rw [hF, L_smul, L_add, L_smul, hLp]
    simp only [map_add, map_smul, add_apply, smul_apply]
    rw [hBgp, hBpg, hq, hq1, hq2, hq3]
    have e : L A B y g = (2 : ℝ) • p0 := by rw [hp0]; module
    rw [e]
    module
  rw [h2, h3, hF, L_smul, L_add, L_smul]
  have hLq : L A B y q = L A B y p0 + h • L A B y q1 + h ^ 2 • L A B y q2 + h ^ 3 • L A B y q3 := by
    rw [hq]; simp only [L_add, L_smul]
  have hBgq : B g q = B g p0 + h • B g q1 + h ^ 2 • B g q2 + h ^ 3 • B g q3 := by
    rw [hq]; simp only [map_add, map_smul]
  have hBqg : B q g = B p0 g + h • B q1 g + h ^ 2 • B q2 g + h ^ 3 • B q3 g := by
    rw [hq]; simp only [map_add, map_smul, add_apply, smul_apply]
  have hLg : L A B y g = (2 : ℝ) • p0 := by rw [hp0]; module
  have hBgg : B g g = (4 : ℝ) • p1 := by rw [hp1]; module
  have hLp0 : L A B y p0 = (2 : ℝ) • q1 - (2 : ℝ) • p1 := by
    rw [hq1, hBgg]; module
  simp only [map_add, map_smul, add_apply, smul_apply, hLq, hBgq,
    hBqg, hLg, L_smul, hLp0, hBgg]
  have hLq1 : L A B y q1 = (1 / 2 : ℝ) • L A B y (L A B y p0) + L A B y p1 := by
    rw [hq1, hBgg]; simp only [L_add, L_smul]; module
  have hLLp0 : L A B y (L A B y p0) = (2 : ℝ) • L A B y q1 - (2 : ℝ) • L A B y p1 := by
    rw [hLq1]; module
  have hl : L A B y ((2 : ℝ) • ((2 : ℝ) • q1 - (2 : ℝ) • p1) + (2 : ℝ) • (4 : ℝ) • p1)
      = (4 : ℝ) • L A B y q1 + (4 : ℝ) • L A B y p1 := by
    have : (2 : ℝ) • ((2 : ℝ) • q1 - (2 : ℝ) • p1) + (2 : ℝ) • (4 : ℝ) • p1 = (4 : ℝ) • q1 + (4 : ℝ) • p1 := by
      module
    rw [this, L_add, L_smul, L_smul]
  rw [hl]
  have hq2' : (2 : ℝ) • q2 = L A B y p1 + (1 / 2 : ℝ) • (B g p0 + B p0 g) := by rw [hq2]; module
  have hLp1 : L A B y p1 = (2 : ℝ) • q2 - (1 / 2 : ℝ) • (B g p0 + B p0 g) := by rw [hq2']; module
  rw [hLp1, hq]
  module

/-! ### Taylor expansion of an exact solution -/

theorem taylor5 {T M : ℝ} (U : Fin 6 → ℝ → E)
    (hU : ∀ k : Fin 5, ∀ t ∈ Icc 0 T, HasDerivWithinAt (U k.castSucc) (U k.succ t) (Icc 0 T) t)
    (hM : ∀ t ∈ Icc 0 T, ‖U 5 t‖ ≤ M) {t : ℝ} (ht : t ∈ Icc 0 T) :
    ‖U 0 t - (U 0 0 + t • U 1 0 + (t ^ 2 / 2) • U 2 0 + (t ^ 3 / 6) • U 3 0 + (t ^ 4 / 24) • U 4 0)‖
      ≤ M * t ^ 5 / 120 := by
  have pw : ∀ (n : ℕ) (c : ℝ) (v : E) (t : ℝ), HasDerivWithinAt (fun t : ℝ => (t ^ (n + 1) / c) • v)
      (((n + 1 : ℝ) * t ^ n / c) • v) (Icc 0 T) t := by
    intro n c v t
    have := ((hasDerivAt_pow (n + 1) t).div_const c).smul_const v
    refine (this.congr_deriv ?_).hasDerivWithinAt
    push_cast; simp
  have b4 := growth (u := fun t => U 4 t - U 4 0) (u' := U 5) (c := M) (T := T) 0 (by simp)
    (fun t ht => (hU 4 t ht).sub_const _) (fun t ht => by simpa using hM t ht)
  have b3 := growth (u := fun t => U 3 t - (U 3 0 + (t ^ (0 + 1) / 1) • U 4 0)) (u' := fun t => U 4 t - U 4 0)
    (c := M) (T := T) 1 (by simp)
    (fun t ht => ((hU 3 t ht).sub ((pw 0 1 (U 4 0) t).const_add _)).congr_deriv (by simp))
    (fun t ht => (b4 t ht).trans_eq (by norm_num))
  have b2 := growth (u := fun t => U 2 t - (U 2 0 + (t ^ (0 + 1) / 1) • U 3 0 + (t ^ (1 + 1) / 2) • U 4 0))
    (u' := fun t => U 3 t - (U 3 0 + (t ^ (0 + 1) / 1) • U 4 0))
    (c := M / 2) (T := T) 2 (by simp)
    (fun t ht => ((hU 2 t ht).sub (((pw 0 1 (U 3 0) t).const_add _).add (pw 1 2 (U 4 0) t))).congr_deriv
      (by simp only [Nat.cast_zero, Nat.cast_one]; norm_num; rfl))
    (fun t ht => (b3 t ht).trans_eq (by norm_num; ring))
  have b1 := growth (u := fun t => U 1 t - (U 1 0 + (t ^ (0 + 1) / 1) • U 2 0 + (t ^ (1 + 1) / 2) • U 3 0
      + (t ^ (2 + 1) / 6) • U 4 0))
    (u' := fun t => U 2 t - (U 2 0 + (t ^ (0 + 1) / 1) • U 3 0 + (t ^ (1 + 1) / 2) • U 4 0))
    (c := M / 6) (T := T) 3 (by simp)
    (fun t ht => ((hU 1 t ht).sub ((((pw 0 1 (U 2 0) t).const_add _).add (pw 1 2 (U 3 0) t)).add
      (pw 2 6 (U 4 0) t))).congr_deriv (by
        congr 1
        have : (((2 : ℕ) : ℝ) + 1) * t ^ 2 / 6 = t ^ (1 + 1) / 2 := by push_cast; ring
        rw [this]
        have : (((1 : ℕ) : ℝ) + 1) * t ^ 1 / 2 = t ^ (0 + 1) / 1 := by push_cast; ring
        rw [this]
        simp))
    (fun t ht => (b2 t ht).trans_eq (by push_cast; ring))
  have b0 := growth (u := fun t => U 0 t - (U 0 0 + (t ^ (0 + 1) / 1) • U 1 0 + (t ^ (1 + 1) / 2) • U 2 0
      + (t ^ (2 + 1) / 6) • U 3 0 + (t ^ (3 + 1) / 24) • U 4 0))
    (u' := fun t => U 1 t - (U 1 0 + (t ^ (0 + 1) / 1) • U 2 0 + (t ^ (1 + 1) / 2) • U 3 0
      + (t ^ (2 + 1) / 6) • U 4 0))
    (c := M / 24) (T := T) 4 (by simp)
    (fun t ht => ((hU 0 t ht).sub (((((pw 0 1 (U 1 0) t).const_add _).add (pw 1 2 (U 2 0) t)).add
      (pw 2 6 (U 3 0) t)).add (pw 3 24 (U 4 0) t))).congr_deriv (by
        congr 1
        have : (((3 : ℕ) : ℝ) + 1) * t ^ 3 / 24 = t ^ (2 + 1) / 6 := by push_cast; ring
        rw [this]
        have : (((2 : ℕ) : ℝ) + 1) * t ^ 2 / 6 = t ^ (1 + 1) / 2 := by push_cast; ring
        rw [this]
        have : (((1 : ℕ) : ℝ) + 1) * t ^ 1 / 2 = t ^ (0 + 1) / 1 := by push_cast; ring
        rw [this]
        simp))
    (fun t ht => (b1 t ht).trans_eq (by push_cast; ring))
  have := b0 t ht
  simp only [zero_add, pow_one, div_one] at this
  exact this.trans_eq (by push_cast; ring)

section along
variable {A B} {u v : ℝ → E} {u' v' : E} {s : Set ℝ} {t : ℝ}

theorem deriv_lin (hu : HasDerivWithinAt u u' s t) : HasDerivWithinAt (fun t => A (u t)) (A u') s t :=
  A.hasFDerivAt.comp_hasDerivWithinAt t hu

theorem deriv_bil (hu : HasDerivWithinAt u u' s t) (hv : HasDerivWithinAt v v' s t) :
    HasDerivWithinAt (fun t => B (u t) (v t)) (B u' (v t) + B (u t) v') s t :=
  (B.hasFDerivAt.comp_hasDerivWithinAt t hu).clm_apply hv

theorem deriv_L (hu : HasDerivWithinAt u u' s t) (hv : HasDerivWithinAt v v' s t) :
    HasDerivWithinAt (fun t => L A B (u t) (v t)) (L A B (u t) v' + (B u' (v t) + B (v t) u')) s t := by
  have := ((deriv_lin (A := A) hv).add (deriv_bil (B := B) hu hv)).add (deriv_bil (B := B) hv hu)
  refine this.congr_deriv ?_
  simp only [L]; abel

variable {Y : ℝ → E} (hY : HasDerivWithinAt Y (F A B (Y t)) s t)
include hY

theorem deriv_e1 : HasDerivWithinAt (fun t => e1 A B (Y t)) (e2 A B (Y t)) s t := by
  have := (deriv_lin (A := A) hY).add (deriv_bil (B := B) hY hY)
  refine this.congr_deriv ?_
  simp only [e2, L, e1]; abel

theorem deriv_e2 : HasDerivWithinAt (fun t => e2 A B (Y t)) (e3 A B (Y t)) s t := by
  have := deriv_L (A := A) (B := B) hY (deriv_e1 hY)
  refine this.congr_deriv ?_
  simp only [e3, e1]
  module

theorem deriv_e3 : HasDerivWithinAt (fun t => e3 A B (Y t)) (e4 A B (Y t)) s t := by
  have := (deriv_L (A := A) (B := B) hY (deriv_e2 hY)).add
    ((deriv_bil (B := B) (deriv_e1 hY) (deriv_e1 hY)).const_smul (2 : ℝ))
  refine this.congr_deriv ?_
  have e : F A B (Y t) = e1 A B (Y t) := rfl
  rw [e, e4]
  module

theorem deriv_e4 : HasDerivWithinAt (fun t => e4 A B (Y t)) (e5 A B (Y t)) s t := by
  have := (deriv_L (A := A) (B := B) hY (deriv_e3 hY)).add
    (((deriv_bil (B := B) (deriv_e1 hY) (deriv_e2 hY)).add
      (deriv_bil (B := B) (deriv_e2 hY) (deriv_e1 hY))).const_smul (3 : ℝ))
  refine this.congr_deriv ?_
  have e : F A B (Y t) = e1 A B (Y t) := rfl
  rw [e, e5]
  module

end along

/-- `Y` solves `Y' = F(Y)` on `[0, T]` -/
def Solves (F : E → E) (T : ℝ) (Y : ℝ → E) : Prop :=
  ∀ t ∈ Icc 0 T, HasDerivWithinAt Y (F (Y t)) (Icc 0 T) t

theorem Solves.shift {F : E → E} {T : ℝ} {Y : ℝ → E} (hY : Solves F T Y) {t0 : ℝ} (h0 : 0 ≤ t0) :
    Solves F (T - t0) fun t => Y (t0 + t) := by
  intro t ht
  have h1 : t0 + t ∈ Icc 0 T := ⟨by linarith [ht.1], by linarith [ht.2]⟩
  have h2 : HasDerivWithinAt (fun t => t0 + t) 1 (Icc 0 (T - t0)) t :=
    ((hasDerivAt_id t).const_add t0).hasDerivWithinAt
  have := (hY _ h1).scomp t h2 (fun x hx => ⟨by linarith [hx.1], by linarith [hx.2]⟩)
  exact this.congr_deriv (one_smul _ _)

theorem continuous_e5 : Continuous (e5 A B) := by
  unfold e5 e4 e3 e2 e1 L F
  fun_prop

theorem continuous_R : Continuous fun z : ℝ × E => R A B z.1 z.2 := by
  unfold R L F
  fun_prop

theorem Solves.continuousOn {F : E → E} {T : ℝ} {Y : ℝ → E} (hY : Solves F T Y) :
    ContinuousOn Y (Icc 0 T) := fun t ht => (hY t ht).continuousWithinAt

attribute [local irreducible] R e5 e4 e3 e2 in
/-- **local error of the Runge–Kutta step**, uniformly along a solution -/
theorem rk4_local {T : ℝ} {Y : ℝ → E} (hY : Solves (F A B) T Y) :
    ∃ C, 0 ≤ C ∧ ∀ t dt, 0 ≤ t → 0 ≤ dt → t + dt ≤ T →
      ‖rk4 (F A B) dt (Y t) - Y (t + dt)‖ ≤ C * dt ^ 5 := by
  have hc := hY.continuousOn
  obtain ⟨M, hM⟩ := (isCompact_Icc.bddAbove_image
    ((continuous_e5 A B).norm.comp_continuousOn hc) : BddAbove _)
  have hK : IsCompact (Icc (0 : ℝ) T ×ˢ Icc (0 : ℝ) T) := isCompact_Icc.prod isCompact_Icc
  have hcR : ContinuousOn (fun z : ℝ × ℝ => ‖R A B z.2 (Y z.1)‖) (Icc (0 : ℝ) T ×ˢ Icc (0 : ℝ) T) := by
    have h1 : ContinuousOn (fun z : ℝ × ℝ => (z.2, Y z.1)) (Icc (0 : ℝ) T ×ˢ Icc (0 : ℝ) T) :=
      continuous_snd.continuousOn.prodMk (hc.comp continuous_fst.continuousOn fun z hz => hz.1)
    exact ContinuousOn.norm (Continuous.comp_continuousOn (f := fun z : ℝ × ℝ => (z.2, Y z.1))
      (g := fun z : ℝ × E => R A B z.1 z.2) (continuous_R A B) h1)
  obtain ⟨N, hN⟩ := hK.bddAbove_image hcR
  refine ⟨|M| / 120 + |N|, by positivity, fun t dt h0 hdt hT => ?_⟩
  have ht : t ∈ Icc 0 T := ⟨h0, by linarith⟩
  have hS := hY.shift h0
  have hT' : dt ∈ Icc 0 (T - t) := ⟨hdt, by linarith⟩
  have tay := taylor5 (T := T - t) (M := |M|)
    (U := ![fun s => Y (t + s), fun s => e1 A B (Y (t + s)), fun s => e2 A B (Y (t + s)),
      fun s => e3 A B (Y (t + s)), fun s => e4 A B (Y (t + s)), fun s => e5 A B (Y (t + s))])
    (fun k s hs => by
      have := hS s hs
      fin_cases k
      · exact this
      · exact deriv_e1 this
      · exact deriv_e2 this
      · exact deriv_e3 this
      · exact deriv_e4 this)
    (fun s hs => by
      have h1 : t + s ∈ Icc 0 T := ⟨by linarith [hs.1], by linarith [hs.2]⟩
      exact (hM (mem_image_of_mem _ h1)).trans (le_abs_self M)) hT'
  have tay' : ‖Y (t + dt) - (Y t + dt • e1 A B (Y t) + (dt ^ 2 / 2) • e2 A B (Y t)
      + (dt ^ 3 / 6) • e3 A B (Y t) + (dt ^ 4 / 24) • e4 A B (Y t))‖ ≤ |M| * dt ^ 5 / 120 := by
    have e : t + (0 : ℝ) = t := add_zero t
    have := tay
    simp only [Matrix.cons_val_zero, Matrix.cons_val_one, Matrix.cons_val] at this
    rw [e] at this
    exact this
  have hR : ‖R A B dt (Y t)‖ ≤ |N| :=
    (hN (mem_image_of_mem _ (show (t, dt) ∈ Icc (0 : ℝ) T ×ˢ Icc (0 : ℝ) T from
      ⟨ht, hdt, by linarith⟩))).trans (le_abs_self N)
  have e : rk4 (F A B) dt (Y t) - Y (t + dt) = dt ^ 5 • R A B dt (Y t)
      - (Y (t + dt) - (Y t + dt • e1 A B (Y t) + (dt ^ 2 / 2) • e2 A B (Y t)
      + (dt ^ 3 / 6) • e3 A B (Y t) + (dt ^ 4 / 24) • e4 A B (Y t))) := by
    rw [rk4_expand]; abel
  rw [e]
  refine (norm_sub_le _ _).trans ?_
  rw [norm_smul, Real.norm_of_nonneg (by positivity)]
  have : dt ^ 5 * ‖R A B dt (Y t)‖ ≤ dt ^ 5 * |N| := mul_le_mul_of_nonneg_left hR (by positivity)
  calc _ ≤ dt ^ 5 * |N| + |M| * dt ^ 5 / 120 := add_le_add this tay'
    _ = _ := by ring

/-- explicit Euler step -/
noncomputable def euler (F : E → E) (h : ℝ) (y : E) : E := y + h • F y

/-- **local error of the Euler step** -/
theorem euler_local {T : ℝ} {Y : ℝ → E} (hY : Solves (F A B) T Y) :
    ∃ C, 0 ≤ C ∧ ∀ t dt, 0 ≤ t → 0 ≤ dt → t + dt ≤ T →
      ‖euler (F A B) dt (Y t) - Y (t + dt)‖ ≤ C * dt ^ 2 := by
  have hc := hY.continuousOn
  have c2 : Continuous (e2 A B) := by unfold e2 e1 L F; fun_prop
  obtain ⟨M, hM⟩ := (isCompact_Icc.bddAbove_image (c2.norm.comp_continuousOn hc) : BddAbove _)
  refine ⟨|M| / 2, by positivity, fun t dt h0 hdt hT => ?_⟩
  have hS := hY.shift h0
  have hT' : dt ∈ Icc 0 (T - t) := ⟨hdt, by linarith⟩
  have b1 := growth (u := fun s => e1 A B (Y (t + s)) - e1 A B (Y t)) (u' := fun s => e2 A B (Y (t + s)))
    (c := |M|) (T := T - t) 0 (by simp) (fun s hs => (deriv_e1 (hS s hs)).sub_const _)
    (fun s hs => by
      have h1 : t + s ∈ Icc 0 T := ⟨by linarith [hs.1], by linarith [hs.2]⟩
      rw [pow_zero, mul_one]
      exact (hM (mem_image_of_mem _ h1)).trans (le_abs_self M))
  have b0 := growth (u := fun s => Y (t + s) - (Y t + s • e1 A B (Y t)))
    (u' := fun s => e1 A B (Y (t + s)) - e1 A B (Y t)) (c := |M|) (T := T - t) 1 (by simp)
    (fun s hs => (hS s hs).sub ((((hasDerivAt_id s).smul_const (e1 A B (Y t))).hasDerivWithinAt.const_add
      _).congr_deriv (one_smul _ _)))
    (fun s hs => (b1 s hs).trans_eq (by norm_num))
  have := b0 dt hT'
  rw [norm_sub_rev]
  exact this.trans_eq (by norm_num; ring)

end Verif.ODE
