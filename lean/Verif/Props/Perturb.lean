import Verif.Lemmas.Perturb
import Verif.Props.Convergence

/-!
# Property theorem C98: errors made in every step stay small

A computed simulation is a sequence of states each of which is what one call of the time stepper
returns for the state before, up to an error of at most `ε` in every entry of density, vorticity and
potential (for instance the accumulated rounding errors of the call).
-/

set_option linter.unusedSectionVars false

namespace Verif.Props

open Arr NS Spec Set

variable {hw : HW} {dx : ℝ} {h w : ℕ}

/-- density, vorticity and potential of two states differ by at most `ε` at every grid point -/
def CloseStates (h w : ℕ) (ε : ℝ) (s s' : NS Val) : Prop :=
  ∀ i j, i < h → j < w →
    |(arrOf s "density").at' i j - (arrOf s' "density").at' i j| ≤ ε ∧
    |(arrOf s "omega").at' i j - (arrOf s' "omega").at' i j| ≤ ε ∧
    |(arrOf s "phi").at' i j - (arrOf s' "phi").at' i j| ≤ ε

/-- `p 0, p 1, …` are states, each of them what the step `a` returns for the one before up to an error of
at most `ε` in every entry -/
def ComputedRun (hw : HW) (dx : ℝ) (h w : ℕ) (a : Step) (ε : ℝ) (p : ℕ → NS Val) : Prop :=
  ∀ j, IsState hw.TEST_CONSERVATION h w (p j) ∧
    ∀ c, ∃ s' c', a.run hw dx (p j) c = .ok (s', c') ∧ CloseStates h w ε (p (j + 1)) s'

section fields
variable [NeZero h] [NeZero w]

/-- linear part of the right-hand side in density, vorticity and potential -/
noncomputable def lin3 (P : Params) : (Pair h w × Fld h w) →ₗ[ℝ] Pair h w where
  toFun u := (rhsN { P with pb := 0 } u.1.1 u.2, rhsO { P with pb := 0 } u.1.1 u.1.2 u.2)
  map_add' u v := by
    refine Prod.ext ?_ ?_
    · funext i j
      simp only [rhsN, Prod.fst_add, Prod.snd_add, couple_add, gradY_add, hyper_add, Pi.add_apply]
      ring
    · funext i j
      simp only [rhsO, Prod.fst_add, Prod.snd_add, couple_add, hyper_add, Pi.add_apply]
      ring
  map_smul' c u := by
    refine Prod.ext ?_ ?_
    · funext i j
      simp only [rhsN, Prod.smul_fst, Prod.smul_snd, couple_smul, gradY_smul, hyper_smul, Pi.smul_apply,
        smul_eq_mul, RingHom.id_apply]
      ring
    · funext i j
      simp only [rhsO, Prod.smul_fst, Prod.smul_snd, couple_smul, hyper_smul, Pi.smul_apply, smul_eq_mul,
        RingHom.id_apply]
      ring

/-- advection of a pair by a potential -/
noncomputable def bil3 (P : Params) : Fld h w →ₗ[ℝ] Pair h w →ₗ[ℝ] Pair h w :=
  LinearMap.mk₂ ℝ (fun p v => (-P.pb) • (jac P.dx p v.1, jac P.dx p v.2))
    (fun p p' v => by rw [jac_add_left, jac_add_left, ← smul_add, Prod.mk_add_mk])
    (fun c p v => by rw [jac_smul_left, jac_smul_left, smul_comm c]; rfl)
    (fun p v v' => by rw [Prod.fst_add, Prod.snd_add, jac_add_right, jac_add_right, ← smul_add, Prod.mk_add_mk])
    (fun c p v => by rw [Prod.smul_fst, Prod.smul_snd, jac_smul_right, jac_smul_right, smul_comm c]; rfl)

/-- the right-hand side with a given potential -/
noncomputable def rhs3 (P : Params) (u : Pair h w × Fld h w) : Pair h w :=
  (rhsN P u.1.1 u.2, rhsO P u.1.1 u.1.2 u.2)

theorem rhs3_contDiff (P : Params) : ContDiff ℝ 1 (rhs3 P : Pair h w × Fld h w → Pair h w) := by
  have e : (rhs3 P : Pair h w × Fld h w → Pair h w) = fun u =>
      (lin3 P).toContinuousLinearMap u + (bil3 P).toContinuousBilinearMap u.2 u.1 := by
    funext u
    refine Prod.ext ?_ ?_
    · funext i j
      change rhsN P u.1.1 u.2 i j = rhsN { P with pb := 0 } u.1.1 u.2 i j + -P.pb * jac P.dx u.2 u.1.1 i j
      simp only [rhsN, hyper]
      ring
    · funext i j
      change rhsO P u.1.1 u.1.2 u.2 i j = rhsO { P with pb := 0 } u.1.1 u.1.2 u.2 i j + -P.pb * jac P.dx u.2 u.1.2 i j
      simp only [rhsO, hyper]
      ring
  rw [e]
  fun_prop

/-- the potential as a linear map -/
noncomputable def phiC (dx : ℝ) : Pair h w →L[ℝ] Fld h w :=
  LinearMap.toContinuousLinearMap
    { toFun := fun u => phiF dx u.2
      map_add' := fun u v => phiF_add dx u.2 v.2
      map_smul' := fun c u => phiF_smul dx c u.2 }

theorem phiC_apply (dx : ℝ) (u : Pair h w) : phiC dx u = phiF dx u.2 := rfl

/-- increment of `rk4_step` -/
noncomputable def incRk4 (P : Params) (z : ℝ × Pair h w × Fld h w) : Pair h w :=
  (1 / 6 : ℝ) • (rhsU P (z.2.1 + z.1 • rhsU P (z.2.1 + (z.1 / 2) • rhsU P (z.2.1 + (z.1 / 2) • rhs3 P z.2)))
    + (2 : ℝ) • rhsU P (z.2.1 + (z.1 / 2) • rhsU P (z.2.1 + (z.1 / 2) • rhs3 P z.2))
    + (2 : ℝ) • rhsU P (z.2.1 + (z.1 / 2) • rhs3 P z.2) + rhs3 P z.2)

theorem incRk4_contDiff (P : Params) : ContDiff ℝ 1 (incRk4 P : ℝ × Pair h w × Fld h w → Pair h w) := by
  have hF : ContDiff ℝ 1 (rhsU P : Pair h w → Pair h w) := by rw [rhsU_eq]; exact ODE.contDiff_F _ _
  have g1 : ContDiff ℝ 1 fun z : ℝ × Pair h w × Fld h w => rhs3 P z.2 := (rhs3_contDiff P).comp contDiff_snd
  have c1 : ContDiff ℝ 1 fun z : ℝ × Pair h w × Fld h w => z.2.1 := contDiff_fst.comp contDiff_snd
  have g2 : ContDiff ℝ 1 fun z : ℝ × Pair h w × Fld h w => rhsU P (z.2.1 + (z.1 / 2) • rhs3 P z.2) :=
    hF.comp (c1.add ((contDiff_fst.div_const 2).smul g1))
  have g3 : ContDiff ℝ 1 fun z : ℝ × Pair h w × Fld h w =>
      rhsU P (z.2.1 + (z.1 / 2) • rhsU P (z.2.1 + (z.1 / 2) • rhs3 P z.2)) :=
    hF.comp (c1.add ((contDiff_fst.div_const 2).smul g2))
  have g4 : ContDiff ℝ 1 fun z : ℝ × Pair h w × Fld h w =>
      rhsU P (z.2.1 + z.1 • rhsU P (z.2.1 + (z.1 / 2) • rhsU P (z.2.1 + (z.1 / 2) • rhs3 P z.2))) :=
    hF.comp (c1.add (contDiff_fst.smul g3))
  exact (((g4.add (g3.const_smul (2 : ℝ))).add (g2.const_smul (2 : ℝ))).add g1).const_smul (1 / 6 : ℝ)

theorem histS_iterate (P : Params) (dx0 : ℝ) (a : Step) (k : ℕ) (u : Sta h w) :
    histS P dx0 (List.replicate k a) u = (stepS P dx0 a)^[k] u := by
  induction k generalizing u with
  | zero => rfl
  | succ k ih => rw [List.replicate_succ, Function.iterate_succ_apply, ← ih]; rfl

theorem iterate_phi (P : Params) (dx0 : ℝ) (a : Step) (k : ℕ) {u : Sta h w} (hu : u.2.2.1 = phiF P.dx u.2.1) :
    ((stepS P dx0 a)^[k] u).2.2.1 = phiF P.dx ((stepS P dx0 a)^[k] u).2.1 := by
  cases k with
  | zero => exact hu
  | succ k => rw [Function.iterate_succ_apply']; exact stepS_phi ..

theorem norm_fld_le {f : Fld h w} {r : ℝ} (hr : 0 ≤ r) (H : ∀ i j, |f i j| ≤ r) : ‖f‖ ≤ r :=
  (pi_norm_le_iff_of_nonneg hr).2 fun i => (pi_norm_le_iff_of_nonneg hr).2 fun j => H i j

theorem close_norm {ks ks' : List String} {t t' : Bool} {s s' : Sta h w} {ε : ℝ} (hε : 0 ≤ ε) (hk : GoodKeys ks t)
    (hk' : GoodKeys ks' t') (H : CloseStates h w ε (NS.mk ks (st s)) (NS.mk ks' (st s'))) :
    ‖prj s - prj s'‖ ≤ ε ∧ ‖s.2.2.1 - s'.2.2.1‖ ≤ ε := by
  have H' : ∀ i j, |s.1 i j - s'.1 i j| ≤ ε ∧ |s.2.1 i j - s'.2.1 i j| ≤ ε ∧ |s.2.2.1 i j - s'.2.2.1 i j| ≤ ε := by
    intro i j
    have := H i.val j.val (ZMod.val_lt i) (ZMod.val_lt j)
    rw [arrOf_density hk, arrOf_omega hk, arrOf_phi hk, arrOf_density hk', arrOf_omega hk', arrOf_phi hk'] at this
    simp only [ofField_at' _ (ZMod.val_lt i) (ZMod.val_lt j), ZMod.natCast_zmod_val] at this
    exact this
  refine ⟨?_, norm_fld_le hε fun i j => (H' i j).2.2⟩
  rw [Prod.norm_def]
  exact max_le (norm_fld_le hε fun i j => (H' i j).1) (norm_fld_le hε fun i j => (H' i j).2.1)

theorem close_of_norm {ks ks' : List String} {t t' : Bool} {s s' : Sta h w} {ε : ℝ} (hk : GoodKeys ks t)
    (hk' : GoodKeys ks' t') (H1 : ‖prj s - prj s'‖ ≤ ε) (H2 : ‖s.2.2.1 - s'.2.2.1‖ ≤ ε) :
    CloseStates h w ε (NS.mk ks (st s)) (NS.mk ks' (st s')) := by
  intro i j hi hj
  rw [arrOf_density hk, arrOf_omega hk, arrOf_phi hk, arrOf_density hk', arrOf_omega hk', arrOf_phi hk']
  simp only [ofField_at' _ hi hj]
  obtain ⟨a, b⟩ := abs_le_of_norm H1 (i : ZMod h) (j : ZMod w)
  exact ⟨a, b, (norm_le_pi_norm ((s.2.2.1 - s'.2.2.1) i) j).trans ((norm_le_pi_norm (s.2.2.1 - s'.2.2.1) i).trans H2)⟩

/-- both methods at once -/
theorem computed_of (hb : Std hw.backend h w) (a : ℝ → Step) (r : ℕ)
    (inc : ℝ × Pair h w × Fld h w → Pair h w) (hinc : ContDiff ℝ 1 inc)
    (hstep : ∀ dt (s : Sta h w), prj (stepS (parOf hw dx) hw.dx (a dt) s) = prj s + dt • inc (dt, prj s, s.2.2.1))
    {T : ℝ} (hT : 0 ≤ T) {Y : ℝ → Pair h w} (hYc : ContinuousOn Y (Icc 0 T)) {u : Sta h w}
    (hu : u.2.2.1 = phiF (parOf hw dx).dx u.2.1)
    (hglob : ∃ C dt0 : ℝ, 0 ≤ C ∧ 0 < dt0 ∧ ∀ dt, 0 ≤ dt → dt ≤ dt0 → ∀ k : ℕ, k * dt ≤ T →
      ‖prj ((stepS (parOf hw dx) hw.dx (a dt))^[k] u) - Y (k * dt)‖ ≤ C * dt ^ r)
    {ks : List String} (hk : GoodKeys ks hw.TEST_CONSERVATION) :
    ∃ C δ, 0 ≤ C ∧ 0 < δ ∧ ∀ dt, 0 < dt → dt ≤ δ → ∀ ε, 0 ≤ ε → ε ≤ δ * dt → ∀ p : ℕ → NS Val,
      CloseStates h w ε (p 0) (NS.mk ks (st u)) → ComputedRun hw dx h w (a dt) ε p → ∀ k : ℕ, k * dt ≤ T → ∀ c,
        ∃ s' c', history hw dx (List.replicate k (a dt)) (NS.mk ks (st u)) c = .ok (s', c') ∧
          CloseStates h w (C * (ε / dt)) (p k) s' ∧
          Within h w (p k) (ofField (Y (k * dt)).1) (ofField (Y (k * dt)).2) (C * (dt ^ r + ε / dt)) := by
  set P := parOf hw dx with hP
  obtain ⟨C1, d1, hC1, hd1, H1⟩ := hglob
  obtain ⟨M, hM⟩ := isCompact_Icc.bddAbove_image hYc.norm
  have hM' : ∀ t ∈ Icc 0 T, ‖Y t‖ ≤ M := fun t ht => hM (mem_image_of_mem _ ht)
  let q : Pair h w →L[ℝ] Fld h w := phiC P.dx
  obtain ⟨C2, d2, hC2, hd2, H2⟩ := ODE.perturbed inc hinc q (M + C1) (T := T) (L := 1 + ‖q‖) hT (by positivity)
  set C := C1 + C2 + (1 + ‖q‖ + ‖q‖ * C2) with hC
  have hC0 : 0 ≤ C := by positivity
  refine ⟨C, min d2 (min d1 1), hC0, by positivity, fun dt h0 hdt ε hε hεd p hp0 hp k hkT c => ?_⟩
  have l2 : dt ≤ d2 := hdt.trans (min_le_left _ _)
  have l1 : dt ≤ d1 := hdt.trans ((min_le_right _ _).trans (min_le_left _ _))
  have l3 : dt ≤ 1 := hdt.trans ((min_le_right _ _).trans (min_le_right _ _))
  have lε : ε ≤ d2 * dt := hεd.trans (mul_le_mul_of_nonneg_right (min_le_left _ _) h0.le)
  have lε' : ε ≤ ε / dt := by rw [le_div_iff₀ h0]; nlinarith
  choose kk t hkk _ ht using fun j => (hp j).1.exists_mk
  let Z : ℕ → Sta h w := fun j => (stepS P hw.dx (a dt))^[j] u
  have hZphi : ∀ j, (Z j).2.2.1 = q (prj (Z j)) := fun j => iterate_phi P hw.dx (a dt) j hu
  have hnext : ∀ j, ‖prj (t (j + 1)) - prj (stepS P hw.dx (a dt) (t j))‖ ≤ ε ∧
      ‖(t (j + 1)).2.2.1 - q (prj (stepS P hw.dx (a dt) (t j)))‖ ≤ ε := by
    intro j
    obtain ⟨s', c', e, hcl⟩ := (hp j).2 {}
    have e2 := step_mk hw.backend hb.good P hw.dx hw.k0 hw.TEST_CONSERVATION (hkk j) (a dt) (t j) {}
    rw [hP, ← eq_mkHW, ← ht j] at e2
    rw [show (parOf hw dx).dx = dx from rfl, e] at e2
    injection e2 with e2
    injection e2 with e2 _
    subst e2
    rw [ht (j + 1)] at hcl
    obtain ⟨x1, x2⟩ := close_norm hε (hkk (j + 1)) (hkk j).step hcl
    rw [stepS_phi] at x2
    exact ⟨x1, x2⟩
  have h00 : ‖prj (t 0) - prj u‖ ≤ ε ∧ ‖(t 0).2.2.1 - q (prj u)‖ ≤ ε := by
    rw [ht 0] at hp0
    obtain ⟨x1, x2⟩ := close_norm hε (hkk 0) hk hp0
    rw [hu] at x2
    exact ⟨x1, x2⟩
  have hphi : ∀ (s : Sta h w) (x : Pair h w), ‖prj s - x‖ ≤ ε → ‖s.2.2.1 - q x‖ ≤ ε →
      ‖s.2.2.1 - q (prj s)‖ ≤ (1 + ‖q‖) * ε := by
    intro s x x1 x2
    have t1 := norm_sub_le (s.2.2.1 - q x) (q (prj s - x))
    rw [map_sub, show s.2.2.1 - q x - (q (prj s) - q x) = s.2.2.1 - q (prj s) by abel] at t1
    have t2 := q.le_opNorm (prj s - x)
    rw [map_sub] at t2
    have t3 : ‖q‖ * ‖prj s - x‖ ≤ ‖q‖ * ε := mul_le_mul_of_nonneg_left x1 (norm_nonneg _)
    linarith
  have hphij : ∀ j, ‖(t j).2.2.1 - q (prj (t j))‖ ≤ (1 + ‖q‖) * ε := by
    intro j
    cases j with
    | zero => exact hphi _ _ h00.1 h00.2
    | succ j => exact hphi _ _ (hnext j).1 (hnext j).2
  have htime : ∀ j ≤ k, (j : ℝ) * dt ≤ T := fun j hj => by
    have : (j : ℝ) ≤ k := by exact_mod_cast hj
    nlinarith
  have hdr : dt ^ r ≤ 1 := pow_le_one₀ h0.le l3
  have key := H2 dt h0 l2 ε hε lε (fun j => prj (Z j)) (fun j => prj (t j)) (fun j => (t j).2.2.1) k hkT
    (fun j hj => by
      have b := H1 dt h0.le l1 j (htime j hj)
      have b2 := hM' (j * dt) ⟨by positivity, htime j hj⟩
      have b3 := norm_add_le (prj (Z j) - Y (j * dt)) (Y (j * dt))
      rw [sub_add_cancel] at b3
      have b4 : C1 * dt ^ r ≤ C1 := mul_le_of_le_one_right hC1 hdr
      linarith)
    (fun j _ => by
      have : Z (j + 1) = stepS P hw.dx (a dt) (Z j) := Function.iterate_succ_apply' ..
      rw [this, hstep, hZphi])
    h00.1 (fun j _ => hphij j) (fun j _ => by rw [← hstep]; exact (hnext j).1) k le_rfl
  refine ⟨_, _, history_eval hw dx hb.good hk (List.replicate k (a dt)) u c, ?_, ?_⟩
  · rw [ht k]
    refine close_of_norm (hkk k) (goodKeys_hist _ hk) ?_ ?_
    · rw [histS_iterate]
      refine key.trans (mul_le_mul_of_nonneg_right ?_ (by positivity))
      have : 0 ≤ ‖q‖ * C2 := by positivity
      rw [hC]; linarith [norm_nonneg q]
    · rw [histS_iterate]
      have e1 : ((stepS (parOf hw dx) hw.dx (a dt))^[k] u).2.2.1 = q (prj (Z k)) := hZphi k
      rw [e1]
      have t1 := norm_add_le ((t k).2.2.1 - q (prj (t k))) (q (prj (t k) - prj (Z k)))
      rw [map_sub, sub_add_sub_cancel] at t1
      have t2 := q.le_opNorm (prj (t k) - prj (Z k))
      rw [map_sub] at t2
      have t3 : ‖q‖ * ‖prj (t k) - prj (Z k)‖ ≤ ‖q‖ * (C2 * (ε / dt)) :=
        mul_le_mul_of_nonneg_left key (norm_nonneg _)
      have t4 : (1 + ‖q‖) * ε ≤ (1 + ‖q‖) * (ε / dt) := mul_le_mul_of_nonneg_left lε' (by positivity)
      calc _ ≤ (1 + ‖q‖) * (ε / dt) + ‖q‖ * (C2 * (ε / dt)) := by linarith [hphij k]
        _ = (1 + ‖q‖ + ‖q‖ * C2) * (ε / dt) := by ring
        _ ≤ C * (ε / dt) := mul_le_mul_of_nonneg_right (by rw [hC]; linarith) (by positivity)
  · rw [ht k]
    refine within_of_norm (hkk k) _ _ _ ?_
    have e : (pairOf (ofField (Y (k * dt)).1) (ofField (Y (k * dt)).2) : Pair h w) = Y (k * dt) := by
      unfold pairOf; rw [toFld_ofField, toFld_ofField]
    rw [e]
    have b := H1 dt h0.le l1 k hkT
    have t1 := norm_add_le (prj (t k) - prj (Z k)) (prj (Z k) - Y (k * dt))
    rw [sub_add_sub_cancel] at t1
    have q0 : 0 ≤ ‖q‖ * C2 := by positivity
    have t2 : C2 * (ε / dt) ≤ C * (ε / dt) :=
      mul_le_mul_of_nonneg_right (by rw [hC]; linarith [norm_nonneg q]) (by positivity)
    have t3 : C1 * dt ^ r ≤ C * dt ^ r :=
      mul_le_mul_of_nonneg_right (by rw [hC]; linarith [norm_nonneg q]) (by positivity)
    calc _ ≤ C2 * (ε / dt) + C1 * dt ^ r := by linarith
      _ ≤ _ := by rw [mul_add]; linarith

end fields

/-- **C98.** For every consistent state and horizon `T` there are `C` and `δ > 0` such that for every
`dt ≤ δ` and every error `ε ≤ δ dt` per step, a computed run stays within `C ε/dt` of the run without
errors, and within `C (dt⁴ + ε/dt)` (`rk4_step`) or `C (dt + ε/dt)` (`euler_step`) of the exact solution,
as long as `k dt ≤ T`. -/
theorem C98_errors_stay_small (h0 : 0 < h) (w0 : 0 < w) (hb : Std hw.backend h w) (s : NS Val)
    (hs : IsState hw.TEST_CONSERVATION h w s) (hc : Consistent hw dx s) (T : ℝ) (hT : 0 ≤ T) :
    ∃ N O : ℝ → Arr ℝ, N 0 = arrOf s "density" ∧ O 0 = arrOf s "omega" ∧ ExactSolution hw dx h w T N O ∧
      ∃ C δ, 0 ≤ C ∧ 0 < δ ∧ ∀ dt, 0 < dt → dt ≤ δ → ∀ ε, 0 ≤ ε → ε ≤ δ * dt →
        ∀ a r, a = Step.rk4 dt ∧ r = 4 ∨ a = Step.euler dt ∧ r = 1 →
        ∀ p : ℕ → NS Val, CloseStates h w ε (p 0) s → ComputedRun hw dx h w a ε p →
        ∀ k : ℕ, k * dt ≤ T → ∀ c,
          (∃ s' c', history hw dx (List.replicate k a) s c = .ok (s', c') ∧ CloseStates h w (C * (ε / dt)) (p k) s') ∧
          Within h w (p k) (N (k * dt)) (O (k * dt)) (C * (dt ^ r + ε / dt)) := by
  have : NeZero h := ⟨h0.ne'⟩
  have : NeZero w := ⟨w0.ne'⟩
  obtain ⟨ks, u, hk, hn, rfl⟩ := hs.exists_mk
  rw [consistent_mk hw hb.good dx hk] at hc
  obtain ⟨Y, e0, hY⟩ := exists_solutionU (parOf hw dx) hT (prj u)
  have eY : (fun t => (pairOf (ofField (Y t).1) (ofField (Y t).2) : Pair h w)) = Y := by
    funext t; unfold pairOf; rw [toFld_ofField, toFld_ofField]
  refine ⟨fun t => ofField (Y t).1, fun t => ofField (Y t).2, ?_, ?_,
    (exact_iff hb.good).2 ⟨fun _ => ⟨rfl, rfl⟩, fun _ => ⟨rfl, rfl⟩, by rw [eY]; exact hY⟩, ?_⟩
  · rw [arrOf_density hk]; simp only [e0]; rfl
  · rw [arrOf_omega hk]; simp only [e0]; rfl
  have eh : ∀ a k, (stepS (parOf hw dx) hw.dx a)^[k] u = histS (parOf hw dx) hw.dx (List.replicate k a) u :=
    fun a k => (histS_iterate ..).symm
  obtain ⟨C1, d1, hC1, hd1, H1⟩ := computed_of hb .rk4 4 (incRk4 (parOf hw dx)) (incRk4_contDiff _)
    (fun dt s => prj_rk4S_any (parOf hw dx) hw.dx dt s) hT hY.continuousOn hc (by
      obtain ⟨C, d, hC, hd, H⟩ := ODE.rk4_global _ _ hT hY
      refine ⟨C, d, hC, hd, fun dt x1 x2 k x3 => ?_⟩
      rw [eh, histS_replicate _ _ _ _ (fun s hs => stepS_rk4_prj _ _ _ _ hs) k u hc, ← e0]
      exact H dt x1 x2 k x3) hk
  obtain ⟨C2, d2, hC2, hd2, H2⟩ := computed_of hb .euler 1 (fun z => rhs3 (parOf hw dx) z.2)
    ((rhs3_contDiff _).comp contDiff_snd)
    (fun dt s => by
      show dt • rhs3 (parOf hw dx) (prj s, s.2.2.1) + prj s = _
      rw [add_comm]) hT hY.continuousOn hc (by
      obtain ⟨C, d, hC, hd, H⟩ := ODE.euler_global _ _ hT hY
      refine ⟨C, d, hC, hd, fun dt x1 x2 k x3 => ?_⟩
      rw [eh, histS_replicate _ _ _ _ (fun s hs => stepS_euler_prj _ _ _ _ hs) k u hc, ← e0, pow_one]
      exact H dt x1 x2 k x3) hk
  refine ⟨max C1 C2, min d1 d2, le_max_of_le_left hC1, lt_min hd1 hd2, fun dt x0 x1 ε x2 x3 a r ha p hp0 hp k hkT c => ?_⟩
  have m : ∀ C, C ≤ max C1 C2 → (∃ s' c', history hw dx (List.replicate k a) (NS.mk ks (st u)) c = .ok (s', c') ∧
        CloseStates h w (C * (ε / dt)) (p k) s' ∧
        Within h w (p k) (ofField (Y (k * dt)).1) (ofField (Y (k * dt)).2) (C * (dt ^ r + ε / dt))) →
      (∃ s' c', history hw dx (List.replicate k a) (NS.mk ks (st u)) c = .ok (s', c') ∧
        CloseStates h w (max C1 C2 * (ε / dt)) (p k) s') ∧
      Within h w (p k) (ofField (Y (k * dt)).1) (ofField (Y (k * dt)).2) (max C1 C2 * (dt ^ r + ε / dt)) := by
    rintro C hC ⟨s', c', e, y1, y2⟩
    have z1 : C * (ε / dt) ≤ max C1 C2 * (ε / dt) := mul_le_mul_of_nonneg_right hC (by positivity)
    have z2 : C * (dt ^ r + ε / dt) ≤ max C1 C2 * (dt ^ r + ε / dt) := mul_le_mul_of_nonneg_right hC (by positivity)
    exact ⟨⟨s', c', e, fun i j hi hj => ⟨(y1 i j hi hj).1.trans z1, (y1 i j hi hj).2.1.trans z1,
      (y1 i j hi hj).2.2.trans z1⟩⟩, fun i j hi hj => ⟨(y2 i j hi hj).1.trans z2, (y2 i j hi hj).2.trans z2⟩⟩
  rcases ha with ⟨rfl, rfl⟩ | ⟨rfl, rfl⟩
  · exact m C1 (le_max_left _ _) (H1 dt x0 (x1.trans (min_le_left _ _)) ε x2
      (x3.trans (mul_le_mul_of_nonneg_right (min_le_left _ _) x0.le)) p hp0 hp k hkT c)
  · exact m C2 (le_max_right _ _) (H2 dt x0 (x1.trans (min_le_right _ _)) ε x2
      (x3.trans (mul_le_mul_of_nonneg_right (min_le_right _ _) x0.le)) p hp0 hp k hkT c)

/-- computed runs with errors of any size exist: here every step adds `ε` to every entry of density -/
theorem computedRun_exists (h0 : 0 < h) (w0 : 0 < w) (hb : Std hw.backend h w) (s : NS Val)
    (hs : IsState hw.TEST_CONSERVATION h w s) (a : Step) (ε : ℝ) (hε : 0 ≤ ε) :
    ∃ p : ℕ → NS Val, p 0 = s ∧ ComputedRun hw dx h w a ε p ∧
      ∀ j c, ∃ s' c', a.run hw dx (p j) c = .ok (s', c') ∧ ∀ y x, y < h → x < w →
        (arrOf (p (j + 1)) "density").at' y x = (arrOf s' "density").at' y x + ε := by
  have : NeZero h := ⟨h0.ne'⟩
  have : NeZero w := ⟨w0.ne'⟩
  obtain ⟨ks, u, hk, hn, rfl⟩ := hs.exists_mk
  let f : Sta h w → Sta h w := fun v =>
    (fun i j => (stepS (parOf hw dx) hw.dx a v).1 i j + ε, (stepS (parOf hw dx) hw.dx a v).2)
  have hstep : ∀ (v : Sta h w) c, a.run hw dx (NS.mk ks (st v)) c = .ok (NS.mk (stepKeys ks)
      (st (stepS (parOf hw dx) hw.dx a v)), stepCalls (parOf hw dx) hw.TEST_CONSERVATION a c) := by
    intro v c
    have := step_mk hw.backend hb.good (parOf hw dx) hw.dx hw.k0 hw.TEST_CONSERVATION hk a v c
    rwa [← eq_mkHW] at this
  refine ⟨fun j => NS.mk ks (st (f^[j] u)), rfl, fun j => ⟨isState_mk hk hn _, fun c => ⟨_, _, hstep _ c, ?_⟩⟩,
    fun j c => ⟨_, _, hstep _ c, fun y x hy hx => ?_⟩⟩
  · intro y x hy hx
    beta_reduce
    rw [Function.iterate_succ_apply', arrOf_density hk, arrOf_omega hk, arrOf_phi hk, arrOf_density hk.step,
      arrOf_omega hk.step, arrOf_phi hk.step]
    simp only [ofField_at' _ hy hx, f]
    refine ⟨?_, ?_, ?_⟩
    · rw [add_sub_cancel_left, abs_of_nonneg hε]
    · rwa [sub_self, abs_zero]
    · rwa [sub_self, abs_zero]
  · beta_reduce
    rw [Function.iterate_succ_apply', arrOf_density hk, arrOf_density hk.step]
    simp only [ofField_at' _ hy hx, f]

example : ∃ s, IsState true 4 5 s ∧ Consistent (HW.init numpyBackend 1 3 1 (1 / 10) 1 1 1 false true) 1 s ∧
    ∃ N O : ℝ → Arr ℝ, ExactSolution (HW.init numpyBackend 1 3 1 (1 / 10) 1 1 1 false true) 1 4 5 100 N O ∧
    ∃ C dt ε, 0 ≤ C ∧ 0 < dt ∧ 0 < ε ∧ ∃ p : ℕ → NS Val,
      ComputedRun (HW.init numpyBackend 1 3 1 (1 / 10) 1 1 1 false true) 1 4 5 (.rk4 dt) ε p ∧ p 0 = s ∧
      ∀ k : ℕ, k * dt ≤ 100 → Within 4 5 (p k) (N (k * dt)) (O (k * dt)) (C * (dt ^ 4 + ε / dt)) := by
  obtain ⟨s, c, -, hs, hc⟩ := C32_phi_consistent (HW.init numpyBackend 1 3 1 (1 / 10) 1 1 1 false true) 1
    (h := 4) (w := 5) (by decide) (by decide) (.inl rfl) [.rk4 (1 / 10)] (by simp) demoState demoState_isState {}
  obtain ⟨N, O, -, -, H, C, δ, hC, hδ, K⟩ := C98_errors_stay_small (by decide) (by decide) (.inl rfl) s hs hc 100
    (by norm_num)
  obtain ⟨p, p0, hp, -⟩ := computedRun_exists (dx := 1) (by decide) (by decide) (.inl rfl) s hs (.rk4 δ) (δ * δ)
    (by positivity)
  refine ⟨s, hs, hc, N, O, H, C, δ, δ * δ, hC, hδ, by positivity, p, hp, p0, fun k hk => ?_⟩
  exact (K δ hδ le_rfl (δ * δ) (by positivity) le_rfl _ 4 (.inl ⟨rfl, rfl⟩) p
    (by rw [p0]; intro i j _ _; simp only [sub_self, abs_zero, and_self]; positivity) hp k hk {}).2

end Verif.Props
