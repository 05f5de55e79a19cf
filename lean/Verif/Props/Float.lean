import Verif.Props.FloatCommon
import Verif.Props.Rounding
import Verif.Spec.Summation

/-!
# Property theorem C103: a floating-point simulation stays close to the exact one

The time steps of the program are evaluated with floating-point numbers (`Gen.rk4_step`,
`Gen.euler_step` on numbers of type `Rd R`): every `+ - * /` and `dx**2` of the steps, the schemes and
the difference formulas is rounded.  Of `np.mean` and of the FFT-based Poisson solver only the accuracy
is assumed (`Accurate`).  No other arithmetic occurs in a step.
-/

set_option linter.unusedSectionVars false

namespace Verif.Props

open Arr NS Spec Set Rounding

variable {hw : HW} {dx : ℝ} {h w : ℕ}

/-- no entry of the `h × w` array exceeds `M` -/
def Bounded {u : ℝ} {R : Rounded u} (h w : ℕ) (a : Arr (Rd R)) (M : ℝ) : Prop :=
  a.h = h ∧ a.w = w ∧ ∀ i j, i < h → j < w → |(a.at' i j).val| ≤ M

/-- A floating-point implementation of the primitives of a time step with backend `b` on an `h × w` grid.
The difference formulas and the bracket are the functions of the backend.  Means and the Poisson solver are
accurate up to `η` times the largest entry of their argument. -/
structure Accurate {u : ℝ} {R : Rounded u} (A : Gen.Arith (Rd R)) (b : Backend) (η : ℝ) (h w : ℕ) (dx : Rd R) :
    Prop where
  half : A.half.val = 1 / 2
  truthy : ∀ x, A.truthy x = true ↔ x.val ≠ 0
  schemes : (b = numpyBackend ∧ A.diffuse_N = NumpyGradients.periodic_laplace_N ∧
        A.poisson_bracket = NumpyArakawa.periodic_arakawa_vec ∧ ∀ a d x, A.gradient_func a d x = NumpyGradients.periodic_gradient a d x) ∨
      (b = numbaBackend ∧ A.diffuse_N = NumbaGradients.periodic_laplace_N ∧
        A.poisson_bracket = NumbaArakawa.periodic_arakawa_stencil ∧ ∀ a d x, A.gradient_func a d x = NumbaGradients.periodic_gradient a d x)
  mean : ∀ a M, Bounded h w a M → |(A.mean a).val - (exactly a).mean| ≤ η * M
  meanRows : ∀ a M, Bounded h w a M → (A.meanRows a).h = 1 ∧ (A.meanRows a).w = w ∧
    ∀ j, j < w → |((A.meanRows a).at' 0 j).val - (exactly a).meanRows.at' 0 j| ≤ η * M
  solver : ∀ a M, Bounded h w a M → ∃ r e, A.poisson_solver a dx = .ok r ∧ r.h = h ∧ r.w = w ∧
    b.poisson_solver (exactly a) dx.val = .ok e ∧
    ∀ i j, i < h → j < w → |(r.at' i j).val - e.at' i j| ≤ η * M

/-- the attributes of the solver object as machine numbers -/
def machineCoeffs {u : ℝ} (R : Rounded u) (hw : HW) : Gen.Coeffs (Rd R) where
  N := hw.N
  c1 := ⟨hw.c1⟩
  nu := ⟨hw.nu⟩
  poisson_bracket_coeff := ⟨hw.poisson_bracket_coeff⟩
  kappa_coeff := ⟨hw.kappa_coeff⟩
  zonal := hw.zonal

/-- what one call of the time stepper computes -/
noncomputable def floatStep {u : ℝ} {R : Rounded u} (A : Gen.Arith (Rd R)) (hw : HW) (dx : ℝ) (a : Step)
    (x : Gen.State (Rd R)) : Py (Gen.State (Rd R)) := match a with
  | .rk4 dt => Gen.rk4_step A (machineCoeffs R hw) x ⟨dt⟩ ⟨dx⟩
  | .euler dt => Gen.euler_step A (machineCoeffs R hw) x ⟨dt⟩ ⟨dx⟩

/-- a floating-point state of `h × w` arrays within `ε` of `s` in every entry -/
def FloatClose {u : ℝ} {R : Rounded u} (h w : ℕ) (ε : ℝ) (x : Gen.State (Rd R)) (s : NS Val) : Prop :=
  (x.density.h = h ∧ x.density.w = w) ∧ (x.omega.h = h ∧ x.omega.w = w) ∧ (x.phi.h = h ∧ x.phi.w = w) ∧
  ∀ i j, i < h → j < w →
    |(x.density.at' i j).val - (arrOf s "density").at' i j| ≤ ε ∧
    |(x.omega.at' i j).val - (arrOf s "omega").at' i j| ≤ ε ∧
    |(x.phi.at' i j).val - (arrOf s "phi").at' i j| ≤ ε

/-- density and vorticity within `ε` of the arrays `n` and `o` -/
def FloatWithin {u : ℝ} {R : Rounded u} (h w : ℕ) (ε : ℝ) (x : Gen.State (Rd R)) (n o : Arr ℝ) : Prop :=
  ∀ i j, i < h → j < w → |(x.density.at' i j).val - n.at' i j| ≤ ε ∧ |(x.omega.at' i j).val - o.at' i j| ≤ ε

section fields
variable [NeZero h] [NeZero w]

open Gen

theorem exactly_ofF {u : ℝ} {R : Rounded u} (f : F (Rd R) h w) : exactly (ofField f) = ofField (ex f) := by
  unfold exactly; rw [map_ofField]; rfl

theorem bounded_ofF {u : ℝ} {R : Rounded u} {f : F (Rd R) h w} {M : ℝ} (H : ∀ i j, |ex f i j| ≤ M) :
    Bounded h w (ofField f) M :=
  ⟨rfl, rfl, fun i j hi hj => by rw [ofField_at' _ hi hj]; exact H _ _⟩

/-- an implementation on the torus -/
noncomputable def faOf {u : ℝ} {R : Rounded u} (A : Arith (Rd R)) (h w : ℕ) [NeZero h] [NeZero w] (dx : Rd R) :
    Fa (Rd R) h w where
  half := A.half
  truthy := A.truthy
  mean f := A.mean (ofField f)
  rows f j := (A.meanRows (ofField f)).at' 0 j.val
  sol f := match A.poisson_solver (ofField f) dx with
    | .ok r => fun i j => r.at' i.val j.val
    | .error _ => fun _ _ => default

theorem ofField_vals {α : Type} [Inhabited α] {a : Arr α} (hh : a.h = h) (hw : a.w = w) :
    ofField (fun (i : ZMod h) (j : ZMod w) => a.at' i.val j.val) = a := by
  rw [eq_tab a]
  refine tab_congr hh.symm hw.symm fun i j hi hj => ?_
  beta_reduce
  rw [← eq_tab, ZMod.val_natCast, ZMod.val_natCast, Nat.mod_eq_of_lt hi, Nat.mod_eq_of_lt hj]

section mach
variable {u : ℝ} {R : Rounded u} {A : Arith (Rd R)} {η : ℝ} {b : Backend}

theorem exists_bound (f : F (Rd R) h w) : ∃ M, ∀ i j, |ex f i j| ≤ M := ⟨‖ex f‖, fun i j => Fld.le_norm _ i j⟩

theorem Accurate.sol_eq (hA : Accurate A b η h w ⟨dx⟩) (f : F (Rd R) h w) :
    A.poisson_solver (ofField f) ⟨dx⟩ = .ok (ofField ((faOf A h w ⟨dx⟩).sol f)) := by
  obtain ⟨M, hM⟩ := exists_bound f
  obtain ⟨r, e, h1, h2, h3, -, -⟩ := hA.solver _ _ (bounded_ofF hM)
  unfold faOf
  simp only [h1]
  rw [ofField_vals h2 h3]

theorem Accurate.evals (hA : Accurate A b η h w ⟨dx⟩) : Evals A (⟨dx⟩ : Rd R) (faOf A h w ⟨dx⟩) where
  half := rfl
  truthy := rfl
  mean f := rfl
  rows f := by
    obtain ⟨M, hM⟩ := exists_bound f
    obtain ⟨h1, h2, -⟩ := hA.meanRows _ _ (bounded_ofF hM)
    rw [eq_tab (A.meanRows (ofField f))]
    refine tab_congr h1 h2 fun i j hi hj => ?_
    rw [h1] at hi
    rw [h2] at hj
    have : i = 0 := by omega
    subst this
    simp only [faOf, ZMod.val_natCast, Nat.mod_eq_of_lt hj]
  sol f := hA.sol_eq f
  diffuse f N := by
    rcases hA.schemes with ⟨-, e, -⟩ | ⟨-, e, -⟩ <;> rw [e]
    · exact numpy_periodic_laplace_N_ofField f _ N
    · exact numba_periodic_laplace_N_ofField f _ N
  bracket f g := by
    rcases hA.schemes with ⟨-, -, e, -⟩ | ⟨-, -, e, -⟩ <;> rw [e]
    · exact numpy_arakawa_vec_ofField f g _
    · exact numba_arakawa_stencil_ofField f g _
  grad f := by
    rcases hA.schemes with ⟨-, -, -, e⟩ | ⟨-, -, -, e⟩ <;> rw [e]
    · exact numpy_periodic_gradient_y f _
    · exact numpy_periodic_gradient_y f _

/-- the machine behind an accurate implementation -/
noncomputable def Accurate.mach (hA : Accurate A b η h w ⟨dx⟩) {E : Fld h w →ₗ[ℝ] Fld h w}
    (hE : ∀ f : Fld h w, b.poisson_solver (ofField f) dx = .ok (ofField (E f))) (N : ℕ) (u0 : 0 ≤ u) (η0 : 0 ≤ η)
    (small : u + η ≤ 1) (bracket : 28 * u ≤ 1) (diffuse : 12 * N * u ≤ 1) : Mach h w dx N E where
  u := u
  R := R
  η := η
  a := faOf A h w ⟨dx⟩
  u0 := u0
  η0 := η0
  small := small
  bracket := bracket
  diffuse := diffuse
  half := hA.half
  truthy := hA.truthy
  mean f M hM := by
    have := hA.mean _ _ (bounded_ofF hM)
    rw [exactly_ofF, mean_ofField'] at this
    exact this
  rows f M hM j := by
    obtain ⟨-, -, h3⟩ := hA.meanRows _ _ (bounded_ofF hM)
    have := h3 j.val (ZMod.val_lt j)
    rw [exactly_ofF, meanRows_ofField, tab_at' _ _ _ (by omega) (ZMod.val_lt j), ZMod.natCast_zmod_val] at this
    exact this
  sol f M hM i j := by
    obtain ⟨r, e, h1, h2, h3, h4, h5⟩ := hA.solver _ _ (bounded_ofF hM)
    have := h5 i.val j.val (ZMod.val_lt i) (ZMod.val_lt j)
    rw [exactly_ofF, hE] at h4
    injection h4 with h4
    rw [hA.sol_eq] at h1
    injection h1 with h1
    rw [← h1, ← h4, ofField_at' _ (ZMod.val_lt i) (ZMod.val_lt j), ofField_at' _ (ZMod.val_lt i) (ZMod.val_lt j),
      ZMod.natCast_zmod_val, ZMod.natCast_zmod_val] at this
    exact this

end mach

theorem norm_of_within {ks : List String} {test : Bool} (hk : GoodKeys ks test) (t : Sta h w) (n o : Arr ℝ) {e : ℝ}
    (he : 0 ≤ e) (H : Within h w (NS.mk ks (st t)) n o e) : ‖prj t - pairOf n o‖ ≤ e := by
  have H' : ∀ i j, |t.1 i j - n.at' i.val j.val| ≤ e ∧ |t.2.1 i j - o.at' i.val j.val| ≤ e := fun i j => by
    have := H i.val j.val (ZMod.val_lt i) (ZMod.val_lt j)
    rw [arrOf_density hk, arrOf_omega hk] at this
    simp only [ofField_at' _ (ZMod.val_lt i) (ZMod.val_lt j), ZMod.natCast_zmod_val] at this
    exact this
  rw [Prod.norm_def]
  exact max_le (norm_fld_le he fun i j => (H' i j).1) (norm_fld_le he fun i j => (H' i j).2)

/-- values of a machine state -/
def valS {u : ℝ} {R : Rounded u} (y : F (Rd R) h w × F (Rd R) h w) (p : F (Rd R) h w) : Sta h w :=
  (ex y.1, ex y.2, ex p, 0, 0, 0)

/-- the argument of a step -/
def argS (dt : ℝ) (v : Sta h w) : ℝ × Pair h w × Fld h w := (dt, prj v, v.2.2.1)

/-- Runs of a machine stay in a ball on which its errors are known, hence are computed runs. -/
theorem float_run (hb : Std hw.backend h w) {E : Fld h w →ₗ[ℝ] Fld h w}
    (hE2 : ∀ o : Fld h w, E (fun i j => o i j - avg o) = phiF dx o) (a : ℝ → Step) (r : ℕ) {T : ℝ}
    {Fs : ∀ m : Mach h w dx hw.N E, ℝ × Pair h w × Fld h w → F (Rd m.R) h w × F (Rd m.R) h w}
    {G : ℝ × Pair h w × Fld h w → Pair h w} (HF : AccP Fs G)
    (hG : ∀ dt (s : Sta h w), G (argS dt s) = prj (stepS (parOf hw dx) hw.dx (a dt) s))
    {N O : ℝ → Arr ℝ} (hex : ExactSolution hw dx h w T N O) {ks : List String}
    (hk : GoodKeys ks hw.TEST_CONSERVATION) (hn : ks.Nodup) {v : Sta h w} (hv : v.2.2.1 = phiF dx v.2.1)
    (h98 : ∃ C δ, 0 ≤ C ∧ 0 < δ ∧ ∀ dt, 0 < dt → dt ≤ δ → ∀ ε, 0 ≤ ε → ε ≤ δ * dt →
        ∀ p : ℕ → NS Val, CloseStates h w ε (p 0) (NS.mk ks (st v)) → ComputedRun hw dx h w (a dt) ε p →
        ∀ k : ℕ, k * dt ≤ T → ∀ c,
          (∃ s' c', history hw dx (List.replicate k (a dt)) (NS.mk ks (st v)) c = .ok (s', c') ∧
            CloseStates h w (C * (ε / dt)) (p k) s') ∧
          Within h w (p k) (N (k * dt)) (O (k * dt)) (C * (dt ^ r + ε / dt))) :
    ∃ C δ, 0 ≤ C ∧ 0 < δ ∧ ∀ dt, 0 < dt → dt ≤ δ → ∀ m : Mach h w dx hw.N E, m.δ ≤ δ * dt →
      ∀ (y : ℕ → F (Rd m.R) h w × F (Rd m.R) h w) (p : ℕ → F (Rd m.R) h w),
      (∀ j, y (j + 1) = Fs m (argS dt (valS (y j) (p j))) ∧ p (j + 1) = phiG m.a (y (j + 1)).2) →
      ‖prj (valS (y 0) (p 0)) - prj v‖ ≤ m.δ → ‖ex (p 0) - v.2.2.1‖ ≤ m.δ → ∀ k : ℕ, k * dt ≤ T →
      ‖prj (valS (y k) (p k)) - prj (histS (parOf hw dx) hw.dx (List.replicate k (a dt)) v)‖ ≤ C * (m.δ / dt) ∧
      ‖ex (p k) - (histS (parOf hw dx) hw.dx (List.replicate k (a dt)) v).2.2.1‖ ≤ C * (m.δ / dt) ∧
      ‖prj (valS (y k) (p k)) - pairOf (N (k * dt)) (O (k * dt))‖ ≤ C * (dt ^ r + m.δ / dt) := by
  obtain ⟨C, δ, hC, hδ, H⟩ := h98
  have hY := ((exact_iff hb.good).1 hex).2.2
  obtain ⟨M, hM⟩ := isCompact_Icc.bddAbove_image hY.continuousOn.norm
  have hM' : ∀ t ∈ Icc 0 T, ‖(pairOf (N t) (O t) : Pair h w)‖ ≤ M := fun t ht => hM (mem_image_of_mem _ ht)
  let q : Pair h w →L[ℝ] Fld h w := phiC dx
  set R0 := max 1 (max (M + 2 * C) (C + ‖q‖ * (M + 3 * C))) with hR0
  obtain ⟨K1, hK1, e1⟩ := HF.err R0
  obtain ⟨K2, hK2, e2⟩ := (AccF.phi HF.snd).err R0
  set K := max 1 (max K1 (K2 + ‖q‖ * K1)) with hK
  have K1le : K1 ≤ K := (le_max_left _ _).trans (le_max_right _ _)
  have K2le : K2 + ‖q‖ * K1 ≤ K := (le_max_right _ _).trans (le_max_right _ _)
  have one_le : 1 ≤ K := le_max_left _ _
  have K0 : 0 < K := by linarith
  have hqK : 0 ≤ ‖q‖ * K1 := by positivity
  refine ⟨C * K, min δ 1 / K, by positivity, by positivity, fun dt h0 hdt m hm y p hyp i1 i2 => ?_⟩
  have hδK : min δ 1 / K ≤ min δ 1 := div_le_self (by positivity) one_le
  have hdt1 : dt ≤ 1 := hdt.trans (hδK.trans (min_le_right _ _))
  have hdtδ : dt ≤ δ := hdt.trans (hδK.trans (min_le_left _ _))
  set ε := K * m.δ with hε
  have m0 := m.δ0
  have ε0 : 0 ≤ ε := by positivity
  have hε' : ε ≤ min δ 1 * dt := by
    calc ε ≤ K * (min δ 1 / K * dt) := mul_le_mul_of_nonneg_left hm K0.le
      _ = min δ 1 * dt := by field_simp
  have hεδ : ε ≤ δ * dt := hε'.trans (mul_le_mul_of_nonneg_right (min_le_left _ _) h0.le)
  have hε1 : ε / dt ≤ 1 := by
    rw [div_le_one h0]
    exact hε'.trans ((mul_le_mul_of_nonneg_right (min_le_right _ _) h0.le).trans_eq (one_mul _))
  have mε : m.δ ≤ ε := le_mul_of_one_le_left m0 one_le
  classical
  let step : Sta h w → Sta h w := fun s =>
    if ‖argS dt s‖ ≤ R0 then valS (Fs m (argS dt s)) (phiG m.a (Fs m (argS dt s)).2)
    else stepS (parOf hw dx) hw.dx (a dt) s
  let V : ℕ → Sta h w := fun j => step^[j] (valS (y 0) (p 0))
  have hV : ∀ j, V (j + 1) = step (V j) := fun j => Function.iterate_succ_apply' ..
  have hcl : ∀ s : Sta h w, ‖prj (step s) - prj (stepS (parOf hw dx) hw.dx (a dt) s)‖ ≤ ε ∧
      ‖(step s).2.2.1 - (stepS (parOf hw dx) hw.dx (a dt) s).2.2.1‖ ≤ ε := by
    intro s
    by_cases hs : ‖argS dt s‖ ≤ R0
    · have es : step s = valS (Fs m (argS dt s)) (phiG m.a (Fs m (argS dt s)).2) := if_pos hs
      have x1 := e1 m (argS dt s) hs
      have x2 := e2 m (argS dt s) hs
      rw [hG] at x1
      rw [hG, phi_ex hE2] at x2
      rw [es, stepS_phi]
      refine ⟨x1.trans (mul_le_mul_of_nonneg_right K1le m0), x2.trans (mul_le_mul_of_nonneg_right ?_ m0)⟩
      linarith
    · have es : step s = stepS (parOf hw dx) hw.dx (a dt) s := if_neg hs
      rw [es, sub_self, sub_self, norm_zero, norm_zero]
      exact ⟨ε0, ε0⟩
  let P : ℕ → NS Val := fun j => NS.mk ks (st (V j))
  have hP0 : CloseStates h w ε (P 0) (NS.mk ks (st v)) := close_of_norm hk hk (i1.trans mε) (i2.trans mε)
  have hPrun : ComputedRun hw dx h w (a dt) ε P := by
    intro j
    refine ⟨isState_mk hk hn _, fun c => ?_⟩
    have e := step_mk hw.backend hb.good (parOf hw dx) hw.dx hw.k0 hw.TEST_CONSERVATION hk (a dt) (V j) c
    rw [← eq_mkHW] at e
    refine ⟨_, _, e, ?_⟩
    change CloseStates h w ε (NS.mk ks (st (V (j + 1)))) _
    rw [hV]
    exact close_of_norm hk hk.step (hcl _).1 (hcl _).2
  have main : ∀ k : ℕ, k * dt ≤ T →
      ‖prj (V k) - prj (histS (parOf hw dx) hw.dx (List.replicate k (a dt)) v)‖ ≤ C * (ε / dt) ∧
      ‖(V k).2.2.1 - (histS (parOf hw dx) hw.dx (List.replicate k (a dt)) v).2.2.1‖ ≤ C * (ε / dt) ∧
      ‖prj (V k) - pairOf (N (k * dt)) (O (k * dt))‖ ≤ C * (dt ^ r + ε / dt) := by
    intro k hkT
    obtain ⟨⟨s', c', e, x1⟩, x2⟩ := H dt h0 hdtδ ε ε0 hεδ P hP0 hPrun k hkT {}
    rw [history_eval hw dx hb.good hk] at e
    injection e with e
    injection e with e _
    subst e
    obtain ⟨z1, z2⟩ := close_norm (by positivity) hk (goodKeys_hist _ hk) x1
    exact ⟨z1, z2, norm_of_within hk _ _ _ (by positivity) x2⟩
  have ball : ∀ k : ℕ, k * dt ≤ T → ‖argS dt (V k)‖ ≤ R0 := by
    intro k hkT
    obtain ⟨z1, z2, z3⟩ := main k hkT
    have c1 : C * (ε / dt) ≤ C := mul_le_of_le_one_right hC hε1
    have c2 : C * (dt ^ r + ε / dt) ≤ 2 * C := by
      have : dt ^ r ≤ 1 := pow_le_one₀ h0.le hdt1
      nlinarith
    have c3 := hM' (k * dt) ⟨by positivity, hkT⟩
    have c4 : ‖prj (V k)‖ ≤ M + 2 * C := by
      have t := norm_add_le (prj (V k) - pairOf (N (k * dt)) (O (k * dt))) (pairOf (N (k * dt)) (O (k * dt)))
      rw [sub_add_cancel] at t
      linarith
    have hZphi : (histS (parOf hw dx) hw.dx (List.replicate k (a dt)) v).2.2.1
        = q (prj (histS (parOf hw dx) hw.dx (List.replicate k (a dt)) v)) := by
      rw [histS_iterate]
      exact iterate_phi (parOf hw dx) hw.dx (a dt) k hv
    have c5 : ‖prj (histS (parOf hw dx) hw.dx (List.replicate k (a dt)) v)‖ ≤ M + 3 * C := by
      have t := norm_sub_le (prj (V k)) (prj (V k) - prj (histS (parOf hw dx) hw.dx (List.replicate k (a dt)) v))
      rw [sub_sub_cancel] at t
      linarith
    have c6 : ‖(V k).2.2.1‖ ≤ C + ‖q‖ * (M + 3 * C) := by
      have t := norm_add_le ((V k).2.2.1 - (histS (parOf hw dx) hw.dx (List.replicate k (a dt)) v).2.2.1)
        (histS (parOf hw dx) hw.dx (List.replicate k (a dt)) v).2.2.1
      rw [sub_add_cancel] at t
      have t2 := q.le_opNorm (prj (histS (parOf hw dx) hw.dx (List.replicate k (a dt)) v))
      rw [← hZphi] at t2
      have t3 : ‖q‖ * ‖prj (histS (parOf hw dx) hw.dx (List.replicate k (a dt)) v)‖ ≤ ‖q‖ * (M + 3 * C) :=
        mul_le_mul_of_nonneg_left c5 (norm_nonneg _)
      linarith
    rw [argS, Prod.norm_mk, Prod.norm_mk]
    refine max_le ?_ (max_le ?_ ?_)
    · rw [Real.norm_of_nonneg h0.le]; exact hdt1.trans (le_max_left _ _)
    · exact c4.trans ((le_max_left _ _).trans (le_max_right _ _))
    · exact c6.trans ((le_max_right _ _).trans (le_max_right _ _))
  have same : ∀ k : ℕ, k * dt ≤ T → V k = valS (y k) (p k) := by
    intro k
    induction k with
    | zero => intro _; rfl
    | succ k ih =>
      intro hkT
      have hk' : (k : ℝ) * dt ≤ T := by push_cast at hkT; nlinarith
      have ek := ih hk'
      have hb' := ball k hk'
      rw [hV, (hyp k).2, (hyp k).1, ← ek]
      exact if_pos hb'
  intro k hkT
  obtain ⟨z1, z2, z3⟩ := main k hkT
  rw [same k hkT] at z1 z2 z3
  have b1 : C * (ε / dt) = C * K * (m.δ / dt) := by rw [hε]; ring
  refine ⟨z1.trans_eq b1, z2.trans_eq b1, z3.trans ?_⟩
  have : 0 ≤ dt ^ r := by positivity
  calc C * (dt ^ r + ε / dt) = C * dt ^ r + C * K * (m.δ / dt) := by rw [mul_add, b1]
    _ ≤ C * K * dt ^ r + C * K * (m.δ / dt) := by
      have : C ≤ C * K := le_mul_of_one_le_right hC one_le
      gcongr
    _ = _ := by ring

/-- real fields as machine fields -/
def inj {u : ℝ} (R : Rounded u) (f : Fld h w) : F (Rd R) h w := fun i j => ⟨f i j⟩

/-- the field map of a floating-point step -/
noncomputable def fsOf {u : ℝ} {R : Rounded u} (a : Fa (Rd R) h w) (hw : HW) (dx : ℝ) (st : Step) (y : F (Rd R) h w × F (Rd R) h w)
    (p : F (Rd R) h w) : F (Rd R) h w × F (Rd R) h w := match st with
  | .rk4 dt => rk4Y a (machineCoeffs R hw) ⟨dx⟩ ⟨dt⟩ y p
  | .euler dt => eulerY a (machineCoeffs R hw) ⟨dx⟩ ⟨dt⟩ y p

theorem floatStep_ofF {u : ℝ} {R : Rounded u} {A : Arith (Rd R)} {b : Backend} {η : ℝ} (hA : Accurate A b η h w ⟨dx⟩) (st : Step)
    (y : F (Rd R) h w × F (Rd R) h w) (p : F (Rd R) h w) : floatStep A hw dx st (ofF y p)
      = .ok (ofF (fsOf (faOf A h w ⟨dx⟩) hw dx st y p) (phiG (faOf A h w ⟨dx⟩) (fsOf (faOf A h w ⟨dx⟩) hw dx st y p).2)) := by
  cases st
  · exact rk4_ofF _ _ hA.evals y p
  · exact euler_ofF _ _ hA.evals y p

theorem iterate_ofF {α : Type} [Inhabited α] {step : State α → Py (State α)} {y : ℕ → F α h w × F α h w} {p : ℕ → F α h w}
    (H : ∀ j, step (ofF (y j) (p j)) = .ok (ofF (y (j + 1)) (p (j + 1)))) (k j : ℕ) :
    Gen.iterate step k (ofF (y j) (p j)) = .ok (ofF (y (j + k)) (p (j + k))) := by
  induction k generalizing j with
  | zero => rfl
  | succ k ih =>
    unfold Gen.iterate
    rw [H, Py.ok_bind, ih, show j + 1 + k = j + (k + 1) by omega]

section
attribute [local irreducible] rk4Y

theorem acc_rk4 {E : Fld h w →ₗ[ℝ] Fld h w} (hdx : dx ≠ 0) :
    AccP (fun (m : Mach h w dx hw.N E) (z : ℝ × Pair h w × Fld h w) =>
        fsOf m.a hw dx (.rk4 z.1) (inj m.R z.2.1.1, inj m.R z.2.1.2) (inj m.R z.2.2))
      (fun z => rk4Y (exFa E) (coef hw) dx z.1 z.2.1 z.2.2) := by
  have := AccP.rk4 (P := coef hw) (dt := fun (m : Mach h w dx hw.N E) (z : ℝ × Pair h w × Fld h w) => (⟨z.1⟩ : Rd m.R))
    (dtG := fun z => z.1)
    (y := fun m z => (inj m.R z.2.1.1, inj m.R z.2.1.2)) (yG := fun z => z.2.1) (p := fun m z => inj m.R z.2.2) (pG := fun z => z.2.2)
    hdx rfl (Accurate.Acc.exact contDiff_fst fun _ _ => rfl)
    (AccP.mk (Accurate.Acc.exact (contDiff_fst.comp (contDiff_fst.comp contDiff_snd)) fun _ _ => rfl)
      (Accurate.Acc.exact (contDiff_snd.comp (contDiff_fst.comp contDiff_snd)) fun _ _ => rfl))
    (Accurate.Acc.exact (contDiff_snd.comp contDiff_snd) fun _ _ => rfl)
  exact this

end

theorem acc_euler {E : Fld h w →ₗ[ℝ] Fld h w} (hdx : dx ≠ 0) :
    AccP (fun (m : Mach h w dx hw.N E) (z : ℝ × Pair h w × Fld h w) =>
        fsOf m.a hw dx (.euler z.1) (inj m.R z.2.1.1, inj m.R z.2.1.2) (inj m.R z.2.2))
      (fun z => eulerY (exFa E) (coef hw) dx z.1 z.2.1 z.2.2) :=
  AccP.euler (P := coef hw) (dt := fun m z => (⟨z.1⟩ : Rd m.R)) hdx rfl (Accurate.Acc.exact contDiff_fst fun _ _ => rfl)
    (AccP.mk (Accurate.Acc.exact (contDiff_fst.comp (contDiff_fst.comp contDiff_snd)) fun _ _ => rfl)
      (Accurate.Acc.exact (contDiff_snd.comp (contDiff_fst.comp contDiff_snd)) fun _ _ => rfl))
    (Accurate.Acc.exact (contDiff_snd.comp contDiff_snd) fun _ _ => rfl)

/-- from fields to arrays -/
theorem float_arrays (hb : Std hw.backend h w) {E : Fld h w →ₗ[ℝ] Fld h w}
    (hE1 : ∀ f : Fld h w, hw.backend.poisson_solver (ofField f) dx = .ok (ofField (E f)))
    (hE2 : ∀ o : Fld h w, E (fun i j => o i j - avg o) = phiF dx o) (a : ℝ → Step) (r : ℕ) {T : ℝ}
    {G : ℝ × Pair h w × Fld h w → Pair h w}
    (HF : AccP (fun (m : Mach h w dx hw.N E) (z : ℝ × Pair h w × Fld h w) =>
        fsOf m.a hw dx (a z.1) (inj m.R z.2.1.1, inj m.R z.2.1.2) (inj m.R z.2.2)) G)
    (hG : ∀ dt (s : Sta h w), G (argS dt s) = prj (stepS (parOf hw dx) hw.dx (a dt) s))
    {N O : ℝ → Arr ℝ} (hex : ExactSolution hw dx h w T N O) {ks : List String}
    (hk : GoodKeys ks hw.TEST_CONSERVATION) (hn : ks.Nodup) {v : Sta h w} (hv : v.2.2.1 = phiF dx v.2.1)
    (h98 : ∃ C δ, 0 ≤ C ∧ 0 < δ ∧ ∀ dt, 0 < dt → dt ≤ δ → ∀ ε, 0 ≤ ε → ε ≤ δ * dt →
        ∀ p : ℕ → NS Val, CloseStates h w ε (p 0) (NS.mk ks (st v)) → ComputedRun hw dx h w (a dt) ε p →
        ∀ k : ℕ, k * dt ≤ T → ∀ c,
          (∃ s' c', history hw dx (List.replicate k (a dt)) (NS.mk ks (st v)) c = .ok (s', c') ∧
            CloseStates h w (C * (ε / dt)) (p k) s') ∧
          Within h w (p k) (N (k * dt)) (O (k * dt)) (C * (dt ^ r + ε / dt))) :
    ∃ C δ, 0 ≤ C ∧ 0 < δ ∧ ∀ dt, 0 < dt → dt ≤ δ → ∀ (u : ℝ) (R : Rounded u) (A : Arith (Rd R)) (η : ℝ), 0 ≤ u → 0 ≤ η →
      u + η ≤ δ * dt → Accurate A hw.backend η h w ⟨dx⟩ → ∀ x0 : State (Rd R), FloatClose h w (u + η) x0 (NS.mk ks (st v)) →
      ∀ k : ℕ, k * dt ≤ T → ∃ x, Gen.iterate (floatStep A hw dx (a dt)) k x0 = .ok x ∧
        (∀ c, ∃ s' c', history hw dx (List.replicate k (a dt)) (NS.mk ks (st v)) c = .ok (s', c') ∧
          FloatClose h w (C * ((u + η) / dt)) x s') ∧
        FloatWithin h w (C * (dt ^ r + (u + η) / dt)) x (N (k * dt)) (O (k * dt)) := by
  obtain ⟨C, δ, hC, hδ, H⟩ := float_run hb hE2 a r HF hG hex hk hn hv h98
  refine ⟨C, min (min δ 1) (1 / (12 * hw.N + 28)), hC, by positivity, fun dt h0 hdt u R A η u0 η0 hp hA x0 hx0 k hkT => ?_⟩
  have hdt1 : dt ≤ 1 := hdt.trans ((min_le_left _ _).trans (min_le_right _ _))
  have hp1 : u + η ≤ min (min δ 1) (1 / (12 * hw.N + 28)) :=
    hp.trans (mul_le_of_le_one_right (by positivity) hdt1)
  have hs1 : u + η ≤ 1 := hp1.trans ((min_le_left _ _).trans (min_le_right _ _))
  have hs2 : u * (12 * hw.N + 28) ≤ 1 := by
    rw [← le_div_iff₀ (by positivity)]
    have := hp1.trans (min_le_right _ _)
    linarith
  have hn0 : 0 ≤ u * (12 * hw.N) := by positivity
  let m : Mach h w dx hw.N E := hA.mach hE1 hw.N u0 η0 hs1 (by linarith) (by linarith)
  have hmδ : m.δ = u + η := rfl
  -- the initial state as fields
  obtain ⟨⟨a1, a2⟩, ⟨b1, b2⟩, ⟨c1, c2⟩, hx⟩ := hx0
  let n0 : F (Rd R) h w := fun i j => x0.density.at' i.val j.val
  let o0 : F (Rd R) h w := fun i j => x0.omega.at' i.val j.val
  let p0 : F (Rd R) h w := fun i j => x0.phi.at' i.val j.val
  have ex0 : x0 = ofF (n0, o0) p0 := by
    unfold ofF
    simp only [n0, o0, p0]
    rw [ofField_vals a1 a2, ofField_vals b1 b2, ofField_vals c1 c2]
  let nxt : (F (Rd R) h w × F (Rd R) h w) × F (Rd R) h w → (F (Rd R) h w × F (Rd R) h w) × F (Rd R) h w :=
    fun z => (fsOf m.a hw dx (a dt) z.1 z.2, phiG m.a (fsOf m.a hw dx (a dt) z.1 z.2).2)
  let Z : ℕ → (F (Rd R) h w × F (Rd R) h w) × F (Rd R) h w := fun j => nxt^[j] ((n0, o0), p0)
  have hZ : ∀ j, Z (j + 1) = nxt (Z j) := fun j => Function.iterate_succ_apply' ..
  have hrun := iterate_ofF (y := fun j => (Z j).1) (p := fun j => (Z j).2) (step := floatStep A hw dx (a dt))
    (fun j => by
      rw [floatStep_ofF hA]
      rw [hZ]
      rfl) k 0
  rw [zero_add] at hrun
  have hx' : ∀ i j, |ex n0 i j - v.1 i j| ≤ u + η ∧ |ex o0 i j - v.2.1 i j| ≤ u + η ∧ |ex p0 i j - v.2.2.1 i j| ≤ u + η := by
    intro i j
    have := hx i.val j.val (ZMod.val_lt i) (ZMod.val_lt j)
    rw [arrOf_density hk, arrOf_omega hk, arrOf_phi hk] at this
    simp only [ofField_at' _ (ZMod.val_lt i) (ZMod.val_lt j), ZMod.natCast_zmod_val] at this
    exact this
  have hp0 : 0 ≤ u + η := by linarith
  obtain ⟨z1, z2, z3⟩ := H dt h0 (hdt.trans ((min_le_left _ _).trans (min_le_left _ _))) m
    (hp.trans (mul_le_mul_of_nonneg_right ((min_le_left _ _).trans (min_le_left _ _)) h0.le))
    (fun j => (Z j).1) (fun j => (Z j).2) (fun j => by
      rw [hZ]
      exact ⟨rfl, rfl⟩)
    (by
      rw [Prod.norm_def]
      exact max_le (norm_fld_le hp0 fun i j => (hx' i j).1) (norm_fld_le hp0 fun i j => (hx' i j).2.1))
    (norm_fld_le hp0 fun i j => (hx' i j).2.2) k hkT
  rw [hmδ] at z1 z2 z3
  refine ⟨ofF (Z k).1 (Z k).2, by rw [ex0]; exact hrun, fun c => ⟨_, _, history_eval hw dx hb.good hk _ _ c,
    ⟨rfl, rfl⟩, ⟨rfl, rfl⟩, ⟨rfl, rfl⟩, fun i j hi hj => ?_⟩, fun i j hi hj => ?_⟩
  · rw [arrOf_density (goodKeys_hist _ hk), arrOf_omega (goodKeys_hist _ hk), arrOf_phi (goodKeys_hist _ hk)]
    simp only [ofF, ofField_at' _ hi hj]
    obtain ⟨y1, y2⟩ := abs_le_of_norm z1 (i : ZMod h) (j : ZMod w)
    exact ⟨y1, y2, (Fld.le_norm _ (i : ZMod h) (j : ZMod w)).trans z2⟩
  · simp only [ofF, ofField_at' _ hi hj]
    have := abs_le_of_norm z3 (i : ZMod h) (j : ZMod w)
    simp only [pairOf, prj, toFld, ZMod.val_natCast, Nat.mod_eq_of_lt hi, Nat.mod_eq_of_lt hj] at this
    exact this

end fields

/-- **C103.** For every consistent state and horizon `T` there are an exact solution of the equations and
constants `C`, `δ > 0` such that: for every time step `dt ≤ δ` and every floating-point arithmetic with unit
roundoff `u` whose means and Poisson solver are accurate to `η`, `u + η ≤ δ dt`, the computed simulation,
started within `u + η` of the state, raises no error and stays within `C (u+η)/dt` of the simulation in
exact arithmetic and within `C (dt⁴ + (u+η)/dt)` (`rk4_step`; `dt` for `euler_step`) of the exact solution,
at every grid point and as long as `k dt ≤ T`. -/
theorem C103_floating_point (h0 : 0 < h) (w0 : 0 < w) (hb : Std hw.backend h w) (hdx : dx ≠ 0) (s : NS Val)
    (hs : IsState hw.TEST_CONSERVATION h w s) (hc : Consistent hw dx s) (T : ℝ) (hT : 0 ≤ T) :
    ∃ N O : ℝ → Arr ℝ, N 0 = arrOf s "density" ∧ O 0 = arrOf s "omega" ∧ ExactSolution hw dx h w T N O ∧
      ∃ C δ, 0 ≤ C ∧ 0 < δ ∧ ∀ dt, 0 < dt → dt ≤ δ →
        ∀ (u : ℝ) (R : Rounded u) (A : Gen.Arith (Rd R)) (η : ℝ), 0 ≤ u → 0 ≤ η → u + η ≤ δ * dt →
        Accurate A hw.backend η h w ⟨dx⟩ → ∀ a r, a = Step.rk4 dt ∧ r = 4 ∨ a = Step.euler dt ∧ r = 1 →
        ∀ x0 : Gen.State (Rd R), FloatClose h w (u + η) x0 s → ∀ k : ℕ, k * dt ≤ T →
        ∃ x, Gen.iterate (floatStep A hw dx a) k x0 = .ok x ∧
          (∀ c, ∃ s' c', history hw dx (List.replicate k a) s c = .ok (s', c') ∧
            FloatClose h w (C * ((u + η) / dt)) x s') ∧
          FloatWithin h w (C * (dt ^ r + (u + η) / dt)) x (N (k * dt)) (O (k * dt)) := by
  have : NeZero h := ⟨h0.ne'⟩
  have : NeZero w := ⟨w0.ne'⟩
  obtain ⟨N, O, hN, hO, hex, C, δ, hC, hδ, H⟩ := C98_errors_stay_small h0 w0 hb s hs hc T hT
  obtain ⟨ks, v, hk, hn, rfl⟩ := hs.exists_mk
  rw [consistent_mk hw hb.good dx hk] at hc
  obtain ⟨E, hE1, hE2⟩ := solver_exists hb dx
  obtain ⟨C1, d1, hC1, hd1, H1⟩ := float_arrays hb hE1 hE2 .rk4 4 (acc_rk4 hdx) (fun dt s => rk4_ex hE2 dt hw.dx s) hex hk hn hc
    ⟨C, δ, hC, hδ, fun dt y1 y2 ε y3 y4 p y5 y6 k y7 c => H dt y1 y2 ε y3 y4 _ 4 (.inl ⟨rfl, rfl⟩) p y5 y6 k y7 c⟩
  obtain ⟨C2, d2, hC2, hd2, H2⟩ := float_arrays hb hE1 hE2 .euler 1 (acc_euler hdx) (fun dt s => euler_ex dt hw.dx s) hex hk hn hc
    ⟨C, δ, hC, hδ, fun dt y1 y2 ε y3 y4 p y5 y6 k y7 c => H dt y1 y2 ε y3 y4 _ 1 (.inr ⟨rfl, rfl⟩) p y5 y6 k y7 c⟩
  refine ⟨N, O, hN, hO, hex, max C1 C2, min d1 d2, le_max_of_le_left hC1, lt_min hd1 hd2, ?_⟩
  intro dt q0 q1 u R A η u0 η0 hp hA a r ha x0 hx0 k hkT
  have hp0 : 0 ≤ (u + η) / dt := by positivity
  have mono : ∀ {C' : ℝ} {x : Gen.State (Rd R)}, C' ≤ max C1 C2 →
      ((∀ c, ∃ s' c', history hw dx (List.replicate k a) (NS.mk ks (st v)) c = .ok (s', c') ∧
          FloatClose h w (C' * ((u + η) / dt)) x s') ∧
        FloatWithin h w (C' * (dt ^ r + (u + η) / dt)) x (N (k * dt)) (O (k * dt))) →
      (∀ c, ∃ s' c', history hw dx (List.replicate k a) (NS.mk ks (st v)) c = .ok (s', c') ∧
          FloatClose h w (max C1 C2 * ((u + η) / dt)) x s') ∧
        FloatWithin h w (max C1 C2 * (dt ^ r + (u + η) / dt)) x (N (k * dt)) (O (k * dt)) := by
    intro C' x hle ⟨m1, m2⟩
    have l1 : C' * ((u + η) / dt) ≤ max C1 C2 * ((u + η) / dt) := mul_le_mul_of_nonneg_right hle hp0
    have l2 : C' * (dt ^ r + (u + η) / dt) ≤ max C1 C2 * (dt ^ r + (u + η) / dt) :=
      mul_le_mul_of_nonneg_right hle (by positivity)
    refine ⟨fun c => ?_, fun i j hi hj => ⟨(m2 i j hi hj).1.trans l2, (m2 i j hi hj).2.trans l2⟩⟩
    obtain ⟨s', c', e, s1, s2, s3, s4⟩ := m1 c
    exact ⟨s', c', e, s1, s2, s3, fun i j hi hj => ⟨(s4 i j hi hj).1.trans l1, (s4 i j hi hj).2.1.trans l1,
      (s4 i j hi hj).2.2.trans l1⟩⟩
  rcases ha with ⟨rfl, rfl⟩ | ⟨rfl, rfl⟩
  · obtain ⟨x, e, m⟩ := H1 dt q0 (q1.trans (min_le_left _ _)) u R A η u0 η0
      (hp.trans (mul_le_mul_of_nonneg_right (min_le_left _ _) q0.le)) hA x0 hx0 k hkT
    exact ⟨x, e, mono (le_max_left _ _) m⟩
  · obtain ⟨x, e, m⟩ := H2 dt q0 (q1.trans (min_le_right _ _)) u R A η u0 η0
      (hp.trans (mul_le_mul_of_nonneg_right (min_le_right _ _) q0.le)) hA x0 hx0 k hkT
    exact ⟨x, e, mono (le_max_right _ _) m⟩

/-- **C103.** The accuracy that C103 assumes of means is what floating-point summation delivers: a sum of all
entries in any order, with at most `d` additions on the way from an entry to the result, divided by the
number of entries, is accurate to `(1+u)^(d+1) - 1`.  (NumPy's order is not documented.) -/
theorem C103_mean_accuracy {u : ℝ} {R : Rounded u} (u0 : 0 ≤ u) (a : Arr (Rd R)) (h0 : 0 < a.h) (w0 : 0 < a.w) (M : ℝ)
    (ha : ∀ i j, |(a.get i j).val| ≤ M) (t : SumOrder (Rd R)) (ht : (t.leaves : Multiset (Rd R))
      = Finset.univ.val.map fun p : Fin a.h × Fin a.w => a.get p.1 p.2) :
    |(t.sum / ((a.h * a.w : ℕ) : Rd R)).val - (exactly a).mean| ≤ ((1 + u) ^ (t.depth + 1) - 1) * M := by
  have hn : (0 : ℝ) < (a.h * a.w : ℕ) := by exact_mod_cast Nat.mul_pos h0 w0
  obtain ⟨key, key2⟩ := t.sum_err u0
  have e1 : (t.leaves.map Rd.val).sum = (exactly a).sum := by
    rw [← Multiset.sum_coe, ← Multiset.map_coe, ht, Multiset.map_map]
    exact Fintype.sum_prod_type _
  have e2 : (t.leaves.map fun x => |x.val|).sum ≤ (a.h * a.w : ℕ) * M := by
    rw [← Multiset.sum_coe, ← Multiset.map_coe, ht, Multiset.map_map]
    refine (Finset.sum_le_card_nsmul (Finset.univ : Finset (Fin a.h × Fin a.w)) (fun p => |(a.get p.1 p.2).val|) M
      fun p _ => ha p.1 p.2).trans (le_of_eq ?_)
    rw [Finset.card_univ, Fintype.card_prod, Fintype.card_fin, Fintype.card_fin, nsmul_eq_mul]
  have e4 : (exactly a).mean = (exactly a).sum / (a.h * a.w : ℕ) := by
    unfold Arr.mean exactly
    push_cast
    rfl
  rw [e4]
  change |R.div t.sum.val (a.h * a.w : ℕ) - _| ≤ _
  rw [e1] at key key2
  generalize (exactly a).sum = X at *
  generalize (t.leaves.map fun x => |x.val|).sum = Y at *
  generalize ((a.h * a.w : ℕ) : ℝ) = n at *
  have r := R.div_err t.sum.val n hn.ne'
  have g1 : 1 ≤ (1 + u) ^ t.depth := one_le_pow₀ (by linarith)
  rw [pow_succ]
  generalize (1 + u) ^ t.depth = g at *
  have k1 : |t.sum.val / n - X / n| ≤ (g - 1) * M := by
    rw [← sub_div, abs_div, abs_of_pos hn, div_le_iff₀ hn]
    nlinarith
  have k2 : |X / n| ≤ M := by
    rw [abs_div, abs_of_pos hn, div_le_iff₀ hn]
    linarith
  have k3 : |t.sum.val / n| ≤ g * M := by
    have := abs_add_le (t.sum.val / n - X / n) (X / n)
    rw [sub_add_cancel] at this
    linarith
  have k4 := abs_sub_le (R.div t.sum.val n) (t.sum.val / n) (X / n)
  have k5 : u * |t.sum.val / n| ≤ u * (g * M) := mul_le_mul_of_nonneg_left k3 u0
  have k6 : (g * (1 + u) - 1) * M = u * (g * M) + (g - 1) * M := by ring
  linarith

/-- four entries added in pairs -/
example : ∃ (a : Arr (Rd (Rounded.binary 53))) (t : SumOrder (Rd (Rounded.binary 53))), (exactly a).mean = 5 / 2 ∧ t.depth = 2 ∧
    |(t.sum / ((2 * 2 : ℕ) : Rd (Rounded.binary 53))).val - 5 / 2| ≤ ((1 + (2 : ℝ) ^ (-((53 : ℕ) : ℤ))) ^ 3 - 1) * 4 := by
  let a : Arr (Rd (Rounded.binary 53)) := ⟨2, 2, fun i j => ![![⟨1⟩, ⟨3⟩], ![⟨2⟩, ⟨4⟩]] i j⟩
  let t : SumOrder (Rd (Rounded.binary 53)) := .node (.node (.leaf ⟨1⟩) (.leaf ⟨3⟩)) (.node (.leaf ⟨2⟩) (.leaf ⟨4⟩))
  have e : (exactly a).mean = 5 / 2 := by
    change (∑ i : Fin 2, ∑ j : Fin 2, (![![⟨1⟩, ⟨3⟩], ![⟨2⟩, ⟨4⟩]] i j : Rd (Rounded.binary 53)).val) / (((2 : ℕ) : ℝ) * ((2 : ℕ) : ℝ)) = _
    simp [Fin.sum_univ_two]
    norm_num
  have := C103_mean_accuracy (by positivity) a (by decide) (by decide) 4
    (by
      change ∀ i j : Fin 2, |(![![⟨1⟩, ⟨3⟩], ![⟨2⟩, ⟨4⟩]] i j : Rd (Rounded.binary 53)).val| ≤ 4
      intro i j
      fin_cases i <;> fin_cases j <;> norm_num) t rfl
  rw [e] at this
  exact ⟨a, t, e, rfl, this⟩

/-- the primitives of a step in exact arithmetic -/
noncomputable def realArith (hw : HW) : Gen.Arith ℝ where
  half := 1 / 2
  truthy x := decide (x ≠ 0)
  mean a := a.mean
  meanRows a := a.meanRows
  poisson_solver := hw.backend.poisson_solver
  diffuse_N := hw.backend.diffuse_N
  poisson_bracket := hw.backend.poisson_bracket
  gradient_func := hw.backend.gradient_func

/-- one call of the time stepper of `Model/HWGen.lean` in exact arithmetic -/
noncomputable def realStep (hw : HW) (dx : ℝ) (a : Step) (x : Gen.State ℝ) : Py (Gen.State ℝ) := match a with
  | .rk4 dt => Gen.rk4_step (realArith hw) (coef hw) x dt dx
  | .euler dt => Gen.euler_step (realArith hw) (coef hw) x dt dx

/-- the arrays of a state of the solver -/
noncomputable def arraysOf (s : NS Val) : Gen.State ℝ := ⟨arrOf s "density", arrOf s "omega", arrOf s "phi"⟩

/-- **C103.** The steps that C103 evaluates with floating-point numbers are those of the solver: with real
numbers they compute what `rk4_step` and `euler_step` compute, from every state. -/
theorem C103_same_program (h0 : 0 < h) (w0 : 0 < w) (hb : Std hw.backend h w) (s : NS Val)
    (hs : IsState hw.TEST_CONSERVATION h w s) (a : Step) (c : Calls) :
    ∃ s' c', a.run hw dx s c = .ok (s', c') ∧ realStep hw dx a (arraysOf s) = .ok (arraysOf s') := by
  have : NeZero h := ⟨h0.ne'⟩
  have : NeZero w := ⟨w0.ne'⟩
  obtain ⟨ks, v, hk, hn, rfl⟩ := hs.exists_mk
  obtain ⟨E, hE1, hE2⟩ := solver_exists hb dx
  have hg := hb.good
  have ev : Gen.Evals (realArith hw) dx (Gen.exFa E) :=
    { half := rfl, truthy := rfl, mean := fun f => mean_ofField f, rows := fun f => meanRows_ofField f, sol := hE1,
      diffuse := fun f N => hg.diffuse f dx N, bracket := fun f g => hg.bracket f g dx, grad := fun f => hg.grad f dx }
  have run := step_mk hw.backend hg (parOf hw dx) hw.dx hw.k0 hw.TEST_CONSERVATION hk a v c
  rw [← eq_mkHW hw dx] at run
  refine ⟨_, _, run, ?_⟩
  have e : ∀ (ks' : List String) (v' : Sta h w), GoodKeys ks' hw.TEST_CONSERVATION →
      arraysOf (NS.mk ks' (st v')) = Gen.ofF (prj v') v'.2.2.1 := fun ks' v' hk' => by
    unfold arraysOf
    rw [arrOf_density hk', arrOf_omega hk', arrOf_phi hk']
    rfl
  rw [e _ _ hk, e _ _ hk.step]
  have ph : (stepS (parOf hw dx) hw.dx a v).2.2.1 = Gen.phiG (Gen.exFa E) (prj (stepS (parOf hw dx) hw.dx a v)).2 := by
    rw [stepS_phi, phi_ex hE2]
    rfl
  cases a with
  | rk4 dt =>
    have := Gen.rk4_ofF (coef hw) dt ev (prj v) v.2.2.1
    rw [rk4_ex hE2 dt hw.dx v, ← ph] at this
    exact this
  | euler dt =>
    have := Gen.euler_ofF (coef hw) dt ev (prj v) v.2.2.1
    rw [euler_ex dt hw.dx v, ← ph] at this
    exact this

/-- binary arithmetic with `p` bits; means and the Poisson solver round the exact values -/
noncomputable def binaryArith (p : ℕ) (b : Backend) (numba : Bool) : Gen.Arith (Rd (Rounded.binary p)) where
  half := ⟨1 / 2⟩
  truthy x := decide (x.val ≠ 0)
  mean a := ⟨nearest p (exactly a).mean⟩
  meanRows a := (exactly a).meanRows.map fun x => ⟨nearest p x⟩
  poisson_solver a dx := (b.poisson_solver (exactly a) dx.val).map fun r => r.map fun x => ⟨nearest p x⟩
  diffuse_N := if numba then NumbaGradients.periodic_laplace_N else NumpyGradients.periodic_laplace_N
  poisson_bracket := if numba then NumbaArakawa.periodic_arakawa_stencil else NumpyArakawa.periodic_arakawa_vec
  gradient_func a d x := if numba then NumbaGradients.periodic_gradient a d x else NumpyGradients.periodic_gradient a d x

/-- The hypotheses of C103 can be met: on every grid there are arithmetics of any given accuracy. -/
theorem C103_arithmetic_exists (h0 : 0 < h) (w0 : 0 < w) (hb : Std hw.backend h w) (dx ε : ℝ) (hε : 0 < ε) :
    ∃ (p : ℕ) (A : Gen.Arith (Rd (Rounded.binary p))) (η : ℝ), 0 ≤ η ∧ (2 : ℝ) ^ (-(p : ℤ)) + η ≤ ε ∧
      Accurate A hw.backend η h w ⟨dx⟩ := by
  have : NeZero h := ⟨h0.ne'⟩
  have : NeZero w := ⟨w0.ne'⟩
  obtain ⟨E, hE1, hE2⟩ := solver_exists hb dx
  obtain ⟨Λ, hΛ⟩ : ∃ Λ : ℝ, ∀ f : Fld h w, ‖E f‖ ≤ Λ * ‖f‖ :=
    ⟨‖LinearMap.toContinuousLinearMap E‖, fun f => (LinearMap.toContinuousLinearMap E).le_opNorm f⟩
  generalize hL : max Λ 1 = L
  have hL1 : 1 ≤ L := hL ▸ le_max_right _ _
  have hLE : ∀ f : Fld h w, ‖E f‖ ≤ L * ‖f‖ := fun f =>
    (hΛ f).trans (mul_le_mul_of_nonneg_right (hL ▸ le_max_left _ _) (norm_nonneg _))
  obtain ⟨p, hp⟩ := exists_pow_lt_of_lt_one (show (0 : ℝ) < ε / (1 + L) by positivity) (show (1 / 2 : ℝ) < 1 by norm_num)
  have e2 : (2 : ℝ) ^ (-(p : ℤ)) = (1 / 2) ^ p := by
    rw [zpow_neg, zpow_natCast, one_div, inv_pow]
  have u0 : (0 : ℝ) ≤ 2 ^ (-(p : ℤ)) := by positivity
  have hfld : ∀ (a : Arr (Rd (Rounded.binary p))) (M : ℝ), Bounded h w a M →
      ∃ f : Fld h w, exactly a = ofField f ∧ (∀ i j, |f i j| ≤ M) ∧ ‖f‖ ≤ M ∧ 0 ≤ M := by
    intro a M ⟨h1, h2, h3⟩
    have hM : ∀ (i : ZMod h) (j : ZMod w), |(a.at' i.val j.val).val| ≤ M := fun i j => h3 _ _ (ZMod.val_lt i) (ZMod.val_lt j)
    have hM0 : 0 ≤ M := (abs_nonneg _).trans (hM 0 0)
    refine ⟨fun i j => (a.at' i.val j.val).val, ?_, hM, norm_fld_le hM0 hM, hM0⟩
    have := exactly_ofF fun (i : ZMod h) (j : ZMod w) => a.at' i.val j.val
    rw [ofField_vals h1 h2] at this
    exact this
  have near : ∀ x M : ℝ, |x| ≤ L * M → |nearest p x - x| ≤ 2 ^ (-(p : ℤ)) * L * M := fun x M hx =>
    (nearest_err p x).trans (by rw [mul_assoc]; exact mul_le_mul_of_nonneg_left hx u0)
  obtain ⟨numba, hnb⟩ : ∃ numba : Bool, hw.backend = if numba then numbaBackend else numpyBackend := by
    rcases hb with e | ⟨e, -⟩
    · exact ⟨false, e⟩
    · exact ⟨true, e⟩
  refine ⟨p, binaryArith p hw.backend numba, 2 ^ (-(p : ℤ)) * L, by positivity, ?_, rfl, fun x => by simp [binaryArith], ?_,
    ?_, ?_, ?_⟩
  · rw [e2]
    have := (lt_div_iff₀ (by positivity)).1 hp
    linarith
  · cases numba
    · exact .inl ⟨hnb, rfl, rfl, fun a d x => rfl⟩
    · exact .inr ⟨hnb, rfl, rfl, fun a d x => rfl⟩
  · intro a M ha
    obtain ⟨f, e, hf, -, hM⟩ := hfld a M ha
    simp only [binaryArith, e, mean_ofField']
    refine near _ _ ?_
    have hc : (0 : ℝ) < h * w := by positivity
    have : |avg f| ≤ M := by
      unfold avg S
      rw [abs_div, abs_of_pos hc, div_le_iff₀ hc]
      refine (Finset.abs_sum_le_sum_abs _ _).trans ((Finset.sum_le_sum fun i _ => (Finset.abs_sum_le_sum_abs _ _).trans
        (Finset.sum_le_sum fun j _ => hf i j)).trans (le_of_eq ?_))
      simp only [Finset.sum_const, Finset.card_univ, ZMod.card, nsmul_eq_mul]
      ring
    nlinarith
  · intro a M ha
    obtain ⟨f, e, hf, -, hM⟩ := hfld a M ha
    simp only [binaryArith, e, meanRows_ofField]
    refine ⟨rfl, rfl, fun j hj => ?_⟩
    rw [map_tab, tab_at' _ _ _ Nat.one_pos hj, tab_at' _ _ _ Nat.one_pos hj]
    refine near _ _ ?_
    have hc : (0 : ℝ) < h := by positivity
    have : |(∑ i, f i (j : ZMod w)) / (h : ℝ)| ≤ M := by
      rw [abs_div, abs_of_pos hc, div_le_iff₀ hc]
      refine (Finset.abs_sum_le_sum_abs _ _).trans ((Finset.sum_le_sum fun i _ => hf i _).trans (le_of_eq ?_))
      simp only [Finset.sum_const, Finset.card_univ, ZMod.card, nsmul_eq_mul]
      ring
    nlinarith
  · intro a M ha
    obtain ⟨f, e, hf, hn, hM⟩ := hfld a M ha
    refine ⟨(ofField (E f)).map fun x => ⟨nearest p x⟩, ofField (E f), ?_, rfl, rfl, ?_, fun i j hi hj => ?_⟩
    · simp only [binaryArith, e, hE1]
      rfl
    · rw [e, hE1]
    rw [map_ofField, ofField_at' _ hi hj, ofField_at' _ hi hj]
    refine near _ _ ?_
    exact (Gen.Fld.le_norm _ _ _).trans ((hLE f).trans (mul_le_mul_of_nonneg_left hn (by linarith)))

example : ∃ s, IsState true 4 5 s ∧ Consistent (HW.init numpyBackend 1 3 1 (1 / 10) 1 1 1 true true) 1 s ∧
    ∃ N O : ℝ → Arr ℝ, ExactSolution (HW.init numpyBackend 1 3 1 (1 / 10) 1 1 1 true true) 1 4 5 100 N O ∧
    ∃ C dt : ℝ, 0 < dt ∧ ∃ (p : ℕ) (A : Gen.Arith (Rd (Rounded.binary p))) (η : ℝ) (x0 : Gen.State (Rd (Rounded.binary p))),
      FloatClose 4 5 0 x0 s ∧ ∀ k : ℕ, k * dt ≤ 100 →
        ∃ x, Gen.iterate (floatStep A (HW.init numpyBackend 1 3 1 (1 / 10) 1 1 1 true true) 1 (.rk4 dt)) k x0 = .ok x ∧
          FloatWithin 4 5 (C * (dt ^ 4 + (2 ^ (-(p : ℤ)) + η) / dt)) x (N (k * dt)) (O (k * dt)) := by
  obtain ⟨s, c, -, hs, hc⟩ := C32_phi_consistent (HW.init numpyBackend 1 3 1 (1 / 10) 1 1 1 true true) 1
    (h := 4) (w := 5) (by decide) (by decide) (.inl rfl) [.rk4 (1 / 10)] (by simp) demoState demoState_isState {}
  obtain ⟨N, O, -, -, H, C, δ, hC, hδ, K⟩ := C103_floating_point (by decide) (by decide) (.inl rfl) one_ne_zero s hs hc 100
    (by norm_num)
  obtain ⟨p, A, η, η0, hp, hA⟩ := C103_arithmetic_exists (hw := HW.init numpyBackend 1 3 1 (1 / 10) 1 1 1 true true)
    (h := 4) (w := 5) (by decide) (by decide) (.inl rfl) 1 (δ * δ) (by positivity)
  let x0 : Gen.State (Rd (Rounded.binary p)) :=
    ⟨tab 4 5 fun i j => ⟨(arrOf s "density").at' i j⟩, tab 4 5 fun i j => ⟨(arrOf s "omega").at' i j⟩,
      tab 4 5 fun i j => ⟨(arrOf s "phi").at' i j⟩⟩
  have hx : ∀ ε : ℝ, 0 ≤ ε → FloatClose 4 5 ε x0 s := fun ε hε => by
    refine ⟨⟨rfl, rfl⟩, ⟨rfl, rfl⟩, ⟨rfl, rfl⟩, fun i j hi hj => ?_⟩
    simp only [x0, tab_at' _ _ _ hi hj, sub_self, abs_zero, hε, and_self]
  refine ⟨s, hs, hc, N, O, H, C, δ, hδ, p, A, η, x0, hx 0 le_rfl, fun k hk => ?_⟩
  obtain ⟨x, e, -, m⟩ := K δ hδ le_rfl _ _ A η (by positivity) η0 hp hA _ 4 (.inl ⟨rfl, rfl⟩) x0
    (hx _ (by positivity)) k hk
  exact ⟨x, e, m⟩

example := C103_same_program (hw := HW.init numpyBackend 1 3 1 (1 / 10) 1) (dx := 1) (by decide) (by decide) (.inl rfl) demoState
  demoState_isState (.rk4 (1 / 10)) {}

end Verif.Props
