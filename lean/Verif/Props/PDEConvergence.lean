import Verif.Props.Convergence
import Verif.Lemmas.MolMain
import Mathlib.Analysis.SpecialFunctions.Trigonometric.Deriv
import Mathlib.Analysis.SpecialFunctions.Integrals.Basic

/-!
# Property theorem C86: convergence to the Hasegawa–Wakatani equations

`Spec.HWSolution` is a smooth solution of the partial differential equations on
a periodic box.  The theorem compares what the time steppers compute from its
samples with the solution itself, with one constant for all grids.
-/

set_option linter.unusedSectionVars false

namespace Verif.Props

open Arr NS Spec Set

variable {h w : ℕ}

/-- difference of an array and a function of `(y, x)` at the grid points -/
noncomputable def gridErr (dx : ℝ) (a : Arr ℝ) (F : ℝ → ℝ → ℝ) (i j : ℕ) : ℝ := a.at' i j - F (i * dx) (j * dx)

/-- the array holds the values of the function at the grid points -/
def Sampled (h w : ℕ) (dx : ℝ) (F : ℝ → ℝ → ℝ) (a : Arr ℝ) : Prop :=
  ∀ i j, i < h → j < w → a.at' i j = F (i * dx) (j * dx)

section fields
variable [NeZero h] [NeZero w]

theorem sum_range_eq (g : ZMod h → ZMod w → ℝ) :
    ∑ i ∈ Finset.range h, ∑ j ∈ Finset.range w, g (i : ZMod h) (j : ZMod w) = S g := by
  unfold S
  rw [← sum_fin_ofField, Finset.sum_range fun i => ∑ j ∈ Finset.range w, g (i : ZMod h) (j : ZMod w)]
  refine Finset.sum_congr rfl fun i _ => ?_
  rw [Finset.sum_range fun j => g ((i : ℕ) : ZMod h) (j : ZMod w)]

theorem gridErr_eq (dx : ℝ) (f : Fld h w) (F : ℝ → ℝ → ℝ) {i j : ℕ} (hi : i < h) (hj : j < w) :
    gridErr dx (ofField f) F i j = (f - samp h w dx F) i j := by
  unfold gridErr
  rw [ofField_at' _ hi hj]
  simp only [Pi.sub_apply, samp, ZMod.val_natCast, Nat.mod_eq_of_lt hi, Nat.mod_eq_of_lt hj]

theorem rms_le (dx : ℝ) (f : Fld h w) (F : ℝ → ℝ → ℝ) {K : ℝ} (hK : 0 ≤ K)
    (H : Q (f - samp h w dx F) ≤ (h : ℝ) * w * (K * dx ^ 4)) :
    rms h w (gridErr dx (ofField f) F) ≤ Real.sqrt K * dx ^ 2 := by
  unfold rms
  have e : ∑ i ∈ Finset.range h, ∑ j ∈ Finset.range w, gridErr dx (ofField f) F i j ^ 2
      = Q (f - samp h w dx F) := by
    unfold Q
    rw [← sum_range_eq]
    refine Finset.sum_congr rfl fun i hi => Finset.sum_congr rfl fun j hj => ?_
    rw [gridErr_eq dx f F (Finset.mem_range.1 hi) (Finset.mem_range.1 hj)]
  rw [e]
  have hc : (0 : ℝ) < (h : ℝ) * w := cardR_pos
  refine Real.sqrt_le_iff.2 ⟨by positivity, ?_⟩
  rw [div_le_iff₀ hc, mul_pow, Real.sq_sqrt hK]
  linarith

theorem sampled_eq {dx : ℝ} {F : ℝ → ℝ → ℝ} {a : Arr ℝ} (H : Sampled h w dx F a) :
    (toFld a : Fld h w) = samp h w dx F := by
  funext i j
  exact H i.val j.val (ZMod.val_lt i) (ZMod.val_lt j)

theorem q_of_within {test : Bool} {ks : List String} (hk : GoodKeys ks test) (t : Sta h w) (n o : Arr ℝ)
    {e : ℝ} (H : Within h w (NS.mk ks (st t)) n o e) :
    Q (t.1 - toFld n) ≤ (h : ℝ) * w * e ^ 2 ∧ Q (t.2.1 - toFld o) ≤ (h : ℝ) * w * e ^ 2 := by
  unfold Within at H
  rw [arrOf_density hk, arrOf_omega hk] at H
  constructor
  · refine Q_bound fun i j => ?_
    have := (H i.val j.val (ZMod.val_lt i) (ZMod.val_lt j)).1
    rwa [ofField_at' _ (ZMod.val_lt i) (ZMod.val_lt j), ZMod.natCast_zmod_val, ZMod.natCast_zmod_val] at this
  · refine Q_bound fun i j => ?_
    have := (H i.val j.val (ZMod.val_lt i) (ZMod.val_lt j)).2
    rwa [ofField_at' _ (ZMod.val_lt i) (ZMod.val_lt j), ZMod.natCast_zmod_val, ZMod.natCast_zmod_val] at this

end fields

theorem parOf_init (b : Backend) (P : Params) (dx0 k0 : ℝ) (test : Bool) (dx : ℝ) :
    parOf (HW.init b dx0 P.N P.c1 P.nu k0 P.pb P.kappa P.zonal test) dx = { P with dx := dx } := by
  unfold parOf HW.init
  have : (-1 : ℝ) ^ (P.N + 1) * ((-1) ^ (P.N + 1) * P.nu) = P.nu := by
    rw [← mul_assoc, ← mul_pow]; norm_num
  simp only [this]

/-- one constant for the squared errors of density, vorticity and potential -/
noncomputable def convK (P : Params) (B L T : ℝ) : ℝ :=
  (2 + 2 * molK P B L T) + (2 * poin L ^ 2 * (2 + 2 * molK P B L T) + 2 * potK B L)

/-- **C86.** Let `n, w, p` be a smooth solution of the Hasegawa–Wakatani equations on the periodic box
`Ly × Lx` and the time interval `[0, T]`.  There is one constant `C` such that on every `h × w` grid of that
box the time steppers, started from the samples of density and vorticity at time 0 (and any potential),
stay within `C dx²` of the samples of the solution in root mean square, for density, vorticity and (after
the first step) potential alike, at every step up to time `T`, for every small enough time step.
(The field `dx` of `P` is not used: the grid spacing is the `dx` quantified below.) -/
theorem C86_converges_to_pde (P : Params) (hnu : 0 ≤ P.nu) {Ly Lx T B : ℝ} {r : ℕ} (hT : 0 ≤ T) (hr : 4 ≤ r)
    (hr' : 2 * P.N + 2 ≤ r) {nf wf pf : ℝ → ℕ → ℕ → ℝ → ℝ → ℝ} (H : HWSolution P Ly Lx T r B nf wf pf) :
    ∃ C, 0 ≤ C ∧ ∀ (h w : ℕ) (dx : ℝ), 0 < h → 0 < w → 0 < dx → h * dx = Ly → w * dx = Lx →
      ∀ (b : Backend) (dx0 k0 : ℝ) (test : Bool), Std b h w →
      ∀ hw, hw = HW.init b dx0 P.N P.c1 P.nu k0 P.pb P.kappa P.zonal test →
      ∀ s, IsState test h w s →
        Sampled h w dx (nf 0 0 0) (arrOf s "density") → Sampled h w dx (wf 0 0 0) (arrOf s "omega") →
      ∃ dt0, 0 < dt0 ∧ ∀ dt, 0 ≤ dt → dt ≤ dt0 → ∀ k : ℕ, k * dt ≤ T →
        ∀ step, step = Step.rk4 ∨ step = Step.euler → ∀ c,
        ∃ s' c', history hw dx (List.replicate k (step dt)) s c = .ok (s', c') ∧
          rms h w (gridErr dx (arrOf s' "density") (nf (k * dt) 0 0)) ≤ C * dx ^ 2 ∧
          rms h w (gridErr dx (arrOf s' "omega") (wf (k * dt) 0 0)) ≤ C * dx ^ 2 ∧
          (0 < k → rms h w (gridErr dx (arrOf s' "phi") (pf (k * dt) 0 0)) ≤ C * dx ^ 2) := by
  set L := max Ly Lx
  refine ⟨Real.sqrt (convK P B L T), Real.sqrt_nonneg _, ?_⟩
  intro h w dx h0 w0 hdx hy hx b dx0 k0 test hb hw ehw s hs sn so
  have : NeZero h := ⟨h0.ne'⟩
  have : NeZero w := ⟨w0.ne'⟩
  have hb' : Std hw.backend h w := by rw [ehw]; exact hb
  have hs' : IsState hw.TEST_CONSERVATION h w s := by rw [ehw]; exact hs
  have ep : parOf hw dx = { P with dx := dx } := by rw [ehw]; exact parOf_init ..
  have H' : HWSolution { P with dx := dx } Ly Lx T r B nf wf pf :=
    ⟨H.smoothN, H.smoothO, H.smoothP, H.periodicN, H.periodicO, H.periodicP, H.poisson, H.meanP,
      H.evolN, H.evolO⟩
  obtain ⟨N, O, en, eo, hE, C, dt0, hC, hdt0, hst⟩ := C77_converges_anyway_partial (dx := dx) h0 w0 hb' s hs' T hT
  obtain ⟨-, -, hY⟩ := (exact_iff hb'.good).1 hE
  rw [ep] at hY
  have hmol := mol_converges (h := h) (w := w) { P with dx := dx } hdx hnu hr hr' H' hy hx
    (le_max_left Ly Lx) (le_max_right Ly Lx) hY
    (by simp only [pairOf]; rw [en, eo, sampled_eq sn, sampled_eq so])
  change ∀ t ∈ Icc 0 T, Q (toFld (N t) - samp h w dx (nf t 0 0)) + Q (toFld (O t) - samp h w dx (wf t 0 0))
      ≤ (h : ℝ) * w * (molK P B L T * dx ^ 4) at hmol
  have hdd : 0 < dx ^ 2 / (C + 1) := by positivity
  refine ⟨min dt0 (min 1 (dx ^ 2 / (C + 1))), lt_min hdt0 (lt_min one_pos hdd), ?_⟩
  intro dt hdt hle k hk step hstep c
  have l1 : dt ≤ dt0 := hle.trans (min_le_left _ _)
  have l2 : dt ≤ 1 := hle.trans ((min_le_right _ _).trans (min_le_left _ _))
  have l3 : dt ≤ dx ^ 2 / (C + 1) := hle.trans ((min_le_right _ _).trans (min_le_right _ _))
  have l4 : C * dt ≤ dx ^ 2 := by
    rw [le_div_iff₀ (by positivity)] at l3; nlinarith
  have hkt : k * dt ∈ Icc 0 T := ⟨by positivity, hk⟩
  obtain ⟨s', c', e, hW'⟩ := hst dt hdt l1 k hk step hstep c
  have hW : Within h w s' (N (k * dt)) (O (k * dt)) (dx ^ 2) :=
    fun i j hi hj => ⟨(hW' i j hi hj).1.trans l4, (hW' i j hi hj).2.trans l4⟩
  have hsc : IsState hw.TEST_CONSERVATION h w s' ∧ (0 < k → Consistent hw dx s') := by
    rcases Nat.eq_zero_or_pos k with rfl | hk0
    · have e' : (Except.ok (s, c) : Except PyErr _) = .ok (s', c') := e
      injection e' with e'
      injection e' with e' _
      rw [← e']; exact ⟨hs', fun h => absurd h (lt_irrefl _)⟩
    · obtain ⟨s2, c2, e2, h1, h2⟩ := C32_phi_consistent hw dx h0 w0 hb' (List.replicate k (step dt))
        (by simp; omega) s hs' c
      rw [e] at e2
      injection e2 with e2
      injection e2 with e2 _
      rw [e2]; exact ⟨h1, fun _ => h2⟩
  obtain ⟨hs2, hc2⟩ := hsc
  refine ⟨s', c', e, ?_⟩
  obtain ⟨ks, u, hks, -, rfl⟩ := hs2.exists_mk
  rw [arrOf_density hks, arrOf_omega hks, arrOf_phi hks]
  obtain ⟨q1, q2⟩ := q_of_within hks u _ _ hW
  have hm := hmol _ hkt
  have hcard : (0 : ℝ) < (h : ℝ) * w := cardR_pos
  have tri : ∀ f g a : Fld h w, Q (f - a) ≤ 2 * Q (f - g) + 2 * Q (g - a) := fun f g a => by
    have := Q_add_le (f - g) (g - a)
    refine le_trans (le_of_eq ?_) this
    congr 1; funext i j; simp
  have t1 := tri u.1 (toFld (N (k * dt))) (samp h w dx (nf (k * dt) 0 0))
  have t2 := tri u.2.1 (toFld (O (k * dt))) (samp h w dx (wf (k * dt) 0 0))
  have nn1 := Q_nonneg (toFld (N (k * dt)) - samp h w dx (nf (k * dt) 0 0))
  have nn2 := Q_nonneg (toFld (O (k * dt)) - samp h w dx (wf (k * dt) 0 0))
  have hmK := molK_nonneg P B L hT
  have hpK := potK_nonneg B L
  have hL := poin_nonneg L
  have d1 : Q (u.1 - samp h w dx (nf (k * dt) 0 0)) ≤ (h : ℝ) * w * ((2 + 2 * molK P B L T) * dx ^ 4) := by
    nlinarith
  have d2 : Q (u.2.1 - samp h w dx (wf (k * dt) 0 0)) ≤ (h : ℝ) * w * ((2 + 2 * molK P B L T) * dx ^ 4) := by
    nlinarith
  have hyL : h * dx ≤ L := hy.trans_le (le_max_left Ly Lx)
  have hxL : w * dx ≤ L := hx.trans_le (le_max_right Ly Lx)
  have hpot := potential_le (h := h) (w := w) ((H.smoothP _ hkt).mono hr) hdx (per_of (H.periodicP _ hkt) hy hx)
    (H.poisson _ hkt) hy hx (H.meanP _ hkt) (le_max_left Ly Lx) (le_max_right Ly Lx)
  have hdn : 0 ≤ dirichlet (phiF dx (samp h w dx (wf (k * dt) 0 0)) - samp h w dx (pf (k * dt) 0 0))
      (phiF dx (samp h w dx (wf (k * dt) 0 0)) - samp h w dx (pf (k * dt) 0 0)) / dx ^ 2 := by
    rw [dirichlet_eq]
    exact div_nonneg (add_nonneg (Q_nonneg _) (Q_nonneg _)) (by positivity)
  have d3 : 0 < k → Q (u.2.2.1 - samp h w dx (pf (k * dt) 0 0))
      ≤ (h : ℝ) * w * ((2 * poin L ^ 2 * (2 + 2 * molK P B L T) + 2 * potK B L) * dx ^ 4) := by
    intro hk0
    have hc3 := hc2 hk0
    rw [consistent_mk hw hb'.good dx hks] at hc3
    have t3 := tri u.2.2.1 (phiF dx (samp h w dx (wf (k * dt) 0 0))) (samp h w dx (pf (k * dt) 0 0))
    have e3 : u.2.2.1 - phiF dx (samp h w dx (wf (k * dt) 0 0))
        = phiF dx (u.2.1 - samp h w dx (wf (k * dt) 0 0)) := by
      have h1 := phiF_lin dx 1 (-1) 0 u.2.1 (samp h w dx (wf (k * dt) 0 0))
      simp only [one_mul, neg_mul, add_zero, ← sub_eq_add_neg] at h1
      rw [hc3]
      exact h1.symm
    have t4 := phi_Q hdx hyL hxL (u.2.1 - samp h w dx (wf (k * dt) 0 0))
    rw [← e3] at t4
    have t5 := t4.trans (mul_le_mul_of_nonneg_left d2 (sq_nonneg (poin L)))
    nlinarith
  have hsum : ∀ K, 0 ≤ K → K ≤ convK P B L T → ∀ (f : Fld h w) (F : ℝ → ℝ → ℝ),
      Q (f - samp h w dx F) ≤ (h : ℝ) * w * (K * dx ^ 4) →
      rms h w (gridErr dx (ofField f) F) ≤ Real.sqrt (convK P B L T) * dx ^ 2 := fun K hK hKc f F hQ =>
    (rms_le dx f F hK hQ).trans (mul_le_mul_of_nonneg_right (Real.sqrt_le_sqrt hKc) (by positivity))
  have p1 : 0 ≤ 2 + 2 * molK P B L T := by positivity
  have p2 : 0 ≤ 2 * poin L ^ 2 * (2 + 2 * molK P B L T) + 2 * potK B L := by positivity
  exact ⟨hsum _ p1 (by unfold convK; linarith) _ _ d1, hsum _ p1 (by unfold convK; linarith) _ _ d2,
    fun hk0 => hsum _ p2 (by unfold convK; linarith) _ _ (d3 hk0)⟩

theorem abs_le_of_rms {f : ℕ → ℕ → ℝ} {e : ℝ} (h0 : 0 < h) (w0 : 0 < w) (H : rms h w f ≤ e) {i j : ℕ}
    (hi : i < h) (hj : j < w) : |f i j| ≤ Real.sqrt (h * w) * e := by
  have hc : (0 : ℝ) < (h : ℝ) * w := by positivity
  have h1 : f i j ^ 2 ≤ ∑ i ∈ Finset.range h, ∑ j ∈ Finset.range w, f i j ^ 2 :=
    (Finset.single_le_sum (f := fun j => f i j ^ 2) (fun _ _ => sq_nonneg _) (Finset.mem_range.2 hj)).trans
      (Finset.single_le_sum (f := fun i => ∑ j ∈ Finset.range w, f i j ^ 2)
        (fun _ _ => Finset.sum_nonneg fun _ _ => sq_nonneg _) (Finset.mem_range.2 hi))
  unfold rms at H
  have h2 := mul_le_mul_of_nonneg_left H (Real.sqrt_nonneg ((h : ℝ) * w))
  rw [← Real.sqrt_mul hc.le, mul_div_cancel₀ _ hc.ne'] at h2
  refine le_trans ?_ h2
  rw [← Real.sqrt_sq_eq_abs]
  exact Real.sqrt_le_sqrt h1

/-- **C86 (every grid point).** Under the same conditions the error at every single grid point is at most
`C dx`: as the grid is refined all values converge to those of the solution. -/
theorem C86_converges_pointwise (P : Params) (hnu : 0 ≤ P.nu) {Ly Lx T B : ℝ} {r : ℕ} (hT : 0 ≤ T) (hr : 4 ≤ r)
    (hr' : 2 * P.N + 2 ≤ r) {nf wf pf : ℝ → ℕ → ℕ → ℝ → ℝ → ℝ} (H : HWSolution P Ly Lx T r B nf wf pf) :
    ∃ C, 0 ≤ C ∧ ∀ (h w : ℕ) (dx : ℝ), 0 < h → 0 < w → 0 < dx → h * dx = Ly → w * dx = Lx →
      ∀ (b : Backend) (dx0 k0 : ℝ) (test : Bool), Std b h w →
      ∀ hw, hw = HW.init b dx0 P.N P.c1 P.nu k0 P.pb P.kappa P.zonal test →
      ∀ s, IsState test h w s →
        Sampled h w dx (nf 0 0 0) (arrOf s "density") → Sampled h w dx (wf 0 0 0) (arrOf s "omega") →
      ∃ dt0, 0 < dt0 ∧ ∀ dt, 0 ≤ dt → dt ≤ dt0 → ∀ k : ℕ, k * dt ≤ T →
        ∀ step, step = Step.rk4 ∨ step = Step.euler → ∀ c,
        ∃ s' c', history hw dx (List.replicate k (step dt)) s c = .ok (s', c') ∧
          ∀ i j, i < h → j < w →
            |(arrOf s' "density").at' i j - nf (k * dt) 0 0 (i * dx) (j * dx)| ≤ C * dx ∧
            |(arrOf s' "omega").at' i j - wf (k * dt) 0 0 (i * dx) (j * dx)| ≤ C * dx ∧
            (0 < k → |(arrOf s' "phi").at' i j - pf (k * dt) 0 0 (i * dx) (j * dx)| ≤ C * dx) := by
  obtain ⟨C, hC, H⟩ := C86_converges_to_pde P hnu hT hr hr' H
  refine ⟨Real.sqrt (Ly * Lx) * C, by positivity, ?_⟩
  intro h w dx h0 w0 hdx hy hx b dx0 k0 test hb hw ehw s hs sn so
  obtain ⟨dt0, hdt0, H⟩ := H h w dx h0 w0 hdx hy hx b dx0 k0 test hb hw ehw s hs sn so
  refine ⟨dt0, hdt0, fun dt hdt hle k hk step hstep c => ?_⟩
  obtain ⟨s', c', e, e1, e2, e3⟩ := H dt hdt hle k hk step hstep c
  have key : Real.sqrt (h * w) * (C * dx ^ 2) = Real.sqrt (Ly * Lx) * C * dx := by
    have : Ly * Lx = h * w * dx ^ 2 := by rw [← hy, ← hx]; ring
    rw [this, Real.sqrt_mul (by positivity : (0 : ℝ) ≤ (h : ℝ) * w) (dx ^ 2), Real.sqrt_sq hdx.le]; ring
  refine ⟨s', c', e, fun i j hi hj => ?_⟩
  rw [← key]
  exact ⟨abs_le_of_rms h0 w0 e1 hi hj, abs_le_of_rms h0 w0 e2 hi hj,
    fun hk0 => abs_le_of_rms h0 w0 (e3 hk0) hi hj⟩

/-! ### a concrete solution: an unstable resistive drift wave -/

/-- partial derivatives of `α cos (y - θ) + β sin (y - θ)` -/
noncomputable def modeFam (α β θ : ℝ) (a b : ℕ) (y _x : ℝ) : ℝ :=
  if b = 0 then α * Real.cos (y - θ + a * (Real.pi / 2)) + β * Real.sin (y - θ + a * (Real.pi / 2)) else 0

theorem modeFam_partials (r : ℕ) (α β θ : ℝ) {B : ℝ} (hB : |α| + |β| ≤ B) :
    Partials r (modeFam α β θ) B where
  dy a b _ y x := by
    unfold modeFam
    by_cases hb : b = 0
    · simp only [hb, if_true]
      have hi : HasDerivAt (fun y : ℝ => y - θ + a * (Real.pi / 2)) 1 y :=
        ((hasDerivAt_id y).sub_const θ).add_const _
      refine ((hi.cos.const_mul α).add (hi.sin.const_mul β)).congr_deriv ?_
      have e : y - θ + ((a + 1 : ℕ) : ℝ) * (Real.pi / 2) = (y - θ + a * (Real.pi / 2)) + Real.pi / 2 := by
        push_cast; ring
      rw [e, Real.cos_add_pi_div_two, Real.sin_add_pi_div_two]; ring
    · simp only [hb, if_false]; exact hasDerivAt_const _ _
  dx a b _ y x := by
    unfold modeFam
    simp only [Nat.succ_ne_zero, if_false]
    exact hasDerivAt_const _ _
  bound a b _ y x := by
    unfold modeFam
    split
    · refine (abs_add_le _ _).trans (le_trans (add_le_add ?_ ?_) hB)
      · rw [abs_mul]; exact mul_le_of_le_one_right (abs_nonneg _) (Real.abs_cos_le_one _)
      · rw [abs_mul]; exact mul_le_of_le_one_right (abs_nonneg _) (Real.abs_sin_le_one _)
    · rw [abs_zero]
      exact (add_nonneg (abs_nonneg α) (abs_nonneg β)).trans hB

theorem modeFam_zero (α β θ y x : ℝ) :
    modeFam α β θ 0 0 y x = α * Real.cos (y - θ) + β * Real.sin (y - θ) := by
  simp [modeFam]

theorem modeFam_lap (α β θ y x : ℝ) :
    modeFam α β θ 2 0 y x + modeFam α β θ 0 2 y x = - modeFam α β θ 0 0 y x := by
  have : y - θ + ((2 : ℕ) : ℝ) * (Real.pi / 2) = y - θ + Real.pi := by push_cast; ring
  rw [modeFam_zero]
  simp only [modeFam, if_true, this, Real.cos_add_pi, Real.sin_add_pi]
  norm_num
  ring

theorem modeFam_periodic (α β θ : ℝ) : Periodic2 (2 * Real.pi) (2 * Real.pi) (modeFam α β θ 0 0) := by
  intro y x
  simp only [modeFam_zero]
  have : y + 2 * Real.pi - θ = y - θ + 2 * Real.pi := by ring
  rw [this, Real.cos_add_two_pi, Real.sin_add_two_pi]
  exact ⟨rfl, trivial⟩

theorem modeFam_mean (α θ : ℝ) :
    ∫ x in 0..2 * Real.pi, ∫ y in 0..2 * Real.pi, modeFam α 0 θ 0 0 y x = 0 := by
  simp only [modeFam_zero, zero_mul, add_zero, intervalIntegral.integral_const_mul,
    intervalIntegral.integral_comp_sub_right (fun y => Real.cos y), integral_cos]
  have : Real.sin (2 * Real.pi - θ) = Real.sin (0 - θ) := by
    rw [zero_sub, show 2 * Real.pi - θ = -θ + 2 * Real.pi by ring, Real.sin_add_two_pi]
  simp [this]

/-- amplitude of the wave: growth rate `2 - 1/10` -/
noncomputable def amp (t : ℝ) : ℝ := Real.exp (19 / 10 * t)

/-- `c1 = 3`, `κ = 40/3`, `ν = 1/10`, `N = 1`: the wave with potential `amp t cos (y - 4 t)` grows and
travels along y, driven by the background gradient through the adiabatic coupling -/
theorem drift_wave (T : ℝ) : HWSolution ⟨0, 1, 3, 1 / 10, 1, 40 / 3, false⟩
    (2 * Real.pi) (2 * Real.pi) T 4 (3 * amp T)
    (fun t => modeFam (5 / 3 * amp t) (4 / 3 * amp t) (4 * t))
    (fun t => modeFam (- amp t) 0 (4 * t)) (fun t => modeFam (amp t) 0 (4 * t)) := by
  have hpos : ∀ t, 0 < amp t := fun t => Real.exp_pos _
  have hmono : ∀ t ∈ Icc 0 T, amp t ≤ amp T := fun t ht =>
    Real.exp_le_exp.2 (by have := ht.2; linarith)
  have hamp : ∀ t, HasDerivAt amp (19 / 10 * amp t) t := fun t => by
    have := ((hasDerivAt_id t).const_mul (19 / 10)).exp
    refine this.congr_deriv ?_
    unfold amp; simp; ring
  have hcos : ∀ y t : ℝ, HasDerivAt (fun t => Real.cos (y - 4 * t)) (4 * Real.sin (y - 4 * t)) t := fun y t => by
    have := (((hasDerivAt_id t).const_mul 4).const_sub y).cos
    refine this.congr_deriv ?_
    simp; ring
  have hsin : ∀ y t : ℝ, HasDerivAt (fun t => Real.sin (y - 4 * t)) (-4 * Real.cos (y - 4 * t)) t := fun y t => by
    have := (((hasDerivAt_id t).const_mul 4).const_sub y).sin
    refine this.congr_deriv ?_
    simp; ring
  have hone : ∀ α β θ y x : ℝ, modeFam α β θ 1 0 y x = - α * Real.sin (y - θ) + β * Real.cos (y - θ) := by
    intro α β θ y x
    simp only [modeFam, if_true, Nat.cast_one, one_mul, Real.cos_add_pi_div_two, Real.sin_add_pi_div_two]
    ring
  have hx : ∀ α β θ y x : ℝ, modeFam α β θ 0 1 y x = 0 := fun α β θ y x => by simp [modeFam]
  refine ⟨?_, ?_, ?_, fun _ _ => modeFam_periodic _ _ _, fun _ _ => modeFam_periodic _ _ _,
    fun _ _ => modeFam_periodic _ _ _, ?_, fun _ _ => modeFam_mean _ _, ?_, ?_⟩
  · intro t ht
    refine modeFam_partials 4 _ _ _ ?_
    have := hpos t
    have := hmono t ht
    rw [abs_of_pos (by positivity), abs_of_pos (by positivity)]; linarith
  · intro t ht
    refine modeFam_partials 4 _ _ _ ?_
    have := hpos t
    have := hmono t ht
    rw [abs_neg, abs_of_pos (by positivity), abs_zero]; linarith
  · intro t ht
    refine modeFam_partials 4 _ _ _ ?_
    have := hpos t
    have := hmono t ht
    rw [abs_of_pos (by positivity), abs_zero]; linarith
  · intro t _ y x
    rw [modeFam_lap, modeFam_zero, modeFam_zero]; ring
  · intro t _ y x
    simp only [modeFam_zero]
    refine ((((hamp t).const_mul (5 / 3)).mul (hcos y t)).add
      (((hamp t).const_mul (4 / 3)).mul (hsin y t))).hasDerivWithinAt.congr_deriv ?_
    simp only [pdeN, coupling, lapFam, Function.iterate_one, hx, hone, zero_add, modeFam_lap, modeFam_zero,
      Bool.false_eq_true, if_false]
    ring
  · intro t _ y x
    simp only [modeFam_zero]
    have hd : HasDerivAt (fun s => - amp s * Real.cos (y - 4 * s) + 0 * Real.sin (y - 4 * s)) _ t :=
      ((hamp t).fun_neg.fun_mul (hcos y t)).fun_add ((hsin y t).const_mul 0)
    refine hd.hasDerivWithinAt.congr_deriv ?_
    simp only [pdeO, coupling, lapFam, Function.iterate_one, hx, hone, zero_add, modeFam_lap, modeFam_zero,
      Bool.false_eq_true, if_false]
    ring

/-- every pair of functions can be sampled into a consistent state -/
theorem exists_sampled_state (hw : HW) (dx : ℝ) (h0 : 0 < h) (w0 : 0 < w) (hb : Std hw.backend h w) (test : Bool)
    (F G : ℝ → ℝ → ℝ) : ∃ s, IsState test h w s ∧ Consistent hw dx s ∧
      Sampled h w dx F (arrOf s "density") ∧ Sampled h w dx G (arrOf s "omega") := by
  have : NeZero h := ⟨h0.ne'⟩
  have : NeZero w := ⟨w0.ne'⟩
  have hk : GoodKeys ["density", "omega", "phi", "age"] test :=
    ⟨by intro k hk; simp only [List.mem_cons, List.not_mem_nil, or_false] at hk
        rcases hk with rfl | rfl | rfl | rfl <;> cases test <;> simp [gradKeys],
      by simp, by simp, by simp, by simp⟩
  refine ⟨NS.mk ["density", "omega", "phi", "age"]
    (st (samp h w dx F, samp h w dx G, phiF dx (samp h w dx G), 0, 0, 0)), isState_mk hk (by simp) _,
    (consistent_mk hw hb.good dx hk _).2 rfl, ?_, ?_⟩
  · rw [arrOf_density hk]; exact fun i j hi hj => samp_at hi hj
  · rw [arrOf_omega hk]; exact fun i j hi hj => samp_at hi hj

/-- the hypotheses hold for the drift wave on every square grid of the box -/
example : ∃ C, ∀ m : ℕ, 0 < m → ∀ hw, hw = HW.init numpyBackend 1 1 3 (1 / 10) 1 1 (40 / 3) false true →
    ∃ s, IsState true m m s ∧
      ∃ dt0 : ℝ, 0 < dt0 ∧ ∀ dt, 0 ≤ dt → dt ≤ dt0 → ∀ k : ℕ, 0 < k → k * dt ≤ 5 → ∀ c,
        ∃ s' c', history hw (2 * Real.pi / m) (List.replicate k (.rk4 dt)) s c = .ok (s', c') ∧
          rms m m (gridErr (2 * Real.pi / m) (arrOf s' "phi")
            fun y _ => amp (k * dt) * Real.cos (y - 4 * (k * dt))) ≤ C * (2 * Real.pi / m) ^ 2 := by
  obtain ⟨C, -, H⟩ := C86_converges_to_pde _ (by norm_num) (by norm_num) le_rfl (by norm_num)
    (drift_wave 5)
  refine ⟨C, fun m hm hw ehw => ?_⟩
  have hm' : (m : ℝ) ≠ 0 := by positivity
  obtain ⟨s, hs, -, h1, h2⟩ := exists_sampled_state hw (2 * Real.pi / m) hm hm
    (by rw [ehw]; exact .inl rfl) true (modeFam (5 / 3 * amp 0) (4 / 3 * amp 0) (4 * 0) 0 0)
    (modeFam (- amp 0) 0 (4 * 0) 0 0)
  obtain ⟨dt0, hdt0, H⟩ := H m m (2 * Real.pi / m) hm hm (by positivity) (by field_simp) (by field_simp)
    numpyBackend 1 1 true (.inl rfl) hw ehw s hs h1 h2
  refine ⟨s, hs, dt0, hdt0, fun dt hdt hle k hk0 hk c => ?_⟩
  obtain ⟨s', c', e, -, -, e3⟩ := H dt hdt hle k hk .rk4 (.inl rfl) c
  refine ⟨s', c', e, ?_⟩
  have : (modeFam (amp (k * dt)) 0 (4 * (k * dt)) 0 0 : ℝ → ℝ → ℝ)
      = fun y _ => amp (k * dt) * Real.cos (y - 4 * (k * dt)) := by
    funext y x; rw [modeFam_zero]; ring
  rw [← this]; exact e3 hk0

example := C86_converges_pointwise _ (by norm_num) (by norm_num) le_rfl (by norm_num) (drift_wave 5)

end Verif.Props
