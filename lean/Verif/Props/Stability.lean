import Verif.Props.Modes
import Verif.Lemmas.Spectral

/-!
# Property theorems C89: the largest stable step of the hyperdiffusion
-/

set_option linter.unusedSectionVars false

namespace Verif.Props

open Arr NS Spec Matrix Complex

variable {h w : ℕ}

/-- sum of the squares of the entries -/
noncomputable def sumSq (h w : ℕ) (A : Arr ℝ) : ℝ := ∑ i ∈ Finset.range h, ∑ j ∈ Finset.range w, A.at' i j ^ 2

/-- the step number of RK4: `dt` times the fastest damping rate `nu (8/dx²)^N` of the grid satisfies
`x³ - 4 x² + 12 x ≤ 24` (that is, `x ≤ 2.785…`) -/
def RK4Stable (P : Params) (dt : ℝ) : Prop :=
  let x := dt * (P.nu * (8 / P.dx ^ 2) ^ P.N)
  x ^ 3 - 4 * x ^ 2 + 12 * x ≤ 24

/-- the same for Euler's method: `x ≤ 2` -/
def EulerStable (P : Params) (dt : ℝ) : Prop := dt * (P.nu * (8 / P.dx ^ 2) ^ P.N) ≤ 2

/-- the condition that belongs to a step -/
def StepStable (P : Params) : Step → Prop
  | .rk4 dt => 0 ≤ dt ∧ RK4Stable P dt
  | .euler dt => 0 ≤ dt ∧ EulerStable P dt

/-- factor by which one step multiplies a mode that decays at rate `g` -/
noncomputable def damp (g : ℝ) : Step → ℝ
  | .rk4 dt => 1 - dt * g + (dt * g) ^ 2 / 2 - (dt * g) ^ 3 / 6 + (dt * g) ^ 4 / 24
  | .euler dt => 1 - dt * g

theorem cubic_mono {y x : ℝ} (hyx : y ≤ x) : y ^ 3 - 4 * y ^ 2 + 12 * y ≤ x ^ 3 - 4 * x ^ 2 + 12 * x := by
  have : x ^ 3 - 4 * x ^ 2 + 12 * x - (y ^ 3 - 4 * y ^ 2 + 12 * y)
      = (x - y) * (x ^ 2 + x * y + y ^ 2 - 4 * (x + y) + 12) := by ring
  have h2 : 0 ≤ x ^ 2 + x * y + y ^ 2 - 4 * (x + y) + 12 := by
    nlinarith [sq_nonneg (x + y - 8 / 3), sq_nonneg (x - y)]
  have := mul_nonneg (sub_nonneg.2 hyx) h2
  linarith

theorem damp_le {P : Params} {g : ℝ} (h0 : 0 ≤ g) (h1 : g ≤ P.nu * (8 / P.dx ^ 2) ^ P.N) {a : Step}
    (ha : StepStable P a) : damp g a ^ 2 ≤ 1 := by
  cases a with
  | rk4 dt =>
    obtain ⟨hdt, hs⟩ := ha
    unfold RK4Stable at hs
    simp only [damp]
    set y := dt * g
    have hy : 0 ≤ y := mul_nonneg hdt h0
    have hyx := cubic_mono (mul_le_mul_of_nonneg_left h1 hdt)
    have hc : y ^ 3 - 4 * y ^ 2 + 12 * y ≤ 24 := hyx.trans hs
    have hup : 1 - y + y ^ 2 / 2 - y ^ 3 / 6 + y ^ 4 / 24 ≤ 1 := by
      have := mul_nonneg hy (sub_nonneg.2 hc)
      nlinarith
    have hlo : 0 ≤ 1 - y + y ^ 2 / 2 - y ^ 3 / 6 + y ^ 4 / 24 := by
      nlinarith [sq_nonneg (y ^ 2 - 2 * y), sq_nonneg (y - 3 / 2), sq_nonneg y]
    nlinarith
  | euler dt =>
    obtain ⟨hdt, hs⟩ := ha
    unfold EulerStable at hs
    simp only [damp]
    have hy : 0 ≤ dt * g := mul_nonneg hdt h0
    have := mul_le_mul_of_nonneg_left h1 hdt
    nlinarith

theorem lapSym_bounds (dx : ℝ) (k m : ℕ) : -(8 / dx ^ 2) ≤ lapSym h w dx k m ∧ lapSym h w dx k m ≤ 0 := by
  have h1 := Real.sin_sq_le_one (Real.pi * k / h)
  have h2 := Real.sin_sq_le_one (Real.pi * m / w)
  have e : lapSym h w dx k m = -((4 * (Real.sin (Real.pi * k / h) ^ 2 + Real.sin (Real.pi * m / w) ^ 2)) / dx ^ 2) := by
    unfold lapSym; ring
  rw [e]
  constructor
  · rw [neg_le_neg_iff]
    exact div_le_div_of_nonneg_right (by linarith) (sq_nonneg _)
  · rw [neg_nonpos]; positivity

theorem hypSym_bounds (P : Params) (hnu : 0 ≤ P.nu) (k m : ℕ) :
    0 ≤ -hypSym P h w k m ∧ -hypSym P h w k m ≤ P.nu * (8 / P.dx ^ 2) ^ P.N := by
  obtain ⟨h1, h2⟩ := lapSym_bounds (h := h) (w := w) P.dx k m
  have e : -hypSym P h w k m = P.nu * (-lapSym h w P.dx k m) ^ P.N := by
    unfold hypSym
    rw [neg_pow (lapSym h w P.dx k m)]; ring
  rw [e]
  exact ⟨mul_nonneg hnu (pow_nonneg (by linarith) _),
    mul_le_mul_of_nonneg_left (pow_le_pow_left₀ (by linarith) (by linarith) _) hnu⟩

theorem modeMat_diffusion {P : Params} (hc : P.c1 = 0) (hk : P.kappa = 0) (k m : ℕ) (v : Fin 2 → ℂ) :
    modeMat P h w k m *ᵥ v = ((hypSym P h w k m : ℝ) : ℂ) • v := by
  have e : couSym P k = 0 := by unfold couSym; rw [hc]; simp
  unfold modeMat
  rw [e, hk]
  ext i
  fin_cases i <;> simp [mulVec, dotProduct]

/-- the product of the factors of a list of steps -/
noncomputable def dampAll (g : ℝ) (l : List Step) : ℝ := (l.map (damp g)).prod

theorem evolve_diffusion {P : Params} (hc : P.c1 = 0) (hk : P.kappa = 0) (k m : ℕ) (l : List Step) (v : Fin 2 → ℂ) :
    evolve (modeMat P h w k m) l v = ((dampAll (-hypSym P h w k m) l : ℝ) : ℂ) • v := by
  induction l generalizing v with
  | nil => simp [evolve, dampAll]
  | cons a l ih =>
    have e : amplify a (modeMat P h w k m) *ᵥ v = ((damp (-hypSym P h w k m) a : ℝ) : ℂ) • v := by
      rw [amplify_eigen a (modeMat_diffusion hc hk k m v)]
      cases a with
      | rk4 dt => simp only [damp]; congr 1; push_cast; ring
      | euler dt => simp only [damp]; congr 1; push_cast; ring
    have : evolve (modeMat P h w k m) (a :: l) v
        = evolve (modeMat P h w k m) l (amplify a (modeMat P h w k m) *ᵥ v) := rfl
    rw [this, e, ih, smul_smul, dampAll, dampAll, List.map_cons, List.prod_cons]
    congr 1; push_cast; ring

theorem dampAll_le {P : Params} {g : ℝ} (h0 : 0 ≤ g) (h1 : g ≤ P.nu * (8 / P.dx ^ 2) ^ P.N) {l : List Step}
    (hl : ∀ a ∈ l, StepStable P a) : dampAll g l ^ 2 ≤ 1 := by
  induction l with
  | nil => simp [dampAll]
  | cons a l ih =>
    have e : dampAll g (a :: l) = damp g a * dampAll g l := by simp [dampAll]
    rw [e, mul_pow]
    exact mul_le_one₀ (damp_le h0 h1 (hl a (by simp))) (sq_nonneg _) (ih fun a ha => hl a (by simp [ha]))

/-- Parseval for arrays -/
theorem parseval_arr (h0 : 0 < h) (w0 : 0 < w) (A : Arr ℝ) :
    (h : ℝ) * w * sumSq h w A = ∑ k ∈ Finset.range h, ∑ m ∈ Finset.range w, ‖coef h w A.at' k m‖ ^ 2 := by
  have : NeZero h := ⟨h0.ne'⟩
  have : NeZero w := ⟨w0.ne'⟩
  have e : ∀ i j, i < h → j < w → A.at' i j = (toFld A : Fld h w) i j := by
    intro i j hi hj
    simp only [toFld, ZMod.val_natCast, Nat.mod_eq_of_lt hi, Nat.mod_eq_of_lt hj]
  rw [sum_range_at (h := h) (w := w) (fun k m => ‖coef h w A.at' k m‖ ^ 2)
    (fun k l => ‖D (cx (toFld A : Fld h w)) k l‖ ^ 2) fun k m _ _ => by rw [spec_coef_of e], parseval_sq]
  unfold sumSq
  rw [sum_range_at (h := h) (w := w) (fun i j => A.at' i j ^ 2) (fun i j => (toFld A : Fld h w) i j ^ 2)
    fun i j hi hj => by rw [e i j hi hj]]

variable {P : Params} {hw : HW} {b : Backend} {dx0 k0 : ℝ} {test : Bool}

/-- **C89, sufficient.** Pure hyperdiffusion (no coupling, drive or brackets): with steps that satisfy the
stability condition, no sequence of steps increases the sum of squares of density or vorticity, on any grid
and from any state. -/
theorem C89_stable (h0 : 0 < h) (w0 : 0 < w) (hb : Std b h w) (hnu : 0 ≤ P.nu) (hpb : P.pb = 0) (hc1 : P.c1 = 0)
    (hka : P.kappa = 0) (ehw : hw = HW.init b dx0 P.N P.c1 P.nu k0 P.pb P.kappa P.zonal test) (s : NS Val)
    (hs : IsState test h w s) (hc : Consistent hw P.dx s) (l : List Step) (hl : ∀ a ∈ l, StepStable P a)
    (c : Calls) :
    ∃ s' c', history hw P.dx l s c = .ok (s', c') ∧
      sumSq h w (arrOf s' "density") ≤ sumSq h w (arrOf s "density") ∧
      sumSq h w (arrOf s' "omega") ≤ sumSq h w (arrOf s "omega") := by
  obtain ⟨s', c', e, H⟩ := C88_modes_evolve_separately h0 w0 hb ehw hpb s hs hc l c
  refine ⟨s', c', e, ?_⟩
  have hpos : (0 : ℝ) < (h : ℝ) * w := by positivity
  have key : ∀ A A' : Arr ℝ, (∀ k m, k < h → m < w → ‖coef h w A'.at' k m‖ ^ 2 ≤ ‖coef h w A.at' k m‖ ^ 2) →
      sumSq h w A' ≤ sumSq h w A := by
    intro A A' hle
    refine le_of_mul_le_mul_left ?_ hpos
    rw [parseval_arr h0 w0, parseval_arr h0 w0]
    exact Finset.sum_le_sum fun k hk => Finset.sum_le_sum fun m hm =>
      hle k m (Finset.mem_range.1 hk) (Finset.mem_range.1 hm)
  have fac : ∀ k m, k < h → m < w → ∀ i, ‖amps h w s' k m i‖ ^ 2 ≤ ‖amps h w s k m i‖ ^ 2 := by
    intro k m hk hm i
    rw [H k m hk hm, evolve_diffusion hc1 hka, Pi.smul_apply, smul_eq_mul, norm_mul, mul_pow, norm_real,
      Real.norm_eq_abs, sq_abs]
    obtain ⟨g0, g1⟩ := hypSym_bounds (h := h) (w := w) P hnu k m
    exact mul_le_of_le_one_left (sq_nonneg _) (dampAll_le g0 g1 hl)
  exact ⟨key _ _ fun k m hk hm => fac k m hk hm 0, key _ _ fun k m hk hm => fac k m hk hm 1⟩

/-! ### the checkerboard -/

theorem sin_half {n m : ℕ} (hm : 0 < m) (hn : n = m + m) : Real.sin (Real.pi * m / n) = 1 := by
  have : Real.pi * m / n = Real.pi / 2 := by
    rw [hn]; push_cast
    have : (m : ℝ) ≠ 0 := by positivity
    field_simp; ring
  rw [this, Real.sin_pi_div_two]

theorem exp_half {n m : ℕ} (hm : 0 < m) (hn : n = m + m) (i : ℕ) :
    exp (2 * Real.pi * I * ((m : ℂ) * i / n)) = (-1) ^ i := by
  have : 2 * Real.pi * I * ((m : ℂ) * i / n) = i * (Real.pi * I) := by
    rw [hn]; push_cast
    have : (m : ℂ) ≠ 0 := by exact_mod_cast hm.ne'
    field_simp; ring
  rw [this, Complex.exp_nat_mul, exp_pi_mul_I]

theorem coef_checker {a d : ℕ} (a0 : 0 < a) (d0 : 0 < d) (ha : h = a + a) (hd : w = d + d) {A : Arr ℝ}
    (hchk : ∀ i j, i < h → j < w → A.at' i j = (-1) ^ (i + j)) {k m : ℕ} (hk : k < h) (hm : m < w)
    (hne : ¬ (k = a ∧ m = d)) : coef h w A.at' k m = 0 := by
  have : NeZero h := ⟨by omega⟩
  have : NeZero w := ⟨by omega⟩
  set f : Fld h w := fun i j => (-1) ^ (i.val + j.val) with hf
  have e : ∀ i j, i < h → j < w → A.at' i j = f i j := by
    intro i j hi hj
    rw [hchk i j hi hj]
    simp only [hf, ZMod.val_natCast, Nat.mod_eq_of_lt hi, Nat.mod_eq_of_lt hj]
  rw [spec_coef_of e]
  have e2 : cx f = wv (a : ZMod h) (d : ZMod w) := by
    funext i j
    have h1 := ec_exp (n := h) a i.val
    have h2 := ec_exp (n := w) d j.val
    rw [exp_half a0 ha, ZMod.natCast_zmod_val] at h1
    rw [exp_half d0 hd, ZMod.natCast_zmod_val] at h2
    simp only [wv, h1, h2, cx, hf]
    push_cast
    rw [pow_add]
  rw [e2]
  refine D_wv fun q => hne ?_
  rw [Prod.mk.injEq] at q
  have h1 := (ZMod.natCast_eq_natCast_iff' k a h).1 q.1
  have h2 := (ZMod.natCast_eq_natCast_iff' m d w).1 q.2
  rw [Nat.mod_eq_of_lt hk, Nat.mod_eq_of_lt (by omega)] at h1
  rw [Nat.mod_eq_of_lt hm, Nat.mod_eq_of_lt (by omega)] at h2
  exact ⟨h1, h2⟩

theorem damp_gt {P : Params} (hnu : 0 < P.nu) (hdx : P.dx ≠ 0) {a : Step} (hdt : 0 < a.dt)
    (ha : ¬ StepStable P a) : 1 < damp (P.nu * (8 / P.dx ^ 2) ^ P.N) a ^ 2 := by
  have hdx2 : 0 < P.dx ^ 2 := by positivity
  have hg : 0 < P.nu * (8 / P.dx ^ 2) ^ P.N := by positivity
  cases a with
  | rk4 dt =>
    have hdt' : 0 < dt := hdt
    have ha : ¬ RK4Stable P dt := fun q => ha ⟨hdt'.le, q⟩
    unfold RK4Stable at ha
    simp only [damp]
    set y := dt * (P.nu * (8 / P.dx ^ 2) ^ P.N)
    have hy : 0 < y := mul_pos hdt' hg
    simp only [not_le] at ha
    have := mul_pos hy (sub_pos.2 ha)
    have : 1 < 1 - y + y ^ 2 / 2 - y ^ 3 / 6 + y ^ 4 / 24 := by nlinarith
    nlinarith
  | euler dt =>
    have hdt' : 0 < dt := hdt
    have ha : ¬ EulerStable P dt := fun q => ha ⟨hdt'.le, q⟩
    unfold EulerStable at ha
    simp only [damp]
    push Not at ha
    nlinarith

/-- **C89, necessary.** On a grid with an even number of points in both directions the condition is sharp: a
checkerboard density is multiplied by a factor `q` with `q² > 1` in every step that violates it, so its sum of
squares grows by `q²` per step, without bound. -/
theorem C89_unstable (h0 : 0 < h) (w0 : 0 < w) (he : Even h) (we : Even w) (hb : Std b h w) (hpb : P.pb = 0)
    (hc1 : P.c1 = 0) (hka : P.kappa = 0) (hnu : 0 < P.nu) (hdx : P.dx ≠ 0)
    (ehw : hw = HW.init b dx0 P.N P.c1 P.nu k0 P.pb P.kappa P.zonal test) (s : NS Val)
    (hs : IsState test h w s) (hc : Consistent hw P.dx s)
    (hchk : ∀ i j, i < h → j < w → (arrOf s "density").at' i j = (-1) ^ (i + j)) (a : Step) (hdt : 0 < a.dt)
    (ha : ¬ StepStable P a) :
    ∃ q : ℝ, 1 < q ^ 2 ∧ ∀ (n : ℕ) (c : Calls), ∃ s' c', history hw P.dx (List.replicate n a) s c = .ok (s', c') ∧
      sumSq h w (arrOf s' "density") = (q ^ 2) ^ n * (h * w) := by
  obtain ⟨h2, e1⟩ := he
  obtain ⟨w2, e2⟩ := we
  refine ⟨_, damp_gt hnu hdx hdt ha, fun n c => ?_⟩
  obtain ⟨s', c', e, H⟩ := C88_modes_evolve_separately h0 w0 hb ehw hpb s hs hc (List.replicate n a) c
  refine ⟨s', c', e, ?_⟩
  have hpos : (0 : ℝ) < (h : ℝ) * w := by positivity
  have hq : -hypSym P h w h2 w2 = P.nu * (8 / P.dx ^ 2) ^ P.N := by
    unfold hypSym lapSym
    rw [sin_half (by omega) e1, sin_half (by omega) e2]
    have : (-4 * (1 ^ 2 + 1 ^ 2) / P.dx ^ 2 : ℝ) = -(8 / P.dx ^ 2) := by ring
    rw [this, neg_pow (8 / P.dx ^ 2)]
    have h1 : (-1 : ℝ) ^ (P.N + 1) * (-1) ^ P.N = -1 := by
      rw [← pow_add, show P.N + 1 + P.N = 2 * P.N + 1 by ring, pow_succ, pow_mul]; norm_num
    linear_combination (- P.nu * (8 / P.dx ^ 2) ^ P.N) * h1
  set q := damp (P.nu * (8 / P.dx ^ 2) ^ P.N) a with hqd
  have hall : ∀ k m, k < h → m < w → ‖coef h w (arrOf s' "density").at' k m‖ ^ 2
      = (q ^ 2) ^ n * ‖coef h w (arrOf s "density").at' k m‖ ^ 2 := by
    intro k m hk hm
    have h1 := congrFun (H k m hk hm) 0
    rw [evolve_diffusion hc1 hka, Pi.smul_apply, smul_eq_mul] at h1
    change coef h w (arrOf s' "density").at' k m = _ * coef h w (arrOf s "density").at' k m at h1
    rw [h1]
    by_cases hkm : k = h2 ∧ m = w2
    · rw [hkm.1, hkm.2, hq, norm_mul, mul_pow, norm_real, Real.norm_eq_abs, sq_abs, dampAll, List.map_replicate,
        List.prod_replicate, ← hqd, ← pow_mul, ← pow_mul, mul_comm n 2]
    · rw [coef_checker (by omega) (by omega) e1 e2 hchk hk hm hkm]; simp
  have hsum : sumSq h w (arrOf s "density") = h * w := by
    unfold sumSq
    rw [Finset.sum_congr rfl fun i hi => Finset.sum_congr rfl fun j hj => by
      rw [hchk i j (Finset.mem_range.1 hi) (Finset.mem_range.1 hj), ← pow_mul, mul_comm, pow_mul,
        neg_one_sq, one_pow]]
    simp
  refine mul_left_cancel₀ hpos.ne' ?_
  rw [parseval_arr h0 w0, Finset.sum_congr rfl fun k hk => Finset.sum_congr rfl fun m hm =>
    hall k m (Finset.mem_range.1 hk) (Finset.mem_range.1 hm)]
  simp only [← Finset.mul_sum]
  rw [← parseval_arr h0 w0, hsum]; ring

/-! ### non-vacuity -/

/-- with `dx = 1`, `N = 1` and `nu = 1` the step `1/3` is stable and the step `1/2` is not -/
example : StepStable ⟨1, 1, 0, 1, 0, 0, false⟩ (.rk4 (1 / 3)) ∧ ¬ StepStable ⟨1, 1, 0, 1, 0, 0, false⟩ (.rk4 (1 / 2)) ∧
    ¬ StepStable ⟨1, 1, 0, 1, 0, 0, false⟩ (.euler (1 / 3)) := by
  simp only [StepStable, RK4Stable, EulerStable]
  norm_num

/-- a checkerboard density, and a linear density of which the sum of squares does not grow -/
example : ∃ s : NS Val, IsState true 4 6 s ∧
    Consistent (HW.init numpyBackend 1 1 0 1 1 0 0 false true) 1 s ∧
    (∀ i j, i < 4 → j < 6 → (arrOf s "density").at' i j = (-1) ^ (i + j)) ∧
    (∃ q : ℝ, 1 < q ^ 2 ∧ ∀ (n : ℕ) (c : Calls), ∃ s' c',
      history (HW.init numpyBackend 1 1 0 1 1 0 0 false true) 1 (List.replicate n (.rk4 (1 / 2))) s c = .ok (s', c') ∧
      sumSq 4 6 (arrOf s' "density") = (q ^ 2) ^ n * ((4 : ℕ) * (6 : ℕ))) ∧
    ∀ n : ℕ, ∃ s' c', history (HW.init numpyBackend 1 1 0 1 1 0 0 false true) 1 (List.replicate n (.rk4 (1 / 3))) s {}
      = .ok (s', c') ∧ sumSq 4 6 (arrOf s' "density") ≤ sumSq 4 6 (arrOf s "density") := by
  set t : Sta 4 6 := (fun i j => (-1) ^ (i.val + j.val), fun i j => i.val - 2 * j.val,
    phiF 1 (fun i j => i.val - 2 * j.val), 0, 0, 0)
  set ks : List String := ["density", "omega", "phi", "age", "dE", "dU"]
  have hk : GoodKeys ks true := by
    constructor <;> simp [ks, gradKeys]
  have hn : ks.Nodup := by decide
  have hs := isState_mk hk hn t
  have hc : Consistent (HW.init numpyBackend 1 1 0 1 1 0 0 false true) 1 (NS.mk ks (st t)) := by
    rw [consistent_mk (h := 4) (w := 6) _ (Std.good (.inl rfl)) 1 hk]
  have hd : ∀ i j, i < 4 → j < 6 → (arrOf (NS.mk ks (st t)) "density").at' i j = (-1) ^ (i + j) := by
    intro i j hi hj
    rw [arrOf_density hk, ofField_at' _ hi hj]
    simp only [t, ZMod.val_natCast, Nat.mod_eq_of_lt hi, Nat.mod_eq_of_lt hj]
  have hlarge : ¬ StepStable ⟨1, 1, 0, 1, 0, 0, false⟩ (.rk4 (1 / 2)) := by
    simp only [StepStable, RK4Stable]; norm_num
  refine ⟨NS.mk ks (st t), hs, hc, hd, ?_, fun n => ?_⟩
  · exact C89_unstable (P := ⟨1, 1, 0, 1, 0, 0, false⟩) (by decide) (by decide) ⟨2, rfl⟩ ⟨3, rfl⟩ (.inl rfl) rfl rfl rfl
      (by norm_num) (by norm_num) rfl _ hs hc hd _ (by norm_num [Step.dt]) hlarge
  · obtain ⟨s', c', e, e1, -⟩ := C89_stable (P := ⟨1, 1, 0, 1, 0, 0, false⟩) (by decide) (by decide) (.inl rfl)
      (by norm_num) rfl rfl rfl rfl _ hs hc (List.replicate n (.rk4 (1 / 3)))
      (fun a ha => by
        rw [(List.mem_replicate.1 ha).2]; simp only [StepStable, RK4Stable]; norm_num) {}
    exact ⟨s', c', e, e1⟩

end Verif.Props
