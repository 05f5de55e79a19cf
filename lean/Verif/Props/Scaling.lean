import Verif.Props.HWHistory
import Verif.Lemmas.Scaling
import Verif.Lemmas.Spectral

/-!
# C111: units, the direction of the density gradient and exchange of the axes
-/

set_option linter.unusedSectionVars false

namespace Verif.Props

open Arr NS Spec

variable (hw : HW) (dx : ℝ) {h w : ℕ}

/-- `a * A` -/
def timesArr (a : ℝ) (A : Arr ℝ) : Arr ℝ := A.map (a * ·)

/-- the negated mirror image in y: entry `(i, j)` comes from `(-i mod h, j)` -/
def negFlip (a : Arr ℝ) : Arr ℝ := tab a.h a.w fun i j => -a.at' ((a.h - i) % a.h) j

/-- `-A.T` -/
def negTranspose (a : Arr ℝ) : Arr ℝ := tab a.w a.h fun i j => -a.at' j i

/-- the same plasma in other units: time unit `1 / τ` (rates `τ` times as large), fields `a` times as large -/
noncomputable def hwInUnits (τ a : ℝ) (hw : HW) : HW :=
  { hw with
    c1 := τ * hw.c1, nu := τ * hw.nu, kappa_coeff := τ * hw.kappa_coeff
    poisson_bracket_coeff := τ * hw.poisson_bracket_coeff / a }

/-- in terms of the arguments of `HW(…)` -/
theorem inUnits_init (τ a : ℝ) (b : Backend) (dx : ℝ) (N : ℕ) (c1 nu k0 pb kappa : ℝ) (zonal test : Bool) :
    hwInUnits τ a (HW.init b dx N c1 nu k0 pb kappa zonal test)
      = HW.init b dx N (τ * c1) (τ * nu) k0 (τ * pb / a) (τ * kappa) zonal test := by
  simp only [hwInUnits, HW.init, mul_left_comm]

/-- the same stepper with the time increment divided by `τ` -/
noncomputable def Step.inUnits (τ : ℝ) : Step → Step
  | .rk4 dt => .rk4 (dt / τ)
  | .euler dt => .euler (dt / τ)

/-- all fields of the second state are images under `F` of those of the first -/
def FieldsImage (F : Arr ℝ → Arr ℝ) (s s₁ : NS Val) : Prop :=
  ∀ k ∈ ["density", "omega", "phi"], arrOf s₁ k = F (arrOf s k)

theorem timesArr_ofField [NeZero h] [NeZero w] (a : ℝ) (f : Fld h w) : timesArr a (ofField f) = ofField (a • f) :=
  map_ofField _ _

theorem negFlip_ofField [NeZero h] [NeZero w] (f : Fld h w) : negFlip (ofField f) = ofField (mirrorY f) := by
  refine tab_congr rfl rfl fun i j hi hj => ?_
  simp only [ofField_h, ofField_w] at *
  rw [ofField_at' f (Nat.mod_lt _ (NeZero.pos h)) hj]
  unfold mirrorY
  congr 2
  rw [ZMod.natCast_mod, Nat.cast_sub hi.le, ZMod.natCast_self, zero_sub]

theorem negTranspose_ofField [NeZero h] [NeZero w] (f : Fld h w) :
    negTranspose (ofField f) = ofField (negT f) := by
  refine tab_congr rfl rfl fun i j hi hj => ?_
  simp only [ofField_h, ofField_w] at *
  rw [ofField_at' f hj hi]
  rfl

theorem histS_age [NeZero h] [NeZero w] (P : Params) (dx0 : ℝ) (l : List Step) (s : Sta h w) :
    (histS P dx0 l s).2.2.2.1 = s.2.2.2.1 + (l.map Step.dt).sum := by
  induction l generalizing s with
  | nil => simp [histS]
  | cons a l ih =>
    change (histS P dx0 l (stepS P dx0 a s)).2.2.2.1 = _
    rw [ih, stepS_age, List.map_cons, List.sum_cons, add_assoc]

theorem sum_inUnits (τ : ℝ) (l : List Step) :
    ((l.map (Step.inUnits τ)).map Step.dt).sum = (l.map Step.dt).sum / τ := by
  induction l with
  | nil => simp
  | cons a l ih =>
    simp only [List.map_cons, List.sum_cons, ih, add_div]
    cases a <;> rfl

theorem histS_conj [NeZero h] [NeZero w] {h' w' : ℕ} [NeZero h'] [NeZero w'] {T : Fld h w → Fld h' w'} {τ : ℝ}
    {P P' : Params} (hT : Conj T τ P P') (dx0 dx0' : ℝ) (l : List Step) {s : Sta h w} {s' : Sta h' w'}
    (hs : Img T s s') (hp : s'.2.2.1 = T s.2.2.1) :
    Img T (histS P dx0 l s) (histS P' dx0' (l.map (Step.inUnits τ)) s')
      ∧ (histS P' dx0' (l.map (Step.inUnits τ)) s').2.2.1 = T (histS P dx0 l s).2.2.1 := by
  induction l generalizing s s' with
  | nil => exact ⟨hs, hp⟩
  | cons a l ih =>
    have e : Img T (stepS P dx0 a s) (stepS P' dx0' (a.inUnits τ) s') := by
      cases a
      · exact hT.rk4S dx0 dx0' _ hs hp
      · exact hT.eulerS dx0 dx0' _ hs hp
    refine ih e ?_
    rw [stepS_phi, stepS_phi, hT.img_phi e]

theorem history_conj [NeZero h] [NeZero w] {h' w' : ℕ} [NeZero h'] [NeZero w'] {F : Arr ℝ → Arr ℝ}
    {T : Fld h w → Fld h' w'} {τ : ℝ} {hw hw' : HW} {dx dx' : ℝ} (hT : Conj T τ (parOf hw dx) (parOf hw' dx'))
    (hF : ∀ f, F (ofField f) = ofField (T f)) (hb : Std hw.backend h w) (hb' : Std hw'.backend h' w')
    (l : List Step) (s s₁ : NS Val) (hs : IsState hw.TEST_CONSERVATION h w s)
    (hs₁ : IsState hw'.TEST_CONSERVATION h' w' s₁) (hi : FieldsImage F s s₁) (c c₁ : Calls) :
    ∃ s' c' s₁' c₁', history hw dx l s c = .ok (s', c') ∧
      history hw' dx' (l.map (Step.inUnits τ)) s₁ c₁ = .ok (s₁', c₁') ∧
      FieldsImage F s' s₁' ∧ numOf s₁' "age" - numOf s₁ "age" = (numOf s' "age" - numOf s "age") / τ := by
  obtain ⟨ks, t, hk, hn, rfl⟩ := hs.exists_mk
  obtain ⟨ks₁, t₁, hk₁, hn₁, rfl⟩ := hs₁.exists_mk
  have e1 := hi "density" (by simp)
  have e2 := hi "omega" (by simp)
  have e3 := hi "phi" (by simp)
  rw [arrOf_density hk₁, arrOf_density hk, hF] at e1
  rw [arrOf_omega hk₁, arrOf_omega hk, hF] at e2
  rw [arrOf_phi hk₁, arrOf_phi hk, hF] at e3
  obtain ⟨⟨r1, r2⟩, r3⟩ := histS_conj hT hw.dx hw'.dx l (s := t) (s' := t₁) ⟨ofField_inj e1, ofField_inj e2⟩
    (ofField_inj e3)
  refine ⟨_, _, _, _, history_eval hw dx hb.good hk l t c, history_eval hw' dx' hb'.good hk₁ _ t₁ c₁, ?_, ?_⟩
  · intro k hk'
    simp only [List.mem_cons, List.not_mem_nil, or_false] at hk'
    rcases hk' with rfl | rfl | rfl
    · rw [arrOf_density (goodKeys_hist _ hk₁), arrOf_density (goodKeys_hist _ hk), hF, r1]
    · rw [arrOf_omega (goodKeys_hist _ hk₁), arrOf_omega (goodKeys_hist _ hk), hF, r2]
    · rw [arrOf_phi (goodKeys_hist _ hk₁), arrOf_phi (goodKeys_hist _ hk), hF, r3]
  · rw [numOf_age (goodKeys_hist _ hk₁), numOf_age (goodKeys_hist _ hk), numOf_age hk, numOf_age hk₁,
      histS_age, histS_age, sum_inUnits]
    ring

theorem parOf_inUnits (τ a : ℝ) : parOf (hwInUnits τ a hw) dx = rescale τ a (parOf hw dx) := by
  simp only [parOf, hwInUnits, rescale, mul_left_comm]

/-- **C111 (units).** Multiply `c1`, `nu` and `kappa_coeff` by `τ`, `poisson_bracket_coeff` by `τ / a`, all fields of the
initial state by `a` and divide every time increment by `τ`: the fields of the resulting state are exactly `a` times those of
the original history, and the elapsed time is divided by `τ`. -/
theorem C111_units {τ a : ℝ} (hτ : τ ≠ 0) (ha : a ≠ 0) (h0 : 0 < h) (w0 : 0 < w) (hb : Std hw.backend h w)
    (l : List Step) (s s₁ : NS Val) (hs : IsState hw.TEST_CONSERVATION h w s)
    (hs₁ : IsState hw.TEST_CONSERVATION h w s₁) (hi : FieldsImage (timesArr a) s s₁) (c c₁ : Calls) :
    ∃ s' c' s₁' c₁', history hw dx l s c = .ok (s', c') ∧
      history (hwInUnits τ a hw) dx (l.map (Step.inUnits τ)) s₁ c₁ = .ok (s₁', c₁') ∧
      FieldsImage (timesArr a) s' s₁' ∧ numOf s₁' "age" - numOf s₁ "age" = (numOf s' "age" - numOf s "age") / τ := by
  have : NeZero h := ⟨h0.ne'⟩
  have : NeZero w := ⟨w0.ne'⟩
  refine history_conj (T := fun f : Fld h w => a • f) (hw' := hwInUnits τ a hw) ?_ (timesArr_ofField a) hb hb l s s₁ hs hs₁ hi c c₁
  rw [parOf_inUnits]
  exact conj_rescale hτ ha _

/-- a state whose fields are multiplied by `a` and whose accumulated `dE`, `dU` are multiplied by `a²` -/
noncomputable def amplified (a : ℝ) (s : NS Val) : NS Val := s.map fun p =>
  (p.1, match p.2 with
    | .arr f => .arr (timesArr a f)
    | .num x => .num (if p.1 = "age" then x else a ^ 2 * x))

theorem amplified_mk [NeZero h] [NeZero w] (a : ℝ) (ks : List String) (s : Sta h w) :
    amplified a (NS.mk ks (st s)) = NS.mk ks (st (ampS a s)) := by
  unfold amplified NS.mk
  rw [List.map_map]
  refine List.map_congr_left fun k _ => ?_
  simp only [Function.comp_apply, Prod.mk.injEq, true_and]
  by_cases h1 : k = "density"
  · subst h1; simp only [st_density, ampS, timesArr_ofField]
  by_cases h2 : k = "omega"
  · subst h2; simp only [st_omega, ampS, timesArr_ofField]
  by_cases h3 : k = "phi"
  · subst h3; simp only [st_phi, ampS, timesArr_ofField]
  by_cases h4 : k = "age"
  · subst h4; simp only [st_age, ampS, if_true]
  by_cases h5 : k = "dE"
  · subst h5; simp only [st_dE, ampS, h4, if_false]
  simp only [st, ampS, h1, h2, h3, h4, h5, if_false]

/-- **C111 (amplitude).** With all fields multiplied by `a` and `poisson_bracket_coeff` divided by `a`, the whole trajectory is
multiplied by `a`; the accumulated `dE` and `dU` are multiplied by `a²`, and age and counters are the same. -/
theorem C111_amplitude {a : ℝ} (ha : a ≠ 0) (h0 : 0 < h) (w0 : 0 < w) (hb : Std hw.backend h w)
    (l : List Step) (s : NS Val) (hs : IsState hw.TEST_CONSERVATION h w s) (c : Calls) :
    ∃ s' c', history hw dx l s c = .ok (s', c') ∧
      history { hw with poisson_bracket_coeff := hw.poisson_bracket_coeff / a } dx l (amplified a s) c
        = .ok (amplified a s', c') := by
  have : NeZero h := ⟨h0.ne'⟩
  have : NeZero w := ⟨w0.ne'⟩
  obtain ⟨ks, t, hk, hn, rfl⟩ := hs.exists_mk
  have hP : parOf { hw with poisson_bracket_coeff := hw.poisson_bracket_coeff / a } dx = rescale 1 a (parOf hw dx) := by
    simp only [parOf, rescale, one_mul]
  refine ⟨_, _, history_eval hw dx hb.good hk l t c, ?_⟩
  rw [amplified_mk a, amplified_mk a,
    history_eval { hw with poisson_bracket_coeff := hw.poisson_bracket_coeff / a } dx hb.good hk, hP]
  have hS : histS (rescale 1 a (parOf hw dx)) hw.dx l (ampS a t) = ampS a (histS (parOf hw dx) hw.dx l t) := by
    clear hs hk hn
    induction l generalizing t with
    | nil => rfl
    | cons b l ih =>
      unfold histS
      rw [← ih]
      have e : stepS (rescale 1 a (parOf hw dx)) hw.dx b (ampS a t) = ampS a (stepS (parOf hw dx) hw.dx b t) := by
        cases b
        · exact rk4S_amp ha _ _ _ _
        · exact eulerS_amp ha _ _ _ _ _
      rw [e]
  have hC : histCalls (rescale 1 a (parOf hw dx)) hw.TEST_CONSERVATION l c
      = histCalls (parOf hw dx) hw.TEST_CONSERVATION l c := by
    clear hs hk hn hS
    induction l generalizing c with
    | nil => rfl
    | cons b l ih =>
      unfold histCalls
      rw [← ih]
      cases b
      · simp only [stepCalls, rk4Calls, rescale, one_mul, div_eq_zero_iff, ha, or_false]
      · simp only [stepCalls, eulerCalls, rescale, one_mul, div_eq_zero_iff, ha, or_false]
  rw [hS, hC]

/-- **C111 (measured quantities).** With all fields multiplied by `a` the fluxes, energies and enstrophies are multiplied by
`a²`. -/
theorem C111_measured (a : ℝ) (h0 : 0 < h) (w0 : 0 < w) (n o p : Arr ℝ)
    (hn : n.h = h ∧ n.w = w) (ho : o.h = h ∧ o.w = w) (hp : p.h = h ∧ p.w = w) (c1 : ℝ) :
    ∃ gn gc e u u' en,
      Properties.get_gamma_n n p dx = .ok gn ∧
      Properties.get_gamma_n (timesArr a n) (timesArr a p) dx = .ok (a ^ 2 * gn) ∧
      Properties.get_gamma_c n p c1 dx = .ok gc ∧
      Properties.get_gamma_c (timesArr a n) (timesArr a p) c1 dx = .ok (a ^ 2 * gc) ∧
      Properties.get_energy n p dx = .ok e ∧
      Properties.get_energy (timesArr a n) (timesArr a p) dx = .ok (a ^ 2 * e) ∧
      Properties.get_enstrophy n o dx = .ok u ∧
      Properties.get_enstrophy (timesArr a n) (timesArr a o) dx = .ok (a ^ 2 * u) ∧
      Properties.get_enstrophy_phi n p dx = .ok u' ∧
      Properties.get_enstrophy_phi (timesArr a n) (timesArr a p) dx = .ok (a ^ 2 * u') ∧
      Properties.get_energy_N_spectrally n = .ok en ∧
      Properties.get_energy_N_spectrally (timesArr a n) = .ok (a ^ 2 * en) := by
  have : NeZero h := ⟨h0.ne'⟩
  have : NeZero w := ⟨w0.ne'⟩
  obtain ⟨n, rfl⟩ : ∃ f : Fld h w, n = ofField f := ⟨toFld n, (ofField_toFld hn.1 hn.2).symm⟩
  obtain ⟨o, rfl⟩ : ∃ f : Fld h w, o = ofField f := ⟨toFld o, (ofField_toFld ho.1 ho.2).symm⟩
  obtain ⟨p, rfl⟩ : ∃ f : Fld h w, p = ofField f := ⟨toFld p, (ofField_toFld hp.1 hp.2).symm⟩
  have half : ∀ {f g : Fld h w}, (∀ i j, f i j = a ^ 2 * g i j) →
      (Except.ok (avg f / 2) : Py ℝ) = .ok (a ^ 2 * (avg g / 2)) := by
    intro f g e
    rw [avg_congr e, avg_smul, mul_div_assoc]
  have gX : gradX dx (a • p) = a • gradX dx p := by
    funext i j
    simp only [gradX, Pi.smul_apply, smul_eq_mul]; ring
  simp only [timesArr_ofField]
  refine ⟨_, _, _, _, _, _, gamma_n_ofField n p dx, ?_, gamma_c_ofField n p c1 dx, ?_, energy_ofField n p dx, ?_,
    enstrophy_ofField n o dx, ?_, enstrophy_phi_ofField n p dx, ?_, energy_N_ofField n, ?_⟩
  · rw [gamma_n_ofField, gamN_amp]
  · rw [gamma_c_ofField, gamC_amp]
  · rw [energy_ofField, gX, gradY_smul]
    exact half fun i j => by simp only [Pi.smul_apply, smul_eq_mul]; ring
  · rw [enstrophy_ofField]
    exact half fun i j => by simp only [Pi.smul_apply, smul_eq_mul]; ring
  · rw [enstrophy_phi_ofField, lap_smul, avg_smul']
    exact half fun i j => by simp only [Pi.smul_apply, smul_eq_mul]; ring
  · rw [energy_N_ofField]
    exact half fun i j => by simp only [Pi.smul_apply, smul_eq_mul]; ring

/-- **C111 (direction of the density gradient).** Reversing the sign of `kappa_coeff` and replacing the fields of the initial
state by their negated mirror images in y replaces the fields of the trajectory by their negated mirror images in y. -/
theorem C111_gradient_direction (h0 : 0 < h) (w0 : 0 < w) (hb : Std hw.backend h w)
    (l : List Step) (s : NS Val) (hs : IsState hw.TEST_CONSERVATION h w s) (s₁ : NS Val)
    (hs₁ : IsState hw.TEST_CONSERVATION h w s₁) (hi : FieldsImage negFlip s s₁) (c c₁ : Calls) :
    ∃ s' c' s₁' c₁', history hw dx l s c = .ok (s', c') ∧
      history { hw with kappa_coeff := -hw.kappa_coeff } dx l s₁ c₁ = .ok (s₁', c₁') ∧
      FieldsImage negFlip s' s₁' ∧ numOf s₁' "age" - numOf s₁ "age" = numOf s' "age" - numOf s "age" := by
  have : NeZero h := ⟨h0.ne'⟩
  have : NeZero w := ⟨w0.ne'⟩
  have H := history_conj (T := (mirrorY : Fld h w → Fld h w)) (hw := hw)
    (hw' := { hw with kappa_coeff := -hw.kappa_coeff }) (dx := dx) (dx' := dx) (τ := 1) (conj_mirrorY _) negFlip_ofField hb hb l s s₁ hs hs₁ hi c c₁
  have e : l.map (Step.inUnits 1) = l := by
    conv_rhs => rw [← List.map_id l]
    refine List.map_congr_left fun a _ => ?_
    cases a <;> simp [Step.inUnits]
  rw [e] at H
  simpa only [div_one] using H

/-- **C111 (exchange of the axes).** Without density gradient (`kappa_coeff = 0`) and with `zonal=False` neither direction is
distinguished: the negated transposes of the fields evolve into the negated transposes. -/
theorem C111_axes (hk : hw.kappa_coeff = 0) (hz : hw.zonal = false) (h0 : 0 < h) (w0 : 0 < w) (hb : Std hw.backend h w)
    (hb' : Std hw.backend w h) (l : List Step) (s : NS Val) (hs : IsState hw.TEST_CONSERVATION h w s) (s₁ : NS Val)
    (hs₁ : IsState hw.TEST_CONSERVATION w h s₁) (hi : FieldsImage negTranspose s s₁) (c c₁ : Calls) :
    ∃ s' c' s₁' c₁', history hw dx l s c = .ok (s', c') ∧ history hw dx l s₁ c₁ = .ok (s₁', c₁') ∧
      FieldsImage negTranspose s' s₁' ∧ numOf s₁' "age" - numOf s₁ "age" = numOf s' "age" - numOf s "age" := by
  have : NeZero h := ⟨h0.ne'⟩
  have : NeZero w := ⟨w0.ne'⟩
  have H := history_conj (T := (negT : Fld h w → Fld w h)) (hw := hw)
    (hw' := hw) (dx := dx) (dx' := dx) (τ := 1) (conj_negT _ hk hz) negTranspose_ofField hb hb' l s s₁ hs hs₁ hi c c₁
  have e : l.map (Step.inUnits 1) = l := by
    conv_rhs => rw [← List.map_id l]
    refine List.map_congr_left fun a _ => ?_
    cases a <;> simp [Step.inUnits]
  rw [e] at H
  simpa only [div_one] using H

/-! ### non-vacuity -/

/-- a state with given fields -/
noncomputable def stateOf (n o p : Arr ℝ) (age : ℝ) : NS Val :=
  [("density", .arr n), ("omega", .arr o), ("phi", .arr p), ("age", .num age)]

theorem stateOf_isState {test : Bool} {n o p : Arr ℝ} (hn : n.h = h ∧ n.w = w) (ho : o.h = h ∧ o.w = w)
    (hp : p.h = h ∧ p.w = w) (age : ℝ) : IsState test h w (stateOf n o p age) where
  nodup := by simp [stateOf, NS.keys]
  keys k hk := by
    simp only [stateOf, NS.keys, List.map_cons, List.map_nil] at hk
    exact .inl hk
  density := ⟨_, rfl, hn⟩
  omega := ⟨_, rfl, ho⟩
  phi := ⟨_, rfl, hp⟩
  age := ⟨_, rfl⟩
  dE v e := by
    have : (stateOf n o p age).get? "dE" = none := rfl
    rw [this] at e; cases e
  dU v e := by
    have : (stateOf n o p age).get? "dU" = none := rfl
    rw [this] at e; cases e

theorem stateOf_image (F : Arr ℝ → Arr ℝ) (n o p : Arr ℝ) (a b : ℝ) :
    FieldsImage F (stateOf n o p a) (stateOf (F n) (F o) (F p) b) := by
  intro k hk
  simp only [List.mem_cons, List.not_mem_nil, or_false] at hk
  rcases hk with rfl | rfl | rfl <;> rfl

example := C111_units (HW.init numpyBackend 1 3 1 (1 / 10) 1 1 1 true) 1 (τ := 3) (a := 2) (h := 4) (w := 5) (by norm_num)
  (by norm_num) (by decide) (by decide) (.inl rfl) [.rk4 (1 / 10), .euler (1 / 20)] _ _
  (stateOf_isState (n := tab 4 5 fun i j => (i * j : ℝ)) (o := tab 4 5 fun i j => (i - j : ℝ))
    (p := tab 4 5 fun i _ => (i : ℝ)) ⟨rfl, rfl⟩ ⟨rfl, rfl⟩ ⟨rfl, rfl⟩ 7)
  (by refine stateOf_isState ?_ ?_ ?_ 2 <;> exact ⟨rfl, rfl⟩) (stateOf_image (timesArr 2) _ _ _ _ _) {} {}

example := C111_amplitude (HW.init numpyBackend 1 3 1 (1 / 10) 1) 1 (a := 2) (by norm_num) (by decide) (by decide)
  (.inl rfl) [.rk4 (1 / 10), .euler (1 / 20)] demoState demoState_isState {}

example := C111_measured 1 (-2) (h := 4) (w := 5) (by decide) (by decide)
  (tab 4 5 fun i j => (i * j : ℝ)) (tab 4 5 fun i j => (i - j : ℝ)) (tab 4 5 fun i _ => (i : ℝ)) ⟨rfl, rfl⟩ ⟨rfl, rfl⟩
  ⟨rfl, rfl⟩ 1

example := C111_gradient_direction (HW.init numpyBackend 1 3 1 (1 / 10) 1) 1 (h := 4) (w := 5) (by decide) (by decide)
  (.inl rfl) [.rk4 (1 / 10), .euler (1 / 20)] _
  (stateOf_isState (n := tab 4 5 fun i j => (i * j : ℝ)) (o := tab 4 5 fun i j => (i - j : ℝ))
    (p := tab 4 5 fun i _ => (i : ℝ)) ⟨rfl, rfl⟩ ⟨rfl, rfl⟩ ⟨rfl, rfl⟩ 7) _
  (by refine stateOf_isState ?_ ?_ ?_ 7 <;> exact ⟨rfl, rfl⟩) (stateOf_image negFlip _ _ _ _ _) {} {}

example := C111_axes (HW.init numpyBackend 1 3 1 (1 / 10) 1 1 0) 1 (h := 4) (w := 5) rfl rfl (by decide) (by decide)
  (.inl rfl) (.inl rfl) [.rk4 (1 / 10), .euler (1 / 20)] _
  (stateOf_isState (n := tab 4 5 fun i j => (i * j : ℝ)) (o := tab 4 5 fun i j => (i - j : ℝ))
    (p := tab 4 5 fun i _ => (i : ℝ)) ⟨rfl, rfl⟩ ⟨rfl, rfl⟩ ⟨rfl, rfl⟩ 7) _
  (by refine stateOf_isState ?_ ?_ ?_ 7 <;> exact ⟨rfl, rfl⟩) (stateOf_image negTranspose _ _ _ _ _) {} {}

end Verif.Props
