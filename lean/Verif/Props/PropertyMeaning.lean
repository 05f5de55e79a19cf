import Verif.Lemmas.PropertyMeaning
import Verif.Props.Run2Props
import Verif.Props.Diagnostics

/-!
# C101: the stored properties are the physical quantities they are named after
-/

set_option linter.unusedSectionVars false

namespace Verif.Props

open H5IO H5 Run RunProperties Arr Spec Properties

/-- On an `m × m` grid each of the eight property functions returns the quantity of its name. -/
theorem property_meaning {name : String} (hname : name ∈ propertyTable) (dx c1 : ℝ) {m : ℕ} (hm : 0 < m)
    {n p o : Arr ℝ} (hn : n.h = m ∧ n.w = m) (hp : p.h = m ∧ p.w = m) (ho : o.h = m ∧ o.w = m) :
    ∃ v, propValue name dx c1 n p o = .ok v ∧ IsProperty m m dx c1 n.at' p.at' o.at' name v := by
  have : NeZero m := ⟨hm.ne'⟩
  rw [← ofField_toFld hn.1 hn.2, ← ofField_toFld hp.1 hp.2, ← ofField_toFld ho.1 ho.2]
  generalize (toFld n : Fld m m) = n
  generalize (toFld p : Fld m m) = p
  generalize (toFld o : Fld m m) = o
  simp only [propertyTable, List.mem_cons, List.not_mem_nil, or_false] at hname
  rcases hname with rfl | rfl | rfl | rfl | rfl | rfl | rfl | rfl
  · refine ⟨_, gamma_n_ofField n p dx, ?_⟩
    change _ = _
    rw [spec_mean_of (g := fun i j => n i j * gradY dx p i j) fun i j hi hj => by
      rw [ofField_at' n hi hj, diffY_ofField dx p hj]]
    rfl
  · refine ⟨_, gamma_n_spectral_ofField n p dx, fun he d hd => ?_⟩
    obtain ⟨q, hq⟩ := he
    have := (isDy_iff (g := fun a b => d a.val b.val) (at_ofField p) (samples d)).mp hd
    rw [gamma_n_spectral_even n p _ dx q (by omega) this]
    rw [spec_mean_of (g := fun i j => n i j * d i.val j.val) fun i j hi hj => by
      rw [ofField_at' n hi hj]; exact congrArg _ (samples d i j hi hj)]
  · refine ⟨_, gamma_c_ofField n p c1 dx, ?_⟩
    change _ = _
    rw [spec_mean_of (g := fun i j => (n i j - p i j) ^ 2) fun i j hi hj => by
      rw [ofField_at' n hi hj, ofField_at' p hi hj]]
    rfl
  · refine ⟨_, energy_ofField n p dx, ?_⟩
    change _ = _
    rw [spec_mean_of (g := fun i j => n i j ^ 2 + (gradX dx p i j ^ 2 + gradY dx p i j ^ 2)) fun i j hi hj => by
      rw [ofField_at' n hi hj, diffX_ofField dx p hi, diffY_ofField dx p hj, add_assoc]]
  · refine ⟨_, energy_N_ofField n, ?_⟩
    change _ = _
    rw [spec_mean_of (g := fun i j => n i j ^ 2) fun i j hi hj => by rw [ofField_at' n hi hj]]
  · refine ⟨_, energy_V_ofField p dx, fun l hl => ?_⟩
    have := (isLaplacian_iff (g := fun a b => l a.val b.val) (at_ofField p) (samples l)).mp hl
    rw [energy_V_laplacian p _ dx this]
    rw [spec_mean_of (g := fun i j => p i j * l i.val j.val) fun i j hi hj => by
      rw [ofField_at' p hi hj]; exact congrArg _ (samples l i j hi hj)]
  · refine ⟨_, enstrophy_ofField n o dx, ?_⟩
    change _ = _
    rw [spec_mean_of (g := fun i j => (n i j - o i j) ^ 2) fun i j hi hj => by
      rw [ofField_at' n hi hj, ofField_at' o hi hj]]
  · refine ⟨_, enstrophy_phi_ofField n p dx, ?_⟩
    change _ = _
    have hz : avg (lap dx p) = 0 := by unfold avg; rw [S_lap, zero_div]
    rw [spec_mean_of (g := fun i j => (n i j - (lap dx p i j - avg (lap dx p))) ^ 2) fun i j hi hj => by
      rw [ofField_at' n hi hj, lap5_ofField dx p hi hj, hz, sub_zero]]

section file
variable {β : Type} [Casts ℝ β] [Inhabited β] {σ : St ℝ β}

/-- **C101, property files.** `calculate_properties` on a file of `m × m` frames: entry `i` of every dataset it
(re)computes is the physical quantity of its name on frame `i`, with the grid spacing `2π/k0/x_save` and the `c1` of the
file. -/
theorem C101_property_values (path : String) (f : H5 ℝ β) (hσ : σ.fs path = some f) (k0 x_save c1 : Attr ℝ)
    (n p o : List (Arr β)) (m : ℕ) (hm : 0 < m) (hsq : ∀ A, A ∈ n ∨ A ∈ p ∨ A ∈ o → A.h = m ∧ A.w = m)
    (hf : RunFile f k0 x_save c1 (n.map .arr) (p.map .arr) (o.map .arr)) (names : List String)
    (hnames : "density" ∉ names ∧ "phi" ∉ names ∧ "omega" ∉ names) (force : Bool) (b : ℕ) (hb : 1 ≤ b) :
    ∃ σ' f', calculate_properties hwProps path b names force σ = (.ok (), σ') ∧ σ'.fs path = some f' ∧
      ∀ name ∈ names, name ∈ propertyTable → force = true ∨ f.dsets name = none →
        ∃ vs : List ℝ, f'.dsets name = some (.flat (vs.map Casts.f32)) ∧ vs.length = n.length ∧
          ∀ (i : ℕ) (N P O : Arr β) (v : ℝ), n[i]? = some N → p[i]? = some P → o[i]? = some O → vs[i]? = some v →
            IsProperty m m (2 * Real.pi / attrReal k0 / attrReal x_save) (attrReal c1) (N.map Casts.f64).at'
              (P.map Casts.f64).at' (O.map Casts.f64).at' name v := by
  obtain ⟨σ', f', e1, e2, e3⟩ := C56_square_files path f hσ k0 x_save c1 n p o m hm hsq hf names hnames force b hb
  refine ⟨σ', f', e1, e2, fun name h1 h2 h3 => ?_⟩
  obtain ⟨vs, v1, v2, v3⟩ := e3 name h1 h2 h3
  refine ⟨vs, v1, v2, fun i N P O v a1 a2 a3 a4 => ?_⟩
  obtain ⟨v', w1, w2⟩ := property_meaning h2 (2 * Real.pi / attrReal k0 / attrReal x_save) (attrReal c1) hm
    (n := N.map Casts.f64) (p := P.map Casts.f64) (o := O.map Casts.f64)
    (hsq N (.inl (List.mem_of_getElem? a1))) (hsq P (.inr (.inl (List.mem_of_getElem? a2))))
    (hsq O (.inr (.inr (List.mem_of_getElem? a3))))
  have := v3 i N P O v a1 a2 a3 a4
  rw [w1] at this
  rw [← Except.ok.inj this]
  exact w2

end file

section
attribute [-instance] physCasts
attribute [local instance] exactCasts

example := C101_property_values "run.h5" propsFile (σ := ⟨fun _ => some propsFile, []⟩) rfl _ _ _ [_] [_] [_] 8 (by decide)
  (by intro A hA; simp only [List.mem_singleton] at hA; rcases hA with rfl | rfl | rfl <;> exact ⟨rfl, rfl⟩)
  propsFile_run ["energy", "gamma_n"] (by decide) true 2 (by decide)

end

/-- **C101, values recorded by run2.** The functions run2 evaluates on the states during a run. -/
theorem C101_recorded_values {name : String} (hname : name ∈ propertyTable) (dx c1 : ℝ) {m : ℕ} (hm : 0 < m)
    {n p o : Arr ℝ} (hn : n.h = m ∧ n.w = m) (hp : p.h = m ∧ p.w = m) (ho : o.h = m ∧ o.w = m) :
    ∃ F v, propertyFncs name = some F ∧ F (.arr n) (.arr p) (.arr o) dx c1 = .ok v ∧
      IsProperty m m dx c1 n.at' p.at' o.at' name v := by
  obtain ⟨v, h1, h2⟩ := property_meaning hname dx c1 hm hn hp ho
  exact ⟨_, v, propertyFncs_eq hname, h1, h2⟩

example := C101_recorded_values (name := "kinetic_energy") (by decide) (1 / 2) 1 (m := 4) (by decide)
  (n := tab 4 4 fun i j => (i * i + 3 * j : ℝ)) (p := tab 4 4 fun i j => (i + j * j : ℝ)) (o := tab 4 4 fun i _ => (i : ℝ))
  ⟨rfl, rfl⟩ ⟨rfl, rfl⟩ ⟨rfl, rfl⟩

/-- The spectral clauses of `IsProperty` are not vacuous: every field has a spectral derivative and Laplacian. -/
theorem C101_derivatives_exist (p : Arr ℝ) (dx : ℝ) (h0 : 0 < p.h) (w0 : 0 < p.w) :
    (∃ d, IsDy p.h p.w dx p.at' d) ∧ ∃ l, IsLaplacian p.h p.w dx p.at' l := by
  have : NeZero p.h := ⟨h0.ne'⟩
  have : NeZero p.w := ⟨w0.ne'⟩
  have e : ∀ i j, i < p.h → j < p.w → p.at' i j = (toFld p : Fld p.h p.w) i j := fun i j hi hj => by
    conv_lhs => rw [← ofField_toFld (a := p) (h := p.h) (w := p.w) rfl rfl]
    exact ofField_at' _ hi hj
  obtain ⟨d, hd⟩ := exists_dy (toFld p : Fld p.h p.w) dx
  obtain ⟨l, hl⟩ := exists_laplacian (toFld p : Fld p.h p.w) dx
  exact ⟨⟨(ofField d).at', (isDy_iff e (at_ofField d)).mpr hd⟩, ⟨(ofField l).at', (isLaplacian_iff e (at_ofField l)).mpr hl⟩⟩

example := C101_derivatives_exist (tab 4 6 fun i j => (i + j * j : ℝ)) (1 / 2) (by decide) (by decide)

/-- **C101, hyperdiffusion.** `get_D` is `nu` times the `N`-fold five-point Laplacian: the hyperdiffusion term the
solver adds, if it is given the solver's `nu`. -/
theorem C101_get_D {h w : ℕ} (h0 : 0 < h) (w0 : 0 < w) (hw : HW) (hb : Std hw.backend h w) (f : Fld h w) (nu : ℝ) (N : ℕ)
    (dx : ℝ) :
    get_D (ofField f) nu N dx = .ok (ofField fun i j => nu * (lap dx)^[N] f i j) ∧
      ∀ c, ∃ D c', hw.diffuse (ofField f) dx hw.N c = .ok (D, c') ∧
        get_D (ofField f) hw.nu hw.N dx = .ok (D.map (hw.nu * ·)) := by
  have : NeZero h := ⟨h0.ne'⟩
  have : NeZero w := ⟨w0.ne'⟩
  have e : ∀ nu N, get_D (ofField f) nu N dx = .ok (ofField fun i j => nu * (lap dx)^[N] f i j) := fun nu N => by
    unfold get_D
    rw [numpy_periodic_laplace_N_ofField]
    exact congrArg _ (map_ofField _ _)
  refine ⟨e nu N, fun c => ⟨_, _, diffuse_ofField _ hb.good _ _ _ _, ?_⟩⟩
  rw [e, map_ofField]

example := C101_get_D (h := 4) (w := 6) (by decide) (by decide) (HW.init numpyBackend 1 3 1 1 1) (.inl rfl)
  (fun i j => (i.val * 2 + j.val : ℝ)) (1 / 2) 3 (1 / 4)

/-- **C21 (every square grid).** What `get_gamma_n_spectrally` computes on an `m × m` grid, `m ≥ 2`: the flux with the
spectral derivative of the potential without its shortest waves, times `m / (2 ⌊m/2⌋)`. On even grids this is the
physical flux; on odd grids the shortest waves are lost and the rest is `m/(m-1)` times too large. -/
theorem C21_every_grid_partial (n p : Arr ℝ) (dx : ℝ) (m : ℕ) (hm : 2 ≤ m) (h1 : n.h = m)
    (h2 : n.w = m) (h3 : p.h = m) (h4 : p.w = m) :
    (∃ d : Arr ℝ, d.h = m ∧ d.w = m ∧ IsDyLow m m dx p.at' d.at') ∧
    ∀ d : ℕ → ℕ → ℝ, IsDyLow m m dx p.at' d →
      get_gamma_n_spectrally n p dx
        = .ok (-((m : ℝ) / (2 * (m / 2 : ℕ)) * Spec.mean m m fun i j => n.at' i j * d i j)) := by
  have : NeZero m := ⟨by omega⟩
  rw [← ofField_toFld h1 h2, ← ofField_toFld h3 h4]
  generalize (toFld n : Fld m m) = f
  generalize (toFld p : Fld m m) = g
  constructor
  · obtain ⟨d, hd⟩ := exists_dyLow g dx
    exact ⟨ofField d, rfl, rfl, (isDyLow_iff (at_ofField g) (at_ofField d)).mpr hd⟩
  · intro d hd
    have := (isDyLow_iff (g := fun a b => d a.val b.val) (at_ofField g) (samples d)).mp hd
    rw [gamma_n_spectral_ofField, gamma_n_spectral_cut hm f g _ dx this]
    rw [spec_mean_of (g := fun i j => f i j * d i.val j.val) fun i j hi hj => by
      rw [ofField_at' f hi hj]; exact congrArg _ (samples d i j hi hj)]

example := C21_every_grid_partial (tab 5 5 fun i j => (i * i + 3 * j : ℝ)) (tab 5 5 fun i j => (i + j * j : ℝ)) (1 / 2) 5
  (by decide) rfl rfl rfl rfl

/-- **C20 (a single row of points).** On a `1 × m` grid `get_energy_V_spectrally` does not raise, but returns the mean of
the squared wave numbers times the mean of the squared potential, over 2. -/
theorem C20_single_row (p : Arr ℝ) (dx : ℝ) (h1 : p.h = 1) (w0 : 0 < p.w) :
    get_energy_V_spectrally p dx = .ok ((∑ k ∈ Finset.range p.w, wave p.w dx k ^ 2) / p.w
      * Spec.mean 1 p.w (fun i j => p.at' i j ^ 2) / 2) := by
  obtain ⟨h, w, f, _, e1, e2, rfl, -⟩ := exists_fields p p rfl rfl
  simp only [ofField_h, ofField_w] at *
  subst h1
  have : NeZero w := ⟨w0.ne'⟩
  rw [energy_V_row, spec_mean_of (g := fun i j => f i j ^ 2) fun i j hi hj => by rw [ofField_at' f hi hj]]

example := C20_single_row (tab 1 4 fun _ j => (j : ℝ)) (1 / 2) rfl (by decide)

/-- **C20, the value on a single row is not the kinetic energy**: a constant potential has no kinetic energy, but is assigned a positive one. -/
theorem C20_single_row_wrong (m : ℕ) (hm : 2 ≤ m) (a dx : ℝ) (ha : a ≠ 0) (hdx : dx ≠ 0) :
    (∃ v, get_energy_V_spectrally (tab 1 m fun _ _ => a) dx = .ok v ∧ 0 < v) ∧
      IsLaplacian 1 m dx (tab 1 m fun _ _ => a).at' fun _ _ => 0 := by
  have hm0 : (0 : ℝ) < m := by exact_mod_cast (by omega : 0 < m)
  constructor
  · refine ⟨_, C20_single_row (tab 1 m fun _ _ => a) dx rfl (by simp only [tab_w]; omega), ?_⟩
    simp only [tab_w]
    have e1 : Spec.mean 1 m (fun i j => (tab 1 m fun _ _ => a).at' i j ^ 2) = a ^ 2 := by
      unfold Spec.mean
      rw [Finset.sum_congr rfl fun i hi => Finset.sum_congr (g := fun _ => a ^ 2) rfl fun j hj => by
        beta_reduce
        rw [tab_at' _ _ _ (Finset.mem_range.1 hi) (Finset.mem_range.1 hj)]]
      simp
      field_simp
    rw [e1]
    have e2 : 0 < ∑ k ∈ Finset.range m, wave m dx k ^ 2 := by
      refine Finset.sum_pos' (fun _ _ => sq_nonneg _) ⟨1, Finset.mem_range.2 (by omega), ?_⟩
      have : NeZero m := ⟨by omega⟩
      refine sq_pos_of_ne_zero ?_
      rw [wave_eq dx (by omega : 1 < m)]
      refine div_ne_zero (mul_ne_zero (by positivity) fun h => ?_) hdx
      have h1 := congrArg ZMod.val ((kap_eq_zero _).1 h)
      rw [ZMod.val_natCast, Nat.mod_eq_of_lt (by omega : 1 < m), ZMod.val_zero] at h1
      exact one_ne_zero h1
    positivity
  · have : NeZero m := ⟨by omega⟩
    refine (isLaplacian_iff (f := fun (_ : ZMod 1) (_ : ZMod m) => a) (g := fun _ _ => 0)
      (fun i j hi hj => tab_at' _ _ _ hi hj) fun _ _ _ _ => rfl).mpr fun k l => ?_
    have e : ∀ c : ℝ, cx (fun (_ : ZMod 1) (_ : ZMod m) => c) = fun _ _ => (c : ℂ) := fun _ => rfl
    rw [e, e, D_const, D_const]
    beta_reduce
    split_ifs with h
    · rw [(lamb_eq_zero k l).2 h]; simp
    · simp

example := C20_single_row_wrong 4 (by decide) 1 1 one_ne_zero one_ne_zero

end Verif.Props
