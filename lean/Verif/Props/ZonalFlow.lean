import Verif.Props.HWHistory
import Verif.Lemmas.ZonalFlow
import Verif.Lemmas.Spectral

/-!
# C106: zonal flows and the `zonal` switch
-/

set_option linter.unusedSectionVars false

namespace Verif.Props

open Arr NS Spec

variable {hw : HW} {dx : ℝ} {h w : ℕ}

/-- all rows of the array are equal: the field depends on `x` only -/
def RowsEqual (A : Arr ℝ) : Prop := ∀ i j, i < A.h → j < A.w → A.at' i j = A.at' 0 j

/-- mean over `y` of column `j` -/
noncomputable def colMean (A : Arr ℝ) (j : ℕ) : ℝ := (∑ i ∈ Finset.range A.h, A.at' i j) / A.h

theorem rowsEqual_ofField [NeZero h] [NeZero w] (f : Fld h w) : RowsEqual (ofField f) ↔ YC f := by
  constructor
  · intro H
    have H' : ∀ i : ZMod h, ∀ j : ZMod w, f i j = f 0 j := fun i j => by
      have := H i.val j.val (ZMod.val_lt i) (ZMod.val_lt j)
      rw [ofField_at' f (ZMod.val_lt i) (ZMod.val_lt j), ofField_at' f (NeZero.pos h) (ZMod.val_lt j)] at this
      simpa using this
    exact YC.of_eq fun i i' j => by rw [H' i j, H' i' j]
  · intro H i j hi hj
    rw [ofField_at' f hi hj, ofField_at' f (NeZero.pos h) hj]
    exact H.eq _ _ _

theorem colMean_ofField [NeZero h] [NeZero w] (f : Fld h w) {j : ℕ} (hj : j < w) :
    colMean (ofField f) j = (∑ i, f i (j : ZMod w)) / h := by
  unfold colMean
  rw [ofField_h]
  congr 1
  rw [← sum_range_zmod fun i => f i (j : ZMod w)]
  exact Finset.sum_congr rfl fun i hi => ofField_at' f (Finset.mem_range.mp hi) hj

/-- **C106 (zonal means).** The mean over `y` of the computed time derivatives: with `zonal=True` neither the
coupling `c1` nor the density gradient `kappa` contributes, only the bracket and the hyperdiffusion do.
(With `zonal=False` the coupling does.) -/
theorem C106_zonal_mean_rates (h0 : 0 < h) (w0 : 0 < w) (hb : Std hw.backend h w) (n o p : Arr ℝ) (hn : n.h = h ∧ n.w = w)
    (ho : o.h = h ∧ o.w = w) (hp : p.h = h ∧ p.w = w) (dt : ℝ) (c : Calls) :
    ∃ g c' gn go bn bo dn dO, hw.gradient_2d [("density", .arr n), ("omega", .arr o)] (some (.arr p)) dt dx hw.zonal c
        = .ok (g, c') ∧ g.get? "density" = some (.arr gn) ∧ g.get? "omega" = some (.arr go) ∧
      hw.backend.poisson_bracket p n dx = .ok bn ∧ hw.backend.poisson_bracket p o dx = .ok bo ∧
      hw.backend.diffuse_N n dx hw.N = .ok dn ∧ hw.backend.diffuse_N o dx hw.N = .ok dO ∧
      ∀ j < w,
        colMean gn j = (if hw.zonal then 0 else hw.c1 * (colMean p j - colMean n j))
          - hw.poisson_bracket_coeff * colMean bn j + hw.nu * colMean dn j ∧
        colMean go j = (if hw.zonal then 0 else hw.c1 * (colMean p j - colMean n j))
          - hw.poisson_bracket_coeff * colMean bo j + hw.nu * colMean dO j := by
  have : NeZero h := ⟨h0.ne'⟩
  have : NeZero w := ⟨w0.ne'⟩
  obtain ⟨n, rfl⟩ : ∃ f : Fld h w, n = ofField f := ⟨toFld n, (ofField_toFld hn.1 hn.2).symm⟩
  obtain ⟨o, rfl⟩ : ∃ f : Fld h w, o = ofField f := ⟨toFld o, (ofField_toFld ho.1 ho.2).symm⟩
  obtain ⟨p, rfl⟩ : ∃ f : Fld h w, p = ofField f := ⟨toFld p, (ofField_toFld hp.1 hp.2).symm⟩
  obtain ⟨g, c', e, e1, e2, -⟩ := gradient_2d_fields hw hb.good dx dt
    [("density", .arr (ofField n)), ("omega", .arr (ofField o))]
    (by simp [keys, reservedNames]) _ _ p rfl rfl (.inl rfl) c
  refine ⟨g, c', _, _, _, _, _, _, e, e1, e2, hb.good.bracket p n dx, hb.good.bracket p o dx, hb.good.diffuse n dx hw.N,
    hb.good.diffuse o dx hw.N, fun j hj => ?_⟩
  simp only [colMean_ofField _ hj]
  rw [ysum_rhsN, ysum_rhsO]
  have hh : ∀ f : Fld h w, ∑ i, hyper (parOf hw dx) f i (j : ZMod w) = hw.nu * ∑ i, ((lap dx)^[hw.N] f) i (j : ZMod w) := by
    intro f
    rw [Finset.mul_sum]
    exact Finset.sum_congr rfl fun i _ => hyper_parOf hw dx f i _
  rw [hh, hh]
  change (hw.c1 * (if hw.zonal then 0 else _) - hw.poisson_bracket_coeff * _ + _) / _ = _ ∧
    (hw.c1 * (if hw.zonal then 0 else _) - hw.poisson_bracket_coeff * _ + _) / _ = _
  cases hw.zonal
  · simp only [Bool.false_eq_true, if_false]
    constructor <;> · change (_ - _ * (∑ i, jac dx _ _ i _) + _) / _ = _; ring
  · simp only [if_true]
    constructor <;> · change (_ - _ * (∑ i, jac dx _ _ i _) + _) / _ = _; ring

variable (hw dx) in
/-- **C106 (zonal flows).** With `zonal=True` a state that depends on `x` only keeps doing so through any
history of steps, and without viscosity its density and vorticity do not change at all. -/
theorem C106_zonal_flow_persists (h0 : 0 < h) (w0 : 0 < w) (hb : Std hw.backend h w) (hz : hw.zonal = true) (l : List Step)
    (s : NS Val) (hs : IsState hw.TEST_CONSERVATION h w s) (hd : RowsEqual (arrOf s "density"))
    (ho : RowsEqual (arrOf s "omega")) (hp : RowsEqual (arrOf s "phi")) (c : Calls) :
    ∃ s' c', history hw dx l s c = .ok (s', c') ∧ RowsEqual (arrOf s' "density") ∧ RowsEqual (arrOf s' "omega") ∧
      RowsEqual (arrOf s' "phi") ∧
      (hw.nu = 0 → arrOf s' "density" = arrOf s "density" ∧ arrOf s' "omega" = arrOf s "omega") := by
  have : NeZero h := ⟨h0.ne'⟩
  have : NeZero w := ⟨w0.ne'⟩
  obtain ⟨ks, t, hk, hn, rfl⟩ := hs.exists_mk
  refine ⟨_, _, history_eval hw dx hb.good hk l t c, ?_⟩
  rw [arrOf_density hk, rowsEqual_ofField] at hd
  rw [arrOf_omega hk, rowsEqual_ofField] at ho
  rw [arrOf_phi hk, rowsEqual_ofField] at hp
  rw [arrOf_density (goodKeys_hist l hk), arrOf_omega (goodKeys_hist l hk), arrOf_phi (goodKeys_hist l hk),
    arrOf_density hk, arrOf_omega hk]
  simp only [rowsEqual_ofField]
  obtain ⟨e1, e2, e3, e4⟩ := histS_zonal (P := parOf hw dx) hz hw.dx l ⟨hd, ho, hp⟩
  refine ⟨e2, e3, e4, fun hnu => ?_⟩
  rw [diffHist_zero (by simp [parOf, hnu])] at e1
  exact ⟨congrArg (fun u => ofField u.1) e1, congrArg (fun u => ofField u.2) e1⟩

/-- **C106 (only viscosity acts).** The evolution of such a state is the same for all `c1`, `kappa_coeff` and
`poisson_bracket_coeff`. -/
theorem C106_only_viscosity {hw' : HW} (h0 : 0 < h) (w0 : 0 < w) (hb : Std hw.backend h w) (hb' : Std hw'.backend h w)
    (hz : hw.zonal = true) (hz' : hw'.zonal = true) (hN : hw'.N = hw.N) (hnu : hw'.nu = hw.nu)
    (htest : hw'.TEST_CONSERVATION = hw.TEST_CONSERVATION) (l : List Step)
    (s : NS Val) (hs : IsState hw.TEST_CONSERVATION h w s) (hd : RowsEqual (arrOf s "density"))
    (ho : RowsEqual (arrOf s "omega")) (hp : RowsEqual (arrOf s "phi")) (c : Calls) :
    ∃ s1 c1 s2 c2, history hw dx l s c = .ok (s1, c1) ∧ history hw' dx l s c = .ok (s2, c2) ∧
      arrOf s1 "density" = arrOf s2 "density" ∧ arrOf s1 "omega" = arrOf s2 "omega" := by
  have : NeZero h := ⟨h0.ne'⟩
  have : NeZero w := ⟨w0.ne'⟩
  obtain ⟨ks, t, hk, hn, rfl⟩ := hs.exists_mk
  have hk' : GoodKeys ks hw'.TEST_CONSERVATION := htest ▸ hk
  refine ⟨_, _, _, _, history_eval hw dx hb.good hk l t c, history_eval hw' dx hb'.good hk' l t c, ?_⟩
  rw [arrOf_density hk, rowsEqual_ofField] at hd
  rw [arrOf_omega hk, rowsEqual_ofField] at ho
  rw [arrOf_phi hk, rowsEqual_ofField] at hp
  rw [arrOf_density (goodKeys_hist l hk), arrOf_omega (goodKeys_hist l hk), arrOf_density (goodKeys_hist l hk),
    arrOf_omega (goodKeys_hist l hk)]
  have e1 := (histS_zonal (P := parOf hw dx) hz hw.dx l ⟨hd, ho, hp⟩).1
  have e2 := (histS_zonal (P := parOf hw' dx) hz' hw'.dx l ⟨hd, ho, hp⟩).1
  rw [diffHist_congr (P := parOf hw' dx) (P' := parOf hw dx) rfl hN (by simp [parOf, hN, hnu]), ← e1] at e2
  exact ⟨congrArg (fun u => ofField u.1) e2.symm, congrArg (fun u => ofField u.2) e2.symm⟩

/-! ### non-vacuity -/

/-- a zonal flow -/
noncomputable def zonalDemo : NS Val :=
  [("density", .arr (tab 4 5 fun _ j => (j : ℝ))), ("omega", .arr (tab 4 5 fun _ j => (j : ℝ) ^ 2)),
   ("phi", .arr (tab 4 5 fun _ j => 1 - (j : ℝ))), ("age", .num 3)]

theorem zonalDemo_isState : IsState true 4 5 zonalDemo where
  nodup := by decide
  keys := by decide
  density := ⟨_, rfl, rfl, rfl⟩
  omega := ⟨_, rfl, rfl, rfl⟩
  phi := ⟨_, rfl, rfl, rfl⟩
  age := ⟨_, rfl⟩
  dE v e := by
    have : zonalDemo.get? "dE" = none := rfl
    rw [this] at e; cases e
  dU v e := by
    have : zonalDemo.get? "dU" = none := rfl
    rw [this] at e; cases e

theorem rowsEqual_tab (f : ℕ → ℝ) : RowsEqual (tab 4 5 fun _ j => f j) := by
  intro i j hi hj
  have hi' : i < 4 := hi
  have hj' : j < 5 := hj
  rw [tab_at' _ _ _ hi' hj', tab_at' _ _ _ (by decide) hj']

example := C106_zonal_mean_rates (hw := HW.init numpyBackend 1 3 1 (1 / 10) 1 1 1 true) (dx := 1) (h := 4) (w := 5) (by decide)
  (by decide) (.inl rfl) (tab 4 5 fun i j => (i * j : ℝ)) (tab 4 5 fun i j => (i - j : ℝ)) (tab 4 5 fun i _ => (i : ℝ))
  ⟨rfl, rfl⟩ ⟨rfl, rfl⟩ ⟨rfl, rfl⟩ 0 {}

example := C106_zonal_flow_persists (HW.init numpyBackend 1 3 1 0 1 1 1 true) 1 (by decide) (by decide) (.inl rfl) rfl
  [.rk4 (1 / 10), .euler (1 / 20)] zonalDemo zonalDemo_isState (rowsEqual_tab _) (rowsEqual_tab _) (rowsEqual_tab _) {}

example := C106_only_viscosity (hw := HW.init numpyBackend 1 3 1 (1 / 10) 1 1 1 true)
  (hw' := HW.init numpyBackend 1 3 5 (1 / 10) 1 2 0 true) (dx := 1) (by decide) (by decide) (.inl rfl) (.inl rfl) rfl rfl rfl
  rfl rfl [.rk4 (1 / 10), .euler (1 / 20)] zonalDemo zonalDemo_isState (rowsEqual_tab _) (rowsEqual_tab _) (rowsEqual_tab _) {}

end Verif.Props
