import Verif.Props.HWHistory
import Verif.Lemmas.Tile

/-!
# C107: periodic copies and symmetric states
-/

set_option linter.unusedSectionVars false

namespace Verif.Props

open Arr NS Spec

variable (hw : HW) (dx : ℝ) {h w : ℕ}

/-- `np.tile(A, (a, b))`: `a × b` copies side by side -/
def npTile (a b : ℕ) (A : Arr ℝ) : Arr ℝ := tab (a * A.h) (b * A.w) fun i j => A.at' (i % A.h) (j % A.w)

theorem npTile_ofField {a b : ℕ} [NeZero a] [NeZero b] [NeZero h] [NeZero w] (f : Fld h w) :
    npTile a b (ofField f) = ofField (tileF a b f) := by
  refine tab_congr rfl rfl fun i j hi hj => ?_
  simp only [ofField_h, ofField_w] at *
  rw [ofField_at' f (Nat.mod_lt _ (NeZero.pos h)) (Nat.mod_lt _ (NeZero.pos w))]
  unfold tileF
  rw [down_natCast, down_natCast, ZMod.natCast_mod, ZMod.natCast_mod]

/-- **C107 (copies).** The history of a box filled with `a × b` copies of a state consists of the copies of
the history of that state: same fields in every copy, same age, `dE`, `dU` and counters. -/
theorem C107_copies {a b : ℕ} (a0 : 0 < a) (b0 : 0 < b) (h0 : 0 < h) (w0 : 0 < w) (hb : Std hw.backend h w)
    (hb' : Std hw.backend (a * h) (b * w)) (l : List Step) (s : NS Val) (hs : IsState hw.TEST_CONSERVATION h w s)
    (c : Calls) :
    ∃ s' c', history hw dx l s c = .ok (s', c') ∧
      history hw dx l (mapArrays (npTile a b) s) c = .ok (mapArrays (npTile a b) s', c') := by
  have : NeZero h := ⟨h0.ne'⟩
  have : NeZero w := ⟨w0.ne'⟩
  have : NeZero a := ⟨a0.ne'⟩
  have : NeZero b := ⟨b0.ne'⟩
  exact history_symm hw dx (symm_tile (a := a) (b := b)) npTile_ofField hb hb' l s hs c

/-- **C107 (measured quantities).** Fluxes, energies and enstrophies are densities: copying the fields does not
change them. -/
theorem C107_measured {a b : ℕ} (a0 : 0 < a) (b0 : 0 < b) (h0 : 0 < h) (w0 : 0 < w) (n o p : Arr ℝ)
    (hn : n.h = h ∧ n.w = w) (ho : o.h = h ∧ o.w = w) (hp : p.h = h ∧ p.w = w) (c1 : ℝ) :
    Properties.get_gamma_n (npTile a b n) (npTile a b p) dx = Properties.get_gamma_n n p dx ∧
    Properties.get_gamma_c (npTile a b n) (npTile a b p) c1 dx = Properties.get_gamma_c n p c1 dx ∧
    Properties.get_energy (npTile a b n) (npTile a b p) dx = Properties.get_energy n p dx ∧
    Properties.get_enstrophy (npTile a b n) (npTile a b o) dx = Properties.get_enstrophy n o dx ∧
    Properties.get_enstrophy_phi (npTile a b n) (npTile a b p) dx = Properties.get_enstrophy_phi n p dx ∧
    Properties.get_energy_N_spectrally (npTile a b n) = Properties.get_energy_N_spectrally n ∧
    ∃ x, Properties.get_gamma_n n p dx = .ok x := by
  have : NeZero h := ⟨h0.ne'⟩
  have : NeZero w := ⟨w0.ne'⟩
  have : NeZero a := ⟨a0.ne'⟩
  have : NeZero b := ⟨b0.ne'⟩
  obtain ⟨n, rfl⟩ : ∃ f : Fld h w, n = ofField f := ⟨toFld n, (ofField_toFld hn.1 hn.2).symm⟩
  obtain ⟨o, rfl⟩ : ∃ f : Fld h w, o = ofField f := ⟨toFld o, (ofField_toFld ho.1 ho.2).symm⟩
  obtain ⟨p, rfl⟩ : ∃ f : Fld h w, p = ofField f := ⟨toFld p, (ofField_toFld hp.1 hp.2).symm⟩
  have hT := symm_tile (a := a) (b := b) (h := h) (w := w)
  have gX : gradX dx (tileF a b p) = tileF a b (gradX dx p) := by
    funext i j
    simp only [gradX, tileF, down_add, down_sub, down_one]
  simp only [npTile_ofField]
  refine ⟨?_, ?_, ?_, ?_, ?_, ?_, _, gamma_n_ofField n p dx⟩
  · rw [gamma_n_ofField, gamma_n_ofField, hT.gamN]
  · rw [gamma_c_ofField, gamma_c_ofField, hT.gamC]
  · rw [energy_ofField, energy_ofField, gX, hT.gradY]
    exact congrArg (fun x => Except.ok (x / 2))
      (avg_tile (a := a) (b := b) fun i j => n i j ^ 2 + (gradX dx p i j ^ 2 + gradY dx p i j ^ 2))
  · rw [enstrophy_ofField, enstrophy_ofField]
    exact congrArg (fun x => Except.ok (x / 2)) (avg_tile (a := a) (b := b) fun i j => (n i j - o i j) ^ 2)
  · rw [enstrophy_phi_ofField, enstrophy_phi_ofField, hT.lap, avg_tile]
    exact congrArg (fun x => Except.ok (x / 2))
      (avg_tile (a := a) (b := b) fun i j => (n i j - (lap dx p i j - avg (lap dx p))) ^ 2)
  · rw [energy_N_ofField, energy_N_ofField]
    exact congrArg (fun x => Except.ok (x / 2)) (avg_tile (a := a) (b := b) fun i j => n i j ^ 2)

/-- **C107 (periods).** A state that is unchanged when all fields are rolled by `(a, b)` stays so. -/
theorem C107_period_persists (h0 : 0 < h) (w0 : 0 < w) (hb : Std hw.backend h w) (l : List Step) (s : NS Val)
    (hs : IsState hw.TEST_CONSERVATION h w s) (c : Calls) (a b : ℤ) (hr : mapArrays (fun f => f.roll a b) s = s) :
    ∃ s' c', history hw dx l s c = .ok (s', c') ∧ mapArrays (fun f => f.roll a b) s' = s' := by
  obtain ⟨s', c', e1, e2⟩ := C29_translation hw dx h0 w0 hb l s hs c a b
  rw [hr, e1] at e2
  exact ⟨s', c', e1, (congrArg Prod.fst (Except.ok.inj e2)).symm⟩

/-- **C107 (mirror symmetry).** A state that equals its negated mirror image in x stays so. -/
theorem C107_parity_persists (h0 : 0 < h) (w0 : 0 < w) (hb : Std hw.backend h w) (l : List Step) (s : NS Val)
    (hs : IsState hw.TEST_CONSERVATION h w s) (c : Calls) (hr : mapArrays negMirror s = s) :
    ∃ s' c', history hw dx l s c = .ok (s', c') ∧ mapArrays negMirror s' = s' := by
  obtain ⟨s', c', e1, e2⟩ := C30_parity hw dx h0 w0 hb l s hs c
  rw [hr, e1] at e2
  exact ⟨s', c', e1, (congrArg Prod.fst (Except.ok.inj e2)).symm⟩

/-! ### non-vacuity -/

example := C107_copies (HW.init numpyBackend 1 3 1 (1 / 10) 1 1 1 true) 1 (a := 3) (b := 2) (by decide) (by decide)
  (by decide) (by decide) (.inl rfl) (.inl rfl) [.rk4 (1 / 10), .euler (1 / 20)] demoState demoState_isState {}

example := C107_measured 1 (a := 3) (b := 2) (h := 4) (w := 5) (by decide) (by decide) (by decide) (by decide)
  (tab 4 5 fun i j => (i * j : ℝ)) (tab 4 5 fun i j => (i - j : ℝ)) (tab 4 5 fun i _ => (i : ℝ)) ⟨rfl, rfl⟩ ⟨rfl, rfl⟩
  ⟨rfl, rfl⟩ 1

/-- a state of period 2 in y that is odd in x -/
noncomputable def symState : NS Val :=
  [("density", .arr (tab 4 3 fun i j => if i % 2 = 0 then (if j = 1 then 1 else if j = 2 then -1 else 0) else 0)),
   ("omega", .arr (tab 4 3 fun _ j => if j = 1 then 2 else if j = 2 then -2 else 0)),
   ("phi", .arr (tab 4 3 fun _ _ => 0)), ("age", .num 3)]

theorem symState_isState : IsState true 4 3 symState where
  nodup := by decide
  keys := by decide
  density := ⟨_, rfl, rfl, rfl⟩
  omega := ⟨_, rfl, rfl, rfl⟩
  phi := ⟨_, rfl, rfl, rfl⟩
  age := ⟨_, rfl⟩
  dE v e := by
    have : symState.get? "dE" = none := rfl
    rw [this] at e; cases e
  dU v e := by
    have : symState.get? "dU" = none := rfl
    rw [this] at e; cases e

theorem symState_roll : mapArrays (fun f => f.roll 2 0) symState = symState := by
  have key : ∀ f : ℕ → ℕ → ℝ, (∀ i j, f (i + 2) j = f i j) → (tab 4 3 f).roll 2 0 = tab 4 3 f := by
    intro f hf
    refine tab_congr rfl rfl fun i j hi hj => ?_
    have hi' : i < 4 := hi
    have hj' : j < 3 := hj
    have e1 : (((j : ℤ) - 0) % ((tab 4 3 f).w : ℤ)).toNat = j := by
      change (((j : ℤ) - 0) % 3).toNat = j
      omega
    rw [e1]
    have e2 : (((i : ℤ) - 2) % ((tab 4 3 f).h : ℤ)).toNat = if i < 2 then i + 2 else i - 2 := by
      change (((i : ℤ) - 2) % 4).toNat = _
      split <;> omega
    rw [e2]
    split
    · rw [tab_at' _ _ _ (by omega) hj', hf]
    · rw [tab_at' _ _ _ (by omega) hj', ← hf, Nat.sub_add_cancel (by omega)]
  unfold mapArrays symState
  simp only [List.map_cons, List.map_nil]
  rw [key _ fun i j => by simp, key _ fun i j => rfl, key _ fun i j => rfl]

theorem symState_mirror : mapArrays negMirror symState = symState := by
  have key : ∀ f : ℕ → ℕ → ℝ, (∀ i, f i 0 = 0 ∧ f i 2 = -f i 1) → negMirror (tab 4 3 f) = tab 4 3 f := by
    intro f hf
    refine tab_congr rfl rfl fun i j hi hj => ?_
    have hi' : i < 4 := hi
    have hj' : j < 3 := hj
    change -(tab 4 3 f).at' i ((3 - j) % 3) = f i j
    rw [tab_at' _ _ _ hi' (Nat.mod_lt _ (by decide))]
    obtain ⟨h0, h2⟩ := hf i
    interval_cases j
    · simp [h0]
    · simp [h2]
    · simp [h2]
  unfold mapArrays symState
  simp only [List.map_cons, List.map_nil]
  rw [key _ fun i => by by_cases e : i % 2 = 0 <;> simp [e], key _ fun i => by simp, key _ fun i => by simp]

example := C107_period_persists (HW.init numpyBackend 1 3 1 (1 / 10) 1) 1 (by decide) (by decide)
  (.inl rfl) [.rk4 (1 / 10), .euler (1 / 20)] symState symState_isState {} 2 0 symState_roll

example := C107_parity_persists (HW.init numpyBackend 1 3 1 (1 / 10) 1) 1 (by decide) (by decide)
  (.inl rfl) [.rk4 (1 / 10), .euler (1 / 20)] symState symState_isState {} symState_mirror

end Verif.Props
