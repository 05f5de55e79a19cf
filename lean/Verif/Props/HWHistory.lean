import Verif.Props.HWCommon
import Verif.Lemmas.HWLinear

/-!
# Property theorems C27–C33, C36, C37: histories of time steps
-/

set_option linter.unusedSectionVars false

namespace Verif.Props

open Arr NS Spec

/-- a concrete non-trivial plasma state, used to show that hypotheses can be met -/
noncomputable def demoState : NS Val :=
  [("density", .arr (tab 4 5 fun i j => (i * j : ℝ))), ("omega", .arr (tab 4 5 fun i j => (i : ℝ) - j)),
   ("phi", .arr (tab 4 5 fun i _ => (i : ℝ) - 3 / 2)), ("age", .num 3), ("dE", .num 0)]

theorem demoState_isState : IsState true 4 5 demoState where
  nodup := by decide
  keys := by decide
  density := ⟨_, rfl, rfl, rfl⟩
  omega := ⟨_, rfl, rfl, rfl⟩
  phi := ⟨_, rfl, rfl, rfl⟩
  age := ⟨_, rfl⟩
  dE v e := ⟨0, by
    have : demoState.get? "dE" = some (.num 0) := rfl
    rw [this] at e; exact (Option.some.inj e).symm⟩
  dU v e := by
    have : demoState.get? "dU" = none := rfl
    rw [this] at e; cases e

theorem demoState_phi_mean : amean (arrOf demoState "phi") = 0 := by
  have : arrOf demoState "phi" = tab 4 5 fun i _ => (i : ℝ) - 3 / 2 := rfl
  rw [this]
  unfold amean Spec.mean
  have : ∀ m ∈ Finset.range 4, ∀ n ∈ Finset.range 5,
      (tab 4 5 fun i _ => (i : ℝ) - 3 / 2).at' m n = (m : ℝ) - 3 / 2 := by
    intro m hm n hn
    rw [tab_at' _ _ _ (Finset.mem_range.mp hm) (Finset.mem_range.mp hn)]
  change (∑ m ∈ Finset.range 4, ∑ n ∈ Finset.range 5, _) / _ = _
  rw [Finset.sum_congr rfl fun m hm => Finset.sum_congr rfl (this m hm)]
  simp [Finset.sum_range_succ]
  norm_num

variable (hw : HW) (dx : ℝ) {h w : ℕ}

/-! ## C27 -/

/-- **C27.** Any history of `rk4_step` and `euler_step` calls conserves
`mean(density) - mean(omega)`. -/
theorem C27_mean_difference_conserved (h0 : 0 < h) (w0 : 0 < w) (hb : Std hw.backend h w)
    (hN : 1 ≤ hw.N ∨ hw.nu = 0) (l : List Step) (s : NS Val) (hs : IsState hw.TEST_CONSERVATION h w s)
    (c : Calls) :
    ∃ s' c', history hw dx l s c = .ok (s', c') ∧ IsState hw.TEST_CONSERVATION h w s' ∧
      amean (arrOf s' "density") - amean (arrOf s' "omega")
        = amean (arrOf s "density") - amean (arrOf s "omega") := by
  have : NeZero h := ⟨h0.ne'⟩
  have : NeZero w := ⟨w0.ne'⟩
  obtain ⟨ks, t, hk, hn, rfl⟩ := hs.exists_mk
  refine ⟨_, _, history_eval hw dx hb.good hk l t c, isState_mk (goodKeys_hist l hk) (nodup_hist l hn) _, ?_⟩
  rw [arrOf_density (goodKeys_hist l hk), arrOf_omega (goodKeys_hist l hk), arrOf_density hk, arrOf_omega hk]
  simp only [amean_ofField]
  have hN' : 1 ≤ (parOf hw dx).N ∨ (parOf hw dx).nu = 0 := hN.imp id fun e => by simp [parOf, e]
  clear hs hk hn
  induction l generalizing t with
  | nil => rfl
  | cons a l ih =>
    unfold histS
    rw [ih]
    cases a
    · exact rk4S_diff _ hN' _ _ _
    · exact eulerS_diff _ hN' _ _ _ _

example := C27_mean_difference_conserved (HW.init numpyBackend 1 3 1 (1 / 10) 1) 1 (by decide) (by decide)
  (.inl rfl) (.inl (by decide)) [.rk4 (1 / 10), .euler (1 / 20), .rk4 (-3)] demoState demoState_isState {}

/-! ## C28 -/

/-- growth factor of the mean density in one step, `z = c1 * dt` -/
noncomputable def Step.growth (c1 : ℝ) : Step → ℝ
  | .rk4 dt => 1 - c1 * dt + (c1 * dt) ^ 2 / 2 - (c1 * dt) ^ 3 / 6 + (c1 * dt) ^ 4 / 24
  | .euler dt => 1 - c1 * dt

/-- **C28.** With a zero-mean potential (and no zonal coupling) the mean density
is multiplied by the growth factor of each step; with zonal coupling or `c1 = 0`
mean density and mean vorticity are conserved for every potential. -/
theorem C28_mean_density (h0 : 0 < h) (w0 : 0 < w) (hb : Std hw.backend h w)
    (hN : 1 ≤ hw.N ∨ hw.nu = 0) (l : List Step) (s : NS Val) (hs : IsState hw.TEST_CONSERVATION h w s)
    (c : Calls) :
    ∃ s' c', history hw dx l s c = .ok (s', c') ∧
      (hw.zonal = false → amean (arrOf s "phi") = 0 →
        amean (arrOf s' "density") = (l.map (Step.growth hw.c1)).prod * amean (arrOf s "density")) ∧
      (hw.zonal = true ∨ hw.c1 = 0 →
        amean (arrOf s' "density") = amean (arrOf s "density") ∧
        amean (arrOf s' "omega") = amean (arrOf s "omega")) := by
  have hN' : 1 ≤ (parOf hw dx).N ∨ (parOf hw dx).nu = 0 := hN.imp id fun e => by simp [parOf, e]
  obtain ⟨s', c', e, -, hd⟩ := C27_mean_difference_conserved hw dx h0 w0 hb hN l s hs c
  have : NeZero h := ⟨h0.ne'⟩
  have : NeZero w := ⟨w0.ne'⟩
  obtain ⟨ks, t, hk, hn, rfl⟩ := hs.exists_mk
  have e' := history_eval hw dx hb.good hk l t c
  rw [e] at e'
  injection e' with e'
  injection e' with e' _
  subst e'
  refine ⟨_, _, e, ?_⟩
  rw [arrOf_density (goodKeys_hist l hk), arrOf_omega (goodKeys_hist l hk), arrOf_density hk, arrOf_omega hk] at hd
  rw [arrOf_density (goodKeys_hist l hk), arrOf_omega (goodKeys_hist l hk), arrOf_density hk, arrOf_omega hk,
    arrOf_phi hk]
  simp only [amean_ofField] at *
  have key : ∀ (l : List Step) (t : Sta h w), avg t.2.2.1 = 0 ∨ c1m (parOf hw dx) = 0 →
      avg (histS (parOf hw dx) hw.dx l t).1 = (l.map (Step.growth (c1m (parOf hw dx)))).prod * avg t.1 := by
    intro l
    induction l with
    | nil => intro t _; simp [histS]
    | cons a l ih =>
      intro t ht
      unfold histS
      rw [ih _ (.inl (by rw [stepS_phi]; exact avg_phiF _ _)), List.map_cons, List.prod_cons]
      have : avg (stepS (parOf hw dx) hw.dx a t).1 = Step.growth (c1m (parOf hw dx)) a * avg t.1 := by
        cases a
        · exact rk4S_mean _ hN' _ _ _ ht
        · exact eulerS_mean _ hN' _ _ _ _ ht
      rw [this]; ring
  constructor
  · intro hz hp
    have hc : c1m (parOf hw dx) = hw.c1 := by simp [c1m, parOf, hz]
    rw [key l t (.inl hp), hc]
  · intro hz
    have hc : c1m (parOf hw dx) = 0 := by
      rcases hz with hz | hz <;> simp [c1m, parOf, hz]
    have h1 : avg (histS (parOf hw dx) hw.dx l t).1 = avg t.1 := by
      rw [key l t (.inr hc), hc]
      have : l.map (Step.growth 0) = l.map fun _ => 1 := by
        refine List.map_congr_left fun a _ => ?_
        cases a <;> simp [Step.growth]
      rw [this]; simp
    exact ⟨h1, by linarith⟩

example := (C28_mean_density (HW.init numpyBackend 1 3 1 (1 / 10) 1) 1 (by decide) (by decide)
  (.inl rfl) (.inl (by decide)) [.rk4 (1 / 10), .euler (1 / 20), .rk4 (-3)] demoState demoState_isState {}).imp
  fun _ h => h.imp fun _ h => h.2.1 rfl demoState_phi_mean

/-! ## C29, C30 -/

/-- apply a function to every array entry of a state -/
def mapArrays (F : Arr ℝ → Arr ℝ) (s : NS Val) : NS Val := s.map fun p =>
  (p.1, match p.2 with
    | .arr a => .arr (F a)
    | .num x => .num x)

theorem mapArrays_mk [NeZero h] [NeZero w] {h' w' : ℕ} [NeZero h'] [NeZero w'] {F : Arr ℝ → Arr ℝ} {T : Fld h w → Fld h' w'}
    (hF : ∀ f, F (ofField f) = ofField (T f)) (ks : List String) (s : Sta h w) :
    mapArrays F (NS.mk ks (st s)) = NS.mk ks (st (onS T s)) := by
  unfold mapArrays NS.mk
  rw [List.map_map]
  refine List.map_congr_left fun k _ => ?_
  simp only [Function.comp_apply, Prod.mk.injEq, true_and]
  by_cases h1 : k = "density"
  · subst h1; simp only [st_density, onS, hF]
  by_cases h2 : k = "omega"
  · subst h2; simp only [st_omega, onS, hF]
  by_cases h3 : k = "phi"
  · subst h3; simp only [st_phi, onS, hF]
  simp only [st, onS, h1, h2, h3, if_false]
  split
  · next e => split at e <;> [skip; split at e] <;> cases e
  · next e => exact e.symm

theorem history_symm [NeZero h] [NeZero w] {h' w' : ℕ} [NeZero h'] [NeZero w'] {F : Arr ℝ → Arr ℝ}
    {T : Fld h w → Fld h' w'} (hT : Symm T) (hF : ∀ f, F (ofField f) = ofField (T f)) (hb : Std hw.backend h w)
    (hb' : Std hw.backend h' w') (l : List Step) (s : NS Val)
    (hs : IsState hw.TEST_CONSERVATION h w s) (c : Calls) :
    ∃ s' c', history hw dx l s c = .ok (s', c') ∧
      history hw dx l (mapArrays F s) c = .ok (mapArrays F s', c') := by
  obtain ⟨ks, t, hk, hn, rfl⟩ := hs.exists_mk
  refine ⟨_, _, history_eval hw dx hb.good hk l t c, ?_⟩
  rw [mapArrays_mk hF, mapArrays_mk hF, history_eval hw dx hb'.good hk]
  congr 3
  clear hs hk hn
  induction l generalizing t with
  | nil => rfl
  | cons a l ih =>
    unfold histS
    rw [← ih]
    have e : stepS (parOf hw dx) hw.dx a (onS T t) = onS T (stepS (parOf hw dx) hw.dx a t) := by
      cases a
      · exact hT.rk4S _ _ _ _
      · exact hT.eulerS _ _ _ _ _
    rw [e]

/-- **C29.** Rolling all fields of the initial state by any integer offsets
rolls the whole trajectory: same scalars, rolled fields, same counters. -/
theorem C29_translation (h0 : 0 < h) (w0 : 0 < w) (hb : Std hw.backend h w) (l : List Step) (s : NS Val)
    (hs : IsState hw.TEST_CONSERVATION h w s) (c : Calls) (a b : ℤ) :
    ∃ s' c', history hw dx l s c = .ok (s', c') ∧
      history hw dx l (mapArrays (fun f => f.roll a b) s) c = .ok (mapArrays (fun f => f.roll a b) s', c') := by
  have : NeZero h := ⟨h0.ne'⟩
  have : NeZero w := ⟨w0.ne'⟩
  exact history_symm hw dx (symm_shift (h := h) (w := w) a b) (fun f => roll_ofField f a b) hb hb l s hs c

example := C29_translation (HW.init numpyBackend 1 3 1 (1 / 10) 1) 1 (by decide) (by decide)
  (.inl rfl) [.rk4 (1 / 10), .euler (1 / 20)] demoState demoState_isState {} (-7) 3

/-- the negated mirror image in x: entry `(i, j)` comes from `(i, -j mod w)` -/
def negMirror (a : Arr ℝ) : Arr ℝ := tab a.h a.w fun i j => -a.at' i ((a.w - j) % a.w)

theorem negMirror_ofField [NeZero h] [NeZero w] (f : Fld h w) : negMirror (ofField f) = ofField (mirror f) := by
  refine tab_congr rfl rfl fun i j hi hj => ?_
  simp only [ofField_h, ofField_w] at *
  rw [ofField_at' f hi (Nat.mod_lt _ (NeZero.pos w))]
  unfold mirror
  congr 2
  rw [ZMod.natCast_mod, Nat.cast_sub hj.le, ZMod.natCast_self, zero_sub]

/-- **C30.** Replacing the fields of the initial state by their negated mirror
images in x replaces the whole trajectory by its negated mirror image. -/
theorem C30_parity (h0 : 0 < h) (w0 : 0 < w) (hb : Std hw.backend h w) (l : List Step) (s : NS Val)
    (hs : IsState hw.TEST_CONSERVATION h w s) (c : Calls) :
    ∃ s' c', history hw dx l s c = .ok (s', c') ∧
      history hw dx l (mapArrays negMirror s) c = .ok (mapArrays negMirror s', c') := by
  have : NeZero h := ⟨h0.ne'⟩
  have : NeZero w := ⟨w0.ne'⟩
  exact history_symm hw dx symm_mirror negMirror_ofField hb hb l s hs c

example := C30_parity (HW.init numpyBackend 1 3 1 (1 / 10) 1) 1 (by decide) (by decide)
  (.inl rfl) [.rk4 (1 / 10), .euler (1 / 20)] demoState demoState_isState {}

/-! ## C31, C32 -/

/-- **C31.** After any history the age is the initial age plus the sum of the
time increments. -/
theorem C31_age (h0 : 0 < h) (w0 : 0 < w) (hb : Std hw.backend h w) (l : List Step) (s : NS Val)
    (hs : IsState hw.TEST_CONSERVATION h w s) (c : Calls) :
    ∃ s' c', history hw dx l s c = .ok (s', c') ∧
      s'.get? "age" = some (.num (numOf s "age" + (l.map Step.dt).sum)) := by
  have : NeZero h := ⟨h0.ne'⟩
  have : NeZero w := ⟨w0.ne'⟩
  obtain ⟨ks, t, hk, hn, rfl⟩ := hs.exists_mk
  refine ⟨_, _, history_eval hw dx hb.good hk l t c, ?_⟩
  rw [get?_mk, if_pos (goodKeys_hist l hk).age, st_age, numOf_age hk]
  congr 2
  clear hs hk hn
  induction l generalizing t with
  | nil => simp [histS]
  | cons a l ih =>
    unfold histS
    rw [ih, stepS_age, List.map_cons, List.sum_cons, add_assoc]

example := C31_age (HW.init numpyBackend 1 3 1 (1 / 10) 1) 1 (by decide) (by decide)
  (.inl rfl) [.rk4 (1 / 10), .euler (1 / 20)] demoState demoState_isState {}

/-- **C32.** Every state returned by a step (hence by every non-empty history,
whatever potential it started from) carries `phi = get_phi(omega)`. -/
theorem C32_phi_consistent (h0 : 0 < h) (w0 : 0 < w) (hb : Std hw.backend h w) (l : List Step) (hl : l ≠ [])
    (s : NS Val) (hs : IsState hw.TEST_CONSERVATION h w s) (c : Calls) :
    ∃ s' c', history hw dx l s c = .ok (s', c') ∧ IsState hw.TEST_CONSERVATION h w s' ∧ Consistent hw dx s' := by
  have : NeZero h := ⟨h0.ne'⟩
  have : NeZero w := ⟨w0.ne'⟩
  obtain ⟨ks, t, hk, hn, rfl⟩ := hs.exists_mk
  refine ⟨_, _, history_eval hw dx hb.good hk l t c, isState_mk (goodKeys_hist l hk) (nodup_hist l hn) _, ?_⟩
  rw [consistent_mk hw hb.good dx (goodKeys_hist l hk)]
  have key : ∀ (l : List Step) (t : Sta h w), t.2.2.1 = phiF dx t.2.1 →
      (histS (parOf hw dx) hw.dx l t).2.2.1 = phiF dx (histS (parOf hw dx) hw.dx l t).2.1 := by
    intro l
    induction l with
    | nil => intro t ht; exact ht
    | cons a l ih => intro t _; exact ih _ (stepS_phi _ _ _ _)
  cases l with
  | nil => exact absurd rfl hl
  | cons a l => exact key l _ (stepS_phi _ _ _ _)

example := C32_phi_consistent (HW.init numpyBackend 1 3 1 (1 / 10) 1) 1 (by decide) (by decide)
  (.inl rfl) [.rk4 (1 / 10), .euler (1 / 20)] (by simp) demoState demoState_isState {}

/-! ## C33 -/

/-- **C33.** Without Poisson brackets the dynamics is linear and one RK4 step is
the exponential series to fourth order, one Euler step to first order.  The
powers `A^k` are the iterated right-hand sides: `N (k+1), O (k+1)` is what
`gradient_2d` (computing its own potential) returns for `N k, O k`. -/
theorem C33_linear_dynamics (h0 : 0 < h) (w0 : 0 < w) (hb : Std hw.backend h w)
    (hpb : hw.poisson_bracket_coeff = 0) (s : NS Val)
    (hs : IsState hw.TEST_CONSERVATION h w s) (hc : Consistent hw dx s) (c : Calls) :
    ∃ N O : ℕ → Arr ℝ, N 0 = arrOf s "density" ∧ O 0 = arrOf s "omega" ∧
      (∀ k, ∃ g c', hw.gradient_2d [("density", .arr (N k)), ("omega", .arr (O k))] none 0 dx hw.zonal c
          = .ok (g, c') ∧
        g.get? "density" = some (.arr (N (k + 1))) ∧ g.get? "omega" = some (.arr (O (k + 1)))) ∧
      ∀ dt : ℝ,
        (∃ s' c', hw.rk4_step s dt dx c = .ok (s', c') ∧ ∀ i j, i < h → j < w →
          (arrOf s' "density").at' i j = ∑ k ∈ Finset.range 5, dt ^ k / (k.factorial : ℝ) * (N k).at' i j ∧
          (arrOf s' "omega").at' i j = ∑ k ∈ Finset.range 5, dt ^ k / (k.factorial : ℝ) * (O k).at' i j) ∧
        (∃ s' c', hw.euler_step s dt dx c = .ok (s', c') ∧ ∀ i j, i < h → j < w →
          (arrOf s' "density").at' i j = (N 0).at' i j + dt * (N 1).at' i j ∧
          (arrOf s' "omega").at' i j = (O 0).at' i j + dt * (O 1).at' i j) := by
  have : NeZero h := ⟨h0.ne'⟩
  have : NeZero w := ⟨w0.ne'⟩
  obtain ⟨ks, t, hk, hn, rfl⟩ := hs.exists_mk
  rw [consistent_mk hw hb.good dx hk] at hc
  have hpb' : (parOf hw dx).pb = 0 := hpb
  set A := linU (h := h) (w := w) (parOf hw dx) with hA
  refine ⟨fun k => ofField ((A ^ k) (prj t)).1, fun k => ofField ((A ^ k) (prj t)).2, ?_, ?_, ?_, ?_⟩
  · rw [arrOf_density hk]; rfl
  · rw [arrOf_omega hk]; rfl
  · intro k
    obtain ⟨g, c', e, e1, e2, -⟩ := gradient_2d_fields hw hb.good dx 0
      [("density", .arr (ofField ((A ^ k) (prj t)).1)), ("omega", .arr (ofField ((A ^ k) (prj t)).2))]
      (by simp [keys, reservedNames]) _ _ (phiF dx ((A ^ k) (prj t)).2) rfl rfl (.inl rfl)
      { c with get_phi := c.get_phi + 1 }
    refine ⟨g, c', ?_, ?_, ?_⟩
    · rw [← e]
      exact gradient_2d_none hw hb.good _ _ _ 0 dx hw.zonal (by simp [keys, reservedNames]) rfl rfl c
    · beta_reduce; rw [e1, pow_succ', Module.End.mul_apply, hA, ← rhsU_of_pb _ hpb']; rfl
    · beta_reduce; rw [e2, pow_succ', Module.End.mul_apply, hA, ← rhsU_of_pb _ hpb']; rfl
  · intro dt
    have hF : rhsU (h := h) (w := w) (parOf hw dx) = A := funext fun u => rhsU_of_pb _ hpb' u
    constructor
    · have e := rk4_step_mk hw.backend hb.good (parOf hw dx) hw.dx hw.k0 hw.TEST_CONSERVATION hk t dt c
      rw [← eq_mkHW] at e
      refine ⟨_, _, e, fun i j hi hj => ?_⟩
      rw [arrOf_density hk.step, arrOf_omega hk.step]
      have e2 := prj_rk4S (parOf hw dx) hw.dx dt t hc
      rw [hF, rk4U_linear] at e2
      have e3 := congrArg Prod.fst e2
      have e4 := congrArg Prod.snd e2
      simp only [prj] at e3 e4
      rw [e3, e4]
      constructor
      · rw [ofField_at' _ hi hj]
        simp only [Prod.fst_sum, Finset.sum_apply]
        refine Finset.sum_congr rfl fun k _ => ?_
        rw [ofField_at' _ hi hj]; rfl
      · rw [ofField_at' _ hi hj]
        simp only [Prod.snd_sum, Finset.sum_apply]
        refine Finset.sum_congr rfl fun k _ => ?_
        rw [ofField_at' _ hi hj]; rfl
    · have e := euler_step_mk hw.backend hb.good (parOf hw dx) hw.dx hw.k0 hw.TEST_CONSERVATION hk t dt c
      rw [← eq_mkHW] at e
      refine ⟨_, _, e, fun i j hi hj => ?_⟩
      rw [arrOf_density hk.step, arrOf_omega hk.step]
      have e2 := prj_eulerS (parOf hw dx) hw.dx dt t hc
      rw [hF] at e2
      have e3 := congrArg Prod.fst e2
      have e4 := congrArg Prod.snd e2
      simp only [prj] at e3 e4
      rw [e3, e4]
      constructor <;>
      · rw [ofField_at' _ hi hj, ofField_at' _ hi hj, ofField_at' _ hi hj, add_comm]; rfl

/-- consistent states exist: the state returned by any step is one -/
example : ∃ s, IsState true 4 5 s ∧ Consistent (HW.init numpyBackend 1 3 1 (1 / 10) 1 (poisson_bracket_coeff := 0)) 1 s := by
  obtain ⟨s', c', -, h1, h2⟩ := C32_phi_consistent
    (HW.init numpyBackend 1 3 1 (1 / 10) 1 (poisson_bracket_coeff := 0)) 1 (by decide) (by decide)
    (.inl rfl) [.rk4 (1 / 10)] (by simp) demoState demoState_isState {}
  exact ⟨s', h1, h2⟩

/-! ## C36 -/

/-- number of RK4 steps -/
def rk4Count (l : List Step) : ℕ := l.countP fun | .rk4 _ => true | .euler _ => false
/-- number of Euler steps -/
def eulerCount (l : List Step) : ℕ := l.countP fun | .rk4 _ => false | .euler _ => true

open Classical in
/-- **C36.** The profiling counters after any history of `k` RK4 and `m` Euler
steps, starting from any counter values. -/
theorem C36_counters (h0 : 0 < h) (w0 : 0 < w) (hb : Std hw.backend h w) (l : List Step) (s : NS Val)
    (hs : IsState hw.TEST_CONSERVATION h w s) (c : Calls) :
    ∃ s' c', history hw dx l s c = .ok (s', c') ∧
      c'.full_step = c.full_step + rk4Count l + eulerCount l ∧
      c'.get_phi = c.get_phi + 4 * rk4Count l + eulerCount l ∧
      c'.gradient_2d = c.gradient_2d + 4 * rk4Count l + eulerCount l ∧
      c'.poisson_bracket = c.poisson_bracket
        + (if hw.poisson_bracket_coeff = 0 then 0 else 8 * rk4Count l + 2 * eulerCount l) ∧
      c'.diffuse = c.diffuse + (if hw.nu = 0 then 0 else 8 * rk4Count l + 2 * eulerCount l)
        + (if hw.TEST_CONSERVATION then 4 * rk4Count l + eulerCount l else 0) := by
  have : NeZero h := ⟨h0.ne'⟩
  have : NeZero w := ⟨w0.ne'⟩
  obtain ⟨ks, t, hk, hn, rfl⟩ := hs.exists_mk
  refine ⟨_, _, history_eval hw dx hb.good hk l t c, ?_⟩
  have hnu : (parOf hw dx).nu = 0 ↔ hw.nu = 0 := by
    simp only [parOf]
    rw [mul_eq_zero, or_iff_right (pow_ne_zero _ (by norm_num))]
  have hpb : (parOf hw dx).pb = hw.poisson_bracket_coeff := rfl
  clear hs hk hn
  induction l generalizing c with
  | nil => simp [histCalls, rk4Count, eulerCount]
  | cons a l ih =>
    obtain ⟨i1, i2, i3, i4, i5⟩ := ih (stepCalls (parOf hw dx) hw.TEST_CONSERVATION a c)
    unfold histCalls
    rw [i1, i2, i3, i4, i5]
    cases a
    · have e1 : rk4Count (.rk4 ‹_› :: l) = rk4Count l + 1 := by simp [rk4Count]
      have e2 : eulerCount (.rk4 ‹_› :: l) = eulerCount l := by simp [eulerCount]
      simp only [stepCalls, rk4Calls, e1, e2, hnu, hpb]
      refine ⟨by omega, by omega, by omega, ?_, ?_⟩
      · split <;> omega
      · split <;> split <;> omega
    · have e1 : rk4Count (.euler ‹_› :: l) = rk4Count l := by simp [rk4Count]
      have e2 : eulerCount (.euler ‹_› :: l) = eulerCount l + 1 := by simp [eulerCount]
      simp only [stepCalls, eulerCalls, e1, e2, hnu, hpb]
      refine ⟨by omega, by omega, by omega, ?_, ?_⟩
      · split <;> omega
      · split <;> split <;> omega

example := C36_counters (HW.init numpyBackend 1 3 1 (1 / 10) 1) 1 (by decide) (by decide)
  (.inl rfl) [.rk4 (1 / 10), .euler (1 / 20)] demoState demoState_isState {}

/-! ## C37 -/

/-- **C37.** Any history computed with the Numba functions equals the one
computed with the NumPy functions: same states, same counters (exact
arithmetic; grids within the range of the Numba frequency table, C14). -/
theorem C37_backends_same_trajectory (h0 : 0 < h) (w0 : 0 < w) (hh : h ≤ 65536) (hw' : w ≤ 65536)
    (l : List Step) (s : NS Val) (hs : IsState hw.TEST_CONSERVATION h w s) (c : Calls) :
    (∃ r, history { hw with backend := numpyBackend } dx l s c = .ok r) ∧
    history { hw with backend := numbaBackend } dx l s c
      = history { hw with backend := numpyBackend } dx l s c := by
  have : NeZero h := ⟨h0.ne'⟩
  have : NeZero w := ⟨w0.ne'⟩
  obtain ⟨ks, t, hk, hn, rfl⟩ := hs.exists_mk
  have e1 := history_eval { hw with backend := numpyBackend } dx numpyBackend_good hk l t c
  have e2 := history_eval { hw with backend := numbaBackend } dx (numbaBackend_good hh hw') hk l t c
  exact ⟨⟨_, e1⟩, by rw [e1, e2]; rfl⟩

example := C37_backends_same_trajectory (HW.init numpyBackend 1 3 1 (1 / 10) 1) 1 (by decide) (by decide)
  (by decide) (by decide) [.rk4 (1 / 10), .euler (1 / 20)] demoState demoState_isState {}

/-- a state of a run without Poisson brackets -/
example : ∃ s, IsState true 4 5 s ∧ Consistent (HW.init numpyBackend 1 3 1 (1 / 10) 1 0) 1 s ∧
    ∃ N O : ℕ → Arr ℝ, N 0 = arrOf s "density" ∧ O 0 = arrOf s "omega" ∧ ∀ dt : ℝ,
      ∃ s' c', (HW.init numpyBackend 1 3 1 (1 / 10) 1 0).rk4_step s dt 1 {} = .ok (s', c') ∧ ∀ i j, i < 4 → j < 5 →
        (arrOf s' "density").at' i j = ∑ k ∈ Finset.range 5, dt ^ k / (k.factorial : ℝ) * (N k).at' i j := by
  obtain ⟨s, c, -, hs, hc⟩ := C32_phi_consistent (HW.init numpyBackend 1 3 1 (1 / 10) 1 0) 1
    (h := 4) (w := 5) (by decide) (by decide) (.inl rfl) [.rk4 (1 / 10)] (by simp) demoState demoState_isState {}
  obtain ⟨N, O, hN, hO, -, H⟩ := C33_linear_dynamics (HW.init numpyBackend 1 3 1 (1 / 10) 1 0) 1 (by decide) (by decide)
    (.inl rfl) rfl s hs hc {}
  refine ⟨s, hs, hc, N, O, hN, hO, fun dt => ?_⟩
  obtain ⟨⟨s', c', h1, h2⟩, -⟩ := H dt
  exact ⟨s', c', h1, fun i j hi hj => (h2 i j hi hj).1⟩

end Verif.Props
