import Verif.Props.HWHistory
import Verif.Lemmas.HWODE

/-!
# Property theorems C34, C76, C77: order of the time steppers

The right-hand side of the ordinary differential equation is what `gradient_2d`
returns (computing its own potential).  The theorems compare the time steppers
with exact solutions of that equation.
-/

set_option linter.unusedSectionVars false

namespace Verif.Props

open Arr NS Spec Set

variable (hw : HW) (dx : ℝ) (h w : ℕ)

/-- `N t`, `O t` (density and vorticity on an `h × w` grid) is an exact solution on `[0, T]`: at every
time and grid point the time derivative is the entry of what `gradient_2d` returns. -/
structure ExactSolution (T : ℝ) (N O : ℝ → Arr ℝ) : Prop where
  shapeN : ∀ t, (N t).h = h ∧ (N t).w = w
  shapeO : ∀ t, (O t).h = h ∧ (O t).w = w
  deriv : ∀ t ∈ Icc 0 T, ∀ c, ∃ g c' gn go,
    hw.gradient_2d [("density", .arr (N t)), ("omega", .arr (O t))] none 0 dx hw.zonal c = .ok (g, c') ∧
      g.get? "density" = some (.arr gn) ∧ g.get? "omega" = some (.arr go) ∧
      ∀ i j, i < h → j < w →
        HasDerivWithinAt (fun s => (N s).at' i j) (gn.at' i j) (Icc 0 T) t ∧
        HasDerivWithinAt (fun s => (O s).at' i j) (go.at' i j) (Icc 0 T) t

variable {hw dx h w}

section fields
variable [NeZero h] [NeZero w]

/-- the pair of torus fields of a pair of arrays -/
def pairOf (N O : Arr ℝ) : Pair h w := (toFld N, toFld O)

theorem gradient_pair (hb : hw.backend.Good h w) (u : Pair h w) (c : Calls) :
    ∃ g c', hw.gradient_2d [("density", .arr (ofField u.1)), ("omega", .arr (ofField u.2))] none 0 dx hw.zonal c
        = .ok (g, c') ∧
      g.get? "density" = some (.arr (ofField (rhsU (parOf hw dx) u).1)) ∧
      g.get? "omega" = some (.arr (ofField (rhsU (parOf hw dx) u).2)) := by
  obtain ⟨g, c', e, e1, e2, -⟩ := gradient_2d_fields hw hb dx 0
    [("density", .arr (ofField u.1)), ("omega", .arr (ofField u.2))]
    (by simp [keys, reservedNames]) _ _ (phiF dx u.2) rfl rfl (.inl rfl)
    { c with get_phi := c.get_phi + 1 }
  refine ⟨g, c', ?_, e1, e2⟩
  rw [← e]
  exact gradient_2d_none hw hb _ _ _ 0 dx hw.zonal (by simp [keys, reservedNames]) rfl rfl c

theorem toFld_ofField (f : Fld h w) : toFld (ofField f) = f := by
  funext i j
  unfold toFld
  rw [ofField_at' f (ZMod.val_lt i) (ZMod.val_lt j), ZMod.natCast_zmod_val, ZMod.natCast_zmod_val]

theorem exact_iff (hb : hw.backend.Good h w) {T : ℝ} {N O : ℝ → Arr ℝ} :
    ExactSolution hw dx h w T N O ↔ (∀ t, (N t).h = h ∧ (N t).w = w) ∧ (∀ t, (O t).h = h ∧ (O t).w = w) ∧
      ODE.Solves (ODE.F (linC (parOf hw dx)) (bilC (parOf hw dx))) T
        (fun t => (pairOf (N t) (O t) : Pair h w)) := by
  have eN : ∀ {a : Arr ℝ}, a.h = h ∧ a.w = w → a = ofField (toFld a : Fld h w) :=
    fun e => (ofField_toFld e.1 e.2).symm
  constructor
  · intro H
    refine ⟨H.shapeN, H.shapeO, fun t ht => ?_⟩
    rw [← rhsU_eq]
    obtain ⟨g, c', gn, go, e, e1, e2, hd⟩ := H.deriv t ht {}
    obtain ⟨g', c'', e', e1', e2'⟩ := gradient_pair (dx := dx) hb (pairOf (N t) (O t)) {}
    simp only [pairOf] at e' e1' e2'
    rw [← eN (H.shapeN t), ← eN (H.shapeO t), e] at e'
    injection e' with e'
    injection e' with e' _
    subst e'
    rw [e1] at e1'
    rw [e2] at e2'
    have q1 : gn = _ := Val.arr.inj (Option.some.inj e1')
    have q2 : go = _ := Val.arr.inj (Option.some.inj e2')
    refine hasDeriv_pair.2 fun i j => ?_
    have := hd i.val j.val (ZMod.val_lt i) (ZMod.val_lt j)
    rw [q1, q2, ofField_at' _ (ZMod.val_lt i) (ZMod.val_lt j), ofField_at' _ (ZMod.val_lt i) (ZMod.val_lt j),
      ZMod.natCast_zmod_val, ZMod.natCast_zmod_val] at this
    exact this
  · rintro ⟨h1, h2, H⟩
    refine ⟨h1, h2, fun t ht c => ?_⟩
    obtain ⟨g, c', e, e1, e2⟩ := gradient_pair (dx := dx) hb (pairOf (N t) (O t)) c
    refine ⟨g, c', _, _, ?_, e1, e2, fun i j hi hj => ?_⟩
    · simp only [pairOf] at e
      rw [← eN (h1 t), ← eN (h2 t)] at e
      exact e
    · have := H t ht
      rw [← rhsU_eq] at this
      have := hasDeriv_pair.1 this (i : ZMod h) (j : ZMod w)
      rw [ofField_at' _ hi hj, ofField_at' _ hi hj]
      simp only [pairOf, toFld, ZMod.val_natCast, Nat.mod_eq_of_lt hi, Nat.mod_eq_of_lt hj] at this
      exact this

theorem stepS_rk4_prj (P : Params) (dx0 dt : ℝ) (s : Sta h w) (hs : s.2.2.1 = phiF P.dx s.2.1) :
    prj (stepS P dx0 (.rk4 dt) s) = ODE.rk4 (ODE.F (linC P) (bilC P)) dt (prj s) := by
  rw [← rhsU_eq, ← rk4U_eq]
  exact prj_rk4S P dx0 dt s hs

theorem stepS_euler_prj (P : Params) (dx0 dt : ℝ) (s : Sta h w) (hs : s.2.2.1 = phiF P.dx s.2.1) :
    prj (stepS P dx0 (.euler dt) s) = ODE.euler (ODE.F (linC P) (bilC P)) dt (prj s) := by
  rw [← rhsU_eq]
  have := prj_eulerS P dx0 dt s hs
  unfold ODE.euler
  rw [add_comm]
  exact this

/-- a history of equal steps at field level -/
theorem histS_replicate (P : Params) (dx0 : ℝ) (a : Step) (G : Pair h w → Pair h w)
    (hG : ∀ s : Sta h w, s.2.2.1 = phiF P.dx s.2.1 → prj (stepS P dx0 a s) = G (prj s)) (k : ℕ) (s : Sta h w)
    (hs : s.2.2.1 = phiF P.dx s.2.1) : prj (histS P dx0 (List.replicate k a) s) = G^[k] (prj s) := by
  induction k generalizing s with
  | zero => rfl
  | succ k ih =>
    rw [List.replicate_succ, Function.iterate_succ_apply, ← hG s hs]
    exact ih _ (stepS_phi P dx0 a s)

theorem pairOf_mk {test : Bool} {ks : List String} (hk : GoodKeys ks test) (t : Sta h w) :
    (pairOf (arrOf (NS.mk ks (st t)) "density") (arrOf (NS.mk ks (st t)) "omega") : Pair h w) = prj t := by
  rw [arrOf_density hk, arrOf_omega hk]
  unfold pairOf prj
  rw [toFld_ofField, toFld_ofField]

end fields

/-- the largest deviation of density and vorticity of a state from given arrays is at most `e` -/
def Within (h w : ℕ) (s : NS Val) (n o : Arr ℝ) (e : ℝ) : Prop :=
  ∀ i j, i < h → j < w →
    |(arrOf s "density").at' i j - n.at' i j| ≤ e ∧ |(arrOf s "omega").at' i j - o.at' i j| ≤ e

theorem within_of_norm [NeZero h] [NeZero w] {test : Bool} {ks : List String} (hk : GoodKeys ks test)
    (t : Sta h w) (n o : Arr ℝ) {e : ℝ} (H : ‖prj t - pairOf n o‖ ≤ e) :
    Within h w (NS.mk ks (st t)) n o e := by
  intro i j hi hj
  rw [arrOf_density hk, arrOf_omega hk, ofField_at' _ hi hj, ofField_at' _ hi hj]
  have := abs_le_of_norm H (i : ZMod h) (j : ZMod w)
  simp only [pairOf, prj, toFld, ZMod.val_natCast, Nat.mod_eq_of_lt hi, Nat.mod_eq_of_lt hj] at this
  exact this

/-- both one-step statements from the abstract one -/
theorem local_of (h0 : 0 < h) (w0 : 0 < w) (hb : Std hw.backend h w) {T : ℝ} {N O : ℝ → Arr ℝ}
    (a : ℝ → Step) (r : ℕ)
    (hloc : ∀ (_ : NeZero h) (_ : NeZero w), ∃ C, 0 ≤ C ∧ ∀ t dt, 0 ≤ t → 0 ≤ dt → t + dt ≤ T →
      ∀ s : Sta h w, s.2.2.1 = phiF dx s.2.1 → prj s = pairOf (N t) (O t) →
      ‖prj (stepS (parOf hw dx) hw.dx (a dt) s) - pairOf (N (t + dt)) (O (t + dt))‖ ≤ C * dt ^ r) :
    ∃ C, 0 ≤ C ∧ ∀ t dt, 0 ≤ t → 0 ≤ dt → t + dt ≤ T →
      ∀ s, IsState hw.TEST_CONSERVATION h w s → Consistent hw dx s →
        arrOf s "density" = N t → arrOf s "omega" = O t → ∀ c,
        ∃ s' c', (a dt).run hw dx s c = .ok (s', c') ∧ Within h w s' (N (t + dt)) (O (t + dt)) (C * dt ^ r) := by
  have : NeZero h := ⟨h0.ne'⟩
  have : NeZero w := ⟨w0.ne'⟩
  obtain ⟨C, hC, hl⟩ := hloc ‹_› ‹_›
  refine ⟨C, hC, fun t dt ht hdt hT s hs hc en eo c => ?_⟩
  obtain ⟨ks, u, hk, hn, rfl⟩ := hs.exists_mk
  rw [consistent_mk hw hb.good dx hk] at hc
  have e := step_mk hw.backend hb.good (parOf hw dx) hw.dx hw.k0 hw.TEST_CONSERVATION hk (a dt) u c
  rw [← eq_mkHW] at e
  refine ⟨_, _, e, within_of_norm hk.step _ _ _ (hl t dt ht hdt hT u hc ?_)⟩
  rw [← pairOf_mk hk, en, eo]

/-! ## C34 -/

/-- **C34.** One `rk4_step` started on an exact solution (with the potential of its vorticity) is within
`C dt^5` of that solution, with one constant for all starting times and all step sizes that stay inside
the interval. -/
theorem C34_rk4_local_error (h0 : 0 < h) (w0 : 0 < w) (hb : Std hw.backend h w) {T : ℝ} {N O : ℝ → Arr ℝ}
    (H : ExactSolution hw dx h w T N O) :
    ∃ C, 0 ≤ C ∧ ∀ t dt, 0 ≤ t → 0 ≤ dt → t + dt ≤ T →
      ∀ s, IsState hw.TEST_CONSERVATION h w s → Consistent hw dx s →
        arrOf s "density" = N t → arrOf s "omega" = O t → ∀ c,
        ∃ s' c', hw.rk4_step s dt dx c = .ok (s', c') ∧ Within h w s' (N (t + dt)) (O (t + dt)) (C * dt ^ 5) := by
  refine local_of h0 w0 hb .rk4 5 fun _ _ => ?_
  obtain ⟨C, hC, hl⟩ := ODE.rk4_local _ _ ((exact_iff hb.good).1 H).2.2
  refine ⟨C, hC, fun t dt ht hdt hT s hs es => ?_⟩
  rw [stepS_rk4_prj _ _ _ _ hs, es]
  exact hl t dt ht hdt hT

/-- **C34.** One `euler_step` is within `C dt^2` of the exact solution. -/
theorem C34_euler_local_error (h0 : 0 < h) (w0 : 0 < w) (hb : Std hw.backend h w) {T : ℝ} {N O : ℝ → Arr ℝ}
    (H : ExactSolution hw dx h w T N O) :
    ∃ C, 0 ≤ C ∧ ∀ t dt, 0 ≤ t → 0 ≤ dt → t + dt ≤ T →
      ∀ s, IsState hw.TEST_CONSERVATION h w s → Consistent hw dx s →
        arrOf s "density" = N t → arrOf s "omega" = O t → ∀ c,
        ∃ s' c', hw.euler_step s dt dx c = .ok (s', c') ∧
          Within h w s' (N (t + dt)) (O (t + dt)) (C * dt ^ 2) := by
  refine local_of h0 w0 hb .euler 2 fun _ _ => ?_
  obtain ⟨C, hC, hl⟩ := ODE.euler_local _ _ ((exact_iff hb.good).1 H).2.2
  refine ⟨C, hC, fun t dt ht hdt hT s hs es => ?_⟩
  rw [stepS_euler_prj _ _ _ _ hs, es]
  exact hl t dt ht hdt hT

/-- **C34.** Exact solutions exist: for every initial density and vorticity, every grid, every set of
coefficients and every time interval there is one and only one. -/
theorem C34_exact_solution_exists (h0 : 0 < h) (w0 : 0 < w) (hb : Std hw.backend h w) (n o : Arr ℝ)
    (hn : n.h = h ∧ n.w = w) (ho : o.h = h ∧ o.w = w) (T : ℝ) (hT : 0 ≤ T) :
    ∃ N O : ℝ → Arr ℝ, N 0 = n ∧ O 0 = o ∧ ExactSolution hw dx h w T N O ∧
      ∀ N' O' : ℝ → Arr ℝ, N' 0 = n → O' 0 = o → ExactSolution hw dx h w T N' O' →
        ∀ t ∈ Icc 0 T, N' t = N t ∧ O' t = O t := by
  have : NeZero h := ⟨h0.ne'⟩
  have : NeZero w := ⟨w0.ne'⟩
  obtain ⟨Y, e0, hY⟩ := exists_solutionU (parOf hw dx) hT (pairOf n o : Pair h w)
  have en : ofField (Y 0).1 = n := by rw [e0]; exact ofField_toFld hn.1 hn.2
  have eo : ofField (Y 0).2 = o := by rw [e0]; exact ofField_toFld ho.1 ho.2
  have eY : (fun t => (pairOf (ofField (Y t).1) (ofField (Y t).2) : Pair h w)) = Y := by
    funext t; unfold pairOf; rw [toFld_ofField, toFld_ofField]
  refine ⟨fun t => ofField (Y t).1, fun t => ofField (Y t).2, en, eo,
    (exact_iff hb.good).2 ⟨fun _ => ⟨rfl, rfl⟩, fun _ => ⟨rfl, rfl⟩, by rw [eY]; exact hY⟩,
    fun N' O' en' eo' H t ht => ?_⟩
  obtain ⟨s1, s2, hS⟩ := (exact_iff hb.good).1 H
  have := ODE.solution_unique _ _ hS hY (show (pairOf (N' 0) (O' 0) : Pair h w) = Y 0 by
    rw [en', eo', e0]) ht
  simp only at this
  show N' t = ofField (Y t).1 ∧ O' t = ofField (Y t).2
  constructor
  · rw [← this]; exact (ofField_toFld (s1 t).1 (s1 t).2).symm
  · rw [← this]; exact (ofField_toFld (s2 t).1 (s2 t).2).symm

/-! ## C76 -/

theorem global_of [NeZero h] [NeZero w] (hb : Std hw.backend h w) {T : ℝ} {N O : ℝ → Arr ℝ}
    (a : ℝ → Step) (r : ℕ) (G : ℝ → Pair h w → Pair h w)
    (hG : ∀ (dt : ℝ) (s : Sta h w), s.2.2.1 = phiF (parOf hw dx).dx s.2.1 →
      prj (stepS (parOf hw dx) hw.dx (a dt) s) = G dt (prj s))
    (hglob : ∃ C dt0 : ℝ, 0 ≤ C ∧ 0 < dt0 ∧ ∀ dt, 0 ≤ dt → dt ≤ dt0 →
      ∀ k : ℕ, k * dt ≤ T →
        ‖(G dt)^[k] (pairOf (N 0) (O 0)) - (pairOf (N (k * dt)) (O (k * dt)) : Pair h w)‖ ≤ C * dt ^ r)
    (s : NS Val) (hs : IsState hw.TEST_CONSERVATION h w s) (hc : Consistent hw dx s)
    (en : arrOf s "density" = N 0) (eo : arrOf s "omega" = O 0) :
    ∃ C dt0, 0 ≤ C ∧ 0 < dt0 ∧ ∀ dt, 0 ≤ dt → dt ≤ dt0 → ∀ k : ℕ, k * dt ≤ T → ∀ c,
      ∃ s' c', history hw dx (List.replicate k (a dt)) s c = .ok (s', c') ∧
        Within h w s' (N (k * dt)) (O (k * dt)) (C * dt ^ r) := by
  obtain ⟨C, dt0, hC, hd, hl⟩ := hglob
  refine ⟨C, dt0, hC, hd, fun dt hdt hdt0 k hk c => ?_⟩
  obtain ⟨ks, u, hks, hn, rfl⟩ := hs.exists_mk
  rw [consistent_mk hw hb.good dx hks] at hc
  refine ⟨_, _, history_eval hw dx hb.good hks _ u c, within_of_norm (goodKeys_hist _ hks) _ _ _ ?_⟩
  rw [histS_replicate _ _ _ (G dt) (hG dt) k u hc, ← pairOf_mk hks, en, eo]
  exact hl dt hdt hdt0 k hk

/-- **C76.** From every consistent state and for every time horizon `T` the equations have exactly one
exact solution, and `k` calls of `rk4_step` with any small enough `dt` and `k dt ≤ T` stay within
`C dt^4` of it, `k` calls of `euler_step` within `C dt`. -/
theorem C76_time_stepping_converges (h0 : 0 < h) (w0 : 0 < w) (hb : Std hw.backend h w) (s : NS Val)
    (hs : IsState hw.TEST_CONSERVATION h w s) (hc : Consistent hw dx s) (T : ℝ) (hT : 0 ≤ T) :
    ∃ N O : ℝ → Arr ℝ, N 0 = arrOf s "density" ∧ O 0 = arrOf s "omega" ∧ ExactSolution hw dx h w T N O ∧
      ∃ C dt0, 0 ≤ C ∧ 0 < dt0 ∧ ∀ dt, 0 ≤ dt → dt ≤ dt0 → ∀ k : ℕ, k * dt ≤ T → ∀ c,
        (∃ s' c', history hw dx (List.replicate k (.rk4 dt)) s c = .ok (s', c') ∧
          Within h w s' (N (k * dt)) (O (k * dt)) (C * dt ^ 4)) ∧
        (∃ s' c', history hw dx (List.replicate k (.euler dt)) s c = .ok (s', c') ∧
          Within h w s' (N (k * dt)) (O (k * dt)) (C * dt)) := by
  have : NeZero h := ⟨h0.ne'⟩
  have : NeZero w := ⟨w0.ne'⟩
  obtain ⟨n, e1, n1, n2⟩ := hs.density
  obtain ⟨o, e2, o1, o2⟩ := hs.omega
  have en : arrOf s "density" = n := by unfold arrOf; rw [e1]
  have eo : arrOf s "omega" = o := by unfold arrOf; rw [e2]
  obtain ⟨N, O, i1, i2, H, -⟩ := C34_exact_solution_exists (dx := dx) h0 w0 hb n o ⟨n1, n2⟩ ⟨o1, o2⟩ T hT
  refine ⟨N, O, i1.trans en.symm, i2.trans eo.symm, H, ?_⟩
  obtain ⟨C1, d1, hC1, hd1, H1⟩ := global_of (N := N) (O := O) (T := T) hb .rk4 4
    (fun dt => ODE.rk4 (ODE.F (linC (parOf hw dx)) (bilC (parOf hw dx))) dt)
    (fun dt s hs => stepS_rk4_prj _ _ _ _ hs)
    (ODE.rk4_global _ _ hT ((exact_iff hb.good).1 H).2.2) s hs hc (en.trans i1.symm) (eo.trans i2.symm)
  obtain ⟨C2, d2, hC2, hd2, H2⟩ := global_of (N := N) (O := O) (T := T) hb .euler 1
    (fun dt => ODE.euler (ODE.F (linC (parOf hw dx)) (bilC (parOf hw dx))) dt)
    (fun dt s hs => stepS_euler_prj _ _ _ _ hs)
    (by
      have := ODE.euler_global _ _ hT ((exact_iff hb.good).1 H).2.2
      simp only [pow_one]
      exact this)
    s hs hc (en.trans i1.symm) (eo.trans i2.symm)
  refine ⟨max C1 C2, min d1 d2, le_max_of_le_left hC1, lt_min hd1 hd2, fun dt hdt hd k hk c => ⟨?_, ?_⟩⟩
  · obtain ⟨s', c', e, hw'⟩ := H1 dt hdt (hd.trans (min_le_left _ _)) k hk c
    refine ⟨s', c', e, fun i j hi hj => ?_⟩
    have hle : C1 * dt ^ 4 ≤ max C1 C2 * dt ^ 4 := mul_le_mul_of_nonneg_right (le_max_left _ _) (by positivity)
    exact ⟨(hw' i j hi hj).1.trans hle, (hw' i j hi hj).2.trans hle⟩
  · obtain ⟨s', c', e, hw'⟩ := H2 dt hdt (hd.trans (min_le_right _ _)) k hk c
    refine ⟨s', c', e, fun i j hi hj => ?_⟩
    have hle : C2 * dt ^ 1 ≤ max C1 C2 * dt := by
      rw [pow_one]; exact mul_le_mul_of_nonneg_right (le_max_right _ _) hdt
    exact ⟨(hw' i j hi hj).1.trans hle, (hw' i j hi hj).2.trans hle⟩

/-- the hypotheses hold for the state one step after `demoState`, with all terms switched on -/
example : ∃ s, IsState true 4 5 s ∧ Consistent (HW.init numpyBackend 1 3 1 (1 / 10) 1 1 1 false true) 1 s ∧
    ∃ N O : ℝ → Arr ℝ, N 0 = arrOf s "density" ∧ O 0 = arrOf s "omega" ∧
      ExactSolution (HW.init numpyBackend 1 3 1 (1 / 10) 1 1 1 false true) 1 4 5 100 N O ∧
      ∃ C, ∀ t dt, 0 ≤ t → 0 ≤ dt → t + dt ≤ 100 →
        ∀ s, IsState true 4 5 s → Consistent (HW.init numpyBackend 1 3 1 (1 / 10) 1 1 1 false true) 1 s →
        arrOf s "density" = N t → arrOf s "omega" = O t → ∀ c, ∃ s' c',
          (HW.init numpyBackend 1 3 1 (1 / 10) 1 1 1 false true).rk4_step s dt 1 c = .ok (s', c') ∧
          Within 4 5 s' (N (t + dt)) (O (t + dt)) (C * dt ^ 5) := by
  obtain ⟨s, c, -, hs, hc⟩ := C32_phi_consistent (HW.init numpyBackend 1 3 1 (1 / 10) 1 1 1 false true) 1
    (h := 4) (w := 5) (by decide) (by decide) (.inl rfl) [.rk4 (1 / 10)] (by simp) demoState demoState_isState {}
  obtain ⟨N, O, h1, h2, H, -⟩ := C76_time_stepping_converges (by decide) (by decide) (.inl rfl) s hs hc 100
    (by norm_num)
  obtain ⟨C, -, hC⟩ := C34_rk4_local_error (by decide) (by decide) (.inl rfl) H
  exact ⟨s, hs, hc, N, O, h1, h2, H, C, hC⟩

/-! ## C77 -/

section stale
variable [NeZero h] [NeZero w]

theorem prj_rk4S_any (P : Params) (dx0 dt : ℝ) (s : Sta h w) :
    prj (rk4S P dx0 dt s) = prj s + dt • ((1 / 6 : ℝ) •
      (rhsU P (prj s + dt • rhsU P (prj s + (dt / 2) • rhsU P (prj s + (dt / 2) •
          (rhsN P s.1 s.2.2.1, rhsO P s.1 s.2.1 s.2.2.1))))
        + (2 : ℝ) • rhsU P (prj s + (dt / 2) • rhsU P (prj s + (dt / 2) •
          (rhsN P s.1 s.2.2.1, rhsO P s.1 s.2.1 s.2.2.1)))
        + (2 : ℝ) • rhsU P (prj s + (dt / 2) • (rhsN P s.1 s.2.2.1, rhsO P s.1 s.2.1 s.2.2.1))
        + (rhsN P s.1 s.2.2.1, rhsO P s.1 s.2.1 s.2.2.1))) := by
  have e : prj (rk4S P dx0 dt s) =
      let g : Pair h w := (rhsN P s.1 s.2.2.1, rhsO P s.1 s.2.1 s.2.2.1)
      let k1 := dt • g
      let k2 := dt • rhsU P ((1 / 2 : ℝ) • k1 + prj s)
      let k3 := dt • rhsU P ((1 / 2 : ℝ) • k2 + prj s)
      let k4 := dt • rhsU P (k3 + prj s)
      (1 / 6 : ℝ) • (k4 + ((2 : ℝ) • k3 + ((2 : ℝ) • k2 + k1))) + prj s := by
    unfold rk4S
    rfl
  rw [e]
  generalize ((rhsN P s.1 s.2.2.1, rhsO P s.1 s.2.1 s.2.2.1) : Pair h w) = g
  generalize prj s = y
  have e2 : ∀ v : Pair h w, (1 / 2 : ℝ) • dt • v + y = y + (dt / 2) • v := fun v => by module
  have e3 : ∀ v : Pair h w, dt • v + y = y + dt • v := fun v => by module
  simp only [e2, e3]
  module

theorem rk4S_deriv (P : Params) (dx0 : ℝ) (s : Sta h w) :
    HasDerivAt (fun dt => prj (rk4S P dx0 dt s))
      ((1 / 6 : ℝ) • (rhsN P s.1 s.2.2.1, rhsO P s.1 s.2.1 s.2.2.1) + (5 / 6 : ℝ) • rhsU P (prj s)) 0 := by
  have hF : ContDiff ℝ 1 (rhsU P : Pair h w → Pair h w) := by
    rw [rhsU_eq]; exact ODE.contDiff_F _ _
  simp only [prj_rk4S_any]
  generalize ((rhsN P s.1 s.2.2.1, rhsO P s.1 s.2.1 s.2.2.1) : Pair h w) = g
  generalize prj s = y
  have g2 : ContDiff ℝ 1 fun dt : ℝ => rhsU P (y + (dt / 2) • g) :=
    hF.comp (contDiff_const.add ((contDiff_id.div_const 2).smul contDiff_const))
  have g3 : ContDiff ℝ 1 fun dt : ℝ => rhsU P (y + (dt / 2) • rhsU P (y + (dt / 2) • g)) :=
    hF.comp (contDiff_const.add ((contDiff_id.div_const 2).smul g2))
  have g4 : ContDiff ℝ 1 fun dt : ℝ =>
      rhsU P (y + dt • rhsU P (y + (dt / 2) • rhsU P (y + (dt / 2) • g))) :=
    hF.comp (contDiff_const.add (contDiff_id.smul g3))
  have hG := ((((g4.add (g3.const_smul (2 : ℝ))).add (g2.const_smul (2 : ℝ))).add
    (contDiff_const (c := g))).const_smul (1 / 6 : ℝ)).differentiable (by norm_num) 0
  have := ((hasDerivAt_id (0 : ℝ)).smul hG.hasDerivAt).const_add y
  refine this.congr_deriv ?_
  simp only [id, zero_smul, zero_add, one_smul, zero_div, add_zero]
  module

end stale

/-- **C77.** To first order in `dt` a `rk4_step` moves the density by one sixth of the right-hand side
with the *stored* potential and five sixths of the one with the computed potential. -/
theorem C77_stored_potential_weight (h0 : 0 < h) (w0 : 0 < w) (hb : Std hw.backend h w) (s : NS Val)
    (hs : IsState hw.TEST_CONSERVATION h w s) (c : Calls) :
    ∃ (R : ℝ → NS Val) (g g' : NS Val) (c1 c2 : Calls) (n n' : Arr ℝ),
      (∀ dt c, ∃ c', hw.rk4_step s dt dx c = .ok (R dt, c')) ∧
      hw.gradient_2d [("density", .arr (arrOf s "density")), ("omega", .arr (arrOf s "omega"))]
        (some (.arr (arrOf s "phi"))) 0 dx hw.zonal c = .ok (g, c1) ∧
      hw.gradient_2d [("density", .arr (arrOf s "density")), ("omega", .arr (arrOf s "omega"))]
        none 0 dx hw.zonal c = .ok (g', c2) ∧
      g.get? "density" = some (.arr n) ∧ g'.get? "density" = some (.arr n') ∧
      ∀ i j, i < h → j < w →
        HasDerivAt (fun dt => (arrOf (R dt) "density").at' i j) (1 / 6 * n.at' i j + 5 / 6 * n'.at' i j) 0 := by
  have : NeZero h := ⟨h0.ne'⟩
  have : NeZero w := ⟨w0.ne'⟩
  obtain ⟨ks, u, hk, hn, rfl⟩ := hs.exists_mk
  rw [arrOf_density hk, arrOf_omega hk, arrOf_phi hk]
  obtain ⟨g, c1, e, e1, -⟩ := gradient_2d_fields hw hb.good dx 0
    [("density", .arr (ofField u.1)), ("omega", .arr (ofField u.2.1))]
    (by simp [keys, reservedNames]) _ _ u.2.2.1 rfl rfl (.inl rfl) c
  obtain ⟨g', c2, e', e1', -⟩ := gradient_pair (dx := dx) hb.good (prj u) c
  refine ⟨fun dt => NS.mk (stepKeys ks) (st (rk4S (parOf hw dx) hw.dx dt u)), g, g', c1, c2, _, _,
    fun dt c => ⟨rk4Calls (parOf hw dx) hw.TEST_CONSERVATION c, ?_⟩, e, e', e1, e1', fun i j hi hj => ?_⟩
  · have q := rk4_step_mk hw.backend hb.good (parOf hw dx) hw.dx hw.k0 hw.TEST_CONSERVATION hk u dt c
    rw [← eq_mkHW] at q
    exact q
  · simp only [arrOf_density hk.step]
    have hd := hasDeriv_pair.1 ((rk4S_deriv (parOf hw dx) hw.dx u).hasDerivWithinAt (s := Set.univ))
      (i : ZMod h) (j : ZMod w)
    have hd1 := hasDerivWithinAt_univ.1 hd.1
    simp only [ofField_at' _ hi hj]
    exact hd1

example := C77_stored_potential_weight (hw := HW.init numpyBackend 1 3 1 (1 / 10) 1) (dx := 1) (by decide) (by decide)
  (.inl rfl) demoState demoState_isState {}

/-- a method started in any state, with a first step `prj s + dt · inc dt` of its own -/
theorem stale_global [NeZero h] [NeZero w] (P : Params) (dx0 : ℝ) (a : ℝ → Step) {T : ℝ} {Y : ℝ → Pair h w}
    (hY : ODE.Solves (ODE.F (linC P) (bilC P)) T Y) (G : ℝ → Pair h w → Pair h w)
    (hG : ∀ (dt : ℝ) (s : Sta h w), s.2.2.1 = phiF P.dx s.2.1 → prj (stepS P dx0 (a dt) s) = G dt (prj s))
    (hnear : ∃ C δ : ℝ, 0 ≤ C ∧ 0 < δ ∧ ∀ dt, 0 ≤ dt → dt ≤ δ → ∀ (t0 : ℝ) (z0 : Pair h w), 0 ≤ t0 →
      ‖z0 - Y t0‖ ≤ δ → ∀ k : ℕ, t0 + k * dt ≤ T →
      ‖(G dt)^[k] z0 - Y (t0 + k * dt)‖ ≤ C * (‖z0 - Y t0‖ + dt))
    (u : Sta h w) (e0 : prj u = Y 0) (inc : ℝ → Pair h w) (hinc : Continuous inc)
    (hfirst : ∀ dt, prj (stepS P dx0 (a dt) u) = prj u + dt • inc dt) :
    ∃ C dt0 : ℝ, 0 ≤ C ∧ 0 < dt0 ∧ ∀ dt, 0 ≤ dt → dt ≤ dt0 → ∀ k : ℕ, k * dt ≤ T →
      ‖prj (histS P dx0 (List.replicate k (a dt)) u) - Y (k * dt)‖ ≤ C * dt := by
  obtain ⟨C, δ, hC, hδ, H⟩ := hnear
  obtain ⟨M, hM⟩ := isCompact_Icc.bddAbove_image (hinc.continuousOn (s := Icc (0 : ℝ) 1)).norm
  have hM' : ∀ t ∈ Icc (0 : ℝ) 1, ‖inc t‖ ≤ M := fun t ht => hM (mem_image_of_mem _ ht)
  obtain ⟨C1, hC1, hl⟩ := ODE.euler_local _ _ hY
  have hM0 : 0 ≤ M := (norm_nonneg _).trans (hM' 0 ⟨le_rfl, zero_le_one⟩)
  set D := M + ‖ODE.F (linC P) (bilC P) (Y 0)‖ + C1 with hD
  have hD0 : 0 ≤ D := by positivity
  refine ⟨C * (D + 1), min δ (min 1 (δ / (D + 1))), by positivity, by positivity, fun dt hdt hle k hk => ?_⟩
  have l1 : dt ≤ δ := hle.trans (min_le_left _ _)
  have l2 : dt ≤ 1 := hle.trans ((min_le_right _ _).trans (min_le_left _ _))
  have l3 : dt ≤ δ / (D + 1) := hle.trans ((min_le_right _ _).trans (min_le_right _ _))
  cases k with
  | zero =>
    simp only [List.replicate_zero, histS, Nat.cast_zero, zero_mul, e0, sub_self, norm_zero]
    positivity
  | succ k =>
    push_cast at hk
    have hk1 : dt ≤ T := by nlinarith [mul_nonneg (Nat.cast_nonneg (α := ℝ) k) hdt]
    have hz : ‖prj (stepS P dx0 (a dt) u) - Y dt‖ ≤ D * dt := by
      have h1 := hl 0 dt le_rfl hdt (by linarith)
      rw [zero_add] at h1
      have e : prj (stepS P dx0 (a dt) u) - Y dt
          = dt • inc dt - dt • ODE.F (linC P) (bilC P) (Y 0)
            + (ODE.euler (ODE.F (linC P) (bilC P)) dt (Y 0) - Y dt) := by
        rw [hfirst, e0]; unfold ODE.euler; abel
      have h2 : ‖dt • inc dt‖ ≤ dt * M := by
        rw [norm_smul, Real.norm_of_nonneg hdt]
        exact mul_le_mul_of_nonneg_left (hM' dt ⟨hdt, l2⟩) hdt
      have h3 : ‖dt • ODE.F (linC P) (bilC P) (Y 0)‖ = dt * ‖ODE.F (linC P) (bilC P) (Y 0)‖ := by
        rw [norm_smul, Real.norm_of_nonneg hdt]
      have h4 := norm_sub_le (dt • inc dt) (dt • ODE.F (linC P) (bilC P) (Y 0))
      have h5 := norm_add_le (dt • inc dt - dt • ODE.F (linC P) (bilC P) (Y 0))
        (ODE.euler (ODE.F (linC P) (bilC P)) dt (Y 0) - Y dt)
      have h6 : C1 * dt ^ 2 ≤ C1 * dt := mul_le_mul_of_nonneg_left (by nlinarith) hC1
      rw [e, hD]
      nlinarith
    have hz' : ‖prj (stepS P dx0 (a dt) u) - Y dt‖ ≤ δ := by
      refine hz.trans ?_
      rw [le_div_iff₀ (by positivity)] at l3
      nlinarith
    have := H dt hdt l1 dt _ hdt hz' k (by linarith)
    rw [List.replicate_succ]
    show ‖prj (histS P dx0 (List.replicate k (a dt)) (stepS P dx0 (a dt) u)) - _‖ ≤ _
    rw [histS_replicate P dx0 _ (G dt) (hG dt) k _ (stepS_phi P dx0 _ u)]
    have et : ((k + 1 : ℕ) : ℝ) * dt = dt + k * dt := by push_cast; ring
    rw [et]
    refine this.trans ?_
    rw [mul_assoc]
    exact mul_le_mul_of_nonneg_left (by linarith) hC

/-- **C77 (what holds).** Whatever potential is stored in the first state, the time steppers still converge
to the exact solution for its density and vorticity, with error at most `C dt`. -/
theorem C77_converges_anyway_partial (h0 : 0 < h) (w0 : 0 < w) (hb : Std hw.backend h w) (s : NS Val)
    (hs : IsState hw.TEST_CONSERVATION h w s) (T : ℝ) (hT : 0 ≤ T) :
    ∃ N O : ℝ → Arr ℝ, N 0 = arrOf s "density" ∧ O 0 = arrOf s "omega" ∧ ExactSolution hw dx h w T N O ∧
      ∃ C dt0, 0 ≤ C ∧ 0 < dt0 ∧ ∀ dt, 0 ≤ dt → dt ≤ dt0 → ∀ k : ℕ, k * dt ≤ T →
        ∀ step, step = Step.rk4 ∨ step = Step.euler → ∀ c,
        ∃ s' c', history hw dx (List.replicate k (step dt)) s c = .ok (s', c') ∧
          Within h w s' (N (k * dt)) (O (k * dt)) (C * dt) := by
  have : NeZero h := ⟨h0.ne'⟩
  have : NeZero w := ⟨w0.ne'⟩
  obtain ⟨ks, u, hks, hn, rfl⟩ := hs.exists_mk
  rw [arrOf_density hks, arrOf_omega hks]
  obtain ⟨N, O, i1, i2, H, -⟩ := C34_exact_solution_exists (hw := hw) (dx := dx) h0 w0 hb (ofField u.1)
    (ofField u.2.1) ⟨rfl, rfl⟩ ⟨rfl, rfl⟩ T hT
  refine ⟨N, O, i1, i2, H, ?_⟩
  have hY := ((exact_iff hb.good).1 H).2.2
  have e0 : prj u = pairOf (N 0) (O 0) := by
    rw [i1, i2]; unfold pairOf; rw [toFld_ofField, toFld_ofField]; rfl
  have hF : Continuous (rhsU (parOf hw dx) : Pair h w → Pair h w) := by
    rw [rhsU_eq]; exact (ODE.contDiff_F _ _).continuous
  obtain ⟨C1, d1, hC1, hd1, H1⟩ := stale_global (parOf hw dx) hw.dx .rk4 hY _
    (fun dt s hs => stepS_rk4_prj _ _ _ _ hs)
    (by
      obtain ⟨C, δ, hC, hδ, H⟩ := ODE.rk4_near _ _ hT hY
      refine ⟨C, min δ 1, hC, lt_min hδ one_pos, fun dt hdt hle t0 z0 ht0 hz k hk => ?_⟩
      refine (H dt hdt (hle.trans (min_le_left _ _)) t0 z0 ht0 (hz.trans (min_le_left _ _)) k hk).trans ?_
      have : dt ^ 4 ≤ dt := pow_le_of_le_one hdt (hle.trans (min_le_right _ _)) (by norm_num)
      exact mul_le_mul_of_nonneg_left (by linarith) hC)
    u e0 (fun dt => (1 / 6 : ℝ) •
      (rhsU (parOf hw dx) (prj u + dt • rhsU (parOf hw dx) (prj u + (dt / 2) • rhsU (parOf hw dx) (prj u + (dt / 2) •
          (rhsN (parOf hw dx) u.1 u.2.2.1, rhsO (parOf hw dx) u.1 u.2.1 u.2.2.1))))
        + (2 : ℝ) • rhsU (parOf hw dx) (prj u + (dt / 2) • rhsU (parOf hw dx) (prj u + (dt / 2) •
          (rhsN (parOf hw dx) u.1 u.2.2.1, rhsO (parOf hw dx) u.1 u.2.1 u.2.2.1)))
        + (2 : ℝ) • rhsU (parOf hw dx) (prj u + (dt / 2) •
          (rhsN (parOf hw dx) u.1 u.2.2.1, rhsO (parOf hw dx) u.1 u.2.1 u.2.2.1))
        + (rhsN (parOf hw dx) u.1 u.2.2.1, rhsO (parOf hw dx) u.1 u.2.1 u.2.2.1)))
    (by fun_prop)
    (fun dt => prj_rk4S_any _ _ _ _)
  obtain ⟨C2, d2, hC2, hd2, H2⟩ := stale_global (parOf hw dx) hw.dx .euler hY _
    (fun dt s hs => stepS_euler_prj _ _ _ _ hs) (ODE.euler_near _ _ hT hY) u e0
    (fun _ => (rhsN (parOf hw dx) u.1 u.2.2.1, rhsO (parOf hw dx) u.1 u.2.1 u.2.2.1)) continuous_const
    (fun dt => by rw [add_comm]; rfl)
  refine ⟨max C1 C2, min d1 d2, le_max_of_le_left hC1, lt_min hd1 hd2, fun dt hdt hd k hk step hstep c => ?_⟩
  refine ⟨_, _, history_eval hw dx hb.good hks _ u c, within_of_norm (goodKeys_hist _ hks) _ _ _ ?_⟩
  rcases hstep with rfl | rfl
  · exact (H1 dt hdt (hd.trans (min_le_left _ _)) k hk).trans
      (mul_le_mul_of_nonneg_right (le_max_left _ _) hdt)
  · exact (H2 dt hdt (hd.trans (min_le_right _ _)) k hk).trans
      (mul_le_mul_of_nonneg_right (le_max_right _ _) hdt)

example := C77_converges_anyway_partial (hw := HW.init numpyBackend 1 3 1 (1 / 10) 1) (dx := 1) (by decide)
  (by decide) (.inl rfl) demoState demoState_isState 10 (by norm_num)

/-- a state with zero density and vorticity and a potential of mean zero -/
noncomputable def stale (p : ℝ) : NS Val :=
  [("density", .arr (tab 4 5 fun _ _ => (0 : ℝ))), ("omega", .arr (tab 4 5 fun _ _ => 0)),
   ("phi", .arr (tab 4 5 fun i j => if j = 0 then (if i = 0 then p else if i = 2 then -p else 0) else 0)),
   ("age", .num 0)]

theorem stale_isState (p : ℝ) : IsState true 4 5 (stale p) where
  nodup := show ["density", "omega", "phi", "age"].Nodup by decide
  keys := show ∀ k ∈ ["density", "omega", "phi", "age"], _ by decide
  density := ⟨_, rfl, rfl, rfl⟩
  omega := ⟨_, rfl, rfl, rfl⟩
  phi := ⟨_, rfl, rfl, rfl⟩
  age := ⟨_, rfl⟩
  dE v e := by
    have : (stale p).get? "dE" = none := rfl
    rw [this] at e; cases e
  dU v e := by
    have : (stale p).get? "dU" = none := rfl
    rw [this] at e; cases e

/-- **C77 is violated.** Starting from a potential that does not belong to the vorticity
the next density depends on it, and the first step is not even second-order accurate. -/
theorem C77_cache_violated :
    ∃ (hw : HW) (dx : ℝ) (N O : ℝ → Arr ℝ), ExactSolution hw dx 4 5 1 N O ∧ hw.TEST_CONSERVATION = true ∧
      arrOf (stale 1) "density" = N 0 ∧ arrOf (stale 1) "omega" = O 0 ∧ amean (arrOf (stale 1) "phi") = 0 ∧
      ∀ C dt0 : ℝ, 0 < dt0 → ∃ dt, 0 < dt ∧ dt ≤ dt0 ∧ ∀ c s' c',
        hw.rk4_step (stale 1) dt dx c = .ok (s', c') → ¬ Within 4 5 s' (N dt) (O dt) (C * dt ^ 2) := by
  refine ⟨HW.init numpyBackend 1 3 1 (1 / 10) 1, 1, fun _ => tab 4 5 fun _ _ => 0, fun _ => tab 4 5 fun _ _ => 0,
    ?_, rfl, rfl, rfl, ?_, ?_⟩
  · refine (exact_iff (h := 4) (w := 5) (Std.good (.inl rfl))).2 ⟨fun _ => ⟨rfl, rfl⟩, fun _ => ⟨rfl, rfl⟩, fun t _ => ?_⟩
    have e0 : (pairOf (tab 4 5 fun _ _ => (0 : ℝ)) (tab 4 5 fun _ _ => 0) : Pair 4 5) = 0 := by
      refine Prod.ext ?_ ?_ <;>
      · funext i j
        exact tab_at' _ _ _ (ZMod.val_lt i) (ZMod.val_lt j)
    simp only [e0]
    refine (hasDerivWithinAt_const t (Icc 0 1) (0 : Pair 4 5)).congr_deriv ?_
    unfold ODE.F
    simp only [map_zero, add_zero]
  · have : arrOf (stale 1) "phi" = tab 4 5 fun i j => if j = 0 then (if i = 0 then 1 else if i = 2 then -1 else 0) else 0 := rfl
    rw [this]
    unfold amean Spec.mean
    have : ∀ m ∈ Finset.range 4, ∀ n ∈ Finset.range 5,
        (tab 4 5 fun i j => if j = 0 then (if i = 0 then (1 : ℝ) else if i = 2 then -1 else 0) else 0).at' m n
          = if n = 0 then (if m = 0 then 1 else if m = 2 then -1 else 0) else 0 := by
      intro m hm n hn
      rw [tab_at' _ _ _ (Finset.mem_range.mp hm) (Finset.mem_range.mp hn)]
    change (∑ m ∈ Finset.range 4, ∑ n ∈ Finset.range 5, _) / _ = _
    rw [Finset.sum_congr rfl fun m hm => Finset.sum_congr rfl (this m hm)]
    simp [Finset.sum_range_succ]
  · intro C dt0 hdt0
    obtain ⟨R, g, g', c1, c2, n, n', hR, e, e', en, en', hd⟩ :=
      C77_stored_potential_weight (hw := HW.init numpyBackend 1 3 1 (1 / 10) 1) (dx := 1) (h := 4) (w := 5)
        (by decide) (by decide) (.inl rfl) (stale 1) (stale_isState 1) {}
    have hd0 := hd 0 0 (by decide) (by decide)
    have hgood : (HW.init numpyBackend 1 3 1 (1 / 10) 1).backend.Good 4 5 := Std.good (.inl rfl)
    have e0 : tab 4 5 (fun _ _ => (0 : ℝ)) = ofField (0 : Fld 4 5) := rfl
    set pf : Fld 4 5 := fun i j => if j.val = 0 then (if i.val = 0 then 1 else if i.val = 2 then -1 else 0) else 0
      with hpf
    have ep : arrOf (stale 1) "phi" = ofField pf := by
      show tab 4 5 (fun i j => if j = 0 then (if i = 0 then (1 : ℝ) else if i = 2 then -1 else 0) else 0) = _
      refine tab_congr rfl rfl fun i j hi hj => ?_
      simp only [hpf, ZMod.val_natCast, Nat.mod_eq_of_lt hi, Nat.mod_eq_of_lt hj]
    have ed : arrOf (stale 1) "density" = ofField (0 : Fld 4 5) := rfl
    have eo : arrOf (stale 1) "omega" = ofField (0 : Fld 4 5) := rfl
    rw [ed, eo] at e e'
    rw [ep] at e
    have zlap : (lap (h := 4) (w := 5) (1 : ℝ))^[3] 0 = 0 := by
      have := lapN_smul (h := 4) (w := 5) 1 0 3 0
      simpa using this
    have v1 : n.at' 0 0 = 1 := by
      obtain ⟨g0, c0, q, q1, -⟩ := gradient_2d_fields (HW.init numpyBackend 1 3 1 (1 / 10) 1) hgood 1 0
        [("density", .arr (ofField (0 : Fld 4 5))), ("omega", .arr (ofField (0 : Fld 4 5)))]
        (by simp [keys, reservedNames]) _ _ pf rfl rfl (.inl rfl) {}
      rw [e] at q
      injection q with q
      injection q with q _
      subst q
      rw [en] at q1
      have q2 : n = _ := Val.arr.inj (Option.some.inj q1)
      rw [q2, ofField_at' _ (by decide) (by decide)]
      simp [rhsN, couple, gradY, jac, hyper, parOf, HW.init, hpf, zlap,
        show (1 : ZMod 4) ≠ 0 by decide, show (1 : ZMod 4).val = 1 from rfl]
    have v2 : n'.at' 0 0 = 0 := by
      obtain ⟨g0, c0, q, q1, -⟩ := gradient_pair (hw := HW.init numpyBackend 1 3 1 (1 / 10) 1) (dx := 1) hgood
        (0 : Pair 4 5) {}
      have q := (e'.symm.trans q)
      injection q with q
      injection q with q _
      subst q
      rw [en'] at q1
      have q2 : n' = _ := Val.arr.inj (Option.some.inj q1)
      rw [q2, rhsU_eq, ofField_at' _ (by decide) (by decide)]
      simp [ODE.F]
    rw [v1, v2] at hd0
    by_contra hcon
    push Not at hcon
    have hle : ∀ dt, 0 < dt → dt ≤ dt0 → |(arrOf (R dt) "density").at' 0 0| ≤ C * dt ^ 2 := by
      intro dt h1 h2
      obtain ⟨c, s', c', q, hW⟩ := hcon dt h1 h2
      obtain ⟨c'', q'⟩ := hR dt c
      rw [q] at q'
      injection q' with q'
      injection q' with q' _
      subst q'
      have := (hW 0 0 (by decide) (by decide)).1
      rwa [tab_at' _ _ _ (by decide) (by decide), sub_zero] at this
    set f : ℝ → ℝ := fun dt => (arrOf (R dt) "density").at' 0 0 with hf
    have hsq : Filter.Tendsto (fun dt : ℝ => C * dt ^ 2) (nhdsWithin 0 (Ioi 0)) (nhds 0) := by
      have : Filter.Tendsto (fun dt : ℝ => C * dt ^ 2) (nhds 0) (nhds (C * 0 ^ 2)) :=
        Continuous.tendsto (by fun_prop) 0
      simp only [ne_eq, OfNat.ofNat_ne_zero, not_false_eq_true, zero_pow, mul_zero] at this
      exact this.mono_left nhdsWithin_le_nhds
    have hev : ∀ᶠ dt in nhdsWithin (0 : ℝ) (Ioi 0), 0 < dt ∧ dt ≤ dt0 :=
      Filter.mem_of_superset (Ioc_mem_nhdsGT hdt0) fun x hx => hx
    have f0 : f 0 = 0 := by
      have t1 : Filter.Tendsto f (nhdsWithin 0 (Ioi 0)) (nhds (f 0)) :=
        hd0.continuousAt.tendsto.mono_left nhdsWithin_le_nhds
      have t2 : Filter.Tendsto f (nhdsWithin 0 (Ioi 0)) (nhds 0) :=
        squeeze_zero_norm' (hev.mono fun dt hdt => hle dt hdt.1 hdt.2) hsq
      exact tendsto_nhds_unique t1 t2
    have t3 : Filter.Tendsto (fun dt : ℝ => dt⁻¹ * f dt) (nhdsWithin 0 (Ioi 0)) (nhds (1 / 6 * 1 + 5 / 6 * 0)) := by
      have := (hasDerivWithinAt_iff_tendsto_slope' (by simp)).1 (hd0.hasDerivWithinAt (s := Ioi 0))
      refine this.congr fun dt => ?_
      rw [slope_def_field, f0, sub_zero, sub_zero, div_eq_inv_mul]
    have t4 : Filter.Tendsto (fun dt : ℝ => dt⁻¹ * f dt) (nhdsWithin 0 (Ioi 0)) (nhds 0) := by
      have hl : Filter.Tendsto (fun dt : ℝ => C * dt) (nhdsWithin 0 (Ioi 0)) (nhds 0) := by
        have : Filter.Tendsto (fun dt : ℝ => C * dt) (nhds 0) (nhds (C * 0)) :=
          Continuous.tendsto (by fun_prop) 0
        rw [mul_zero] at this
        exact this.mono_left nhdsWithin_le_nhds
      refine squeeze_zero_norm' (hev.mono fun dt hdt => ?_) hl
      rw [norm_mul, norm_inv, Real.norm_of_nonneg hdt.1.le, inv_mul_le_iff₀ hdt.1]
      calc ‖f dt‖ ≤ C * dt ^ 2 := hle dt hdt.1 hdt.2
        _ = dt * (C * dt) := by ring
    have := tendsto_nhds_unique t3 t4
    norm_num at this

example := C34_exact_solution_exists (hw := HW.init numpyBackend 1 3 1 (1 / 10) 1) (dx := 1) (h := 4) (w := 5) (by decide) (by decide)
  (.inl rfl) (tab 4 5 fun i j => (i * i + 3 * j : ℝ)) (tab 4 5 fun i j => (i - 2 * j : ℝ)) ⟨rfl, rfl⟩ ⟨rfl, rfl⟩ 100 (by norm_num)

example : ∃ (N O : ℝ → Arr ℝ) (C : ℝ), ExactSolution (HW.init numpyBackend 1 3 1 (1 / 10) 1) 1 4 5 100 N O ∧
    N 0 = tab 4 5 (fun i j => (i * i + 3 * j : ℝ)) ∧ ∀ t dt, 0 ≤ t → 0 ≤ dt → t + dt ≤ 100 →
      ∀ s, IsState true 4 5 s → Consistent (HW.init numpyBackend 1 3 1 (1 / 10) 1) 1 s →
        arrOf s "density" = N t → arrOf s "omega" = O t → ∀ c,
        ∃ s' c', (HW.init numpyBackend 1 3 1 (1 / 10) 1).euler_step s dt 1 c = .ok (s', c') ∧
          Within 4 5 s' (N (t + dt)) (O (t + dt)) (C * dt ^ 2) := by
  obtain ⟨N, O, h1, -, H, -⟩ := C34_exact_solution_exists (hw := HW.init numpyBackend 1 3 1 (1 / 10) 1) (dx := 1) (h := 4) (w := 5)
    (by decide) (by decide) (.inl rfl) (tab 4 5 fun i j => (i * i + 3 * j : ℝ)) (tab 4 5 fun i j => (i - 2 * j : ℝ)) ⟨rfl, rfl⟩
    ⟨rfl, rfl⟩ 100 (by norm_num)
  obtain ⟨C, -, hC⟩ := C34_euler_local_error (by decide) (by decide) (.inl rfl) H
  exact ⟨N, O, C, H, h1, hC⟩

end Verif.Props
