import Verif.Model.RunGen
import Verif.Spec.RoundedOps
import Verif.Props.FloatPDE
import Verif.Props.RunPDE

/-!
# Property theorem C134: the file of a floating-point run, compared with the equations

C44 (what `run` writes), C108 (floating-point steps against the partial differential equations) and the rounding
of the stored arrays together.
-/

set_option linter.unusedSectionVars false

namespace Verif.Props

open H5IO H5 Run Arr Spec Set Rounding

section general
variable {u : ℝ} {R : Rounded u}

/-- A call of `run` that creates a file, with numbers of the arithmetic `R`.  The simulation object is the one of
`model.py` evaluated with `A`.  The arguments describe the equations with the coefficients of `P` on an `m × m` grid
of the box `[0, L]²`; the initial density and vorticity are the samples of `F` and `G` up to the error `e` relative
to `1 + |F|` and `1 + |G|` (any initial potential); every field is recorded in full resolution from the start. -/
structure FloatPoses {β : Type} (E : Env (Rd R) β) (A : Gen.Arith (Rd R)) (a : Args (Rd R)) (σ : St (Rd R) β) (P : Params)
    (L : ℝ) (F G : ℝ → ℝ → ℝ) (e : ℝ) (m : ℕ) : Prop where
  /-- the simulation is the one of `model.py` -/
  sim : E.HW = Gen.hwOf A E.attrNum
  attr : ∀ x, E.attrNum (.num x) = x
  /-- without overflow there are no NaNs -/
  nan : ∀ v, E.hasNaN v = false
  grid : a.grid_pts = m
  spacing : m * a.dx.val = L
  order : a.N = P.N
  c1 : a.c1.val = P.c1
  nu : a.nu.val = P.nu
  bracket : a.poisson_bracket_coeff.val = P.pb
  kappa : a.kappa_coeff.val = P.kappa
  zonal : P.zonal = false
  density : ∃ X : Arr (Rd R), a.density0 = .arr X ∧ X.h = m ∧ X.w = m ∧ ∀ i j, i < m → j < m →
    |(X.at' i j).val - F (i * a.dx.val) (j * a.dx.val)| ≤ e * (1 + |F (i * a.dx.val) (j * a.dx.val)|)
  omega : ∃ X : Arr (Rd R), a.omega0 = .arr X ∧ X.h = m ∧ X.w = m ∧ ∀ i j, i < m → j < m →
    |(X.at' i j).val - G (i * a.dx.val) (j * a.dx.val)| ≤ e * (1 + |G (i * a.dx.val) (j * a.dx.val)|)
  phi : ∃ X : Arr (Rd R), a.phi0 = .arr X ∧ X.h = m ∧ X.w = m
  path : a.output_path ≠ ""
  fresh : σ.fs a.output_path = none ∨ a.force_recompute = true
  buffer : 1 ≤ a.buffer_length
  snaps : 1 ≤ a.snaps
  step : 0 < a.step_size.val
  full : a.downsample_factor.val = 1
  start : a.recording_start_time.val = 0
  props : a.properties = []

/-- number of steps: `int((end_time - 0) / step_size)` -/
noncomputable def floatSteps (a : Args (Rd R)) : ℕ := (truncZ (R.div (R.sub a.end_time.val 0) a.step_size.val)).toNat

theorem signed_nu (b : Backend) (dx0 c1 nu k0 pb ka : ℝ) (N : ℕ) (zonal test : Bool) :
    (⟨(HW.init b dx0 N c1 nu k0 pb ka zonal test).nu⟩ : Rd R) = Gen.signed N ⟨nu⟩ := by
  unfold Gen.signed
  simp only [HW.init]
  split
  · rename_i h
    rw [(Nat.even_iff.2 h).neg_one_pow, one_mul]
  · rename_i h
    rw [Odd.neg_one_pow (Nat.not_even_iff_odd.1 fun q => h (Nat.even_iff.1 q)), neg_one_mul]
    rfl

theorem Accurate.mono {A : Gen.Arith (Rd R)} {b : Backend} {η η' : ℝ} {h w : ℕ} {dx : Rd R} (h0 : 0 < h) (w0 : 0 < w)
    (hA : Accurate A b η h w dx) (hle : η ≤ η') : Accurate A b η' h w dx := by
  have key : ∀ (a : Arr (Rd R)) M, Bounded h w a M → η * M ≤ η' * M := fun a M ha =>
    mul_le_mul_of_nonneg_right hle ((abs_nonneg _).trans (ha.2.2 0 0 h0 w0))
  refine { hA with mean := fun a M ha => (hA.mean a M ha).trans (key a M ha), meanRows := fun a M ha => ?_, solver := fun a M ha => ?_ }
  · obtain ⟨h1, h2, h3⟩ := hA.meanRows a M ha
    exact ⟨h1, h2, fun j hj => (h3 j hj).trans (key a M ha)⟩
  · obtain ⟨r, e, h1, h2, h3, h4, h5⟩ := hA.solver a M ha
    exact ⟨r, e, h1, h2, h3, h4, fun i j hi hj => (h5 i j hi hj).trans (key a M ha)⟩

/-- a state of `run` -/
def cellsOf (x : Gen.State (Rd R)) (t : Rd R) : NS (Cell (Rd R)) :=
  [("density", .arr x.density), ("omega", .arr x.omega), ("age", .num t), ("phi", .arr x.phi)]

end general

section fields
variable {h w : ℕ} [NeZero h] [NeZero w] {dx : ℝ}

open Gen in
/-- The potential computed from a vorticity close to `o`. -/
theorem float_phi {b : Backend} (hb : Std b h w) (o : Fld h w) (κ : ℝ) (hκ : 0 ≤ κ) : ∃ K, 0 ≤ K ∧
    ∀ (u : ℝ) (R : Rounded u) (A : Gen.Arith (Rd R)) (η : ℝ), 0 ≤ u → 0 ≤ η → 28 * (u + η) ≤ 1 →
    Accurate A b η h w ⟨dx⟩ → ∀ y : F (Rd R) h w, (∀ i j, |ex y i j - o i j| ≤ κ * (u + η)) →
    ∀ i j, |ex (phiG (faOf A h w ⟨dx⟩) y) i j - phiF dx o i j| ≤ K * (u + η) := by
  obtain ⟨E, hE1, hE2⟩ := solver_exists hb dx
  have H : AccF (fun (m : Mach h w dx 0 E) (z : Fld h w) => phiG m.a (inj m.R z)) (fun z => phiG (exFa E) z) :=
    AccF.phi (o := fun m z => inj m.R z) (oG := fun z => z) (Accurate.Acc.exact contDiff_id fun _ _ => rfl)
  obtain ⟨C, hC, hc⟩ := H.err (‖o‖ + κ)
  have : ProperSpace (Fld h w) := FiniteDimensional.proper ℝ _
  obtain ⟨K, hK⟩ := (H.smooth.locallyLipschitz.locallyLipschitzOn
    (s := Metric.closedBall (0 : Fld h w) (‖o‖ + κ))).exists_lipschitzOnWith_of_compact (isCompact_closedBall _ _)
  refine ⟨C + K * κ, by positivity, fun u R A η u0 η0 hs hA y hy i j => ?_⟩
  have p0 : 0 ≤ u + η := by linarith
  have hy' : ‖ex y - o‖ ≤ κ * (u + η) := Fld.norm_le (by positivity) fun i j => hy i j
  have hyn : ‖ex y‖ ≤ ‖o‖ + κ := by
    have e : ex y = o + (ex y - o) := by abel
    rw [e]
    refine (norm_add_le _ _).trans (by gcongr; nlinarith)
  have e1 := hc (hA.mach hE1 0 u0 η0 (by linarith) (by linarith) (by norm_num)) (ex y) hyn
  have e2 := hK.dist_le_mul (ex y) (by simpa using hyn) o (by simpa using hκ)
  rw [dist_eq_norm, dist_eq_norm] at e2
  have e3 : phiG (exFa E) o = phiF dx o := hE2 o
  rw [e3] at e2
  have e4 : ‖ex (phiG (faOf A h w ⟨dx⟩) y) - phiG (exFa E) (ex y)‖ ≤ C * (u + η) := e1
  have e5 : ‖ex (phiG (faOf A h w ⟨dx⟩) y) - phiF dx o‖ ≤ (C + K * κ) * (u + η) := by
    refine (norm_sub_le_norm_sub_add_norm_sub _ (phiG (exFa E) (ex y)) _).trans ?_
    have := mul_le_mul_of_nonneg_left hy' K.2
    calc _ ≤ C * (u + η) + K * (κ * (u + η)) := add_le_add e4 (e2.trans this)
      _ = _ := by ring
  exact (Fld.le_norm _ i j).trans e5

open Gen in
/-- the states of a floating-point simulation -/
theorem float_states {u : ℝ} {R : Rounded u} {A : Gen.Arith (Rd R)} {b : Backend} {η : ℝ} {hw : HW} (hA : Accurate A b η h w ⟨dx⟩)
    (dt : ℝ) (x0 : Gen.State (Rd R)) (d : x0.density.h = h ∧ x0.density.w = w) (o : x0.omega.h = h ∧ x0.omega.w = w)
    (p : x0.phi.h = h ∧ x0.phi.w = w) : ∃ x : ℕ → Gen.State (Rd R), x 0 = x0 ∧
      (∀ k, ((x k).density.h = h ∧ (x k).density.w = w) ∧ ((x k).omega.h = h ∧ (x k).omega.w = w) ∧
        ((x k).phi.h = h ∧ (x k).phi.w = w)) ∧
      (∀ k, Gen.rk4_step A (machineCoeffs R hw) (x k) ⟨dt⟩ ⟨dx⟩ = .ok (x (k + 1))) ∧
      ∀ k, Gen.iterate (floatStep A hw dx (.rk4 dt)) k x0 = .ok (x k) := by
  let nxt : (F (Rd R) h w × F (Rd R) h w) × F (Rd R) h w → (F (Rd R) h w × F (Rd R) h w) × F (Rd R) h w :=
    fun z => (fsOf (faOf A h w ⟨dx⟩) hw dx (.rk4 dt) z.1 z.2,
      phiG (faOf A h w ⟨dx⟩) (fsOf (faOf A h w ⟨dx⟩) hw dx (.rk4 dt) z.1 z.2).2)
  let z0 : (F (Rd R) h w × F (Rd R) h w) × F (Rd R) h w :=
    ((fun i j => x0.density.at' i.val j.val, fun i j => x0.omega.at' i.val j.val), fun i j => x0.phi.at' i.val j.val)
  have e0 : ofF z0.1 z0.2 = x0 := by
    unfold ofF
    simp only [z0]
    rw [ofField_vals d.1 d.2, ofField_vals o.1 o.2, ofField_vals p.1 p.2]
  have hst : ∀ k, floatStep A hw dx (.rk4 dt) (ofF (nxt^[k] z0).1 (nxt^[k] z0).2)
      = .ok (ofF (nxt^[k + 1] z0).1 (nxt^[k + 1] z0).2) := fun k => by
    rw [floatStep_ofF hA, Function.iterate_succ_apply']
  refine ⟨fun k => ofF (nxt^[k] z0).1 (nxt^[k] z0).2, e0, fun k => ⟨⟨rfl, rfl⟩, ⟨rfl, rfl⟩, rfl, rfl⟩, hst, fun k => ?_⟩
  have := iterate_ofF (y := fun j => (nxt^[j] z0).1) (p := fun j => (nxt^[j] z0).2) hst k 0
  rw [zero_add] at this
  rw [← e0]
  exact this

end fields

section fresh
variable {u : ℝ} {R : Rounded u} {β : Type} [Casts (Rd R) β] [Inhabited β]

/-- the coefficients of the simulation object, exactly -/
noncomputable def poseHW (b : Backend) (dx : ℝ) (P : Params) : HW := HW.init b dx P.N P.c1 P.nu 1 P.pb P.kappa P.zonal true

theorem hwOf_pose {E : Env (Rd R) β} {A : Gen.Arith (Rd R)} {a : Args (Rd R)} {σ : St (Rd R) β} {P : Params} {L : ℝ}
    {F G : ℝ → ℝ → ℝ} {e : ℝ} {m : ℕ} (H : FloatPoses E A a σ P L F G e m) (b : Backend) (dx : ℝ) :
    E.HW a.physics = .ok (Gen.solver A (machineCoeffs R (poseHW b dx P))) := by
  rw [H.sim]
  have e1 : Gen.hwOf A E.attrNum a.physics = .ok (Gen.solver A
    { N := a.N
      c1 := E.attrNum (.num a.c1)
      nu := Gen.signed a.N (E.attrNum (.num a.nu))
      poisson_bracket_coeff := E.attrNum (.num a.poisson_bracket_coeff)
      kappa_coeff := E.attrNum (.num a.kappa_coeff)
      zonal := false }) := rfl
  rw [e1]
  unfold machineCoeffs
  simp only [H.attr, poseHW, signed_nu]
  simp only [HW.init, ← H.c1, ← H.bracket, ← H.kappa, H.zonal, ← H.nu, H.order]

/-- Every such call is a `FreshRun` which does all its steps. -/
theorem fresh_float {E : Env (Rd R) β} {A : Gen.Arith (Rd R)} {a : Args (Rd R)} {σ : St (Rd R) β} {P : Params} {L : ℝ}
    {F G : ℝ → ℝ → ℝ} {e : ℝ} {m : ℕ} (H : FloatPoses E A a σ P L F G e m) (hm : 0 < m) {b : Backend} {η : ℝ}
    (hA : Accurate A b η m m a.dx) {X Y : Arr (Rd R)} (hX : a.density0 = .arr X) (hX' : X.h = m ∧ X.w = m)
    (hY : a.omega0 = .arr Y) (hY' : Y.h = m ∧ Y.w = m) {Z : Arr (Rd R)} (hZ : Gen.get_phi A Y a.dx = .ok Z)
    (hZ' : Z.h = m ∧ Z.w = m) :
    ∃ (x : ℕ → Gen.State (Rd R)) (S : ℕ → NS (Cell (Rd R))),
      (∀ k, Gen.iterate (floatStep A (poseHW b a.dx.val P) a.dx.val (.rk4 a.step_size.val)) k ⟨X, Y, Z⟩ = .ok (x k)) ∧
      (∀ k, (S k).get? "density" = some (.arr (x k).density) ∧ (S k).get? "omega" = some (.arr (x k).omega) ∧
        (S k).get? "phi" = some (.arr (x k).phi)) ∧
      (∀ M, Trajectory (Gen.solver A (machineCoeffs R (poseHW b a.dx.val P))) a.step_size a.dx M S) ∧
      (∀ k, 1 ≤ k → Shaped a.grid_pts (S k)) ∧
      FreshRun E a σ (Gen.solver A (machineCoeffs R (poseHW b a.dx.val P))) m
        (truncZ (R.div (R.sub a.end_time.val 0) a.step_size.val)) (floatSteps a) S := by
  have : NeZero m := ⟨hm.ne'⟩
  obtain ⟨x, x0, x1, x2, x3⟩ := float_states (hw := poseHW b a.dx.val P) (dx := a.dx.val) hA a.step_size.val ⟨X, Y, Z⟩ hX' hY' hZ'
  obtain ⟨V, hV, hV'⟩ := H.phi
  let age : ℕ → Rd R := fun k => (fun t => t + a.step_size)^[k] (FloatOps.ofInt 0)
  let S : ℕ → NS (Cell (Rd R)) := fun k => match k with
    | 0 => [("density", .arr X), ("omega", .arr Y), ("phi", .arr Z), ("age", .num (FloatOps.ofInt 0))]
    | k + 1 => cellsOf (x (k + 1)) (age (k + 1))
  have hS : ∀ k, (S k).get? "density" = some (.arr (x k).density) ∧ (S k).get? "omega" = some (.arr (x k).omega) ∧
      (S k).get? "phi" = some (.arr (x k).phi) ∧ (S k).get? "age" = some (.num (age k)) := by
    intro k
    cases k with
    | zero => rw [x0]; exact ⟨rfl, rfl, rfl, rfl⟩
    | succ k => exact ⟨rfl, rfl, rfl, rfl⟩
  have htraj : ∀ M, Trajectory (Gen.solver A (machineCoeffs R (poseHW b a.dx.val P))) a.step_size a.dx M S := by
    intro _ k _
    obtain ⟨s1, s2, s3, s4⟩ := hS k
    simp only [Gen.solver, s1, s2, s3, s4]
    have := x2 k
    rw [show (⟨(x k).density, (x k).omega, (x k).phi⟩ : Gen.State (Rd R)) = x k from rfl,
      show a.step_size = ⟨a.step_size.val⟩ from rfl, show a.dx = ⟨a.dx.val⟩ from rfl, this, Py.ok_bind]
    simp only [S, cellsOf, age, Function.iterate_succ_apply']
    rfl
  have hshaped : ∀ k, 1 ≤ k → Shaped a.grid_pts (S k) := by
    intro k h1
    obtain ⟨k, rfl⟩ := Nat.exists_eq_add_of_le' h1
    rw [H.grid]
    refine ⟨by simp [NS.keys, S, cellsOf], fun f hf => ?_⟩
    simp only [fieldList, List.mem_cons, List.not_mem_nil, or_false] at hf
    rcases hf with rfl | rfl | rfl
    · exact ⟨_, rfl, (x1 (k + 1)).1⟩
    · exact ⟨_, rfl, (x1 (k + 1)).2.1⟩
    · exact ⟨_, rfl, (x1 (k + 1)).2.2⟩
  refine ⟨x, S, x3, fun k => ⟨(hS k).1, (hS k).2.1, (hS k).2.2.1⟩, htraj, hshaped, ?_⟩
  refine { path := H.path, fresh := H.fresh, buffer := H.buffer, snaps := H.snaps, saves := ?_,
           init := ?_, solver := hwOf_pose H b a.dx.val, start := ?_, count := ?_, traj := htraj _, shaped := fun k h1 _ => hshaped k h1, stops := ?_ }
  · have hd : downsampling a.downsample_factor = false := by
      simp [downsampling, FloatOps.eq, FloatOps.ofInt, H.full]
    refine ⟨by simp [saveDim, hd, H.grid], fun q => ?_⟩
    rw [hd] at q
    cases q
  · refine ⟨by simp [NS.keys, Args.plasma0], fun k hk => ?_⟩
    rw [H.grid]
    simp only [fieldList, List.mem_cons, List.not_mem_nil, or_false] at hk
    rcases hk with rfl | rfl | rfl
    · exact ⟨X, by rw [← hX]; rfl, hX'⟩
    · exact ⟨Y, by rw [← hY]; rfl, hY'⟩
    · exact ⟨V, by rw [← hV]; rfl, hV'⟩
  · refine ⟨.arr Z, ?_, ?_⟩
    · rw [hY, H.attr]
      simp only [Gen.solver, hZ, Py.ok_bind]
      rfl
    · simp only [S, Args.plasma0, hX, hY]
      simp [NS.set, NS.keys]
  · refine ⟨⟨R.div (R.sub a.end_time.val 0) a.step_size.val⟩, ?_, rfl⟩
    simp only [FloatOps.div, FloatOps.sub, FloatOps.ofInt]
    rw [if_neg H.step.ne']
    simp
  · refine ⟨fun j _ _ => ?_, .inl rfl⟩
    unfold nanState
    split
    · exact H.nan _
    · rfl

end fresh

theorem map_map_at {α β γ : Type} [Inhabited α] [Inhabited β] [Inhabited γ] (a : Arr α) (f : α → β) (g : β → γ) {i j : ℕ}
    (hi : i < a.h) (hj : j < a.w) : ((a.map f).map g).at' i j = g (f (a.at' i j)) := by
  unfold Arr.map Arr.at'
  simp only [hi, hj, dite_true]

/-- from the computed to the stored array -/
theorem stored_err {u : ℝ} {R : Rounded u} {β : Type} [Casts (Rd R) β] [Inhabited β] {v C B dx L : ℝ} {m : ℕ} (hm : 0 < m) (v0 : 0 ≤ v)
    (hC : 0 ≤ C) (hB : 0 ≤ B) (hd : 0 < dx) (hdL : dx ≤ L)
    (hcast : ∀ x : Rd R, |(Casts.f64 (Casts.f32 x : β) : Rd R).val - x.val| ≤ v * |x.val|)
    {V : Arr (Rd R)} {G : ℝ → ℝ → ℝ} (g : V.h = m ∧ V.w = m) (hG : ∀ y x, |G y x| ≤ B)
    (g3 : rms m m (floatErr dx V G) ≤ C * dx ^ 2) (g4 : ∀ i j, i < m → j < m → |floatErr dx V G i j| ≤ C * dx) :
    rms m m (floatErr dx ((V.map (Casts.f32 : Rd R → β)).map (Casts.f64 : β → Rd R)) G) ≤ 2 * (C + (B + C * L)) * (dx ^ 2 + v) ∧
    ∀ i j, i < m → j < m →
      |floatErr dx ((V.map (Casts.f32 : Rd R → β)).map (Casts.f64 : β → Rd R)) G i j| ≤ 2 * (C + (B + C * L)) * (dx + v) := by
  obtain ⟨g1, g2⟩ := g
  have z1 : 0 ≤ B + C * L := add_nonneg hB (mul_nonneg hC (hd.le.trans hdL))
  generalize hq : B + C * L = q at *
  have hst : ∀ i j, i < m → j < m →
      |floatErr dx ((V.map (Casts.f32 : Rd R → β)).map (Casts.f64 : β → Rd R)) G i j - floatErr dx V G i j| ≤ v * q := by
    intro i j hi hj
    unfold floatErr
    rw [map_map_at _ _ _ (by rw [g1]; exact hi) (by rw [g2]; exact hj), sub_sub_sub_cancel_right]
    refine (hcast _).trans (mul_le_mul_of_nonneg_left ?_ v0)
    have := g4 i j hi hj
    unfold floatErr at this
    have q1 := abs_le.1 this
    have q' := abs_le.1 (hG (i * dx) (j * dx))
    have q'' : C * dx ≤ C * L := mul_le_mul_of_nonneg_left hdL hC
    exact abs_le.2 ⟨by linarith [q1.1, q'.1], by linarith [q1.2, q'.2]⟩
  have z2 := mul_nonneg v0 z1
  have z3 := mul_nonneg hC v0
  have z4 := mul_nonneg z1 (sq_nonneg dx)
  have z5 := mul_nonneg z1 hd.le
  have z6 := mul_nonneg hC hd.le
  refine ⟨(rms_perturb hm hm z2 hst g3).trans (by linarith), fun i j hi hj => ?_⟩
  have y1 := abs_le.1 (hst i j hi hj)
  have y2 := abs_le.1 (g4 i j hi hj)
  exact abs_le.2 ⟨by linarith [y1.1, y2.1], by linarith [y1.2, y2.2]⟩

/-- **C134.** Let `n, w, p` be a smooth solution of the Hasegawa–Wakatani equations on the box `[0, L]²` and the
interval `[0, T]`.  There is one constant `C` such that for every grid size there is a `δ > 0` with: for every
floating-point arithmetic with unit roundoff `u` whose means and Poisson solver are accurate to `η`, every call of
`run` to a new file in that arithmetic whose arguments describe these equations and start from rounded samples of
the solution, with a step size of at most `δ` and `u + η ≤ δ step_size`, returns normally and writes
`int((end_time - 0) / step_size) / snaps + 1` frames.  Frame `j` is stamped with the (rounded) product
`(j snaps) step_size`.  If storing a number changes it by at most `v` relatively, the arrays read from a frame `j ≥ 1` are
within `C (dx² + v)` of `n`, `w` and `p` at time `t = j snaps step_size ≤ T` in root mean square, and within `C (dx + v)` at
every grid point. -/
theorem C134_floating_point_file (P : Params) (hnu : 0 ≤ P.nu) {L T B : ℝ} {r : ℕ} (hT : 0 ≤ T) (hL : 0 < L)
    (hr : 4 ≤ r) (hr' : 2 * P.N + 2 ≤ r) {nf wf pf : ℝ → ℕ → ℕ → ℝ → ℝ → ℝ} (H : HWSolution P L L T r B nf wf pf) :
    ∃ C, 0 ≤ C ∧ ∀ (m : ℕ) (b : Backend), 0 < m → Std b m m →
      ∃ δ, 0 < δ ∧ ∀ (u : ℝ) (R : Rounded u) (A : Gen.Arith (Rd R)) (η v : ℝ), 0 ≤ u → 0 ≤ η → 0 ≤ v →
        ∀ (β : Type) (_ : Casts (Rd R) β) (_ : Inhabited β) (E : Env (Rd R) β) (a : Args (Rd R)) (σ : St (Rd R) β),
        (∀ x : Rd R, |(Casts.f64 (Casts.f32 x : β) : Rd R).val - x.val| ≤ v * |x.val|) →
        Accurate A b η m m a.dx → FloatPoses E A a σ P L (nf 0 0 0) (wf 0 0 0) (u + η) m →
        a.step_size.val ≤ δ → u + η ≤ δ * a.step_size.val →
        (run E a σ).1 = .ok () ∧ ∃ (f : H5 (Rd R) β) (count : ℕ), count = floatSteps a / a.snaps + 1 ∧
          (run E a σ).2.fs a.output_path = some f ∧
          f.dsets "time" = some (.rows .one ((List.range count).map
            (fun j => .num (Casts.f32 (⟨R.mul (j * a.snaps : ℕ) a.step_size.val⟩ : Rd R))))) ∧
          ∀ k ∈ ["density", "omega", "phi"], ∃ rows, f.dsets k = some (.rows (.grid m m) rows) ∧
            rows.length = count ∧
            ∀ j (hj : j < rows.length), j ≠ 0 → ∀ t, t = (j * a.snaps : ℕ) * a.step_size.val → t ≤ T →
              ∃ W : Arr β, rows[j] = .arr W ∧
                rms m m (floatErr a.dx.val (W.map (Casts.f64 : β → Rd R)) (fieldOf nf wf pf k t))
                  ≤ C * (a.dx.val ^ 2 + v) ∧
                ∀ i j, i < m → j < m →
                  |floatErr a.dx.val (W.map (Casts.f64 : β → Rd R)) (fieldOf nf wf pf k t) i j| ≤ C * (a.dx.val + v) := by
  obtain ⟨C, hC, HC⟩ := C108_floating_point_converges P hnu hT hr hr' H
  have hB : 0 ≤ B := (abs_nonneg _).trans ((H.smoothN 0 ⟨le_rfl, hT⟩).bound 0 0 (by omega) 0 0)
  refine ⟨2 * (C + (B + C * L)), by positivity, fun m b hm hb => ?_⟩
  have : NeZero m := ⟨hm.ne'⟩
  have hm' : (1 : ℝ) ≤ m := by exact_mod_cast hm
  set dx := L / m with hdx
  have hdx0 : 0 < dx := by positivity
  have hmd : m * dx = L := by rw [hdx]; field_simp
  have hdL : dx ≤ L := by rw [← hmd]; exact le_mul_of_one_le_left hdx0.le hm'
  set A0 : Arr ℝ := ofField (samp m m dx (nf 0 0 0))
  set B0 : Arr ℝ := ofField (samp m m dx (wf 0 0 0))
  set C0 : Arr ℝ := ofField (phiF dx (samp m m dx (wf 0 0 0)))
  have hs0 : IsState true m m (startState A0 B0 C0) := startState_isState true rfl rfl rfl rfl rfl rfl
  have hcon : Consistent (poseHW b dx P) dx (startState A0 B0 C0) := fun c =>
    ⟨_, get_phi_ofField (poseHW b dx P) (Std.good hb) (samp m m dx (wf 0 0 0)) dx c⟩
  obtain ⟨δ0, hδ0, hst⟩ := HC m m dx hm hm hdx0 hmd hmd b dx 1 true hb (poseHW b dx P) rfl (startState A0 B0 C0) hs0 hcon
    (fun i j hi hj => samp_at hi hj) (fun i j hi hj => samp_at hi hj)
  obtain ⟨K, hK, hphi⟩ := float_phi (dx := dx) hb (samp m m dx (wf 0 0 0)) (1 + B) (by positivity)
  have hK1 : 0 < 2 + K + B + 1 := by positivity
  refine ⟨min (min δ0 (1 / 28)) (δ0 / (2 + K + B + 1)), by positivity, ?_⟩
  intro u R A η v u0 η0 v0 β _ _ E a σ hcast hA hp hle hprec
  have p0 : 0 ≤ u + η := by linarith
  have ed : a.dx.val = dx := by
    have := hp.spacing
    rw [hdx]; field_simp; linarith
  have ed' : a.dx = ⟨dx⟩ := by rw [← ed]
  have s0 := hp.step
  have l1 : a.step_size.val ≤ δ0 := hle.trans ((min_le_left _ _).trans (min_le_left _ _))
  have l2 : 28 * (u + η) ≤ 1 := by
    have q1 : u + η ≤ 1 / 28 * a.step_size.val :=
      hprec.trans (mul_le_mul_of_nonneg_right ((min_le_left _ _).trans (min_le_right _ _)) s0.le)
    have q2 : a.step_size.val ≤ 1 / 28 := hle.trans ((min_le_left _ _).trans (min_le_right _ _))
    linarith
  have l3 : (2 + K + B + 1) * (u + η) ≤ δ0 * a.step_size.val := by
    have q : u + η ≤ δ0 / (2 + K + B + 1) * a.step_size.val :=
      hprec.trans (mul_le_mul_of_nonneg_right (min_le_right _ _) s0.le)
    rw [div_mul_eq_mul_div, le_div_iff₀ hK1] at q
    linarith
  -- the initial state
  obtain ⟨X, hX, hX1, hX2, hX3⟩ := hp.density
  obtain ⟨Y, hY, hY1, hY2, hY3⟩ := hp.omega
  rw [ed] at hX3 hY3
  have bd : ∀ {g : ℝ → ℕ → ℕ → ℝ → ℝ → ℝ} {x y z : ℝ}, Partials r (g 0) B →
      |z - g 0 0 0 y x| ≤ (u + η) * (1 + |g 0 0 0 y x|) → |z - g 0 0 0 y x| ≤ (1 + B) * (u + η) := by
    intro g x y z hg hz
    refine hz.trans ?_
    rw [mul_comm]
    exact mul_le_mul_of_nonneg_right (by linarith [hg.bound 0 0 (by omega) y x]) p0
  have hA' : Accurate A b η m m ⟨dx⟩ := by rw [← ed']; exact hA
  set y0 : Gen.F (Rd R) m m := fun i j => Y.at' i.val j.val with hy0
  have eY : Y = ofField y0 := (ofField_vals hY1 hY2).symm
  have hy : ∀ i j, |ex y0 i j - samp m m dx (wf 0 0 0) i j| ≤ (1 + B) * (u + η) := fun i j =>
    bd (g := wf) (H.smoothO 0 ⟨le_rfl, hT⟩) (hY3 i.val j.val (ZMod.val_lt i) (ZMod.val_lt j))
  have hz := hphi u R A η u0 η0 l2 hA' y0 hy
  have hZ : Gen.get_phi A Y a.dx = .ok (ofField (Gen.phiG (faOf A m m ⟨dx⟩) y0)) := by
    rw [ed', eY]; exact Gen.get_phi_ofF hA'.evals y0
  obtain ⟨x, S, hx, hS, -, -, hF⟩ := fresh_float hp hm hA hX ⟨hX1, hX2⟩ hY ⟨hY1, hY2⟩ hZ ⟨rfl, rfl⟩
  rw [ed] at hx
  have hclose : FloatClose m m (u + ((K + B + 2) * (u + η))) ⟨X, Y, ofField (Gen.phiG (faOf A m m ⟨dx⟩) y0)⟩
      (startState A0 B0 C0) := by
    have g1 : (1 + B) * (u + η) ≤ u + (K + B + 2) * (u + η) := by nlinarith
    have g2 : K * (u + η) ≤ u + (K + B + 2) * (u + η) := by nlinarith
    refine ⟨⟨hX1, hX2⟩, ⟨hY1, hY2⟩, ⟨rfl, rfl⟩, fun i j hi hj => ⟨?_, ?_, ?_⟩⟩
    · change |(X.at' i j).val - A0.at' i j| ≤ _
      rw [samp_at hi hj]
      exact (bd (g := nf) (H.smoothN 0 ⟨le_rfl, hT⟩) (hX3 i j hi hj)).trans g1
    · change |(Y.at' i j).val - B0.at' i j| ≤ _
      rw [samp_at hi hj]
      exact (bd (g := wf) (H.smoothO 0 ⟨le_rfl, hT⟩) (hY3 i j hi hj)).trans g1
    · change |((ofField (Gen.phiG (faOf A m m ⟨dx⟩) y0)).at' i j).val - C0.at' i j| ≤ _
      rw [ofField_at' _ hi hj, ofField_at' _ hi hj]
      exact (hz _ _).trans g2
  have hA2 : Accurate A b ((K + B + 2) * (u + η)) m m ⟨dx⟩ := hA'.mono hm hm (by nlinarith)
  have hprec2 : u + (K + B + 2) * (u + η) ≤ δ0 * a.step_size.val := by nlinarith
  -- the file
  have h0 : FloatOps.eq a.recording_start_time (FloatOps.ofInt 0) = true := by
    simp [FloatOps.eq, FloatOps.ofInt, hp.start]
  have hu1 : u ≤ 1 := by linarith
  have htime : ∀ it : ℕ, 0 ≤ R.mul it a.step_size.val := by
    intro it
    have q := (abs_le.1 (R.mul_err it a.step_size.val)).1
    have q2 : 0 ≤ (it : ℝ) * a.step_size.val := by positivity
    rw [abs_of_nonneg q2] at q
    nlinarith
  have key := fun k hk => C44_frames hF rfl h0 (fun it _ _ => by
    simp only [FloatOps.le, stepTime, FloatOps.mul, FloatOps.ofInt, hp.start, Int.cast_natCast, decide_eq_true_eq]
    exact htime it) k hk (by rw [hp.props]; simp)
  have hok := (run_result hF).choose_spec.2.2.1 hp.props
  obtain ⟨f, times, t1, t2, t3, t4⟩ := key "time" (by simp)
  refine ⟨hok, f, _, rfl, t1, ?_, fun k hk => ?_⟩
  · rw [t2]
    refine congrArg some (congrArg₂ _ rfl ?_)
    refine List.ext_getElem (by rw [List.length_map, List.length_range, t3]; rfl) fun j j1 j2 => ?_
    have := t4 j j1
    unfold IsFrameRow at this
    rw [if_pos rfl] at this
    rw [this, List.getElem_map, List.getElem_range]
    by_cases hj : j = 0
    · subst hj
      have e0 : R.mul ((0 * a.snaps : ℕ) : ℝ) a.step_size.val = 0 := by
        have := R.mul_err ((0 * a.snaps : ℕ) : ℝ) a.step_size.val
        simpa using this
      rw [if_pos rfl, e0]
      simp [FloatOps.ofInt]
    · rw [if_neg hj]
      simp [stepTime, FloatOps.mul, FloatOps.ofInt]
  · have hk' : k ∈ ["time", "density", "omega", "phi"] := List.mem_cons_of_mem _ hk
    obtain ⟨f', rows, q1, q2, q3, q4⟩ := key k hk'
    rw [t1] at q1
    injection q1 with q1
    subst q1
    have hkt : k ≠ "time" := by
      rintro rfl
      simp at hk
    refine ⟨rows, by rw [q2]; unfold rowShape; rw [if_neg hkt], by rw [q3]; rfl, fun j hj hj0 t et htT => ?_⟩
    have row := q4 j hj
    unfold IsFrameRow at row
    rw [if_neg hkt, if_neg hj0] at row
    obtain ⟨V, W, w1, w2, w3⟩ := row
    have eVW : W = V := by
      have hf : downsampling a.downsample_factor = false := by
        simp [downsampling, FloatOps.eq, FloatOps.ofInt, hp.full]
      unfold recordedValue at w2
      rw [hf] at w2
      simp only [Bool.false_eq_true, if_false] at w2
      injection w2 with w2
      injection w2 with w2
      exact w2.symm
    subst eVW
    refine ⟨W.map Casts.f32, w3, ?_⟩
    obtain ⟨x', e', ⟨r1, r2, r3⟩, r4⟩ := hst a.step_size.val s0 l1 u R A _ u0 (by positivity) hprec2 hA2 .rk4 (.inl rfl)
      _ hclose (j * a.snaps) (by rw [← et]; exact htT)
    rw [hx] at e'
    injection e' with e'
    subst e'
    have hpos : 0 < j * a.snaps := Nat.mul_pos (Nat.pos_of_ne_zero hj0) hp.snaps
    have hshape := fun q1 q2 => (hF.shaped (j * a.snaps) q1 q2).fields
    have t0 : 0 ≤ t := by rw [et]; positivity
    rw [ed, et]
    obtain ⟨S1, S2, S3⟩ := hS (j * a.snaps)
    have tt : ((j * a.snaps : ℕ) : ℝ) * a.step_size.val ∈ Icc 0 T := by rw [← et]; exact ⟨t0, htT⟩
    have jm : j * a.snaps ≤ floatSteps a := by
      rw [q3] at hj
      exact (Nat.mul_le_mul_right _ (Nat.le_of_lt_succ hj)).trans (Nat.div_mul_le_self _ _)
    have shp : W.h = m ∧ W.w = m := by
      obtain ⟨W', s1, s2⟩ := hshape hpos jm k (by simpa [fieldList] using hk)
      rw [w1] at s1
      injection s1 with s1
      injection s1 with s1
      rw [s1, ← hp.grid]
      exact s2
    simp only [List.mem_cons, List.not_mem_nil, or_false] at hk
    rcases hk with rfl | rfl | rfl
    · rw [S1] at w1
      injection w1 with w1
      injection w1 with w1
      subst w1
      exact stored_err hm v0 hC hB hdx0 hdL hcast shp ((H.smoothN _ tt).bound 0 0 (by omega)) r1 fun i j hi hj => (r4 i j hi hj).1
    · rw [S2] at w1
      injection w1 with w1
      injection w1 with w1
      subst w1
      exact stored_err hm v0 hC hB hdx0 hdL hcast shp ((H.smoothO _ tt).bound 0 0 (by omega)) r2 fun i j hi hj => (r4 i j hi hj).2.1
    · rw [S3] at w1
      injection w1 with w1
      injection w1 with w1
      subst w1
      exact stored_err hm v0 hC hB hdx0 hdL hcast shp ((H.smoothP _ tt).bound 0 0 (by omega)) (r3 hpos) fun i j hi hj => (r4 i j hi hj).2.2 hpos

/-! ### non-vacuity: the drift wave, computed with binary floating-point numbers and stored with 24 bits -/

noncomputable instance rdSingle {u : ℝ} {R : Rounded u} : Casts (Rd R) (Rd (Rounded.binary 24)) :=
  ⟨fun x => ⟨nearest 24 x.val⟩, fun y => ⟨y.val⟩⟩

noncomputable def rdNum {u : ℝ} {R : Rounded u} : Attr (Rd R) → Rd R
  | .num x => x
  | .int z => ⟨z⟩
  | .bool b => ⟨if b then 1 else 0⟩

noncomputable def rdEnv {u : ℝ} {R : Rounded u} (A : Gen.Arith (Rd R)) : Env (Rd R) (Rd (Rounded.binary 24)) where
  HW := Gen.hwOf A rdNum
  hasNaN _ := false
  allZero _ := false
  downsample v _ := .ok v
  attrNum := rdNum
  props := { dx := fun _ _ => ⟨1⟩, value := fun _ _ _ _ _ _ => .ok ⟨0⟩ }

/-- arguments of `run` for the drift wave on an `m × m` grid -/
noncomputable def rdArgs {u : ℝ} (R : Rounded u) (m : ℕ) (dt : ℝ) : Args (Rd R) where
  step_size := ⟨dt⟩
  end_time := ⟨5⟩
  grid_pts := m
  dx := ⟨2 * Real.pi / m⟩
  k0 := ⟨1⟩
  N := 1
  nu := ⟨1 / 10⟩
  c1 := ⟨3⟩
  kappa_coeff := ⟨40 / 3⟩
  poisson_bracket_coeff := ⟨1⟩
  density0 := .arr (tab m m fun i j =>
    ⟨modeFam (5 / 3 * amp 0) (4 / 3 * amp 0) (4 * 0) 0 0 (i * (2 * Real.pi / m)) (j * (2 * Real.pi / m))⟩)
  omega0 := .arr (tab m m fun i j => ⟨modeFam (- amp 0) 0 (4 * 0) 0 0 (i * (2 * Real.pi / m)) (j * (2 * Real.pi / m))⟩)
  phi0 := .arr (tab m m fun i j => ⟨(i : ℝ) - j⟩)
  output_path := "run.h5"
  recording_start_time := ⟨0⟩
  continue_file := false
  buffer_length := 100
  snaps := 3
  downsample_factor := ⟨1⟩
  add_last_state := true
  properties := []
  force_recompute := false

theorem rd_poses {u : ℝ} {R : Rounded u} (A : Gen.Arith (Rd R)) (m : ℕ) (hm : 0 < m) (dt e : ℝ) (hdt : 0 < dt) (he : 0 ≤ e) :
    FloatPoses (rdEnv A) A (rdArgs R m dt) ⟨fun _ => none, []⟩ ⟨0, 1, 3, 1 / 10, 1, 40 / 3, false⟩ (2 * Real.pi)
      (modeFam (5 / 3 * amp 0) (4 / 3 * amp 0) (4 * 0) 0 0) (modeFam (- amp 0) 0 (4 * 0) 0 0) e m where
  sim := rfl
  attr _ := rfl
  nan _ := rfl
  grid := rfl
  spacing := by
    have : (m : ℝ) ≠ 0 := by positivity
    simp only [rdArgs]; field_simp
  order := rfl
  c1 := rfl
  nu := rfl
  bracket := rfl
  kappa := rfl
  zonal := rfl
  density := ⟨_, rfl, rfl, rfl, fun i j hi hj => by
    rw [tab_at' _ _ _ hi hj]
    simp only [rdArgs, sub_self, abs_zero]
    positivity⟩
  omega := ⟨_, rfl, rfl, rfl, fun i j hi hj => by
    rw [tab_at' _ _ _ hi hj]
    simp only [rdArgs, sub_self, abs_zero]
    positivity⟩
  phi := ⟨_, rfl, rfl, rfl⟩
  path := by simp [rdArgs]
  fresh := .inl rfl
  buffer := by simp [rdArgs]
  snaps := by simp [rdArgs]
  step := hdt
  full := rfl
  start := rfl
  props := rfl

/-- the growing drift wave appears in the file of every accurate enough run -/
example : ∃ C, ∀ m : ℕ, 0 < m → ∃ dt : ℝ, 0 < dt ∧ ∃ (p : ℕ) (A : Gen.Arith (Rd (Rounded.binary p)))
    (f : H5 (Rd (Rounded.binary p)) (Rd (Rounded.binary 24))) (rows : List (Cell (Rd (Rounded.binary 24)))),
      (run (rdEnv A) (rdArgs (Rounded.binary p) m dt) ⟨fun _ => none, []⟩).2.fs "run.h5" = some f ∧
      f.dsets "phi" = some (.rows (.grid m m) rows) ∧
      rows.length = floatSteps (rdArgs (Rounded.binary p) m dt) / 3 + 1 ∧
      ∀ j (hj : j < rows.length), j ≠ 0 → (j * 3 : ℕ) * dt ≤ 5 → ∃ W : Arr (Rd (Rounded.binary 24)), rows[j] = .arr W ∧
        rms m m (floatErr (2 * Real.pi / m) (W.map fun y => (⟨y.val⟩ : Rd (Rounded.binary p)))
          fun y _ => amp ((j * 3 : ℕ) * dt) * Real.cos (y - 4 * ((j * 3 : ℕ) * dt)))
            ≤ C * ((2 * Real.pi / m) ^ 2 + 2 ^ (-(24 : ℤ))) := by
  obtain ⟨C, -, H⟩ := C134_floating_point_file _ (by norm_num) (by norm_num) (by positivity) le_rfl (by norm_num)
    (drift_wave 5)
  refine ⟨C, fun m hm => ?_⟩
  obtain ⟨δ, hδ, H⟩ := H m numpyBackend hm (.inl rfl)
  obtain ⟨p, A, η, η0, hp, hA⟩ := C103_arithmetic_exists (hw := HW.init numpyBackend 1 1 1 1 1) (h := m) (w := m) hm hm (.inl rfl)
    (2 * Real.pi / m) (δ * δ) (by positivity)
  have u0 : (0 : ℝ) ≤ 2 ^ (-(p : ℤ)) := by positivity
  obtain ⟨-, f, count, ec, e1, -, H⟩ := H _ (Rounded.binary p) A η (2 ^ (-(24 : ℤ))) u0 η0 (by positivity) _ rdSingle inferInstance
    (rdEnv A) (rdArgs (Rounded.binary p) m δ) ⟨fun _ => none, []⟩ (fun x => nearest_err 24 x.val) hA
    (rd_poses A m hm δ _ hδ (by positivity)) le_rfl hp
  obtain ⟨rows, r1, r2, r3⟩ := H "phi" (by simp)
  refine ⟨δ, hδ, p, A, f, rows, e1, r1, by rw [r2, ec]; rfl, fun j hj hj0 hjT => ?_⟩
  obtain ⟨W, w1, w2, -⟩ := r3 j hj hj0 _ rfl hjT
  refine ⟨W, w1, ?_⟩
  have e : ∀ t : ℝ, fieldOf (fun t => modeFam (5 / 3 * amp t) (4 / 3 * amp t) (4 * t))
      (fun t => modeFam (- amp t) 0 (4 * t)) (fun t => modeFam (amp t) 0 (4 * t)) "phi" t
      = fun y _ => amp t * Real.cos (y - 4 * t) := by
    intro t
    funext y x
    simp only [fieldOf]
    rw [if_neg (by decide), if_neg (by decide), modeFam_zero]; ring
  rw [e] at w2
  exact w2

end Verif.Props
