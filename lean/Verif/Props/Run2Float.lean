import Verif.Props.RunFloat
import Verif.Props.Run2PDE

/-!
# Property theorem C135: the file of a floating-point call of `run2`, compared with the equations

C52 (what `run2` writes), C108 (floating-point steps against the partial differential equations) and the rounding
of the stored arrays together.
-/

set_option linter.unusedSectionVars false

namespace Verif.Props

open H5IO H5 Run Run2 Arr Spec Set Rounding

section core

/-- the array is `m × m` and within `e (1 + |F|)` of the samples of `F` -/
def NearSamples {u : ℝ} {R : Rounded u} (m : ℕ) (dx e : ℝ) (F : ℝ → ℝ → ℝ) (X : Arr (Rd R)) : Prop :=
  X.h = m ∧ X.w = m ∧ ∀ i j, i < m → j < m →
    |(X.at' i j).val - F (i * dx) (j * dx)| ≤ e * (1 + |F (i * dx) (j * dx)|)

/-- the array `W` of stored numbers, read back, is within `C (dx² + v)` of `F` in root mean square and within
`C (dx + v)` at every grid point -/
def StoredNear {u : ℝ} {R : Rounded u} {β : Type} [Casts (Rd R) β] [Inhabited β] (m : ℕ) (dx v C : ℝ) (F : ℝ → ℝ → ℝ)
    (W : Arr β) : Prop :=
  rms m m (floatErr dx (W.map (Casts.f64 : β → Rd R)) F) ≤ C * (dx ^ 2 + v) ∧
    ∀ i j, i < m → j < m → |floatErr dx (W.map (Casts.f64 : β → Rd R)) F i j| ≤ C * (dx + v)

/-- The states of a floating-point simulation, whatever the files are. -/
theorem float_core (P : Params) (hnu : 0 ≤ P.nu) {L T B : ℝ} {r : ℕ} (hT : 0 ≤ T) (hL : 0 < L)
    (hr : 4 ≤ r) (hr' : 2 * P.N + 2 ≤ r) {nf wf pf : ℝ → ℕ → ℕ → ℝ → ℝ → ℝ} (H : HWSolution P L L T r B nf wf pf) :
    ∃ C, 0 ≤ C ∧ ∀ (m : ℕ) (b : Backend), 0 < m → Std b m m →
      ∃ δ, 0 < δ ∧ ∀ (u : ℝ) (R : Rounded u) (A : Gen.Arith (Rd R)) (η : ℝ), 0 ≤ u → 0 ≤ η →
        ∀ dx dt : Rd R, m * dx.val = L → 0 < dt.val → Accurate A b η m m dx → dt.val ≤ δ → u + η ≤ δ * dt.val →
        ∀ X Y : Arr (Rd R), NearSamples m dx.val (u + η) (nf 0 0 0) X → NearSamples m dx.val (u + η) (wf 0 0 0) Y →
        28 * u ≤ 1 ∧ ∃ (Z : Arr (Rd R)) (x : ℕ → Gen.State (Rd R)), Gen.get_phi A Y dx = .ok Z ∧ x 0 = ⟨X, Y, Z⟩ ∧
          (∀ k, ((x k).density.h = m ∧ (x k).density.w = m) ∧ ((x k).omega.h = m ∧ (x k).omega.w = m) ∧
            ((x k).phi.h = m ∧ (x k).phi.w = m)) ∧
          (∀ k, Gen.rk4_step A (machineCoeffs R (poseHW b dx.val P)) (x k) dt dx = .ok (x (k + 1))) ∧
          ∀ (β : Type) (_ : Casts (Rd R) β) (_ : Inhabited β) (v : ℝ), 0 ≤ v →
            (∀ y : Rd R, |(Casts.f64 (Casts.f32 y : β) : Rd R).val - y.val| ≤ v * |y.val|) →
            ∀ k : ℕ, 0 < k → ∀ t, t = k * dt.val → t ≤ T →
              StoredNear (R := R) m dx.val v C (nf t 0 0) ((x k).density.map (Casts.f32 : Rd R → β)) ∧
              StoredNear (R := R) m dx.val v C (wf t 0 0) ((x k).omega.map (Casts.f32 : Rd R → β)) ∧
              StoredNear (R := R) m dx.val v C (pf t 0 0) ((x k).phi.map (Casts.f32 : Rd R → β)) := by
  obtain ⟨C, hC, HC⟩ := C108_floating_point_converges P hnu hT hr hr' H
  have hB : 0 ≤ B := (abs_nonneg _).trans ((H.smoothN 0 ⟨le_rfl, hT⟩).bound 0 0 (by omega) 0 0)
  refine ⟨2 * (C + (B + C * L)), by positivity, fun m b hm hb => ?_⟩
  have : NeZero m := ⟨hm.ne'⟩
  have hm' : (1 : ℝ) ≤ m := by exact_mod_cast hm
  set dx := L / m with hdx
  have hdx0 : 0 < dx := by positivity
  have hmd : m * dx = L := by rw [hdx]; field_simp
  have hdL : dx ≤ L := by rw [← hmd]; exact le_mul_of_one_le_left hdx0.le hm'
  set A0 : Arr ℝ := ofField (samp m m dx (nf 0 0 0))
  set B0 : Arr ℝ := ofField (samp m m dx (wf 0 0 0))
  set C0 : Arr ℝ := ofField (phiF dx (samp m m dx (wf 0 0 0)))
  have hs0 : IsState true m m (startState A0 B0 C0) := startState_isState true rfl rfl rfl rfl rfl rfl
  have hcon : Consistent (poseHW b dx P) dx (startState A0 B0 C0) := fun c =>
    ⟨_, get_phi_ofField (poseHW b dx P) (Std.good hb) (samp m m dx (wf 0 0 0)) dx c⟩
  obtain ⟨δ0, hδ0, hst⟩ := HC m m dx hm hm hdx0 hmd hmd b dx 1 true hb (poseHW b dx P) rfl (startState A0 B0 C0) hs0 hcon
    (fun i j hi hj => samp_at hi hj) (fun i j hi hj => samp_at hi hj)
  obtain ⟨K, hK, hphi⟩ := float_phi (dx := dx) hb (samp m m dx (wf 0 0 0)) (1 + B) (by positivity)
  have hK1 : 0 < 2 + K + B + 1 := by positivity
  refine ⟨min (min δ0 (1 / 28)) (δ0 / (2 + K + B + 1)), by positivity, ?_⟩
  intro u R A η u0 η0 dx' dt hsp s0 hA hle hprec X Y ⟨hX1, hX2, hX3⟩ ⟨hY1, hY2, hY3⟩
  have p0 : 0 ≤ u + η := by linarith
  have ed : dx'.val = dx := by
    rw [hdx]; field_simp; linarith
  have ed' : dx' = ⟨dx⟩ := by rw [← ed]
  have l1 : dt.val ≤ δ0 := hle.trans ((min_le_left _ _).trans (min_le_left _ _))
  have l2 : 28 * (u + η) ≤ 1 := by
    have q1 : u + η ≤ 1 / 28 * dt.val :=
      hprec.trans (mul_le_mul_of_nonneg_right ((min_le_left _ _).trans (min_le_right _ _)) s0.le)
    have q2 : dt.val ≤ 1 / 28 := hle.trans ((min_le_left _ _).trans (min_le_right _ _))
    linarith
  have l3 : (2 + K + B + 1) * (u + η) ≤ δ0 * dt.val := by
    have q : u + η ≤ δ0 / (2 + K + B + 1) * dt.val :=
      hprec.trans (mul_le_mul_of_nonneg_right (min_le_right _ _) s0.le)
    rw [div_mul_eq_mul_div, le_div_iff₀ hK1] at q
    linarith
  rw [ed] at hX3 hY3
  have bd : ∀ {g : ℝ → ℕ → ℕ → ℝ → ℝ → ℝ} {x y z : ℝ}, Partials r (g 0) B →
      |z - g 0 0 0 y x| ≤ (u + η) * (1 + |g 0 0 0 y x|) → |z - g 0 0 0 y x| ≤ (1 + B) * (u + η) := by
    intro g x y z hg hz
    refine hz.trans ?_
    rw [mul_comm]
    exact mul_le_mul_of_nonneg_right (by linarith [hg.bound 0 0 (by omega) y x]) p0
  have hA' : Accurate A b η m m ⟨dx⟩ := by rw [← ed']; exact hA
  set y0 : Gen.F (Rd R) m m := fun i j => Y.at' i.val j.val with hy0
  have eY : Y = ofField y0 := (ofField_vals hY1 hY2).symm
  have hy : ∀ i j, |ex y0 i j - samp m m dx (wf 0 0 0) i j| ≤ (1 + B) * (u + η) := fun i j =>
    bd (g := wf) (H.smoothO 0 ⟨le_rfl, hT⟩) (hY3 i.val j.val (ZMod.val_lt i) (ZMod.val_lt j))
  have hz := hphi u R A η u0 η0 l2 hA' y0 hy
  have hZ : Gen.get_phi A Y ⟨dx⟩ = .ok (ofField (Gen.phiG (faOf A m m ⟨dx⟩) y0)) := by
    rw [eY]; exact Gen.get_phi_ofF hA'.evals y0
  obtain ⟨x, x0, x1, x2, x3⟩ := float_states (hw := poseHW b dx P) hA' dt.val
    ⟨X, Y, ofField (Gen.phiG (faOf A m m ⟨dx⟩) y0)⟩ ⟨hX1, hX2⟩ ⟨hY1, hY2⟩ ⟨rfl, rfl⟩
  have hclose : FloatClose m m (u + ((K + B + 2) * (u + η))) ⟨X, Y, ofField (Gen.phiG (faOf A m m ⟨dx⟩) y0)⟩
      (startState A0 B0 C0) := by
    have g1 : (1 + B) * (u + η) ≤ u + (K + B + 2) * (u + η) := by nlinarith
    have g2 : K * (u + η) ≤ u + (K + B + 2) * (u + η) := by nlinarith
    refine ⟨⟨hX1, hX2⟩, ⟨hY1, hY2⟩, ⟨rfl, rfl⟩, fun i j hi hj => ⟨?_, ?_, ?_⟩⟩
    · change |(X.at' i j).val - A0.at' i j| ≤ _
      rw [samp_at hi hj]
      exact (bd (g := nf) (H.smoothN 0 ⟨le_rfl, hT⟩) (hX3 i j hi hj)).trans g1
    · change |(Y.at' i j).val - B0.at' i j| ≤ _
      rw [samp_at hi hj]
      exact (bd (g := wf) (H.smoothO 0 ⟨le_rfl, hT⟩) (hY3 i j hi hj)).trans g1
    · change |((ofField (Gen.phiG (faOf A m m ⟨dx⟩) y0)).at' i j).val - C0.at' i j| ≤ _
      rw [ofField_at' _ hi hj, ofField_at' _ hi hj]
      exact (hz _ _).trans g2
  have hA2 : Accurate A b ((K + B + 2) * (u + η)) m m ⟨dx⟩ := hA'.mono hm hm (by nlinarith)
  have hprec2 : u + (K + B + 2) * (u + η) ≤ δ0 * dt.val := by nlinarith
  refine ⟨by linarith, ofField (Gen.phiG (faOf A m m ⟨dx⟩) y0), x, by rw [ed']; exact hZ, x0, x1,
    fun k => by rw [ed']; exact x2 k, ?_⟩
  intro β _ _ v v0 hcast k hk t et htT
  obtain ⟨x', e', ⟨r1, r2, r3⟩, r4⟩ := hst dt.val s0 l1 u R A _ u0 (by positivity) hprec2 hA2 .rk4 (.inl rfl)
    _ hclose k (by rw [← et]; exact htT)
  rw [x3] at e'
  injection e' with e'
  subst e'
  have tt : t ∈ Icc 0 T := ⟨by rw [et]; positivity, htT⟩
  rw [← et] at r1 r2 r3 r4
  rw [ed]
  exact ⟨stored_err hm v0 hC hB hdx0 hdL hcast (x1 k).1 ((H.smoothN _ tt).bound 0 0 (by omega)) r1
      fun i j hi hj => (r4 i j hi hj).1,
    stored_err hm v0 hC hB hdx0 hdL hcast (x1 k).2.1 ((H.smoothO _ tt).bound 0 0 (by omega)) r2
      fun i j hi hj => (r4 i j hi hj).2.1,
    stored_err hm v0 hC hB hdx0 hdL hcast (x1 k).2.2 ((H.smoothP _ tt).bound 0 0 (by omega)) (r3 hk)
      fun i j hi hj => (r4 i j hi hj).2.2 hk⟩

end core

section run2
variable {u : ℝ} {R : Rounded u}

/-- A call of `run2` that creates a file, with numbers of the arithmetic `R`.  The simulation object is the one of
`model.py` evaluated with `A`.  The arguments describe the equations with the coefficients of `P` on an `m × m` grid
of the box `[0, L]²`; the initial density and vorticity are the samples of `F` and `G` up to the error `e` relative
to `1 + |F|` and `1 + |G|` (any initial potential); every field is recorded in full resolution; `np.sum` is
accurate to `θ`. -/
structure FloatPoses2 {β : Type} (E : Env2 (Rd R) β) (A : Gen.Arith (Rd R)) (a : Args2 (Rd R)) (σ : St (Rd R) β) (P : Params)
    (L : ℝ) (F G : ℝ → ℝ → ℝ) (e θ : ℝ) (m : ℕ) : Prop where
  /-- the simulation is the one of `model.py` -/
  sim : E.HW = Gen.hwOf A E.attrNum
  attr : ∀ x, E.attrNum (.num x) = x
  flag : ∀ z, (E.attrNum (.bool z)).val = if z then 1 else 0
  /-- without overflow there are no NaNs -/
  nan : ∀ v, E.hasNaN v = false
  sum : a.adaptive_step_size = true → ∀ k : ℕ,
    |(E.sum (List.replicate k a.step_size)).val - k * a.step_size.val| ≤ θ * (k * a.step_size.val)
  grid : a.grid_pts = m
  spacing : m * a.dx.val = L
  order : a.N = P.N
  c1 : a.c1.val = P.c1
  nu : a.nu.val = P.nu
  bracket : a.poisson_bracket_coeff.val = P.pb
  kappa : a.kappa_coeff.val = P.kappa
  zonal : a.zonal = P.zonal
  density : ∃ X : Arr (Rd R), a.density0 = .arr X ∧ NearSamples m a.dx.val e F X
  omega : ∃ X : Arr (Rd R), a.omega0 = .arr X ∧ NearSamples m a.dx.val e G X
  phi : ∃ X : Arr (Rd R), a.phi0 = .arr X ∧ X.h = m ∧ X.w = m
  path : a.output_path ≠ ""
  fresh : σ.fs a.output_path = none ∨ a.force_recompute = true
  buffer : 1 ≤ a.buffer_length
  snaps : 1 ≤ a.snaps
  step : 0 < a.step_size.val
  full : a.downsample_factor.val = 1
  nodup : a.properties.Nodup
  props : PropsOk E a
  names : ∀ k ∈ ["time", "density", "omega", "phi"], k ∉ a.properties
  /-- the run ends after recording has begun -/
  endpos : (1 + u) * (a.recording_start_time.val + 1 / 20000) < a.end_time.val

/-- the time `run2` computes for step `k`: `0 + k * step_size`, or `0 + np.sum([step_size] * k)` with
`adaptive_step_size` -/
noncomputable def stamp {β : Type} (E : Env2 (Rd R) β) (a : Args2 (Rd R)) (k : ℕ) : ℝ :=
  if k = 0 then 0
  else if a.adaptive_step_size then R.add 0 (E.sum (List.replicate k a.step_size)).val
  else R.add 0 (R.mul k a.step_size.val)

/-- `round(t, 4)` in this arithmetic -/
noncomputable def round4R (R : Rounded u) (t : ℝ) : ℝ := R.div (roundEven (t * 10 ^ 4)) (10 ^ 4)

/-- the steps `run2` records: 0 if it records from the start, and every multiple of `snaps` among the steps
`1, …, count` whose computed time is not before `recording_start_time` -/
noncomputable def floatRecorded {β : Type} (E : Env2 (Rd R) β) (a : Args2 (Rd R)) (count : ℕ) : List ℕ :=
  (if a.recording_start_time.val = 0 then [0] else []) ++
    (List.range' 1 count).filter fun k : ℕ => decide (a.recording_start_time.val ≤ stamp E a k) && k % a.snaps == 0

theorem timeAt_stamp {β : Type} [Casts (Rd R) β] [Inhabited β] (E : Env2 (Rd R) β) (a : Args2 (Rd R)) (k : ℕ) :
    timeAt E a (FloatOps.ofInt 0) k = ⟨stamp E a k⟩ := by
  unfold timeAt stamp
  split
  · simp [FloatOps.ofInt]
  · split <;> simp [FloatOps.ofInt, FloatOps.add, FloatOps.mul]

theorem frames2_float {β : Type} [Casts (Rd R) β] [Inhabited β] (E : Env2 (Rd R) β) (a : Args2 (Rd R))
    (S : ℕ → NS (Cell (Rd R))) (m : ℕ) : frames2 E a S m = (floatRecorded E a m).map fun k : ℕ =>
      ((⟨stamp E a k⟩ : Rd R), if k = 0 then a.plasma0 else S k) := by
  have e0 : (FloatOps.ofInt 0 : Rd R) = ⟨0⟩ := by simp [FloatOps.ofInt]
  unfold frames2 stepFrames2 floatRecorded
  rw [List.map_append]
  congr 1
  · by_cases h : a.recording_start_time.val = 0
    · rw [if_pos (by rw [e0]; exact decide_eq_true h), if_pos h]
      simp [e0, stamp]
    · rw [if_neg (by rw [e0]; simpa [FloatOps.eq] using h), if_neg h]
      rfl
  · have hall : (List.range' 1 m).filter (isRecorded2 E a (FloatOps.ofInt 0))
        = (List.range' 1 m).filter fun k : ℕ => decide (a.recording_start_time.val ≤ stamp E a k) && k % a.snaps == 0 := by
      apply List.filter_congr
      intro it _
      unfold isRecorded2
      rw [timeAt_stamp]
      rfl
    rw [hall]
    apply List.map_congr_left
    intro k hk
    rw [List.mem_filter, List.mem_range'_1] at hk
    rw [timeAt_stamp, if_neg (by omega)]

section stamps
variable {β : Type} {E : Env2 (Rd R) β} {A : Gen.Arith (Rd R)} {a : Args2 (Rd R)} {σ : St (Rd R) β} {P : Params}
  {L : ℝ} {F G : ℝ → ℝ → ℝ} {e θ : ℝ} {m : ℕ}

theorem stamp_err (H : FloatPoses2 E A a σ P L F G e θ m) (u0 : 0 ≤ u) (hu : u ≤ θ) (hθ : θ ≤ 1 / 4) (k : ℕ) :
    |stamp E a k - k * a.step_size.val| ≤ 3 * θ * (k * a.step_size.val) := by
  have hs := H.step
  unfold stamp
  by_cases hk : k = 0
  · subst hk; simp
  rw [if_neg hk]
  have hy0 : 0 ≤ (k : ℝ) * a.step_size.val := by positivity
  have key : ∀ y : ℝ, |y - k * a.step_size.val| ≤ θ * (k * a.step_size.val) →
      |R.add 0 y - k * a.step_size.val| ≤ 3 * θ * (k * a.step_size.val) := by
    intro y hy
    have h1 := R.add_err 0 y
    rw [zero_add] at h1
    have h2 : |y| ≤ 2 * (k * a.step_size.val) := by
      have := abs_le.1 hy
      exact abs_le.2 ⟨by nlinarith, by nlinarith⟩
    have h3 : u * |y| ≤ θ * (2 * (k * a.step_size.val)) := mul_le_mul hu h2 (abs_nonneg _) (u0.trans hu)
    calc |R.add 0 y - k * a.step_size.val| = |(R.add 0 y - y) + (y - k * a.step_size.val)| := by ring_nf
      _ ≤ |R.add 0 y - y| + |y - k * a.step_size.val| := abs_add_le _ _
      _ ≤ _ := by linarith
  split
  · rename_i ha
    exact key _ (H.sum ha k)
  · refine key _ ((R.mul_err k a.step_size.val).trans ?_)
    rw [abs_of_nonneg hy0]
    exact mul_le_mul_of_nonneg_right hu hy0

theorem stamp_ge (H : FloatPoses2 E A a σ P L F G e θ m) (u0 : 0 ≤ u) (hu : u ≤ θ) (hθ : θ ≤ 1 / 4) (k : ℕ) :
    k * a.step_size.val / 4 ≤ stamp E a k := by
  have hs := H.step
  have h1 := (abs_le.1 (stamp_err H u0 hu hθ k)).1
  have hy0 : 0 ≤ (k : ℝ) * a.step_size.val := by positivity
  nlinarith

theorem round4R_bounds (u0 : 0 ≤ u) (hu : u ≤ 1 / 4) {t : ℝ} (ht : 0 ≤ t) :
    (1 - u) * (t - 1 / 20000) ≤ round4R R t ∧ round4R R t ≤ (1 + u) * (t + 1 / 20000) := by
  have h1 := abs_le.1 (roundEven_err (t * 10 ^ 4))
  have hz : (0 : ℝ) ≤ (roundEven (t * 10 ^ 4) : ℤ) := by
    have h2 : (-1 : ℝ) < (roundEven (t * 10 ^ 4) : ℤ) := by
      have h6 : 0 ≤ t * 10 ^ 4 := by positivity
      generalize t * 10 ^ 4 = s at h1 h6
      linarith [h1.1]
    have h3 : (-1 : ℤ) < roundEven (t * 10 ^ 4) := by exact_mod_cast h2
    exact_mod_cast (by omega : (0 : ℤ) ≤ roundEven (t * 10 ^ 4))
  have h4 := R.div_err (roundEven (t * 10 ^ 4) : ℤ) (10 ^ 4) (by norm_num)
  have hq : (0 : ℝ) ≤ (roundEven (t * 10 ^ 4) : ℤ) / (10 ^ 4 : ℝ) := by positivity
  rw [abs_of_nonneg hq] at h4
  have h5 := abs_le.1 h4
  have l1 : t - 1 / 20000 ≤ ((roundEven (t * 10 ^ 4) : ℤ) : ℝ) / (10 ^ 4 : ℝ) := by
    rw [le_div_iff₀ (by norm_num)]; linarith [h1.1]
  have l2 : ((roundEven (t * 10 ^ 4) : ℤ) : ℝ) / (10 ^ 4 : ℝ) ≤ t + 1 / 20000 := by
    rw [div_le_iff₀ (by norm_num)]; linarith [h1.2]
  unfold round4R
  constructor
  · have := mul_le_mul_of_nonneg_left l1 (by linarith : 0 ≤ 1 - u)
    linarith [h5.1]
  · have := mul_le_mul_of_nonneg_left l2 (by linarith : 0 ≤ 1 + u)
    linarith [h5.2]

/-- the loop ends -/
theorem stamp_reaches (H : FloatPoses2 E A a σ P L F G e θ m) (u0 : 0 ≤ u) (hu : u ≤ θ) (hθ : θ ≤ 1 / 4) :
    ∃ k : ℕ, a.end_time.val ≤ round4R R (stamp E a k) := by
  have hs := H.step
  obtain ⟨k, hk⟩ := exists_nat_gt ((4 * (2 * |a.end_time.val| + 1)) / a.step_size.val)
  rw [div_lt_iff₀ hs] at hk
  refine ⟨k, ?_⟩
  have h1 := stamp_ge H u0 hu hθ k
  have h0 : 0 ≤ stamp E a k := le_trans (by positivity) h1
  have h2 := (round4R_bounds (R := R) u0 (hu.trans hθ) h0).1
  have h3 := abs_nonneg a.end_time.val
  have h4 := le_abs_self a.end_time.val
  have h5 : 2 * |a.end_time.val| + 1 / 2 ≤ stamp E a k - 1 / 20000 := by linarith
  have h6 : 1 / 2 * (2 * |a.end_time.val| + 1 / 2) ≤ (1 - u) * (stamp E a k - 1 / 20000) :=
    mul_le_mul (by linarith) h5 (by positivity) (by linarith)
  linarith

theorem hwOf_pose2 (H : FloatPoses2 E A a σ P L F G e θ m) {b : Backend} {η : ℝ} (hA : Accurate A b η m m a.dx) (dx : ℝ) :
    E.HW a.physics2 = .ok (Gen.solver A (machineCoeffs R (poseHW b dx P))) := by
  rw [H.sim]
  have e1 : Gen.hwOf A E.attrNum a.physics2 = .ok (Gen.solver A
    { N := a.N
      c1 := E.attrNum (.num a.c1)
      nu := Gen.signed a.N (E.attrNum (.num a.nu))
      poisson_bracket_coeff := E.attrNum (.num a.poisson_bracket_coeff)
      kappa_coeff := E.attrNum (.num a.kappa_coeff)
      zonal := A.truthy (E.attrNum (.bool a.zonal)) }) := rfl
  have e2 : A.truthy (E.attrNum (.bool a.zonal)) = P.zonal := by
    rw [← H.zonal, Bool.eq_iff_iff, hA.truthy, H.flag]
    cases a.zonal <;> simp
  rw [e1, e2]
  unfold machineCoeffs
  simp only [H.attr, poseHW, signed_nu]
  simp only [HW.init, ← H.c1, ← H.bracket, ← H.kappa, ← H.nu, H.order]

end stamps

section fresh
variable {β : Type} [Casts (Rd R) β] [Inhabited β] {E : Env2 (Rd R) β} {A : Gen.Arith (Rd R)} {a : Args2 (Rd R)}
  {σ : St (Rd R) β} {P : Params} {L : ℝ} {F G : ℝ → ℝ → ℝ} {e θ : ℝ} {m : ℕ}

/-- Every such call is a `FreshRun2`. -/
theorem fresh2_float (H : FloatPoses2 E A a σ P L F G e θ m) (u0 : 0 ≤ u) (hu : u ≤ θ) (hθ : θ ≤ 1 / 4) {b : Backend} {η : ℝ}
    (hA : Accurate A b η m m a.dx) {X Y : Arr (Rd R)} (hX : a.density0 = .arr X) (hX' : X.h = m ∧ X.w = m)
    (hY : a.omega0 = .arr Y) (hY' : Y.h = m ∧ Y.w = m) {Z : Arr (Rd R)} (hZ : Gen.get_phi A Y a.dx = .ok Z)
    {x : ℕ → Gen.State (Rd R)} (x0 : x 0 = ⟨X, Y, Z⟩)
    (x1 : ∀ k, ((x k).density.h = m ∧ (x k).density.w = m) ∧ ((x k).omega.h = m ∧ (x k).omega.w = m) ∧
      ((x k).phi.h = m ∧ (x k).phi.w = m))
    (x2 : ∀ k, Gen.rk4_step A (machineCoeffs R (poseHW b a.dx.val P)) (x k) a.step_size a.dx = .ok (x (k + 1))) :
    ∃ (count : ℕ) (S : ℕ → NS (Cell (Rd R))), IsLeast {k : ℕ | a.end_time.val ≤ round4R R (stamp E a k)} count ∧
      (∀ k, (S k).get? "density" = some (.arr (x k).density) ∧ (S k).get? "omega" = some (.arr (x k).omega) ∧
        (S k).get? "phi" = some (.arr (x k).phi)) ∧
      (∀ M, Trajectory (Gen.solver A (machineCoeffs R (poseHW b a.dx.val P))) a.step_size a.dx M S) ∧
      (∀ k, 1 ≤ k → Shaped a.grid_pts (S k)) ∧
      FreshRun2 E a σ (Gen.solver A (machineCoeffs R (poseHW b a.dx.val P))) m count S := by
  classical
  obtain ⟨V, hV, hV'⟩ := H.phi
  let age : ℕ → Rd R := fun k => (fun t => t + a.step_size)^[k] (FloatOps.ofInt 0)
  let S : ℕ → NS (Cell (Rd R)) := fun k => match k with
    | 0 => [("density", .arr X), ("omega", .arr Y), ("phi", .arr Z), ("age", .num (FloatOps.ofInt 0))]
    | k + 1 => cellsOf (x (k + 1)) (age (k + 1))
  have hS : ∀ k, (S k).get? "density" = some (.arr (x k).density) ∧ (S k).get? "omega" = some (.arr (x k).omega) ∧
      (S k).get? "phi" = some (.arr (x k).phi) ∧ (S k).get? "age" = some (.num (age k)) := by
    intro k
    cases k with
    | zero => rw [x0]; exact ⟨rfl, rfl, rfl, rfl⟩
    | succ k => exact ⟨rfl, rfl, rfl, rfl⟩
  have hex := stamp_reaches H u0 hu hθ
  have hnan : ∀ s, nanState E.toEnv s = false := fun s => by
    unfold nanState
    split
    · exact H.nan _
    · rfl
  have htraj : ∀ M, Trajectory (Gen.solver A (machineCoeffs R (poseHW b a.dx.val P))) a.step_size a.dx M S := by
    intro M k _
    obtain ⟨s1, s2, s3, s4⟩ := hS k
    simp only [Gen.solver, s1, s2, s3, s4]
    rw [show (⟨(x k).density, (x k).omega, (x k).phi⟩ : Gen.State (Rd R)) = x k from rfl, x2 k, Py.ok_bind]
    simp only [S, cellsOf, age, Function.iterate_succ_apply']
    rfl
  have hshaped : ∀ k, 1 ≤ k → Shaped a.grid_pts (S k) := by
    intro k h1
    obtain ⟨k, rfl⟩ := Nat.exists_eq_add_of_le' h1
    rw [H.grid]
    refine ⟨by simp [NS.keys, S, cellsOf], fun f hf => ?_⟩
    simp only [fieldList, List.mem_cons, List.not_mem_nil, or_false] at hf
    rcases hf with rfl | rfl | rfl
    · exact ⟨_, rfl, (x1 (k + 1)).1⟩
    · exact ⟨_, rfl, (x1 (k + 1)).2.1⟩
    · exact ⟨_, rfl, (x1 (k + 1)).2.2⟩
  refine ⟨Nat.find hex, S, ⟨Nat.find_spec hex, fun k hk => Nat.find_min' hex hk⟩,
    fun k => ⟨(hS k).1, (hS k).2.1, (hS k).2.2.1⟩, htraj, hshaped, ?_⟩
  refine { path := H.path, fresh := H.fresh, buffer := H.buffer, snaps := H.snaps, early := ?_, saves := ?_,
           nodup := H.nodup, props := H.props, init := ?_, solver := hwOf_pose2 H hA a.dx.val, start := ?_,
           traj := htraj _, shaped := fun k h1 _ => hshaped k h1, stops := ?_ }
  · refine ⟨⟨R.div a.end_time.val a.step_size.val⟩, truncZ (R.div a.end_time.val a.step_size.val), ?_, rfl⟩
    change (if a.step_size.val = 0 then _ else _) = _
    rw [if_neg H.step.ne']
  · have hd : downsampling a.downsample_factor = false := by
      simp [downsampling, FloatOps.eq, FloatOps.ofInt, H.full]
    refine ⟨by simp [saveDim, hd, H.grid], fun q => ?_⟩
    rw [hd] at q
    cases q
  · refine ⟨by simp [NS.keys, Args.plasma0], fun k hk => ?_⟩
    rw [H.grid]
    simp only [fieldList, List.mem_cons, List.not_mem_nil, or_false] at hk
    rcases hk with rfl | rfl | rfl
    · exact ⟨X, by rw [← hX]; rfl, hX'⟩
    · exact ⟨Y, by rw [← hY]; rfl, hY'⟩
    · exact ⟨V, by rw [← hV]; rfl, hV'⟩
  · refine ⟨.arr Z, ?_, ?_⟩
    · rw [hY, H.attr]
      simp only [Gen.solver, hZ, Py.ok_bind]
      rfl
    · simp only [S, Args.plasma0, hX, hY]
      simp [NS.set, NS.keys]
  · refine ⟨fun j hj => ?_, fun j _ _ _ => hnan _, .inl ?_⟩
    · rw [timeAt_stamp]
      exact decide_eq_true (not_le.1 (Nat.find_min hex hj))
    · rw [timeAt_stamp]
      exact decide_eq_false (not_lt.2 (Nat.find_spec hex))

end fresh
end run2

/-- **C135.** Let `n, w, p` be a smooth solution of the Hasegawa–Wakatani equations, with the original or the modified
(`zonal`) coupling, on the box `[0, L]²` and the interval `[0, T]`.  There is one constant `C` such that for every grid
size there is a `δ > 0` with: for every floating-point arithmetic with unit roundoff `u` whose means and Poisson solver
are accurate to `η` and whose sums are accurate to `θ ≤ 1/4`, every call of `run2` to a new file in that arithmetic whose
arguments describe these equations and start from rounded samples of the solution, with a step size of at most `δ` and
`u + η ≤ δ step_size`, leaves its loop after `count` steps, the least number of steps whose computed time, rounded to four
decimals, is not before `end_time`.  The file holds one frame for each recorded step `k`, stamped with the
computed time, which is within `3 θ k step_size` of `k step_size`.  If storing a number changes it by at most `v`
relatively, the arrays read from the frame of a step `k ≥ 1` are within `C (dx² + v)` of `n`, `w` and `p` at time
`t = k step_size ≤ T` in root mean square, and within `C (dx + v)` at every grid point. -/
theorem C135_floating_point_file (P : Params) (hnu : 0 ≤ P.nu) {L T B : ℝ} {r : ℕ} (hT : 0 ≤ T) (hL : 0 < L)
    (hr : 4 ≤ r) (hr' : 2 * P.N + 2 ≤ r) {nf wf pf : ℝ → ℕ → ℕ → ℝ → ℝ → ℝ} (H : HWSolution P L L T r B nf wf pf) :
    ∃ C, 0 ≤ C ∧ ∀ (m : ℕ) (b : Backend), 0 < m → Std b m m →
      ∃ δ, 0 < δ ∧ ∀ (u : ℝ) (R : Rounded u) (A : Gen.Arith (Rd R)) (η θ v : ℝ), 0 ≤ u → 0 ≤ η → u ≤ θ → θ ≤ 1 / 4 → 0 ≤ v →
        ∀ (β : Type) (_ : Casts (Rd R) β) (_ : Inhabited β) (E : Env2 (Rd R) β) (a : Args2 (Rd R)) (σ : St (Rd R) β),
        (∀ x : Rd R, |(Casts.f64 (Casts.f32 x : β) : Rd R).val - x.val| ≤ v * |x.val|) →
        Accurate A b η m m a.dx → FloatPoses2 E A a σ P L (nf 0 0 0) (wf 0 0 0) (u + η) θ m →
        a.step_size.val ≤ δ → u + η ≤ δ * a.step_size.val →
        ∃ count, IsLeast {k : ℕ | a.end_time.val ≤ round4R R (stamp E a k)} count ∧ ∀ fuel, count < fuel →
          (run2 E a fuel σ).1 ≠ .ok none ∧ (a.properties = [] → (run2 E a fuel σ).1 = .ok (some ())) ∧
          (∀ k : ℕ, |stamp E a k - k * a.step_size.val| ≤ 3 * θ * (k * a.step_size.val)) ∧
          ∃ f : H5 (Rd R) β, (run2 E a fuel σ).2.fs a.output_path = some f ∧
          f.dsets "time" = some (.rows .one ((floatRecorded E a count).map
            fun k : ℕ => .num (Casts.f32 (⟨stamp E a k⟩ : Rd R)))) ∧
          ∀ key ∈ ["density", "omega", "phi"], ∃ rows, f.dsets key = some (.rows (.grid m m) rows) ∧
            rows.length = (floatRecorded E a count).length ∧
            ∀ j (hj : j < rows.length) k, (floatRecorded E a count)[j]? = some k → k ≠ 0 →
              ∀ t, t = (k : ℝ) * a.step_size.val → t ≤ T → ∃ W : Arr β, rows[j] = .arr W ∧
                StoredNear (R := R) m a.dx.val v C (fieldOf nf wf pf key t) W := by
  obtain ⟨C, hC, HC⟩ := float_core P hnu hT hL hr hr' H
  refine ⟨C, hC, fun m b hm hb => ?_⟩
  obtain ⟨δ, hδ, HC⟩ := HC m b hm hb
  refine ⟨δ, hδ, ?_⟩
  intro u R A η θ v u0 η0 hu hθ v0 β _ _ E a σ hcast hA hp hle hprec
  obtain ⟨X, hX, hX'⟩ := hp.density
  obtain ⟨Y, hY, hY'⟩ := hp.omega
  obtain ⟨-, Z, x, hZ, x0, x1, x2, hx⟩ := HC u R A η u0 η0 a.dx a.step_size hp.spacing hp.step hA hle hprec X Y hX' hY'
  obtain ⟨count, S, hcount, hS, -, -, hrun⟩ := fresh2_float hp u0 hu hθ hA hX ⟨hX'.1, hX'.2.1⟩ hY ⟨hY'.1, hY'.2.1⟩ hZ x0 x1 x2
  refine ⟨count, hcount, fun fuel hfuel => ?_⟩
  have hend : FloatOps.lt a.recording_start_time (timeAt E a (FloatOps.ofInt 0) count) = true := by
    rw [timeAt_stamp]
    refine decide_eq_true ?_
    change a.recording_start_time.val < stamp E a count
    have h0 : 0 ≤ stamp E a count := by
      have hs := hp.step
      exact le_trans (by positivity) (stamp_ge hp u0 hu hθ count)
    have h1 : a.end_time.val ≤ _ := hcount.1
    have h2 := (round4R_bounds (R := R) u0 (hu.trans hθ) h0).2
    have h3 := hp.endpos
    have h4 := lt_of_mul_lt_mul_left (h3.trans_le (h1.trans h2)) (by linarith)
    linarith
  obtain ⟨f, f1, -, f2, f4, -, f3, -⟩ := run2_result hrun hfuel
  unfold written2 flushes2 at f3
  simp only [hend, if_true] at f3
  rw [frames2_float] at f3
  refine ⟨f2, f4, stamp_err hp u0 hu hθ, f, f1, ?_, fun key hk => ?_⟩
  · obtain ⟨rows, r1, r2⟩ := f3 "time" (by simp) (hp.names _ (by simp))
    rw [r1]
    have : rows = (floatRecorded E a count).map fun k : ℕ => .num (Casts.f32 (⟨stamp E a k⟩ : Rd R)) := by
      rw [List.forall₂_map_left_iff] at r2
      have h3 : List.Forall₂ (fun row (k : ℕ) => row = (.num (Casts.f32 (⟨stamp E a k⟩ : Rd R)) : Cell β)) rows
          (floatRecorded E a count) := r2.flip.imp fun row k h => by
        change (if "time" = "time" then _ else _) at h
        rw [if_pos rfl] at h
        exact h
      clear r2 r1
      generalize floatRecorded E a count = ks at h3 ⊢
      induction h3 with
      | nil => rfl
      | cons h _ ih => rw [List.map_cons, ← h, ih]
    rw [this]
    rfl
  have hk' : key ∈ "time" :: fieldList := List.mem_cons_of_mem _ hk
  have hkt : key ≠ "time" := by
    rintro rfl
    exact absurd hk (by decide)
  obtain ⟨rows, r1, r2⟩ := f3 key hk' (hp.names _ hk')
  have hlen : rows.length = (floatRecorded E a count).length := by rw [← r2.length_eq, List.length_map]
  refine ⟨rows, by rw [r1, rowShape, if_neg hkt], hlen, fun j hj k hjk hk0' t ht htT => ?_⟩
  rw [List.forall₂_map_left_iff] at r2
  have hjl : j < (floatRecorded E a count).length := hlen ▸ hj
  have hrow := (List.forall₂_iff_get.mp r2).2 j hjl hj
  have hkj : (floatRecorded E a count).get ⟨j, hjl⟩ = k := by
    rw [List.getElem?_eq_getElem hjl] at hjk
    exact Option.some.inj hjk
  rw [hkj] at hrow
  change (if key = "time" then _ else _) at hrow
  rw [if_neg hkt] at hrow
  obtain ⟨V, W, w1, w2, w3⟩ := hrow
  have hf : downsampling a.downsample_factor = false := by
    simp [downsampling, FloatOps.eq, FloatOps.ofInt, hp.full]
  unfold recordedValue at w2
  rw [hf] at w2
  simp only [Bool.false_eq_true, if_false] at w2
  injection w2 with w2
  injection w2 with w2
  subst w2
  simp only [if_neg hk0'] at w1
  refine ⟨V.map Casts.f32, w3, ?_⟩
  obtain ⟨b1, b2, b3⟩ := hx β _ _ v v0 hcast k (Nat.pos_of_ne_zero hk0') t ht htT
  obtain ⟨S1, S2, S3⟩ := hS k
  simp only [List.mem_cons, List.not_mem_nil, or_false] at hk
  rcases hk with rfl | rfl | rfl
  · rw [S1] at w1
    injection w1 with w1
    injection w1 with w1
    subst w1
    exact b1
  · rw [S2] at w1
    injection w1 with w1
    injection w1 with w1
    subst w1
    exact b2
  · rw [S3] at w1
    injection w1 with w1
    injection w1 with w1
    subst w1
    exact b3

/-! ### non-vacuity: the wave with the modified coupling, recorded from time 2, computed with binary floating-point numbers
and stored with 24 bits -/

noncomputable def rdEnv2 {u : ℝ} {R : Rounded u} (A : Gen.Arith (Rd R)) : Env2 (Rd R) (Rd (Rounded.binary 24)) :=
  { rdEnv A with
    propertyFn := fun name => if name = "gamma_c" then some fun _ _ _ _ c1 => .ok c1 else none
    sum := fun l => ⟨R.add 0 (l.map Rd.val).sum⟩ }

noncomputable def rdArgs2 {u : ℝ} (R : Rounded u) (m : ℕ) (dt : ℝ) : Args2 (Rd R) :=
  { rdArgs R m dt with
    recording_start_time := ⟨2⟩
    properties := ["gamma_c"]
    adaptive_step_size := true
    zonal := true }

theorem rd_poses2 {u : ℝ} {R : Rounded u} (A : Gen.Arith (Rd R)) (m : ℕ) (hm : 0 < m) (dt e : ℝ) (hdt : 0 < dt) (he : 0 ≤ e)
    (hu : u ≤ 1 / 4) :
    FloatPoses2 (rdEnv2 A) A (rdArgs2 R m dt) ⟨fun _ => none, []⟩ ⟨0, 1, 3, 1 / 10, 1, 40 / 3, true⟩ (2 * Real.pi)
      (modeFam (5 / 3 * amp 0) (4 / 3 * amp 0) (4 * 0) 0 0) (modeFam (- amp 0) 0 (4 * 0) 0 0) e (1 / 4) m where
  sim := rfl
  attr _ := rfl
  flag _ := rfl
  nan _ := rfl
  sum _ k := by
    have h1 := R.add_err 0 (((List.replicate k (⟨dt⟩ : Rd R)).map Rd.val).sum)
    rw [zero_add, List.map_replicate, List.sum_replicate, nsmul_eq_mul] at h1
    change |R.add 0 (k * dt) - k * dt| ≤ u * |(k : ℝ) * dt| at h1
    rw [abs_of_nonneg (by positivity : 0 ≤ (k : ℝ) * dt)] at h1
    have h2 : u * (k * dt) ≤ 1 / 4 * (k * dt) := mul_le_mul_of_nonneg_right hu (by positivity)
    have h3 := h1.trans h2
    change |R.add 0 (((List.replicate k (⟨dt⟩ : Rd R)).map Rd.val).sum) - k * dt| ≤ 1 / 4 * (k * dt)
    rw [List.map_replicate, List.sum_replicate, nsmul_eq_mul]
    exact h3
  grid := rfl
  spacing := (rd_poses A m hm dt e hdt he).spacing
  order := rfl
  c1 := rfl
  nu := rfl
  bracket := rfl
  kappa := rfl
  zonal := rfl
  density := (rd_poses A m hm dt e hdt he).density
  omega := (rd_poses A m hm dt e hdt he).omega
  phi := ⟨_, rfl, rfl, rfl⟩
  path := (rd_poses A m hm dt e hdt he).path
  fresh := .inl rfl
  buffer := (rd_poses A m hm dt e hdt he).buffer
  snaps := (rd_poses A m hm dt e hdt he).snaps
  step := hdt
  full := rfl
  nodup := List.nodup_singleton _
  props name hn := by
    obtain rfl := List.mem_singleton.mp hn
    exact ⟨fun _ _ _ _ c1 => .ok c1, by simp [rdEnv2], fun _ _ _ _ _ _ => ⟨_, rfl⟩⟩
  names := by change ∀ k ∈ _, k ∉ ["gamma_c"]; decide
  endpos := by
    change (1 + u) * ((2 : ℝ) + 1 / 20000) < 5
    nlinarith

/-- the growing wave appears in the file of every accurate enough run, from time 2 on -/
example : ∃ C, ∀ m : ℕ, 0 < m → ∃ dt : ℝ, 0 < dt ∧ ∃ (p : ℕ) (A : Gen.Arith (Rd (Rounded.binary p))) (count : ℕ),
    ∀ fuel, count < fuel →
    ∃ (f : H5 (Rd (Rounded.binary p)) (Rd (Rounded.binary 24))) (rows : List (Cell (Rd (Rounded.binary 24)))),
      (run2 (rdEnv2 A) (rdArgs2 (Rounded.binary p) m dt) fuel ⟨fun _ => none, []⟩).2.fs "run.h5" = some f ∧
      f.dsets "phi" = some (.rows (.grid m m) rows) ∧
      rows.length = (floatRecorded (rdEnv2 A) (rdArgs2 (Rounded.binary p) m dt) count).length ∧
      ∀ j (hj : j < rows.length) k, (floatRecorded (rdEnv2 A) (rdArgs2 (Rounded.binary p) m dt) count)[j]? = some k →
        k ≠ 0 → (k : ℝ) * dt ≤ 5 → ∃ W : Arr (Rd (Rounded.binary 24)), rows[j] = .arr W ∧
        rms m m (floatErr (2 * Real.pi / m) (W.map fun y => (⟨y.val⟩ : Rd (Rounded.binary p)))
          fun y _ => amp (k * dt) * Real.cos (y - 4 * (k * dt))) ≤ C * ((2 * Real.pi / m) ^ 2 + 2 ^ (-(24 : ℤ))) := by
  obtain ⟨C, -, H⟩ := C135_floating_point_file _ (by norm_num) (by norm_num) (by positivity) le_rfl (by norm_num)
    (zonal_wave 5)
  refine ⟨C, fun m hm => ?_⟩
  obtain ⟨δ, hδ, H⟩ := H m numpyBackend hm (.inl rfl)
  obtain ⟨p, A, η, η0, hp, hA⟩ := C103_arithmetic_exists (hw := HW.init numpyBackend 1 1 1 1 1) (h := m) (w := m) hm hm (.inl rfl)
    (2 * Real.pi / m) (min (δ * δ) (1 / 4)) (by positivity)
  have u0 : (0 : ℝ) ≤ 2 ^ (-(p : ℤ)) := by positivity
  have hu : (2 : ℝ) ^ (-(p : ℤ)) ≤ 1 / 4 := by linarith [hp.trans (min_le_right _ _)]
  obtain ⟨count, -, H⟩ := H _ (Rounded.binary p) A η (1 / 4) (2 ^ (-(24 : ℤ))) u0 η0 hu le_rfl (by positivity) _ rdSingle
    inferInstance (rdEnv2 A) (rdArgs2 (Rounded.binary p) m δ) ⟨fun _ => none, []⟩ (fun x => nearest_err 24 x.val) hA
    (rd_poses2 A m hm δ _ hδ (by positivity) hu) le_rfl (hp.trans (min_le_left _ _))
  refine ⟨δ, hδ, p, A, count, fun fuel hf => ?_⟩
  obtain ⟨-, -, -, f, f1, -, H⟩ := H fuel hf
  obtain ⟨rows, r1, r2, r3⟩ := H "phi" (by simp)
  refine ⟨f, rows, f1, r1, r2, fun j hj k hk hk0 ht => ?_⟩
  obtain ⟨W, w1, w2, -⟩ := r3 j hj k hk hk0 _ rfl ht
  refine ⟨W, w1, ?_⟩
  have e : ∀ t : ℝ, fieldOf (fun t => modeFam (5 / 3 * amp t) (4 / 3 * amp t) (4 * t))
      (fun t => modeFam (- amp t) 0 (4 * t)) (fun t => modeFam (amp t) 0 (4 * t)) "phi" t
      = fun y _ => amp t * Real.cos (y - 4 * t) := by
    intro t
    funext y x
    simp only [fieldOf]
    rw [if_neg (by decide), if_neg (by decide), modeFam_zero]; ring
  rw [e] at w2
  exact w2

end Verif.Props
