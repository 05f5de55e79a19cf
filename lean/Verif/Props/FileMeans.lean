import Verif.Props.RunStart
import Verif.Props.Measured

/-!
# C148: the means of density and vorticity in the file
-/

set_option linter.unusedSectionVars false

namespace Verif.Props

open Arr NS Spec Set H5IO Run Run2

attribute [local instance] exactOps

/-- What is known about the means `d`, `o` of density and vorticity after `n` steps of size `dt`, from the means `d0`, `o0` at the
beginning: their difference is the same; with `zonal` coupling, or without coupling, both are the same; otherwise
the mean density is multiplied in every step by the Runge-Kutta approximation of `exp (-c1 * dt)`. -/
structure MeansAfter (c1 dt : ℝ) (zonal : Bool) (d0 o0 : ℝ) (n : ℕ) (d o : ℝ) : Prop where
  difference : d - o = d0 - o0
  conserved : zonal = true ∨ c1 = 0 → d = d0 ∧ o = o0
  damped : zonal = false → d = (1 - c1 * dt + (c1 * dt) ^ 2 / 2 - (c1 * dt) ^ 3 / 6 + (c1 * dt) ^ 4 / 24) ^ n * d0

theorem MeansAfter.refl (c1 dt : ℝ) (zonal : Bool) (d0 o0 : ℝ) : MeansAfter c1 dt zonal d0 o0 0 d0 o0 :=
  ⟨rfl, fun _ => ⟨rfl, rfl⟩, fun _ => by rw [pow_zero, one_mul]⟩

/-- the means of the states -/
theorem history_means {hw : HW} {n : ℕ} (h0 : 0 < n) (hb : Std hw.backend n n) (hN : 1 ≤ hw.N ∨ hw.nu = 0) (dt dx : ℝ)
    {A B C : Arr ℝ} (a1 : A.h = n) (a2 : A.w = n) (b1 : B.h = n) (b2 : B.w = n)
    (hC : ∀ c, ∃ c', hw.get_phi B dx c = .ok (C, c')) {T : ℕ → NS Val}
    (hT : ∀ n c, ∃ c', history hw dx (List.replicate n (.rk4 dt)) (startState A B C) c = .ok (T n, c')) (k : ℕ) :
    MeansAfter hw.c1 dt hw.zonal (amean A) (amean B) k (amean (arrOf (T k) "density")) (amean (arrOf (T k) "omega")) := by
  have : NeZero n := ⟨h0.ne'⟩
  have hphi : C.h = n ∧ C.w = n ∧ amean C = 0 := by
    have e := get_phi_ofField hw hb.good (toFld B : Fld n n) dx {}
    rw [ofField_toFld b1 b2] at e
    obtain ⟨c', e'⟩ := hC {}
    rw [e] at e'
    injection e' with e'
    injection e' with e' _
    subst e'
    exact ⟨rfl, rfl, by rw [amean_ofField, avg_phiF]⟩
  obtain ⟨c1, c2, mC⟩ := hphi
  have hs := startState_isState hw.TEST_CONSERVATION a1 a2 b1 b2 c1 c2
  have d0 : arrOf (startState A B C) "density" = A := rfl
  have o0 : arrOf (startState A B C) "omega" = B := rfl
  have p0 : arrOf (startState A B C) "phi" = C := rfl
  obtain ⟨s1, q1, e1, -, m1⟩ := C27_mean_difference_conserved hw dx h0 h0 hb hN (List.replicate k (.rk4 dt)) _ hs {}
  obtain ⟨s2, q2, e2, m2, m3⟩ := C28_mean_density hw dx h0 h0 hb hN (List.replicate k (.rk4 dt)) _ hs {}
  obtain ⟨q3, e3⟩ := hT k {}
  rw [e3] at e1 e2
  obtain ⟨rfl, -⟩ := Prod.ext_iff.mp (Except.ok.inj e1)
  have es : T k = s2 := (Prod.ext_iff.mp (Except.ok.inj e2)).1
  rw [← es] at m2 m3
  rw [d0, o0] at m1 m3
  rw [d0, p0] at m2
  refine ⟨m1, m3, fun hz => ?_⟩
  rw [m2 hz mC, List.map_replicate, List.prod_replicate]
  rfl

/-- writing a frame does not change its mean -/
theorem recorded_amean {β : Type} [Casts ℝ β] [Inhabited β] {E : Env ℝ β} {factor : ℝ} (hd : Downsamples E factor) {V W : Arr ℝ}
    (h : recordedValue E factor (.arr V) = .ok (.arr W)) : amean W = amean V := by
  unfold recordedValue at h
  by_cases hf : downsampling factor = true
  · rw [if_pos hf] at h
    rcases hd with rfl | hd
    · simp [downsampling, FloatOps.eq, FloatOps.ofInt] at hf
    · rw [hd] at h
      simp only [Downsample.downsampleCell] at h
      cases hx : Downsample.fourier_downsample V factor with
      | error e => rw [hx] at h; cases h
      | ok X =>
        rw [hx] at h
        simp only [Py.ok_bind, Py.pure_eq] at h
        injection h with h
        injection h with h
        subst h
        exact C78_mean V X factor hx
  · rw [if_neg hf] at h
    injection h with h
    injection h with h
    subst h
    rfl

/-- a row of a field, and the mean of what it holds -/
theorem frame_row_mean {β : Type} [Casts ℝ β] [Inhabited β] {E : Env ℝ β} {factor : ℝ} (hd : Downsamples E factor) {k : String}
    (hk : k ≠ "time") {t : ℝ} {s : NS (Cell ℝ)} {row : Cell β} (h : IsFrameRow E factor k t s row) :
    ∃ V W : Arr ℝ, s.get? k = some (.arr V) ∧ row = .arr (W.map Casts.f32) ∧ amean W = amean V := by
  simp only [IsFrameRow, if_neg hk] at h
  obtain ⟨V, W, v1, v2, v3⟩ := h
  exact ⟨V, W, v1, v3, recorded_amean hd v2⟩

theorem frames2_zero {β : Type} [Casts ℝ β] [Inhabited β] {E : Env2 ℝ β} {a : Args2 ℝ} {S : ℕ → NS (Cell ℝ)} {m : ℕ}
    (h0 : a.recording_start_time = 0) : (frames2 E a S m)[0]? = some (FloatOps.ofInt 0, a.plasma0) := by
  unfold frames2
  rw [if_pos (by rw [h0]; simp [FloatOps.eq, FloatOps.ofInt])]
  rfl

/-- **C148 (`run2`).**  For every call of `run2` to a new file (viscosity of order at least 1 or no viscosity) with the initial fields
`A`, `B`: the datasets of density and vorticity have one row per frame, and the means of row `j` (before the rounding
to `float32`; also if the frames are downsampled by `fourier_downsample`) are those of `A` and `B` after `j * snaps` steps: the
difference of the means is constant, with `zonal=True` or `c1=0` both are, and with `zonal=False` the mean density decays by a known factor. -/
theorem C148_run2_means {β : Type} [Casts ℝ β] [Inhabited β] {E : Env2 ℝ β} {b : Backend} {a : Args2 ℝ} {σ : St ℝ β} {ns : ℕ}
    (hg : GoodArgs2 E b a σ ns) (hd : Downsamples E.toEnv a.downsample_factor) (hN : 1 ≤ a.N ∨ a.nu = 0)
    (hstart : a.recording_start_time = 0) (hendp : 0 < a.end_time)
    (hpd : "density" ∉ a.properties) (hpo : "omega" ∉ a.properties) {A B : Arr ℝ} (hA : a.density0 = .arr A) (hB : a.omega0 = .arr B) :
    ∃ count, IsLeast {k : ℕ | a.end_time ≤ FloatOps.round4 ((k : ℝ) * a.step_size)} count ∧ ∀ fuel, count < fuel →
      ∃ (f : H5 ℝ β) (rd ro : List (Cell β)), (run2 E a fuel σ).2.fs a.output_path = some f ∧
        f.dsets "density" = some (.rows (.grid ns ns) rd) ∧ f.dsets "omega" = some (.rows (.grid ns ns) ro) ∧
        rd.length = count / a.snaps + 1 ∧ ro.length = count / a.snaps + 1 ∧
        ∀ j, j ≤ count / a.snaps → ∃ N O : Arr ℝ, rd[j]? = some (.arr (N.map Casts.f32)) ∧ ro[j]? = some (.arr (O.map Casts.f32)) ∧
          MeansAfter a.c1 a.step_size a.zonal (amean A) (amean B) (j * a.snaps) (amean N) (amean O) := by
  obtain ⟨A', B', D, S, qA, qB, qD, hS, hR⟩ := fresh2_physics hg
  have eA : A' = A := by rw [hA] at qA; cases qA; rfl
  have eB : B' = B := by rw [hB] at qB; cases qB; rfl
  rw [eA, eB] at hS
  rw [eB] at qD
  obtain ⟨A2, hA2, a1, a2⟩ := hg.density
  obtain ⟨B2, hB2, b1, b2⟩ := hg.omega
  have eA2 : A2 = A := by rw [hA] at hA2; cases hA2; rfl
  have eB2 : B2 = B := by rw [hB] at hB2; cases hB2; rfl
  rw [eA2] at a1 a2
  rw [eB2] at b1 b2
  have hN' : 1 ≤ (theHW2 b a).N ∨ (theHW2 b a).nu = 0 := hN.imp id fun e => by simp [theHW2, HW.init, e]
  have hmeans : ∀ k, MeansAfter a.c1 a.step_size a.zonal (amean A) (amean B) k (amean (arrOf (S k) "density")) (amean (arrOf (S k) "omega")) :=
    history_means (hw := theHW2 b a) hg.grid hg.backend hN' a.step_size a.dx a1 a2 b1 b2 qD hS
  obtain ⟨count, hcount, hrun⟩ := hR a.end_time
  have hua : a.until a.end_time = a := rfl
  rw [hua] at hrun
  have hcpos : 0 < count := by
    rcases Nat.eq_zero_or_pos count with rfl | h
    · have := hcount.1
      simp only [mem_ofPred_eq, Nat.cast_zero, zero_mul] at this
      have e0 : (FloatOps.round4 (0 : ℝ)) = 0 := by simp [FloatOps.round4, roundEven]
      rw [e0] at this
      exact absurd hendp (not_lt.mpr this)
    · exact h
  refine ⟨count, hcount, fun fuel hfuel => ?_⟩
  have hend : FloatOps.lt a.recording_start_time (timeAt E a (FloatOps.ofInt 0) count) = true := by
    rw [exact_timeAt hg.sum, hstart]
    refine decide_eq_true ?_
    have e0 : (FloatOps.ofInt 0 : ℝ) = 0 := by simp [FloatOps.ofInt]
    rw [e0, zero_add]
    have : (0 : ℝ) < count := by exact_mod_cast hcpos
    exact mul_pos this hg.step
  obtain ⟨f, f1, -, f2, -⟩ := C52_all_written_partial hrun hfuel hend
  obtain ⟨rd, d1, d2⟩ := f2 "density" (by decide) hpd
  obtain ⟨ro, o1, o2⟩ := f2 "omega" (by decide) hpo
  have hfl : (frames2 E a (fun n => toCells (S n)) count).length = count / a.snaps + 1 := frames2_length hg.sum hg.step hstart
  have ld : rd.length = count / a.snaps + 1 := by rw [← d2.length_eq, hfl]
  have lo : ro.length = count / a.snaps + 1 := by rw [← o2.length_eq, hfl]
  refine ⟨f, rd, ro, f1, d1, o1, ld, lo, fun j hj => ?_⟩
  have hjf : j < (frames2 E a (fun n => toCells (S n)) count).length := by omega
  have hjd : j < rd.length := by omega
  have hjo : j < ro.length := by omega
  obtain ⟨V, N, v1, v2, v3⟩ := frame_row_mean hd (by decide) (List.forall₂_iff_get.mp d2 |>.2 j hjf hjd)
  obtain ⟨U, O, u1, u2, u3⟩ := frame_row_mean hd (by decide) (List.forall₂_iff_get.mp o2 |>.2 j hjf hjo)
  refine ⟨N, O, by rw [List.getElem?_eq_getElem hjd]; exact congrArg some v2,
    by rw [List.getElem?_eq_getElem hjo]; exact congrArg some u2, ?_⟩
  rw [v3, u3]
  rcases Nat.eq_zero_or_pos j with rfl | hj0
  · have hfr := frames2_zero (E := E) (S := fun n => toCells (S n)) (m := count) hstart
    rw [List.getElem?_eq_getElem hjf] at hfr
    have hget := Option.some.inj hfr
    rw [List.get_eq_getElem, hget] at v1 u1
    have eV : a.density0 = .arr V := Option.some.inj v1
    have eU : a.omega0 = .arr U := Option.some.inj u1
    rw [hA] at eV
    rw [hB] at eU
    rw [← Cell.arr.inj eV, ← Cell.arr.inj eU, zero_mul]
    exact MeansAfter.refl _ _ _ _ _
  · have hfr := frames2_get (S := fun n => toCells (S n)) (m := count) hg.sum hg.step hstart hj0.ne' hj
    rw [List.getElem?_eq_getElem hjf] at hfr
    have hget := Option.some.inj hfr
    rw [List.get_eq_getElem, hget] at v1 u1
    rw [← arrOf_of_toCells v1, ← arrOf_of_toCells u1]
    exact hmeans _

/-- **C148 (`run`).**  The same for `run`, which has no zonal coupling. -/
theorem C148_run_means {β : Type} [Casts ℝ β] [Inhabited β] {E : Env ℝ β} {b : Backend} {a : Args ℝ} {σ : St ℝ β} {ns : ℕ}
    (hg : GoodArgs E b a σ ns) (hd : Downsamples E a.downsample_factor) (hN : 1 ≤ a.N ∨ a.nu = 0)
    (hstart : a.recording_start_time = 0) (he : 0 ≤ a.end_time)
    (hpd : "density" ∉ a.properties) (hpo : "omega" ∉ a.properties) {A B : Arr ℝ} (hA : a.density0 = .arr A) (hB : a.omega0 = .arr B) :
    ∃ (f : H5 ℝ β) (rd ro : List (Cell β)), (run E a σ).2.fs a.output_path = some f ∧
      f.dsets "density" = some (.rows (.grid ns ns) rd) ∧ f.dsets "omega" = some (.rows (.grid ns ns) ro) ∧
      rd.length = ⌊a.end_time / a.step_size⌋.toNat / a.snaps + 1 ∧ ro.length = rd.length ∧
      ∀ j, j < rd.length → ∃ N O : Arr ℝ, rd[j]? = some (.arr (N.map Casts.f32)) ∧ ro[j]? = some (.arr (O.map Casts.f32)) ∧
        MeansAfter a.c1 a.step_size false (amean A) (amean B) (j * a.snaps) (amean N) (amean O) := by
  obtain ⟨A', B', D, S, qA, qB, qD, hS, hrun⟩ := fresh_physics hg he
  have eA : A' = A := by rw [hA] at qA; cases qA; rfl
  have eB : B' = B := by rw [hB] at qB; cases qB; rfl
  rw [eA, eB] at hS
  rw [eB] at qD
  obtain ⟨A2, hA2, a1, a2⟩ := hg.density
  obtain ⟨B2, hB2, b1, b2⟩ := hg.omega
  have eA2 : A2 = A := by rw [hA] at hA2; cases hA2; rfl
  have eB2 : B2 = B := by rw [hB] at hB2; cases hB2; rfl
  rw [eA2] at a1 a2
  rw [eB2] at b1 b2
  have hN' : 1 ≤ (theHW b a).N ∨ (theHW b a).nu = 0 := hN.imp id fun e => by simp [theHW, HW.init, e]
  have hmeans : ∀ k, MeansAfter a.c1 a.step_size false (amean A) (amean B) k (amean (arrOf (S k) "density")) (amean (arrOf (S k) "omega")) :=
    history_means (hw := theHW b a) hg.grid hg.backend hN' a.step_size a.dx a1 a2 b1 b2 qD hS
  have h0 : FloatOps.eq a.recording_start_time (FloatOps.ofInt 0) = true := by rw [hstart]; simp [FloatOps.eq, FloatOps.ofInt]
  have hr : ∀ it, 1 ≤ it → it ≤ ⌊a.end_time / a.step_size⌋.toNat → FloatOps.le a.recording_start_time (stepTime a it) = true := by
    intro it _ _
    refine decide_eq_true ?_
    rw [hstart]
    have := hg.step
    simp only [stepTime, FloatOps.mul, FloatOps.ofInt]
    positivity
  obtain ⟨f, rd, f1, d1, d2, d3⟩ := C44_frames hrun rfl h0 hr "density" (by decide) hpd
  obtain ⟨f', ro, f1', o1, o2, o3⟩ := C44_frames hrun rfl h0 hr "omega" (by decide) hpo
  have ef : f' = f := by rw [f1] at f1'; exact (Option.some.inj f1').symm
  subst ef
  refine ⟨f', rd, ro, f1, d1, o1, d2, by rw [d2, o2], fun j hj => ?_⟩
  have hjo : j < ro.length := by rw [o2, ← d2]; exact hj
  obtain ⟨V, N, v1, v2, v3⟩ := frame_row_mean hd (by decide) (d3 j hj)
  obtain ⟨U, O, u1, u2, u3⟩ := frame_row_mean hd (by decide) (o3 j hjo)
  refine ⟨N, O, by rw [List.getElem?_eq_getElem hj]; exact congrArg some v2,
    by rw [List.getElem?_eq_getElem hjo]; exact congrArg some u2, ?_⟩
  rw [v3, u3]
  rcases Nat.eq_zero_or_pos j with rfl | hj0
  · rw [if_pos rfl] at v1 u1
    have eV : a.density0 = .arr V := Option.some.inj v1
    have eU : a.omega0 = .arr U := Option.some.inj u1
    rw [hA] at eV
    rw [hB] at eU
    rw [← Cell.arr.inj eV, ← Cell.arr.inj eU, zero_mul]
    exact MeansAfter.refl _ _ _ _ _
  · rw [if_neg hj0.ne'] at v1 u1
    rw [← arrOf_of_toCells v1, ← arrOf_of_toCells u1]
    exact hmeans _

/-- 100 recorded frames with their means -/
example := C148_run2_means phys_good2 (.inl rfl) (.inl (by decide : 1 ≤ 3)) rfl (by norm_num [physArgs2, physArgs])
  (by simp [physArgs2]) (by simp [physArgs2]) rfl rfl

example := C148_run_means (phys_good ⟨fun _ => none, []⟩ rfl) (.inl rfl) (.inl (by decide : 1 ≤ 3)) rfl (by norm_num [physArgs])
  (by simp [physArgs]) (by simp [physArgs]) rfl rfl

/-- frames of 3 × 3 points of a simulation on 8 × 8 points -/
example := C148_run_means (E := { physEnv with downsample := Downsample.downsampleCell }) (a := { physArgs with downsample_factor := 3 }) (ns := 3)
  { phys_good ⟨fun _ => none, []⟩ rfl with
    saves := C59_run_saves _ rfl _ _ _ (by norm_num [physArgs]) save_8_3 (by norm_num) } (.inr rfl)
  (.inl (by decide : 1 ≤ 3)) rfl (by norm_num [physArgs]) (by simp [physArgs]) (by simp [physArgs]) rfl rfl

end Verif.Props
