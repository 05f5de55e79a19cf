import Verif.Props.Float

/-!
# Property theorem C129: drift of the conserved means in floating point

Without rounding, mean(density) - mean(omega) never changes (C27), and with zonal coupling neither mean does
(C28).  In floating point they drift.  The drift is at most proportional to the number of steps, without the
constants of C98 and C103 that grow with the simulated time, and without a condition on the time step.
-/

set_option linter.unusedSectionVars false

namespace Verif.Props

open Arr NS Spec Set Rounding

variable {hw : HW} {dx : ℝ} {h w : ℕ}

/-- the arrays of a floating-point state have shape `h × w` and no entry beyond `M` -/
def FloatBounded {u : ℝ} {R : Rounded u} (h w : ℕ) (M : ℝ) (x : Gen.State (Rd R)) : Prop :=
  Bounded h w x.density M ∧ Bounded h w x.omega M ∧ Bounded h w x.phi M

section fields
variable [NeZero h] [NeZero w]

open Gen

theorem abs_avg_le {f : Fld h w} {r : ℝ} (H : ∀ i j, |f i j| ≤ r) : |avg f| ≤ r := by
  have hc : (0 : ℝ) < h * w := by
    have := NeZero.pos h
    have := NeZero.pos w
    positivity
  unfold avg S
  rw [abs_div, abs_of_pos hc, div_le_iff₀ hc]
  refine (Finset.abs_sum_le_sum_abs _ _).trans ((Finset.sum_le_sum fun i _ => (Finset.abs_sum_le_sum_abs _ _).trans
    (Finset.sum_le_sum fun j _ => H i j)).trans (le_of_eq ?_))
  simp only [Finset.sum_const, Finset.card_univ, ZMod.card, nsmul_eq_mul]
  ring

theorem avg_near {f g : Fld h w} {r : ℝ} (H : ∀ i j, |f i j - g i j| ≤ r) : |avg f - avg g| ≤ r := by
  rw [← avg_sub]
  exact abs_avg_le H

theorem stepS_diff (hN : 1 ≤ hw.N ∨ hw.nu = 0) (a : Step) (t : Sta h w) :
    avg (stepS (parOf hw dx) hw.dx a t).1 - avg (stepS (parOf hw dx) hw.dx a t).2.1 = avg t.1 - avg t.2.1 := by
  have hN' : 1 ≤ (parOf hw dx).N ∨ (parOf hw dx).nu = 0 := hN.imp id fun e => by simp [parOf, e]
  cases a
  · exact rk4S_diff _ hN' _ _ _
  · exact eulerS_diff _ hN' _ _ _ _

theorem stepS_means (hN : 1 ≤ hw.N ∨ hw.nu = 0) (hz : hw.zonal = true ∨ hw.c1 = 0) (a : Step) (t : Sta h w) :
    avg (stepS (parOf hw dx) hw.dx a t).1 = avg t.1 ∧ avg (stepS (parOf hw dx) hw.dx a t).2.1 = avg t.2.1 := by
  have hN' : 1 ≤ (parOf hw dx).N ∨ (parOf hw dx).nu = 0 := hN.imp id fun e => by simp [parOf, e]
  have hc : c1m (parOf hw dx) = 0 := by
    rcases hz with hz | hz <;> simp [c1m, parOf, hz]
  have h1 : avg (stepS (parOf hw dx) hw.dx a t).1 = avg t.1 := by
    obtain d | d := a
    · have := rk4S_mean (parOf hw dx) hN' hw.dx d t (.inr hc)
      rw [hc] at this
      refine this.trans ?_
      ring
    · have := eulerS_mean (parOf hw dx) hN' hw.dx d t.2.2.1 t (.inr hc)
      rw [hc] at this
      refine this.trans ?_
      ring
  exact ⟨h1, by linarith [stepS_diff (dx := dx) hN a t]⟩

/-- one floating-point step is close to the exact step, uniformly for bounded states and time steps -/
theorem float_step_near (hb : Std hw.backend h w) (hdx : dx ≠ 0) (M : ℝ) : ∃ K, 0 ≤ K ∧
    ∀ (u : ℝ) (R : Rounded u) (A : Arith (Rd R)) (η : ℝ), 0 ≤ u → 0 ≤ η → u + η ≤ 1 → u * (12 * hw.N + 28) ≤ 1 →
      Accurate A hw.backend η h w ⟨dx⟩ → ∀ (a : Step) (y : F (Rd R) h w × F (Rd R) h w) (p : F (Rd R) h w), |a.dt| ≤ M →
      ‖ex y.1‖ ≤ M → ‖ex y.2‖ ≤ M → ‖ex p‖ ≤ M →
      ‖prj (valS (fsOf (faOf A h w ⟨dx⟩) hw dx a y p) p) - prj (stepS (parOf hw dx) hw.dx a (valS y p))‖ ≤ K * (u + η) := by
  obtain ⟨E, hE1, hE2⟩ := solver_exists hb dx
  obtain ⟨K1, hK1, e1⟩ := (acc_rk4 (hw := hw) (E := E) hdx).err M
  obtain ⟨K2, hK2, e2⟩ := (acc_euler (hw := hw) (E := E) hdx).err M
  refine ⟨max K1 K2, le_max_of_le_left hK1, fun u R A η u0 η0 hs hu hA a y p ha h1 h2 h3 => ?_⟩
  have hn0 : 0 ≤ u * (12 * hw.N) := by positivity
  let m : Mach h w dx hw.N E := hA.mach hE1 hw.N u0 η0 hs (by linarith) (by linarith)
  have hm : 0 ≤ u + η := by linarith
  have hz : ‖((a.dt, (ex y.1, ex y.2), ex p) : ℝ × Pair h w × Fld h w)‖ ≤ M := by
    rw [Prod.norm_mk, Prod.norm_mk, Prod.norm_mk]
    exact max_le ha (max_le (max_le h1 h2) h3)
  cases a with
  | rk4 dt =>
    have := e1 m (dt, (ex y.1, ex y.2), ex p) hz
    have e := rk4_ex (hw := hw) hE2 dt hw.dx (valS y p)
    rw [← e]
    exact this.trans (mul_le_mul_of_nonneg_right (le_max_left _ _) hm)
  | euler dt =>
    have := e2 m (dt, (ex y.1, ex y.2), ex p) hz
    have e := euler_ex (hw := hw) (E := E) (dx := dx) dt hw.dx (valS y p)
    rw [← e]
    exact this.trans (mul_le_mul_of_nonneg_right (le_max_right _ _) hm)

end fields

/-- **C129.** If every step of a simulation is wrong by at most `ε` in every entry, mean(density) - mean(omega)
has moved by at most `2 k ε` after `k` steps, and with zonal coupling or `c1 = 0` each of the two means by at
most `k ε`. -/
theorem C129_errors_add_up (h0 : 0 < h) (w0 : 0 < w) (hb : Std hw.backend h w) (hN : 1 ≤ hw.N ∨ hw.nu = 0) (a : Step)
    (ε : ℝ) (p : ℕ → NS Val) (hp : ComputedRun hw dx h w a ε p) (k : ℕ) :
    |(amean (arrOf (p k) "density") - amean (arrOf (p k) "omega"))
        - (amean (arrOf (p 0) "density") - amean (arrOf (p 0) "omega"))| ≤ k * (2 * ε) ∧
      (hw.zonal = true ∨ hw.c1 = 0 →
        |amean (arrOf (p k) "density") - amean (arrOf (p 0) "density")| ≤ k * ε ∧
        |amean (arrOf (p k) "omega") - amean (arrOf (p 0) "omega")| ≤ k * ε) := by
  have : NeZero h := ⟨h0.ne'⟩
  have : NeZero w := ⟨w0.ne'⟩
  choose ks t hkk hn ht using fun j => (hp j).1.exists_mk
  have near : ∀ j, |avg (t (j + 1)).1 - avg (stepS (parOf hw dx) hw.dx a (t j)).1| ≤ ε ∧
      |avg (t (j + 1)).2.1 - avg (stepS (parOf hw dx) hw.dx a (t j)).2.1| ≤ ε := by
    intro j
    obtain ⟨s', c', e, hc⟩ := (hp j).2 {}
    have e' := step_mk hw.backend hb.good (parOf hw dx) hw.dx hw.k0 hw.TEST_CONSERVATION (hkk j) a (t j) {}
    rw [← eq_mkHW, ← ht j] at e'
    replace e' := e.symm.trans e'
    injection e' with e'
    injection e' with e' _
    subst e'
    rw [ht (j + 1)] at hc
    have H : ∀ (i : ZMod h) (l : ZMod w), |(t (j + 1)).1 i l - (stepS (parOf hw dx) hw.dx a (t j)).1 i l| ≤ ε ∧
        |(t (j + 1)).2.1 i l - (stepS (parOf hw dx) hw.dx a (t j)).2.1 i l| ≤ ε := by
      intro i l
      have := hc i.val l.val (ZMod.val_lt i) (ZMod.val_lt l)
      rw [arrOf_density (hkk _), arrOf_omega (hkk _), arrOf_density (hkk j).step, arrOf_omega (hkk j).step] at this
      simp only [ofField_at' _ (ZMod.val_lt i) (ZMod.val_lt l), ZMod.natCast_zmod_val] at this
      exact ⟨this.1, this.2.1⟩
    exact ⟨avg_near fun i l => (H i l).1, avg_near fun i l => (H i l).2⟩
  have eN : ∀ j, amean (arrOf (p j) "density") = avg (t j).1 := fun j => by rw [ht j, arrOf_density (hkk j), amean_ofField]
  have eO : ∀ j, amean (arrOf (p j) "omega") = avg (t j).2.1 := fun j => by rw [ht j, arrOf_omega (hkk j), amean_ofField]
  simp only [eN, eO]
  constructor
  · induction k with
    | zero => simp
    | succ k ih =>
      have d := stepS_diff (dx := dx) hN a (t k)
      obtain ⟨n1, n2⟩ := near k
      rw [abs_le] at *
      push_cast
      constructor <;> linarith
  · intro hz
    induction k with
    | zero => simp
    | succ k ih =>
      obtain ⟨d1, d2⟩ := stepS_means (dx := dx) hN hz a (t k)
      obtain ⟨n1, n2⟩ := near k
      obtain ⟨i1, i2⟩ := ih
      rw [abs_le] at n1 n2 i1 i2 ⊢
      rw [abs_le]
      push_cast
      refine ⟨⟨?_, ?_⟩, ?_, ?_⟩ <;> linarith

/-- **C129.** For every bound `M` there is a constant `K` such that in every floating-point arithmetic (unit
roundoff `u`, means and Poisson solver accurate to `η`) and for every sequence of `rk4_step` and `euler_step`
calls with time steps up to `M`: the steps succeed as long as the entries of the state stay below `M`, and
mean(density) - mean(omega) has then moved by at most `k K (u + η)` after `k` steps; with zonal coupling or
`c1 = 0` the same holds for each of the two means. -/
theorem C129_float_drift (h0 : 0 < h) (w0 : 0 < w) (hb : Std hw.backend h w) (hdx : dx ≠ 0)
    (hN : 1 ≤ hw.N ∨ hw.nu = 0) (M : ℝ) : ∃ K, 0 ≤ K ∧
      ∀ (u : ℝ) (R : Rounded u) (A : Gen.Arith (Rd R)) (η : ℝ), 0 ≤ u → 0 ≤ η → u + η ≤ 1 → u * (12 * hw.N + 28) ≤ 1 →
      Accurate A hw.backend η h w ⟨dx⟩ →
      (∀ a x, FloatBounded h w M x → ∃ x', floatStep A hw dx a x = .ok x') ∧
      ∀ (a : ℕ → Step) (x : ℕ → Gen.State (Rd R)) (k : ℕ),
        (∀ j < k, |(a j).dt| ≤ M ∧ FloatBounded h w M (x j) ∧ floatStep A hw dx (a j) (x j) = .ok (x (j + 1))) →
        |(amean (exactly (x k).density) - amean (exactly (x k).omega))
            - (amean (exactly (x 0).density) - amean (exactly (x 0).omega))| ≤ k * (K * (u + η)) ∧
          (hw.zonal = true ∨ hw.c1 = 0 →
            |amean (exactly (x k).density) - amean (exactly (x 0).density)| ≤ k * (K * (u + η)) ∧
            |amean (exactly (x k).omega) - amean (exactly (x 0).omega)| ≤ k * (K * (u + η))) := by
  have : NeZero h := ⟨h0.ne'⟩
  have : NeZero w := ⟨w0.ne'⟩
  obtain ⟨K, hK, H⟩ := float_step_near (dx := dx) hb hdx M
  refine ⟨2 * K, by positivity, fun u R A η u0 η0 hs hu hA => ?_⟩
  have step : ∀ (a : Step) (x : Gen.State (Rd R)), FloatBounded h w M x → ∃ x', floatStep A hw dx a x = .ok x' ∧ ∃ v : Sta h w,
      (exactly x.density = ofField v.1 ∧ exactly x.omega = ofField v.2.1) ∧
      ∃ f g : Fld h w, exactly x'.density = ofField f ∧ exactly x'.omega = ofField g ∧
      (|a.dt| ≤ M → |avg f - avg (stepS (parOf hw dx) hw.dx a v).1| ≤ K * (u + η) ∧
        |avg g - avg (stepS (parOf hw dx) hw.dx a v).2.1| ≤ K * (u + η)) := by
    intro a x ⟨⟨a1, a2, a3⟩, ⟨b1, b2, b3⟩, ⟨c1, c2, c3⟩⟩
    let n0 : Gen.F (Rd R) h w := fun i j => x.density.at' i.val j.val
    let o0 : Gen.F (Rd R) h w := fun i j => x.omega.at' i.val j.val
    let p0 : Gen.F (Rd R) h w := fun i j => x.phi.at' i.val j.val
    have ex0 : x = Gen.ofF (n0, o0) p0 := by
      unfold Gen.ofF
      simp only [n0, o0, p0]
      rw [ofField_vals a1 a2, ofField_vals b1 b2, ofField_vals c1 c2]
    have M0 : 0 ≤ M := (abs_nonneg _).trans (a3 0 0 h0 w0)
    refine ⟨_, by rw [ex0]; exact floatStep_ofF hA a _ _, valS (n0, o0) p0,
      ⟨by rw [ex0]; exact exactly_ofF _, by rw [ex0]; exact exactly_ofF _⟩, _, _, exactly_ofF _, exactly_ofF _, fun ha => ?_⟩
    have := H u R A η u0 η0 hs hu hA a (n0, o0) p0 ha
      (norm_fld_le M0 fun i j => a3 _ _ (ZMod.val_lt i) (ZMod.val_lt j))
      (norm_fld_le M0 fun i j => b3 _ _ (ZMod.val_lt i) (ZMod.val_lt j))
      (norm_fld_le M0 fun i j => c3 _ _ (ZMod.val_lt i) (ZMod.val_lt j))
    exact ⟨avg_near fun i j => (abs_le_of_norm this i j).1, avg_near fun i j => (abs_le_of_norm this i j).2⟩
  refine ⟨fun a x hx => ⟨_, (step a x hx).choose_spec.1⟩, fun a x k => ?_⟩
  have hKe : 0 ≤ K * (u + η) := by positivity
  have one : ∀ j, (|(a j).dt| ≤ M ∧ FloatBounded h w M (x j) ∧ floatStep A hw dx (a j) (x j) = .ok (x (j + 1))) →
      |(amean (exactly (x (j + 1)).density) - amean (exactly (x (j + 1)).omega))
            - (amean (exactly (x j).density) - amean (exactly (x j).omega))| ≤ 2 * K * (u + η) ∧
          (hw.zonal = true ∨ hw.c1 = 0 →
            |amean (exactly (x (j + 1)).density) - amean (exactly (x j).density)| ≤ 2 * K * (u + η) ∧
            |amean (exactly (x (j + 1)).omega) - amean (exactly (x j).omega)| ≤ 2 * K * (u + η)) := by
    rintro j ⟨q1, q2, q3⟩
    obtain ⟨x', e, v, ⟨v1, v2⟩, f, g, f1, g1, F⟩ := step (a j) (x j) q2
    rw [q3] at e
    injection e with e
    subst e
    obtain ⟨F1, F2⟩ := F q1
    rw [v1, v2, f1, g1]
    simp only [amean_ofField]
    have d := stepS_diff (dx := dx) hN (a j) v
    refine ⟨?_, fun hz => ?_⟩
    · rw [abs_le] at *
      constructor <;> linarith
    · obtain ⟨d1, d2⟩ := stepS_means (dx := dx) hN hz (a j) v
      rw [abs_le] at F1 F2
      refine ⟨?_, ?_⟩
      · rw [abs_le]; constructor <;> linarith
      · rw [abs_le]; constructor <;> linarith
  induction k with
  | zero => intro _; simp
  | succ k ih =>
    intro hj
    obtain ⟨i1, i2⟩ := ih fun j hjk => hj j (by omega)
    obtain ⟨o1, o2⟩ := one k (hj k (by omega))
    refine ⟨?_, fun hz => ?_⟩
    · rw [abs_le] at *
      push_cast
      constructor <;> linarith
    · obtain ⟨i3, i4⟩ := i2 hz
      obtain ⟨o3, o4⟩ := o2 hz
      rw [abs_le] at i3 i4 o3 o4
      push_cast
      refine ⟨?_, ?_⟩
      · rw [abs_le]; constructor <;> linarith
      · rw [abs_le]; constructor <;> linarith

/-- computed runs exist -/
example : ∃ p : ℕ → NS Val, p 0 = demoState ∧ ∀ k : ℕ,
    |(amean (arrOf (p k) "density") - amean (arrOf (p k) "omega"))
        - (amean (arrOf (p 0) "density") - amean (arrOf (p 0) "omega"))| ≤ k * (2 * (1 / 1000)) := by
  obtain ⟨p, e, hp, -⟩ := computedRun_exists (hw := HW.init numpyBackend 1 3 1 (1 / 10) 1) (dx := 1) (h := 4) (w := 5)
    (by decide) (by decide) (.inl rfl) demoState demoState_isState (.rk4 (1 / 10)) (1 / 1000) (by norm_num)
  exact ⟨p, e, fun k => (C129_errors_add_up (by decide) (by decide) (.inl rfl) (.inl (by decide)) _ _ p hp k).1⟩

/-- floating-point runs of any length exist -/
example : ∃ (p : ℕ) (A : Gen.Arith (Rd (Rounded.binary p))) (η : ℝ) (x : ℕ → Gen.State (Rd (Rounded.binary p))),
    (∀ j, floatStep A (HW.init numpyBackend 1 3 1 (1 / 10) 1) 1 (if Even j then .rk4 (1 / 10) else .euler (1 / 20)) (x j)
      = .ok (x (j + 1))) ∧
    exactly (x 0).density = (tab 4 5 fun i j => ((i * j : ℕ) : ℝ)) ∧
    ∀ k : ℕ, ∃ K, |(amean (exactly (x k).density) - amean (exactly (x k).omega))
      - (amean (exactly (x 0).density) - amean (exactly (x 0).omega))| ≤ k * (K * ((2 : ℝ) ^ (-(p : ℤ)) + η)) := by
  have : NeZero 4 := ⟨by decide⟩
  have : NeZero 5 := ⟨by decide⟩
  obtain ⟨p, A, η, η0, hp, hA⟩ := C103_arithmetic_exists (hw := HW.init numpyBackend 1 3 1 (1 / 10) 1)
    (h := 4) (w := 5) (by decide) (by decide) (.inl rfl) 1 (1 / 100) (by norm_num)
  let st : ℕ → Step := fun j => if Even j then .rk4 (1 / 10) else .euler (1 / 20)
  let R := Rounded.binary p
  let start : (Gen.F (Rd R) 4 5 × Gen.F (Rd R) 4 5) × Gen.F (Rd R) 4 5 :=
    ((fun i j => ⟨((i.val * j.val : ℕ) : ℝ)⟩, fun _ _ => ⟨1⟩), fun _ _ => ⟨0⟩)
  let Z : ℕ → (Gen.F (Rd R) 4 5 × Gen.F (Rd R) 4 5) × Gen.F (Rd R) 4 5 := fun j => Nat.rec start (fun j z =>
    (fsOf (faOf A 4 5 ⟨1⟩) (HW.init numpyBackend 1 3 1 (1 / 10) 1) 1 (st j) z.1 z.2,
      Gen.phiG (faOf A 4 5 ⟨1⟩) (fsOf (faOf A 4 5 ⟨1⟩) (HW.init numpyBackend 1 3 1 (1 / 10) 1) 1 (st j) z.1 z.2).2)) j
  have hx : ∀ j, floatStep A (HW.init numpyBackend 1 3 1 (1 / 10) 1) 1 (st j) (Gen.ofF (Z j).1 (Z j).2)
      = .ok (Gen.ofF (Z (j + 1)).1 (Z (j + 1)).2) := fun j => floatStep_ofF hA (st j) _ _
  refine ⟨p, A, η, fun j => Gen.ofF (Z j).1 (Z j).2, hx, ?_, fun k => ?_⟩
  · refine (exactly_ofF _).trans (tab_congr rfl rfl fun i j hi hj => ?_)
    change (((i : ZMod 4).val * (j : ZMod 5).val : ℕ) : ℝ) = _
    rw [ZMod.val_natCast, ZMod.val_natCast, Nat.mod_eq_of_lt hi, Nat.mod_eq_of_lt hj]
  have hM : ∃ M : ℝ, 1 ≤ M ∧ ∀ j < k, FloatBounded 4 5 M (Gen.ofF (Z j).1 (Z j).2) := by
    induction k with
    | zero => exact ⟨1, le_rfl, fun j hj => absurd hj (Nat.not_lt_zero _)⟩
    | succ k ih =>
      obtain ⟨M, M1, hM⟩ := ih
      obtain ⟨M2, h2⟩ := exists_bound (Z k).1.1
      obtain ⟨M3, h3⟩ := exists_bound (Z k).1.2
      obtain ⟨M4, h4⟩ := exists_bound (Z k).2
      have mono : ∀ {a : Arr (Rd R)} {M M' : ℝ}, M ≤ M' → Bounded 4 5 a M → Bounded 4 5 a M' :=
        fun l hb => ⟨hb.1, hb.2.1, fun i j hi hj => (hb.2.2 i j hi hj).trans l⟩
      refine ⟨max M (max M2 (max M3 M4)), le_max_of_le_left M1, fun j hj => ?_⟩
      rcases Nat.lt_succ_iff_lt_or_eq.1 hj with hj | rfl
      · obtain ⟨b1, b2, b3⟩ := hM j hj
        exact ⟨mono (le_max_left _ _) b1, mono (le_max_left _ _) b2, mono (le_max_left _ _) b3⟩
      · exact ⟨bounded_ofF fun i j => (h2 i j).trans (by simp), bounded_ofF fun i j => (h3 i j).trans (by simp),
          bounded_ofF fun i j => (h4 i j).trans (by simp)⟩
  obtain ⟨M, M1, hM⟩ := hM
  obtain ⟨K, -, H⟩ := C129_float_drift (hw := HW.init numpyBackend 1 3 1 (1 / 10) 1) (dx := 1) (h := 4) (w := 5)
    (by decide) (by decide) (.inl rfl) one_ne_zero (.inl (by decide)) M
  have u0 : (0 : ℝ) ≤ 2 ^ (-(p : ℤ)) := by positivity
  have hN : ((HW.init numpyBackend 1 3 1 (1 / 10) 1).N : ℝ) = 3 := by norm_num [HW.init]
  refine ⟨K, ((H _ R A η u0 η0 (by linarith) (by rw [hN]; nlinarith) hA).2 st _ k fun j hj => ⟨?_, hM j hj, hx j⟩).1⟩
  simp only [st]
  split_ifs
  · simp only [Step.dt]; rw [abs_of_pos] <;> linarith
  · simp only [Step.dt]; rw [abs_of_pos] <;> linarith

end Verif.Props
