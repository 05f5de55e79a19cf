import Verif.Props.Movie
import Verif.Model.ColourRule
import Mathlib.Analysis.SpecialFunctions.Pow.Continuity
import Mathlib.Analysis.SpecificLimits.Basic

/-!
# C144: the colour limits of a movie return to the size of the data
-/

set_option linter.unusedSectionVars false

namespace Verif.Props

open H5IO Movie Filter Topology

section field

variable {K : Type} [Field K] [LinearOrder K] [IsStrictOrderedRing K] [FloorRing K]

/-- what a frame of a movie shows of the array `arr`: with zero mean, if this is asked for -/
def shownArr (zero_omega : Bool) (name : String) (arr : Arr K) : Arr K :=
  if zero_omega = true ∧ name = "omega" then arr.map (· - arr.mean) else arr

/-- **C144.**  The limits of every animation frame, from every previous state of the axis: with `V` the largest absolute
value of the frame and `P` the previous limit, the new one is `V` or, if this is larger, the mean of `V` and `P`. -/
theorem C144_limit (hf : String → Option (List (Arr K))) (zero_omega : Bool) (t : ℤ) (name : String) (ax ax' : Axis K)
    (h : animateAxis hf zero_omega t name ax = .ok ax') :
    ∃ ds arr V, hf name = some ds ∧ h5row ds t = .ok arr ∧
      IsGreatest {x | ∃ i j, x = |(shownArr zero_omega name arr).get i j|} V ∧
      ax'.clim.2 = max V ((V + max |ax.clim.1| ax.clim.2) / 2) := by
  unfold animateAxis at h
  cases hds : hf name with
  | none => rw [hds] at h; cases h
  | some ds =>
    rw [hds] at h
    cases harr : h5row ds t with
    | error e => simp only [harr, Py.ok_bind, Py.error_bind] at h; cases h
    | ok arr =>
      refine ⟨ds, arr, ?_⟩
      unfold shownArr
      simp only [harr, Py.ok_bind] at h
      generalize (if zero_omega = true ∧ name = "omega" then arr.map (· - arr.mean) else arr) = a at h ⊢
      cases hM : npMax a with
      | error e => simp only [hM, Py.error_bind] at h; cases h
      | ok vmax =>
        cases hm : npMin a with
        | error e => simp only [hM, hm, Py.ok_bind, Py.error_bind] at h; cases h
        | ok vmin =>
          simp only [hM, hm, Py.ok_bind] at h
          injection h with h
          subst h
          obtain ⟨⟨iM, jM, eM⟩, hM'⟩ := npMax_spec a vmax hM
          obtain ⟨⟨im, jm, em⟩, hm'⟩ := npMin_spec a vmin hm
          refine ⟨max |vmin| vmax, rfl, harr, ⟨?_, ?_⟩, ?_⟩
          · rcases le_total |vmin| vmax with h | h
            · exact ⟨iM, jM, by rw [max_eq_right h, eM, abs_of_nonneg]; exact (abs_nonneg _).trans h⟩
            · exact ⟨im, jm, by rw [max_eq_left h, em]⟩
          · rintro x ⟨i, j, rfl⟩
            have h1 := hM' i j
            have h2 := hm' i j
            have h3 : vmax ≤ max |vmin| vmax := le_max_right _ _
            have h4 : -vmin ≤ max |vmin| vmax := (neg_le_abs _).trans (le_max_left _ _)
            exact abs_le.mpr ⟨by linarith, by linarith⟩
          · change new_cbar_max_smooth (max |vmin| vmax) (max |ax.clim.1| ax.clim.2) = _
            unfold new_cbar_max_smooth
            generalize max |vmin| vmax = V
            generalize max |ax.clim.1| ax.clim.2 = P
            split_ifs with h
            · exact (max_eq_right (by linarith)).symm
            · exact (max_eq_left (by linarith)).symm

theorem animate_at {hf : String → Option (List (Arr K))} {zero_omega : Bool} {t : ℤ} :
    ∀ {axes axes' : List (String × Axis K)}, animate hf zero_omega t axes = .ok axes' →
      ∀ {p : ℕ} {name : String} {ax : Axis K}, axes[p]? = some (name, ax) →
      ∃ ax', axes'[p]? = some (name, ax') ∧ animateAxis hf zero_omega t name ax = .ok ax' := by
  intro axes
  induction axes with
  | nil => intro axes' _ p name ax h; cases h
  | cons x rest ih =>
    obtain ⟨n, b⟩ := x
    intro axes' h p name ax hp
    unfold animate at h
    cases h1 : animateAxis hf zero_omega t n b with
    | error e => rw [h1] at h; cases h
    | ok b' =>
      cases h2 : animate hf zero_omega t rest with
      | error e => rw [h1, h2] at h; cases h
      | ok rest' =>
        rw [h1, h2] at h
        injection h with h
        subst h
        cases p with
        | zero =>
          cases hp
          exact ⟨b', rfl, h1⟩
        | succ p => exact ih h2 hp

/-- **C144.**  A whole movie: if no value of the frames shown exceeds `m`, the part of the limit of an axis that exceeds
`m` is at least halved with every frame, whatever the limits were at the start. -/
theorem C144_limits_return (hf : String → Option (List (Arr K))) (zero_omega : Bool) (m : K) (name : String) (p : ℕ) :
    ∀ (ts : List ℤ) (axes : List (String × Axis K)) (states : List (List (String × Axis K))) (ax : Axis K),
      animation hf zero_omega ts axes = .ok states → axes[p]? = some (name, ax) →
      (∀ t ∈ ts, ∀ ds arr, hf name = some ds → h5row ds t = .ok arr → ∀ i j, |(shownArr zero_omega name arr).get i j| ≤ m) →
      ∀ k s, states[k]? = some s → ∃ ax', s[p]? = some (name, ax') ∧ ax'.clim.1 = -ax'.clim.2 ∧
        ax'.clim.2 ≤ m + max 0 (max |ax.clim.1| ax.clim.2 - m) / 2 ^ (k + 1) := by
  intro ts
  induction ts with
  | nil =>
    intro axes states ax h _ _ k s hk
    injection h with h
    subst h
    cases hk
  | cons t ts ih =>
    intro axes states ax h hp hm k s hk
    unfold animation at h
    cases h1 : animate hf zero_omega t axes with
    | error e => rw [h1] at h; cases h
    | ok axes' =>
      cases h2 : animation hf zero_omega ts axes' with
      | error e => simp only [h1, h2, Py.ok_bind, Py.error_bind] at h; cases h
      | ok rest =>
        simp only [h1, h2, Py.ok_bind] at h
        injection h with h
        subst h
        obtain ⟨ax1, q1, q2⟩ := animate_at h1 hp
        obtain ⟨ds, arr, V, d1, d2, ⟨⟨i, j, hV⟩, hVge⟩, hL⟩ := C144_limit hf zero_omega t name ax ax1 q2
        obtain ⟨_, _, _, _, hs⟩ := C67_frame hf zero_omega t name ax ax1 q2
        have hVm : V ≤ m := hV ▸ hm t List.mem_cons_self ds arr d1 d2 i j
        have hV0 : 0 ≤ V := hV ▸ abs_nonneg _
        have hstep : ax1.clim.2 ≤ m + max 0 (max |ax.clim.1| ax.clim.2 - m) / 2 := by
          have e1 := le_max_left 0 (max |ax.clim.1| ax.clim.2 - m)
          have e2 := le_max_right 0 (max |ax.clim.1| ax.clim.2 - m)
          rw [hL]
          refine max_le ?_ ?_ <;> linarith
        cases k with
        | zero =>
          cases hk
          exact ⟨ax1, q1, hs.symm, by simpa using hstep⟩
        | succ k =>
          obtain ⟨ax', r1, r2, r3⟩ := ih axes' rest ax1 h2 q1 (fun t ht => hm t (List.mem_cons_of_mem _ ht)) k s hk
          refine ⟨ax', r1, r2, r3.trans ?_⟩
          have hpos : 0 ≤ ax1.clim.2 := by rw [hL]; exact hV0.trans (le_max_left _ _)
          have hsame : max |ax1.clim.1| ax1.clim.2 = ax1.clim.2 := by
            rw [hs.symm, abs_neg, abs_of_nonneg hpos, max_self]
          rw [hsame, pow_succ (2 : K) (k + 1), ← div_div _ ((2 : K) ^ (k + 1)) 2, div_right_comm]
          have e1 : max 0 (ax1.clim.2 - m) ≤ max 0 (max |ax.clim.1| ax.clim.2 - m) / 2 := by
            refine max_le (by positivity) (by linarith)
          gcongr

end field

/-- **C144** is not true of `new_cbar_max`, the other rule of the file: if the data keep the largest absolute value `V`,
the limit does not return to `V` but tends to `V + 1`, whatever the unit of the data, from every limit above `V`. -/
theorem C144_sqrt_violated (V P : ℝ) (h : V < P) :
    (∀ k, (new_cbar_max V)^[k] P = V + (P - V) ^ ((1 / 2 : ℝ) ^ k)) ∧
    Tendsto (fun k => (new_cbar_max V)^[k] P) atTop (𝓝 (V + 1)) ∧
    (P < V + 1 → P < new_cbar_max V P) := by
  have hd : 0 < P - V := by linarith
  have key : ∀ k, (new_cbar_max V)^[k] P = V + (P - V) ^ ((1 / 2 : ℝ) ^ k) := by
    intro k
    induction k with
    | zero => simp
    | succ k ih =>
      rw [Function.iterate_succ_apply', ih]
      have hpos : 0 < (P - V) ^ ((1 / 2 : ℝ) ^ k) := Real.rpow_pos_of_pos hd _
      unfold new_cbar_max
      rw [if_pos (by linarith), add_sub_cancel_left, Real.sqrt_eq_rpow, ← Real.rpow_mul hd.le, pow_succ]
  refine ⟨key, ?_, fun h1 => ?_⟩
  · simp only [key]
    refine Tendsto.const_add _ ?_
    have h0 : Tendsto (fun k : ℕ => (1 / 2 : ℝ) ^ k) atTop (𝓝 0) :=
      tendsto_pow_atTop_nhds_zero_of_lt_one (by norm_num) (by norm_num)
    have := (Real.continuous_const_rpow hd.ne').tendsto 0
    rw [Real.rpow_zero] at this
    exact this.comp h0
  · unfold new_cbar_max
    rw [if_pos h]
    have : P - V < Real.sqrt (P - V) := by
      rw [Real.lt_sqrt hd.le, sq]
      nlinarith
    linarith

/-! ### non-vacuity -/

/-- data of size 1 after limits of 9: 5, 3, 2 -/
def quietFile : String → Option (List (Arr ℚ)) :=
  fun _ => some (List.replicate 3 ⟨2, 2, fun i _ => if i = 0 then 1 else -1⟩)

def quietAxes : List (String × Axis ℚ) := [("phi", ⟨⟨2, 2, fun _ _ => 9⟩, (-9, 9)⟩)]

def quietLimits : Py (List (List ℚ)) := (animation quietFile false [0, 1, 2] quietAxes).map fun l => l.map fun s => s.map fun x => x.2.clim.2

example : quietLimits = .ok [[5], [3], [2]] := by decide +kernel

example : ∃ states, animation quietFile false [0, 1, 2] quietAxes = .ok states ∧ states.length = 3 ∧
    ∀ k s, states[k]? = some s → ∃ ax' : Axis ℚ, s[0]? = some ("phi", ax') ∧ ax'.clim.1 = -ax'.clim.2 ∧
      ax'.clim.2 ≤ 1 + 8 / 2 ^ (k + 1) := by
  have h : quietLimits = .ok [[5], [3], [2]] := by decide +kernel
  unfold quietLimits at h
  cases e : animation quietFile false [0, 1, 2] quietAxes with
  | error x => rw [e] at h; cases h
  | ok states =>
    rw [e] at h
    refine ⟨states, rfl, ?_, fun k s hk => ?_⟩
    · have h := congrArg List.length (Except.ok.inj h)
      simpa using h
    · obtain ⟨ax', r1, r2, r3⟩ := C144_limits_return quietFile false 1 "phi" 0 [0, 1, 2] quietAxes states _ e rfl
        (by
          intro t ht ds arr hd ha i j
          cases hd
          have : arr = ⟨2, 2, fun i _ => if i = 0 then 1 else -1⟩ := by
            simp only [List.mem_cons, List.not_mem_nil, or_false] at ht
            rcases ht with rfl | rfl | rfl <;> exact (Except.ok.inj ha).symm
          subst this
          change Fin 2 at i
          change |if i = 0 then (1 : ℚ) else -1| ≤ 1
          split_ifs <;> simp) k s hk
      refine ⟨ax', r1, r2, r3.trans (le_of_eq ?_)⟩
      norm_num

example := C144_sqrt_violated 1 (5 / 4) (by norm_num)

end Verif.Props
