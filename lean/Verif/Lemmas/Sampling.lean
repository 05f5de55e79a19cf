import Verif.Lemmas.Accuracy
import Verif.Spec.HW

/-!
# Difference operators on sampled functions
-/

set_option linter.unusedSectionVars false

namespace Verif

open Spec Arr

variable {h w : ℕ} [NeZero h] [NeZero w]

/-- samples of a function on the grid -/
noncomputable def samp (h w : ℕ) (dx : ℝ) (F : ℝ → ℝ → ℝ) : Fld h w :=
  fun i j => F (i.val * dx) (j.val * dx)

/-- periodic over the box -/
structure Per (h w : ℕ) (dx : ℝ) (F : ℝ → ℝ → ℝ) : Prop where
  y : ∀ y x, F (y + h * dx) x = F y x
  x : ∀ y x, F y (x + w * dx) = F y x

theorem val_succ_cases {n : ℕ} [NeZero n] (i : ZMod n) :
    (i + 1).val = i.val + 1 ∨ ((i + 1).val = 0 ∧ i.val + 1 = n) := by
  have h1 : (i + 1).val = (i.val + 1) % n := by
    rw [ZMod.val_add]
    rcases Nat.lt_or_ge 1 n with hn | hn
    · have : Fact (1 < n) := ⟨hn⟩
      rw [ZMod.val_one]
    · have : n = 1 := by have := NeZero.pos n; omega
      subst this
      simp [Nat.mod_one]
  have h2 := ZMod.val_lt i
  rcases Nat.lt_or_ge (i.val + 1) n with h3 | h3
  · left; rw [h1, Nat.mod_eq_of_lt h3]
  · right
    have : i.val + 1 = n := by omega
    exact ⟨by rw [h1, this, Nat.mod_self], this⟩

/-- next grid point of a periodic function -/
theorem per_up {n : ℕ} [NeZero n] {f : ℝ → ℝ} {dx : ℝ} (hf : ∀ t, f (t + n * dx) = f t) (i : ZMod n) :
    f ((i + 1).val * dx) = f (i.val * dx + dx) := by
  rcases val_succ_cases i with e | ⟨e, e'⟩
  · rw [e]; congr 1; push_cast; ring
  · rw [e, ← hf]
    have e2 : (n : ℝ) = (i.val : ℝ) + 1 := by exact_mod_cast e'.symm
    congr 1
    rw [e2]; push_cast; ring

/-- previous grid point of a periodic function -/
theorem per_down {n : ℕ} [NeZero n] {f : ℝ → ℝ} {dx : ℝ} (hf : ∀ t, f (t + n * dx) = f t) (i : ZMod n) :
    f ((i - 1).val * dx) = f (i.val * dx - dx) := by
  have := per_up (f := fun t => f (t - dx)) (dx := dx) (fun t => by
    rw [← hf (t - dx)]; congr 1; ring) (i - 1)
  simp only [sub_add_cancel, add_sub_cancel_right] at this
  exact this.symm

variable {dx : ℝ} {F G : ℝ → ℝ → ℝ}

section
variable (hF : Per h w dx F)
include hF
theorem sampUp (i : ZMod h) (x : ℝ) : F ((i + 1).val * dx) x = F (i.val * dx + dx) x :=
  per_up (f := fun t => F t x) (fun t => hF.y t x) i
theorem sampDown (i : ZMod h) (x : ℝ) : F ((i - 1).val * dx) x = F (i.val * dx - dx) x :=
  per_down (f := fun t => F t x) (fun t => hF.y t x) i
theorem sampRight (y : ℝ) (j : ZMod w) : F y ((j + 1).val * dx) = F y (j.val * dx + dx) :=
  per_up (f := fun t => F y t) (fun t => hF.x y t) j
theorem sampLeft (y : ℝ) (j : ZMod w) : F y ((j - 1).val * dx) = F y (j.val * dx - dx) :=
  per_down (f := fun t => F y t) (fun t => hF.x y t) j

theorem lap_samp : lap dx (samp h w dx F) = samp h w dx (Lh dx F) := by
  funext i j
  simp only [lap, samp, Lh, sampUp hF, sampDown hF, sampRight hF, sampLeft hF]

theorem gradY_samp : gradY dx (samp h w dx F) = samp h w dx (cdY dx F) := by
  funext i j
  simp only [gradY, samp, cdY, sampUp hF, sampDown hF]; norm_num

theorem gradX_samp : gradX dx (samp h w dx F) = samp h w dx (cdX dx F) := by
  funext i j
  simp only [gradX, samp, cdX, sampRight hF, sampLeft hF]; norm_num

theorem jac_samp (hG : Per h w dx G) :
    jac dx (samp h w dx F) (samp h w dx G) = samp h w dx (Jh dx F G) := by
  funext i j
  simp only [jac, samp, Jh, sampUp hF, sampDown hF, sampRight hF, sampLeft hF, sampUp hG, sampDown hG,
    sampRight hG, sampLeft hG]

theorem Per.lh (s : ℝ) : Per h w dx (Lh s F) where
  y y x := by
    simp only [Lh]
    have e1 : ∀ x, F (y + h * dx - s) x = F (y - s) x := fun x => by
      rw [← hF.y (y - s)]; congr 1; ring
    have e2 : ∀ x, F (y + h * dx + s) x = F (y + s) x := fun x => by
      rw [← hF.y (y + s)]; congr 1; ring
    simp only [e1, e2, hF.y]
  x y x := by
    simp only [Lh]
    have e1 : ∀ y, F y (x + w * dx - s) = F y (x - s) := fun y => by
      rw [← hF.x y (x - s)]; congr 1; ring
    have e2 : ∀ y, F y (x + w * dx + s) = F y (x + s) := fun y => by
      rw [← hF.x y (x + s)]; congr 1; ring
    simp only [e1, e2, hF.x]

theorem lap_iterate_samp (m : ℕ) :
    (lap dx)^[m] (samp h w dx F) = samp h w dx ((Lh dx)^[m] F) := by
  induction m generalizing F with
  | zero => rfl
  | succ m ih => rw [Function.iterate_succ_apply, lap_samp hF, ih (hF.lh dx), Function.iterate_succ_apply]
end

theorem samples_eq {a : Arr ℝ} (ha : Samples dx F a) : a = ofField (samp a.h a.w dx F) := by
  refine ext_at' rfl rfl fun i j hi hj => ?_
  rw [ha.entry i j hi hj, ofField_at' _ hi hj]
  simp only [samp, ZMod.val_natCast, Nat.mod_eq_of_lt hi, Nat.mod_eq_of_lt hj]

theorem samples_per {a : Arr ℝ} (ha : Samples dx F a) : Per a.h a.w dx F := ⟨ha.periodY, ha.periodX⟩

theorem samp_at {i j : ℕ} (hi : i < h) (hj : j < w) :
    (ofField (samp h w dx F)).at' i j = F (i * dx) (j * dx) := by
  rw [ofField_at' _ hi hj]
  simp only [samp, ZMod.val_natCast, Nat.mod_eq_of_lt hi, Nat.mod_eq_of_lt hj]

end Verif
