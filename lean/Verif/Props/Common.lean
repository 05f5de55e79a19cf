import Verif.Lemmas.PhiField

/-!
# Vocabulary shared by the property theorems
-/

set_option linter.unusedSectionVars false

namespace Verif.Props

open Arr

/-- The two sets of numerical schemes the program can run with.  The Numba
frequency table is only correct up to 65536 points per axis (C14). -/
def Std (b : Backend) (h w : ℕ) : Prop :=
  b = numpyBackend ∨ (b = numbaBackend ∧ h ≤ 65536 ∧ w ≤ 65536)

theorem Std.good {b : Backend} {h w : ℕ} [NeZero h] [NeZero w] (hb : Std b h w) : b.Good h w := by
  rcases hb with rfl | ⟨rfl, hh, hw⟩
  · exact numpyBackend_good
  · exact numbaBackend_good hh hw

/-- entry-wise linear combination `x*a + y*b + c` of two equally shaped arrays -/
def lin (x : ℝ) (a : Arr ℝ) (y : ℝ) (b : Arr ℝ) (c : ℝ) : Arr ℝ :=
  tab a.h a.w fun i j => x * a.at' i j + y * b.at' i j + c

/-- sum of the entry-wise product of two equally shaped arrays -/
def inner (a b : Arr ℝ) : ℝ :=
  ∑ i ∈ Finset.range a.h, ∑ j ∈ Finset.range a.w, a.at' i j * b.at' i j

variable {h w : ℕ} [NeZero h] [NeZero w]

theorem inner_ofField (f g : Spec.Fld h w) :
    inner (ofField f) (ofField g) = S fun i j => f i j * g i j :=
  sum_range_at (h := h) (w := w) _ _ fun i j hi hj => by rw [ofField_at' f hi hj, ofField_at' g hi hj]

theorem lin_ofField (x y c : ℝ) (f g : Spec.Fld h w) :
    lin x (ofField f) y (ofField g) c = ofField fun i j => x * f i j + y * g i j + c :=
  tab_congr rfl rfl fun i j hi hj => by rw [ofField_at' f hi hj, ofField_at' g hi hj]

theorem at_ofField (f : Spec.Fld h w) : ∀ i j, i < h → j < w → (ofField f).at' i j = f i j :=
  fun _ _ hi hj => ofField_at' f hi hj

end Verif.Props
