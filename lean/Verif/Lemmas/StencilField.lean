import Verif.Lemmas.Stencil
import Mathlib.Data.Real.Basic
import Mathlib.Tactic.FieldSimp

/-!
# The remaining bracket implementations over a field
-/

namespace Verif

open Arr

variable {K : Type} [Field K] {h w : ℕ} [NeZero h] [NeZero w]

private theorem natsub1 {n : ℕ} (i : ℕ) :
    (((1 + i - 1 : ℕ) : ZMod n) - ((1 : ℕ) : ZMod n)) = i - 1 := by
  rw [Nat.add_sub_cancel_left]; push_cast; ring
private theorem natadd1 {n : ℕ} (i : ℕ) :
    (((1 + i + 1 : ℕ) : ZMod n) - ((1 : ℕ) : ZMod n)) = i + 1 := by
  push_cast; ring

theorem numpy_arakawa_ofField [Inhabited K] (mem : ℕ → ℕ → K) (z p : ZMod h → ZMod w → K) (dx : K) :
    NumpyArakawa.periodic_arakawa mem (ofField z) (ofField p) dx
      = .ok (ofField (Spec.jac dx z p)) := by
  simp only [NumpyArakawa.periodic_arakawa, padWrap_ofField, Py.ok_bind]
  unfold NumpyArakawa.arakawa
  rw [if_neg (by simp)]
  simp only [ok_divs, Py.ok_bind, Py.pure_eq, mul_one, sl_11, tab_h, tab_w]
  congr 1
  refine tab_congr rfl rfl fun i j hi hj => ?_
  rw [if_pos ⟨by omega, by omega, by omega, by omega⟩]
  simp only [NumpyArakawa.jpp, NumpyArakawa.jpx, NumpyArakawa.jxp]
  have ev : ∀ (f : ZMod h → ZMod w → K) (a b : ℕ), a < h + 2 → b < w + 2 →
      (tab (h + 2) (w + 2) fun i j => f ((i : ZMod h) - (1 : ℕ)) ((j : ZMod w) - (1 : ℕ))).at' a b
        = f ((a : ZMod h) - (1 : ℕ)) ((b : ZMod w) - (1 : ℕ)) := fun f a b ha hb => tab_at' _ _ _ ha hb
  simp only [ev _ (1 + i) (1 + j + 1) (by omega) (by omega), ev _ (1 + i) (1 + j - 1) (by omega) (by omega),
    ev _ (1 + i + 1) (1 + j) (by omega) (by omega), ev _ (1 + i - 1) (1 + j) (by omega) (by omega),
    ev _ (1 + i + 1) (1 + j + 1) (by omega) (by omega), ev _ (1 + i + 1) (1 + j - 1) (by omega) (by omega),
    ev _ (1 + i - 1) (1 + j + 1) (by omega) (by omega), ev _ (1 + i - 1) (1 + j - 1) (by omega) (by omega),
    natsub1, natadd1, idx1, Spec.jac]
  rw [← add_div, ← add_div, div_div]
  congr 1
  · ring
  · push_cast; ring

theorem numba_arakawa_ofField [Inhabited K] (z p : ZMod h → ZMod w → K) (dx : K) :
    NumbaArakawa.periodic_arakawa (ofField z) (ofField p) dx
      = .ok (ofField (Spec.jac dx z p)) := by
  simp only [NumbaArakawa.periodic_arakawa, padWrap_ofField, Py.ok_bind, mul_one]
  unfold NumbaArakawa.arakawa NumbaArakawa.jpp NumbaArakawa.jpx NumbaArakawa.jxp
  obtain ⟨r1, hr1, hh1, hw1, hv1⟩ := stencil_padded (fun zeta psi : Int → Int → K =>
    ((zeta 0 1 - zeta 0 (-1)) * (psi 1 0 - psi (-1) 0)
      - (zeta 1 0 - zeta (-1) 0) * (psi 0 1 - psi 0 (-1))) / (((4 : ℕ) : K) * dx ^ 2)) z p
    (by intro z z' p p' hz hp; simp [hz, hp])
  obtain ⟨r2, hr2, hh2, hw2, hv2⟩ := stencil_padded (fun zeta psi : Int → Int → K =>
    (zeta 0 1 * (psi 1 1 - psi (-1) 1)
      - zeta 0 (-1) * (psi 1 (-1) - psi (-1) (-1))
      - zeta 1 0 * (psi 1 1 - psi 1 (-1))
      + zeta (-1) 0 * (psi (-1) 1 - psi (-1) (-1))) / (((4 : ℕ) : K) * dx ^ 2)) z p
    (by intro z z' p p' hz hp; simp [hz, hp])
  obtain ⟨r3, hr3, hh3, hw3, hv3⟩ := stencil_padded (fun zeta psi : Int → Int → K =>
    (zeta 1 1 * (psi 1 0 - psi 0 1)
      - zeta (-1) (-1) * (psi 0 (-1) - psi (-1) 0)
      - zeta 1 (-1) * (psi 1 0 - psi 0 (-1))
      + zeta (-1) 1 * (psi 0 1 - psi (-1) 0)) / (((4 : ℕ) : K) * dx ^ 2)) z p
    (by intro z z' p p' hz hp; simp [hz, hp])
  rw [hr1, hr2, hr3, eq_tab r1, eq_tab r2, eq_tab r3, hh1, hw1, hh2, hw2, hh3, hw3]
  simp only [ok_add, ok_divs, Py.ok_bind, Py.pure_eq, sl_11]
  congr 1
  refine tab_congr rfl rfl fun i j hi hj => ?_
  rw [hv1 i j hi hj, hv2 i j hi hj, hv3 i j hi hj, ← add_div, ← add_div, div_div]
  unfold Spec.jac
  congr 1
  · push_cast; simp only [← sub_eq_add_neg, add_zero]; ring
  · push_cast; ring

theorem phiml_arakawa_ofField [Inhabited K] (z p : ZMod h → ZMod w → K) (dx : K) :
    PhimlArakawa.periodic_arakawa_vec (ofField z) (ofField p) dx
      = .ok (ofField fun i j => - Spec.jac dx z p i j) := by
  simp only [PhimlArakawa.periodic_arakawa_vec, padWrap_ofField]
  simp only [Py.ok_bind, PhimlArakawa.arakawa_vec, mul_one, sl_01, sl_10, sl_12, sl_21, sl_22, sl_02,
    sl_20, sl_00, ok_add, ok_sub, ok_mul, ok_divs, idx0, idx1, idx2, ofField, Spec.jac]
  congr 1
  refine tab_congr rfl rfl fun i j hi hj => ?_
  rw [← neg_div]
  congr 1
  ring

end Verif
