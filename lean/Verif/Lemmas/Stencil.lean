import Verif.Model.Gradients
import Verif.Model.Arakawa
import Verif.Spec.Torus

/-!
# The stencil programs compute the torus operators (no algebraic laws used)
-/

namespace Verif

open Arr

/-- two arrays of the same shape are fields on the same torus -/
theorem Arr.exists_fields {α : Type} [Inhabited α] (a b : Arr α) (hh : b.h = a.h) (hw : b.w = a.w) :
    ∃ (h w : ℕ) (f g : ZMod h → ZMod w → α),
      h = a.h ∧ w = a.w ∧ a = ofField f ∧ b = ofField g := by
  refine ⟨a.h, a.w, a.field, fun i j => b.at' i.val j.val, rfl, rfl, (ofField_field a).symm, ?_⟩
  rw [eq_tab b]
  refine tab_congr hh hw fun i j hi hj => ?_
  rw [hh] at hi; rw [hw] at hj
  simp only [ZMod.val_natCast, Nat.mod_eq_of_lt hi, Nat.mod_eq_of_lt hj]
  rw [← eq_tab]

theorem idx0 {n : ℕ} (i : ℕ) : (((0 + i : ℕ) : ZMod n) - ((1 : ℕ) : ZMod n)) = i - 1 := by
  push_cast; ring
theorem idx1 {n : ℕ} (i : ℕ) : (((1 + i : ℕ) : ZMod n) - ((1 : ℕ) : ZMod n)) = i := by
  push_cast; ring
theorem idx2 {n : ℕ} (i : ℕ) : (((2 + i : ℕ) : ZMod n) - ((1 : ℕ) : ZMod n)) = i + 1 := by
  push_cast; ring

set_option linter.unusedSectionVars false
section lawless
variable {α : Type} [Inhabited α] [Add α] [Sub α] [Mul α] [Div α] [NatCast α] [Pow α ℕ]
variable {h w : ℕ}

/-- one Laplacian of a tabulated array whose entries are a torus field read at
an arbitrary offset -/
theorem numba_laplace_tab (f : ZMod h → ZMod w → α) (dx : α) (H W : ℕ) (p : ℕ) :
    NumbaGradients.laplace (tab (H + 2) (W + 2) fun i j =>
        f ((i : ZMod h) - ((p + 1 : ℕ) : ZMod h)) ((j : ZMod w) - ((p + 1 : ℕ) : ZMod w))) dx
      = .ok (tab H W fun i j =>
        Spec.lap dx f ((i : ZMod h) - (p : ZMod h)) ((j : ZMod w) - (p : ZMod w))) := by
  have e0 : ∀ {n : ℕ} (i : ℕ), (((0 + i : ℕ) : ZMod n) - ((p + 1 : ℕ) : ZMod n)) = i - p - 1 := by
    intro n i; push_cast; ring
  have e1 : ∀ {n : ℕ} (i : ℕ), (((1 + i : ℕ) : ZMod n) - ((p + 1 : ℕ) : ZMod n)) = i - p := by
    intro n i; push_cast; ring
  have e2 : ∀ {n : ℕ} (i : ℕ), (((2 + i : ℕ) : ZMod n) - ((p + 1 : ℕ) : ZMod n)) = i - p + 1 := by
    intro n i; push_cast; ring
  simp only [NumbaGradients.laplace, sl_01, sl_10, sl_11, sl_12, sl_21, ok_add, ok_sub, ok_smul,
    ok_divs, e0, e1, e2, Spec.lap]

theorem numpy_laplace_eq (a : Arr α) (dx : α) :
    NumpyGradients.laplace a dx = NumbaGradients.laplace a dx := rfl

variable [NeZero h] [NeZero w]

theorem numpy_periodic_laplace_ofField (f : ZMod h → ZMod w → α) (dx : α) :
    NumpyGradients.periodic_laplace (ofField f) dx = .ok (ofField (Spec.lap dx f)) := by
  unfold NumpyGradients.periodic_laplace
  rw [padWrap_ofField]
  change NumbaGradients.laplace _ dx = _
  have := numba_laplace_tab f dx h w 0
  simp only [Nat.cast_zero, sub_zero, zero_add] at this
  exact this

theorem numba_periodic_laplace_ofField (f : ZMod h → ZMod w → α) (dx : α) :
    NumbaGradients.periodic_laplace (ofField f) dx = .ok (ofField (Spec.lap dx f)) :=
  numpy_periodic_laplace_ofField f dx

theorem numpy_periodic_laplace_N_ofField (f : ZMod h → ZMod w → α) (dx : α) (N : ℕ) :
    NumpyGradients.periodic_laplace_N (ofField f) dx N
      = .ok (ofField ((Spec.lap dx)^[N] f)) := by
  induction N generalizing f with
  | zero => rfl
  | succ N ih =>
    simp only [NumpyGradients.periodic_laplace_N, numpy_periodic_laplace_ofField]
    change NumpyGradients.periodic_laplace_N (ofField (Spec.lap dx f)) dx N = _
    rw [ih, Function.iterate_succ_apply]

omit [NeZero h] [NeZero w] in
theorem numba_laplace_N_tab (f : ZMod h → ZMod w → α) (dx : α) (N p H W : ℕ) :
    NumbaGradients.laplace_N (tab (H + 2 * N) (W + 2 * N) fun i j =>
        f ((i : ZMod h) - ((p + N : ℕ) : ZMod h)) ((j : ZMod w) - ((p + N : ℕ) : ZMod w))) dx N
      = .ok (tab H W fun i j =>
        (Spec.lap dx)^[N] f ((i : ZMod h) - (p : ZMod h)) ((j : ZMod w) - (p : ZMod w))) := by
  induction N generalizing f with
  | zero => simp [NumbaGradients.laplace_N]
  | succ N ih =>
    unfold NumbaGradients.laplace_N
    have := numba_laplace_tab f dx (H + 2 * N) (W + 2 * N) (p + N)
    rw [show H + 2 * (N + 1) = H + 2 * N + 2 by ring, show W + 2 * (N + 1) = W + 2 * N + 2 by ring,
      show p + (N + 1) = p + N + 1 by ring, this]
    exact (ih _).trans (by rw [Function.iterate_succ_apply])

theorem numba_periodic_laplace_N_ofField (f : ZMod h → ZMod w → α) (dx : α) (N : ℕ) :
    NumbaGradients.periodic_laplace_N (ofField f) dx N
      = .ok (ofField ((Spec.lap dx)^[N] f)) := by
  unfold NumbaGradients.periodic_laplace_N
  rw [padWrap_ofField]
  change NumbaGradients.laplace_N _ dx N = _
  have := numba_laplace_N_tab f dx N 0 h w
  simp only [Nat.cast_zero, sub_zero, zero_add] at this
  exact this

theorem numpy_periodic_gradient_y (f : ZMod h → ZMod w → α) (dx : α) :
    NumpyGradients.periodic_gradient (ofField f) dx 0 = .ok (ofField (Spec.gradY dx f)) := by
  simp only [NumpyGradients.periodic_gradient, ite_self, padWrap_ofField]
  simp only [Py.ok_bind, NumpyGradients.gradient, if_true, mul_one, sl_01, sl_21, ok_sub, ok_divs,
    idx0, idx1, idx2, ofField, Spec.gradY]

theorem numpy_periodic_gradient_x (f : ZMod h → ZMod w → α) (dx : α) :
    NumpyGradients.periodic_gradient (ofField f) dx 1 = .ok (ofField (Spec.gradX dx f)) := by
  simp only [NumpyGradients.periodic_gradient, ite_self, padWrap_ofField]
  simp only [Py.ok_bind, NumpyGradients.gradient, one_ne_zero, if_false, if_true, mul_one, sl_10,
    sl_12, ok_sub, ok_divs, idx0, idx1, idx2, ofField, Spec.gradX]

theorem numpy_arakawa_vec_ofField (z p : ZMod h → ZMod w → α) (dx : α) :
    NumpyArakawa.periodic_arakawa_vec (ofField z) (ofField p) dx
      = .ok (ofField (Spec.jac dx z p)) := by
  simp only [NumpyArakawa.periodic_arakawa_vec, padWrap_ofField]
  simp only [Py.ok_bind, NumpyArakawa.arakawa_vec, mul_one, sl_01, sl_10, sl_12, sl_21, sl_22, sl_02,
    sl_20, sl_00, ok_add, ok_sub, ok_mul, ok_divs, idx0, idx1, idx2, ofField, Spec.jac]

theorem numba_arakawa_vec_ofField (z p : ZMod h → ZMod w → α) (dx : α) :
    NumbaArakawa.periodic_arakawa_vec (ofField z) (ofField p) dx
      = .ok (ofField (Spec.jac dx z p)) := numpy_arakawa_vec_ofField z p dx

/-- value of a numba stencil on arrays padded by one cell, interior part -/
theorem stencil_padded (k : (Int → Int → α) → (Int → Int → α) → α) (z p : ZMod h → ZMod w → α)
    (hk : ∀ z z' p p' : Int → Int → α,
      (∀ di dj, -1 ≤ di → di ≤ 1 → -1 ≤ dj → dj ≤ 1 → z di dj = z' di dj) →
      (∀ di dj, -1 ≤ di → di ≤ 1 → -1 ≤ dj → dj ≤ 1 → p di dj = p' di dj) → k z p = k z' p') :
    ∃ r : Arr α, NumbaArakawa.stencil k
        (tab (h + 2) (w + 2) fun i j => z ((i : ZMod h) - (1 : ℕ)) ((j : ZMod w) - (1 : ℕ)))
        (tab (h + 2) (w + 2) fun i j => p ((i : ZMod h) - (1 : ℕ)) ((j : ZMod w) - (1 : ℕ)))
        = .ok r ∧ r.h = h + 2 ∧ r.w = w + 2 ∧
      ∀ i j, i < h → j < w → r.at' (1 + i) (1 + j) =
        k (fun di dj => z ((i : ZMod h) + (di : ZMod h)) ((j : ZMod w) + (dj : ZMod w)))
          (fun di dj => p ((i : ZMod h) + (di : ZMod h)) ((j : ZMod w) + (dj : ZMod w))) := by
  refine ⟨_, by unfold NumbaArakawa.stencil; rw [if_neg (by simp)], rfl, rfl, ?_⟩
  intro i j hi hj
  rw [tab_at' _ _ _ (by rw [tab_h]; omega) (by rw [tab_w]; omega),
    if_pos (by rw [tab_h, tab_w]; exact ⟨by omega, by omega, by omega, by omega⟩)]
  have key : ∀ {n : ℕ} (i : ℕ) (d : Int), -1 ≤ d →
      (((((1 + i : ℕ) : Int) + d).toNat : ℕ) : ZMod n) - ((1 : ℕ) : ZMod n) = (i : ZMod n) + d := by
    intro n i d hd
    have : ((((1 + i : ℕ) : Int) + d).toNat : Int) = ((1 + i : ℕ) : Int) + d :=
      Int.toNat_of_nonneg (by omega)
    rw [← Int.cast_natCast (R := ZMod n) ((((1 + i : ℕ) : Int) + d).toNat), this]
    push_cast; ring
  apply hk
  · intro di dj h1 h2 h3 h4
    rw [tab_at' _ _ _ (by omega) (by omega), key i di h1, key j dj h3]
  · intro di dj h1 h2 h3 h4
    rw [tab_at' _ _ _ (by omega) (by omega), key i di h1, key j dj h3]

theorem numba_arakawa_stencil_ofField (z p : ZMod h → ZMod w → α) (dx : α) :
    NumbaArakawa.periodic_arakawa_stencil (ofField z) (ofField p) dx
      = .ok (ofField (Spec.jac dx z p)) := by
  simp only [NumbaArakawa.periodic_arakawa_stencil, padWrap_ofField]
  simp only [Py.ok_bind, NumbaArakawa.arakawa_stencil_full, NumbaArakawa.arakawa_stencil, mul_one]
  obtain ⟨r, hr, hh, hw, hv⟩ := stencil_padded (fun zeta psi : Int → Int → α =>
    zeta 0 1 * (psi 1 0 - psi (-1) 0 + psi 1 1 - psi (-1) 1)
      - zeta 0 (-1) * (psi 1 0 - psi (-1) 0 + psi 1 (-1) - psi (-1) (-1))
      - zeta 1 0 * (psi 0 1 - psi 0 (-1) + psi 1 1 - psi 1 (-1))
      + zeta (-1) 0 * (psi 0 1 - psi 0 (-1) + psi (-1) 1 - psi (-1) (-1))
      + zeta (-1) 1 * (psi 0 1 - psi (-1) 0)
      + zeta 1 1 * (psi 1 0 - psi 0 1)
      - zeta 1 (-1) * (psi 1 0 - psi 0 (-1))
      - zeta (-1) (-1) * (psi 0 (-1) - psi (-1) 0)) z p
    (by intro z z' p p' hz hp; simp [hz, hp])
  rw [hr]
  change (.ok (r.sl s1m1 s1m1) : Py (Arr α)) / (((12 : ℕ) : α) * dx ^ 2) = _
  have hs : r.sl s1m1 s1m1 = tab h w fun i j => r.at' (1 + i) (1 + j) := by
    conv_lhs => rw [eq_tab r, hh, hw]
    rw [sl_11]
  rw [hs, ok_divs]
  congr 1
  refine tab_congr rfl rfl fun i j hi hj => ?_
  rw [hv i j hi hj]
  simp [Spec.jac, sub_eq_add_neg]

end lawless

end Verif
