import Verif.Lemmas.StencilField
import Verif.Lemmas.TorusSums
import Verif.NumPy.Reduce
import Verif.Spec.Index
import Mathlib.Data.Rat.Defs
import Mathlib.Tactic.NormNum

/-!
# Property theorems C01–C08: difference operators and Poisson bracket

In `section anyArithmetic` the scalar operations are arbitrary functions: the
theorems hold for IEEE floats including rounding, infinities and NaN.
-/

namespace Verif.Props

open Arr Spec

set_option linter.unusedSectionVars false

section helpers
variable {α : Type} [Inhabited α] {h w : ℕ}

private theorem cast_up {n : ℕ} (i : ℕ) : ((up n i : ℕ) : ZMod n) = i + 1 := by
  unfold up; rw [ZMod.natCast_mod]; push_cast; rfl
private theorem cast_down {n : ℕ} [NeZero n] (i : ℕ) : ((down n i : ℕ) : ZMod n) = i - 1 := by
  unfold down
  have := NeZero.pos n
  rw [ZMod.natCast_mod, Nat.cast_add, Nat.cast_sub this]; simp; ring
private theorem up_lt {n i : ℕ} (hn : 0 < n) : up n i < n := Nat.mod_lt _ hn
private theorem down_lt {n i : ℕ} (hn : 0 < n) : down n i < n := Nat.mod_lt _ hn

end helpers

section anyArithmetic
variable {α : Type} [Inhabited α] [Add α] [Sub α] [Mul α] [Div α] [NatCast α] [Pow α ℕ]

/-! ## C01 -/

/-- **C01 (Laplacian).** On every non-empty array `periodic_laplace` succeeds,
keeps the shape and computes the five-point stencil over wrap-around
neighbours, in exactly this order of operations. -/
theorem C01_periodic_laplace (a : Arr α) (dx : α) (hh : 0 < a.h) (hw : 0 < a.w) :
    ∃ r, NumpyGradients.periodic_laplace a dx = .ok r ∧ r.h = a.h ∧ r.w = a.w ∧
      ∀ i j, i < a.h → j < a.w → r.at' i j =
        (a.at' (down a.h i) j + a.at' i (down a.w j) - ((4 : ℕ) : α) * a.at' i j
          + a.at' i (up a.w j) + a.at' (up a.h i) j) / dx ^ 2 := by
  obtain ⟨h, w, f, g, e1, e2, e3, -⟩ := exists_fields a a rfl rfl
  rw [← e1] at hh; rw [← e2] at hw
  have : NeZero h := ⟨hh.ne'⟩
  have : NeZero w := ⟨hw.ne'⟩
  subst e3
  refine ⟨_, numpy_periodic_laplace_ofField f dx, rfl, rfl, ?_⟩
  intro i j hi hj
  simp only [ofField_h, ofField_w] at hi hj ⊢
  rw [ofField_at' _ hi hj, ofField_at' _ (down_lt hh) hj, ofField_at' _ hi (down_lt hw),
    ofField_at' _ hi hj, ofField_at' _ hi (up_lt hw), ofField_at' _ (up_lt hh) hj]
  simp only [Spec.lap, cast_up, cast_down]

/-- **C01 (gradient along y, axis 0 or −2).** -/
theorem C01_periodic_gradient_y (a : Arr α) (dx : α) (axis : Int) (hax : axis = 0 ∨ axis = -2)
    (hh : 0 < a.h) (hw : 0 < a.w) :
    ∃ r, NumpyGradients.periodic_gradient a dx axis = .ok r ∧ r.h = a.h ∧ r.w = a.w ∧
      ∀ i j, i < a.h → j < a.w → r.at' i j =
        (a.at' (up a.h i) j - a.at' (down a.h i) j) / (((2 : ℕ) : α) * dx) := by
  obtain ⟨h, w, f, g, e1, e2, e3, -⟩ := exists_fields a a rfl rfl
  rw [← e1] at hh; rw [← e2] at hw
  have : NeZero h := ⟨hh.ne'⟩
  have : NeZero w := ⟨hw.ne'⟩
  subst e3
  have hy : NumpyGradients.periodic_gradient (ofField f) dx axis
      = .ok (ofField (Spec.gradY dx f)) := by
    rw [← numpy_periodic_gradient_y]
    rcases hax with rfl | rfl <;>
      simp [NumpyGradients.periodic_gradient, NumpyGradients.gradient]
  refine ⟨_, hy, rfl, rfl, ?_⟩
  intro i j hi hj
  simp only [ofField_h, ofField_w] at hi hj ⊢
  rw [ofField_at' _ hi hj, ofField_at' _ (up_lt hh) hj, ofField_at' _ (down_lt hh) hj]
  simp only [Spec.gradY, cast_up, cast_down]

/-- **C01 (gradient along x, axis 1 or −1).** -/
theorem C01_periodic_gradient_x (a : Arr α) (dx : α) (axis : Int) (hax : axis = 1 ∨ axis = -1)
    (hh : 0 < a.h) (hw : 0 < a.w) :
    ∃ r, NumpyGradients.periodic_gradient a dx axis = .ok r ∧ r.h = a.h ∧ r.w = a.w ∧
      ∀ i j, i < a.h → j < a.w → r.at' i j =
        (a.at' i (up a.w j) - a.at' i (down a.w j)) / (((2 : ℕ) : α) * dx) := by
  obtain ⟨h, w, f, g, e1, e2, e3, -⟩ := exists_fields a a rfl rfl
  rw [← e1] at hh; rw [← e2] at hw
  have : NeZero h := ⟨hh.ne'⟩
  have : NeZero w := ⟨hw.ne'⟩
  subst e3
  have hy : NumpyGradients.periodic_gradient (ofField f) dx axis
      = .ok (ofField (Spec.gradX dx f)) := by
    rw [← numpy_periodic_gradient_x]
    rcases hax with rfl | rfl <;>
      simp [NumpyGradients.periodic_gradient, NumpyGradients.gradient]
  refine ⟨_, hy, rfl, rfl, ?_⟩
  intro i j hi hj
  simp only [ofField_h, ofField_w] at hi hj ⊢
  rw [ofField_at' _ hi hj, ofField_at' _ hi (up_lt hw), ofField_at' _ hi (down_lt hw)]
  simp only [Spec.gradX, cast_up, cast_down]

/-- **C01 (rejection).** Empty arrays raise `ValueError` in both operators; an
unsupported axis yields `None`. -/
theorem C01_rejects (a : Arr α) (dx : α) :
    (a.h = 0 ∨ a.w = 0 → NumpyGradients.periodic_laplace a dx = .error .valueError ∧
      ∀ axis, NumpyGradients.periodic_gradient a dx axis = .error .valueError) ∧
    (0 < a.h → 0 < a.w → ∀ axis : Int, axis ∉ [0, 1, -1, -2] →
      NumpyGradients.periodic_gradient a dx axis = .error .noneResult) := by
  constructor
  · intro he
    have : a.padWrap 1 = .error .valueError := by
      unfold padWrap; rw [if_pos ⟨by omega, he⟩]
    simp [NumpyGradients.periodic_laplace, NumpyGradients.periodic_gradient, this]
  · intro hh hw axis hax
    simp only [List.mem_cons, List.not_mem_nil, or_false, not_or] at hax
    obtain ⟨b, this⟩ : ∃ b, a.padWrap 1 = .ok b := by
      unfold padWrap; rw [if_neg (by omega)]; exact ⟨_, rfl⟩
    simp [NumpyGradients.periodic_gradient, NumpyGradients.gradient, this, hax]

/-! ## C02 -/

/-- **C02.** The Numba operators return exactly what the NumPy operators
return, for every array (also empty), spacing, order `N` and axis 0/1. -/
theorem C02_backends_identical (a : Arr α) (dx : α) :
    NumbaGradients.periodic_laplace a dx = NumpyGradients.periodic_laplace a dx ∧
    (∀ N, NumbaGradients.periodic_laplace_N a dx N = NumpyGradients.periodic_laplace_N a dx N) ∧
    (∀ axis, axis = 0 ∨ axis = 1 →
      NumbaGradients.periodic_gradient a dx axis = NumpyGradients.periodic_gradient a dx axis) := by
  refine ⟨rfl, fun N => ?_, fun axis hax => ?_⟩
  · by_cases he : a.h = 0 ∨ a.w = 0
    · cases N with
      | zero =>
        have : a.padWrap 0 = .ok a := by
          unfold padWrap
          rw [if_neg (by omega)]
          congr 1
          conv_rhs => rw [eq_tab a]
          refine tab_congr (by omega) (by omega) fun i j hi hj => ?_
          omega
        simp [NumbaGradients.periodic_laplace_N, NumpyGradients.periodic_laplace_N,
          NumbaGradients.laplace_N, this]
      | succ N =>
        have h1 : a.padWrap (N + 1) = .error .valueError := by
          unfold padWrap; rw [if_pos ⟨by omega, he⟩]
        have h2 : a.padWrap 1 = .error .valueError := by
          unfold padWrap; rw [if_pos ⟨by omega, he⟩]
        simp [NumbaGradients.periodic_laplace_N, NumpyGradients.periodic_laplace_N,
          NumpyGradients.periodic_laplace, h1, h2]
    · push Not at he
      have : NeZero a.h := ⟨he.1⟩
      have : NeZero a.w := ⟨he.2⟩
      rw [← ofField_field a, numba_periodic_laplace_N_ofField, numpy_periodic_laplace_N_ofField]
  · rcases hax with rfl | rfl <;>
      simp [NumbaGradients.periodic_gradient, NumpyGradients.periodic_gradient,
        NumbaGradients.gradient, NumpyGradients.gradient]

/-! ## C03, bit-identical part -/

/-- **C03 (fused stencils).** NumPy vectorised, Numba vectorised and the Numba
full stencil return bit-identical brackets. -/
theorem C03_fused_identical (z p : Arr α) (dx : α) (hh : p.h = z.h) (hw : p.w = z.w)
    (h0 : 0 < z.h) (w0 : 0 < z.w) :
    ∃ r, NumpyArakawa.periodic_arakawa_vec z p dx = .ok r ∧ r.h = z.h ∧ r.w = z.w ∧
      NumbaArakawa.periodic_arakawa_vec z p dx = .ok r ∧
      NumbaArakawa.periodic_arakawa_stencil z p dx = .ok r := by
  obtain ⟨h, w, f, g, e1, e2, rfl, rfl⟩ := exists_fields z p hh hw
  rw [← e1] at h0; rw [← e2] at w0
  have : NeZero h := ⟨h0.ne'⟩
  have : NeZero w := ⟨w0.ne'⟩
  exact ⟨_, numpy_arakawa_vec_ofField f g dx, rfl, rfl, numba_arakawa_vec_ofField f g dx,
    numba_arakawa_stencil_ofField f g dx⟩

/-! ## C07 -/

/-- **C07.** Rolling the input(s) rolls the output of every difference operator
and of the bracket, for all offsets, bit for bit. -/
theorem C07_translation (a b : Arr α) (dx : α) (s t : Int) (hh : b.h = a.h) (hw : b.w = a.w)
    (h0 : 0 < a.h) (w0 : 0 < a.w) :
    (∃ r, NumpyGradients.periodic_laplace a dx = .ok r ∧
      NumpyGradients.periodic_laplace (a.roll s t) dx = .ok (r.roll s t)) ∧
    (∀ N, ∃ r, NumpyGradients.periodic_laplace_N a dx N = .ok r ∧
      NumpyGradients.periodic_laplace_N (a.roll s t) dx N = .ok (r.roll s t)) ∧
    (∀ axis, axis = 0 ∨ axis = 1 → ∃ r, NumpyGradients.periodic_gradient a dx axis = .ok r ∧
      NumpyGradients.periodic_gradient (a.roll s t) dx axis = .ok (r.roll s t)) ∧
    (∃ r, NumpyArakawa.periodic_arakawa_vec a b dx = .ok r ∧
      NumpyArakawa.periodic_arakawa_vec (a.roll s t) (b.roll s t) dx = .ok (r.roll s t)) := by
  obtain ⟨h, w, f, g, e1, e2, rfl, rfl⟩ := exists_fields a b hh hw
  rw [← e1] at h0; rw [← e2] at w0
  have : NeZero h := ⟨h0.ne'⟩
  have : NeZero w := ⟨w0.ne'⟩
  have key : ∀ u : ZMod h → ZMod w → α, (ofField u).roll s t = ofField (shift (s : ZMod h) (t : ZMod w) u) :=
    fun u => roll_ofField u s t
  refine ⟨⟨_, numpy_periodic_laplace_ofField f dx, ?_⟩,
    fun N => ⟨_, numpy_periodic_laplace_N_ofField f dx N, ?_⟩, fun axis hax => ?_,
    ⟨_, numpy_arakawa_vec_ofField f g dx, ?_⟩⟩
  · rw [key, key, numpy_periodic_laplace_ofField, lap_shift]
  · rw [key, key, numpy_periodic_laplace_N_ofField, lap_iterate_shift]
  · rcases hax with rfl | rfl
    · exact ⟨_, numpy_periodic_gradient_y f dx, by
        rw [key, key, numpy_periodic_gradient_y, gradY_shift]⟩
    · exact ⟨_, numpy_periodic_gradient_x f dx, by
        rw [key, key, numpy_periodic_gradient_x, gradX_shift]⟩
  · rw [key, key, key, numpy_arakawa_vec_ofField, jac_shift]

end anyArithmetic

/-- a concrete non-constant 2×3 array used by the non-vacuity examples -/
def demo23 : Arr ℚ := tab 2 3 fun i j => (i * i + 3 * j * j + i * j : ℕ)
/-- another one -/
def demo23b : Arr ℚ := tab 2 3 fun i j => (5 * i + j * j * j : ℕ)

example := C01_periodic_laplace demo23 (1 / 2) (by decide) (by decide)
example := C01_periodic_gradient_y demo23 (1 / 2) (-2) (Or.inr rfl) (by decide) (by decide)
example := C01_periodic_gradient_x demo23 (1 / 2) 1 (Or.inl rfl) (by decide) (by decide)
example := (C01_rejects (tab 0 3 fun _ _ => (1 : ℚ)) 1).1 (Or.inl rfl)
example := (C01_rejects demo23 1).2 (by decide) (by decide) 2 (by decide)
/-- the order-5 Laplacian pads a 2×3 array by 5, more than its size -/
example : NumbaGradients.periodic_laplace_N demo23 1 5 = NumpyGradients.periodic_laplace_N demo23 1 5 :=
  (C02_backends_identical demo23 1).2.1 5
/-- the compared Laplacian is not trivially constant -/
example : (NumpyGradients.periodic_laplace_N demo23 1 2).map (fun r => (r.at' 0 0, r.at' 1 2))
    = .ok (-41, 108) := by decide +kernel
example := C03_fused_identical demo23 demo23b (1 / 2) rfl rfl (by decide) (by decide)
example := C07_translation demo23 demo23b (1 / 2) (-7) 4 rfl rfl (by decide) (by decide)

section field

/-! ## C03, all implementations -/

/-- **C03.** All five NumPy/Numba implementations of the periodic bracket
return the same array (real arithmetic), whatever the uninitialised memory
`mem` of `np.empty_like` contains. -/
theorem C03_all_agree (z p : Arr ℝ) (dx : ℝ) (mem : ℕ → ℕ → ℝ) (hh : p.h = z.h) (hw : p.w = z.w)
    (h0 : 0 < z.h) (w0 : 0 < z.w) :
    ∃ r, r.h = z.h ∧ r.w = z.w ∧
      NumpyArakawa.periodic_arakawa mem z p dx = .ok r ∧
      NumpyArakawa.periodic_arakawa_vec z p dx = .ok r ∧
      NumbaArakawa.periodic_arakawa z p dx = .ok r ∧
      NumbaArakawa.periodic_arakawa_stencil z p dx = .ok r ∧
      NumbaArakawa.periodic_arakawa_vec z p dx = .ok r := by
  obtain ⟨h, w, f, g, e1, e2, rfl, rfl⟩ := exists_fields z p hh hw
  rw [← e1] at h0; rw [← e2] at w0
  have : NeZero h := ⟨h0.ne'⟩
  have : NeZero w := ⟨w0.ne'⟩
  exact ⟨ofField (jac dx f g), rfl, rfl, numpy_arakawa_ofField mem f g dx, numpy_arakawa_vec_ofField f g dx,
    numba_arakawa_ofField f g dx, numba_arakawa_stencil_ofField f g dx,
    numba_arakawa_vec_ofField f g dx⟩

example := C03_all_agree (tab 3 2 fun i j => (i * i + j : ℝ)) (tab 3 2 fun i j => (i + 7 * j : ℝ)) 1
  (fun i j => 100 * i - j) rfl rfl (by decide) (by decide)

/-! ## C04 -/

/-- **C04, what does hold.** The PhiML bracket is the NumPy bracket up to the
global sign. -/
theorem C04_phiml_bracket_partial (z p : Arr ℝ) (dx : ℝ) (hh : p.h = z.h) (hw : p.w = z.w)
    (h0 : 0 < z.h) (w0 : 0 < z.w) :
    ∃ r, NumpyArakawa.periodic_arakawa_vec z p dx = .ok r ∧
      PhimlArakawa.periodic_arakawa_vec z p dx = .ok (r.map fun x => -x) := by
  obtain ⟨h, w, f, g, e1, e2, rfl, rfl⟩ := exists_fields z p hh hw
  rw [← e1] at h0; rw [← e2] at w0
  have : NeZero h := ⟨h0.ne'⟩
  have : NeZero w := ⟨w0.ne'⟩
  exact ⟨_, numpy_arakawa_vec_ofField f g dx, phiml_arakawa_ofField f g dx⟩

/-- **C04 violated.** There are fields on which the PhiML and the NumPy bracket
differ. -/
theorem C04_phiml_bracket_violated :
    ∃ (z p : Arr ℚ), z.h = 4 ∧ z.w = 4 ∧ p.h = 4 ∧ p.w = 4 ∧
      ∃ r r', NumpyArakawa.periodic_arakawa_vec z p 1 = .ok r ∧
        PhimlArakawa.periodic_arakawa_vec z p 1 = .ok r' ∧ r.at' 0 0 = 1 ∧ r'.at' 0 0 = -1 := by
  refine ⟨tab 4 4 fun _ j => if j = 1 then 1 else if j = 3 then -1 else 0,
    tab 4 4 fun i _ => if i = 1 then 1 else if i = 3 then -1 else 0, rfl, rfl, rfl, rfl,
    _, _, rfl, rfl, ?_, ?_⟩ <;> decide +kernel

example := C04_phiml_bracket_partial (tab 3 2 fun i j => (i * i + j : ℝ))
  (tab 3 2 fun i j => (i + 7 * j : ℝ)) 1 rfl rfl (by decide) (by decide)

/-! ## C05 -/

/-- entry-wise product of two equally shaped arrays, summed -/
def dot (a b : Arr ℝ) : ℝ := ∑ i : Fin a.h, ∑ j : Fin a.w, a.get i j * b.at' i j

private theorem dot_ofField {h w : ℕ} [NeZero h] [NeZero w] (f g : ZMod h → ZMod w → ℝ) :
    dot (ofField f) (ofField g) = S fun i j => f i j * g i j := by
  unfold S
  rw [← sum_ofField]
  unfold dot Arr.sum
  refine Finset.sum_congr rfl fun i _ => Finset.sum_congr rfl fun j _ => ?_
  rw [ofField_at' g i.2 j.2]; rfl

/-- **C05.** The Arakawa bracket has zero mean and is orthogonal to both of its
arguments, so it changes neither the mean, nor `Σ ζ²`, nor `Σ ψ ζ`. -/
theorem C05_bracket_conserves (z p : Arr ℝ) (dx : ℝ) (hh : p.h = z.h) (hw : p.w = z.w)
    (h0 : 0 < z.h) (w0 : 0 < z.w) :
    ∃ r, NumpyArakawa.periodic_arakawa_vec z p dx = .ok r ∧ r.h = z.h ∧ r.w = z.w ∧
      r.mean = 0 ∧ dot z r = 0 ∧ dot p r = 0 := by
  obtain ⟨h, w, f, g, e1, e2, rfl, rfl⟩ := exists_fields z p hh hw
  rw [← e1] at h0; rw [← e2] at w0
  have : NeZero h := ⟨h0.ne'⟩
  have : NeZero w := ⟨w0.ne'⟩
  refine ⟨_, numpy_arakawa_vec_ofField f g dx, rfl, rfl, ?_, ?_, ?_⟩
  · rw [mean_ofField, show (∑ i, ∑ j, jac dx f g i j) = S (jac dx f g) from rfl, S_jac, zero_div]
  · rw [dot_ofField, S_jac_left]
  · rw [dot_ofField, S_jac_right]

example := C05_bracket_conserves (tab 3 2 fun i j => (i * i + j : ℝ))
  (tab 3 2 fun i j => (i + 7 * j : ℝ)) 1 rfl rfl (by decide) (by decide)

/-! ## C06 -/

/-- **C06.** Antisymmetry, bilinearity and vanishing on equal or constant
arguments. -/
theorem C06_bracket_algebra (x y z : Arr ℝ) (dx a b : ℝ) (hy : y.h = x.h) (hy' : y.w = x.w)
    (hz : z.h = x.h) (hz' : z.w = x.w) (h0 : 0 < x.h) (w0 : 0 < x.w) :
    ∃ xy xz yz : Arr ℝ, NumpyArakawa.periodic_arakawa_vec x y dx = .ok xy ∧
      NumpyArakawa.periodic_arakawa_vec x z dx = .ok xz ∧
      NumpyArakawa.periodic_arakawa_vec y z dx = .ok yz ∧
      NumpyArakawa.periodic_arakawa_vec y x dx = .ok (xy.map fun v => -v) ∧
      NumpyArakawa.periodic_arakawa_vec x x dx = .ok (tab x.h x.w fun _ _ => 0) ∧
      (∀ c, NumpyArakawa.periodic_arakawa_vec (tab x.h x.w fun _ _ => c) x dx
        = .ok (tab x.h x.w fun _ _ => 0)) ∧
      NumpyArakawa.periodic_arakawa_vec x
        (tab x.h x.w fun i j => a * y.at' i j + b * z.at' i j) dx
        = .ok (tab x.h x.w fun i j => a * xy.at' i j + b * xz.at' i j) ∧
      NumpyArakawa.periodic_arakawa_vec
        (tab x.h x.w fun i j => a * x.at' i j + b * y.at' i j) z dx
        = .ok (tab x.h x.w fun i j => a * xz.at' i j + b * yz.at' i j) := by
  have : NeZero x.h := ⟨h0.ne'⟩
  have : NeZero x.w := ⟨w0.ne'⟩
  obtain ⟨h, w, f, g, e1, e2, hx, rfl⟩ := exists_fields x y hy hy'
  have : ∃ k : ZMod h → ZMod w → ℝ, z = ofField k := by
    obtain ⟨h2, w2, _, k, e3, e4, _, rfl⟩ := exists_fields x z hz hz'
    rw [← e1] at e3; rw [← e2] at e4
    subst e3; subst e4
    exact ⟨k, rfl⟩
  obtain ⟨k, rfl⟩ := this
  subst hx
  rw [ofField_h] at h0; rw [ofField_w] at w0
  have : NeZero h := ⟨h0.ne'⟩
  have : NeZero w := ⟨w0.ne'⟩
  have lin : ∀ u v : ZMod h → ZMod w → ℝ,
      (tab h w fun i j => a * (ofField u).at' i j + b * (ofField v).at' i j)
        = ofField fun i j => a * u i j + b * v i j := fun u v =>
    tab_congr rfl rfl fun i j hi hj => by rw [ofField_at' u hi hj, ofField_at' v hi hj]
  refine ⟨_, _, _, numpy_arakawa_vec_ofField f g dx, numpy_arakawa_vec_ofField f k dx,
    numpy_arakawa_vec_ofField g k dx, ?_, ?_, fun c => ?_, ?_, ?_⟩
  · rw [numpy_arakawa_vec_ofField]
    congr 1
    exact tab_congr rfl rfl fun i j _ _ => jac_antisymm dx g f _ _
  · rw [numpy_arakawa_vec_ofField]
    congr 1
    exact tab_congr rfl rfl fun i j _ _ => jac_self dx f _ _
  · have : (tab h w fun _ _ => c : Arr ℝ) = ofField fun (_ : ZMod h) (_ : ZMod w) => c := rfl
    simp only [ofField_h, ofField_w]
    rw [this, numpy_arakawa_vec_ofField]
    congr 1
    exact tab_congr rfl rfl fun i j _ _ => jac_const_left dx c f _ _
  · simp only [ofField_h, ofField_w]
    rw [lin, lin, numpy_arakawa_vec_ofField]
    congr 1
    exact tab_congr rfl rfl fun i j _ _ => jac_lin_right dx a b f g k _ _
  · simp only [ofField_h, ofField_w]
    rw [lin, lin, numpy_arakawa_vec_ofField]
    congr 1
    exact tab_congr rfl rfl fun i j _ _ => jac_lin_left dx a b f g k _ _

example := C06_bracket_algebra (tab 3 2 fun i j => (i * i + j : ℝ))
  (tab 3 2 fun i j => (i + 7 * j : ℝ)) (tab 3 2 fun i j => (i * j : ℝ)) 1 2 3
  rfl rfl rfl rfl (by decide) (by decide)

/-! ## C08 -/

/-- **C08.** Summation by parts for the discrete operators. -/
theorem C08_summation_by_parts (f g : Arr ℝ) (dx : ℝ) (hh : g.h = f.h) (hw : g.w = f.w)
    (h0 : 0 < f.h) (w0 : 0 < f.w) :
    (∀ axis, axis = 0 ∨ axis = 1 → ∃ df dg,
      NumpyGradients.periodic_gradient f dx axis = .ok df ∧
      NumpyGradients.periodic_gradient g dx axis = .ok dg ∧
      df.mean = 0 ∧ dot f dg = - dot df g) ∧
    (∃ lf lg, NumpyGradients.periodic_laplace f dx = .ok lf ∧
      NumpyGradients.periodic_laplace g dx = .ok lg ∧
      lf.mean = 0 ∧ dot f lg = dot lf g ∧ dot f lf ≤ 0 ∧
      (dx ≠ 0 → (dot f lf = 0 ↔ ∀ i j, i < f.h → j < f.w → f.at' i j = f.at' 0 0))) := by
  obtain ⟨h, w, f, g, e1, e2, rfl, rfl⟩ := exists_fields f g hh hw
  rw [← e1] at h0; rw [← e2] at w0
  have : NeZero h := ⟨h0.ne'⟩
  have : NeZero w := ⟨w0.ne'⟩
  have hm : ∀ u : ZMod h → ZMod w → ℝ, S u = 0 → (ofField u).mean = 0 := by
    intro u hu
    rw [mean_ofField, show (∑ i, ∑ j, u i j) = S u from rfl, hu, zero_div]
  constructor
  · intro axis hax
    rcases hax with rfl | rfl
    · exact ⟨_, _, numpy_periodic_gradient_y f dx, numpy_periodic_gradient_y g dx,
        hm _ (S_gradY dx f), by rw [dot_ofField, dot_ofField, S_gradY_skew]⟩
    · exact ⟨_, _, numpy_periodic_gradient_x f dx, numpy_periodic_gradient_x g dx,
        hm _ (S_gradX dx f), by rw [dot_ofField, dot_ofField, S_gradX_skew]⟩
  · refine ⟨_, _, numpy_periodic_laplace_ofField f dx, numpy_periodic_laplace_ofField g dx,
      hm _ (S_lap dx f), ?_, ?_, fun hdx => ?_⟩
    · rw [dot_ofField, dot_ofField, S_lap_symm]
    · rw [dot_ofField]; exact S_lap_self_nonpos dx f
    · rw [dot_ofField, S_lap_dirichlet, neg_eq_zero, div_eq_zero_iff,
        or_iff_left (pow_ne_zero 2 hdx)]
      constructor
      · intro hd i j hi hj
        rw [ofField_at' f hi hj, ofField_at' f h0 w0, Nat.cast_zero, Nat.cast_zero]
        exact dirichlet_self_eq_zero f hd _ _
      · intro hc
        have : ∀ i j, f i j = f 0 0 := by
          intro i j
          have := hc i.val j.val (ZMod.val_lt i) (ZMod.val_lt j)
          rw [ofField_at' f (ZMod.val_lt i) (ZMod.val_lt j), ofField_at' f h0 w0] at this
          simpa using this
        unfold dirichlet
        rw [← S_zero (h := h) (w := w) (K := ℝ)]
        exact S_congr fun i j => by
          rw [this (i + 1) j, this i j, this i (j + 1)]; ring

example := C08_summation_by_parts (tab 3 2 fun i j => (i * i + j : ℝ))
  (tab 3 2 fun i j => (i + 7 * j : ℝ)) 1 rfl rfl (by decide) (by decide)

end field

end Verif.Props
