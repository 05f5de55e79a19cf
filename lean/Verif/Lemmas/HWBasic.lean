import Verif.Lemmas.Poisson
import Verif.Lemmas.Stencil
import Verif.Model.HW
import Verif.Spec.HW

/-!
# Evaluation of the parts of `model.py` on torus fields
-/

set_option linter.unusedSectionVars false

namespace Verif

open Arr NS Spec

/-! ### evaluation of the counter monad -/

@[simp] theorem M.bind_apply {α β : Type} (x : M α) (f : α → M β) (c : Calls) :
    (x >>= f) c = ((x c : Except PyErr (α × Calls)) >>= fun p => f p.1 p.2) := rfl
@[simp] theorem M.pure_apply {α : Type} (a : α) (c : Calls) : (pure a : M α) c = .ok (a, c) := rfl
@[simp] theorem M.lift_ok {α : Type} (a : α) (c : Calls) : M.lift (.ok a : Py α) c = .ok (a, c) := rfl
@[simp] theorem M.lift_error {α : Type} (e : PyErr) (c : Calls) :
    M.lift (.error e : Py α) c = .error e := rfl
@[simp] theorem logCall_apply (f : Calls → Calls) (c : Calls) : logCall f c = .ok ((), f c) := rfl

variable {h w : ℕ} [NeZero h] [NeZero w]

/-- what the numerical schemes have to compute on an `h × w` torus -/
structure Backend.Good (b : Backend) (h w : ℕ) [NeZero h] [NeZero w] : Prop where
  solver : ∀ (f : Fld h w) (dx : ℝ), S f = 0 →
    b.poisson_solver (ofField f) dx = .ok (ofField fun i j => mult (sig 1) f i j * dx ^ 2)
  diffuse : ∀ (f : Fld h w) (dx : ℝ) (N : ℕ),
    b.diffuse_N (ofField f) dx N = .ok (ofField ((lap dx)^[N] f))
  bracket : ∀ (f g : Fld h w) (dx : ℝ),
    b.poisson_bracket (ofField f) (ofField g) dx = .ok (ofField (jac dx f g))
  grad : ∀ (f : Fld h w) (dx : ℝ),
    b.gradient_func (ofField f) dx 0 = .ok (ofField (gradY dx f))

theorem numpyBackend_good : numpyBackend.Good h w where
  solver f dx _ := numpy_poisson_ofField f dx 1
  diffuse f dx N := numpy_periodic_laplace_N_ofField f dx N
  bracket f g dx := numpy_arakawa_vec_ofField f g dx
  grad f dx := numpy_periodic_gradient_y f dx

/-- multipliers that agree off the zero mode act alike on zero-sum fields -/
theorem mult_congr_of_sum_zero {s t : ZMod h → ZMod w → ℝ} {f : Fld h w} (hf : S f = 0)
    (hst : ∀ k l, ¬(k = 0 ∧ l = 0) → s k l = t k l) : mult s f = mult t f := by
  funext i j
  unfold mult
  congr 2
  funext k l
  by_cases h0 : k = 0 ∧ l = 0
  · have : D (cx f) k l = 0 := by
      rw [h0.1, h0.2, D_zero_zero]
      have : S (cx f) = ((S f : ℝ) : ℂ) := by unfold S; push_cast; rfl
      rw [this, hf]; simp
    rw [this, mul_zero, mul_zero]
  · rw [hst k l h0]

theorem numbaBackend_good (hh : h ≤ 65536) (hw : w ≤ 65536) : numbaBackend.Good h w where
  solver f dx hf := by
    change NumbaPoisson.fourier_poisson_double (ofField f) dx 1 = _
    rw [numba_poisson_ofField hh hw f dx 1, mult_congr_of_sum_zero hf (t := sig 1)]
    intro k l h0
    unfold sigNumba sig
    rw [if_neg h0, if_neg h0]
  diffuse f dx N := numba_periodic_laplace_N_ofField f dx N
  bracket f g dx := numba_arakawa_stencil_ofField f g dx
  grad f dx := numpy_periodic_gradient_y f dx

/-! ### elementary array operations on torus fields -/

theorem add_ofField (f g : Fld h w) :
    (.ok (ofField f) + .ok (ofField g) : Py (Arr ℝ)) = .ok (ofField fun i j => f i j + g i j) :=
  ok_add ..
theorem sub_ofField (f g : Fld h w) :
    (.ok (ofField f) - .ok (ofField g) : Py (Arr ℝ)) = .ok (ofField fun i j => f i j - g i j) :=
  ok_sub ..
theorem mul_ofField (f g : Fld h w) :
    (.ok (ofField f) * .ok (ofField g) : Py (Arr ℝ)) = .ok (ofField fun i j => f i j * g i j) :=
  ok_mul ..
theorem map_ofField {α β : Type} (φ : α → β) (f : ZMod h → ZMod w → α) :
    (ofField f).map φ = ofField fun i j => φ (f i j) := rfl

theorem iadd_ofField (f g : Fld h w) :
    iadd (ofField f) (ofField g) = .ok (ofField fun i j => f i j + g i j) := by
  unfold iadd
  rw [add_ofField]
  simp

/-- mean of a torus field -/
noncomputable def avg (f : Fld h w) : ℝ := S f / ((h : ℝ) * (w : ℝ))

theorem mean_ofField' (f : Fld h w) : (ofField f).mean = avg f := mean_ofField f

theorem card_ne : ((h : ℝ) * (w : ℝ)) ≠ 0 :=
  mul_ne_zero (Nat.cast_ne_zero.mpr (NeZero.ne h)) (Nat.cast_ne_zero.mpr (NeZero.ne w))

theorem avg_const (c : ℝ) : avg (fun (_ : ZMod h) (_ : ZMod w) => c) = c := by
  unfold avg; rw [S_const, mul_div_cancel_left₀ _ card_ne]

theorem S_center (f : Fld h w) : S (fun i j => f i j - avg f) = 0 := by
  rw [S_sub, S_const]
  unfold avg
  rw [mul_div_cancel₀ _ card_ne, sub_self]

/-- the potential computed by `get_phi` -/
noncomputable def phiF (dx : ℝ) (o : Fld h w) : Fld h w :=
  fun i j => mult (sig 1) (fun i j => o i j - avg o) i j * dx ^ 2

theorem get_phi_ofField (hw' : HW) (hb : hw'.backend.Good h w) (o : Fld h w) (dx : ℝ) (c : Calls) :
    hw'.get_phi (ofField o) dx c
      = .ok (ofField (phiF dx o), { c with get_phi := c.get_phi + 1 }) := by
  unfold HW.get_phi
  rw [mean_ofField', map_ofField, hb.solver _ _ (S_center o)]
  rfl

theorem diffuse_ofField (hw' : HW) (hb : hw'.backend.Good h w) (f : Fld h w) (dx : ℝ) (N : ℕ)
    (c : Calls) : hw'.diffuse (ofField f) dx N c
      = .ok (ofField ((lap dx)^[N] f), { c with diffuse := c.diffuse + 1 }) := by
  unfold HW.diffuse
  rw [hb.diffuse]
  rfl

theorem zonal_ofField (f : Fld h w) :
    Zonal.zonal_transform (ofField f) = .ok (ofField (nonZonal f)) := by
  unfold Zonal.zonal_transform
  rw [meanRows_ofField]
  change Arr.zip _ (ofField f) (tab 1 w _) = _
  unfold Arr.zip
  simp only [ofField_h, ofField_w, tab_h, tab_w, bdim_self]
  have : bdim h 1 = some h := by
    unfold bdim
    by_cases h1 : h = 1
    · simp [h1]
    · simp [h1]
  rw [this]
  simp only
  congr 1
  refine tab_congr rfl rfl fun i j hi hj => ?_
  rw [bidx_lt hi, bidx_lt hj, ofField_at' f hi hj]
  simp only [bidx, if_true]
  rw [tab_at' _ _ _ (by omega) hj]
  rfl

theorem coupling_ofField (p n : Fld h w) (z : Bool) :
    HW.coupling (ofField p) (ofField n) z = .ok (ofField (couple z p n)) := by
  unfold HW.coupling couple
  cases z
  · simp [sub_ofField]
  · simp [zonal_ofField, sub_ofField]

theorem addBracket_ofField (hw' : HW) (hb : hw'.backend.Good h w) (x p f : Fld h w) (dx : ℝ)
    (c : Calls) : hw'.addBracket (ofField x) (ofField p) (ofField f) dx c
      = .ok (ofField fun i j => x i j - hw'.poisson_bracket_coeff * jac dx p f i j,
        { c with poisson_bracket := c.poisson_bracket + if hw'.poisson_bracket_coeff = 0 then 0 else 1 }) := by
  unfold HW.addBracket
  by_cases h0 : hw'.poisson_bracket_coeff = 0
  · simp [h0]
  · simp only [ne_eq, h0, not_false_eq_true, if_true, hb.bracket, map_ofField, M.bind_apply,
      M.lift_ok, Py.ok_bind, logCall_apply, iadd_ofField, if_false]
    congr 3
    funext i j; ring

/-- a diffusion term as stored in `Dn` -/
noncomputable def dTerm (nu : ℝ) (g : Fld h w) : Val :=
  if nu = 0 then .num 0 else .arr (ofField fun i j => nu * g i j)

theorem addDiffusion_ofField (hw' : HW) (hb : hw'.backend.Good h w) (x f : Fld h w) (dx : ℝ)
    (c : Calls) : hw'.addDiffusion (ofField x) (ofField f) dx c
      = .ok ((ofField fun i j => x i j + hw'.nu * ((lap dx)^[hw'.N] f) i j,
          dTerm hw'.nu ((lap dx)^[hw'.N] f)),
        { c with diffuse := c.diffuse + if hw'.nu = 0 then 0 else 1 }) := by
  unfold HW.addDiffusion dTerm
  by_cases h0 : hw'.nu = 0
  · simp [h0]
  · simp only [ne_eq, h0, not_false_eq_true, if_true, map_ofField, M.bind_apply, diffuse_ofField hw' hb,
      M.lift_ok, Py.ok_bind, iadd_ofField, if_false, M.pure_apply]

theorem addKappa_ofField (hw' : HW) (x g : Fld h w) :
    hw'.addKappa (ofField x) (ofField g) = .ok (ofField fun i j => x i j - hw'.kappa_coeff * g i j) := by
  unfold HW.addKappa
  by_cases h0 : hw'.kappa_coeff = 0
  · simp [h0]
  · simp only [ne_eq, h0, not_false_eq_true, if_true, map_ofField, iadd_ofField]
    congr 2
    funext i j; ring

/-! ### the conservation diagnostics -/

/-- particle flux `-mean(n ∂y p)` -/
noncomputable def gamN (dx : ℝ) (n p : Fld h w) : ℝ := -avg (fun i j => n i j * gradY dx p i j)
/-- resistive dissipation `c1 mean((n-p)²)` -/
noncomputable def gamC (c1 : ℝ) (n p : Fld h w) : ℝ := c1 * avg (fun i j => (n i j - p i j) ^ 2)

theorem gradient_m2 (f : Fld h w) (dx : ℝ) :
    NumpyGradients.periodic_gradient (ofField f) dx (-2) = .ok (ofField (gradY dx f)) := by
  rw [← numpy_periodic_gradient_y]
  simp [NumpyGradients.periodic_gradient, NumpyGradients.gradient]

theorem gradient_m1 (f : Fld h w) (dx : ℝ) :
    NumpyGradients.periodic_gradient (ofField f) dx (-1) = .ok (ofField (gradX dx f)) := by
  rw [← numpy_periodic_gradient_x]
  simp [NumpyGradients.periodic_gradient, NumpyGradients.gradient]

theorem gamma_n_ofField (n p : Fld h w) (dx : ℝ) :
    Properties.get_gamma_n (ofField n) (ofField p) dx = .ok (gamN dx n p) := by
  unfold Properties.get_gamma_n
  simp only [gradient_m2, Py.ok_bind, mul_ofField, mean_ofField', Py.pure_eq, gamN]

theorem gamma_c_ofField (n p : Fld h w) (c1 dx : ℝ) :
    Properties.get_gamma_c (ofField n) (ofField p) c1 dx = .ok (gamC c1 n p) := by
  unfold Properties.get_gamma_c
  simp only [Py.ok_bind, sub_ofField, mean_ofField', Py.pure_eq, gamC, map_ofField]

theorem gammas_ofField (hw' : HW) (n p : Fld h w) :
    hw'.get_gammas (ofField n) (ofField p) = .ok (gamN hw'.dx n p, gamC hw'.c1 n p) := by
  unfold HW.get_gammas
  simp only [gamma_n_ofField, gamma_c_ofField, Py.ok_bind, Py.pure_eq]

theorem val_mul (f g : Fld h w) : (Ops.mul (Val.arr (ofField f)) (.arr (ofField g)) : Py Val)
    = .ok (.arr (ofField fun i j => f i j * g i j)) := by
  change (do return Val.arr (← Arr.zip _ _ _)) = _
  rw [show Arr.zip (fun x y : ℝ => x * y) (ofField f) (ofField g) = _ from mul_ofField f g]
  rfl
theorem val_sub (f g : Fld h w) : (Ops.sub (Val.arr (ofField f)) (.arr (ofField g)) : Py Val)
    = .ok (.arr (ofField fun i j => f i j - g i j)) := by
  change (do return Val.arr (← Arr.zip _ _ _)) = _
  rw [show Arr.zip (fun x y : ℝ => x - y) (ofField f) (ofField g) = _ from sub_ofField f g]
  rfl
theorem val_add (f g : Fld h w) : (Ops.add (Val.arr (ofField f)) (.arr (ofField g)) : Py Val)
    = .ok (.arr (ofField fun i j => f i j + g i j)) := by
  change (do return Val.arr (← Arr.zip _ _ _)) = _
  rw [show Arr.zip (fun x y : ℝ => x + y) (ofField f) (ofField g) = _ from add_ofField f g]
  rfl
theorem val_smul (x : ℝ) (g : Fld h w) : (Ops.mul (Val.num x) (.arr (ofField g)) : Py Val)
    = .ok (.arr (ofField fun i j => x * g i j)) := rfl
theorem val_muls (x : ℝ) (g : Fld h w) : (Ops.mul (.arr (ofField g)) (Val.num x) : Py Val)
    = .ok (.arr (ofField fun i j => g i j * x)) := rfl
theorem val_ssub (x : ℝ) (g : Fld h w) : (Ops.sub (Val.num x) (.arr (ofField g)) : Py Val)
    = .ok (.arr (ofField fun i j => x - g i j)) := rfl

theorem DE_ofField (n p g q : Fld h w) (nu : ℝ) :
    Properties.get_DE (ofField n) (ofField p) (dTerm nu g) (.arr (ofField fun i j => nu * q i j))
      = .ok (avg fun i j => n i j * (nu * g i j) - p i j * (nu * q i j)) := by
  unfold Properties.get_DE dTerm
  by_cases h0 : nu = 0
  · simp only [h0, if_true, val_muls, val_mul, val_sub, Py.ok_bind, Properties.meanVal, mean_ofField']
    congr 2; funext i j; ring
  · simp only [h0, if_false, val_mul, val_sub, Py.ok_bind, Properties.meanVal, mean_ofField']

theorem DU_ofField (n o g q : Fld h w) (nu : ℝ) :
    Properties.get_DU (ofField n) (ofField o) (dTerm nu g) (.arr (ofField fun i j => nu * q i j))
      = .ok (-avg fun i j => (n i j - o i j) * (nu * g i j - nu * q i j)) := by
  unfold Properties.get_DU dTerm
  by_cases h0 : nu = 0
  · simp only [h0, if_true, val_sub, val_ssub, val_mul, Py.ok_bind, Py.pure_eq, Properties.meanVal,
      mean_ofField', zero_mul, sub_self, mul_zero]
  · simp only [h0, if_false, val_mul, val_sub, Py.ok_bind, Py.pure_eq, Properties.meanVal, mean_ofField']

end Verif
