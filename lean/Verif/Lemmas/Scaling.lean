import Verif.Lemmas.HWLinear
import Verif.Lemmas.HWODE

/-!
# Maps of fields that turn the equations for one set of coefficients into those for another

`Conj T τ P P'`: `T` turns the rates for the coefficients `P` into those for `P'` up to the factor `τ`.  Time steps for `P'` of
length `dt / τ` then are the images of the time steps for `P` of length `dt`.
-/

set_option linter.unusedSectionVars false

namespace Verif

open Spec Complex

variable {h w h' w' : ℕ} [NeZero h] [NeZero w] [NeZero h'] [NeZero w']

/-- a linear map of fields that carries the rates for `P` to those for `P'`, up to a change `τ` of the unit of time -/
structure Conj (T : Fld h w → Fld h' w') (τ : ℝ) (P P' : Params) : Prop where
  tau : τ ≠ 0
  add : ∀ f g : Fld h w, T (f + g) = T f + T g
  smul : ∀ (c : ℝ) (f : Fld h w), T (c • f) = c • T f
  rhsN : ∀ n p, Spec.rhsN P' (T n) (T p) = τ • T (Spec.rhsN P n p)
  rhsO : ∀ n o p, Spec.rhsO P' (T n) (T o) (T p) = τ • T (Spec.rhsO P n o p)
  phiF : ∀ o, Verif.phiF P'.dx (T o) = T (Verif.phiF P.dx o)

/-- density and vorticity of the second state are the images of those of the first -/
def Img (T : Fld h w → Fld h' w') (s : Sta h w) (s' : Sta h' w') : Prop := s'.1 = T s.1 ∧ s'.2.1 = T s.2.1

namespace Conj

variable {T : Fld h w → Fld h' w'} {τ : ℝ} {P P' : Params} (hT : Conj T τ P P')
include hT

theorem img_add {s t : Sta h w} {s' t' : Sta h' w'} (hs : Img T s s') (ht : Img T t t') :
    Img T (s + t) (s' + t') := by
  refine ⟨?_, ?_⟩
  · change s'.1 + t'.1 = T (s.1 + t.1)
    rw [hT.add, hs.1, ht.1]
  · change s'.2.1 + t'.2.1 = T (s.2.1 + t.2.1)
    rw [hT.add, hs.2, ht.2]

theorem img_smul (c : ℝ) {s : Sta h w} {s' : Sta h' w'} (hs : Img T s s') : Img T (c • s) (c • s') := by
  refine ⟨?_, ?_⟩
  · change c • s'.1 = T (c • s.1)
    rw [hT.smul, hs.1]
  · change c • s'.2.1 = T (c • s.2.1)
    rw [hT.smul, hs.2]

theorem img_grad (dx0 dx0' dt a a' : ℝ) {s : Sta h w} {s' : Sta h' w'} (hs : Img T s s') {p : Fld h w}
    {p' : Fld h' w'} (hp : p' = T p) :
    Img T (dt • gradS P dx0 a p s) ((dt / τ) • gradS P' dx0' a' p' s') := by
  subst hp
  refine ⟨?_, ?_⟩
  · change (dt / τ) • Spec.rhsN P' s'.1 (T p) = T (dt • Spec.rhsN P s.1 p)
    rw [hs.1, hT.rhsN, hT.smul, smul_smul, div_mul_cancel₀ _ hT.tau]
  · change (dt / τ) • Spec.rhsO P' s'.1 s'.2.1 (T p) = T (dt • Spec.rhsO P s.1 s.2.1 p)
    rw [hs.1, hs.2, hT.rhsO, hT.smul, smul_smul, div_mul_cancel₀ _ hT.tau]

theorem img_phi {s : Sta h w} {s' : Sta h' w'} (hs : Img T s s') :
    Verif.phiF P'.dx s'.2.1 = T (Verif.phiF P.dx s.2.1) := by rw [hs.2, hT.phiF]

theorem rk4S (dx0 dx0' dt : ℝ) {s : Sta h w} {s' : Sta h' w'} (hs : Img T s s') (hp : s'.2.2.1 = T s.2.2.1) :
    Img T (Verif.rk4S P dx0 dt s) (Verif.rk4S P' dx0' (dt / τ) s') := by
  have k1 := hT.img_grad dx0 dx0' dt 0 0 hs hp
  have y1 := hT.img_add (hT.img_smul (1 / 2) k1) hs
  have k2 := hT.img_grad dx0 dx0' dt (dt / 2) (dt / τ / 2) y1 (hT.img_phi y1)
  have y2 := hT.img_add (hT.img_smul (1 / 2) k2) hs
  have k3 := hT.img_grad dx0 dx0' dt (dt / 2) (dt / τ / 2) y2 (hT.img_phi y2)
  have y3 := hT.img_add k3 hs
  have k4 := hT.img_grad dx0 dx0' dt dt (dt / τ) y3 (hT.img_phi y3)
  exact hT.img_add (hT.img_smul (1 / 6) (hT.img_add k4 (hT.img_add (hT.img_smul 2 k3)
    (hT.img_add (hT.img_smul 2 k2) k1)))) hs

theorem eulerS (dx0 dx0' dt : ℝ) {s : Sta h w} {s' : Sta h' w'} (hs : Img T s s') {p : Fld h w} {p' : Fld h' w'}
    (hp : p' = T p) : Img T (Verif.eulerS P dx0 dt p s) (Verif.eulerS P' dx0' (dt / τ) p' s') :=
  hT.img_add (hT.img_grad dx0 dx0' dt 0 0 hs hp) hs

end Conj

/-! ### units of time and amplitude -/

/-- the coefficients in other units: rates `τ` times as large, fields `a` times as large -/
noncomputable def rescale (τ a : ℝ) (P : Params) : Params :=
  { P with c1 := τ * P.c1, nu := τ * P.nu, kappa := τ * P.kappa, pb := τ * P.pb / a }

theorem conj_rescale {τ a : ℝ} (hτ : τ ≠ 0) (ha : a ≠ 0) (P : Params) :
    Conj (fun f : Fld h w => a • f) τ P (rescale τ a P) where
  tau := hτ
  add f g := smul_add a f g
  smul c f := smul_comm a c f
  rhsN n p := by
    have hh : ∀ f : Fld h w, hyper (rescale τ a P) f = τ • hyper P f := by
      intro f; funext i j; simp only [hyper, rescale, Pi.smul_apply, smul_eq_mul]; ring
    funext i j
    simp only [Spec.rhsN, couple_smul, jac_smul_left, jac_smul_right, gradY_smul, hyper_smul, hh, Pi.smul_apply,
      smul_eq_mul]
    simp only [rescale]
    field_simp
  rhsO n o p := by
    have hh : ∀ f : Fld h w, hyper (rescale τ a P) f = τ • hyper P f := by
      intro f; funext i j; simp only [hyper, rescale, Pi.smul_apply, smul_eq_mul]; ring
    funext i j
    simp only [Spec.rhsO, couple_smul, jac_smul_left, jac_smul_right, hyper_smul, hh, Pi.smul_apply,
      smul_eq_mul]
    simp only [rescale]
    field_simp
  phiF o := phiF_smul P.dx a o

/-- all entries of a state when the fields are `a` times as large -/
noncomputable def ampS (a : ℝ) (s : Sta h w) : Sta h w :=
  (a • s.1, a • s.2.1, a • s.2.2.1, s.2.2.2.1, a ^ 2 * s.2.2.2.2.1, a ^ 2 * s.2.2.2.2.2)

theorem ampS_add (a : ℝ) (s t : Sta h w) : ampS a s + ampS a t = ampS a (s + t) := by
  simp only [ampS, Prod.mk_add_mk, Prod.fst_add, Prod.snd_add, smul_add, mul_add]

theorem ampS_smul (a c : ℝ) (s : Sta h w) : c • ampS a s = ampS a (c • s) := by
  simp only [ampS, Prod.smul_mk, Prod.smul_fst, Prod.smul_snd, smul_eq_mul, smul_comm c a, mul_left_comm c]

theorem gamN_amp (dx a : ℝ) (n p : Fld h w) : gamN dx (a • n) (a • p) = a ^ 2 * gamN dx n p := by
  unfold gamN
  rw [gradY_smul, mul_neg, ← avg_smul]
  exact congrArg Neg.neg (avg_congr fun i j => by simp only [Pi.smul_apply, smul_eq_mul]; ring)

theorem gamC_amp (c1 a : ℝ) (n p : Fld h w) : gamC c1 (a • n) (a • p) = a ^ 2 * gamC c1 n p := by
  unfold gamC
  rw [mul_left_comm, ← avg_smul (a ^ 2)]
  exact congrArg (c1 * ·) (avg_congr fun i j => by simp only [Pi.smul_apply, smul_eq_mul]; ring)

theorem repE_amp (P : Params) (dx0 a : ℝ) (n p : Fld h w) :
    repE (rescale 1 a P) dx0 (a • n) (a • p) = a ^ 2 * repE P dx0 n p := by
  have hh : ∀ f : Fld h w, hyper (rescale 1 a P) f = hyper P f := by
    intro f; funext i j; simp only [hyper, rescale, one_mul]
  have hc : (rescale 1 a P).c1 = P.c1 := one_mul _
  unfold repE
  rw [hc, gamN_amp, gamC_amp, mul_sub, mul_sub, ← avg_smul]
  refine congrArg _ (avg_congr fun i j => ?_)
  simp only [hh, hyper_smul, Pi.smul_apply, smul_eq_mul]; ring

theorem repU_amp (P : Params) (dx0 a : ℝ) (n o p : Fld h w) :
    repU (rescale 1 a P) dx0 (a • n) (a • o) (a • p) = a ^ 2 * repU P dx0 n o p := by
  have hh : ∀ f : Fld h w, hyper (rescale 1 a P) f = hyper P f := by
    intro f; funext i j; simp only [hyper, rescale, one_mul]
  unfold repU
  rw [gamN_amp, mul_sub, mul_neg, ← avg_smul]
  refine congrArg (fun x => _ - -x) (avg_congr fun i j => ?_)
  simp only [hh, hyper_smul, Pi.smul_apply, smul_eq_mul]; ring

theorem gradS_amp {a : ℝ} (ha : a ≠ 0) (P : Params) (dx0 dt : ℝ) (p : Fld h w) (s : Sta h w) :
    gradS (rescale 1 a P) dx0 dt (a • p) (ampS a s) = ampS a (gradS P dx0 dt p s) := by
  have hc := conj_rescale (h := h) (w := w) one_ne_zero ha P
  have e1 := hc.rhsN s.1 p
  have e2 := hc.rhsO s.1 s.2.1 p
  beta_reduce at e1 e2
  simp only [gradS, ampS, e1, e2, repE_amp, repU_amp, one_smul, smul_zero]

theorem rk4S_amp {a : ℝ} (ha : a ≠ 0) (P : Params) (dx0 dt : ℝ) (s : Sta h w) :
    rk4S (rescale 1 a P) dx0 dt (ampS a s) = ampS a (rk4S P dx0 dt s) := by
  have e1 : ∀ s : Sta h w, (ampS a s).2.1 = a • s.2.1 := fun _ => rfl
  have e2 : (ampS a s).2.2.1 = a • s.2.2.1 := rfl
  have e3 : (rescale 1 a P).dx = P.dx := rfl
  unfold rk4S
  simp only [e2, gradS_amp ha, ampS_smul, ampS_add, e1, e3, phiF_smul]
  rfl

theorem eulerS_amp {a : ℝ} (ha : a ≠ 0) (P : Params) (dx0 dt : ℝ) (p : Fld h w) (s : Sta h w) :
    eulerS (rescale 1 a P) dx0 dt (a • p) (ampS a s) = ampS a (eulerS P dx0 dt p s) := by
  have e1 : ∀ s : Sta h w, (ampS a s).2.1 = a • s.2.1 := fun _ => rfl
  have e3 : (rescale 1 a P).dx = P.dx := rfl
  unfold eulerS
  simp only [gradS_amp ha, ampS_smul, ampS_add, e1, e3, phiF_smul]
  rfl

/-! ### the direction of the density gradient -/

/-- the negated mirror image in y -/
def mirrorY (f : Fld h w) : Fld h w := fun i j => -f (-i) j

theorem S_reflectY {K : Type} [AddCommMonoid K] (f : ZMod h → ZMod w → K) : S (fun i j => f (-i) j) = S f := by
  unfold S
  exact Equiv.sum_comp (Equiv.neg (ZMod h)) fun i => ∑ j, f i j

theorem D_reflectY (f : ZMod h → ZMod w → ℂ) (k : ZMod h) (l : ZMod w) :
    D (fun i j => f (-i) j) k l = D f (-k) l := by
  unfold D
  rw [← S_reflectY]
  exact S_congr fun i j => by
    beta_reduce; rw [neg_neg]; congr 3; rw [mul_neg, neg_mul]

theorem sig_reflectY (m : ℕ) (k : ZMod h) (l : ZMod w) : sig m (-k) l = sig m k l := by
  unfold sig lamb
  simp [kap_neg_sq]

theorem mirrorY_phiF (dx : ℝ) (f : Fld h w) : phiF dx (mirrorY f) = mirrorY (phiF dx f) := by
  have e : ∀ g : Fld h w, cx (mirrorY g) = fun i j => (-1 : ℂ) * (fun i j => cx g (-i) j) i j := by
    intro g; funext i j
    change ((-g (-i) j : ℝ) : ℂ) = -1 * ((g (-i) j : ℝ) : ℂ)
    push_cast; ring
  refine mult_ext ?_
  funext k l
  rw [D_phiF, e, e, D_smul, D_smul]
  simp only [D_reflectY, D_phiF, sig_reflectY]
  ring

theorem mirrorY_add (f g : Fld h w) : mirrorY (f + g) = mirrorY f + mirrorY g := by
  funext i j; simp only [mirrorY, Pi.add_apply]; ring
theorem mirrorY_smul (c : ℝ) (f : Fld h w) : mirrorY (c • f) = c • mirrorY f := by
  funext i j; simp only [mirrorY, Pi.smul_apply, smul_eq_mul]; ring

theorem mirrorY_lap (dx : ℝ) (f : Fld h w) : lap dx (mirrorY f) = mirrorY (lap dx f) := by
  funext i j
  have e1 : -(i - 1) = -i + 1 := by ring
  have e2 : -(i + 1) = -i - 1 := by ring
  simp only [mirrorY, lap, e1, e2]; ring

theorem mirrorY_jac (dx : ℝ) (f g : Fld h w) : jac dx (mirrorY f) (mirrorY g) = mirrorY (jac dx f g) := by
  funext i j
  have e1 : -(i - 1) = -i + 1 := by ring
  have e2 : -(i + 1) = -i - 1 := by ring
  simp only [mirrorY, jac, e1, e2]; ring

theorem mirrorY_gradY (dx : ℝ) (f : Fld h w) : gradY dx (mirrorY f) = -mirrorY (gradY dx f) := by
  funext i j
  have e1 : -(i - 1) = -i + 1 := by ring
  have e2 : -(i + 1) = -i - 1 := by ring
  simp only [mirrorY, gradY, e1, e2, Pi.neg_apply]; ring

theorem mirrorY_nonZonal (f : Fld h w) : nonZonal (mirrorY f) = mirrorY (nonZonal f) := by
  funext i j
  have e : ∑ i', -f (-i') j = -∑ i', f i' j := by
    rw [Finset.sum_neg_distrib]
    exact congrArg Neg.neg (Equiv.sum_comp (Equiv.neg (ZMod h)) fun i => f i j)
  simp only [mirrorY, nonZonal, e]
  ring

theorem mirrorY_couple (z : Bool) (p n : Fld h w) :
    couple z (mirrorY p) (mirrorY n) = mirrorY (couple z p n) := by
  funext i j
  cases z
  · simp only [couple, mirrorY]; simp only [Bool.false_eq_true, if_false]; ring
  · simp only [couple, mirrorY_nonZonal, if_true]
    simp only [mirrorY, couple, if_true]; ring

theorem mirrorY_hyper (P : Params) (f : Fld h w) : hyper P (mirrorY f) = mirrorY (hyper P f) := by
  have e : ∀ N, (lap P.dx)^[N] (mirrorY f) = mirrorY ((lap P.dx)^[N] f) := by
    intro N
    induction N with
    | zero => rfl
    | succ N ih => rw [Function.iterate_succ_apply', ih, mirrorY_lap, Function.iterate_succ_apply']
  funext i j
  simp only [hyper, e]
  simp only [mirrorY, hyper]; ring

/-- mirroring y reverses the density gradient -/
theorem conj_mirrorY (P : Params) : Conj (mirrorY : Fld h w → Fld h w) 1 P { P with kappa := -P.kappa } where
  tau := one_ne_zero
  add := mirrorY_add
  smul := mirrorY_smul
  rhsN n p := by
    have hh : ∀ f : Fld h w, hyper { P with kappa := -P.kappa } f = hyper P f := fun f => rfl
    rw [one_smul]
    funext i j
    simp only [Spec.rhsN, hh, mirrorY_couple, mirrorY_jac, mirrorY_gradY, mirrorY_hyper, Pi.neg_apply]
    simp only [mirrorY]; ring_nf
    simp only [Spec.rhsN]; ring
  rhsO n o p := by
    have hh : ∀ f : Fld h w, hyper { P with kappa := -P.kappa } f = hyper P f := fun f => rfl
    rw [one_smul]
    funext i j
    simp only [Spec.rhsO, hh, mirrorY_couple, mirrorY_jac, mirrorY_hyper]
    simp only [mirrorY, Spec.rhsO]; ring
  phiF o := mirrorY_phiF P.dx o

/-! ### exchange of the axes -/

/-- the negated transposed field -/
def negT (f : Fld h w) : Fld w h := fun i j => -f j i

theorem S_swap {K : Type} [AddCommMonoid K] (f : ZMod h → ZMod w → K) : S (fun (i : ZMod w) (j : ZMod h) => f j i) = S f := by
  unfold S
  exact Finset.sum_comm

theorem D_swap (f : ZMod h → ZMod w → ℂ) (k : ZMod w) (l : ZMod h) :
    D (fun (i : ZMod w) (j : ZMod h) => f j i) k l = D f l k := by
  unfold D
  rw [← S_swap]
  exact S_congr fun i j => by beta_reduce; ring

theorem sig_swap (m : ℕ) (k : ZMod h) (l : ZMod w) : sig m l k = sig m k l := by
  unfold sig lamb
  simp only [and_comm (a := l = 0), add_comm (kap l ^ 2)]

theorem negT_phiF (dx : ℝ) (f : Fld h w) : phiF dx (negT f) = negT (phiF dx f) := by
  have e : ∀ g : Fld h w, cx (negT g) = fun i j => (-1 : ℂ) * (fun i j => cx g j i) i j := by
    intro g; funext i j
    change ((-g j i : ℝ) : ℂ) = -1 * ((g j i : ℝ) : ℂ)
    push_cast; ring
  refine mult_ext ?_
  funext k l
  rw [D_phiF, e, e, D_smul, D_smul]
  beta_reduce
  rw [D_swap (cx f), D_swap (cx (phiF dx f)), D_phiF, sig_swap]
  ring

theorem negT_lap (dx : ℝ) (f : Fld h w) : lap dx (negT f) = negT (lap dx f) := by
  funext i j
  simp only [negT, lap]; ring

theorem negT_jac (dx : ℝ) (f g : Fld h w) : jac dx (negT f) (negT g) = negT (jac dx f g) := by
  funext i j
  simp only [negT, jac]; ring

theorem negT_hyper (P : Params) (f : Fld h w) : hyper P (negT f) = negT (hyper P f) := by
  have e : ∀ N, (lap P.dx)^[N] (negT f) = negT ((lap P.dx)^[N] f) := by
    intro N
    induction N with
    | zero => rfl
    | succ N ih => rw [Function.iterate_succ_apply', ih, negT_lap, Function.iterate_succ_apply']
  funext i j
  simp only [hyper, e]
  simp only [negT, hyper]; ring

/-- without density gradient and zonal coupling the axes can be exchanged -/
theorem conj_negT (P : Params) (hk : P.kappa = 0) (hz : P.zonal = false) : Conj (negT : Fld h w → Fld w h) 1 P P where
  tau := one_ne_zero
  add f g := by funext i j; simp only [negT, Pi.add_apply]; ring
  smul c f := by funext i j; simp only [negT, Pi.smul_apply, smul_eq_mul]; ring
  rhsN n p := by
    rw [one_smul]
    funext i j
    simp only [Spec.rhsN, negT_jac, negT_hyper, hk, zero_mul, sub_zero, couple, hz, Bool.false_eq_true, if_false]
    simp only [negT, Spec.rhsN, hk, zero_mul, sub_zero, couple, hz, Bool.false_eq_true, if_false]; ring
  rhsO n o p := by
    rw [one_smul]
    funext i j
    simp only [Spec.rhsO, negT_jac, negT_hyper, couple, hz, Bool.false_eq_true, if_false]
    simp only [negT, Spec.rhsO, couple, hz, Bool.false_eq_true, if_false]; ring
  phiF o := negT_phiF P.dx o

end Verif
