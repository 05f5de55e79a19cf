import Verif.Model.HWGen
import Verif.Lemmas.Stencil

/-!
# The time steps with any kind of numbers, as maps on torus fields
-/

set_option linter.unusedSectionVars false

namespace Verif.Gen

open Arr Spec

variable {α : Type} [Inhabited α] [Add α] [Sub α] [Mul α] [Div α] [Neg α] [Pow α ℕ] [NatCast α]
variable {h w : ℕ} [NeZero h] [NeZero w]

/-- a field of numbers of type `α` -/
abbrev F (α : Type) (h w : ℕ) := ZMod h → ZMod w → α

/-- the operations of an `Arith` on torus fields -/
structure Fa (α : Type) (h w : ℕ) where
  half : α
  truthy : α → Bool
  mean : F α h w → α
  rows : F α h w → ZMod w → α
  sol : F α h w → F α h w

/-- `a` describes `A` on the torus -/
structure Evals (A : Arith α) (dx : α) (a : Fa α h w) : Prop where
  half : A.half = a.half
  truthy : A.truthy = a.truthy
  mean : ∀ f : F α h w, A.mean (ofField f) = a.mean f
  rows : ∀ f : F α h w, A.meanRows (ofField f) = tab 1 w fun _ j => a.rows f j
  sol : ∀ f : F α h w, A.poisson_solver (ofField f) dx = .ok (ofField (a.sol f))
  diffuse : ∀ (f : F α h w) N, A.diffuse_N (ofField f) dx N = .ok (ofField ((lap dx)^[N] f))
  bracket : ∀ f g : F α h w, A.poisson_bracket (ofField f) (ofField g) dx = .ok (ofField (jac dx f g))
  grad : ∀ f : F α h w, A.gradient_func (ofField f) dx 0 = .ok (ofField (gradY dx f))

variable (a : Fa α h w) (P : Coeffs α) (dx dt : α)

def phiG (f : F α h w) : F α h w := a.sol fun i j => f i j - a.mean f
def nzG (f : F α h w) : F α h w := fun i j => f i j - a.rows f j
def coupG (p n : F α h w) : F α h w := fun i j => if P.zonal then nzG a p i j - nzG a n i j else p i j - n i j
def mulG (c : α) (f : F α h w) : F α h w := fun i j => c * f i j
def addG (f g : F α h w) : F α h w := fun i j => f i j + g i j
def brG (x p f : F α h w) : F α h w :=
  if a.truthy P.poisson_bracket_coeff then addG x (mulG (-P.poisson_bracket_coeff) (jac dx p f)) else x
def difG (x f : F α h w) : F α h w := if a.truthy P.nu then addG x (mulG P.nu ((lap dx)^[P.N] f)) else x
def kapG (x p : F α h w) : F α h w :=
  if a.truthy P.kappa_coeff then addG x (mulG (-P.kappa_coeff) (gradY dx p)) else x
def rhoG (n o p : F α h w) : F α h w := difG a P dx (brG a P dx (mulG P.c1 (coupG a P p n)) p o) o
def rhnG (n p : F α h w) : F α h w :=
  difG a P dx (kapG a P dx (brG a P dx (mulG P.c1 (coupG a P p n)) p n) p) n

/-- the slope `dt * gradient` at density, vorticity and potential -/
def slopeG (n o p : F α h w) : F α h w × F α h w := (mulG dt (rhnG a P dx n p), mulG dt (rhoG a P dx n o p))
/-- `y + c k` -/
def stageG (c : α) (y k : F α h w × F α h w) : F α h w × F α h w :=
  (addG (mulG c k.1) y.1, addG (mulG c k.2) y.2)
/-- `y + k` -/
def sumG (y k : F α h w × F α h w) : F α h w × F α h w := (addG k.1 y.1, addG k.2 y.2)
/-- slope at a stage whose potential is computed -/
def slopePhiG (y : F α h w × F α h w) : F α h w × F α h w := slopeG a P dx dt y.1 y.2 (phiG a y.2)

/-- density and vorticity after a step of `rk4_step` -/
def rk4Y (y : F α h w × F α h w) (p : F α h w) : F α h w × F α h w :=
  let k1 := slopeG a P dx dt y.1 y.2 p
  let k2 := slopePhiG a P dx dt (stageG a.half y k1)
  let k3 := slopePhiG a P dx dt (stageG a.half y k2)
  let k4 := slopePhiG a P dx dt (sumG y k3)
  stageG (((1 : ℕ) : α) / ((6 : ℕ) : α)) y
    (sumG (stageG ((2 : ℕ) : α) (stageG ((2 : ℕ) : α) k1 k2) k3) k4)

/-- density and vorticity after a step of `euler_step` -/
def eulerY (y : F α h w × F α h w) (p : F α h w) : F α h w × F α h w := sumG y (slopeG a P dx dt y.1 y.2 p)

/-- a state of fields -/
def ofF (y : F α h w × F α h w) (p : F α h w) : State α := ⟨ofField y.1, ofField y.2, ofField p⟩

theorem add_ofF (f g : F α h w) : (.ok (ofField f) + .ok (ofField g) : Py (Arr α)) = .ok (ofField (addG f g)) :=
  ok_add ..
theorem map_mul (c : α) (f : F α h w) : (ofField f).map (c * ·) = ofField (mulG c f) := rfl
theorem sub_ofF (f g : F α h w) : (.ok (ofField f) - .ok (ofField g) : Py (Arr α)) = .ok (ofField fun i j => f i j - g i j) :=
  ok_sub ..

theorem iadd_ofF (f g : F α h w) : iadd (ofField f) (ofField g) = .ok (ofField (addG f g)) := by
  unfold iadd
  rw [add_ofF]
  simp

theorem zonal_ofF {A : Arith α} {dx : α} {a : Fa α h w} (H : Evals A dx a) (f : F α h w) :
    zonal_transform A (ofField f) = .ok (ofField (nzG a f)) := by
  unfold zonal_transform
  rw [H.rows]
  change Arr.zip _ (ofField f) (tab 1 w _) = _
  unfold Arr.zip
  simp only [ofField_h, ofField_w, tab_h, tab_w, bdim_self]
  have : bdim h 1 = some h := by
    unfold bdim
    by_cases h1 : h = 1
    · simp [h1]
    · simp [h1]
  rw [this]
  simp only
  congr 1
  refine tab_congr rfl rfl fun i j hi hj => ?_
  rw [bidx_lt hi, bidx_lt hj, ofField_at' f hi hj]
  simp only [bidx, if_true]
  rw [tab_at' _ _ _ (by omega) hj]
  rfl

section
variable {A : Arith α} {dx : α} {a : Fa α h w} (H : Evals A dx a)
include H

theorem get_phi_ofF (f : F α h w) : get_phi A (ofField f) dx = .ok (ofField (phiG a f)) := by
  unfold get_phi
  rw [H.mean]
  exact H.sol fun i j => f i j - a.mean f

theorem coupling_ofF (p n : F α h w) : coupling A P (ofField p) (ofField n) = .ok (ofField (coupG a P p n)) := by
  unfold coupling coupG
  cases P.zonal
  · simp [sub_ofF]
  · simp [zonal_ofF H, sub_ofF]

theorem addBracket_ofF (x p f : F α h w) :
    addBracket A P (ofField x) (ofField p) (ofField f) dx = .ok (ofField (brG a P dx x p f)) := by
  unfold addBracket brG
  rw [H.truthy, H.bracket]
  by_cases t : a.truthy P.poisson_bracket_coeff = true
  · rw [if_pos t, if_pos t]; simp only [Py.ok_bind, map_mul, iadd_ofF]
  · rw [if_neg t, if_neg t]

theorem addDiffusion_ofF (x f : F α h w) :
    addDiffusion A P (ofField x) (ofField f) dx = .ok (ofField (difG a P dx x f)) := by
  unfold addDiffusion difG
  rw [H.truthy, H.diffuse]
  by_cases t : a.truthy P.nu = true
  · rw [if_pos t, if_pos t]; simp only [Py.ok_bind, map_mul, iadd_ofF]
  · rw [if_neg t, if_neg t]

theorem addKappa_ofF (x p : F α h w) :
    addKappa A P (ofField x) (ofField (gradY dx p)) = .ok (ofField (kapG a P dx x p)) := by
  unfold addKappa kapG
  rw [H.truthy]
  by_cases t : a.truthy P.kappa_coeff = true
  · rw [if_pos t, if_pos t]; simp only [map_mul, iadd_ofF]
  · rw [if_neg t, if_neg t]

theorem gradient_ofF (n o p : F α h w) : hw2d_gradient A P (ofField n) (ofField o) (ofField p) dx
    = .ok ⟨ofField (rhnG a P dx n p), ofField (rhoG a P dx n o p)⟩ := by
  unfold hw2d_gradient
  simp only [H.grad, Py.ok_bind, coupling_ofF P H, map_mul, addBracket_ofF P H, addDiffusion_ofF P H, addKappa_ofF P H]
  rfl

omit H in
theorem add_two (y z : F α h w × F α h w) : add ⟨ofField y.1, ofField y.2⟩ ⟨ofField z.1, ofField z.2⟩
    = .ok ⟨ofField (sumG y z).1, ofField (sumG y z).2⟩ := by
  unfold add
  rw [add_ofF, add_ofF]
  rfl

omit H in
theorem smul_two (c : α) (z : F α h w × F α h w) : smul c ⟨ofField z.1, ofField z.2⟩
    = ⟨ofField (mulG c z.1), ofField (mulG c z.2)⟩ := rfl

theorem euler_ofF (y : F α h w × F α h w) (p : F α h w) : euler_step A P (ofF y p) dt dx
    = .ok (ofF (eulerY a P dx dt y p) (phiG a (eulerY a P dx dt y p).2)) := by
  unfold euler_step ofF
  simp only [gradient_ofF P H, Py.ok_bind, smul, map_mul, add, add_ofF, Py.pure_eq, get_phi_ofF H]
  rfl

theorem rk4_ofF (y : F α h w × F α h w) (p : F α h w) : rk4_step A P (ofF y p) dt dx
    = .ok (ofF (rk4Y a P dx dt y p) (phiG a (rk4Y a P dx dt y p).2)) := by
  unfold rk4_step ofF
  simp only [gradient_ofF P H, Py.ok_bind, smul, map_mul, add, add_ofF, Py.pure_eq, get_phi_ofF H, H.half]
  rfl

end

end Verif.Gen
