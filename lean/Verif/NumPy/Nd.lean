import Verif.NumPy.Arr

/-!
# NumPy layer: arrays of any rank

`Nd α` is a `numpy.ndarray`: a shape and the entry at each index.  `get` is only
meaningful for indices inside the shape (`Nd.InRange`); no operation below reads
outside.
-/

namespace Verif

/-- An array of any rank. -/
structure Nd (α : Type) where
  shape : List ℕ
  get : List ℕ → α

namespace Nd

variable {α β γ : Type}

/-- `idx` addresses an entry of an array of shape `shape` -/
def InRange (shape idx : List ℕ) : Prop := List.Forall₂ (fun i n => i < n) idx shape

/-- The same array: same shape, same entries. -/
def Same (x y : Nd α) : Prop :=
  x.shape = y.shape ∧ ∀ idx, InRange x.shape idx → x.get idx = y.get idx

/-- `len(x.shape)` -/
def rank (x : Nd α) : ℕ := x.shape.length

/-- number of indices selected by `slice(s, None, k)`, `k ≥ 1`, on an axis of length `n` -/
def stepLen (s k n : ℕ) : ℕ := (n - s + (k - 1)) / k

/-- `x[:, ..., slice(s, None, k), ..., :]` with the slice at axis `i`, `k ≥ 1` -/
def slice (x : Nd α) (i s k : ℕ) : Nd α :=
  ⟨x.shape.modify i (stepLen s k), fun idx => x.get (idx.modify i (fun j => s + k * j))⟩

/-- shape of the element-wise combination of arrays of equal rank -/
def bshape : List ℕ → List ℕ → Option (List ℕ)
  | [], [] => some []
  | a :: as, b :: bs => match Arr.bdim a b, bshape as bs with
    | some n, some r => some (n :: r)
    | _, _ => none
  | _, _ => none

/-- index of the entry of an array of shape `shape` used for `idx` after broadcasting -/
def bindex (shape idx : List ℕ) : List ℕ := List.zipWith Arr.bidx shape idx

/-- Element-wise binary operation with broadcasting, for arrays of equal rank;
incompatible shapes raise `ValueError`. -/
def zip (f : α → β → γ) (x : Nd α) (y : Nd β) : Py (Nd γ) := match bshape x.shape y.shape with
  | some s => .ok ⟨s, fun idx => f (x.get (bindex x.shape idx)) (y.get (bindex y.shape idx))⟩
  | none => .error .valueError

/-- Element-wise unary operation. -/
def map (f : α → β) (x : Nd α) : Nd β := ⟨x.shape, fun idx => f (x.get idx)⟩

/-- position of `idx` in the row-major order of `shape` -/
def ravel : List ℕ → List ℕ → ℕ
  | _ :: s, i :: r => i * s.prod + ravel s r
  | _, _ => 0

/-- index at position `p` of the row-major order of `shape` -/
def unravel : List ℕ → ℕ → List ℕ
  | _ :: s, p => (p / s.prod) :: unravel s (p % s.prod)
  | [], _ => []

/-- `x.reshape(shape)`; a different number of entries raises `ValueError` -/
def reshape (x : Nd α) (shape : List ℕ) : Py (Nd α) :=
  if shape.prod = x.shape.prod then .ok ⟨shape, fun idx => x.get (unravel x.shape (ravel shape idx))⟩
  else .error .valueError

/-- the entries along axis `i` at the index `idx` (without that axis) -/
def along (x : Nd α) (i : ℕ) (idx : List ℕ) : List α :=
  (List.range (x.shape.getD i 0)).map fun j => x.get (idx.insertIdx i j)

/-- reduction along axis `i` (without `keepdims`) -/
def reduce (f : List α → β) (x : Nd α) (i : ℕ) : Nd β :=
  ⟨x.shape.eraseIdx i, fun idx => f (x.along i idx)⟩

theorem InRange.length {shape idx : List ℕ} (h : InRange shape idx) : idx.length = shape.length :=
  List.Forall₂.length_eq h

theorem ravel_lt {shape idx : List ℕ} (h : InRange shape idx) : ravel shape idx < shape.prod := by
  induction h with
  | nil => simp [ravel]
  | @cons i n r s hi hr ih =>
    simp only [ravel, List.prod_cons]
    have : i * s.prod + s.prod ≤ n * s.prod := by
      rw [← Nat.succ_mul]; exact Nat.mul_le_mul_right _ hi
    omega

theorem unravel_ravel {shape idx : List ℕ} (h : InRange shape idx) : unravel shape (ravel shape idx) = idx := by
  induction h with
  | nil => rfl
  | @cons i n r s hi hr ih =>
    have hlt := ravel_lt hr
    simp only [ravel, unravel]
    rw [mul_comm, Nat.mul_add_div (by omega), Nat.div_eq_of_lt hlt, Nat.mul_add_mod, Nat.mod_eq_of_lt hlt, ih]
    simp

theorem reshape_self (x : Nd α) : ∃ y, x.reshape x.shape = .ok y ∧ Same y x :=
  ⟨_, if_pos rfl, rfl, fun idx h => by simp only at h ⊢; rw [unravel_ravel h]⟩

end Nd

end Verif
