import Verif.NumPy.Stack

/-!
# Specification: a stack of frames

An array of shape `B ++ [h, w]` is a stack of frames of shape `(h, w)`, one for
each index `b` inside `B`.  A function works frame by frame if its result on the
stack holds, at `b`, the result of the two-dimensional function on frame `b`;
if it raises on the stack, it raises the same exception on every frame.
-/

namespace Verif.Spec

variable {α γ : Type}

/-- the frame at leading index `b` of an array with frames of shape `(h, w)` -/
def frame (h w : ℕ) (x : Nd α) (b : List ℕ) : Arr α := Arr.tab h w fun i j => x.get (b ++ [i, j])

/-- the row at leading index `b` of an array with rows of length `m` -/
def row (m : ℕ) (x : Nd α) (b : List ℕ) : List α := (List.range m).map fun i => x.get (b ++ [i])

/-- The stack result `r` holds one number per frame: `F` of that frame. -/
def NumberPerFrame (B : List ℕ) (r : Py (Nd α)) (F : List ℕ → Py α) : Prop := match r with
  | .ok y => y.shape = B ∧ ∀ b, Nd.InRange B b → F b = .ok (y.get b)
  | .error e => ∀ b, Nd.InRange B b → F b = .error e

/-- The stack result `r` holds one list of numbers per frame: `F` of that frame. -/
def RowPerFrame (B : List ℕ) (r : Py (Nd α)) (F : List ℕ → Py (List α)) : Prop := match r with
  | .ok y => ∃ m, y.shape = B ++ [m] ∧ ∀ b, Nd.InRange B b → F b = .ok (row m y b)
  | .error e => ∀ b, Nd.InRange B b → F b = .error e

/-- The stack result `r` holds one frame per frame: `F` of that frame. -/
def FramePerFrame (B : List ℕ) (r : Py (Nd α)) (F : List ℕ → Py (Arr α)) : Prop := match r with
  | .ok y => ∃ h w, y.shape = B ++ [h, w] ∧ ∀ b, Nd.InRange B b → F b = .ok (frame h w y b)
  | .error e => ∀ b, Nd.InRange B b → F b = .error e

end Verif.Spec
