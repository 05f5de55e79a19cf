import Verif.NumPy.Nd
import Verif.NumPy.FFT

/-!
# NumPy layer: arrays with leading axes

Operations of NumPy on arrays of any rank that the two-dimensional layer
(`Verif/NumPy/Arr.lean`) has no room for: padding with one width per axis,
indexing with an ellipsis, element-wise operators on operands of different rank,
reductions over the last axes and the Fourier transform of the last two axes.
-/

namespace Verif.Nd

variable {α β γ : Type}

/-- `np.pad(x, pw, mode="wrap")` with one pair (before, after) per axis.  A
non-zero width on an axis of length 0 raises `ValueError`, so does a list of the
wrong length. -/
def padWrap (x : Nd α) (pw : List (ℕ × ℕ)) : Py (Nd α) :=
  if pw.length ≠ x.shape.length then .error .valueError
  else if (x.shape.zip pw).any fun q => q.1 == 0 && (0 < q.2.1 || 0 < q.2.2) then .error .valueError
  else .ok ⟨List.zipWith (fun n p => p.1 + n + p.2) x.shape pw,
    fun idx => x.get (List.zipWith (fun q i => Arr.wrapIdx q.1 q.2.1 i) (x.shape.zip pw) idx)⟩

/-- `x[..., r, c]`: slices on the last two axes.  Fewer than two axes raise
`IndexError`. -/
def slLast (x : Nd α) (r c : Arr.Sl) : Py (Nd α) :=
  let k := x.shape.length - 2
  if x.shape.length < 2 then .error .indexError
  else .ok ⟨x.shape.take k ++ [r.len (x.shape.getD k 0), c.len (x.shape.getD (k + 1) 0)],
    fun idx => x.get (idx.take k ++ [r.start (x.shape.getD k 0) + idx.getD k 0,
      c.start (x.shape.getD (k + 1) 0) + idx.getD (k + 1) 0])⟩

/-- `x[r, c]`: slices on the first two axes.  Fewer than two axes raise
`IndexError`. -/
def slFirst (x : Nd α) (r c : Arr.Sl) : Py (Nd α) := match x.shape with
  | h :: w :: s => .ok ⟨r.len h :: c.len w :: s, fun idx => match idx with
      | i :: j :: l => x.get ((r.start h + i) :: (c.start w + j) :: l)
      | l => x.get l⟩
  | _ => .error .indexError

/-- a two-dimensional array as an array of rank 2 -/
def ofArr [Inhabited α] (a : Arr α) : Nd α := ⟨[a.h, a.w], fun idx => a.at' (idx.getD 0 0) (idx.getD 1 0)⟩

/-- `k` axes of length 1 in front -/
def lead (k : ℕ) (x : Nd α) : Nd α := ⟨List.replicate k 1 ++ x.shape, fun idx => x.get (idx.drop k)⟩

/-- element-wise binary operation with broadcasting: the shorter shape gets
leading axes of length 1 -/
def bzip (f : α → β → γ) (x : Nd α) (y : Nd β) : Py (Nd γ) :=
  zip f (lead (y.rank - x.rank) x) (lead (x.rank - y.rank) y)

/-- `np.mean(x, axis=(-1, -2))`; fewer than two axes raise `AxisError` (a
`ValueError`).  The mean of no entries (NumPy: `nan`) is totalised. -/
noncomputable def meanLast2 (x : Nd ℝ) : Py (Nd ℝ) :=
  let k := x.shape.length - 2
  if x.shape.length < 2 then .error .valueError
  else .ok ⟨x.shape.take k, fun b =>
    (∑ i ∈ Finset.range (x.shape.getD k 0), ∑ j ∈ Finset.range (x.shape.getD (k + 1) 0), x.get (b ++ [i, j]))
      / ((x.shape.getD k 0 : ℝ) * (x.shape.getD (k + 1) 0 : ℝ))⟩

/-- `np.mean(x, axis=(-1, -2), keepdims=True)` -/
noncomputable def meanLast2Keep (x : Nd ℝ) : Py (Nd ℝ) := do
  let m ← x.meanLast2
  return ⟨m.shape ++ [1, 1], fun idx => m.get (idx.take m.shape.length)⟩

/-- `np.mean(x, axis=-2, keepdims=True)` -/
noncomputable def meanRowsKeep (x : Nd ℝ) : Py (Nd ℝ) :=
  let k := x.shape.length - 2
  if x.shape.length < 2 then .error .valueError
  else .ok ⟨x.shape.take k ++ [1, x.shape.getD (k + 1) 0], fun idx =>
    (∑ i ∈ Finset.range (x.shape.getD k 0), x.get (idx.take k ++ [i, idx.getD (k + 1) 0]))
      / (x.shape.getD k 0 : ℝ)⟩

/-- `np.mean(x, axis=-1)`; no axis raises `AxisError` -/
noncomputable def meanLast (x : Nd ℝ) : Py (Nd ℝ) :=
  let k := x.shape.length - 1
  if x.shape.length < 1 then .error .valueError
  else .ok ⟨x.shape.take k, fun b =>
    (∑ j ∈ Finset.range (x.shape.getD k 0), x.get (b ++ [j])) / (x.shape.getD k 0 : ℝ)⟩

/-- `x[..., :m]`; no axis raises `IndexError` -/
def takeLast (x : Nd α) (m : ℕ) : Py (Nd α) :=
  let k := x.shape.length - 1
  if x.shape.length < 1 then .error .indexError
  else .ok ⟨x.shape.take k ++ [min m (x.shape.getD k 0)], x.get⟩

open Complex in
/-- `np.fft.fft2(x)`: transform of the last two axes.  Fewer than two axes raise
`IndexError`; one of the two empty raises `ValueError`. -/
noncomputable def fft2 (x : Nd ℂ) : Py (Nd ℂ) :=
  let k := x.shape.length - 2
  let h := x.shape.getD k 0
  let w := x.shape.getD (k + 1) 0
  if x.shape.length < 2 then .error .indexError
  else if h = 0 ∨ w = 0 then .error .valueError
  else .ok ⟨x.shape, fun idx => ∑ m ∈ Finset.range h, ∑ n ∈ Finset.range w, x.get (idx.take k ++ [m, n])
      * exp (-(2 * Real.pi * I * ((idx.getD k 0 : ℂ) * m / (h : ℂ) + (idx.getD (k + 1) 0 : ℂ) * n / (w : ℂ))))⟩

open Complex in
/-- `np.fft.ifft2(x)`: conjugate kernel and division by `h*w` -/
noncomputable def ifft2 (x : Nd ℂ) : Py (Nd ℂ) :=
  let k := x.shape.length - 2
  let h := x.shape.getD k 0
  let w := x.shape.getD (k + 1) 0
  if x.shape.length < 2 then .error .indexError
  else if h = 0 ∨ w = 0 then .error .valueError
  else .ok ⟨x.shape, fun idx => (∑ m ∈ Finset.range h, ∑ n ∈ Finset.range w, x.get (idx.take k ++ [m, n])
      * exp (2 * Real.pi * I * ((idx.getD k 0 : ℂ) * m / (h : ℂ) + (idx.getD (k + 1) 0 : ℂ) * n / (w : ℂ))))
    / ((h : ℂ) * (w : ℂ))⟩

/-- `np.fft.fft2(x, norm="ortho")`: `fft2` divided by `sqrt(h*w)` -/
noncomputable def fft2Ortho (x : Nd ℂ) : Py (Nd ℂ) := do
  let k := x.shape.length - 2
  let r ← x.fft2
  return r.map (· / ((Real.sqrt ((x.shape.getD k 0 : ℝ) * (x.shape.getD (k + 1) 0 : ℝ)) : ℝ) : ℂ))

/-- the complex copy of a real array -/
def toComplex (x : Nd ℝ) : Nd ℂ := x.map (fun r : ℝ => (r : ℂ))

/-- `np.real(x)` -/
def real (x : Nd ℂ) : Nd ℝ := x.map Complex.re

/-- `np.stack(frames)` for frames of equal shape `(h, w)`, as read from a dataset -/
def stack [Inhabited α] (h w : ℕ) (frames : List (Arr α)) : Nd α :=
  ⟨[frames.length, h, w], fun idx => (frames.getD (idx.getD 0 0) ⟨0, 0, fun i => i.elim0⟩).at' (idx.getD 1 0) (idx.getD 2 0)⟩

end Verif.Nd
