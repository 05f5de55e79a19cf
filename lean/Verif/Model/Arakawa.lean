import Verif.NumPy.Arr

/-!
# Model of `poisson_bracket/{numpy,numba,phiml}_arakawa.py`

Scalars carry no laws (see `Verif.NumPy.Arr`).
-/

namespace Verif

variable {α : Type} [Inhabited α] [Add α] [Sub α] [Mul α] [Div α] [NatCast α] [Pow α ℕ]

open Arr

namespace NumpyArakawa

/-- `numpy_arakawa.jpp`, `poisson_bracket/numpy_arakawa.py` l.21-37
(`i` is the column, `j` the row). -/
def jpp (zeta psi : Arr α) (dx : α) (i j : ℕ) : α :=
  ((zeta.at' j (i + 1) - zeta.at' j (i - 1)) * (psi.at' (j + 1) i - psi.at' (j - 1) i)
    - (zeta.at' (j + 1) i - zeta.at' (j - 1) i) * (psi.at' j (i + 1) - psi.at' j (i - 1)))
    / (((4 : ℕ) : α) * dx ^ 2)

/-- `numpy_arakawa.jpx`, l.40-59. -/
def jpx (zeta psi : Arr α) (dx : α) (i j : ℕ) : α :=
  (zeta.at' j (i + 1) * (psi.at' (j + 1) (i + 1) - psi.at' (j - 1) (i + 1))
    - zeta.at' j (i - 1) * (psi.at' (j + 1) (i - 1) - psi.at' (j - 1) (i - 1))
    - zeta.at' (j + 1) i * (psi.at' (j + 1) (i + 1) - psi.at' (j + 1) (i - 1))
    + zeta.at' (j - 1) i * (psi.at' (j - 1) (i + 1) - psi.at' (j - 1) (i - 1)))
    / (((4 : ℕ) : α) * dx ^ 2)

/-- `numpy_arakawa.jxp`, l.62-81. -/
def jxp (zeta psi : Arr α) (dx : α) (i j : ℕ) : α :=
  (zeta.at' (j + 1) (i + 1) * (psi.at' (j + 1) i - psi.at' j (i + 1))
    - zeta.at' (j - 1) (i - 1) * (psi.at' j (i - 1) - psi.at' (j - 1) i)
    - zeta.at' (j + 1) (i - 1) * (psi.at' (j + 1) i - psi.at' j (i - 1))
    + zeta.at' (j - 1) (i + 1) * (psi.at' j (i + 1) - psi.at' (j - 1) i))
    / (((4 : ℕ) : α) * dx ^ 2)

/-- `numpy_arakawa.arakawa`, l.84-104.  `mem` is the content of the
uninitialised memory returned by `np.empty_like`; the two nested loops assign
every interior cell `1 ≤ j < H-1`, `1 ≤ i < W-1` once, independently of each
other, so the result of the loops is written in closed form.  Indexing `psi`
beyond its shape raises `IndexError` (only if the loops are not empty). -/
def arakawa (mem : ℕ → ℕ → α) (zeta psi : Arr α) (dx : α) : Py (Arr α) :=
  if 2 < zeta.h ∧ 2 < zeta.w ∧ (psi.h < zeta.h ∨ psi.w < zeta.w) then .error .indexError
  else
    let val : Arr α := tab zeta.h zeta.w fun j i =>
      if 1 ≤ j ∧ j < zeta.h - 1 ∧ 1 ≤ i ∧ i < zeta.w - 1 then
        jpp zeta psi dx i j + jpx zeta psi dx i j + jxp zeta psi dx i j
      else mem j i
    (.ok val : Py (Arr α)) / ((3 : ℕ) : α)

/-- `numpy_arakawa.periodic_arakawa`, l.107-121. -/
def periodic_arakawa (mem : ℕ → ℕ → α) (zeta psi : Arr α) (dx : α) : Py (Arr α) := do
  let r ← arakawa mem (← zeta.padWrap 1) (← psi.padWrap 1) dx
  return r.sl s1m1 s1m1

/-- `numpy_arakawa.arakawa_vec`, l.127-153. -/
def arakawa_vec (zeta psi : Arr α) (dx : α) : Py (Arr α) :=
  let z (r c : Sl) : Py (Arr α) := .ok (zeta.sl r c)
  let p (r c : Sl) : Py (Arr α) := .ok (psi.sl r c)
  (z s1m1 s2 * (p s2 s1m1 - p s0m2 s1m1 + p s2 s2 - p s0m2 s2)
    - z s1m1 s0m2 * (p s2 s1m1 - p s0m2 s1m1 + p s2 s0m2 - p s0m2 s0m2)
    - z s2 s1m1 * (p s1m1 s2 - p s1m1 s0m2 + p s2 s2 - p s2 s0m2)
    + z s0m2 s1m1 * (p s1m1 s2 - p s1m1 s0m2 + p s0m2 s2 - p s0m2 s0m2)
    + z s0m2 s2 * (p s1m1 s2 - p s0m2 s1m1)
    + z s2 s2 * (p s2 s1m1 - p s1m1 s2)
    - z s2 s0m2 * (p s2 s1m1 - p s1m1 s0m2)
    - z s0m2 s0m2 * (p s1m1 s0m2 - p s0m2 s1m1)) / (((12 : ℕ) : α) * dx ^ 2)

/-- `numpy_arakawa.periodic_arakawa_vec`, l.156-170. -/
def periodic_arakawa_vec (zeta psi : Arr α) (dx : α) : Py (Arr α) := do
  arakawa_vec (← zeta.padWrap 1) (← psi.padWrap 1) dx

end NumpyArakawa

namespace NumbaArakawa

/-- A `@numba.stencil` kernel with neighbourhood `[-1,1]²` applied to two
arrays: interior cells get the kernel, border cells get 0; the result has the
shape of the first array.  A smaller second array raises `ValueError`.
The kernel receives the readers `zeta[di, dj]`, `psi[di, dj]` relative to the
cell.  `poisson_bracket/numba_arakawa.py` l.5, 13, 23, 45 (the decorator). -/
def stencil (k : (Int → Int → α) → (Int → Int → α) → α) (zeta psi : Arr α) : Py (Arr α) :=
  if psi.h < zeta.h ∨ psi.w < zeta.w then .error .valueError
  else .ok (tab zeta.h zeta.w fun i j =>
    if 1 ≤ i ∧ i + 1 < zeta.h ∧ 1 ≤ j ∧ j + 1 < zeta.w then
      k (fun di dj => zeta.at' ((i : Int) + di).toNat ((j : Int) + dj).toNat)
        (fun di dj => psi.at' ((i : Int) + di).toNat ((j : Int) + dj).toNat)
    else ((0 : ℕ) : α))

/-- `numba_arakawa.jpp`, `poisson_bracket/numba_arakawa.py` l.5-10. -/
def jpp (zeta psi : Arr α) (d : α) : Py (Arr α) :=
  stencil (fun zeta psi =>
    ((zeta 0 1 - zeta 0 (-1)) * (psi 1 0 - psi (-1) 0)
      - (zeta 1 0 - zeta (-1) 0) * (psi 0 1 - psi 0 (-1))) / (((4 : ℕ) : α) * d ^ 2)) zeta psi

/-- `numba_arakawa.jpx`, l.13-20. -/
def jpx (zeta psi : Arr α) (d : α) : Py (Arr α) :=
  stencil (fun zeta psi =>
    (zeta 0 1 * (psi 1 1 - psi (-1) 1)
      - zeta 0 (-1) * (psi 1 (-1) - psi (-1) (-1))
      - zeta 1 0 * (psi 1 1 - psi 1 (-1))
      + zeta (-1) 0 * (psi (-1) 1 - psi (-1) (-1))) / (((4 : ℕ) : α) * d ^ 2)) zeta psi

/-- `numba_arakawa.jxp`, l.23-30. -/
def jxp (zeta psi : Arr α) (d : α) : Py (Arr α) :=
  stencil (fun zeta psi =>
    (zeta 1 1 * (psi 1 0 - psi 0 1)
      - zeta (-1) (-1) * (psi 0 (-1) - psi (-1) 0)
      - zeta 1 (-1) * (psi 1 0 - psi 0 (-1))
      + zeta (-1) 1 * (psi 0 1 - psi (-1) 0)) / (((4 : ℕ) : α) * d ^ 2)) zeta psi

/-- `numba_arakawa.arakawa`, l.33-35. -/
def arakawa (zeta psi : Arr α) (dx : α) : Py (Arr α) :=
  (jpp zeta psi dx + jpx zeta psi dx + jxp zeta psi dx) / ((3 : ℕ) : α)

/-- `numba_arakawa.periodic_arakawa`, l.38-41. -/
def periodic_arakawa (zeta psi : Arr α) (dx : α) : Py (Arr α) := do
  let r ← arakawa (← zeta.padWrap 1) (← psi.padWrap 1) dx
  return r.sl s1m1 s1m1

/-- `numba_arakawa.arakawa_stencil`, l.45-56. -/
def arakawa_stencil (zeta psi : Arr α) : Py (Arr α) :=
  stencil (fun zeta psi =>
    zeta 0 1 * (psi 1 0 - psi (-1) 0 + psi 1 1 - psi (-1) 1)
      - zeta 0 (-1) * (psi 1 0 - psi (-1) 0 + psi 1 (-1) - psi (-1) (-1))
      - zeta 1 0 * (psi 0 1 - psi 0 (-1) + psi 1 1 - psi 1 (-1))
      + zeta (-1) 0 * (psi 0 1 - psi 0 (-1) + psi (-1) 1 - psi (-1) (-1))
      + zeta (-1) 1 * (psi 0 1 - psi (-1) 0)
      + zeta 1 1 * (psi 1 0 - psi 0 1)
      - zeta 1 (-1) * (psi 1 0 - psi 0 (-1))
      - zeta (-1) (-1) * (psi 0 (-1) - psi (-1) 0)) zeta psi

/-- `numba_arakawa.arakawa_stencil_full`, l.59-61. -/
def arakawa_stencil_full (zeta psi : Arr α) (dx : α) : Py (Arr α) := do
  let r ← arakawa_stencil zeta psi
  (.ok (r.sl s1m1 s1m1) : Py (Arr α)) / (((12 : ℕ) : α) * dx ^ 2)

/-- `numba_arakawa.periodic_arakawa_stencil`, l.64-69. -/
def periodic_arakawa_stencil (zeta psi : Arr α) (dx : α) : Py (Arr α) := do
  arakawa_stencil_full (← zeta.padWrap 1) (← psi.padWrap 1) dx

/-- `numba_arakawa.arakawa_vec`, l.75-91. -/
def arakawa_vec (zeta psi : Arr α) (dx : α) : Py (Arr α) :=
  let z (r c : Sl) : Py (Arr α) := .ok (zeta.sl r c)
  let p (r c : Sl) : Py (Arr α) := .ok (psi.sl r c)
  (z s1m1 s2 * (p s2 s1m1 - p s0m2 s1m1 + p s2 s2 - p s0m2 s2)
    - z s1m1 s0m2 * (p s2 s1m1 - p s0m2 s1m1 + p s2 s0m2 - p s0m2 s0m2)
    - z s2 s1m1 * (p s1m1 s2 - p s1m1 s0m2 + p s2 s2 - p s2 s0m2)
    + z s0m2 s1m1 * (p s1m1 s2 - p s1m1 s0m2 + p s0m2 s2 - p s0m2 s0m2)
    + z s0m2 s2 * (p s1m1 s2 - p s0m2 s1m1)
    + z s2 s2 * (p s2 s1m1 - p s1m1 s2)
    - z s2 s0m2 * (p s2 s1m1 - p s1m1 s0m2)
    - z s0m2 s0m2 * (p s1m1 s0m2 - p s0m2 s1m1)) / (((12 : ℕ) : α) * dx ^ 2)

/-- `numba_arakawa.periodic_arakawa_vec`, l.94-95. -/
def periodic_arakawa_vec (zeta psi : Arr α) (dx : α) : Py (Arr α) := do
  arakawa_vec (← zeta.padWrap 1) (← psi.padWrap 1) dx

end NumbaArakawa

namespace PhimlArakawa

/-- `phiml_arakawa.arakawa_vec`, `poisson_bracket/phiml_arakawa.py` l.86-113.
`t.y[r].x[c]` slices dimension `y` with `r` and dimension `x` with `c`; the
tensor is stored as an array with rows `y` and columns `x`. -/
def arakawa_vec (zeta psi : Arr α) (dx : α) : Py (Arr α) :=
  let z (r c : Sl) : Py (Arr α) := .ok (zeta.sl r c)
  let p (r c : Sl) : Py (Arr α) := .ok (psi.sl r c)
  (z s2 s1m1 * (p s1m1 s2 - p s1m1 s0m2 + p s2 s2 - p s2 s0m2)
    - z s0m2 s1m1 * (p s1m1 s2 - p s1m1 s0m2 + p s0m2 s2 - p s0m2 s0m2)
    - z s1m1 s2 * (p s2 s1m1 - p s0m2 s1m1 + p s2 s2 - p s0m2 s2)
    + z s1m1 s0m2 * (p s2 s1m1 - p s0m2 s1m1 + p s2 s0m2 - p s0m2 s0m2)
    + z s2 s0m2 * (p s2 s1m1 - p s1m1 s0m2)
    + z s2 s2 * (p s1m1 s2 - p s2 s1m1)
    - z s0m2 s2 * (p s1m1 s2 - p s0m2 s1m1)
    - z s0m2 s0m2 * (p s0m2 s1m1 - p s1m1 s0m2)) / (((12 : ℕ) : α) * dx ^ 2)

/-- `phiml_arakawa.periodic_arakawa_vec`, l.116-133 (`PERIODIC` padding by one
cell in `y` and `x`). -/
def periodic_arakawa_vec (zeta psi : Arr α) (dx : α) : Py (Arr α) := do
  arakawa_vec (← zeta.padWrap 1) (← psi.padWrap 1) dx

end PhimlArakawa

end Verif
