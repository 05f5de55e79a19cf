import Verif.Model.IO

/-!
# Model of `get_extended_viridis`, `utils/plot/movie.py` l.14-58

The colours of `ListedColormap`, for any kind of floating-point numbers.  `lit z`
is the number written `z/100` in the source (`0.13` is `lit 13`).
-/

namespace Verif.Colormap

open H5IO

variable {α : Type} [FloatOps α]

/-- `VIRIDIS_EXTENDED`, movie.py l.24-41: position in hundredths, red, green, blue -/
def viridisExtended : List (ℤ × ℤ × ℤ × ℤ) :=
  [(0, 255, 200, 100), (13, 255, 153, 51), (25, 230, 5, 40), (38, 150, 3, 62), (50, 68, 1, 84), (55, 72, 33, 115),
   (59, 67, 62, 133), (64, 56, 88, 140), (68, 45, 112, 142), (73, 37, 133, 142), (77, 30, 155, 138), (82, 42, 176, 127),
   (86, 82, 197, 105), (90, 34, 213, 73), (95, 194, 223, 35), (100, 253, 231, 37)]

/-- one row of `VE`: position and colour; movie.py l.42 -/
structure Entry (α : Type) where
  pos : α
  r : α
  g : α
  b : α

/-- `VE[:, 1:] = VE[:, 1:] / 256`, movie.py l.42-43, for one row -/
def entry (lit : ℤ → α) (e : ℤ × ℤ × ℤ × ℤ) : Py (Entry α) := do
  let r ← FloatOps.div (FloatOps.ofInt e.2.1) (FloatOps.ofInt 256)
  let g ← FloatOps.div (FloatOps.ofInt e.2.2.1) (FloatOps.ofInt 256)
  let b ← FloatOps.div (FloatOps.ofInt e.2.2.2) (FloatOps.ofInt 256)
  return ⟨lit e.1, r, g, b⟩

/-- `k * step + start`, one value of `np.linspace(..., endpoint=False)`; for `step == 0` NumPy computes `k / num * delta`
instead; movie.py l.50-52 -/
def linspaceAt (start delta step num : α) (k : ℕ) : Py α := do
  if FloatOps.eq step (FloatOps.ofInt 0) then
    let q ← FloatOps.div (FloatOps.ofInt k) num
    return FloatOps.add (FloatOps.mul q delta) start
  else return FloatOps.add (FloatOps.mul (FloatOps.ofInt k) step) start

/-- `np.linspace(start, stop, num, endpoint=False)`; movie.py l.50-52 -/
def linspace (start stop : α) (num : ℤ) : Py (List α) :=
  if num < 0 then .error .valueError
  else if num = 0 then .ok []
  else do
    let delta := FloatOps.sub stop start
    let step ← FloatOps.div delta (FloatOps.ofInt num)
    (List.range num.toNat).mapM (linspaceAt start delta step (FloatOps.ofInt num))

/-- body of the loop l.45-56: the colours between two rows of `VE`; `np.stack` of three arrays of equal length -/
def segment (vals : ℤ) (p q : Entry α) : Py (List (α × α × α)) := do
  let pts ← FloatOps.toInt (FloatOps.mul (FloatOps.sub q.pos p.pos) (FloatOps.ofInt vals))
  let rs ← linspace p.r q.r pts
  let gs ← linspace p.g q.g pts
  let bs ← linspace p.b q.b pts
  return rs.zip (gs.zip bs)

/-- the loop l.45-56 and `np.vstack`, l.57 -/
def segments (vals : ℤ) : List (Entry α) → Py (List (α × α × α))
  | p :: q :: rest => do
    let s ← segment vals p q
    let t ← segments vals (q :: rest)
    return s ++ t
  | _ => .ok []

/-- `get_extended_viridis`, movie.py l.14-58: the list of colours -/
def get_extended_viridis (lit : ℤ → α) (vals : ℤ) : Py (List (α × α × α)) := do
  let VE ← viridisExtended.mapM (entry lit)
  segments vals VE

end Verif.Colormap
