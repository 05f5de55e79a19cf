import Verif.NumPy.Arr
import Mathlib.Logic.Relation
import Mathlib.Logic.Function.Basic

/-!
# Parallel execution of the Numba kernels

`gradients/numba_gradients.py` l.5 and `poisson_bracket/numba_arakawa.py` l.33 compile with `parallel=True`: Numba turns every
array expression and every `@stencil` call into a loop over the cells of its result, splits the iterations among threads and waits
for all of them before the next loop starts.

Modelled: shared memory with one location per array cell; a thread performs one read or one write at a time; the reads and
writes of all threads are interleaved in any order; the iterations of a loop are split among any number of threads in any way
and any order.  Which threads get which iterations is not known in advance, so results are stated for all splits.

Simplified: memory is sequentially consistent (the kernels have no data race, so weaker memory behaves the same); Numba may fuse
neighbouring loops, which removes temporaries but performs the same operations per cell; vectorisation and reordering of
floating-point operations within a cell are not modelled (`fastmath` is off).
-/

namespace Verif.Par

/-- one cell of a named array in shared memory.  The arrays of `gradients/numba_gradients.py`
l.17-23 and `poisson_bracket/numba_arakawa.py` l.7-35. -/
structure Loc where
  arr : String
  i : ℕ
  j : ℕ
  deriving DecidableEq

variable {α ι : Type}

/-- what remains to be done in one iteration: single reads and writes of shared memory.  One
cell of the loops Numba generates for these lines. -/
inductive Body (α : Type) where
  | done
  | rd (x : Loc) (k : α → Body α)
  | wr (x : Loc) (v : α) (k : Body α)

/-- a scalar expression over array cells.  The right-hand sides of `numba_gradients.py`
l.17-23, `numba_arakawa.py` l.7-10, 15-20, 25-30. -/
inductive Expr (α : Type) where
  | cell (x : Loc)
  | lit (a : α)
  | un (f : α → α) (a : Expr α)
  | op (f : α → α → α) (a b : Expr α)

/-- `a + b` in these expressions, `numba_gradients.py` l.17-23, `numba_arakawa.py` l.7-35 -/
instance [Add α] : Add (Expr α) := ⟨.op (· + ·)⟩
/-- `a - b`, same lines -/
instance [Sub α] : Sub (Expr α) := ⟨.op (· - ·)⟩
/-- `a * b`, same lines -/
instance [Mul α] : Mul (Expr α) := ⟨.op (· * ·)⟩
/-- `a / b`, same lines -/
instance [Div α] : Div (Expr α) := ⟨.op (· / ·)⟩

/-- evaluate an expression from left to right, reading one cell at a time, then go on with
`k`; `numba_gradients.py` l.17-23, `numba_arakawa.py` l.7-35 -/
def Expr.run : Expr α → (α → Body α) → Body α
  | .cell x, k => .rd x k
  | .lit a, k => k a
  | .un f a, k => a.run fun x => k (f x)
  | .op f a b, k => a.run fun x => b.run fun y => k (f x y)

/-- the value of an expression when memory does not change; `numba_gradients.py` l.17-23,
`numba_arakawa.py` l.7-35 -/
def Expr.eval (m : Loc → α) : Expr α → α
  | .cell x => m x
  | .lit a => a
  | .un f a => f (a.eval m)
  | .op f a b => f (a.eval m) (b.eval m)

/-- a thread: the rest of its current iteration and the iterations it still has to do.
Threads come from `parallel=True`, `numba_gradients.py` l.5, `numba_arakawa.py` l.33. -/
structure Thread (α ι : Type) where
  cur : Body α
  todo : List ι

/-- shared memory and threads; `parallel=True`, `numba_gradients.py` l.5, `numba_arakawa.py`
l.33 -/
structure Config (α ι : Type) (p : ℕ) where
  mem : Loc → α
  threads : Fin p → Thread α ι

/-- some thread performs its next operation; `parallel=True`, `numba_gradients.py` l.5,
`numba_arakawa.py` l.33 -/
inductive Step {p : ℕ} (body : ι → Body α) : Config α ι p → Config α ι p → Prop
  | fetch (c : Config α ι p) (t : Fin p) (i : ι) (l : List ι) (e : c.threads t = ⟨.done, i :: l⟩) :
      Step body c ⟨c.mem, Function.update c.threads t ⟨body i, l⟩⟩
  | rd (c : Config α ι p) (t : Fin p) (x : Loc) (k : α → Body α) (l : List ι) (e : c.threads t = ⟨.rd x k, l⟩) :
      Step body c ⟨c.mem, Function.update c.threads t ⟨k (c.mem x), l⟩⟩
  | wr (c : Config α ι p) (t : Fin p) (x : Loc) (v : α) (k : Body α) (l : List ι) (e : c.threads t = ⟨.wr x v k, l⟩) :
      Step body c ⟨Function.update c.mem x v, Function.update c.threads t ⟨k, l⟩⟩

/-- every thread has finished.  The barrier at the end of a parallel loop (`parallel=True`,
same lines). -/
def Config.Finished {p : ℕ} (c : Config α ι p) : Prop := ∀ t, c.threads t = ⟨.done, []⟩

/-- the configuration in which thread `t` is to do the iterations `chunk t`.  The beginning of
a parallel loop (`parallel=True`, same lines). -/
def start {p : ℕ} (m : Loc → α) (chunk : Fin p → List ι) : Config α ι p := ⟨m, fun t => ⟨.done, chunk t⟩⟩

/-- a parallel loop; `parallel=True`, `numba_gradients.py` l.5, `numba_arakawa.py` l.33 -/
structure Loop (α : Type) where
  cells : List (ℕ × ℕ)
  body : ℕ × ℕ → Body α

/-- the iterations of the loop are split among the threads, each exactly once;
`parallel=True`, `numba_gradients.py` l.5, `numba_arakawa.py` l.33 -/
def Loop.Split (lp : Loop α) {p : ℕ} (chunk : Fin p → List (ℕ × ℕ)) : Prop := (List.ofFn chunk).flatten.Perm lp.cells

/-- some complete execution of the loop turns memory `m` into `m'`; `parallel=True`,
`numba_gradients.py` l.5, `numba_arakawa.py` l.33 -/
def Loop.Runs (lp : Loop α) (m m' : Loc → α) : Prop :=
  ∃ (p : ℕ) (chunk : Fin p → List (ℕ × ℕ)) (c : Config α (ℕ × ℕ) p), lp.Split chunk ∧
    Relation.ReflTransGen (Step lp.body) (start m chunk) c ∧ c.Finished ∧ c.mem = m'

/-- loops one after the other: all threads finish a loop before the next one starts;
`parallel=True`, `numba_gradients.py` l.5, `numba_arakawa.py` l.33 -/
def Runs : List (Loop α) → (Loc → α) → (Loc → α) → Prop
  | [], m, m' => m' = m
  | lp :: l, m, m' => ∃ m₁, lp.Runs m m₁ ∧ Runs l m₁ m'

/-- `out[c] = e c` for all cells `c`; `numba_gradients.py` l.17-23, `numba_arakawa.py` l.35,
`numba_fourier_poisson.py` l.42-44 -/
def assign (out : String) (cells : List (ℕ × ℕ)) (e : ℕ × ℕ → Expr α) : Loop α :=
  ⟨cells, fun c => (e c).run fun v => .wr ⟨out, c.1, c.2⟩ v .done⟩

/-- all cells of an `h × w` array; `numba_gradients.py` l.17-23, `numba_arakawa.py` l.35 -/
def grid (h w : ℕ) : List (ℕ × ℕ) := List.product (List.range h) (List.range w)

variable [Add α] [Sub α] [Mul α] [Div α] [NatCast α] [Pow α ℕ]

/-- `numba_gradients.laplace`, `gradients/numba_gradients.py` l.5-23, on an array of shape `(H + 2, W + 2)`: one loop over the
cells of the result -/
def laplace (H W : ℕ) (dx : α) : List (Loop α) :=
  let padded (i j : ℕ) : Expr α := .cell ⟨"padded", i, j⟩
  [assign "out" (grid H W) fun (i, j) =>
    (padded i (j + 1)                                     -- above
      + padded (i + 1) j                                  -- left
      - .lit ((4 : ℕ) : α) * padded (i + 1) (j + 1)       -- center
      + padded (i + 1) (j + 2)                            -- right
      + padded (i + 2) (j + 1))                           -- below
      / .lit (dx ^ 2)]

/-- a `@numba.stencil` kernel: interior cells get the kernel, border cells 0;
`numba_arakawa.py` l.5, 13, 23 -/
def stencil (out : String) (h w : ℕ) (k : (Int → Int → Expr α) → (Int → Int → Expr α) → Expr α) : Loop α :=
  assign out (grid h w) fun (i, j) =>
    if 1 ≤ i ∧ i + 1 < h ∧ 1 ≤ j ∧ j + 1 < w then
      k (fun di dj => .cell ⟨"zeta", ((i : Int) + di).toNat, ((j : Int) + dj).toNat⟩)
        (fun di dj => .cell ⟨"psi", ((i : Int) + di).toNat, ((j : Int) + dj).toNat⟩)
    else .lit ((0 : ℕ) : α)

/-- `numba_arakawa.arakawa`, `poisson_bracket/numba_arakawa.py` l.33-35, with the stencils l.5-30, on arrays of shape `(h, w)`:
a loop for each stencil and one for the sum -/
def arakawa (h w : ℕ) (d : α) : List (Loop α) :=
  [stencil "jpp" h w fun zeta psi =>
     ((zeta 0 1 - zeta 0 (-1)) * (psi 1 0 - psi (-1) 0)
       - (zeta 1 0 - zeta (-1) 0) * (psi 0 1 - psi 0 (-1))) / .lit (((4 : ℕ) : α) * d ^ 2),
   stencil "jpx" h w fun zeta psi =>
     (zeta 0 1 * (psi 1 1 - psi (-1) 1)
       - zeta 0 (-1) * (psi 1 (-1) - psi (-1) (-1))
       - zeta 1 0 * (psi 1 1 - psi 1 (-1))
       + zeta (-1) 0 * (psi (-1) 1 - psi (-1) (-1))) / .lit (((4 : ℕ) : α) * d ^ 2),
   stencil "jxp" h w fun zeta psi =>
     (zeta 1 1 * (psi 1 0 - psi 0 1)
       - zeta (-1) (-1) * (psi 0 (-1) - psi (-1) 0)
       - zeta 1 (-1) * (psi 1 0 - psi 0 (-1))
       + zeta (-1) 1 * (psi 0 1 - psi (-1) 0)) / .lit (((4 : ℕ) : α) * d ^ 2),
   assign "out" (grid h w) fun (i, j) =>
     (.cell ⟨"jpp", i, j⟩ + .cell ⟨"jpx", i, j⟩ + .cell ⟨"jxp", i, j⟩) / .lit ((3 : ℕ) : α)]

/-- the two nested loops of `numba_fourier_poisson.fftfreq_sq`, `poisson_solvers/numba_fourier_poisson.py` l.42-44, which are
written with `prange` (`freq_x`, `freq_y` are stored as single rows) -/
def fftfreq_sq (dim_x dim_y : ℕ) : List (Loop α) :=
  [assign "k_sq" (grid dim_x dim_y) fun (i, j) =>
    .un (· ^ 2) (.cell ⟨"freq_x", 0, i⟩) + .un (· ^ 2) (.cell ⟨"freq_y", 0, j⟩)]

end Verif.Par
