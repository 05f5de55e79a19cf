import Verif.Model.Gradients
import Verif.Model.Arakawa
import Verif.Model.Poisson

/-!
# Model of `utils/performance_comparison.py`

Exact arithmetic.  `np.random.rand` and the clock are parameters.  `perfplot`
is modelled as far as it influences the outcome: for every size it calls the
set-up function once and every kernel on the data, compares the results with
that of the first kernel by `np.allclose` and raises `PerfplotError` if they
differ; it stops early when `max_time` is exceeded.  Measured times, plots and
the printed table are not modelled.
-/

namespace Verif.Benchmark

open Arr

section lawless
variable {α : Type} [Inhabited α] [Add α] [Sub α] [Mul α] [Div α] [NatCast α]

/-- `np.gradient(f, axis=-2)` of a two-dimensional array, unit spacing: central
differences inside, one-sided differences in the first and last row; fewer than
two rows raise `ValueError`.  `utils/performance_comparison.py` l.18. -/
def npGradientRows (f : Arr α) : Py (Arr α) :=
  if f.h < 2 then .error .valueError
  else .ok (tab f.h f.w fun i j =>
    if i = 0 then (f.at' 1 j - f.at' 0 j) / ((1 : ℕ) : α)
    else if i = f.h - 1 then (f.at' (f.h - 1) j - f.at' (f.h - 2) j) / ((1 : ℕ) : α)
    else (f.at' (i + 1) j - f.at' (i - 1) j) / (((2 : ℕ) : α) * ((1 : ℕ) : α)))

/-- `np_instrinsic_gradient`, `utils/performance_comparison.py` l.18 -/
def np_instrinsic_gradient (x : Arr α) (_dx : α) : Py (Arr α) := do
  let g ← npGradientRows (← x.padWrap 1)
  return g.sl s1m1 s1m1

end lawless

/-- a benchmarked function; l.19-23, 28-32, 36-39, 46-52 -/
inductive Fn where
  | unary (f : Arr ℝ → ℝ → Py (Arr ℝ))
  | binary (f : Arr ℝ → Arr ℝ → ℝ → Py (Arr ℝ))

/-- what a set-up function returns; l.8-12 -/
inductive Data where
  | one (a : Arr ℝ)
  | pair (a b : Arr ℝ)

/-- `get_function_defs`, l.14-52; `none`: the function falls off its end.  `mem`
is the content of the memory `np.empty` returns in the loop version. -/
noncomputable def get_function_defs (mem : ℕ → ℕ → ℝ) (function_name : String) :
    Option (List (String × Fn)) :=
  if function_name = "periodic_gradient" then
    some [("np_periodic_gradient", .unary fun a dx => NumpyGradients.periodic_gradient a dx),
      ("np_instrinsic_gradient", .unary np_instrinsic_gradient),
      ("nb_periodic_gradient", .unary fun a dx => NumbaGradients.periodic_gradient a dx)]
  else if function_name = "periodic_laplace" then
    some [("np_periodic_laplace", .unary NumpyGradients.periodic_laplace),
      ("nb_periodic_laplace", .unary NumbaGradients.periodic_laplace)]
  else if function_name = "poisson_solvers" then
    some [("np_fourier_poisson_double", .unary fun a dx => NumpyPoisson.fourier_poisson_double a dx),
      ("nb_fourier_poisson_double", .unary fun a dx => NumbaPoisson.fourier_poisson_double a dx)]
  else if function_name = "poisson_bracket" then
    some [("np_arakawa", .binary (NumpyArakawa.periodic_arakawa mem)),
      ("np_arakawa_vec", .binary NumpyArakawa.periodic_arakawa_vec),
      ("nb_arakawa", .binary NumbaArakawa.periodic_arakawa),
      ("nb_arakawa_stencil", .binary NumbaArakawa.periodic_arakawa_stencil),
      ("nb_arakawa_vec", .binary NumbaArakawa.periodic_arakawa_vec)]
  else none

/-- the kernels `f(a, dx=dx)` and `f(*ab, dx=dx)`, l.69-74; a wrong number of
arguments is a `TypeError` -/
def Fn.call (f : Fn) (d : Data) (dx : ℝ) : Py (Arr ℝ) := match f, d with
  | .unary f, .one a => f a dx
  | .binary f, .pair a b => f a b dx
  | _, _ => .error .typeError

/-- `setup_random_array`, l.8-9; `rnd i j` are the numbers drawn by
`np.random.rand(n, n)` -/
noncomputable def setup_random_array (rnd : ℕ → ℕ → ℝ) (n : ℕ) (scale : ℝ) : Arr ℝ :=
  tab n n fun i j => rnd i j / scale

/-- `np.allclose(a, b)` for arrays of equal shape: `|a - b| ≤ 1e-8 + 1e-5 |b|`
at every point.  Different shapes broadcast or raise; here they count as
unequal.  Used by `pp.bench`, l.76-83. -/
def allclose (a b : Arr ℝ) : Prop :=
  a.h = b.h ∧ a.w = b.w ∧ ∀ i j, i < a.h → j < a.w →
    |a.at' i j - b.at' i j| ≤ 1 / 10 ^ 8 + 1 / 10 ^ 5 * |b.at' i j|

/-- all kernels on the data of one size; l.76-83 -/
def runKernels (dx : ℝ) (d : Data) : List (String × Fn) → Py (List (Arr ℝ))
  | [] => .ok []
  | (_, f) :: fs => do return (← f.call d dx) :: (← runKernels dx d fs)

/-- the error raised by `perfplot` when results differ; l.76-83 -/
def perfplotError : PyErr := .baseException "Equality check fail."

open Classical in
/-- `pp.bench` for one size; l.76-83 -/
noncomputable def benchSize (dx : ℝ) (fs : List (String × Fn)) (d : Data) : Py Unit := do
  match ← runKernels dx d fs with
  | [] => return ()
  | reference :: rest =>
    if ∀ r ∈ rest, allclose reference r then return () else .error perfplotError

/-- `pp.bench` over the sizes; l.76-83 -/
noncomputable def benchSizes (dx : ℝ) (fs : List (String × Fn)) (setup : ℕ → Data) :
    List ℕ → Py Unit
  | [] => .ok ()
  | n :: ns => do
    benchSize dx fs (setup n)
    benchSizes dx fs setup ns

/-- `sizes = 2 ** np.array(range(4, 13))`, l.61 -/
def sizes : List ℕ := (List.range 9).map fun k => 2 ^ (k + 4)

/-- the outside world: numbers drawn for a benchmark (name, size, first or
second array) and the number of sizes reached within `max_time`; l.9, 56, 82, and
`numpy_arakawa.py` l.96 -/
structure World where
  rnd : String → ℕ → Bool → ℕ → ℕ → ℝ
  reached : String → ℕ
  mem : ℕ → ℕ → ℝ

/-- `main`, l.55-86: the body of the loop for one name.  perfplot calls
`setup(n)`, so the parameter `scale` of `main` is not used: the arrays always
have the default scale 1000. -/
noncomputable def benchName (W : World) (dx : ℝ) (name : String) : Py Unit :=
  match get_function_defs W.mem name with
  | none => .error .typeError
  | some defs =>
    benchSizes dx defs
      (fun n => if name ≠ "poisson_bracket" then .one (setup_random_array (W.rnd name n false) n 1000)
        else .pair (setup_random_array (W.rnd name n false) n 1000)
          (setup_random_array (W.rnd name n true) n 1000))
      (sizes.take (W.reached name))

/-- `main`, l.55-86 -/
noncomputable def main (W : World) (_scale : ℝ) (dx : ℝ) : List String → Py Unit
  | [] => .ok ()
  | name :: names => do
    benchName W dx name
    main W _scale dx names

/-- default of `function_names`, l.59 -/
def defaultNames : List String :=
  ["periodic_gradient", "periodic_laplace", "poisson_bracket", "poisson_solvers"]

end Verif.Benchmark
