import Verif.Model.Run2
import Verif.Model.Init

/-!
# The beginning of `run.py` and `run2.py`: box, random seed and initial fields

`Model/Run.lean` and `Model/Run2.lean` start after the initial fields have been
computed.  Here are the statements before that.  NumPy's global random number
generator is a state of an arbitrary type `G`.
-/

namespace Verif.RunStart

open H5 H5IO Run Run2

/-- NumPy's global generator and the functions that draw from it.  Each draw
returns an `n × n` array and the next state.  `run.py` l.126, 141-142;
`initializations/fourier_noise.py` l.44-45. -/
structure Rng (G α : Type) where
  /-- the state set by `np.random.seed(s)`, `0 <= s < 2**32` -/
  ofSeed : ℕ → G
  /-- `np.random.rand(n, n)` -/
  rand : ℕ → G → Arr α × G
  /-- `np.random.normal(size=(n, n))`; `np.random.standard_normal` draws the same numbers -/
  normal : ℕ → G → Arr α × G

/-- what the initialisation calls; `run.py` l.120-121, 126, 131-143, 157-162; `run2.py`
l.162-208 -/
structure Starter (G α : Type) extends Rng G α where
  /-- `2 * np.pi` -/
  twoPi : α
  /-- `get_fft_noise(resolution=[n, n], size=L, scale=1, min_wavelength=dx * 12,
  max_wavelength=dx * n * 100, factor=2)`: `L`, `dx`, `n` and the generator -/
  fourier : α → α → ℕ → G → Py (Arr α) × G
  /-- `get_2d_sine((n, n), L)` -/
  sine : ℕ → α → Py (Arr α)

/-- arguments of `run`, `run.py` l.27-80 (without those for the movie and the plots) -/
structure Call (α : Type) where
  step_size : α
  end_time : α
  grid_pts : ℕ
  k0 : α
  N : ℕ
  nu : α
  c1 : α
  kappa_coeff : α
  poisson_bracket_coeff : α
  seed : Option ℤ
  init_type : String
  init_scale : α
  output_path : String
  recording_start_time : α
  continue_file : Bool
  buffer_length : ℕ
  snaps : ℕ
  downsample_factor : α
  add_last_state : Bool
  properties : List String
  force_recompute : Bool

/-- the arguments and the values computed from them by l.120-162 -/
def Call.args {α : Type} (c : Call α) (dx : α) (density0 omega0 phi0 : Cell α) : Args α where
  step_size := c.step_size
  end_time := c.end_time
  grid_pts := c.grid_pts
  dx := dx
  k0 := c.k0
  N := c.N
  nu := c.nu
  c1 := c.c1
  kappa_coeff := c.kappa_coeff
  poisson_bracket_coeff := c.poisson_bracket_coeff
  density0 := density0
  omega0 := omega0
  phi0 := phi0
  output_path := c.output_path
  recording_start_time := c.recording_start_time
  continue_file := c.continue_file
  buffer_length := c.buffer_length
  snaps := c.snaps
  downsample_factor := c.downsample_factor
  add_last_state := c.add_last_state
  properties := c.properties
  force_recompute := c.force_recompute

variable {G α β : Type} [Casts α β] [Zero α] [Inhabited α] [Inhabited β] [FloatOps α]

/-- `np.random.seed(seed)`, l.126.  Without a seed the new state comes from the
operating system: `entropy`.  Seeds outside of `[0, 2**32)` are refused and leave
the generator as it is. -/
def seedRng (S : Starter G α) (entropy : G) : Option ℤ → G → Py Unit × G
  | none, _ => (.ok (), entropy)
  | some (.ofNat s), g => if s < 2 ^ 32 then (.ok (), S.ofSeed s) else (.error .valueError, g)
  | some (.negSucc _), g => (.error .valueError, g)

/-- `noise[init_type](y, x)`, l.131-143 -/
def noise (S : Starter G α) (init_type : String) (L dx : α) (n : ℕ) (g : G) : Py (Arr α) × G :=
  if init_type = "fourier" then S.fourier L dx n g
  else if init_type = "sine" then (S.sine n L, g)
  else if init_type = "random" then (.ok (S.rand n g).1, (S.rand n g).2)
  else if init_type = "normal" then (.ok (S.normal n g).1, (S.normal n g).2)
  else (.error (.keyError init_type), g)

/-- `noise[init_type](y, x) * init_scale`, l.158-160 -/
def field (S : Starter G α) (c : Call α) (L dx : α) (g : G) : Py (Cell α) × G :=
  match noise S c.init_type L dx c.grid_pts g with
  | (.error e, g) => (.error e, g)
  | (.ok A, g) => (.ok (.arr (A.map fun x => FloatOps.mul x c.init_scale)), g)

/-- `plasma`, l.157-162: the keyword arguments are evaluated in order -/
def fields (S : Starter G α) (c : Call α) (L dx : α) (g : G) : Py (Cell α × Cell α × Cell α) × G :=
  match field S c L dx g with
  | (.error e, g) => (.error e, g)
  | (.ok density, g) => match field S c L dx g with
    | (.error e, g) => (.error e, g)
    | (.ok omega, g) => match field S c L dx g with
      | (.error e, g) => (.error e, g)
      | (.ok phi, g) => (.ok (density, omega, phi), g)

/-- `L = 2 * np.pi / k0`, `dx = L / x`, l.120-121 -/
def box (S : Starter G α) (c : Call α) : Py (α × α) := do
  let L ← FloatOps.div S.twoPi c.k0
  let dx ← FloatOps.div L (FloatOps.ofInt c.grid_pts)
  return (L, dx)

/-- l.126-162: seed the generator, compute the initial fields -/
def seeded (S : Starter G α) (c : Call α) (entropy : G) (L dx : α) (g : G) : Py (Args α) × G :=
  match seedRng S entropy c.seed g with
  | (.error e, g) => (.error e, g)
  | (.ok _, g) => match fields S c L dx g with
    | (.error e, g) => (.error e, g)
    | (.ok (density, omega, phi), g) => (.ok (c.args dx density omega phi), g)

/-- `run`, `run.py` l.27-328, from its arguments on: changes the generator and the files. -/
def runCall (S : Starter G α) (E : Env α β) (c : Call α) (entropy g : G) (σ : St α β) : Py Unit × G × St α β :=
  match box S c with
  | .error e => (.error e, g, σ)
  | .ok (L, dx) => match seeded S c entropy L dx g with
    | (.error e, g) => (.error e, g, σ)
    | (.ok a, g) => let r := run E a σ; (r.1, g, r.2)

/-- `steps = int(end_time / step_size)`, `snap_count = steps // snaps + 1`, `run2.py` l.164-165 -/
def counts (c : Call α) : Py Unit := do
  let q ← FloatOps.div c.end_time c.step_size
  let _ ← FloatOps.toInt q
  if c.snaps = 0 then .error .zeroDivisionError else .ok ()

/-- `run2.run`, `run2.py` l.60-481, from its arguments on.  `properties` includes
the shown property (`withShown`); `step_size` and `nu` are floats (l.157-158
convert them); `run2` repeats `counts`. -/
def run2Call (S : Starter G α) (E : Env2 α β) (c : Call α) (adaptive_step_size zonal : Bool) (entropy g : G) (fuel : ℕ)
    (σ : St α β) : Py (Option Unit) × G × St α β :=
  match box S c with
  | .error e => (.error e, g, σ)
  | .ok (L, dx) => match counts c with
    | .error e => (.error e, g, σ)
    | .ok _ => match seeded S c entropy L dx g with
      | (.error e, g) => (.error e, g, σ)
      | (.ok a, g) =>
        let r := run2 E { a with adaptive_step_size := adaptive_step_size, zonal := zonal } fuel σ
        (r.1, g, r.2)

/-! ### the functions of `initializations/` -/

/-- the complex random numbers of `get_fft_noise`, `fourier_noise.py` l.43-46: two draws -/
def complexNoise (R : Rng G ℝ) (n : ℕ) (g : G) : (ℕ → ℕ → ℂ) × G :=
  let re := R.normal n g
  let im := R.normal n re.2
  (fun i j => ⟨re.1.at' i j, im.1.at' i j⟩, im.2)

/-- The initialisation in exact arithmetic.  `nan` stands for the array of `nan`
which `get_fft_noise` returns if the standard deviation of the noise is zero.  `run.py`
l.120-162 with `initializations/*`. -/
noncomputable def exactStart (R : Rng G ℝ) (nan : Arr ℝ) : Starter G ℝ where
  toRng := R
  twoPi := 2 * Real.pi
  fourier L dx n g :=
    let a : Init.NoiseArgs := { h := n, w := n, size := L, scale := 1, min_wavelength := dx * 12,
                                max_wavelength := dx * n * 100, factor := 2 }
    let r := complexNoise R n g
    ((Init.get_fft_noise a r.1).map fun A => A.getD nan, r.2)
  sine n L := Init.get_2d_sine n n L

end Verif.RunStart
