# Formal model of hw2d in Lean 4

`/repo` (Python) is read as text.  The model lives in `lean/Verif/**`; every
definition cites the file and lines it models.  The properties are listed in
`properties.jsonl`; `MANIFEST.json` maps each to its theorems.

## Trusted base

* Lean 4.33.0's kernel.  The theorems depend at most on the three standard
  axioms `propext`, `Classical.choice`, `Quot.sound`.  No own axioms, no
  `sorry`, no `native_decide`/`bv_decide`.
* The reading of Python/NumPy/h5py semantics written down in the model
  definitions (this file and the comments next to each definition).
* Real-number arithmetic.  Where a theorem needs algebraic laws, floats are
  replaced by real (or complex) numbers: rounding, overflow and NaN are not
  modelled there.  Where a theorem can be stated without any law (backend
  agreement of stencils, translation equivariance of stencils, all I/O
  theorems) the scalar type is a *free parameter with unspecified operations*,
  so the statement also covers IEEE floats bit for bit.
* Rounded arithmetic.  Where rounding decides a property (initial noise, movie
  frames, image frames) floats are numbers with a rounding function of relative
  error at most 2^-53 after each operation (`Spec/Double.lean`), and concrete
  double precision counterexamples use the round-to-nearest-even function `rne`
  on rationals (no overflow, no subnormals).  C97 and C103 evaluate the difference
  formulas, brackets and whole time steps with operations of relative error `u`
  (`Spec/Rounding.lean`); C103 assumes the accuracy of the FFT-based solver.

## Layers

1. **NumPy layer** (`Verif/NumPy/*`): `Arr α` = run-time shape + entries;
   Python slices with negative/absent bounds and clamping, element-wise
   operators with NumPy broadcasting (shape mismatch is the value
   `error valueError`), `np.pad(mode="wrap")`, `np.mean`, `np.roll`, `fft2`,
   `ifft2`, `fftfreq`, `meshgrid`.  Exceptions are values of `Except PyErr`.
2. **Model layer** (`Verif/Model/*`): one definition per Python function, branch by
   branch.
3. **Spec layer** (`Verif/Spec/*`): what the function should compute, written
   on fields `ZMod h → ZMod w → K` (the discrete torus) or on plain
   lists/functions, without using the model.
4. **Bridge and lemma files** (`Verif/Lemmas/*`).
5. **Property theorems** (`Verif/Props/*`): one file per group of properties,
   each theorem followed by an `example` that meets its hypotheses in a
   concrete non-trivial case.

Where the code violates a property, the theorem proves the negation with a
concrete witness (suffix `_violated`), and the largest part that does hold is
proved with suffix `_partial`.

## Numerical part (C01–C37, C62–C64)

*Modelled*: `gradients/numpy_gradients.py`, `gradients/numba_gradients.py`,
`poisson_bracket/numpy_arakawa.py`, `poisson_bracket/numba_arakawa.py`,
kernel arithmetic of `phiml_*` (the shift algebra, not the PhiML library), all
of `numpy_fourier_poisson.py`, `numba_fourier_poisson.py`,
`numpy_zonal_transform.py`, `numpy_properties.py`, `initializations/*`
(random draws are universally quantified inputs), `model.py`
(`hw2d_gradient`, `HW.*`, including the `calls` counters; the wall-clock timings and
`print_log` in `Model/Timed.lean`, C131; the debug printing in `Model/Debug.lean`, C133; references to arrays and
in-place operations in `Model/Memory.lean`, C132), `namespaces.py`.  `Model/Construct.lean` adds the call of the constructor
`HW(...)` with Python's argument binding (C130).  `Model/HWGen.lean` repeats the time steps, `Model/RunGen.lean` the
simulation object of the run functions and `Model/PropertiesGen.lean` the diagnostics with any kind of numbers, for
rounding errors (C103, C108, C134, C135, C138).
Arrays with leading batch axes (`[..., y, x]` indexing) are modelled separately
in `NumPy/Stack.lean` and `Model/Stacked.lean` for the stencils, the zonal
transform, the diagnostics (C95 reduces them to single frames), the vectorised
bracket and the NumPy Poisson solver (C115).
The loops Numba runs in parallel (`numba_gradients.laplace`, `numba_arakawa.arakawa`,
`fftfreq_sq`) are also modelled as threads on shared memory in `Model/Parallel.lean`
(C113): any split, any interleaving of single reads and writes, a barrier after
each loop, sequentially consistent memory, no `fastmath`.
*Not modelled*: batch axes in the other Poisson solvers and brackets; float32/int
dtypes; the rest of numba compilation.

| Property | Model and proof |
|---|---|
| C01 | `periodic_laplace`, `periodic_gradient` on `Arr α`; equality with the torus formula by computing slices of the wrapped array |
| C02 | law-free scalars; `pad N` then N shrinking Laplacians = N × (pad 1, Laplacian); induction on N with invariant "array = torus field read at offset −(N−k)" |
| C03 | five implementations evaluated to entry formulas; border memory is an arbitrary function |
| C04 | entry formula of the PhiML shift expression is the negative; `_violated` with witness, `_partial`: equal up to sign |
| C05, C06, C08 | sums over `ZMod h × ZMod w`, re-indexing by translations (`Equiv.sum_comp`), then `ring` |
| C07 | `np.roll` of the array = shifted torus field; law-free |
| C09 | induction on N using C08: mean(f·L^{2m}f)=mean((L^m f)²), L^{2m+1} by gradient form |
| C10 | Taylor with Lagrange remainder (Mathlib `taylor_mean_remainder_lagrange`) |
| C11–C13, C15, C16 | own `fft2` definition; inversion through `ZMod.dft` of Mathlib; solver is a Fourier multiplier |
| C14 | int16 arithmetic as `BitVec 16`/`Int.bmod`; integer arithmetic for all n |
| C17 | model returns `error nameError`: `_violated` |
| C18–C22 | sums of squares; Parseval; |sin x| ≤ |x| |
| C23 | evaluation of model; branch elimination |
| C24–C26 | C05 + C08 + definition of the fluxes; C26 `_violated` by concrete witness and `_partial` for nu = 0, kappa = 1 |
| C27–C32, C35–C37 | one-step bridge: `rk4_step` on a well-formed plasma = explicit real-valued map; then induction over list of dt |
| C33 | linear operator algebra |
| C34, C76, C77 | Taylor expansion of the semi-discrete flow (polynomial right-hand side); existence of the exact solution by Picard–Lindelöf plus energy bound; Grönwall-type error recursion |
| C72 | argument of complex numbers; shift theorem of the Fourier transform |
| C74, C75 | Taylor with remainder for each stencil point, then combination (`Spec/Smooth.lean`) |
| C86 | `Spec/PDE.lean` states the partial differential equations; energy estimate of (semi-discrete solution − samples) with a discrete Poincaré inequality, midpoint rule for the mean of the potential, Grönwall (`Lemmas/Mol*.lean`), then C76 for the time steps |
| C87 | `Props/RunPDE.lean`: C44 (`C44_frames_physics`) identifies each recorded array with a value of `histS`, C86 bounds its distance to the solution |
| C88 | `Spec/Modes.lean` (symbols and 2×2 matrix); `Lemmas/Modes.lean` Fourier transform of the right-hand side, `Lemmas/NoBracket.lean` subspaces on which Arakawa's bracket vanishes; induction over the steps in `Props/Modes.lean` |
| C89 | `Props/Stability.lean`: C88 with a diagonal matrix, Parseval, monotonicity of the cubic; checkerboard for necessity |
| C90 | `Model/Phiml.lean` (PhiML semantics assumed as listed there); Fourier multipliers; `_violated` for the powers of `fourier_laplace` |
| C91 | `Model/Benchmark.lean` (perfplot: one call per size, `np.allclose` against the first kernel); reuses C01–C03, C12; `_violated` for dx ≠ 1 |
| C92 | `Lemmas/Budget.lean`: trapezoidal rule for a quadratic form along a solution, then C76 and local Lipschitz bounds to pass to the Runge–Kutta trajectory; rates by C24, C25 |
| C93 | Crash states of `run2` with fuel; invariant: file + buffer hold saves of a prefix of the frames, relation frame → save only for saves that succeed; `C93_crash2_partial`, `C93_zero_rows_violated` |
| C94 | As C93, with old rows in every dataset; `C94_crash2_continued_partial`, `C94_zero_rows_violated` |
| C95 | `NumPy/Stack.lean`, `Model/Stacked.lean`: the functions on arrays of every rank; relation “stack result at b = frame result of frame b”, closed under composition; `C95_phase_violated`, `C95_axis0_violated` |
| C96 | `Model/RunPropsHW.lean` (the two tables of property functions), `Lemmas/Run2Props.lean` (state of the file when `run2` calls `calculate_properties`), C56; `C96_continued_violated` |
| C97 | Run the law-free model with a scalar type whose operations have relative error u; propagate error bounds through the formulas (Lemmas/Rounding), Higham's gamma_k. |
| C98 | `CloseStates`/`ComputedRun` describe a sequence of states in which each is the result of the step for the one before up to `ε` in every entry. The increment of both steppers is a C¹ function of (dt, state, stored potential); `ODE.perturbed` (discrete Grönwall with a bootstrap) bounds the deviation from the run without errors, C76 the rest. |
| C99 | `Spec/DriftWave.lean` states the threshold. The characteristic polynomial of the mode matrix of C88 is a quadratic with real sum of roots; the sign of the real parts is decided by `roots_growing`/`roots_decaying`. Eigenvectors give single waves, which C88 shows to be unaffected by the brackets; the Taylor polynomial of the stepper is estimated from 1+z. |
| C100 | `Lemmas/EnergyBound.lean`: the flux kappa*gamma_n is at most abs(kappa)E by Fourier estimates, coupling and hyperdiffusion only remove energy, the bracket removes nothing (C24, C25); Gronwall; C76 and local Lipschitz bounds carry the bounds to rk4 |
| C101 | the eight property functions against the formulas of Spec/Properties.lean; the file theorem follows from C56_square_files, the spectral ones from Parseval; get_D against HW.diffuse |
| C102 | convergence of the fields (C86) in the discrete L2 norm, stability of the discrete gradient and Laplacian of phi under the Poisson solve, consistency of differences and of the spectral derivative (theta - sin theta bound), trapezoidal averages of smooth periodic functions, Green's identity in the box; Spec/Measured.lean has the integrals |
| C103 | `Model/HWGen` repeats the steps with any kind of numbers; `C103_same_program` shows it agrees with `Model/HW` for reals. `Acc` (Lemmas/Accurate) is a calculus of functions that are evaluated with an error of O(u+eta) on bounded sets; it is applied to the whole step. The errors of one step then enter C98, with a bootstrap that keeps the computed states bounded. FFT solver: accuracy is assumed; overflow/underflow not modelled. |
| C104 | run2's property loop evaluated on a list with a bad name; file after setup2 has empty datasets; continue_h5_file on empty time dataset raises (Props/BadNames) |
| C105 | both functions' files are characterised by frame lists (C39/C52 lemmas); the lists coincide if the step counts do; counting with floor and round4 in exact arithmetic (Props/RunRun2) |
| C106 | column sums of the right-hand side in Lemmas/ZonalFlow; fields independent of y form an invariant set on which a step is pure hyperdiffusion; induction over the history (Props/ZonalFlow) |
| C107 | the symmetry structure of C29/C30 is generalised to maps between grids; spectrum of a tiled field is the spread-out spectrum of the small one (Lemmas/Tile); frequencies fftfreq(a n)[a k] = fftfreq(n)[k] |
| C108 | triangle inequality for the root mean square between C86 and C103; delta chosen so that the rounding contribution is at most dx^2 (Props/FloatPDE) |
| C109 | `Model/RunStart.lean` models the statements before the file handling with the generator as explicit state; reproducibility and invalid arguments by cases; zero mean by combining C63, C27, C28, C32, C44 and C78 |
| C110 | Extended system (n, Omega, e, 1) with e' the reported rate, a quadratic form; rk4_step and euler_step act on it as the methods themselves, so convergence (C76) applies to e. Gap e - energy: constant along solutions if the rates agree (C26), growing otherwise (`_violated`) |
| C111 | `Lemmas/Scaling.lean`: maps of fields that conjugate the rates of one coefficient set to those of another up to a factor; images of stages, steps, histories by induction; scalar multiples, y mirror and transposition are such maps (stencil algebra, Fourier multiplier of the Poisson solver) |
| C112 | relation (differs by uniform offsets) between states, closed under the operations of the stages; the offsets follow the scalar stepper; induction over the steps |
| C113 | small-step semantics of parallel loops over shared memory (`Model/Parallel.lean`); invariant of race-free loops: cells that are not written keep their value, every final value is in memory or still pending in a thread; number of operations left decreases with each step; then the kernels are shown to be race free and compared with the sequential definitions |
| C114 | spectrum of the real part of an inverse transform is the Hermitian part of the given one; the filter is symmetric under sign change of the wave; logistic function against exponentials; violation by bounds on pi |
| C115 | `Model/Stacked.lean` on arrays of every rank; shapes through the slices; the solver frame by frame with a table of divisors per frame, evaluated as a Fourier multiplier; violation by injectivity of the transform |
| C116 | Poincare inequality for the iterated five-point Laplacian through Parseval (the smallest nonzero symbol is 4 sin^2(pi/max h w)/dx^2), the energy budget of C92 with the mean of the density removed, Gronwall, and fourth-order convergence of rk4_step for the form |
| C117 | Specification Spec.SinglePrec of float32 storage (relative error 2^-24 in the normal range) and Spec.RelError of double arithmetic; error accumulation over int-to-float, product and storage; separation of grid points; counterexample with the concrete round-to-nearest-even function `single` |
| C118 | Model/Progress.lean repeats the loop of run2 with new_val and the displayed values; refinement to Run2.run2 by induction on the fuel; loop invariant that new_val has no entry named show_property |
| C119 | Trace logic over `calculate_properties`: preparation phase (datasets old, absent or zero), then prefix of batches; `Honest` computations to exhibit the crash state after the creation of the datasets |
| C120 | append_h5 walks the buffers in the order fields, time, properties; `completed f` adds the missing datasets to relate the buffer of the failing run to the one of a run that works; quiet saves do not touch the file; then the flush raises at the first missing dataset (Lemmas/Run2Missing.lean) |
| C121 | `load_h5_data` and `create_fixed_h5` in `Model/IO.lean`; induction over the list of names; combined with the file contents of C44/C52 and the parameters of C73 |
| C122 | `get_extended_viridis` with `np.linspace` in `Model/Colormap.lean`, over any `FloatOps`; the piecewise blend is a separate inductive specification in `Spec/Colormap.lean`; induction over the table with relative error bounds (`Lemmas/Rel.lean`); the default by kernel evaluation of double precision |
| C123 | `create_movie`, both branches, `generate_title`, the set-up of axes and the loop of the animation in `Model/MovieFile.lean`; induction over the pictures with the invariant of C67; joined with the file contents proved in C44/C52/C73 |
| C124 | `plot_timetraces`, `plot_timetrace_comparison`, `process_property` in `Model/Timetrace.lean` as functions from the file to lists of curves (label, statistics, points, limits); exact field arithmetic; `Records`, `IsStats`, `AtFrameTimes`, `Nearest` state what should be shown; induction over the list of properties |
| C125 | `plot_dict` and `main` of image.py in `Model/Image.lean` as functions to lists of panels; induction over the dictionary with the invariant `IsRange`; joined with C80 and with the file contents proved in C44/C73 |
| C126 | `Model/RunAll.lean` puts the stages of `run` after the simulation (movie, properties, figure) in the order of the code; joined from C43/C44 (file), C123 (movie), C56 (properties) and C124 (curves); `Lemmas/NoOther` shows that no other datasets exist |
| C127 | `continue_h5_file` is followed through all its failures (missing file, dataset, frame, time, attribute); success iff the file is `Complete`, and the state of the disk is unchanged in all cases; lifted to `run`/`run2`, whose setup raises before the first write |
| C128 | `FileOf E a ns frames f` describes a file by the frames it contains and is preserved by one continuation (`piece_step`, which generalises the proof of C47 to a file of any origin); induction over the pieces; two files of the same frames agree (`FileOf.agree`); physics version with the simulation of model.py |
| C129 | one floating-point step is within K (u+eta) of the exact step for bounded states (the error calculus of C103); the exact step conserves the quantity (C27, C28); the mean of an error field is at most its largest entry; induction on the number of steps |
| C130 | Python's argument binding and the constructor as functions of positional and keyword arguments; complete case analysis |
| C131 | `Model/Timed.lean` repeats the steps in a monad that reads a clock; a simulation relation between timed and untimed programs, closed under sequencing, carries the bounds on the logged times; induction on the steps |
| C132 | `Model/Memory.lean` repeats the steps with references and a heap; relational Hoare triples against the model without memory, whose preconditions are stable when arrays are added; the in-place additions are confined to the array just created |
| C133 | `Model/Debug.lean` repeats the functions with the lines they print; without debug a monad morphism, with debug evaluation on torus fields; an array as age fails at the formatting (`Props/DebugAge.lean`) |
| C134 | `Model/RunGen.lean`: the simulation object of `run` with any kind of numbers, `Model/HWGen.lean`. Every call is a `FreshRun` (C44); C108 bounds the states, started from the potential `get_phi` computes (`float_phi`); then the storage error |
| C135 | as C134 with `run2`: `float_core` gives the states of the floating-point simulation whatever the files are; `stamp_reaches` ends the loop; every call is a `FreshRun2`, `run2_result` gives the rows |
| C136 | law-free: the restored state has the arrays of step k (`arrays_at`: the potential is get_phi of the vorticity in both), so by induction all later states have the same arrays (`resumedStates_spec`); `continue2_result` gives the rows; `frameSteps` lists recorded steps |
| C137 | `Resumed` (C136) built from `FloatPoses2` (C135): `fresh2_float` gives all later states, `C136_simulation` the assumption on the steps; `stampFrom_err` bounds the times computed from the restored one |
| C138 | `Model/PropertiesGen` states the property functions for any kind of numbers; `PropsFloat` bounds the rounding of products, gradients and means with the `Acc` calculus of C103; `measured_core` adds this to C102's bound of the exact property of a nearby state |
| C139 | `near_prop` bounds the change of the exact property functions when fields change by a relative `v` (local Lipschitz constants on a ball, from the smoothness shown in C138); `stored_core` combines this with C102; `run_fromFrames` and `run2_fromFrames` say what `calculate_properties` writes (C56) |
| C140 | `run_resumed` builds the `ContinuedRun` of C48/C49 from the file that `run_result` describes; the states agree by the assumption `ArraySolver` (C136_simulation shows it for `model.py` in every arithmetic), without laws of arithmetic |
| C141 | `float_core` (C134) gives the states, `resumed_float` builds the `RunResumed` of C140 from the posed call, C140 gives the appended rows |
| C142 | `continue_before` describes the file before the properties are computed; C56 describes `calculate_properties` on it; C140 says which states the frames show; `stored_core` (C139) gives the accuracy |
| C143 | `resumed_run` and `continue2_before` describe the file of the continued `run2` before the properties are computed; C56 describes `calculate_properties`; `resumed2_float` (C137) says which steps the frames show; `stored_core` and `measured_core` give the accuracy |
| C144 | induction over the frames of the animation model of C67 with the exact value of the limit; the excess under `new_cbar_max` is `d^(1/2^k)` |
| C145 | `reported_budget` combines the budget of a quadratic form along rk4_step (C92) with the sign of the hyperdiffusion (C100) and the values of the property functions; `fresh2_physics` and C52 identify the recorded numbers |
| C146 | Cauchy-Schwarz and Parseval on the field level (`related_fields`), carried to files by the row theorems of run2 (`run2_result`) and of calculate_properties (C56) |
| C147 | `reported_growth` expresses C100 by the property functions; `recorded_frames` says which numbers run2 stores (from C52 and `fresh2_physics`), `computed_frames` which numbers `run` computes (from C56 and `fresh_physics`) |
| C148 | `history_means` (C27, C28 and the zero mean of the solver's potential), `recorded_amean` (C78) and the rows of C44/C52 |
| C149 | from the factors of C148: bounds of the quartic `rkDecay`, `Real.exp_bound`, a value as large as the mean exists in each frame |
| C150 | frame 0 from C109; `abs_sin_sub_sin_le`; irrationality and six digits of pi |
| C151 | C116's decay of the fluctuation energy, which bounds kinetic energy (C20) and particle flux, for the states recorded by `run2` (`recorded_frames`) or used by `run` (`computed_frames`) |
| C38 | association lists with unique keys; `_violated` for subtraction |
| C62–C64 | finite sums; model of meshgrid shapes; random draw = arbitrary array |

## I/O and run loop (C39–C61, C71, C73, C78, C79, C83–C85)

*Modelled*: `utils/io.py`, `run.py`, `run2.py`, `run_properties.py`,
`downsample.py` as state machines over an HDF5 file model (`Model/H5.lean`:
name ↦ dataset, attributes), a buffer of rows with write index, and an abstract
physics (`step : S → Py S`, arbitrary), which `Model/RunHW.lean` instantiates with
the model of `HW`; `Model/RunStart.lean` adds the statements before the file handling
(seeding, the `noise` dictionary, the start fields) with the random generator as
explicit state.  Crash points: every primitive file operation is
an event; a crash keeps a prefix of the events.  Time arithmetic is law-free
(`FloatOps α`: any type with unspecified operations), so the theorems hold for
IEEE doubles; corollaries instantiate it with exact numbers.  float32 storage is
an arbitrary function (`Casts`).
`Model/Progress.lean` adds the values `run2` hands to its progress bar (C118);
`Spec/Single.lean` specifies single precision storage of the times (C117).
`Model/RunAll.lean` adds movie and figure at the end of complete calls (C126).
*Not modelled*: file locking/HDF5 internals, the rest of tqdm, printing,
wall-clock timing.

| Property | Model and proof |
|---|---|
| C39–C41 | refinement: (file, buffer, index) ↦ file ++ take index buffer; induction over saves |
| C42 | prefix semantics over event lists |
| C43 | invariant with `snapshots mod buffer_length`; `_violated` witness, `_partial` when the count divides |
| C44–C46, C73 | loop induction; `RunPhysics` combines the loop with the real step function and the downsampling |
| C47–C49 | simulation of two runs (`Spec/Run2Split.lean`); `_violated` for zonal, time column |
| C50–C55, C58, C71 | decision logic of `run`/`run2`, loop invariants, divergence of retry loop |
| C56–C57 | induction over batches |
| C83–C85 | Hoare-style trace logic (`Tr`) over `run`: every intermediate file system satisfies `Truncated` (`Spec/RunCrash.lean`); exception in a step by the loop induction |
| C59–C61, C78, C79 | rounding, finite sums, `scipy.signal.resample` on both axes; median `_violated` |

## Plot helpers (C65–C70, C80–C82)

*Modelled*: index/fps arithmetic, colour-limit update, path construction,
table layout, label lookup, zero test, points of time traces, y limits, the colour map (C122),
whole movies as lists of pictures with title, captions and axes (C123), curves, legends and
statistics of time traces (C124), the figures of `plot_dict` and `image.main` (C125).
*Not modelled*: matplotlib, the movie encoder.

| Property | Model and proof |
|---|---|
| C65–C66 | `Model/Movie.lean`; rounded arithmetic; `_violated` witnesses in double precision |
| C67 | real inequalities, induction over frames |
| C68 | strings as lists of characters; `_violated` for all t < 10^4 |
| C69 | `Model/Helpers.lean`; column-wise filling = row-major chunks (`Spec/Table.lean`) |
| C70 | case analysis against a separate table of labels (`Spec/Labels.lean`); `metric_format` for every labelled name; `_violated` for the zero test, shared labels and `metric_format` |
| C80–C82 | `Model/Plot.lean`; floor arithmetic, order arguments |

## Not modelled at all

`laplace` and `gradient` of `phiml_gradients.py` (they call PhiML in a way its
documentation does not allow), PhiML's batch dimensions, just-in-time compilation
and single precision, `perfplot` beyond its equality check, command-line parsing
(`fire`), the contents of README examples.
