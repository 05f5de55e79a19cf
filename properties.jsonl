{"id": "C01", "title": "Periodic stencils act on the torus", "statement": "periodic_laplace and periodic_gradient return an array of exactly the input's shape whose (i,j) entry is the 5-point Laplacian / central difference over the wrap-around neighbours of (i,j); an empty array is rejected with ValueError.", "quantifier": "every 2-D array of every height and width (including 1xN), every spacing dx, every supported axis", "why_tests_cant": "shape, wrap-around corner and size-1 behaviour must hold for every array; tests try one 128x128 sine", "anchors": ["src/hw2d/gradients/numpy_gradients.py:laplace,periodic_laplace,gradient,periodic_gradient", "src/hw2d/gradients/numba_gradients.py"]}
{"id": "C02", "title": "NumPy and Numba difference operators are bit-identical", "statement": "periodic_gradient, periodic_laplace and periodic_laplace_N of the Numba module return exactly the NumPy module's result, although the Numba N-fold Laplacian pads once by N while NumPy re-pads by 1 at each of N iterations.", "quantifier": "every array, dx and every N (also N larger than the grid), for any arithmetic whatsoever (no algebraic law of +,-,*,/ is used, so rounding and NaN are included)", "why_tests_cant": "the pad width N is unbounded and may exceed the array; tests check N=2,3 at 32x32", "anchors": ["src/hw2d/gradients/numpy_gradients.py:periodic_laplace_N", "src/hw2d/gradients/numba_gradients.py:laplace_N,periodic_laplace_N"]}
{"id": "C03", "title": "All NumPy/Numba Poisson brackets agree", "statement": "The loop version, the vectorised versions and the two Numba stencil versions of periodic_arakawa return the same array; the three fused-stencil versions agree bit for bit.", "quantifier": "every pair of equal-shape arrays of every size and every dx; every content of np.empty_like's uninitialised memory", "why_tests_cant": "agreement has to hold for all fields and for uninitialised border memory", "anchors": ["src/hw2d/poisson_bracket/numpy_arakawa.py", "src/hw2d/poisson_bracket/numba_arakawa.py"]}
{"id": "C04", "title": "The PhiML bracket is a drop-in for the NumPy bracket", "statement": "phiml_arakawa.periodic_arakawa_vec computes the same Poisson bracket as numpy_arakawa.periodic_arakawa_vec.", "quantifier": "every pair of equal-shape fields", "why_tests_cant": "sign conventions must match on all inputs; the PhiML module has no test", "anchors": ["src/hw2d/poisson_bracket/phiml_arakawa.py:arakawa_vec,periodic_arakawa_vec"]}
{"id": "C05", "title": "The Arakawa bracket conserves mean, energy and enstrophy", "statement": "For J = periodic_arakawa(zeta, psi, dx): mean(J)=0, mean(zeta*J)=0 and mean(psi*J)=0.", "quantifier": "every pair of equal-shape fields, every dx", "why_tests_cant": "conservation is an identity over all fields; a test sees finitely many", "anchors": ["src/hw2d/poisson_bracket/numpy_arakawa.py:periodic_arakawa_vec"]}
{"id": "C06", "title": "The bracket is bilinear and antisymmetric", "statement": "periodic_arakawa(a,b) = -periodic_arakawa(b,a), it is linear in each argument, vanishes when the arguments coincide or one is constant.", "quantifier": "all fields and scalars", "why_tests_cant": "universally quantified algebraic law", "anchors": ["src/hw2d/poisson_bracket/numpy_arakawa.py:periodic_arakawa_vec"]}
{"id": "C07", "title": "Difference operators commute with translations", "statement": "np.roll-ing the input of periodic_laplace, periodic_laplace_N, periodic_gradient or periodic_arakawa by any offset rolls the output by the same offset, bit for bit.", "quantifier": "every array, offset pair, dx, N and arithmetic", "why_tests_cant": "infinite family of arrays and offsets", "anchors": ["src/hw2d/gradients/numpy_gradients.py", "src/hw2d/poisson_bracket/numpy_arakawa.py"]}
{"id": "C08", "title": "Summation by parts", "statement": "mean(periodic_gradient(f))=0, mean(f*grad(g)) = -mean(grad(f)*g), mean(lap(f))=0, mean(f*lap(g))=mean(lap(f)*g), mean(f*lap(f))<=0 with equality only for constant f.", "quantifier": "all fields of all sizes, all dx != 0", "why_tests_cant": "algebraic law over all fields", "anchors": ["src/hw2d/gradients/numpy_gradients.py"]}
{"id": "C09", "title": "Hyperdiffusion is dissipative for every order", "statement": "With HW(N=N, nu=nu), nu>=0, the hyperdiffusion term added to a field never increases its mean square: mean(f * hw.nu * laplace^N f) <= 0.", "quantifier": "every order N, every nu>=0, every field", "why_tests_cant": "the sign (-1)^(N+1) must be right for every N", "anchors": ["src/hw2d/model.py:HW.__init__,HW.diffuse", "src/hw2d/physical_properties/numpy_properties.py:get_D"]}
{"id": "C10", "title": "Second-order accuracy of the difference operators", "statement": "On samples of a smooth function, gradient and Laplacian differ from the true derivatives by at most a constant times dx^2.", "quantifier": "every C^3/C^4 function with bounded derivatives, every dx>0, every grid point", "why_tests_cant": "an asymptotic statement about all dx", "anchors": ["README.md: Reference Methods", "src/hw2d/gradients/numpy_gradients.py:gradient,laplace"]}
{"id": "C11", "title": "get_phi inverts the spectral Laplacian", "statement": "phi = get_phi(omega) is real, has zero mean, and its spectral Laplacian equals omega - mean(omega); it is the only zero-mean field with that property.", "quantifier": "every real field of every size, every dx != 0", "why_tests_cant": "inverse law over all fields", "anchors": ["src/hw2d/model.py:HW.get_phi", "src/hw2d/poisson_solvers/numpy_fourier_poisson.py:fourier_poisson_double"]}
{"id": "C12", "title": "Poisson backends agree inside get_phi", "statement": "get_phi returns the same potential with the NumPy and the Numba solver; called directly the two solvers differ exactly by the constant mean(tensor)*dx^2/1e14.", "quantifier": "every field, dx", "why_tests_cant": "the Numba solver replaces inf by 1e14: agreement depends on the mean of every input", "anchors": ["src/hw2d/poisson_solvers/numpy_fourier_poisson.py", "src/hw2d/poisson_solvers/numba_fourier_poisson.py:core_computation", "src/hw2d/model.py:HW.get_phi"]}
{"id": "C13", "title": "get_phi is linear, translation-equivariant and blind to the mean", "statement": "get_phi(a*u+b*v+c) = a*get_phi(u)+b*get_phi(v); rolling omega rolls phi; get_phi is symmetric and negative: mean(u*get_phi(v))=mean(get_phi(u)*v), mean(u*get_phi(u))<=0.", "quantifier": "all fields, scalars, offsets", "why_tests_cant": "laws over all fields", "anchors": ["src/hw2d/model.py:HW.get_phi"]}
{"id": "C14", "title": "custom_fftfreq replicates np.fft.fftfreq", "statement": "The Numba frequency table equals np.fft.fftfreq entry by entry.", "quantifier": "every n the int16 buffer can represent (n<=65536); for every larger n it is wrong", "why_tests_cant": "int16 wrap-around only shows beyond 65536 points per axis; no test allocates that", "anchors": ["src/hw2d/poisson_solvers/numba_fourier_poisson.py:custom_fftfreq,fftfreq_sq"]}
{"id": "C15", "title": "times=m means m successive solves", "statement": "fourier_poisson_double(t, dx, times=m) equals applying fourier_poisson_double(., dx, times=1) m times.", "quantifier": "every field, dx, m>=1", "why_tests_cant": "holds for dx=1 only by accident; needs all m, dx", "anchors": ["src/hw2d/poisson_solvers/numpy_fourier_poisson.py:fourier_poisson_double"]}
{"id": "C16", "title": "fourier_poisson_numpy agrees with fourier_poisson_double", "statement": "The general solver returns the same field as the double-precision one on every grid shape.", "quantifier": "every grid shape and field", "why_tests_cant": "meshgrid indexing only matters on non-square grids; tests are square", "anchors": ["src/hw2d/poisson_solvers/numpy_fourier_poisson.py:fourier_poisson_numpy"]}
{"id": "C17", "title": "fourier_laplace is available as inverse of the Poisson solver", "statement": "Calling numpy_gradients.fourier_laplace(grid, dx, N) returns the N-fold spectral Laplacian.", "quantifier": "every grid, dx, N", "why_tests_cant": "no test calls it", "anchors": ["src/hw2d/gradients/numpy_gradients.py:fourier_laplace"]}
{"id": "C18", "title": "Diagnostics have the right sign and zero set", "statement": "get_gamma_c>=0 for c1>=0, get_energy>=0, get_enstrophy>=0, get_enstrophy_phi>=0, spectral energies>=0; get_enstrophy=0 iff n=omega.", "quantifier": "all fields of all sizes", "why_tests_cant": "inequality over all fields", "anchors": ["src/hw2d/physical_properties/numpy_properties.py"]}
{"id": "C19", "title": "Parseval: spectral thermal energy equals physical thermal energy", "statement": "get_energy_N_spectrally(n) = mean(n^2)/2.", "quantifier": "every field of every shape", "why_tests_cant": "identity over all fields, normalisation depends on shape", "anchors": ["src/hw2d/physical_properties/numpy_properties.py:get_energy_N_ky,get_energy_N_spectrally"]}
{"id": "C20", "title": "Spectral kinetic energy is the potential-vorticity product", "statement": "For phi=get_phi(omega) on a square grid get_energy_V_spectrally(phi) = -mean(phi*omega)/2; on a non-square grid with both sides >=2 the call raises; on a single row of points it returns mean(k^2)*mean(phi^2)/2 without raising, which is not a kinetic energy (positive for constant phi).", "quantifier": "every field, every n x n grid, every dx", "why_tests_cant": "identity over all fields", "anchors": ["src/hw2d/physical_properties/numpy_properties.py:get_energy_V_ky,get_energy_V_spectrally"]}
{"id": "C21", "title": "Spectral particle flux equals the physical flux", "statement": "get_gamma_n_spectrally(n,p,dx) equals -mean(n * d_y p) with the spectral y-derivative.", "quantifier": "every pair of fields on every even square grid; fails on odd grids", "why_tests_cant": "half-spectrum truncation is right only by symmetry for even sizes", "anchors": ["src/hw2d/physical_properties/numpy_properties.py:get_gamma_n_ky,get_gamma_n_spectrally"]}
{"id": "C22", "title": "Finite-difference energy never exceeds spectral energy", "statement": "get_energy(n,phi,dx) <= get_energy_N_spectrally(n) + get_energy_V_spectrally(phi,dx).", "quantifier": "all fields on all square grids, dx>0", "why_tests_cant": "inequality over all fields", "anchors": ["src/hw2d/physical_properties/numpy_properties.py"]}
{"id": "C23", "title": "Time derivative implements the HW equations", "statement": "gradient_2d returns, at every grid point, c1(phi-n) - pb*[phi,n] - kappa*d_y phi + nu' lap^N n and c1(phi-n) - pb*[phi,Omega] + nu' lap^N Omega with nu'=(-1)^(N+1) nu; skipping a term because its coefficient is 0 equals adding 0 times the term; with zonal=True the coupling uses fields minus their y-mean.", "quantifier": "every state, every parameter set, both backends", "why_tests_cant": "branching on coefficients and sign conventions for all parameters", "anchors": ["src/hw2d/model.py:hw2d_gradient,HW.gradient_2d"]}
{"id": "C24", "title": "Semi-discrete energy budget", "statement": "Along gradient_2d with phi=get_phi(omega), mean(n*dn - phi*dOmega) = kappa*Gamma_n - Gamma_c + mean(n*D_n - phi*D_Omega), with Gamma_n, Gamma_c the values returned by get_gamma_n and get_gamma_c.", "quantifier": "every state, every parameter set", "why_tests_cant": "identity over all states", "anchors": ["src/hw2d/model.py:hw2d_gradient", "src/hw2d/physical_properties/numpy_properties.py:get_gamma_n,get_gamma_c"]}
{"id": "C25", "title": "Semi-discrete enstrophy budget", "statement": "mean((n-Omega)*(dn-dOmega)) = kappa*Gamma_n + mean((n-Omega)*(D_n-D_Omega)).", "quantifier": "every zero-mean-vorticity state, every parameter set", "why_tests_cant": "identity over all states", "anchors": ["src/hw2d/model.py:hw2d_gradient", "src/hw2d/physical_properties/numpy_properties.py"]}
{"id": "C26", "title": "Reported dE and dU equal the true rates", "statement": "The dE and dU entries returned by gradient_2d equal the rates of change of energy and enstrophy.", "quantifier": "every state", "why_tests_cant": "tests only compare at tiny nu with 1e-2 tolerance, hiding sign and field mix-ups in the dissipation terms", "anchors": ["src/hw2d/model.py:hw2d_gradient (TEST_CONSERVATION)", "src/hw2d/physical_properties/numpy_properties.py:get_DE,get_DU,get_dE_dt,get_dU_dt"]}
{"id": "C27", "title": "mean(density)-mean(omega) is conserved by every run", "statement": "After any number of rk4_step or euler_step calls mean(density)-mean(omega) is unchanged.", "quantifier": "every initial state, step count, dt sequence, parameter set with hyperdiffusion order N>=1 or nu=0 (N=0 turns the hyperdiffusion term into a linear source), zonal or not", "why_tests_cant": "invariant over unbounded histories", "anchors": ["src/hw2d/model.py:HW.rk4_step,HW.euler_step"]}
{"id": "C28", "title": "Mean density follows the RK4 stability polynomial", "statement": "With zero-mean phi, one rk4_step multiplies mean(density) by 1-z+z^2/2-z^3/6+z^4/24, z=c1*dt; with c1=0 or zonal=True mean density and mean vorticity are conserved.", "quantifier": "every state, dt, parameters with hyperdiffusion order N>=1 or nu=0, any number of steps", "why_tests_cant": "exact law over unbounded histories", "anchors": ["src/hw2d/model.py:HW.rk4_step"]}
{"id": "C29", "title": "Trajectories are translation-equivariant", "statement": "Rolling the initial state rolls the whole trajectory.", "quantifier": "every state, offset, number and size of steps", "why_tests_cant": "unbounded histories and offsets", "anchors": ["src/hw2d/model.py:HW.rk4_step,HW.euler_step"]}
{"id": "C30", "title": "Parity symmetry of trajectories", "statement": "If (n,Omega,phi) is replaced by its negated x-mirror image, the trajectory is replaced by its negated x-mirror image.", "quantifier": "every state, any number of steps", "why_tests_cant": "unbounded histories", "anchors": ["src/hw2d/model.py:HW.rk4_step"]}
{"id": "C31", "title": "Age bookkeeping", "statement": "Every rk4_step/euler_step returns age = old age + dt although the age entry is also scaled and summed inside the stages; after k steps age = age0 + sum of the dts.", "quantifier": "every history", "why_tests_cant": "the intermediate stages corrupt age; only the final overwrite makes it right, for every history", "anchors": ["src/hw2d/model.py:HW.rk4_step,HW.euler_step"]}
{"id": "C32", "title": "Returned potential is consistent", "statement": "Every state returned by rk4_step/euler_step has phi = get_phi(omega).", "quantifier": "every state and history", "why_tests_cant": "invariant over histories", "anchors": ["src/hw2d/model.py:HW.rk4_step,HW.euler_step"]}
{"id": "C33", "title": "RK4 reproduces the exponential series on linear dynamics", "statement": "With poisson_bracket_coeff=0 the step equals sum_{k<=4} (dt A)^k/k! applied to the state, where A is the linear right-hand side; Euler equals (1+dt A).", "quantifier": "every state, dt, linear parameter set", "why_tests_cant": "operator identity over all states", "anchors": ["src/hw2d/model.py:HW.rk4_step,HW.euler_step"]}
{"id": "C34", "title": "RK4 is fourth-order accurate", "statement": "The local error of rk4_step against an exact solution of the semi-discrete equations is O(dt^5), of euler_step O(dt^2).", "quantifier": "every exact solution, all small dt", "why_tests_cant": "asymptotic statement", "anchors": ["README.md: Reference Methods", "src/hw2d/model.py:HW.rk4_step"]}
{"id": "C35", "title": "Step requires exactly the documented state entries", "statement": "rk4_step raises KeyError without phi or age; entries that gradient_2d does not produce make the step raise KeyError; the result has the input's keys.", "quantifier": "every dictionary of entries", "why_tests_cant": "all key sets", "anchors": ["src/hw2d/model.py:HW.rk4_step", "src/hw2d/utils/namespaces.py:__add__"]}
{"id": "C36", "title": "Profiling counters", "statement": "After k rk4_steps: calls[full_step]=k, get_phi=4k, gradient_2d=4k, poisson_bracket=8k (0 if coefficient 0), diffuse=12k (4k if nu=0, with TEST_CONSERVATION on).", "quantifier": "every history", "why_tests_cant": "counter invariant over histories", "anchors": ["src/hw2d/model.py:HW.log,HW.rk4_step"]}
{"id": "C37", "title": "Backends yield the same trajectory", "statement": "Running any number of steps with the Numba functions gives the same states as with the NumPy functions (exact arithmetic).", "quantifier": "every state, history, parameter set", "why_tests_cant": "composition of all backend pairs over unbounded histories", "anchors": ["src/hw2d/model.py: import block, HW"]}
{"id": "C38", "title": "Namespace arithmetic is entry-wise", "statement": "a+b, c*a, a*b, a/b, a-b of Namespaces combine equal keys entry-wise; the left operand's keys decide, a missing key raises KeyError; copy has the same entries.", "quantifier": "every pair of dictionaries, every key", "why_tests_cant": "subtraction order, key handling for all key sets", "anchors": ["src/hw2d/utils/namespaces.py:Namespace"]}
{"id": "C39", "title": "Buffered saving loses, duplicates and reorders nothing", "statement": "After any sequence of save_to_buffered_h5 calls, file rows ++ the first buffer_index buffer rows = previous file rows ++ all saved values in order, for every field; after the final append the file holds them all.", "quantifier": "every buffer_length>=1, every sequence of saves, every field set", "why_tests_cant": "history of unbounded length and every buffer size", "anchors": ["src/hw2d/utils/io.py:save_to_buffered_h5,append_h5"]}
{"id": "C40", "title": "Buffer index stays in range", "statement": "The returned buffer_index is always < buffer_length and equals the number of saves modulo buffer_length; buffer_length=0 raises on the first save.", "quantifier": "every history and buffer_length", "why_tests_cant": "invariant", "anchors": ["src/hw2d/utils/io.py:save_to_buffered_h5"]}
{"id": "C41", "title": "A field missing from a save is not fabricated", "statement": "If a buffered field is absent from new_val, no other frame's data is written in its place.", "quantifier": "every history", "why_tests_cant": "stale rows only show up with particular histories", "anchors": ["src/hw2d/utils/io.py:save_to_buffered_h5"]}
{"id": "C42", "title": "Crash during append never damages old rows", "statement": "If the process dies at any point inside append_h5, rows present before the call are unchanged in every dataset and every dataset has either its old length or old length + buffer_index; lengths may differ between fields.", "quantifier": "every crash point", "why_tests_cant": "crash points are not reachable by unit tests", "anchors": ["src/hw2d/utils/io.py:append_h5"]}
{"id": "C43", "title": "Saved last state is the newest recorded state", "statement": "Whenever the run is over, the state_* datasets hold the full-resolution state of the last recorded frame.", "quantifier": "every number of snapshots and buffer length", "why_tests_cant": "depends on snapshots mod buffer_length", "anchors": ["src/hw2d/utils/io.py:save_to_buffered_h5,update_last_state", "src/hw2d/run.py:run", "src/hw2d/run2.py:run"]}
{"id": "C44", "title": "Frame count and frame times", "statement": "A fresh run() without NaN writes exactly floor(end_time/step_size)//snaps + 1 frames, frame j at time j*snaps*step_size, and every frame is the state after j*snaps steps.", "quantifier": "every step_size>0, end_time, snaps>=1, buffer_length>=1, downsampling, physics", "why_tests_cant": "unbounded loop and all parameter combinations", "anchors": ["src/hw2d/run.py:run"]}
{"id": "C45", "title": "recording_start_time filters frames", "statement": "With recording_start_time r>0 exactly the snapshot states with time >= r are written.", "quantifier": "all r, step sizes, snaps", "why_tests_cant": "boundary comparisons for all values", "anchors": ["src/hw2d/run.py:run", "src/hw2d/run2.py:run"]}
{"id": "C46", "title": "Recorded frames have consistent potential", "statement": "Every recorded frame satisfies phi = get_phi(omega).", "quantifier": "every run", "why_tests_cant": "frame 0 is random noise; only statistics-insensitive tests exist", "anchors": ["src/hw2d/run.py:run", "src/hw2d/run2.py:run"]}
{"id": "C47", "title": "Continuing run2 equals not having stopped", "statement": "Running run2 to T1 and continuing to T2 produces the same frames and times as one run to T2.", "quantifier": "every split point, physics, buffer length; exact storage", "why_tests_cant": "two histories compared for all split points", "anchors": ["src/hw2d/run2.py:run", "src/hw2d/utils/io.py:continue_h5_file"]}
{"id": "C48", "title": "Time column increases across continuation", "statement": "The time dataset of a continued run() keeps increasing.", "quantifier": "every continued run", "why_tests_cant": "requires multi-run histories", "anchors": ["src/hw2d/run.py:run"]}
{"id": "C49", "title": "Continuation restores the physics", "statement": "continue_file re-creates the simulation with the parameters stored in the file.", "quantifier": "every parameter set", "why_tests_cant": "zonal is not among the restored keys", "anchors": ["src/hw2d/utils/io.py:continue_h5_file", "src/hw2d/run2.py:run"]}
{"id": "C50", "title": "Existing results are protected", "statement": "If the output file exists, force_recompute is False and continue_file is False, the file is unchanged and no step is made; with force_recompute the old contents are replaced.", "quantifier": "every file content and argument set", "why_tests_cant": "all flag combinations and contents", "anchors": ["src/hw2d/run.py:run", "src/hw2d/run2.py:run"]}
{"id": "C51", "title": "NaN stops the simulation", "statement": "run() stops at the first state whose density contains NaN and keeps all earlier frames.", "quantifier": "every step at which NaN may appear", "why_tests_cant": "all break points", "anchors": ["src/hw2d/run.py:run", "src/hw2d/run2.py:run"]}
{"id": "C52", "title": "run2 writes every buffered frame before returning", "statement": "When run2 returns normally no recorded frame remains only in memory.", "quantifier": "every end_time / recording_start_time combination", "why_tests_cant": "boundary current_time == recording_start_time", "anchors": ["src/hw2d/run2.py:run final flush"]}
{"id": "C53", "title": "run2 terminates with the expected number of steps", "statement": "With step_size>0 the adaptive loop ends after the least k with round(t0+k*dt,4)>=end_time.", "quantifier": "all step sizes and end times", "why_tests_cant": "termination for all inputs", "anchors": ["src/hw2d/run2.py:run"]}
{"id": "C54", "title": "A failing step is reported", "statement": "If rk4_step raises, run2 reports it to the caller.", "quantifier": "every failing step function", "why_tests_cant": "retry loop never ends; a test would hang", "anchors": ["src/hw2d/run2.py:run retry loop"]}
{"id": "C55", "title": "output_path='' runs without saving", "statement": "Calling run(output_path='') simulates without writing a file.", "quantifier": "every other argument", "why_tests_cant": "argument combination untested", "anchors": ["src/hw2d/run.py:run", "src/hw2d/run2.py:run"]}
{"id": "C56", "title": "Property files are independent of batch size", "statement": "calculate_properties fills each requested property dataset with f(frame i) at index i for every frame, whatever batch_size>=1.", "quantifier": "every number of frames, batch size, property list", "why_tests_cant": "all frame counts and batch sizes incl. non-dividing", "anchors": ["src/hw2d/utils/run_properties.py:calculate_properties,add_data"]}
{"id": "C57", "title": "calculate_properties leaves fields alone and respects force_recompute", "statement": "Datasets not in property_list are unchanged; with force_recompute=False existing property datasets are unchanged; every requested property is filled with values.", "quantifier": "every file and property list", "why_tests_cant": "all files/lists", "anchors": ["src/hw2d/utils/run_properties.py:calculate_properties"]}
{"id": "C58", "title": "run2 does not leak state between calls", "statement": "The properties computed by a run2 call depend only on its own arguments.", "quantifier": "every sequence of calls", "why_tests_cant": "needs call histories", "anchors": ["src/hw2d/run2.py:run mutable default"]}
{"id": "C59", "title": "Saved shape equals downsampled shape", "statement": "The buffer/dataset shape int(round(n/f)) equals the shape fourier_downsample produces.", "quantifier": "every grid size and factor", "why_tests_cant": "rounding ties for all n,f", "anchors": ["src/hw2d/run.py:run", "src/hw2d/utils/downsample.py:fourier_downsample"]}
{"id": "C60", "title": "mean_downsample2x preserves the mean", "statement": "For even sizes every output is the mean of its 2x2 block and the overall mean is unchanged; odd sizes are rejected.", "quantifier": "every array size", "why_tests_cant": "broadcasting quirk at size 3", "anchors": ["src/hw2d/utils/downsample.py:mean_downsample2x"]}
{"id": "C61", "title": "median_downsampleNx downsamples", "statement": "median_downsampleNx(x, k) returns block medians of reduced shape.", "quantifier": "every array and k", "why_tests_cant": "no test", "anchors": ["src/hw2d/utils/downsample.py:median_downsampleNx"]}
{"id": "C62", "title": "zonal_transform is the projection onto non-zonal part", "statement": "Result has zero y-mean in every column, is idempotent, linear, preserves fields with zero y-mean and commutes with translations; zonal_transform_fourier is its spectral twin.", "quantifier": "every field", "why_tests_cant": "law over all fields", "anchors": ["src/hw2d/zonal_transform/numpy_zonal_transform.py"]}
{"id": "C63", "title": "Fourier noise is normalised", "statement": "get_fft_noise returns mean 0 and standard deviation 1 and its weight-mask assertion holds whenever min_frequency<=max_frequency, in particular for every run() call.", "quantifier": "every random draw, resolution, size, scale, wavelength setting", "why_tests_cant": "all random draws", "anchors": ["src/hw2d/initializations/fourier_noise.py:get_fft_noise"]}
{"id": "C64", "title": "get_2d_sine has the requested shape", "statement": "get_2d_sine((h,w),L) returns an (h,w) array with values in [-1,1].", "quantifier": "every grid size", "why_tests_cant": "non-square sizes", "anchors": ["src/hw2d/initializations/sine.py:get_2d_sine"]}
{"id": "C65", "title": "Movie frame indices are valid", "statement": "Every frame index used by create_movie for t0=0,t1=None addresses an existing frame, each at most once and in order.", "quantifier": "every file length, frame_dt, initial_time, fps and speed setting", "why_tests_cant": "all lengths/offsets", "anchors": ["src/hw2d/utils/plot/movie.py:create_movie_equally_spaced,create_movie_unequal_spaced_fine"]}
{"id": "C66", "title": "min_fps is honoured", "statement": "The frame rate chosen by create_movie is at least min_fps whenever the data provides it.", "quantifier": "all speeds, frame_dt, min_fps", "why_tests_cant": "integer rounding for all values", "anchors": ["src/hw2d/utils/plot/movie.py"]}
{"id": "C67", "title": "Colour range never clips data", "statement": "After each animation frame the symmetric colour limits contain all values of the frame, and the limit lies between the new and the previous maximum.", "quantifier": "every sequence of frames", "why_tests_cant": "sequence-dependent", "anchors": ["src/hw2d/utils/plot/movie.py:new_cbar_max_smooth,new_cbar_max"]}
{"id": "C68", "title": "Image files for different times do not overwrite each other", "statement": "image.main writes to distinct paths for distinct t.", "quantifier": "all pairs of times", "why_tests_cant": "string truncation for all t", "anchors": ["src/hw2d/utils/plot/image.py:main"]}
{"id": "C69", "title": "format_print_dict prints every entry once, in order", "statement": "Reading the printed table row by row yields every numeric entry exactly once in dictionary order and no line exceeds the allowed width.", "quantifier": "every dictionary and width", "why_tests_cant": "layout search over all dictionaries", "anchors": ["src/hw2d/utils/helpers.py:format_print_dict"]}
{"id": "C70", "title": "Label lookup is total", "statement": "latex_format never raises and returns the label of its argument (the table in Spec/Labels), or its argument if there is none; the labels of the fields and properties of a run differ from each other; metric_format puts the kind of statistics before the label; is_zero_included is True whenever 0 lies between min and max.", "quantifier": "all strings / value arrays", "why_tests_cant": "all inputs", "anchors": ["src/hw2d/utils/latex_format.py", "src/hw2d/utils/plot/timetrace.py:is_zero_included"]}
{"id": "C71", "title": "A broken stored state is never continued", "statement": "Calling run or run2 with continue_file=True on a file whose last state contains NaN, or whose density or vorticity is zero everywhere, raises and changes no file.", "quantifier": "every file written by a run, every call that continues it", "why_tests_cant": "needs every file content, including the broken ones", "anchors": ["src/hw2d/run.py:run", "src/hw2d/run2.py:run", "src/hw2d/utils/io.py:continue_h5_file"]}
{"id": "C72", "title": "Phase differences", "statement": "get_delta_ky(n,p) returns min(h, w//2) phases in [-pi,pi], is unchanged when both fields are rolled together, is 0 between a field and a positive multiple of it, and is -2*pi*k*s/h at wave number k between a field and (a positive multiple of) the field moved by s points along y, if that angle is within (-pi,pi) and no mode of wave number k vanishes.", "quantifier": "every pair of fields, shift, wave number", "why_tests_cant": "identity over all fields and wave numbers", "anchors": ["src/hw2d/physical_properties/numpy_properties.py:get_delta_ky"]}
{"id": "C73", "title": "Stored parameters describe the frames", "statement": "The file of a new run contains all parameters of the call (physics, dt, frame_dt = dt*snaps, grid size, stored size, initial_time = recording_start_time) and frame j has the time initial_time + j*frame_dt.", "quantifier": "every call of run and run2", "why_tests_cant": "every combination of recording start, step size and snaps", "anchors": ["src/hw2d/utils/io.py:get_save_params,create_appendable_h5", "src/hw2d/run.py:run", "src/hw2d/run2.py:run"]}
{"id": "C74", "title": "The bracket is second-order accurate", "statement": "For smooth periodic zeta, psi sampled on the grid, periodic_arakawa(zeta,psi,dx) differs at every point from the continuous Poisson bracket zeta_x*psi_y - zeta_y*psi_x at that point by at most C*dx^2, with C depending only on bounds of the derivatives.", "quantifier": "every smooth periodic pair of fields, grid size and spacing", "why_tests_cant": "a convergence test samples a few fields and grids", "anchors": ["src/hw2d/poisson_bracket/:periodic_arakawa_vec"]}
{"id": "C75", "title": "The right-hand side is consistent with the Hasegawa-Wakatani equations", "statement": "For smooth periodic n, omega, phi sampled on the grid, the density and vorticity derivatives differ at every point from the continuous right-hand side by at most C*dx^2.", "quantifier": "every smooth triple of fields, all coefficients, both forms of the coupling, every N and grid size", "why_tests_cant": "needs all smooth fields and all grids", "anchors": ["src/hw2d/model.py:HW.gradient_2d,hw2d_gradient"]}
{"id": "C76", "title": "RK4 converges with order four over a whole run", "statement": "From every state whose potential is get_phi(omega) and for every T the semi-discrete equations have exactly one exact solution on [0,T], and there is C so that n steps of rk4_step with every small enough dt, n*dt<=T, stay within C*dt^4 of it (euler_step: C*dt).", "quantifier": "every solution, horizon, coefficient set and small dt", "why_tests_cant": "the limit dt->0 is not testable", "anchors": ["src/hw2d/model.py:HW.rk4_step"]}
{"id": "C77", "title": "The stored potential is only a cache", "statement": "The density and vorticity after a step depend on the density and vorticity before it, not on the potential stored in the state.", "quantifier": "every state a user passes to rk4_step or euler_step, also one whose potential was not computed by get_phi", "why_tests_cant": "the error has first order in dt and is hidden by later steps; run() always calls get_phi first", "anchors": ["src/hw2d/model.py:HW.rk4_step,euler_step", "src/hw2d/run.py:run"]}
{"id": "C78", "title": "Downsampled frames represent the field", "statement": "fourier_downsample preserves the mean of every field, and a field whose waves are resolved by both grids is recorded exactly: the stored values are its values at the points of the coarser grid.", "quantifier": "every field, grid size and factor", "why_tests_cant": "needs all fields; every test uses factor 1 or compares shapes only", "anchors": ["src/hw2d/utils/downsample.py:fourier_downsample", "src/hw2d/run.py:run"]}
{"id": "C79", "title": "skip_downsampleNx keeps every k-th value", "statement": "skip_downsampleNx(x,k) returns, along every axis after the first, the ceil(n/k) values at indices 0,k,2k,... unchanged.", "quantifier": "every array of every rank, every k>=1", "why_tests_cant": "no test; all ranks and sizes", "anchors": ["src/hw2d/utils/downsample.py:skip_downsampleNx"]}
{"id": "C80", "title": "An image shows the requested time", "statement": "image.main(t) shows the last recorded frame whose time is at most t, for every t between the first and the last recorded time; a t before the first frame is not accepted.", "quantifier": "every time, initial_time and frame_dt", "why_tests_cant": "needs all times; floor division of floats", "anchors": ["src/hw2d/utils/plot/image.py:main"]}
{"id": "C81", "title": "Time traces draw every value at its time", "statement": "The curve of a property starts at t0, contains every value recorded from t0 on and draws each at its recorded time.", "quantifier": "every file, initial_time, frame_dt and t0", "why_tests_cant": "files that start late and all t0", "anchors": ["src/hw2d/utils/plot/timetrace.py:plot_timetraces,plot_timetrace_comparison,get_uniform_x"]}
{"id": "C82", "title": "The y axis shows the data", "statement": "The y limits of a time trace contain all plotted values, unless a value exceeds y_cutoff, in which case the upper limit is y_cutoff.", "quantifier": "every list of property values, every cutoff", "why_tests_cant": "all signs and magnitudes of values", "anchors": ["src/hw2d/utils/plot/timetrace.py:plot_timetraces,plot_timetrace_comparison"]}
{"id": "C83", "title": "A crash during a run loses at most the buffered frames", "statement": "If the process dies at any moment of a run() that creates a file, no other file has changed and the file on disk is as before or every dataset holds the first frames of the run, complete and in order, the datasets differing by at most buffer_length frames; no row is something else than a frame.", "quantifier": "every moment of every run: while the file is created, during a step, between and inside writes, while properties are computed, after an exception", "why_tests_cant": "needs every crash point of every run", "anchors": ["src/hw2d/run.py:run", "src/hw2d/utils/io.py:create_appendable_h5,save_to_buffered_h5,append_h5", "src/hw2d/utils/run_properties.py:calculate_properties"]}
{"id": "C84", "title": "An exception in a step keeps the recorded frames", "statement": "If a step of the simulation raises, run() raises this exception, no other file has changed, and every frame recorded before is in the file.", "quantifier": "every run, every step number, every exception", "why_tests_cant": "needs every failing step and buffer length", "anchors": ["src/hw2d/run.py:run", "src/hw2d/utils/io.py:append_h5"]}
{"id": "C85", "title": "A crash while continuing a file keeps what it held", "statement": "If the process dies at any moment of a run(continue_file=True), every row the file held is still there, unchanged and in order, followed by the first frames of the continuation, the datasets differing by at most buffer_length frames; no other file has changed; no row is something else than a frame.", "quantifier": "every moment of every continued run, every file", "why_tests_cant": "needs every crash point of every continued run", "anchors": ["src/hw2d/run.py:run", "src/hw2d/utils/io.py:continue_h5_file,append_h5"]}
{"id": "C86", "title": "Simulations converge to the Hasegawa-Wakatani equations", "statement": "Take any smooth solution of the Hasegawa-Wakatani partial differential equations on a periodic box. There is one constant C such that on every grid of that box, k calls of rk4_step (or euler_step) with every small enough dt, started from the samples of density and vorticity at time 0 and any potential, return density, vorticity and (for k>=1) potential within C*dx^2 of the solution at time k*dt, in root mean square (and within C*dx at every single point).", "quantifier": "every smooth solution, all coefficients (nu>=0), both forms of the coupling, every hyperdiffusion order, every grid, number of steps and small dt", "why_tests_cant": "the limit dx->0, dt->0 and the nonlinear stability behind it are not testable", "anchors": ["src/hw2d/model.py:HW.rk4_step,euler_step,gradient_2d,get_phi"]}
{"id": "C87", "title": "The file of a run approximates the solution of the equations", "statement": "Take any smooth solution of the Hasegawa-Wakatani equations on a square periodic box. There is one constant C such that for every grid size and every small enough step size, run() to a new file, called with these coefficients, the samples of the solution at time 0 as initial density and vorticity, downsample_factor 1 and no properties, returns normally; the file has floor(end_time/step_size)//snaps+1 frames, frame j is stamped j*snaps*step_size, and for j>=1 its density, omega and phi arrays are float32 roundings of arrays within C*dx^2 (root mean square) of the solution at that time.", "quantifier": "every smooth solution, coefficients (nu>=0), hyperdiffusion order, grid size, step size, end time, snaps, buffer length and initial potential", "why_tests_cant": "combines the recording logic, the step counter and the limit dx->0, which no finite set of runs settles", "anchors": ["src/hw2d/run.py:run", "src/hw2d/model.py:HW.rk4_step", "src/hw2d/utils/io.py:append_h5"]}
{"id": "C88", "title": "Linear waves follow the discrete dispersion relation", "statement": "With poisson_bracket_coeff=0 every sequence of rk4_step/euler_step calls acts on each Fourier mode of density and vorticity separately, multiplying its pair of amplitudes by the fourth- (first-) order exponential polynomial of dt times the 2x2 matrix of that mode. The same holds for every poisson_bracket_coeff if density and omega are single waves of one mode on constant backgrounds, or depend on x only, or on y only; the state then keeps that form. Hence an eigenmode with growth rate g is multiplied by (1+z+z^2/2+z^3/6+z^4/24)^n, z=dt*g, in n RK4 steps.", "quantifier": "all grids, coefficients, orders N, both couplings, modes, amplitudes and phases, and all sequences of steps", "why_tests_cant": "growth rates measured from runs are only meaningful if modes do not leak into each other, for every mode and every number of steps", "anchors": ["src/hw2d/model.py:HW.rk4_step,euler_step,gradient_2d,get_phi", "src/hw2d/poisson_bracket/numpy_arakawa.py"]}
{"id": "C89", "title": "Largest stable step of the hyperdiffusion", "statement": "For pure hyperdiffusion (c1=0, kappa_coeff=0, poisson_bracket_coeff=0, nu>=0) let x=dt*nu*(8/dx^2)^N. If x^3-4x^2+12x<=24 for every rk4_step and x<=2 for every euler_step of a sequence, the sums of squares of density and omega never increase, on any grid and from any state. On grids with even height and width the condition is necessary: repeating a step that violates it multiplies the sum of squares of a checkerboard density by a constant larger than 1 each time.", "quantifier": "all grids, orders N, coefficients nu, states and sequences of steps", "why_tests_cant": "a stability threshold for all grids and all initial states, and unbounded growth beyond it", "anchors": ["src/hw2d/model.py:HW.rk4_step,euler_step,diffuse", "src/hw2d/gradients/numpy_gradients.py:periodic_laplace_N"]}
{"id": "C90", "title": "The PhiML operators are the NumPy operators", "statement": "On every non-empty two-dimensional field the PhiML periodic_laplace, periodic_laplace_N, periodic_gradient and fourier_poisson_single return what the NumPy functions return; fourier_laplace(f,dx) is the spectral Laplacian, fourier_poisson_single(fourier_laplace(f,dx,N),dx,N) is f minus its mean, and fourier_laplace of order N is the N-fold Laplacian.", "quantifier": "every field, grid, spacing, order and axis", "why_tests_cant": "PhiML is an optional backend; agreement must hold for all fields", "anchors": ["src/hw2d/gradients/phiml_gradients.py:periodic_laplace,periodic_laplace_N,periodic_gradient,fourier_laplace", "src/hw2d/poisson_solvers/phiml_fourier_poisson.py:fourier_poisson_single"]}
{"id": "C91", "title": "The performance comparison compares equal functions", "statement": "performance_comparison.main finishes without a failed equality check: in every benchmark all variants return the same array (up to the tolerance of the check) for every random input and every dx.", "quantifier": "every random data, selection of benchmarks, dx and number of sizes reached", "why_tests_cant": "random inputs of nine sizes; default dx only", "anchors": ["src/hw2d/utils/performance_comparison.py:main,get_function_defs"]}
{"id": "C92", "title": "Energy and enstrophy budgets over a whole simulation", "statement": "For every consistent state and time horizon T there are C and dt0 such that for every dt<=dt0 and k*dt<=T, k calls of rk4_step change the energy mean(n^2-phi*omega)/2 and get_enstrophy by the trapezoidal time integral of their sources (kappa*get_gamma_n - get_gamma_c + hyperdiffusion, respectively kappa*get_gamma_n + hyperdiffusion, evaluated on the same states), up to C*dt^2; when the sources are switched off both are conserved up to C*dt^4. On square grids the energy is get_energy_N_spectrally + get_energy_V_spectrally.", "quantifier": "every grid, backend, parameter set, consistent initial state, horizon, step size below a threshold and number of steps", "why_tests_cant": "an error bound uniform in the number of steps and the step size", "anchors": ["src/hw2d/model.py:HW.rk4_step,diffuse", "src/hw2d/physical_properties/numpy_properties.py:get_gamma_n,get_gamma_c,get_enstrophy"]}
{"id": "C93", "title": "A crash during run2 loses at most the buffered frames", "statement": "If the process dies at any moment of a run2.run() that creates a file, no other file has changed and the file on disk is as before or every dataset (time, density, omega, phi and each fullres_<property>) holds the first frames of the run, complete and in order, the datasets differing by at most buffer_length frames; no row is something else than a frame or its property value.", "quantifier": "every moment of every run, also of runs that never end; solver, steps and property functions may raise", "why_tests_cant": "needs every crash point of every run", "anchors": ["src/hw2d/run2.py:run", "src/hw2d/utils/io.py:create_appendable_h5,save_to_buffered_h5,append_h5", "src/hw2d/utils/run_properties.py:calculate_properties"]}
{"id": "C94", "title": "A crash while run2 continues a file keeps what it held", "statement": "If the process dies at any moment of a run2.run(continue_file=True), every row the file held in any dataset is still there, unchanged and in order, followed by the first frames of the continuation, the datasets differing by at most buffer_length frames; no other file has changed; no row is something else than a frame or its property value.", "quantifier": "every moment of every continued run, every file", "why_tests_cant": "needs every crash point of every continued run", "anchors": ["src/hw2d/run2.py:run", "src/hw2d/utils/io.py:continue_h5_file,append_h5"]}
{"id": "C95", "title": "Stacks of frames are processed frame by frame", "statement": "On an array of shape (..., y, x) the periodic difference operators with a negative axis, the zonal transform, every diagnostic (fluxes, energies, enstrophies, sinks, spectral values, spectra) return, for each leading index, exactly what they return for that frame alone, and raise exactly when they raise for the frames; so calculate_properties may hand whole batches to them.", "quantifier": "every leading shape, every grid, every field", "why_tests_cant": "every rank and shape; ellipsis indexing, axis arguments and shape[1] only coincide by accident on the tested ranks", "anchors": ["src/hw2d/gradients/numpy_gradients.py:periodic_laplace_N,periodic_gradient,gradient", "src/hw2d/physical_properties/numpy_properties.py:get_gamma_n,get_gamma_c,get_energy,get_enstrophy,get_gamma_n_ky,get_delta_ky", "src/hw2d/utils/run_properties.py:calculate_properties"]}
{"id": "C96", "title": "Properties recorded during a run agree with those computed from the file", "statement": "After run2.run() without downsampling the dataset <name> (computed from the file when the run ends) and the dataset fullres_<name> (computed from the state during the run) hold the same numbers, one per frame, for each of the eight properties; also for the frames a continued run adds.", "quantifier": "every run, every grid, every list of properties, every number of frames", "why_tests_cant": "relates two code paths over whole runs", "anchors": ["src/hw2d/run2.py:run,property_fncs", "src/hw2d/utils/run_properties.py:calculate_properties", "src/hw2d/physical_properties/numpy_properties.py:get_gamma_n,get_gamma_c,get_energy,get_enstrophy"]}
{"id": "C97", "title": "Rounding errors of the difference operators are bounded", "statement": "Computed with operations of relative error at most u (doubles: 2^-53), periodic_gradient has a relative error of at most gamma_3 in every entry; periodic_laplace and periodic_laplace_N deviate from the exact result by at most gamma_6N*(8/dx^2)^N*max|f|, and the bracket by at most gamma_14*2*max|zeta|*max|psi|/dx^2, where gamma_k=k*u/(1-k*u). The bracket conserves mean and both squares up to this error. For samples of a smooth function the total error of periodic_laplace is at most C*dx^2 plus (errors of samples and roundings)/dx^2.", "quantifier": "every field, grid, spacing, order N and every arithmetic with relative error u (no overflow or underflow)", "why_tests_cant": "every rounding of every input", "anchors": ["src/hw2d/gradients/numpy_gradients.py:periodic_gradient,periodic_laplace,periodic_laplace_N", "src/hw2d/poisson_bracket/:periodic_arakawa_vec,periodic_arakawa_stencil"]}
{"id": "C98", "title": "Errors made in every step stay small", "statement": "Suppose every call of rk4_step or euler_step returns density, vorticity and potential with an error of at most eps in every entry (rounding, an inexact Poisson solve), and the start is off by at most eps as well. Then for every horizon T there are C and delta such that for every dt<=delta and eps<=delta*dt the computed simulation stays within C*eps/dt of the run without errors and within C*(dt^4+eps/dt) (rk4) or C*(dt+eps/dt) (euler) of the exact solution, at every step up to time T.", "quantifier": "every consistent initial state, parameter set, grid and horizon, and every sequence of errors", "why_tests_cant": "every sequence of errors over arbitrarily many steps", "anchors": ["src/hw2d/model.py:HW.rk4_step,euler_step"]}
{"id": "C99", "title": "The drift-wave instability and its threshold", "statement": "The linear part of the discretised equations has a growing wave of Fourier mode (k,l) exactly if (a+2d)^2*d*(a+d)<b^2, where a=c1*(1+1/K^2), b=kappa*c1*sin(2*pi*k/h)/(dx*K^2) and d is the hyperdiffusion rate of the mode; without hyperdiffusion that is every mode varying along y except the shortest wave of an even grid. For an unstable mode there are arbitrarily small single waves which n calls of rk4_step or euler_step amplify at least by (1+gamma*dt)^n for every n, whatever the bracket coefficient. If b^2 is smaller than the left-hand side, the amplitudes of the mode tend to zero in every run without brackets, for small dt.", "quantifier": "every grid, mode, parameter set with c1, nu >= 0, both couplings, all n", "why_tests_cant": "the exact threshold and unbounded growth over arbitrarily many steps", "anchors": ["src/hw2d/model.py:HW.rk4_step,euler_step,gradient_2d"]}
{"id": "C100", "title": "The energy grows at most like exp(|kappa| t)", "statement": "With c1, nu >= 0 and phi the potential of omega, the energy E=mean(n^2-phi*omega)/2 of every exact solution of the discretised equations stays between 0 and exp(|kappa|*t)*E(0); without background gradient it never grows. For k calls of rk4_step with dt<=dt0 and k*dt<=T, the energy is at most exp(|kappa|*k*dt)*E(0)+C*dt^4 and get_enstrophy at most its initial value plus (exp(|kappa|*k*dt)-1)*E(0)+C*dt^4. So no choice of coupling, hyperdiffusion or bracket coefficient can make a run grow faster.", "quantifier": "every grid, backend, parameter set with c1, nu >= 0, consistent initial state, horizon and number of steps", "why_tests_cant": "a bound uniform over all states and step counts", "anchors": ["src/hw2d/model.py:HW.rk4_step", "src/hw2d/physical_properties/numpy_properties.py:get_enstrophy"]}
{"id": "C101", "title": "The stored properties are the physical quantities they are named after", "statement": "On an m x m grid the eight property functions return the quantity of their name: gamma_n = -mean(n*dphi/dy) with central differences, gamma_n_spectral the same with the spectral derivative (even m), gamma_c = c1*mean((n-phi)^2), energy = mean(n^2+|grad phi|^2)/2, thermal_energy = mean(n^2)/2, kinetic_energy = -mean(phi*lap phi)/2 with the spectral Laplacian, enstrophy = mean((n-omega)^2)/2, enstrophy_phi = mean((n-lap phi)^2)/2 with the five-point Laplacian. calculate_properties stores exactly these numbers (as float32) for every frame of a file, with the spacing 2*pi/k0/x_save and the c1 of the file; run2 records the same functions of its states. get_D is nu times the N-fold five-point Laplacian, the hyperdiffusion term of the solver.", "quantifier": "every square grid, field, spacing, c1, nu and N; every file, list of names and batch size", "why_tests_cant": "all fields and grid sizes; tests compare a few stored numbers", "anchors": ["src/hw2d/physical_properties/numpy_properties.py:get_gamma_n,get_gamma_n_spectrally,get_gamma_c,get_energy,get_energy_N,get_energy_V_spectrally,get_enstrophy,get_enstrophy_phi,get_D", "src/hw2d/utils/run_properties.py:calculate_properties", "src/hw2d/run2.py:run,property_fncs"]}
{"id": "C102", "title": "Measured fluxes, energies and enstrophies converge to those of the equations", "statement": "For a smooth solution of the Hasegawa-Wakatani equations on a periodic square box there is one constant C such that on every m x m grid, with small enough steps, each of the eight property functions applied to the computed state at time t is within C*dx^2 of the quantity of its name of the exact solution at t (particle flux -mean(n*dphi/dy), c1*mean((n-phi)^2), energies, enstrophies; box averages given by integrals). gamma_n_spectral: for even m. The entries fullres_<name> a call of run2 writes to a new file are within C*dx^2 of these quantities at the times of the frames (up to float32 rounding of the stored number).", "quantifier": "every smooth solution, time horizon, grid size, small step, both integrators, both backends; every run2 call posing the problem", "why_tests_cant": "all solutions and resolutions at once, a limit statement", "anchors": ["src/hw2d/physical_properties/numpy_properties.py:get_gamma_n,get_gamma_n_spectrally,get_gamma_c,get_energy,get_energy_N,get_energy_V_spectrally,get_enstrophy,get_enstrophy_phi", "src/hw2d/run2.py:run", "src/hw2d/model.py:HW"]}
{"id": "C103", "title": "A simulation computed in floating point stays close to the exact one", "statement": "Evaluate rk4_step or euler_step with floating-point numbers: every addition, subtraction, product, quotient and square in the steps, the gradients, the Laplacians and the brackets is rounded with relative error at most u, and means and the Poisson solver are accurate to eta relative to the largest entry. For every consistent state and horizon T there are C and delta such that for dt<=delta and u+eta<=delta*dt the computed simulation raises no error and stays within C*(u+eta)/dt of the simulation in exact arithmetic and within C*(dt^4+(u+eta)/dt) (rk4; dt for euler) of the exact solution at every step up to time T. A mean summed in any order meets the accuracy assumed.", "quantifier": "every consistent initial state, parameter set, grid, backend, horizon, and every arithmetic with relative error u", "why_tests_cant": "all roundings of every step of arbitrarily long runs", "anchors": ["src/hw2d/model.py:HW.rk4_step,euler_step,gradient_2d,get_phi", "src/hw2d/gradients/numpy_gradients.py:periodic_gradient,periodic_laplace_N"]}
{"id": "C104", "title": "A property name that run2 cannot compute stops the run and leaves a file without frames", "statement": "If properties contains a name other than the eight that run2 can compute from one frame (an unknown name, or one of DE, DU, dE_dt, dU_dt), a call of run2 that creates its file raises when the first frame is to be recorded: before the first time step if recording_start_time is 0, otherwise after all the steps up to the first recorded one. The error is KeyError for an unknown name and TypeError for the other four. The file is left with parameters and all datasets but no frame, and no other file is touched. Every later call with continue_file=True and without force_recompute raises and changes nothing.", "quantifier": "every list of property names with a bad one, every argument, number of steps and prior state of the file system", "why_tests_cant": "the names are checked nowhere, so whether and when the call fails depends on the recording schedule; tests only pass valid names", "anchors": ["src/hw2d/run2.py:run,property_fncs", "src/hw2d/utils/io.py:create_appendable_h5,continue_h5_file", "src/hw2d/run2.py:run.new_val.update"]}
{"id": "C105", "title": "run and run2 record the same frames", "statement": "Called with the same arguments (zonal=False) and the same initial fields, run and run2 leave files with the same rows in time, density, omega and phi and the same state_* datasets.", "quantifier": "every argument, initial state, number of steps, buffer length, snapshot interval, downsampling and recording start", "why_tests_cant": "the two functions count steps differently (int(end_time/step_size) against a while loop on the rounded time), so agreement depends on the numbers; no test compares them", "anchors": ["src/hw2d/run.py:run", "src/hw2d/run2.py:run"]}
{"id": "C106", "title": "With zonal=True nothing but viscosity acts on zonal flows", "statement": "With zonal=True the mean over y of the computed density and vorticity rates contains only the bracket and hyperdiffusion terms, no coupling and no density-gradient drive (with zonal=False the coupling c1*(mean phi-mean n) is added). A state whose fields depend on x only keeps that form through any sequence of rk4_step and euler_step; it evolves the same for all c1, kappa_coeff and poisson_bracket_coeff, and with nu=0 its density and vorticity never change.", "quantifier": "every state, parameter set, grid size, backend and step history", "why_tests_cant": "histories of arbitrary length; the absence of a term has to hold for every field", "anchors": ["src/hw2d/model.py:gradient_2d", "src/hw2d/model.py:rk4_step", "src/hw2d/model.py:euler_step", "src/hw2d/zonal_transform/numpy_zonal_transform.py:zonal_transform"]}
{"id": "C107", "title": "A box made of copies simulates copies, and symmetric states stay symmetric", "statement": "If the initial fields are np.tile(A,(a,b)) of the fields of a smaller box with the same dx, then after any sequence of rk4_step and euler_step the fields are np.tile of the fields that the small box reaches, with the same age, dE and dU; get_gamma_n, get_gamma_c, get_energy, get_enstrophy, get_enstrophy_phi and get_energy_N_spectrally give the same values for copies. A state unchanged by a roll (a period smaller than the box) or equal to its negated mirror image in x keeps this symmetry.", "quantifier": "every state, number of copies, grid size (odd, even, rectangular), parameter set, backend and step history", "why_tests_cant": "the Poisson solver works on the spectrum of the whole box, so copies agree only if frequencies and normalisation are right for every pair of grid sizes", "anchors": ["src/hw2d/model.py:rk4_step", "src/hw2d/model.py:euler_step", "src/hw2d/model.py:HW.get_phi", "src/hw2d/poisson_solvers/numpy_fourier_poisson.py:fourier_poisson_double", "src/hw2d/poisson_solvers/numba_fourier_poisson.py:fourier_poisson_double"]}
{"id": "C108", "title": "What is computed in floating point converges to the Hasegawa-Wakatani equations", "statement": "For every smooth solution of the Hasegawa-Wakatani equations on a periodic box there is one constant C such that on every grid of the box, for dt<=delta and arithmetic errors u+eta<=delta*dt (delta depending on the grid), the steppers evaluated in floating point from rounded samples of the solution raise no error and stay within C*dx^2 of the solution in root mean square and within C*dx at every grid point, at every step up to the final time.", "quantifier": "every smooth solution, grid, backend, small time step, floating-point arithmetic and step count", "why_tests_cant": "a limit over all grids, time steps and precisions", "anchors": ["src/hw2d/model.py:HW.rk4_step", "src/hw2d/model.py:HW.euler_step", "src/hw2d/model.py:HW.gradient_2d"]}
{"id": "C109", "title": "A seed makes a run reproducible, and invalid start arguments touch no file", "statement": "Two calls of run (or run2) with the same arguments, including a seed, and the same files on disk have the same outcome and leave the same files, whatever random numbers the process drew before; without a seed only the operating system's entropy matters, and init_type='sine' does not depend on the seed at all (its frame 0 is the same product of sines in all three fields).  An unknown init_type (KeyError), a seed NumPy refuses (ValueError) or a k0/grid_pts that gives no grid spacing (ZeroDivisionError) raises before any file is created, overwritten or appended to, and a call with neither force_recompute nor continue_file leaves an existing output file as it is, whatever its other arguments.  With a seed and init_type='normal' or 'random' frame 0 of density, omega and phi is init_scale times the first, second and third array the seeded generator yields; with 'fourier' the noise made of its first, second and third pair of normal arrays.  With init_type='fourier' every recorded frame of density, omega and phi has mean zero for the whole run.", "quantifier": "all arguments, all states of NumPy's global generator, all file systems, all generators; for the zero mean all grids, seeds, physics parameters, run lengths and downsampling factors in exact arithmetic", "why_tests_cant": "needs all histories of the global generator and all file systems; and the zero mean must hold in every frame of every run", "anchors": [["src/hw2d/run.py", "run"], ["src/hw2d/run2.py", "run"], ["src/hw2d/initializations/fourier_noise.py", "get_fft_noise"], ["src/hw2d/initializations/sine.py", "get_2d_sine"]]}
{"id": "C110", "title": "The accumulated dE and dU entries follow energy and enstrophy", "statement": "With TEST_CONSERVATION=True the entries dE and dU of a state change under repeated rk4_step (euler_step) by as much as the energy mean(n^2-phi*omega)/2 and get_enstrophy, with an error of at most C*dt^4 (C*dt) over every time horizon; in any case they change by the time integral of the rates gradient_2d reports.", "quantifier": "every grid, backend, consistent state with these entries, horizon, step size below a threshold and number of steps", "why_tests_cant": "a bound uniform in step size and number of steps; the shipped test looks at three steps at nu=5e-8 with tolerance 1e-2, which hides the dissipation terms", "anchors": ["src/hw2d/model.py:HW.rk4_step,HW.euler_step,hw2d_gradient (TEST_CONSERVATION)", "tests/test_prop_preservation.py"]}
{"id": "C111", "title": "Only ratios of the coefficients and the time step matter", "statement": "Multiplying c1, nu, kappa_coeff and poisson_bracket_coeff by t and dividing every dt by t gives the same fields after every step (elapsed age divided by t). Multiplying all initial fields by a and dividing poisson_bracket_coeff by a multiplies the whole trajectory by a, dE and dU by a^2, and the fluxes, energies and enstrophies by a^2. Reversing the sign of kappa_coeff mirrors the trajectory in y (with all fields negated). With kappa_coeff=0 and zonal=False the axes are interchangeable (negated transposes).", "quantifier": "all grids, coefficients, scale factors, sequences of rk4_step/euler_step and states", "why_tests_cant": "A test compares two runs for one factor; a coefficient applied in the wrong place or an anisotropy that cancels for that choice goes unnoticed.", "anchors": ["src/hw2d/model.py:HW.rk4_step", "src/hw2d/model.py:HW.euler_step", "src/hw2d/model.py:HW.gradient_2d", "src/hw2d/model.py:HW.get_phi", "src/hw2d/physical_properties/numpy_properties.py:get_gamma_n"]}
{"id": "C112", "title": "Uniform offsets neither drive nor are driven by the rest", "statement": "Adding a number a to the initial density and b to the initial vorticity leaves phi unchanged after every step, changes the density only by the number a*g and the vorticity only by b + a*g - a, where g is the product of the growth factors of the steps (polynomials in c1*dt; 1 with zonal=True). get_gamma_n ignores uniform offsets of density and potential.", "quantifier": "all grids, offsets, coefficients (N>=1 or nu=0), sequences of rk4_step/euler_step and states", "why_tests_cant": "A test starts from zero-mean fields or one offset; leaks of the mean into brackets, drive or potential depend on state and history.", "anchors": ["src/hw2d/model.py:HW.rk4_step", "src/hw2d/model.py:HW.euler_step", "src/hw2d/model.py:HW.gradient_2d", "src/hw2d/model.py:HW.get_phi", "src/hw2d/physical_properties/numpy_properties.py:get_gamma_n"]}
{"id": "C113", "title": "Results of the parallel Numba kernels do not depend on the schedule", "statement": "The Laplacian and the Arakawa bracket of the Numba backend run their cells on several threads. However the cells are split among the threads and however the threads' reads and writes interleave, a call ends, its result is the array the sequential definition gives, bit for bit, and the inputs are left as they were.", "quantifier": "all arrays, spacings and scalar arithmetics, all numbers of threads, all splits of the iterations and all interleavings of single reads and writes", "why_tests_cant": "A data race shows up only in some interleavings; a test run sees one of them, on one machine, with one number of threads.", "anchors": ["src/hw2d/gradients/numba_gradients.py:laplace", "src/hw2d/poisson_bracket/numba_arakawa.py:arakawa", "src/hw2d/poisson_bracket/numba_arakawa.py:jpp", "src/hw2d/poisson_bracket/numba_arakawa.py:jpx", "src/hw2d/poisson_bracket/numba_arakawa.py:jxp", "src/hw2d/poisson_solvers/numba_fourier_poisson.py:fftfreq_sq"]}
{"id": "C114", "title": "Spectrum of the Fourier noise", "statement": "Every Fourier coefficient of get_fft_noise's result is, up to one common positive factor, its random number divided by K and multiplied by a smooth band-pass filter in K, with K = |f_y|^factor + |f_x|^factor for f = waves per unit length times scale; waves shorter than min_wavelength or longer than max_wavelength are suppressed.", "quantifier": "all resolutions, sizes, scales, factors, bounds and random draws", "why_tests_cant": "The random draw hides the filter in any one sample, and the cut-off must be right for every resolution and box size.", "anchors": ["src/hw2d/initializations/fourier_noise.py:get_fft_noise", "src/hw2d/run.py:run"]}
{"id": "C115", "title": "Brackets and potentials of a stack of frames", "statement": "periodic_arakawa_vec and fourier_poisson_double on arrays of shape (..., y, x) return, for each leading index, what they return for that frame alone (as the difference operators and diagnostics do, C95), so that brackets and potentials of a whole stored time series can be computed in one call.", "quantifier": "every leading shape, every grid, every field, every spacing", "why_tests_cant": "every rank and shape; the functions return arrays without raising, and only the comparison with single frames shows what they contain", "anchors": ["src/hw2d/poisson_bracket/numpy_arakawa.py:periodic_arakawa_vec,arakawa_vec", "src/hw2d/poisson_solvers/numpy_fourier_poisson.py:fourier_poisson_double"]}
{"id": "C116", "title": "Hyperdiffusion that beats the drive extinguishes the fluctuations", "statement": "Let r=2*nu*(4*sin^2(pi/max(h,w))/dx^2)^N - |kappa| with N>=1 and c1, nu >= 0. The energy mean((n-mean n)^2-phi*omega)/2 of the fluctuations of every exact solution of the discretised equations is at most exp(-r*t) times its initial value, and k calls of rk4_step with dt<=dt0 exceed this by at most C*dt^4. If r>0, then for every eps there is a time after which, up to any horizon and for every small enough dt, both the variance of the density and -mean(phi*omega) of the simulated state are at most eps, whatever the initial state, the coupling or the bracket coefficient.", "quantifier": "every grid, backend, parameter set with N >= 1 and c1, nu >= 0, consistent initial state, eps, horizon and number of steps", "why_tests_cant": "the long-time limit over all initial states", "anchors": ["src/hw2d/model.py:HW.rk4_step", "src/hw2d/model.py:HW.diffuse"]}
{"id": "C117", "title": "The stored times tell the frames of a run apart", "statement": "The times in the file of run, and of run2 without adaptive step size, are computed in double precision and stored in single precision. The time read back for every frame differs from it*step_size by a relative error of at most 2^-24+2^-50, and the times of the frames in the file increase strictly, so that a frame can be found by its time. (Violated by runs long enough: with step size 1 and all frames recorded, frames 2^24 and 2^24+1 carry the same time. It holds for runs of at most 2^23 frames from time 0.)", "quantifier": "every run of every length, step size, snaps and recording start, every double-precision rounding within half a unit and every single-precision storage within half a unit", "why_tests_cant": "a violating run has 16 million frames; the bound must hold for each possible step size and rounding", "anchors": ["src/hw2d/run.py:run", "src/hw2d/run2.py:run", "src/hw2d/utils/io.py:create_appendable_h5"]}
{"id": "C118", "title": "The progress bar of run2 shows the chosen property", "statement": "While run2 works, its progress bar displays the value of show_property at the last recorded frame; an empty show_property switches this off; and displaying never influences results, exceptions or files. (Violated: every run displays 0 after every step, whatever the property and its recorded value; and an empty show_property makes a run that records from time 0 on raise KeyError before its first step. The last part holds.)", "quantifier": "every run of every length, all arguments, property names, file systems and solvers", "why_tests_cant": "tests do not look at the progress bar, and no finite set of runs shows that nothing depends on it", "anchors": ["src/hw2d/run2.py:run"]}
{"id": "C119", "title": "An interrupted computation of properties can be repeated", "statement": "If calculate_properties dies at any moment, every requested dataset is as before, missing, or holds the correct values of the first batches followed by zeros, and everything else is unchanged. Calling it again for the same properties completes the work: the file is then the one an uninterrupted call would have left. (Violated for force_recompute=False: the datasets already created count as existing, and the zeros stay without any message.)", "quantifier": "all files with frames, property lists, batch sizes of both calls, crash points, values of force_recompute", "why_tests_cant": "a test cannot kill the process between any two file operations; the zeros look like data", "anchors": ["src/hw2d/utils/run_properties.py:calculate_properties", "src/hw2d/utils/run_properties.py:add_data"]}
{"id": "C120", "title": "Continuing a file with another list of properties", "statement": "When run2 continues an existing file, every per-frame dataset of the file (time, the fields and every recorded full-resolution property) gains one row per newly written frame, so that row i of every dataset belongs to the same frame; a call that cannot do this refuses before touching the file.", "quantifier": "every continuing call of run2, every existing file, every list of properties of the earlier and of the later call, every buffer length and number of steps", "why_tests_cant": "The damage depends on the pair of calls: which properties were recorded when the file was made, which are listed now and in which order, and at which frame the buffer is emptied; a test continues a file with the list it was made with.", "anchors": ["src/hw2d/run2.py:run", "src/hw2d/utils/io.py:append_h5", "src/hw2d/utils/io.py:save_to_buffered_h5", "src/hw2d/utils/io.py:update_last_state"]}
{"id": "C121", "title": "Loading a result file returns exactly what was recorded", "statement": "load_h5_data(file, names) returns, for every requested dataset, the complete dataset as stored, and all attributes of the file, whatever the order and repetition of names, and changes neither this nor any other file. After a new run (run or run2 recorded from a time before its end) it returns for time, density, omega and phi all frames of the run, in order, together with all parameters of the run; after run2 also one value per frame of every requested property. A missing file raises; otherwise the first requested name that the file does not contain raises KeyError. A file made by create_fixed_h5 loads as the given number of frames of zeros for every field, without attributes, whatever was at that path before, and leaves other files untouched.", "quantifier": "every file system, file and list of names; every run, solver, initial state, number of steps, buffer length, recording start, property list, arithmetic", "why_tests_cant": "needs every history of runs and every file content; tests load a few files", "anchors": ["src/hw2d/utils/io.py:load_h5_data", "src/hw2d/utils/io.py:create_fixed_h5", "src/hw2d/run.py:run", "src/hw2d/run2.py:run"]}
{"id": "C122", "title": "The colour map of movies blends its table and has the requested number of colours", "statement": "get_extended_viridis(vals) returns vals colours: between each pair of neighbouring colours of its table of 16 a share proportional to the distance of their positions, evenly spaced and linearly blended, starting with the first of the pair and excluding the second; every component lies strictly between 0 and 1, so that matplotlib accepts all of them. A number of -8 or less is refused with ValueError.", "quantifier": "every requested number of colours up to 10^9 in size, every rounding with relative error 2^-53 (exact and double precision included)", "why_tests_cant": "the counts are truncated products of rounded differences, so each number of colours behaves differently; a test tries a few", "anchors": ["src/hw2d/utils/plot/movie.py:get_extended_viridis"]}
{"id": "C123", "title": "The movie of a simulation shows the recorded frames with their times", "statement": "create_movie, called as run() does for the file it wrote, shows the recorded density, omega and phi of every s-th frame in order from the first one on (fixed steps), or for every movie time the first recorded frame that is not earlier (adaptive steps); the time in the caption of a picture is the time of the frame it shows, the title has the parameters of the simulation, the colour limits contain all values shown, and the file is not changed.", "quantifier": "every run of either module: all fields, numbers of steps and frames, buffer lengths, speeds and frame rates; every file with the required attributes", "why_tests_cant": "the frame shown, its caption and its limits depend on the whole history of the animation and on attributes of the file; tests look at single pictures", "anchors": ["src/hw2d/utils/plot/movie.py:create_movie", "src/hw2d/utils/plot/movie.py:create_movie_equally_spaced", "src/hw2d/utils/plot/movie.py:create_movie_unequal_spaced_fine", "src/hw2d/utils/plot/movie.py:generate_title", "src/hw2d/run.py:run", "src/hw2d/run2.py:run"]}
{"id": "C124", "title": "The legend of a time trace names its curves and gives the statistics since t0_std", "statement": "plot_timetraces and plot_timetrace_comparison draw one curve for every requested property, in the given order, with the recorded value of every frame at the time of that frame; the legend names the property of the curve and gives mean and standard deviation of its values from time t0_std on; the lower panel has the curves of those properties that have full-resolution values. Without an output path each file has its own figure, named after the file and the properties.", "quantifier": "all files with any number of frames, fixed and adaptive steps, both layouts of recorded properties, all lists of properties and all t0_std", "why_tests_cant": "the first frame of the statistics depends on the length, the start and the spacing of the file in several cases; tests look at one file and cannot see what a legend claims", "anchors": ["src/hw2d/utils/plot/timetrace.py:plot_timetraces", "src/hw2d/utils/plot/timetrace.py:plot_timetrace_comparison", "src/hw2d/utils/plot/timetrace.py:process_property", "src/hw2d/utils/plot/timetrace.py:main", "src/hw2d/run.py:run", "src/hw2d/run2.py:run"]}
{"id": "C125", "title": "Images show every entry of a dictionary and the fields of a file at the requested time", "statement": "plot_dict shows every array of its dictionary in order, with its key as title; with couple_cbars all images share the smallest colour range that contains 0 and all values. image.main(file, t) shows density, vorticity (without its mean if zero_omega) and potential, with their names, of the last frame recorded not later than t; ticks mark the first, middle and last point of each axis; the figure is saved once per file type and the simulation file is not changed.", "quantifier": "all dictionaries of one- and two-dimensional arrays; all files, grids and times, every run", "why_tests_cant": "joins the frame arithmetic with what a run has recorded, for all starts and spacings", "anchors": ["src/hw2d/utils/plot/image.py:plot_dict", "src/hw2d/utils/plot/image.py:main", "src/hw2d/run.py:run"]}
{"id": "C126", "title": "A complete call of run leaves a complete file, a movie of its frames and curves of its properties", "statement": "A call run(..., movie=True, properties, plot_properties) that records from the start succeeds: the file is the one the same call without movie and figure would write; the movie shows the recorded frames in order, captioned with their times; the figure has a curve for each plotted property with one point per recorded frame: its time and the property of the fields recorded at it. For run of the second module the figure also has a panel with the properties of the fields before downsampling, and the statistics printed are mean and standard deviation from t0_std on. Movie and figure never change any file.", "quantifier": "all grids, step counts, snapshot intervals, fixed and adaptive time steps, physical parameters, property lists, frame rates; for the last sentence all arguments and file systems", "why_tests_cant": "three post-processing stages read a file whose contents depend on the entire run; the stages have to agree on time axis and names", "anchors": ["src/hw2d/run.py:run", "src/hw2d/run2.py:run", "src/hw2d/utils/plot/movie.py:create_movie", "src/hw2d/utils/plot/timetrace.py:plot_timetraces", "src/hw2d/utils/plot/timetrace.py:plot_timetrace_comparison"]}
{"id": "C127", "title": "A file that is not a complete simulation file is never continued", "statement": "Loading a simulation for continuation changes no file and succeeds exactly if the file has the three fields (a saved state or at least one frame each), at least one recorded time and the seven physical parameters. Calling run or run2 with continue_file=True on any other existing file raises and changes no file; a missing parameter raises its KeyError.", "quantifier": "all contents of the file, all arguments of the call, all file systems", "why_tests_cant": "needs every possible partial file: each dataset or attribute missing, empty datasets, foreign files", "anchors": ["src/hw2d/utils/io.py:continue_h5_file", "src/hw2d/run.py:run", "src/hw2d/run2.py:run"]}
{"id": "C128", "title": "A simulation cut into any number of continued pieces", "statement": "A run until T0 that is continued until T1, then until T2, ... until Tn leaves the file that a single run until Tn leaves: the same parameters, times, fields, properties and stored state; no call runs on forever and no other file changes.", "quantifier": "all numbers of pieces, all end times, all arguments and initial states, all grids (exact arithmetic)", "why_tests_cant": "unbounded chains of continuations: an error in what one continuation leaves for the next appears only after several of them", "anchors": ["src/hw2d/run2.py:run", "src/hw2d/utils/io.py:continue_h5_file"]}
{"id": "C129", "title": "Rounding makes the conserved means drift at most linearly", "statement": "In floating point, mean(density)-mean(omega), which a simulation in exact arithmetic conserves, moves by at most a constant times the accuracy of the arithmetic per step, as long as the fields stay below a bound: the errors add up, they are not amplified, whatever the time steps, the mixture of rk4_step and euler_step calls and the length of the simulation. With zonal=True or c1=0 this holds for each of the two means.", "quantifier": "all floating-point arithmetics with the standard error model, all sequences of steps of any length, all grids, spacings and parameters, all states", "why_tests_cant": "simulations take millions of steps: a test of short runs cannot tell linear drift from exponential growth", "anchors": ["src/hw2d/model.py:HW.rk4_step", "src/hw2d/model.py:HW.euler_step"]}
{"id": "C130", "title": "Creating a simulation stores what the caller asked for", "statement": "HW(...) accepts its ten parameters by position or by name in any order: the simulation depends only on the values given. Parameters left out are poisson_bracket_coeff=1, kappa_coeff=1, zonal=False, debug=False, TEST_CONSERVATION=True; N is truncated to an integer and nu is stored with the sign that makes the hyperdiffusion damp. A call that does not fit the signature (unknown keyword, parameter given twice, required parameter missing, too many arguments) raises TypeError, k0=0 raises ZeroDivisionError. The objects created by the run functions are those whose simulations the other properties describe.", "quantifier": "all positional and keyword arguments", "why_tests_cant": "the number of ways to pass ten arguments is not testable; a swapped or defaulted coefficient changes the physics silently", "anchors": ["src/hw2d/model.py:HW.__init__", "src/hw2d/run.py:run", "src/hw2d/run2.py:run"]}
{"id": "C131", "title": "The profile of a simulation", "statement": "Measuring time does not influence a simulation. After any sequence of rk4_step and euler_step calls, print_log shows one row for each of full_step, get_phi, diffuse, gradient_2d and poisson_bracket, from the cheapest to the most expensive call, functions never called last; time/call times the number of calls is the time, and the shares of the four parts add up to at most the 100 percent of full_step, whatever the clock shows as long as it does not run backwards.", "quantifier": "all clocks, all sequences of steps of any length, all states and parameters", "why_tests_cant": "timings differ between any two executions; a test sees one clock", "anchors": ["src/hw2d/model.py:HW.log", "src/hw2d/model.py:HW.print_log", "src/hw2d/model.py:HW.rk4_step", "src/hw2d/model.py:HW.euler_step"]}
{"id": "C132", "title": "Steps leave their arguments alone", "statement": "rk4_step and euler_step never change an array that existed before the call, although they add to arrays in place: a state shows the same values after any later steps, whether or not they started from it. The arrays of a returned state are new, and no two entries share one, so that a caller can change an entry in place without affecting any other entry or state. get_enstrophy_phi, which subtracts a mean in place, leaves its arguments alone as well.", "quantifier": "all sequences of one or more steps, all states in memory with arbitrary sharing between their entries, all parameters, both backends", "why_tests_cant": "sharing of memory shows only when somebody writes later; a test would have to compare every array in memory with a copy, for every combination of switched-off terms and every order N including 0, where diffuse returns its argument", "anchors": ["src/hw2d/model.py:HW.rk4_step", "src/hw2d/model.py:HW.euler_step", "src/hw2d/model.py:hw2d_gradient", "src/hw2d/model.py:HW.diffuse", "src/hw2d/utils/namespaces.py:Namespace", "src/hw2d/gradients/numpy_gradients.py:periodic_laplace_N", "src/hw2d/physical_properties/numpy_properties.py:get_enstrophy_phi"]}
{"id": "C133", "title": "Debug output", "statement": "Debug printing does not change a simulation; only a state whose age is an array, which steps without debugging, cannot be stepped with it (TypeError). Without it nothing is printed. With HW(debug=True) each rk4_step prints one line: the new age, the largest absolute value of the density and of its four Runge-Kutta increments; euler_step prints nothing. gradient_2d(debug=True) prints the largest absolute value and the mean of every contribution to the time derivatives; the sizes add up to a bound of the derivative and all means but that of the coupling vanish. The steps never print this list, because they do not pass the flag on.", "quantifier": "all sequences of steps, all states, grids, parameters, switched-off terms, both backends", "why_tests_cant": "that an output is complete and harmless concerns every state and every combination of terms; tests do not look at printed numbers", "anchors": ["src/hw2d/model.py:HW.rk4_step", "src/hw2d/model.py:HW.euler_step", "src/hw2d/model.py:HW.gradient_2d", "src/hw2d/model.py:hw2d_gradient"]}
{"id": "C134", "title": "The file of a floating-point run approximates the solution of the equations", "statement": "A run to a new file, computed in floating-point arithmetic and stored in single precision, started from rounded samples of a smooth solution of the Hasegawa-Wakatani equations, returns normally, writes int((end_time - 0)/step_size)/snaps + 1 frames, and the arrays read back from frame j >= 1 differ from the solution at time j*snaps*step_size by at most C (dx^2 + v) in root mean square and C (dx + v) at every point, where v is the relative error of storing a number and C does not depend on grid, step size, arithmetic or file options.", "quantifier": "all smooth solutions, grids, small enough step sizes, floating-point arithmetics accurate enough for the step size, buffer lengths, snaps and recording options without downsampling, all frames", "why_tests_cant": "the claim joins physics, discretisation, rounding of every operation and the storage format, for every grid and step size; a test sees one file", "anchors": ["src/hw2d/run.py:run", "src/hw2d/model.py:HW.rk4_step", "src/hw2d/utils/io.py:append_h5"]}
{"id": "C135", "title": "The file of a floating-point call of run2 approximates the solution of the equations", "statement": "A call of run2 to a new file, computed in floating-point arithmetic and stored in single precision, with either coupling (zonal or not), fixed or adaptive time bookkeeping, any recording_start_time and any computable properties, started from rounded samples of a smooth solution of the Hasegawa-Wakatani equations, leaves its loop; the file holds one frame per recorded step k, stamped with the computed time, which is within 3*theta*k*step_size of k*step_size (theta: accuracy of np.sum and of one operation); the arrays read back from the frame of step k >= 1 differ from the solution at time k*step_size by at most C (dx^2 + v) in root mean square and C (dx + v) at every point, where v is the relative error of storing a number and C does not depend on grid, step size, arithmetic or file options.", "quantifier": "all smooth solutions (original and modified equations), grids, small enough step sizes, floating-point arithmetics accurate enough for the step size, buffer lengths, snaps, recording start times, property lists, all frames", "why_tests_cant": "the claim joins physics, discretisation, rounding of every operation, the time bookkeeping and the storage format, for every grid and step size; a test sees one file", "anchors": ["src/hw2d/run2.py:run", "src/hw2d/model.py:HW.rk4_step", "src/hw2d/utils/io.py:append_h5"]}
{"id": "C136", "title": "Continuing a file repeats the interrupted computation bit for bit", "statement": "A call of run2 that continues a file with stored full-resolution states appends exactly the frames of the steps after the one at which the states were stored, bit for bit, in every arithmetic (floating-point included); if the frames of the first run fill the buffer a whole number of times, fields and properties of the continued file are bit for bit those of an uninterrupted run and only the time stamps may differ in the last digits (the start time is read back in single precision). No frame is written twice.", "quantifier": "all arithmetics, simulations whose arrays do not depend on the age, first runs, numbers of further steps, buffer lengths, properties", "why_tests_cant": "bit-for-bit equality in floating-point arithmetic for every pair of calls; a test compares two files of one machine up to a tolerance", "anchors": ["src/hw2d/run2.py:run", "src/hw2d/model.py:HW.rk4_step", "src/hw2d/utils/io.py:continue_h5_file"]}
{"id": "C137", "title": "A continued floating-point file approximates the equations", "statement": "For a run of run2 in floating-point arithmetic that stores its states and a second call that continues its file, the frames appended approximate the solution of the Hasegawa-Wakatani equations at the times with which they are stamped, with the same error bound as the frames of an uninterrupted run: C(dx^2 + v) in root mean square, v the storage precision; the time stamps are accurate up to rounding.", "quantifier": "all smooth solutions, grids, backends, floating-point arithmetics, step sizes below a bound, buffer lengths, both end times", "why_tests_cant": "the bound compares two successive calls, through a file in single precision, with a partial differential equation, for every grid and precision", "anchors": ["src/hw2d/run2.py:run", "src/hw2d/model.py:HW.rk4_step", "src/hw2d/utils/io.py:continue_h5_file", "src/hw2d/utils/io.py:append_h5"]}
{"id": "C138", "title": "The fluxes and energies of a floating-point run approximate those of the equations", "statement": "The particle fluxes, energies and enstrophies that run2 records, when both the simulation and the property functions are evaluated in floating-point arithmetic, are within C dx^2 of the corresponding averages of the solution of the Hasegawa-Wakatani equations at the recorded times, with one constant for all grids and all sufficiently accurate arithmetics; on any arrays, each property function differs from its exact value by at most a constant times the precision.", "quantifier": "all smooth solutions, grid sizes, backends, floating-point arithmetics, step sizes below a bound, recorded steps, the eight property names", "why_tests_cant": "the bound compares rounded numbers with integrals of a partial differential equation, for every grid and precision", "anchors": ["src/hw2d/physical_properties/numpy_properties.py:get_gamma_n", "src/hw2d/physical_properties/numpy_properties.py:get_gamma_c", "src/hw2d/physical_properties/numpy_properties.py:get_energy", "src/hw2d/physical_properties/numpy_properties.py:get_enstrophy", "src/hw2d/physical_properties/numpy_properties.py:get_enstrophy_phi", "src/hw2d/run2.py:run", "src/hw2d/model.py:HW.rk4_step"]}
{"id": "C139", "title": "Quantities computed from a stored floating-point file approximate those of the equations", "statement": "The fluxes, energies and enstrophies that calculate_properties computes at the end of run and run2 from the rounded frames in the file are within C dx^2 of the corresponding averages of the solution of the Hasegawa-Wakatani equations at the times of the frames, with one constant for all grids, provided arithmetic, storage and property functions are accurate enough for the grid.", "quantifier": "all smooth solutions, grid sizes, backends, floating-point arithmetics, storage precisions and step sizes below a bound, frames, the eight property names", "why_tests_cant": "the bound compares numbers computed from rounded stored arrays with integrals of a partial differential equation, for every grid and precision", "anchors": ["src/hw2d/utils/run_properties.py:calculate_properties", "src/hw2d/run.py:run", "src/hw2d/run2.py:run", "src/hw2d/physical_properties/numpy_properties.py:get_gamma_n", "src/hw2d/physical_properties/numpy_properties.py:get_energy"]}
{"id": "C140", "title": "Continuing a file of run repeats the interrupted computation bit for bit", "statement": "Calling run with continue_file on a file with stored full-resolution states appends, bit for bit and whatever the arithmetic, the fields of the steps after the one at which the states were stored, so that a file whose buffer was filled a whole number of times has the same fields as that of an uninterrupted run, with the same times.", "quantifier": "all arithmetics, schemes, grids, step sizes, buffer lengths, recording intervals, interruption times and numbers of further steps", "why_tests_cant": "a test compares two files of one configuration; the claim is about every interruption and buffer length", "anchors": ["src/hw2d/run.py:run", "src/hw2d/utils/io.py:continue_h5_file", "src/hw2d/utils/io.py:append_h5", "src/hw2d/utils/io.py:update_last_state"]}
{"id": "C141", "title": "A continued floating-point file of run approximates the equations", "statement": "The frames a call of run with continue_file appends, in rounded arithmetic and stored in single precision, approximate the solution of the Hasegawa-Wakatani equations at the times of the continued computation, as accurately as those of an uninterrupted call, and are stamped with these times.", "quantifier": "all smooth solutions, grids, accurate arithmetics, step sizes below a bound, buffer lengths, recording intervals, interruption times", "why_tests_cant": "a test compares one continued file with one reference; the claim is about every solution, grid and interruption", "anchors": ["src/hw2d/run.py:run", "src/hw2d/utils/io.py:continue_h5_file", "src/hw2d/utils/io.py:append_h5"]}
{"id": "C142", "title": "The properties of a continued file of run cover all its frames and approximate the equations", "statement": "After run has continued a file, the dataset of every requested property has one number for each frame of the file, written by the first or the second call, computed from the fields of that frame, in every arithmetic. In accurate floating-point arithmetic these numbers approximate the physical quantities of the solution of the equations at the times of the steps the frames show.", "quantifier": "all arithmetics, simulations, buffer lengths, recording intervals, interruption times, property lists; for the accuracy: all smooth solutions, grids and accurate arithmetics", "why_tests_cant": "a test looks at one file and one list of properties; the claim is about every interruption and every list", "anchors": ["src/hw2d/run.py:run", "src/hw2d/utils/run_properties.py:calculate_properties", "src/hw2d/utils/io.py:continue_h5_file", "src/hw2d/utils/io.py:append_h5"]}
{"id": "C143", "title": "The properties of a continued file of run2 cover all its frames and approximate the equations", "statement": "After the current run command has continued a file, both datasets of every requested property - the one recorded during the simulation and the one computed from the file afterwards - have one number for each frame of the file, written by the first or the second call, and that number belongs to the fields of that frame, in every arithmetic. In accurate floating-point arithmetic both numbers approximate the physical quantity of the solution of the equations at the time of the step the frame shows.", "quantifier": "all arithmetics, simulations, buffer lengths, recording intervals, interruption times, property lists; for the accuracy: all smooth solutions, grids and accurate arithmetics with the original coupling", "why_tests_cant": "a test looks at one file and one list of properties; the claim is about every interruption and every list", "anchors": ["src/hw2d/run2.py:run", "src/hw2d/utils/run_properties.py:calculate_properties", "src/hw2d/utils/io.py:continue_h5_file", "src/hw2d/utils/io.py:append_h5"]}
{"id": "C144", "title": "The colour limits of a movie return to the size of the data", "statement": "In every animation the colour limit of a field is the largest absolute value of the frame or, if that is larger, the mean of this value and the previous limit. Hence, if the values of the frames stay below m, the excess of the limit over m is at least halved with every frame, from all initial limits. The other rule of the file, new_cbar_max, has the same effect.", "quantifier": "all files, frame lists, fields, initial limits; all pairs of numbers for the other rule", "why_tests_cant": "a test looks at a few pictures; the claim is about every length of movie and every history of limits", "anchors": ["src/hw2d/utils/plot/movie.py:new_cbar_max_smooth", "src/hw2d/utils/plot/movie.py:new_cbar_max", "src/hw2d/utils/plot/movie.py:create_movie"]}
{"id": "C145", "title": "The budgets of energy and enstrophy can be checked from the file", "statement": "In the file of a call of either run command (snaps: steps between frames; run2 records the properties, run computes them from the file), the enstrophy grows between any two frames by at most the time integral of kappa_coeff*gamma_n, and the thermal plus kinetic energy (original coupling) by at most that of kappa_coeff*gamma_n - gamma_c, and without viscosity by exactly these amounts, up to C (snaps step_size)^2. The integrals are trapezoidal sums over the recorded values themselves. C depends on the parameters, the initial fields and the time span only.", "quantifier": "all parameters with nonnegative viscosity, initial fields, square grids, small enough step sizes, pairs of frames, property lists", "why_tests_cant": "a test compares one run with a tolerance; the claim is about every simulation and every small step size, with a rate", "anchors": ["src/hw2d/run2.py:run", "src/hw2d/physical_properties/numpy_properties.py:get_gamma_n,get_gamma_c,get_enstrophy,get_energy_N_spectrally,get_energy_V_spectrally"]}
{"id": "C146", "title": "The properties of one frame fit together", "statement": "In every frame of a result file the stored properties are the (rounded) values of quantities with: energies, enstrophies and, for c1 >= 0, gamma_c are not negative; thermal_energy <= energy <= thermal_energy + kinetic_energy; |gamma_n| <= energy; gamma_n^2 <= 4 thermal_energy kinetic_energy, and on even grids the same for gamma_n_spectral. This holds for the values recorded during a run and for those computed from any file with square fields, whatever the simulation computed.", "quantifier": "all calls of run2 that create a file (any solver, stopped by a NaN or not), all files with square fields, property lists, batch sizes, frames", "why_tests_cant": "the inequalities must hold for every field on every grid and for every frame; tests look at a few fields", "anchors": ["src/hw2d/run2.py:run", "src/hw2d/utils/run_properties.py:calculate_properties", "src/hw2d/physical_properties/numpy_properties.py:get_gamma_n,get_gamma_n_spectrally,get_gamma_c,get_energy,get_energy_N_spectrally,get_energy_V_spectrally,get_enstrophy,get_enstrophy_phi"]}
{"id": "C147", "title": "The recorded energy and enstrophy grow at most like the instability drives them", "statement": "In the file of a call of either run command with nonnegative coupling and viscosity, the recorded (run2) or computed (run) thermal plus kinetic energy of a frame at time t is at most exp(|kappa_coeff| t) times that of the initial fields, and the recorded enstrophy at most the initial one plus (exp(|kappa_coeff| t) - 1) times the initial energy, up to C step_size^4. C depends on the parameters, the initial fields and the time span only.", "quantifier": "all parameters with c1, nu >= 0, both couplings, initial fields, square grids, small enough step sizes, numbers of steps between frames, frames, property lists", "why_tests_cant": "a bound for every simulation and every small step size, with a rate; a test sees one run", "anchors": ["src/hw2d/run2.py:run", "src/hw2d/physical_properties/numpy_properties.py:get_enstrophy,get_energy_N_spectrally,get_energy_V_spectrally", "src/hw2d/model.py:HW.rk4_step"]}
{"id": "C148", "title": "The means of density and vorticity in the file follow from the initial fields", "statement": "In the file of a call of either run command, the difference between the mean of the density and the mean of the vorticity is the same in all frames. With zonal coupling or c1 = 0 both means are the same in all frames; otherwise the mean density is multiplied in each step by 1 - z + z^2/2 - z^3/6 + z^4/24 with z = c1 step_size. Downsampling does not change the means.", "quantifier": "all parameters (viscosity of order at least 1 or none), initial fields, square grids, step sizes of any size, numbers of steps between frames, frames, downsampling factors, both run commands", "why_tests_cant": "a conservation law for every frame of every run, whatever the fields do; a test sees one run and finite precision", "anchors": ["src/hw2d/run.py:run", "src/hw2d/run2.py:run", "src/hw2d/model.py:HW.rk4_step", "src/hw2d/utils/downsample.py:fourier_downsample"]}
{"id": "C149", "title": "The coupling term limits the step size", "statement": "In the file of a call of either run command without zonal coupling: if c1 step_size <= 2.78 the mean of the recorded density never exceeds the initial one in size; if c1 step_size <= 1 it is exp(-c1 t) times the initial mean up to c1 t (c1 step_size)^4 / 100; if c1 step_size >= 2.8 and the initial mean is not zero, the frame after n steps contains a density of size at least 1.02^n times the initial mean.", "quantifier": "all parameters (viscosity of order at least 1 or none), initial fields, square grids, step sizes, frames, downsampling factors, both run commands", "why_tests_cant": "the limit separates all step sizes and all run lengths; a test tries a few", "anchors": ["src/hw2d/run.py:run", "src/hw2d/run2.py:run", "src/hw2d/model.py:HW.rk4_step"]}
{"id": "C150", "title": "The sine start is a smooth periodic field", "statement": "With init_type='sine' the values of the initial fields at neighbouring grid points, also across the edges of the periodic box, differ by at most 2 pi dx init_scale.", "quantifier": "all grids, k0, init_scale, fields", "why_tests_cant": "the claim is about all grid resolutions; a test looks at one grid, and a jump at one pair of columns is easily missed", "anchors": ["src/hw2d/run.py:run", "src/hw2d/run2.py:run", "src/hw2d/initializations/sine.py:get_2d_sine"]}
{"id": "C151", "title": "Enough viscosity extinguishes the recorded transport", "statement": "In the file of a call of run2 the recorded, and in that of a call of run the computed, kinetic energy and size of the particle flux are at most exp((|kappa| - 2 r) t) times the initial fluctuation energy (thermal plus kinetic energy minus half the squared mean density), up to C step_size^4, where r = nu (4 sin^2(pi/grid_pts)/dx^2)^N is the slowest damping rate. If 2 r > |kappa|, both fall below any bound after some time.", "quantifier": "all backends, parameters with N >= 1 and non-negative coupling and viscosity, initial fields, square grids, time horizons, small enough step sizes, snapshot intervals, buffer lengths", "why_tests_cant": "a statement about all initial fields and all late times; a test sees one decay", "anchors": ["src/hw2d/run2.py:run", "src/hw2d/model.py:HW.rk4_step", "src/hw2d/physical_properties/numpy_properties.py:get_energy_V_spectrally", "src/hw2d/physical_properties/numpy_properties.py:get_gamma_n"]}
