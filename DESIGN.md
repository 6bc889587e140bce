# Formal model of marchdf/dg1d in Lean 4 — design

## What is being verified

dg1d is a Python/numpy one-dimensional Discontinuous Galerkin solver. The properties are listed in
`properties.jsonl` (C01…). The model is written in Lean 4 under `lean/Verif/Model`, specifications
that do not depend on the model under `lean/Verif/Spec`, helper lemmas under `lean/Verif/Proofs`, and the
property theorems (only those, plus the non-vacuity examples) under `lean/Verif/Props`.

## Modelling decisions (apply everywhere)

* **Numbers.** Python/numpy floats become elements of an ordered field `K` (or `ℝ` where square roots,
  powers, integrals occur). Rounding, overflow and signed zeros are *not* modelled: every numeric theorem is
  about exact real arithmetic, except C81–C83 (clock and outputs with rounding, `Model/FloatClock`) and C104 (`residual` and `classic_rk` of linear
  advection with rounding, `Model/Rounded`). `NaN`/`inf` are modelled only where the control flow looks at them (the wave
  speed and the CFL step, `Model/Rk.lean`; the Godunov iteration), and throughout Euler runs in `Model/Nan` (C106).
* **Arrays.** A 2-D numpy array is `Arr K` = shape + entry function; a 1-D array is `Vec K`. Slices with
  negative bounds are resolved by `pyIdx`, the model of Python's slice normalisation. The flat column layout
  `cell*N_F + field` of the code is kept; nothing is re-indexed.
* **Exceptions** (`sys.exit`, `StopIteration`, `IndexError`, …) are values of `PyErr` in `Except`.
* **Mutation.** A method that mutates `self` returns the new object. `copy()`/`copy_data_only` are the
  identity / a field update. A second model of the integrators (`Model/Heap`) has objects and arrays in a store, with the in-place
  updates of the code; C91 shows that both give the same results.
* **Loops.** `for` loops are structural recursion / folds; the `while not done` loop of the integrators is
  iterated `loopBody`, a theorem (C02) shows it stops.
* **External functions** are parameters or definitions with a recorded contract:
  `leggauss` (Gauss rule: distinct nodes, exact to degree 2n-1), `np.linalg.inv` (a two-sided inverse or an
  error), `legfit` at p+1 distinct points (interpolation), numpy `Legendre` objects (the polynomial they
  denote), float/int formatting and parsing (parse ∘ format = id).

## Trusted base

Lean's kernel; Mathlib (whose theorems are kernel-checked); the axioms `propext`, `Classical.choice`,
`Quot.sound` (listed per theorem at the end of this file); the faithfulness of the model definitions, each
citing the lines of /repo it models; the contracts of the external functions above.

## What is modelled, function by function

Each Lean definition cites its lines; this table is the map in the other direction. "all" means every statement
that affects the result; `print` statements are left out of the function models and collected in `Model/Log`.

| /repo | Lean (`lean/Verif/Model`) | remarks and simplifications |
|---|---|---|
| `main.py:57-86` | `Main`: `start`, `solve`, `program`, `dgInit` | deck → constructor → limiter → first limiting → solver → integrate → files. Command line and git call are in `Entry` (`mainPy`; of words with a leading dash only `-d` and `--deck`); the console output (`Log`) is modelled for runs of any deck with a valid initial condition, with the git version and the elapsed time as arguments. In the model the files are written after the run from the log of printer calls; each record carries the solution at the moment of the call, so the contents are the same |
| `deck.py` `parser`, `write_deck` | `Deck`: `Deck.init`, `entry`, `parseLines`, `parser`, `writeDeck` | all. Text is a list of characters, newline translation of text mode included. `int()` accepts ASCII digits, sign and blanks; single underscores between digits are accepted, too; non-ASCII digits and the 4300-digit limit are not modelled. `float()` is the parameter `FloatText` |
| `constants.py` `init` | `Construct`: `gammaInit` | the module global is an explicit argument and result |
| `helpers.py` | `Helpers` | `makedir` (called nowhere in the repository) on a tree of files and directories; `os.path.exists`, `os.mkdir`, `os.makedirs` are modelled by hand after the Python library (part of the trusted base): no links, permissions, races, absolute paths, `.` or `..` |
| `solution.py:29-118` constructor, `set_manipulation_functions` | `Construct`: `construct`, `emptySolution`, `finishConstruct`, `manipulationFunctions`, `callKeyword` | all, with the `except` clauses; which exceptions are caught is `PyErr.isException` |
| `solution.py:121-165, 223-225` `printer`, `format_fnames` | `IO`: `Sol.printer`, `Sol.header`, `Sol.fieldFile`, `Sol.writeSensors`, `formatFnames` | all, down to the characters, number formatting through `FloatText` |
| `solution.py:168-220` `loader` | `IO`: `Sol.loader`, `parseHeader`, `loadtxt`, `storeField` | all. `np.loadtxt`/`np.savetxt` are modelled for the arguments used here. A negative step number in a header is read as 0 (the step counter is a natural number in the model; the printer never writes one) |
| `solution.py:228-472` initial conditions | `InitialConditions`, `Construct`: `runSetup`, `runScktube`, `scktubeParams` | all seven; decimal literals are exact |
| `solution.py:475-517` `setup_common_ic`, `populate` | `Construct`: `setupCommonIc`, `populate`, `centroids` | all. For a negative `N_E` numpy raises, as in the model; for `N_E = 0` the step `dx` is NaN in the code and a number in the model, which no theorem uses. `np.empty` holds arbitrary numbers (`junk`) |
| `solution.py:520-543` ghosts | `Solution`: `addGhosts`, `applyBcLeft`, `applyBcRight`, `applyBc` | all. `is 'periodic'` compares identities: strings carry an `interned` bit (`PyStr`); equal interned strings are the same object (CPython) |
| `solution.py:546-596` | `Solution`: `copyDataOnly`, `smartAxpy`, `collocate`, `collocateFaces`, `evaluateFaces`; `Physics` | `copy` is a deep copy, which also rebinds the bound methods in `keywords`: the identity on values. The dispatch `riemann`/`interior_flux`/`max_wave_speed` goes through the record `Physics` filled in by `construct` |
| `basis.py` | `BasisInit`: `Basis.init`, `basisValue`, `basisDeriv`, `Basis.projection`, `shiftedXgauss`, `shiftLegendrePolynomial`, `integrateLegendreProduct`, `legval`, `legder`, `castWindow` | all, including numpy's Clenshaw recursion and derivative recursion. `leggauss` is the parameter `GaussLib` with contract `GaussLib.Ok`; `legfit` is characterised as the least squares fit it computes |
| `dg.py` | `Dg`: `residual` and one definition per method | all. The work arrays of the object are recreated at each call (each is overwritten completely by the code before use). `Checked`: `checkedResidual` is `residual` stopped where `euler_physics.interior_flux` divides by a density of zero (used by C99) |
| `advection_physics.py` | `Advection` | all. The sensor's indicator divides by zero for zero data; NaN compares false, which is what the model does |
| `euler_physics.py` | `Euler`: `maxWaveSpeed`, `rusanov`, `roe`, `godunov`, `massflux`, `sonic`, `interiorFlux`, `sensing` | all. A solver call whose square roots or divisions leave the reals ends with `PyErr.notReal` (the code goes on with NaN; `Model/Nan` does too, for `rusanov` and `roe`). A NaN sound speed of one side only switches off Roe's entropy fix there, as in the code (`fixedSpeed`). `interiorFlux` at zero density and the sensor at nonphysical states use the field's total division; no theorem is about those states. The Godunov iteration is capped at the code's iteration limit |
| `enhance.py` | `Enhance`, `Solution`: `faceArr`, `faceValue` | all. `np.linalg.inv` is the exact inverse or an error; mode lists are sorted like in the code |
| `limiting.py` | `Limiter`; for data with NaN `NanLimiter` | all. `np.math.factorial` is assumed to exist. `NanLimiter` takes the sensor's flags as given and has the Euler sensor for runs (`limitGas`); its `sorted` is CPython's binary insertion sort up to 3.12 |
| `sensor.py` | `Limiter`: `Sensor.init`, `Sensor.sensing`; `Construct`: `sensorsOf` | all |
| `rk.py` | `Rk`, `Integrate`, `FloatClock`, `Heap` | all: both integrators, CFL step, sanity check, output adjustment, dispatch |
| `rk_coeffs.py` | `RkCoeffs` (generated by `tools/gen_rk_coeffs.py` from the text of the file) | all 8 tables, digit by digit, as exact rationals |
| `analysis/dg_stability.py` | `DgStability`, `StabilityCurves` | the matrices of the standard and the enhanced scheme, the matrix whose eigenvalues line 215 asks for, `get_eigenvalue`. `eigvals` is a parameter with its contract (the roots of the characteristic polynomial with multiplicity). Plots are not modelled |
| `analysis/rk_stability.py` | `Stability`, `StabilityCurves` | the reformatted table, the stability function, the polynomial and its roots, the samples. `np.roots` is a parameter with its contract. The contour plotter is not modelled |
| `analysis/aux_functions.py` | `DgStability.delta`, `StabilityCurves.sortRootsAngle` | equal angles keep their order |
| `regressions/regressions.py` | `Regressions`, `Entry` | removal of old files, the run, the comparison with the golds (`np.loadtxt`, `npt.assert_array_almost_equal` with its shape rule). Return codes are dropped by the script. How the program is started and the log file are in `Entry` (the shell splits at blanks only; that the pipe for messages could fill up is not modelled), the figures in `Plot`. The six `deck.inp` are in `Props/Regressions` |
| `tests` | `Props/UnitTests` | values the unit tests assert, as theorems about the model |
| `advection_convergence` | `Study` | all of `run.py` down to two levels of directories, with the search of the shell for the program (blanks are the only special characters, no symbolic links); of `plot.py` the listing, the errors, the rates, both curves of the first figure and the timers. The looks of the plots are not modelled; the logarithm of a zero error is not represented |
| `dg1d/plot.py`, `regressions/plot.py` | `Plot`, `PlotCurve` | the coordinates of all markers. For `regressions/plot.py` also the curves of `exact.txt`, the sensor figure and which figures are saved. The sine curve of `dg1d/plot.py` is in `PlotCurve`. Colours and windows are not modelled |

## Known gaps between the model and the program

* No rounding, overflow, signed zero, except in C81–C83 and C104. A theorem "the clock is exactly `finaltime`" is about exact arithmetic;
  C81–C83 treat clock and output control with rounding (`Model/FloatClock`, CFL steps arbitrary; overflow still excluded).
  C104 treats the coefficients of linear advection with rounding (`Model/Rounded`): the steps are given, overflow is excluded, and
  the accuracy of the stored tables (`leggauss`, `basis.py`, `rk_coeffs.py`) is a hypothesis (`Stored`, `StoredTable`).
* NaN and inf exist only in `Fl` (CFL step), as `PyErr.notReal`, and in `Model/Nan` (C106): residual, integrators and main loop of Euler runs on
  reals with NaN, without `godunov` and enhancement. There `np.dot` is taken to give NaN for a product of zero and NaN, and a division
  by zero gives NaN (in the code an infinity that the next operations turn into NaN). `Model/NanLimiter` does the same for the
  limiter, with arbitrary flags (C109) and with those of the Euler sensor in runs (C111).
* No aliasing outside `Model/Heap` (C91). In the store model, arrays that the code never changes in place (`basis`, `x`, `scaled_minv`,
  enhancement vectors) are values, and views (`uf[1, :-N_F]`, the flux of `riemann_upwinding`) are read at once.
* Memory, time limits, warnings and interrupts do not exist.
* The file system is a map from names to contents; permission errors and missing directories do not occur.
* `leggauss` returns exact nodes and weights under `GaussLib.Ok`; that `GaussLib.Ok` can be
  met is shown beside the theorems that use it.

## How the theorems are stated

* `Spec` files import no model file. They hold the textbook objects: Legendre polynomials by recursion, Butcher
  trees, Euler flux and primitive variables, DG weak form, hierarchical reconstruction, wave relations.
* Each file in `Props` contains the claimed theorems and, after each, an `example` on concrete data that meets
  the hypotheses.
* Where the code does not have the property, the negation is proved on a concrete input and the true part is a theorem with suffix `_partial`; the manifest says "partial".
* `Props/UnitTests.lean` runs some of the program's own unit tests on the model, with the numbers of `tests/*.py`. They test the model; no claim rests on them.
* `seeded/LOG.jsonl` records wrong versions of the model and the theorems that stopped them.

## Plan per property

| id | model | proof |
|---|---|---|
| C01 | `Model/Rk`: `adjustForOutput`, `getNextTimeStep`, `loopBody`, `run` | invariant over iterations |
| C02 | same | decreasing measure, explicit bound |
| C03 | same + `linspace` | invariant under hypothesis "CFL step ≤ spacing" (`_partial`) + counterexample run |
| C04 | same, output log | invariant over iterations, abort included |
| C05 | `classicRk` / `lowStorageRk4` loop bodies | step-by-step equality, then induction on steps |
| C06 | `rkStages`, `smartAxpy`, tables | induction over stages; all table entries checked |
| C07 | `Model/RkCoeffs` (tables transcribed digit by digit) | kernel computation over the whole tables |
| C08 | spec: rooted trees, density, elementary weight | all trees up to the order enumerated (lemma that enumeration is complete) |
| C09 | spec: polynomial in a linear operator | stage recursion = Horner, uses C06 |
| C10 | `Model/Stability`: matrix `I - zB + z e cᵀ` | matrix determinant lemma, triangular determinant |
| C11 | `integrate` dispatch | case analysis over all strings |
| C12 | `cflTimeStep`, `sanityCheckDt` | direct + loop body inversion |
| C13 | `Model/Dg` on `Arr` | slice arithmetic; spec in terms of Legendre polynomials and cell polynomial |
| C14 | same | telescoping sum |
| C15 | `Dg`+`Rk`+`Limiting` | invariant of `loopBody` |
| C16 | same | quadrature exactness, consistency of fluxes, invariant |
| C17 | `Dg`,`Enhance` | non-interference |
| C18 | `Dg`,`Rk` | equivariance, induction over steps |
| C19, C20 | `Dg`, advection | integration by parts for polynomials |
| C21 | `Rk`,`Limiting` | non-interference; counterexample for the limiter half |
| C22–C25 | `Model/Basis`, spec Legendre by Bonnet recursion | induction, orthogonality, interpolation uniqueness |
| C26, C27 | `Model/Solution` | slice arithmetic |
| C28 | initial condition functions | real inequalities |
| C29, C30 | constructor with global gamma and exceptions | state machine over histories; counterexamples |
| C31–C34 | `Model/IO`, text level | injectivity of decimal numerals, round trip, string identity bit |
| C35, C36 | `Model/Deck` | induction over lines |
| C37–C47 | `Model/Euler` | real algebra (`field_simp`, `nlinarith`) |
| C48–C51 | `Model/Sensor` | pointwise characterisation; counterexamples |
| C52–C60 | `Model/Limiting` | algebra of Taylor coefficients |
| C61–C64 | `Model/Enhance` | linear algebra, polynomial identities |
| C65 | `Model/Stability`, `Model/DgStability` + `Dg` | C13 + Legendre integrals |
| C66 | `Model/Limiter` | the defining recursion of the reconstruction, uniqueness by induction on the degree |
| C67 | `Model/Construct` | symbolic execution of the constructor |
| C68 | `Model/DgStability` | energy identity for a wave, as a quadratic form |
| C69, C70 | `Model/Main` | composition of C67, C26, C60, the run invariant and the printer |
| C71–C73 | `Model/Main` | run invariant + totality of each operation under it + strict progress of the clock |
| C74 | `Model/Rk`, `Model/Dg` | relational invariant between three runs, every operation is linear |
| C75 | `Model/Rk`, `Model/Dg`, `Model/Main` | C19 (dissipativity), an explicit operator bound by Cauchy–Schwarz, third order Taylor step of a dissipative operator, C09 |
| C76 | `Model/Rk`, `Model/Dg`, `Model/Euler` | C06 for residuals that may fail, C13 (weak form), Taylor series of the exact flow against the elementary differentials of the step (order conditions of C08) |
| C77 | `Model/Rk`, `Model/Dg`, `Model/Main` | C76 uniformly along the solution, local Lipschitz bound near it, discrete Gronwall; for advection the exponential of the linear right-hand side |
| C78 | `Model/Rk`, `Model/Dg`, `Model/Main`, `Spec/L2Error` | projection of the wave that the DG operator differentiates up to O(dx^(p+1)); energy stability of each rk3 step (C75); Taylor in time; sum over the steps; start from the quadrature projection (C24, C69) |
| C79 | `Model/Rk`, `Model/Dg`, `Spec/Variation` | the residual is the upwind difference; a forward Euler step is an average; the schemes are convex combinations of powers of it; convex sets and induction over the run; sharpness by expanding one step on a pulse |
| C80 | `Model/Rk`, `Model/Dg`, `Model/Euler`, `Model/Enhance` | symmetric Gauss nodes and weights from exactness; fluxes and wave speeds for all states, also those where the code gets NaN; relational simulation of the two runs with the relation "mirror image" |
| C81 | `Model/FloatClock`, `Props/FloatClock` | clock and output control with rounding after every operation; invariant linking output number, output time and iterator; refinement from `Scheme.run` for `rnd = id` |
| C82 | `Spec/Binary64`, `Proofs/Binary64`, `Proofs/FloatTimes`, `Props/FloatClock` | binary64 as a set, rounding as nearest element; monotonicity, Sterbenz, error bound; invariant `t <= tout`; explicit tie for the counterexample |
| C83 | `Proofs/FloatTimes`, `Props/FloatClock` | potential `t + 129 nout` grows by `2^-49` per iteration; grid argument at 128 for the counterexample |
| C84 | `Model/Regressions`, `Spec/Regressions`, `Props/RegressionTests` | `launch` as file removal, program, comparison; with two outputs set 1 exists iff the loop is done (clock invariants); reading a printed file gives the table; `assert_array_almost_equal` on equal shapes is entrywise |
| C85 | `Model/Study`, `Props/Study` | round trip of the written deck (C35), termination (C71), output times by C03 as the CFL step is at most 1/2, file contents by C70 and the reader of C84; sums over lists for the norms; telescoping logs for the rates |
| C86 | `Model/StabilityCurves`, `Spec/StabilityCurves`, `Props/StabilityCurves` | the symbolic determinant evaluates to the stability function (C10), hence equals the amplification polynomial; lists of coefficients as polynomials; number of roots over the complex numbers; the column-wise reshape and the sort are permutations; C68 for the real parts |
| C87 | `Model/Plot`, `Spec/Plot`, `Props/Plot` | the round trip of C33 into the tool's empty object; tables of the basis (C22) turn the matrix products into values of the cell polynomials; entries of strided column slices; the sensor file is re-read line by line |
| C88 | `Spec/Units`, `Proofs/Units*`, `Props/Units` | the change of units is a map on arrays scaling column c by a factor of c mod 3; every operation of a step commutes with it (fluxes are homogeneous, sensor ratios are free of units); induction on the loop. Godunov: a head-on collision with exact iterates, by injectivity of the pressure map |
| C89 | `Spec/Positivity`, `Proofs/Positivity`, `Props/Positivity` | the physical states are a convex cone that contains a u ± f(u) for a above the signal speed; the update is a combination of such terms with positive factors (for higher order by the rule with end points); Roe: exact rational flux of a symmetric expansion |
| C90 | `Spec/RungeKutta` (`NearOrder`), `Proofs/OrderTable`, `Proofs/NearOrder`, `Props/NearOrder` | table of the weights of all unordered trees, as integers over the common denominator modulo a number larger than any of them, evaluated by the kernel; every ordered tree is in the table because adding branches commutes; tree series of the step and of the exact solution for the local error |
| C91 | `Model/Heap`, `Spec/Heap`, `Proofs/Heap`, `Props/Heap` | second model of the integrators with a store; separation invariant with a frame; each primitive write keeps it, then refinement operation by operation, stage by stage, iteration by iteration |
| C92 | `Model/Study`: `StudyDisk`, `StudyEnv.runcode`, `StudyEnv.script`, `plotOrder`, `theory`, `plotScript` | closed form of one order (induction over the resolutions), then of the list of orders; sorting by uniqueness of sorted permutations; errors from C85 |
| C93 | `Model/Log`: `runLog`, `getTimer`, `timerOf` | lines of a concatenation of lines; `seconds` excluded by the pair `ds`; words of the last line; value of the decimal text |
| C94 | `Model/Entry`: `parseArgs`, `mainPy`, `RegEnv.launch` | induction on the command line (pairs of option and value); the program does not look at files that are not its deck: relation of directories that agree but for one name through every `printer` call |
| C95 | `Model/Plot`: `regressionPlot`, `exactCurves`, `regressionSensors` | C87 for the averages, the sensor file read back, `exact.txt` is not an output name |
| C96 | `Model/Rk`: `loopBody`, `initLoop`; `residual`, `Limiter.limit` | simulation between two runs with different clocks and work arrays; shape of the working copy as an invariant; the requested times from output m on are those of a run started there |
| C97 | `Advection.sensing`, `Euler.sensing`, `Limiter.limit`, `start`, `solve` | 2x/(1+x)² ≤ 1/2; the mute limiter is `apply_bc`; simulation between limited and unlimited run: equal at the loop head, equal on the columns `apply_bc` reads in between |
| C98 | `HrLimiter.adaptiveHr`, `residual`, Runge-Kutta stages, `start`, `integrate` | after limiting the right face value of each cell is within half a slope of the average towards its left neighbour, so each stage is an average of cell and left neighbour with a weight in [0,1] per cell (Harten); stages and final combination are convex combinations of such averagings; bounds, variation and monotone profiles are convex sets kept by them |
| C99 | Riemann solvers, `residual`, `checkedResidual`, `integrate` | the three fluxes between states of equal velocity and pressure in closed form (Godunov: the common pressure is a fixed point of the iteration); momentum and energy stay `v` and `v²/2` times the density plus a constant, coefficient by coefficient, which is an invariant of all operations of the integrators; a stricter residual gives the same run until it stops (induction over stages and iterations) |
| C100 | `IC.entrpyw`, Riemann solvers, `residual`, `integrate`, `start` | by C99 the density of such a gas is a scalar run with the upwind flux and the time steps of the gas, related to the Euler run by simulation; the scalar run is linear advection with the time step v dt, to which the energy argument of C78 applies; on fine meshes the error bound keeps the densities at all stages above m/2, so the checks never stop the run (induction over the iterations) |
| C101 | `dg_matrices`, `residual` | an eigenvector is a polynomial `q` with `μq + q' = -Jρ`, where `ρ` represents the value at the left end and `J` is the jump; multiplying with `e^{μξ}` and integrating gives `(e^μ - e^{-μ}/z) D(μ) = (-μ)^{p+1} L(μ)` exactly, with `D(0) ≠ 0` and `L(μ)` of order `μ^{p+1}` with a nonzero leading term; a small eigenvalue exists since the determinant is continuous and vanishes at `θ = 0` |
| C102 | `riemann_roe`, `riemann_godunov`, `residual`, `limit`, `scktube` | equal fluxes make `Σ λ_k α_k r_k = 0`, so each wave of Roe's solver has no strength or no speed; for a Lax shock the entropy fix leaves the wave alone; Godunov by the supersonic and contact cases of C41 and C42; residual of constants per cell from the formula of `residual_eq`; hierarchical reconstruction gives a constant back if one neighbour has the same average; then the invariant and `Progress` rules of C48 and C73 |
| C103 | `residual`, `integrate`, `projection`, `sinewave`, `plot.py` | waves stay waves, each step multiplies the wave vector by a polynomial of the operator of C101; a norm adapted to its `p` damped directions, uniform in the phase near 0; the physical eigenvalue is exact to `2p+1` (C101) and its left eigenvector sees the initial data to `2p+1` because Gauss quadrature is exact to `2p+1`; the damped rest leaves `exp(-δ t/dx)` |
| C104 | `Model/Rounded`, `Spec/Rounded`, `Spec/RoundedRun`, `Props/Rounded` | `residual` and `classic_rk` with rounding after every operation; entrywise error of the residual with a factor `1/dx` that the CFL bound absorbs; calculus of approximations in the energy norm through stages; rk3 does not expand (C75), hence growth by `1 + C ε` per iteration; comparison with the Taylor sequence of C78; refinement for exact arithmetic |
| C105 | `Spec/LinearOrder`, `Props/HighOrder` | unbranched trees evaluated in the kernel; step as polynomial in `hA`; the bounds of C103 with constants uniform over tables of bounded size, error of the coefficients `eps` carried through one wave |
| C106 | `Model/Nan`, `Props/Nan` | the two runs side by side: same numbers, or NaN in a cell average; NaN of an increment reaches the solution since every stage of every table is used (evaluated in the kernel, rk6 by hand); the wave speed of a cell with NaN is NaN |
| C107 | `Spec/Shock`, `Props/ShockSensor` | in the frame of the wave the Roe averages are the geometric mean of the two velocities, for velocity and sound speed alike; then both conditions reduce to the sign of the velocity jump, the third family needs `(7-γ) ≥ 2(γ+1)` |
| C108 | `Props/Causality` | simulation between two runs on different meshes, related by agreement in cells 1..m; the upwind flux at face e uses cell e only. Enhancement: the weights of the neighbour cannot all vanish, since they must reproduce `P_{p+1}`, whose projection on the own cell is 0 |
| C109 | `Props/NanLimiter` | `Model/NanLimiter` repeats the limiter over reals with NaN; `sorted([a, b, 0])[1]` gives NaN for a NaN in second place and `min(b, 0)` for one in first place. Left neighbour: induction over the loop, choosing the derivative averages of a real neighbour large enough at every order |
| C110 | `Props/Barrier` | One step is a linear map that shifts every quadratic exactly (C20 and the order of the schemes). Godunov's argument, by contradiction: if no data in [0, 1] turned negative, the map would be positive on every cell; `(y - (x - τ))²` is shifted to a square with value 0 at `x`, so a cell away from `x - τ` gives nothing at `x`; as a polynomial in `x` the share of every cell is then 0, but the constant 1 is shifted to 1. Order 1: powers of the residual on the jump, two numbers per cell |
| C111 | `Props/NanLimited` | the simulation of C106 is over any limiter that agrees with the model's on numbers and keeps a NaN average (`LimOk`); 'adaptive_hr' is one: the pressure of a state with NaN is NaN, so both faces of its cell fail every comparison of the sensor, the rest is C109 |
| C112 | `Props/Flags` | the sensor reads only averages, the limiter keeps them, and the flags are not touched by stages and boundary conditions: after the limiter of each step running the sensor again changes nothing; invariant over the outputs of any run |
| C113 | `Props/Steps` | the CFL step of advection is a constant of the run; induction over the iterations with quotient and remainder of the iteration number by the steps per interval |
| C114 | `Proofs/Decay`, `Props/Forget`, `Props/Rk4Forget` | kernel of the residual by the energy identity (jumps vanish, then the derivative does); finite dimension gives a lower bound of the residual on mean-free data; the quadratic form of the rk3 step loses a multiple of dt^4 times it; C113 counts the full steps; fourth order: two equal steps lose a multiple of the squared third image, which the same lower bound applies to three times |
| C115 | `Proofs/Rk4Energy`, `Props/Rk4Energy`, `Props/Rk4Grow` | energy of two steps written as a sum of loss terms and products of high order (coefficients found by LDL, checked by ring); the gain of a single step is bounded by the loss of two full steps before it; C113 gives the steps of an interval; `Props/Rk4Grow`: data found by making the loss terms of one step vanish, gain by exact evaluation of the operator on equal cells |
| C116 | `Props/Perturb` | the loop relation of C74 with coefficients 1, -1 makes the difference of the two runs a run; energy of that run by C75 and C115 |
| C117 | `Model/PlotCurve`, `Props/PlotCurve` | two samples determine sine and cosine of `2 pi t`; sum to product formulas; C78 for outputs; integral of the squared gap over the mesh |
| C118 | `Model/Helpers`, `Props/Helpers` | induction on the path, the parent being the tail of the list |

## Axioms used by each theorem of the manifest

As printed by `#print axioms` (`tools/axioms.py`).

**propext**

`C118_exists`

**propext, Classical.choice, Quot.sound**

`C01_clock`, `C02_terminates`, `C02_terminates_exists`, `C03_outputs_partial`, `C03_outputs_general_partial`, `C03_outputs_skipped`, `C04_numbering`, `C05_low_storage`, `C05_low_storage_generic`, `C06_textbook_step`, `C06_textbook_step_generic`, `C06_successful_step`, `C07_no_tiny_coefficient`, `C07_exact_tables`, `C07_rounded_tables`, `C08_order`, `C08_order_rational`, `C08_order_rk6`, `C08_integrate_order`, `C09_truncated_exponential`, `C09_exact_rk3_rk4`, `C09_integrate_step`, `C09_integrate_series`, `C10_stability_function`, `C10_same_table`, `C10_solver`, `C10_solver_deck`, `C11_default`, `C11_residual_evaluations`, `C11_names_distinct`, `C12_cfl_size`, `C22_basis_tables`, `C22_numpy_routines`, `C23_mass_matrix`, `C23_mass_matrix_integral`, `C24_projection`, `C24_projection_missing_component`, `C25_shift`, `C25_integrate_product`, `C13_weak_form`, `C13_residual_fails`, `C13_advection`, `C14_conservation`, `C17_stencil`, `C19_energy`, `C20_exact_derivative`, `C27_apply_bc`, `C15_limited`, `C15_conservation`, `C16_limited`, `C16_uniform_residual`, `C16_uniform_flow`, `C18_residual_shift`, `C18_run_shift`, `C18_run_code`, `C21_residual_ghosts`, `C21_run_ghosts_partial`, `C21_run_code_partial`, `C21_first_step`, `C21_steps_partial`, `C21_stale_ghosts`, `C37_interior_flux`, `C38_consistent`, `C38_godunov`, `C39_rusanov`, `C39_roe`, `C39_roe_property`, `C40_mirror`, `C40_godunov_mirror`, `C40_godunov_not_mirror`, `C41_roe_supersonic`, `C41_godunov_left`, `C41_godunov_right`, `C42_roe_contact`, `C42_godunov_contact`, `C42_rusanov_contact`, `C43_entropy_fix`, `C46_bound`, `C46_breakdown`, `C47_local`, `C47_fails`, `C44_iteration`, `C44_vacuum`, `C44_onset`, `C44_onset_witness`, `C45_velocity`, `C45_shock`, `C45_expansion`, `C45_sonic`, `C45_two_expansions`, `C48_flags`, `C48_window`, `C48_none`, `C49_flags`, `C49_thresholds`, `C49_uniform`, `C49_contact`, `C50_advection_partial`, `C50_advection_product_partial`, `C50_advection_fails`, `C50_advection_counterexample`, `C50_shock`, `C51_contact_partial`, `C51_mirror_partial`, `C51_waves_partial`, `C51_counterexample`, `C52_averages`, `C52_hr`, `C53_smooth`, `C54_minmod`, `C55_extrema`, `C55_hr_twice`, `C55_twice`, `C55_euler`, `C56_mirror`, `C56_constant`, `C56_scalar`, `C57_limit`, `C57_disabled`, `C57_no_sensors`, `C58_transforms`, `C59_integral`, `C59_bounds`, `C60_init`, `C60_works_partial`, `C60_order_zero`, `C66_reconstruction`, `C61_faces_exact`, `C61_weights_exact`, `C62_lengths`, `C62_excluded`, `C62_unique`, `C62_perm`, `C62_too_high`, `C62_bad_modes`, `C63_mirror`, `C64_leading`, `C26_mesh`, `C28_simplew`, `C28_simplew_covers`, `C28_entrpyw`, `C28_acsticw`, `C28_shuoshe`, `C28_scktube`, `C29_independent_partial`, `C29_shared_gamma`, `C30_never_raises_partial`, `C30_unknown_name`, `C30_bad_count`, `C30_half_built`, `C30_shock_tube_exits`, `C30_blank_line_raises`, `C30_negative_cells`, `C67_construct`, `C67_no_enhancement`, `C67_enhancement`, `C31_names`, `C31_fields`, `C31_form`, `C32_files`, `C33_round_trip`, `C33_one_cell`, `C33_missing`, `C34_not_reapplied`, `C34_ghosts_lost`, `C34_literal_names_partial`, `C34_resume_euler`, `C34_resume_advection`, `C35_round_trip`, `C35_bad_value`, `C36_entries`, `C36_keyword_last`, `C36_cover`, `C36_bad_value`, `C36_file`, `C65_dg_cell`, `C65_dg`, `C65_icb_cell`, `C65_icb`, `C65_icb_defined`, `C68_energy`, `C68_spectrum`, `C69_starts`, `C70_files`, `C70_regression_decks`, `C71_advection_finishes`, `C72_conservation`, `C73_constant_state`, `C74_superposition`, `C75_rk3_energy`, `C75_deck`, `C76_local_error`, `C76_exact_solution`, `C76_smooth`, `C76_smooth_advection`, `C76_smooth_rusanov`, `C76_smooth_roe`, `C77_convergence`, `C77_exact_solution`, `C77_advection_solution`, `C77_advection`, `C78_convergence`, `C78_solution`, `C78_deck`, `C78_order`, `C79_bounds`, `C79_comparison`, `C79_variation`, `C79_deck`, `C79_sharp`, `C80_run_mirror`, `C80_symmetric`, `C81_refines`, `C81_outputs`, `C82_final_time`, `C82_final_time_near`, `C82_output_times`, `C82_final_time_missed`, `C83_terminates`, `C83_stuck`, `C84_final_set`, `C84_pass_iff`, `C84_reproduces`, `C84_other_files`, `C84_regression_suite`, `C85_norms`, `C85_study`, `C85_rates`, `C86_exact_boundary`, `C86_gap`, `C86_schemes`, `C86_sampled`, `C86_eigenvalues`, `C87_advection`, `C87_euler`, `C87_air`, `C87_wrong_pressure`, `C87_sensors`, `C87_left_over`, `C87_tool`, `C87_missing`, `C87_averages`, `C88_reading`, `C88_run`, `C88_time_bound`, `C88_godunov`, `C88_advection_sensor`, `C89_order_zero`, `C89_cfl`, `C89_averages`, `C89_trapezoid`, `C89_simpson`, `C89_roe_negative`, `C90_near_order`, `C90_sharp`, `C90_local_error`, `C91_run`, `C91_separate`, `C91_frame`, `C91_program`, `C92_committed`, `C92_as_committed`, `C92_run`, `C92_twice`, `C92_plot`, `C92_four`, `C92_theory`, `C93_timer`, `C93_day`, `C94_deck_name`, `C94_starts`, `C94_usage`, `C94_no_git`, `C94_launch`, `C94_not_started`, `C95_figures`, `C95_no_figure`, `C96_clock`, `C96_continue`, `C96_program`, `C97_limit`, `C97_run`, `C97_program`, `C97_sharp_advection`, `C97_sharp_euler`, `C98_bounds`, `C98_variation`, `C98_monotone`, `C98_deck`, `C99_flux`, `C99_run`, `C99_checked`, `C99_density`, `C99_reading`, `C100_solution`, `C100_convergence`, `C100_fine`, `C100_deck`, `C101_order`, `C101_solver`, `C102_flux`, `C102_rusanov`, `C102_expansion`, `C102_rest`, `C102_run`, `C102_blurred`, `C102_program`, `C103_averages`, `C103_start`, `C103_deck`, `C103_order`, `C103_study`, `C104_refines`, `C104_program`, `C104_binary64`, `C104_step`, `C104_run`, `C104_error`, `C104_deck`, `C105_linear_order`, `C105_linear_sharp`, `C105_moderate`, `C105_linear_step`, `C105_averages`, `C105_deck`, `C105_study`, `C106_real`, `C106_stops`, `C106_outputs`, `C106_detect`, `C106_silent`, `C106_solvers`, `C106_deck`, `C106_wave`, `C107_face`, `C107_found`, `C107_flags`, `C107_missed`, `C108_upstream`, `C108_quiet`, `C108_enhanced`, `C109_real`, `C109_own`, `C109_right`, `C109_left`, `C109_array`, `C109_kept`, `C109_average`, `C109_model`, `C110_barrier`, `C110_linear`, `C111_total`, `C111_blind`, `C111_model`, `C111_real`, `C111_stops`, `C111_outputs`, `C111_detect`, `C111_deck`, `C111_silent`, `C112_own`, `C112_off`, `C112_deck`, `C112_advection`, `C112_euler`, `C112_silent`, `C112_share`, `C113_counts`, `C113_skips`, `C113_rest`, `C113_idle`, `C113_deck`, `C113_wasted`, `C114_steady`, `C114_step`, `C114_deck`, `C114_limit`, `C114_damped`, `C114_rk4`, `C114_rk4_limit`, `C115_steps`, `C115_outputs`, `C115_deck`, `C115_gain`, `C115_single`, `C116_rk3`, `C116_rk4`, `C116_rk4_outputs`, `C116_converge`, `C116_converge_rk3`, `C117_drawn`, `C117_time`, `C117_between`, `C117_other`, `C117_outputs`, `C117_apart`, `C118_made`, `C118_twice`

**propext, Quot.sound**

`C04_one_output`, `C04_final_output`, `C12_abort`, `C37_advection`, `C38_advection`, `C46_advection`, `C47_advection`, `C48_no_threshold`, `C55_advection`, `C81_one_output`, `C91_shared`, `C118_fails`
