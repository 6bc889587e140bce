{"id": "C01", "title": "The clock never overshoots and ends exactly at the final time", "statement": "Time integration (any RK scheme, limiter on or off) that finishes normally leaves solution.t equal to deck.finaltime, and from a start time not after the final time, solution.t never decreases and never exceeds deck.finaltime at any point of the run, whatever wave speeds the solution produces. (Exact arithmetic.)", "quantifier": "every initial solution, deck (final time, number of outputs, CFL), RK scheme, residual/limiter behaviour and every number of steps", "why_tests_cant": "the step sizes depend on the evolving solution; a test runs one sequence of step sizes", "anchors": ["dg1d/rk.py:classic_rk", "dg1d/rk.py:low_storage_rk4", "dg1d/rk.py:adjust_for_output", "dg1d/rk.py:get_next_time_step"]}
{"id": "C02", "title": "Time integration terminates", "statement": "rk.integrate always stops: after at most (finaltime-t)/1e-14 + number_of_outputs + 1 steps it has either finished or aborted with an error, because a CFL step below 1e-14 aborts the run. (Exact arithmetic.)", "quantifier": "every deck with a number of outputs of at least 2 and every behaviour of the wave speed, residual and limiter", "why_tests_cant": "a non-terminating loop cannot be exhibited or excluded by finitely many runs", "anchors": ["dg1d/rk.py:classic_rk", "dg1d/rk.py:sanity_check_dt", "dg1d/rk.py:adjust_for_output"]}
{"id": "C03", "title": "Every requested output is written at its requested time", "statement": "A run with 'number of outputs' = n writes exactly the n output sets 0..n-1, set k holding the solution at time t0 + k (tf-t0)/(n-1). (False of the code when a CFL step exceeds the time left to the final time while intermediate outputs are still due: the final-time test comes first and the remaining outputs are skipped, the final solution being written under the next intermediate number. True when every CFL step is at most the output spacing.) (Exact arithmetic.)", "quantifier": "every deck, every sequence of CFL time steps", "why_tests_cant": "depends on the relation between an unbounded sequence of solution-dependent steps and the output grid", "anchors": ["dg1d/rk.py:classic_rk", "dg1d/rk.py:adjust_for_output"]}
{"id": "C04", "title": "Output numbering is gapless and ordered in time, on every run including aborted ones", "statement": "At every moment of every run (also one that later aborts) the output sets written so far are numbered 0,1,2,... without gap or repetition, set 0 is the untouched initial solution, and their times and step counts are non-decreasing; nothing already written is lost when the run aborts.", "quantifier": "every run, every prefix of it, every abort point", "why_tests_cant": "crash points and histories are unbounded", "anchors": ["dg1d/rk.py:classic_rk", "dg1d/rk.py:low_storage_rk4", "dg1d/solution.py:Solution.printer"]}
{"id": "C05", "title": "low_storage_rk4 and rk4 produce the same results", "statement": "Choosing 'low_storage_rk4' or 'rk4' in the deck gives the same sequence of states, times and outputs, whatever the residual and limiter do. (Exact arithmetic.)", "quantifier": "every initial solution, deck, residual function and limiter function, any number of steps", "why_tests_cant": "equality of two algorithms over all states and histories", "anchors": ["dg1d/rk.py:low_storage_rk4", "dg1d/rk.py:classic_rk", "dg1d/rk_coeffs.py:get_rk4_coefficients"]}
{"id": "C06", "title": "One RK step is the textbook explicit Runge-Kutta formula", "statement": "With the limiter off, one step of any shipped scheme from u advances it to apply_bc(u + dt*sum_k c_k R(u_k)), u_k = u + dt*sum_{j<k} beta_kj R(u_j): the '|a|>1e-15' shortcut never drops a non-zero coefficient of any shipped table. (Exact arithmetic.)", "quantifier": "every state, step size and residual function, every shipped coefficient table", "why_tests_cant": "the shortcut silently drops small coefficients; needs all coefficients and all states", "anchors": ["dg1d/rk.py:classic_rk", "dg1d/solution.py:Solution.smart_axpy", "dg1d/rk_coeffs.py"]}
{"id": "C07", "title": "Every coefficient table is an explicit, consistent Butcher table", "statement": "In every shipped table the stage matrix is strictly lower triangular, weights sum to one and every abscissa equals its row sum: exactly for rk3, rk4, rk5, rk6, within 2e-17 for rk8 and within 1e-56 for rk10, rk12, rk14; all nonzero coefficients exceed 1e-15 in magnitude.", "quantifier": "every shipped table, every row", "why_tests_cant": "unit tests never look at the tables; a one-digit typo passes every coarse test", "anchors": ["dg1d/rk_coeffs.py"]}
{"id": "C08", "title": "The schemes have the order their name claims", "statement": "rk3, rk4 (and low_storage_rk4), rk5 and rk6 satisfy the order condition of every rooted tree with at most 3, 4, 5, 6 vertices respectively, i.e. they are accurate to that order for every smooth autonomous problem.", "quantifier": "every rooted tree up to the order of the scheme", "why_tests_cant": "order of accuracy is a statement about all smooth right-hand sides", "anchors": ["dg1d/rk_coeffs.py:get_rk3_coefficients", "dg1d/rk_coeffs.py:get_rk4_coefficients", "dg1d/rk_coeffs.py:get_rk5_coefficients", "dg1d/rk_coeffs.py:get_rk6_coefficients"]}
{"id": "C09", "title": "On linear problems an RK step is the truncated exponential", "statement": "When the residual is a linear operator A (e.g. advection without limiter), one step of rk3 / rk4 / rk5 / rk6 applies I + hA + ... + (hA)^p/p! plus terms of higher degree in hA only (rk3, rk4: no higher terms). (Exact arithmetic.)", "quantifier": "every linear operator on every vector space, every step size, every state", "why_tests_cant": "ranges over all linear operators and states", "anchors": ["dg1d/rk.py:classic_rk", "dg1d/rk_coeffs.py"]}
{"id": "C10", "title": "The stability analysis script analyses the scheme the solver runs", "statement": "For every explicit table, the function det(I - zB + z e c^T) used by analysis/rk_stability.py is exactly the factor by which one classic_rk step multiplies the solution of u' = lambda u with z = lambda dt. (Exact arithmetic.)", "quantifier": "every explicit tableau of any number of stages and every z", "why_tests_cant": "identity between two different computations for all tables and all z", "anchors": ["analysis/rk_stability.py:exact_stability_boundary", "analysis/rk_stability.py:approximate_stability_bndry", "analysis/rk_stability.py:get_formatted_rk_coeffs", "dg1d/rk.py:classic_rk"]}
{"id": "C11", "title": "RK scheme selection", "statement": "Each deck name 'rk3','rk4','rk5','rk6','rk8','rk10','rk12','rk14','low_storage_rk4' runs its own scheme with as many residual evaluations as it has stages, and every other string (including the empty default) runs rk4.", "quantifier": "every string in the deck", "why_tests_cant": "all strings", "anchors": ["dg1d/rk.py:integrate"]}
{"id": "C12", "title": "CFL step and abort before damage", "statement": "The CFL time step satisfies dt*vmax*(2p+1) = cfl*dx. If that step is below 1e-14 or NaN the run aborts in that very iteration: neither the solution nor the output files change any more. (Exact arithmetic.)", "quantifier": "every state, mesh, order, CFL number", "why_tests_cant": "all states; abort can happen at any step", "anchors": ["dg1d/rk.py:cfl_time_step", "dg1d/rk.py:sanity_check_dt", "dg1d/rk.py:get_next_time_step"]}
{"id": "C13", "title": "The residual is the DG weak form", "statement": "For every cell e and basis index n the residual returned satisfies dx/2 * 2/(2n+1) * R[n,e] = sum_g w_g P_n'(x_g) f(u_e(x_g)) - (q_{e+1/2} P_n(1) - q_{e-1/2} P_n(-1)), with q the Riemann fluxes of the two adjacent face states, after ghost cells have been filled from the boundary condition. (Exact arithmetic.)", "quantifier": "every order, number of cells, number of fields, state and flux function", "why_tests_cant": "array slicing and strides must be right for every size", "anchors": ["dg1d/dg.py:DG.residual", "dg1d/dg.py:DG.add_interior_face_fluxes", "dg1d/dg.py:DG.inverse_mass_matrix_multiply", "dg1d/dg.py:DG.integrate_interior_flux"]}
{"id": "C14", "title": "Discrete conservation law", "statement": "For every field, dx * sum over cells of the cell-average residual equals the Riemann flux entering at the left boundary minus the one leaving at the right boundary; with periodic boundaries it is zero. (Exact arithmetic.)", "quantifier": "every state, order, mesh size, Riemann solver, with or without enhanced faces", "why_tests_cant": "all states and sizes", "anchors": ["dg1d/dg.py:DG.residual", "dg1d/solution.py:Solution.apply_bc"]}
{"id": "C15", "title": "Total mass, momentum and energy are conserved by a whole periodic run", "statement": "With periodic boundaries the sum over cells of each field's cell average is the same in every output written and in the final state as in the initial state, for every RK scheme, every Riemann solver, with or without enhancement and with or without the limiter. (Exact arithmetic.)", "quantifier": "every initial state, deck and number of steps (order at least 1 when the limiter is on)", "why_tests_cant": "invariant over unbounded histories", "anchors": ["dg1d/rk.py:integrate", "dg1d/dg.py:DG.residual", "dg1d/limiting.py:Limiter.adaptive_hr", "dg1d/solution.py:Solution.apply_bc"]}
{"id": "C16", "title": "Uniform flow is preserved", "statement": "A solution that is the same constant state in every cell is left unchanged by any number of time steps, for every order, periodic or zero-gradient boundaries, every RK scheme and Riemann solver (Euler: positive density and pressure), with the limiter off, or on with non-negative thresholds. (Exact arithmetic.)", "quantifier": "every constant state, order, mesh, scheme, number of steps", "why_tests_cant": "all constants and all histories; relies on quadrature exactness for every order", "anchors": ["dg1d/dg.py:DG.residual", "dg1d/rk.py:classic_rk", "dg1d/limiting.py:Limiter.adaptive_hr"]}
{"id": "C17", "title": "Compact stencil", "statement": "The residual in a cell depends only on the coefficients of that cell and its two immediate neighbours (after boundary conditions), also with enhanced faces: changing any other cell does not change it.", "quantifier": "every pair of states agreeing on three consecutive cells, every cell, order, Riemann solver", "why_tests_cant": "non-interference over all pairs of states", "anchors": ["dg1d/dg.py:DG.residual", "dg1d/enhance.py:Enhance.face_value", "dg1d/solution.py:Solution.collocate_faces"]}
{"id": "C18", "title": "Translation invariance on periodic domains", "statement": "On a periodic domain, shifting the solution by any number of cells and then evaluating the residual gives the shifted residual, and (limiter off, ghost cells filled before the start) a whole run of any length commutes with the shift: same clock, shifted outputs, same ending. (Exact arithmetic.)", "quantifier": "every state, shift, order, Riemann solver, RK scheme, number of steps", "why_tests_cant": "symmetry over all states and histories", "anchors": ["dg1d/dg.py:DG.residual", "dg1d/solution.py:Solution.apply_bc"]}
{"id": "C19", "title": "L2 stability of the advection discretisation", "statement": "For linear advection on a periodic domain the semi-discrete energy never grows: dx/2 * sum_e sum_n 2/(2n+1) u[n,e] R[n,e] = -1/2 sum of squared interface jumps <= 0. (Exact arithmetic.)", "quantifier": "every state, order and number of cells", "why_tests_cant": "inequality over all states and orders", "anchors": ["dg1d/dg.py:DG.residual", "dg1d/advection_physics.py"]}
{"id": "C20", "title": "Advection residual is the exact derivative where the solution is continuous", "statement": "For advection, if the solution is continuous at a cell's left face, the residual in this cell is exactly the Legendre expansion of -du/dx of the cell polynomial. (Exact arithmetic.)", "quantifier": "every order, every polynomial, every mesh size", "why_tests_cant": "all polynomials of all orders", "anchors": ["dg1d/dg.py:DG.residual", "dg1d/basis.py:Basis.evaluate_basis_gauss", "dg1d/advection_physics.py"]}
{"id": "C21", "title": "Ghost cell contents never matter", "statement": "The residual, and a whole run without limiter, depend only on the interior cells, whatever the ghost cells contain. With the limiter on, every limiter call of a run sees ghost cells that agree with the boundary condition. (First sentence: true of the residual, and of a run started after apply_bc, as main.py does; without that the first Euler time step reads the wave speed of the ghost cells. Second sentence false of the code: intermediate RK stages are limited before apply_bc, so the limiter reads ghost cells updated with volume terms only.) (Exact arithmetic.)", "quantifier": "every pair of states with the same interior, every run", "why_tests_cant": "non-interference over all states and intermediate stages that no test observes", "anchors": ["dg1d/rk.py:classic_rk", "dg1d/limiting.py:Limiter.adaptive_hr", "dg1d/dg.py:DG.residual"]}
{"id": "C22", "title": "Basis tables are Legendre values", "statement": "phi[g,n] = P_n(x_g), dphi_w[n,g] = w_g P_n'(x_g), psi[0,n] = P_n(-1), psi[1,n] = P_n(1) for every order. (Exact arithmetic.)", "quantifier": "every order, node and mode", "why_tests_cant": "tests check order 3 only", "anchors": ["dg1d/basis.py:Basis.evaluate_basis_gauss", "dg1d/basis.py:Basis.evaluate_basis_edges"]}
{"id": "C23", "title": "Mass matrix is the Gram matrix of the basis", "statement": "integral over [-1,1] of P_m P_n is m[n] if m=n and 0 otherwise, and m[n]*minv[n]=1, for every order. (Exact arithmetic.)", "quantifier": "every order and pair of modes", "why_tests_cant": "tests check order 3 only", "anchors": ["dg1d/basis.py:Basis.mass_matrix"]}
{"id": "C24", "title": "Initial projection", "statement": "projection(a,b,f) returns the unique polynomial of degree <= p through f at the Gauss nodes of [a,b]; it reproduces every polynomial of degree <= p exactly, and coefficient n equals the Gauss-quadrature inner product (2n+1)/2 * sum_g w_g f(x_g) P_n(x_g); in particular coefficient 0 is the quadrature mean of f over the cell. (Exact arithmetic.)", "quantifier": "every function f, interval, order", "why_tests_cant": "all functions and orders", "anchors": ["dg1d/basis.py:Basis.projection", "dg1d/basis.py:Basis.shifted_xgauss", "dg1d/solution.py:Solution.populate"]}
{"id": "C25", "title": "Polynomial helper functions", "statement": "shift_legendre_polynomial(l,s) is the polynomial x -> l(x+s); integrate_legendre_product(l1,l2) is the integral of l1*l2 over [-1,1]. (Exact arithmetic.)", "quantifier": "every pair of polynomials and every shift", "why_tests_cant": "all polynomials", "anchors": ["dg1d/basis.py:shift_legendre_polynomial", "dg1d/basis.py:integrate_legendre_product"]}
{"id": "C26", "title": "Mesh geometry", "statement": "setup_common_ic(f,A,B) with N cells gives N+1 edges starting at A and ending at B, increasing with constant spacing dx=(B-A)/N, centroids midway between consecutive edges, and scaled_minv[n] = (2n+1)/dx. (Exact arithmetic.)", "quantifier": "every domain A<B and every N >= 1", "why_tests_cant": "all sizes and domains", "anchors": ["dg1d/solution.py:Solution.setup_common_ic"]}
{"id": "C27", "title": "Boundary conditions fill ghosts and nothing else", "statement": "apply_bc with 'periodic' copies the last interior cell to the left ghost and the first interior cell to the right ghost, with 'zerograd' the adjacent interior cell; each side independently; interior cells are untouched; it is idempotent; any other boundary string leaves the solution unchanged (it only prints).", "quantifier": "every state, number of cells >= 1, fields, order, pair of boundary strings", "why_tests_cant": "negative slice arithmetic must be right for every shape", "anchors": ["dg1d/solution.py:Solution.apply_bc", "dg1d/solution.py:Solution.add_ghosts"]}
{"id": "C28", "title": "Initial conditions are physical everywhere", "statement": "Every Euler initial condition (simplew, entrpyw, acsticw, shuoshe, and scktube with positive states) yields positive density and positive pressure at every point x, with the velocity and pressure the code intends (energy inverts to the intended primitive variables); simplew's region tests cover every x. (Exact arithmetic.)", "quantifier": "every real x and every positive shock-tube state", "why_tests_cant": "all points of a continuum", "anchors": ["dg1d/solution.py:Solution.simplew", "dg1d/solution.py:Solution.entrpyw", "dg1d/solution.py:Solution.acsticw", "dg1d/solution.py:Solution.scktube", "dg1d/solution.py:Solution.shuoshe"]}
{"id": "C29", "title": "Solutions are independent of each other", "statement": "Creating, or initialising, another Solution never changes the fluxes computed for an existing one. (False of the code: gamma is a module global, reset to 1.4 by every construction and to 3 by simplew; true for histories in which every construction leaves gamma at the same value.)", "quantifier": "every sequence of Solution constructions", "why_tests_cant": "histories of constructions sharing a global", "anchors": ["dg1d/constants.py:init", "dg1d/solution.py:Solution.__init__", "dg1d/solution.py:Solution.simplew"]}
{"id": "C30", "title": "An invalid initial condition yields an empty solution", "statement": "When the initial condition line cannot be applied the constructor does not raise and the solution is empty, as the printed message says. (Only partly true: an unknown name gives an empty solution, but e.g. an advection initial condition under the euler system is left half built with N_E cells and no ghosts, and a shock tube with the wrong parameter count exits the process.)", "quantifier": "every initial condition line and system", "why_tests_cant": "all strings; exception paths", "anchors": ["dg1d/solution.py:Solution.__init__", "dg1d/solution.py:Solution.scktube"]}
{"id": "C31", "title": "Output file names never collide", "statement": "Different (field, output number) pairs get different file names, for any output number, also beyond ten digits.", "quantifier": "every pair of field names among those used and every pair of output numbers", "why_tests_cant": "unbounded numbers", "anchors": ["dg1d/solution.py:Solution.format_fnames"]}
{"id": "C32", "title": "Output files hold every interior cell once and no ghost cell", "statement": "For every field the printer's column slice selects exactly the N_E interior columns of that field, in order: row i of the file is centroid i followed by the coefficients of cell i.", "quantifier": "every number of cells, fields, field index and order", "why_tests_cant": "negative strided slices for every shape", "anchors": ["dg1d/solution.py:Solution.printer"]}
{"id": "C33", "title": "Save / load round trip", "statement": "loader(k) applied to files written by printer(k) restores n, t, boundary names, order, number of cells, centroids, edges, dx and every interior coefficient of every field, with zero ghost cells, for any solution with at least two cells on a uniform mesh. (With one cell the loader raises.)", "quantifier": "every solution state with N_E >= 2, every order and number of fields", "why_tests_cant": "round trip over all states", "anchors": ["dg1d/solution.py:Solution.printer", "dg1d/solution.py:Solution.loader"]}
{"id": "C34", "title": "A reloaded solution can be advanced like the original", "statement": "After loader, apply_bc fills the ghost cells as it did before the save. (False of the code: boundary names are compared with 'is', and a string parsed from a file is not the interned literal, so apply_bc leaves the ghosts at zero.)", "quantifier": "every saved solution", "why_tests_cant": "object identity of strings, a state not visible to value-comparing tests", "anchors": ["dg1d/solution.py:Solution.loader", "dg1d/solution.py:Solution.apply_bc"]}
{"id": "C35", "title": "Deck write / parse round trip", "statement": "Parsing a deck written by write_deck from (keyword, value) pairs sets exactly the fields named, each to its value (last occurrence wins), and leaves every other field at its default, in whatever order the pairs come.", "quantifier": "every list of recognised pairs with newline-free values without trailing blanks", "why_tests_cant": "all lists of definitions", "anchors": ["dg1d/deck.py:Deck.parser", "dg1d/deck.py:write_deck"]}
{"id": "C36", "title": "Deck parsing rules", "statement": "Lines before, between or after entries that contain no keyword are ignored; the line after a keyword line is always taken as its value and never as a keyword; a keyword on the last line of the file is an error.", "quantifier": "every sequence of lines", "why_tests_cant": "all files", "anchors": ["dg1d/deck.py:Deck.parser"]}
{"id": "C37", "title": "Interior flux is the Euler flux", "statement": "euler interior_flux returns (rho v, rho v^2 + p, (E+p) v) at every quadrature point and cell; advection returns the state. (Exact arithmetic.)", "quantifier": "every array shape and every state with nonzero density", "why_tests_cant": "strided access for every shape", "anchors": ["dg1d/euler_physics.py:interior_flux", "dg1d/advection_physics.py:interior_flux"]}
{"id": "C38", "title": "Riemann solvers are consistent", "statement": "With equal left and right states every Riemann solver (upwind, Rusanov, Roe, Godunov) returns the physical flux of that state. (Exact arithmetic.)", "quantifier": "every state with positive density and pressure, every gamma > 1", "why_tests_cant": "all states; Godunov goes through a fixed point iteration", "anchors": ["dg1d/euler_physics.py:riemann_rusanov", "dg1d/euler_physics.py:riemann_roe", "dg1d/euler_physics.py:riemann_godunov", "dg1d/advection_physics.py:riemann_upwinding"]}
{"id": "C39", "title": "Rusanov and Roe are the textbook fluxes", "statement": "Rusanov = 1/2 (f(L)+f(R)) - 1/2 max(|vL|+aL,|vR|+aR) (R-L). Roe: the wave strengths and eigenvectors used satisfy sum_k alpha_k r_k = R-L and sum_k lambda_k alpha_k r_k = f(R)-f(L) with real eigenvalues v-a, v, v+a, and the flux is 1/2 (f(L)+f(R)) - 1/2 sum |lambda_k|* alpha_k r_k, |.|* the entropy-fixed modulus. (Exact arithmetic.)", "quantifier": "every pair of states with positive density and pressure, every gamma > 1", "why_tests_cant": "algebraic identity over all pairs of states", "anchors": ["dg1d/euler_physics.py:riemann_rusanov", "dg1d/euler_physics.py:riemann_roe"]}
{"id": "C40", "title": "Mirror symmetry of the Riemann solvers", "statement": "Exchanging left and right and reversing the velocities reverses the mass and energy flux and keeps the momentum flux. (Rusanov, Roe: true. Godunov: false when the left state is supersonic to the right and the right state supersonic to the left; true otherwise.) (Exact arithmetic.)", "quantifier": "every pair of admissible states", "why_tests_cant": "symmetry over all pairs; the suite has no mirrored pairs", "anchors": ["dg1d/euler_physics.py:riemann_rusanov", "dg1d/euler_physics.py:riemann_roe", "dg1d/euler_physics.py:riemann_godunov"]}
{"id": "C41", "title": "Supersonic upwinding", "statement": "If all Roe eigenvalues are non-negative (resp. non-positive) and the entropy fix is inactive, the Roe flux is f(L) (resp. f(R)); Godunov returns f(L) when vL >= aL and otherwise f(R) when vR <= -aR. (Exact arithmetic.)", "quantifier": "every pair of admissible states", "why_tests_cant": "all pairs of states", "anchors": ["dg1d/euler_physics.py:riemann_roe", "dg1d/euler_physics.py:riemann_godunov"]}
{"id": "C42", "title": "Stationary contacts are captured exactly by Roe and Godunov", "statement": "For two states at rest with equal pressure and arbitrary densities, Roe and Godunov return (0,p,0); Rusanov does not unless the densities are equal. (Exact arithmetic.)", "quantifier": "every pair of densities and every pressure", "why_tests_cant": "all densities and pressures", "anchors": ["dg1d/euler_physics.py:riemann_roe", "dg1d/euler_physics.py:riemann_godunov", "dg1d/euler_physics.py:riemann_rusanov"]}
{"id": "C43", "title": "Entropy fix never divides by zero and only adds dissipation", "statement": "Where the entropy fix is active its denominator is positive, the modified wave speed is at least the original one and at least a quarter of Da, it is zero-free, continuous at the switching point, and is not applied for compressive or uniform waves. (Exact arithmetic.)", "quantifier": "every pair of admissible states", "why_tests_cant": "all states; the division is only reached on a measure-zero looking branch in tests", "anchors": ["dg1d/euler_physics.py:riemann_roe"]}
{"id": "C44", "title": "The Godunov iteration stops and returns only converged values", "statement": "For each interface the Godunov solver makes at most 101 fixed point iterations; it either exits the process or uses a star pressure whose last update was below 1e-6; this pressure is positive and the three sonic cases cover every situation, so no variable of a previous interface is ever reused. (True for physical states below the onset of vacuum; exactly at the onset the iteration converges to pressure zero, no case applies and an unassigned or stale variable is read; beyond it no flux is ever returned.) (Exact arithmetic.)", "quantifier": "every pair of states with positive density and pressure", "why_tests_cant": "all states; unbound/stale variable paths are invisible to example tests", "anchors": ["dg1d/euler_physics.py:riemann_godunov"]}
{"id": "C45", "title": "The Godunov star state satisfies the wave relations", "statement": "At a fixed point of the pressure iteration the left and right waves give the same star velocity; a compression satisfies the Rankine-Hugoniot jump conditions for mass, momentum and energy with shock speed v -+ m/rho; an expansion keeps p/rho^gamma and the Riemann invariant; the sonic state has |velocity| = sound speed. When the two-expansion pressure lies below both pressures it is a fixed point, so the flux is that of the exact solution. (Exact arithmetic.)", "quantifier": "every pair of admissible states and every fixed point", "why_tests_cant": "nonlinear identities over all states", "anchors": ["dg1d/euler_physics.py:massflux", "dg1d/euler_physics.py:sonic", "dg1d/euler_physics.py:riemann_godunov"]}
{"id": "C46", "title": "Maximum wave speed bounds every cell", "statement": "euler max_wave_speed is attained by some cell and is at least |v|+a of every cell average including ghosts, and is NaN (leading to an abort) as soon as one cell average has zero density or negative pressure/density ratio; advection returns 1. (Exact arithmetic.)", "quantifier": "every state and number of cells", "why_tests_cant": "all states", "anchors": ["dg1d/euler_physics.py:max_wave_speed", "dg1d/advection_physics.py:max_wave_speed"]}
{"id": "C47", "title": "Riemann fluxes are computed interface by interface", "statement": "The flux at interface i depends only on the left and right states of interface i, for every solver and number of interfaces.", "quantifier": "every pair of state arrays, every interface", "why_tests_cant": "non-interference for all array sizes", "anchors": ["dg1d/euler_physics.py:riemann_rusanov", "dg1d/euler_physics.py:riemann_roe", "dg1d/euler_physics.py:riemann_godunov"]}
{"id": "C48", "title": "Advection sensor flags exactly the cells next to a steep face", "statement": "After sensing, a cell (ghosts included) is flagged 1 iff one of its faces has 2|j|/(1+|j|)^2 above the threshold, j the jump of cell averages; all others are 0 whatever the flags were before; no flag is set when the threshold is at least 1/2. (Exact arithmetic.)", "quantifier": "every state, threshold, previous flags, number of cells", "why_tests_cant": "all states and histories of flags", "anchors": ["dg1d/advection_physics.py:sensing", "dg1d/sensor.py:Sensor.sensing"]}
{"id": "C49", "title": "Euler sensor", "statement": "After sensing each flag is 0, 1 or 2; it is 2 iff an adjacent face is a detected shock, 1 iff none is but an adjacent face is a detected discontinuity; uniform regions are never flagged with non-negative thresholds and a pure contact (equal velocity and pressure) is never flagged 2 with a non-negative shock threshold. (Exact arithmetic.)", "quantifier": "every admissible state, thresholds, previous flags, number of cells", "why_tests_cant": "all states", "anchors": ["dg1d/euler_physics.py:sensing", "dg1d/sensor.py:Sensor.sensing"]}
{"id": "C50", "title": "A larger jump is at least as likely to be flagged", "statement": "If a face with some jump is flagged, so is one with a larger jump. (Advection: false, the indicator 2x/(1+x)^2 decreases beyond x=1; true for jumps up to 1. Euler shock indicator: always true for positive pressures since its argument is below 1.) (Exact arithmetic.)", "quantifier": "every pair of jumps and every threshold", "why_tests_cant": "order statement over all jumps", "anchors": ["dg1d/advection_physics.py:sensing", "dg1d/euler_physics.py:sensing"]}
{"id": "C51", "title": "Shock detection is independent of orientation", "statement": "Mirroring the flow mirrors the flags. (False of the code: only the v-a characteristic is tested for compression, so a shock and its mirror image can be flagged differently; true for the discontinuity flag.) (Exact arithmetic.)", "quantifier": "every state", "why_tests_cant": "symmetry over all states", "anchors": ["dg1d/euler_physics.py:sensing"]}
{"id": "C52", "title": "Limiting preserves cell averages", "statement": "The limiter never changes any cell's average (coefficient 0 of each field), whatever the neighbours are, for every order >= 1. (Exact arithmetic.)", "quantifier": "every state, order >= 1, thresholds, flags", "why_tests_cant": "all states and orders", "anchors": ["dg1d/limiting.py:Limiter.hr", "dg1d/limiting.py:Limiter.limit_monomial", "dg1d/limiting.py:Limiter.adaptive_hr"]}
{"id": "C53", "title": "Limiting leaves smooth polynomial data alone", "statement": "If a cell and its two neighbours hold one and the same polynomial of degree <= p, hierarchical reconstruction returns the cell unchanged. (Exact arithmetic.)", "quantifier": "every order and every polynomial of degree <= p", "why_tests_cant": "all orders and polynomials", "anchors": ["dg1d/limiting.py:Limiter.limit_monomial", "dg1d/limiting.py:Limiter.hr"]}
{"id": "C54", "title": "minmod", "statement": "scalar_minmod(a,b) is 0 when a and b do not have the same strict sign and otherwise the one of smaller magnitude; it is symmetric, odd and homogeneous. (Exact arithmetic.)", "quantifier": "every pair of numbers", "why_tests_cant": "all pairs", "anchors": ["dg1d/limiting.py:scalar_minmod"]}
{"id": "C55", "title": "Linear limiting creates no new extrema", "statement": "For order 1 the limited solution at every point of the cell lies between the minimum and the maximum of the three cell averages, and limiting twice is the same as limiting once. (Exact arithmetic.)", "quantifier": "every triple of cells", "why_tests_cant": "all states", "anchors": ["dg1d/limiting.py:Limiter.hr"]}
{"id": "C56", "title": "Limiter symmetries", "statement": "Hierarchical reconstruction commutes with mirror reflection, with adding a constant to all three cells and with multiplication by any scalar (including negative ones). (Exact arithmetic.)", "quantifier": "every order, every triple of cells, every constant and scalar", "why_tests_cant": "symmetries over all states", "anchors": ["dg1d/limiting.py:Limiter.limit_monomial", "dg1d/limiting.py:Limiter.hr"]}
{"id": "C57", "title": "Limiting touches flagged cells only", "statement": "Cells not flagged by the sensor keep all their coefficients; a flagged cell's new value is computed from the values its neighbours had before limiting (order of cells irrelevant); ghost cells are refilled; time and step count are untouched; with limiting disabled nothing changes.", "quantifier": "every state, flags", "why_tests_cant": "all states and flag patterns", "anchors": ["dg1d/limiting.py:Limiter.adaptive_hr", "dg1d/limiting.py:Limiter.limit"]}
{"id": "C58", "title": "Basis transforms of the limiter are exact and mutually inverse", "statement": "L2M maps Legendre coefficients to the Taylor coefficients at the cell centre of the same polynomial, M2L maps back, each the inverse of the other. (Exact arithmetic.)", "quantifier": "every order and every polynomial", "why_tests_cant": "all orders", "anchors": ["dg1d/limiting.py:Limiter.__init__", "dg1d/limiting.py:Limiter.legendre_to_monomial", "dg1d/limiting.py:Limiter.monomial_to_legendre"]}
{"id": "C59", "title": "Monomial integrals", "statement": "integrate_monomial_derivative(k,n) and integrate_monomial_derivative_bounds(k,n,a,b) equal the integral of the k-th derivative of x^n/n! over [-1,1] and [a,b], for every k <= n. (Exact arithmetic.)", "quantifier": "every k <= n and every a, b", "why_tests_cant": "all indices", "anchors": ["dg1d/limiting.py:integrate_monomial_derivative", "dg1d/limiting.py:integrate_monomial_derivative_bounds"]}
{"id": "C60", "title": "Limiting a piecewise constant solution", "statement": "The limiter works for every polynomial order the deck accepts. (False for order 0: as soon as one cell is flagged the limiter reads an unassigned variable and raises; true for every order >= 1.) (Exact arithmetic.)", "quantifier": "every order and state", "why_tests_cant": "exception path depends on order and on flags", "anchors": ["dg1d/limiting.py:Limiter.limit_monomial"]}
{"id": "C61", "title": "Enhanced face values are exact for polynomials of the enhanced degree", "statement": "If two neighbouring cells hold the Legendre projections of one polynomial of degree <= p + number of modes, both enhanced face values at their common face equal that polynomial's value there (whenever the enhancement matrices are invertible). (Exact arithmetic.)", "quantifier": "every order, every list of distinct modes <= p, every polynomial", "why_tests_cant": "all orders, modes and polynomials", "anchors": ["dg1d/enhance.py:enhancement_matrices", "dg1d/enhance.py:left_enhancement_vectors", "dg1d/enhance.py:Enhance.face_value"]}
{"id": "C62", "title": "Enhancement vectors have the right shape and skip excluded modes", "statement": "With distinct modes <= p, in whatever order they are listed, alphaR and betaL have length p+1, are zero at modes not listed, and hold the weight of mode modes[i] at position modes[i]; with a mode > p the length is wrong and the face evaluation raises; with a repeated mode the matrix is singular.", "quantifier": "every order and list of modes", "why_tests_cant": "all mode lists", "anchors": ["dg1d/enhance.py:left_enhancement_vectors", "dg1d/enhance.py:Enhance.__init__"]}
{"id": "C63", "title": "Enhancement is mirror symmetric", "statement": "betaR[n] = (-1)^n alphaL[n] and betaL[n] = (-1)^n alphaR[n]. (Exact arithmetic.)", "quantifier": "every order and list of distinct modes", "why_tests_cant": "all orders and modes", "anchors": ["dg1d/enhance.py:enhancement_matrices", "dg1d/enhance.py:left_enhancement_vectors"]}
{"id": "C64", "title": "Enhancement matrices are invertible for leading modes", "statement": "With modes 0,1,...,m-1 both enhancement matrices are invertible, so the enhancement set-up never fails. (Exact arithmetic.)", "quantifier": "every order and every m <= p+1", "why_tests_cant": "non-singularity for infinitely many matrices", "anchors": ["dg1d/enhance.py:enhancement_matrices"]}
{"id": "C65", "title": "The DG stability analysis script analyses the solver's operator", "statement": "For a Bloch wave (cell e holds z^e times a coefficient vector) the advection residual of the solver equals 2/dx times the matrix Minv(-(G1-G0)+F) assembled by analysis/dg_stability.py, applied to the coefficient vector. (Exact arithmetic.)", "quantifier": "every order, every complex z, every coefficient vector", "why_tests_cant": "identity between two codes for all orders", "anchors": ["analysis/dg_stability.py:dg_matrices", "analysis/dg_stability.py:get_eigenvalue", "dg1d/dg.py:DG.residual"]}
{"id": "C66", "title": "The limiter is the published hierarchical reconstruction", "statement": "For every order >= 1 and every three cells, hr returns the Legendre coefficients of the polynomial defined by the hierarchical reconstruction of Liu, Shu, Tadmor and Zhang: degree <= p, same mean, and m-th derivative at the centre equal to the minmod of the two one-sided differences of the cell averages of the remaining linear part, from m = p down to 1. That polynomial is unique. (Exact arithmetic.)", "quantifier": "every order >= 1, every triple of cells", "why_tests_cant": "all orders and all states; the loop reads its own earlier results", "anchors": ["dg1d/limiting.py:Limiter.hr", "dg1d/limiting.py:Limiter.limit_monomial", "dg1d/limiting.py:Limiter.__init__"]}
{"id": "C67", "title": "A valid deck line constructs a well-formed solution", "statement": "For an initial condition line naming an initial condition that fits the system, with at least one cell (and, for scktube, seven parsable numbers), and an enhancement line that is empty or has modes up to the order, the constructor returns without error a well-formed solution: Gauss basis of the order, uniform mesh of the domain of the initial condition, coefficients equal to the quadrature projections, zero ghosts, boundary names of the initial condition, time and step zero, sensors of length N_E+2 exactly when thresholds were given, and the physics dictionary of the requested system at the gamma of the initial condition.", "quantifier": "every order, number of cells, system, Riemann solver name, enhancement and threshold list", "why_tests_cant": "all decks; this is what the hypotheses of the solver theorems rest on", "anchors": ["dg1d/solution.py:Solution.__init__", "dg1d/solution.py:Solution.setup_common_ic", "dg1d/solution.py:Solution.populate"]}
{"id": "C68", "title": "The standard scheme has no growing wave", "statement": "In exact arithmetic, for every order p and every Bloch factor z with |z| = 1, the energy rate of a wave under the matrix that dg_stability.py builds for the standard scheme is minus half the squared jump at the interface, hence every eigenvalue of that matrix has a nonpositive real part.", "quantifier": "every order, every unit complex z, every eigenpair", "why_tests_cant": "all orders and a continuum of wave numbers; the script samples a few of each", "anchors": ["analysis/dg_stability.py:dg_matrices", "analysis/dg_stability.py:dg_interior_flux_matrix", "analysis/dg_stability.py:dg_interface_flux_matrix"]}
{"id": "C69", "title": "A valid deck starts", "statement": "For every valid deck (known initial condition that fits the system, at least one cell, enhancement that fits the order, and for the limiter an order of at least 1 and enough sensor thresholds), everything main.py does before the time integration succeeds, and the integrator gets a well-formed solution at time 0 with the physics of the deck, filled ghost cells, a limiter that works on it, and the cell averages of the projected initial condition.", "quantifier": "every deck, order, number of cells, Riemann solver name, thresholds, quadrature contents", "why_tests_cant": "all decks; composition of deck, solution, dg and limiter", "anchors": ["dg1d/main.py:main", "dg1d/dg.py:DG.__init__", "dg1d/solution.py:Solution.__init__", "dg1d/limiting.py:Limiter.__init__"]}
{"id": "C70", "title": "The files a run leaves behind", "statement": "For every valid deck file and after any number of time steps, the status of the program is that of the integration loop (no output ever fails), the output sets are numbered 0, 1, 2, ... starting with the initial solution, every field of every set (and the sensors, if there are thresholds) is in the file of its name and number with the header and columns of the printer, and no other file has changed. This includes the six decks of the regression suite.", "quantifier": "every valid deck file, file system, number of iterations", "why_tests_cant": "all decks and run lengths; files are overwritten if two names or numbers coincide", "anchors": ["dg1d/main.py:main", "dg1d/rk.py:integrate", "dg1d/solution.py:Solution.printer", "regressions/sodtube/deck.inp"]}
{"id": "C71", "title": "Advection runs reach the final time", "statement": "In exact arithmetic, every valid advection deck with at least two outputs, a nonnegative final time and a CFL step of at least 1e-14 terminates normally after finitely many steps, with or without limiter and enhancement and for every scheme; the last output is the solution at exactly the final time and is in its file.", "quantifier": "every advection deck, initial condition, order, scheme, limiter, enhancement", "why_tests_cant": "all decks; a liveness property of the whole program", "anchors": ["dg1d/main.py:main", "dg1d/rk.py:integrate", "dg1d/rk.py:get_next_time_step", "dg1d/dg.py:DG.residual", "dg1d/limiting.py:Limiter.limit"]}
{"id": "C72", "title": "Conservation from deck to output", "statement": "In exact arithmetic, for every valid deck with a periodic initial condition, either system, the total over the cells of every field is in every output set equal to the total of the projected initial condition, for every Riemann solver, order, scheme, limiter, thresholds and enhancement.", "quantifier": "every valid periodic deck, every number of steps", "why_tests_cant": "all decks and run lengths", "anchors": ["dg1d/main.py:main", "dg1d/dg.py:DG.residual", "dg1d/rk.py:integrate", "dg1d/limiting.py:Limiter.limit"]}
{"id": "C73", "title": "A constant gas stays constant, from deck to output", "statement": "In exact arithmetic, for every valid Euler deck whose initial condition is one constant state with positive density and pressure (e.g. a shock tube with equal sides), nonnegative thresholds, enhancement modes up to the order, at least two outputs, nonnegative final time and a CFL step of at least 1e-14: the program terminates normally at the final time and every cell of every output set holds exactly that state.", "quantifier": "every such deck: state, Riemann solver, order, scheme, limiter, enhancement", "why_tests_cant": "a continuum of states, all orders and run lengths", "anchors": ["dg1d/main.py:main", "dg1d/solution.py:Solution.scktube", "dg1d/dg.py:DG.residual", "dg1d/rk.py:integrate", "dg1d/limiting.py:Limiter.limit"]}
{"id": "C74", "title": "Superposition of advection runs", "statement": "In exact arithmetic, for linear advection without the limiter (with or without enhancement, any boundary conditions, any scheme): if the initial data of a run are a u + b v, then after any number of steps its solution and every output set are a times the one of the run from u plus b times the one of the run from v, at the same output numbers, steps and times.", "quantifier": "all data u, v, all a, b, all schemes, all run lengths", "why_tests_cant": "all data and coefficients; a nonlinear term that vanishes on the tested data is not seen", "anchors": ["dg1d/rk.py:integrate", "dg1d/dg.py:DG.residual", "dg1d/advection_physics.py:riemann_upwinding", "dg1d/enhance.py:Enhance.face_value", "dg1d/solution.py:Solution.smart_axpy"]}
{"id": "C75", "title": "The fully discrete advection scheme does not gain energy", "statement": "In exact arithmetic, for linear advection on a periodic domain with rk3, no limiter and no enhancement, every order p and every CFL number up to (2p+1)/(3(p+1)^2): no time step (regular or shortened to hit an output time) increases the integral of u^2 over the domain, the energies of the successive output sets never increase, and all are bounded by the energy of the projected initial condition.", "quantifier": "every order, number of cells, initial data, number of steps, CFL number in the range", "why_tests_cant": "a continuum of data and CFL numbers, all orders and run lengths; slow growth is not visible in short runs", "anchors": ["dg1d/rk.py:classic_rk", "dg1d/rk.py:cfl_time_step", "dg1d/rk_coeffs.py:get_rk3_coefficients", "dg1d/dg.py:DG.residual", "dg1d/advection_physics.py:riemann_upwinding"]}
{"id": "C76", "title": "Order of accuracy of one time step on the full nonlinear problem", "statement": "In exact arithmetic, with rk3, rk4, low_storage_rk4, rk5 or rk6 and no limiter: where the right-hand sides of the semi-discrete DG equations (the weak form with the flux functions of the physics) are analytic, these equations have a local solution y, and every iteration of the time loop that starts from the coefficients y(0), takes a step dt small enough and does not fail ends within C |dt|^(q+1) of y(dt), with q the order promised by the name and C independent of dt. The right-hand sides are analytic everywhere for advection and, for Euler with Rusanov or Roe, at states of nonzero density and positive pressure away from the ties of the maximum, absolute value and entropy fix.", "quantifier": "all solutions, orders, meshes, boundary conditions, enhancements and steps", "why_tests_cant": "an asymptotic statement with a constant uniform in the step; linear stability functions do not show the order on nonlinear problems", "anchors": ["dg1d/rk.py:integrate", "dg1d/rk.py:classic_rk", "dg1d/rk.py:low_storage_rk4", "dg1d/rk_coeffs.py:get_rk6_coefficients", "dg1d/dg.py:DG.residual", "dg1d/euler_physics.py:riemann_roe", "dg1d/euler_physics.py:riemann_rusanov"]}
{"id": "C77", "title": "Convergence in time of whole runs", "statement": "In exact arithmetic, with rk3, rk4, low_storage_rk4, rk5 or rk6 and no limiter: if y solves the semi-discrete DG equations on [0, T] and their right-hand sides are analytic along y, there are C and H > 0 such that every run from y(0) whose steps were at most h <= H (of varying length, shortened at outputs) and which has not failed is within C h^q of y at the time reached. For linear advection H is arbitrary: the exact solution exists for all times, the run reaches the final time for every CFL number whose step h = dx cfl/(2p+1) is between 1e-14 and H, and every output is within C h^q of it.", "quantifier": "all solutions, orders, meshes, boundary conditions, CFL numbers, output counts and numbers of steps", "why_tests_cant": "asymptotic bound with a constant uniform over all step sequences; a convergence test fits a slope to a few runs", "anchors": ["dg1d/rk.py:integrate", "dg1d/rk.py:classic_rk", "dg1d/rk.py:low_storage_rk4", "dg1d/rk.py:get_next_time_step", "dg1d/rk_coeffs.py:get_rk5_coefficients", "dg1d/dg.py:DG.residual", "dg1d/advection_physics.py:riemann_upwinding"]}
{"id": "C78", "title": "Linear advection runs converge to the exact solution as the mesh is refined", "statement": "In exact arithmetic, for every order p, every periodic initial function u0 with p+4 continuous derivatives and every time T there is one constant C such that for every number of cells, every CFL number up to (2p+1)/(3(p+1)^2), every final time up to T and every number of outputs, the rk3 run of linear advection without limiter or enhancement, started from the interpolant of u0 at the Gauss nodes, has at each output an L2 distance of at most C (dx^(p+1) + h^3) to u0(x - t), where h = dx cfl/(2p+1). That function is the only classical solution of u_t + u_x = 0 with initial data u0. For the deck with the sine wave the error is at most C / N^min(p+1,3) with N the number of cells.", "quantifier": "all orders, smooth periodic data, meshes, CFL numbers in the range, final times, output counts and numbers of steps", "why_tests_cant": "the constant is uniform in the mesh and the CFL number; the convergence scripts measure slopes on a few meshes", "anchors": ["dg1d/rk.py:integrate", "dg1d/rk.py:classic_rk", "dg1d/dg.py:DG.residual", "dg1d/advection_physics.py:riemann_upwinding", "dg1d/solution.py:Solution.populate", "dg1d/basis.py:Basis.projection", "dg1d/solution.py:Solution.sinewave", "dg1d/main.py:main"]}
{"id": "C79", "title": "Piecewise constant advection creates no new extrema and no variation", "statement": "In exact arithmetic, linear advection of order 0 with rk3, rk4 or low_storage_rk4, no limiter, no enhancement, periodic or zero gradient inflow and a CFL number of at most 1: if the cell averages start in [m, M] they stay in [m, M] at all times; two runs from ordered data stay ordered; the total variation never increases from one step to the next nor over the outputs. From the deck: if the initial condition takes values in [m, M], so do all averages of all outputs. The bound on the CFL number is sharp: on every mesh of at least five cells a pulse in one cell gets the average nu^(q-1)/(q-1)! (1-nu) in another cell after one full step with CFL number nu (q the order of the scheme), which is negative for every nu > 1.", "quantifier": "all meshes, data, bounds, CFL numbers up to 1, output counts and numbers of steps", "why_tests_cant": "holds for every datum and every sequence of shortened steps; sampled runs show single data", "anchors": ["dg1d/rk.py:integrate", "dg1d/rk.py:classic_rk", "dg1d/rk.py:low_storage_rk4", "dg1d/dg.py:DG.residual", "dg1d/advection_physics.py:riemann_upwinding", "dg1d/solution.py:Solution.apply_bc", "dg1d/main.py:main"]}
{"id": "C80", "title": "A reflected gas runs as the reflection of the run", "statement": "With the Rusanov or Roe flux, the limiter off and the same boundary condition (both periodic or both zero gradient) on both sides, the run from the mirror image of a gas (cells in reverse order, polynomials reflected, momentum reversed) is the mirror image of the run: same times and step sizes, same number of steps and outputs, same end (errors included), every output the mirror image. In particular symmetric gases stay symmetric. (Godunov flux and shock sensor are not mirror symmetric: C40, C51.) (Exact arithmetic.)", "quantifier": "every order, mesh, state, enhancement, deck, Runge-Kutta scheme and number of steps", "why_tests_cant": "symmetry of whole runs over all states; the regressions contain no mirrored pair", "anchors": ["dg1d/dg.py:residual", "dg1d/euler_physics.py:riemann_roe", "dg1d/euler_physics.py:riemann_rusanov", "dg1d/rk.py:integrate", "dg1d/solution.py:apply_bc"]}
{"id": "C81", "title": "Output bookkeeping does not depend on arithmetic", "statement": "Whatever rounding does to the times, a run asked for at least two outputs numbers its sets 0, 1, 2, ... from the initial solution, writes at most nout of them, counts its steps, writes its last state when it finishes, and can fail in the clock only because a CFL step is NaN, -inf or below the threshold: the iterator of output times never runs dry. Without rounding this clock is the clock of the program.", "quantifier": "every rounding function, final time, start time, number of outputs, sequence of CFL steps (infinities and NaN included) and number of iterations", "why_tests_cant": "quantifies over arithmetics and over all sequences of time steps; an off-by-one in the iterator shows only when rounding moves a step across an output time", "anchors": ["dg1d/rk.py:classic_rk", "dg1d/rk.py:low_storage_rk4", "dg1d/rk.py:adjust_for_output", "dg1d/rk.py:sanity_check_dt"]}
{"id": "C82", "title": "Final and output times in double precision", "statement": "In IEEE double precision (no overflow, any rule for ties): the final time is hit exactly if all CFL steps are at most half of it, and always up to 2^(p-52) if it is at most 2^p; if the CFL steps are at most half the first output time and fit between the last two, every set is written exactly at its time on the rounded output grid, none is skipped and the time never decreases. Without the step condition the final time can be missed in the last digit.", "quantifier": "every round-to-nearest function, double precision start and final time, number of outputs, sequence of CFL steps and number of iterations", "why_tests_cant": "rounding patterns depend on all digits of all time steps; tests use a handful of final times and compare with tolerances", "anchors": ["dg1d/rk.py:classic_rk", "dg1d/rk.py:low_storage_rk4", "dg1d/rk.py:adjust_for_output"]}
{"id": "C83", "title": "Termination in double precision, and its limit", "statement": "In double precision every run with 0 <= t <= finaltime <= 128 ends, after at most 2^49*129*nout iterations, whatever CFL steps it finds: a step that passes the sanity check moves the clock. The bound 128 is sharp: with final time 129 there are CFL steps, all passing the sanity check dt >= 1e-14, for which the time stays at 128 forever.", "quantifier": "every round-to-nearest function, start and final time in range, number of outputs, sequence of CFL steps", "why_tests_cant": "non-termination by absorption needs steps near 1e-14 at times above 128; a test would have to run forever to see it", "anchors": ["dg1d/rk.py:sanity_check_dt", "dg1d/rk.py:classic_rk", "dg1d/rk.py:low_storage_rk4", "dg1d/rk.py:adjust_for_output"]}
{"id": "C84", "title": "What a passing regression test means", "statement": "For every Euler deck with two outputs and at least two cells (all six decks of the suite), whatever files are in the directory before: a regression test passes if and only if the program has finished, which is at exactly the final time, and the tables of density, momentum and energy of the solution at the final time have the shape of the gold tables and differ from them by less than 1.5e-10 in every entry (centroids and all coefficients). If the program fails or is stopped, the test ends with an IOError although its return code is ignored, also if files of an earlier run are lying around. Golds copied from a finished run make the test pass. A test leaves alone every file whose name does not end in .dat or begins with a dot, and a visible .dat file that is there afterwards has the name of an output of the run.", "quantifier": "every such deck, gold files with at least two rows, directory contents, number of iterations", "why_tests_cant": "it is about the tests: what they can and cannot let through, for all programs states and golds", "anchors": ["regressions/regressions.py:compare_with_golds", "regressions/regressions.py:launch", "regressions/regressions.py:runcode", "dg1d/main.py:main", "dg1d/rk.py:integrate", "dg1d/solution.py:Solution.printer"]}
{"id": "C85", "title": "The advection convergence study measures what it is meant to", "statement": "For every order p and resolution N >= 2 with N(2p+1) <= 1e14: the deck written by advection_convergence/run.py is parsed to the intended problem; when main.py is run on it (run.py as committed does not manage to start it, see C92) the run finishes, output i of 0..10 is at exactly t = 0.8 i and the last one at t = 8, a whole number of periods of the sine wave, so the initial condition is the exact solution there; the error plot.py computes from the files is half the root mean square difference of the cell averages at the start and at the end (the factor 1/2 is not in the docstring). The L1 and Linf norms are half the mean and half the largest difference. The reported rates do not depend on constant factors in the errors, and errors C/res^q give q at every refinement.", "quantifier": "every order, resolution, directory content, text conversion that reads decimals and its own output; every list of errors and increasing resolutions", "why_tests_cant": "the study has no tests; a wrong output time, a wrong file number or a factor in the norm depending on the resolution would spoil the rates silently", "anchors": ["advection_convergence/run.py", "advection_convergence/plot.py:error_norm", "dg1d/deck.py:write_deck", "dg1d/main.py:main", "dg1d/rk.py:integrate"]}
{"id": "C86", "title": "The stability scripts draw the stability boundary and the spectrum", "statement": "exact_stability_boundary returns, for an explicit scheme whose amplification polynomial of degree d has no vanishing coefficient, 100 d points: exactly the z = lambda h for which one step on u' = lambda u multiplies the solution by minus one of the 100 phases, so the modulus is conserved there; it works for rk3, rk4, rk5 and raises a ValueError if a coefficient vanishes, because sympy's coeffs() drops it. approximate_stability_bndry samples the modulus of the amplification factor of the scheme the solver runs, and drawing the mirrored contour is justified by conjugation symmetry. get_eigenvalue returns for the standard scheme 50 (p+1) points, exactly the eigenvalues for the 50 waves, none right of the imaginary axis. All returned points go round their mean in order of angle.", "quantifier": "every explicit table, every order p, every root finder and eigenvalue solver that is correct", "why_tests_cant": "there are no tests of the scripts; a curve is only looked at", "anchors": ["analysis/rk_stability.py:exact_stability_boundary", "analysis/rk_stability.py:approximate_stability_bndry", "analysis/aux_functions.py:sort_roots_angle", "analysis/dg_stability.py:get_eigenvalue"]}
{"id": "C87", "title": "The plot tools show the saved solution", "statement": "plot.py, given the number of an output of a solution with at least two cells, places for every interior cell and no ghost cell a circle at every Gauss node and a square at both edges, at the height of the cell's polynomial there; for Euler the three figures show density, velocity and 0.4/(gamma-1) times the pressure, which is the pressure exactly for gamma = 1.4, so for simplew (gamma = 3) the pressure shown is a fifth of the true one. Sensor flags are shown at the centroids if a sensor file of output 0 exists; such a file left by another run makes the tool end in an error. regressions/plot.py shows at the centroids the average density and velocity and pressure of the averages, with the same factor.", "quantifier": "every saved solution, every order, every output number, every content of the directory", "why_tests_cant": "there are no tests of the plot tools; a plot is only looked at", "anchors": ["dg1d/plot.py", "regressions/plot.py", "dg1d/solution.py:loader"]}
{"id": "C88", "title": "Runs do not depend on the units of measurement", "statement": "A run of the Euler code with the Rusanov or the Roe flux, with any limiter, scheme, deck and number of steps, commutes with a change of the units of density, length and time: the run from the converted start takes the same steps, ends the same way, and all solutions and outputs are the converted ones. The only absolute number in it is the bound 1e-14 on the time step, which makes the same run stop in one unit of time and not in another. With the Godunov flux the claim is false: its iteration stops at an absolute pressure difference of 1e-6. The advection sensor depends on the unit of the unknown: in all small enough units nothing is flagged.", "quantifier": "all changes of units, solutions, orders, limiters, schemes, decks, numbers of steps", "why_tests_cant": "the regression decks all use quantities of order one; an absolute constant shows only in other units", "anchors": ["dg1d/euler_physics.py:riemann_rusanov,riemann_roe,riemann_godunov,max_wave_speed,sensing", "dg1d/advection_physics.py:sensing", "dg1d/rk.py:integrate,get_next_time_step", "dg1d/limiting.py:Limiter.limit"]}
{"id": "C89", "title": "The Rusanov discretisation keeps density and pressure positive", "statement": "For every gamma > 1, boundary condition and mesh, without enhancement: with the Rusanov flux and order 0, cells plus dt times the residual have positive density and pressure if the cells have and no signal crosses a cell within dt, in particular for every dt up to the code's time step with a CFL number of at most 1. For every order the same holds for the cell averages if the gas is physical at the points of a quadrature rule with end points exact for the order and no signal crosses the fraction of a cell given by the end weight (1/2 for order 1, 1/6 for orders 2 and 3). The residual exists in both cases. With Roe's flux it is false: for gas flying apart the pressure becomes negative although the entropy fix is active.", "quantifier": "all physical cell states, meshes, orders, gamma > 1, time increments within the bound", "why_tests_cant": "needs all gas states; tests use mild flows, in which every flux stays positive", "anchors": ["dg1d/euler_physics.py:riemann_rusanov,riemann_roe,max_wave_speed", "dg1d/dg.py:residual", "dg1d/rk.py:cfl_time_step"]}
{"id": "C90", "title": "The schemes with decimal tables have the order of their name up to rounding, and no scheme has a higher order", "statement": "The tables integrate selects for rk8 and rk10, taken as the decimal numbers written in rk_coeffs.py, satisfy the order condition of every rooted tree with at most 8 and 10 vertices up to a relative error of 1e-16 and 1e-56. With the next order the conditions of rk3, rk4, low_storage_rk4, rk5, rk6, rk8 and rk10 fail by more than rounding (by 2e-2 or more). Where the right-hand sides of the semi-discrete DG equations are analytic, there is a constant K of the problem such that one step without limiter with any scheme of the code whose table satisfies the conditions up to order q within eps ends within C |dt|^(q+1) + eps K |dt| of the exact solution.", "quantifier": "every rooted tree up to the order; all solutions, orders, meshes, boundary conditions, enhancements and small steps", "why_tests_cant": "1202 order conditions with up to ten factors each; a wrong digit in one of the hundreds of coefficients only shows as a slightly reduced order", "anchors": ["dg1d/rk_coeffs.py:get_rk8_coefficients", "dg1d/rk_coeffs.py:get_rk10_coefficients", "dg1d/rk.py:integrate", "dg1d/rk.py:classic_rk"]}
{"id": "C91", "title": "Updating arrays in place and copying objects does not change the result", "statement": "With solutions and arrays as references to a store (deepcopy, np.copy, in-place +=, slice assignment, fill, the preallocated arrays uf_tmp, Q and sensors, methods bound to the copied object), classic_rk and low_storage_rk4 give after any number of iterations the same printed records, status and output times as with values, and while no exception is raised the same solution, us, uk and increments. The three objects never share an array with one another, with the increments or with Q, and nothing else that was on the store is written. The whole program writes the same files and ends the same way in both models.", "quantifier": "every store in which the solution stands alone, every scheme, limiter, deck, number of iterations; every input of the program", "why_tests_cant": "an alias only shows when one reference is written while another is still to be read, which depends on scheme, limiter and enhancement", "anchors": ["dg1d/solution.py:copy,copy_data_only,smart_axpy,apply_bc,evaluate_faces", "dg1d/rk.py:classic_rk,low_storage_rk4", "dg1d/dg.py:residual", "dg1d/limiting.py:adaptive_hr", "dg1d/enhance.py:face_value", "dg1d/sensor.py:sensing"]}
{"id": "C92", "title": "The scripts of the convergence study: as committed they never start the program; with its full path they do what is meant", "statement": "run.py as committed (codedir = '../dg1d/', used after os.chdir into order/resolution), for all lists of orders and different resolutions and whatever is on the disk and outside: it ends without an exception, but the shell looks for order/dg1d/main.py, the program is never started, and every directory holds exactly the deck and an empty log file; after that plot.py raises, whatever older data there are. If codedir is a full path (no blanks, outside of the data directory): the directory of each order holds exactly one directory for each resolution with what the program leaves in a directory with the deck only, and its log (nothing of earlier studies or of other runs); plot.py on these data gets, in whatever order the system lists names, the resolutions in increasing order with the errors (half the root mean square difference of the averages at t = 0 and t = 8) and the elapsed times at the same places, if each run took less than a day; after runs with each of the four assignments of run.py it draws four curves. In both cases other orders are left alone, running the script again changes nothing, and a resolution listed twice raises. The theoretical curve starts at the first error and has the rate 2p+1.", "quantifier": "all lists of orders and resolutions (for plot.py N >= 2 with N(2p+1) <= 1e14), all contents of the data directory, all places of the program, all listing orders", "why_tests_cant": "the scripts have no tests and drop the return code of the shell; the statement is about every earlier content of the disk and every listing order", "anchors": ["advection_convergence/run.py", "advection_convergence/plot.py", "dg1d/deck.py:write_deck"]}
{"id": "C93", "title": "The timer plot.py reads from the log", "statement": "get_timer takes the fifth word of the first line of the log with 'seconds' in it. For every run (any deck with or without limiter, sensors and enhancement, any outputs printed, any elapsed time): under a day, this is the elapsed time in seconds with six decimals, none of the other lines is taken for it; from one day on str(timedelta) contains blanks ('1 day, 1:01:01'), the fifth word is the clock time and plot.py ends with a ValueError although all data are there; if the run stopped before its last line, NaN is stored.", "quantifier": "all decks, all lists of outputs, all elapsed times, all versions (one line without 'seconds'), all formats of numbers without line breaks and the letter d", "why_tests_cant": "no test runs for a day; the other lines of the log depend on the run", "anchors": ["advection_convergence/plot.py:get_timer", "dg1d/main.py:main", "dg1d/solution.py:Solution.printer"]}
{"id": "C94", "title": "Command line, git call and start of the regression tests", "statement": "main.py reads the deck named last on the command line by -d or --deck, deck.inp if there is none; a command line with any other plain word, or an option without value, stops it with nothing written. If git gives no answer (not installed, or the working directory is not in a checkout) it ends with an exception before it reads the deck or writes a file, whatever the arguments. Started by the regression driver in a checkout with no blank in its path, it runs on deck.inp and the test has the result of C84; the log file has its output and no other file is affected by it. In an unpacked archive, or with a blank in the path, every regression test ends with an IOError whatever is in the directory: the old outputs are removed, nothing is compared, the log is empty.", "quantifier": "all command lines of -d, --deck and words without a leading dash; all directories, decks, paths and answers of git", "why_tests_cant": "the tests run in one checkout with one command line, and the driver drops return code and messages", "anchors": ["dg1d/main.py:main", "dg1d/main.py:get_git_revision_hash", "regressions/regressions.py:runcode", "regressions/regressions.py:RegressionsTestCase.launch"]}
{"id": "C95", "title": "The figures made after a regression test", "statement": "regressions/plot.py, given the number of an output of an Euler solution, saves density.png, velocity.png and pressure.png with the averages at the centroids (pressure times 0.4/(gamma-1)) as circles and columns 2, 3, 4 of exact.txt against column 1 as lines (also if the sensor file cannot be read), and sensors.png with the flag of every interior cell at its centroid if the solution has sensors; the sensor files of other outputs (which stop dg1d/plot.py, C87) do not matter. Without the file of the density, or without an exact.txt of at least two rows and four columns, it saves no figure.", "quantifier": "every saved Euler solution of at least two cells with non-zero average densities, every output number, every content of the directory", "why_tests_cant": "the driver drops the return code of the tool; a plot is only looked at", "anchors": ["regressions/plot.py", "dg1d/solution.py:loader", "dg1d/solution.py:printer"]}
{"id": "C96", "title": "The clock only places the outputs; a run can be taken up at any output", "statement": "Starting the same data c later and ending c later, with any step counter, gives the same run: same coefficients, steps, outputs and end after every number of iterations, only the clock and counter are shifted. A run that is stopped right after one of its outputs and started again from the solution in memory, with the number of outputs that are left, goes through the same solutions step by step, writes the same remaining outputs (numbers starting over) and ends the same way: nothing in the previous-solution, stage and increment arrays or the sensor flags carries over from one step to the next.", "quantifier": "all integrators (low storage and every Butcher table), limiters, sensors, physics whose sensor keeps the length of its array (both of the code, for every input deck), solutions, decks, shifts, outputs and numbers of iterations; exact arithmetic", "why_tests_cant": "a stale stage array or flag shows only for particular step sequences; tests run each case once from time zero", "anchors": ["dg1d/rk.py:classic_rk", "dg1d/rk.py:low_storage_rk4", "dg1d/rk.py:adjust_for_output", "dg1d/limiting.py:adaptive_hr", "dg1d/sensor.py:sensing"]}
{"id": "C97", "title": "Sensor thresholds of one half or more switch the limiter off", "statement": "If all sensor thresholds are at least 1/2 no cell is ever flagged, whatever the solution holds (also non-physical states), and the limiter only fills the ghost cells. A deck that starts without a limiter and has enough such thresholds writes the same files and ends the same way with any word after the limiting keyword, adaptive_hr at order 0 included. One half is the limit: below it a jump of one (advection) and a contact with a large enough density ratio (Euler) are flagged.", "quantifier": "all solutions, orders, integrators, decks, limiter tables, thresholds at least 1/2 (sharpness: below 1/2) and numbers of iterations; exact arithmetic", "why_tests_cant": "the effect of a parameter that is never exceeded cannot be shown by running cases; it needs the bound of the indicator for every pair of states", "anchors": ["dg1d/sensor.py:sensing", "dg1d/advection_physics.py:sensing", "dg1d/euler_physics.py:sensing", "dg1d/limiting.py:adaptive_hr", "dg1d/main.py:main"]}
{"id": "C98", "title": "With every cell limited, linear advection makes no new extrema", "statement": "Advection of order 1 with limiter adaptive_hr, a negative first sensor threshold (every cell is limited), zero gradient at the left boundary and no enhancement: with rk4 or low_storage_rk4 and a CFL number of at most 1, or rk3 and a CFL number of at most 2/5, cell averages that start in [m, M] stay in [m, M], their total variation never grows, and increasing profiles stay increasing, after every iteration; for a deck: if the initial condition takes values in [m, M], all averages of all outputs are in [m, M] and their total variation is at most that of the first output.", "quantifier": "all numbers of cells, cell data, bounds m and M, decks with an initial condition with zero gradient boundaries, numbers of iterations; exact arithmetic", "why_tests_cant": "a run shows one profile; an overshoot can appear for another profile, cell number or at a later iteration", "anchors": ["dg1d/limiting.py:adaptive_hr", "dg1d/limiting.py:limit_monomial", "dg1d/limiting.py:scalar_minmod", "dg1d/rk.py:integrate", "dg1d/rk.py:classic_rk", "dg1d/dg.py:residual", "dg1d/advection_physics.py:riemann_upwinding"]}
{"id": "C99", "title": "Uniform velocity and pressure are kept exactly while the density is carried along", "statement": "Euler equations, gamma > 1: between two gases of equal velocity v and pressure P > 0 every Riemann solver returns the flux carried by a single mass flux (upwind for Godunov and Roe, the Rusanov mass flux for Rusanov). Hence a run without limiter that starts from a gas with velocity v and pressure P at every point of every cell has exactly velocity v and pressure P at every point of every output, whatever the density does, until a density at an interface or quadrature point is not admissible, where the run stops; and as long as the density is positive the residual of the density is the discontinuous Galerkin discretisation of rho_t + v rho_x = 0 with that mass flux.", "quantifier": "all gamma > 1, v, P > 0, densities, orders, numbers of cells, solver names, Runge-Kutta schemes, enhancements built by the code, periodic and zero-gradient boundaries, numbers of iterations; exact arithmetic", "why_tests_cant": "pressure oscillations at contacts show up only for some density jumps, velocities or solvers; a test run samples one of them", "anchors": ["dg1d/euler_physics.py:riemann_rusanov", "dg1d/euler_physics.py:riemann_roe", "dg1d/euler_physics.py:riemann_godunov", "dg1d/euler_physics.py:interior_flux", "dg1d/dg.py:residual", "dg1d/rk.py:integrate"]}
{"id": "C100", "title": "The entropy wave converges with the order of the scheme", "statement": "Euler equations, Riemann solver other than 'rusanov', rk3, no limiter, no enhancement, periodic boundaries, CFL number at most (2p+1)/(3(p+1)^2), started from the interpolant of a gas with velocity v >= 0, pressure P > 0 and a smooth periodic density rho0. The exact solution is rho0(x - v t) with velocity v and pressure P. Every output differs from it in L2, in density, momentum and energy, by at most (1+v)^2 C (dx^(p+1) + h^3), h = dx cfl/(2p+1), with C independent of mesh, gamma, v, P and cfl (until a density is inadmissible, where the run is stopped). If rho0 >= m > 0, then on all sufficiently fine meshes no density below m/2 ever occurs in a cell and no inadmissible one at a stage, so this is the run of the code, and it reaches the final time unless the time step falls below 1e-14. In particular for the setup 'entrpyw'.", "quantifier": "all orders p, smooth periodic densities, gamma > 1, v >= 0, P > 0, numbers of cells, CFL numbers in the range, output counts, final times with v t <= T, iterations; exact arithmetic", "why_tests_cant": "a convergence test measures a slope on a few meshes at one time; the claim is an error bound with one constant for all meshes, velocities, pressures and outputs, and the absence of vacuum states at every stage", "anchors": ["dg1d/solution.py:entrpyw", "dg1d/euler_physics.py:riemann_roe", "dg1d/euler_physics.py:riemann_godunov", "dg1d/euler_physics.py:max_wave_speed", "dg1d/dg.py:residual", "dg1d/rk.py:integrate"]}
{"id": "C101", "title": "Waves travel with an error of order exactly 2p+1", "statement": "For every order p, on waves of small phase theta per cell the matrix of the stability script (which is the operator of the solver) has a small eigenvalue, and every small eigenvalue differs from the exact -i theta/2 by an amount between two fixed positive multiples of theta^(2p+2). In terms of the solver: for a wave number kappa with kappa dx small there is a wave, given by its coefficients in one cell, on which the advection residual is multiplication with a number that is not to the right of the imaginary axis and differs from -i kappa by an error of order kappa^(2p+2) dx^(2p+1), no worse and no better. This is the slope 2p+1 that the convergence study draws.", "quantifier": "all orders p, all cell counts and widths, all wave numbers below a bound on the phase per cell that depends on p only; exact arithmetic", "why_tests_cant": "eigenvalues can be computed for a few orders and angles; the order of contact, with both bounds, for all p is a statement about the limit", "anchors": ["analysis/dg_stability.py:dg_matrices", "analysis/dg_stability.py:get_eigenvalue", "dg1d/dg.py:residual", "dg1d/advection_physics.py:riemann_upwinding", "advection_convergence/plot.py"]}
{"id": "C102", "title": "Contacts at rest and standing shocks are kept exactly by Roe and Godunov, never by Rusanov", "statement": "Two gas states joined by a contact at rest, or by a shock of speed zero that obeys Lax's condition, have one flux, and the solvers 'roe' and 'godunov' return it. So a solution with one constant state per cell and only such jumps between the cells stays as it is in a run: every output holds the same states, for all orders, schemes and step sizes, also with the limiter on if no cell has jumps on both sides. A gas at rest of constant pressure keeps any density profile when the limiter is off. A shock tube deck with such states and the diaphragm at a face runs to the end and every output file shows the initial states. The solver 'rusanov' returns the flux only for equal states: in the cell beside such a jump the residual is not zero. An expansion shock is not kept by 'roe'.", "quantifier": "all gamma > 1 (7/5 for the decks), all physical states, orders, cell counts, schemes, iteration counts, limiter thresholds; no enhancement (for the gas at rest: modes up to the order); exact arithmetic", "why_tests_cant": "stationary_contact in the regression suite is one deck, and it uses Rusanov, which smears the contact; a test has a tolerance and one pair of states, and cannot tell exact balance from slow drift", "anchors": ["dg1d/euler_physics.py:riemann_roe", "dg1d/euler_physics.py:riemann_godunov", "dg1d/euler_physics.py:riemann_rusanov", "dg1d/dg.py:residual", "dg1d/limiting.py:limit", "dg1d/solution.py:scktube", "regressions/stationary_contact/deck.inp"]}
{"id": "C103", "title": "The cell averages of smooth waves converge with order 2p+1", "statement": "Linear advection on a periodic uniform mesh, any trigonometric polynomial interpolated at the Gauss nodes, no limiter and no enhancement, one of the time schemes of order q = 3 to 6 and a CFL number below a bound that depends on p and the scheme only. On every mesh fine enough and in every output up to time T, the average of the computed solution over each cell differs from the average of the exact solution by at most C (dx^(2p+1) + dt^q + exp(-delta t/dx)), with one constant C for all meshes; the averages at the start are right to order 2p+2. Hence for the sinewave deck with N cells the norm plot.py computes after a whole number of periods (half the root mean square of the differences of the cell averages at the end and at the start) is O(N^-min(2p+1, q)): the slope 2p+1 drawn in the convergence study, against p+1 for the L2 error (C78).", "quantifier": "all orders p, mesh sizes (above a threshold), trigonometric polynomials, final times, output counts, iteration counts; five time schemes; exact arithmetic", "why_tests_cant": "the study shows a slope over a few meshes; it cannot tell a uniform constant from one that grows, nor say that the order 2p+1 holds for every order, every wave and every time", "anchors": ["dg1d/dg.py:residual", "dg1d/rk.py:integrate", "dg1d/basis.py:projection", "dg1d/solution.py:sinewave", "advection_convergence/plot.py"]}
{"id": "C104", "title": "Rounding errors of the advection solver grow linearly with the number of iterations", "statement": "Linear advection on a periodic uniform mesh with rk3, no limiter, no enhancement, 3(p+1)^2 dt <= dx, with every numpy operation rounded, np.dot in any order of summation, and basis tables, inverse mass matrix, Butcher table and initial coefficients stored with rounding errors. After k iterations the computed coefficients differ in L2 from those of exact arithmetic by at most ((1 + C eps)^k - 1) times the size of the solution plus (1 + C eps)^k times the initial difference, where C depends on the polynomial degree only, not on mesh, solution or steps. For smooth periodic data the error against the exact solution is at most C (dx^(p+1) + h^3 + (k+1) eps) as long as k C eps <= 1; binary64 with rounding to nearest qualifies with eps = m 2^-53. With exact arithmetic the rounded solver is the solver of the other claims.", "quantifier": "all orders p, meshes, solutions, step sequences under the CFL bound, iteration counts, roundings and summation orders of the given accuracy", "why_tests_cant": "a run shows one rounding and one summation order on one mesh; it cannot bound the accumulated error for all of them, nor separate it from the discretisation error", "anchors": ["dg1d/dg.py:residual", "dg1d/dg.py:add_interior_face_fluxes", "dg1d/dg.py:inverse_mass_matrix_multiply", "dg1d/rk.py:classic_rk", "dg1d/solution.py:smart_axpy", "dg1d/solution.py:collocate"]}
{"id": "C105", "title": "The high-order schemes have their order on linear problems down to rounding, and the cell averages converge accordingly", "statement": "rk8, rk10, rk12 and rk14 satisfy the order conditions of linear problems up to the order of their names within 1e-16, 1e-56, 1e-56 and 1e-51 and miss the next one by more than 1/1000, 42, 6 and 400000: a step on u' = A u is a polynomial in h A whose coefficients up to that degree are those of the exponential within these relative errors. Linear advection of trigonometric polynomials on periodic uniform meshes with any table of at most n stages and entries up to W that meets the linear conditions up to order q within eps: on every mesh fine enough and in every output up to time T, the average over each cell is right up to C (dx^(2p+1) + dt^q + exp(-delta t/dx) + eps), with constants that do not depend on the table, on eps or on the mesh. Hence for the sinewave deck with one of these schemes (the convergence study uses rk12) the norm plot.py computes after a whole number of periods is at most C (N^-min(2p+1, q) + eps).", "quantifier": "all orders p, mesh sizes (above a threshold), trigonometric polynomials, final times, output counts, iteration counts, tables of bounded size; exact arithmetic", "why_tests_cant": "the tables are rounded, so the schemes have no exact order and a slope over a few meshes cannot tell order from luck; with double precision the floor of 1e-56 is never seen", "anchors": ["dg1d/rk_coeffs.py:get_rk12_coefficients", "dg1d/rk_coeffs.py:get_rk8_coefficients", "dg1d/rk_coeffs.py:get_rk14_coefficients", "dg1d/rk.py:integrate", "dg1d/dg.py:residual", "advection_convergence/run.py", "advection_convergence/plot.py"]}
{"id": "C106", "title": "A gas that leaves the states with real sound speed: NaN stops the run at the next step and only the last output can hold it", "statement": "Euler runs with the solvers rusanov or Roe, without enhancement and limiter, any Runge-Kutta scheme. As long as all Riemann problems and flux evaluations are real the run is the one of exact real arithmetic and holds no NaN. In the step where one of them is not, NaN ends up in the average of some cell: no stage of any of the tables is wasted, and neither the update nor the boundary conditions lose it. The step prints at most one output. If it is not the last step of the run, the next one stops with 'Time step is NaN' and prints nothing. So of all outputs only the last can hold NaN, and if the averages of the interior cells are numbers at some point, no NaN has occurred before. If the bad step is the last one, however, the run ends as if nothing had happened, with NaN in its final output; this can happen in the first step, from averages of positive density and pressure. Roe's solver accepts states of negative pressure that rusanov answers with NaN.", "quantifier": "all orders, meshes, data, gammas, schemes, CFL numbers, output counts, iteration counts; arithmetic of the reals with NaN", "why_tests_cant": "where a computation first meets NaN depends on the data; that no table, stage or boundary can swallow it is a statement on all of them", "anchors": ["dg1d/rk.py:sanity_check_dt", "dg1d/rk.py:classic_rk", "dg1d/rk.py:low_storage_rk4", "dg1d/dg.py:residual", "dg1d/euler_physics.py:riemann_rusanov", "dg1d/euler_physics.py:riemann_roe", "dg1d/euler_physics.py:max_wave_speed", "dg1d/euler_physics.py:interior_flux", "dg1d/solution.py:smart_axpy", "dg1d/solution.py:apply_bc"]}
{"id": "C107", "title": "At single waves the shock sensor finds exactly the shocks, of both families, if gamma is at most 5/3", "statement": "At a face whose two states are joined by one wave (Rankine-Hugoniot conditions with some speed), with 1 < gamma <= 5/3 and a shock threshold th >= 0, the sensor detects a shock exactly if Lax's entropy condition holds, for the first or the third family, and the ratio of the lower to the higher pressure is below sqrt(1-2th). So both cells next to such a shock get flag 2 whatever the rest of the flow; contacts, weaker shocks and expansion shocks do not cause it; and flows of single waves are flagged symmetrically although only the v-c characteristic is tested. For every gamma > 5/3 there is a right-running shock into gas at rest that is missed with every threshold. (Exact arithmetic.)", "quantifier": "all states, wave speeds, thresholds, gammas, meshes, previous flags", "why_tests_cant": "all shock strengths and both directions; the bound 5/3 is only reached in the limit of strong shocks", "anchors": ["dg1d/euler_physics.py:sensing", "dg1d/sensor.py:Sensor.sensing"]}
{"id": "C108", "title": "Advection carries no information upstream; enhanced faces do", "statement": "Linear advection without limiter and enhancement, zero-gradient on the left: two runs on meshes of the same cell width, possibly with different numbers of cells and any right boundary conditions, that start from the same polynomials in the first m cells have the same polynomials in these cells, the same clock, the same number of outputs and the same end, at every iteration and every output. In particular the end of the domain and the right boundary condition have no influence, and cells in front of any wave that hold a constant keep it for ever. With any enhancement this fails: for every order, every non-empty list of modes and every cell a change of the right neighbour alone changes the residual of the cell average.", "quantifier": "all orders, schemes, tables, decks, iteration counts, meshes, initial data, cells m", "why_tests_cant": "all data to the right of cell m, all domain lengths and all numbers of steps at once", "anchors": ["dg1d/advection_physics.py:riemann_upwinding", "dg1d/dg.py:DG.residual", "dg1d/solution.py:Solution.apply_bc", "dg1d/rk.py:RK", "dg1d/enhance.py:Enhance.face_value"]}
{"id": "C109", "title": "The limiter never hides a NaN, and spreads it to the left only", "statement": "Order p >= 1, hierarchical reconstruction with NaN arithmetic and the sorting of CPython. On numbers it is the reconstruction of the model. A NaN in the limited column or in its right neighbour makes every coefficient NaN; a NaN in the left neighbour alone leaves the result real, equal to the reconstruction with some real left neighbour, with the average kept. For a whole array and any flags: an interior column has a NaN afterwards exactly if it had one before, or if its cell is flagged and the right neighbour had one; a NaN average stays NaN; unflagged columns are unchanged.", "quantifier": "all orders >= 1, columns, positions of NaN, flags, meshes, numbers of fields", "why_tests_cant": "all positions of NaN and all data; that sorted() with a NaN depends on the order of its arguments shows only for particular positions", "anchors": ["dg1d/limiting.py:scalar_minmod", "dg1d/limiting.py:Limiter.limit_monomial", "dg1d/limiting.py:Limiter.hr", "dg1d/limiting.py:Limiter.adaptive_hr"]}
{"id": "C110", "title": "Without limiter no order above 0 keeps bounds", "statement": "In exact arithmetic, linear advection without limiter and enhancement, rk3, rk4 or low_storage_rk4, any boundary conditions, first step not shortened. Order p >= 2, at least q+1 cells (q the order of the scheme), any CFL number below 2p+1: there are initial data whose cell polynomials take values in [0, 1] only, and whose solution after the first step has a negative value. Order 1: for the jump from 1 to 0 at the left end of a cell e >= q+1 the value at the right end of that cell after the first step is -2r+7r^2-22/3 r^3 with r = dt/dx for rk3, and 23/6 r^4 more for the other two; it is negative at every CFL number for rk3 and at every CFL number up to 6/5 for the others.", "quantifier": "all orders, meshes, boundary names, widths, CFL numbers in the stated range", "why_tests_cant": "an impossibility for all steps and orders at once; a sampled run only shows one undershoot at one CFL number", "anchors": ["dg1d/rk.py:integrate", "dg1d/rk.py:classic_rk", "dg1d/rk.py:low_storage_rk4", "dg1d/dg.py:DG.residual", "dg1d/advection_physics.py:riemann_upwinding"]}
{"id": "C111", "title": "Limited Euler runs that meet NaN: the sensor does not see it and the limiter does not remove it", "statement": "Euler runs with the limiter adaptive_hr at order p >= 1 and two thresholds, solvers rusanov or Roe, no enhancement, any Runge-Kutta scheme, arithmetic of the reals with NaN. Sensor and limiter raise no exception on any data of the right shape, and on numbers they are those of exact real arithmetic. A cell with NaN among its averages is never flagged, so all its coefficients pass the limiter unchanged. As long as everything is real the limited run is the one of exact arithmetic. In the step where it is not, NaN ends up in the average of some cell in spite of the limiter; if it is not the last step, the next one stops with 'Time step is NaN' and prints nothing. Of all outputs only the last can hold NaN, and averages without NaN show that none has occurred. A run whose last step is the bad one ends normally with NaN in its last output.", "quantifier": "all orders >= 1, meshes, data, positions of NaN, gammas, thresholds, schemes, CFL numbers, output counts, iteration counts", "why_tests_cant": "where NaN first occurs depends on the data; that no combination of flags, stage and position removes it is a statement about all of them", "anchors": ["dg1d/euler_physics.py:sensing", "dg1d/sensor.py:Sensor.sensing", "dg1d/limiting.py:Limiter.limit", "dg1d/limiting.py:Limiter.adaptive_hr", "dg1d/rk.py:integrate", "dg1d/rk.py:classic_rk", "dg1d/rk.py:low_storage_rk4"]}
{"id": "C112", "title": "The sensor flags of an output are those of the data printed with them", "statement": "The sensor file and the percentage on the console are written after the limiter and the time step, from flags stored in the solution. In a run with the limiter the flags stored at every output, the first one included, are the ones the sensor would compute from the data of that very output, with the thresholds of the deck: for advection flag 1 exactly next to a face where the printed averages jump above the threshold, for Euler 2 next to a shock of the printed averages, else 1 next to a discontinuity, else 0. In a run with thresholds but without limiter the sensor is never run, and all flags of all outputs are 0 whatever the data does. The percentage printed is that of the flagged cells inside the domain: between 0 and 100, 0 only without and 100 only with all flags; flags of ghost cells do not count.", "quantifier": "all valid decks, orders, meshes, initial conditions, thresholds, Runge-Kutta schemes, output and iteration counts; C112_own and C112_off for every residual", "why_tests_cant": "a flag one step behind its data shows only where a wave enters or leaves a cell between two limitings; no test reads the sensor file of a run", "anchors": ["dg1d/sensor.py:Sensor.sensing", "dg1d/limiting.py:Limiter.adaptive_hr", "dg1d/solution.py:Solution.printer", "dg1d/rk.py:classic_rk", "dg1d/rk.py:low_storage_rk4", "dg1d/main.py:main"]}
{"id": "C113", "title": "The steps of an advection run, counted exactly", "statement": "With M+1 outputs up to final time T, let tau = T/M and delta = dx*cfl/(2p+1). If delta <= tau an advection run ends after exactly M*(floor(tau/delta)+1) iterations; output q is written at step q*(floor(tau/delta)+1), at time q*tau, with printed time step tau - floor(tau/delta)*delta, which lies in [0, delta). It is zero exactly if tau is a multiple of delta: then the test 'dt > tout - t' lets a full step end on the output time without output, and a further step of length zero follows which only counts, fills the ghost cells and limits once more; without limiter M of the iterations leave every coefficient of every cell as it was. If delta > tau each iteration is one output interval as long as a CFL step fits before T, then one step to T follows: with J intervals done before that, J+2 outputs are written instead of M+1, the last one numbered J+1 with time T.", "quantifier": "all valid advection decks, orders, meshes, final times, output counts, Runge-Kutta schemes, with or without limiter and enhancement; C113_wasted without limiter; C113_counts and C113_skips for every run that keeps its CFL step and does not raise", "why_tests_cant": "the counts depend on floor(tau/delta) for all decks; a step of length zero changes no output and goes unseen in comparisons of outputs", "anchors": ["dg1d/rk.py:get_next_time_step", "dg1d/rk.py:adjust_for_output", "dg1d/rk.py:cfl_time_step", "dg1d/rk.py:integrate", "dg1d/rk.py:classic_rk", "dg1d/rk.py:low_storage_rk4"]}
{"id": "C114", "title": "On a periodic domain advection runs forget their initial data", "statement": "Advection on a periodic domain, no limiter, no enhancement. The residual of a field is zero exactly if the field is one constant. With rk3 and a CFL number below (2p+1)/(3(p+1)^2) there is a factor rho < 1, the same for all final times and numbers of outputs, such that output q of a run with output interval tau has a squared distance from the mean of at most rho^(q*floor(tau/delta)) times that of the initial data, the mean being that of the initial data; so runs that are long enough end as close to the mean as one likes, although the exact solution only moves around. Each step of length dt reduces the squared distance by at least the factor 1 - kappa*dt^4 for one kappa > 0, the same for all data on the mesh. Every eigenvalue analysis/dg_stability.py computes for the standard scheme has a negative real part, except the eigenvalue 0 of the constants at wave number 0. With rk4 or low_storage_rk4, a CFL number of at most (2p+1)/(18(p+1)^2) and outputs at least two CFL steps apart there is such a factor for every CFL step, the same for all data on the mesh, final times and numbers of outputs, with exponent q*floor(K/2) for K = floor(tau/delta); so these runs too end as close to the mean as one likes if they are long enough.", "quantifier": "all orders, meshes, data, final times, numbers of outputs with tau at least the CFL step, all iterations; C114_damped all z on the unit circle and all eigenvectors", "why_tests_cant": "a limit in time for all data; the decay is slow for high orders and looks like rounding over a few periods", "anchors": ["dg1d/dg.py:DG.residual", "dg1d/advection_physics.py:riemann_upwinding", "dg1d/rk.py:classic_rk", "dg1d/rk.py:get_next_time_step", "dg1d/rk_coeffs.py:get_rk3_coefficients", "analysis/dg_stability.py:dg_matrices", "analysis/dg_stability.py:get_eigenvalue", "dg1d/rk_coeffs.py:get_rk4_coefficients"]}
{"id": "C115", "title": "With the fourth order schemes the energy of advection does not grow over two equal steps nor from output to output", "statement": "Linear advection on a periodic domain, rk4 or low_storage_rk4, no limiter, no enhancement, exact arithmetic, CFL number at most (2p+1)/(18(p+1)^2). A single iteration multiplies the integral of u^2 by at most 1 + 1/400000; two successive iterations with equal time steps do not increase it. A single step can increase it: with the coefficients 0, -1000, 15, 1000 in every cell at order 3 and CFL number 7/288 the first step does. If outputs are at least two CFL steps apart, the integral never increases from one output to a later one although the last step before an output is shorter, and after no iteration it exceeds 1 + 1/400000 times its value at the start, however long the run.", "quantifier": "all orders, meshes, data, final times, numbers of outputs, all iterations, all pairs of outputs", "why_tests_cant": "the bound is not seen step by step: only groups of steps are contractive; it has to hold for all data and arbitrarily long runs", "anchors": ["dg1d/rk.py:classic_rk", "dg1d/rk.py:low_storage_rk4", "dg1d/rk.py:adjust_for_output", "dg1d/rk_coeffs.py:get_rk4_coefficients", "dg1d/dg.py:DG.residual", "dg1d/advection_physics.py:riemann_upwinding"]}
{"id": "C116", "title": "Two runs of linear advection do not drift apart", "statement": "Linear advection on a periodic domain, no limiter, no enhancement, exact arithmetic, one deck and any two initial data on the same mesh with the same clock. With rk3 and CFL number at most (2p+1)/(3(p+1)^2): after every iteration both runs have the same status and time, no iteration increases the integral over the mesh of the squared difference of the two solutions, the two runs write the same number of outputs with the same numbers, times and time steps, the difference of the outputs never increases from an output to a later one and is bounded by that of the initial data. With rk4 or low_storage_rk4 and CFL number at most (2p+1)/(18(p+1)^2): an iteration multiplies that integral by at most 1 + 1/400000 and two iterations with equal time steps do not increase it. If in addition the outputs are at least two CFL steps apart, after no iteration the integral exceeds 1 + 1/400000 times that of the initial data, the outputs correspond as with rk3, and their difference never increases from an output to a later one and is bounded by that of the initial data. If the two data have the same total, the runs converge to each other: with rk3 and CFL number at most theta < 1 times the bound a step of length dt multiplies the integral by at most 1 - kappa*dt^4 for one kappa > 0, with rk4 or low_storage_rk4 and outputs at least two CFL steps apart the difference of output q is at most rho^(q*floor(K/2)) times that of the data for one rho < 1, K the number of CFL steps that fit between two outputs.", "quantifier": "all orders, meshes, pairs of initial data, decks, all iterations, all pairs of outputs", "why_tests_cant": "a test compares a few pairs of runs; the claim is about every perturbation of every initial datum, for runs of any length", "anchors": ["dg1d/rk.py:classic_rk", "dg1d/rk.py:low_storage_rk4", "dg1d/rk.py:get_next_time_step", "dg1d/dg.py:DG.residual", "dg1d/advection_physics.py:riemann_upwinding"]}
{"id": "C117", "title": "When the curve that the plot tool draws as the exact solution is the exact solution", "statement": "dg1d/plot.py draws 200 samples of sin(2 pi x) on [-1, 1] as the exact solution, exactly if the system is \"advection\", whatever the files and the step. All these points lie on the exact solution of the sine wave at time t if and only if t is an integer; no point is farther than 2 |sin(pi t)| from it, the first one is off by |sin(2 pi t)|, and half a period after an integer time the curve has the wrong sign. For the initial condition ictest it is wrong at all times. Outputs of a valid sine deck (rk3, no limiter, no enhancement, CFL bound of C75) at integer times converge to the function drawn at the rate of C78; for any solution on a uniform mesh of [-1, 1] the squared L2 distances to the function drawn and to the exact solution at time t add up to at least 2 sin^2(pi t), so at other times a good output does not fit the curve.", "quantifier": "all times, all systems, all outputs, meshes and orders", "why_tests_cant": "the tool is not tested, and a test looks at one time only; the statement is about all real times", "anchors": ["dg1d/plot.py:102-106", "dg1d/solution.py:Solution.sinewave", "dg1d/solution.py:Solution.ictest"]}
{"id": "C118", "title": "What makedir makes", "statement": "If the path given to makedir does not exist and no file is among the paths above it, no exception is raised, the path and all paths above it are directories afterwards, everything else is unchanged and the result is a file tree again. If the path exists, nothing changes and nothing is raised, also if it is a file, in which case there is no directory afterwards. If a path above it is a file, NotADirectoryError is raised, for the empty string FileNotFoundError, and in both cases nothing was made. A second call gives the same tree and the same outcome.", "quantifier": "all file trees and all relative paths of any depth", "why_tests_cant": "there is no test of the helper; trees and depths are unbounded", "anchors": ["dg1d/helpers.py:makedir"]}
