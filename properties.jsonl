{"id": "C01", "title": "Branching keeps the walker count", "statement": "Running the 'branching' population control on a list of walkers and weights returns exactly as many walkers and weights as were passed in, and walker and weight lists stay in step.", "quantifier": "for every finite list of walkers, every real weight list of the same length, every threshold pair and every sequence of random numbers", "why_tests_cant": "the outcome depends on data-dependent pairing and on the random stream; tests sample a few streams", "anchors": ["openms/qmc/population_control.py:branching_dp0", "openms/qmc/population_control.py:control_func_dict"]}
{"id": "C02", "title": "Branching keeps the total absolute weight", "statement": "The sum of the weights returned by 'branching' equals the sum of the absolute values of the weights passed in.", "quantifier": "for every weight list, thresholds and random stream", "why_tests_cant": "a tolerance test on a few seeds cannot exclude a leak in a rarely taken pairing", "anchors": ["openms/qmc/population_control.py:branching_dp0"]}
{"id": "C03", "title": "Branching is unbiased for every walker", "statement": "For every walker paired by 'branching', the expected total weight it carries after the step (over the uniform random number of its pair) equals its absolute weight before; walkers that are not paired keep their weight; the value for one pair is independent of the random numbers of all other pairs.", "quantifier": "for every weight list with positive pair sums, every walker", "why_tests_cant": "an expectation over a continuous random number, for all weights", "anchors": ["openms/qmc/population_control.py:branching_dp0"]}
{"id": "C04", "title": "Branching preserves the signed total weight", "statement": "The sum of the signed weights after 'branching' equals the signed sum before.", "quantifier": "for every weight list (signed) and random stream", "why_tests_cant": "tests use positive weights only", "anchors": ["openms/qmc/population_control.py:branching_dp0"]}
{"id": "C05", "title": "Alternative branching routines conserve total weight", "statement": "branching_dp_constant and branching_dp_dynamics return as many walkers as they are given and conserve the total absolute weight.", "quantifier": "for every weight list, thresholds and random stream", "why_tests_cant": "the loss shows only for weights outside the thresholds and specific random draws", "anchors": ["openms/qmc/population_control.py:branching_dp_constant", "openms/qmc/population_control.py:branching_dp_dynamics"]}
{"id": "C06", "title": "Stochastic reconfiguration: size, weight and safety", "statement": "The 'reconfiguration' control on N>=1 walkers with non-negative weights of positive total W and any offset xi in [0,1) terminates without index error, returns exactly N walkers taken from the input in input order, and N equal weights W/N whose sum is W.", "quantifier": "for every N, weights and offset", "why_tests_cant": "an index error depends on the accumulated weights and the random offset; tests sample few", "anchors": ["openms/qmc/population_control.py:stochastic_reconfiguration"]}
{"id": "C07", "title": "Stochastic reconfiguration: number of copies", "statement": "After 'reconfiguration', a walker with weight w_j appears either floor(N w_j/W) or ceil(N w_j/W) times; a zero-weight walker never survives.", "quantifier": "for every weight list, walker and offset", "why_tests_cant": "needs all offsets and all weights", "anchors": ["openms/qmc/population_control.py:stochastic_reconfiguration"]}
{"id": "C08", "title": "Comb resampling: size, weight and copies", "statement": "The 'comb' control on N>=1 walkers with non-negative weights of positive total W and any offset in [0,1/N) returns N walkers from the input in input order with equal weights W/N, and each walker is copied floor or ceil of N w_j/W times.", "quantifier": "for every N, weights and offset", "why_tests_cant": "needs all offsets and all weights, including markers that hit a cumulative weight exactly", "anchors": ["openms/qmc/population_control.py:comb_resampling"]}
{"id": "C09", "title": "Resampling is unbiased", "statement": "Averaged over the uniform offset, the number of copies 'reconfiguration' and 'comb' make of a walker is N w_j / W.", "quantifier": "for every weight list and walker; expectation over the offset", "why_tests_cant": "an expectation over a continuous variable", "anchors": ["openms/qmc/population_control.py:stochastic_reconfiguration", "openms/qmc/population_control.py:comb_resampling"]}
{"id": "C10", "title": "Unknown or absent population control method is a no-op", "statement": "If the configured method is None or any name other than 'branching', 'reconfiguration' or 'comb', a population control call leaves walkers and weights unchanged; otherwise it stores exactly what the chosen method returns.", "quantifier": "for every method name and population", "why_tests_cant": "infinitely many names; state-preservation claim", "anchors": ["openms/qmc/population_control.py:population_control_factory", "openms/qmc/population_control.py:control_func_dict"]}
{"id": "C11", "title": "Threshold branching conserves weight and is unbiased", "statement": "branching_population_control splits a walker of weight w above the upper bound into copies whose weights add up to w, keeps in-range walkers unchanged, and replaces a walker below the lower bound by nothing or by one walker at the lower bound so that its expected weight is unchanged.", "quantifier": "for every weight list and bounds 0<lb<=ub, every random stream", "why_tests_cant": "depends on the integer quotient and the random stream", "anchors": ["openms/qmc/population_control.py:branching_population_control"]}
{"id": "C12", "title": "Walkers are distributed completely and evenly over processes", "statement": "The per-process walker counts sum to the requested number, differ by at most one between any two processes, and the displacements partition 0..n-1 into consecutive disjoint blocks.", "quantifier": "for every total n and every number of processes >= 1", "why_tests_cant": "the process count is unbounded; tests run on one process", "anchors": ["openms/qmc/generic_walkers.py:BaseWalkers.__init__"]}
{"id": "C13", "title": "Inter-node rebalancing evens out the population", "statement": "After inter_node_rebalance every process holds within one walker of the ideal number, and no walker is lost.", "quantifier": "for every number of processes and every population", "why_tests_cant": "needs multi-process runs of every shape", "anchors": ["openms/qmc/population_control.py:inter_node_rebalance"]}
{"id": "C14", "title": "Weight control normalises and clips", "statement": "A weight_control call at step s>0 clips every weight into [-0.1 W, 0.1 W]; on the steps where population control is due the weights are rescaled so that the sum of absolute values over all processes is the global number of walkers; on other steps nothing else changes.", "quantifier": "for every weight vector with non-zero total, step and frequency, any number of processes", "why_tests_cant": "depends on step arithmetic and the weight history", "anchors": ["openms/qmc/generic_walkers.py:BaseWalkers.weight_control"]}
{"id": "C15", "title": "Walker weights stay non-negative along a run", "statement": "Starting from unit weights, any interleaving of hybrid weight updates and weight-control calls keeps every walker weight real and non-negative.", "quantifier": "for every number of steps, every random stream, every overlap history and every frequency", "why_tests_cant": "unbounded histories", "anchors": ["openms/qmc/propagators.py:Phaseless.update_weight", "openms/qmc/generic_walkers.py:BaseWalkers.weight_control", "openms/qmc/population_control.py"]}
{"id": "C16", "title": "Population control moves all per-walker data together", "statement": "After population control, slot i holds for every per-walker quantity (orbitals, boson states, overlap, hybrid energy, local energy) the values of one and the same source walker.", "quantifier": "for every population and every resampling outcome", "why_tests_cant": "stale per-walker arrays only show up for populations where the permutation is not the identity", "anchors": ["openms/qmc/generic_walkers.py:BaseWalkers._pack_walkers", "openms/qmc/generic_walkers.py:BaseWalkers._unpack_walkers", "openms/qmc/population_control.py:population_control_factory"]}
{"id": "C17", "title": "Measurements are taken on schedule and the energy shift is an exact block average", "statement": "A run of n steps with measurement frequency f stores exactly floor(n/f) energies, the k-th being the local energy estimate at step k*f-1; after each measurement the energy shift equals the weight-averaged hybrid energy over exactly the f steps ending there, and the accumulators are cleared.", "quantifier": "for every run length, frequency and weight/energy history with non-zero block weight", "why_tests_cant": "an off-by-one in window handling depends on run length and history", "anchors": ["openms/qmc/qmc.py:QMCbase.property_stack", "openms/qmc/qmc.py:QMCbase.kernel"]}
{"id": "C18", "title": "Force bias is bounded by the requested bound", "statement": "rescale_fbias returns components whose modulus never exceeds the configured bound, leaves components within the bound unchanged, and never changes the phase of a component.", "quantifier": "for every complex vector and every positive bound", "why_tests_cant": "infinitely many inputs; the violated region depends on the bound", "anchors": ["openms/qmc/propagators.py:rescale_fbias"]}
{"id": "C19", "title": "Weight update is real, non-negative and bounded", "statement": "The hybrid weight update multiplies the weight by a real non-negative factor, the hybrid energy is confined to the documented window around the shift, and walkers whose overlap phase rotates by more than pi/2 get weight zero; any scheme other than 'hybrid' or 'local' is rejected with ValueError.", "quantifier": "for every weight, overlap ratio, energy, shift and time step", "why_tests_cant": "continuous inputs", "anchors": ["openms/qmc/propagators.py:Phaseless.update_weight"]}
{"id": "C20", "title": "Taylor propagation is the truncated exponential", "statement": "propagate_exp_op(A, phi, order) equals the sum of A^k phi/k! for k<=order, is linear in phi, and converges to exp(A) phi as the order grows.", "quantifier": "for every matrix, walker and order", "why_tests_cant": "unbounded order and dimension", "anchors": ["openms/qmc/propagators.py:propagate_exp_op"]}
{"id": "C21", "title": "Force-bias importance sampling leaves the integral unchanged", "statement": "The factor exp(sum (xi - xbar/2) xbar) used with shifted fields is exactly the ratio of the Gaussian weights of shifted and unshifted fields.", "quantifier": "for every field vector and every (real) shift", "why_tests_cant": "identity over the reals", "anchors": ["openms/qmc/propagators.py:Phaseless.propagate_walkers_twobody"]}
{"id": "C22", "title": "Walker Green's function is a projector with the right trace", "statement": "For an invertible overlap, the Green's function G built from trial and walker satisfies G^T G^T = G^T (idempotent), trace(G) = number of electrons, and does not change when the walker is multiplied from the right by any invertible matrix (orthogonalisation), while the overlap is multiplied by its determinant.", "quantifier": "for every trial and walker matrix with invertible overlap, any sizes", "why_tests_cant": "matrix identities for all sizes", "anchors": ["openms/qmc/estimators.py:GF", "openms/qmc/qmc.py:QMCbase.orthogonalization", "openms/qmc/trial.py"]}
{"id": "C23", "title": "Bilinear coupling decomposition is exact", "statement": "In both decomposition schemes (1 and 2), half the sum of squares of the auxiliary-field operators returned by bilinear_decomposition equals the symmetrised coupling operator product, summed over all modes whose scaled coupling has norm above 1e-10 (smaller ones are dropped); any other scheme is documented as wrong.", "quantifier": "for every number of modes, coupling matrix and boson operators in any algebra, both schemes", "why_tests_cant": "operator identity for non-commuting sizes", "anchors": ["openms/qmc/tools.py:bilinear_decomposition"]}
{"id": "C24", "title": "Half-rotated Coulomb and exchange energies are exact", "statement": "The Coulomb and exchange energies computed from half-rotated Cholesky vectors equal the ones from the full Green's function and the reconstructed two-electron integrals; the compiled Coulomb variant returns the same number as the reference variant.", "quantifier": "for every Cholesky tensor and Green's function", "why_tests_cant": "identity over all tensors; a missing square is invisible for special inputs", "anchors": ["openms/qmc/estimators.py:ecoul_rltensor_uhf", "openms/qmc/estimators.py:exx_rltensor_Ghalf", "openms/qmc/estimators.py:ecoul_rltensor_Ghalf_numba"]}
{"id": "C25", "title": "Electron-boson local energy couples each mode to its own operator", "statement": "The electron-boson local energy is the sum over modes of the mode's electronic coupling expectation times the expectation of that mode's own displacement operator.", "quantifier": "for every number of modes and boson cut-offs", "why_tests_cant": "single-mode tests cannot see a block offset error", "anchors": ["openms/qmc/estimators.py:local_eng_eboson"]}
{"id": "C26", "title": "Reported energies do not depend on how walkers are distributed", "statement": "The energy estimate obtained by combining the processes' contributions equals the single-process estimate over the union of the walkers.", "quantifier": "for every partition of every population over any number of processes", "why_tests_cant": "tests run on one process", "anchors": ["openms/qmc/propagators.py:Phaseless.local_energy", "openms/qmc/propagators.py:PhaselessElecBoson.local_energy"]}
{"id": "C27", "title": "FCIDUMP reader restores permutational symmetry", "statement": "After reading an FCIDUMP file, the one-electron matrix is symmetric and the two-electron tensor has the 8-fold symmetry of real orbitals, whatever representative of each integral is listed.", "quantifier": "for every file listing of integrals", "why_tests_cant": "arbitrary files", "anchors": ["openms/qmc/tools.py:read_fcidump"]}
{"id": "C28", "title": "Pivoted Cholesky integrals: residual invariant", "statement": "For a symmetric positive semidefinite integral matrix, the blocked pivoted Cholesky decomposition, when it returns, reproduces every integral to within the threshold and every integral in a pivot row exactly, with distinct pivots; it raises an index error only when the vector limit is reached.", "quantifier": "for every symmetric positive semidefinite matrix, threshold >= 0 and vector limit", "why_tests_cant": "loop invariant over an unbounded number of steps", "anchors": ["openms/qmc/tools.py:chols_blocked"]}
{"id": "C29", "title": "Statistics helpers are safe and average the right window", "statement": "get_mean_std averages exactly the last max(1, len//N) samples; the automatic window is a valid index that is the first one meeting its criterion; remove_outliers never returns an empty set for non-empty data and keeps identical data unchanged.", "quantifier": "for every series and parameter", "why_tests_cant": "degenerate data (constant series) and window arithmetic", "anchors": ["openms/qmc/tools.py:get_mean_std", "openms/qmc/tools.py:auto_window", "openms/qmc/tools.py:remove_outliers"]}
{"id": "C30", "title": "Option defaults are not shared between simulations", "statement": "Creating a simulation object with explicit options does not change the defaults that a later object created without those options gets.", "quantifier": "for every history of constructions", "why_tests_cant": "a property of histories; tests build one object per process", "anchors": ["openms/qmc/qmc.py:QMCbase.__init__", "openms/qmc/generic_walkers.py:default_walker_options"]}
{"id": "C31", "title": "Symmetric packing round-trips", "statement": "Packing a symmetric matrix into a triangle and unpacking it gives the matrix back, unpacking then packing gives the vector back, packed positions are a bijection between pairs p>=q and 0..n(n+1)/2-1, and packed dot product with off-diagonals doubled is the full contraction.", "quantifier": "for every dimension and matrix", "why_tests_cant": "all sizes", "anchors": ["openms/lib/boson.py:packed_index", "openms/lib/boson.py:pack_symmetric", "openms/lib/boson.py:unpack_symmetric"]}
{"id": "C32", "title": "Packed and direct displacement expectation values agree", "statement": "The Franck-Condon-type expectation value computed from the packed displacement matrix equals the direct double sum, for every symmetric photon density matrix.", "quantifier": "for every number of boson states, amplitude and symmetric density matrix", "why_tests_cant": "all sizes and reals", "anchors": ["openms/lib/boson.py:Boson.displacement_matrix", "openms/lib/boson.py:Boson.displacement_exp_val"]}
{"id": "C33", "title": "Displacement derivative is the true derivative", "statement": "The function that returns the derivative of the displacement expectation value with respect to its amplitude is the derivative of the displacement expectation value, for every photon density matrix.", "quantifier": "for every number of boson states, amplitude and density matrix", "why_tests_cant": "finite differences on few points do not exclude a missing term", "anchors": ["openms/lib/boson.py:Boson.displacement_deriv_kernel", "openms/lib/boson.py:Boson.displacement_deriv", "openms/lib/boson.py:Boson.displacement_exp_val"]}
{"id": "C34", "title": "Squeezed-photon energy and its gradient agree", "statement": "The photon energy of a squeezed mode equals the expectation value of the squeezed number operator, is at least zero, and the reported gradient is its exact derivative in the squeezing parameter.", "quantifier": "for every occupation distribution, frequency and squeezing", "why_tests_cant": "continuous parameters", "anchors": ["openms/lib/boson.py:Boson.update_boson_coeff"]}
{"id": "C35", "title": "Coupling-fraction gradient of the one-electron term is exact", "statement": "The gradient matrix returned together with the dressed one-electron term is the derivative of that term with respect to the transformation fraction f.", "quantifier": "for every coupling matrix, displacement, photon energy and f", "why_tests_cant": "continuous parameters", "anchors": ["openms/lib/boson.py:Boson.add_oei_ao"]}
{"id": "C36", "title": "Dipole self-energy of a charged system is origin independent", "statement": "In the coherent-state basis, the mean-field dipole self-energy of a closed-shell determinant does not change when the coordinate origin is shifted.", "quantifier": "for every basis overlap, density, dipole matrix and shift", "why_tests_cant": "matrix identity", "anchors": ["openms/lib/boson.py:Boson.get_dse_jk", "openms/lib/boson.py:Boson.add_oei_ao", "openms/mqed/qedhf.py:RHF.get_veff"]}
{"id": "C37", "title": "Mode vectors passed by the caller are not modified", "statement": "Building a photon object does not change the mode-vector array of the caller, and building two photon objects from the same array gives the same couplings.", "quantifier": "for every mode array with non-unit vectors", "why_tests_cant": "aliasing across calls", "anchors": ["openms/lib/boson.py:Boson.__init__"]}
{"id": "C38", "title": "Photon Hamiltonian blocks are Hermitian and mode-separated", "statement": "The bosonic Hamiltonian is symmetric, has no element connecting different modes, has the squeezed-oscillator diagonal and couples only neighbouring occupations with strength sqrt(n) times the displacement.", "quantifier": "for every number of modes, cut-offs and displacements", "why_tests_cant": "all sizes", "anchors": ["openms/lib/boson.py:get_bosonic_Ham"]}
{"id": "C39", "title": "Franck-Condon factors are contractions", "statement": "In the photon vacuum the Franck-Condon factors used to dress the integrals are symmetric, equal one on the diagonal, lie in (0,1], and equal one for all elements when all displacements coincide.", "quantifier": "for every displacement vector, squeezing and frequency", "why_tests_cant": "continuous parameters", "anchors": ["openms/mqed/scqedhf.py:RHF.FC_factor"]}
{"id": "C40", "title": "Displacement gradient is the exact energy derivative", "statement": "The gradient with respect to the variational displacements is the exact partial derivative of the strong-coupling QED-HF energy.", "quantifier": "for every basis size, integrals, density, displacement, squeezing, number of boson states", "why_tests_cant": "identity over all tensors; finite differences sample few", "anchors": ["openms/mqed/scqedhf.py:RHF.get_eta_gradient", "openms/mqed/scqedhf.py:RHF.gaussian_derivative_vectorized"]}
{"id": "C41", "title": "Squeezing and transformation gradients are exact", "statement": "The derivatives of the Franck-Condon factors with respect to the squeezing parameter and the transformation fraction are exact, and the squeezing gradient assembled from them is the derivative of the energy.", "quantifier": "for every integrals, density, displacement, squeezing and fraction above 1e-5 with displacements proportional to the fraction, one photon state or several of definite parity", "why_tests_cant": "identity over all tensors", "anchors": ["openms/mqed/vtqedhf.py:RHF.gaussian_derivative_sq_vector", "openms/mqed/vtqedhf.py:RHF.gaussian_derivative_f_vector", "openms/mqed/vtqedhf.py:RHF.get_vsq_gradient"]}
{"id": "C42", "title": "Cholesky-reduced orbitals are orthonormal", "statement": "The initial orbitals obtained through the Cholesky-orthogonalised basis are orthonormal in the overlap metric.", "quantifier": "for every positive definite overlap and Fock matrix", "why_tests_cant": "tests only look at the converged energy", "anchors": ["openms/mqed/scqedhf.py:RHF.get_cholesky", "openms/mqed/scqedhf.py:cholesky_diag_fock_rao", "openms/lib/mathlib.py:full_cholesky_orth"]}
{"id": "C43", "title": "Incremental potential equals direct potential", "statement": "Along any SCF history the potential obtained by adding the potential of the density change to the previous potential equals the potential computed from the full density.", "quantifier": "for every history of densities", "why_tests_cant": "unbounded histories", "anchors": ["openms/mqed/qedhf.py:RHF.get_veff", "openms/mqed/qedhf.py:RHF.get_bare_veff"]}
{"id": "C44", "title": "A converged flag means converged", "statement": "If the SCF driver reports convergence then the energy change and gradient of the last evaluated cycle are within the documented tolerances; it never runs more than the allowed number of cycles; if it does not report convergence, the maximum number of cycles was used.", "quantifier": "for every sequence of energies and gradients, every maximum cycle count", "why_tests_cant": "all histories", "anchors": ["openms/mqed/qedhf.py:kernel", "openms/mqed/scqedhf.py:kernel"]}
{"id": "C45", "title": "Variational parameters round-trip through the extrapolation vector", "statement": "Whatever set of parameters is being optimised, concatenating them into the extrapolation vector and setting them from that vector restores every optimised parameter.", "quantifier": "for every parameter values and all combinations of the optimisation switches", "why_tests_cant": "depends on switch combinations and sizes", "anchors": ["openms/mqed/vtqedhf.py:RHF.pre_update_var_params", "openms/mqed/vtqedhf.py:RHF.set_params", "openms/mqed/vtqedhf.py:RHF.set_var_params", "openms/mqed/scqedhf.py:RHF.set_params"]}
{"id": "C46", "title": "Back-transformed density matrix is a density matrix", "statement": "The electron-photon density matrix returned in the original representation is Hermitian, positive on the diagonal and its photon populations are those of a coherent state (Poisson).", "quantifier": "for every displacement, density and Fock cut-off", "why_tests_cant": "continuous parameters and cut-offs", "anchors": ["openms/mqed/qedhf.py:RHF.make_rdm1_org", "openms/mqed/scqedhf.py:RHF.make_rdm1_org", "openms/mqed/vtqedhf.py:RHF.make_rdm1_org"]}
{"id": "C47", "title": "Boson creation and annihilation are adjoint and obey the truncated commutator", "statement": "On CI vectors, cre_boson and des_boson are adjoint to each other, their product counts bosons, operators of different modes commute, and the commutator is the identity except on the highest retained state.", "quantifier": "for every number of modes, cut-offs and CI vectors", "why_tests_cant": "all sizes", "anchors": ["openms/mqed/qedfci.py:cre_boson", "openms/mqed/qedfci.py:des_boson", "openms/mqed/qedfci.py:slices_for"]}
{"id": "C48", "title": "Bosonic energy of a CI vector", "statement": "The bosonic part of the FCI Hamiltonian acts on a configuration with n_x bosons in mode x as multiplication by sum_x omega_x n_x, however the frequencies are given to the FCI kernel.", "quantifier": "for every number of modes, cut-offs and CI vectors", "why_tests_cant": "single-mode tests cannot see cross-mode broadcasting", "anchors": ["openms/mqed/qedfci.py:contract_bb", "openms/mqed/qedfci.py:kernel"]}
{"id": "C49", "title": "One-electron term is absorbed exactly", "statement": "Contracting the modified two-electron tensor gives exactly the one- plus two-electron Hamiltonian on every vector of the given electron number.", "quantifier": "for every integrals and every representation of the excitation operators with N>=1 electrons", "why_tests_cant": "operator identity", "anchors": ["openms/mqed/qedfci.py:absorb_h1e", "openms/mqed/qedfci.py:contract_2e"]}
{"id": "C50", "title": "Amplitude vectors round-trip", "statement": "Splitting an amplitude vector into amplitudes and joining them again gives the same vector, so that the convergence accelerator acts on every amplitude.", "quantifier": "for every amplitude vector and sizes", "why_tests_cant": "the affected amplitudes are those with bosons only", "anchors": ["openms/mqed/ccsd.py:CCSD.amplitudes2vector", "openms/mqed/ccsd.py:CCSD.vector2amplitudes", "openms/mqed/ccsd.py:CCSD.run_diis"]}
{"id": "C51", "title": "Asking for amplitudes returns amplitudes", "statement": "Calling the QED-CCSD driver with ret=True returns the amplitudes in addition to the energies.", "quantifier": "for every input", "why_tests_cant": "argument order across two call levels", "anchors": ["openms/mqed/ccsd.py:CCSD.ccsd_nfock", "openms/mqed/ccsd.py:kernel"]}
{"id": "C52", "title": "Coupled-cluster denominators", "statement": "The denominator of a mixed amplitude with modes I1..Ik and orbitals is the orbital energy difference minus the sum of the k mode frequencies, for any number of modes.", "quantifier": "for every number of modes, orbital energies and order", "why_tests_cant": "all sizes", "anchors": ["openms/mqed/ccsd.py:getDsn", "openms/mqed/ccsd.py:getD1p", "openms/mqed/ccsd.py:getD2p"]}
{"id": "C53", "title": "Runge-Kutta step is the fourth-order Taylor step", "statement": "For a linear system with constant generator one step of the integrator equals the fourth-order Taylor polynomial of the exponential; for a pure time integral it is Simpson's rule, exact for cubic polynomials.", "quantifier": "for every generator, state and step", "why_tests_cant": "identity over all linear systems", "anchors": ["openms/qmd/propagator.py:rk4"]}
{"id": "C54", "title": "Surface-hopping Hamiltonian carries the state energies", "statement": "The Hamiltonian used to propagate electronic coefficients has the state energies on its diagonal and antisymmetric couplings off the diagonal, each pair of states using its own coupling.", "quantifier": "for every number of molecules, states, energies and couplings", "why_tests_cant": "all sizes", "anchors": ["openms/qmd/sh.py:SH.get_H"]}
{"id": "C55", "title": "At most one hop per step", "statement": "In one hop check each trajectory changes its electronic state at most once, and a frustrated hop leaves state and velocity untouched.", "quantifier": "for every probability table, random stream and velocities", "why_tests_cant": "random streams", "anchors": ["openms/qmd/sh.py:SH.check_hops", "openms/qmd/sh.py:SH.velocity_rescaling"]}
{"id": "C56", "title": "Lattice hopping matrices", "statement": "The hopping matrix of the chain models is symmetric and has entry -1 exactly between nearest neighbours for the requested boundary condition; an open chain has no wrap-around and no doubled bonds.", "quantifier": "for every chain length and boundary condition", "why_tests_cant": "all sizes, small sizes are special", "anchors": ["openms/models/hubbard.py:Hubbard1D.tmatS", "openms/models/hubbard.py:Hubbard1D._nn", "openms/models/hh_model.py:HHModel.tmatS"]}
{"id": "C57", "title": "Hubbard mean-field energy", "statement": "The Hartree-Fock energy of the Hubbard chain equals the hopping energy plus U times the sum of products of spin-up and spin-down site densities.", "quantifier": "for every length, densities and U", "why_tests_cant": "tensor identity", "anchors": ["openms/models/hubbard.py:Hubbard1D.fock", "openms/models/hubbard.py:Hubbard1D.hf_energy", "openms/models/hubbard.py:Hubbard1D.umat"]}
{"id": "C58", "title": "Backend selection is all-or-nothing", "statement": "Selecting a backend either installs the named library, device and precision or raises an error and leaves the previously selected backend in place.", "quantifier": "for every backend name and every availability of libraries, any history of selections", "why_tests_cant": "depends on installed libraries and names", "anchors": ["openms/lib/backend.py:set_backend"]}
{"id": "C59", "title": "Verbosity is monotone and errors are printed", "statement": "A message shown at some verbosity is shown at every higher verbosity, and error messages can be issued at every verbosity.", "quantifier": "for every level and message kind", "why_tests_cant": "all level combinations; some branches are never exercised by tests", "anchors": ["openms/lib/logger.py"]}
{"id": "C60", "title": "Harmonic trial states have zero variance", "statement": "For an unshifted harmonic trial wave function, in position or momentum representation, the local energy is zero at every configuration, and gradient and laplacian are those of the wave function.", "quantifier": "for every mass, frequency and configuration of any number of sites", "why_tests_cant": "continuous configurations", "anchors": ["openms/qmc/trial_boson.py:TrialQ", "openms/qmc/trial_boson.py:TrialP"]}
{"id": "C61", "title": "Coherent-state coefficients are normalised", "statement": "The squared Fock coefficients of a coherent state sum to one over all occupations, and to at most one for every cut-off.", "quantifier": "for every amplitude and cut-off", "why_tests_cant": "infinite sum", "anchors": ["openms/qmc/trial_boson.py:coherent_state_coeff"]}
{"id": "C62", "title": "Electron counts", "statement": "A trial built from nelec electrons and spin has nalpha+nbeta=nelec and nalpha-nbeta=spin, or construction is rejected.", "quantifier": "for every electron number and spin", "why_tests_cant": "parity cases", "anchors": ["openms/qmc/trial.py:TrialWFBase.__init__"]}
{"id": "C63", "title": "Davidson preconditioner never divides by zero", "statement": "The diagonal preconditioner returns a finite vector for every diagonal, shift and energy, and the Davidson entry point returns an eigenpair.", "quantifier": "for every diagonal and energy", "why_tests_cant": "near-singular denominators", "anchors": ["openms/solvers/linalg.py:make_diag_precond", "openms/solvers/linalg.py:davidson"]}
{"id": "C64", "title": "Configuration options", "statement": "A stored configuration option is returned as stored until updated, updating one option does not change others, and asking for an unknown option raises KeyError.", "quantifier": "for every history of add, update and get operations", "why_tests_cant": "histories", "anchors": ["openms/__config__.py:Config"]}
{"id": "C69", "title": "Auxiliary-field average reproduces the two-body propagator", "statement": "For commuting one-body eigenvalues, averaging exp(force-bias factor + mean-field factor + field operator) over normally distributed fields gives exp(-dt/2 * sum (l - <l>)^2), whatever the (complex) force bias is.", "quantifier": "for every number of fields, every eigenvalue vector, mean-field shift, force bias and time step", "why_tests_cant": "an integral over all fields for continuous parameters", "anchors": ["openms/qmc/propagators.py:Phaseless.propagate_walkers_twobody"]}
{"id": "C70", "title": "Orthogonalisation keeps the stored overlaps consistent", "statement": "After re-orthogonalisation the stored overlap of every walker equals the overlap of the stored orbitals with the trial, and physical quantities (Green's function, weight times overlap direction) do not change.", "quantifier": "for every walker, every QR factorisation", "why_tests_cant": "the sign/phase of the QR factor depends on the input", "anchors": ["openms/qmc/qmc.py:QMCbase.orthogonalization", "openms/qmc/qmc.py:qr_ortho"]}
{"id": "C71", "title": "Force bias is the logarithmic derivative of the overlap", "statement": "The force bias computed from half-rotated Cholesky vectors and the half-rotated Green's function equals the derivative of log overlap along exp(t L) at t=0.", "quantifier": "for every trial, walker with invertible overlap, and Cholesky matrix, any sizes", "why_tests_cant": "matrix identity for all sizes", "anchors": ["openms/qmc/propagators.py:Phaseless.propagate_walkers_twobody", "openms/qmc/trial.py:TrialHF.get_vbias"]}
{"id": "C72", "title": "Mixed low-rank/banded exchange equals the reference exchange", "statement": "The exchange energy from the mixed sparsity/low-rank plan equals the reference exchange energy whenever the plan describes the tensors exactly, and the half-bandwidth chosen covers every entry above the threshold.", "quantifier": "for every tensor, plan and Green's function", "why_tests_cant": "a missing transpose is invisible for symmetric tensors", "anchors": ["openms/qmc/estimators.py:exx_mixed_rank_sparsity", "openms/qmc/estimators.py:_banded_LT_dot_G", "openms/qmc/tools.py:get_blksize", "openms/qmc/tools.py:build_Ltensor_plan"]}
{"id": "C73", "title": "Stochastic resolution of the identity is unbiased", "statement": "Averaged over the random signs, the stochastic vectors reproduce the two-electron integrals exactly for any number of samples.", "quantifier": "for every Cholesky tensor and every number of samples >= 1", "why_tests_cant": "a statement about the exact expectation", "anchors": ["openms/qmc/tools.py:stochastic_thc"]}
{"id": "C74", "title": "Shell lookup finds the shell containing an orbital", "statement": "The AO-to-shell lookup returns the shell s with offset(s) <= j < offset(s+1), also when shells are empty.", "quantifier": "for every list of shell sizes and every orbital index below the total", "why_tests_cant": "right-sided search with repeated offsets, arbitrary lists", "anchors": ["openms/qmc/tools.py:_find_shell"]}
{"id": "C75", "title": "Electron-photon coupling enters the blocked integrals for any number of modes", "statement": "The row of two-electron integrals computed by the blocked Cholesky routine has the coupling products of all modes added.", "quantifier": "for every number of modes and coupling matrices", "why_tests_cant": "reshape depends on the number of modes", "anchors": ["openms/qmc/tools.py:_compute_eri_chunk"]}
{"id": "C76", "title": "Autocorrelation by Fourier transform equals the direct sums", "statement": "autocorr_func gives at every lag the direct autocorrelation sum without wrap-around; normalised it starts at 1 and stays within [-1,1]; the window of get_autocorr_time always closes and the time is the integrated one at the first lag w with w >= c*tau_w.", "quantifier": "for every series that is not constant and every c > 0", "why_tests_cant": "needs all lengths (padding) and all series", "anchors": ["openms/qmc/tools.py:autocorr_func", "openms/qmc/tools.py:get_autocorr_time"]}
{"id": "C77", "title": "Blocking analysis always reports a valid block size and mean", "statement": "analysis_autocorr returns for every series of at least two samples, with block size between 1 and the series length and the mean over whole blocks.", "quantifier": "for every series", "why_tests_cant": "anticorrelated and constant series", "anchors": ["openms/qmc/tools.py:analysis_autocorr"]}
{"id": "C78", "title": "Walker options reach the walkers", "statement": "The options nwalkers, weight_min and weight_max given to the simulation are the ones the walker object uses.", "quantifier": "for every option dictionary, keyword value and state of the module defaults", "why_tests_cant": "the defaults coincide with the values used in tests", "anchors": ["openms/qmc/qmc.py:QMCbase.__init__", "openms/qmc/generic_walkers.py:BaseWalkers.__init__"]}
{"id": "C79", "title": "Displacement expectation value is that of the displacement operator", "statement": "The value computed from the displacement matrix equals the sum over all m,n of the matrix elements of exp(z(b^dagger - b)) times the density matrix.", "quantifier": "for every number of boson states, amplitude and symmetric density matrix", "why_tests_cant": "sign of odd coherences; all sizes and reals", "anchors": ["openms/lib/boson.py:Boson.displacement_exp_val"]}
{"id": "C80", "title": "Photon populations of every mode are normalised", "statement": "The photon populations the energy is computed from sum to one in every mode.", "quantifier": "for every number of modes, cut-offs and every normalised eigenvector of the photon Hamiltonian", "why_tests_cant": "tests use one mode", "anchors": ["openms/lib/boson.py:Boson.update_boson_coeff"]}
{"id": "C81", "title": "Bilinear energy counts the displacement once", "statement": "The expectation value of the bilinear part of the dressed one-electron term is sqrt(omega/2) (<g> - z) <b + b^dagger> (1 - f), so it vanishes in the coherent-state basis.", "quantifier": "for every number of electrons, density, coupling matrix and displacement", "why_tests_cant": "all sizes and reals; vanishes after convergence", "anchors": ["openms/lib/boson.py:Photon.add_oei_ao"]}
{"id": "C82", "title": "Cholesky tensor and four-index integrals give the same potential and gradients", "statement": "If the four-index integrals are the contraction of the Cholesky tensor, the SC/VT-QED-HF potential, displacement gradient and squeezing gradient do not depend on which of the two is used.", "quantifier": "for every basis size, tensor, density, displacement, squeezing and photon state of definite parity", "why_tests_cant": "two separate code paths, chosen by available memory", "anchors": ["openms/mqed/scqedhf.py:RHF.get_veff", "openms/mqed/scqedhf.py:RHF.get_eta_gradient", "openms/mqed/vtqedhf.py:RHF.get_vsq_gradient"]}
{"id": "C83", "title": "Electronic contractions apply the excitation-operator Hamiltonian", "statement": "contract_1e(h, c) is sum_pq h_pq E_pq c, and contract_2e / contract_2e_spin0 (g, c) is sum_pqrs g_pqrs E_pq E_rs c, where E_pq is the spin-summed excitation operator given by the string link tables, for CI vectors with any bosonic axes.", "quantifier": "for every link table, integrals, number of modes and CI vectors", "why_tests_cant": "operator identity over all sizes", "anchors": ["openms/mqed/qedfci.py:contract_1e", "openms/mqed/qedfci.py:contract_2e", "openms/mqed/qedfci.py:contract_2e_spin0"]}
{"id": "C84", "title": "Electron-boson contraction", "statement": "contract_eb(g, c) is sum_x sum_pq g^x_pq E_pq (b_x + b_x^dagger) c with the truncated ladder operators.", "quantifier": "for every link table, couplings, number of modes, cut-offs and CI vectors", "why_tests_cant": "operator identity over all sizes", "anchors": ["openms/mqed/qedfci.py:contract_eb"]}
{"id": "C85", "title": "FCI kernel diagonalises the Pauli-Fierz Hamiltonian, with or without coherent_state", "statement": "The operator that qedfci.kernel diagonalises, together with its constant energy, is the Pauli-Fierz Hamiltonian; with coherent_state=True it is the same Hamiltonian in the displaced boson basis b -> b + z, so that the option changes the basis and not the physics.", "quantifier": "for every integrals, couplings, frequency, displacement, cut-off and CI vector", "why_tests_cant": "a missing operator term shows as a plausible energy", "anchors": ["openms/mqed/qedfci.py:kernel", "openms/mqed/qedfci.py:contract_all", "openms/mqed/qedfci.py:contract_bb"]}
{"id": "C86", "title": "One-electron density matrix of a CI vector", "statement": "make_rdm1e(c)[a,i] is the expectation value of a^dagger i, its trace is the number of electrons times the squared norm of c, and it is symmetric.", "quantifier": "for every link table, number of modes, cut-offs and CI vectors", "why_tests_cant": "all sizes", "anchors": ["openms/mqed/qedfci.py:make_rdm1e"]}
{"id": "C87", "title": "Geometry used inside the electronic propagator", "statement": "Every stage of the Runge-Kutta electronic propagator of surface hopping evaluates the electronic Hamiltonian at the geometry of its own time between the old and new nuclear positions.", "quantifier": "for every pair of nuclear positions, number of substeps and stage", "why_tests_cant": "internal time points; uninitialised memory is only occasionally visible", "anchors": ["openms/qmd/sh.py:SH.get_coef_dot", "openms/qmd/sh.py:SH.quantum_step", "openms/qmd/sh.py:SH.electronic_propagator"]}
{"id": "C88", "title": "Electronic equation of motion conserves population", "statement": "The time derivative of the electronic coefficients follows the documented equation of motion, and so leaves the total electronic population constant.", "quantifier": "for every state energies, antisymmetric couplings, velocities and coefficients", "why_tests_cant": "identity over all couplings", "anchors": ["openms/qmd/sh.py:SH.get_coef_dot", "openms/qmd/__init__.py"]}
{"id": "C89", "title": "Molecular dynamics drivers run", "statement": "The molecular dynamics drivers can be constructed with any valid settings, and their kernel completes the requested steps.", "quantifier": "for every valid setting and number of steps", "why_tests_cant": "all option combinations", "anchors": ["openms/qmd/mqc.py:MQC.__init__", "openms/qmd/bomd.py:BOMD.kernel"]}
{"id": "C90", "title": "Velocity Verlet", "statement": "The nuclear integrator is time reversible, exact for constant forces, and conserves total momentum when forces sum to zero.", "quantifier": "for every positions, velocities, masses, forces and time step", "why_tests_cant": "all force fields", "anchors": ["openms/qmd/bomd.py:BOMD.next_position", "openms/qmd/bomd.py:BOMD.next_velocity_many_molecule"]}
{"id": "C91", "title": "Disordered aggregate spectra", "statement": "The aggregate Hamiltonian is symmetric and tridiagonal with the drawn energies on its diagonal; the squared transition dipoles of all states add up to the number of sites; the linear spectrum is non-negative for positive width and can only grow when states are added.", "quantifier": "for every size, disorder, hopping, width and state list", "why_tests_cant": "random disorder; all sizes", "anchors": ["openms/models/aggregates.py:DMA.kernel", "openms/models/aggregates.py:DMA.dipole", "openms/models/aggregates.py:linear_spec"]}
{"id": "C92", "title": "Hubbard-Holstein mean-field energy", "statement": "With the phonon shift on, the reported mean-field energy is the lowest over all classical displacements of the phonon modes; with it off, it is the energy at zero displacement.", "quantifier": "for every coupling, positive frequency, density, hopping and U", "why_tests_cant": "minimum over a continuum", "anchors": ["openms/models/hh_model.py:HHModel.__init__", "openms/models/hh_model.py:HHModel.hf_energy"]}
{"id": "C93", "title": "Hubbard-Holstein electron count", "statement": "The spin densities of the Hubbard-Holstein chain together hold the requested number of electrons.", "quantifier": "for every chain length, electron number up to twice the sites and orthonormal orbitals", "why_tests_cant": "odd numbers are silently rounded", "anchors": ["openms/models/hh_model.py:HHModel.__init__"]}
{"id": "C94", "title": "Branching acts on every walker outside the thresholds", "statement": "After branching, every returned weight is that of an input walker within the thresholds, or half the sum of a light and a heavy walker of which at least one was outside its threshold, or that of the single unpaired walker in the middle of the sorted list when their number is odd.", "quantifier": "for every weights, thresholds, random stream and order of equal weights", "why_tests_cant": "all populations; a branching step that does nothing passes count and weight checks", "anchors": ["openms/qmc/population_control.py:branching_dp0"]}
{"id": "C95", "title": "The force bias removes all fluctuation for exact expectation values", "statement": "When the force bias is computed from expectation values that are exact for the propagated state, the product of the two-body step and its correction factors does not depend on the random fields, and no other shift has this property.", "quantifier": "for every number of fields, every field vector, every mean-field shift and every time step", "why_tests_cant": "identity over continuous inputs and a uniqueness statement", "anchors": ["openms/qmc/propagators.py:Phaseless.propagate_walkers_twobody"]}
{"id": "C65", "title": "Control keeps the walkers of every process over a whole run", "statement": "Over any history of weight updates and weight control calls with any control methods, every process keeps its number of walkers, holds one weight per walker and only walkers descending from those it started with; if the history ends with a due control call, all weights together add up to the nominal number of walkers.", "quantifier": "for every number of processes, starting state with non-negative weights, history and admissible random draws", "why_tests_cant": "unbounded histories, all random draws and all process counts", "anchors": ["openms/qmc/generic_walkers.py:weight_control", "openms/qmc/population_control.py:population_control_factory", "openms/qmc/qmc.py:kernel"]}
{"id": "C66", "title": "A uniform population is left alone by weight control", "statement": "Weight control leaves a population with equal weights as it is: weights and recorded totals stay, and every walker survives exactly once, whatever the method.", "quantifier": "for every number of walkers and processes, every history of control calls and every draw", "why_tests_cant": "all population sizes; the failure appears only for fewer than ten walkers and as a slow decay of a recorded total", "anchors": ["openms/qmc/generic_walkers.py:weight_control", "openms/qmc/population_control.py:branching_dp0", "openms/qmc/population_control.py:stochastic_reconfiguration", "openms/qmc/population_control.py:comb_resampling"]}
{"id": "C67", "title": "The random seed determines the random numbers of a run", "statement": "The numbers drawn in a run are determined by random_seed, processes draw different streams, and with debug_mpi every walker sees the auxiliary fields of the run on one process.", "quantifier": "for every generator, seed, number of processes and walkers, and history of draws", "why_tests_cant": "needs several processes and repeated runs; concerns hidden generator state", "anchors": ["openms/qmc/qmc.py:kernel", "openms/qmc/propagators.py:Phaseless.propagate_walkers_twobody"]}
{"id": "C68", "title": "A second run on the same object measures only its own steps", "statement": "Calling kernel again on the same object gives the times, energies and energy shift of a fresh object that sees the same walkers.", "quantifier": "for every number of steps of both runs, every frequency and every walker data", "why_tests_cant": "all combinations of run lengths; the leftover shows only when the length is no multiple of the frequency", "anchors": ["openms/qmc/qmc.py:kernel", "openms/qmc/qmc.py:property_stack"]}
{"id": "C96", "title": "The propagator is built from the electronic Hamiltonian", "statement": "With creation and annihilation operators obeying the anticommutation rule, the built one-body term (h minus half the self-interaction plus the mean-field term) together with half the squares of the mean-field-shifted fields equals sum h c+c + 1/2 sum LL c+c+cc plus the constant 1/2 sum <L>^2.", "quantifier": "for every number of basis functions, spins and fields, every h, every set of Cholesky matrices, every trial function, in every algebra carrying the operators", "why_tests_cant": "an operator identity for all sizes; tests only see energies of real small systems, a wrong conjugation is invisible for real matrices", "anchors": ["openms/qmc/propagators.py:PropagatorBase.build"]}
{"id": "C97", "title": "The decoupled electron-boson propagator is built from the joint Hamiltonian", "statement": "In the decoupled scheme the shifted one-body electron and boson terms together with half the squares of the shifted joint fields add up to the joint Hamiltonian plus a constant.", "quantifier": "for every number of bare and joint fields, all matrices, every electronic and bosonic trial function", "why_tests_cant": "the missing terms vanish for systems without mean dipole or boson displacement, which the tests use", "anchors": ["openms/qmc/propagators.py:PhaselessElecBoson.build", "openms/qmc/propagators.py:PropagatorBase.build"]}
{"id": "C98", "title": "Averaging over shared fields reproduces the joint two-body propagator", "statement": "When electrons and bosons are driven by the same auxiliary field, the average of the joint step with all its weight factors is exp(-dt/2 sum ((f+b) - (<f>+<b>))^2), whatever the force biases are.", "quantifier": "for every number of fields, all eigenvalues, mean-field values and force biases, every time step", "why_tests_cant": "an integral over all fields for continuous parameters; the bias only shows in long-run averages", "anchors": ["openms/qmc/propagators.py:PhaselessElecBoson.propagate_bosons_bilinear", "openms/qmc/propagators.py:PhaselessElecBoson.propagate_walkers"]}
{"id": "C99", "title": "The orthogonalisation schedule does not influence a run", "statement": "A whole propagation step gives the same weight and energies for any basis of the occupied space of a walker; hence orthogonalisations inserted anywhere into a sequence of steps, with any QR factorisation, change neither success, weights nor hybrid energies, and the final states span the same space.", "quantifier": "for every sequence of steps and orthogonalisations, all fields, shifts, setups with one or two spin components, both energy schemes", "why_tests_cant": "all schedules and all QR sign conventions", "anchors": ["openms/qmc/propagators.py:Phaseless.propagate_walkers", "openms/qmc/qmc.py:QMCbase.kernel", "openms/qmc/qmc.py:QMCbase.orthogonalization"]}
{"id": "C100", "title": "Non-interacting electrons are propagated exactly and without variance", "statement": "Without auxiliary fields a step applies exp(-dt h) exactly; if the trial orbitals are eigenvectors of h, every walker that overlaps the trial has the exact energy as hybrid energy (within the window), the weight factor is the same for all walkers, and in the stationary situation weights stay constant over whole runs.", "quantifier": "for every Hermitian h, number of electrons, walker, time step, Taylor order and number of steps", "why_tests_cant": "exactness for all inputs cannot be sampled", "anchors": ["openms/qmc/propagators.py:Phaseless.propagate_walkers", "openms/qmc/propagators.py:Phaseless.update_weight"]}
{"id": "C101", "title": "Determinants of a selected-CI trial occupy the frozen core and the active orbitals", "statement": "After construction of a multi-determinant trial from an active-space expansion, every kept determinant occupies the frozen orbitals and, above them, its active orbitals, with nalpha and nbeta electrons, in increasing order, and keeps its coefficient.", "quantifier": "for every expansion, number of determinants, active space, number of electrons and orbitals", "why_tests_cant": "the tests use equal numbers of frozen alpha and beta electrons; the wrong core list only matters otherwise", "anchors": ["openms/qmc/trial.py:multiCI.__init__", "openms/qmc/trial.py:get_ci"]}
{"id": "C102", "title": "The walk is guided by the overlap with the whole multi-determinant trial", "statement": "The overlap used for a multi-determinant trial is the overlap with the sum of all determinants with their coefficients.", "quantifier": "for every expansion with any number of determinants and every walker", "why_tests_cant": "a statement about all walkers and coefficients; energies of a run agree within noise when the first determinant dominates", "anchors": ["openms/qmc/trial.py:multiCI.ovlp_with_walkers", "openms/qmc/trial.py:trial_walker_ovlp_base"]}
{"id": "C103", "title": "The permutation sign of an excited determinant is right", "statement": "For two sorted determinants with equally many electrons the overlap of a walker with the excited one is the sign computed by permutation_sign times the overlap with the reference in which the orbitals are replaced in place.", "quantifier": "for all pairs of sorted determinants of any excitation rank and every walker", "why_tests_cant": "all excitation patterns of all ranks; a wrong sign only flips contributions of particular determinants", "anchors": ["openms/qmc/trial.py:permutation_sign"]}
{"id": "C104", "title": "Initial bosonic trial states are normalised coherent states in every mode", "statement": "The bosonic trial amplitudes built from displacements are coherent-state amplitudes in every mode, can be built for every cutoff, and every mode is normalised.", "quantifier": "for every number of modes, all cutoffs and complex displacements", "why_tests_cant": "tests use one mode and small cutoffs", "anchors": ["openms/qmc/trial.py:initialize_boson_trial_with_z", "openms/qmc/trial.py:make_trial"]}
{"id": "C105", "title": "The substitute for MPI behaves like MPI on one process", "statement": "Every operation of the fake communicator gives what MPI gives on a communicator with one process.", "quantifier": "for all buffers, counts, displacements and all sequences of sends and receives", "why_tests_cant": "tests run with mpi4py or do not use the counted variants and repeated tags", "anchors": ["openms/__mpi__.py:FakeComm"]}
{"id": "C106", "title": "The splitting of a step is accurate to second order", "statement": "Half a one-body step, the field step and half a one-body step equal the exponential of the sum up to third order in the step, also when the field exponential is the Taylor sum of the code with two or more terms.", "quantifier": "for all operators in every Banach algebra, and for all matrices, orbitals and Taylor orders from two on in the code", "why_tests_cant": "an asymptotic statement for all matrices; order errors hide in statistical noise", "anchors": ["openms/qmc/propagators.py:Phaseless.propagate_walkers", "openms/qmc/propagators.py:propagate_exp_op"]}
{"id": "C107", "title": "The force bias does not change the average of a step", "statement": "Averaged over the fields, the overlap of the new walker with an arbitrary determinant times exp(cfb + cmf) is the same for every complex force bias, bounded or not, as without force bias; in particular for the bias computed by the code.", "quantifier": "for every walker, determinant, time step, Taylor order, all matrices, mean-field values and complex force biases, one or two spin components", "why_tests_cant": "a Gaussian integral over all fields with a complex shift; a wrong factor biases long-run averages only slightly", "anchors": ["openms/qmc/propagators.py:Phaseless.propagate_walkers", "openms/qmc/propagators.py:Phaseless.propagate_walkers_twobody"]}
{"id": "C108", "title": "A step realises imaginary-time evolution with the many-electron Hamiltonian", "statement": "Averaged over the fields, the overlap of the new walker with an arbitrary determinant times exp(cfb + cmf) equals the matrix element of exp(-t H) between the determinant and the old walker up to second order in the time step t, where H is the Hamiltonian of all electrons with the one-body matrices and half the sum of the squared field operators minus their mean-field values, written in first quantisation.", "quantifier": "for every number of electrons and orbitals, all one-body matrices and fields, mean-field values, walkers, determinants, force biases (depending on the step in any way) and Taylor orders from three on, one or two spin components", "why_tests_cant": "a statement about an average over all fields in the limit of small steps for every system; a wrong coefficient shows up only as a bias of the energy", "anchors": ["openms/qmc/propagators.py:Phaseless.propagate_walkers", "openms/qmc/propagators.py:Phaseless.propagate_walkers_onebody", "openms/qmc/propagators.py:Phaseless.propagate_walkers_twobody"]}
{"id": "C109", "title": "The weight of a walker is the product of its importance ratios", "statement": "In the hybrid scheme, as long as the hybrid energies lie inside the window, the hybrid energy stored by a step is minus the logarithm of the modulus of the importance ratio (new overlap over old overlap times exp(cfb + cmf)) divided by the time step, and the weight with the last half factor exp(-dt/2 e) taken out is multiplied by that modulus, exp(dt * shift) and the cosine projection. Over a run the factors multiply, whatever orthogonalisations come in between; without orthogonalisation the overlaps cancel except the first and the last.", "quantifier": "for every system, trial, sequence of fields, energy shifts and orthogonalisations, every run length, one or two spin components", "why_tests_cant": "a telescoping identity over runs of any length with arbitrary fields; a wrong half factor changes the weights only slightly at each step", "anchors": ["openms/qmc/propagators.py:Phaseless.propagate_walkers", "openms/qmc/propagators.py:Phaseless.update_weight", "openms/qmc/qmc.py:QMCbase.kernel"]}
{"id": "C110", "title": "The force bias of the trial itself is zero for symmetric fields only", "statement": "With the mean-field values computed by the build, a walker equal to the orthonormal trial has Green's functions and, if the fields are symmetric matrices, force bias exactly zero, so its first step uses the drawn fields unshifted. Conversely, fields for which every trial (already every trial with one orbital) has zero force bias are symmetric: the build contracts the fields with the density matrix, the force bias with its transpose.", "quantifier": "for every basis size, all fields, all orthonormal trials with complex orbitals, every bound and positive time step, one or two spin components", "why_tests_cant": "two different contractions computed in two files agree for real orbitals and for symmetric fields, so tests on molecules cannot tell them apart", "anchors": ["openms/qmc/propagators.py:PropagatorBase.build", "openms/qmc/trial.py:TrialHF.get_vbias", "openms/qmc/trial.py:TrialHF.build", "openms/qmc/propagators.py:Phaseless.propagate_walkers_twobody"]}
{"id": "C111", "title": "A step of electrons and bosons realises imaginary-time evolution with one Hamiltonian", "statement": "Averaged over the fields, the overlap of the new walker (electrons and bosons) with an arbitrary determinant and boson state times exp(cfb + cmf) equals the matrix element of exp(-t H) between them and the old walker up to second order in the time step t, with a Hamiltonian H of electrons and bosons that is the same for all walkers.", "quantifier": "for every number of electrons, orbitals, boson states and fields, all one-body matrices, boson Hamiltonians, field operators, mean-field values, walkers, determinants and boson states, one or two spin components", "why_tests_cant": "an asymptotic statement about a Gaussian average over all fields; electrons and bosons are shifted by different force biases of the same fields, which changes averages by a walker dependent amount that a run hides in its noise", "anchors": ["openms/qmc/propagators.py:PhaselessElecBoson.propagate_walkers", "openms/qmc/propagators.py:PhaselessElecBoson.propagate_bosons_bilinear", "openms/qmc/trial.py:TrialHF.get_vbias", "openms/qmc/trial.py:TrialHF.get_boson_vbias"]}
{"id": "C112", "title": "A step with a mean-field bilinear coupling realises imaginary-time evolution with the bilinear Hamiltonian", "statement": "In the default product formalism a step averages, up to second order in the time step, to imaginary-time evolution of electrons and bosons with the bilinear Hamiltonian (coupling matrix times b^dagger + b for every mode), apart from one constant shift.", "quantifier": "for every number of electrons, orbitals, fields, modes and Fock states, all one-body matrices, coupling matrices, boson Hamiltonians, populations, determinants and boson states, one or two spin components", "why_tests_cant": "an asymptotic statement about a Gaussian average over all fields for arbitrary states; a run only shows a noisy energy in which a missing correlation between electrons and bosons is not visible", "anchors": ["openms/qmc/propagators.py:PhaselessElecBoson.propagate_walkers", "openms/qmc/propagators.py:PhaselessElecBoson.propagate_bosons_bilinear", "openms/qmc/propagators.py:PhaselessElecBoson.update_GF", "openms/qmc/generic_walkers.py:Walkers_so.get_boson_bdag_plus_b"]}
{"id": "C113", "title": "The mean fields of the product formalism depend only on the ensemble of walkers", "statement": "The two fields by which electrons and bosons of the product formalism see each other are averages over the walkers: they do not depend on the order of the walkers, the scale of the weights, the basis of the occupied orbitals, the normalisation of the boson states, or the distribution of the walkers over processes.", "quantifier": "for every population, all weights, determinants, boson states, numbers of modes and Fock states, all coupling matrices", "why_tests_cant": "a test compares runs on one number of processes and with states as the code happens to normalise them; the dependence is a smooth change of the trajectories and not an error that shows", "anchors": ["openms/qmc/generic_walkers.py:Walkers_so.get_boson_dm", "openms/qmc/generic_walkers.py:Walkers_so.get_boson_bdag_plus_b", "openms/qmc/propagators.py:PhaselessElecBoson.update_GF", "openms/qmc/propagators.py:PhaselessElecBoson.propagate_bosons_bilinear"]}
{"id": "C114", "title": "The optimised singles and doubles residuals are the reference ones and are antisymmetric", "statement": "The singles and doubles residuals of QED-CCSD computed with intermediates in myqedcc_equations_opt.py equal, element by element, those of the unoptimised qedcc_equations.py, and the doubles residual changes sign under exchange of two virtual or two occupied orbitals.", "quantifier": "for all integrals and amplitudes with the usual symmetries over every commutative ring with the rationals, all numbers of occupied and virtual orbitals and modes, all nfock1 and nfock2 at least 1, with and without U2n", "why_tests_cant": "a test compares two sets of arrays at one point; the residuals are polynomials of degree up to five in thirteen arrays, and a wrong term that vanishes for the tested system, for example for one mode or small basis, remains", "anchors": ["openms/mqed/qedcc_equations.py:qedccsd_T1", "openms/mqed/qedcc_equations.py:qedccsd_T2", "openms/mqed/myqedcc_equations_opt.py:qedccsd_T1T2_opt"]}
{"id": "C115", "title": "The photon residuals are derivatives of the correlation energy", "statement": "With the amplitudes as functions of the coherent-state variable of the modes, the residuals Sn[0] and Sn[1] are the first and second derivative of the correlation energy plus the frequency times the amplitude, in both files.", "quantifier": "for all integrals and amplitudes, all numbers of orbitals and modes, all nfock1 and nfock2, every mode with frequency not zero", "why_tests_cant": "the energy and the residual are coded separately; a test of the converged energy of one molecule cannot tell a missing term of second order in the coupling from the truncation", "anchors": ["openms/mqed/qedcc_equations.py:qedccsd_Sn", "openms/mqed/myqedcc_equations_opt.py:qedccsd_Sn", "openms/mqed/ccsd.py:epcc_energy"]}
{"id": "C116", "title": "The first-order photon-electron singles residual is the derivative of the singles residual", "statement": "U1n[0] is the derivative of the singles residual with respect to the coherent-state variable of the mode, plus the frequency times U11, in both files, so both files agree.", "quantifier": "for all integrals and amplitudes with the usual symmetries, all numbers of orbitals and modes, all nfock1 and nfock2 at least 1, with and without U2n", "why_tests_cant": "there are about sixty terms with permutations of modes; a test at one point of amplitudes of one molecule with one mode does not separate them", "anchors": ["openms/mqed/qedcc_equations.py:qedccsd_U1n", "openms/mqed/myqedcc_equations_opt.py:qedccsd_U1n_opt", "openms/mqed/myqedcc_equations_opt.py:Imds.build"]}
{"id": "C117", "title": "The first-order photon-electron doubles residual is the derivative of the doubles residual", "statement": "U2n[0] is the derivative of the doubles residual with respect to the coherent-state variable of the mode, plus the frequency times U21, in both files.", "quantifier": "for all integrals and amplitudes with the usual symmetries, all numbers of orbitals and modes, all nfock1 and nfock2 at least 1", "why_tests_cant": "with one mode, as in the tests, an index of the wrong mode gives the right number", "anchors": ["openms/mqed/qedcc_equations.py:qedccsd_U2n", "openms/mqed/myqedcc_equations_opt.py:qedccsd_U2n_opt"]}
{"id": "C118", "title": "The second-order photon-electron singles residual is the second derivative of the singles residual", "statement": "U1n[1] is the second derivative of the singles residual with respect to the coherent-state variables of the two modes, plus the sum of both frequencies times U12, and is symmetric in the modes.", "quantifier": "for all integrals and amplitudes with the usual symmetries, all numbers of orbitals and modes, all nfock1 at least 1 and nfock2 at least 2", "why_tests_cant": "terms counted twice or with half the weight change the amplitudes in high order of the coupling only; no independent code gives the right value", "anchors": ["openms/mqed/qedcc_equations.py:qedccsd_U1n", "openms/mqed/myqedcc_equations_opt.py:qedccsd_U1n_opt"]}
{"id": "C119", "title": "The second-order photon-electron doubles residual with one mode is the second derivative of the doubles residual", "statement": "With one mode the computed element of U2n[1] is the second derivative of the doubles residual with respect to the coherent-state variable, plus twice the frequency times U22.", "quantifier": "for all integrals and amplitudes with the usual symmetries, all numbers of orbitals, all nfock1 at least 1 and nfock2 at least 2", "why_tests_cant": "the missing terms are of fifth degree in the amplitudes and vanish without singles, below any tolerance of a test of the energy", "anchors": ["openms/mqed/qedcc_equations.py:qedccsd_U2n", "openms/mqed/myqedcc_equations_opt.py:qedccsd_U2n_opt"]}
{"id": "C120", "title": "The residuals written for one mode are derivatives of the singles and doubles residuals", "statement": "The separate functions for one mode give the first and second derivatives of the singles and doubles residuals with respect to the coherent-state variable, plus the frequency times the amplitude.", "quantifier": "for all integrals and amplitudes with the usual symmetries and one mode, all numbers of orbitals, all nfock1 and nfock2", "why_tests_cant": "the functions are chosen by the number of modes and have their own copy of every term and of every test of the truncation; a test at one truncation does not see a wrong condition for another", "anchors": ["openms/mqed/qedcc_equations.py:single_qedccsd_U1n", "openms/mqed/qedcc_equations.py:single_qedccsd_U2n"]}
{"id": "C121", "title": "The singles and doubles residuals are the coupled-cluster equations of the transformed integrals", "statement": "The long lists of terms of the singles and doubles residuals are, element by element, the short equations of coupled cluster without singles (with photon terms) evaluated with integrals, couplings and Fock matrix transformed by exp(-T1) and exp(T1).", "quantifier": "for all integrals and amplitudes with the usual symmetries over every commutative ring with the rationals, all numbers of occupied and virtual orbitals and modes, all nfock1 and nfock2 at least 1, with and without U2n, for the vector G that ccsd.py sets to zero", "why_tests_cant": "the transformation generates terms up to fourth degree in the singles, which are tiny in any molecule near its mean field; a missing or doubled one of them does not change an energy within the tolerance of a test", "anchors": ["openms/mqed/qedcc_equations.py:qedccsd_T1", "openms/mqed/qedcc_equations.py:qedccsd_T2", "openms/mqed/myqedcc_equations_opt.py:qedccsd_T1T2_opt"]}
{"id": "C122", "title": "A converged iteration of QED-CCSD solves the coupled-cluster equations", "statement": "Amplitudes are left unchanged by an iteration (residual divided by the energy denominators, then damping) exactly if they solve the coupled-cluster equations of the Hamiltonian with the whole Fock matrix and the mode frequencies.", "quantifier": "for all integrals, amplitudes, orbital energies and frequencies with denominators not zero over every field of characteristic zero, all numbers of orbitals and modes, all truncations at least 1, every damping factor", "why_tests_cant": "a converged energy is reproducible whatever equations are solved; the reference values of the tests come from the same code", "anchors": ["openms/mqed/ccsd.py:kernel", "openms/mqed/ccsd.py:getD1p", "openms/mqed/myqedcc_equations_opt.py:qedccsd_Sn", "openms/mqed/myqedcc_equations_opt.py:qedccsd_U1n_opt"]}
{"id": "C123", "title": "The residual functions run for every truncation and read only its amplitudes", "statement": "With at least one photon level in both truncations every einsum of the residual functions finds its operands defined and with the axes its letters say, so the functions return, and the results do not depend on amplitudes beyond the truncation.", "quantifier": "for all inputs, all numbers of occupied and virtual orbitals and modes, all nfock1 and nfock2 at least 1, with and without U2n", "why_tests_cant": "tests run a few truncations and one mode; a name that is only set under one condition and read under another raises for the combinations that are not tested", "anchors": ["openms/mqed/myqedcc_equations_opt.py:Imds.build", "openms/mqed/myqedcc_equations_opt.py:qedccsd_U2n_opt", "openms/mqed/qedcc_equations.py:qedccsd_U2n", "openms/mqed/qedcc_equations.py:single_qedccsd_U2n"]}
{"id": "C124", "title": "Fock matrix and two-electron integrals of QED-CCSD belong to one Hamiltonian", "statement": "The antisymmetrised integrals are those of the spin orbitals with the dipole self-energy, they have the eightfold antisymmetry, and the Fock matrix is the core matrix plus the sum of the integrals over the occupied spin orbitals; with canonical orbitals it is diagonal and holds the orbital energies.", "quantifier": "for all orbital coefficients, electron numbers, integrals, couplings and numbers of modes, restricted or not", "why_tests_cant": "tests compare one energy of one molecule; a term counted in the integrals and not in the Fock matrix changes the energy by a small amount that looks plausible", "anchors": ["openms/lib/boson.py:Photon.get_I", "openms/lib/boson.py:Photon.fock", "openms/lib/boson.py:Photon.g_fock", "openms/lib/boson.py:Photon.get_mos"]}
{"id": "C125", "title": "Photon part of the QED-CCSD integrals: displacement, linear term, reference energy", "statement": "The displaced equations have the Fock matrix and reference energy of the coherent-state mean field, the linear photon term is the coupling of the reference minus the displacement, hf_energy is the mean-field energy, and the functions that prepare these quantities return.", "quantifier": "for all systems, modes, frequencies and displacements, with and without shift, coherent state and self-energy", "why_tests_cant": "the quantities agree in the tested setting (coherent state, matrices stored by an earlier call) and differ in the others", "anchors": ["openms/lib/boson.py:Photon.hf_energy", "openms/lib/boson.py:Photon.g_fock", "openms/lib/boson.py:Photon.mfG", "openms/lib/boson.py:Photon.get_gmat_so", "openms/mqed/ccsd.py:kernel", "openms/mqed/qedhf.py:RHF.get_jk"]}
{"id": "C126", "title": "The error vector of the accelerated iteration vanishes exactly at stationary points", "statement": "The error vector built from overlap, density, Fock matrix and gradient is zero if and only if the Fock matrix commutes with the density in the metric of the overlap and the gradient vanishes, in the atomic and in the orthonormal basis, for one matrix, two spins or a list; this is stationarity of the energy under all variations that keep the density idempotent; and the update works for every mean field.", "quantifier": "for all hermitian matrices of every size, all orthonormalising matrices, all gradients, with and without orbital symmetry", "why_tests_cant": "tests see that an iteration converges; an error vector that vanishes at a point which is not stationary, or only for the tested array shape, does not show", "anchors": ["openms/mqed/diis.py:get_err_vec", "openms/mqed/diis.py:get_err_vec_orig", "openms/mqed/diis.py:get_err_vec_orth", "openms/mqed/diis.py:CDIIS.update"]}
{"id": "C127", "title": "The Gutzwiller amplitudes of a site are those of the ground state of its local Hamiltonian", "statement": "The matrices of the local Hamiltonian give the hopping amplitude, the density per spin and the double occupancy of the amplitudes; the amplitudes taken after the diagonalisation are those of the lowest eigenvector; the coupling to the lattice is the documented sum over neighbours, half the derivative of the quasiparticle energy with respect to the renormalisation factor; the multipliers stay exactly where the densities agree.", "quantifier": "for all lattices, hopping matrices, interactions, densities and amplitudes, and every result the eigensolver may return", "why_tests_cant": "at half filling without interaction, and on uniform lattices, the wrong row of eigenvectors and the wrong renormalisation factor give the right numbers", "anchors": ["openms/gwf/ga_sband.py:update_var_params", "openms/gwf/ga_sband.py:get_deltas", "openms/gwf/ga_sband.py:update_lambda", "openms/gwf/ga_sband.py:update_qp_ham", "openms/gwf/ga_sband.py:GASCF.__init__"]}
{"id": "C128", "title": "A Gutzwiller run keeps normalised amplitudes and returns its energy", "statement": "The start gives normalised amplitudes of the density it is given; along every run the amplitudes stay normalised and not negative and the renormalisation factors stay between zero and one, uncut as long as the densities agree; the run returns an energy of the state it reached.", "quantifier": "for all systems, starting densities, numbers of cycles, thresholds, mixing factors between zero and one, and all orthogonal eigenvectors", "why_tests_cant": "a run is one path of the iteration; normalisation along every path and for every density needs an invariant", "anchors": ["openms/gwf/ga_sband.py:kernel", "openms/gwf/ga_sband.py:init_var_params", "openms/gwf/ga_sband.py:update_renormalizations", "openms/gwf/ga_sband.py:make_rdm1"]}
{"id": "C129", "title": "The conductivity of a hyperbolic material is passive and is the documented one", "statement": "The real part of every component is not negative; every component is the documented sum of the contribution of the free electrons with weight proportional to the density, a step at its interband frequency and the logarithm that belongs to it.", "quantifier": "for all numbers of components, frequencies, strengths, dampings and densities", "why_tests_cant": "a plot of one material does not tell a step at the plasmon frequency from a step at the interband frequency, nor a weight from its square", "anchors": ["openms/maxwell/hyperbolic.py:hyperbolicBase.get_conductivity", "openms/maxwell/hyperbolic.py:hyperbolicBase.__init__"]}
{"id": "C130", "title": "Overlap matrix and gradient of variational Monte Carlo", "statement": "The overlap matrix is hermitian and not negative; both are unchanged by a constant in the energy or in the logarithmic derivatives; an eigenstate is stationary; for samples in proportion to the square of the wave function the mean energy is the energy and twice the gradient vector is the derivative of the energy, also for complex wave functions; the kernel runs on the object as it was made.", "quantifier": "for all numbers of samples and parameters, all Hamiltonians and wave functions, all numbers of iterations", "why_tests_cant": "with real wave functions the missing conjugation does not show; sampled gradients are noisy; no test runs the kernel", "anchors": ["openms/qmc/vmc.py:VMCBase.kernel", "openms/qmc/vmc.py:VMCBase.__init__"]}
{"id": "C131", "title": "Zero field splitting tensor, g tensor and attributes of spin objects", "statement": "The tensor built from D and E is symmetric and traceless, gives the documented Hamiltonian in every algebra of spin operators and determines both parameters; the g factor becomes a tensor of every spin; the dimension of spin k/2 is k+1; keywords set the attributes of their name.", "quantifier": "for all parameters, spins, tensors, numbers of spins and keyword lists", "why_tests_cant": "tests make one spin with default arguments; stacks of tensors and ignored keywords need cases over all shapes and calls", "anchors": ["openms/spindy/spin.py:zfs_tensor", "openms/spindy/spin.py:check_gfactor", "openms/spindy/spin.py:Spin", "openms/spindy/spin.py:SpinSystem"]}
{"id": "C132", "title": "String tables, density matrices and diagonal of the full CI with photons", "statement": "The link tables of the determinant strings are the excitation operators of the fermion algebra: symmetric, counting electrons on the diagonal, with the product rule of two excitations. The one and two body density matrices built from them give the expectation value of every electronic Hamiltonian, have the right traces and the symmetry under exchange of the pairs. The diagonal is the diagonal of the Hamiltonian.", "quantifier": "for all numbers of orbitals, electrons, modes and photons, all integrals and all vectors", "why_tests_cant": "tests compare one energy of one molecule; signs of strings, unordered densities and a diagonal that only preconditions do not show there", "anchors": ["openms/mqed/qedfci.py:make_rdm12e", "openms/mqed/qedfci.py:make_rdm1e", "openms/mqed/qedfci.py:make_hdiag"]}
{"id": "C133", "title": "The energy offset of the population control moves the mean weight to its target", "statement": "The weights after the step with the offset sum to the stated total; the mean weight comes closer to the target; systematic resampling is the same selection as stochastic reconfiguration.", "quantifier": "for all populations, weights, time steps, targets, energies and random starts", "why_tests_cant": "a run at the target does not see the sign of the offset; a drift of the total weight is hidden by the normalisation of estimators", "anchors": ["openms/qmc/population_control.py:energy_offset_adjustment_with_resampling", "openms/qmc/population_control.py:systematic_resampling"]}
{"id": "C134", "title": "The projected matrix of the iterative eigensolver holds all matrix elements", "statement": "After any sequence of blocks of new vectors the projected matrix holds the matrix element of every pair of vectors; the hermitian filling gives a hermitian matrix for every operator, agrees with the general one exactly if the projected operator is hermitian, and does so for every hermitian operator.", "quantifier": "for all sequences of block sizes, all vectors and all operators over the complex numbers", "why_tests_cant": "a solver run adds few blocks and converges also with a wrong corner of the matrix; the statement covers all histories", "anchors": ["openms/solvers/linalg.py:_fill_heff_hermitian", "openms/solvers/linalg.py:_fill_heff"]}
{"id": "C135", "title": "Integrals handed to the full CI describe the Hamiltonian of the boson class", "statement": "The one and two body integrals with dipole self energy give the operator with half the square of the dipole for every mode; the coupling of every mode is scaled by its own frequency; the density matrix handed over counts the electrons.", "quantifier": "for all numbers of orbitals and modes, all overlaps, couplings, frequencies and density matrices", "why_tests_cant": "tests use one mode, where a broadcast along the wrong axis cannot show, and the density is only used as a start", "anchors": ["openms/lib/boson.py:get_integrals4fci"]}
{"id": "C136", "title": "Degenerate groups of the dipole basis are resolved and the basis stays an eigenbasis", "statement": "The slices that are turned are the groups of eigenvalues that count as equal; the turned vectors stay an orthonormal eigenbasis of the coupling with the same eigenvalues in which the Fock matrix is diagonal within every group; the integrals kept for several modes belong to one mode in both storage schemes; the photon expectation value is the occupation.", "quantifier": "for all spectra, thresholds, numbers of orbitals, Fock and coupling matrices, numbers of modes and boson coefficients", "why_tests_cant": "the group at the upper end and a gap at the threshold need special spectra; tests run one mode and compare total energies", "anchors": ["openms/mqed/scqedhf.py:RHF.check_n_resolve_degeneracy", "openms/mqed/scqedhf.py:RHF.initialize_eta", "openms/mqed/scqedhf.py:RHF.cholesky_DO", "openms/mqed/scqedhf.py:RHF.construct_eri_DO", "openms/mqed/scqedhf.py:RHF.photon_exp_val"]}
{"id": "C137", "title": "Self energy matrices of the boson class agree with those of the mean field class", "statement": "Both classes give the same Coulomb and exchange matrices for every density; the Coulomb energy is the sum of squares of the mean dipoles and not negative; one doubly occupied orbital has equal Coulomb and exchange energy; the ladder expectation value is the one of its name.", "quantifier": "for all numbers of modes and orbitals, symmetric couplings, densities and variational parameters", "why_tests_cant": "the two implementations are never compared; differences appear only for densities that are not symmetric and without bare self energy", "anchors": ["openms/lib/boson.py:Boson.get_dse_jk", "openms/lib/boson.py:Boson.get_boson_dm", "openms/lib/boson.py:Photon.get_bdag_minus_b_expval"]}
{"id": "C138", "title": "Integrals of the Monte Carlo class stand for the coupled electronic Hamiltonian", "statement": "The fields of the singular value decomposition reproduce the integrals exactly when their matrix is positive semidefinite, with a truncation error between zero and the threshold; the bare fields and the one electron matrix stand for the molecular Hamiltonian plus half the sum of squares of the couplings whether or not the couplings are merged into the integrals; the further fields are the bilinear ones; the local energy is the contraction given by Wick's theorem for one and two components", "quantifier": "for all integrals, basis transformations, couplings, frequencies, thresholds, flags, link tables and vectors", "why_tests_cant": "tests compare energies of two small molecules within statistical errors; the two ways of treating the couplings are not compared term by term", "anchors": ["openms/qmc/qmc.py:QMCbase.get_integrals", "openms/qmc/qmc.py:QMCbase.local_energy_spin", "openms/qmc/qmc.py:QMCbase.local_energy", "openms/qmc/tools.py:get_h1e_chols", "openms/qmc/tools.py:chols_full"]}
{"id": "C139", "title": "Hopping probabilities are those of the fewest switches rule", "statement": "The densities are those of the pure state; the entry for a target state is the fewest switches probability to leave the current state for it, in agreement with the documented equation of motion. Violated: the entry is the probability of the reverse hop, so every hop that should happen gets a negative entry and is never drawn, and the method raises before computing anything because an array is given to range", "quantifier": "for all numbers of states and molecules, energies, antisymmetric couplings, coefficients, time steps and random numbers", "why_tests_cant": "the method is not called by any test and raises; sign and direction of a probability show only in averages over many trajectories", "anchors": ["openms/qmd/sh.py:SH.hopping_probability", "openms/qmd/sh.py:SH.get_densities"]}
{"id": "C140", "title": "The Hubbard routines of the full CI are the Hubbard interaction", "statement": "contract_2e_hubbard is u times the number of doubly occupied orbitals, equal to the second quantised interaction, and the Hubbard diagonal is its diagonal. Violated: three interactions, which the unpacking accepts, raise or are spread over the occupation of the last mode; the diagonal raises a NameError, and with the name repaired counts all electrons", "quantifier": "for all numbers of orbitals, electrons and modes, all interactions and vectors", "why_tests_cant": "the Hubbard routines are not reached by any test; a scalar interaction hides the broadcasting", "anchors": ["openms/mqed/qedfci.py:contract_2e_hubbard", "openms/mqed/qedfci.py:_unpack_u", "openms/mqed/qedfci.py:make_hdiag_hubbard"]}
{"id": "C141", "title": "Electronic estimators give the energy of Wick's theorem and split the spins", "statement": "The energy from four index integrals is the contraction of Wick's theorem; the spin orbital Green's function consists of the projectors of both spins; the distributed exchange energy is the serial one. Violated: the energy contains only half of the one electron part, and the unrestricted trial cannot be built because the stacked spin components are not split", "quantifier": "for all integrals, Green's functions, numbers of orbitals, electrons, processes and walkers on each process", "why_tests_cant": "the estimators are called with one process and restricted trials; a wrong one electron part needs a reference energy", "anchors": ["openms/qmc/estimators.py:local_eng_elec", "openms/qmc/estimators.py:GF_so", "openms/qmc/estimators.py:exx_rltensor_Ghalf_chunked", "openms/qmc/trial.py:TrialUHF.build"]}
{"id": "C142", "title": "A run propagates, orthogonalises and measures at the stated steps", "statement": "Both kernels propagate once per step, orthogonalise at the start and every renorm_freq steps, measure every property_calc_freq steps, record the imaginary time at which the energy was measured, and do the same operations in the same order. Violated: the recorded time is one step early, and the function kernel ignores the chosen population control", "quantifier": "for all time steps, numbers of steps, frequencies and methods of population control", "why_tests_cant": "a test fixes one set of frequencies and reads the energies, not the times; both kernels agree for the default method", "anchors": ["openms/qmc/qmc.py:kernel", "openms/qmc/qmc.py:QMCbase.kernel"]}
{"id": "C143", "title": "The gradients of all variational parameters in one loop are the separate gradients", "statement": "grad_var_params_together stores the same displacement, fraction and squeezing gradients as grad_var_params. Violated: with a Cholesky tensor the displacement and fraction gradients use the reversed shift, so the Coulomb part of the displacement gradient has the wrong sign", "quantifier": "for all integrals, displacements, fractions, density matrices and switches", "why_tests_cant": "the function is not called by any test, and is meant to replace the tested one", "anchors": ["openms/mqed/vtqedhf.py:grad_var_params_together", "openms/mqed/vtqedhf.py:grad_var_params"]}
{"id": "C144", "title": "The energy of an SCF cycle is the energy functional at the new displacements", "statement": "After a cycle of the self-consistent field with variational displacements, the reported energy is the energy functional at the displacements and the density that the cycle leaves behind. Violated: the couplings and their self energy are those of the displacements before the step, so the reported energy can be below the energy functional at every choice of displacements", "quantifier": "for all integrals, couplings, step lengths, densities, extrapolations and starting states", "why_tests_cant": "a converged run does not see the difference, a test sees only runs that converge", "anchors": ["openms/mqed/scqedhf.py:kernel", "openms/mqed/qedhf.py:get_fock", "openms/mqed/scqedhf.py:get_h1e_DO", "openms/mqed/scqedhf.py:update_var_params"]}
{"id": "C145", "title": "The bilinear propagator by orders is a truncated exponential", "statement": "propagate_walkers_bilinear applies the exponential series of the coupling, cut at taylor_order, to the electronic and the bosonic part of a walker. Violated: the bosonic terms are not divided by the order, so they form the geometric series and the limit is the resolvent instead of the exponential", "quantifier": "for all couplings, walkers, orders and numbers of states", "why_tests_cant": "nothing calls the function, and at order one the two series agree", "anchors": ["openms/qmc/propagators.py:propagate_walkers_bilinear"]}
{"id": "C146", "title": "Unrestricted and general orbital integrals of the Hubbard chain agree", "statement": "The Fock matrix and antisymmetrised integrals of Hubbard1D in general spin orbitals have the unrestricted ones as spin blocks, and the blocks kept by two_e_blocks and two_e_blocks_full determine them. Violated by make_two_e_blocks for integrals of two different spins, of which nine blocks are not enough", "quantifier": "for all chains, orbitals, fillings, repulsions and antisymmetric integrals", "why_tests_cant": "a test compares numbers for one chain and one filling", "anchors": ["openms/models/hubbard.py:u_fock", "openms/models/hubbard.py:g_fock", "openms/models/hubbard.py:u_aint_tot", "openms/models/hubbard.py:g_aint", "openms/models/hubbard.py:g_aint_tot", "openms/lib/ov_blocks.py:make_two_e_blocks", "openms/lib/ov_blocks.py:make_two_e_blocks_full"]}
{"id": "C147", "title": "Fock matrix and orbitals of the Hubbard-Holstein model belong to its energy", "statement": "The Fock matrix of HHModel is the derivative of its mean-field energy, over sites and over orbitals, mfG is the linear term of the displaced modes, and get_mo makes the orbitals with the hopping and repulsion of the model. Violated: get_mo leaves the repulsion zero unless the symmetry is broken, and for two open sites its hopping is half that of the model", "quantifier": "for all chains, hoppings, repulsions, couplings, densities and orbitals", "why_tests_cant": "a test compares energies of one chain, and the iteration afterwards hides a poor start", "anchors": ["openms/models/hh_model.py:get_mo", "openms/models/hh_model.py:g_fock", "openms/models/hh_model.py:mfG", "openms/models/hh_model.py:gint_tot"]}
{"id": "C148", "title": "Selection of bright states and spectra of molecular aggregates", "statement": "spdfselection picks every state at most once and independently of the signs of the eigenvectors, with the selected dipole strength a fraction of the total; linearabs is the sum over all states; tdes vanishes for an oscillator and adds up for molecules that do not interact. Violated by linearabs, which sums over the lowest states only, and by tdes, which lacks the bleaching of the other molecule", "quantifier": "for all numbers of sites, eigenvectors, dipoles, thresholds, widths and frequencies", "why_tests_cant": "a spectrum of one aggregate has no independent value to compare with", "anchors": ["openms/models/aggregates.py:spdfselection", "openms/models/aggregates.py:linearabs", "openms/models/aggregates.py:tdes", "openms/models/aggregates.py:sortdipole"]}
{"id": "C149", "title": "The initial coherent state of a Monte Carlo run is not above the vacuum", "statement": "The boson part of the trial built from the displacement zalpha of QMCbase.build has an energy not above that of the state without bosons. Violated: zalpha is the expectation value of the coupling in the first spin component with a positive sign and without the frequency, so for every closed-shell trial with a coupling the start is above the vacuum, while the displacement -g/w is below it", "quantifier": "for all couplings, Green's functions, positive frequencies and numbers of boson states", "why_tests_cant": "the projection lowers the energy from any start with overlap, so only the efficiency suffers", "anchors": ["openms/qmc/qmc.py:build", "openms/qmc/trial.py:initialize_boson_trial_with_z"]}
{"id": "C150", "title": "Compiled kernels compute what the Python functions compute", "statement": "The C++ kernels for the one-body and Taylor propagation, overlaps, half-rotated Green's functions, exchange and Coulomb energy and the tensor contraction read and write only inside their arrays and give the results of the numpy expressions they replace. Violated by the real Taylor kernel from the third order on, by the propagation of an array that has to be converted first, whose result is dropped, and by the Coulomb kernel for fewer beta than alpha electrons, which reads outside the array", "quantifier": "for all numbers of walkers, orbitals, electrons, auxiliary fields, orders and array contents", "why_tests_cant": "a read outside an array usually returns some number, and only the default order and closed shells are run", "anchors": ["openms/lib/qmclibs/src/propagator.cpp:propagate_exp_op_taylor", "openms/lib/qmclibs/src/estimators.cpp:exx", "openms/lib/qmclibs/src/trial.cpp:trial_walker_ovlp_base", "openms/qmc/propagators.py:propagate_HS", "openms/qmc/propagators.py:propagate_walkers_onebody"]}
{"id": "C151", "title": "Compiled displacement matrix agrees with the Python function", "statement": "displacement_matrix_cpp writes every element of the displacement matrix, with the values of Boson.displacement_matrix, and its second result is the expectation value in the density matrix passed. Violated: the memory of the density matrix is read as if it were packed, so for the square matrix the Python function takes the result is wrong for every mode with two or more states", "quantifier": "for all numbers of states and orbitals, modes, frequencies, squeezing parameters, shifts and density matrices", "why_tests_cant": "with one boson state the packed and the square matrix are the same number", "anchors": ["openms/lib/qmclibs/src/qedhf.cpp:displacement_matrix_cpp", "openms/lib/boson.py:displacement_matrix"]}
{"id": "C152", "title": "Maxwell time step keeps flux, charge and energy and is stable", "statement": "A time step of the Maxwell solver does not change the magnetic flux out of any cell nor the charge at any point between dielectric cells; between walls and with periodic directions it keeps the energy of the leapfrog scheme, for all numbers of steps, and the fields of all times stay bounded by the initial energy when dt^2 (1/dx^2+1/dy^2+1/dz^2) is below the product of the smallest permittivity and the permeability", "quantifier": "for all grids, non-uniform grid constants, permittivities, fields, periodic directions and numbers of steps", "why_tests_cant": "a wrong sign or neighbour shows up as slow growth of the fields after many steps", "anchors": ["openms/lib/fdtd/timeupdate.c:propagate", "openms/lib/fdtd/timeupdate.c:normal_E_field_update", "openms/lib/fdtd/timeupdate.c:normal_H_field_update", "openms/lib/fdtd/timeupdate.c:E_field_Gamma_boundary_update_x"]}
{"id": "C153", "title": "Metals and absorbing layers of the Maxwell solver obey their equations and only absorb", "statement": "The update of a metal cell solves the equations of a Drude metal centred in time, so a box of dielectrics and metals loses exactly the heat dt gamma J^2/(eps0 omega^2) per step and its energy never grows; the update of a cell of an absorbing layer with the coefficients of coefficient() solves the equations of a uniaxial layer centred in time, with the conductivities at the place of each component; the conductivities vanish exactly in the cells marked as inside, where a layer cell would be updated like vacuum, and are nowhere negative; a perfect conductor stays without field", "quantifier": "for all grids, fields, time steps, plasma frequencies, damping constants, conductivity profiles, layer widths and numbers of steps", "why_tests_cant": "a coefficient taken at a neighbouring half position changes the reflection of a layer by a small amount only", "anchors": ["openms/lib/fdtd/timeupdate.c:metal_E_field_update", "openms/lib/fdtd/timeupdate.c:pml_E_field_update", "openms/lib/fdtd/timeupdate.c:pml_H_field_update", "openms/lib/fdtd/timeupdate.c:coefficient", "openms/lib/fdtd/sigma.c:sigmax", "openms/lib/fdtd/memory.c:memory"]}
{"id": "C154", "title": "Grid of the Maxwell solver", "statement": "The cells of all regions have the size given by their lattice constants, the default time step is below the Courant limit, the regions are sorted by their start, the grid point grows with the height and every grid point is found again from its height. Violated: the common multiple uses only the largest lattice constant of the regions and the integer division makes the other cells too small; the pivot of the sort is an integer, so starts between 0 and 1 make it read in front of the array and starts between -1 and 0 stay unsorted; the grid point of a region end is cut off in one place and rounded in another, so the grid point can fall with the height", "quantifier": "for all lattice constants, regions, heights and time step parameters", "why_tests_cant": "the tests have no regions, or regions whose ends happen to lie on the grid", "anchors": ["openms/lib/fdtd/parameter.c:lcm3", "openms/lib/fdtd/parameter.c:quick_sort_nz_start", "openms/lib/fdtd/parameter.c:non_uniform_z_to_i", "openms/lib/fdtd/parameter.c:non_uniform_i_to_z", "openms/lib/fdtd/parameter.c:set_default_parameter", "openms/lib/fdtd/parameter.c:generate_base_grid"]}
{"id": "C155", "title": "Distribution of the Maxwell grid over processes", "statement": "What a process sends to a neighbour is what the neighbour receives, all processes of a row are met by going round, every cell of the grid is held by exactly one process and no process holds a cell outside, the search for a point gives its place in the array of the process, and a dipole source is added by exactly one process. Violated: for every size that is not a multiple of the number of processes cells are missing along x and lie outside along y and z; findgrid_y runs over the number of cells along x; the place found is one below the index of the serial code; the source is added once for every process along z", "quantifier": "for all grid sizes, numbers of processes, processes and positions", "why_tests_cant": "the repository has no test of the parallel solver, and a run on one process never meets the remainder", "anchors": ["openms/lib/mpifdtd/src/init_mpi.c:setup_MPI", "openms/lib/mpifdtd/src/init_mpi.c:init_grid", "openms/lib/mpifdtd/src/init_mpi.c:findgrid_x", "openms/lib/mpifdtd/src/init_mpi.c:findgrid_y", "openms/lib/mpifdtd/src/source.c:Gaussian_dipole_source"]}
{"id": "C156", "title": "Bloch boundaries of the Maxwell solver are the whole crystal", "statement": "The real and the imaginary arrays of a run with a Bloch wave vector, read as one complex field and continued over the plane by the phases exp(2 pi i k R) of the lattice vectors R, obey the update equations of the unbounded periodic crystal in every cell, at every step, for the rectangular and for the triangular lattice. Violated: at a molecule the imaginary array is updated as a metal of permittivity 100 while the real one uses the permittivity of the cell; in the triangular lattice with an odd number of cells along x the boundary value above the first column is never written", "quantifier": "for all wave vectors, cell sizes, materials, metals and absorbing layers along z, all fields and all numbers of steps", "why_tests_cant": "the repository has no test of the Maxwell solver, and the crystal is not bounded", "anchors": ["openms/lib/fdtd/timeupdate.c:propagate", "openms/lib/fdtd/timeupdate.c:propagate_tri", "openms/lib/fdtd/timeupdate.c:E_field_periodic_boundary_update_Xwall", "openms/lib/fdtd/timeupdate.c:H_field_periodic_boundary_update_Ywall"]}
{"id": "C157", "title": "Mirror planes of the Maxwell solver are the whole grid", "statement": "With parities chosen for any of the three directions the fields of the computed part, continued by mirroring at the planes with the signs of the components, obey the update equations on the whole grid at every step; the assignments at the three planes are compatible with each other. Violated: the run without parities on the whole grid is not this mirror image, because its loop ends one cell earlier, so that it starts from symmetric fields and becomes asymmetric", "quantifier": "for all parities, grid sizes, permittivities, spacings and fields, and all numbers of steps", "why_tests_cant": "the repository has no test of the Maxwell solver; the equations on the part that is not computed are never evaluated", "anchors": ["openms/lib/fdtd/parameter.c:Hz_parity", "openms/lib/fdtd/timeupdate.c:Ez_parity_boundary_update", "openms/lib/fdtd/timeupdate.c:Hz_parity_boundary_update", "openms/lib/fdtd/timeupdate.c:propagate"]}
{"id": "C158", "title": "Fields reported at the nodes of the Maxwell grid", "statement": "The components of the fields and of the energy flux written by the solver are those at the nodes of the grid: behind a mirror plane those of the mirrored fields, in a crystal those of the whole crystal, in any cell, and a plane printed over several cells has consecutive nodes. Violated: with an odd number of cells every node behind the plane gets the field of a neighbour; Hz at the first node of a periodic cell uses a place that is never written; the phase for both directions lacks a factor 2 pi; planes over several cells leave out the last node of every cell and go through the cells along y in the wrong order", "quantifier": "for all grids, parities, wave vectors, fields, nodes and cells, and all numbers of steps", "why_tests_cant": "the repository has no test of the Maxwell solver; the wrong values are single nodes or cells of a picture", "anchors": ["openms/lib/fdtd/output.c:efieldx", "openms/lib/fdtd/output.c:hfieldz", "openms/lib/fdtd/output.c:grid_value", "openms/lib/fdtd/output.c:grid_value_periodic_x", "openms/lib/fdtd/output.c:grid_value_periodic_xy", "openms/lib/fdtd/output.c:out_plane_periodic"]}
{"id": "C159", "title": "Losses and energies reported by the Maxwell solver", "statement": "The loss reported by the solver is the flux of energy out of the region between the absorbing layers: the sum of what flows out of its cells. The upper and lower losses add up to the vertical loss, a block without sources has no loss, the energies of two blocks that meet are the energy of their union, the detector finds the node of largest energy and the half sphere is centered at the middle of the grid. Violated: the upper plane along y uses the width of the lower layer, the sides miss the lowest layer when lattice_z is not a multiple of five, blocks and strips count the common layers twice, and the sphere uses the center along x also for y", "quantifier": "for all grids, layers, fluxes, blocks and energies over any ordered field", "why_tests_cant": "the repository has no test of the Maxwell solver; with layers of equal width and a multiple of five the total loss is right", "anchors": ["openms/lib/fdtd/energy.c:Poynting_total", "openms/lib/fdtd/energy.c:Poynting_block", "openms/lib/fdtd/energy.c:Poynting_UpDown", "openms/lib/fdtd/energy.c:Poynting_side", "openms/lib/fdtd/energy.c:max_E_Energy_detector", "openms/lib/fdtd/energy.c:Poynting_half_sphere_point"]}
{"id": "C160", "title": "Fourier transform of the far field", "statement": "FFT1D ends and computes the discrete Fourier transform of its 2^m points, divided by the number of points in the forward direction; the other direction restores the data. FFT2D computes the transform of a matrix and the shift orders it by frequency, with frequency zero in the middle. Violated by FFT2D for every number of columns that is not a power of two: pow_finder rounds the logarithm down and the last columns are not transformed", "quantifier": "for all m, all data, both directions and all sizes of the matrix", "why_tests_cant": "the repository has no test of the far field; a transform that works for one size need not work for another", "anchors": ["openms/lib/fdtd/farfield.c:FFT1D", "openms/lib/fdtd/farfield.c:FFT2D", "openms/lib/fdtd/farfield.c:pow_finder", "openms/lib/fdtd/farfield.c:data_shifting_Nx"]}
{"id": "C161", "title": "Far field of the Maxwell solver", "statement": "The maps of the fields show the nodes ten cells away from the absorbing layers. Every point of the far-field pattern inside the light cone has the direction of its transverse wave vector; a plane wave leaving the surface in this direction gives the intensity 4 cos^2 |E|^2 / eta^2 and horizontal components proportional to its field, an incoming wave gives none, and the polarizations add up to the intensity and the power. Violated: the maps use the layer at the right of x for the offset along y, the map of the imaginary part of Hy lacks its first column, the radius of the light cone is rounded down, Ex uses the impedance of vacuum in every medium, and the window reads outside of the matrix when it is larger", "quantifier": "for all grids, resolutions, refractive indices, points of the pattern and fields", "why_tests_cant": "the repository has no test of the far field; in vacuum, with equal layers and an integer radius, most results are right", "anchors": ["openms/lib/fdtd/farfield.c:set_radiation_variable", "openms/lib/fdtd/farfield.c:calc_radiation", "openms/lib/fdtd/farfield.c:Nx_data_shrink", "openms/lib/fdtd/farfield.c:set_global_variable", "openms/lib/fdtd/output.c:print_real_and_imag_2n_size"]}
{"id": "C162", "title": "Objects of the Maxwell solver", "statement": "The permittivity of each cell is the mean, over a thousand points of the cell, of the material of the last object that contains the point, and lies between the smallest and largest permittivity. Rods, spheres, ellipses, ellipsoids and blocks are convex, rotated or not, so an object that has the corners of a cell has the cell; rotations keep distances, objects have the sizes of the input, and random spheres do not overlap. Violated: the corners alone decide, so small spheres are lost and holes are filled; blocks whose ends have the same index are lost in all cells; spheres are ellipsoids when the resolutions differ, the radius of a cone is rounded down, and contours have no value where the matrix is above the level or at the upper edges", "quantifier": "for all grids, cells, lists of objects, angles and streams of random numbers", "why_tests_cant": "the repository has no test of the objects; for large objects and equal resolutions the results are right", "anchors": ["openms/lib/fdtd/input.c:average_epsilon", "openms/lib/fdtd/input.c:in_object", "openms/lib/fdtd/input.c:make_epsilon", "openms/lib/fdtd/input.c:input_object", "openms/lib/fdtd/input.c:random_object"]}
{"id": "C163", "title": "Incoherent dipoles of the Maxwell solver", "statement": "Each incoherent dipole keeps its own random direction and phase: with the same number of dipoles at each time the m-th call uses entry m at all times, and entry m changes exactly at the renewal times of this dipole, from its own draws. The current is added in equal parts to the two edges beside the nearest node, has the size of the amplitude, real and imaginary amplitudes are the parts of one rotating phasor, and directions from the upper half sphere with all phases give all dipoles. Violated: one more dipole at a later time is outside of the arrays, a waiting time below one stops the renewals of the dipole for ever, and without decay the imaginary Lorentzian amplitude is zero and the real one is not zero before its start", "quantifier": "for all numbers of dipoles, times, streams of random numbers, frequencies, phases and positions", "why_tests_cant": "the repository has no test of the dipoles; the states after many times and rare draws decide", "anchors": ["openms/lib/fdtd/incoherent.c:incoherent_point_dipole", "openms/lib/fdtd/incoherent.c:get_Gaussian_dist", "openms/lib/fdtd/incoherent.c:Lorentz_amp", "openms/lib/fdtd/incoherent.c:iLorentz_amp"]}
{"id": "C164", "title": "Sources of the Maxwell solver", "statement": "A dipole, beam or line source adds equal parts of its amplitude to all stored values of its component around its node and changes nothing else; a minus sign in the name of the component negates the source. A plane wave has at each stored value the phase of the place of this value, and the magnetic field in the two layers beside the plane adds up to sqrt(eo/uo) times the electric field. Amplitude and phase of the Gaussian beam are those of a paraxial beam with its waist at z_c. Gaussian_phase makes the pulse odd about its peak. Violated: the imaginary Hy of Gaussian beams and lines has a second factor sqrt(eo/uo) at one of the four points; external_planewave never adds the magnetic component; Lorentzian lines have no factor sqrt(eo/uo); the phase of the Gaussian beam is right for beams towards -z only, and is a division by zero in the plane of the waist", "quantifier": "for all components, nodes, sizes of the plane, wave vectors, pulses, times, phases and amplitudes", "why_tests_cant": "the repository has no test of the sources; the six functions repeat the same statements more than a hundred times and one of them differs, in the imaginary fields only", "anchors": ["openms/lib/fdtd/source.c:Gaussian_dipole_source_beam", "openms/lib/fdtd/source.c:Gaussian_dipole_source_line", "openms/lib/fdtd/source.c:Lorentzian_dipole_source_line", "openms/lib/fdtd/source.c:Gaussian_planewave", "openms/lib/fdtd/source.c:external_planewave", "openms/lib/fdtd/source.c:Gaussian_beam_prop_Gauss", "openms/lib/fdtd/source.c:Lorentzian_phase"]}
{"id": "C165", "title": "Polar maps of the far field", "statement": "The map of the far field fills exactly the points at distance at most tr - 1 from its middle (tr half of its size). The azimuth of a point is its angle seen from the middle on the whole circle, the polar angle is its distance times pi/2/tr and less than pi/2. The value is the far field at r sin(theta) times the unit vector: exact for data linear in each index, and always between the bounds of the data. Maps are read back from their files unchanged, and the file with the sum holds the sum over the frequencies. Violated: with an even number of rows a large enough map reads outside of the array of the far field; maps with at least 158 rows show the value of the middle also at its four neighbours", "quantifier": "for all sizes of far field and map, all data, points of the map and numbers of frequencies", "why_tests_cant": "the repository has no test of transmap.c; the read outside of the array needs a point close to the rim, and the tolerance in calc_phi must be right at every point of every map", "anchors": ["openms/lib/fdtd/transmap.c:into_polar", "openms/lib/fdtd/transmap.c:circle_out", "openms/lib/fdtd/transmap.c:calc_theta", "openms/lib/fdtd/transmap.c:calc_phi", "openms/lib/fdtd/transmap.c:interpol", "openms/lib/fdtd/transmap.c:add_farfield", "openms/lib/fdtd/transmap.c:ad_reading_data", "openms/lib/fdtd/transmap.c:tr_writing_data"]}
{"id": "C166", "title": "Metals and molecules in the grid of the Maxwell solver", "statement": "Each node gets epsilon_b, omega_p and gamma_0 of the last metal object or molecule that contains it and zeros if there is none; an object with epsilon_b = 0 erases metal before it. A metal is updated with its own values. The reduced frequencies have the same phase per step, and the same permittivity, as the frequencies. A molecule on a node is at this node only. The matrix of a contour is read line by line with the counted columns. Violated: metals with epsilon_b = 100 are updated as molecules; a molecule in the absorbing layers is a dielectric with constant 100; molecules off the nodes by a thousandth of a cell are lost; rods along x and y are as long as the resolution along z says; mirror-symmetric metals are not symmetric for Ex; files with a tabulator after each number, as the program writes them, are counted with one column too many and their rows are shifted", "quantifier": "for all lists of objects, shapes, grids, nodes, frequencies, fields and files", "why_tests_cant": "the repository has no test of metalobj.c; the lost molecule and the special values of epsilon_b give no error, only a field without the molecule or metal", "anchors": ["openms/lib/fdtd/metalobj.c:input_molecular", "openms/lib/fdtd/metalobj.c:input_Drude_medium", "openms/lib/fdtd/metalobj.c:make_metal_structure", "openms/lib/fdtd/metalobj.c:in_mobject", "openms/lib/fdtd/metalobj.c:reading_matrix_m", "openms/lib/fdtd/timeupdate.c:propagate"]}
{"id": "C167", "title": "Tiles of tiled tensors", "statement": "generate_all_tile_indices ends after as many passes as there are tiles and lists, in row-major order, exactly the indices of the tiles that begin inside of the tensor, each once. The tiles with their actual shapes are a partition of the places of the tensor: each place is in exactly one tile, at the remainders in the tile of the quotients; no tile is empty or reaches beyond the tensor. A TiledTensor made with an initializer has exactly the tiles that the filter does not skip, each made from zeros. Transposes of tiles compose; sums need equal shapes; the strides given to Python place the entries one to one in the buffer. Violated: without an initializer (the default) the constructor calls an empty function and throws unless the filter skips every tile; a tensor with an empty dimension still gets tiles", "quantifier": "for all ranks, shapes, tile shapes without zeros, initializers, filters and permutations", "why_tests_cant": "tests of tensor++ use a few shapes of rank at most three; the partition is a statement about all ranks and sizes", "anchors": ["openms/lib/tensor++/include/TiledTensor.hpp:generate_all_tile_indices", "openms/lib/tensor++/include/TiledTensor.hpp:TiledTensor.initialize_tile_indices", "openms/lib/tensor++/include/Tile.hpp:Tile", "openms/lib/tensor++/python/bindings.cpp:bind_tile"]}
{"id": "C168", "title": "Cholesky orthogonalisation of the basis", "statement": "For every symmetric overlap the pivoted factorisation ends; the L and P of full_cholesky_orth satisfy P^T S P = L L^T with L lower triangular and a positive diagonal, P L^-T is orthonormal in the metric S, at most rank S functions are kept, each basis function is a combination of the kept ones up to a squared length of at most the threshold, and an error is raised exactly if no function has a positive norm. remove_linear_dep keeps the solver exactly if all condition numbers are below 1/lindep. Violated: the matrix returned by full_cholesky_decomposition is no factor, contrary to its documentation, whenever the factorisation of an overlap of normalised functions ends early; a singular coupling matrix replaces the solver for every overlap; remove_linear_dep ends with a NameError without a Boson and with a TypeError if messages for debugging are printed", "quantifier": "for all numbers of basis functions, symmetric matrices, thresholds that are not negative, choices among equal pivots, and condition numbers up to infinity", "why_tests_cant": "tests use a few molecules with well conditioned overlaps; the branches with fewer vectors than functions and with another solver are never entered", "anchors": ["openms/lib/mathlib.py:full_cholesky_decomposition", "openms/lib/mathlib.py:full_cholesky_orth", "openms/lib/scipy_helper.py:remove_linear_dep"]}
{"id": "C169", "title": "Library of the variational QED-HF method", "statement": "The Gaussian factor of four displacements is positive, at most one, one exactly if the displacements balance, and unchanged when bra and ket are exchanged; the table of test_gaussian has each factor at its row-major place, whatever the order of the threads; with filled vectors the Fock matrix is symmetric and has the mean-field entries. Violated: a displacement of minus one is taken for a missing one, so a common shift of all displacements changes the factor; update_fock_energy_gradient_vt_qedhf gives the zero matrix for every wave function, because the Python functions fill copies; its two-electron part uses the numbers of the orbitals as displacements", "quantifier": "for all real displacements, frequencies other than zero, numbers of orbitals, orders of the writes, vectors and integrals", "why_tests_cant": "no test calls the library; the value minus one is one of a continuum", "anchors": ["openms/lib/qedlibs/qed.cpp:gaussian_factor_vt_qedhf", "openms/lib/qedlibs/qed.cpp:test_gaussian", "openms/lib/qedlibs/qed.cpp:update_fock_energy_gradient_vt_qedhf"]}
{"id": "C170", "title": "One-body part of the propagator of bosons", "statement": "On the Fock space of the modes, the Hamiltonian of the documentation of PhaselessBoson.build is a one-body operator plus half of the products of the Cholesky operators, with the sums of products of the Cholesky vectors taken off the one-body integrals; the formula of bafqmc.py, including the shift by mean values, gives exactly this operator. Violated: build takes off each Cholesky vector times its trace, so the sampled operator is the Hamiltonian exactly if these sums agree (vectors of rank one), and never for an interaction of the densities of two or more modes; the one-body step of PhaselessBoson raises an error after any number of builds, because build stores the propagator under another name", "quantifier": "for all finite sets of modes and fields, one-body integrals, real symmetric Cholesky vectors and trial states; the first identity for all complex vectors", "why_tests_cant": "no test uses these classes; for one mode or interactions on each site both formulas agree", "anchors": ["openms/qmc/propagators.py:PhaselessBoson.build", "openms/qmc/propagators.py:PhaselessBoson.propagate_walkers_onebody", "openms/qmc/bafqmc.py:BAFQMC.build_propagator"]}
{"id": "C171", "title": "Tiled matrices and tensors in Python", "statement": "A partition made from positive sizes or with a uniform size has the sizes asked for, and each index lies in exactly one tile; sizes with a zero, or none, are refused. A block-sparse tensor made from a dense array gives back the array, except elements of at most the tolerance; pruning changes no element by more than the tolerance; a tiled matrix made from a dense one gives it back. The product of a slice with a dense or tiled matrix from either side is the product of the dense matrices; from the left, different tiles are refused. Violated: from the right, matrices with different tiles can pass without an error and give a wrong product; adding a zero block in place of an existing one leaves the old one", "quantifier": "for all partitions, arrays, tolerances, tensors and matrices over an ordered field", "why_tests_cant": "no test reads this file; its example at the end uses equal tiles and random blocks", "anchors": ["utilities/pytiles.py:TilePartition.from_sizes", "utilities/pytiles.py:TilePartition.uniform", "utilities/pytiles.py:BlockSparseLtensor.from_dense", "utilities/pytiles.py:BlockSparseLtensor.add_block", "utilities/pytiles.py:BlockSparseLtensor.prune", "utilities/pytiles.py:BlockSparseLtensor.matmul_slice", "utilities/pytiles.py:TiledDenseMatrix.to_dense"]}
{"id": "C172", "title": "Deprecated propagation and weights of the AFQMC classes", "statement": "In the local scheme the weight gets the exponential of the local energy times the part of the overlap ratio, with the mean-field factor, along the positive real axis, so a walker is removed exactly if this part is not positive. In the hybrid scheme the weight stays between zero and its start times exp(n sqrt(2 dt)) after any n calls, and the phase meant by the code is the one of the local scheme. A step of the propagation with photons is the symmetric product of half steps around the two-body part, with the exponential series of coupling and two-body part; N_I corrects the shift of the fields and cmf the mean values. Violated: clip returns only the real part of the hybrid energy, so the phase is the one of the force-bias factor alone, and with a real force bias no walker is ever removed; for two or more modes the photon step uses one number of photons for all modes", "quantifier": "for all time steps, overlap ratios, factors, sequences of calls, orders of the series, frequencies, couplings, dipoles, Cholesky vectors, fields and walkers", "why_tests_cant": "the functions are deprecated and use names that no class has, so no test runs them; the lost phase gives no error", "anchors": ["openms/qmc/afqmc.py:AFQMC.update_weight", "openms/qmc/afqmc.py:QEDAFQMC.propagation", "openms/qmc/afqmc.py:QEDAFQMC.propagate_bilinear_coupling", "openms/qmc/afqmc.py:QEDAFQMC.propagate_photon_hamiltonian"]}
{"id": "C173", "title": "Triangular lattice of the Maxwell solver at the Gamma point", "statement": "With wave vector zero only the real arrays are propagated: after any number of steps they are the real parts of the arrays of the run with phases. Each step is the step of the unbounded crystal with lattice vectors (isize, 0) and (isize/2, jsize), and the boundary values read by the next step are those of the crystal. Violated: for an odd number of cells along x the boundary value above the first column is never written", "quantifier": "for all sizes, materials without molecules, fields and numbers of steps", "why_tests_cant": "the repository has no test of the Maxwell solver; a stale boundary value gives no error", "anchors": ["openms/lib/fdtd/timeupdate.c:propagate_tri", "openms/lib/fdtd/timeupdate.c:E_field_Gamma_boundary_update_Ywall", "openms/lib/fdtd/timeupdate.c:H_field_Gamma_boundary_update_Ywall", "openms/lib/fdtd/timeupdate.c:E_field_Gamma_boundary_update_Xwall"]}
{"id": "C174", "title": "Site modes, full matrix of the modes and density matrix of the bosons in the full CI", "statement": "contract_eb_new with one number per mode is contract_eb for the coupling of mode x to the occupation of orbital x less the mean occupation; with a mode per orbital the couplings cancel in total. contract_bb_full applies the quadratic form of the modes and their displacement. make_rdm1p is the density matrix of the modes: the expectation of b_p^+ b_q, symmetric, without negative eigenvalues, mean boson numbers on the diagonal. Violated: contract_eb_new raises, or acts on positions of strings, when given the matrices of the kernel; contract_bb_full and make_rdm1p read names that do not exist", "quantifier": "for all numbers of modes, bosons, orbitals and electrons, all couplings and all CI vectors", "why_tests_cant": "none of the three functions is called by a test; the names are only looked up when the functions run", "anchors": ["openms/mqed/qedfci.py:contract_eb_new", "openms/mqed/qedfci.py:contract_bb_full", "openms/mqed/qedfci.py:make_rdm1p"]}
{"id": "C175", "title": "Deprecated force bias and the energies that use it", "statement": "force_bias returns the Green's function of walker and trial, whatever basis of its orbitals the walker uses; with the traces of TL_theta as force bias local_eng_elec_chol is the energy of that Green's function in both spins. The energy of a walker of QEDAFQMC is the contraction of Wick's theorem with the Green's functions traced over the photon, plus coupling and photon energy. Violated: force_bias inverts a number and raises; the force bias that the propagator stores is twice the trace, and the energy from it is right only for vanishing Coulomb energy; the energy of QEDAFQMC reads an attribute that is never set and leaves out the photons beyond the zero point", "quantifier": "for all walkers, trials, fields, integrals, numbers of photon states and frequencies", "why_tests_cant": "none of these functions is called by a test; the shapes of the arrays are only compared when they run", "anchors": ["openms/qmc/trial.py:force_bias", "openms/qmc/estimators.py:local_eng_elec_chol", "openms/qmc/propagators.py:compute_local_energies", "openms/qmc/afqmc.py:local_energy"]}
{"id": "C176", "title": "Integrals of the deprecated class QEDAFQMC", "statement": "The integrals that get_integrals of QEDAFQMC returns are those of the Hamiltonian of the electrons plus the dipole self-energy, half the sum of the squared couplings times the squared polarized dipole; the coupling to the photons is that of the dipole minus its mean. Violated: the one-body part of the self-energy is counted twice, so the energy of every state is too high unless no occupied orbital has a dipole; the coupling is shifted by the mean dipole times the number of electrons; names are missing in the constructor and in get_integrals", "quantifier": "for all numbers of basis functions and modes, all integrals, couplings, polarizations, trials and states, in any algebra of fermion operators", "why_tests_cant": "a test sees one molecule and one energy; that the operators agree needs the anticommutation relations, and no test creates the class", "anchors": ["openms/qmc/afqmc.py:QEDAFQMC.__init__", "openms/qmc/afqmc.py:get_integrals", "openms/lib/boson.py:get_quadrupole_ao"]}
{"id": "C177", "title": "Overlaps of excited determinants with a walker", "statement": "For every excitation calc_ovlp_iexc returns the determinant of the half-rotated Green's function between the orbitals left and the orbitals entered, which times the overlap of the reference is the overlap of the excited determinant; compute_MSD_ovlp returns these numbers for all determinants. Violated: names are missing, so that any excitation raises; the arrays passed have the axes in the other order, so that excitations beyond the number of electrons are out of range; compute_MSD_ovlp returns one for every determinant, also for determinants orthogonal to the walker", "quantifier": "for all numbers of electrons, orders of excitation, lists of determinants, maps of orbitals and walkers with nonzero overlap with the reference", "why_tests_cant": "the functions are not called yet; tests of small orders would not show that the determinant formula holds for all orders", "anchors": ["openms/qmc/trial.py:calc_ovlp_iexc", "openms/qmc/trial.py:compute_MSD_ovlp"]}
{"id": "C178", "title": "Line shapes", "statement": "For positive width gaussian1d and Lorentz1d are positive lines of area const, highest at x0 and symmetric about it; the width is the standard deviation of the first and the half width at half maximum of the second; other widths are refused. Violated: the area of Lorentz1d is pi times const; for negative widths both return -1 everywhere; a width of zero divides by zero", "quantifier": "for all real positions, strengths, widths and centres", "why_tests_cant": "the area is an integral over all real numbers", "anchors": ["openms/lib/misc.py:gaussian1d", "openms/lib/misc.py:Lorentz1d"]}
{"id": "C179", "title": "Discrete auxiliary field of a site", "statement": "In the step of a site of propagate_walkers_twobody_1st the field is drawn with the positive parts of the probabilities and the weight multiplied by their sum, so that averages over the random number are sums over both fields; with half the ratios of the overlaps as probabilities, weight over overlap times any quantity of the orbitals is on average that of the discrete transformation; weights stay nonnegative. Violated: names are missing, so that the function raises", "quantifier": "for all walkers, trials, fields, sites, probabilities, and all quantities of the orbitals", "why_tests_cant": "the statement is about averages over a continuous random number, for all quantities", "anchors": ["openms/qmc/propagators.py:propagate_walkers_twobody_1st"]}
{"id": "C180", "title": "Coulomb and exchange matrices with dressing factors", "statement": "compute_JK_numba and get_jk_chols return the Coulomb and the exchange matrix of the integrals dressed by the factors of all modes, the factor of (pq|rs) being that of eta_p - eta_q + eta_r - eta_s. Violated: both raise; were the names there, the sign of the shift in compute_JK_numba would leave the Coulomb matrix right and make the exchange matrix wrong wherever the factor falls, and get_jk_chols would keep the last mode only", "quantifier": "for all numbers of orbitals, tensors, integrals, density matrices, displacements, factors and lists of modes", "why_tests_cant": "neither function is called anywhere, and a test of the Coulomb matrix does not see the sign of the shift", "anchors": ["openms/mqed/scqedhf.py:compute_JK_numba", "openms/mqed/scqedhf.py:get_jk_chols"]}
{"id": "C181", "title": "Occupation numbers of the Gutzwiller codes", "statement": "get_occ puts two electrons into each of the lowest orbitals: no empty orbital lies below an occupied one, all electrons are placed, no other occupation has a lower sum of orbital energies, and the warning is given exactly if an empty orbital lies less than 0.001 above an occupied one. Violated: of an odd number of electrons one is lost, electrons without a place are left out in silence, and without a pair of electrons the warning is always given", "quantifier": "for all numbers of orbitals and electrons, all energies, every order that argsort may return, all occupations from zero to two", "why_tests_cant": "the minimum is over all real occupations, and orders of degenerate orbitals depend on the sorting", "anchors": ["openms/gwf/ga_local.py:get_occ", "openms/gwf/ga_sband.py:get_occ"]}
{"id": "C182", "title": "Low-rank factors of a Cholesky matrix", "statement": "If build_Ltensor_plan stores factors for a Cholesky matrix, they have as many columns as there are singular values above the tolerance, at least one and at most the bound, and the squares of the deviations of their product from the matrix add up to the squares of the other singular values; so no element is wrong by more than the tolerance times the root of their number. Violated: the tolerance is absolute, so that the choice depends on the units", "quantifier": "for all matrices, singular value decompositions, tolerances and bounds", "why_tests_cant": "the bound is over all matrices and all decompositions that the library may return", "anchors": ["openms/qmc/tools.py:build_Ltensor_plan"]}
