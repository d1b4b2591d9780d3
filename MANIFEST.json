{"claims": [
{"property": "C01", "status": "proved", "theorems": ["OpenMS.PopulationControl.branching_count", "OpenMS.PopulationControl.branching_rejects"], "note": "Walker count, weights positive, every output walker is an input walker; error branches for mismatched or empty input."},
{"property": "C02", "status": "proved", "theorems": ["OpenMS.PopulationControl.branching_total_weight"], "note": "Sum of absolute weights is exactly preserved for any draws, thresholds and argsort."},
{"property": "C03", "status": "proved", "theorems": ["OpenMS.PopulationControl.branching_unbiased", "OpenMS.PopulationControl.branching_natural"], "note": "Expectation over independent uniform draws, as an iterated integral per draw."},
{"property": "C04", "status": "partial", "theorems": ["OpenMS.PopulationControl.branching_signed_total_partial", "OpenMS.PopulationControl.branching_signed_total_fails"], "note": "Holds for non-negative weights; false for signed weights (witness)."},
{"property": "C05", "status": "partial", "theorems": ["OpenMS.PopulationControl.branching_constant_count_partial", "OpenMS.PopulationControl.branching_constant_weight_fails", "OpenMS.PopulationControl.branching_dynamics_count_partial", "OpenMS.PopulationControl.branching_dynamics_weight_fails"], "note": "Both variants keep the count but not the total weight (witnesses)."},
{"property": "C06", "status": "proved", "theorems": ["OpenMS.PopulationControl.reconfiguration_size", "OpenMS.PopulationControl.reconfiguration_rejects"], "note": ""},
{"property": "C07", "status": "proved", "theorems": ["OpenMS.PopulationControl.reconfiguration_copies"], "note": "Number of copies is floor or ceiling of N w_i / W for every draw."},
{"property": "C08", "status": "partial", "theorems": ["OpenMS.PopulationControl.comb_size", "OpenMS.PopulationControl.comb_copies_partial", "OpenMS.PopulationControl.comb_copies_fails"], "note": "Holds for offsets > 0; with offset exactly 0 a zero-weight walker 0 is kept (witness)."},
{"property": "C09", "status": "proved", "theorems": ["OpenMS.PopulationControl.reconfiguration_unbiased", "OpenMS.PopulationControl.comb_unbiased"], "note": "Expected number of copies over the uniform offset equals N w_i / W."},
{"property": "C10", "status": "proved", "theorems": ["OpenMS.PopulationControl.population_control_unknown", "OpenMS.PopulationControl.population_control_known"], "note": ""},
{"property": "C11", "status": "proved", "theorems": ["OpenMS.PopulationControl.threshold_split", "OpenMS.PopulationControl.threshold_unbiased", "OpenMS.PopulationControl.threshold_keep"], "note": ""},
{"property": "C12", "status": "proved", "theorems": ["OpenMS.Walkers.walker_distribution", "OpenMS.Walkers.walker_blocks"], "note": ""},
{"property": "C13", "status": "partial", "theorems": ["OpenMS.Walkers.rebalance_plan_partial", "OpenMS.Walkers.rebalance_fails", "OpenMS.Walkers.rebalance_keeps_counts"], "note": "The code builds a sound plan but never executes it."},
{"property": "C14", "status": "proved", "theorems": ["OpenMS.Walkers.weight_control_clip", "OpenMS.Walkers.weight_control_first", "OpenMS.Walkers.weight_control_normalise"], "note": "Stated for non-negative weights, which C15 shows is an invariant."},
{"property": "C15", "status": "proved", "theorems": ["OpenMS.Run.weights_nonneg"], "note": "Invariant over every interleaving of weight updates, weight control and population control."},
{"property": "C16", "status": "partial", "theorems": ["OpenMS.Walkers.pack_unpack_partial", "OpenMS.Walkers.unpack_stale_fails", "OpenMS.Walkers.unpack_keeps_energies"], "note": "Packed arrays move together; hybrid and local energies are left behind."},
{"property": "C17", "status": "proved", "theorems": ["OpenMS.Measure.measurements", "OpenMS.Measure.buffers_cleared"], "note": ""},
{"property": "C18", "status": "partial", "theorems": ["OpenMS.Propagators.fbias_bound_partial", "OpenMS.Propagators.fbias_bound_fails"], "note": "Holds for bounds >= 1 (the default); for a bound below 1 components are enlarged to modulus 1."},
{"property": "C19", "status": "partial", "theorems": ["OpenMS.Propagators.updateHybrid_eq", "OpenMS.Propagators.update_hybrid_partial", "OpenMS.Propagators.hybrid_phase_projection_fails", "OpenMS.Propagators.hybrid_ignores_overlap_phase", "OpenMS.Propagators.update_local", "OpenMS.Propagators.update_scheme"], "note": "Local scheme as documented; hybrid scheme drops the imaginary part of the hybrid energy so the phase projection ignores the overlap ratio."},
{"property": "C20", "status": "proved", "theorems": ["OpenMS.Propagators.taylor_sum", "OpenMS.Propagators.taylor_linear", "OpenMS.Propagators.taylor_walkers", "OpenMS.Propagators.taylor_tendsto"], "note": ""},
{"property": "C21", "status": "proved", "theorems": ["OpenMS.Propagators.cfb_ratio", "OpenMS.Propagators.shift_invariant"], "note": ""},
{"property": "C22", "status": "proved", "theorems": ["OpenMS.Green.gf_singular", "OpenMS.Green.gf_projector", "OpenMS.Green.gf_gauge", "OpenMS.Green.gf_implementations"], "note": ""},
{"property": "C23", "status": "proved", "theorems": ["OpenMS.Bilinear.bilinear_exact", "OpenMS.Bilinear.coupling_commute", "OpenMS.Bilinear.bilinear_scheme3_fails", "OpenMS.Bilinear.bilinear_rejects"], "note": "Proved in an arbitrary complex algebra; the third scheme is shown to be inexact, as the source comment says."},
{"property": "C24", "status": "partial", "theorems": ["OpenMS.Energy.coulomb_exact", "OpenMS.Energy.exchange_exact", "OpenMS.Energy.local_energy_exact", "OpenMS.Energy.chol_new_exact", "OpenMS.Energy.coulomb_numba_fails", "OpenMS.Energy.chol_new_complex_fails"], "note": "Reference estimators exact; the compiled Coulomb variant misses a square (witness); the full-Green-function estimator is exact only for real Cholesky matrices."},
{"property": "C25", "status": "partial", "theorems": ["OpenMS.Energy.eboson_code", "OpenMS.Energy.eboson_partial", "OpenMS.Energy.eboson_two_modes_fails", "OpenMS.Energy.adag_plus_a_exact", "OpenMS.Energy.boson_energy", "OpenMS.Energy.boson_energy_ragged"], "note": "Exact for one mode; the block offset is never advanced (witness with two modes)."},
{"property": "C26", "status": "partial", "theorems": ["OpenMS.Energy.energy_distribution", "OpenMS.Energy.energy_sums", "OpenMS.Energy.energy_total", "OpenMS.Energy.energy_boson_partial", "OpenMS.Energy.energy_boson_fails"], "note": "Holds for the electronic estimator; the electron-boson estimator mixes local energies with the global norm (witness)."},
{"property": "C27", "status": "partial", "theorems": ["OpenMS.Integrals.fcidump_partial", "OpenMS.Integrals.fcidump_exchange_fails", "OpenMS.Integrals.fcidump_read_back", "OpenMS.Integrals.fcidump_stored", "OpenMS.Integrals.fcidump_no_nuc"], "note": "Four of the eight symmetries hold; the exchange of the two pairs is never restored (witness).  A file without nuclear energy line raises."},
{"property": "C28", "status": "proved", "theorems": ["OpenMS.Integrals.chols_blocked_spec", "OpenMS.Integrals.chols_blocked_default"], "note": "Exact arithmetic; the shell-wise integral evaluation is replaced by rows of the integral matrix."},
{"property": "C29", "status": "partial", "theorems": ["OpenMS.Stats.mean_std_window", "OpenMS.Stats.auto_window_valid", "OpenMS.Stats.auto_window_partial", "OpenMS.Stats.auto_window_fails", "OpenMS.Stats.zscore_nonempty_partial", "OpenMS.Stats.zscore_constant_fails", "OpenMS.Stats.percentile_isQuantile", "OpenMS.Stats.iqr_nonempty", "OpenMS.Stats.iqr_constant"], "note": "auto_window returns lag 0 if the window never closes (witness); the z-score filter empties constant data (for every length and threshold)."},
{"property": "C30", "status": "partial", "theorems": ["OpenMS.Options.options_partial", "OpenMS.Options.options_fails"], "note": "Holds for options nobody set before; an explicit option is inherited by later objects (witness)."},
{"property": "C31", "status": "proved", "theorems": ["OpenMS.Boson.packed_index_bijection", "OpenMS.Boson.pack_entries", "OpenMS.Boson.unpack_pack", "OpenMS.Boson.pack_unpack", "OpenMS.Boson.packed_dot", "OpenMS.Boson.unpack_doubled"], "note": ""},
{"property": "C32", "status": "proved", "theorems": ["OpenMS.Boson.packed_eq_direct"], "note": ""},
{"property": "C33", "status": "partial", "theorems": ["OpenMS.Boson.displacement_derivative", "OpenMS.Boson.displacement_deriv_partial", "OpenMS.Boson.displacement_deriv_fails"], "note": "True derivative proved; the code omits the first-coherence term (witness), exact when neighbouring coherences vanish."},
{"property": "C34", "status": "partial", "theorems": ["OpenMS.Photon.energy_nonneg", "OpenMS.Photon.energy_gradient", "OpenMS.Photon.squeezed_energy_partial", "OpenMS.Photon.squeezed_energy_fails", "OpenMS.Photon.energy_identity", "OpenMS.Photon.photon_energy_modes"], "note": "Gradient and positivity proved; the energy omits the n,n+2 coherences (witness: a ground state of the Hamiltonian the code builds)."},
{"property": "C35", "status": "partial", "theorems": ["OpenMS.Photon.dressed_energy", "OpenMS.Photon.oei_gradient_partial", "OpenMS.Photon.vjk_gradient_partial", "OpenMS.Photon.oei_gradient_one_mode", "OpenMS.Photon.oei_gradient_fails"], "note": "Exact for one mode and for a common change of all fractions; not the derivative in one fraction with two modes (witness)."},
{"property": "C36", "status": "proved", "theorems": ["OpenMS.Photon.dse_origin_invariant", "OpenMS.Photon.cavity_energy_eq", "OpenMS.Photon.cs_photon_vacuum"], "note": "Photons in the vacuum, which cs_photon_vacuum derives for the coherent-state basis."},
{"property": "C37", "status": "partial", "theorems": ["OpenMS.Photon.mode_vectors_partial", "OpenMS.Photon.mode_vectors_stored", "OpenMS.Photon.mode_vectors_fails"], "note": "Holds for lists and unit vectors; an array of other vectors is normalised in place and the couplings are lost, for every such array."},
{"property": "C38", "status": "proved", "theorems": ["OpenMS.Photon.ham_structure"], "note": ""},
{"property": "C39", "status": "proved", "theorems": ["OpenMS.ScQed.fc_contraction", "OpenMS.ScQed.fc_contraction_two", "OpenMS.ScQed.factor_vacuum"], "note": ""},
{"property": "C40", "status": "partial", "theorems": ["OpenMS.ScQed.energy_closed", "OpenMS.ScQed.eta_derivative", "OpenMS.ScQed.eta_gradient_partial", "OpenMS.ScQed.eta_gradient_fails"], "note": "Exact for one photon state; with several the code drops the factor exp(F)/omega (witness)."},
{"property": "C41", "status": "partial", "theorems": ["OpenMS.ScQed.factor_deriv_squeezing", "OpenMS.ScQed.factor_deriv_fraction", "OpenMS.ScQed.squeezing_gradient", "OpenMS.ScQed.fraction_gradient", "OpenMS.ScQed.fraction_gradient_fails"], "note": "All derivatives exact for photon states of definite parity and displacements proportional to the fraction; at fixed displacement the fraction gradient is wrong (witness). States without parity are not covered."},
{"property": "C42", "status": "partial", "theorems": ["OpenMS.ScQed.rao_orthonormal", "OpenMS.ScQed.initial_orthonormal_partial", "OpenMS.ScQed.initial_orthonormal_fails"], "note": "The algorithm is right but the two results of the decomposition are swapped; holds only for unit overlap."},
{"property": "C43", "status": "partial", "theorems": ["OpenMS.Scf.incremental_bare", "OpenMS.Scf.incremental_partial", "OpenMS.Scf.incremental_fails"], "note": "Exact whenever the call returns; it never returns when the integrals do not fit in memory."},
{"property": "C44", "status": "partial", "theorems": ["OpenMS.Scf.converged_partial", "OpenMS.Scf.converged_fails"], "note": "Tolerances hold in the last loop cycle; the extra cycle is never checked."},
{"property": "C45", "status": "partial", "theorems": ["OpenMS.ScQed.params_roundtrip_partial", "OpenMS.ScQed.params_roundtrip_fails"], "note": "Fails for every system when only the squeezing is optimised."},
{"property": "C46", "status": "partial", "theorems": ["OpenMS.ScQed.org_density_partial", "OpenMS.ScQed.org_density_undisplaced", "OpenMS.ScQed.org_density_sc_fails", "OpenMS.ScQed.populations_value", "OpenMS.ScQed.populations_poisson_partial", "OpenMS.ScQed.populations_poisson_fails"], "note": "Hermitian and positive for QED-HF and VT-QED-HF; not for SC-QED-HF; Poisson only up to one photon."},
{"property": "C47", "status": "proved", "theorems": ["OpenMS.QedFci.c47_matrix_elements", "OpenMS.QedFci.c47_adjoint", "OpenMS.QedFci.c47_number", "OpenMS.QedFci.c47_commutator", "OpenMS.QedFci.c47_different_modes"], "note": "Any number of modes and cut-offs."},
{"property": "C48", "status": "partial", "theorems": ["OpenMS.QedFci.c48_one_dimensional", "OpenMS.QedFci.c48_displaced", "OpenMS.QedFci.c48_kernel_partial", "OpenMS.QedFci.c48_kernel_raises", "OpenMS.QedFci.c48_kernel_fails"], "note": "Right for 1-D Hbb and for one mode; the kernel always passes a diagonal matrix, whose row is broadcast over another mode axis: for every system with two or more modes it raises or gives a wrong energy."},
{"property": "C49", "status": "proved", "theorems": ["OpenMS.QedFci.c49_absorb"], "note": "For every link table with sum_k E_kk = N >= 1."},
{"property": "C50", "status": "partial", "theorems": ["OpenMS.Ccsd.split_join_partial", "OpenMS.Ccsd.join_split", "OpenMS.Ccsd.join_split_electronic_partial", "OpenMS.Ccsd.join_split_fails", "OpenMS.Ccsd.diis_ignores_bosons_fails", "OpenMS.Ccsd.vector_contents", "OpenMS.Ccsd.diis_electronic"], "note": "Electronic amplitudes survive the vector round trip. The bosonic ones are never taken from the vector (the loop variable is rebound), so extrapolation never acts on them."},
{"property": "C51", "status": "partial", "theorems": ["OpenMS.Ccsd.ret_module_partial", "OpenMS.Ccsd.ret_class_fails", "OpenMS.Ccsd.arguments_shifted_fails"], "note": "The module-level kernel returns amplitudes on request; the class method never does, and its positional arguments are shifted by one."},
{"property": "C52", "status": "partial", "theorems": ["OpenMS.Ccsd.dsn_correct", "OpenMS.Ccsd.first_order_correct", "OpenMS.Ccsd.single_mode_partial", "OpenMS.Ccsd.several_modes_fails", "OpenMS.Ccsd.several_modes_raises"], "note": "Boson denominators are right at every order; mixed ones at first order or with one mode. Beyond first order with another number of modes they are wrong or raise."},
{"property": "C53", "status": "proved", "theorems": ["OpenMS.Qmd.rk4_linear", "OpenMS.Qmd.rk4_simpson", "OpenMS.Qmd.rk4_cubic"], "note": ""},
{"property": "C54", "status": "partial", "theorems": ["OpenMS.Qmd.offdiagonal_partial", "OpenMS.Qmd.pairs_raise_fails", "OpenMS.Qmd.energies_lost_fails"], "note": "With a coupling table that also has an entry per state, the couplings are antisymmetric and each pair has its own entry. With one entry per pair get_H raises IndexError for every number of states; when it returns, the diagonal is minus a table entry and the state energies are not in the Hamiltonian."},
{"property": "C55", "status": "partial", "theorems": ["OpenMS.Qmd.rescaling_spec", "OpenMS.Qmd.one_hop_partial", "OpenMS.Qmd.many_hops_fails", "OpenMS.Qmd.rescaling_exact", "OpenMS.Qmd.candidates_spec"], "note": "A frustrated hop leaves state and velocity untouched. The number of hops is bounded only by the number of states passing the random test (so at most one if at most one passes); with couplings equal to zero a trajectory hops once for every such state."},
{"property": "C56", "status": "partial", "theorems": ["OpenMS.Lattice.hubbard_hopping_partial", "OpenMS.Lattice.hubbard_single_site_fails", "OpenMS.Lattice.hh_hopping_partial", "OpenMS.Lattice.hh_two_sites_fails"], "note": "Right for two or more sites (Hubbard) and three or more (Hubbard-Holstein). One site raises or hops onto itself; the open Hubbard-Holstein chain of two sites has a doubled bond."},
{"property": "C57", "status": "proved", "theorems": ["OpenMS.Lattice.hubbard_energy"], "note": ""},
{"property": "C58", "status": "partial", "theorems": ["OpenMS.Support.setBackend_cases", "OpenMS.Support.all_or_nothing_partial", "OpenMS.Support.history_partial", "OpenMS.Support.half_switch_fails", "OpenMS.Support.tiledArray_fails", "OpenMS.Support.request_succeeds"], "note": "All or nothing for names whose precision exists, and after any history of them. A precision that does not exist raises after the class has already been switched; TiledArray never installs a precision."},
{"property": "C59", "status": "partial", "theorems": ["OpenMS.Support.verbosity_partial", "OpenMS.Support.kinds_ordered", "OpenMS.Support.error_raises_fails", "OpenMS.Support.class_monotone", "OpenMS.Support.class_error_hidden_fails", "OpenMS.Support.shown_iff", "OpenMS.Support.class_own_level"], "note": "Monotone for log, warn, info, note and debug, and for the Logger class. error and debug1 to debug4 raise NameError at every verbosity; the Logger class hides errors at its default verbosity."},
{"property": "C60", "status": "proved", "theorems": ["OpenMS.TrialBoson.positionDerivatives", "OpenMS.TrialBoson.momentumDerivatives", "OpenMS.TrialBoson.zero_variance", "OpenMS.TrialBoson.localEnergy_is_hamiltonian"], "note": "Mass and frequency are non-zero for the zero-variance part."},
{"property": "C61", "status": "proved", "theorems": ["OpenMS.TrialBoson.coherent_normalised", "OpenMS.TrialBoson.coherent_cutoff", "OpenMS.TrialBoson.fockTrial_norm", "OpenMS.TrialBoson.coherent_eigenstate", "OpenMS.TrialBoson.fockTrial_eigenstate"], "note": ""},
{"property": "C62", "status": "proved", "theorems": ["OpenMS.Support.electron_counts"], "note": ""},
{"property": "C63", "status": "partial", "theorems": ["OpenMS.Support.precond_partial", "OpenMS.Support.davidson_fails"], "note": "The preconditioner is bounded for every input. The Davidson entry point raises TypeError for every input because the solver is redefined as an empty function."},
{"property": "C64", "status": "partial", "theorems": ["OpenMS.Support.config_partial", "OpenMS.Support.config_others", "OpenMS.Support.config_none_fails"], "note": "Right for every history of values other than None; a stored None is reported as missing."},
{"property": "C69", "status": "proved", "theorems": ["OpenMS.Propagators.hs_average"], "note": "Fields averaged with the standard normal density; operators replaced by their joint eigenvalues."},
{"property": "C70", "status": "partial", "theorems": ["OpenMS.Green.orthogonalisation_partial", "OpenMS.Green.orthogonalisation_overlap_fails", "OpenMS.Green.orthogonalisation_boson_fails"], "note": "Holds when the triangular factor has positive diagonal; otherwise the stored overlap has the wrong phase (witness), and the boson part is not treated."},
{"property": "C71", "status": "proved", "theorems": ["OpenMS.Step.step_bias", "OpenMS.Green.vbias_full", "OpenMS.Green.overlap_derivative", "OpenMS.Green.vbias_log_derivative"], "note": ""},
{"property": "C72", "status": "partial", "theorems": ["OpenMS.Energy.exx_mixed_partial", "OpenMS.Energy.blksize_covers", "OpenMS.Energy.blksize_attained", "OpenMS.Energy.blksize_zero_raises", "OpenMS.Energy.exx_mixed_fails"], "note": "Holds for symmetric tensors; the low-rank route misses a transpose (witness)."},
{"property": "C73", "status": "proved", "theorems": ["OpenMS.Energy.stochastic_ri_unbiased"], "note": ""},
{"property": "C74", "status": "proved", "theorems": ["OpenMS.Integrals.find_shell"], "note": ""},
{"property": "C75", "status": "partial", "theorems": ["OpenMS.Integrals.coupling_chunk_partial", "OpenMS.Integrals.coupling_chunk_fails"], "note": "Holds for one mode; with two or more modes the reshape raises for every input."},
{"property": "C76", "status": "proved", "theorems": ["OpenMS.Stats.acf_direct", "OpenMS.Stats.acf_normalised", "OpenMS.Stats.acf_constant", "OpenMS.Stats.autocorr_time_window", "OpenMS.Stats.acf_documented_fails"], "note": "The documented factor 1/(N-k) is not the one used (witness); the claim is about the biased sums the code computes."},
{"property": "C77", "status": "partial", "theorems": ["OpenMS.Stats.block_analysis_partial", "OpenMS.Stats.block_analysis_fails", "OpenMS.Stats.analysis_constant_fails"], "note": "Holds when the autocorrelation time is positive; raises for every pair of different samples and for every constant series."},
{"property": "C78", "status": "partial", "theorems": ["OpenMS.Options.nwalkers_partial", "OpenMS.Options.weight_bounds_ignored_fails"], "note": "nwalkers arrives; weight bounds are ignored for every input."},
{"property": "C79", "status": "partial", "theorems": ["OpenMS.Boson.displacement_operator_partial", "OpenMS.Boson.displacement_operator_fails"], "note": "Holds without odd coherences; fails with them (witness)."},
{"property": "C80", "status": "partial", "theorems": ["OpenMS.Photon.populations_partial", "OpenMS.Photon.populations_fails"], "note": "Holds for one mode; fails for every system of two or more modes."},
{"property": "C81", "status": "partial", "theorems": ["OpenMS.Photon.ph_exp_val_eq", "OpenMS.Photon.bilinear_value", "OpenMS.Photon.bilinear_partial", "OpenMS.Photon.bilinear_fails"], "note": "Holds for one electron or zero displacement; the displacement is counted once per electron otherwise."},
{"property": "C82", "status": "proved", "theorems": ["OpenMS.ScQed.cholesky_agrees"], "note": ""},
{"property": "C83", "status": "proved", "theorems": ["OpenMS.QedFci.c83_contract_1e", "OpenMS.QedFci.c83_contract_2e"], "note": "Single-tensor branch; the list branch refers to an undefined name."},
{"property": "C84", "status": "proved", "theorems": ["OpenMS.QedFci.c84_contract_eb"], "note": ""},
{"property": "C85", "status": "partial", "theorems": ["OpenMS.QedFci.c85_plain_partial", "OpenMS.QedFci.c85_missing_term", "OpenMS.QedFci.c85_coherent_fails"], "note": "Right without coherent_state (one mode). With coherent_state the linear term omega z (b + b^dagger) is missing, for every system with non-zero displacement."},
{"property": "C86", "status": "proved", "theorems": ["OpenMS.QedFci.c86_expectation", "OpenMS.QedFci.c86_trace", "OpenMS.QedFci.c86_symmetric"], "note": ""},
{"property": "C87", "status": "partial", "theorems": ["OpenMS.Qmd.stages_partial", "OpenMS.Qmd.first_stage_fails"], "note": "Right for every step once the stored Hamiltonian belongs to the stored geometry. The first stage of the first step uses uninitialised memory."},
{"property": "C88", "status": "partial", "theorems": ["OpenMS.Qmd.documented_conserves", "OpenMS.Qmd.coefDot_partial", "OpenMS.Qmd.coefDot_fails"], "note": "The documented equation conserves population. The coded one agrees with it when all couplings are zero; for any non-zero antisymmetric coupling it creates population for some coefficients."},
{"property": "C89", "status": "partial", "theorems": ["OpenMS.Qmd.bomd_constructs_partial", "OpenMS.Qmd.mqc_construct_fails", "OpenMS.Qmd.bomd_run_fails"], "note": "A BOMD object can be constructed with any options. Constructing MQC raises for all options; the first BOMD step calls a method that does not exist."},
{"property": "C90", "status": "proved", "theorems": ["OpenMS.Qmd.verlet_reversible", "OpenMS.Qmd.verlet_constant_force", "OpenMS.Qmd.verlet_momentum"], "note": ""},
{"property": "C91", "status": "proved", "theorems": ["OpenMS.Lattice.dma_hamiltonian", "OpenMS.Lattice.dipole_sum_rule", "OpenMS.Lattice.spectrum_nonneg", "OpenMS.Lattice.dipole_completeness", "OpenMS.Lattice.line_width"], "note": "The eigenvectors are taken to be orthonormal."},
{"property": "C92", "status": "proved", "theorems": ["OpenMS.Lattice.hh_energy_minimal"], "note": ""},
{"property": "C93", "status": "partial", "theorems": ["OpenMS.Lattice.hh_electrons_partial", "OpenMS.Lattice.hh_electrons_fails"], "note": "Right for even numbers; odd numbers lose one electron."},
{"property": "C94", "status": "proved", "theorems": ["OpenMS.PopulationControl.branching_acts", "OpenMS.PopulationControl.branching_acts_even"], "note": ""},
{"property": "C95", "status": "proved", "theorems": ["OpenMS.Propagators.force_bias_optimal", "OpenMS.Propagators.force_bias_unique"], "note": "Force bias before bounding (rescale_fbias); operators replaced by their joint eigenvalues."},
{"property": "C65", "status": "proved", "theorems": ["OpenMS.Run.run_conserves", "OpenMS.Run.run_total", "OpenMS.Run.control_conserves"], "note": "Walkers are labels; propagation changes their content, not the list. Draws: a sorting order of the weights handed over and an offset below 1/N."},
{"property": "C66", "status": "partial", "theorems": ["OpenMS.Run.uniform_population_partial", "OpenMS.Run.uniform_population_fails", "OpenMS.Run.initState_uniform"], "note": "Proved from ten walkers on (comb: offset not zero). False below ten walkers: the clipping bound is a tenth of the recorded total, so weights are cut below one and the recorded total decays as n (n/10)^k."},
{"property": "C67", "status": "partial", "theorems": ["OpenMS.Seeding.seed_partial", "OpenMS.Seeding.debug_matches_serial_partial", "OpenMS.Seeding.scatter_covers", "OpenMS.Seeding.seed_fails", "OpenMS.Seeding.seed_not_reproducible_fails", "OpenMS.Seeding.ranks_not_independent_fails", "OpenMS.Seeding.debug_branching_fails"], "note": "On several processes without debug_mpi the seeded generator is created and dropped (qmc.py L920): the seed has no effect. Proved for one process and for debug_mpi with control methods that draw a fixed number of values."},
{"property": "C68", "status": "partial", "theorems": ["OpenMS.Measure.second_run_partial", "OpenMS.Measure.second_run_energies", "OpenMS.Measure.second_run_leftovers", "OpenMS.Measure.second_run_fails"], "note": "The buffer is cleared only at measurement steps and by __init__: if the first run has n steps and the frequency f does not divide n, the last n mod f steps enter the first average of the second run."},
{"property": "C96", "status": "partial", "theorems": ["OpenMS.PropBuild.mean_field_hamiltonian_partial", "OpenMS.PropBuild.mean_field_hamiltonian_fails", "OpenMS.PropBuild.generator_eq", "OpenMS.PropBuild.square_normal_order"], "note": "exact for real Cholesky matrices when all fields enter the self-interaction term; for complex Hermitian matrices the code contracts conj(L) L instead of L L and the claim fails; generator_eq gives the difference for all matrices"},
{"property": "C97", "status": "partial", "theorems": ["OpenMS.PropBuild.joint_hamiltonian", "OpenMS.PropBuild.joint_hamiltonian_partial", "OpenMS.PropBuild.joint_hamiltonian_iff", "OpenMS.PropBuild.missing_coupling", "OpenMS.PropBuild.joint_hamiltonian_fails"], "note": "the code leaves out the mean-field coupling of electrons and bosons; holds when all mean values of the joint fields vanish (real bare matrices, at least one bare field)"},
{"property": "C98", "status": "partial", "theorems": ["OpenMS.Joint.joint_average_partial", "OpenMS.Joint.joint_average", "OpenMS.Joint.joint_average_code", "OpenMS.Joint.joint_average_fails"], "note": "holds without force bias; with the separate force biases of the code the product f b is replaced by (f-vf)(b-vb); operators are represented by numbers (common eigenvectors)"},
{"property": "C99", "status": "proved", "theorems": ["OpenMS.Step.step_gauge", "OpenMS.Step.ortho_irrelevant", "OpenMS.Step.ortho_last", "OpenMS.Step.ghalf_gauge"], "note": "one walker, electrons only; shifts and local energies are inputs; an overlap of exactly zero is reported as an error"},
{"property": "C100", "status": "proved", "theorems": ["OpenMS.Step.free_step", "OpenMS.Step.zero_variance", "OpenMS.Step.free_run", "OpenMS.Step.det_free"], "note": "one walker; the shift is real"},
{"property": "C101", "status": "partial", "theorems": ["OpenMS.MultiDet.occupations_partial", "OpenMS.MultiDet.beta_count_iff", "OpenMS.MultiDet.frozen_balanced_iff", "OpenMS.MultiDet.high_spin_fails"], "note": "holds if both spins have the same number of frozen electrons; the frozen core of the first spin is used for both, so the number of beta electrons is wrong otherwise; an active space without beta electrons raises for every input"},
{"property": "C102", "status": "partial", "theorems": ["OpenMS.MultiDet.overlap_partial", "OpenMS.MultiDet.overlap_iff"], "note": "only the first determinant is used: proportional to the full overlap for all walkers exactly if all other coefficients vanish"},
{"property": "C103", "status": "proved", "theorems": ["OpenMS.MultiDet.permutation_sign"], "note": "orbitals are located in the sorted lists of the determinant and the reference; the function is not called anywhere in the repository"},
{"property": "C104", "status": "partial", "theorems": ["OpenMS.BosonInit.initZ_ok_iff", "OpenMS.BosonInit.initZ_coherent", "OpenMS.BosonInit.initZ_norm", "OpenMS.BosonInit.initZ_normalised_partial", "OpenMS.BosonInit.initZ_share", "OpenMS.BosonInit.initZ_normalised_fails", "OpenMS.BosonInit.makeTrial_spec", "OpenMS.BosonInit.makeTrial_normalised_fails"], "note": "amplitudes are coherent; more than 21 states per mode raise; the array is normalised as a whole, so with two or more modes no mode has norm one"},
{"property": "C105", "status": "partial", "theorems": ["OpenMS.FakeMpi.collective_spec", "OpenMS.FakeMpi.wrong_shape", "OpenMS.FakeMpi.scatterv_fails", "OpenMS.FakeMpi.gatherv_fails", "OpenMS.FakeMpi.messages_partial", "OpenMS.FakeMpi.messages_fails"], "note": "plain arrays and one pending message per tag work; Scatterv with counts always raises, Gatherv with counts leaves the receiver unchanged, a second message with the same tag overwrites the first"},
{"property": "C106", "status": "proved", "theorems": ["OpenMS.Step.splitting", "OpenMS.Step.move_second_order"], "note": "orbitals of one walker and one spin"},
{"property": "C107", "status": "proved", "theorems": ["OpenMS.Step.force_bias_irrelevant", "OpenMS.Step.step_mean"], "note": "fields have the standard normal density; step_mean counts a step whose new overlap is exactly zero as zero; the constraint (cosine projection, clipping) is not part of the average"},
{"property": "C108", "status": "proved", "theorems": ["OpenMS.ManyBody.hamiltonian_mean", "OpenMS.ManyBody.step_hamiltonian"], "note": "fields have the standard normal density; the one-body propagator is exp(-t h / 2) for given matrices h; the constraint (cosine projection, clipping) is not part of the average; step_hamiltonian counts a step whose new overlap is exactly zero as zero"},
{"property": "C109", "status": "proved", "theorems": ["OpenMS.Step.step_weight", "OpenMS.Step.run_weight", "OpenMS.Step.run_overlap"], "note": "hybrid scheme, positive time step, hybrid energies inside the window of the clipping (part of the specification Ratio); orthogonalisation is any map which keeps weight and hybrid energy"},
{"property": "C110", "status": "proved", "theorems": ["OpenMS.Step.trial_bias", "OpenMS.Step.trial_bias_zero", "OpenMS.Step.trial_bias_iff", "OpenMS.Step.trial_first_step"], "note": "trial orbitals orthonormal, as TrialHF gives them in the orthogonal basis"},
{"property": "C111", "status": "partial", "theorems": ["OpenMS.JointStep.joint_weight", "OpenMS.JointStep.joint_mean", "OpenMS.JointStep.joint_step", "OpenMS.JointStep.joint_step_iff", "OpenMS.JointStep.coupling_invisible", "OpenMS.JointStep.joint_step_fails"], "note": "proved: the average is exp(-t H) with H = h + Hb + 1/2 sum (L - lbar)^2 + 1/2 sum (B - bbar)^2 + sum (L - u)(B - v), where u and v are the mixed estimates of the walker that is moved, so H depends on the walker. It agrees with fixed reference values u0, v0 in the overlap with the trial exactly when sum (u - u0)(v - v0) = 0 (joint_step_iff); in particular to first order the overlap with the trial contains no coupling at all (coupling_invisible). joint_step_fails: a system for which it is not the Hamiltonian with the mean-field values, which the unbiased fields give. Symmetric boson operators (chol_B of the code is), Taylor order from 3, positive bound of the force bias"},
{"property": "C112", "status": "partial", "theorems": ["OpenMS.ProductStep.product_weight", "OpenMS.ProductStep.product_mean", "OpenMS.ProductStep.product_step", "OpenMS.ProductStep.product_element_iff", "OpenMS.ProductStep.product_iff", "OpenMS.ProductStep.qalpha_mean", "OpenMS.ProductStep.zlambda_mean", "OpenMS.ProductStep.single_step", "OpenMS.ProductStep.single_iff", "OpenMS.ProductStep.product_fails"], "note": "proved: the average of a step is evolution with the mean-field Hamiltonian h + sum Q g + Hb + sum z (b^dagger + b) with the fields Q and z of the population (product_mean, product_step), Q and z being weighted averages of quadratic forms of the boson states and of mixed estimates of the coupling (qalpha_mean, zlambda_mean). It agrees with the bilinear Hamiltonian minus a constant for a given determinant and boson state exactly under product_element_iff, for the overlap with the trial when sum (g - z)(q - Q) = sum z Q - shift (product_iff), which for one walker singles out shift = z Q (single_iff). product_fails: already for one walker there are overlaps that no constant shift repairs, so the claim is false in general. Taylor order from 3"},
{"property": "C113", "status": "partial", "theorems": ["OpenMS.ProductStep.fields_perm", "OpenMS.ProductStep.fields_weights", "OpenMS.ProductStep.fields_gauge", "OpenMS.ProductStep.field_real", "OpenMS.ProductStep.field_scale", "OpenMS.ProductStep.field_scale_iff", "OpenMS.ProductStep.field_expectation_iff", "OpenMS.ProductStep.qalpha_local_iff", "OpenMS.ProductStep.zlambda_local_iff", "OpenMS.ProductStep.population_step", "OpenMS.ProductStep.split_fails", "OpenMS.ProductStep.scale_fails", "OpenMS.JointStep.jstep_scale"], "note": "proved: both fields are independent of the order of the walkers and of the scale of the weights, the Green functions behind the field of the electrons of the basis of the occupied orbitals; the field of the bosons is real; all walkers of a process move in the same two averages (population_step). Not so: a factor s of the boson states multiplies their field by |s|^2 (field_scale), so the field is an expectation value only for normalised states (field_expectation_iff) and the electrons of one walker move differently after its boson state is doubled (scale_fails); the averages run over the walkers of one process, they agree with those of the whole population exactly if the processes agree among themselves (qalpha_local_iff, zlambda_local_iff), and two walkers end in other states on two processes than on one (split_fails). Without the mean-field coupling a factor of the boson state has no influence (jstep_scale)"},
{"property": "C114", "status": "proved", "theorems": ["OpenMS.Qedcc.opt_T1_eq", "OpenMS.Qedcc.opt_T2_eq", "OpenMS.Qedcc.T2_antisymm_left", "OpenMS.Qedcc.T2_antisymm_right"], "note": "the programs are modelled statement by statement with their einsum strings; the doubles residuals agree (opt_T2_eq), the singles residuals differ by the term of G with U11 that the unoptimised file leaves out (opt_T1_eq), which is zero since ccsd.py sets G to zero; the symmetries of the integrals and amplitudes are hypotheses (Inputs.Symmetric), and amplitudes beyond the truncation are zero (Inputs.Truncated)"},
{"property": "C115", "status": "proved", "theorems": ["OpenMS.Qedcc.ref_S1_derivative", "OpenMS.Qedcc.opt_S1_derivative", "OpenMS.Qedcc.ref_S2_derivative", "OpenMS.Qedcc.opt_S2_derivative", "OpenMS.Qedcc.opt_S_eq_ref"], "note": "for G = 0 as set by ccsd.py; derivatives are taken with dual numbers (Inputs.shift), so they are exact for polynomials over any commutative ring; modes with frequency zero have residual zero in both files (opt_S_eq_ref); the electronic part of the energy is the usual formula, its code is in another package"},
{"property": "C116", "status": "proved", "theorems": ["OpenMS.Qedcc.ref_U11_derivative", "OpenMS.Qedcc.opt_U11_derivative", "OpenMS.Qedcc.opt_U11_eq_ref"], "note": "for G = 0 as set by ccsd.py; the derivative is that of the singles residual of the unoptimised file"},
{"property": "C117", "status": "partial", "theorems": ["OpenMS.Qedcc.ref_U21_derivative", "OpenMS.Qedcc.opt_U21_error", "OpenMS.Qedcc.opt_U21_derivative_partial", "OpenMS.Qedcc.opt_U21_derivative_fails"], "note": "proved for the unoptimised file with several modes (ref_U21_derivative) and for the optimised file with one mode or nfock2 = 1 (opt_U21_derivative_partial). The optimised file with several modes and nfock2 = 2 uses the mode of the residual where the mode summed over belongs; the difference is given exactly (opt_U21_error) and is not zero for two modes (opt_U21_derivative_fails)"},
{"property": "C118", "status": "partial", "theorems": ["OpenMS.Qedcc.ref_U12_error", "OpenMS.Qedcc.ref_U12_derivative_partial", "OpenMS.Qedcc.opt_U12_error", "OpenMS.Qedcc.opt_U12_one", "OpenMS.Qedcc.ref_U12_derivative_fails", "OpenMS.Qedcc.opt_U12_derivative_fails", "OpenMS.Qedcc.opt_U12_symmetry_fails"], "note": "proved for the unoptimised file with several modes if U2n is not used (ref_U12_derivative_partial); with U2n the terms of doubles with photons are counted twice (ref_U12_error gives the difference, ref_U12_derivative_fails an example). In the optimised file the elements (m,n) and (n,m) add up to twice the derivative with a further surplus of half a term (opt_U12_error, opt_U12_one, opt_U12_derivative_fails), and they are not equal (opt_U12_symmetry_fails)"},
{"property": "C119", "status": "partial", "theorems": ["OpenMS.Qedcc.opt_U22_error", "OpenMS.Qedcc.ref_U22_error", "OpenMS.Qedcc.opt_U22_derivative_partial", "OpenMS.Qedcc.U22_derivative_fails"], "note": "both files give the second derivative of the doubles residual without its term of degree four in the singles (opt_U22_error, ref_U22_error); it is the full derivative without singles (opt_U22_derivative_partial) and not in general (U22_derivative_fails). Several modes are not covered: the code fills only the element of the first mode"},
{"property": "C120", "status": "partial", "theorems": ["OpenMS.Qedcc.one_U11_derivative", "OpenMS.Qedcc.one_U12_derivative", "OpenMS.Qedcc.one_U21_error", "OpenMS.Qedcc.one_U22_error", "OpenMS.Qedcc.one_U22_error_two", "OpenMS.Qedcc.one_U21_derivative_fails", "OpenMS.Qedcc.one_U22_derivative_fails"], "note": "singles: proved. Doubles: both residuals are derivatives of the doubles residual without its term of degree four (one_U21_error, one_U22_error), and for nfock1 = 2 the second one lacks the terms with S2 as well, since the code asks for nfock1 > 2 instead of nfock1 > 1 (one_U22_error_two); hence neither is the derivative of the doubles residual (one_U21_derivative_fails, one_U22_derivative_fails)"},
{"property": "C121", "status": "proved", "theorems": ["OpenMS.Qedcc.opt_T1_text", "OpenMS.Qedcc.ref_T1_text", "OpenMS.Qedcc.opt_T2_text", "OpenMS.Qedcc.ref_T2_text", "OpenMS.Qedcc.dress_F", "OpenMS.Qedcc.dress_I", "OpenMS.Qedcc.dress_g", "OpenMS.Qedcc.expT1_inv"], "note": "singlesText and doublesText are written as plain sums over indices and do not use the tensor programs; dress_F, dress_I and dress_g show that the transformed arrays are those of exp(-T1) and exp(T1). For G not zero the theorems give the exact difference: the doubles residuals of both files and the singles residual of the unoptimised file leave out the term of G with U21 and U11"},
{"property": "C122", "status": "partial", "theorems": ["OpenMS.Qedcc.stepT1_fixed", "OpenMS.Qedcc.stepT2_fixed", "OpenMS.Qedcc.stepS1_fixed", "OpenMS.Qedcc.stepS2_fixed", "OpenMS.Qedcc.stepU11_fixed", "OpenMS.Qedcc.stepS1_fails", "OpenMS.Qedcc.stepU11_fails", "OpenMS.Qedcc.mix_fixed", "OpenMS.Qedcc.mix_between"], "note": "proved for singles and doubles (stepT1_fixed, stepT2_fixed). For the amplitudes with photons the residual already contains the frequency times the amplitude and the code divides by denominators that contain the frequency too, so a fixed point solves the equations with twice the frequency (stepS1_fixed, stepS2_fixed, stepU11_fixed) and never the right ones unless the amplitude is zero (stepS1_fails, stepU11_fails; a concrete fixed point is given). Damping does not change the fixed points (mix_fixed) and stays between old and new values (mix_between). U12, U21, U22 are not covered"},
{"property": "C123", "status": "partial", "theorems": ["OpenMS.Qedcc.ref_runs_partial", "OpenMS.Qedcc.opt_runs_partial", "OpenMS.Qedcc.ref_truncation", "OpenMS.Qedcc.opt_truncation", "OpenMS.Qedcc.U2n_runs_iff", "OpenMS.Qedcc.U2n_runs_fails", "OpenMS.Qedcc.imds_runs_fails", "OpenMS.Qedcc.ref_runs_fails"], "note": "every einsum of the optimised functions finds its operands with the right axes among the nine blocks of two-electron integrals that the photon object makes (opt_runs_partial), the unoptimised functions need all sixteen blocks (ref_runs_partial) and raise with the nine (ref_runs_fails); the results are independent of the amplitudes beyond the truncation (ref_truncation, opt_truncation). Missing: the unused sum eps_vir + w of the doubles functions raises unless there is one mode, one virtual orbital or as many modes as virtual orbitals (U2n_runs_iff, U2n_runs_fails), even when doubles with photons are not used; and for nfock1 = 0 the intermediates read an array that is not set (imds_runs_fails)"},
{"property": "C124", "status": "partial", "theorems": ["OpenMS.CcIntegrals.I_eq", "OpenMS.CcIntegrals.I_symm", "OpenMS.CcIntegrals.fock_consistent_partial", "OpenMS.CcIntegrals.fock_bare", "OpenMS.CcIntegrals.fock_consistent_fails", "OpenMS.CcIntegrals.F_canonical"], "note": "I_eq: get_I returns the antisymmetrised integrals of the spin orbitals of Co and Cv with the dipole self-energy products added; I_symm: the antisymmetries and the pair symmetry; fock_consistent_partial: F = h + sum over occupied of the integrals if the mean field is a QED one with add_dse and shift is off; F_canonical: F is diagonal with the orbital energies for canonical orthonormal orbitals. Missing: for a bare mean field or add_dse off the Fock matrix is that of the integrals without self-energy (fock_bare) while get_I adds it, so the two disagree (fock_consistent_fails)"},
{"property": "C125", "status": "partial", "theorems": ["OpenMS.CcIntegrals.F_shift", "OpenMS.CcIntegrals.F_shift_fails", "OpenMS.CcIntegrals.xi_linear", "OpenMS.CcIntegrals.mfG_eq", "OpenMS.CcIntegrals.mfG_linear", "OpenMS.CcIntegrals.kernelG_linear", "OpenMS.CcIntegrals.kernelG_partial", "OpenMS.CcIntegrals.kernelG_fails", "OpenMS.CcIntegrals.hfEnergy_eq", "OpenMS.CcIntegrals.hfEnergy_shift", "OpenMS.CcIntegrals.hfEnergy_fails", "OpenMS.CcIntegrals.getJk_partial", "OpenMS.CcIntegrals.getJk_fails", "OpenMS.CcIntegrals.getGmatSo_iff", "OpenMS.CcIntegrals.getGmatSo_fails", "OpenMS.CcIntegrals.getGmatSo_partial"], "note": "F_shift: with shift, F is the coherent-state Fock matrix without the quadrupole part and the energy per electron, so a source of the singles is missing (F_shift_fails); xi_linear: the displacement cancels the linear term; mfG_linear: mfG is right iff there is no displacement, kernelG_linear: the zero of the kernel is right iff the displacement is the coupling of the reference, as with coherent state (kernelG_partial), not in the Fock basis (kernelG_fails); hfEnergy_eq, hfEnergy_shift: hf_energy is the mean-field energy minus half the photon part, resp. minus photon energy and quadrupole part (hfEnergy_fails); get_jk without the integrals in memory calls itself for ever (getJk_fails); the kernel of Photon returns iff the dipole and coupling matrices were stored before (getGmatSo_iff), not on a fresh object (getGmatSo_fails)"},
{"property": "C126", "status": "partial", "theorems": ["OpenMS.Diis.err_zero", "OpenMS.Diis.err_zero_plain", "OpenMS.Diis.err_zero_spin", "OpenMS.Diis.err_zero_stack", "OpenMS.Diis.orth_zero", "OpenMS.Diis.orth_reduced", "OpenMS.Diis.orth_sym", "OpenMS.Diis.orth_sym_partial", "OpenMS.Diis.orth_sym_fails", "OpenMS.Diis.stationary", "OpenMS.Diis.update_partial", "OpenMS.Diis.ravel_get", "OpenMS.Diis.update_fails", "OpenMS.Diis.bookkeep_spec"], "note": "err_zero, err_zero_plain, err_zero_spin, err_zero_stack: zero iff FDS = SDF (and the gradient is zero), with the length of the vector; orth_zero in a complete orthonormal basis, orth_reduced with linearly dependent functions removed; stationary: zero iff tr(F dD) = 0 for every first-order variation of the density that keeps it hermitian and idempotent; update_partial, ravel_get: layout of the parameters; bookkeep_spec: the rollback keeps the newest vectors. Missing: with orbital symmetries only blocks of equal symmetry count (orth_sym), which loses nothing for symmetric matrices (orth_sym_partial) and hides a symmetry-breaking Fock matrix (orth_sym_fails); without variational parameters the update raises (update_fails). The extrapolation itself belongs to another package"},
{"property": "C127", "status": "partial", "theorems": ["OpenMS.Gutzwiller.local_expect", "OpenMS.Gutzwiller.Hpp_isSome", "OpenMS.Gutzwiller.ground_fails", "OpenMS.Gutzwiller.ground_half_fails", "OpenMS.Gutzwiller.qpHam_symm", "OpenMS.Gutzwiller.qpHam_one", "OpenMS.Gutzwiller.docDelta_deriv", "OpenMS.Gutzwiller.deltas_partial", "OpenMS.Gutzwiller.deltas_fails", "OpenMS.Gutzwiller.lamdaErr_zero", "OpenMS.Gutzwiller.newLamda_fix"], "note": "local_expect: the three matrices represent hopping, density and double occupancy. ground_half_fails: at half filling the weight of the singly occupied site taken by the code is 1/4 for every interaction, that of the ground state only without interaction; ground_fails: without hopping and with the repulsion between half the chemical potential and the chemical potential the code takes the doubly occupied site although the ground state is the singly occupied one, because the first row and not the first column of the eigenvectors is read. docDelta_deriv: the documented coupling is half the derivative of the quasiparticle energy; deltas_partial: the code agrees where the factors are the same on all sites joined to the site; deltas_fails: on two sites it differs whenever the factors do, because the factor of the site itself is used. Hpp_isSome: an empty or full site has no finite local Hamiltonian. lamdaErr_zero, newLamda_fix: error zero and multipliers unchanged exactly for equal densities (or zero factor)."},
{"property": "C128", "status": "partial", "theorems": ["OpenMS.Gutzwiller.init_iff", "OpenMS.Gutzwiller.init_fails", "OpenMS.Gutzwiller.renorm_mem", "OpenMS.Gutzwiller.renorm_uncut", "OpenMS.Gutzwiller.renorm_start", "OpenMS.Gutzwiller.newf_norm", "OpenMS.Gutzwiller.mixF_good", "OpenMS.Gutzwiller.run_good", "OpenMS.Gutzwiller.kernel_energy_fails", "OpenMS.Gutzwiller.conv_sticky"], "note": "init_iff: the start exists, is normalised and has the density exactly for densities per spin between zero and one; init_fails: the kernel passes the density of both spins, which above half filling gives no number for any orbitals. renorm_mem, renorm_uncut, renorm_start: bounds of the factors, no cut for agreeing densities, value without correlation. run_good: normalisation, sign and bounds along every run. kernel_energy_fails: the returned energy is zero for every system, and zero cycles raise. conv_sticky: convergence once seen is reported whatever follows. Orthogonality of the eigenvectors is assumed of the eigensolver."},
{"property": "C129", "status": "partial", "theorems": ["OpenMS.Hyperbolic.row_re", "OpenMS.Hyperbolic.passive", "OpenMS.Hyperbolic.row_eq_doc_iff", "OpenMS.Hyperbolic.row_partial", "OpenMS.Hyperbolic.row_fails", "OpenMS.Hyperbolic.plasmonFreq_sq", "OpenMS.Hyperbolic.weight_fails"], "note": "passive: real part not negative for nonnegative frequencies, strengths and damping. row_eq_doc_iff: with the weight of the code a component is the documented one exactly if its strength is zero or the number of plasmon frequencies passed is one above and zero below its interband frequency; row_partial: one component with both frequencies on the same side; row_fails: below the interband frequency with any plasmon frequency passed, or with two passed, the value is wrong. weight_fails: the weight of the free electrons grows with the root of the density instead of the density; plasmonFreq_sq: the plasmon frequency itself is right. Values where the logarithm or the quotient is not finite are outside."},
{"property": "C130", "status": "partial", "theorems": ["OpenMS.Vmc.S_posSemidef", "OpenMS.Vmc.g_shift", "OpenMS.Vmc.S_shift", "OpenMS.Vmc.g_eigenstate", "OpenMS.Vmc.eMean_exact", "OpenMS.Vmc.g_derivative", "OpenMS.Vmc.g_complex_partial", "OpenMS.Vmc.g_complex_fails", "OpenMS.Vmc.kernel_iff", "OpenMS.Vmc.kernel_fails"], "note": "S_posSemidef, g_shift, S_shift, g_eigenstate: for every sample. eMean_exact, g_derivative: samples in proportion to the square of a real wave function give the energy and half its derivative. g_complex_fails: for the wave function (1, exp(i theta)) of a two state Hamiltonian the code gives the opposite sign of the derivative for every theta because the logarithmic derivative is not conjugated; g_complex_partial: with real local energies the real part is right. kernel_iff, kernel_fails: the kernel reads attributes that the constructor does not set; an object as made raises at the first iteration."},
{"property": "C131", "status": "partial", "theorems": ["OpenMS.Spin.zfs_symm", "OpenMS.Spin.zfs_trace", "OpenMS.Spin.zfs_hamiltonian", "OpenMS.Spin.zfs_inj", "OpenMS.Spin.g_number", "OpenMS.Spin.g_stack_partial", "OpenMS.Spin.g_stack_fails", "OpenMS.Spin.g_single_fails", "OpenMS.Spin.ndim_half", "OpenMS.Spin.attr_set", "OpenMS.Spin.attr_DE_fails", "OpenMS.Spin.system_size_fails"], "note": "zfs_symm, zfs_trace, zfs_hamiltonian, zfs_inj, g_number, ndim_half, attr_set hold. g_stack_fails: a stack of isotropic tensors raises unless there are three, which become one diagonal tensor mixing the spins; g_single_fails: a stack of one tensor raises; g_stack_partial: other stacks are kept. attr_DE_fails: the attributes D and E are zero for every call; system_size_fails: a system has size one for every call, because the arguments are named in the signature and never reach the update."},
{"property": "C132", "status": "partial", "theorems": ["OpenMS.QedFci.elem_link", "OpenMS.QedFci.link_symm", "OpenMS.QedFci.link_diag", "OpenMS.QedFci.link_counts", "OpenMS.QedFci.link_pair", "OpenMS.QedFci.rdm1_agree", "OpenMS.QedFci.rdm12_energy", "OpenMS.QedFci.rdm2_trace", "OpenMS.QedFci.rdm2_pair_symm", "OpenMS.QedFci.hdiag_elec", "OpenMS.QedFci.hdiag_error", "OpenMS.QedFci.hdiag_iff", "OpenMS.QedFci.hdiag_fails"], "note": "elem_link, link_symm, link_diag, link_counts, link_pair: the concrete tables over strings are the excitation operators; link_symm and link_counts discharge the hypotheses that C49, C85 and C86 make about tables. rdm12_energy, rdm2_trace, rdm2_pair_symm: hermitian tables, every vector. hdiag_elec: the electronic part of the diagonal is right. hdiag_error, hdiag_iff, hdiag_fails: the photon energy of every mode is replaced by one half where it is smaller, so the diagonal is right exactly where every mode carries at least half a unit and too large by a half per mode in the vacuum; the diagonal is only the preconditioner and start of the solver. make_rdm1p reads an undefined name and is not modelled."},
{"property": "C133", "status": "partial", "theorems": ["OpenMS.Offset.offset_total", "OpenMS.Offset.offset_result", "OpenMS.Offset.offset_fails", "OpenMS.Offset.offset_partial", "OpenMS.Offset.opposite_sign", "OpenMS.Offset.adjust_eq", "OpenMS.Offset.systematic_eq"], "note": "offset_result: what the step returns, for every population. offset_fails: the offset enters with the wrong sign, for equal energies the mean weight moves away from the target for every population not at the target. offset_partial: at the target it is the plain step. opposite_sign: with the other sign a unit time step reaches the target at once. adjust_eq, systematic_eq: the other entries of the class."},
{"property": "C134", "status": "proved", "theorems": ["OpenMS.Subspace.foldl_write", "OpenMS.Subspace.fillHerm_step", "OpenMS.Subspace.fillGen_step", "OpenMS.Subspace.growHerm_lower", "OpenMS.Subspace.fill_general", "OpenMS.Subspace.fill_hermitian_symm", "OpenMS.Subspace.fill_hermitian_iff", "OpenMS.Subspace.fill_agree"], "note": "loops as folds of writes; vectors in the order they were added."},
{"property": "C135", "status": "partial", "theorems": ["OpenMS.FciIntegrals.dse_operator", "OpenMS.FciIntegrals.gmatLo_eq", "OpenMS.FciIntegrals.hep_partial", "OpenMS.FciIntegrals.hep_fails", "OpenMS.FciIntegrals.hep_square_iff", "OpenMS.FciIntegrals.dm_eq", "OpenMS.FciIntegrals.dm_right_trace", "OpenMS.FciIntegrals.dm_trace_iff", "OpenMS.FciIntegrals.dm_fails"], "note": "dse_operator: for all link tables of C132. hep_partial: one mode is right. hep_fails: two or more modes not as many as orbitals raise at the broadcast; hep_square_iff: as many modes as orbitals is right for every coupling exactly if all frequencies are equal. dm_trace_iff: the density counts the electrons for every density exactly if the square of the overlap is one, because the overlap is overwritten before its use; dm_fails: for one orbital of any other overlap."},
{"property": "C136", "status": "partial", "theorems": ["OpenMS.DipoleBasis.turned_iff", "OpenMS.DipoleBasis.top_group_fails", "OpenMS.DipoleBasis.all_equal_fails", "OpenMS.DipoleBasis.at_threshold_fails", "OpenMS.DipoleBasis.resolve_diag", "OpenMS.DipoleBasis.resolve_orthonormal", "OpenMS.DipoleBasis.resolve_fock", "OpenMS.DipoleBasis.resolve_spec", "OpenMS.DipoleBasis.chol_one_mode", "OpenMS.DipoleBasis.eri_last", "OpenMS.DipoleBasis.chol_first", "OpenMS.DipoleBasis.store_fails", "OpenMS.DipoleBasis.photonExpVal_eq", "OpenMS.DipoleBasis.photonExpVal_two_iff", "OpenMS.DipoleBasis.photonExpVal_fails"], "note": "turned_iff: with no gap exactly at the threshold the turned slices are the degenerate groups except the one that holds the largest eigenvalue; top_group_fails, all_equal_fails: that group is never turned, for every spectrum; at_threshold_fails: a gap equal to the threshold shifts the next slice so that it mixes vectors that are not degenerate. resolve_spec: the whole function for every result of the eigensolver on the slices. chol_one_mode: with one mode both storage schemes agree; eri_last, chol_first, store_fails: with several modes the integrals of the last mode and the Cholesky vectors of the first mode are kept. photonExpVal_eq, photonExpVal_two_iff, photonExpVal_fails: the photon expectation value is a product of two sums instead of the occupation and zero for all modes but the first at the start. The Fock and dipole matrices are arguments."},
{"property": "C137", "status": "partial", "theorems": ["OpenMS.Photon.jk_transpose", "OpenMS.Photon.jk_agree", "OpenMS.Photon.jk_residue_fails", "OpenMS.Photon.j_energy", "OpenMS.Photon.k_product", "OpenMS.Photon.jk_one_orbital", "OpenMS.Photon.bdagMinusB_eq", "OpenMS.Photon.bdagMinusB_fails"], "note": "jk_agree: symmetric densities and equal factors. jk_transpose, k_product: for other densities the exchange matrix is that of the transposed density. jk_residue_fails: without bare self energy the residual matrices exceed those of the mean field class by the whole bare matrices for every parameter. bdagMinusB_fails: the function named after the difference of the ladder operators returns the value of the sum (bdagMinusB_eq), positive for every mode with positive coefficients while the named one is zero."},
{"property": "C138", "status": "proved", "theorems": ["OpenMS.QmcIntegrals.cholFull_exact_iff", "OpenMS.QmcIntegrals.cholFull_bound", "OpenMS.QmcIntegrals.negative_fails", "OpenMS.QmcIntegrals.bare_tensor", "OpenMS.QmcIntegrals.bare_tensor_svd", "OpenMS.QmcIntegrals.operator", "OpenMS.QmcIntegrals.extra_fields", "OpenMS.QmcIntegrals.geb_eq", "OpenMS.QmcIntegrals.bare_system", "OpenMS.QmcIntegrals.energy_two", "OpenMS.QmcIntegrals.energy_one", "OpenMS.QmcIntegrals.energy_chol"], "note": "cholFull_exact_iff: at threshold zero; negative_fails is a matrix outside the condition, integrals of a molecule are positive semidefinite. bare_tensor, operator: for an exact routine for the fields; bare_tensor_svd discharges this for chols_full. energy_chol: TL_theta in the full basis. Real orbitals; the eigh calls inside debug output are not modelled."},
{"property": "C139", "status": "partial", "theorems": ["OpenMS.Qmd.population_rate", "OpenMS.Qmd.densities_spec", "OpenMS.Qmd.hop_reverse", "OpenMS.Qmd.hop_correct_iff", "OpenMS.Qmd.hop_sign_fails", "OpenMS.Qmd.hop_raises_fails", "OpenMS.Qmd.hop_rows_partial"], "note": "population_rate: the documented equation moves populations by the flows between pairs. hop_reverse: the entry is the probability of the reverse hop. hop_correct_iff: right only without flow. hop_sign_fails: hops that should happen are never drawn. hop_raises_fails: TypeError for any molecule. hop_rows_partial: shape of the result if the number of states were given to range. Missing: the claim itself, which is false."},
{"property": "C140", "status": "partial", "theorems": ["OpenMS.QedFci.hubbard_scalar", "OpenMS.QedFci.hubbard_elecH", "OpenMS.QedFci.hubbard_triple_fails", "OpenMS.QedFci.hubbard_triple_mode_fails", "OpenMS.QedFci.hdiag_hubbard_fails", "OpenMS.QedFci.hdiag_hubbard_iff"], "note": "hubbard_scalar: one number, equal to the second quantised operator. hubbard_triple_fails: three numbers raise unless the last mode has three states; hubbard_triple_mode_fails: then the interaction depends on the boson number. hdiag_hubbard_fails: NameError. hdiag_hubbard_iff: with the name repaired right only without interaction or electrons. Missing: three numbers and the diagonal, where the claim is false."},
{"property": "C141", "status": "partial", "theorems": ["OpenMS.Energy.local_eng_error", "OpenMS.Energy.local_eng_iff", "OpenMS.Energy.local_eng_fails", "OpenMS.Energy.gfSo_spec", "OpenMS.Energy.uhf_build_fails", "OpenMS.Energy.exx_chunked"], "note": "local_eng_error: the estimator is the energy minus half of the one electron part. gfSo_spec: both spins, also without beta electrons. uhf_build_fails: shapes, for every number of orbitals and electrons. exx_chunked: offsets of consecutive parts. Missing: the one electron energy and the unrestricted trial, where the claim is false."},
{"property": "C142", "status": "partial", "theorems": ["OpenMS.Schedule.counts", "OpenMS.Schedule.times_eq", "OpenMS.Schedule.time_early_fails", "OpenMS.Schedule.kernels_agree_iff"], "note": "counts and times_eq: numbers of operations and the list of times, both kernels. time_early_fails: at every measurement the recorded time plus one time step is the propagated imaginary time. kernels_agree_iff: the two kernels agree exactly without steps or with the default population control. Missing: right times and equality of the kernels for other methods, where the claim is false."},
{"property": "C143", "status": "partial", "theorems": ["OpenMS.ScQed.together_eri", "OpenMS.ScQed.together_chol_sq", "OpenMS.ScQed.together_chol_eta", "OpenMS.ScQed.together_chol_two", "OpenMS.ScQed.together_chol_fails"], "note": "together_eri: four-index integrals, all switches. together_chol_sq: squeezing gradient with a Cholesky tensor. together_chol_eta: what the displacement gradient is instead. together_chol_two: minus twice and twice the right values for two orbitals. together_chol_fails: with the vacuum factors of the code, every frequency, squeezing and density. One mode. Missing: displacement and fraction gradients with a Cholesky tensor, where the claim is false."},
{"property": "C144", "status": "partial", "theorems": ["OpenMS.ScQed.cycle_energy", "OpenMS.ScQed.cycle_energy_partial", "OpenMS.ScQed.fock_three", "OpenMS.ScQed.cycle_eta", "OpenMS.ScQed.cycle_below_fails"], "note": "cycle_energy: the reported energy is the functional at the new displacements plus the self energy of the old ones minus that of the new ones, with or without extrapolation. cycle_energy_partial: equal when the displacements did not change. fock_three: the Fock matrix of a cycle combines three sets of displacements. cycle_eta: the step. cycle_below_fails: first cycle of two orbitals with the vacuum factors and the start of the code, reported energy below the functional at all displacements. One mode, displacements only. Missing: cycles that change the displacements, where the claim is false."},
{"property": "C145", "status": "partial", "theorems": ["OpenMS.BilinearStep.elec_series", "OpenMS.BilinearStep.boson_series", "OpenMS.BilinearStep.boson_exp_partial", "OpenMS.BilinearStep.boson_exp_fails", "OpenMS.BilinearStep.elec_limit", "OpenMS.BilinearStep.boson_limit_fails"], "note": "elec_series: both spin components, all orders. boson_series: what the bosonic part is. boson_exp_partial: orders zero and one. boson_exp_fails: every higher order, on an eigenvector with positive eigenvalue. elec_limit, boson_limit_fails: limits for growing order. Missing: the bosonic part above order one, where the claim is false."},
{"property": "C146", "status": "partial", "theorems": ["OpenMS.Lattice.aint_orders", "OpenMS.Lattice.same_spin_zero", "OpenMS.Lattice.spin_blocks", "OpenMS.Lattice.fock_blocks", "OpenMS.Lattice.nine_determine", "OpenMS.Lattice.gaint_antisymm", "OpenMS.Lattice.all_partition", "OpenMS.Lattice.nine_mixed_fails"], "note": "aint_orders: antisymmetrisation before or after the transformation. spin_blocks, fock_blocks: all spin blocks, for any orbitals. nine_determine, gaint_antisymm: nine blocks are enough for the general integrals. all_partition: the sixteen blocks. nine_mixed_fails: make_two_e_blocks for two spins; the Hubbard classes use the sixteen blocks there. Missing: that case."},
{"property": "C147", "status": "partial", "theorems": ["OpenMS.Lattice.hh_fock_gradient", "OpenMS.Lattice.hh_fock_orbitals", "OpenMS.Lattice.mfG_linear", "OpenMS.Lattice.hhGmat_symm", "OpenMS.Lattice.mo_hopping_partial", "OpenMS.Lattice.mo_hopping_two_fails", "OpenMS.Lattice.mo_eri_partial", "OpenMS.Lattice.mo_orbitals_fails"], "note": "hh_fock_gradient: expansion of the energy to second order around any density, with the shifts changing. hh_fock_orbitals: any orbitals. mo_hopping_partial: three or more sites. mo_hopping_two_fails: two open sites. mo_eri_partial: broken symmetry only. mo_orbitals_fails: otherwise, for every nonzero repulsion on three open sites, the orbitals are not those of the model. Missing: the two cases in which the claim is false."},
{"property": "C148", "status": "partial", "theorems": ["OpenMS.Aggregates.node_test", "OpenMS.Aggregates.selection", "OpenMS.Aggregates.selection_sign", "OpenMS.Aggregates.linearAbs_partial", "OpenMS.Aggregates.linearAbs_dark_fails", "OpenMS.Aggregates.tdes_harmonic", "OpenMS.Aggregates.tdes_nonneg", "OpenMS.Aggregates.tdes_additive_fails"], "note": "node_test: Cauchy-Schwarz bound of the number that decides about ground states. selection, selection_sign: all thresholds and orders. linearAbs_partial: as many states of interest as sites. linearAbs_dark_fails: one state of interest of a dimer. tdes_harmonic, tdes_nonneg: any list of states. tdes_additive_fails: any two molecules with dipoles. Missing: the sum over all states with fewer states of interest and additivity, which are false."},
{"property": "C149", "status": "partial", "theorems": ["OpenMS.BosonStart.coherent_energy", "OpenMS.BosonStart.vacuum_energy", "OpenMS.BosonStart.start_iff", "OpenMS.BosonStart.start_above_fails"], "note": "coherent_energy: the energy of the truncated, normalised state, one mode. start_iff: when the claim holds, for both spins. start_above_fails: every closed-shell trial with a coupling. Missing: the claim itself, which is false for those trials. More than one mode is not modelled here."},
{"property": "C150", "status": "partial", "theorems": ["OpenMS.Kernels.onebody_eq", "OpenMS.Kernels.expOp_complex_eq", "OpenMS.Kernels.expOp_real_eq", "OpenMS.Kernels.expOp_real_partial", "OpenMS.Kernels.expOp_real_fails", "OpenMS.Kernels.hs_after_onebody", "OpenMS.Kernels.hs_lost_fails", "OpenMS.Kernels.ovlp_eq", "OpenMS.Kernels.ghalf_eq", "OpenMS.Kernels.exx_eq", "OpenMS.Kernels.ecoul_rhf_eq", "OpenMS.Kernels.ecoul_uhf_partial", "OpenMS.Kernels.ecoul_uhf_fails", "OpenMS.Kernels.tensordot_eq"], "note": "expOp_real_partial: order at most two. expOp_real_fails: every order from three on. hs_after_onebody: the call of a step. hs_lost_fails: an array that has to be converted, for example real walkers, keeps its old value. ecoul_uhf_partial: equal numbers of electrons. ecoul_uhf_fails: fewer beta electrons, the last walker. Missing: the cases in which the claim is false. Eigen products are matrix products, memory is a function of the position that is none outside the array."},
{"property": "C151", "status": "partial", "theorems": ["OpenMS.DispCpp.pack_eq", "OpenMS.DispCpp.disp_mat_eq", "OpenMS.DispCpp.exp_val_eq", "OpenMS.DispCpp.exp_val_partial", "OpenMS.DispCpp.exp_val_fails"], "note": "disp_mat_eq, exp_val_eq: any numbers of states and orbitals, whatever the memory held before. exp_val_partial: a packed density matrix. exp_val_fails: every mode with at least two states and the square density matrix of the highest state. Missing: the claim for square matrices, which is false."},
{"property": "C152", "status": "proved", "theorems": ["OpenMS.Fdtd.flux_conserved", "OpenMS.Fdtd.charge_conserved", "OpenMS.Fdtd.curl_adjoint", "OpenMS.Fdtd.energy_conserved", "OpenMS.Fdtd.energy_conserved_iterate", "OpenMS.Fdtd.courant_bound", "OpenMS.Fdtd.propagate_plainE", "OpenMS.Fdtd.propagate_plainH"], "note": "flux_conserved: cells of any material except perfect conductors and absorbing layers. charge_conserved: dielectric cells. energy_conserved, energy_conserved_iterate: any non-uniform grid and dielectric, each of the x and y directions periodic or with walls, walls at the ends of z; the walls themselves are kept. courant_bound: uniform grid. Exact arithmetic instead of float; Gamma point, no parities."},
{"property": "C153", "status": "proved", "theorems": ["OpenMS.Fdtd.metal_equations", "OpenMS.Fdtd.drude_energy", "OpenMS.Fdtd.drude_passive", "OpenMS.Fdtd.layer_electric", "OpenMS.Fdtd.layer_magnetic", "OpenMS.Fdtd.layer_transparent", "OpenMS.Fdtd.sigma_inside", "OpenMS.Fdtd.sigma_nonneg", "OpenMS.Fdtd.sigma_mirror", "OpenMS.Fdtd.conductor_zero"], "note": "drude_energy, drude_passive: boxes as in C152 whose cells are dielectric or Drude metals with plasma frequency not zero. layer_electric, layer_magnetic: any stretching factors and conductivity functions with denominators that are not zero. layer_transparent: no conductivity, factors one. sigma_mirror: equal parameters at both ends, order not zero. conductor_zero: all numbers of steps. Exact arithmetic instead of float."},
{"property": "C154", "status": "partial", "theorems": ["OpenMS.FdtdGrid.cell_sizes", "OpenMS.FdtdGrid.time_step_stable", "OpenMS.FdtdGrid.region_size_partial", "OpenMS.FdtdGrid.region_size_fails", "OpenMS.FdtdGrid.sort_partial", "OpenMS.FdtdGrid.sort_outside_fails", "OpenMS.FdtdGrid.sort_unsorted_fails", "OpenMS.FdtdGrid.zToI_mono_partial", "OpenMS.FdtdGrid.zToI_mono_fails", "OpenMS.FdtdGrid.iToZ_partial"], "note": "cell_sizes: the three directions without further regions. time_step_stable: vacuum, uniform grid, S squared above 3. region_size_partial: lattice constants dividing the common multiple; region_size_fails: all others. sort_partial: starts that are integers, any number of regions. sort_outside_fails: all starts between 0 and 1, any number of regions. zToI_mono_partial, iToZ_partial: regions that start and end on the grid. zToI_mono_fails: every first region ending in the upper half of a cell. Missing: the cases in which the claim is false. Rational numbers instead of float, int without overflow."},
{"property": "C155", "status": "partial", "theorems": ["OpenMS.MpiGrid.neighbours_match", "OpenMS.MpiGrid.ring", "OpenMS.MpiGrid.partition_partial", "OpenMS.MpiGrid.partition_iff", "OpenMS.MpiGrid.partition_fails", "OpenMS.MpiGrid.size_high_fails", "OpenMS.MpiGrid.neighbour_adjacent_partial", "OpenMS.MpiGrid.findX_eq", "OpenMS.MpiGrid.findY_partial", "OpenMS.MpiGrid.findY_fails", "OpenMS.MpiGrid.findX_serial_fails", "OpenMS.MpiGrid.source_column_partial", "OpenMS.MpiGrid.source_repeated_fails"], "note": "neighbours_match, ring, findX_eq: all processes. partition_iff: with at least one cell for every process the ranges are a partition exactly when every size is a multiple of the number of processes. findY_partial: as many cells along y as along x; findY_fails: all other shapes. source_column_partial: the processes that add a source are one column along z, hence one process when there is one along z; source_repeated_fails: two of them otherwise. Missing: the cases in which the claim is false. Sizes that are not negative; positions as rational numbers."},
{"property": "C156", "status": "partial", "theorems": ["OpenMS.Fdtd.stepE_complex_partial", "OpenMS.Fdtd.stepH_complex", "OpenMS.Fdtd.molecule_fails", "OpenMS.Fdtd.crystalE_bloch", "OpenMS.Fdtd.crystalH_bloch", "OpenMS.Fdtd.bloch_step", "OpenMS.Fdtd.tri_step_partial", "OpenMS.Fdtd.tri_odd_fails"], "note": "bloch_step: the crystal built from the new arrays is the update of the crystal built from the old ones, in all cells of the plane and all layers k with 1 <= k < pksize, and the boundary values stay those of the crystal, so the statement holds at every step. No molecules, no absorbing layer and no special metal along the periodic directions. tri_step_partial: the same for the triangular lattice with an even number of cells along x; tri_odd_fails: for every odd number from 3 on a boundary value never changes. molecule_fails: at every molecule without plasma frequency and current the two arrays are updated with two different permittivities. Missing: the cases in which the claim is false."},
{"property": "C157", "status": "partial", "theorems": ["OpenMS.Fdtd.line_half", "OpenMS.Fdtd.line_int", "OpenMS.Fdtd.parityE_even", "OpenMS.Fdtd.parityH_even", "OpenMS.Fdtd.parity_step", "OpenMS.Fdtd.hzParity_sized", "OpenMS.Fdtd.whole_run_fails"], "note": "parity_step: one step from fields that are symmetric at the planes and zero at the outer edge gives the update of the mirrored fields for all six components, in all cells of the computed part and of its mirror images, and the hypotheses hold again, so the statement holds at every step. With a plane along z the two spacings next to the plane have to be equal. parityE_even, parityH_even: the assignments at the three planes leave all symmetry conditions true together, for every field. whole_run_fails: every dielectric, every parity, every even number of cells from four on. Missing: metals, absorbing layers, parities together with periodic directions; the case in which the claim is false."},
{"property": "C158", "status": "partial", "theorems": ["OpenMS.Fdtd.values_whole", "OpenMS.Fdtd.hzParity_even", "OpenMS.Fdtd.odd_fails", "OpenMS.Fdtd.crystal_valuesE", "OpenMS.Fdtd.crystal_valuesH_partial", "OpenMS.Fdtd.corner_never", "OpenMS.Fdtd.corner_fails", "OpenMS.Fdtd.periodicX_crystal", "OpenMS.Fdtd.periodicY_crystal", "OpenMS.Fdtd.crystal_cellE", "OpenMS.Fdtd.periodicXY_right_iff", "OpenMS.Fdtd.periodicXY_fails", "OpenMS.Fdtd.row_nodes", "OpenMS.Fdtd.row_fails", "OpenMS.Fdtd.column_partial", "OpenMS.Fdtd.column_fails"], "note": "values_whole: electric field, magnetic field and flux at every node of both halves are the means of the mirrored fields (C157), for every set of parities, when the sizes are even (hzParity_even). odd_fails: every odd size from seven on. crystal_valuesE, crystal_cellE: after a step the reported electric field is the mean of the field of the crystal (C156), in the cell and with the phases in every cell along x or y. crystal_valuesH_partial: the magnetic field from the second layer on, except Hz at the first node. corner_never, corner_fails: the corner keeps its first value for all times, so Hz is wrong there whenever it does not vanish in the last cell. periodicXY_right_iff: exactly when the phase for both directions is right. row_nodes: the nodes of a printed row; row_fails, column_fails: every size from two on. Missing: the first layer of the magnetic field, triangular lattices, permittivities, files; the cases in which the claim is false."},
{"property": "C159", "status": "partial", "theorems": ["OpenMS.FdtdEnergy.total_partial", "OpenMS.FdtdEnergy.width_fails", "OpenMS.FdtdEnergy.layer_fails", "OpenMS.FdtdEnergy.updown_excess", "OpenMS.FdtdEnergy.updown_fails", "OpenMS.FdtdEnergy.block_fails", "OpenMS.FdtdEnergy.block_partial", "OpenMS.FdtdEnergy.blocks_excess", "OpenMS.FdtdEnergy.blocks_fails", "OpenMS.FdtdEnergy.detector_max", "OpenMS.FdtdEnergy.sphere_vector", "OpenMS.FdtdEnergy.sphere_index_partial", "OpenMS.FdtdEnergy.sphere_index_fails"], "note": "total_partial: for every flux the loss is the sum of the outflow of the cells, when the layers along y have equal width and lattice_z is a multiple of five. width_fails, layer_fails: whenever one of these does not hold there is a flux leaving the region that is not counted. updown_excess: the two vertical losses differ exactly by the flux through two layers of the sides; updown_fails: a flux for which they differ. block_fails: for every block with two cells along y a flux without sources in any cell gives a loss; block_partial: the loss is right when nothing flows through the lower edges. blocks_excess, blocks_fails: the common layer of two blocks is counted twice. detector_max: the node of largest energy for energies above the first value of the search. sphere_vector: the three components are those of one vector in spherical coordinates; sphere_index_partial and sphere_index_fails: the index along x is the nearest one, that along y when the centers agree and never when they differ by more than one cell. Missing: rounding of numbers, losses in metals, files; the cases in which the claim is false."},
{"property": "C160", "status": "partial", "theorems": ["OpenMS.Fft.fft1d_dft", "OpenMS.Fft.round_trip", "OpenMS.Fft.powFinder_log", "OpenMS.Fft.fft2d_dft_partial", "OpenMS.Fft.size_fails", "OpenMS.Fft.shift_eq", "OpenMS.Fft.ordered_partial"], "note": "fft1d_dft: for every m, direction and data the bit reversal ends, the first 2^m elements of the result are the discrete Fourier transform and the others are unchanged. round_trip: direction -1 after direction 1 gives the original arrays. powFinder_log: the integer logarithm, and no end for zero. fft2d_dft_partial: the two-dimensional transform for sizes that are powers of two. shift_eq: every entry moves cyclically by half the size, also into the additional row and column. ordered_partial: transform and shift together give entry (i, j) the frequencies i - nx/2 and j - ny/2. size_fails: for every number of columns that is not a power of two a point source gives zero in the last column instead of 1/(nx ny). Missing: rounding of numbers; sizes that are not powers of two, for which the claim is false."},
{"property": "C161", "status": "partial", "theorems": ["OpenMS.FarField.node_partial", "OpenMS.FarField.node_fails", "OpenMS.FarField.hy_fails", "OpenMS.FarField.shrink_partial", "OpenMS.FarField.window_fits", "OpenMS.FarField.shrink_fails", "OpenMS.FarField.last_column_fails", "OpenMS.FarField.direction_spec", "OpenMS.FarField.angle_fails", "OpenMS.FarField.outgoing", "OpenMS.FarField.incoming", "OpenMS.FarField.ey_outgoing", "OpenMS.FarField.ex_excess", "OpenMS.FarField.ex_partial", "OpenMS.FarField.ex_fails", "OpenMS.FarField.intensity_sum", "OpenMS.FarField.power_sum", "OpenMS.FarField.power_spec", "OpenMS.FarField.horizontal_partial"], "note": "node_partial: for even widths and equal layers the maps show exactly the nodes ten cells away from the layers; node_fails: whenever the two layers differ such a node is missing; hy_fails: the eighth map lacks the first column in every grid. shrink_partial and window_fits: the window keeps the distance from the middle and fits when lattice_x is at least 10 Nfree OMEGA; shrink_fails, last_column_fails: it reads outside when it is larger, and its last column is never written when row_s is odd. direction_spec: unit vectors whose transverse part times Nfree k is the distance from the middle; angle_fails: the angle is wrong whenever the radius before rounding is not an integer. outgoing, incoming: the intensity of plane waves that leave or come in. ey_outgoing, ex_excess: the horizontal components; ex_partial: in vacuum ex is right; ex_fails: in every other medium it is wrong at every point not on the axis i = h and in the middle. intensity_sum, power_sum, horizontal_partial: the polarizations add up. power_spec: the power is the sum over all points of the disc, if it lies in the map. Missing: rounding of numbers, files (the powers are printed through pointers); the cases in which the claim is false."},
{"property": "C162", "status": "partial", "theorems": ["OpenMS.FdtdObjects.average_partial", "OpenMS.FdtdObjects.epsilon_places_partial", "OpenMS.FdtdObjects.extents", "OpenMS.FdtdObjects.average_bounds", "OpenMS.FdtdObjects.convex_full", "OpenMS.FdtdObjects.shapes_convex", "OpenMS.FdtdObjects.small_fails", "OpenMS.FdtdObjects.hole_fails", "OpenMS.FdtdObjects.thin_fails", "OpenMS.FdtdObjects.rotation_isometry", "OpenMS.FdtdObjects.rotation_axis", "OpenMS.FdtdObjects.ellipsoid_sphere", "OpenMS.FdtdObjects.sphere_partial", "OpenMS.FdtdObjects.sphere_fails", "OpenMS.FdtdObjects.ellipsoid_units", "OpenMS.FdtdObjects.cone_partial", "OpenMS.FdtdObjects.cone_fails", "OpenMS.FdtdObjects.contour_partial", "OpenMS.FdtdObjects.contour_fails", "OpenMS.FdtdObjects.random_disjoint"], "note": "average_partial: the mean of the material when each object is resolved by the corners (none inside means no point inside, all inside means all points inside). epsilon_places_partial: the same for the three permittivities of a node, over the cells half a cell beside it. extents: membership in blocks, rods and ellipses, on all grids. average_bounds: always between the bounds of the permittivities. convex_full and shapes_convex: the second condition holds for the eleven convex shapes on every grid. small_fails, hole_fails, thin_fails: spheres and holes of every size in the stated range at the centre of a cell, and every block whose two ends have the same index. rotation_isometry, rotation_axis, ellipsoid_sphere: the Euler rotation. sphere_partial: grids of cubes; sphere_fails: every grid that is finer along z; ellipsoid_units: all grids. cone_partial: integer radius at integer heights; cone_fails: every other positive radius. contour_partial: the points of a contour; contour_fails: every point of the area above the level or at the upper edges. random_disjoint: for every stream of random numbers, if the code places n spheres. Missing: the file with the matrix, random rods (the same loop in two dimensions), rounding of numbers; the cases in which the claim is false."},
{"property": "C163", "status": "partial", "theorems": ["OpenMS.Incoherent.entries_partial", "OpenMS.Incoherent.growth_fails", "OpenMS.Incoherent.renewal_partial", "OpenMS.Incoherent.renewal_fails", "OpenMS.Incoherent.gauss_phasor", "OpenMS.Incoherent.lorentz_partial", "OpenMS.Incoherent.lorentz_fails", "OpenMS.Incoherent.current_norm", "OpenMS.Incoherent.draws", "OpenMS.Incoherent.half_sphere", "OpenMS.Incoherent.deposit_spec", "OpenMS.Incoherent.position_nearest"], "note": "entries_partial: any number n > 0 of dipoles, the same at each time, times from t0 >= 0 on, all draws. growth_fails: n + 1 calls at any later time. renewal_partial: all waiting times at least one; renewal_fails: any renewal with a shorter waiting time. gauss_phasor: all times; lorentz_partial: positive decay; lorentz_fails: without decay the phasor is right exactly when a cosine or sine is zero. draws: all draws from the unit interval. current_norm, half_sphere: the poles are left out, as gsl_rng_uniform never returns one. deposit_spec, position_nearest: the edges and the node. Missing: int instead of long in random_on, grids with further regions along z (the index uses lattice_z), rounding of numbers, the distribution of the random numbers; the cases in which the claim is false."},
{"property": "C164", "status": "partial", "theorems": ["OpenMS.FdtdSource.source_spec", "OpenMS.FdtdSource.source_imag_partial", "OpenMS.FdtdSource.source_real", "OpenMS.FdtdSource.sign_fails", "OpenMS.FdtdSource.planewave_e", "OpenMS.FdtdSource.planewave_edge", "OpenMS.FdtdSource.planewave_h_partial", "OpenMS.FdtdSource.planewave_h_fails", "OpenMS.FdtdSource.external_partial", "OpenMS.FdtdSource.external_fails", "OpenMS.FdtdSource.line_fails", "OpenMS.FdtdSource.paraxial_wave", "OpenMS.FdtdSource.beam_spec", "OpenMS.FdtdSource.beam_up_fails", "OpenMS.FdtdSource.waist_fails", "OpenMS.FdtdSource.gaussian_phase", "OpenMS.FdtdSource.lorentzian_phase"], "note": "source_spec: real fields, all six functions, all components and signs, single dipoles everywhere and beams and lines at nodes with positive indices. source_imag_partial: imaginary fields except Hy (without minus) of the Gaussian beam and line; sign_fails: there Hy and -Hy leave a field unless it is zero or sqrt(eo/uo) is 0 or 1. planewave_e, planewave_h_partial: Ex and Hy at all columns but the last, which gets half (planewave_edge); planewave_h_fails: the imaginary Gaussian Hy is right exactly when its amplitude is zero or sqrt(eo/uo) is 0 or 1. external_partial: Ex; external_fails: no component but Ex changes, for every Hcomp. line_fails: the Lorentzian line has the ratio of the other sources only if sqrt(eo/uo) is one. paraxial_wave, beam_spec: the beam solves the paraxial wave equation and the code has its amplitude and phase for the direction -z; beam_up_fails: for +z they agree exactly where the sine of the phase is zero; waist_fails: no phase in the plane of the waist. lorentzian_phase: the integral of the cosine part is zero and that of the sine part the largest possible. Missing: plane waves of other components, other tests in external_planewave, rounding of numbers; the cases in which the claim is false."},
{"property": "C165", "status": "partial", "theorems": ["OpenMS.PolarMap.disk", "OpenMS.PolarMap.azimuth", "OpenMS.PolarMap.polar", "OpenMS.PolarMap.within_partial", "OpenMS.PolarMap.direction_partial", "OpenMS.PolarMap.center_partial", "OpenMS.PolarMap.center_fails", "OpenMS.PolarMap.outside_fails", "OpenMS.PolarMap.round_trip", "OpenMS.PolarMap.first_line", "OpenMS.PolarMap.sum_spec"], "note": "disk, azimuth, polar: all points with whole indices, sizes from 2 on. within_partial: odd number of rows, all data; outside_fails: any even number of rows, all maps with at least 200 r + 200 rows. direction_partial: data linear in each index, polar angle at least 0.02; center_partial: below 158 rows only the middle has a smaller angle; center_fails: from 158 rows on the neighbour of the middle has the value of the middle for all data with a slope along x. round_trip, first_line, sum_spec: all maps, any number of files. Missing: counting the lines of a file, names of files (buffers of 20 characters), printing with six digits, tnum below 2, pi with seven digits; the cases in which the claim is false."},
{"property": "C166", "status": "partial", "theorems": ["OpenMS.FdtdMetal.metal_spec", "OpenMS.FdtdMetal.eraser", "OpenMS.FdtdMetal.metal_partial", "OpenMS.FdtdMetal.hundred_fails", "OpenMS.FdtdMetal.layer_fails", "OpenMS.FdtdMetal.units", "OpenMS.FdtdMetal.molecule_partial", "OpenMS.FdtdMetal.molecule_once", "OpenMS.FdtdMetal.molecule_fails", "OpenMS.FdtdMetal.rod_partial", "OpenMS.FdtdMetal.rod_fails", "OpenMS.FdtdMetal.stagger_fails", "OpenMS.FdtdMetal.count_partial", "OpenMS.FdtdMetal.count_empty", "OpenMS.FdtdMetal.count_fails", "OpenMS.FdtdMetal.places_spec", "OpenMS.FdtdMetal.places_fails"], "note": "metal_spec: all lists of objects for which in_mobject returns a value at the node. eraser: outside of the layers. metal_partial: epsilon_b other than 0, 100, 1000; hundred_fails: outside of the layers the current never changes. layer_fails: any molecule at a node in the layers. units: all frequencies but zero, real and imaginary part of the permittivity. molecule_partial: center on a node; molecule_once: any center; molecule_fails: at least 1/1000 of a cell off all planes of nodes along x. rod_partial: points on the axis, same resolution along all axes; rod_fails: rods along x, other resolutions along z. stagger_fails: objects symmetric about a plane of nodes and bounded on one side. count_partial, places_spec: tabulators between the numbers; count_fails, places_fails: a tabulator after each number. Missing: shapes beyond C162, entries of objects that are not assigned (zero here), rounding of numbers; the cases in which the claim is false."},
{"property": "C167", "status": "partial", "theorems": ["OpenMS.TiledTensor.tiles_listed", "OpenMS.TiledTensor.listed_order", "OpenMS.TiledTensor.empty_fails", "OpenMS.TiledTensor.partition", "OpenMS.TiledTensor.construct_partial", "OpenMS.TiledTensor.dense_partial", "OpenMS.TiledTensor.initializer_fails", "OpenMS.TiledTensor.transpose_spec", "OpenMS.TiledTensor.add_spec", "OpenMS.TiledTensor.strides_spec"], "note": "tiles_listed, listed_order: every number of passes from the number of tiles on. partition: all places and all indices. construct_partial, dense_partial: with an initializer; initializer_fails: without one the constructor succeeds exactly if the filter skips all tiles. transpose_spec: shuffle of the library as documented. strides_spec: any size of an entry. Missing: int and its bounds, tile sizes of zero (division by zero), contract (returns nothing); the cases in which the claim is false."},
{"property": "C168", "status": "partial", "theorems": ["OpenMS.CholOrth.final_exists", "OpenMS.CholOrth.factor_spec", "OpenMS.CholOrth.orthonormal", "OpenMS.CholOrth.kept_le_rank", "OpenMS.CholOrth.span_spec", "OpenMS.CholOrth.raises_iff", "OpenMS.CholOrth.full_partial", "OpenMS.CholOrth.full_fails", "OpenMS.CholOrth.lindep_partial", "OpenMS.CholOrth.coupling_fails", "OpenMS.CholOrth.boson_fails", "OpenMS.CholOrth.debug_fails"], "note": "All symmetric matrices, thresholds from zero on. full_partial: as many vectors as functions; full_fails: diagonal one, threshold below one, fewer vectors. lindep_partial: with a Boson of at least one mode and without messages, 1/lindep at most 1/eps. boson_fails, debug_fails: condition number of the overlap from 1/lindep on. Missing: rounding of numbers; dpstrf is the algorithm of its documentation (unblocked, for the columns that are not referenced); the cases in which the claim is false."},
{"property": "C169", "status": "partial", "theorems": ["OpenMS.QedLib.gaussian_partial", "OpenMS.QedLib.sentinel_fails", "OpenMS.QedLib.shift_fails", "OpenMS.QedLib.table_spec", "OpenMS.QedLib.update_fails", "OpenMS.QedLib.fock_partial", "OpenMS.QedLib.label_fails"], "note": "gaussian_partial: last two displacements other than minus one. sentinel_fails: third displacement minus one, for all others but one line. fock_partial: any filled vectors, symmetric density, integrals with the symmetries of real orbitals. Missing: rounding; int overflow of the index; the loops that only change h_pq, which is not used afterwards; the cases in which the claim is false."},
{"property": "C170", "status": "partial", "theorems": ["OpenMS.BosonBuild.ham_eq", "OpenMS.BosonBuild.shift_iff", "OpenMS.BosonBuild.shift_partial", "OpenMS.BosonBuild.shift_fails", "OpenMS.BosonBuild.bafqmc_spec", "OpenMS.BosonBuild.onebody_fails"], "note": "Fock space: polynomials with multiplication and derivative as creation and annihilation. ham_eq: any complex vectors. shift_iff: real symmetric vectors. shift_partial: vectors of rank one. shift_fails: one diagonal vector with positive entries, at least two modes. bafqmc_spec: the formula, as if the missing imports and the base class were there. Missing: rounding, the sampling of the two-body part (not implemented in the code), the cases in which the claim is false."},
{"property": "C171", "status": "partial", "theorems": ["OpenMS.PyTiles.partition_spec", "OpenMS.PyTiles.fromSizes_spec", "OpenMS.PyTiles.uniform_spec", "OpenMS.PyTiles.roundtrip", "OpenMS.PyTiles.tiled_roundtrip", "OpenMS.PyTiles.rightDense_spec", "OpenMS.PyTiles.leftDense_spec", "OpenMS.PyTiles.rightTiled_partial", "OpenMS.PyTiles.rightTiled_fails", "OpenMS.PyTiles.leftTiled_spec", "OpenMS.PyTiles.add_partial", "OpenMS.PyTiles.add_fails", "OpenMS.PyTiles.prune_spec", "OpenMS.PyTiles.add_refused", "OpenMS.PyTiles.prune_blocks"], "note": "Ok and OkT: valid partitions, equal totals, every key once and in range; roundtrip and tiled_roundtrip show them for arrays, prune_spec keeps them. rightTiled_partial: B tiled like the columns of L. rightTiled_fails: witness with sizes 1, 1, 2 and 2, 1, 1. add_fails: any tensor. Missing: out=tiled, matmul_all, types of numbers, arrays of the wrong shape, memory_stats."},
{"property": "C172", "status": "partial", "theorems": ["OpenMS.QedAfqmc.local_spec", "OpenMS.QedAfqmc.run_bound", "OpenMS.QedAfqmc.phase_eq", "OpenMS.QedAfqmc.hybrid_eq", "OpenMS.QedAfqmc.hybrid_zero", "OpenMS.QedAfqmc.hybrid_partial", "OpenMS.QedAfqmc.hybrid_fails", "OpenMS.QedAfqmc.propagation_spec", "OpenMS.QedAfqmc.nI_spec", "OpenMS.QedAfqmc.cmf_spec", "OpenMS.QedAfqmc.photon_partial", "OpenMS.QedAfqmc.photon_fails", "OpenMS.QedAfqmc.run_snoc", "OpenMS.QedAfqmc.field_spec"], "note": "Overlap ratio not zero where its logarithm or phase is used. hybrid_partial: the cosine of the imaginary part of cfb is that of the overlap ratio. photon_partial: one mode; photon_fails: two or more modes. The model reads as if the missing names were there. Missing: rounding, the one-body exponential (an argument), the mean-field shift left out of the one-body part (a FIXME of the code), several walkers, and the cases in which the claim is false."},
{"property": "C173", "status": "partial", "theorems": ["OpenMS.Fdtd.gamma_bloch", "OpenMS.Fdtd.gamma_tri_partial", "OpenMS.Fdtd.gamma_odd_fails"], "note": "gamma_bloch: all materials and sizes, any imaginary arrays. gamma_tri_partial: even isize, no absorbing layer along x and y, no molecules. gamma_odd_fails: odd isize of three or more, any fields and steps. Missing: parities, molecules, rounding, and odd sizes, for which the claim is false."},
{"property": "C174", "status": "partial", "theorems": ["OpenMS.QedFci.ebNew_spec", "OpenMS.QedFci.ebNew_uniform", "OpenMS.QedFci.ebNew_fails", "OpenMS.QedFci.ebNew_one_fails", "OpenMS.QedFci.ebNew_matrix", "OpenMS.QedFci.bbFull_eq", "OpenMS.QedFci.bbFull_partial", "OpenMS.QedFci.bbFull_fails", "OpenMS.QedFci.bbFull_modes_fails", "OpenMS.QedFci.rdm1p_partial", "OpenMS.QedFci.rdm1p_fails"], "note": "ebNew_spec: equality with contract_eb (C84) for numbers per mode. ebNew_uniform: at least as many modes as orbitals. ebNew_fails: matrices, numbers of strings other than the number of orbitals. ebNew_one_fails: one electron of each spin. bbFull_partial: one mode and the missing names present; bbFull_fails: all arguments, names missing; bbFull_modes_fails: two or more modes with the names present. rdm1p_partial: the module has nsite equal to norb, no more modes than orbitals; rdm1p_fails: otherwise. Missing: an nsite of another value, the argument out of contract_bb_full, rounding."},
{"property": "C175", "status": "partial", "theorems": ["OpenMS.ForceBias.force_bias_partial", "OpenMS.ForceBias.force_bias_gauge", "OpenMS.ForceBias.force_bias_fails", "OpenMS.ForceBias.force_bias_transposed_fails", "OpenMS.ForceBias.stored_bias_fails", "OpenMS.ForceBias.forceBias_singular", "OpenMS.ForceBias.force_bias_boson_fails", "OpenMS.ForceBias.muQc_spec", "OpenMS.ForceBias.qed_energy_partial", "OpenMS.ForceBias.qed_energy_fails", "OpenMS.ForceBias.qed_photons_same", "OpenMS.ForceBias.qed_photons_fails"], "note": "force_bias_partial, force_bias_gauge: given the documented overlap matrix, invertible for the first, no bosons. force_bias_fails: all walkers. force_bias_transposed_fails: a walker for which the matrix of trial_walker_ovlp_base gives another Green function. stored_bias_fails: equivalence with vanishing Coulomb energy. qed_energy_partial: two spin components, attribute present. qed_photons_fails: one mode, product of a number state and any electrons. Missing: the energy with one component in QEDAFQMC, the dipole self energy of its constructor, rounding."},
{"property": "C176", "status": "partial", "theorems": ["OpenMS.AfqmcIntegrals.dse_spec", "OpenMS.AfqmcIntegrals.integrals_partial", "OpenMS.AfqmcIntegrals.one_body_fails", "OpenMS.AfqmcIntegrals.names_fails", "OpenMS.AfqmcIntegrals.construct_even", "OpenMS.AfqmcIntegrals.complete_basis", "OpenMS.AfqmcIntegrals.origin_shift", "OpenMS.AfqmcIntegrals.construct_partial", "OpenMS.AfqmcIntegrals.shift_fails"], "note": "dse_spec: the operator identity, with eri_DSE as two-body part. integrals_partial, one_body_fails: missing names given, orthonormal basis, quadrupole integrals of a complete basis (complete_basis: met by positions multiplied as matrices); one_body_fails: states with the density matrix of occupied orbitals, symmetric dipoles. shift_fails: states with the density matrix of the trial. Missing: overlap of the basis functions, exp_h1e and the decomposition of eri, rounding."},
{"property": "C177", "status": "partial", "theorems": ["OpenMS.MsdOverlap.excited_partial", "OpenMS.MsdOverlap.names_fails", "OpenMS.MsdOverlap.range_refused", "OpenMS.MsdOverlap.axes_fails", "OpenMS.MsdOverlap.ones_fails"], "note": "excited_partial: missing names given, Green function with the occupied orbital first, indices in range, no orbital left twice; the excited determinant keeps the order of the reference, so the sign of permutation_sign is not included. axes_fails: even with the names. ones_fails: a walker for every reference and every single excitation. One walker. Missing: several walkers in one array, rounding."},
{"property": "C178", "status": "partial", "theorems": ["OpenMS.LineShapes.gauss_spec", "OpenMS.LineShapes.lorentz_partial", "OpenMS.LineShapes.lorentz_area_fails", "OpenMS.LineShapes.width_fails"], "note": "gauss_spec, lorentz_partial, lorentz_area_fails: positive width. width_fails: all other widths. Missing: arrays of positions, rounding."},
{"property": "C179", "status": "partial", "theorems": ["OpenMS.DiscreteField.mean_spec", "OpenMS.DiscreteField.overlap_spec", "OpenMS.DiscreteField.importance_partial", "OpenMS.DiscreteField.weight_spec", "OpenMS.DiscreteField.sites_spec", "OpenMS.DiscreteField.names_fails"], "note": "mean_spec, weight_spec: any probabilities. overlap_spec: nonzero overlap. importance_partial: nonzero overlaps, probabilities that are positive numbers. sites_spec: missing names given. Missing: the probabilities (calculate_overlap_ratio is a comment), charge_factor, update of the inverse overlap, several walkers in one array, rounding."},
{"property": "C180", "status": "partial", "theorems": ["OpenMS.DressedJK.numba_j_partial", "OpenMS.DressedJK.numba_k_partial", "OpenMS.DressedJK.numba_k_fails", "OpenMS.DressedJK.names_fails", "OpenMS.DressedJK.chols_partial", "OpenMS.DressedJK.last_mode", "OpenMS.DressedJK.modes_fails"], "note": "numba_j_partial: even factor, symmetric tensor and density matrix, missing names given. numba_k_partial: equal displacements. chols_partial: one mode, missing name given. modes_fails: first factor not one, second not zero. Missing: the transformation of the density matrix, the factor itself (C-claims on the FC factor), with_j and with_k, rounding."},
{"property": "C181", "status": "partial", "theorems": ["OpenMS.AufbauOcc.aufbau", "OpenMS.AufbauOcc.count_partial", "OpenMS.AufbauOcc.count_fails", "OpenMS.AufbauOcc.minimal", "OpenMS.AufbauOcc.warns_partial", "OpenMS.AufbauOcc.warns_fails"], "note": "aufbau, minimal: the permutation sorts the energies. count_partial: even number of electrons. warns_partial: at least two electrons, not all orbitals occupied. Missing: odd numbers of electrons, NaN energies, text of the messages, rounding."},
{"property": "C182", "status": "partial", "theorems": ["OpenMS.LowRankPlan.error_eq", "OpenMS.LowRankPlan.error_le", "OpenMS.LowRankPlan.scale_fails"], "note": "error_eq, error_le: decreasing singular values (error_le: nonnegative), unitary factors. scale_fails: positive tolerance. Missing: the relative tolerance, rectangular matrices (refused by the code), the library function, rounding."}
]}
