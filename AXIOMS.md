# Axioms of the property theorems

Output of `#print axioms` (`lean/Verif/Axioms.lean`).

| theorem | axioms |
|---|---|
| `OpenMS.PopulationControl.branching_count` | propext, Classical.choice, Quot.sound |
| `OpenMS.PopulationControl.branching_rejects` | propext, Quot.sound |
| `OpenMS.PopulationControl.branching_total_weight` | propext, Classical.choice, Quot.sound |
| `OpenMS.PopulationControl.branching_unbiased` | propext, Classical.choice, Quot.sound |
| `OpenMS.PopulationControl.branching_natural` | propext, Classical.choice, Quot.sound |
| `OpenMS.PopulationControl.branching_signed_total_partial` | propext, Classical.choice, Quot.sound |
| `OpenMS.PopulationControl.branching_signed_total_fails` | propext, Classical.choice, Quot.sound |
| `OpenMS.PopulationControl.branching_constant_count_partial` | propext, Quot.sound |
| `OpenMS.PopulationControl.branching_constant_weight_fails` | propext, Classical.choice, Quot.sound |
| `OpenMS.PopulationControl.branching_dynamics_count_partial` | propext, Classical.choice, Quot.sound |
| `OpenMS.PopulationControl.branching_dynamics_weight_fails` | propext, Classical.choice, Quot.sound |
| `OpenMS.PopulationControl.reconfiguration_size` | propext, Classical.choice, Quot.sound |
| `OpenMS.PopulationControl.reconfiguration_rejects` | propext, Classical.choice, Quot.sound |
| `OpenMS.PopulationControl.reconfiguration_copies` | propext, Classical.choice, Quot.sound |
| `OpenMS.PopulationControl.comb_size` | propext, Classical.choice, Quot.sound |
| `OpenMS.PopulationControl.comb_copies_partial` | propext, Classical.choice, Quot.sound |
| `OpenMS.PopulationControl.comb_copies_fails` | propext, Classical.choice, Quot.sound |
| `OpenMS.PopulationControl.reconfiguration_unbiased` | propext, Classical.choice, Quot.sound |
| `OpenMS.PopulationControl.comb_unbiased` | propext, Classical.choice, Quot.sound |
| `OpenMS.PopulationControl.population_control_unknown` | propext, Classical.choice, Quot.sound |
| `OpenMS.PopulationControl.population_control_known` | propext, Classical.choice, Quot.sound |
| `OpenMS.PopulationControl.threshold_split` | propext, Classical.choice, Quot.sound |
| `OpenMS.PopulationControl.threshold_unbiased` | propext, Classical.choice, Quot.sound |
| `OpenMS.PopulationControl.threshold_keep` | propext, Quot.sound |
| `OpenMS.Walkers.walker_distribution` | propext, Quot.sound |
| `OpenMS.Walkers.walker_blocks` | propext, Classical.choice, Quot.sound |
| `OpenMS.Walkers.rebalance_plan_partial` | propext, Classical.choice, Quot.sound |
| `OpenMS.Walkers.rebalance_fails` | propext |
| `OpenMS.Walkers.rebalance_keeps_counts` | propext |
| `OpenMS.Walkers.weight_control_clip` | propext, Classical.choice, Quot.sound |
| `OpenMS.Walkers.weight_control_first` | propext, Classical.choice, Quot.sound |
| `OpenMS.Walkers.weight_control_normalise` | propext, Classical.choice, Quot.sound |
| `OpenMS.Run.weights_nonneg` | propext, Classical.choice, Quot.sound |
| `OpenMS.Walkers.pack_unpack_partial` | propext, Classical.choice, Quot.sound |
| `OpenMS.Walkers.unpack_stale_fails` | propext, Classical.choice, Quot.sound |
| `OpenMS.Walkers.unpack_keeps_energies` | none |
| `OpenMS.Measure.measurements` | propext, Classical.choice, Quot.sound |
| `OpenMS.Measure.buffers_cleared` | propext, Quot.sound |
| `OpenMS.Propagators.fbias_bound_partial` | propext, Classical.choice, Quot.sound |
| `OpenMS.Propagators.fbias_bound_fails` | propext, Classical.choice, Quot.sound |
| `OpenMS.Propagators.updateHybrid_eq` | propext, Classical.choice, Quot.sound |
| `OpenMS.Propagators.update_hybrid_partial` | propext, Classical.choice, Quot.sound |
| `OpenMS.Propagators.hybrid_phase_projection_fails` | propext, Classical.choice, Quot.sound |
| `OpenMS.Propagators.hybrid_ignores_overlap_phase` | propext, Classical.choice, Quot.sound |
| `OpenMS.Propagators.update_local` | propext, Classical.choice, Quot.sound |
| `OpenMS.Propagators.update_scheme` | propext, Classical.choice, Quot.sound |
| `OpenMS.Propagators.taylor_sum` | propext, Classical.choice, Quot.sound |
| `OpenMS.Propagators.taylor_linear` | propext, Classical.choice, Quot.sound |
| `OpenMS.Propagators.taylor_walkers` | propext, Classical.choice, Quot.sound |
| `OpenMS.Propagators.taylor_tendsto` | propext, Classical.choice, Quot.sound |
| `OpenMS.Propagators.cfb_ratio` | propext, Classical.choice, Quot.sound |
| `OpenMS.Propagators.shift_invariant` | propext, Classical.choice, Quot.sound |
| `OpenMS.Green.gf_singular` | propext, Classical.choice, Quot.sound |
| `OpenMS.Green.gf_projector` | propext, Classical.choice, Quot.sound |
| `OpenMS.Green.gf_gauge` | propext, Classical.choice, Quot.sound |
| `OpenMS.Green.gf_implementations` | propext, Classical.choice, Quot.sound |
| `OpenMS.Bilinear.bilinear_exact` | propext, Classical.choice, Quot.sound |
| `OpenMS.Bilinear.coupling_commute` | propext, Classical.choice, Quot.sound |
| `OpenMS.Bilinear.bilinear_scheme3_fails` | propext, Classical.choice, Quot.sound |
| `OpenMS.Bilinear.bilinear_rejects` | propext, Classical.choice, Quot.sound |
| `OpenMS.Energy.coulomb_exact` | propext, Classical.choice, Quot.sound |
| `OpenMS.Energy.exchange_exact` | propext, Classical.choice, Quot.sound |
| `OpenMS.Energy.local_energy_exact` | propext, Classical.choice, Quot.sound |
| `OpenMS.Energy.chol_new_exact` | propext, Classical.choice, Quot.sound |
| `OpenMS.Energy.coulomb_numba_fails` | propext, Classical.choice, Quot.sound |
| `OpenMS.Energy.chol_new_complex_fails` | propext, Classical.choice, Quot.sound |
| `OpenMS.Energy.eboson_code` | propext, Classical.choice, Quot.sound |
| `OpenMS.Energy.eboson_partial` | propext, Classical.choice, Quot.sound |
| `OpenMS.Energy.eboson_two_modes_fails` | propext, Classical.choice, Quot.sound |
| `OpenMS.Energy.adag_plus_a_exact` | propext, Classical.choice, Quot.sound |
| `OpenMS.Energy.boson_energy` | propext, Classical.choice, Quot.sound |
| `OpenMS.Energy.boson_energy_ragged` | propext, Classical.choice, Quot.sound |
| `OpenMS.Energy.energy_distribution` | propext, Quot.sound |
| `OpenMS.Energy.energy_sums` | propext, Quot.sound |
| `OpenMS.Energy.energy_total` | propext, Quot.sound |
| `OpenMS.Energy.energy_boson_partial` | propext, Quot.sound |
| `OpenMS.Energy.energy_boson_fails` | propext, Classical.choice, Quot.sound |
| `OpenMS.Integrals.fcidump_partial` | propext, Classical.choice, Quot.sound |
| `OpenMS.Integrals.fcidump_exchange_fails` | propext, Classical.choice, Quot.sound |
| `OpenMS.Integrals.fcidump_read_back` | propext, Classical.choice, Quot.sound |
| `OpenMS.Integrals.fcidump_stored` | propext, Classical.choice, Quot.sound |
| `OpenMS.Integrals.fcidump_no_nuc` | propext, Quot.sound |
| `OpenMS.Integrals.chols_blocked_spec` | propext, Classical.choice, Quot.sound |
| `OpenMS.Integrals.chols_blocked_default` | propext, Classical.choice, Quot.sound |
| `OpenMS.Stats.mean_std_window` | propext, Classical.choice, Quot.sound |
| `OpenMS.Stats.auto_window_valid` | propext, Classical.choice, Quot.sound |
| `OpenMS.Stats.auto_window_partial` | propext, Classical.choice, Quot.sound |
| `OpenMS.Stats.auto_window_fails` | propext, Classical.choice, Quot.sound |
| `OpenMS.Stats.zscore_nonempty_partial` | propext, Classical.choice, Quot.sound |
| `OpenMS.Stats.zscore_constant_fails` | propext, Classical.choice, Quot.sound |
| `OpenMS.Stats.percentile_isQuantile` | propext, Classical.choice, Quot.sound |
| `OpenMS.Stats.iqr_nonempty` | propext, Classical.choice, Quot.sound |
| `OpenMS.Stats.iqr_constant` | propext, Classical.choice, Quot.sound |
| `OpenMS.Options.options_partial` | propext, Classical.choice, Quot.sound |
| `OpenMS.Options.options_fails` | propext, Classical.choice, Quot.sound |
| `OpenMS.Boson.packed_index_bijection` | propext, Classical.choice, Quot.sound |
| `OpenMS.Boson.pack_entries` | propext, Classical.choice, Quot.sound |
| `OpenMS.Boson.unpack_pack` | propext, Classical.choice, Quot.sound |
| `OpenMS.Boson.pack_unpack` | propext, Classical.choice, Quot.sound |
| `OpenMS.Boson.packed_dot` | propext, Classical.choice, Quot.sound |
| `OpenMS.Boson.unpack_doubled` | propext, Classical.choice, Quot.sound |
| `OpenMS.Boson.packed_eq_direct` | propext, Classical.choice, Quot.sound |
| `OpenMS.Boson.displacement_derivative` | propext, Classical.choice, Quot.sound |
| `OpenMS.Boson.displacement_deriv_partial` | propext, Classical.choice, Quot.sound |
| `OpenMS.Boson.displacement_deriv_fails` | propext, Classical.choice, Quot.sound |
| `OpenMS.Photon.energy_nonneg` | propext, Classical.choice, Quot.sound |
| `OpenMS.Photon.energy_gradient` | propext, Classical.choice, Quot.sound |
| `OpenMS.Photon.squeezed_energy_partial` | propext, Classical.choice, Quot.sound |
| `OpenMS.Photon.squeezed_energy_fails` | propext, Classical.choice, Quot.sound |
| `OpenMS.Photon.energy_identity` | propext, Classical.choice, Quot.sound |
| `OpenMS.Photon.photon_energy_modes` | propext, Classical.choice, Quot.sound |
| `OpenMS.Photon.dressed_energy` | propext, Classical.choice, Quot.sound |
| `OpenMS.Photon.oei_gradient_partial` | propext, Classical.choice, Quot.sound |
| `OpenMS.Photon.vjk_gradient_partial` | propext, Classical.choice, Quot.sound |
| `OpenMS.Photon.oei_gradient_one_mode` | propext, Classical.choice, Quot.sound |
| `OpenMS.Photon.oei_gradient_fails` | propext, Classical.choice, Quot.sound |
| `OpenMS.Photon.dse_origin_invariant` | propext, Classical.choice, Quot.sound |
| `OpenMS.Photon.cavity_energy_eq` | propext, Classical.choice, Quot.sound |
| `OpenMS.Photon.cs_photon_vacuum` | propext, Classical.choice, Quot.sound |
| `OpenMS.Photon.mode_vectors_partial` | propext, Classical.choice, Quot.sound |
| `OpenMS.Photon.mode_vectors_stored` | propext, Classical.choice, Quot.sound |
| `OpenMS.Photon.mode_vectors_fails` | propext, Classical.choice, Quot.sound |
| `OpenMS.Photon.ham_structure` | propext, Classical.choice, Quot.sound |
| `OpenMS.ScQed.fc_contraction` | propext, Classical.choice, Quot.sound |
| `OpenMS.ScQed.fc_contraction_two` | propext, Classical.choice, Quot.sound |
| `OpenMS.ScQed.factor_vacuum` | propext, Classical.choice, Quot.sound |
| `OpenMS.ScQed.energy_closed` | propext, Classical.choice, Quot.sound |
| `OpenMS.ScQed.eta_derivative` | propext, Classical.choice, Quot.sound |
| `OpenMS.ScQed.eta_gradient_partial` | propext, Classical.choice, Quot.sound |
| `OpenMS.ScQed.eta_gradient_fails` | propext, Classical.choice, Quot.sound |
| `OpenMS.ScQed.factor_deriv_squeezing` | propext, Classical.choice, Quot.sound |
| `OpenMS.ScQed.factor_deriv_fraction` | propext, Classical.choice, Quot.sound |
| `OpenMS.ScQed.squeezing_gradient` | propext, Classical.choice, Quot.sound |
| `OpenMS.ScQed.fraction_gradient` | propext, Classical.choice, Quot.sound |
| `OpenMS.ScQed.fraction_gradient_fails` | propext, Classical.choice, Quot.sound |
| `OpenMS.ScQed.rao_orthonormal` | propext, Classical.choice, Quot.sound |
| `OpenMS.ScQed.initial_orthonormal_partial` | propext, Classical.choice, Quot.sound |
| `OpenMS.ScQed.initial_orthonormal_fails` | propext, Classical.choice, Quot.sound |
| `OpenMS.Scf.incremental_bare` | propext, Classical.choice, Quot.sound |
| `OpenMS.Scf.incremental_partial` | propext, Classical.choice, Quot.sound |
| `OpenMS.Scf.incremental_fails` | propext, Classical.choice, Quot.sound |
| `OpenMS.Scf.converged_partial` | propext, Classical.choice, Quot.sound |
| `OpenMS.Scf.converged_fails` | propext, Classical.choice, Quot.sound |
| `OpenMS.ScQed.params_roundtrip_partial` | propext, Classical.choice, Quot.sound |
| `OpenMS.ScQed.params_roundtrip_fails` | propext, Classical.choice, Quot.sound |
| `OpenMS.ScQed.org_density_partial` | propext, Classical.choice, Quot.sound |
| `OpenMS.ScQed.org_density_undisplaced` | propext, Classical.choice, Quot.sound |
| `OpenMS.ScQed.org_density_sc_fails` | propext, Classical.choice, Quot.sound |
| `OpenMS.ScQed.populations_value` | propext, Classical.choice, Quot.sound |
| `OpenMS.ScQed.populations_poisson_partial` | propext, Classical.choice, Quot.sound |
| `OpenMS.ScQed.populations_poisson_fails` | propext, Classical.choice, Quot.sound |
| `OpenMS.QedFci.c47_matrix_elements` | propext, Classical.choice, Quot.sound |
| `OpenMS.QedFci.c47_adjoint` | propext, Classical.choice, Quot.sound |
| `OpenMS.QedFci.c47_number` | propext, Classical.choice, Quot.sound |
| `OpenMS.QedFci.c47_commutator` | propext, Classical.choice, Quot.sound |
| `OpenMS.QedFci.c47_different_modes` | propext, Classical.choice, Quot.sound |
| `OpenMS.QedFci.c48_one_dimensional` | propext, Classical.choice, Quot.sound |
| `OpenMS.QedFci.c48_displaced` | propext, Classical.choice, Quot.sound |
| `OpenMS.QedFci.c48_kernel_partial` | propext, Classical.choice, Quot.sound |
| `OpenMS.QedFci.c48_kernel_raises` | propext, Classical.choice, Quot.sound |
| `OpenMS.QedFci.c48_kernel_fails` | propext, Classical.choice, Quot.sound |
| `OpenMS.QedFci.c49_absorb` | propext, Classical.choice, Quot.sound |
| `OpenMS.Ccsd.split_join_partial` | propext, Classical.choice, Quot.sound |
| `OpenMS.Ccsd.join_split` | propext, Classical.choice, Quot.sound |
| `OpenMS.Ccsd.join_split_electronic_partial` | propext, Classical.choice, Quot.sound |
| `OpenMS.Ccsd.join_split_fails` | propext, Classical.choice, Quot.sound |
| `OpenMS.Ccsd.diis_ignores_bosons_fails` | propext, Quot.sound |
| `OpenMS.Ccsd.vector_contents` | propext, Classical.choice, Quot.sound |
| `OpenMS.Ccsd.diis_electronic` | propext, Classical.choice, Quot.sound |
| `OpenMS.Ccsd.ret_module_partial` | propext, Classical.choice, Quot.sound |
| `OpenMS.Ccsd.ret_class_fails` | propext, Classical.choice, Quot.sound |
| `OpenMS.Ccsd.arguments_shifted_fails` | propext, Classical.choice, Quot.sound |
| `OpenMS.Ccsd.dsn_correct` | propext, Classical.choice, Quot.sound |
| `OpenMS.Ccsd.first_order_correct` | propext, Classical.choice, Quot.sound |
| `OpenMS.Ccsd.single_mode_partial` | propext, Classical.choice, Quot.sound |
| `OpenMS.Ccsd.several_modes_fails` | propext, Classical.choice, Quot.sound |
| `OpenMS.Ccsd.several_modes_raises` | propext, Classical.choice, Quot.sound |
| `OpenMS.Qmd.rk4_linear` | propext, Classical.choice, Quot.sound |
| `OpenMS.Qmd.rk4_simpson` | propext, Classical.choice, Quot.sound |
| `OpenMS.Qmd.rk4_cubic` | propext, Classical.choice, Quot.sound |
| `OpenMS.Qmd.offdiagonal_partial` | propext, Classical.choice, Quot.sound |
| `OpenMS.Qmd.pairs_raise_fails` | propext, Classical.choice, Quot.sound |
| `OpenMS.Qmd.energies_lost_fails` | propext, Classical.choice, Quot.sound |
| `OpenMS.Qmd.rescaling_spec` | propext, Classical.choice, Quot.sound |
| `OpenMS.Qmd.one_hop_partial` | propext, Classical.choice, Quot.sound |
| `OpenMS.Qmd.many_hops_fails` | propext, Classical.choice, Quot.sound |
| `OpenMS.Qmd.rescaling_exact` | propext, Classical.choice, Quot.sound |
| `OpenMS.Qmd.candidates_spec` | propext, Classical.choice, Quot.sound |
| `OpenMS.Lattice.hubbard_hopping_partial` | propext, Classical.choice, Quot.sound |
| `OpenMS.Lattice.hubbard_single_site_fails` | propext, Classical.choice, Quot.sound |
| `OpenMS.Lattice.hh_hopping_partial` | propext, Classical.choice, Quot.sound |
| `OpenMS.Lattice.hh_two_sites_fails` | propext, Classical.choice, Quot.sound |
| `OpenMS.Lattice.hubbard_energy` | propext, Classical.choice, Quot.sound |
| `OpenMS.Support.setBackend_cases` | propext, Classical.choice, Quot.sound |
| `OpenMS.Support.all_or_nothing_partial` | propext, Classical.choice, Quot.sound |
| `OpenMS.Support.history_partial` | propext, Classical.choice, Quot.sound |
| `OpenMS.Support.half_switch_fails` | propext, Classical.choice, Quot.sound |
| `OpenMS.Support.tiledArray_fails` | propext, Classical.choice, Quot.sound |
| `OpenMS.Support.request_succeeds` | propext, Classical.choice, Quot.sound |
| `OpenMS.Support.verbosity_partial` | propext, Classical.choice, Quot.sound |
| `OpenMS.Support.kinds_ordered` | propext, Classical.choice, Quot.sound |
| `OpenMS.Support.error_raises_fails` | propext |
| `OpenMS.Support.class_monotone` | propext, Quot.sound |
| `OpenMS.Support.class_error_hidden_fails` | propext |
| `OpenMS.Support.shown_iff` | propext, Classical.choice, Quot.sound |
| `OpenMS.Support.class_own_level` | propext, Quot.sound |
| `OpenMS.TrialBoson.positionDerivatives` | propext, Classical.choice, Quot.sound |
| `OpenMS.TrialBoson.momentumDerivatives` | propext, Classical.choice, Quot.sound |
| `OpenMS.TrialBoson.zero_variance` | propext, Classical.choice, Quot.sound |
| `OpenMS.TrialBoson.localEnergy_is_hamiltonian` | propext, Classical.choice, Quot.sound |
| `OpenMS.TrialBoson.coherent_normalised` | propext, Classical.choice, Quot.sound |
| `OpenMS.TrialBoson.coherent_cutoff` | propext, Classical.choice, Quot.sound |
| `OpenMS.TrialBoson.fockTrial_norm` | propext, Classical.choice, Quot.sound |
| `OpenMS.TrialBoson.coherent_eigenstate` | propext, Classical.choice, Quot.sound |
| `OpenMS.TrialBoson.fockTrial_eigenstate` | propext, Classical.choice, Quot.sound |
| `OpenMS.Support.electron_counts` | propext, Classical.choice, Quot.sound |
| `OpenMS.Support.precond_partial` | propext, Classical.choice, Quot.sound |
| `OpenMS.Support.davidson_fails` | propext, Classical.choice, Quot.sound |
| `OpenMS.Support.config_partial` | propext, Quot.sound |
| `OpenMS.Support.config_others` | propext |
| `OpenMS.Support.config_none_fails` | propext, Quot.sound |
| `OpenMS.Propagators.hs_average` | propext, Classical.choice, Quot.sound |
| `OpenMS.Green.orthogonalisation_partial` | propext, Classical.choice, Quot.sound |
| `OpenMS.Green.orthogonalisation_overlap_fails` | propext, Classical.choice, Quot.sound |
| `OpenMS.Green.orthogonalisation_boson_fails` | propext, Classical.choice, Quot.sound |
| `OpenMS.Step.step_bias` | propext, Classical.choice, Quot.sound |
| `OpenMS.Green.vbias_full` | propext, Classical.choice, Quot.sound |
| `OpenMS.Green.overlap_derivative` | propext, Classical.choice, Quot.sound |
| `OpenMS.Green.vbias_log_derivative` | propext, Classical.choice, Quot.sound |
| `OpenMS.Energy.exx_mixed_partial` | propext, Classical.choice, Quot.sound |
| `OpenMS.Energy.blksize_covers` | propext, Classical.choice, Quot.sound |
| `OpenMS.Energy.blksize_attained` | propext, Classical.choice, Quot.sound |
| `OpenMS.Energy.blksize_zero_raises` | propext, Classical.choice, Quot.sound |
| `OpenMS.Energy.exx_mixed_fails` | propext, Classical.choice, Quot.sound |
| `OpenMS.Energy.stochastic_ri_unbiased` | propext, Classical.choice, Quot.sound |
| `OpenMS.Integrals.find_shell` | propext, Classical.choice, Quot.sound |
| `OpenMS.Integrals.coupling_chunk_partial` | propext |
| `OpenMS.Integrals.coupling_chunk_fails` | propext, Quot.sound |
| `OpenMS.Stats.acf_direct` | propext, Classical.choice, Quot.sound |
| `OpenMS.Stats.acf_normalised` | propext, Classical.choice, Quot.sound |
| `OpenMS.Stats.acf_constant` | propext, Classical.choice, Quot.sound |
| `OpenMS.Stats.autocorr_time_window` | propext, Classical.choice, Quot.sound |
| `OpenMS.Stats.acf_documented_fails` | propext, Classical.choice, Quot.sound |
| `OpenMS.Stats.block_analysis_partial` | propext, Classical.choice, Quot.sound |
| `OpenMS.Stats.block_analysis_fails` | propext, Classical.choice, Quot.sound |
| `OpenMS.Stats.analysis_constant_fails` | propext, Classical.choice, Quot.sound |
| `OpenMS.Options.nwalkers_partial` | propext, Classical.choice, Quot.sound |
| `OpenMS.Options.weight_bounds_ignored_fails` | propext, Classical.choice, Quot.sound |
| `OpenMS.Boson.displacement_operator_partial` | propext, Classical.choice, Quot.sound |
| `OpenMS.Boson.displacement_operator_fails` | propext, Classical.choice, Quot.sound |
| `OpenMS.Photon.populations_partial` | propext, Classical.choice, Quot.sound |
| `OpenMS.Photon.populations_fails` | propext, Classical.choice, Quot.sound |
| `OpenMS.Photon.ph_exp_val_eq` | propext, Classical.choice, Quot.sound |
| `OpenMS.Photon.bilinear_value` | propext, Classical.choice, Quot.sound |
| `OpenMS.Photon.bilinear_partial` | propext, Classical.choice, Quot.sound |
| `OpenMS.Photon.bilinear_fails` | propext, Classical.choice, Quot.sound |
| `OpenMS.ScQed.cholesky_agrees` | propext, Classical.choice, Quot.sound |
| `OpenMS.QedFci.c83_contract_1e` | propext, Classical.choice, Quot.sound |
| `OpenMS.QedFci.c83_contract_2e` | propext, Classical.choice, Quot.sound |
| `OpenMS.QedFci.c84_contract_eb` | propext, Classical.choice, Quot.sound |
| `OpenMS.QedFci.c85_plain_partial` | propext, Classical.choice, Quot.sound |
| `OpenMS.QedFci.c85_missing_term` | propext, Classical.choice, Quot.sound |
| `OpenMS.QedFci.c85_coherent_fails` | propext, Classical.choice, Quot.sound |
| `OpenMS.QedFci.c86_expectation` | propext, Classical.choice, Quot.sound |
| `OpenMS.QedFci.c86_trace` | propext, Classical.choice, Quot.sound |
| `OpenMS.QedFci.c86_symmetric` | propext, Classical.choice, Quot.sound |
| `OpenMS.Qmd.stages_partial` | propext, Classical.choice, Quot.sound |
| `OpenMS.Qmd.first_stage_fails` | propext, Classical.choice, Quot.sound |
| `OpenMS.Qmd.documented_conserves` | propext, Classical.choice, Quot.sound |
| `OpenMS.Qmd.coefDot_partial` | propext, Classical.choice, Quot.sound |
| `OpenMS.Qmd.coefDot_fails` | propext, Classical.choice, Quot.sound |
| `OpenMS.Qmd.bomd_constructs_partial` | propext, Classical.choice, Quot.sound |
| `OpenMS.Qmd.mqc_construct_fails` | none |
| `OpenMS.Qmd.bomd_run_fails` | propext, Classical.choice, Quot.sound |
| `OpenMS.Qmd.verlet_reversible` | propext, Classical.choice, Quot.sound |
| `OpenMS.Qmd.verlet_constant_force` | propext, Classical.choice, Quot.sound |
| `OpenMS.Qmd.verlet_momentum` | propext, Classical.choice, Quot.sound |
| `OpenMS.Lattice.dma_hamiltonian` | propext, Classical.choice, Quot.sound |
| `OpenMS.Lattice.dipole_sum_rule` | propext, Classical.choice, Quot.sound |
| `OpenMS.Lattice.spectrum_nonneg` | propext, Classical.choice, Quot.sound |
| `OpenMS.Lattice.dipole_completeness` | propext, Classical.choice, Quot.sound |
| `OpenMS.Lattice.line_width` | propext, Classical.choice, Quot.sound |
| `OpenMS.Lattice.hh_energy_minimal` | propext, Classical.choice, Quot.sound |
| `OpenMS.Lattice.hh_electrons_partial` | propext, Classical.choice, Quot.sound |
| `OpenMS.Lattice.hh_electrons_fails` | propext, Classical.choice, Quot.sound |
| `OpenMS.PopulationControl.branching_acts` | propext, Classical.choice, Quot.sound |
| `OpenMS.PopulationControl.branching_acts_even` | propext, Classical.choice, Quot.sound |
| `OpenMS.Propagators.force_bias_optimal` | propext, Classical.choice, Quot.sound |
| `OpenMS.Propagators.force_bias_unique` | propext, Classical.choice, Quot.sound |
| `OpenMS.Run.run_conserves` | propext, Classical.choice, Quot.sound |
| `OpenMS.Run.run_total` | propext, Classical.choice, Quot.sound |
| `OpenMS.Run.control_conserves` | propext, Classical.choice, Quot.sound |
| `OpenMS.Run.uniform_population_partial` | propext, Classical.choice, Quot.sound |
| `OpenMS.Run.uniform_population_fails` | propext, Classical.choice, Quot.sound |
| `OpenMS.Run.initState_uniform` | propext, Classical.choice, Quot.sound |
| `OpenMS.Seeding.seed_partial` | propext, Quot.sound |
| `OpenMS.Seeding.debug_matches_serial_partial` | propext, Classical.choice, Quot.sound |
| `OpenMS.Seeding.scatter_covers` | propext, Classical.choice, Quot.sound |
| `OpenMS.Seeding.seed_fails` | none |
| `OpenMS.Seeding.seed_not_reproducible_fails` | propext, Quot.sound |
| `OpenMS.Seeding.ranks_not_independent_fails` | none |
| `OpenMS.Seeding.debug_branching_fails` | propext, Classical.choice, Quot.sound |
| `OpenMS.Measure.second_run_partial` | propext, Classical.choice, Quot.sound |
| `OpenMS.Measure.second_run_energies` | propext, Quot.sound |
| `OpenMS.Measure.second_run_leftovers` | propext, Classical.choice, Quot.sound |
| `OpenMS.Measure.second_run_fails` | propext, Classical.choice, Quot.sound |
| `OpenMS.PropBuild.mean_field_hamiltonian_partial` | propext, Classical.choice, Quot.sound |
| `OpenMS.PropBuild.mean_field_hamiltonian_fails` | propext, Classical.choice, Quot.sound |
| `OpenMS.PropBuild.generator_eq` | propext, Classical.choice, Quot.sound |
| `OpenMS.PropBuild.square_normal_order` | propext, Classical.choice, Quot.sound |
| `OpenMS.PropBuild.joint_hamiltonian` | propext, Classical.choice, Quot.sound |
| `OpenMS.PropBuild.joint_hamiltonian_partial` | propext, Classical.choice, Quot.sound |
| `OpenMS.PropBuild.joint_hamiltonian_iff` | propext, Classical.choice, Quot.sound |
| `OpenMS.PropBuild.missing_coupling` | propext, Classical.choice, Quot.sound |
| `OpenMS.PropBuild.joint_hamiltonian_fails` | propext, Classical.choice, Quot.sound |
| `OpenMS.Joint.joint_average_partial` | propext, Classical.choice, Quot.sound |
| `OpenMS.Joint.joint_average` | propext, Classical.choice, Quot.sound |
| `OpenMS.Joint.joint_average_code` | propext, Classical.choice, Quot.sound |
| `OpenMS.Joint.joint_average_fails` | propext, Classical.choice, Quot.sound |
| `OpenMS.Step.step_gauge` | propext, Classical.choice, Quot.sound |
| `OpenMS.Step.ortho_irrelevant` | propext, Classical.choice, Quot.sound |
| `OpenMS.Step.ortho_last` | propext, Classical.choice, Quot.sound |
| `OpenMS.Step.ghalf_gauge` | propext, Classical.choice, Quot.sound |
| `OpenMS.Step.free_step` | propext, Classical.choice, Quot.sound |
| `OpenMS.Step.zero_variance` | propext, Classical.choice, Quot.sound |
| `OpenMS.Step.free_run` | propext, Classical.choice, Quot.sound |
| `OpenMS.Step.det_free` | propext, Classical.choice, Quot.sound |
| `OpenMS.MultiDet.occupations_partial` | propext, Classical.choice, Quot.sound |
| `OpenMS.MultiDet.beta_count_iff` | propext, Classical.choice, Quot.sound |
| `OpenMS.MultiDet.frozen_balanced_iff` | propext, Classical.choice, Quot.sound |
| `OpenMS.MultiDet.high_spin_fails` | propext, Classical.choice, Quot.sound |
| `OpenMS.MultiDet.overlap_partial` | propext, Classical.choice, Quot.sound |
| `OpenMS.MultiDet.overlap_iff` | propext, Classical.choice, Quot.sound |
| `OpenMS.MultiDet.permutation_sign` | propext, Classical.choice, Quot.sound |
| `OpenMS.BosonInit.initZ_ok_iff` | propext, Classical.choice, Quot.sound |
| `OpenMS.BosonInit.initZ_coherent` | propext, Classical.choice, Quot.sound |
| `OpenMS.BosonInit.initZ_norm` | propext, Classical.choice, Quot.sound |
| `OpenMS.BosonInit.initZ_normalised_partial` | propext, Classical.choice, Quot.sound |
| `OpenMS.BosonInit.initZ_share` | propext, Classical.choice, Quot.sound |
| `OpenMS.BosonInit.initZ_normalised_fails` | propext, Classical.choice, Quot.sound |
| `OpenMS.BosonInit.makeTrial_spec` | propext, Classical.choice, Quot.sound |
| `OpenMS.BosonInit.makeTrial_normalised_fails` | propext, Classical.choice, Quot.sound |
| `OpenMS.FakeMpi.collective_spec` | propext |
| `OpenMS.FakeMpi.wrong_shape` | propext, Classical.choice, Quot.sound |
| `OpenMS.FakeMpi.scatterv_fails` | propext |
| `OpenMS.FakeMpi.gatherv_fails` | propext, Quot.sound |
| `OpenMS.FakeMpi.messages_partial` | propext, Quot.sound |
| `OpenMS.FakeMpi.messages_fails` | propext |
| `OpenMS.Step.splitting` | propext, Classical.choice, Quot.sound |
| `OpenMS.Step.move_second_order` | propext, Classical.choice, Quot.sound |
| `OpenMS.Step.force_bias_irrelevant` | propext, Classical.choice, Quot.sound |
| `OpenMS.Step.step_mean` | propext, Classical.choice, Quot.sound |
| `OpenMS.ManyBody.hamiltonian_mean` | propext, Classical.choice, Quot.sound |
| `OpenMS.ManyBody.step_hamiltonian` | propext, Classical.choice, Quot.sound |
| `OpenMS.Step.step_weight` | propext, Classical.choice, Quot.sound |
| `OpenMS.Step.run_weight` | propext, Classical.choice, Quot.sound |
| `OpenMS.Step.run_overlap` | propext, Classical.choice, Quot.sound |
| `OpenMS.Step.trial_bias` | propext, Classical.choice, Quot.sound |
| `OpenMS.Step.trial_bias_zero` | propext, Classical.choice, Quot.sound |
| `OpenMS.Step.trial_bias_iff` | propext, Classical.choice, Quot.sound |
| `OpenMS.Step.trial_first_step` | propext, Classical.choice, Quot.sound |
| `OpenMS.JointStep.joint_weight` | propext, Classical.choice, Quot.sound |
| `OpenMS.JointStep.joint_mean` | propext, Classical.choice, Quot.sound |
| `OpenMS.JointStep.joint_step` | propext, Classical.choice, Quot.sound |
| `OpenMS.JointStep.joint_step_iff` | propext, Classical.choice, Quot.sound |
| `OpenMS.JointStep.coupling_invisible` | propext, Classical.choice, Quot.sound |
| `OpenMS.JointStep.joint_step_fails` | propext, Classical.choice, Quot.sound |
| `OpenMS.ProductStep.product_weight` | propext, Classical.choice, Quot.sound |
| `OpenMS.ProductStep.product_mean` | propext, Classical.choice, Quot.sound |
| `OpenMS.ProductStep.product_step` | propext, Classical.choice, Quot.sound |
| `OpenMS.ProductStep.product_element_iff` | propext, Classical.choice, Quot.sound |
| `OpenMS.ProductStep.product_iff` | propext, Classical.choice, Quot.sound |
| `OpenMS.ProductStep.qalpha_mean` | propext, Classical.choice, Quot.sound |
| `OpenMS.ProductStep.zlambda_mean` | propext, Classical.choice, Quot.sound |
| `OpenMS.ProductStep.single_step` | propext, Classical.choice, Quot.sound |
| `OpenMS.ProductStep.single_iff` | propext, Classical.choice, Quot.sound |
| `OpenMS.ProductStep.product_fails` | propext, Classical.choice, Quot.sound |
| `OpenMS.ProductStep.fields_perm` | propext, Classical.choice, Quot.sound |
| `OpenMS.ProductStep.fields_weights` | propext, Classical.choice, Quot.sound |
| `OpenMS.ProductStep.fields_gauge` | propext, Classical.choice, Quot.sound |
| `OpenMS.ProductStep.field_real` | propext, Classical.choice, Quot.sound |
| `OpenMS.ProductStep.field_scale` | propext, Classical.choice, Quot.sound |
| `OpenMS.ProductStep.field_scale_iff` | propext, Classical.choice, Quot.sound |
| `OpenMS.ProductStep.field_expectation_iff` | propext, Classical.choice, Quot.sound |
| `OpenMS.ProductStep.qalpha_local_iff` | propext, Classical.choice, Quot.sound |
| `OpenMS.ProductStep.zlambda_local_iff` | propext, Classical.choice, Quot.sound |
| `OpenMS.ProductStep.population_step` | propext, Classical.choice, Quot.sound |
| `OpenMS.ProductStep.split_fails` | propext, Classical.choice, Quot.sound |
| `OpenMS.ProductStep.scale_fails` | propext, Classical.choice, Quot.sound |
| `OpenMS.JointStep.jstep_scale` | propext, Classical.choice, Quot.sound |
| `OpenMS.Qedcc.opt_T1_eq` | propext, Classical.choice, Quot.sound |
| `OpenMS.Qedcc.opt_T2_eq` | propext, Classical.choice, Quot.sound |
| `OpenMS.Qedcc.T2_antisymm_left` | propext, Classical.choice, Quot.sound |
| `OpenMS.Qedcc.T2_antisymm_right` | propext, Classical.choice, Quot.sound |
| `OpenMS.Qedcc.ref_S1_derivative` | propext, Classical.choice, Quot.sound |
| `OpenMS.Qedcc.opt_S1_derivative` | propext, Classical.choice, Quot.sound |
| `OpenMS.Qedcc.ref_S2_derivative` | propext, Classical.choice, Quot.sound |
| `OpenMS.Qedcc.opt_S2_derivative` | propext, Classical.choice, Quot.sound |
| `OpenMS.Qedcc.opt_S_eq_ref` | propext, Classical.choice, Quot.sound |
| `OpenMS.Qedcc.ref_U11_derivative` | propext, Classical.choice, Quot.sound |
| `OpenMS.Qedcc.opt_U11_derivative` | propext, Classical.choice, Quot.sound |
| `OpenMS.Qedcc.opt_U11_eq_ref` | propext, Classical.choice, Quot.sound |
| `OpenMS.Qedcc.ref_U21_derivative` | propext, Classical.choice, Quot.sound |
| `OpenMS.Qedcc.opt_U21_error` | propext, Classical.choice, Quot.sound |
| `OpenMS.Qedcc.opt_U21_derivative_partial` | propext, Classical.choice, Quot.sound |
| `OpenMS.Qedcc.opt_U21_derivative_fails` | propext, Classical.choice, Quot.sound |
| `OpenMS.Qedcc.ref_U12_error` | propext, Classical.choice, Quot.sound |
| `OpenMS.Qedcc.ref_U12_derivative_partial` | propext, Classical.choice, Quot.sound |
| `OpenMS.Qedcc.opt_U12_error` | propext, Classical.choice, Quot.sound |
| `OpenMS.Qedcc.opt_U12_one` | propext, Classical.choice, Quot.sound |
| `OpenMS.Qedcc.ref_U12_derivative_fails` | propext, Classical.choice, Quot.sound |
| `OpenMS.Qedcc.opt_U12_derivative_fails` | propext, Classical.choice, Quot.sound |
| `OpenMS.Qedcc.opt_U12_symmetry_fails` | propext, Classical.choice, Quot.sound |
| `OpenMS.Qedcc.opt_U22_error` | propext, Classical.choice, Quot.sound |
| `OpenMS.Qedcc.ref_U22_error` | propext, Classical.choice, Quot.sound |
| `OpenMS.Qedcc.opt_U22_derivative_partial` | propext, Classical.choice, Quot.sound |
| `OpenMS.Qedcc.U22_derivative_fails` | propext, Classical.choice, Quot.sound |
| `OpenMS.Qedcc.one_U11_derivative` | propext, Classical.choice, Quot.sound |
| `OpenMS.Qedcc.one_U12_derivative` | propext, Classical.choice, Quot.sound |
| `OpenMS.Qedcc.one_U21_error` | propext, Classical.choice, Quot.sound |
| `OpenMS.Qedcc.one_U22_error` | propext, Classical.choice, Quot.sound |
| `OpenMS.Qedcc.one_U22_error_two` | propext, Classical.choice, Quot.sound |
| `OpenMS.Qedcc.one_U21_derivative_fails` | propext, Classical.choice, Quot.sound |
| `OpenMS.Qedcc.one_U22_derivative_fails` | propext, Classical.choice, Quot.sound |
| `OpenMS.Qedcc.opt_T1_text` | propext, Classical.choice, Quot.sound |
| `OpenMS.Qedcc.ref_T1_text` | propext, Classical.choice, Quot.sound |
| `OpenMS.Qedcc.opt_T2_text` | propext, Classical.choice, Quot.sound |
| `OpenMS.Qedcc.ref_T2_text` | propext, Classical.choice, Quot.sound |
| `OpenMS.Qedcc.dress_F` | propext, Classical.choice, Quot.sound |
| `OpenMS.Qedcc.dress_I` | propext, Classical.choice, Quot.sound |
| `OpenMS.Qedcc.dress_g` | propext, Classical.choice, Quot.sound |
| `OpenMS.Qedcc.expT1_inv` | propext, Classical.choice, Quot.sound |
| `OpenMS.Qedcc.stepT1_fixed` | propext, Classical.choice, Quot.sound |
| `OpenMS.Qedcc.stepT2_fixed` | propext, Classical.choice, Quot.sound |
| `OpenMS.Qedcc.stepS1_fixed` | propext, Classical.choice, Quot.sound |
| `OpenMS.Qedcc.stepS2_fixed` | propext, Classical.choice, Quot.sound |
| `OpenMS.Qedcc.stepU11_fixed` | propext, Classical.choice, Quot.sound |
| `OpenMS.Qedcc.stepS1_fails` | propext, Classical.choice, Quot.sound |
| `OpenMS.Qedcc.stepU11_fails` | propext, Classical.choice, Quot.sound |
| `OpenMS.Qedcc.mix_fixed` | propext, Classical.choice, Quot.sound |
| `OpenMS.Qedcc.mix_between` | propext, Classical.choice, Quot.sound |
| `OpenMS.Qedcc.ref_runs_partial` | propext, Classical.choice, Quot.sound |
| `OpenMS.Qedcc.opt_runs_partial` | propext, Classical.choice, Quot.sound |
| `OpenMS.Qedcc.ref_truncation` | propext, Classical.choice, Quot.sound |
| `OpenMS.Qedcc.opt_truncation` | propext, Classical.choice, Quot.sound |
| `OpenMS.Qedcc.U2n_runs_iff` | propext, Classical.choice, Quot.sound |
| `OpenMS.Qedcc.U2n_runs_fails` | propext, Classical.choice, Quot.sound |
| `OpenMS.Qedcc.imds_runs_fails` | propext, Classical.choice, Quot.sound |
| `OpenMS.Qedcc.ref_runs_fails` | propext, Classical.choice, Quot.sound |
| `OpenMS.CcIntegrals.I_eq` | propext, Classical.choice, Quot.sound |
| `OpenMS.CcIntegrals.I_symm` | propext, Classical.choice, Quot.sound |
| `OpenMS.CcIntegrals.fock_consistent_partial` | propext, Classical.choice, Quot.sound |
| `OpenMS.CcIntegrals.fock_bare` | propext, Classical.choice, Quot.sound |
| `OpenMS.CcIntegrals.fock_consistent_fails` | propext, Classical.choice, Quot.sound |
| `OpenMS.CcIntegrals.F_canonical` | propext, Classical.choice, Quot.sound |
| `OpenMS.CcIntegrals.F_shift` | propext, Classical.choice, Quot.sound |
| `OpenMS.CcIntegrals.F_shift_fails` | propext, Classical.choice, Quot.sound |
| `OpenMS.CcIntegrals.xi_linear` | propext, Classical.choice, Quot.sound |
| `OpenMS.CcIntegrals.mfG_eq` | propext, Classical.choice, Quot.sound |
| `OpenMS.CcIntegrals.mfG_linear` | propext, Classical.choice, Quot.sound |
| `OpenMS.CcIntegrals.kernelG_linear` | propext, Classical.choice, Quot.sound |
| `OpenMS.CcIntegrals.kernelG_partial` | propext, Classical.choice, Quot.sound |
| `OpenMS.CcIntegrals.kernelG_fails` | propext, Classical.choice, Quot.sound |
| `OpenMS.CcIntegrals.hfEnergy_eq` | propext, Classical.choice, Quot.sound |
| `OpenMS.CcIntegrals.hfEnergy_shift` | propext, Classical.choice, Quot.sound |
| `OpenMS.CcIntegrals.hfEnergy_fails` | propext, Classical.choice, Quot.sound |
| `OpenMS.CcIntegrals.getJk_partial` | propext, Classical.choice, Quot.sound |
| `OpenMS.CcIntegrals.getJk_fails` | propext, Classical.choice, Quot.sound |
| `OpenMS.CcIntegrals.getGmatSo_iff` | propext |
| `OpenMS.CcIntegrals.getGmatSo_fails` | propext |
| `OpenMS.CcIntegrals.getGmatSo_partial` | propext |
| `OpenMS.Diis.err_zero` | propext, Classical.choice, Quot.sound |
| `OpenMS.Diis.err_zero_plain` | propext, Classical.choice, Quot.sound |
| `OpenMS.Diis.err_zero_spin` | propext, Classical.choice, Quot.sound |
| `OpenMS.Diis.err_zero_stack` | propext, Classical.choice, Quot.sound |
| `OpenMS.Diis.orth_zero` | propext, Classical.choice, Quot.sound |
| `OpenMS.Diis.orth_reduced` | propext, Classical.choice, Quot.sound |
| `OpenMS.Diis.orth_sym` | propext, Classical.choice, Quot.sound |
| `OpenMS.Diis.orth_sym_partial` | propext, Classical.choice, Quot.sound |
| `OpenMS.Diis.orth_sym_fails` | propext, Classical.choice, Quot.sound |
| `OpenMS.Diis.stationary` | propext, Classical.choice, Quot.sound |
| `OpenMS.Diis.update_partial` | propext, Classical.choice, Quot.sound |
| `OpenMS.Diis.ravel_get` | propext, Classical.choice, Quot.sound |
| `OpenMS.Diis.update_fails` | propext, Classical.choice, Quot.sound |
| `OpenMS.Diis.bookkeep_spec` | propext, Quot.sound |
| `OpenMS.Gutzwiller.local_expect` | propext, Classical.choice, Quot.sound |
| `OpenMS.Gutzwiller.Hpp_isSome` | propext, Classical.choice, Quot.sound |
| `OpenMS.Gutzwiller.ground_fails` | propext, Classical.choice, Quot.sound |
| `OpenMS.Gutzwiller.ground_half_fails` | propext, Classical.choice, Quot.sound |
| `OpenMS.Gutzwiller.qpHam_symm` | propext, Classical.choice, Quot.sound |
| `OpenMS.Gutzwiller.qpHam_one` | propext, Classical.choice, Quot.sound |
| `OpenMS.Gutzwiller.docDelta_deriv` | propext, Classical.choice, Quot.sound |
| `OpenMS.Gutzwiller.deltas_partial` | propext, Classical.choice, Quot.sound |
| `OpenMS.Gutzwiller.deltas_fails` | propext, Classical.choice, Quot.sound |
| `OpenMS.Gutzwiller.lamdaErr_zero` | propext, Classical.choice, Quot.sound |
| `OpenMS.Gutzwiller.newLamda_fix` | propext, Classical.choice, Quot.sound |
| `OpenMS.Gutzwiller.init_iff` | propext, Classical.choice, Quot.sound |
| `OpenMS.Gutzwiller.init_fails` | propext, Classical.choice, Quot.sound |
| `OpenMS.Gutzwiller.renorm_mem` | propext, Classical.choice, Quot.sound |
| `OpenMS.Gutzwiller.renorm_uncut` | propext, Classical.choice, Quot.sound |
| `OpenMS.Gutzwiller.renorm_start` | propext, Classical.choice, Quot.sound |
| `OpenMS.Gutzwiller.newf_norm` | propext, Classical.choice, Quot.sound |
| `OpenMS.Gutzwiller.mixF_good` | propext, Classical.choice, Quot.sound |
| `OpenMS.Gutzwiller.run_good` | propext, Classical.choice, Quot.sound |
| `OpenMS.Gutzwiller.kernel_energy_fails` | propext, Classical.choice, Quot.sound |
| `OpenMS.Gutzwiller.conv_sticky` | propext, Classical.choice, Quot.sound |
| `OpenMS.Hyperbolic.row_re` | propext, Classical.choice, Quot.sound |
| `OpenMS.Hyperbolic.passive` | propext, Classical.choice, Quot.sound |
| `OpenMS.Hyperbolic.row_eq_doc_iff` | propext, Classical.choice, Quot.sound |
| `OpenMS.Hyperbolic.row_partial` | propext, Classical.choice, Quot.sound |
| `OpenMS.Hyperbolic.row_fails` | propext, Classical.choice, Quot.sound |
| `OpenMS.Hyperbolic.plasmonFreq_sq` | propext, Classical.choice, Quot.sound |
| `OpenMS.Hyperbolic.weight_fails` | propext, Classical.choice, Quot.sound |
| `OpenMS.Vmc.S_posSemidef` | propext, Classical.choice, Quot.sound |
| `OpenMS.Vmc.g_shift` | propext, Classical.choice, Quot.sound |
| `OpenMS.Vmc.S_shift` | propext, Classical.choice, Quot.sound |
| `OpenMS.Vmc.g_eigenstate` | propext, Classical.choice, Quot.sound |
| `OpenMS.Vmc.eMean_exact` | propext, Classical.choice, Quot.sound |
| `OpenMS.Vmc.g_derivative` | propext, Classical.choice, Quot.sound |
| `OpenMS.Vmc.g_complex_partial` | propext, Classical.choice, Quot.sound |
| `OpenMS.Vmc.g_complex_fails` | propext, Classical.choice, Quot.sound |
| `OpenMS.Vmc.kernel_iff` | propext |
| `OpenMS.Vmc.kernel_fails` | propext |
| `OpenMS.Spin.zfs_symm` | propext, Classical.choice, Quot.sound |
| `OpenMS.Spin.zfs_trace` | propext, Classical.choice, Quot.sound |
| `OpenMS.Spin.zfs_hamiltonian` | propext, Classical.choice, Quot.sound |
| `OpenMS.Spin.zfs_inj` | propext, Classical.choice, Quot.sound |
| `OpenMS.Spin.g_number` | propext, Classical.choice, Quot.sound |
| `OpenMS.Spin.g_stack_partial` | propext, Classical.choice, Quot.sound |
| `OpenMS.Spin.g_stack_fails` | propext, Classical.choice, Quot.sound |
| `OpenMS.Spin.g_single_fails` | propext, Classical.choice, Quot.sound |
| `OpenMS.Spin.ndim_half` | propext, Classical.choice, Quot.sound |
| `OpenMS.Spin.attr_set` | propext, Classical.choice, Quot.sound |
| `OpenMS.Spin.attr_DE_fails` | propext, Classical.choice, Quot.sound |
| `OpenMS.Spin.system_size_fails` | propext, Classical.choice, Quot.sound |
| `OpenMS.QedFci.elem_link` | propext, Classical.choice, Quot.sound |
| `OpenMS.QedFci.link_symm` | propext, Classical.choice, Quot.sound |
| `OpenMS.QedFci.link_diag` | propext, Classical.choice, Quot.sound |
| `OpenMS.QedFci.link_counts` | propext, Classical.choice, Quot.sound |
| `OpenMS.QedFci.link_pair` | propext, Classical.choice, Quot.sound |
| `OpenMS.QedFci.rdm1_agree` | propext, Classical.choice, Quot.sound |
| `OpenMS.QedFci.rdm12_energy` | propext, Classical.choice, Quot.sound |
| `OpenMS.QedFci.rdm2_trace` | propext, Classical.choice, Quot.sound |
| `OpenMS.QedFci.rdm2_pair_symm` | propext, Classical.choice, Quot.sound |
| `OpenMS.QedFci.hdiag_elec` | propext, Classical.choice, Quot.sound |
| `OpenMS.QedFci.hdiag_error` | propext, Classical.choice, Quot.sound |
| `OpenMS.QedFci.hdiag_iff` | propext, Classical.choice, Quot.sound |
| `OpenMS.QedFci.hdiag_fails` | propext, Classical.choice, Quot.sound |
| `OpenMS.Offset.offset_total` | propext, Classical.choice, Quot.sound |
| `OpenMS.Offset.offset_result` | propext, Classical.choice, Quot.sound |
| `OpenMS.Offset.offset_fails` | propext, Classical.choice, Quot.sound |
| `OpenMS.Offset.offset_partial` | propext, Classical.choice, Quot.sound |
| `OpenMS.Offset.opposite_sign` | propext, Classical.choice, Quot.sound |
| `OpenMS.Offset.adjust_eq` | propext, Classical.choice, Quot.sound |
| `OpenMS.Offset.systematic_eq` | propext, Classical.choice, Quot.sound |
| `OpenMS.Subspace.foldl_write` | propext, Classical.choice, Quot.sound |
| `OpenMS.Subspace.fillHerm_step` | propext, Classical.choice, Quot.sound |
| `OpenMS.Subspace.fillGen_step` | propext, Classical.choice, Quot.sound |
| `OpenMS.Subspace.growHerm_lower` | propext, Classical.choice, Quot.sound |
| `OpenMS.Subspace.fill_general` | propext, Classical.choice, Quot.sound |
| `OpenMS.Subspace.fill_hermitian_symm` | propext, Classical.choice, Quot.sound |
| `OpenMS.Subspace.fill_hermitian_iff` | propext, Classical.choice, Quot.sound |
| `OpenMS.Subspace.fill_agree` | propext, Classical.choice, Quot.sound |
| `OpenMS.FciIntegrals.dse_operator` | propext, Classical.choice, Quot.sound |
| `OpenMS.FciIntegrals.gmatLo_eq` | propext, Classical.choice, Quot.sound |
| `OpenMS.FciIntegrals.hep_partial` | propext, Classical.choice, Quot.sound |
| `OpenMS.FciIntegrals.hep_fails` | propext, Classical.choice, Quot.sound |
| `OpenMS.FciIntegrals.hep_square_iff` | propext, Classical.choice, Quot.sound |
| `OpenMS.FciIntegrals.dm_eq` | propext, Classical.choice, Quot.sound |
| `OpenMS.FciIntegrals.dm_right_trace` | propext, Classical.choice, Quot.sound |
| `OpenMS.FciIntegrals.dm_trace_iff` | propext, Classical.choice, Quot.sound |
| `OpenMS.FciIntegrals.dm_fails` | propext, Classical.choice, Quot.sound |
| `OpenMS.DipoleBasis.turned_iff` | propext, Classical.choice, Quot.sound |
| `OpenMS.DipoleBasis.top_group_fails` | propext, Classical.choice, Quot.sound |
| `OpenMS.DipoleBasis.all_equal_fails` | propext, Classical.choice, Quot.sound |
| `OpenMS.DipoleBasis.at_threshold_fails` | propext, Classical.choice, Quot.sound |
| `OpenMS.DipoleBasis.resolve_diag` | propext, Classical.choice, Quot.sound |
| `OpenMS.DipoleBasis.resolve_orthonormal` | propext, Classical.choice, Quot.sound |
| `OpenMS.DipoleBasis.resolve_fock` | propext, Classical.choice, Quot.sound |
| `OpenMS.DipoleBasis.resolve_spec` | propext, Classical.choice, Quot.sound |
| `OpenMS.DipoleBasis.chol_one_mode` | propext, Classical.choice, Quot.sound |
| `OpenMS.DipoleBasis.eri_last` | propext, Classical.choice, Quot.sound |
| `OpenMS.DipoleBasis.chol_first` | propext, Classical.choice, Quot.sound |
| `OpenMS.DipoleBasis.store_fails` | propext, Classical.choice, Quot.sound |
| `OpenMS.DipoleBasis.photonExpVal_eq` | propext, Classical.choice, Quot.sound |
| `OpenMS.DipoleBasis.photonExpVal_two_iff` | propext, Classical.choice, Quot.sound |
| `OpenMS.DipoleBasis.photonExpVal_fails` | propext, Classical.choice, Quot.sound |
| `OpenMS.Photon.jk_transpose` | propext, Classical.choice, Quot.sound |
| `OpenMS.Photon.jk_agree` | propext, Classical.choice, Quot.sound |
| `OpenMS.Photon.jk_residue_fails` | propext, Classical.choice, Quot.sound |
| `OpenMS.Photon.j_energy` | propext, Classical.choice, Quot.sound |
| `OpenMS.Photon.k_product` | propext, Classical.choice, Quot.sound |
| `OpenMS.Photon.jk_one_orbital` | propext, Classical.choice, Quot.sound |
| `OpenMS.Photon.bdagMinusB_eq` | propext, Classical.choice, Quot.sound |
| `OpenMS.Photon.bdagMinusB_fails` | propext, Classical.choice, Quot.sound |
| `OpenMS.QmcIntegrals.cholFull_exact_iff` | propext, Classical.choice, Quot.sound |
| `OpenMS.QmcIntegrals.cholFull_bound` | propext, Classical.choice, Quot.sound |
| `OpenMS.QmcIntegrals.negative_fails` | propext, Classical.choice, Quot.sound |
| `OpenMS.QmcIntegrals.bare_tensor` | propext, Classical.choice, Quot.sound |
| `OpenMS.QmcIntegrals.bare_tensor_svd` | propext, Classical.choice, Quot.sound |
| `OpenMS.QmcIntegrals.operator` | propext, Classical.choice, Quot.sound |
| `OpenMS.QmcIntegrals.extra_fields` | propext, Classical.choice, Quot.sound |
| `OpenMS.QmcIntegrals.geb_eq` | propext, Classical.choice, Quot.sound |
| `OpenMS.QmcIntegrals.bare_system` | propext, Classical.choice, Quot.sound |
| `OpenMS.QmcIntegrals.energy_two` | propext, Classical.choice, Quot.sound |
| `OpenMS.QmcIntegrals.energy_one` | propext, Classical.choice, Quot.sound |
| `OpenMS.QmcIntegrals.energy_chol` | propext, Classical.choice, Quot.sound |
| `OpenMS.Qmd.population_rate` | propext, Classical.choice, Quot.sound |
| `OpenMS.Qmd.densities_spec` | propext, Classical.choice, Quot.sound |
| `OpenMS.Qmd.hop_reverse` | propext, Classical.choice, Quot.sound |
| `OpenMS.Qmd.hop_correct_iff` | propext, Classical.choice, Quot.sound |
| `OpenMS.Qmd.hop_sign_fails` | propext, Classical.choice, Quot.sound |
| `OpenMS.Qmd.hop_raises_fails` | propext, Classical.choice, Quot.sound |
| `OpenMS.Qmd.hop_rows_partial` | propext, Classical.choice, Quot.sound |
| `OpenMS.QedFci.hubbard_scalar` | propext, Classical.choice, Quot.sound |
| `OpenMS.QedFci.hubbard_elecH` | propext, Classical.choice, Quot.sound |
| `OpenMS.QedFci.hubbard_triple_fails` | propext, Classical.choice, Quot.sound |
| `OpenMS.QedFci.hubbard_triple_mode_fails` | propext, Classical.choice, Quot.sound |
| `OpenMS.QedFci.hdiag_hubbard_fails` | propext, Classical.choice, Quot.sound |
| `OpenMS.QedFci.hdiag_hubbard_iff` | propext, Classical.choice, Quot.sound |
| `OpenMS.Energy.local_eng_error` | propext, Classical.choice, Quot.sound |
| `OpenMS.Energy.local_eng_iff` | propext, Classical.choice, Quot.sound |
| `OpenMS.Energy.local_eng_fails` | propext, Classical.choice, Quot.sound |
| `OpenMS.Energy.gfSo_spec` | propext, Classical.choice, Quot.sound |
| `OpenMS.Energy.uhf_build_fails` | propext |
| `OpenMS.Energy.exx_chunked` | propext, Classical.choice, Quot.sound |
| `OpenMS.Schedule.counts` | propext, Classical.choice, Quot.sound |
| `OpenMS.Schedule.times_eq` | propext, Classical.choice, Quot.sound |
| `OpenMS.Schedule.time_early_fails` | propext, Quot.sound |
| `OpenMS.Schedule.kernels_agree_iff` | propext, Quot.sound |
| `OpenMS.ScQed.together_eri` | propext, Classical.choice, Quot.sound |
| `OpenMS.ScQed.together_chol_sq` | propext, Classical.choice, Quot.sound |
| `OpenMS.ScQed.together_chol_eta` | propext, Classical.choice, Quot.sound |
| `OpenMS.ScQed.together_chol_two` | propext, Classical.choice, Quot.sound |
| `OpenMS.ScQed.together_chol_fails` | propext, Classical.choice, Quot.sound |
| `OpenMS.ScQed.cycle_energy` | propext, Classical.choice, Quot.sound |
| `OpenMS.ScQed.cycle_energy_partial` | propext, Classical.choice, Quot.sound |
| `OpenMS.ScQed.fock_three` | propext, Classical.choice, Quot.sound |
| `OpenMS.ScQed.cycle_eta` | propext, Classical.choice, Quot.sound |
| `OpenMS.ScQed.cycle_below_fails` | propext, Classical.choice, Quot.sound |
| `OpenMS.BilinearStep.elec_series` | propext, Classical.choice, Quot.sound |
| `OpenMS.BilinearStep.boson_series` | propext, Classical.choice, Quot.sound |
| `OpenMS.BilinearStep.boson_exp_partial` | propext, Classical.choice, Quot.sound |
| `OpenMS.BilinearStep.boson_exp_fails` | propext, Classical.choice, Quot.sound |
| `OpenMS.BilinearStep.elec_limit` | propext, Classical.choice, Quot.sound |
| `OpenMS.BilinearStep.boson_limit_fails` | propext, Classical.choice, Quot.sound |
| `OpenMS.Lattice.aint_orders` | propext, Classical.choice, Quot.sound |
| `OpenMS.Lattice.same_spin_zero` | propext, Classical.choice, Quot.sound |
| `OpenMS.Lattice.spin_blocks` | propext, Classical.choice, Quot.sound |
| `OpenMS.Lattice.fock_blocks` | propext, Classical.choice, Quot.sound |
| `OpenMS.Lattice.nine_determine` | propext, Classical.choice, Quot.sound |
| `OpenMS.Lattice.gaint_antisymm` | propext, Classical.choice, Quot.sound |
| `OpenMS.Lattice.all_partition` | propext |
| `OpenMS.Lattice.nine_mixed_fails` | propext, Classical.choice, Quot.sound |
| `OpenMS.Lattice.hh_fock_gradient` | propext, Classical.choice, Quot.sound |
| `OpenMS.Lattice.hh_fock_orbitals` | propext, Classical.choice, Quot.sound |
| `OpenMS.Lattice.mfG_linear` | propext, Classical.choice, Quot.sound |
| `OpenMS.Lattice.hhGmat_symm` | propext, Classical.choice, Quot.sound |
| `OpenMS.Lattice.mo_hopping_partial` | propext, Classical.choice, Quot.sound |
| `OpenMS.Lattice.mo_hopping_two_fails` | propext, Classical.choice, Quot.sound |
| `OpenMS.Lattice.mo_eri_partial` | propext, Classical.choice, Quot.sound |
| `OpenMS.Lattice.mo_orbitals_fails` | propext, Classical.choice, Quot.sound |
| `OpenMS.Aggregates.node_test` | propext, Classical.choice, Quot.sound |
| `OpenMS.Aggregates.selection` | propext, Classical.choice, Quot.sound |
| `OpenMS.Aggregates.selection_sign` | propext, Classical.choice, Quot.sound |
| `OpenMS.Aggregates.linearAbs_partial` | propext, Classical.choice, Quot.sound |
| `OpenMS.Aggregates.linearAbs_dark_fails` | propext, Classical.choice, Quot.sound |
| `OpenMS.Aggregates.tdes_harmonic` | propext, Classical.choice, Quot.sound |
| `OpenMS.Aggregates.tdes_nonneg` | propext, Classical.choice, Quot.sound |
| `OpenMS.Aggregates.tdes_additive_fails` | propext, Classical.choice, Quot.sound |
| `OpenMS.BosonStart.coherent_energy` | propext, Classical.choice, Quot.sound |
| `OpenMS.BosonStart.vacuum_energy` | propext, Classical.choice, Quot.sound |
| `OpenMS.BosonStart.start_iff` | propext, Classical.choice, Quot.sound |
| `OpenMS.BosonStart.start_above_fails` | propext, Classical.choice, Quot.sound |
| `OpenMS.Kernels.onebody_eq` | propext, Classical.choice, Quot.sound |
| `OpenMS.Kernels.expOp_complex_eq` | propext, Classical.choice, Quot.sound |
| `OpenMS.Kernels.expOp_real_eq` | propext, Classical.choice, Quot.sound |
| `OpenMS.Kernels.expOp_real_partial` | propext, Classical.choice, Quot.sound |
| `OpenMS.Kernels.expOp_real_fails` | propext, Classical.choice, Quot.sound |
| `OpenMS.Kernels.hs_after_onebody` | propext, Classical.choice, Quot.sound |
| `OpenMS.Kernels.hs_lost_fails` | propext, Classical.choice, Quot.sound |
| `OpenMS.Kernels.ovlp_eq` | propext, Classical.choice, Quot.sound |
| `OpenMS.Kernels.ghalf_eq` | propext, Classical.choice, Quot.sound |
| `OpenMS.Kernels.exx_eq` | propext, Classical.choice, Quot.sound |
| `OpenMS.Kernels.ecoul_rhf_eq` | propext, Classical.choice, Quot.sound |
| `OpenMS.Kernels.ecoul_uhf_partial` | propext, Classical.choice, Quot.sound |
| `OpenMS.Kernels.ecoul_uhf_fails` | propext, Classical.choice, Quot.sound |
| `OpenMS.Kernels.tensordot_eq` | propext, Classical.choice, Quot.sound |
| `OpenMS.DispCpp.pack_eq` | propext, Classical.choice, Quot.sound |
| `OpenMS.DispCpp.disp_mat_eq` | propext, Classical.choice, Quot.sound |
| `OpenMS.DispCpp.exp_val_eq` | propext, Classical.choice, Quot.sound |
| `OpenMS.DispCpp.exp_val_partial` | propext, Classical.choice, Quot.sound |
| `OpenMS.DispCpp.exp_val_fails` | propext, Classical.choice, Quot.sound |
| `OpenMS.Fdtd.flux_conserved` | propext, Classical.choice, Quot.sound |
| `OpenMS.Fdtd.charge_conserved` | propext, Classical.choice, Quot.sound |
| `OpenMS.Fdtd.curl_adjoint` | propext, Classical.choice, Quot.sound |
| `OpenMS.Fdtd.energy_conserved` | propext, Classical.choice, Quot.sound |
| `OpenMS.Fdtd.energy_conserved_iterate` | propext, Classical.choice, Quot.sound |
| `OpenMS.Fdtd.courant_bound` | propext, Classical.choice, Quot.sound |
| `OpenMS.Fdtd.propagate_plainE` | propext, Classical.choice, Quot.sound |
| `OpenMS.Fdtd.propagate_plainH` | propext, Classical.choice, Quot.sound |
| `OpenMS.Fdtd.metal_equations` | propext, Classical.choice, Quot.sound |
| `OpenMS.Fdtd.drude_energy` | propext, Classical.choice, Quot.sound |
| `OpenMS.Fdtd.drude_passive` | propext, Classical.choice, Quot.sound |
| `OpenMS.Fdtd.layer_electric` | propext, Classical.choice, Quot.sound |
| `OpenMS.Fdtd.layer_magnetic` | propext, Classical.choice, Quot.sound |
| `OpenMS.Fdtd.layer_transparent` | propext, Classical.choice, Quot.sound |
| `OpenMS.Fdtd.sigma_inside` | propext, Classical.choice, Quot.sound |
| `OpenMS.Fdtd.sigma_nonneg` | propext, Classical.choice, Quot.sound |
| `OpenMS.Fdtd.sigma_mirror` | propext, Classical.choice, Quot.sound |
| `OpenMS.Fdtd.conductor_zero` | propext, Classical.choice, Quot.sound |
| `OpenMS.FdtdGrid.cell_sizes` | propext, Quot.sound |
| `OpenMS.FdtdGrid.time_step_stable` | propext, Classical.choice, Quot.sound |
| `OpenMS.FdtdGrid.region_size_partial` | propext, Quot.sound |
| `OpenMS.FdtdGrid.region_size_fails` | propext, Quot.sound |
| `OpenMS.FdtdGrid.sort_partial` | propext, Classical.choice, Quot.sound |
| `OpenMS.FdtdGrid.sort_outside_fails` | propext, Classical.choice, Quot.sound |
| `OpenMS.FdtdGrid.sort_unsorted_fails` | propext, Classical.choice, Quot.sound |
| `OpenMS.FdtdGrid.zToI_mono_partial` | propext, Classical.choice, Quot.sound |
| `OpenMS.FdtdGrid.zToI_mono_fails` | propext, Classical.choice, Quot.sound |
| `OpenMS.FdtdGrid.iToZ_partial` | propext, Classical.choice, Quot.sound |
| `OpenMS.MpiGrid.neighbours_match` | propext, Classical.choice, Quot.sound |
| `OpenMS.MpiGrid.ring` | propext, Classical.choice, Quot.sound |
| `OpenMS.MpiGrid.partition_partial` | propext, Classical.choice, Quot.sound |
| `OpenMS.MpiGrid.partition_iff` | propext, Classical.choice, Quot.sound |
| `OpenMS.MpiGrid.partition_fails` | propext, Classical.choice, Quot.sound |
| `OpenMS.MpiGrid.size_high_fails` | propext |
| `OpenMS.MpiGrid.neighbour_adjacent_partial` | propext |
| `OpenMS.MpiGrid.findX_eq` | propext, Classical.choice, Quot.sound |
| `OpenMS.MpiGrid.findY_partial` | propext, Classical.choice, Quot.sound |
| `OpenMS.MpiGrid.findY_fails` | propext, Classical.choice, Quot.sound |
| `OpenMS.MpiGrid.findX_serial_fails` | propext, Classical.choice, Quot.sound |
| `OpenMS.MpiGrid.source_column_partial` | propext, Classical.choice, Quot.sound |
| `OpenMS.MpiGrid.source_repeated_fails` | propext, Classical.choice, Quot.sound |
| `OpenMS.Fdtd.stepE_complex_partial` | propext, Classical.choice, Quot.sound |
| `OpenMS.Fdtd.stepH_complex` | propext, Classical.choice, Quot.sound |
| `OpenMS.Fdtd.molecule_fails` | propext, Classical.choice, Quot.sound |
| `OpenMS.Fdtd.crystalE_bloch` | propext, Classical.choice, Quot.sound |
| `OpenMS.Fdtd.crystalH_bloch` | propext, Classical.choice, Quot.sound |
| `OpenMS.Fdtd.bloch_step` | propext, Classical.choice, Quot.sound |
| `OpenMS.Fdtd.tri_step_partial` | propext, Classical.choice, Quot.sound |
| `OpenMS.Fdtd.tri_odd_fails` | propext, Classical.choice, Quot.sound |
| `OpenMS.Fdtd.line_half` | propext, Classical.choice, Quot.sound |
| `OpenMS.Fdtd.line_int` | propext, Quot.sound |
| `OpenMS.Fdtd.parityE_even` | propext, Classical.choice, Quot.sound |
| `OpenMS.Fdtd.parityH_even` | propext, Classical.choice, Quot.sound |
| `OpenMS.Fdtd.parity_step` | propext, Classical.choice, Quot.sound |
| `OpenMS.Fdtd.hzParity_sized` | propext, Quot.sound |
| `OpenMS.Fdtd.whole_run_fails` | propext, Classical.choice, Quot.sound |
| `OpenMS.Fdtd.values_whole` | propext, Classical.choice, Quot.sound |
| `OpenMS.Fdtd.hzParity_even` | propext, Quot.sound |
| `OpenMS.Fdtd.odd_fails` | propext, Classical.choice, Quot.sound |
| `OpenMS.Fdtd.crystal_valuesE` | propext, Classical.choice, Quot.sound |
| `OpenMS.Fdtd.crystal_valuesH_partial` | propext, Classical.choice, Quot.sound |
| `OpenMS.Fdtd.corner_never` | propext, Classical.choice, Quot.sound |
| `OpenMS.Fdtd.corner_fails` | propext, Classical.choice, Quot.sound |
| `OpenMS.Fdtd.periodicX_crystal` | propext, Classical.choice, Quot.sound |
| `OpenMS.Fdtd.periodicY_crystal` | propext, Classical.choice, Quot.sound |
| `OpenMS.Fdtd.crystal_cellE` | propext, Classical.choice, Quot.sound |
| `OpenMS.Fdtd.periodicXY_right_iff` | propext, Classical.choice, Quot.sound |
| `OpenMS.Fdtd.periodicXY_fails` | propext, Classical.choice, Quot.sound |
| `OpenMS.Fdtd.row_nodes` | propext, Classical.choice, Quot.sound |
| `OpenMS.Fdtd.row_fails` | propext, Classical.choice, Quot.sound |
| `OpenMS.Fdtd.column_partial` | propext, Classical.choice, Quot.sound |
| `OpenMS.Fdtd.column_fails` | propext, Classical.choice, Quot.sound |
| `OpenMS.FdtdEnergy.total_partial` | propext, Classical.choice, Quot.sound |
| `OpenMS.FdtdEnergy.width_fails` | propext, Classical.choice, Quot.sound |
| `OpenMS.FdtdEnergy.layer_fails` | propext, Classical.choice, Quot.sound |
| `OpenMS.FdtdEnergy.updown_excess` | propext, Classical.choice, Quot.sound |
| `OpenMS.FdtdEnergy.updown_fails` | propext, Classical.choice, Quot.sound |
| `OpenMS.FdtdEnergy.block_fails` | propext, Classical.choice, Quot.sound |
| `OpenMS.FdtdEnergy.block_partial` | propext, Classical.choice, Quot.sound |
| `OpenMS.FdtdEnergy.blocks_excess` | propext, Classical.choice, Quot.sound |
| `OpenMS.FdtdEnergy.blocks_fails` | propext, Classical.choice, Quot.sound |
| `OpenMS.FdtdEnergy.detector_max` | propext, Classical.choice, Quot.sound |
| `OpenMS.FdtdEnergy.sphere_vector` | propext, Classical.choice, Quot.sound |
| `OpenMS.FdtdEnergy.sphere_index_partial` | propext, Classical.choice, Quot.sound |
| `OpenMS.FdtdEnergy.sphere_index_fails` | propext, Classical.choice, Quot.sound |
| `OpenMS.Fft.fft1d_dft` | propext, Classical.choice, Quot.sound |
| `OpenMS.Fft.round_trip` | propext, Classical.choice, Quot.sound |
| `OpenMS.Fft.powFinder_log` | propext, Classical.choice, Quot.sound |
| `OpenMS.Fft.fft2d_dft_partial` | propext, Classical.choice, Quot.sound |
| `OpenMS.Fft.size_fails` | propext, Classical.choice, Quot.sound |
| `OpenMS.Fft.shift_eq` | propext, Classical.choice, Quot.sound |
| `OpenMS.Fft.ordered_partial` | propext, Classical.choice, Quot.sound |
| `OpenMS.FarField.node_partial` | propext, Classical.choice, Quot.sound |
| `OpenMS.FarField.node_fails` | propext, Classical.choice, Quot.sound |
| `OpenMS.FarField.hy_fails` | propext, Classical.choice, Quot.sound |
| `OpenMS.FarField.shrink_partial` | propext, Classical.choice, Quot.sound |
| `OpenMS.FarField.window_fits` | propext, Classical.choice, Quot.sound |
| `OpenMS.FarField.shrink_fails` | propext, Quot.sound |
| `OpenMS.FarField.last_column_fails` | propext, Quot.sound |
| `OpenMS.FarField.direction_spec` | propext, Classical.choice, Quot.sound |
| `OpenMS.FarField.angle_fails` | propext, Classical.choice, Quot.sound |
| `OpenMS.FarField.outgoing` | propext, Classical.choice, Quot.sound |
| `OpenMS.FarField.incoming` | propext, Classical.choice, Quot.sound |
| `OpenMS.FarField.ey_outgoing` | propext, Classical.choice, Quot.sound |
| `OpenMS.FarField.ex_excess` | propext, Classical.choice, Quot.sound |
| `OpenMS.FarField.ex_partial` | propext, Classical.choice, Quot.sound |
| `OpenMS.FarField.ex_fails` | propext, Classical.choice, Quot.sound |
| `OpenMS.FarField.intensity_sum` | propext, Classical.choice, Quot.sound |
| `OpenMS.FarField.power_sum` | propext, Classical.choice, Quot.sound |
| `OpenMS.FarField.power_spec` | propext, Classical.choice, Quot.sound |
| `OpenMS.FarField.horizontal_partial` | propext, Classical.choice, Quot.sound |
| `OpenMS.FdtdObjects.average_partial` | propext, Classical.choice, Quot.sound |
| `OpenMS.FdtdObjects.epsilon_places_partial` | propext, Classical.choice, Quot.sound |
| `OpenMS.FdtdObjects.extents` | propext, Classical.choice, Quot.sound |
| `OpenMS.FdtdObjects.average_bounds` | propext, Classical.choice, Quot.sound |
| `OpenMS.FdtdObjects.convex_full` | propext, Classical.choice, Quot.sound |
| `OpenMS.FdtdObjects.shapes_convex` | propext, Classical.choice, Quot.sound |
| `OpenMS.FdtdObjects.small_fails` | propext, Classical.choice, Quot.sound |
| `OpenMS.FdtdObjects.hole_fails` | propext, Classical.choice, Quot.sound |
| `OpenMS.FdtdObjects.thin_fails` | propext, Classical.choice, Quot.sound |
| `OpenMS.FdtdObjects.rotation_isometry` | propext, Classical.choice, Quot.sound |
| `OpenMS.FdtdObjects.rotation_axis` | propext, Classical.choice, Quot.sound |
| `OpenMS.FdtdObjects.ellipsoid_sphere` | propext, Classical.choice, Quot.sound |
| `OpenMS.FdtdObjects.sphere_partial` | propext, Classical.choice, Quot.sound |
| `OpenMS.FdtdObjects.sphere_fails` | propext, Classical.choice, Quot.sound |
| `OpenMS.FdtdObjects.ellipsoid_units` | propext, Classical.choice, Quot.sound |
| `OpenMS.FdtdObjects.cone_partial` | propext, Classical.choice, Quot.sound |
| `OpenMS.FdtdObjects.cone_fails` | propext, Classical.choice, Quot.sound |
| `OpenMS.FdtdObjects.contour_partial` | propext, Classical.choice, Quot.sound |
| `OpenMS.FdtdObjects.contour_fails` | propext, Classical.choice, Quot.sound |
| `OpenMS.FdtdObjects.random_disjoint` | propext, Classical.choice, Quot.sound |
| `OpenMS.Incoherent.entries_partial` | propext, Classical.choice, Quot.sound |
| `OpenMS.Incoherent.growth_fails` | propext, Classical.choice, Quot.sound |
| `OpenMS.Incoherent.renewal_partial` | propext, Classical.choice, Quot.sound |
| `OpenMS.Incoherent.renewal_fails` | propext, Classical.choice, Quot.sound |
| `OpenMS.Incoherent.gauss_phasor` | propext, Classical.choice, Quot.sound |
| `OpenMS.Incoherent.lorentz_partial` | propext, Classical.choice, Quot.sound |
| `OpenMS.Incoherent.lorentz_fails` | propext, Classical.choice, Quot.sound |
| `OpenMS.Incoherent.current_norm` | propext, Classical.choice, Quot.sound |
| `OpenMS.Incoherent.draws` | propext, Classical.choice, Quot.sound |
| `OpenMS.Incoherent.half_sphere` | propext, Classical.choice, Quot.sound |
| `OpenMS.Incoherent.deposit_spec` | propext, Classical.choice, Quot.sound |
| `OpenMS.Incoherent.position_nearest` | propext, Classical.choice, Quot.sound |
| `OpenMS.FdtdSource.source_spec` | propext, Classical.choice, Quot.sound |
| `OpenMS.FdtdSource.source_imag_partial` | propext, Classical.choice, Quot.sound |
| `OpenMS.FdtdSource.source_real` | propext, Classical.choice, Quot.sound |
| `OpenMS.FdtdSource.sign_fails` | propext, Classical.choice, Quot.sound |
| `OpenMS.FdtdSource.planewave_e` | propext, Classical.choice, Quot.sound |
| `OpenMS.FdtdSource.planewave_edge` | propext, Classical.choice, Quot.sound |
| `OpenMS.FdtdSource.planewave_h_partial` | propext, Classical.choice, Quot.sound |
| `OpenMS.FdtdSource.planewave_h_fails` | propext, Classical.choice, Quot.sound |
| `OpenMS.FdtdSource.external_partial` | propext, Classical.choice, Quot.sound |
| `OpenMS.FdtdSource.external_fails` | propext, Classical.choice, Quot.sound |
| `OpenMS.FdtdSource.line_fails` | propext, Classical.choice, Quot.sound |
| `OpenMS.FdtdSource.paraxial_wave` | propext, Classical.choice, Quot.sound |
| `OpenMS.FdtdSource.beam_spec` | propext, Classical.choice, Quot.sound |
| `OpenMS.FdtdSource.beam_up_fails` | propext, Classical.choice, Quot.sound |
| `OpenMS.FdtdSource.waist_fails` | propext, Classical.choice, Quot.sound |
| `OpenMS.FdtdSource.gaussian_phase` | propext, Classical.choice, Quot.sound |
| `OpenMS.FdtdSource.lorentzian_phase` | propext, Classical.choice, Quot.sound |
| `OpenMS.PolarMap.disk` | propext, Classical.choice, Quot.sound |
| `OpenMS.PolarMap.azimuth` | propext, Classical.choice, Quot.sound |
| `OpenMS.PolarMap.polar` | propext, Classical.choice, Quot.sound |
| `OpenMS.PolarMap.within_partial` | propext, Classical.choice, Quot.sound |
| `OpenMS.PolarMap.direction_partial` | propext, Classical.choice, Quot.sound |
| `OpenMS.PolarMap.center_partial` | propext, Classical.choice, Quot.sound |
| `OpenMS.PolarMap.center_fails` | propext, Classical.choice, Quot.sound |
| `OpenMS.PolarMap.outside_fails` | propext, Classical.choice, Quot.sound |
| `OpenMS.PolarMap.round_trip` | propext, Classical.choice, Quot.sound |
| `OpenMS.PolarMap.first_line` | propext, Classical.choice, Quot.sound |
| `OpenMS.PolarMap.sum_spec` | propext, Classical.choice, Quot.sound |
| `OpenMS.FdtdMetal.metal_spec` | propext, Quot.sound |
| `OpenMS.FdtdMetal.eraser` | propext, Quot.sound |
| `OpenMS.FdtdMetal.metal_partial` | propext, Quot.sound |
| `OpenMS.FdtdMetal.hundred_fails` | propext, Classical.choice, Quot.sound |
| `OpenMS.FdtdMetal.layer_fails` | propext, Classical.choice, Quot.sound |
| `OpenMS.FdtdMetal.units` | propext, Classical.choice, Quot.sound |
| `OpenMS.FdtdMetal.molecule_partial` | propext, Classical.choice, Quot.sound |
| `OpenMS.FdtdMetal.molecule_once` | propext, Classical.choice, Quot.sound |
| `OpenMS.FdtdMetal.molecule_fails` | propext, Classical.choice, Quot.sound |
| `OpenMS.FdtdMetal.rod_partial` | propext, Classical.choice, Quot.sound |
| `OpenMS.FdtdMetal.rod_fails` | propext, Classical.choice, Quot.sound |
| `OpenMS.FdtdMetal.stagger_fails` | propext, Classical.choice, Quot.sound |
| `OpenMS.FdtdMetal.count_partial` | propext, Classical.choice, Quot.sound |
| `OpenMS.FdtdMetal.count_empty` | propext, Classical.choice, Quot.sound |
| `OpenMS.FdtdMetal.count_fails` | propext, Classical.choice, Quot.sound |
| `OpenMS.FdtdMetal.places_spec` | propext, Classical.choice, Quot.sound |
| `OpenMS.FdtdMetal.places_fails` | propext, Classical.choice, Quot.sound |
| `OpenMS.TiledTensor.tiles_listed` | propext, Classical.choice, Quot.sound |
| `OpenMS.TiledTensor.listed_order` | propext, Classical.choice, Quot.sound |
| `OpenMS.TiledTensor.empty_fails` | propext, Classical.choice, Quot.sound |
| `OpenMS.TiledTensor.partition` | propext, Classical.choice, Quot.sound |
| `OpenMS.TiledTensor.construct_partial` | propext, Classical.choice, Quot.sound |
| `OpenMS.TiledTensor.dense_partial` | propext, Classical.choice, Quot.sound |
| `OpenMS.TiledTensor.initializer_fails` | propext, Classical.choice, Quot.sound |
| `OpenMS.TiledTensor.transpose_spec` | propext, Quot.sound |
| `OpenMS.TiledTensor.add_spec` | propext, Quot.sound |
| `OpenMS.TiledTensor.strides_spec` | propext, Classical.choice, Quot.sound |
| `OpenMS.CholOrth.final_exists` | propext, Classical.choice, Quot.sound |
| `OpenMS.CholOrth.factor_spec` | propext, Classical.choice, Quot.sound |
| `OpenMS.CholOrth.orthonormal` | propext, Classical.choice, Quot.sound |
| `OpenMS.CholOrth.kept_le_rank` | propext, Classical.choice, Quot.sound |
| `OpenMS.CholOrth.span_spec` | propext, Classical.choice, Quot.sound |
| `OpenMS.CholOrth.raises_iff` | propext, Classical.choice, Quot.sound |
| `OpenMS.CholOrth.full_partial` | propext, Classical.choice, Quot.sound |
| `OpenMS.CholOrth.full_fails` | propext, Classical.choice, Quot.sound |
| `OpenMS.CholOrth.lindep_partial` | propext, Classical.choice, Quot.sound |
| `OpenMS.CholOrth.coupling_fails` | propext, Classical.choice, Quot.sound |
| `OpenMS.CholOrth.boson_fails` | propext, Classical.choice, Quot.sound |
| `OpenMS.CholOrth.debug_fails` | propext, Classical.choice, Quot.sound |
| `OpenMS.QedLib.gaussian_partial` | propext, Classical.choice, Quot.sound |
| `OpenMS.QedLib.sentinel_fails` | propext, Classical.choice, Quot.sound |
| `OpenMS.QedLib.shift_fails` | propext, Classical.choice, Quot.sound |
| `OpenMS.QedLib.table_spec` | propext, Classical.choice, Quot.sound |
| `OpenMS.QedLib.update_fails` | propext, Classical.choice, Quot.sound |
| `OpenMS.QedLib.fock_partial` | propext, Classical.choice, Quot.sound |
| `OpenMS.QedLib.label_fails` | propext, Classical.choice, Quot.sound |
| `OpenMS.BosonBuild.ham_eq` | propext, Classical.choice, Quot.sound |
| `OpenMS.BosonBuild.shift_iff` | propext, Classical.choice, Quot.sound |
| `OpenMS.BosonBuild.shift_partial` | propext, Classical.choice, Quot.sound |
| `OpenMS.BosonBuild.shift_fails` | propext, Classical.choice, Quot.sound |
| `OpenMS.BosonBuild.bafqmc_spec` | propext, Classical.choice, Quot.sound |
| `OpenMS.BosonBuild.onebody_fails` | propext, Classical.choice, Quot.sound |
| `OpenMS.PyTiles.partition_spec` | propext, Classical.choice, Quot.sound |
| `OpenMS.PyTiles.fromSizes_spec` | propext, Classical.choice, Quot.sound |
| `OpenMS.PyTiles.uniform_spec` | propext, Classical.choice, Quot.sound |
| `OpenMS.PyTiles.roundtrip` | propext, Classical.choice, Quot.sound |
| `OpenMS.PyTiles.tiled_roundtrip` | propext, Classical.choice, Quot.sound |
| `OpenMS.PyTiles.rightDense_spec` | propext, Classical.choice, Quot.sound |
| `OpenMS.PyTiles.leftDense_spec` | propext, Classical.choice, Quot.sound |
| `OpenMS.PyTiles.rightTiled_partial` | propext, Classical.choice, Quot.sound |
| `OpenMS.PyTiles.rightTiled_fails` | propext, Classical.choice, Quot.sound |
| `OpenMS.PyTiles.leftTiled_spec` | propext, Classical.choice, Quot.sound |
| `OpenMS.PyTiles.add_partial` | propext, Classical.choice, Quot.sound |
| `OpenMS.PyTiles.add_fails` | propext, Classical.choice, Quot.sound |
| `OpenMS.PyTiles.prune_spec` | propext, Classical.choice, Quot.sound |
| `OpenMS.PyTiles.add_refused` | propext, Classical.choice, Quot.sound |
| `OpenMS.PyTiles.prune_blocks` | propext, Classical.choice, Quot.sound |
| `OpenMS.QedAfqmc.local_spec` | propext, Classical.choice, Quot.sound |
| `OpenMS.QedAfqmc.run_bound` | propext, Classical.choice, Quot.sound |
| `OpenMS.QedAfqmc.phase_eq` | propext, Classical.choice, Quot.sound |
| `OpenMS.QedAfqmc.hybrid_eq` | propext, Classical.choice, Quot.sound |
| `OpenMS.QedAfqmc.hybrid_zero` | propext, Classical.choice, Quot.sound |
| `OpenMS.QedAfqmc.hybrid_partial` | propext, Classical.choice, Quot.sound |
| `OpenMS.QedAfqmc.hybrid_fails` | propext, Classical.choice, Quot.sound |
| `OpenMS.QedAfqmc.propagation_spec` | propext, Classical.choice, Quot.sound |
| `OpenMS.QedAfqmc.nI_spec` | propext, Classical.choice, Quot.sound |
| `OpenMS.QedAfqmc.cmf_spec` | propext, Classical.choice, Quot.sound |
| `OpenMS.QedAfqmc.photon_partial` | propext, Classical.choice, Quot.sound |
| `OpenMS.QedAfqmc.photon_fails` | propext, Classical.choice, Quot.sound |
| `OpenMS.QedAfqmc.run_snoc` | propext, Classical.choice, Quot.sound |
| `OpenMS.QedAfqmc.field_spec` | propext, Classical.choice, Quot.sound |
| `OpenMS.Fdtd.gamma_bloch` | propext, Classical.choice, Quot.sound |
| `OpenMS.Fdtd.gamma_tri_partial` | propext, Classical.choice, Quot.sound |
| `OpenMS.Fdtd.gamma_odd_fails` | propext, Classical.choice, Quot.sound |
| `OpenMS.QedFci.ebNew_spec` | propext, Classical.choice, Quot.sound |
| `OpenMS.QedFci.ebNew_uniform` | propext, Classical.choice, Quot.sound |
| `OpenMS.QedFci.ebNew_fails` | propext, Classical.choice, Quot.sound |
| `OpenMS.QedFci.ebNew_one_fails` | propext, Classical.choice, Quot.sound |
| `OpenMS.QedFci.ebNew_matrix` | propext, Classical.choice, Quot.sound |
| `OpenMS.QedFci.bbFull_eq` | propext, Classical.choice, Quot.sound |
| `OpenMS.QedFci.bbFull_partial` | propext, Classical.choice, Quot.sound |
| `OpenMS.QedFci.bbFull_fails` | propext, Classical.choice, Quot.sound |
| `OpenMS.QedFci.bbFull_modes_fails` | propext, Classical.choice, Quot.sound |
| `OpenMS.QedFci.rdm1p_partial` | propext, Classical.choice, Quot.sound |
| `OpenMS.QedFci.rdm1p_fails` | propext, Classical.choice, Quot.sound |
| `OpenMS.ForceBias.force_bias_partial` | propext, Classical.choice, Quot.sound |
| `OpenMS.ForceBias.force_bias_gauge` | propext, Classical.choice, Quot.sound |
| `OpenMS.ForceBias.force_bias_fails` | propext, Classical.choice, Quot.sound |
| `OpenMS.ForceBias.force_bias_transposed_fails` | propext, Classical.choice, Quot.sound |
| `OpenMS.ForceBias.stored_bias_fails` | propext, Classical.choice, Quot.sound |
| `OpenMS.ForceBias.forceBias_singular` | propext, Classical.choice, Quot.sound |
| `OpenMS.ForceBias.force_bias_boson_fails` | propext, Classical.choice, Quot.sound |
| `OpenMS.ForceBias.muQc_spec` | propext, Classical.choice, Quot.sound |
| `OpenMS.ForceBias.qed_energy_partial` | propext, Classical.choice, Quot.sound |
| `OpenMS.ForceBias.qed_energy_fails` | propext, Classical.choice, Quot.sound |
| `OpenMS.ForceBias.qed_photons_same` | propext, Classical.choice, Quot.sound |
| `OpenMS.ForceBias.qed_photons_fails` | propext, Classical.choice, Quot.sound |
| `OpenMS.AfqmcIntegrals.dse_spec` | propext, Classical.choice, Quot.sound |
| `OpenMS.AfqmcIntegrals.integrals_partial` | propext, Classical.choice, Quot.sound |
| `OpenMS.AfqmcIntegrals.one_body_fails` | propext, Classical.choice, Quot.sound |
| `OpenMS.AfqmcIntegrals.names_fails` | propext, Classical.choice, Quot.sound |
| `OpenMS.AfqmcIntegrals.construct_even` | propext, Classical.choice, Quot.sound |
| `OpenMS.AfqmcIntegrals.complete_basis` | propext, Classical.choice, Quot.sound |
| `OpenMS.AfqmcIntegrals.origin_shift` | propext, Classical.choice, Quot.sound |
| `OpenMS.AfqmcIntegrals.construct_partial` | propext, Classical.choice, Quot.sound |
| `OpenMS.AfqmcIntegrals.shift_fails` | propext, Classical.choice, Quot.sound |
| `OpenMS.MsdOverlap.excited_partial` | propext, Classical.choice, Quot.sound |
| `OpenMS.MsdOverlap.names_fails` | propext, Classical.choice, Quot.sound |
| `OpenMS.MsdOverlap.range_refused` | propext, Classical.choice, Quot.sound |
| `OpenMS.MsdOverlap.axes_fails` | propext, Classical.choice, Quot.sound |
| `OpenMS.MsdOverlap.ones_fails` | propext, Classical.choice, Quot.sound |
| `OpenMS.LineShapes.gauss_spec` | propext, Classical.choice, Quot.sound |
| `OpenMS.LineShapes.lorentz_partial` | propext, Classical.choice, Quot.sound |
| `OpenMS.LineShapes.lorentz_area_fails` | propext, Classical.choice, Quot.sound |
| `OpenMS.LineShapes.width_fails` | propext, Classical.choice, Quot.sound |
| `OpenMS.DiscreteField.mean_spec` | propext, Classical.choice, Quot.sound |
| `OpenMS.DiscreteField.overlap_spec` | propext, Classical.choice, Quot.sound |
| `OpenMS.DiscreteField.importance_partial` | propext, Classical.choice, Quot.sound |
| `OpenMS.DiscreteField.weight_spec` | propext, Classical.choice, Quot.sound |
| `OpenMS.DiscreteField.sites_spec` | propext, Classical.choice, Quot.sound |
| `OpenMS.DiscreteField.names_fails` | propext, Classical.choice, Quot.sound |
| `OpenMS.DressedJK.numba_j_partial` | propext, Classical.choice, Quot.sound |
| `OpenMS.DressedJK.numba_k_partial` | propext, Classical.choice, Quot.sound |
| `OpenMS.DressedJK.numba_k_fails` | propext, Classical.choice, Quot.sound |
| `OpenMS.DressedJK.names_fails` | propext, Classical.choice, Quot.sound |
| `OpenMS.DressedJK.chols_partial` | propext, Classical.choice, Quot.sound |
| `OpenMS.DressedJK.last_mode` | propext, Classical.choice, Quot.sound |
| `OpenMS.DressedJK.modes_fails` | propext, Classical.choice, Quot.sound |
| `OpenMS.AufbauOcc.aufbau` | propext, Classical.choice, Quot.sound |
| `OpenMS.AufbauOcc.count_partial` | propext, Classical.choice, Quot.sound |
| `OpenMS.AufbauOcc.count_fails` | propext, Classical.choice, Quot.sound |
| `OpenMS.AufbauOcc.minimal` | propext, Classical.choice, Quot.sound |
| `OpenMS.AufbauOcc.warns_partial` | propext, Classical.choice, Quot.sound |
| `OpenMS.AufbauOcc.warns_fails` | propext, Classical.choice, Quot.sound |
| `OpenMS.LowRankPlan.error_eq` | propext, Classical.choice, Quot.sound |
| `OpenMS.LowRankPlan.error_le` | propext, Classical.choice, Quot.sound |
| `OpenMS.LowRankPlan.scale_fails` | propext, Classical.choice, Quot.sound |
