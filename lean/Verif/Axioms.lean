import Verif.Props.AfqmcIntegrals
import Verif.Props.Aggregates
import Verif.Props.AufbauOcc
import Verif.Props.Autocorr
import Verif.Props.Bilinear
import Verif.Props.BilinearStep
import Verif.Props.BosonBuild
import Verif.Props.BosonInit
import Verif.Props.BosonJK
import Verif.Props.BosonStart
import Verif.Props.Branching
import Verif.Props.BranchingActs
import Verif.Props.BranchingVariants
import Verif.Props.CcIntegrals
import Verif.Props.Ccsd
import Verif.Props.CcsdStep
import Verif.Props.CholOrth
import Verif.Props.Cholesky
import Verif.Props.ControlRun
import Verif.Props.Diis
import Verif.Props.DipoleBasis
import Verif.Props.DiscreteField
import Verif.Props.Displacement
import Verif.Props.DisplacementCpp
import Verif.Props.DisplacementOperator
import Verif.Props.DressedJK
import Verif.Props.Dressing
import Verif.Props.Energy
import Verif.Props.EnergyBoson
import Verif.Props.EstimatorElec
import Verif.Props.Exchange
import Verif.Props.FakeMpi
import Verif.Props.FarField
import Verif.Props.FciHubbard
import Verif.Props.FciIntegrals
import Verif.Props.FciPhonon
import Verif.Props.Fdtd
import Verif.Props.FdtdBloch
import Verif.Props.FdtdEnergy
import Verif.Props.FdtdGrid
import Verif.Props.FdtdLayer
import Verif.Props.FdtdMetal
import Verif.Props.FdtdObjects
import Verif.Props.FdtdOutput
import Verif.Props.FdtdParity
import Verif.Props.FdtdSource
import Verif.Props.FdtdTri
import Verif.Props.Fft
import Verif.Props.ForceBias
import Verif.Props.ForceBiasOld
import Verif.Props.GradTogether
import Verif.Props.Green
import Verif.Props.Gutzwiller
import Verif.Props.HHInts
import Verif.Props.Hopping
import Verif.Props.HubbardInts
import Verif.Props.Hyperbolic
import Verif.Props.Incoherent
import Verif.Props.Integrals
import Verif.Props.JointFields
import Verif.Props.JointStep
import Verif.Props.JointWeight
import Verif.Props.Kernels
import Verif.Props.Lattice
import Verif.Props.LineShapes
import Verif.Props.LowRankPlan
import Verif.Props.ManyBody
import Verif.Props.MeanFields
import Verif.Props.Measure
import Verif.Props.MpiGrid
import Verif.Props.MsdOverlap
import Verif.Props.MultiDet
import Verif.Props.Offset
import Verif.Props.Options
import Verif.Props.OrgDensity
import Verif.Props.Packing
import Verif.Props.Photon
import Verif.Props.PolarMap
import Verif.Props.ProductStep
import Verif.Props.Propagate
import Verif.Props.PropagatorBuild
import Verif.Props.PyTiles
import Verif.Props.QedAfqmc
import Verif.Props.QedFci
import Verif.Props.QedFciDensity
import Verif.Props.QedFciElec
import Verif.Props.QedLib
import Verif.Props.QedccDress
import Verif.Props.QedccExec
import Verif.Props.QedccS
import Verif.Props.QedccSingle
import Verif.Props.QedccT
import Verif.Props.QedccU1
import Verif.Props.QedccU12
import Verif.Props.QedccU21
import Verif.Props.QedccU22
import Verif.Props.QmcIntegrals
import Verif.Props.Qmd
import Verif.Props.Resampling
import Verif.Props.Restart
import Verif.Props.Run
import Verif.Props.ScQedHF
import Verif.Props.ScfCycle
import Verif.Props.ScfLoop
import Verif.Props.Schedule
import Verif.Props.Seeding
import Verif.Props.Spin
import Verif.Props.Splitting
import Verif.Props.Stats
import Verif.Props.Step
import Verif.Props.Subspace
import Verif.Props.Support
import Verif.Props.TiledTensor
import Verif.Props.TrialBias
import Verif.Props.TrialBoson
import Verif.Props.Vmc
import Verif.Props.Walkers
import Verif.Props.WeightProduct
import Verif.Props.WeightUpdate

/-!
# Axioms of the property theorems

The build prints the axioms every theorem of `MANIFEST.json` depends on.
-/

#print axioms OpenMS.PopulationControl.branching_count
#print axioms OpenMS.PopulationControl.branching_rejects
#print axioms OpenMS.PopulationControl.branching_total_weight
#print axioms OpenMS.PopulationControl.branching_unbiased
#print axioms OpenMS.PopulationControl.branching_natural
#print axioms OpenMS.PopulationControl.branching_signed_total_partial
#print axioms OpenMS.PopulationControl.branching_signed_total_fails
#print axioms OpenMS.PopulationControl.branching_constant_count_partial
#print axioms OpenMS.PopulationControl.branching_constant_weight_fails
#print axioms OpenMS.PopulationControl.branching_dynamics_count_partial
#print axioms OpenMS.PopulationControl.branching_dynamics_weight_fails
#print axioms OpenMS.PopulationControl.reconfiguration_size
#print axioms OpenMS.PopulationControl.reconfiguration_rejects
#print axioms OpenMS.PopulationControl.reconfiguration_copies
#print axioms OpenMS.PopulationControl.comb_size
#print axioms OpenMS.PopulationControl.comb_copies_partial
#print axioms OpenMS.PopulationControl.comb_copies_fails
#print axioms OpenMS.PopulationControl.reconfiguration_unbiased
#print axioms OpenMS.PopulationControl.comb_unbiased
#print axioms OpenMS.PopulationControl.population_control_unknown
#print axioms OpenMS.PopulationControl.population_control_known
#print axioms OpenMS.PopulationControl.threshold_split
#print axioms OpenMS.PopulationControl.threshold_unbiased
#print axioms OpenMS.PopulationControl.threshold_keep
#print axioms OpenMS.Walkers.walker_distribution
#print axioms OpenMS.Walkers.walker_blocks
#print axioms OpenMS.Walkers.rebalance_plan_partial
#print axioms OpenMS.Walkers.rebalance_fails
#print axioms OpenMS.Walkers.rebalance_keeps_counts
#print axioms OpenMS.Walkers.weight_control_clip
#print axioms OpenMS.Walkers.weight_control_first
#print axioms OpenMS.Walkers.weight_control_normalise
#print axioms OpenMS.Run.weights_nonneg
#print axioms OpenMS.Walkers.pack_unpack_partial
#print axioms OpenMS.Walkers.unpack_stale_fails
#print axioms OpenMS.Walkers.unpack_keeps_energies
#print axioms OpenMS.Measure.measurements
#print axioms OpenMS.Measure.buffers_cleared
#print axioms OpenMS.Propagators.fbias_bound_partial
#print axioms OpenMS.Propagators.fbias_bound_fails
#print axioms OpenMS.Propagators.updateHybrid_eq
#print axioms OpenMS.Propagators.update_hybrid_partial
#print axioms OpenMS.Propagators.hybrid_phase_projection_fails
#print axioms OpenMS.Propagators.hybrid_ignores_overlap_phase
#print axioms OpenMS.Propagators.update_local
#print axioms OpenMS.Propagators.update_scheme
#print axioms OpenMS.Propagators.taylor_sum
#print axioms OpenMS.Propagators.taylor_linear
#print axioms OpenMS.Propagators.taylor_walkers
#print axioms OpenMS.Propagators.taylor_tendsto
#print axioms OpenMS.Propagators.cfb_ratio
#print axioms OpenMS.Propagators.shift_invariant
#print axioms OpenMS.Green.gf_singular
#print axioms OpenMS.Green.gf_projector
#print axioms OpenMS.Green.gf_gauge
#print axioms OpenMS.Green.gf_implementations
#print axioms OpenMS.Bilinear.bilinear_exact
#print axioms OpenMS.Bilinear.coupling_commute
#print axioms OpenMS.Bilinear.bilinear_scheme3_fails
#print axioms OpenMS.Bilinear.bilinear_rejects
#print axioms OpenMS.Energy.coulomb_exact
#print axioms OpenMS.Energy.exchange_exact
#print axioms OpenMS.Energy.local_energy_exact
#print axioms OpenMS.Energy.chol_new_exact
#print axioms OpenMS.Energy.coulomb_numba_fails
#print axioms OpenMS.Energy.chol_new_complex_fails
#print axioms OpenMS.Energy.eboson_code
#print axioms OpenMS.Energy.eboson_partial
#print axioms OpenMS.Energy.eboson_two_modes_fails
#print axioms OpenMS.Energy.adag_plus_a_exact
#print axioms OpenMS.Energy.boson_energy
#print axioms OpenMS.Energy.boson_energy_ragged
#print axioms OpenMS.Energy.energy_distribution
#print axioms OpenMS.Energy.energy_sums
#print axioms OpenMS.Energy.energy_total
#print axioms OpenMS.Energy.energy_boson_partial
#print axioms OpenMS.Energy.energy_boson_fails
#print axioms OpenMS.Integrals.fcidump_partial
#print axioms OpenMS.Integrals.fcidump_exchange_fails
#print axioms OpenMS.Integrals.fcidump_read_back
#print axioms OpenMS.Integrals.fcidump_stored
#print axioms OpenMS.Integrals.fcidump_no_nuc
#print axioms OpenMS.Integrals.chols_blocked_spec
#print axioms OpenMS.Integrals.chols_blocked_default
#print axioms OpenMS.Stats.mean_std_window
#print axioms OpenMS.Stats.auto_window_valid
#print axioms OpenMS.Stats.auto_window_partial
#print axioms OpenMS.Stats.auto_window_fails
#print axioms OpenMS.Stats.zscore_nonempty_partial
#print axioms OpenMS.Stats.zscore_constant_fails
#print axioms OpenMS.Stats.percentile_isQuantile
#print axioms OpenMS.Stats.iqr_nonempty
#print axioms OpenMS.Stats.iqr_constant
#print axioms OpenMS.Options.options_partial
#print axioms OpenMS.Options.options_fails
#print axioms OpenMS.Boson.packed_index_bijection
#print axioms OpenMS.Boson.pack_entries
#print axioms OpenMS.Boson.unpack_pack
#print axioms OpenMS.Boson.pack_unpack
#print axioms OpenMS.Boson.packed_dot
#print axioms OpenMS.Boson.unpack_doubled
#print axioms OpenMS.Boson.packed_eq_direct
#print axioms OpenMS.Boson.displacement_derivative
#print axioms OpenMS.Boson.displacement_deriv_partial
#print axioms OpenMS.Boson.displacement_deriv_fails
#print axioms OpenMS.Photon.energy_nonneg
#print axioms OpenMS.Photon.energy_gradient
#print axioms OpenMS.Photon.squeezed_energy_partial
#print axioms OpenMS.Photon.squeezed_energy_fails
#print axioms OpenMS.Photon.energy_identity
#print axioms OpenMS.Photon.photon_energy_modes
#print axioms OpenMS.Photon.dressed_energy
#print axioms OpenMS.Photon.oei_gradient_partial
#print axioms OpenMS.Photon.vjk_gradient_partial
#print axioms OpenMS.Photon.oei_gradient_one_mode
#print axioms OpenMS.Photon.oei_gradient_fails
#print axioms OpenMS.Photon.dse_origin_invariant
#print axioms OpenMS.Photon.cavity_energy_eq
#print axioms OpenMS.Photon.cs_photon_vacuum
#print axioms OpenMS.Photon.mode_vectors_partial
#print axioms OpenMS.Photon.mode_vectors_stored
#print axioms OpenMS.Photon.mode_vectors_fails
#print axioms OpenMS.Photon.ham_structure
#print axioms OpenMS.ScQed.fc_contraction
#print axioms OpenMS.ScQed.fc_contraction_two
#print axioms OpenMS.ScQed.factor_vacuum
#print axioms OpenMS.ScQed.energy_closed
#print axioms OpenMS.ScQed.eta_derivative
#print axioms OpenMS.ScQed.eta_gradient_partial
#print axioms OpenMS.ScQed.eta_gradient_fails
#print axioms OpenMS.ScQed.factor_deriv_squeezing
#print axioms OpenMS.ScQed.factor_deriv_fraction
#print axioms OpenMS.ScQed.squeezing_gradient
#print axioms OpenMS.ScQed.fraction_gradient
#print axioms OpenMS.ScQed.fraction_gradient_fails
#print axioms OpenMS.ScQed.rao_orthonormal
#print axioms OpenMS.ScQed.initial_orthonormal_partial
#print axioms OpenMS.ScQed.initial_orthonormal_fails
#print axioms OpenMS.Scf.incremental_bare
#print axioms OpenMS.Scf.incremental_partial
#print axioms OpenMS.Scf.incremental_fails
#print axioms OpenMS.Scf.converged_partial
#print axioms OpenMS.Scf.converged_fails
#print axioms OpenMS.ScQed.params_roundtrip_partial
#print axioms OpenMS.ScQed.params_roundtrip_fails
#print axioms OpenMS.ScQed.org_density_partial
#print axioms OpenMS.ScQed.org_density_undisplaced
#print axioms OpenMS.ScQed.org_density_sc_fails
#print axioms OpenMS.ScQed.populations_value
#print axioms OpenMS.ScQed.populations_poisson_partial
#print axioms OpenMS.ScQed.populations_poisson_fails
#print axioms OpenMS.QedFci.c47_matrix_elements
#print axioms OpenMS.QedFci.c47_adjoint
#print axioms OpenMS.QedFci.c47_number
#print axioms OpenMS.QedFci.c47_commutator
#print axioms OpenMS.QedFci.c47_different_modes
#print axioms OpenMS.QedFci.c48_one_dimensional
#print axioms OpenMS.QedFci.c48_displaced
#print axioms OpenMS.QedFci.c48_kernel_partial
#print axioms OpenMS.QedFci.c48_kernel_raises
#print axioms OpenMS.QedFci.c48_kernel_fails
#print axioms OpenMS.QedFci.c49_absorb
#print axioms OpenMS.Ccsd.split_join_partial
#print axioms OpenMS.Ccsd.join_split
#print axioms OpenMS.Ccsd.join_split_electronic_partial
#print axioms OpenMS.Ccsd.join_split_fails
#print axioms OpenMS.Ccsd.diis_ignores_bosons_fails
#print axioms OpenMS.Ccsd.vector_contents
#print axioms OpenMS.Ccsd.diis_electronic
#print axioms OpenMS.Ccsd.ret_module_partial
#print axioms OpenMS.Ccsd.ret_class_fails
#print axioms OpenMS.Ccsd.arguments_shifted_fails
#print axioms OpenMS.Ccsd.dsn_correct
#print axioms OpenMS.Ccsd.first_order_correct
#print axioms OpenMS.Ccsd.single_mode_partial
#print axioms OpenMS.Ccsd.several_modes_fails
#print axioms OpenMS.Ccsd.several_modes_raises
#print axioms OpenMS.Qmd.rk4_linear
#print axioms OpenMS.Qmd.rk4_simpson
#print axioms OpenMS.Qmd.rk4_cubic
#print axioms OpenMS.Qmd.offdiagonal_partial
#print axioms OpenMS.Qmd.pairs_raise_fails
#print axioms OpenMS.Qmd.energies_lost_fails
#print axioms OpenMS.Qmd.rescaling_spec
#print axioms OpenMS.Qmd.one_hop_partial
#print axioms OpenMS.Qmd.many_hops_fails
#print axioms OpenMS.Qmd.rescaling_exact
#print axioms OpenMS.Qmd.candidates_spec
#print axioms OpenMS.Lattice.hubbard_hopping_partial
#print axioms OpenMS.Lattice.hubbard_single_site_fails
#print axioms OpenMS.Lattice.hh_hopping_partial
#print axioms OpenMS.Lattice.hh_two_sites_fails
#print axioms OpenMS.Lattice.hubbard_energy
#print axioms OpenMS.Support.setBackend_cases
#print axioms OpenMS.Support.all_or_nothing_partial
#print axioms OpenMS.Support.history_partial
#print axioms OpenMS.Support.half_switch_fails
#print axioms OpenMS.Support.tiledArray_fails
#print axioms OpenMS.Support.request_succeeds
#print axioms OpenMS.Support.verbosity_partial
#print axioms OpenMS.Support.kinds_ordered
#print axioms OpenMS.Support.error_raises_fails
#print axioms OpenMS.Support.class_monotone
#print axioms OpenMS.Support.class_error_hidden_fails
#print axioms OpenMS.Support.shown_iff
#print axioms OpenMS.Support.class_own_level
#print axioms OpenMS.TrialBoson.positionDerivatives
#print axioms OpenMS.TrialBoson.momentumDerivatives
#print axioms OpenMS.TrialBoson.zero_variance
#print axioms OpenMS.TrialBoson.localEnergy_is_hamiltonian
#print axioms OpenMS.TrialBoson.coherent_normalised
#print axioms OpenMS.TrialBoson.coherent_cutoff
#print axioms OpenMS.TrialBoson.fockTrial_norm
#print axioms OpenMS.TrialBoson.coherent_eigenstate
#print axioms OpenMS.TrialBoson.fockTrial_eigenstate
#print axioms OpenMS.Support.electron_counts
#print axioms OpenMS.Support.precond_partial
#print axioms OpenMS.Support.davidson_fails
#print axioms OpenMS.Support.config_partial
#print axioms OpenMS.Support.config_others
#print axioms OpenMS.Support.config_none_fails
#print axioms OpenMS.Propagators.hs_average
#print axioms OpenMS.Green.orthogonalisation_partial
#print axioms OpenMS.Green.orthogonalisation_overlap_fails
#print axioms OpenMS.Green.orthogonalisation_boson_fails
#print axioms OpenMS.Step.step_bias
#print axioms OpenMS.Green.vbias_full
#print axioms OpenMS.Green.overlap_derivative
#print axioms OpenMS.Green.vbias_log_derivative
#print axioms OpenMS.Energy.exx_mixed_partial
#print axioms OpenMS.Energy.blksize_covers
#print axioms OpenMS.Energy.blksize_attained
#print axioms OpenMS.Energy.blksize_zero_raises
#print axioms OpenMS.Energy.exx_mixed_fails
#print axioms OpenMS.Energy.stochastic_ri_unbiased
#print axioms OpenMS.Integrals.find_shell
#print axioms OpenMS.Integrals.coupling_chunk_partial
#print axioms OpenMS.Integrals.coupling_chunk_fails
#print axioms OpenMS.Stats.acf_direct
#print axioms OpenMS.Stats.acf_normalised
#print axioms OpenMS.Stats.acf_constant
#print axioms OpenMS.Stats.autocorr_time_window
#print axioms OpenMS.Stats.acf_documented_fails
#print axioms OpenMS.Stats.block_analysis_partial
#print axioms OpenMS.Stats.block_analysis_fails
#print axioms OpenMS.Stats.analysis_constant_fails
#print axioms OpenMS.Options.nwalkers_partial
#print axioms OpenMS.Options.weight_bounds_ignored_fails
#print axioms OpenMS.Boson.displacement_operator_partial
#print axioms OpenMS.Boson.displacement_operator_fails
#print axioms OpenMS.Photon.populations_partial
#print axioms OpenMS.Photon.populations_fails
#print axioms OpenMS.Photon.ph_exp_val_eq
#print axioms OpenMS.Photon.bilinear_value
#print axioms OpenMS.Photon.bilinear_partial
#print axioms OpenMS.Photon.bilinear_fails
#print axioms OpenMS.ScQed.cholesky_agrees
#print axioms OpenMS.QedFci.c83_contract_1e
#print axioms OpenMS.QedFci.c83_contract_2e
#print axioms OpenMS.QedFci.c84_contract_eb
#print axioms OpenMS.QedFci.c85_plain_partial
#print axioms OpenMS.QedFci.c85_missing_term
#print axioms OpenMS.QedFci.c85_coherent_fails
#print axioms OpenMS.QedFci.c86_expectation
#print axioms OpenMS.QedFci.c86_trace
#print axioms OpenMS.QedFci.c86_symmetric
#print axioms OpenMS.Qmd.stages_partial
#print axioms OpenMS.Qmd.first_stage_fails
#print axioms OpenMS.Qmd.documented_conserves
#print axioms OpenMS.Qmd.coefDot_partial
#print axioms OpenMS.Qmd.coefDot_fails
#print axioms OpenMS.Qmd.bomd_constructs_partial
#print axioms OpenMS.Qmd.mqc_construct_fails
#print axioms OpenMS.Qmd.bomd_run_fails
#print axioms OpenMS.Qmd.verlet_reversible
#print axioms OpenMS.Qmd.verlet_constant_force
#print axioms OpenMS.Qmd.verlet_momentum
#print axioms OpenMS.Lattice.dma_hamiltonian
#print axioms OpenMS.Lattice.dipole_sum_rule
#print axioms OpenMS.Lattice.spectrum_nonneg
#print axioms OpenMS.Lattice.dipole_completeness
#print axioms OpenMS.Lattice.line_width
#print axioms OpenMS.Lattice.hh_energy_minimal
#print axioms OpenMS.Lattice.hh_electrons_partial
#print axioms OpenMS.Lattice.hh_electrons_fails
#print axioms OpenMS.PopulationControl.branching_acts
#print axioms OpenMS.PopulationControl.branching_acts_even
#print axioms OpenMS.Propagators.force_bias_optimal
#print axioms OpenMS.Propagators.force_bias_unique
#print axioms OpenMS.Run.run_conserves
#print axioms OpenMS.Run.run_total
#print axioms OpenMS.Run.control_conserves
#print axioms OpenMS.Run.uniform_population_partial
#print axioms OpenMS.Run.uniform_population_fails
#print axioms OpenMS.Run.initState_uniform
#print axioms OpenMS.Seeding.seed_partial
#print axioms OpenMS.Seeding.debug_matches_serial_partial
#print axioms OpenMS.Seeding.scatter_covers
#print axioms OpenMS.Seeding.seed_fails
#print axioms OpenMS.Seeding.seed_not_reproducible_fails
#print axioms OpenMS.Seeding.ranks_not_independent_fails
#print axioms OpenMS.Seeding.debug_branching_fails
#print axioms OpenMS.Measure.second_run_partial
#print axioms OpenMS.Measure.second_run_energies
#print axioms OpenMS.Measure.second_run_leftovers
#print axioms OpenMS.Measure.second_run_fails
#print axioms OpenMS.PropBuild.mean_field_hamiltonian_partial
#print axioms OpenMS.PropBuild.mean_field_hamiltonian_fails
#print axioms OpenMS.PropBuild.generator_eq
#print axioms OpenMS.PropBuild.square_normal_order
#print axioms OpenMS.PropBuild.joint_hamiltonian
#print axioms OpenMS.PropBuild.joint_hamiltonian_partial
#print axioms OpenMS.PropBuild.joint_hamiltonian_iff
#print axioms OpenMS.PropBuild.missing_coupling
#print axioms OpenMS.PropBuild.joint_hamiltonian_fails
#print axioms OpenMS.Joint.joint_average_partial
#print axioms OpenMS.Joint.joint_average
#print axioms OpenMS.Joint.joint_average_code
#print axioms OpenMS.Joint.joint_average_fails
#print axioms OpenMS.Step.step_gauge
#print axioms OpenMS.Step.ortho_irrelevant
#print axioms OpenMS.Step.ortho_last
#print axioms OpenMS.Step.ghalf_gauge
#print axioms OpenMS.Step.free_step
#print axioms OpenMS.Step.zero_variance
#print axioms OpenMS.Step.free_run
#print axioms OpenMS.Step.det_free
#print axioms OpenMS.MultiDet.occupations_partial
#print axioms OpenMS.MultiDet.beta_count_iff
#print axioms OpenMS.MultiDet.frozen_balanced_iff
#print axioms OpenMS.MultiDet.high_spin_fails
#print axioms OpenMS.MultiDet.overlap_partial
#print axioms OpenMS.MultiDet.overlap_iff
#print axioms OpenMS.MultiDet.permutation_sign
#print axioms OpenMS.BosonInit.initZ_ok_iff
#print axioms OpenMS.BosonInit.initZ_coherent
#print axioms OpenMS.BosonInit.initZ_norm
#print axioms OpenMS.BosonInit.initZ_normalised_partial
#print axioms OpenMS.BosonInit.initZ_share
#print axioms OpenMS.BosonInit.initZ_normalised_fails
#print axioms OpenMS.BosonInit.makeTrial_spec
#print axioms OpenMS.BosonInit.makeTrial_normalised_fails
#print axioms OpenMS.FakeMpi.collective_spec
#print axioms OpenMS.FakeMpi.wrong_shape
#print axioms OpenMS.FakeMpi.scatterv_fails
#print axioms OpenMS.FakeMpi.gatherv_fails
#print axioms OpenMS.FakeMpi.messages_partial
#print axioms OpenMS.FakeMpi.messages_fails
#print axioms OpenMS.Step.splitting
#print axioms OpenMS.Step.move_second_order
#print axioms OpenMS.Step.force_bias_irrelevant
#print axioms OpenMS.Step.step_mean
#print axioms OpenMS.ManyBody.hamiltonian_mean
#print axioms OpenMS.ManyBody.step_hamiltonian
#print axioms OpenMS.Step.step_weight
#print axioms OpenMS.Step.run_weight
#print axioms OpenMS.Step.run_overlap
#print axioms OpenMS.Step.trial_bias
#print axioms OpenMS.Step.trial_bias_zero
#print axioms OpenMS.Step.trial_bias_iff
#print axioms OpenMS.Step.trial_first_step
#print axioms OpenMS.JointStep.joint_weight
#print axioms OpenMS.JointStep.joint_mean
#print axioms OpenMS.JointStep.joint_step
#print axioms OpenMS.JointStep.joint_step_iff
#print axioms OpenMS.JointStep.coupling_invisible
#print axioms OpenMS.JointStep.joint_step_fails
#print axioms OpenMS.ProductStep.product_weight
#print axioms OpenMS.ProductStep.product_mean
#print axioms OpenMS.ProductStep.product_step
#print axioms OpenMS.ProductStep.product_element_iff
#print axioms OpenMS.ProductStep.product_iff
#print axioms OpenMS.ProductStep.qalpha_mean
#print axioms OpenMS.ProductStep.zlambda_mean
#print axioms OpenMS.ProductStep.single_step
#print axioms OpenMS.ProductStep.single_iff
#print axioms OpenMS.ProductStep.product_fails
#print axioms OpenMS.ProductStep.fields_perm
#print axioms OpenMS.ProductStep.fields_weights
#print axioms OpenMS.ProductStep.fields_gauge
#print axioms OpenMS.ProductStep.field_real
#print axioms OpenMS.ProductStep.field_scale
#print axioms OpenMS.ProductStep.field_scale_iff
#print axioms OpenMS.ProductStep.field_expectation_iff
#print axioms OpenMS.ProductStep.qalpha_local_iff
#print axioms OpenMS.ProductStep.zlambda_local_iff
#print axioms OpenMS.ProductStep.population_step
#print axioms OpenMS.ProductStep.split_fails
#print axioms OpenMS.ProductStep.scale_fails
#print axioms OpenMS.JointStep.jstep_scale
#print axioms OpenMS.Qedcc.opt_T1_eq
#print axioms OpenMS.Qedcc.opt_T2_eq
#print axioms OpenMS.Qedcc.T2_antisymm_left
#print axioms OpenMS.Qedcc.T2_antisymm_right
#print axioms OpenMS.Qedcc.ref_S1_derivative
#print axioms OpenMS.Qedcc.opt_S1_derivative
#print axioms OpenMS.Qedcc.ref_S2_derivative
#print axioms OpenMS.Qedcc.opt_S2_derivative
#print axioms OpenMS.Qedcc.opt_S_eq_ref
#print axioms OpenMS.Qedcc.ref_U11_derivative
#print axioms OpenMS.Qedcc.opt_U11_derivative
#print axioms OpenMS.Qedcc.opt_U11_eq_ref
#print axioms OpenMS.Qedcc.ref_U21_derivative
#print axioms OpenMS.Qedcc.opt_U21_error
#print axioms OpenMS.Qedcc.opt_U21_derivative_partial
#print axioms OpenMS.Qedcc.opt_U21_derivative_fails
#print axioms OpenMS.Qedcc.ref_U12_error
#print axioms OpenMS.Qedcc.ref_U12_derivative_partial
#print axioms OpenMS.Qedcc.opt_U12_error
#print axioms OpenMS.Qedcc.opt_U12_one
#print axioms OpenMS.Qedcc.ref_U12_derivative_fails
#print axioms OpenMS.Qedcc.opt_U12_derivative_fails
#print axioms OpenMS.Qedcc.opt_U12_symmetry_fails
#print axioms OpenMS.Qedcc.opt_U22_error
#print axioms OpenMS.Qedcc.ref_U22_error
#print axioms OpenMS.Qedcc.opt_U22_derivative_partial
#print axioms OpenMS.Qedcc.U22_derivative_fails
#print axioms OpenMS.Qedcc.one_U11_derivative
#print axioms OpenMS.Qedcc.one_U12_derivative
#print axioms OpenMS.Qedcc.one_U21_error
#print axioms OpenMS.Qedcc.one_U22_error
#print axioms OpenMS.Qedcc.one_U22_error_two
#print axioms OpenMS.Qedcc.one_U21_derivative_fails
#print axioms OpenMS.Qedcc.one_U22_derivative_fails
#print axioms OpenMS.Qedcc.opt_T1_text
#print axioms OpenMS.Qedcc.ref_T1_text
#print axioms OpenMS.Qedcc.opt_T2_text
#print axioms OpenMS.Qedcc.ref_T2_text
#print axioms OpenMS.Qedcc.dress_F
#print axioms OpenMS.Qedcc.dress_I
#print axioms OpenMS.Qedcc.dress_g
#print axioms OpenMS.Qedcc.expT1_inv
#print axioms OpenMS.Qedcc.stepT1_fixed
#print axioms OpenMS.Qedcc.stepT2_fixed
#print axioms OpenMS.Qedcc.stepS1_fixed
#print axioms OpenMS.Qedcc.stepS2_fixed
#print axioms OpenMS.Qedcc.stepU11_fixed
#print axioms OpenMS.Qedcc.stepS1_fails
#print axioms OpenMS.Qedcc.stepU11_fails
#print axioms OpenMS.Qedcc.mix_fixed
#print axioms OpenMS.Qedcc.mix_between
#print axioms OpenMS.Qedcc.ref_runs_partial
#print axioms OpenMS.Qedcc.opt_runs_partial
#print axioms OpenMS.Qedcc.ref_truncation
#print axioms OpenMS.Qedcc.opt_truncation
#print axioms OpenMS.Qedcc.U2n_runs_iff
#print axioms OpenMS.Qedcc.U2n_runs_fails
#print axioms OpenMS.Qedcc.imds_runs_fails
#print axioms OpenMS.Qedcc.ref_runs_fails
#print axioms OpenMS.CcIntegrals.I_eq
#print axioms OpenMS.CcIntegrals.I_symm
#print axioms OpenMS.CcIntegrals.fock_consistent_partial
#print axioms OpenMS.CcIntegrals.fock_bare
#print axioms OpenMS.CcIntegrals.fock_consistent_fails
#print axioms OpenMS.CcIntegrals.F_canonical
#print axioms OpenMS.CcIntegrals.F_shift
#print axioms OpenMS.CcIntegrals.F_shift_fails
#print axioms OpenMS.CcIntegrals.xi_linear
#print axioms OpenMS.CcIntegrals.mfG_eq
#print axioms OpenMS.CcIntegrals.mfG_linear
#print axioms OpenMS.CcIntegrals.kernelG_linear
#print axioms OpenMS.CcIntegrals.kernelG_partial
#print axioms OpenMS.CcIntegrals.kernelG_fails
#print axioms OpenMS.CcIntegrals.hfEnergy_eq
#print axioms OpenMS.CcIntegrals.hfEnergy_shift
#print axioms OpenMS.CcIntegrals.hfEnergy_fails
#print axioms OpenMS.CcIntegrals.getJk_partial
#print axioms OpenMS.CcIntegrals.getJk_fails
#print axioms OpenMS.CcIntegrals.getGmatSo_iff
#print axioms OpenMS.CcIntegrals.getGmatSo_fails
#print axioms OpenMS.CcIntegrals.getGmatSo_partial
#print axioms OpenMS.Diis.err_zero
#print axioms OpenMS.Diis.err_zero_plain
#print axioms OpenMS.Diis.err_zero_spin
#print axioms OpenMS.Diis.err_zero_stack
#print axioms OpenMS.Diis.orth_zero
#print axioms OpenMS.Diis.orth_reduced
#print axioms OpenMS.Diis.orth_sym
#print axioms OpenMS.Diis.orth_sym_partial
#print axioms OpenMS.Diis.orth_sym_fails
#print axioms OpenMS.Diis.stationary
#print axioms OpenMS.Diis.update_partial
#print axioms OpenMS.Diis.ravel_get
#print axioms OpenMS.Diis.update_fails
#print axioms OpenMS.Diis.bookkeep_spec
#print axioms OpenMS.Gutzwiller.local_expect
#print axioms OpenMS.Gutzwiller.Hpp_isSome
#print axioms OpenMS.Gutzwiller.ground_fails
#print axioms OpenMS.Gutzwiller.ground_half_fails
#print axioms OpenMS.Gutzwiller.qpHam_symm
#print axioms OpenMS.Gutzwiller.qpHam_one
#print axioms OpenMS.Gutzwiller.docDelta_deriv
#print axioms OpenMS.Gutzwiller.deltas_partial
#print axioms OpenMS.Gutzwiller.deltas_fails
#print axioms OpenMS.Gutzwiller.lamdaErr_zero
#print axioms OpenMS.Gutzwiller.newLamda_fix
#print axioms OpenMS.Gutzwiller.init_iff
#print axioms OpenMS.Gutzwiller.init_fails
#print axioms OpenMS.Gutzwiller.renorm_mem
#print axioms OpenMS.Gutzwiller.renorm_uncut
#print axioms OpenMS.Gutzwiller.renorm_start
#print axioms OpenMS.Gutzwiller.newf_norm
#print axioms OpenMS.Gutzwiller.mixF_good
#print axioms OpenMS.Gutzwiller.run_good
#print axioms OpenMS.Gutzwiller.kernel_energy_fails
#print axioms OpenMS.Gutzwiller.conv_sticky
#print axioms OpenMS.Hyperbolic.row_re
#print axioms OpenMS.Hyperbolic.passive
#print axioms OpenMS.Hyperbolic.row_eq_doc_iff
#print axioms OpenMS.Hyperbolic.row_partial
#print axioms OpenMS.Hyperbolic.row_fails
#print axioms OpenMS.Hyperbolic.plasmonFreq_sq
#print axioms OpenMS.Hyperbolic.weight_fails
#print axioms OpenMS.Vmc.S_posSemidef
#print axioms OpenMS.Vmc.g_shift
#print axioms OpenMS.Vmc.S_shift
#print axioms OpenMS.Vmc.g_eigenstate
#print axioms OpenMS.Vmc.eMean_exact
#print axioms OpenMS.Vmc.g_derivative
#print axioms OpenMS.Vmc.g_complex_partial
#print axioms OpenMS.Vmc.g_complex_fails
#print axioms OpenMS.Vmc.kernel_iff
#print axioms OpenMS.Vmc.kernel_fails
#print axioms OpenMS.Spin.zfs_symm
#print axioms OpenMS.Spin.zfs_trace
#print axioms OpenMS.Spin.zfs_hamiltonian
#print axioms OpenMS.Spin.zfs_inj
#print axioms OpenMS.Spin.g_number
#print axioms OpenMS.Spin.g_stack_partial
#print axioms OpenMS.Spin.g_stack_fails
#print axioms OpenMS.Spin.g_single_fails
#print axioms OpenMS.Spin.ndim_half
#print axioms OpenMS.Spin.attr_set
#print axioms OpenMS.Spin.attr_DE_fails
#print axioms OpenMS.Spin.system_size_fails
#print axioms OpenMS.QedFci.elem_link
#print axioms OpenMS.QedFci.link_symm
#print axioms OpenMS.QedFci.link_diag
#print axioms OpenMS.QedFci.link_counts
#print axioms OpenMS.QedFci.link_pair
#print axioms OpenMS.QedFci.rdm1_agree
#print axioms OpenMS.QedFci.rdm12_energy
#print axioms OpenMS.QedFci.rdm2_trace
#print axioms OpenMS.QedFci.rdm2_pair_symm
#print axioms OpenMS.QedFci.hdiag_elec
#print axioms OpenMS.QedFci.hdiag_error
#print axioms OpenMS.QedFci.hdiag_iff
#print axioms OpenMS.QedFci.hdiag_fails
#print axioms OpenMS.Offset.offset_total
#print axioms OpenMS.Offset.offset_result
#print axioms OpenMS.Offset.offset_fails
#print axioms OpenMS.Offset.offset_partial
#print axioms OpenMS.Offset.opposite_sign
#print axioms OpenMS.Offset.adjust_eq
#print axioms OpenMS.Offset.systematic_eq
#print axioms OpenMS.Subspace.foldl_write
#print axioms OpenMS.Subspace.fillHerm_step
#print axioms OpenMS.Subspace.fillGen_step
#print axioms OpenMS.Subspace.growHerm_lower
#print axioms OpenMS.Subspace.fill_general
#print axioms OpenMS.Subspace.fill_hermitian_symm
#print axioms OpenMS.Subspace.fill_hermitian_iff
#print axioms OpenMS.Subspace.fill_agree
#print axioms OpenMS.FciIntegrals.dse_operator
#print axioms OpenMS.FciIntegrals.gmatLo_eq
#print axioms OpenMS.FciIntegrals.hep_partial
#print axioms OpenMS.FciIntegrals.hep_fails
#print axioms OpenMS.FciIntegrals.hep_square_iff
#print axioms OpenMS.FciIntegrals.dm_eq
#print axioms OpenMS.FciIntegrals.dm_right_trace
#print axioms OpenMS.FciIntegrals.dm_trace_iff
#print axioms OpenMS.FciIntegrals.dm_fails
#print axioms OpenMS.DipoleBasis.turned_iff
#print axioms OpenMS.DipoleBasis.top_group_fails
#print axioms OpenMS.DipoleBasis.all_equal_fails
#print axioms OpenMS.DipoleBasis.at_threshold_fails
#print axioms OpenMS.DipoleBasis.resolve_diag
#print axioms OpenMS.DipoleBasis.resolve_orthonormal
#print axioms OpenMS.DipoleBasis.resolve_fock
#print axioms OpenMS.DipoleBasis.resolve_spec
#print axioms OpenMS.DipoleBasis.chol_one_mode
#print axioms OpenMS.DipoleBasis.eri_last
#print axioms OpenMS.DipoleBasis.chol_first
#print axioms OpenMS.DipoleBasis.store_fails
#print axioms OpenMS.DipoleBasis.photonExpVal_eq
#print axioms OpenMS.DipoleBasis.photonExpVal_two_iff
#print axioms OpenMS.DipoleBasis.photonExpVal_fails
#print axioms OpenMS.Photon.jk_transpose
#print axioms OpenMS.Photon.jk_agree
#print axioms OpenMS.Photon.jk_residue_fails
#print axioms OpenMS.Photon.j_energy
#print axioms OpenMS.Photon.k_product
#print axioms OpenMS.Photon.jk_one_orbital
#print axioms OpenMS.Photon.bdagMinusB_eq
#print axioms OpenMS.Photon.bdagMinusB_fails
#print axioms OpenMS.QmcIntegrals.cholFull_exact_iff
#print axioms OpenMS.QmcIntegrals.cholFull_bound
#print axioms OpenMS.QmcIntegrals.negative_fails
#print axioms OpenMS.QmcIntegrals.bare_tensor
#print axioms OpenMS.QmcIntegrals.bare_tensor_svd
#print axioms OpenMS.QmcIntegrals.operator
#print axioms OpenMS.QmcIntegrals.extra_fields
#print axioms OpenMS.QmcIntegrals.geb_eq
#print axioms OpenMS.QmcIntegrals.bare_system
#print axioms OpenMS.QmcIntegrals.energy_two
#print axioms OpenMS.QmcIntegrals.energy_one
#print axioms OpenMS.QmcIntegrals.energy_chol
#print axioms OpenMS.Qmd.population_rate
#print axioms OpenMS.Qmd.densities_spec
#print axioms OpenMS.Qmd.hop_reverse
#print axioms OpenMS.Qmd.hop_correct_iff
#print axioms OpenMS.Qmd.hop_sign_fails
#print axioms OpenMS.Qmd.hop_raises_fails
#print axioms OpenMS.Qmd.hop_rows_partial
#print axioms OpenMS.QedFci.hubbard_scalar
#print axioms OpenMS.QedFci.hubbard_elecH
#print axioms OpenMS.QedFci.hubbard_triple_fails
#print axioms OpenMS.QedFci.hubbard_triple_mode_fails
#print axioms OpenMS.QedFci.hdiag_hubbard_fails
#print axioms OpenMS.QedFci.hdiag_hubbard_iff
#print axioms OpenMS.Energy.local_eng_error
#print axioms OpenMS.Energy.local_eng_iff
#print axioms OpenMS.Energy.local_eng_fails
#print axioms OpenMS.Energy.gfSo_spec
#print axioms OpenMS.Energy.uhf_build_fails
#print axioms OpenMS.Energy.exx_chunked
#print axioms OpenMS.Schedule.counts
#print axioms OpenMS.Schedule.times_eq
#print axioms OpenMS.Schedule.time_early_fails
#print axioms OpenMS.Schedule.kernels_agree_iff
#print axioms OpenMS.ScQed.together_eri
#print axioms OpenMS.ScQed.together_chol_sq
#print axioms OpenMS.ScQed.together_chol_eta
#print axioms OpenMS.ScQed.together_chol_two
#print axioms OpenMS.ScQed.together_chol_fails
#print axioms OpenMS.ScQed.cycle_energy
#print axioms OpenMS.ScQed.cycle_energy_partial
#print axioms OpenMS.ScQed.fock_three
#print axioms OpenMS.ScQed.cycle_eta
#print axioms OpenMS.ScQed.cycle_below_fails
#print axioms OpenMS.BilinearStep.elec_series
#print axioms OpenMS.BilinearStep.boson_series
#print axioms OpenMS.BilinearStep.boson_exp_partial
#print axioms OpenMS.BilinearStep.boson_exp_fails
#print axioms OpenMS.BilinearStep.elec_limit
#print axioms OpenMS.BilinearStep.boson_limit_fails
#print axioms OpenMS.Lattice.aint_orders
#print axioms OpenMS.Lattice.same_spin_zero
#print axioms OpenMS.Lattice.spin_blocks
#print axioms OpenMS.Lattice.fock_blocks
#print axioms OpenMS.Lattice.nine_determine
#print axioms OpenMS.Lattice.gaint_antisymm
#print axioms OpenMS.Lattice.all_partition
#print axioms OpenMS.Lattice.nine_mixed_fails
#print axioms OpenMS.Lattice.hh_fock_gradient
#print axioms OpenMS.Lattice.hh_fock_orbitals
#print axioms OpenMS.Lattice.mfG_linear
#print axioms OpenMS.Lattice.hhGmat_symm
#print axioms OpenMS.Lattice.mo_hopping_partial
#print axioms OpenMS.Lattice.mo_hopping_two_fails
#print axioms OpenMS.Lattice.mo_eri_partial
#print axioms OpenMS.Lattice.mo_orbitals_fails
#print axioms OpenMS.Aggregates.node_test
#print axioms OpenMS.Aggregates.selection
#print axioms OpenMS.Aggregates.selection_sign
#print axioms OpenMS.Aggregates.linearAbs_partial
#print axioms OpenMS.Aggregates.linearAbs_dark_fails
#print axioms OpenMS.Aggregates.tdes_harmonic
#print axioms OpenMS.Aggregates.tdes_nonneg
#print axioms OpenMS.Aggregates.tdes_additive_fails
#print axioms OpenMS.BosonStart.coherent_energy
#print axioms OpenMS.BosonStart.vacuum_energy
#print axioms OpenMS.BosonStart.start_iff
#print axioms OpenMS.BosonStart.start_above_fails
#print axioms OpenMS.Kernels.onebody_eq
#print axioms OpenMS.Kernels.expOp_complex_eq
#print axioms OpenMS.Kernels.expOp_real_eq
#print axioms OpenMS.Kernels.expOp_real_partial
#print axioms OpenMS.Kernels.expOp_real_fails
#print axioms OpenMS.Kernels.hs_after_onebody
#print axioms OpenMS.Kernels.hs_lost_fails
#print axioms OpenMS.Kernels.ovlp_eq
#print axioms OpenMS.Kernels.ghalf_eq
#print axioms OpenMS.Kernels.exx_eq
#print axioms OpenMS.Kernels.ecoul_rhf_eq
#print axioms OpenMS.Kernels.ecoul_uhf_partial
#print axioms OpenMS.Kernels.ecoul_uhf_fails
#print axioms OpenMS.Kernels.tensordot_eq
#print axioms OpenMS.DispCpp.pack_eq
#print axioms OpenMS.DispCpp.disp_mat_eq
#print axioms OpenMS.DispCpp.exp_val_eq
#print axioms OpenMS.DispCpp.exp_val_partial
#print axioms OpenMS.DispCpp.exp_val_fails
#print axioms OpenMS.Fdtd.flux_conserved
#print axioms OpenMS.Fdtd.charge_conserved
#print axioms OpenMS.Fdtd.curl_adjoint
#print axioms OpenMS.Fdtd.energy_conserved
#print axioms OpenMS.Fdtd.energy_conserved_iterate
#print axioms OpenMS.Fdtd.courant_bound
#print axioms OpenMS.Fdtd.propagate_plainE
#print axioms OpenMS.Fdtd.propagate_plainH
#print axioms OpenMS.Fdtd.metal_equations
#print axioms OpenMS.Fdtd.drude_energy
#print axioms OpenMS.Fdtd.drude_passive
#print axioms OpenMS.Fdtd.layer_electric
#print axioms OpenMS.Fdtd.layer_magnetic
#print axioms OpenMS.Fdtd.layer_transparent
#print axioms OpenMS.Fdtd.sigma_inside
#print axioms OpenMS.Fdtd.sigma_nonneg
#print axioms OpenMS.Fdtd.sigma_mirror
#print axioms OpenMS.Fdtd.conductor_zero
#print axioms OpenMS.FdtdGrid.cell_sizes
#print axioms OpenMS.FdtdGrid.time_step_stable
#print axioms OpenMS.FdtdGrid.region_size_partial
#print axioms OpenMS.FdtdGrid.region_size_fails
#print axioms OpenMS.FdtdGrid.sort_partial
#print axioms OpenMS.FdtdGrid.sort_outside_fails
#print axioms OpenMS.FdtdGrid.sort_unsorted_fails
#print axioms OpenMS.FdtdGrid.zToI_mono_partial
#print axioms OpenMS.FdtdGrid.zToI_mono_fails
#print axioms OpenMS.FdtdGrid.iToZ_partial
#print axioms OpenMS.MpiGrid.neighbours_match
#print axioms OpenMS.MpiGrid.ring
#print axioms OpenMS.MpiGrid.partition_partial
#print axioms OpenMS.MpiGrid.partition_iff
#print axioms OpenMS.MpiGrid.partition_fails
#print axioms OpenMS.MpiGrid.size_high_fails
#print axioms OpenMS.MpiGrid.neighbour_adjacent_partial
#print axioms OpenMS.MpiGrid.findX_eq
#print axioms OpenMS.MpiGrid.findY_partial
#print axioms OpenMS.MpiGrid.findY_fails
#print axioms OpenMS.MpiGrid.findX_serial_fails
#print axioms OpenMS.MpiGrid.source_column_partial
#print axioms OpenMS.MpiGrid.source_repeated_fails
#print axioms OpenMS.Fdtd.stepE_complex_partial
#print axioms OpenMS.Fdtd.stepH_complex
#print axioms OpenMS.Fdtd.molecule_fails
#print axioms OpenMS.Fdtd.crystalE_bloch
#print axioms OpenMS.Fdtd.crystalH_bloch
#print axioms OpenMS.Fdtd.bloch_step
#print axioms OpenMS.Fdtd.tri_step_partial
#print axioms OpenMS.Fdtd.tri_odd_fails
#print axioms OpenMS.Fdtd.line_half
#print axioms OpenMS.Fdtd.line_int
#print axioms OpenMS.Fdtd.parityE_even
#print axioms OpenMS.Fdtd.parityH_even
#print axioms OpenMS.Fdtd.parity_step
#print axioms OpenMS.Fdtd.hzParity_sized
#print axioms OpenMS.Fdtd.whole_run_fails
#print axioms OpenMS.Fdtd.values_whole
#print axioms OpenMS.Fdtd.hzParity_even
#print axioms OpenMS.Fdtd.odd_fails
#print axioms OpenMS.Fdtd.crystal_valuesE
#print axioms OpenMS.Fdtd.crystal_valuesH_partial
#print axioms OpenMS.Fdtd.corner_never
#print axioms OpenMS.Fdtd.corner_fails
#print axioms OpenMS.Fdtd.periodicX_crystal
#print axioms OpenMS.Fdtd.periodicY_crystal
#print axioms OpenMS.Fdtd.crystal_cellE
#print axioms OpenMS.Fdtd.periodicXY_right_iff
#print axioms OpenMS.Fdtd.periodicXY_fails
#print axioms OpenMS.Fdtd.row_nodes
#print axioms OpenMS.Fdtd.row_fails
#print axioms OpenMS.Fdtd.column_partial
#print axioms OpenMS.Fdtd.column_fails
#print axioms OpenMS.FdtdEnergy.total_partial
#print axioms OpenMS.FdtdEnergy.width_fails
#print axioms OpenMS.FdtdEnergy.layer_fails
#print axioms OpenMS.FdtdEnergy.updown_excess
#print axioms OpenMS.FdtdEnergy.updown_fails
#print axioms OpenMS.FdtdEnergy.block_fails
#print axioms OpenMS.FdtdEnergy.block_partial
#print axioms OpenMS.FdtdEnergy.blocks_excess
#print axioms OpenMS.FdtdEnergy.blocks_fails
#print axioms OpenMS.FdtdEnergy.detector_max
#print axioms OpenMS.FdtdEnergy.sphere_vector
#print axioms OpenMS.FdtdEnergy.sphere_index_partial
#print axioms OpenMS.FdtdEnergy.sphere_index_fails
#print axioms OpenMS.Fft.fft1d_dft
#print axioms OpenMS.Fft.round_trip
#print axioms OpenMS.Fft.powFinder_log
#print axioms OpenMS.Fft.fft2d_dft_partial
#print axioms OpenMS.Fft.size_fails
#print axioms OpenMS.Fft.shift_eq
#print axioms OpenMS.Fft.ordered_partial
#print axioms OpenMS.FarField.node_partial
#print axioms OpenMS.FarField.node_fails
#print axioms OpenMS.FarField.hy_fails
#print axioms OpenMS.FarField.shrink_partial
#print axioms OpenMS.FarField.window_fits
#print axioms OpenMS.FarField.shrink_fails
#print axioms OpenMS.FarField.last_column_fails
#print axioms OpenMS.FarField.direction_spec
#print axioms OpenMS.FarField.angle_fails
#print axioms OpenMS.FarField.outgoing
#print axioms OpenMS.FarField.incoming
#print axioms OpenMS.FarField.ey_outgoing
#print axioms OpenMS.FarField.ex_excess
#print axioms OpenMS.FarField.ex_partial
#print axioms OpenMS.FarField.ex_fails
#print axioms OpenMS.FarField.intensity_sum
#print axioms OpenMS.FarField.power_sum
#print axioms OpenMS.FarField.power_spec
#print axioms OpenMS.FarField.horizontal_partial
#print axioms OpenMS.FdtdObjects.average_partial
#print axioms OpenMS.FdtdObjects.epsilon_places_partial
#print axioms OpenMS.FdtdObjects.extents
#print axioms OpenMS.FdtdObjects.average_bounds
#print axioms OpenMS.FdtdObjects.convex_full
#print axioms OpenMS.FdtdObjects.shapes_convex
#print axioms OpenMS.FdtdObjects.small_fails
#print axioms OpenMS.FdtdObjects.hole_fails
#print axioms OpenMS.FdtdObjects.thin_fails
#print axioms OpenMS.FdtdObjects.rotation_isometry
#print axioms OpenMS.FdtdObjects.rotation_axis
#print axioms OpenMS.FdtdObjects.ellipsoid_sphere
#print axioms OpenMS.FdtdObjects.sphere_partial
#print axioms OpenMS.FdtdObjects.sphere_fails
#print axioms OpenMS.FdtdObjects.ellipsoid_units
#print axioms OpenMS.FdtdObjects.cone_partial
#print axioms OpenMS.FdtdObjects.cone_fails
#print axioms OpenMS.FdtdObjects.contour_partial
#print axioms OpenMS.FdtdObjects.contour_fails
#print axioms OpenMS.FdtdObjects.random_disjoint
#print axioms OpenMS.Incoherent.entries_partial
#print axioms OpenMS.Incoherent.growth_fails
#print axioms OpenMS.Incoherent.renewal_partial
#print axioms OpenMS.Incoherent.renewal_fails
#print axioms OpenMS.Incoherent.gauss_phasor
#print axioms OpenMS.Incoherent.lorentz_partial
#print axioms OpenMS.Incoherent.lorentz_fails
#print axioms OpenMS.Incoherent.current_norm
#print axioms OpenMS.Incoherent.draws
#print axioms OpenMS.Incoherent.half_sphere
#print axioms OpenMS.Incoherent.deposit_spec
#print axioms OpenMS.Incoherent.position_nearest
#print axioms OpenMS.FdtdSource.source_spec
#print axioms OpenMS.FdtdSource.source_imag_partial
#print axioms OpenMS.FdtdSource.source_real
#print axioms OpenMS.FdtdSource.sign_fails
#print axioms OpenMS.FdtdSource.planewave_e
#print axioms OpenMS.FdtdSource.planewave_edge
#print axioms OpenMS.FdtdSource.planewave_h_partial
#print axioms OpenMS.FdtdSource.planewave_h_fails
#print axioms OpenMS.FdtdSource.external_partial
#print axioms OpenMS.FdtdSource.external_fails
#print axioms OpenMS.FdtdSource.line_fails
#print axioms OpenMS.FdtdSource.paraxial_wave
#print axioms OpenMS.FdtdSource.beam_spec
#print axioms OpenMS.FdtdSource.beam_up_fails
#print axioms OpenMS.FdtdSource.waist_fails
#print axioms OpenMS.FdtdSource.gaussian_phase
#print axioms OpenMS.FdtdSource.lorentzian_phase
#print axioms OpenMS.PolarMap.disk
#print axioms OpenMS.PolarMap.azimuth
#print axioms OpenMS.PolarMap.polar
#print axioms OpenMS.PolarMap.within_partial
#print axioms OpenMS.PolarMap.direction_partial
#print axioms OpenMS.PolarMap.center_partial
#print axioms OpenMS.PolarMap.center_fails
#print axioms OpenMS.PolarMap.outside_fails
#print axioms OpenMS.PolarMap.round_trip
#print axioms OpenMS.PolarMap.first_line
#print axioms OpenMS.PolarMap.sum_spec
#print axioms OpenMS.FdtdMetal.metal_spec
#print axioms OpenMS.FdtdMetal.eraser
#print axioms OpenMS.FdtdMetal.metal_partial
#print axioms OpenMS.FdtdMetal.hundred_fails
#print axioms OpenMS.FdtdMetal.layer_fails
#print axioms OpenMS.FdtdMetal.units
#print axioms OpenMS.FdtdMetal.molecule_partial
#print axioms OpenMS.FdtdMetal.molecule_once
#print axioms OpenMS.FdtdMetal.molecule_fails
#print axioms OpenMS.FdtdMetal.rod_partial
#print axioms OpenMS.FdtdMetal.rod_fails
#print axioms OpenMS.FdtdMetal.stagger_fails
#print axioms OpenMS.FdtdMetal.count_partial
#print axioms OpenMS.FdtdMetal.count_empty
#print axioms OpenMS.FdtdMetal.count_fails
#print axioms OpenMS.FdtdMetal.places_spec
#print axioms OpenMS.FdtdMetal.places_fails
#print axioms OpenMS.TiledTensor.tiles_listed
#print axioms OpenMS.TiledTensor.listed_order
#print axioms OpenMS.TiledTensor.empty_fails
#print axioms OpenMS.TiledTensor.partition
#print axioms OpenMS.TiledTensor.construct_partial
#print axioms OpenMS.TiledTensor.dense_partial
#print axioms OpenMS.TiledTensor.initializer_fails
#print axioms OpenMS.TiledTensor.transpose_spec
#print axioms OpenMS.TiledTensor.add_spec
#print axioms OpenMS.TiledTensor.strides_spec
#print axioms OpenMS.CholOrth.final_exists
#print axioms OpenMS.CholOrth.factor_spec
#print axioms OpenMS.CholOrth.orthonormal
#print axioms OpenMS.CholOrth.kept_le_rank
#print axioms OpenMS.CholOrth.span_spec
#print axioms OpenMS.CholOrth.raises_iff
#print axioms OpenMS.CholOrth.full_partial
#print axioms OpenMS.CholOrth.full_fails
#print axioms OpenMS.CholOrth.lindep_partial
#print axioms OpenMS.CholOrth.coupling_fails
#print axioms OpenMS.CholOrth.boson_fails
#print axioms OpenMS.CholOrth.debug_fails
#print axioms OpenMS.QedLib.gaussian_partial
#print axioms OpenMS.QedLib.sentinel_fails
#print axioms OpenMS.QedLib.shift_fails
#print axioms OpenMS.QedLib.table_spec
#print axioms OpenMS.QedLib.update_fails
#print axioms OpenMS.QedLib.fock_partial
#print axioms OpenMS.QedLib.label_fails
#print axioms OpenMS.BosonBuild.ham_eq
#print axioms OpenMS.BosonBuild.shift_iff
#print axioms OpenMS.BosonBuild.shift_partial
#print axioms OpenMS.BosonBuild.shift_fails
#print axioms OpenMS.BosonBuild.bafqmc_spec
#print axioms OpenMS.BosonBuild.onebody_fails
#print axioms OpenMS.PyTiles.partition_spec
#print axioms OpenMS.PyTiles.fromSizes_spec
#print axioms OpenMS.PyTiles.uniform_spec
#print axioms OpenMS.PyTiles.roundtrip
#print axioms OpenMS.PyTiles.tiled_roundtrip
#print axioms OpenMS.PyTiles.rightDense_spec
#print axioms OpenMS.PyTiles.leftDense_spec
#print axioms OpenMS.PyTiles.rightTiled_partial
#print axioms OpenMS.PyTiles.rightTiled_fails
#print axioms OpenMS.PyTiles.leftTiled_spec
#print axioms OpenMS.PyTiles.add_partial
#print axioms OpenMS.PyTiles.add_fails
#print axioms OpenMS.PyTiles.prune_spec
#print axioms OpenMS.PyTiles.add_refused
#print axioms OpenMS.PyTiles.prune_blocks
#print axioms OpenMS.QedAfqmc.local_spec
#print axioms OpenMS.QedAfqmc.run_bound
#print axioms OpenMS.QedAfqmc.phase_eq
#print axioms OpenMS.QedAfqmc.hybrid_eq
#print axioms OpenMS.QedAfqmc.hybrid_zero
#print axioms OpenMS.QedAfqmc.hybrid_partial
#print axioms OpenMS.QedAfqmc.hybrid_fails
#print axioms OpenMS.QedAfqmc.propagation_spec
#print axioms OpenMS.QedAfqmc.nI_spec
#print axioms OpenMS.QedAfqmc.cmf_spec
#print axioms OpenMS.QedAfqmc.photon_partial
#print axioms OpenMS.QedAfqmc.photon_fails
#print axioms OpenMS.QedAfqmc.run_snoc
#print axioms OpenMS.QedAfqmc.field_spec
#print axioms OpenMS.Fdtd.gamma_bloch
#print axioms OpenMS.Fdtd.gamma_tri_partial
#print axioms OpenMS.Fdtd.gamma_odd_fails
#print axioms OpenMS.QedFci.ebNew_spec
#print axioms OpenMS.QedFci.ebNew_uniform
#print axioms OpenMS.QedFci.ebNew_fails
#print axioms OpenMS.QedFci.ebNew_one_fails
#print axioms OpenMS.QedFci.ebNew_matrix
#print axioms OpenMS.QedFci.bbFull_eq
#print axioms OpenMS.QedFci.bbFull_partial
#print axioms OpenMS.QedFci.bbFull_fails
#print axioms OpenMS.QedFci.bbFull_modes_fails
#print axioms OpenMS.QedFci.rdm1p_partial
#print axioms OpenMS.QedFci.rdm1p_fails
#print axioms OpenMS.ForceBias.force_bias_partial
#print axioms OpenMS.ForceBias.force_bias_gauge
#print axioms OpenMS.ForceBias.force_bias_fails
#print axioms OpenMS.ForceBias.force_bias_transposed_fails
#print axioms OpenMS.ForceBias.stored_bias_fails
#print axioms OpenMS.ForceBias.forceBias_singular
#print axioms OpenMS.ForceBias.force_bias_boson_fails
#print axioms OpenMS.ForceBias.muQc_spec
#print axioms OpenMS.ForceBias.qed_energy_partial
#print axioms OpenMS.ForceBias.qed_energy_fails
#print axioms OpenMS.ForceBias.qed_photons_same
#print axioms OpenMS.ForceBias.qed_photons_fails
#print axioms OpenMS.AfqmcIntegrals.dse_spec
#print axioms OpenMS.AfqmcIntegrals.integrals_partial
#print axioms OpenMS.AfqmcIntegrals.one_body_fails
#print axioms OpenMS.AfqmcIntegrals.names_fails
#print axioms OpenMS.AfqmcIntegrals.construct_even
#print axioms OpenMS.AfqmcIntegrals.complete_basis
#print axioms OpenMS.AfqmcIntegrals.origin_shift
#print axioms OpenMS.AfqmcIntegrals.construct_partial
#print axioms OpenMS.AfqmcIntegrals.shift_fails
#print axioms OpenMS.MsdOverlap.excited_partial
#print axioms OpenMS.MsdOverlap.names_fails
#print axioms OpenMS.MsdOverlap.range_refused
#print axioms OpenMS.MsdOverlap.axes_fails
#print axioms OpenMS.MsdOverlap.ones_fails
#print axioms OpenMS.LineShapes.gauss_spec
#print axioms OpenMS.LineShapes.lorentz_partial
#print axioms OpenMS.LineShapes.lorentz_area_fails
#print axioms OpenMS.LineShapes.width_fails
#print axioms OpenMS.DiscreteField.mean_spec
#print axioms OpenMS.DiscreteField.overlap_spec
#print axioms OpenMS.DiscreteField.importance_partial
#print axioms OpenMS.DiscreteField.weight_spec
#print axioms OpenMS.DiscreteField.sites_spec
#print axioms OpenMS.DiscreteField.names_fails
#print axioms OpenMS.DressedJK.numba_j_partial
#print axioms OpenMS.DressedJK.numba_k_partial
#print axioms OpenMS.DressedJK.numba_k_fails
#print axioms OpenMS.DressedJK.names_fails
#print axioms OpenMS.DressedJK.chols_partial
#print axioms OpenMS.DressedJK.last_mode
#print axioms OpenMS.DressedJK.modes_fails
#print axioms OpenMS.AufbauOcc.aufbau
#print axioms OpenMS.AufbauOcc.count_partial
#print axioms OpenMS.AufbauOcc.count_fails
#print axioms OpenMS.AufbauOcc.minimal
#print axioms OpenMS.AufbauOcc.warns_partial
#print axioms OpenMS.AufbauOcc.warns_fails
#print axioms OpenMS.LowRankPlan.error_eq
#print axioms OpenMS.LowRankPlan.error_le
#print axioms OpenMS.LowRankPlan.scale_fails
