import Verif.Adjoint.Lemmas
import Verif.Adjoint.Model
import Verif.Adjoint.Props
import Verif.Adjoint.Spec
import Verif.Analysis.Files
import Verif.Analysis.Inversion
import Verif.Analysis.InversionProps
import Verif.Analysis.Purge
import Verif.Analysis.Restart
import Verif.Analysis.Sampling
import Verif.Analysis.States
import Verif.Analysis.TextParams
import Verif.Assembly.DiagRepair
import Verif.Assembly.Gather
import Verif.Assembly.GatherLemmas
import Verif.Assembly.GatherOnly
import Verif.Assembly.GatherProps
import Verif.Assembly.GatherSpec
import Verif.Assembly.Groups
import Verif.Assembly.GroupsLemmas
import Verif.Assembly.GroupsProps
import Verif.Assembly.GroupsSpec
import Verif.Assembly.Initial
import Verif.Assembly.InitialLemmas
import Verif.Assembly.InitialProps
import Verif.Assembly.Machine
import Verif.Assembly.MachineLemmas
import Verif.Assembly.Newton
import Verif.Assembly.ParamGrad
import Verif.Assembly.Projection
import Verif.Assembly.Scatter
import Verif.Assembly.ScatterLemmas
import Verif.Assembly.ScatterProps
import Verif.Assembly.ScatterSpec
import Verif.Assembly.Terms
import Verif.Assembly.Worksets
import Verif.BC.Lemmas
import Verif.BC.Model
import Verif.BC.Props
import Verif.BC.Values
import Verif.Dag.Lemmas
import Verif.Dag.Model
import Verif.Dag.Props
import Verif.Dag.Spec
import Verif.Database.Boundary
import Verif.Database.Model
import Verif.Database.Points
import Verif.Database.Props
import Verif.Discretization.Basis
import Verif.Discretization.BasisProps
import Verif.Discretization.Face
import Verif.Discretization.FaceProps
import Verif.Discretization.Families
import Verif.Discretization.Measure
import Verif.Discretization.MeasureProps
import Verif.Expr.ClassifyLemmas
import Verif.Expr.ClassifyLemmas2
import Verif.Expr.Decompose
import Verif.Expr.Eval
import Verif.Expr.EvalLemmas
import Verif.Expr.Meaning
import Verif.Expr.Model
import Verif.Expr.NameLemmas
import Verif.Expr.Numbers
import Verif.Expr.PassLemmas
import Verif.Expr.Props
import Verif.Expr.Props2
import Verif.Expr.Props3
import Verif.Expr.Props4
import Verif.Expr.RunLemmas
import Verif.Expr.Setup
import Verif.Expr.SetupLemmas
import Verif.Expr.Spec
import Verif.Expr.SplitLemmas
import Verif.Expr.TextLemmas
import Verif.Expr.TextLemmas2
import Verif.Expr.ValueLemmas
import Verif.Input.Settings
import Verif.LinAlg.Context
import Verif.LinAlg.ContextProps
import Verif.LinAlg.Graph
import Verif.LinAlg.GraphProps
import Verif.Mass.Lemmas
import Verif.Mass.Model
import Verif.Mass.Props
import Verif.Mesh.Construct
import Verif.Mesh.ExoData
import Verif.Mesh.ExoGrid
import Verif.Mesh.Simple
import Verif.Mesh.SimpleBrick
import Verif.Mesh.SimpleParallel
import Verif.Mesh.SimpleProps
import Verif.Micro.GrainProps
import Verif.Micro.Model
import Verif.Micro.SeedProps
import Verif.Modules.Bianisotropic
import Verif.Modules.Burgers
import Verif.Modules.Crystal
import Verif.Modules.CrystalProps
import Verif.Modules.Elasticity
import Verif.Modules.Elastodynamics
import Verif.Modules.Euler
import Verif.Modules.EulerLemmas
import Verif.Modules.EulerProps
import Verif.Modules.Hartmann
import Verif.Modules.Helmholtz
import Verif.Modules.KL
import Verif.Modules.KLProps
import Verif.Modules.Kinetic
import Verif.Modules.Kuramoto
import Verif.Modules.LevelSet
import Verif.Modules.Loops
import Verif.Modules.LowMach
import Verif.Modules.LowMachProps
import Verif.Modules.Maxwell
import Verif.Modules.MaxwellControl
import Verif.Modules.MaxwellPotential
import Verif.Modules.NavierStokes
import Verif.Modules.NeoHookean
import Verif.Modules.NeoHookeanProps
import Verif.Modules.PhaseField
import Verif.Modules.Porous
import Verif.Modules.PorousMixed
import Verif.Modules.Rothermal
import Verif.Modules.Saturation
import Verif.Modules.ShallowHybrid
import Verif.Modules.ShallowHybridProps
import Verif.Modules.ShallowWater
import Verif.Modules.Stokes
import Verif.Modules.StressMeasures
import Verif.Modules.Thermal
import Verif.Modules.Transport
import Verif.Modules.Weak
import Verif.Modules.WeakGalerkin
import Verif.Multiscale.Input
import Verif.Multiscale.Model
import Verif.Multiscale.Props
import Verif.Multiscale.Seen
import Verif.Multiscale.Training
import Verif.Objective.Blocks
import Verif.Objective.Lemmas
import Verif.Objective.Model
import Verif.Objective.Props
import Verif.Objective.SensorGrad
import Verif.Objective.Sensors
import Verif.Objective.Slots
import Verif.Objective.Spec
import Verif.Objective.StateGrad
import Verif.Opt.Batch
import Verif.Opt.Bounds
import Verif.Opt.Lemmas
import Verif.Opt.Metric
import Verif.Opt.Model
import Verif.Opt.Objective
import Verif.Opt.Props
import Verif.Opt.Run
import Verif.Opt.Spec
import Verif.Opt.StochRun
import Verif.Param.Dynamic
import Verif.Param.Fields
import Verif.Param.Lemmas
import Verif.Param.Levels
import Verif.Param.Model
import Verif.Param.Props
import Verif.Param.Protocol
import Verif.Param.Spec
import Verif.Physics.Basis
import Verif.Physics.Flux
import Verif.Physics.InitialData
import Verif.Physics.Modules
import Verif.Physics.Numbers
import Verif.Physics.Settings
import Verif.Physics.Weights
import Verif.Postprocess.Declared
import Verif.Postprocess.Dft
import Verif.Postprocess.Exodus
import Verif.Postprocess.FarField
import Verif.Postprocess.Fields
import Verif.Postprocess.FluxFile
import Verif.Postprocess.Integrals
import Verif.Postprocess.Movie
import Verif.Postprocess.Names
import Verif.Postprocess.QuadFiles
import Verif.Postprocess.Quantities
import Verif.Postprocess.Record
import Verif.Postprocess.Repeat
import Verif.Postprocess.Responses
import Verif.Postprocess.SensorData
import Verif.Postprocess.SensorFiles
import Verif.Postprocess.SensorValue
import Verif.Postprocess.Sensors
import Verif.Postprocess.TrueSolutions
import Verif.Registry.Model
import Verif.Registry.Props
import Verif.Solver.CGLemmas
import Verif.Solver.CGProps
import Verif.Solver.Model
import Verif.Solver.NLProps
import Verif.Solver.Steady
import Verif.Solver.SteadyProps
import Verif.Storage.Model
import Verif.Storage.Props
import Verif.Subgrid.AdjointSolve
import Verif.Subgrid.Errors
import Verif.Subgrid.Flux
import Verif.Subgrid.Groups
import Verif.Subgrid.Interp
import Verif.Subgrid.Life
import Verif.Subgrid.Output
import Verif.Subgrid.Refine.Lemmas
import Verif.Subgrid.Refine.Model
import Verif.Subgrid.Refine.Props
import Verif.Subgrid.Refine.Simplex
import Verif.Subgrid.Sens
import Verif.Subgrid.Sides
import Verif.Subgrid.Switch
import Verif.Time.LoopProps
import Verif.Time.Model
import Verif.Time.Props
import Verif.Time.Seed
import Verif.Time.SeedUse
import Verif.Time.Settings
import Verif.Time.Spec
import Verif.Time.StepProps
import Verif.Time.Tables
import Verif.UQ.Model
import Verif.UQ.Props
import Verif.Views.DataFile
import Verif.Views.Grid
import Verif.Views.GridProps
import Verif.Views.Sparse
import Verif.Views.SparseProps
import Verif.Workset.Lemmas
import Verif.Workset.Lemmas2
import Verif.Workset.Lemmas3
import Verif.Workset.LookupProps
import Verif.Workset.Model
import Verif.Workset.Points
import Verif.Workset.Props
import Verif.Workset.Spec

/-!
# Axioms used by the property theorems

One line for each theorem of `MANIFEST.json`; the build prints the axioms each of them depends on.
Only `propext`, `Classical.choice` and `Quot.sound` may appear.
-/

#print axioms MrHyDE.Expr.C01_evaluation
#print axioms MrHyDE.Expr.C02_leading_minus
#print axioms MrHyDE.Expr.C03_unsigned_exponent_partial
#print axioms MrHyDE.Expr.C03_signed_exponent_is_cut
#print axioms MrHyDE.Expr.C03_violated
#print axioms MrHyDE.Expr.C03_number_syntax
#print axioms MrHyDE.Expr.C04_unbalanced_rejected
#print axioms MrHyDE.Dag.C05_cycle_error_iff
#print axioms MrHyDE.Dag.C06_flags_exact
#print axioms MrHyDE.Registry.C07_first_registration_wins
#print axioms MrHyDE.Registry.C07_index
#print axioms MrHyDE.Expr.C08_emax_emin_partial
#print axioms MrHyDE.Expr.C08_emean_partial
#print axioms MrHyDE.Expr.C08_emax_exact
#print axioms MrHyDE.Expr.C08_emax_violated
#print axioms MrHyDE.Expr.C08_emin_violated
#print axioms MrHyDE.Expr.C08_emean_violated
#print axioms MrHyDE.Storage.C09_extract_latest_partial
#print axioms MrHyDE.Storage.C09_read_back_partial
#print axioms MrHyDE.Storage.C09_by_position
#print axioms MrHyDE.Storage.C09_negative_time_violated
#print axioms MrHyDE.Storage.C09_index_gap_violated
#print axioms MrHyDE.Storage.C10_neighbours_partial
#print axioms MrHyDE.Storage.C10_ends_violated
#print axioms MrHyDE.Storage.C10_time_zero_violated
#print axioms MrHyDE.Storage.C10_extractLast
#print axioms MrHyDE.Database.C11_compressed_agrees
#print axioms MrHyDE.Database.C11_database_read
#print axioms MrHyDE.Database.C11_size_violated
#print axioms MrHyDE.Views.C12_sparse_exact
#print axioms MrHyDE.Views.C12_sparse_product
#print axioms MrHyDE.Views.C12_device_violated
#print axioms MrHyDE.Views.C13_grid1_partial
#print axioms MrHyDE.Views.C13_grid2_partial
#print axioms MrHyDE.Views.C13_grid3_partial
#print axioms MrHyDE.Views.C13_far_violated
#print axioms MrHyDE.Views.C13_scattered_partial
#print axioms MrHyDE.Views.C13_scattered_violated
#print axioms MrHyDE.UQ.C14_exact_cover
#print axioms MrHyDE.UQ.C14_samples
#print axioms MrHyDE.UQ.C15_split_partial
#print axioms MrHyDE.UQ.C15_default
#print axioms MrHyDE.UQ.C15_indivisible_violated
#print axioms MrHyDE.UQ.C15_multiscale_violated
#print axioms MrHyDE.UQ.C16_mean
#print axioms MrHyDE.UQ.C16_variance_partial
#print axioms MrHyDE.UQ.C16_variance_unbiased
#print axioms MrHyDE.UQ.C16_probability
#print axioms MrHyDE.UQ.C16_variance_violated
#print axioms MrHyDE.UQ.C16_less_than_violated
#print axioms MrHyDE.UQ.C17_distinct_partial
#print axioms MrHyDE.UQ.C17_infinite_violated
#print axioms MrHyDE.UQ.C17_not_a_root_violated
#print axioms MrHyDE.Workset.C18_plain_names_partial
#print axioms MrHyDE.Workset.C18_time_violated
#print axioms MrHyDE.Workset.C18_curl_violated
#print axioms MrHyDE.Workset.C18_grad_violated
#print axioms MrHyDE.Workset.C18_stale_violated
#print axioms MrHyDE.Workset.C18_value_violated
#print axioms MrHyDE.Time.C19
#print axioms MrHyDE.Time.C19_other_orders_violated
#print axioms MrHyDE.Time.C20_partial
#print axioms MrHyDE.Time.C20_unknown_names
#print axioms MrHyDE.Time.C20_dirk33_formula
#print axioms MrHyDE.Time.C20_dirk33_partial
#print axioms MrHyDE.Time.C20_dirk33_violated
#print axioms MrHyDE.Time.C20_leapfrog_violated
#print axioms MrHyDE.Time.C21
#print axioms MrHyDE.Time.builtin_dirk
#print axioms MrHyDE.Time.C21_explicit
#print axioms MrHyDE.Time.C21_explicit_violated
#print axioms MrHyDE.Time.C22
#print axioms MrHyDE.Time.C22_close
#print axioms MrHyDE.Time.C22_failures
#print axioms MrHyDE.Time.C22_failures_violated
#print axioms MrHyDE.Time.C23_no_failures_partial
#print axioms MrHyDE.Time.C23_one_slot_partial
#print axioms MrHyDE.Time.C23_violated
#print axioms MrHyDE.Time.C23_startup_violated
#print axioms MrHyDE.Solver.C24_terminates_partial
#print axioms MrHyDE.Solver.C24_converged_partial
#print axioms MrHyDE.Solver.C24_status_violated
#print axioms MrHyDE.Solver.C24_violated
#print axioms MrHyDE.Solver.C24_ranks_violated
#print axioms MrHyDE.Solver.C25
#print axioms MrHyDE.Solver.C25_run
#print axioms MrHyDE.Solver.C26
#print axioms MrHyDE.Solver.C26_spd
#print axioms MrHyDE.Solver.C26_solves
#print axioms MrHyDE.Solver.C26_indefinite_violated
#print axioms MrHyDE.Param.C27_table
#print axioms MrHyDE.Param.C27_partial
#print axioms MrHyDE.Param.C27_at
#print axioms MrHyDE.Param.C27_violated
#print axioms MrHyDE.Param.C27_flat_violated
#print axioms MrHyDE.Param.C27_usage_partial
#print axioms MrHyDE.Param.C27_unknown_word
#print axioms MrHyDE.Param.C27_states
#print axioms MrHyDE.Param.C28
#print axioms MrHyDE.Param.C28_unseeded
#print axioms MrHyDE.Param.C28_few_slots
#print axioms MrHyDE.Param.C29_partial
#print axioms MrHyDE.Param.C29_zero
#print axioms MrHyDE.Param.C29_violated
#print axioms MrHyDE.Param.C29_violated_concrete
#print axioms MrHyDE.Opt.C30_entrywise
#print axioms MrHyDE.Opt.C30_symm
#print axioms MrHyDE.Opt.C30_bilinear
#print axioms MrHyDE.Opt.C30_positive
#print axioms MrHyDE.Opt.C30_norm
#print axioms MrHyDE.Opt.C30_clone
#print axioms MrHyDE.Opt.C30_mass_violated
#print axioms MrHyDE.Opt.C30_clone_violated
#print axioms MrHyDE.Opt.C31_partial
#print axioms MrHyDE.Opt.C31_value
#print axioms MrHyDE.Opt.C31_initial_violated
#print axioms MrHyDE.Opt.C31_mass_violated
#print axioms MrHyDE.Opt.C32_partial
#print axioms MrHyDE.Opt.C32_new
#print axioms MrHyDE.Opt.C32_violated
#print axioms MrHyDE.Opt.C32_first_violated
#print axioms MrHyDE.Opt.C32_close_violated
#print axioms MrHyDE.Assembly.C33_cover_partial
#print axioms MrHyDE.Assembly.C33_requested_size
#print axioms MrHyDE.Assembly.C33_same_signature_partial
#print axioms MrHyDE.Assembly.C33_zero_size_never_ends
#print axioms MrHyDE.Assembly.C33_other_modes_fail
#print axioms MrHyDE.Assembly.C33_foreign_number_fails
#print axioms MrHyDE.Assembly.C34_boundary_cover
#print axioms MrHyDE.Assembly.C35_sums_partial
#print axioms MrHyDE.Assembly.C35_order_independent_partial
#print axioms MrHyDE.Assembly.C35_atomics_needed
#print axioms MrHyDE.Assembly.C35_narrow_block_undefined
#print axioms MrHyDE.Assembly.C36_identity_row_partial
#print axioms MrHyDE.Assembly.C36_free_rows
#print axioms MrHyDE.Assembly.C36_weak_option_empty_row
#print axioms MrHyDE.Assembly.C36_point_residual
#print axioms MrHyDE.Assembly.C36_second_set_residual
#print axioms MrHyDE.Assembly.C37_lumped_partial
#print axioms MrHyDE.Assembly.C37_second_path_not_lumped
#print axioms MrHyDE.Assembly.Gather.C38_gather
#print axioms MrHyDE.Assembly.Gather.C38_gather_steady
#print axioms MrHyDE.Assembly.Gather.C38_out_of_range
#print axioms MrHyDE.Assembly.Gather.C38_coefficients_partial
#print axioms MrHyDE.Assembly.Gather.C38_other_set_derivative
#print axioms MrHyDE.Database.C39_volumetric
#print axioms MrHyDE.Database.C39_boundary
#print axioms MrHyDE.Database.C39_boundary_minimal
#print axioms MrHyDE.Database.C39_volumetric_minimal
#print axioms MrHyDE.Multiscale.C40_majority
#print axioms MrHyDE.Multiscale.C40_own_block_partial
#print axioms MrHyDE.Multiscale.C40_usage_partial
#print axioms MrHyDE.Multiscale.C40_no_votes_last_model
#print axioms MrHyDE.Multiscale.C40_predicted_partial
#print axioms MrHyDE.Multiscale.C40_short_group_shifts
#print axioms MrHyDE.Multiscale.C40_single_model_undefined
#print axioms MrHyDE.Multiscale.C40_hierarchical
#print axioms MrHyDE.Multiscale.C40_active_partial
#print axioms MrHyDE.Multiscale.C40_foreign_group_active
#print axioms MrHyDE.Workset.C41_volume_partial
#print axioms MrHyDE.Workset.C41_side_partial
#print axioms MrHyDE.Workset.C41_side_curl_violated
#print axioms MrHyDE.Workset.C41_param_index_violated
#print axioms MrHyDE.Workset.C41_unknown_violated
#print axioms MrHyDE.Workset.C41_points_violated
#print axioms MrHyDE.Workset.C41_points_constant_violated
#print axioms MrHyDE.Workset.C41_points_partial
#print axioms MrHyDE.Workset.C42_variables
#print axioms MrHyDE.Workset.C42_basis_partial
#print axioms MrHyDE.Workset.C42_parameters_partial
#print axioms MrHyDE.Workset.C42_parameters_violated
#print axioms MrHyDE.Workset.C42_basis_violated
#print axioms MrHyDE.Workset.C42_parameter_basis_partial
#print axioms MrHyDE.Expr.C43_violated
#print axioms MrHyDE.Expr.C44_violated
#print axioms MrHyDE.Expr.C44_equality_dropped
#print axioms MrHyDE.Expr.C45_spaces_partial
#print axioms MrHyDE.Expr.C45_violated
#print axioms MrHyDE.Expr.C46_unknown_name_rejected_partial
#print axioms MrHyDE.Expr.C46_violated
#print axioms MrHyDE.Expr.C46_only_defined
#print axioms MrHyDE.UQ.C47_rejection
#print axioms MrHyDE.UQ.C47_all_zero
#print axioms MrHyDE.UQ.C48_draw
#print axioms MrHyDE.UQ.C48_fill_violated
#print axioms MrHyDE.Time.C49_partial
#print axioms MrHyDE.Time.C49_violated
#print axioms MrHyDE.Time.C49_allowed
#print axioms MrHyDE.Time.C50_constant_partial
#print axioms MrHyDE.Time.C50_one_stage_partial
#print axioms MrHyDE.Time.C50_linear
#print axioms MrHyDE.Time.C50_sums
#print axioms MrHyDE.Time.C50_violated
#print axioms MrHyDE.Time.C51_first_partial
#print axioms MrHyDE.Time.C51_repeat_partial
#print axioms MrHyDE.Time.C51_violated
#print axioms MrHyDE.Time.C52
#print axioms MrHyDE.Time.C52_other_set_violated
#print axioms MrHyDE.Param.C53_partial
#print axioms MrHyDE.Param.C53_dt_violated
#print axioms MrHyDE.Param.C53_both_violated
#print axioms MrHyDE.Param.C53_cut_violated
#print axioms MrHyDE.Param.C53_scalar_violated
#print axioms MrHyDE.Param.C54_partial
#print axioms MrHyDE.Param.C54_violated
#print axioms MrHyDE.Opt.C55_partial
#print axioms MrHyDE.Opt.C55_violated
#print axioms MrHyDE.Opt.C55_back_violated
#print axioms MrHyDE.Opt.C56_partial
#print axioms MrHyDE.Opt.C56_violated
#print axioms MrHyDE.Opt.C57_partial
#print axioms MrHyDE.Opt.C57_violated
#print axioms MrHyDE.Assembly.C58_single_block_partial
#print axioms MrHyDE.Assembly.C58_second_block_wrong
#print axioms MrHyDE.Assembly.C58_second_block_out_of_range
#print axioms MrHyDE.BC.C59_single_element_partial
#print axioms MrHyDE.BC.C59_first_element
#print axioms MrHyDE.BC.C59_shared_node_wrong
#print axioms MrHyDE.BC.C59_first_block
#print axioms MrHyDE.BC.C59_second_block_wrong
#print axioms MrHyDE.BC.C59_name_inside
#print axioms MrHyDE.BC.C59_processes
#print axioms MrHyDE.BC.C60_agree_partial
#print axioms MrHyDE.BC.C60_label_last
#print axioms MrHyDE.BC.C60_code_first
#print axioms MrHyDE.BC.C60_weak_dropped
#print axioms MrHyDE.BC.C60_side_info
#print axioms MrHyDE.Assembly.C61_adjoint_transpose_partial
#print axioms MrHyDE.Assembly.C61_lumped_not_transposed
#print axioms MrHyDE.Assembly.C62_single_block_partial
#print axioms MrHyDE.Assembly.C62_second_block_shifted
#print axioms MrHyDE.Database.C63_values_partial
#print axioms MrHyDE.Database.C63_gradient_zero
#print axioms MrHyDE.Database.C63_flux_zero
#print axioms MrHyDE.Assembly.Terms.C64_volume_on_partial
#print axioms MrHyDE.Assembly.Terms.C64_stale_residual
#print axioms MrHyDE.Assembly.Terms.C64_faces_accumulate
#print axioms MrHyDE.Time.C65_volume_partial
#print axioms MrHyDE.Time.C65_boundary_older_step
#print axioms MrHyDE.Time.C66_first_stage_partial
#print axioms MrHyDE.Time.C66_later_stage
#print axioms MrHyDE.Adjoint.C67_gradient_partial
#print axioms MrHyDE.Adjoint.C67_multistage
#print axioms MrHyDE.Adjoint.C67_multistep_undefined
#print axioms MrHyDE.Adjoint.C67_multistep_ignored
#print axioms MrHyDE.Adjoint.C67_step_size
#print axioms MrHyDE.Adjoint.C67_explicit_violated
#print axioms MrHyDE.Assembly.Projection.C68_consistent_partial
#print axioms MrHyDE.Assembly.Projection.C68_lumped_last_column
#print axioms MrHyDE.Assembly.Projection.C68_lumped_zero_diagonal
#print axioms MrHyDE.Assembly.Gather.C69_single_group_partial
#print axioms MrHyDE.Assembly.Gather.C69_stale_previous
#print axioms MrHyDE.Multiscale.C70_factor_zero
#print axioms MrHyDE.Multiscale.C70_cost_last_group
#print axioms MrHyDE.Assembly.Gather.C71_single_group_partial
#print axioms MrHyDE.Assembly.Gather.choose_sees_last
#print axioms MrHyDE.Assembly.Gather.C71_other_group
#print axioms MrHyDE.Objective.C72_reported_partial
#print axioms MrHyDE.Objective.C72_response_squares_regularisation
#print axioms MrHyDE.Objective.C72_sensor_regularisation_step
#print axioms MrHyDE.Objective.C73_explicit_partial
#print axioms MrHyDE.Objective.C73_processes
#print axioms MrHyDE.Objective.C73_processes_wrong
#print axioms MrHyDE.Objective.C73_response_regularisation
#print axioms MrHyDE.Objective.C73_sensor_regularisation
#print axioms MrHyDE.Objective.C73_integrated_ignored
#print axioms MrHyDE.Objective.C73_seeded_partial
#print axioms MrHyDE.Objective.C73_unseeded_violated
#print axioms MrHyDE.Objective.Sensors.C74_measurements_partial
#print axioms MrHyDE.Objective.Sensors.C74_responses_add_first_data
#print axioms MrHyDE.Objective.Sensors.C74_silent
#print axioms MrHyDE.Objective.Sensors.C74_derivative_shifted
#print axioms MrHyDE.Objective.Slots.C75_control_partial
#print axioms MrHyDE.Objective.Slots.C75_response_stale
#print axioms MrHyDE.Objective.Slots.C75_response_wrong
#print axioms MrHyDE.Objective.Slots.C75_unseeded_violated
#print axioms MrHyDE.Objective.Slots.C76_regularisation
#print axioms MrHyDE.Objective.Slots.C76_single_partial
#print axioms MrHyDE.Objective.Slots.C76_group_sum
#print axioms MrHyDE.Objective.Slots.C76_group_wrong
#print axioms MrHyDE.BC.C77_dirichlet_dofs
#print axioms MrHyDE.Mass.C78_stored
#print axioms MrHyDE.Mass.C78_computed
#print axioms MrHyDE.Mass.C78_database
#print axioms MrHyDE.Mass.C79_inner_product
#print axioms MrHyDE.Mass.C79_nonneg
#print axioms MrHyDE.Mass.C80_row_sums_partial
#print axioms MrHyDE.Mass.C80_plain
#print axioms MrHyDE.Mass.C80_negative
#print axioms MrHyDE.Mass.C80_paths_differ
#print axioms MrHyDE.Mass.C80_jacobi_partial
#print axioms MrHyDE.Mass.C80_jacobi_violated
#print axioms MrHyDE.Mass.C81_database_partial
#print axioms MrHyDE.Mass.C81_sparse_matrix_zero
#print axioms MrHyDE.Postprocess.Record.C82_state_partial
#print axioms MrHyDE.Postprocess.Record.C82_explicit_partial
#print axioms MrHyDE.Postprocess.Record.C82_window_violated
#print axioms MrHyDE.Postprocess.Record.C82_frequency_violated
#print axioms MrHyDE.Postprocess.Record.C82_negative_times_violated
#print axioms MrHyDE.Postprocess.Record.C82_single_recorded
#print axioms MrHyDE.Postprocess.Record.C83_partial
#print axioms MrHyDE.Postprocess.Record.C83_last_missing
#print axioms MrHyDE.Postprocess.Record.C83_last_twice
#print axioms MrHyDE.Postprocess.Record.C83_zero_frequency
#print axioms MrHyDE.Postprocess.Sensors.C84_one_owner_partial
#print axioms MrHyDE.Postprocess.Sensors.C84_box_partial
#print axioms MrHyDE.Postprocess.Sensors.C84_reads_outside
#print axioms MrHyDE.Postprocess.Sensors.C85_grid
#print axioms MrHyDE.Postprocess.Sensors.C85_ends
#print axioms MrHyDE.Postprocess.Names.C86_points
#print axioms MrHyDE.Postprocess.Names.C86_data_partial
#print axioms MrHyDE.Postprocess.Names.C86_data_iff
#print axioms MrHyDE.Postprocess.Names.C86_data_violated
#print axioms MrHyDE.Postprocess.Names.C86_dropped
#print axioms MrHyDE.Postprocess.Names.C86_null_violated
#print axioms MrHyDE.Postprocess.Responses.C87_local_partial
#print axioms MrHyDE.Postprocess.Responses.C87_sum_partial
#print axioms MrHyDE.Postprocess.Responses.C87_other_violated
#print axioms MrHyDE.Postprocess.Responses.C87_empty_violated
#print axioms MrHyDE.Postprocess.Repeat.C88_partial
#print axioms MrHyDE.Postprocess.Repeat.C88_accumulate
#print axioms MrHyDE.Postprocess.Repeat.C88_violated
#print axioms MrHyDE.Postprocess.Dft.C89_partial
#print axioms MrHyDE.Postprocess.Dft.C89_violated
#print axioms MrHyDE.Postprocess.Dft.C89_witness
#print axioms MrHyDE.Postprocess.Fields.C90_partial
#print axioms MrHyDE.Postprocess.Fields.C90_violated
#print axioms MrHyDE.Postprocess.Fields.C90_single
#print axioms MrHyDE.Postprocess.Fields.C91_mean
#print axioms MrHyDE.Postprocess.Fields.C91_max_partial
#print axioms MrHyDE.Postprocess.Fields.C91_violated
#print axioms MrHyDE.Postprocess.Integrals.C92_volume_partial
#print axioms MrHyDE.Postprocess.Integrals.C92_boundary_partial
#print axioms MrHyDE.Postprocess.Integrals.C92_boundary_all
#print axioms MrHyDE.Postprocess.Integrals.C92_name_violated
#print axioms MrHyDE.Postprocess.Integrals.C92_seen
#print axioms MrHyDE.Postprocess.Integrals.C92_stale
#print axioms MrHyDE.Postprocess.Integrals.C93_partial
#print axioms MrHyDE.Postprocess.Integrals.C93_state_violated
#print axioms MrHyDE.Postprocess.Integrals.C93_times_violated
#print axioms MrHyDE.Postprocess.Integrals.C93_all_violated
#print axioms MrHyDE.Postprocess.Integrals.C94_volume_partial
#print axioms MrHyDE.Postprocess.Integrals.C94_face
#print axioms MrHyDE.Postprocess.Integrals.C94_face_violated
#print axioms MrHyDE.Physics.Flux.C95_residual
#print axioms MrHyDE.Physics.Flux.C95_partial
#print axioms MrHyDE.Physics.Flux.C95_dropped_violated
#print axioms MrHyDE.Physics.Flux.C95_paths_violated
#print axioms MrHyDE.Physics.Flux.C95_multiscale
#print axioms MrHyDE.Physics.Settings.C96_settings
#print axioms MrHyDE.Physics.Settings.C96_functions
#print axioms MrHyDE.Physics.Settings.C96_partial
#print axioms MrHyDE.Physics.Settings.C96_prefix_violated
#print axioms MrHyDE.Physics.Settings.C96_eleven_violated
#print axioms MrHyDE.Physics.Basis.C97_spaces
#print axioms MrHyDE.Physics.Basis.C97_partial
#print axioms MrHyDE.Physics.Basis.C97_sets_violated
#print axioms MrHyDE.Physics.Basis.C97_params_first
#print axioms MrHyDE.Physics.Basis.C97_params_partial
#print axioms MrHyDE.Physics.Basis.C97_params_violated
#print axioms MrHyDE.Physics.Basis.C97_dg
#print axioms MrHyDE.Physics.Modules.C98_breakup
#print axioms MrHyDE.Physics.Modules.C98_empty_separator
#print axioms MrHyDE.Physics.Modules.C98_terms
#print axioms MrHyDE.Physics.Modules.C98_partial
#print axioms MrHyDE.Physics.Modules.C98_unknown_violated
#print axioms MrHyDE.Physics.Modules.C98_blank_violated
#print axioms MrHyDE.Physics.Modules.C98_twice
#print axioms MrHyDE.Physics.Numbers.C99_error
#print axioms MrHyDE.Physics.Numbers.C99_exact
#print axioms MrHyDE.Physics.Numbers.C99_partial
#print axioms MrHyDE.Physics.Numbers.C99_small_violated
#print axioms MrHyDE.Physics.Numbers.C99_all_violated
#print axioms MrHyDE.Physics.Numbers.C99_neumann_violated
#print axioms MrHyDE.Physics.Numbers.C99_whole_violated
#print axioms MrHyDE.Modules.Thermal.C100_volume
#print axioms MrHyDE.Modules.Thermal.C100_volume_balance
#print axioms MrHyDE.Modules.Thermal.C100_side
#print axioms MrHyDE.Modules.Thermal.C100_flux_balance
#print axioms MrHyDE.Modules.Thermal.C100_symmetric
#print axioms MrHyDE.Modules.Thermal.C100_adjoint_partial
#print axioms MrHyDE.Modules.Thermal.C100_adjoint_violated
#print axioms MrHyDE.Modules.Thermal.C100_robin_violated
#print axioms MrHyDE.Modules.Elasticity.C101_stress_partial
#print axioms MrHyDE.Modules.Elasticity.C101_stress_3d
#print axioms MrHyDE.Modules.Elasticity.C101_rigid
#print axioms MrHyDE.Modules.Elasticity.C101_free_expansion
#print axioms MrHyDE.Modules.Elasticity.C101_reciprocal
#print axioms MrHyDE.Modules.Elasticity.C101_energy
#print axioms MrHyDE.Modules.Elasticity.C101_volume
#print axioms MrHyDE.Modules.Elasticity.C101_virtual_work
#print axioms MrHyDE.Modules.Elasticity.C101_side
#print axioms MrHyDE.Modules.Elasticity.C101_side_symmetric_partial
#print axioms MrHyDE.Modules.Elasticity.C101_traction_alone
#print axioms MrHyDE.Modules.Elasticity.C101_flux_balance
#print axioms MrHyDE.Modules.Elasticity.C101_biot_violated
#print axioms MrHyDE.Modules.Elasticity.C101_plane_thermal_violated
#print axioms MrHyDE.Modules.Elasticity.C101_mixed_violated
#print axioms MrHyDE.Modules.Elasticity.C101_plane_side_violated
#print axioms MrHyDE.Modules.Stokes.C102_momentum
#print axioms MrHyDE.Modules.Stokes.C102_divergence_partial
#print axioms MrHyDE.Modules.Stokes.C102_energy
#print axioms MrHyDE.Modules.Stokes.C102_pspg_violated
#print axioms MrHyDE.Modules.Stokes.C102_tau_violated
#print axioms MrHyDE.Modules.Stokes.C102_source_pr_violated
#print axioms MrHyDE.Modules.Stokes.C102_traction_violated
#print axioms MrHyDE.Modules.Stokes.C102_lsic_violated
#print axioms MrHyDE.Modules.NavierStokes.C103_momentum_partial
#print axioms MrHyDE.Modules.NavierStokes.C103_pressure_partial
#print axioms MrHyDE.Modules.NavierStokes.C103_consistent
#print axioms MrHyDE.Modules.NavierStokes.C103_traction
#print axioms MrHyDE.Modules.NavierStokes.C103_3d_violated
#print axioms MrHyDE.Modules.NavierStokes.C103_buoyancy_violated
#print axioms MrHyDE.Modules.NavierStokes.C103_pspg_violated
#print axioms MrHyDE.Modules.Porous.C104_volume
#print axioms MrHyDE.Modules.Porous.C104_balance
#print axioms MrHyDE.Modules.Porous.C104_side
#print axioms MrHyDE.Modules.Porous.C104_consistent
#print axioms MrHyDE.Modules.Porous.C104_interface_sum
#print axioms MrHyDE.Modules.Porous.C104_flux_partial
#print axioms MrHyDE.Modules.Porous.C104_flux_violated
#print axioms MrHyDE.Modules.Porous.C104_gravity_violated
#print axioms MrHyDE.Modules.Porous.C104_flux_zero_violated
#print axioms MrHyDE.Modules.Porous.C104_flux_intended
#print axioms MrHyDE.Subgrid.C105_linear
#print axioms MrHyDE.Subgrid.C105_quadratic
#print axioms MrHyDE.Subgrid.C105_ends
#print axioms MrHyDE.Subgrid.C105_cover
#print axioms MrHyDE.Subgrid.C105_between
#print axioms MrHyDE.Subgrid.C105_history_violated
#print axioms MrHyDE.Subgrid.C105_explicit_stage_violated
#print axioms MrHyDE.Subgrid.C105_unequal_violated
#print axioms MrHyDE.Subgrid.C105_second_stage_violated
#print axioms MrHyDE.Subgrid.Flux.C106_flux_partial
#print axioms MrHyDE.Subgrid.Flux.C106_conserved
#print axioms MrHyDE.Subgrid.Flux.C106_average_partial
#print axioms MrHyDE.Subgrid.Flux.C106_accumulate_violated
#print axioms MrHyDE.Subgrid.Flux.C106_accumulate_average_violated
#print axioms MrHyDE.Subgrid.Flux.C106_order_violated
#print axioms MrHyDE.Subgrid.Flux.C106_bounds_violated
#print axioms MrHyDE.Subgrid.Sens.C107_tolerance
#print axioms MrHyDE.Subgrid.Sens.C107_derivative_partial
#print axioms MrHyDE.Subgrid.Sens.C107_unique
#print axioms MrHyDE.Subgrid.Sens.C107_stale_violated
#print axioms MrHyDE.Subgrid.Sens.C107_zero_residual_violated
#print axioms MrHyDE.Subgrid.Sens.C107_silent_violated
#print axioms MrHyDE.Subgrid.Sens.C107_history_violated
#print axioms MrHyDE.Subgrid.Sens.C107_two_step_violated
#print axioms MrHyDE.Modules.Maxwell.C108_faraday
#print axioms MrHyDE.Modules.Maxwell.C108_ampere_2d
#print axioms MrHyDE.Modules.Maxwell.C108_ampere_3d_partial
#print axioms MrHyDE.Modules.Maxwell.C108_leapfrog
#print axioms MrHyDE.Modules.Maxwell.C108_energy_2d
#print axioms MrHyDE.Modules.Maxwell.C108_energy_3d_partial
#print axioms MrHyDE.Modules.Maxwell.C108_absorbing
#print axioms MrHyDE.Modules.Maxwell.C108_permittivity_violated
#print axioms MrHyDE.Modules.Maxwell.C108_absorbing_2d_violated
#print axioms MrHyDE.Modules.Elastodynamics.C109_momentum
#print axioms MrHyDE.Modules.Elastodynamics.C109_velocity_partial
#print axioms MrHyDE.Modules.Elastodynamics.C109_velocity_violated
#print axioms MrHyDE.Modules.Elastodynamics.C109_balance
#print axioms MrHyDE.Modules.Elastodynamics.C109_energy
#print axioms MrHyDE.Modules.Transport.C110_cdr
#print axioms MrHyDE.Modules.Transport.C110_prior
#print axioms MrHyDE.Modules.Transport.C110_ice_partial
#print axioms MrHyDE.Modules.Transport.C110_balance
#print axioms MrHyDE.Modules.Transport.C110_flux
#print axioms MrHyDE.Modules.Transport.C110_ode_partial
#print axioms MrHyDE.Modules.Transport.C110_ice_violated
#print axioms MrHyDE.Modules.Transport.C110_defaults_violated
#print axioms MrHyDE.Modules.Transport.C110_ode_violated
#print axioms MrHyDE.Modules.Burgers.C111_weak
#print axioms MrHyDE.Modules.Burgers.C111_conservation
#print axioms MrHyDE.Modules.Burgers.C111_viscosity
#print axioms MrHyDE.Modules.Burgers.C111_energy
#print axioms MrHyDE.Modules.Burgers.C111_supg_consistent
#print axioms MrHyDE.Modules.Burgers.C111_entropy_partial
#print axioms MrHyDE.Modules.Burgers.C111_uniform
#print axioms MrHyDE.Modules.Burgers.C111_dimension_violated
#print axioms MrHyDE.Modules.Burgers.C111_side_violated
#print axioms MrHyDE.Modules.Burgers.C111_entropy_violated
#print axioms MrHyDE.Modules.Burgers.C111_tau
#print axioms MrHyDE.Modules.Kuramoto.C112_weak_partial
#print axioms MrHyDE.Modules.Kuramoto.C112_energy
#print axioms MrHyDE.Modules.Kuramoto.C112_mean
#print axioms MrHyDE.Modules.Kuramoto.C112_basis_violated
#print axioms MrHyDE.Modules.ShallowWater.C113_weak_partial
#print axioms MrHyDE.Modules.ShallowWater.C113_conservation
#print axioms MrHyDE.Modules.ShallowWater.C113_lake_at_rest
#print axioms MrHyDE.Modules.ShallowWater.C113_reference_level
#print axioms MrHyDE.Modules.ShallowWater.C113_terms_violated
#print axioms MrHyDE.Modules.Hartmann.C114_weak
#print axioms MrHyDE.Modules.Hartmann.C114_energy
#print axioms MrHyDE.Modules.Hartmann.C114_unique
#print axioms MrHyDE.Modules.Hartmann.C114_side_partial
#print axioms MrHyDE.Modules.Hartmann.C114_side_violated
#print axioms MrHyDE.Subgrid.Refine.C115_quad
#print axioms MrHyDE.Subgrid.Refine.C115_hex
#print axioms MrHyDE.Subgrid.Refine.C115_tri_partial
#print axioms MrHyDE.Subgrid.Refine.C115_tri_violated
#print axioms MrHyDE.Subgrid.Refine.C115_tet_violated
#print axioms MrHyDE.Subgrid.Refine.C115_line_violated
#print axioms MrHyDE.Subgrid.Refine.C115_quadToTri
#print axioms MrHyDE.Subgrid.Refine.C115_mixed_violated
#print axioms MrHyDE.Subgrid.Refine.C115_triToQuad
#print axioms MrHyDE.Subgrid.Sides.C116_nodes
#print axioms MrHyDE.Subgrid.Sides.C116_sideinfo
#print axioms MrHyDE.Subgrid.Sides.C116_groups
#print axioms MrHyDE.Subgrid.Sides.C116_once
#print axioms MrHyDE.Subgrid.Sides.C116_bcs
#print axioms MrHyDE.Subgrid.Sides.C116_reuse
#print axioms MrHyDE.Subgrid.Sides.C116_mixed_violated
#print axioms MrHyDE.Subgrid.Sides.C116_triToQuad_violated
#print axioms MrHyDE.Subgrid.Sides.C116_double_violated
#print axioms MrHyDE.Subgrid.Sides.C116_bcs_violated
#print axioms MrHyDE.Subgrid.Sides.C116_reuse_violated
#print axioms MrHyDE.Disc.C117_gradient_partial
#print axioms MrHyDE.Disc.C117_gradient_face_partial
#print axioms MrHyDE.Disc.C117_gradient_points
#print axioms MrHyDE.Disc.C117_circulation
#print axioms MrHyDE.Disc.C117_flux2
#print axioms MrHyDE.Disc.C117_flux3
#print axioms MrHyDE.Disc.C117_curl3
#print axioms MrHyDE.Disc.C117_divergence
#print axioms MrHyDE.Disc.C117_determined
#print axioms MrHyDE.Disc.C117_values
#print axioms MrHyDE.Disc.C117_plain
#print axioms MrHyDE.Disc.C117_nodes_partial
#print axioms MrHyDE.Disc.C117_face_violated
#print axioms MrHyDE.Disc.C117_nodes_violated
#print axioms MrHyDE.Disc.C117_nodes_end_violated
#print axioms MrHyDE.Disc.C117_point_violated
#print axioms MrHyDE.Disc.C118_weighted2
#print axioms MrHyDE.Disc.C118_weighted3
#print axioms MrHyDE.Disc.C118_unit
#print axioms MrHyDE.Disc.C118_defined
#print axioms MrHyDE.Disc.C118_outward
#print axioms MrHyDE.Disc.C118_flux
#print axioms MrHyDE.Disc.C118_length
#print axioms MrHyDE.Disc.C118_closed2
#print axioms MrHyDE.Disc.C118_closed_tet
#print axioms MrHyDE.Disc.C118_closed_hex
#print axioms MrHyDE.Disc.C118_closed_line
#print axioms MrHyDE.Disc.C118_positive
#print axioms MrHyDE.Disc.C118_area_quad
#print axioms MrHyDE.Disc.C118_volume_simplex
#print axioms MrHyDE.Disc.C118_size
#print axioms MrHyDE.Disc.C118_face1_violated
#print axioms MrHyDE.Disc.C118_tangent_violated
#print axioms MrHyDE.Disc.C118_points
#print axioms MrHyDE.Modules.PorousMixed.C119_volume
#print axioms MrHyDE.Modules.PorousMixed.C119_conservation
#print axioms MrHyDE.Modules.PorousMixed.C119_energy
#print axioms MrHyDE.Modules.PorousMixed.C119_symmetric
#print axioms MrHyDE.Modules.PorousMixed.C119_side
#print axioms MrHyDE.Modules.PorousMixed.C119_rest
#print axioms MrHyDE.Modules.PorousMixed.C119_face
#print axioms MrHyDE.Modules.PorousMixed.C119_multiplier
#print axioms MrHyDE.Modules.PorousMixed.C119_transmission
#print axioms MrHyDE.Modules.PorousMixed.C119_basis_partial
#print axioms MrHyDE.Modules.PorousMixed.C119_data_partial
#print axioms MrHyDE.Modules.PorousMixed.C119_basis_violated
#print axioms MrHyDE.Modules.PorousMixed.C119_data_violated
#print axioms MrHyDE.Modules.KL.C120_order
#print axioms MrHyDE.Modules.KL.C120_field_partial
#print axioms MrHyDE.Modules.KL.C120_written
#print axioms MrHyDE.Modules.KL.C120_derivative
#print axioms MrHyDE.Modules.KL.C120_eigenpair
#print axioms MrHyDE.Modules.KL.C120_normalised
#print axioms MrHyDE.Modules.KL.C120_roots_partial
#print axioms MrHyDE.Modules.KL.C120_roots_violated
#print axioms MrHyDE.Modules.KL.C120_three_violated
#print axioms MrHyDE.Modules.KL.C120_wells_partial
#print axioms MrHyDE.Modules.KL.C120_nowells_violated
#print axioms MrHyDE.Modules.KL.C120_wellperm_violated
#print axioms MrHyDE.Modules.KL.C120_wellsign_violated
#print axioms MrHyDE.Modules.KL.C120_one_violated
#print axioms MrHyDE.Modules.KL.C120_medium
#print axioms MrHyDE.Mesh.C121_nodes
#print axioms MrHyDE.Mesh.C121_cells
#print axioms MrHyDE.Mesh.C121_area
#print axioms MrHyDE.Mesh.C121_tiling
#print axioms MrHyDE.Mesh.C121_sides
#print axioms MrHyDE.Mesh.C121_ids
#print axioms MrHyDE.Mesh.C121_owner
#print axioms MrHyDE.Mesh.C121_whole
#print axioms MrHyDE.Mesh.C121_cell_owner
#print axioms MrHyDE.Mesh.C121_part_sides_partial
#print axioms MrHyDE.Mesh.C121_brick_nodes
#print axioms MrHyDE.Mesh.C121_brick_cells
#print axioms MrHyDE.Mesh.C121_brick_edges
#print axioms MrHyDE.Mesh.C121_brick_sides
#print axioms MrHyDE.Mesh.C121_division_violated
#print axioms MrHyDE.Mesh.C121_few_cells_violated
#print axioms MrHyDE.Mesh.C121_procid_violated
#print axioms MrHyDE.Mesh.C121_zero_violated
#print axioms MrHyDE.Mesh.C121_part_sides_violated
#print axioms MrHyDE.Mesh.C121_edges_violated
#print axioms MrHyDE.Mesh.C121_foreign_violated
#print axioms MrHyDE.Mesh.C121_rank
#print axioms MrHyDE.Mesh.C121_rank_violated
#print axioms MrHyDE.Mesh.C121_processes
#print axioms MrHyDE.Mesh.C121_processes_accepted
#print axioms MrHyDE.Mesh.C122_rectangle_partial
#print axioms MrHyDE.Mesh.C122_owned_partial
#print axioms MrHyDE.Mesh.C122_brick_violated
#print axioms MrHyDE.Mesh.C122_phase_violated
#print axioms MrHyDE.Mesh.C122_owned_violated
#print axioms MrHyDE.Mesh.C122_variables_violated
#print axioms MrHyDE.Mesh.C122_offsets_violated
#print axioms MrHyDE.Mesh.C122_discontinuous_violated
#print axioms MrHyDE.Mesh.C122_hexahedra_violated
#print axioms MrHyDE.Mesh.C122_phase_brick_violated
#print axioms MrHyDE.LinAlg.C123_fresh
#print axioms MrHyDE.LinAlg.C123_reuse_partial
#print axioms MrHyDE.LinAlg.C123_operator
#print axioms MrHyDE.LinAlg.C123_prec_current
#print axioms MrHyDE.LinAlg.C123_prec_first
#print axioms MrHyDE.LinAlg.C123_options
#print axioms MrHyDE.LinAlg.C123_belos
#print axioms MrHyDE.LinAlg.C123_generic
#print axioms MrHyDE.LinAlg.C123_previous_partial
#print axioms MrHyDE.LinAlg.C123_empty_violated
#print axioms MrHyDE.LinAlg.C123_adjoint_violated
#print axioms MrHyDE.LinAlg.C123_precname_violated
#print axioms MrHyDE.LinAlg.C123_paramL2_violated
#print axioms MrHyDE.LinAlg.C123_bndryprec_violated
#print axioms MrHyDE.LinAlg.C123_krylov_violated
#print axioms MrHyDE.LinAlg.C123_previous_violated
#print axioms MrHyDE.LinAlg.C123_direct
#print axioms MrHyDE.LinAlg.C123_new
#print axioms MrHyDE.LinAlg.C123_previous_reuse
#print axioms MrHyDE.LinAlg.C124_owned
#print axioms MrHyDE.LinAlg.C124_rows_known
#print axioms MrHyDE.LinAlg.C124_graph_partial
#print axioms MrHyDE.LinAlg.C124_symmetric
#print axioms MrHyDE.LinAlg.C124_room
#print axioms MrHyDE.LinAlg.C124_paramState
#print axioms MrHyDE.LinAlg.C124_alloc_partial
#print axioms MrHyDE.LinAlg.C124_phase_violated
#print axioms MrHyDE.LinAlg.C124_projection_violated
#print axioms MrHyDE.LinAlg.C124_ghosts
#print axioms MrHyDE.Modules.Euler.C125_numbers_partial
#print axioms MrHyDE.Modules.Euler.C125_numbers_violated
#print axioms MrHyDE.Modules.Euler.C125_gas
#print axioms MrHyDE.Modules.Euler.C125_mach
#print axioms MrHyDE.Modules.Euler.C125_flux_partial
#print axioms MrHyDE.Modules.Euler.C125_flux_violated
#print axioms MrHyDE.Modules.Euler.C125_jacobian_partial
#print axioms MrHyDE.Modules.Euler.C125_waves_partial
#print axioms MrHyDE.Modules.Euler.C125_left_violated
#print axioms MrHyDE.Modules.Euler.C125_consistent
#print axioms MrHyDE.Modules.Euler.C125_maxspeed
#print axioms MrHyDE.Modules.Euler.C125_roe_partial
#print axioms MrHyDE.Modules.Euler.C125_roe1_violated
#print axioms MrHyDE.Modules.Euler.C125_roe2_violated
#print axioms MrHyDE.Modules.Euler.C125_inflow_violated
#print axioms MrHyDE.Modules.Euler.C125_slip
#print axioms MrHyDE.Modules.Euler.C125_interface_partial
#print axioms MrHyDE.Modules.Euler.C125_balance_partial
#print axioms MrHyDE.Modules.Euler.C125_sides_violated
#print axioms MrHyDE.Modules.Euler.C125_conditions
#print axioms MrHyDE.Modules.Euler.C125_volume_partial
#print axioms MrHyDE.Modules.Euler.C125_conservation
#print axioms MrHyDE.Modules.Euler.C125_boundary_partial
#print axioms MrHyDE.Modules.Euler.C125_farfield_partial
#print axioms MrHyDE.Modules.Euler.C125_storage
#print axioms MrHyDE.Modules.Helmholtz.C126_weak
#print axioms MrHyDE.Modules.Helmholtz.C126_solutions_partial
#print axioms MrHyDE.Modules.Helmholtz.C126_combination
#print axioms MrHyDE.Modules.Helmholtz.C126_mixed_violated
#print axioms MrHyDE.Modules.Helmholtz.C126_bases_violated
#print axioms MrHyDE.Modules.Helmholtz.C126_orders_violated
#print axioms MrHyDE.Modules.Helmholtz.C126_fractional
#print axioms MrHyDE.Modules.Helmholtz.C126_fractional_violated
#print axioms MrHyDE.Modules.Helmholtz.C126_sides_partial
#print axioms MrHyDE.Modules.Helmholtz.C126_robin
#print axioms MrHyDE.Modules.Helmholtz.C126_sides_violated
#print axioms MrHyDE.Modules.Helmholtz.C126_condition_violated
#print axioms MrHyDE.Initial.C127_projection_partial
#print axioms MrHyDE.Initial.C127_closest_partial
#print axioms MrHyDE.Initial.C127_reproduces_partial
#print axioms MrHyDE.Initial.C127_blocks_violated
#print axioms MrHyDE.Initial.C127_two_blocks_violated
#print axioms MrHyDE.Initial.C127_small_violated
#print axioms MrHyDE.Initial.C127_hface_violated
#print axioms MrHyDE.Initial.C127_lumped_partial
#print axioms MrHyDE.Initial.C127_argument_violated
#print axioms MrHyDE.Initial.C127_face_partial
#print axioms MrHyDE.Initial.C127_face_adjoint_violated
#print axioms MrHyDE.Initial.C127_numbers_partial
#print axioms MrHyDE.Initial.C127_sets_violated
#print axioms MrHyDE.Initial.C127_mixed_violated
#print axioms MrHyDE.Initial.C127_constant
#print axioms MrHyDE.Initial.C127_given_partial
#print axioms MrHyDE.Initial.C127_missing_violated
#print axioms MrHyDE.Initial.C127_nodes_partial
#print axioms MrHyDE.Initial.C127_order_violated
#print axioms MrHyDE.Initial.C127_padding_violated
#print axioms MrHyDE.Initial.C127_face_rows
#print axioms MrHyDE.Initial.C127_last
#print axioms MrHyDE.Initial.C127_interp_defined
#print axioms MrHyDE.Micro.C128_lattice
#print axioms MrHyDE.Micro.C128_lattice_inside
#print axioms MrHyDE.Micro.C128_lattice_apart
#print axioms MrHyDE.Micro.C128_random
#print axioms MrHyDE.Micro.C128_spaced
#print axioms MrHyDE.Micro.C128_spaced_best
#print axioms MrHyDE.Micro.C128_box_violated
#print axioms MrHyDE.Micro.C128_box_partial
#print axioms MrHyDE.Micro.C128_rotation
#print axioms MrHyDE.Micro.C128_rotation_none
#print axioms MrHyDE.Micro.C128_grains_partial
#print axioms MrHyDE.Micro.C128_ties_violated
#print axioms MrHyDE.Micro.C128_topology_violated
#print axioms MrHyDE.Micro.C128_empty_violated
#print axioms MrHyDE.Micro.C128_distance_violated
#print axioms MrHyDE.Micro.C128_update
#print axioms MrHyDE.Micro.C128_update_partial
#print axioms MrHyDE.Micro.C128_update_violated
#print axioms MrHyDE.Micro.C128_update_boundary_violated
#print axioms MrHyDE.Micro.C128_volume
#print axioms MrHyDE.Micro.C128_boundary_violated
#print axioms MrHyDE.Micro.C128_boundary_zero_violated
#print axioms MrHyDE.Micro.C128_file_partial
#print axioms MrHyDE.Micro.C128_columns_violated
#print axioms MrHyDE.Micro.C128_index_violated
#print axioms MrHyDE.Micro.C128_grid_violated
#print axioms MrHyDE.Micro.C128_grid
#print axioms MrHyDE.Micro.C128_spaced_first
#print axioms MrHyDE.Micro.C128_width
#print axioms MrHyDE.Modules.Crystal.C129_strain
#print axioms MrHyDE.Modules.Crystal.C129_lattice_partial
#print axioms MrHyDE.Modules.Crystal.C129_lattice_violated
#print axioms MrHyDE.Modules.Crystal.C129_frame
#print axioms MrHyDE.Modules.Crystal.C129_unrotated
#print axioms MrHyDE.Modules.Crystal.C129_compose
#print axioms MrHyDE.Modules.Crystal.C129_energy
#print axioms MrHyDE.Modules.Crystal.C129_law_partial
#print axioms MrHyDE.Modules.Crystal.C129_shear_violated
#print axioms MrHyDE.Modules.Crystal.C129_isotropic_violated
#print axioms MrHyDE.Modules.Crystal.C129_constants_violated
#print axioms MrHyDE.Modules.Crystal.C129_lambda_violated
#print axioms MrHyDE.Modules.Crystal.C129_youngs
#print axioms MrHyDE.Modules.Crystal.C129_temperature_violated
#print axioms MrHyDE.Modules.Crystal.C129_expansion_partial
#print axioms MrHyDE.Modules.Crystal.C129_expansion
#print axioms MrHyDE.Modules.Crystal.C129_expansion_violated
#print axioms MrHyDE.Modules.Crystal.C129_plane_partial
#print axioms MrHyDE.Modules.Crystal.C129_plane_violated
#print axioms MrHyDE.Modules.Crystal.C129_bunge
#print axioms MrHyDE.Modules.Crystal.C129_bunge_rotation
#print axioms MrHyDE.Modules.Crystal.C129_choice
#print axioms MrHyDE.Modules.Crystal.C129_serial_partial
#print axioms MrHyDE.Modules.Crystal.C129_threads_violated
#print axioms MrHyDE.Modules.Crystal.C129_uniaxial
#print axioms MrHyDE.Modules.Crystal.C129_defaults
#print axioms MrHyDE.Solver.Steady.C130_settled
#print axioms MrHyDE.Solver.Steady.C130_kept
#print axioms MrHyDE.Solver.Steady.C130_oneway
#print axioms MrHyDE.Solver.Steady.C130_rate
#print axioms MrHyDE.Solver.Steady.C130_stored
#print axioms MrHyDE.Solver.Steady.C130_coupled_violated
#print axioms MrHyDE.Solver.Steady.C130_no_cycles_violated
#print axioms MrHyDE.Solver.Steady.C130_kind_violated
#print axioms MrHyDE.Solver.Steady.C130_guess
#print axioms MrHyDE.Solver.Steady.C130_equation
#print axioms MrHyDE.Solver.Steady.C130_gradient_partial
#print axioms MrHyDE.Solver.Steady.C130_run_partial
#print axioms MrHyDE.Solver.Steady.C130_start_violated
#print axioms MrHyDE.Solver.Steady.C130_late_violated
#print axioms MrHyDE.Solver.Steady.C130_negative_violated
#print axioms MrHyDE.Solver.Steady.C130_sets_violated
#print axioms MrHyDE.Solver.Steady.C130_frequency_violated
#print axioms MrHyDE.Solver.Steady.C130_leftover_violated
#print axioms MrHyDE.Solver.Steady.C130_dynamic_violated
#print axioms MrHyDE.Solver.Steady.C130_type_violated
#print axioms MrHyDE.Solver.Steady.C130_explicit_violated
#print axioms MrHyDE.Disc.Face.C131_quad_trace
#print axioms MrHyDE.Disc.Face.C131_quad_inside
#print axioms MrHyDE.Disc.Face.C131_quad_unity
#print axioms MrHyDE.Disc.Face.C131_quad_nodes
#print axioms MrHyDE.Disc.Face.C131_quad_all
#print axioms MrHyDE.Disc.Face.C131_quad_shared_partial
#print axioms MrHyDE.Disc.Face.C131_corner_violated
#print axioms MrHyDE.Disc.Face.C131_pointwise
#print axioms MrHyDE.Disc.Face.C131_batch_violated
#print axioms MrHyDE.Disc.Face.C131_tri_trace
#print axioms MrHyDE.Disc.Face.C131_tri_unity
#print axioms MrHyDE.Disc.Face.C131_tri_inside
#print axioms MrHyDE.Disc.Face.C131_tri_nodes_violated
#print axioms MrHyDE.Disc.Face.C131_tri_shared_violated
#print axioms MrHyDE.Disc.Face.C131_hex_trace
#print axioms MrHyDE.Disc.Face.C131_hex_inside
#print axioms MrHyDE.Disc.Face.C131_hex_shared_partial
#print axioms MrHyDE.Disc.Face.C131_hex_shared_violated
#print axioms MrHyDE.Disc.Face.C131_hex_nodes_partial
#print axioms MrHyDE.Disc.Face.C131_hex_nodes_violated
#print axioms MrHyDE.Disc.Face.C131_tet_partial
#print axioms MrHyDE.Disc.Face.C131_tet_violated
#print axioms MrHyDE.Disc.Face.C131_tri_all
#print axioms MrHyDE.Disc.Face.C131_tri_shared_partial
#print axioms MrHyDE.Disc.Face.C131_even_partial
#print axioms MrHyDE.Modules.WeakGalerkin.C132_volume
#print axioms MrHyDE.Modules.WeakGalerkin.C132_face
#print axioms MrHyDE.Modules.WeakGalerkin.C132_side
#print axioms MrHyDE.Modules.WeakGalerkin.C132_conservation
#print axioms MrHyDE.Modules.WeakGalerkin.C132_darcy
#print axioms MrHyDE.Modules.WeakGalerkin.C132_energy
#print axioms MrHyDE.Modules.WeakGalerkin.C132_rest
#print axioms MrHyDE.Modules.WeakGalerkin.C132_dirichlet_violated
#print axioms MrHyDE.Modules.WeakGalerkin.C132_coarse_violated
#print axioms MrHyDE.Modules.WeakGalerkin.C132_ac_divergence
#print axioms MrHyDE.Modules.WeakGalerkin.C132_ac_span
#print axioms MrHyDE.Modules.WeakGalerkin.C132_ac_constants
#print axioms MrHyDE.Modules.WeakGalerkin.C132_ac_position_violated
#print axioms MrHyDE.Modules.WeakGalerkin.C132_ac_edges_violated
#print axioms MrHyDE.Modules.WeakGalerkin.C132_ac_nodes
#print axioms MrHyDE.Modules.Saturation.C133_weak_partial
#print axioms MrHyDE.Modules.Saturation.C133_balance
#print axioms MrHyDE.Modules.Saturation.C133_uniform
#print axioms MrHyDE.Modules.Saturation.C133_further_violated
#print axioms MrHyDE.Modules.Saturation.C133_sides_violated
#print axioms MrHyDE.Modules.Saturation.C133_alone_iff
#print axioms MrHyDE.Modules.LevelSet.C134_weak_partial
#print axioms MrHyDE.Modules.LevelSet.C134_balance
#print axioms MrHyDE.Modules.LevelSet.C134_transported
#print axioms MrHyDE.Modules.LevelSet.C134_distance
#print axioms MrHyDE.Modules.LevelSet.C134_restoring
#print axioms MrHyDE.Modules.LevelSet.C134_names
#print axioms MrHyDE.Modules.LevelSet.C134_zero_violated
#print axioms MrHyDE.Modules.LevelSet.C134_fire_violated
#print axioms MrHyDE.Modules.LevelSet.C134_slow_violated
#print axioms MrHyDE.Modules.LevelSet.C134_output_violated
#print axioms MrHyDE.Modules.LevelSet.C134_velocity
#print axioms MrHyDE.Modules.Rothermal.C135_rothermel
#print axioms MrHyDE.Modules.Rothermal.C135_sign
#print axioms MrHyDE.Modules.Rothermal.C135_optimum
#print axioms MrHyDE.Modules.Rothermal.C135_bounds
#print axioms MrHyDE.Modules.Rothermal.C135_stands
#print axioms MrHyDE.Modules.Rothermal.C135_direction
#print axioms MrHyDE.Modules.Rothermal.C135_front
#print axioms MrHyDE.Modules.Rothermal.C135_turn
#print axioms MrHyDE.Modules.Rothermal.C135_external
#print axioms MrHyDE.Modules.Rothermal.C135_bare_violated
#print axioms MrHyDE.Modules.Rothermal.C135_wet_violated
#print axioms MrHyDE.Modules.Rothermal.C135_half_violated
#print axioms MrHyDE.Modules.Rothermal.C135_threshold_violated
#print axioms MrHyDE.Modules.Rothermal.C135_output_violated
#print axioms MrHyDE.Modules.Rothermal.C135_scale_violated
#print axioms MrHyDE.Modules.Rothermal.C135_scale_partial
#print axioms MrHyDE.Modules.Rothermal.C135_scale
#print axioms MrHyDE.Mesh.ExoGrid.C136_grid
#print axioms MrHyDE.Mesh.ExoGrid.C136_cell
#print axioms MrHyDE.Mesh.ExoGrid.C136_unique
#print axioms MrHyDE.Mesh.ExoGrid.C136_data_partial
#print axioms MrHyDE.Mesh.ExoGrid.C136_order_violated
#print axioms MrHyDE.Mesh.ExoGrid.C136_spacing_violated
#print axioms MrHyDE.Mesh.ExoGrid.C136_nodal
#print axioms MrHyDE.Mesh.ExoGrid.C136_bilinear
#print axioms MrHyDE.Mesh.ExoGrid.C136_accepts
#print axioms MrHyDE.Modules.PhaseField.C137_mobility
#print axioms MrHyDE.Modules.PhaseField.C137_weak_partial
#print axioms MrHyDE.Modules.PhaseField.C137_stale_violated
#print axioms MrHyDE.Modules.PhaseField.C137_space_violated
#print axioms MrHyDE.Modules.PhaseField.C137_line_violated
#print axioms MrHyDE.Modules.PhaseField.C137_pure
#print axioms MrHyDE.Modules.PhaseField.C137_energy
#print axioms MrHyDE.Modules.PhaseField.C137_parameters
#print axioms MrHyDE.Modules.PhaseField.C137_numbers
#print axioms MrHyDE.Modules.Bianisotropic.C138_faraday
#print axioms MrHyDE.Modules.Bianisotropic.C138_weak_partial
#print axioms MrHyDE.Modules.Bianisotropic.C138_names_violated
#print axioms MrHyDE.Modules.Bianisotropic.C138_components_violated
#print axioms MrHyDE.Modules.Bianisotropic.C138_default_violated
#print axioms MrHyDE.Modules.Bianisotropic.C138_active_violated
#print axioms MrHyDE.Modules.Bianisotropic.C138_settings
#print axioms MrHyDE.Modules.Bianisotropic.C138_absorbing
#print axioms MrHyDE.Modules.Bianisotropic.C138_boundary
#print axioms MrHyDE.Modules.Bianisotropic.C138_leap
#print axioms MrHyDE.Modules.Bianisotropic.C138_defaults
#print axioms MrHyDE.Analysis.C139_names
#print axioms MrHyDE.Analysis.C139_vector
#print axioms MrHyDE.Analysis.C139_later_run_partial
#print axioms MrHyDE.Analysis.C139_gradient
#print axioms MrHyDE.Analysis.C139_digits
#print axioms MrHyDE.Analysis.C139_digits_violated
#print axioms MrHyDE.Analysis.C139_missing
#print axioms MrHyDE.Analysis.C139_stale_violated
#print axioms MrHyDE.Analysis.C139_same_base_violated
#print axioms MrHyDE.Analysis.C140_names
#print axioms MrHyDE.Analysis.C140_files
#print axioms MrHyDE.Analysis.C140_recover_partial
#print axioms MrHyDE.Analysis.C140_memory
#print axioms MrHyDE.Analysis.C140_steady
#print axioms MrHyDE.Analysis.C140_transient_violated
#print axioms MrHyDE.Analysis.C140_recompute_violated
#print axioms MrHyDE.Analysis.C140_default_violated
#print axioms MrHyDE.Analysis.C140_stops
#print axioms MrHyDE.Analysis.C140_times_violated
#print axioms MrHyDE.Analysis.C140_times
#print axioms MrHyDE.Analysis.C140_sets
#print axioms MrHyDE.Analysis.C140_keeps
#print axioms MrHyDE.Analysis.C141_rows_partial
#print axioms MrHyDE.Analysis.C141_point
#print axioms MrHyDE.Analysis.C141_levels_violated
#print axioms MrHyDE.Analysis.C141_solutions
#print axioms MrHyDE.Analysis.C141_columns
#print axioms MrHyDE.Analysis.C141_adjoints_violated
#print axioms MrHyDE.Analysis.C141_adjoint_states_violated
#print axioms MrHyDE.Analysis.C141_component_violated
#print axioms MrHyDE.Analysis.C141_pointfile_violated
#print axioms MrHyDE.Analysis.C141_responses
#print axioms MrHyDE.Analysis.C142_names
#print axioms MrHyDE.Analysis.C142_final_partial
#print axioms MrHyDE.Analysis.C142_runs_violated
#print axioms MrHyDE.Analysis.C142_history_violated
#print axioms MrHyDE.Analysis.C142_kinds_violated
#print axioms MrHyDE.Analysis.C142_no_file_violated
#print axioms MrHyDE.Analysis.C142_sets_violated
#print axioms MrHyDE.Analysis.C142_short
#print axioms MrHyDE.Analysis.C142_repeat_violated
#print axioms MrHyDE.Analysis.C142_repeat
#print axioms MrHyDE.Analysis.C142_missing
#print axioms MrHyDE.Input.C143_merge
#print axioms MrHyDE.Input.C143_clash
#print axioms MrHyDE.Input.C143_sections_partial
#print axioms MrHyDE.Input.C143_one_file
#print axioms MrHyDE.Input.C143_files_found
#print axioms MrHyDE.Input.C143_required
#print axioms MrHyDE.Input.C143_main_file
#print axioms MrHyDE.Input.C143_ending
#print axioms MrHyDE.Input.C143_override_violated
#print axioms MrHyDE.Input.C143_misspelt_violated
#print axioms MrHyDE.Input.C143_no_ending_violated
#print axioms MrHyDE.Input.C143_brought_violated
#print axioms MrHyDE.Input.C143_auxiliary_violated
#print axioms MrHyDE.Input.C143_reserved
#print axioms MrHyDE.Modules.ShallowHybrid.C144_numbers_partial
#print axioms MrHyDE.Modules.ShallowHybrid.C144_numbers_violated
#print axioms MrHyDE.Modules.ShallowHybrid.C144_options
#print axioms MrHyDE.Modules.ShallowHybrid.C144_neither_violated
#print axioms MrHyDE.Modules.ShallowHybrid.C144_flux
#print axioms MrHyDE.Modules.ShallowHybrid.C144_three_violated
#print axioms MrHyDE.Modules.ShallowHybrid.C144_celerity
#print axioms MrHyDE.Modules.ShallowHybrid.C144_jacobian_partial
#print axioms MrHyDE.Modules.ShallowHybrid.C144_roe
#print axioms MrHyDE.Modules.ShallowHybrid.C144_maxspeed
#print axioms MrHyDE.Modules.ShallowHybrid.C144_fastest
#print axioms MrHyDE.Modules.ShallowHybrid.C144_consistent
#print axioms MrHyDE.Modules.ShallowHybrid.C144_farfield_partial
#print axioms MrHyDE.Modules.ShallowHybrid.C144_inflow_violated
#print axioms MrHyDE.Modules.ShallowHybrid.C144_slip
#print axioms MrHyDE.Modules.ShallowHybrid.C144_interface
#print axioms MrHyDE.Modules.ShallowHybrid.C144_conditions
#print axioms MrHyDE.Modules.ShallowHybrid.C144_sides_violated
#print axioms MrHyDE.Modules.ShallowHybrid.C144_balance
#print axioms MrHyDE.Modules.ShallowHybrid.C144_volume
#print axioms MrHyDE.Modules.ShallowHybrid.C144_boundary
#print axioms MrHyDE.Modules.ShallowHybrid.C144_uniform
#print axioms MrHyDE.Modules.ShallowHybrid.C144_storage
#print axioms MrHyDE.Modules.NeoHookean.C145_stress_partial
#print axioms MrHyDE.Modules.NeoHookean.C145_stress_2d
#print axioms MrHyDE.Modules.NeoHookean.C145_reference
#print axioms MrHyDE.Modules.NeoHookean.C145_frame_partial
#print axioms MrHyDE.Modules.NeoHookean.C145_rotation_violated
#print axioms MrHyDE.Modules.NeoHookean.C145_energy_partial
#print axioms MrHyDE.Modules.NeoHookean.C145_equilibrium_partial
#print axioms MrHyDE.Modules.NeoHookean.C145_moment_partial
#print axioms MrHyDE.Modules.NeoHookean.C145_moment_violated
#print axioms MrHyDE.Modules.NeoHookean.C145_small_partial
#print axioms MrHyDE.Modules.NeoHookean.C145_small_violated
#print axioms MrHyDE.Modules.NeoHookean.C145_side
#print axioms MrHyDE.Modules.NeoHookean.C145_flux_balance
#print axioms MrHyDE.Modules.NeoHookean.C145_flux_violated
#print axioms MrHyDE.Modules.NeoHookean.C146_mises_partial
#print axioms MrHyDE.Modules.NeoHookean.C146_invariant
#print axioms MrHyDE.Modules.NeoHookean.C146_pressure
#print axioms MrHyDE.Modules.NeoHookean.C146_plane_violated
#print axioms MrHyDE.Modules.NeoHookean.C146_magnitude_partial
#print axioms MrHyDE.Modules.NeoHookean.C146_shear_violated
#print axioms MrHyDE.Modules.NeoHookean.C146_names
#print axioms MrHyDE.Modules.NeoHookean.C146_cauchy_partial
#print axioms MrHyDE.Modules.NeoHookean.C146_frame_partial
#print axioms MrHyDE.Modules.NeoHookean.C146_turn_violated
#print axioms MrHyDE.Analysis.Inversion.C147_predicted
#print axioms MrHyDE.Analysis.Inversion.C147_responses
#print axioms MrHyDE.Analysis.Inversion.C147_gaussian
#print axioms MrHyDE.Analysis.Inversion.C147_uniform
#print axioms MrHyDE.Analysis.Inversion.C147_data
#print axioms MrHyDE.Analysis.Inversion.C147_weights
#print axioms MrHyDE.Analysis.Inversion.C147_information
#print axioms MrHyDE.Analysis.Inversion.C147_chance
#print axioms MrHyDE.Analysis.Inversion.C147_some
#print axioms MrHyDE.Analysis.Inversion.C147_files
#print axioms MrHyDE.Analysis.Inversion.C147_statistics_partial
#print axioms MrHyDE.Analysis.Inversion.C147_statistics_violated
#print axioms MrHyDE.Analysis.Inversion.C147_same
#print axioms MrHyDE.Analysis.Inversion.C147_responses_violated
#print axioms MrHyDE.Analysis.Inversion.C147_type_violated
#print axioms MrHyDE.Analysis.Inversion.C147_constant_violated
#print axioms MrHyDE.Analysis.Inversion.C147_file_violated
#print axioms MrHyDE.Modules.LowMach.C148_momentum_partial
#print axioms MrHyDE.Modules.LowMach.C148_energy
#print axioms MrHyDE.Modules.LowMach.C148_pressure
#print axioms MrHyDE.Modules.LowMach.C148_other
#print axioms MrHyDE.Modules.LowMach.C148_mass
#print axioms MrHyDE.Modules.LowMach.C148_consistent_partial
#print axioms MrHyDE.Modules.LowMach.C148_source_violated
#print axioms MrHyDE.Modules.LowMach.C148_graddiv_3d_violated
#print axioms MrHyDE.Modules.LowMach.C148_params
#print axioms MrHyDE.Modules.LowMach.C148_named
#print axioms MrHyDE.Modules.LowMach.C148_neumann
#print axioms MrHyDE.Modules.LowMach.C148_reserved
#print axioms MrHyDE.Modules.LowMach.C148_open
#print axioms MrHyDE.Modules.LowMach.C148_closed
#print axioms MrHyDE.Modules.LowMach.C148_advance
#print axioms MrHyDE.Modules.LowMach.C148_inflow_violated
#print axioms MrHyDE.Modules.LowMach.C148_closed_violated
#print axioms MrHyDE.Modules.LowMach.C148_read
#print axioms MrHyDE.Modules.LowMach.C148_background_violated
#print axioms MrHyDE.Modules.LowMach.C148_tau
#print axioms MrHyDE.Modules.LowMach.C148_tau_bounds
#print axioms MrHyDE.Modules.LowMach.C148_graddiv_violated
#print axioms MrHyDE.Modules.LowMach.C148_graddiv_2d
#print axioms MrHyDE.Opt.C149_elementwise
#print axioms MrHyDE.Opt.C149_reduce
#print axioms MrHyDE.Opt.C149_minimum
#print axioms MrHyDE.Opt.C149_dimension
#print axioms MrHyDE.Opt.C149_box_partial
#print axioms MrHyDE.Opt.C149_scalars_violated
#print axioms MrHyDE.Opt.C149_file_violated
#print axioms MrHyDE.Opt.C149_blank_violated
#print axioms MrHyDE.Opt.C149_short
#print axioms MrHyDE.Opt.C149_project_partial
#print axioms MrHyDE.Opt.C149_free_violated
#print axioms MrHyDE.Opt.C149_dynamic_violated
#print axioms MrHyDE.Opt.C149_half_violated
#print axioms MrHyDE.Opt.Run.C150_output
#print axioms MrHyDE.Opt.Run.C150_steady_violated
#print axioms MrHyDE.Opt.Run.C150_source_violated
#print axioms MrHyDE.Opt.Run.C150_data
#print axioms MrHyDE.Opt.Run.C150_settings_violated
#print axioms MrHyDE.Opt.Run.C150_gradient_violated
#print axioms MrHyDE.Opt.Run.C150_gradient_partial
#print axioms MrHyDE.Opt.Run.C150_files
#print axioms MrHyDE.Opt.Run.C150_saved
#print axioms MrHyDE.Opt.Run.C150_final_partial
#print axioms MrHyDE.Opt.Run.C150_final_violated
#print axioms MrHyDE.Opt.Run.C150_numbers
#print axioms MrHyDE.Postprocess.Exodus.C151_state
#print axioms MrHyDE.Postprocess.Exodus.C151_average
#print axioms MrHyDE.Postprocess.Exodus.C151_parameter_partial
#print axioms MrHyDE.Postprocess.Exodus.C151_parameter_violated
#print axioms MrHyDE.Postprocess.Exodus.C151_search
#print axioms MrHyDE.Postprocess.Exodus.C151_curl_violated
#print axioms MrHyDE.Postprocess.Exodus.C151_extra_violated
#print axioms MrHyDE.Postprocess.Exodus.C151_cells_exact
#print axioms MrHyDE.Postprocess.Exodus.C151_derived_exact
#print axioms MrHyDE.Postprocess.Exodus.C151_cells_partial
#print axioms MrHyDE.Postprocess.Exodus.C151_derived_partial
#print axioms MrHyDE.Postprocess.Exodus.C151_partial
#print axioms MrHyDE.Postprocess.Exodus.C151_sets_violated
#print axioms MrHyDE.Postprocess.Exodus.C151_derived_violated
#print axioms MrHyDE.Postprocess.Exodus.C151_names_violated
#print axioms MrHyDE.Postprocess.Exodus.C152_partial
#print axioms MrHyDE.Postprocess.Exodus.C152_extra_violated
#print axioms MrHyDE.Postprocess.Exodus.C152_type_violated
#print axioms MrHyDE.Postprocess.Exodus.C152_stk_violated
#print axioms MrHyDE.Postprocess.Exodus.C152_grains_violated
#print axioms MrHyDE.Postprocess.Exodus.C152_hface
#print axioms MrHyDE.Postprocess.Exodus.C152_mesh
#print axioms MrHyDE.Views.DataFile.C153_points_partial
#print axioms MrHyDE.Views.DataFile.C153_many_violated
#print axioms MrHyDE.Views.DataFile.C153_comma_violated
#print axioms MrHyDE.Views.DataFile.C153_blank_violated
#print axioms MrHyDE.Views.DataFile.C153_long_violated
#print axioms MrHyDE.Views.DataFile.C153_values
#print axioms MrHyDE.Views.DataFile.C153_partial
#print axioms MrHyDE.Views.DataFile.C153_order
#print axioms MrHyDE.Views.DataFile.C153_short_violated
#print axioms MrHyDE.Views.DataFile.C153_use_partial
#print axioms MrHyDE.Views.DataFile.C153_quadrature_violated
#print axioms MrHyDE.Views.DataFile.C153_grid_partial
#print axioms MrHyDE.Views.DataFile.C153_gridnode_partial
#print axioms MrHyDE.Views.DataFile.C153_float_violated
#print axioms MrHyDE.Views.DataFile.C153_gridshort_violated
#print axioms MrHyDE.Postprocess.SensorData.C154_partial
#print axioms MrHyDE.Postprocess.SensorData.C154_refused
#print axioms MrHyDE.Postprocess.SensorData.C154_misfit
#print axioms MrHyDE.Postprocess.SensorData.C154_missing_violated
#print axioms MrHyDE.Postprocess.SensorData.C154_padded
#print axioms MrHyDE.Postprocess.SensorData.C154_short_violated
#print axioms MrHyDE.Postprocess.SensorData.C154_times_violated
#print axioms MrHyDE.Postprocess.SensorData.C154_nodata_violated
#print axioms MrHyDE.Postprocess.SensorData.C154_mesh_partial
#print axioms MrHyDE.Postprocess.SensorData.C154_mesh_groups_violated
#print axioms MrHyDE.Postprocess.SensorData.C154_mesh_datum_violated
#print axioms MrHyDE.Postprocess.SensorData.C154_mesh_count_violated
#print axioms MrHyDE.Postprocess.SensorData.C154_mesh_name_violated
#print axioms MrHyDE.Postprocess.SensorData.C154_quadrature
#print axioms MrHyDE.Postprocess.SensorData.C154_side_violated
#print axioms MrHyDE.Postprocess.SensorData.C154_first_violated
#print axioms MrHyDE.Postprocess.SensorData.C154_mesh_negative_violated
#print axioms MrHyDE.Postprocess.SensorValue.C155_basis_partial
#print axioms MrHyDE.Postprocess.SensorValue.C155_order_violated
#print axioms MrHyDE.Postprocess.SensorValue.C155_face_violated
#print axioms MrHyDE.Postprocess.SensorValue.C155_solution
#print axioms MrHyDE.Postprocess.SensorValue.C155_partial
#print axioms MrHyDE.Postprocess.SensorValue.C155_vector_violated
#print axioms MrHyDE.Postprocess.SensorValue.C155_set_violated
#print axioms MrHyDE.Postprocess.SensorValue.C155_components_partial
#print axioms MrHyDE.Objective.State.C156_partial
#print axioms MrHyDE.Objective.State.C156_regularisation_violated
#print axioms MrHyDE.Objective.State.C156_fixed_violated
#print axioms MrHyDE.Objective.State.C156_fields_partial
#print axioms MrHyDE.Objective.State.C156_face_violated
#print axioms MrHyDE.Objective.State.C156_points_violated
#print axioms MrHyDE.Objective.State.C156_points_partial
#print axioms MrHyDE.Objective.State.C156_parameters_partial
#print axioms MrHyDE.Objective.State.C156_parameters_violated
#print axioms MrHyDE.Assembly.Newton.C157_partial
#print axioms MrHyDE.Assembly.Newton.C157_residual
#print axioms MrHyDE.Assembly.Newton.C157_affine_partial
#print axioms MrHyDE.Assembly.Newton.C157_multiscale_partial
#print axioms MrHyDE.Assembly.Newton.C157_multiscale_violated
#print axioms MrHyDE.Assembly.Newton.C157_terms_partial
#print axioms MrHyDE.Assembly.Newton.C157_terms_violated
#print axioms MrHyDE.Assembly.Newton.C157_faces_violated
#print axioms MrHyDE.BC.Values.C158_partial
#print axioms MrHyDE.BC.Values.C158_state_partial
#print axioms MrHyDE.BC.Values.C158_reproduced_partial
#print axioms MrHyDE.BC.Values.C158_oblique_violated
#print axioms MrHyDE.BC.Values.C158_scalar_partial
#print axioms MrHyDE.BC.Values.C158_sides_violated
#print axioms MrHyDE.BC.Values.C158_text_violated
#print axioms MrHyDE.BC.Values.C158_constant_partial
#print axioms MrHyDE.BC.Values.C158_coefficient_violated
#print axioms MrHyDE.BC.Values.C158_time_partial
#print axioms MrHyDE.BC.Values.C158_static_violated
#print axioms MrHyDE.BC.Values.C158_data_partial
#print axioms MrHyDE.BC.Values.C158_components_violated
#print axioms MrHyDE.BC.Values.C158_normal_violated
#print axioms MrHyDE.BC.Values.C158_label_partial
#print axioms MrHyDE.Subgrid.Switch.C159_partial
#print axioms MrHyDE.Subgrid.Switch.C159_reproduces_partial
#print axioms MrHyDE.Subgrid.Switch.C159_mean_partial
#print axioms MrHyDE.Subgrid.Switch.C159_same_partial
#print axioms MrHyDE.Subgrid.Switch.C159_size_violated
#print axioms MrHyDE.Subgrid.Switch.C159_order_violated
#print axioms MrHyDE.Subgrid.Switch.C159_mixed_violated
#print axioms MrHyDE.Subgrid.Switch.C159_room_violated
#print axioms MrHyDE.Subgrid.Switch.C159_outside_violated
#print axioms MrHyDE.Subgrid.Switch.C159_groups_partial
#print axioms MrHyDE.Subgrid.Switch.C159_numbers_partial
#print axioms MrHyDE.Subgrid.Switch.C159_plain_block_violated
#print axioms MrHyDE.Subgrid.Life.C160_sync_partial
#print axioms MrHyDE.Subgrid.Life.C160_start_partial
#print axioms MrHyDE.Subgrid.Life.C160_async_partial
#print axioms MrHyDE.Subgrid.Life.C160_rejected_violated
#print axioms MrHyDE.Subgrid.Life.C160_abscissa_violated
#print axioms MrHyDE.Subgrid.Life.C160_second_run_violated
#print axioms MrHyDE.Subgrid.Life.C160_history_violated
#print axioms MrHyDE.Subgrid.Life.C160_first_violated
#print axioms MrHyDE.Subgrid.Errors.C161_partial
#print axioms MrHyDE.Subgrid.Errors.C161_total_partial
#print axioms MrHyDE.Subgrid.Errors.C161_changing_violated
#print axioms MrHyDE.Subgrid.Errors.C161_face_violated
#print axioms MrHyDE.Subgrid.Errors.C161_inactive_face_violated
#print axioms MrHyDE.Modules.Kinetic.C162_partial
#print axioms MrHyDE.Modules.Kinetic.C162_balance_partial
#print axioms MrHyDE.Modules.Kinetic.C162_electron_violated
#print axioms MrHyDE.Modules.Kinetic.C162_undetermined_violated
#print axioms MrHyDE.Modules.Kinetic.C162_witness_violated
#print axioms MrHyDE.Modules.Kinetic.C162_transport_violated
#print axioms MrHyDE.Modules.Kinetic.C162_phase_partial
#print axioms MrHyDE.Modules.Kinetic.C162_phase_source_violated
#print axioms MrHyDE.Modules.Kinetic.C162_phase_violated
#print axioms MrHyDE.Modules.MaxwellPotential.C163_rows
#print axioms MrHyDE.Modules.MaxwellPotential.C163_partial
#print axioms MrHyDE.Modules.MaxwellPotential.C163_equation_partial
#print axioms MrHyDE.Modules.MaxwellPotential.C163_weights_violated
#print axioms MrHyDE.Modules.MaxwellPotential.C163_rates_violated
#print axioms MrHyDE.Modules.MaxwellPotential.C163_side
#print axioms MrHyDE.Modules.MaxwellPotential.C163_boundary_violated
#print axioms MrHyDE.Modules.MaxwellPotential.C163_media
#print axioms MrHyDE.Modules.MaxwellPotential.C163_data1
#print axioms MrHyDE.Modules.MaxwellPotential.C163_data2
#print axioms MrHyDE.Modules.MaxwellPotential.C163_data3
#print axioms MrHyDE.Modules.MaxwellPotential.C163_vars
#print axioms MrHyDE.Modules.MaxwellPotential.C163_rate_values
#print axioms MrHyDE.Modules.MaxwellPotential.C163_vacuum
#print axioms MrHyDE.Modules.MaxwellPotential.C163_current4
#print axioms MrHyDE.Modules.MaxwellControl.C164_magnetisation
#print axioms MrHyDE.Modules.MaxwellControl.C164_no_control
#print axioms MrHyDE.Modules.MaxwellControl.C164_ampere_2d_partial
#print axioms MrHyDE.Modules.MaxwellControl.C164_ampere_3d_partial
#print axioms MrHyDE.Modules.MaxwellControl.C164_energy_2d
#print axioms MrHyDE.Modules.MaxwellControl.C164_absorbing
#print axioms MrHyDE.Modules.MaxwellControl.C164_dissipates
#print axioms MrHyDE.Modules.MaxwellControl.C164_current_violated
#print axioms MrHyDE.Modules.MaxwellControl.C164_component_violated
#print axioms MrHyDE.Modules.MaxwellControl.C164_absorbing_2d_violated
#print axioms MrHyDE.Assembly.Worksets.C165_partial
#print axioms MrHyDE.Assembly.Worksets.C165_jacobian
#print axioms MrHyDE.Assembly.Worksets.C165_same
#print axioms MrHyDE.Assembly.Worksets.C165_violated
#print axioms MrHyDE.Assembly.Worksets.C165_create_violated
#print axioms MrHyDE.Assembly.Worksets.C165_size
#print axioms MrHyDE.Opt.Metric.C166_plain
#print axioms MrHyDE.Opt.Metric.C166_matrix
#print axioms MrHyDE.Opt.Metric.C166_orthogonal_partial
#print axioms MrHyDE.Opt.Metric.C166_constant_partial
#print axioms MrHyDE.Opt.Metric.C166_lumped_one_partial
#print axioms MrHyDE.Opt.Metric.C166_positive
#print axioms MrHyDE.Opt.Metric.C166_face_violated
#print axioms MrHyDE.Opt.Metric.C166_violated
#print axioms MrHyDE.Opt.Metric.C166_lumped_violated
#print axioms MrHyDE.Opt.Metric.C166_matrix_empty_violated
#print axioms MrHyDE.Database.Points.C167_direct
#print axioms MrHyDE.Database.Points.C167_tolerance_partial
#print axioms MrHyDE.Database.Points.C167_exact_partial
#print axioms MrHyDE.Database.Points.C167_table
#print axioms MrHyDE.Database.Points.C167_simple_partial
#print axioms MrHyDE.Database.Points.C167_rows_partial
#print axioms MrHyDE.Database.Points.C167_parallel_violated
#print axioms MrHyDE.Database.Points.C167_brick_violated
#print axioms MrHyDE.Database.Points.C167_alone_violated
#print axioms MrHyDE.Database.Points.C167_weights_partial
#print axioms MrHyDE.Database.Points.C167_weights_violated
#print axioms MrHyDE.Database.Points.C167_order_needed
#print axioms MrHyDE.Assembly.ParamGrad.C168_partial
#print axioms MrHyDE.Assembly.ParamGrad.C168_entries
#print axioms MrHyDE.Assembly.ParamGrad.C168_fix_zero_rows_violated
#print axioms MrHyDE.Assembly.ParamGrad.C168_multiscale_violated
#print axioms MrHyDE.Assembly.ParamGrad.C168_reuse_violated
#print axioms MrHyDE.Subgrid.AdjointSolve.C169_partial
#print axioms MrHyDE.Subgrid.AdjointSolve.C169_adjoint_violated
#print axioms MrHyDE.Subgrid.AdjointSolve.C169_sensitivity_violated
#print axioms MrHyDE.Subgrid.AdjointSolve.C169_adjoint_value
#print axioms MrHyDE.Subgrid.AdjointSolve.C169_alias
#print axioms MrHyDE.Subgrid.AdjointSolve.C169_limit_violated
#print axioms MrHyDE.Subgrid.AdjointSolve.C169_alias_violated
#print axioms MrHyDE.Subgrid.AdjointSolve.C169_mortar_violated
#print axioms MrHyDE.Subgrid.AdjointSolve.C169_gradient_value
#print axioms MrHyDE.Subgrid.AdjointSolve.C169_steady_value
#print axioms MrHyDE.Subgrid.AdjointSolve.C169_transient_value
#print axioms MrHyDE.Assembly.DiagRepair.C170_entries
#print axioms MrHyDE.Assembly.DiagRepair.C170_partial
#print axioms MrHyDE.Assembly.DiagRepair.C170_constant_violated
#print axioms MrHyDE.Assembly.DiagRepair.C170_coupling_violated
#print axioms MrHyDE.Assembly.DiagRepair.C170_units_violated
#print axioms MrHyDE.Assembly.DiagRepair.C170_adjoint_violated
#print axioms MrHyDE.Assembly.DiagRepair.C170_residual_violated
#print axioms MrHyDE.Assembly.DiagRepair.C170_shared_violated
#print axioms MrHyDE.Param.Protocol.C171_partial
#print axioms MrHyDE.Param.Protocol.C171_explicit_violated
#print axioms MrHyDE.Param.Protocol.C171_first_violated
#print axioms MrHyDE.Param.Protocol.C171_stale_violated
#print axioms MrHyDE.Param.Protocol.C171_static_violated
#print axioms MrHyDE.Param.Protocol.C171_steady_dynamic_violated
#print axioms MrHyDE.Param.Protocol.C171_steps_violated
#print axioms MrHyDE.Param.Protocol.C171_steps
#print axioms MrHyDE.Param.Protocol.C171_adjoint_steps
#print axioms MrHyDE.Param.Protocol.C171_sets_violated
#print axioms MrHyDE.Objective.SensorGrad.C172_partial
#print axioms MrHyDE.Objective.SensorGrad.C172_serial_partial
#print axioms MrHyDE.Objective.SensorGrad.C172_order_violated
#print axioms MrHyDE.Objective.SensorGrad.C172_processes_violated
#print axioms MrHyDE.Objective.SensorGrad.C172_state_violated
#print axioms MrHyDE.Objective.SensorGrad.C172_state_partial
#print axioms MrHyDE.Postprocess.SensorFiles.C173_partial
#print axioms MrHyDE.Postprocess.SensorFiles.C173_files_partial
#print axioms MrHyDE.Postprocess.SensorFiles.C173_responses_partial
#print axioms MrHyDE.Postprocess.SensorFiles.C173_quadrature_violated
#print axioms MrHyDE.Postprocess.SensorFiles.C173_lengths_violated
#print axioms MrHyDE.Postprocess.SensorFiles.C173_dft_violated
#print axioms MrHyDE.Postprocess.SensorFiles.C173_hdf5_partial
#print axioms MrHyDE.Postprocess.SensorFiles.C173_hdf5_violated
#print axioms MrHyDE.Postprocess.SensorFiles.C173_names_violated
#print axioms MrHyDE.Postprocess.SensorFiles.C173_records_partial
#print axioms MrHyDE.Postprocess.FarField.C174_partial
#print axioms MrHyDE.Postprocess.FarField.C174_single_partial
#print axioms MrHyDE.Postprocess.FarField.C174_sensors_violated
#print axioms MrHyDE.Postprocess.FarField.C174_directions_violated
#print axioms MrHyDE.Postprocess.FarField.C174_phi_violated
#print axioms MrHyDE.Postprocess.FarField.C174_theta_violated
#print axioms MrHyDE.Postprocess.FarField.C174_processes_violated
#print axioms MrHyDE.Postprocess.FarField.C174_defaults_violated
#print axioms MrHyDE.Postprocess.FarField.C174_power_violated
#print axioms MrHyDE.Postprocess.FarField.C174_angles_partial
#print axioms MrHyDE.Postprocess.FarField.C174_lines_partial
#print axioms MrHyDE.Postprocess.FarField.C174_kernel_partial
#print axioms MrHyDE.Postprocess.FarField.C174_columns_partial
#print axioms MrHyDE.Postprocess.FarField.C174_angle_partial
#print axioms MrHyDE.Postprocess.FluxFile.C175_partial
#print axioms MrHyDE.Postprocess.FluxFile.C175_one_partial
#print axioms MrHyDE.Postprocess.FluxFile.C175_lines_partial
#print axioms MrHyDE.Postprocess.FluxFile.C175_times_violated
#print axioms MrHyDE.Postprocess.FluxFile.C175_solves_violated
#print axioms MrHyDE.Postprocess.FluxFile.C175_unreported_violated
#print axioms MrHyDE.Postprocess.FluxFile.C175_append_violated
#print axioms MrHyDE.Postprocess.FluxFile.C175_number_violated
#print axioms MrHyDE.Postprocess.QuadFiles.C176_partial
#print axioms MrHyDE.Postprocess.QuadFiles.C176_integral_partial
#print axioms MrHyDE.Postprocess.QuadFiles.C176_side_partial
#print axioms MrHyDE.Postprocess.QuadFiles.C176_processes_violated
#print axioms MrHyDE.Postprocess.QuadFiles.C176_empty_violated
#print axioms MrHyDE.Postprocess.QuadFiles.C176_unknown_violated
#print axioms MrHyDE.Postprocess.QuadFiles.C176_last_violated
#print axioms MrHyDE.Postprocess.QuadFiles.C176_host_violated
#print axioms MrHyDE.Time.Tables.C177_partial
#print axioms MrHyDE.Time.Tables.C177_zero_violated
#print axioms MrHyDE.Time.Tables.C177_order_violated
#print axioms MrHyDE.Time.Tables.C177_shift
#print axioms MrHyDE.Time.Tables.C177_own_partial
#print axioms MrHyDE.Time.Tables.C177_revert
#print axioms MrHyDE.Time.Tables.C177_synchronous_violated
#print axioms MrHyDE.Time.Tables.C177_startup_violated
#print axioms MrHyDE.Opt.Stoch.C178_files
#print axioms MrHyDE.Opt.Stoch.C178_single
#print axioms MrHyDE.Opt.Stoch.C178_expectation
#print axioms MrHyDE.Opt.Stoch.C178_processes_violated
#print axioms MrHyDE.Opt.Stoch.C178_count_violated
#print axioms MrHyDE.Opt.Stoch.C178_empty_violated
#print axioms MrHyDE.Opt.Stoch.C178_write_violated
#print axioms MrHyDE.Opt.Stoch.C178_short_violated
#print axioms MrHyDE.Opt.Stoch.C178_missing_violated
#print axioms MrHyDE.Opt.Stoch.C178_objectives
#print axioms MrHyDE.Opt.Stoch.C178_final_partial
#print axioms MrHyDE.Opt.Stoch.C178_final_violated
#print axioms MrHyDE.Opt.Stoch.C178_steady_violated
#print axioms MrHyDE.Opt.Stoch.C178_primal_dual_violated
#print axioms MrHyDE.Opt.Stoch.C178_written
#print axioms MrHyDE.Opt.Stoch.C178_iterate_partial
#print axioms MrHyDE.Opt.Stoch.C178_iterate_short_violated
#print axioms MrHyDE.Opt.Stoch.C178_iterate_many_violated
#print axioms MrHyDE.Opt.Stoch.C178_iterate_missing_violated
#print axioms MrHyDE.Opt.Stoch.C178_word_violated
#print axioms MrHyDE.Subgrid.Output.C179_mesh
#print axioms MrHyDE.Subgrid.Output.C179_nodal_partial
#print axioms MrHyDE.Subgrid.Output.C179_cell_partial
#print axioms MrHyDE.Subgrid.Output.C179_names
#print axioms MrHyDE.Subgrid.Output.C179_vector_violated
#print axioms MrHyDE.Subgrid.Output.C179_average_violated
#print axioms MrHyDE.Subgrid.Output.C179_extra_violated
#print axioms MrHyDE.Subgrid.Output.C179_files
#print axioms MrHyDE.Subgrid.Output.C179_steps_partial
#print axioms MrHyDE.Subgrid.Output.C179_first_violated
#print axioms MrHyDE.Subgrid.Output.C179_steady_violated
#print axioms MrHyDE.Subgrid.Groups.C180_groups_partial
#print axioms MrHyDE.Subgrid.Groups.C180_oriented_partial
#print axioms MrHyDE.Subgrid.Groups.C180_defined
#print axioms MrHyDE.Subgrid.Groups.C180_orientation_violated
#print axioms MrHyDE.Subgrid.Groups.C180_larger_violated
#print axioms MrHyDE.Subgrid.Groups.C180_quadToTri_violated
#print axioms MrHyDE.Subgrid.Groups.C180_triToQuad_violated
#print axioms MrHyDE.Subgrid.Groups.C180_tri_violated
#print axioms MrHyDE.Subgrid.Groups.C180_quad
#print axioms MrHyDE.Subgrid.Groups.C180_initial_partial
#print axioms MrHyDE.Subgrid.Groups.C180_initial_violated
#print axioms MrHyDE.Subgrid.Groups.C180_quad_sizes
#print axioms MrHyDE.Subgrid.Groups.C180_tri_sizes_violated
#print axioms MrHyDE.Multiscale.Input.C181_sections
#print axioms MrHyDE.Multiscale.Input.C181_models_partial
#print axioms MrHyDE.Multiscale.Input.C181_single_partial
#print axioms MrHyDE.Multiscale.Input.C181_usage
#print axioms MrHyDE.Multiscale.Input.C181_info_partial
#print axioms MrHyDE.Multiscale.Input.C181_selection_partial
#print axioms MrHyDE.Multiscale.Input.C181_selection_violated
#print axioms MrHyDE.Multiscale.Input.C181_block_violated
#print axioms MrHyDE.Multiscale.Input.C181_type_violated
#print axioms MrHyDE.Multiscale.Input.C181_single_violated
#print axioms MrHyDE.Multiscale.Input.C181_info_violated
#print axioms MrHyDE.Multiscale.Input.C181_default_violated
#print axioms MrHyDE.Postprocess.TrueSolutions.C182_measured
#print axioms MrHyDE.Postprocess.TrueSolutions.C182_accepted
#print axioms MrHyDE.Postprocess.TrueSolutions.C182_compared_partial
#print axioms MrHyDE.Postprocess.TrueSolutions.C182_curl_violated
#print axioms MrHyDE.Postprocess.TrueSolutions.C182_unknown_violated
#print axioms MrHyDE.Postprocess.TrueSolutions.C182_plane_violated
#print axioms MrHyDE.Postprocess.TrueSolutions.C182_scalar_violated
#print axioms MrHyDE.Param.Fields.C183_families
#print axioms MrHyDE.Param.Fields.C183_layout
#print axioms MrHyDE.Param.Fields.C183_used_partial
#print axioms MrHyDE.Param.Fields.C183_family_violated
#print axioms MrHyDE.Param.Fields.C183_initial
#print axioms MrHyDE.Param.Fields.C183_custom_violated
#print axioms MrHyDE.Param.Fields.C183_levels_partial
#print axioms MrHyDE.Param.Fields.C183_static_violated
#print axioms MrHyDE.Param.Fields.C183_static_scalar_violated
#print axioms MrHyDE.Mesh.Construct.C184_asked_partial
#print axioms MrHyDE.Mesh.Construct.C184_refused
#print axioms MrHyDE.Mesh.Construct.C184_box
#print axioms MrHyDE.Mesh.Construct.C184_dimension_violated
#print axioms MrHyDE.Mesh.Construct.C184_default_violated
#print axioms MrHyDE.Mesh.Construct.C184_output_partial
#print axioms MrHyDE.Mesh.Construct.C184_output_violated
#print axioms MrHyDE.Mesh.Construct.C184_phase_violated
#print axioms MrHyDE.Mesh.Construct.C184_nophase
#print axioms MrHyDE.Mesh.Construct.C184_fine_partial
#print axioms MrHyDE.Mesh.Construct.C184_fine_violated
#print axioms MrHyDE.Mesh.Construct.C184_simple_partial
#print axioms MrHyDE.Mesh.Construct.C184_simple_violated
#print axioms MrHyDE.Disc.Families.C185_basis_partial
#print axioms MrHyDE.Disc.Families.C185_hvol_violated
#print axioms MrHyDE.Disc.Families.C185_block
#print axioms MrHyDE.Disc.Families.C185_input
#print axioms MrHyDE.Disc.Families.C185_refused
#print axioms MrHyDE.Disc.Families.C185_quadrature_partial
#print axioms MrHyDE.Disc.Families.C185_quadrature_violated
#print axioms MrHyDE.Disc.Families.C185_sparse_partial
#print axioms MrHyDE.Disc.Families.C185_sparse_violated
#print axioms MrHyDE.Physics.InitialData.C186_projection_partial
#print axioms MrHyDE.Physics.InitialData.C186_face_partial
#print axioms MrHyDE.Physics.InitialData.C186_interpolation_partial
#print axioms MrHyDE.Physics.InitialData.C186_skipped_violated
#print axioms MrHyDE.Physics.InitialData.C186_mixed_violated
#print axioms MrHyDE.Physics.InitialData.C186_vector_violated
#print axioms MrHyDE.Physics.InitialData.C186_type_violated
#print axioms MrHyDE.Physics.InitialData.C186_whole_violated
#print axioms MrHyDE.Physics.InitialData.C186_same_violated
#print axioms MrHyDE.Analysis.Purge.C187_kept_partial
#print axioms MrHyDE.Analysis.Purge.C187_same_partial
#print axioms MrHyDE.Analysis.Purge.C187_defined_partial
#print axioms MrHyDE.Analysis.Purge.C187_violated
#print axioms MrHyDE.Analysis.Purge.C187_linalg_partial
#print axioms MrHyDE.Analysis.Purge.C187_freed_partial
#print axioms MrHyDE.Physics.Weights.C188_read_partial
#print axioms MrHyDE.Physics.Weights.C188_norm_partial
#print axioms MrHyDE.Physics.Weights.C188_text_violated
#print axioms MrHyDE.Physics.Weights.C188_whole_violated
#print axioms MrHyDE.Physics.Weights.C188_serial_violated
#print axioms MrHyDE.Physics.Weights.C188_sets_violated
#print axioms MrHyDE.Physics.Weights.C188_left_violated
#print axioms MrHyDE.Physics.Weights.C188_interface_partial
#print axioms MrHyDE.Mesh.ExoData.C189_data_partial
#print axioms MrHyDE.Mesh.ExoData.C189_ranks
#print axioms MrHyDE.Mesh.ExoData.C189_padding_iff
#print axioms MrHyDE.Mesh.ExoData.C189_padding_violated
#print axioms MrHyDE.Mesh.ExoData.C189_missing_violated
#print axioms MrHyDE.Mesh.ExoData.C189_blocks_violated
#print axioms MrHyDE.Mesh.ExoData.C189_first_violated
#print axioms MrHyDE.Mesh.ExoData.C189_name_violated
#print axioms MrHyDE.Mesh.ExoData.C189_nodal_violated
#print axioms MrHyDE.Mesh.ExoData.C189_sign
#print axioms MrHyDE.Mesh.ExoData.C189_blank_violated
#print axioms MrHyDE.Postprocess.Movie.C190_defined_partial
#print axioms MrHyDE.Postprocess.Movie.C190_nodal_partial
#print axioms MrHyDE.Postprocess.Movie.C190_cell_partial
#print axioms MrHyDE.Postprocess.Movie.C190_frames
#print axioms MrHyDE.Postprocess.Movie.C190_shared_violated
#print axioms MrHyDE.Postprocess.Movie.C190_vector_violated
#print axioms MrHyDE.Postprocess.Movie.C190_index_violated
#print axioms MrHyDE.Postprocess.Movie.C190_levels_violated
#print axioms MrHyDE.Postprocess.Movie.C190_declared
#print axioms MrHyDE.Postprocess.Movie.C190_type
#print axioms MrHyDE.Postprocess.Movie.C190_last
#print axioms MrHyDE.Multiscale.Training.C191_label
#print axioms MrHyDE.Multiscale.Training.C191_features
#print axioms MrHyDE.Multiscale.Training.C191_data_partial
#print axioms MrHyDE.Multiscale.Training.C191_residual
#print axioms MrHyDE.Multiscale.Training.C191_gradient_violated
#print axioms MrHyDE.Multiscale.Training.C191_rows_violated
#print axioms MrHyDE.Multiscale.Training.C191_phases
#print axioms MrHyDE.Multiscale.Training.C191_given_violated
#print axioms MrHyDE.Multiscale.Training.C191_static_violated
#print axioms MrHyDE.Multiscale.Training.C191_nothing_violated
#print axioms MrHyDE.Multiscale.Training.C191_many_violated
#print axioms MrHyDE.Multiscale.Training.C191_written
#print axioms MrHyDE.Analysis.TextParams.C192_dynamic_partial
#print axioms MrHyDE.Analysis.TextParams.C192_static_partial
#print axioms MrHyDE.Analysis.TextParams.C192_roundtrip
#print axioms MrHyDE.Analysis.TextParams.C192_short_violated
#print axioms MrHyDE.Analysis.TextParams.C192_word_violated
#print axioms MrHyDE.Analysis.TextParams.C192_missing_violated
#print axioms MrHyDE.Objective.Blocks.C193_blocks_partial
#print axioms MrHyDE.Objective.Blocks.C193_names_violated
#print axioms MrHyDE.Objective.Blocks.C193_own
#print axioms MrHyDE.Objective.Blocks.C193_once
#print axioms MrHyDE.Objective.Blocks.C193_sum_partial
#print axioms MrHyDE.Objective.Blocks.C193_counted_violated
#print axioms MrHyDE.Objective.Blocks.C193_norm_violated
#print axioms MrHyDE.Objective.Blocks.C193_target_violated
#print axioms MrHyDE.Objective.Blocks.C193_response
#print axioms MrHyDE.Param.Levels.C194_generate_partial
#print axioms MrHyDE.Param.Levels.C194_generate_violated
#print axioms MrHyDE.Param.Levels.C194_size_violated
#print axioms MrHyDE.Param.Levels.C194_samples_partial
#print axioms MrHyDE.Param.Levels.C194_first_violated
#print axioms MrHyDE.Param.Levels.C194_last_violated
#print axioms MrHyDE.Param.Levels.C194_absent
#print axioms MrHyDE.Postprocess.Quantities.C195_partial
#print axioms MrHyDE.Postprocess.Quantities.C195_settings
#print axioms MrHyDE.Postprocess.Quantities.C195_blocks
#print axioms MrHyDE.Postprocess.Quantities.C195_name_violated
#print axioms MrHyDE.Postprocess.Quantities.C195_location_violated
#print axioms MrHyDE.Postprocess.Quantities.C195_reserve_needed
#print axioms MrHyDE.Postprocess.Quantities.C195_pressure_violated
#print axioms MrHyDE.Postprocess.Quantities.C195_rate_violated
#print axioms MrHyDE.Postprocess.Quantities.C195_pressure_partial
