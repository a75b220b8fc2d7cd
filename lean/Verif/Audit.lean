import Verif.Props.Absent
import Verif.Props.Archive
import Verif.Props.Arrays
import Verif.Props.AttrAlias
import Verif.Props.Checks
import Verif.Props.ChecksExact
import Verif.Props.ChemObjects
import Verif.Props.Collision
import Verif.Props.Constrain
import Verif.Props.ContinueRun
import Verif.Props.Coords
import Verif.Props.CoordsUnion
import Verif.Props.CreateJobs
import Verif.Props.DataFile
import Verif.Props.DeDonder
import Verif.Props.DerivCache
import Verif.Props.Descent
import Verif.Props.Descriptors
import Verif.Props.DrivingForce
import Verif.Props.Energy
import Verif.Props.Entropy
import Verif.Props.Equilibrium
import Verif.Props.EventText
import Verif.Props.Exact
import Verif.Props.Exact10
import Verif.Props.Exact11
import Verif.Props.Exact2
import Verif.Props.Exact3
import Verif.Props.Exact4
import Verif.Props.Exact5
import Verif.Props.Exact6
import Verif.Props.Exact7
import Verif.Props.Exact8
import Verif.Props.Exact9
import Verif.Props.Failures
import Verif.Props.Failures10
import Verif.Props.Failures2
import Verif.Props.Failures3
import Verif.Props.Failures4
import Verif.Props.Failures5
import Verif.Props.Failures6
import Verif.Props.Failures7
import Verif.Props.Failures8
import Verif.Props.Failures9
import Verif.Props.Fills
import Verif.Props.Flow
import Verif.Props.Format
import Verif.Props.GasEquilibrium
import Verif.Props.Gather
import Verif.Props.GatherMap
import Verif.Props.Gif
import Verif.Props.GifRead
import Verif.Props.Hybrid
import Verif.Props.Invariance
import Verif.Props.Jacobian
import Verif.Props.Jacobian2
import Verif.Props.Kmc
import Verif.Props.KmcExact
import Verif.Props.KmcRun
import Verif.Props.LatexLog
import Verif.Props.Lattice
import Verif.Props.LatticeCounts
import Verif.Props.LatticeGas
import Verif.Props.LatticeMean
import Verif.Props.LatticeMixing
import Verif.Props.Load
import Verif.Props.Local
import Verif.Props.Logger
import Verif.Props.MapPlot
import Verif.Props.MassTable
import Verif.Props.MeanField
import Verif.Props.MkmScript
import Verif.Props.Necessary
import Verif.Props.Network
import Verif.Props.NeuQuant
import Verif.Props.Newton
import Verif.Props.Overfull
import Verif.Props.OverfullBound
import Verif.Props.OverfullEach
import Verif.Props.OverfullNear
import Verif.Props.Plot
import Verif.Props.PlotCoverages
import Verif.Props.PlotFrequencies
import Verif.Props.PlotFrequenciesExact
import Verif.Props.PlotProc
import Verif.Props.PlotTof
import Verif.Props.PlotTofExact
import Verif.Props.PlotTraj
import Verif.Props.Plugin
import Verif.Props.ProcDefs
import Verif.Props.RateControl
import Verif.Props.Rates
import Verif.Props.RatesExact
import Verif.Props.Rounding
import Verif.Props.Rounding2
import Verif.Props.RoundingChain
import Verif.Props.RoundingEnergy
import Verif.Props.RoundingEnergy2
import Verif.Props.RoundingSearch
import Verif.Props.Run
import Verif.Props.RunScripts
import Verif.Props.Rxn
import Verif.Props.Script
import Verif.Props.SeriesPlot
import Verif.Props.Shomate
import Verif.Props.ShomateBorders
import Verif.Props.SmallResidual
import Verif.Props.Startup
import Verif.Props.SteadyExists
import Verif.Props.SteadyHooks
import Verif.Props.SteadyLoop
import Verif.Props.SteadyPositive
import Verif.Props.Symbolic
import Verif.Props.Symbols
import Verif.Props.Tables
import Verif.Props.Templates
import Verif.Props.Tex
import Verif.Props.Thermo
import Verif.Props.TotalEq
import Verif.Props.Util
import Verif.Props.WholeText
/-
The axioms each property theorem depends on are printed when this file is built.
-/
#print axioms Verif.C01_formula_roundtrip
#print axioms Verif.C01_formula_sound
#print axioms Verif.C01_formula_rejected_iff
#print axioms Verif.C02_formula_elements
#print axioms Verif.C02_state_elements
#print axioms Verif.C02_state_sites
#print axioms Verif.C02_order_independent
#print axioms Verif.C03_equation_states
#print axioms Verif.C03_states_of_text
#print axioms Verif.C03_no_arrow_rejected_iff
#print axioms Verif.C04_exact
#print axioms Verif.C04_check_iff_balanced
#print axioms Verif.C04_acceptance_equivalence
#print axioms Verif.C04_formula_check
#print axioms Verif.C04_zero_coefficient_refuted
#print axioms Verif.C04_missing_side_refuted
#print axioms Verif.C05_kept
#print axioms Verif.C05_mass_iff
#print axioms Verif.C05_two_letters_partial
#print axioms Verif.C05_mass_conserved_partial
#print axioms Verif.C05_two_letter_elements_refuted
#print axioms Verif.C06_revert_states
#print axioms Verif.C06_revert_conservation
#print axioms Verif.C06_revert_gases
#print axioms Verif.C07_last
#print axioms Verif.C07_iff
#print axioms Verif.C07_species_list
#print axioms Verif.C07_repeated_species_refuted
#print axioms Verif.C07_species_dict_partial
#print axioms Verif.C08_lists_complete
#print axioms Verif.C08_listed_exactly_once
#print axioms Verif.C08_site_names
#print axioms Verif.C08_lists_sorted
#print axioms Verif.C08_order_independent
#print axioms Verif.C09_entries
#print axioms Verif.C09_not_taking_part
#print axioms Verif.C10_lost
#print axioms Verif.C10_iff
#print axioms Verif.C10_weights_match_specification
#print axioms Verif.C10_elements_conserved_partial
#print axioms Verif.C10_sites_conserved_partial
#print axioms Verif.C10_transition_state_end_refuted
#print axioms Verif.C10_numbered_empty_site_refuted
#print axioms Verif.C100_entries
#print axioms Verif.C100_labels
#print axioms Verif.C100_numbers
#print axioms Verif.C100_shown
#print axioms Verif.C100_unmarked
#print axioms Verif.C100_lengths
#print axioms Verif.C100_rows_rejected
#print axioms Verif.C100_turnover_partial
#print axioms Verif.C100_name_refuted
#print axioms Verif.C100_coefficient_refuted
#print axioms Verif.C100_exact_iff
#print axioms Verif.C101_pairs_partial
#print axioms Verif.C101_one_direction_refuted
#print axioms Verif.C101_iff
#print axioms Verif.C102_start_partial
#print axioms Verif.C102_chain_partial
#print axioms Verif.C102_next_line_refuted
#print axioms Verif.C102_missing_refuted
#print axioms Verif.C102_other_name_refuted
#print axioms Verif.C102_no_times
#print axioms Verif.C102_configuration
#print axioms Verif.C102_names
#print axioms Verif.C102_failing
#print axioms Verif.C103_jobs_partial
#print axioms Verif.C103_one_partial
#print axioms Verif.C103_two_partial
#print axioms Verif.C103_no_species
#print axioms Verif.C103_quote_refuted
#print axioms Verif.C103_same_text_refuted
#print axioms Verif.C103_failing
#print axioms Verif.C104_delivered
#print axioms Verif.C104_setup
#print axioms Verif.C104_no_setup_refuted
#print axioms Verif.C104_guess_partial
#print axioms Verif.C104_found_partial
#print axioms Verif.C104_start_partial
#print axioms Verif.C104_start_refuted
#print axioms Verif.C104_ode_only_refuted
#print axioms Verif.C105_failing
#print axioms Verif.C105_places_failing
#print axioms Verif.C105_coverages_partial
#print axioms Verif.C105_series_partial
#print axioms Verif.C105_order
#print axioms Verif.C105_types_refuted
#print axioms Verif.C105_own_files_refuted
#print axioms Verif.C105_nested_refuted
#print axioms Verif.C105_ties_refuted
#print axioms Verif.C105_tofs_partial
#print axioms Verif.C105_forward_partial
#print axioms Verif.C105_net_refuted
#print axioms Verif.C105_one_reaction_refuted
#print axioms Verif.C106_failing
#print axioms Verif.C106_map_partial
#print axioms Verif.C106_rows
#print axioms Verif.C106_failed_refuted
#print axioms Verif.C106_coverage_partial
#print axioms Verif.C106_species_refuted
#print axioms Verif.C106_own_files_refuted
#print axioms Verif.C106_tof_partial
#print axioms Verif.C106_few_refuted
#print axioms Verif.C106_columns_refuted
#print axioms Verif.C106_order_refuted
#print axioms Verif.C107_succeeds
#print axioms Verif.C107_failing
#print axioms Verif.C107_lengths
#print axioms Verif.C107_merged_partial
#print axioms Verif.C107_sum_partial
#print axioms Verif.C107_own_files_refuted
#print axioms Verif.C107_ode_partial
#print axioms Verif.C107_three_refuted
#print axioms Verif.C107_one_refuted
#print axioms Verif.C107_letters_refuted
#print axioms Verif.C108_rows_partial
#print axioms Verif.C108_arrow_partial
#print axioms Verif.C108_arrow_refuted
#print axioms Verif.C108_percent_partial
#print axioms Verif.C108_percent_refuted
#print axioms Verif.C108_sites
#print axioms Verif.C108_file_partial
#print axioms Verif.C108_step_refuted
#print axioms Verif.C108_header
#print axioms Verif.C108_empty
#print axioms Verif.C108_arrow_iff
#print axioms Verif.C108_step_numbers
#print axioms Verif.C109_name_iff
#print axioms Verif.C109_definition_partial
#print axioms Verif.C109_all_partial
#print axioms Verif.C109_four_refuted
#print axioms Verif.C109_conflict_refuted
#print axioms Verif.C109_no_groups_refuted
#print axioms Verif.C109_name_partial
#print axioms Verif.C109_name_refuted
#print axioms Verif.C109_file
#print axioms Verif.C11_run_partial
#print axioms Verif.C11_build_up
#print axioms Verif.C11_near_steady
#print axioms Verif.C11_element_balance_partial
#print axioms Verif.C11_at_steady_state_partial
#print axioms Verif.C11_repeated_formula_refuted
#print axioms Verif.C110_coords_failing
#print axioms Verif.C110_points_partial
#print axioms Verif.C110_markers
#print axioms Verif.C110_area_refuted
#print axioms Verif.C110_size
#print axioms Verif.C110_colors
#print axioms Verif.C110_large_partial
#print axioms Verif.C110_unexpected_refuted
#print axioms Verif.C110_unknown_type_refuted
#print axioms Verif.C110_time
#print axioms Verif.C110_sixty_refuted
#print axioms Verif.C110_frames_partial
#print axioms Verif.C110_third_refuted
#print axioms Verif.C110_rerun_refuted
#print axioms Verif.C110_failing
#print axioms Verif.C111_failing
#print axioms Verif.C111_places_failing
#print axioms Verif.C111_after_failing
#print axioms Verif.C111_process_partial
#print axioms Verif.C111_others_refuted
#print axioms Verif.C111_empty_refuted
#print axioms Verif.C111_color_refuted
#print axioms Verif.C111_names
#print axioms Verif.C112_residual
#print axioms Verif.C112_quiet
#print axioms Verif.C112_protocol
#print axioms Verif.C112_raised
#print axioms Verif.C112_zero_refuted
#print axioms Verif.C112_finalize_refuted
#print axioms Verif.C112_dump_partial
#print axioms Verif.C112_good_guess_refuted
#print axioms Verif.C112_guesses_refuted
#print axioms Verif.C113_text_partial
#print axioms Verif.C113_add_refuted
#print axioms Verif.C113_formula_types
#print axioms Verif.C113_states_partial
#print axioms Verif.C113_state_types_refuted
#print axioms Verif.C113_state_argument
#print axioms Verif.C114_kmc_time
#print axioms Verif.C114_no_deadlock
#print axioms Verif.C114_clean
#print axioms Verif.C114_kmc_clean_refuted
#print axioms Verif.C114_setup_partial
#print axioms Verif.C114_setup_refuted
#print axioms Verif.C114_errors
#print axioms Verif.C114_kmc_errors_partial
#print axioms Verif.C114_kmc_errors_refuted
#print axioms Verif.C114_processes
#print axioms Verif.C115_contours
#print axioms Verif.C115_failing
#print axioms Verif.C115_fits
#print axioms Verif.C115_nodes
#print axioms Verif.C115_cell
#print axioms Verif.C115_between
#print axioms Verif.C115_outside
#print axioms Verif.C115_order
#print axioms Verif.C115_difference
#print axioms Verif.C115_places
#print axioms Verif.C115_figure
#print axioms Verif.C115_runs
#print axioms Verif.C115_window_refuted
#print axioms Verif.C115_phases
#print axioms Verif.C116_too_few
#print axioms Verif.C116_limits
#print axioms Verif.C116_extent_refuted
#print axioms Verif.C116_series
#print axioms Verif.C116_runs_partial
#print axioms Verif.C116_runs_refuted
#print axioms Verif.C116_legend_refuted
#print axioms Verif.C116_steady_partial
#print axioms Verif.C116_steady_refuted
#print axioms Verif.C116_coverages
#print axioms Verif.C116_labels
#print axioms Verif.C116_vacancy_refuted
#print axioms Verif.C117_radius
#print axioms Verif.C117_few_colours
#print axioms Verif.C117_three_colours
#print axioms Verif.C117_step
#print axioms Verif.C117_reserved_colour
#print axioms Verif.C117_closer
#print axioms Verif.C117_counts
#print axioms Verif.C117_bias_partial
#print axioms Verif.C117_bias_refuted
#print axioms Verif.C117_samples
#print axioms Verif.C117_every_pixel
#print axioms Verif.C117_map
#print axioms Verif.C117_rounding
#print axioms Verif.C117_small_refuted
#print axioms Verif.C117_refused
#print axioms Verif.C117_nearest
#print axioms Verif.C117_exact
#print axioms Verif.C117_picture
#print axioms Verif.C117_palette
#print axioms Verif.C118_rates_partial
#print axioms Verif.C118_nothing
#print axioms Verif.C118_history
#print axioms Verif.C118_balanced
#print axioms Verif.C118_coverages_refuted
#print axioms Verif.C118_coverage_lines_refuted
#print axioms Verif.C119_reported_partial
#print axioms Verif.C119_cycle_partial
#print axioms Verif.C119_catalyst_partial
#print axioms Verif.C119_allowed_partial
#print axioms Verif.C119_collision_refuted
#print axioms Verif.C12_state_energy
#print axioms Verif.C12_single_reaction
#print axioms Verif.C12_lists
#print axioms Verif.C12_complete_tables
#print axioms Verif.C12_reversal
#print axioms Verif.C12_cycles
#print axioms Verif.C12_owner
#print axioms Verif.C12_reading
#print axioms Verif.C120_rates_partial
#print axioms Verif.C120_balance_partial
#print axioms Verif.C120_stationary_partial
#print axioms Verif.C120_isotherm_partial
#print axioms Verif.C120_mean_field_partial
#print axioms Verif.C120_collision_partial
#print axioms Verif.C120_limit_refuted
#print axioms Verif.C120_redist_refuted
#print axioms Verif.C120_made
#print axioms Verif.C121_drift_partial
#print axioms Verif.C121_rates_partial
#print axioms Verif.C121_collision_rates_partial
#print axioms Verif.C121_equations_partial
#print axioms Verif.C121_agreement_partial
#print axioms Verif.C121_neighbours_refuted
#print axioms Verif.C122_intermediate_refuted
#print axioms Verif.C122_exists_partial
#print axioms Verif.C122_some_partial
#print axioms Verif.C122_computed_partial
#print axioms Verif.C123_present_partial
#print axioms Verif.C123_reversibilities_partial
#print axioms Verif.C123_adsorption
#print axioms Verif.C123_exists_partial
#print axioms Verif.C123_isolated_refuted
#print axioms Verif.C124_fills_partial
#print axioms Verif.C124_equilibrium_partial
#print axioms Verif.C124_converges_partial
#print axioms Verif.C124_intermediate_refuted
#print axioms Verif.C125_unique_partial
#print axioms Verif.C125_evolves
#print axioms Verif.C125_steady
#print axioms Verif.C125_means
#print axioms Verif.C125_forgets_partial
#print axioms Verif.C125_coverage_partial
#print axioms Verif.C125_adsorption
#print axioms Verif.C125_transition_state_partial
#print axioms Verif.C125_rates
#print axioms Verif.C125_hops_refuted
#print axioms Verif.C126_events_partial
#print axioms Verif.C126_reactions_partial
#print axioms Verif.C126_rates_partial
#print axioms Verif.C126_balance_partial
#print axioms Verif.C126_mean_partial
#print axioms Verif.C126_stationary_partial
#print axioms Verif.C126_windows_partial
#print axioms Verif.C126_average_partial
#print axioms Verif.C126_wild_refuted
#print axioms Verif.C126_fast_refuted
#print axioms Verif.C127_constants_partial
#print axioms Verif.C127_direction_partial
#print axioms Verif.C127_energy_partial
#print axioms Verif.C127_steady_partial
#print axioms Verif.C127_reported_partial
#print axioms Verif.C127_equilibrium_partial
#print axioms Verif.C127_lattice_partial
#print axioms Verif.C127_two_gases_refuted
#print axioms Verif.C127_unknown_gas_refuted
#print axioms Verif.C128_constants_partial
#print axioms Verif.C128_gases_partial
#print axioms Verif.C128_reached_partial
#print axioms Verif.C128_turnover_partial
#print axioms Verif.C128_transition_partial
#print axioms Verif.C128_collision_partial
#print axioms Verif.C128_loop_refuted
#print axioms Verif.C129_equilibria_partial
#print axioms Verif.C129_uncorrelated_partial
#print axioms Verif.C129_coverage_partial
#print axioms Verif.C129_same_limit_partial
#print axioms Verif.C129_driven_refuted
#print axioms Verif.C13_normalised
#print axioms Verif.C13_idempotent
#print axioms Verif.C13_rejected
#print axioms Verif.C13_file_first
#print axioms Verif.C13_failing
#print axioms Verif.C130_exact
#print axioms Verif.C130_constant
#print axioms Verif.C130_constants
#print axioms Verif.C130_sites
#print axioms Verif.C130_rates
#print axioms Verif.C130_signs
#print axioms Verif.C130_net
#print axioms Verif.C130_equations
#print axioms Verif.C130_residual
#print axioms Verif.C130_net_refuted
#print axioms Verif.C130_energies
#print axioms Verif.C130_tof
#print axioms Verif.C130_reversibilities
#print axioms Verif.C130_exact_tof
#print axioms Verif.C130_sites_refuted
#print axioms Verif.C130_returned
#print axioms Verif.C130_search
#print axioms Verif.C131_constants
#print axioms Verif.C131_search
#print axioms Verif.C131_state
#print axioms Verif.C131_barriers
#print axioms Verif.C131_consistent
#print axioms Verif.C131_balance
#print axioms Verif.C131_absolute
#print axioms Verif.C131_data
#print axioms Verif.C131_cycles
#print axioms Verif.C131_exact
#print axioms Verif.C131_consistent_refuted
#print axioms Verif.C131_correction
#print axioms Verif.C131_exact_correction
#print axioms Verif.C132_close
#print axioms Verif.C132_search
#print axioms Verif.C132_unique
#print axioms Verif.C132_adsorption
#print axioms Verif.C132_uniform_refuted
#print axioms Verif.C132_equilibrium
#print axioms Verif.C133_steady_partial
#print axioms Verif.C133_source
#print axioms Verif.C133_physical_partial
#print axioms Verif.C133_constrained_partial
#print axioms Verif.C133_near_partial
#print axioms Verif.C133_overfull_refuted
#print axioms Verif.C133_constrained_refuted
#print axioms Verif.C133_excess_partial
#print axioms Verif.C133_search_excess_partial
#print axioms Verif.C133_each_excess_partial
#print axioms Verif.C133_each_close_partial
#print axioms Verif.C133_each_search_near_partial
#print axioms Verif.C133_each_unique_partial
#print axioms Verif.C133_close_partial
#print axioms Verif.C133_search_near_partial
#print axioms Verif.C133_unique_partial
#print axioms Verif.C134_kept_partial
#print axioms Verif.C134_read_partial
#print axioms Verif.C134_assign
#print axioms Verif.C134_checked_partial
#print axioms Verif.C134_copy
#print axioms Verif.C134_default
#print axioms Verif.C134_default_refuted
#print axioms Verif.C134_assigned_refuted
#print axioms Verif.C135_iff
#print axioms Verif.C135_frames
#print axioms Verif.C135_all_partial
#print axioms Verif.C135_damaged_refuted
#print axioms Verif.C135_read
#print axioms Verif.C14_correction
#print axioms Verif.C14_short_lists
#print axioms Verif.C15_entropy_once
#print axioms Verif.C15_shomate_written
#print axioms Verif.C15_entropy_state
#print axioms Verif.C15_shomate_state
#print axioms Verif.C15_shomate_iff
#print axioms Verif.C15_entropy_coefficient_refuted
#print axioms Verif.C15_shomate_coefficient_ignored
#print axioms Verif.C15_shomate_coefficient_refuted
#print axioms Verif.C15_unit_coefficients_partial
#print axioms Verif.C16_positive_decreasing
#print axioms Verif.C16_increasing_in_temperature
#print axioms Verif.C16_zero_temperature
#print axioms Verif.C17_detailed_balance
#print axioms Verif.C17_from_absolute_energies
#print axioms Verif.C18_iff
#print axioms Verif.C18_equilibrium_partial
#print axioms Verif.C18_pair_of_sites_refuted
#print axioms Verif.C19_rate_of_barrier
#print axioms Verif.C19_barrier_of_rate
#print axioms Verif.C19_no_barrier
#print axioms Verif.C20_unknown
#print axioms Verif.C20_guard
#print axioms Verif.C20_bounded
#print axioms Verif.C20_adsorption
#print axioms Verif.C21_written
#print axioms Verif.C21_pressures_partial
#print axioms Verif.C21_coefficient_refuted
#print axioms Verif.C21_collision_adsorption_partial
#print axioms Verif.C21_collision_desorption_partial
#print axioms Verif.C21_collision_both_sides_refuted
#print axioms Verif.C22_first
#print axioms Verif.C22_iff
#print axioms Verif.C22_repeated_reaction_refuted
#print axioms Verif.C22_own_energies_partial
#print axioms Verif.C22_own_energies_CT_partial
#print axioms Verif.C23_conversion
#print axioms Verif.C23_one_site
#print axioms Verif.C23_short_tuple
#print axioms Verif.C24_physical
#print axioms Verif.C24_physical_unchanged
#print axioms Verif.C24_idempotent
#print axioms Verif.C24_overfull_site
#print axioms Verif.C24_short_tuple
#print axioms Verif.C25_failing
#print axioms Verif.C25_mass_action_partial
#print axioms Verif.C25_solver_constants_partial
#print axioms Verif.C25_middle_irrelevant
#print axioms Verif.C25_transition_state_end_refuted
#print axioms Verif.C25_defined_iff
#print axioms Verif.C26_counted
#print axioms Verif.C26_iff
#print axioms Verif.C26_derivatives_partial
#print axioms Verif.C26_both_sides_refuted
#print axioms Verif.C26_repeated_formula_refuted
#print axioms Verif.C26_intermediate_refuted
#print axioms Verif.C27_weighted
#print axioms Verif.C27_iff
#print axioms Verif.C27_sites_partial
#print axioms Verif.C27_bridge_refuted
#print axioms Verif.C28_jacobian_partial
#print axioms Verif.C28_dissociation_refuted
#print axioms Verif.C28_large_power_refuted
#print axioms Verif.C28_repeated_species_refuted
#print axioms Verif.C28_no_factor
#print axioms Verif.C28_length_checked
#print axioms Verif.C28_error
#print axioms Verif.C28_iff
#print axioms Verif.C29_difference
#print axioms Verif.C29_arguments
#print axioms Verif.C29_values_partial
#print axioms Verif.C29_agreement_partial
#print axioms Verif.C29_dissociation_refuted
#print axioms Verif.C29_jacobian_two_partial
#print axioms Verif.C29_jacobian_refuted
#print axioms Verif.C30_residual
#print axioms Verif.C30_no_adsorbates
#print axioms Verif.C31_no_guess
#print axioms Verif.C31_residual
#print axioms Verif.C31_nonneg_partial
#print axioms Verif.C31_none
#print axioms Verif.C31_found
#print axioms Verif.C31_negative_refuted
#print axioms Verif.C31_given_energies
#print axioms Verif.C31_error_refuted
#print axioms Verif.C31_guess_refuted
#print axioms Verif.C31_forever_refuted
#print axioms Verif.C32_blocks_partial
#print axioms Verif.C32_steps
#print axioms Verif.C32_limit
#print axioms Verif.C32_finalize_refuted
#print axioms Verif.C33_constrained
#print axioms Verif.C33_stops
#print axioms Verif.C33_singular
#print axioms Verif.C33_norms
#print axioms Verif.C33_bad_start
#print axioms Verif.C33_value_partial
#print axioms Verif.C33_affine
#print axioms Verif.C33_physical
#print axioms Verif.C33_value_refuted
#print axioms Verif.C34_values
#print axioms Verif.C34_slope
#print axioms Verif.C34_coverages_refuted
#print axioms Verif.C34_no_coverages
#print axioms Verif.C34_no_steady
#print axioms Verif.C35_archive_partial
#print axioms Verif.C35_untouched
#print axioms Verif.C35_earlier_refuted
#print axioms Verif.C35_documented
#print axioms Verif.C36_crash_partial
#print axioms Verif.C36_trace_ends
#print axioms Verif.C36_crash_refuted
#print axioms Verif.C36_history_partial
#print axioms Verif.C36_after_crash
#print axioms Verif.C37_archive_refuted
#print axioms Verif.C37_start_partial
#print axioms Verif.C37_given
#print axioms Verif.C37_nothing
#print axioms Verif.C38_history
#print axioms Verif.C38_valid
#print axioms Verif.C38_once
#print axioms Verif.C38_assign_partial
#print axioms Verif.C38_read_refuted
#print axioms Verif.C38_others
#print axioms Verif.C39_float_rows
#print axioms Verif.C39_vectors
#print axioms Verif.C39_type
#print axioms Verif.C39_bool
#print axioms Verif.C39_float
#print axioms Verif.C39_refEnergies
#print axioms Verif.C39_species
#print axioms Verif.C39_sequence
#print axioms Verif.C40_cached_partial
#print axioms Verif.C40_same_model_partial
#print axioms Verif.C40_temperature_refuted
#print axioms Verif.C40_absent_refuted
#print axioms Verif.C40_in_place_partial
#print axioms Verif.C40_in_place_refuted
#print axioms Verif.C40_handle_refuted
#print axioms Verif.C40_objects_partial
#print axioms Verif.C40_repeat
#print axioms Verif.C40_hash
#print axioms Verif.C40_hash_small
#print axioms Verif.C41_shared_refuted
#print axioms Verif.C41_own_partial
#print axioms Verif.C41_once
#print axioms Verif.C42_split_size
#print axioms Verif.C43_iff
#print axioms Verif.C43_split_merge
#print axioms Verif.C43_roundtrip_partial
#print axioms Verif.C43_tail_refuted
#print axioms Verif.C43_short_refuted
#print axioms Verif.C44_consistent_partial
#print axioms Verif.C44_append
#print axioms Verif.C44_extend
#print axioms Verif.C44_share
#print axioms Verif.C44_bad_element_refuted
#print axioms Verif.C44_shared_list_refuted
#print axioms Verif.C44_failing
#print axioms Verif.C44_unequal
#print axioms Verif.C45_move_partial
#print axioms Verif.C45_moves_compose
#print axioms Verif.C45_empty_refuted
#print axioms Verif.C45_short_vector
#print axioms Verif.C45_iff
#print axioms Verif.C46_merge
#print axioms Verif.C46_self
#print axioms Verif.C46_union
#print axioms Verif.C47_process_dict
#print axioms Verif.C48_interval_partial
#print axioms Verif.C48_zero_refuted
#print axioms Verif.C49_pressure_partial
#print axioms Verif.C49_reading
#print axioms Verif.C49_text_refuted
#print axioms Verif.C49_number_refuted
#print axioms Verif.C49_readable_iff
#print axioms Verif.C49_pressure
#print axioms Verif.C50_sitesmap_partial
#print axioms Verif.C50_configuration
#print axioms Verif.C50_empty_refuted
#print axioms Verif.C50_iff
#print axioms Verif.C51_errors
#print axioms Verif.C51_mapping_partial
#print axioms Verif.C51_pairs
#print axioms Verif.C51_accepted
#print axioms Verif.C51_redist_refuted
#print axioms Verif.C51_fast_refuted
#print axioms Verif.C51_twice_refuted
#print axioms Verif.C51_labels_iff
#print axioms Verif.C52_whole_cells
#print axioms Verif.C52_iff
#print axioms Verif.C52_types
#print axioms Verif.C52_sum
#print axioms Verif.C52_coverages_partial
#print axioms Verif.C52_repeated_refuted
#print axioms Verif.C52_incomplete_refuted
#print axioms Verif.C52_settings
#print axioms Verif.C53_values
#print axioms Verif.C53_iff
#print axioms Verif.C53_small
#print axioms Verif.C53_agree_partial
#print axioms Verif.C53_refuted
#print axioms Verif.C54_counts
#print axioms Verif.C54_zero_time_refuted
#print axioms Verif.C54_index
#print axioms Verif.C54_reactions
#print axioms Verif.C54_labels_refuted
#print axioms Verif.C54_rates_partial
#print axioms Verif.C54_single_refuted
#print axioms Verif.C55_windows_partial
#print axioms Verif.C55_events
#print axioms Verif.C55_tail_refuted
#print axioms Verif.C55_start_refuted
#print axioms Verif.C55_lost_iff
#print axioms Verif.C55_start_iff
#print axioms Verif.C56_table_partial
#print axioms Verif.C56_labels_refuted
#print axioms Verif.C56_zero
#print axioms Verif.C56_written_partial
#print axioms Verif.C56_last_refuted
#print axioms Verif.C56_sum_iff
#print axioms Verif.C57_tof_file
#print axioms Verif.C57_coverages_partial
#print axioms Verif.C57_coverages_index_refuted
#print axioms Verif.C57_coverages_refuted
#print axioms Verif.C57_names
#print axioms Verif.C57_flushes
#print axioms Verif.C58_symbols_multiplicity
#print axioms Verif.C58_symbols_append
#print axioms Verif.C58_leading_multiplier
#print axioms Verif.C58_symbols_wellformed
#print axioms Verif.C58_malformed_rejected
#print axioms Verif.C58_unbalanced_parenthesis_refuted
#print axioms Verif.C58_mass_additive
#print axioms Verif.C58_mass_unknown_element
#print axioms Verif.C59_convert_time
#print axioms Verif.C60_quadratic
#print axioms Verif.C60_classified_quadratic
#print axioms Verif.C60_affine
#print axioms Verif.C60_classified
#print axioms Verif.C60_other_direction
#print axioms Verif.C61_reversibilities
#print axioms Verif.C61_length_mismatch
#print axioms Verif.C62_temperature
#print axioms Verif.C62_distribution
#print axioms Verif.C62_needs_energies
#print axioms Verif.C63_solver
#print axioms Verif.C63_expressions
#print axioms Verif.C63_failing
#print axioms Verif.C63_failing_parts
#print axioms Verif.C63_failing_solver
#print axioms Verif.C63_defaults
#print axioms Verif.C63_protected
#print axioms Verif.C63_methods
#print axioms Verif.C63_expression_check
#print axioms Verif.C63_part_names
#print axioms Verif.C63_loop
#print axioms Verif.C63_order
#print axioms Verif.C63_parser
#print axioms Verif.C63_slots
#print axioms Verif.C63_level_refuted
#print axioms Verif.C63_species_refuted
#print axioms Verif.C63_sympy_refuted
#print axioms Verif.C63_levels
#print axioms Verif.C63_components_later
#print axioms Verif.C64_trajectory
#print axioms Verif.C64_returns
#print axioms Verif.C64_failure
#print axioms Verif.C64_terminates
#print axioms Verif.C65_formula_text_ignored_refuted
#print axioms Verif.C65_equation_text_ignored_refuted
#print axioms Verif.C65_formula_text_complete_partial
#print axioms Verif.C65_formula_iff
#print axioms Verif.C65_equation_iff
#print axioms Verif.C66_zero_correction_refuted
#print axioms Verif.C66_zero_correction_partial
#print axioms Verif.C66_iff
#print axioms Verif.C67_iff
#print axioms Verif.C67_gases
#print axioms Verif.C67_others
#print axioms Verif.C67_pressure_dependence
#print axioms Verif.C67_defined_partial
#print axioms Verif.C67_low_temperature_refuted
#print axioms Verif.C67_not_corrected
#print axioms Verif.C67_zero_pressure
#print axioms Verif.C68_missing_reverse
#print axioms Verif.C68_missing_forward_refuted
#print axioms Verif.C68_missing_reaction_energy_refuted
#print axioms Verif.C68_unknown_method
#print axioms Verif.C68_short_lists
#print axioms Verif.C69_turnover
#print axioms Verif.C70_given
#print axioms Verif.C70_first_partial
#print axioms Verif.C70_first_refuted
#print axioms Verif.C70_iff
#print axioms Verif.C70_first_iff
#print axioms Verif.C71_unready
#print axioms Verif.C71_failing
#print axioms Verif.C71_arguments
#print axioms Verif.C71_rates_partial
#print axioms Verif.C71_rate_constants_partial
#print axioms Verif.C71_solver_partial
#print axioms Verif.C71_equilibrium
#print axioms Verif.C71_liquid_refuted
#print axioms Verif.C71_starred_site_refuted
#print axioms Verif.C71_liquid_example_refuted
#print axioms Verif.C71_needs_preparation
#print axioms Verif.C71_no_energies
#print axioms Verif.C71_few_energies
#print axioms Verif.C71_few_coverages
#print axioms Verif.C72_nothing
#print axioms Verif.C72_integration_failing
#print axioms Verif.C72_run
#print axioms Verif.C72_history_partial
#print axioms Verif.C72_steady
#print axioms Verif.C72_fsolve_refuted
#print axioms Verif.C72_integration
#print axioms Verif.C72_integration_fails
#print axioms Verif.C72_rate_control
#print axioms Verif.C72_info
#print axioms Verif.C72_unsolved_refuted
#print axioms Verif.C72_mixed_refuted
#print axioms Verif.C72_coarse
#print axioms Verif.C73_absent
#print axioms Verif.C73_boolean_interval
#print axioms Verif.C73_accepted
#print axioms Verif.C73_methods
#print axioms Verif.C73_total
#print axioms Verif.C73_interval_partial
#print axioms Verif.C73_steps_partial
#print axioms Verif.C73_inherited_refuted
#print axioms Verif.C73_mixin_refuted
#print axioms Verif.C73_raiser
#print axioms Verif.C74_master
#print axioms Verif.C74_progress_partial
#print axioms Verif.C74_ready
#print axioms Verif.C74_bounded
#print axioms Verif.C74_log_refuted
#print axioms Verif.C74_data_refuted
#print axioms Verif.C75_iff
#print axioms Verif.C75_set
#print axioms Verif.C75_handlers
#print axioms Verif.C75_single_partial
#print axioms Verif.C75_twice_refuted
#print axioms Verif.C75_other_refuted
#print axioms Verif.C76_solver_partial
#print axioms Verif.C76_corrector_refuted
#print axioms Verif.C76_plotter_refuted
#print axioms Verif.C77_absolute_partial
#print axioms Verif.C77_zero
#print axioms Verif.C77_relative
#print axioms Verif.C77_unfilled
#print axioms Verif.C77_no_table
#print axioms Verif.C77_starred_refuted
#print axioms Verif.C78_closed
#print axioms Verif.C78_list_partial
#print axioms Verif.C78_columns
#print axioms Verif.C78_dict
#print axioms Verif.C78_quote_refuted
#print axioms Verif.C79_returned
#print axioms Verif.C79_complete_partial
#print axioms Verif.C79_recycled_refuted
#print axioms Verif.C79_ratios_refuted
#print axioms Verif.C79_direction_refuted
#print axioms Verif.C79_weights
#print axioms Verif.C79_scale
#print axioms Verif.C80_tex
#print axioms Verif.C80_formula_partial
#print axioms Verif.C80_determined_partial
#print axioms Verif.C80_sites_refuted
#print axioms Verif.C80_part_refuted
#print axioms Verif.C80_oneSided_refuted
#print axioms Verif.C80_lines
#print axioms Verif.C81_fresh
#print axioms Verif.C81_files
#print axioms Verif.C81_unread
#print axioms Verif.C81_solver_unread
#print axioms Verif.C81_reading
#print axioms Verif.C81_control
#print axioms Verif.C81_timeSeed_refuted
#print axioms Verif.C81_history_partial
#print axioms Verif.C81_stale_refuted
#print axioms Verif.C81_retry_refuted
#print axioms Verif.C81_mixed_refuted
#print axioms Verif.C81_solverRun_refuted
#print axioms Verif.C81_failure
#print axioms Verif.C81_call
#print axioms Verif.C82_history_partial
#print axioms Verif.C82_one_model
#print axioms Verif.C82_same_network_partial
#print axioms Verif.C82_models_refuted
#print axioms Verif.C82_missing_refuted
#print axioms Verif.C83_gibbs
#print axioms Verif.C83_enthalpy
#print axioms Verif.C83_corrected
#print axioms Verif.C83_above
#print axioms Verif.C83_above_refuted
#print axioms Verif.C83_borders
#print axioms Verif.C83_border_refuted
#print axioms Verif.C83_reference
#print axioms Verif.C83_heat_capacity
#print axioms Verif.C83_entropy_grows
#print axioms Verif.C84_value
#print axioms Verif.C84_ground_state_refuted
#print axioms Verif.C84_vibrations_partial
#print axioms Verif.C84_vibrations_refuted
#print axioms Verif.C85_direction_partial
#print axioms Verif.C85_dissipation_partial
#print axioms Verif.C85_free_energy_partial
#print axioms Verif.C85_steady_partial
#print axioms Verif.C85_starred_refuted
#print axioms Verif.C86_absent_partial
#print axioms Verif.C86_boundary_partial
#print axioms Verif.C86_intermediate_refuted
#print axioms Verif.C86_bridge_refuted
#print axioms Verif.C87_order
#print axioms Verif.C87_constants
#print axioms Verif.C88_direction_partial
#print axioms Verif.C88_constants
#print axioms Verif.C88_both_sides_refuted
#print axioms Verif.C88_collision_refuted
#print axioms Verif.C89_rates
#print axioms Verif.C89_turnover
#print axioms Verif.C89_derivatives
#print axioms Verif.C90_equilibrated
#print axioms Verif.C90_constants
#print axioms Verif.C90_value
#print axioms Verif.C90_defined
#print axioms Verif.C90_no_control
#print axioms Verif.C90_only_reaction
#print axioms Verif.C90_repeated_refuted
#print axioms Verif.C90_sum_partial
#print axioms Verif.C91_shapes
#print axioms Verif.C91_shows
#print axioms Verif.C91_accepted
#print axioms Verif.C91_smallest
#print axioms Verif.C91_dispose_refuted
#print axioms Verif.C92_failing
#print axioms Verif.C92_ints
#print axioms Verif.C92_none
#print axioms Verif.C92_layout
#print axioms Verif.C92_accepted
#print axioms Verif.C92_untouched
#print axioms Verif.C92_plays
#print axioms Verif.C92_intensity
#print axioms Verif.C92_delay
#print axioms Verif.C92_images
#print axioms Verif.C92_repeats
#print axioms Verif.C92_positions
#print axioms Verif.C92_forever_refuted
#print axioms Verif.C92_position_refuted
#print axioms Verif.C92_empty_refuted
#print axioms Verif.C92_unfinished_refuted
#print axioms Verif.C92_quality_refuted
#print axioms Verif.C92_integers_refuted
#print axioms Verif.C92_mixed_refuted
#print axioms Verif.C93_physical_partial
#print axioms Verif.C93_positive_partial
#print axioms Verif.C93_unique_partial
#print axioms Verif.C93_exists_partial
#print axioms Verif.C93_rest_partial
#print axioms Verif.C93_energy_partial
#print axioms Verif.C93_released_partial
#print axioms Verif.C93_intermediate_refuted
#print axioms Verif.C94_profiles
#print axioms Verif.C94_succeeds
#print axioms Verif.C94_written
#print axioms Verif.C94_slash_refuted
#print axioms Verif.C94_directory_refuted
#print axioms Verif.C94_documented_refuted
#print axioms Verif.C94_short_refuted
#print axioms Verif.C95_processes
#print axioms Verif.C95_files
#print axioms Verif.C96_no_turnover_partial
#print axioms Verif.C96_unique_partial
#print axioms Verif.C96_steady_unique_partial
#print axioms Verif.C96_stable_partial
#print axioms Verif.C96_converges_partial
#print axioms Verif.C96_attracts_partial
#print axioms Verif.C96_exists_partial
#print axioms Verif.C96_multiple_refuted
#print axioms Verif.C97_descent_partial
#print axioms Verif.C97_never_ends_refuted
#print axioms Verif.C97_finds_partial
#print axioms Verif.C98_words_iff
#print axioms Verif.C98_columns
#print axioms Verif.C98_ties
#print axioms Verif.C98_tof
#print axioms Verif.C98_coverages
#print axioms Verif.C98_reactions
#print axioms Verif.C98_titles
#print axioms Verif.C98_rates
#print axioms Verif.C98_aligned
#print axioms Verif.C98_empty_refuted
#print axioms Verif.C98_words_partial
#print axioms Verif.C98_words_refuted
#print axioms Verif.C99_round
#print axioms Verif.C99_stuck
#print axioms Verif.C99_guess_partial
#print axioms Verif.C99_defined_partial
#print axioms Verif.C99_found_partial
#print axioms Verif.C99_modify_partial
#print axioms Verif.C99_interval
#print axioms Verif.C99_never_none
#print axioms Verif.C99_energies_refuted
#print axioms Verif.C99_negative_refuted
