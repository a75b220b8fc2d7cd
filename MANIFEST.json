{
 "claims": [
  {
   "property": "C01",
   "status": "proved",
   "theorems": [
    "Verif.C01_formula_roundtrip",
    "Verif.C01_formula_sound",
    "Verif.C01_formula_rejected_iff"
   ],
   "note": "Round trip for every documented formula text, soundness and an exact rejection criterion for arbitrary text."
  },
  {
   "property": "C02",
   "status": "proved",
   "theorems": [
    "Verif.C02_formula_elements",
    "Verif.C02_state_elements",
    "Verif.C02_state_sites",
    "Verif.C02_order_independent"
   ],
   "note": ""
  },
  {
   "property": "C03",
   "status": "proved",
   "theorems": [
    "Verif.C03_equation_states",
    "Verif.C03_states_of_text",
    "Verif.C03_no_arrow_rejected_iff"
   ],
   "note": "Two and three state equations with either arrow; texts without '->' are rejected."
  },
  {
   "property": "C04",
   "status": "partial",
   "theorems": [
    "Verif.C04_exact",
    "Verif.C04_check_iff_balanced",
    "Verif.C04_acceptance_equivalence",
    "Verif.C04_formula_check",
    "Verif.C04_zero_coefficient_refuted",
    "Verif.C04_missing_side_refuted"
   ],
   "note": "Equivalence for reactions written with positive numbers; C04_exact states exactly which reactions the check accepts, for all reactions of the notation. Refuted outside positive numbers: a zero coefficient makes a balanced reaction fail; an equation with one side missing is accepted."
  },
  {
   "property": "C05",
   "status": "partial",
   "theorems": [
    "Verif.C05_kept",
    "Verif.C05_mass_iff",
    "Verif.C05_two_letters_partial",
    "Verif.C05_mass_conserved_partial",
    "Verif.C05_two_letter_elements_refuted"
   ],
   "note": "Proved for all species whose symbols stand in the element table where the excess mass the code counts (C05_kept, per symbol) is the same in all states, and only then (C05_mass_iff); this holds for all one-letter symbols (C05_mass_conserved_partial) and for two-letter symbols written without numbers (C05_two_letters_partial). Refuted for two-letter symbols with numbers."
  },
  {
   "property": "C06",
   "status": "proved",
   "theorems": [
    "Verif.C06_revert_states",
    "Verif.C06_revert_conservation",
    "Verif.C06_revert_gases"
   ],
   "note": ""
  },
  {
   "property": "C07",
   "status": "partial",
   "theorems": [
    "Verif.C07_last",
    "Verif.C07_iff",
    "Verif.C07_species_list",
    "Verif.C07_repeated_species_refuted",
    "Verif.C07_species_dict_partial"
   ],
   "note": "Refuted for states repeating a species; C07_last says what is kept (the last mention) and C07_iff that the totals are right exactly when no species is repeated."
  },
  {
   "property": "C08",
   "status": "proved",
   "theorems": [
    "Verif.C08_lists_complete",
    "Verif.C08_listed_exactly_once",
    "Verif.C08_site_names",
    "Verif.C08_lists_sorted",
    "Verif.C08_order_independent"
   ],
   "note": "Every species of a parsed reaction list is listed, in exactly one list, lists are sorted, duplicate-free and independent of reaction order."
  },
  {
   "property": "C09",
   "status": "proved",
   "theorems": [
    "Verif.C09_entries",
    "Verif.C09_not_taking_part"
   ],
   "note": "Every entry of both matrices, all reactions."
  },
  {
   "property": "C10",
   "status": "partial",
   "theorems": [
    "Verif.C10_lost",
    "Verif.C10_iff",
    "Verif.C10_weights_match_specification",
    "Verif.C10_elements_conserved_partial",
    "Verif.C10_sites_conserved_partial",
    "Verif.C10_transition_state_end_refuted",
    "Verif.C10_numbered_empty_site_refuted"
   ],
   "note": "Proved when no transition state stands at an end of a reaction (elements) and empty sites are written without a number (sites). Refuted outside that; C10_lost gives, for all reactions, exactly the atoms and sites that are lost. C10_iff: conserved exactly if the formulas without a column hold the same at both ends."
  },
  {
   "property": "C11",
   "status": "partial",
   "theorems": [
    "Verif.C11_run_partial",
    "Verif.C11_build_up",
    "Verif.C11_near_steady",
    "Verif.C11_element_balance_partial",
    "Verif.C11_at_steady_state_partial",
    "Verif.C11_repeated_formula_refuted"
   ],
   "note": "Proved for any rates with no net production of adsorbates, and from zero derivatives when each adsorbate stands on one side of each reaction (outside that the coverage equations themselves are wrong, C26). C11_build_up gives the imbalance at any coverages, stationary or not, C11_near_steady bounds it by the residual, and C11_run_partial by the tolerance for what a run reports. C11_repeated_formula_refuted: with an adsorbate written twice in a state the derivatives are zero and oxygen is lost."
  },
  {
   "property": "C12",
   "status": "proved",
   "theorems": [
    "Verif.C12_state_energy",
    "Verif.C12_single_reaction",
    "Verif.C12_lists",
    "Verif.C12_complete_tables",
    "Verif.C12_reversal",
    "Verif.C12_cycles",
    "Verif.C12_owner",
    "Verif.C12_reading"
   ],
   "note": "Hess's law for arbitrary combinations of reactions, reversal, consistency, error cases."
  },
  {
   "property": "C13",
   "status": "proved",
   "theorems": [
    "Verif.C13_normalised",
    "Verif.C13_idempotent",
    "Verif.C13_rejected",
    "Verif.C13_file_first",
    "Verif.C13_failing"
   ],
   "note": "All data; exact error behaviour."
  },
  {
   "property": "C14",
   "status": "proved",
   "theorems": [
    "Verif.C14_correction",
    "Verif.C14_short_lists"
   ],
   "note": "All networks, corrections and energy lists."
  },
  {
   "property": "C15",
   "status": "partial",
   "theorems": [
    "Verif.C15_entropy_once",
    "Verif.C15_shomate_written",
    "Verif.C15_entropy_state",
    "Verif.C15_shomate_state",
    "Verif.C15_shomate_iff",
    "Verif.C15_entropy_coefficient_refuted",
    "Verif.C15_shomate_coefficient_ignored",
    "Verif.C15_shomate_coefficient_refuted",
    "Verif.C15_unit_coefficients_partial"
   ],
   "note": "Refuted for both correction methods when a coefficient is written; holds for formulas without coefficient. C15_entropy_once, C15_shomate_written and the two statements on whole states say what is added in all cases. C15_shomate_iff: the Shomate correction is the intended sum exactly if the part of the formulas with a coefficient adds up to zero."
  },
  {
   "property": "C16",
   "status": "proved",
   "theorems": [
    "Verif.C16_positive_decreasing",
    "Verif.C16_increasing_in_temperature",
    "Verif.C16_zero_temperature"
   ],
   "note": "Over exact reals; temperature zero raises."
  },
  {
   "property": "C17",
   "status": "proved",
   "theorems": [
    "Verif.C17_detailed_balance",
    "Verif.C17_from_absolute_energies"
   ],
   "note": "Both for arbitrary consistent energies and for every model read from absolute energies."
  },
  {
   "property": "C18",
   "status": "partial",
   "theorems": [
    "Verif.C18_iff",
    "Verif.C18_equilibrium_partial",
    "Verif.C18_pair_of_sites_refuted"
   ],
   "note": "All networks with clean end states (no transition state or numbered empty site at an end), any temperature, real arithmetic. C18_iff: the rates of all reactions are equal exactly at such activities. C18_pair_of_sites_refuted: with a pair of free sites in an end state the energies exist but rates fail with KeyError."
  },
  {
   "property": "C19",
   "status": "proved",
   "theorems": [
    "Verif.C19_rate_of_barrier",
    "Verif.C19_barrier_of_rate",
    "Verif.C19_no_barrier"
   ],
   "note": "Both directions, for all positive rates and temperatures; non-positive rates raise."
  },
  {
   "property": "C20",
   "status": "proved",
   "theorems": [
    "Verif.C20_unknown",
    "Verif.C20_guard",
    "Verif.C20_bounded",
    "Verif.C20_adsorption"
   ],
   "note": "Guards, bounds, linearity in the pressure, and the adsorption rates with the clamp stated as an alternative."
  },
  {
   "property": "C21",
   "status": "partial",
   "theorems": [
    "Verif.C21_written",
    "Verif.C21_pressures_partial",
    "Verif.C21_coefficient_refuted",
    "Verif.C21_collision_adsorption_partial",
    "Verif.C21_collision_desorption_partial",
    "Verif.C21_collision_both_sides_refuted"
   ],
   "note": "Refuted: a gas written with a coefficient is looked up by its text and not found (C21_written covers all reactions); by collision theory a gas among the products counts only if there is none among the reactants. Holds when gases are written without coefficients, and by collision theory for one molecule of a gas of the data base."
  },
  {
   "property": "C22",
   "status": "partial",
   "theorems": [
    "Verif.C22_first",
    "Verif.C22_iff",
    "Verif.C22_repeated_reaction_refuted",
    "Verif.C22_own_energies_partial",
    "Verif.C22_own_energies_CT_partial"
   ],
   "note": "Refuted for repeated expressions: the position of the first occurrence is used (C22_first). C22_iff: every place has the constants of its own barriers exactly if repeated expressions have the same barriers."
  },
  {
   "property": "C23",
   "status": "proved",
   "theorems": [
    "Verif.C23_conversion",
    "Verif.C23_one_site",
    "Verif.C23_short_tuple"
   ],
   "note": "All networks and tuples; short tuples raise."
  },
  {
   "property": "C24",
   "status": "proved",
   "theorems": [
    "Verif.C24_physical",
    "Verif.C24_physical_unchanged",
    "Verif.C24_idempotent",
    "Verif.C24_overfull_site",
    "Verif.C24_short_tuple"
   ],
   "note": "The constrained tuple is physical for every input, with the over-full site scaled to its total; a physical tuple is returned unchanged; the operation is idempotent."
  },
  {
   "property": "C25",
   "status": "partial",
   "theorems": [
    "Verif.C25_failing",
    "Verif.C25_mass_action_partial",
    "Verif.C25_solver_constants_partial",
    "Verif.C25_middle_irrelevant",
    "Verif.C25_transition_state_end_refuted",
    "Verif.C25_defined_iff"
   ],
   "note": "Refuted for transition states at an end of a reaction (KeyError); holds for all other accepted reactions. C25_defined_iff: with all data given, rates exist exactly when every state that appears in a rate has proper names, and otherwise the call fails with KeyError."
  },
  {
   "property": "C26",
   "status": "partial",
   "theorems": [
    "Verif.C26_counted",
    "Verif.C26_iff",
    "Verif.C26_derivatives_partial",
    "Verif.C26_both_sides_refuted",
    "Verif.C26_repeated_formula_refuted",
    "Verif.C26_intermediate_refuted"
   ],
   "note": "Refuted for adsorbates on both sides, formulas repeated in a state, and intermediate-only adsorbates; holds otherwise. C26_counted says which mention is counted in all cases and C26_iff exactly when the result is the stoichiometric one."
  },
  {
   "property": "C27",
   "status": "partial",
   "theorems": [
    "Verif.C27_weighted",
    "Verif.C27_iff",
    "Verif.C27_sites_partial",
    "Verif.C27_bridge_refuted"
   ],
   "note": "Holds under the hypotheses of C26; the bridging-adsorbate example shows why one site per adsorbate is needed. C27_weighted gives the balance and the exact deviation for adsorbates on any numbers of sites. C27_iff: cancel exactly if the further sites of the adsorbates add up to zero."
  },
  {
   "property": "C28",
   "status": "partial",
   "theorems": [
    "Verif.C28_jacobian_partial",
    "Verif.C28_dissociation_refuted",
    "Verif.C28_large_power_refuted",
    "Verif.C28_repeated_species_refuted",
    "Verif.C28_no_factor",
    "Verif.C28_length_checked",
    "Verif.C28_error",
    "Verif.C28_iff"
   ],
   "note": "C28_jacobian_partial: every entry is the derivative (HasDerivAt over the reals) of the corresponding coverage equation, with free sites moving along. Missing: terms taken away that contain the column's adsorbate and its own empty site, powers of ten or more and repeated species in a state; in all three the code is wrong (C28_dissociation_refuted, C28_large_power_refuted, C28_repeated_species_refuted). C28_error gives every entry without the first of these conditions: the derivative less twice the change through the empty site of the terms taken away that contain the column's adsorbate and its own empty site; C28_iff: with all species present an entry is the derivative exactly if there is no such term, and never larger."
  },
  {
   "property": "C29",
   "status": "partial",
   "theorems": [
    "Verif.C29_difference",
    "Verif.C29_arguments",
    "Verif.C29_values_partial",
    "Verif.C29_agreement_partial",
    "Verif.C29_dissociation_refuted",
    "Verif.C29_jacobian_two_partial",
    "Verif.C29_jacobian_refuted"
   ],
   "note": "The symbolic equations are proved to count each reaction with plus or minus one times its net rate, so they agree with the numerical ones when all coefficients of adsorbates are one, and are refuted for dissociative adsorption; C29_difference gives the difference for all networks. The symbolic Jacobian is the matrix of derivatives for exactly two adsorbates and cannot be computed for any other number (proved for all states). Liquids and starred site names: see C71."
  },
  {
   "property": "C30",
   "status": "proved",
   "theorems": [
    "Verif.C30_residual",
    "Verif.C30_no_adsorbates"
   ],
   "note": "Residual is the largest absolute derivative, is never negative, zero exactly at a steady state; without adsorbates max() of an empty sequence raises ValueError."
  },
  {
   "property": "C31",
   "status": "partial",
   "theorems": [
    "Verif.C31_no_guess",
    "Verif.C31_residual",
    "Verif.C31_nonneg_partial",
    "Verif.C31_none",
    "Verif.C31_found",
    "Verif.C31_negative_refuted",
    "Verif.C31_given_energies",
    "Verif.C31_error_refuted",
    "Verif.C31_guess_refuted",
    "Verif.C31_forever_refuted"
   ],
   "note": "Residual at most the tolerance, kept and archived: C31_residual, for every search. Roots and good guesses are returned: C31_found. None only without a hybrid method: C31_none. No negative coverage only if the hybrid method proposes none: C31_nonneg_partial; otherwise refuted by dissociative adsorption (C31_negative_refuted). With a hybrid method the search never returns None and may go on for ever (C31_forever_refuted). The property good_guess never gives the guess (C31_guess_refuted). The iterator, linear solver and plugins are arbitrary; plugins do not raise."
  },
  {
   "property": "C32",
   "status": "partial",
   "theorems": [
    "Verif.C32_blocks_partial",
    "Verif.C32_steps",
    "Verif.C32_limit",
    "Verif.C32_finalize_refuted"
   ],
   "note": "Block structure of the calls for every search: C32_blocks_partial; multiples of the interval, in order, each once: C32_steps; limit: C32_limit. Refuted: finalize is given the number of the next guess and is called without setup for a good guess (C32_finalize_refuted)."
  },
  {
   "property": "C33",
   "status": "partial",
   "theorems": [
    "Verif.C33_constrained",
    "Verif.C33_stops",
    "Verif.C33_singular",
    "Verif.C33_norms",
    "Verif.C33_bad_start",
    "Verif.C33_value_partial",
    "Verif.C33_affine",
    "Verif.C33_physical",
    "Verif.C33_value_refuted"
   ],
   "note": "For arbitrary functions, linear solvers, norms and step sizes. ConstrainedNewton: norm and value belong to the point, constraint from the sixth point on (C33_constrained, C33_physical for the solver's own constraint), singular matrix is a ValueError (C33_singular). MDNewton: norm never increases (C33_norms), value is that of the point except at the last, stationary one (C33_value_partial); refuted there (C33_value_refuted)."
  },
  {
   "property": "C34",
   "status": "partial",
   "theorems": [
    "Verif.C34_values",
    "Verif.C34_slope",
    "Verif.C34_coverages_refuted",
    "Verif.C34_no_coverages",
    "Verif.C34_no_steady"
   ],
   "note": "Supplied energies unchanged and every value as documented: C34_values, C34_slope. Refuted for the solver's coverages and the archive: after every successful calculation they are those of the last perturbed model (C34_coverages_refuted). get_tof also archives rates; that is not in this state."
  },
  {
   "property": "C35",
   "status": "partial",
   "theorems": [
    "Verif.C35_archive_partial",
    "Verif.C35_untouched",
    "Verif.C35_earlier_refuted",
    "Verif.C35_documented"
   ],
   "note": "Refuted for variables archived by an earlier process: the first call of a new solver overwrites the file with its own dictionary. Within one process: exactly the last value of each listed variable."
  },
  {
   "property": "C36",
   "status": "partial",
   "theorems": [
    "Verif.C36_crash_partial",
    "Verif.C36_trace_ends",
    "Verif.C36_crash_refuted",
    "Verif.C36_history_partial",
    "Verif.C36_after_crash"
   ],
   "note": "Refuted: the file is truncated before it is written, so a stop in between leaves it empty, and the next run raises. Every other crash point keeps a complete archive."
  },
  {
   "property": "C37",
   "status": "partial",
   "theorems": [
    "Verif.C37_archive_refuted",
    "Verif.C37_start_partial",
    "Verif.C37_given",
    "Verif.C37_nothing"
   ],
   "note": "Refuted: the archive is written under another key than the one run looks for. Proved for files that have the key."
  },
  {
   "property": "C38",
   "status": "partial",
   "theorems": [
    "Verif.C38_history",
    "Verif.C38_valid",
    "Verif.C38_once",
    "Verif.C38_assign_partial",
    "Verif.C38_read_refuted",
    "Verif.C38_others"
   ],
   "note": "Refuted for reads: reading stores the default and blocks assignment. All other parts proved for arbitrary histories."
  },
  {
   "property": "C39",
   "status": "proved",
   "theorems": [
    "Verif.C39_float_rows",
    "Verif.C39_vectors",
    "Verif.C39_type",
    "Verif.C39_bool",
    "Verif.C39_float",
    "Verif.C39_refEnergies",
    "Verif.C39_species",
    "Verif.C39_sequence"
   ],
   "note": "Exact acceptance criteria for every value. C39_float_rows, C39_vectors: lists of lists of numbers; integers are those of 64 bits, and cells written with integers only are refused."
  },
  {
   "property": "C40",
   "status": "partial",
   "theorems": [
    "Verif.C40_cached_partial",
    "Verif.C40_same_model_partial",
    "Verif.C40_temperature_refuted",
    "Verif.C40_absent_refuted",
    "Verif.C40_in_place_partial",
    "Verif.C40_in_place_refuted",
    "Verif.C40_handle_refuted",
    "Verif.C40_objects_partial",
    "Verif.C40_repeat",
    "Verif.C40_hash",
    "Verif.C40_hash_small"
   ],
   "note": "Refuted in four ways: other temperature, energies left out, method handle kept, energies changed in place between numbers that share a hash (-1 and -2). Proved for histories of solvers that agree in what the key leaves out, and for histories of changes in place where no single object has two contents with one hash (C40_objects_partial); asking twice does not compute again (C40_repeat)."
  },
  {
   "property": "C41",
   "status": "partial",
   "theorems": [
    "Verif.C41_shared_refuted",
    "Verif.C41_own_partial",
    "Verif.C41_once"
   ],
   "note": "Refuted for models left with the default list: all share it. Proved for models given a list of their own."
  },
  {
   "property": "C42",
   "status": "proved",
   "theorems": [
    "Verif.C42_split_size"
   ],
   "note": "All sizes and process counts."
  },
  {
   "property": "C43",
   "status": "partial",
   "theorems": [
    "Verif.C43_iff",
    "Verif.C43_split_merge",
    "Verif.C43_roundtrip_partial",
    "Verif.C43_tail_refuted",
    "Verif.C43_short_refuted"
   ],
   "note": "Refuted when the length is not a multiple of the number of processes: the tail is lost, and with fewer entries than processes splitting raises ValueError. C43_split_merge says exactly what is kept for every length. C43_iff: exactly for sequences with entries whose length is a multiple of the number of processes."
  },
  {
   "property": "C44",
   "status": "partial",
   "theorems": [
    "Verif.C44_consistent_partial",
    "Verif.C44_append",
    "Verif.C44_extend",
    "Verif.C44_share",
    "Verif.C44_bad_element_refuted",
    "Verif.C44_shared_list_refuted",
    "Verif.C44_failing",
    "Verif.C44_unequal"
   ],
   "note": "Invariant over all operation histories whose elements are strings and whose lists are not shared between groups; refuted for a non-string element (coordinate is kept, element is not) and for groups built on shared lists. C44_append and C44_extend say exactly what is accepted and added."
  },
  {
   "property": "C45",
   "status": "partial",
   "theorems": [
    "Verif.C45_move_partial",
    "Verif.C45_moves_compose",
    "Verif.C45_empty_refuted",
    "Verif.C45_short_vector",
    "Verif.C45_iff"
   ],
   "note": "Translation, composition and inverse for non-empty groups; refuted for empty groups (broadcast fails). A vector of one number is accepted and moves every component. C45_iff: exactly for groups with coordinates."
  },
  {
   "property": "C46",
   "status": "proved",
   "theorems": [
    "Verif.C46_merge",
    "Verif.C46_self",
    "Verif.C46_union"
   ],
   "note": "All groups, elements and tolerances."
  },
  {
   "property": "C47",
   "status": "proved",
   "theorems": [
    "Verif.C47_process_dict"
   ],
   "note": "Exact characterisation for every dictionary of Python values; everything else is a SetupError."
  },
  {
   "property": "C48",
   "status": "partial",
   "theorems": [
    "Verif.C48_interval_partial",
    "Verif.C48_zero_refuted"
   ],
   "note": "Exact characterisation of what is accepted. Refuted: zero and negative intervals and steps are accepted."
  },
  {
   "property": "C49",
   "status": "partial",
   "theorems": [
    "Verif.C49_pressure_partial",
    "Verif.C49_reading",
    "Verif.C49_text_refuted",
    "Verif.C49_number_refuted",
    "Verif.C49_readable_iff",
    "Verif.C49_pressure"
   ],
   "note": "Holds for gases ending in _g declared by a dictionary. Refuted: a text containing the word is accepted, and a gas with a number of sites (CO_2g) is not checked. C49_readable_iff: after the check, the pressure of a gas can be read exactly when its value is a dictionary."
  },
  {
   "property": "C50",
   "status": "partial",
   "theorems": [
    "Verif.C50_sitesmap_partial",
    "Verif.C50_configuration",
    "Verif.C50_empty_refuted",
    "Verif.C50_iff"
   ],
   "note": "Holds with repetitions and possible site types given, both directions. Refuted for the default empty possible_site_types (IndexError) and empty repetitions (TypeError). C50_configuration covers the default configuration. C50_iff: the site types used, exactly."
  },
  {
   "property": "C51",
   "status": "partial",
   "theorems": [
    "Verif.C51_errors",
    "Verif.C51_mapping_partial",
    "Verif.C51_pairs",
    "Verif.C51_accepted",
    "Verif.C51_redist_refuted",
    "Verif.C51_fast_refuted",
    "Verif.C51_twice_refuted",
    "Verif.C51_labels_iff"
   ],
   "note": "C51_mapping_partial: labels and processes pair up, forward and reverse in order, for process lists without redistribution and fast marks. Refuted: processes marked redist but not fast shift the labels, fast processes leave fewer labels than processes, and a second call doubles the labels. C51_pairs gives the pair of rates of every process. C51_labels_iff: the labels fit the slow processes exactly when every redistribution process not marked as fast has no place to happen, with the number of surplus labels."
  },
  {
   "property": "C52",
   "status": "partial",
   "theorems": [
    "Verif.C52_whole_cells",
    "Verif.C52_iff",
    "Verif.C52_types",
    "Verif.C52_sum",
    "Verif.C52_coverages_partial",
    "Verif.C52_repeated_refuted",
    "Verif.C52_incomplete_refuted",
    "Verif.C52_settings"
   ],
   "note": "The recorded coverages always add to one (C52_sum); they are the fractions of sites when the types are distinct and lattice cells complete (C52_coverages_partial). Refuted for repeated types, incomplete cells and the default empty coverage_ratios (ZeroDivisionError). C52_whole_cells: on every lattice all whole cells are counted and nothing else; C52_iff: when coverages are recorded, exactly. C52_types: the values for every list of possible types, repeated or not."
  },
  {
   "property": "C53",
   "status": "partial",
   "theorems": [
    "Verif.C53_values",
    "Verif.C53_iff",
    "Verif.C53_small",
    "Verif.C53_agree_partial",
    "Verif.C53_refuted"
   ],
   "note": "C53_values gives both results for all lists of types; C53_iff: with positive ratios and at least one whole cell they agree exactly if no possible type stands behind the last whole cell and no type of the lattice is listed twice. Refuted otherwise."
  },
  {
   "property": "C54",
   "status": "partial",
   "theorems": [
    "Verif.C54_counts",
    "Verif.C54_zero_time_refuted",
    "Verif.C54_index",
    "Verif.C54_reactions",
    "Verif.C54_labels_refuted",
    "Verif.C54_rates_partial",
    "Verif.C54_single_refuted"
   ],
   "note": "Counts are exact for every run (C54_counts, C54_index, C54_reactions); rates for runs with at least two distinct times. Refuted: a first step at time zero is not taken as start, a single step raises ZeroDivisionError, events of unlabelled processes are lost."
  },
  {
   "property": "C55",
   "status": "partial",
   "theorems": [
    "Verif.C55_windows_partial",
    "Verif.C55_events",
    "Verif.C55_tail_refuted",
    "Verif.C55_start_refuted",
    "Verif.C55_lost_iff",
    "Verif.C55_start_iff"
   ],
   "note": "Each record is the number of events per site and time in its window and windows follow each other (C55_windows_partial, C55_events). Refuted: the last incomplete window is dropped, and the first starts at zero whatever the start time. C55_lost_iff: the records account for exactly the events up to the end of the last window, and nothing is lost exactly when the last step ends one; C55_start_iff: the first frequencies are true exactly for runs that begin at time zero."
  },
  {
   "property": "C56",
   "status": "partial",
   "theorems": [
    "Verif.C56_table_partial",
    "Verif.C56_labels_refuted",
    "Verif.C56_zero",
    "Verif.C56_written_partial",
    "Verif.C56_last_refuted",
    "Verif.C56_sum_iff"
   ],
   "note": "Each table has one row per label with rates and probabilities in order, zero rows included (C56_zero). Refuted: processes beyond the labels are cut off, and the last unfilled table is never written. C56_sum_iff: the probabilities add up to one exactly when every process without a label cannot happen."
  },
  {
   "property": "C57",
   "status": "partial",
   "theorems": [
    "Verif.C57_tof_file",
    "Verif.C57_coverages_partial",
    "Verif.C57_coverages_index_refuted",
    "Verif.C57_coverages_refuted",
    "Verif.C57_names",
    "Verif.C57_flushes"
   ],
   "note": "TOF file: full, for every buffer size and run with plain labels. Trajectory file: see C64. Coverages file: refuted, types are quoted twice so the file is a SyntaxError; leaving that statement out, the data are read back exactly when the last buffer is not empty, and otherwise executing ends in an IndexError."
  },
  {
   "property": "C58",
   "status": "proved",
   "theorems": [
    "Verif.C58_symbols_multiplicity",
    "Verif.C58_symbols_append",
    "Verif.C58_leading_multiplier",
    "Verif.C58_symbols_wellformed",
    "Verif.C58_malformed_rejected",
    "Verif.C58_unbalanced_parenthesis_refuted",
    "Verif.C58_mass_additive",
    "Verif.C58_mass_unknown_element"
   ],
   "note": "Refuted only for unbalanced parentheses (not a formula); everything else proved for all formulas of the grammar."
  },
  {
   "property": "C59",
   "status": "proved",
   "theorems": [
    "Verif.C59_convert_time"
   ],
   "note": "All non-negative times, exact arithmetic."
  },
  {
   "property": "C60",
   "status": "proved",
   "theorems": [
    "Verif.C60_quadratic",
    "Verif.C60_classified_quadratic",
    "Verif.C60_affine",
    "Verif.C60_classified",
    "Verif.C60_other_direction"
   ],
   "note": "All affine functions, points, steps; also the variant with directions by kind of variable. C60_quadratic gives the exact error for all quadratic functions."
  },
  {
   "property": "C61",
   "status": "proved",
   "theorems": [
    "Verif.C61_reversibilities",
    "Verif.C61_length_mismatch"
   ],
   "note": "All lists of positive rates; length mismatch raises."
  },
  {
   "property": "C62",
   "status": "proved",
   "theorems": [
    "Verif.C62_temperature",
    "Verif.C62_distribution",
    "Verif.C62_needs_energies"
   ],
   "note": "All networks, energies and positive temperatures."
  },
  {
   "property": "C63",
   "status": "partial",
   "theorems": [
    "Verif.C63_solver",
    "Verif.C63_expressions",
    "Verif.C63_failing",
    "Verif.C63_failing_parts",
    "Verif.C63_failing_solver",
    "Verif.C63_defaults",
    "Verif.C63_protected",
    "Verif.C63_methods",
    "Verif.C63_expression_check",
    "Verif.C63_part_names",
    "Verif.C63_loop",
    "Verif.C63_order",
    "Verif.C63_parser",
    "Verif.C63_slots",
    "Verif.C63_level_refuted",
    "Verif.C63_species_refuted",
    "Verif.C63_sympy_refuted",
    "Verif.C63_levels",
    "Verif.C63_components_later"
   ],
   "note": "Assignment, order independence and the parser requirement proved for every setup. Refuted: logging levels cannot be set this way, species definitions are required in spite of their default, and sympy is accepted but breaks the solver."
  },
  {
   "property": "C64",
   "status": "proved",
   "theorems": [
    "Verif.C64_trajectory",
    "Verif.C64_returns",
    "Verif.C64_failure",
    "Verif.C64_terminates"
   ],
   "note": "All integrators, also failing ones (C64_failure), and termination with an exact integrator. The integration itself is abstract."
  },
  {
   "property": "C65",
   "status": "partial",
   "theorems": [
    "Verif.C65_formula_text_ignored_refuted",
    "Verif.C65_equation_text_ignored_refuted",
    "Verif.C65_formula_text_complete_partial",
    "Verif.C65_formula_iff",
    "Verif.C65_equation_iff"
   ],
   "note": "Refuted for arbitrary text; holds for texts of the documented form. C65_formula_iff, C65_equation_iff: nothing is ignored exactly if the text is a formula, or an equation, as a whole."
  },
  {
   "property": "C66",
   "status": "partial",
   "theorems": [
    "Verif.C66_zero_correction_refuted",
    "Verif.C66_zero_correction_partial",
    "Verif.C66_iff"
   ],
   "note": "Refuted: a two-state reaction with an explicit barrier loses it. C66_iff: a zero correction changes nothing exactly if all two-state reactions have the barriers of a step without a barrier of its own."
  },
  {
   "property": "C67",
   "status": "partial",
   "theorems": [
    "Verif.C67_iff",
    "Verif.C67_gases",
    "Verif.C67_others",
    "Verif.C67_pressure_dependence",
    "Verif.C67_defined_partial",
    "Verif.C67_low_temperature_refuted",
    "Verif.C67_not_corrected",
    "Verif.C67_zero_pressure"
   ],
   "note": "The pressure law holds for every gas. C67_iff: the value is undefined (AttributeError) exactly when a linear molecule has rotational temperature at least 0.3 T, e.g. hydrogen below 291 K. C67_gases, C67_others: exactly which gases are corrected."
  },
  {
   "property": "C68",
   "status": "partial",
   "theorems": [
    "Verif.C68_missing_reverse",
    "Verif.C68_missing_forward_refuted",
    "Verif.C68_missing_reaction_energy_refuted",
    "Verif.C68_unknown_method",
    "Verif.C68_short_lists"
   ],
   "note": "Holds for missing reverse barriers and unknown methods. Refuted for missing forward barriers and for missing reaction energies: KeyError."
  },
  {
   "property": "C69",
   "status": "proved",
   "theorems": [
    "Verif.C69_turnover"
   ],
   "note": "All networks."
  },
  {
   "property": "C70",
   "status": "partial",
   "theorems": [
    "Verif.C70_given",
    "Verif.C70_first_partial",
    "Verif.C70_first_refuted",
    "Verif.C70_iff",
    "Verif.C70_first_iff"
   ],
   "note": "Refuted for the first run with default settings (the coarse guess iterates over None). Given coverages are always used. C70_iff: when a run gets as far as its solver, exactly; C70_first_iff: when it ends with the TypeError."
  },
  {
   "property": "C71",
   "status": "partial",
   "theorems": [
    "Verif.C71_unready",
    "Verif.C71_failing",
    "Verif.C71_arguments",
    "Verif.C71_rates_partial",
    "Verif.C71_rate_constants_partial",
    "Verif.C71_solver_partial",
    "Verif.C71_equilibrium",
    "Verif.C71_liquid_refuted",
    "Verif.C71_starred_site_refuted",
    "Verif.C71_liquid_example_refuted",
    "Verif.C71_needs_preparation",
    "Verif.C71_no_energies",
    "Verif.C71_few_energies",
    "Verif.C71_few_coverages"
   ],
   "note": "Proved for networks without liquids and without stars in site names; any liquid makes every symbolic value raise (KeyError), proved for all solver states. C71_equilibrium gives the equilibrium constants for every model. Sympy's rewriting is not modelled, only values of expressions."
  },
  {
   "property": "C72",
   "status": "partial",
   "theorems": [
    "Verif.C72_nothing",
    "Verif.C72_integration_failing",
    "Verif.C72_run",
    "Verif.C72_history_partial",
    "Verif.C72_steady",
    "Verif.C72_fsolve_refuted",
    "Verif.C72_integration",
    "Verif.C72_integration_fails",
    "Verif.C72_rate_control",
    "Verif.C72_info",
    "Verif.C72_unsolved_refuted",
    "Verif.C72_mixed_refuted",
    "Verif.C72_coarse"
   ],
   "note": "Proved for every run that does not stop between its results, and for histories of such runs. Refuted: a search that gives up leaves no coverages next to the turnover frequencies of the run before; a low-precision run always raises on a fresh solver and otherwise reports the error of an earlier search; an unsolved model reports None. C72_integration: the ODE integration matters only if asked for; C72_rate_control: what rate control leaves in the solver stays there."
  },
  {
   "property": "C73",
   "status": "partial",
   "theorems": [
    "Verif.C73_absent",
    "Verif.C73_boolean_interval",
    "Verif.C73_accepted",
    "Verif.C73_methods",
    "Verif.C73_total",
    "Verif.C73_interval_partial",
    "Verif.C73_steps_partial",
    "Verif.C73_inherited_refuted",
    "Verif.C73_mixin_refuted",
    "Verif.C73_raiser"
   ],
   "note": "Acceptance and the user's own hooks are proved for all bodies and bases. Refuted: a hook that is inherited but not repeated is replaced by one that does nothing (C73_inherited_refuted, for all bases); an interval of zero enters through another base (C73_mixin_refuted)."
  },
  {
   "property": "C74",
   "status": "partial",
   "theorems": [
    "Verif.C74_master",
    "Verif.C74_progress_partial",
    "Verif.C74_ready",
    "Verif.C74_bounded",
    "Verif.C74_log_refuted",
    "Verif.C74_data_refuted"
   ],
   "note": "For every number of processes and every schedule: with both directories no process fails or waits for ever (C74_ready); the first process never fails (C74_master); at most 9n steps (C74_bounded). Refuted without ./log (a process runs ahead, fails, and the first waits for ever in the barrier) and without ./data."
  },
  {
   "property": "C75",
   "status": "partial",
   "theorems": [
    "Verif.C75_iff",
    "Verif.C75_set",
    "Verif.C75_handlers",
    "Verif.C75_single_partial",
    "Verif.C75_twice_refuted",
    "Verif.C75_other_refuted"
   ],
   "note": "Refuted for two models in one program: messages are written twice, and the level of the first model is changed whichever model is asked; proved for one. C75_iff: messages appear at most once exactly if at most one model was made since the handlers were removed."
  },
  {
   "property": "C76",
   "status": "partial",
   "theorems": [
    "Verif.C76_solver_partial",
    "Verif.C76_corrector_refuted",
    "Verif.C76_plotter_refuted"
   ],
   "note": "Proved for the solver; correctors are not checked at all, and set_plotter uses a name that does not exist."
  },
  {
   "property": "C77",
   "status": "partial",
   "theorems": [
    "Verif.C77_absolute_partial",
    "Verif.C77_zero",
    "Verif.C77_relative",
    "Verif.C77_unfilled",
    "Verif.C77_no_table",
    "Verif.C77_starred_refuted"
   ],
   "note": "Missing: gases and liquids whose name contains a star together with a site number (C77_starred_refuted). Reaction texts contain no line break. Reading numbers (float literals) is a parameter."
  },
  {
   "property": "C78",
   "status": "partial",
   "theorems": [
    "Verif.C78_closed",
    "Verif.C78_list_partial",
    "Verif.C78_columns",
    "Verif.C78_dict",
    "Verif.C78_quote_refuted"
   ],
   "note": "Missing: strings that contain quotes (refuted), backslashes or line ends; nested elements are opaque texts with matching brackets; zero columns raise exactly if some element is not a list or tuple (C78_columns)."
  },
  {
   "property": "C79",
   "status": "partial",
   "theorems": [
    "Verif.C79_returned",
    "Verif.C79_complete_partial",
    "Verif.C79_recycled_refuted",
    "Verif.C79_ratios_refuted",
    "Verif.C79_direction_refuted",
    "Verif.C79_weights",
    "Verif.C79_scale"
   ],
   "note": "The singular value decomposition and rounding to one decimal place are parameters. C79_returned holds for every network, basis and rounding. The code fails to give the equation when a gas is formed and consumed again (ZeroDivisionError), when amounts are not whole multiples of the smallest, and when a reaction runs in reverse."
  },
  {
   "property": "C80",
   "status": "partial",
   "theorems": [
    "Verif.C80_tex",
    "Verif.C80_formula_partial",
    "Verif.C80_determined_partial",
    "Verif.C80_sites_refuted",
    "Verif.C80_part_refuted",
    "Verif.C80_oneSided_refuted",
    "Verif.C80_lines"
   ],
   "note": "C80_determined_partial is an equivalence, so it states exactly what is lost: the number of sites. The printing of symbols by sympy is a parameter."
  },
  {
   "property": "C81",
   "status": "partial",
   "theorems": [
    "Verif.C81_fresh",
    "Verif.C81_files",
    "Verif.C81_unread",
    "Verif.C81_solver_unread",
    "Verif.C81_reading",
    "Verif.C81_control",
    "Verif.C81_timeSeed_refuted",
    "Verif.C81_history_partial",
    "Verif.C81_stale_refuted",
    "Verif.C81_retry_refuted",
    "Verif.C81_mixed_refuted",
    "Verif.C81_solverRun_refuted",
    "Verif.C81_failure",
    "Verif.C81_call"
   ],
   "note": "KMCLibX is not modelled: a run is the call that is handed to it. The energies are represented by the rates they give. C81_history_partial excludes histories with a failed attempt to make processes and the direct method get_processes; both are refuted."
  },
  {
   "property": "C82",
   "status": "partial",
   "theorems": [
    "Verif.C82_history_partial",
    "Verif.C82_one_model",
    "Verif.C82_same_network_partial",
    "Verif.C82_models_refuted",
    "Verif.C82_missing_refuted"
   ],
   "note": "The key of the cache is the text of the equation; it is represented by its parts. C82_history_partial states exactly which agreement between models is needed; without it the cached matrix is wrong (C82_models_refuted)."
  },
  {
   "property": "C83",
   "status": "partial",
   "theorems": [
    "Verif.C83_gibbs",
    "Verif.C83_enthalpy",
    "Verif.C83_corrected",
    "Verif.C83_above",
    "Verif.C83_above_refuted",
    "Verif.C83_borders",
    "Verif.C83_border_refuted",
    "Verif.C83_reference",
    "Verif.C83_heat_capacity",
    "Verif.C83_entropy_grows"
   ],
   "note": "Proved for the whole table. Refuted above the data: the correction is zero there (only a warning in the log), C83_above holds for all gases. At the limit of two ranges the lower one is used; derivatives are stated inside the ranges. The published functions of neighbouring ranges agree at their limit (C83_borders), but the correction does not: it takes heat capacity and enthalpy at 298.15 K from the parameters of the range of the temperature, so that for CH4 it falls by more than 1 eV just above 1300 K (C83_border_refuted). C83_reference, C83_heat_capacity and C83_entropy_grows bound the functions in all ranges."
  },
  {
   "property": "C84",
   "status": "partial",
   "theorems": [
    "Verif.C84_value",
    "Verif.C84_ground_state_refuted",
    "Verif.C84_vibrations_partial",
    "Verif.C84_vibrations_refuted"
   ],
   "note": "C84_value holds for every gas of the data base whenever a value is returned (when it is: C67). Refuted: levels differ between gases with one and with several vibrations (C84_ground_state_refuted), and degenerate vibrations are missing from the table (C84_vibrations_refuted; C84_vibrations_partial says for which gases all are counted)."
  },
  {
   "property": "C85",
   "status": "partial",
   "theorems": [
    "Verif.C85_direction_partial",
    "Verif.C85_dissipation_partial",
    "Verif.C85_free_energy_partial",
    "Verif.C85_steady_partial",
    "Verif.C85_starred_refuted"
   ],
   "note": "C85_direction_partial, C85_dissipation_partial, C85_free_energy_partial and C85_steady_partial hold for all networks without transition states or starred species in end states and without a star in a site name; the derivative form moreover needs what C26 and C27 need. Refuted for starred site names (C85_starred_refuted)."
  },
  {
   "property": "C86",
   "status": "partial",
   "theorems": [
    "Verif.C86_absent_partial",
    "Verif.C86_boundary_partial",
    "Verif.C86_intermediate_refuted",
    "Verif.C86_bridge_refuted"
   ],
   "note": "C86_absent_partial and C86_boundary_partial hold for all networks except for transition states and starred species in end states, species on both sides and adsorbates on several sites. Refuted: C86_intermediate_refuted, C86_bridge_refuted."
  },
  {
   "property": "C87",
   "status": "proved",
   "theorems": [
    "Verif.C87_order",
    "Verif.C87_constants"
   ],
   "note": "Fully proved: C87_order for every network that gives results, C87_constants for both methods of rate constants."
  },
  {
   "property": "C88",
   "status": "partial",
   "theorems": [
    "Verif.C88_direction_partial",
    "Verif.C88_constants",
    "Verif.C88_both_sides_refuted",
    "Verif.C88_collision_refuted"
   ],
   "note": "C88_direction_partial and C88_constants hold up to what C25 and C26 miss. Refuted: an adsorbate on both sides (C88_both_sides_refuted); collision theory, where the constant of adsorption depends on the area of the cell only when adsorption is written forwards (C88_collision_refuted)."
  },
  {
   "property": "C89",
   "status": "proved",
   "theorems": [
    "Verif.C89_rates",
    "Verif.C89_turnover",
    "Verif.C89_derivatives"
   ],
   "note": "Fully proved: C89_rates, C89_turnover, C89_derivatives, including which errors occur."
  },
  {
   "property": "C90",
   "status": "partial",
   "theorems": [
    "Verif.C90_equilibrated",
    "Verif.C90_constants",
    "Verif.C90_value",
    "Verif.C90_defined",
    "Verif.C90_no_control",
    "Verif.C90_only_reaction",
    "Verif.C90_repeated_refuted",
    "Verif.C90_sum_partial"
   ],
   "note": "C90_value, C90_defined, C90_equilibrated, C90_no_control and C90_only_reaction hold for all networks with constants from transition state theory; C90_sum_partial needs the response to be differentiable, which Lean checks for an example, and no repeated reactions. Missing: collision theory, whose reverse barriers are not raised alike. Refuted for reactions listed twice: the second copy gets inf (C90_repeated_refuted)."
  },
  {
   "property": "C91",
   "status": "partial",
   "theorems": [
    "Verif.C91_shapes",
    "Verif.C91_shows",
    "Verif.C91_accepted",
    "Verif.C91_smallest",
    "Verif.C91_dispose_refuted"
   ],
   "note": "C91_shows, C91_smallest and C91_accepted hold for all images. Refuted for disposal 2, which clears what did not change (C91_dispose_refuted). Not modelled: broadcasting of arrays with sides of length one."
  },
  {
   "property": "C92",
   "status": "partial",
   "theorems": [
    "Verif.C92_failing",
    "Verif.C92_ints",
    "Verif.C92_none",
    "Verif.C92_layout",
    "Verif.C92_accepted",
    "Verif.C92_untouched",
    "Verif.C92_plays",
    "Verif.C92_intensity",
    "Verif.C92_delay",
    "Verif.C92_images",
    "Verif.C92_repeats",
    "Verif.C92_positions",
    "Verif.C92_forever_refuted",
    "Verif.C92_position_refuted",
    "Verif.C92_empty_refuted",
    "Verif.C92_unfinished_refuted",
    "Verif.C92_quality_refuted",
    "Verif.C92_integers_refuted",
    "Verif.C92_mixed_refuted"
   ],
   "note": "C92_layout, C92_accepted, C92_plays, C92_untouched, C92_intensity and C92_delay hold for all inputs. Refuted: repetition for ever is written as 65535 times, places are lost for shared colours with disposal 2, quality settings always fail, no images or a time out of range leave an empty or unfinished file, and whole numbers are taken modulo 256 (C92_forever_refuted, C92_position_refuted, C92_quality_refuted, C92_empty_refuted, C92_unfinished_refuted, C92_integers_refuted). Packing by Pillow is an input."
  },
  {
   "property": "C93",
   "status": "partial",
   "theorems": [
    "Verif.C93_physical_partial",
    "Verif.C93_positive_partial",
    "Verif.C93_unique_partial",
    "Verif.C93_exists_partial",
    "Verif.C93_rest_partial",
    "Verif.C93_energy_partial",
    "Verif.C93_released_partial",
    "Verif.C93_intermediate_refuted"
   ],
   "note": "C93_exists_partial, C93_unique_partial, C93_physical_partial, C93_positive_partial, C93_rest_partial, C93_energy_partial and C93_released_partial hold for the networks of C25-C27 and C85: no transition states or starred species in end states, each adsorbate on one site and on one side of a reaction (otherwise C86_intermediate_refuted and C86_bridge_refuted). About the exact solution; the numerical integrator of scipy and rounding are not modelled. C93_intermediate_refuted: an adsorbate as intermediate state; a solution from coverages that are all positive becomes negative."
  },
  {
   "property": "C94",
   "status": "partial",
   "theorems": [
    "Verif.C94_profiles",
    "Verif.C94_succeeds",
    "Verif.C94_written",
    "Verif.C94_slash_refuted",
    "Verif.C94_directory_refuted",
    "Verif.C94_documented_refuted",
    "Verif.C94_short_refuted"
   ],
   "note": "C94_profiles and C94_succeeds hold for all inputs, C94_written for the whole notation. Refuted: the documented arguments energies and rxn_equation always raise TypeError, reactions without energies are left out silently, and a slash, which the parser reads over, raises IOError. Drawing itself (catplot) is not modelled."
  },
  {
   "property": "C95",
   "status": "proved",
   "theorems": [
    "Verif.C95_processes",
    "Verif.C95_files"
   ],
   "note": "The statements that KMCLib writes for one object are taken as a definition of that object."
  },
  {
   "property": "C96",
   "status": "partial",
   "theorems": [
    "Verif.C96_no_turnover_partial",
    "Verif.C96_unique_partial",
    "Verif.C96_steady_unique_partial",
    "Verif.C96_stable_partial",
    "Verif.C96_converges_partial",
    "Verif.C96_attracts_partial",
    "Verif.C96_exists_partial",
    "Verif.C96_multiple_refuted"
   ],
   "note": "C96_no_turnover_partial, C96_unique_partial, C96_steady_unique_partial, C96_stable_partial, C96_converges_partial, C96_attracts_partial and C96_exists_partial hold for the networks of C93, with rate constants from any theory. Convergence from everywhere (C96_converges_partial) needs that no state with a missing species lets all reactions stand still; C96_attracts_partial holds without. C96_multiple_refuted: CO oxidation away from equilibrium has two steady states with turnover 17/2 and 6 at the same conditions."
  },
  {
   "property": "C97",
   "status": "partial",
   "theorems": [
    "Verif.C97_descent_partial",
    "Verif.C97_never_ends_refuted",
    "Verif.C97_finds_partial"
   ],
   "note": "C97_descent_partial holds on the domain of C28_jacobian_partial, with exact arithmetic; C97_finds_partial (same domain) that the whole search returns from every physical guess close to a regular positive steady state. Outside it the claim is false: C97_never_ends_refuted (CO_s + *_s -> CO_g + 2*_s at three quarters coverage, the norm grows for every step length)."
  },
  {
   "property": "C98",
   "status": "partial",
   "theorems": [
    "Verif.C98_words_iff",
    "Verif.C98_columns",
    "Verif.C98_ties",
    "Verif.C98_tof",
    "Verif.C98_coverages",
    "Verif.C98_reactions",
    "Verif.C98_titles",
    "Verif.C98_rates",
    "Verif.C98_aligned",
    "Verif.C98_empty_refuted",
    "Verif.C98_words_partial",
    "Verif.C98_words_refuted"
   ],
   "note": "Index, name and number of every row can be read back by counting characters (C98_tof, C98_coverages, C98_reactions, C98_rates). Separation by blanks only for names shorter than the column (C98_words_partial); longer ones run into the number (C98_words_refuted). The table of rates raises for a model without reactions (C98_empty_refuted). The conversion to machine numbers, infinities and NaN are not modelled. C98_words_iff: three words exactly if the name is shorter than the column."
  },
  {
   "property": "C99",
   "status": "partial",
   "theorems": [
    "Verif.C99_round",
    "Verif.C99_stuck",
    "Verif.C99_guess_partial",
    "Verif.C99_defined_partial",
    "Verif.C99_found_partial",
    "Verif.C99_modify_partial",
    "Verif.C99_interval",
    "Verif.C99_never_none",
    "Verif.C99_energies_refuted",
    "Verif.C99_negative_refuted"
   ],
   "note": "C99_round says for every search what the hybrid method is given; C99_guess_partial, C99_defined_partial, C99_found_partial hold for the networks of C93 and C97 and exact integration. Refuted: with energies given to the search, the integration still uses the model's own (C99_energies_refuted); the coverages kept are iterates that may be negative (C99_negative_refuted); a round that changes nothing is repeated for ever (C99_stuck)."
  },
  {
   "property": "C100",
   "status": "partial",
   "theorems": [
    "Verif.C100_entries",
    "Verif.C100_labels",
    "Verif.C100_numbers",
    "Verif.C100_shown",
    "Verif.C100_unmarked",
    "Verif.C100_lengths",
    "Verif.C100_rows_rejected",
    "Verif.C100_turnover_partial",
    "Verif.C100_name_refuted",
    "Verif.C100_coefficient_refuted",
    "Verif.C100_exact_iff"
   ],
   "note": "C100_shown says for every product and network what is shown; C100_turnover_partial covers products that appear only in last states, as single molecules, and whose name is in no other name of a last state. Refuted: O2_g is found in CO2_g (C100_name_refuted), several molecules made at once count once (C100_coefficient_refuted). C100_exact_iff: the script shows the turnover frequency, whatever the rates are, exactly when every reaction with the text of the product in its last state makes one molecule of it and every other reaction makes none of it."
  },
  {
   "property": "C101",
   "status": "partial",
   "theorems": [
    "Verif.C101_pairs_partial",
    "Verif.C101_one_direction_refuted",
    "Verif.C101_iff"
   ],
   "note": "C101_pairs_partial covers files with both directions of every reaction (C101_iff: exactly these files); with one direction only, all later pairs are wrong (C101_one_direction_refuted). The script needs Python 2 (it stops at xrange in Python 3); only the data shown are modelled."
  },
  {
   "property": "C102",
   "status": "partial",
   "theorems": [
    "Verif.C102_start_partial",
    "Verif.C102_chain_partial",
    "Verif.C102_next_line_refuted",
    "Verif.C102_missing_refuted",
    "Verif.C102_other_name_refuted",
    "Verif.C102_no_times",
    "Verif.C102_configuration",
    "Verif.C102_names",
    "Verif.C102_failing"
   ],
   "note": "C102_start_partial: files where only blank lines or comments follow the start time; C102_chain_partial: any number of continuations with the start time on the last line. Refuted: the new line has no line end, so a setting on the next line makes the file unreadable, for all names and values (C102_next_line_refuted); without a start time zero is written (C102_missing_refuted); other names beginning with start_time are lost (C102_other_name_refuted). The copying of files by the shell script is not modelled."
  },
  {
   "property": "C103",
   "status": "partial",
   "theorems": [
    "Verif.C103_jobs_partial",
    "Verif.C103_one_partial",
    "Verif.C103_two_partial",
    "Verif.C103_no_species",
    "Verif.C103_quote_refuted",
    "Verif.C103_same_text_refuted",
    "Verif.C103_failing"
   ],
   "note": "C103_jobs_partial and its two cases need texts without quotes and backslashes, and different texts for different pressures (C103_quote_refuted, C103_same_text_refuted). That the text of a number, list or dictionary reads back as its value is assumed. C103_no_species: what is left after an error."
  },
  {
   "property": "C104",
   "status": "partial",
   "theorems": [
    "Verif.C104_delivered",
    "Verif.C104_setup",
    "Verif.C104_no_setup_refuted",
    "Verif.C104_guess_partial",
    "Verif.C104_found_partial",
    "Verif.C104_start_partial",
    "Verif.C104_start_refuted",
    "Verif.C104_ode_only_refuted"
   ],
   "note": "C104_setup, C104_guess_partial (trajectory and guess), C104_found_partial (result), C104_start_partial (physical start). The steps must divide the end time, the integrator is exact and does not fail, no rounding. Refuted: without a setup file the script does not stop (C104_no_setup_refuted); asking for the integration only has no effect but a warning (C104_ode_only_refuted); Boltzmann coverages can exceed site totals below one (C104_start_refuted). Removal of old files, logging and timing are not modelled."
  },
  {
   "property": "C105",
   "status": "partial",
   "theorems": [
    "Verif.C105_failing",
    "Verif.C105_places_failing",
    "Verif.C105_coverages_partial",
    "Verif.C105_series_partial",
    "Verif.C105_order",
    "Verif.C105_types_refuted",
    "Verif.C105_own_files_refuted",
    "Verif.C105_nested_refuted",
    "Verif.C105_ties_refuted",
    "Verif.C105_tofs_partial",
    "Verif.C105_forward_partial",
    "Verif.C105_net_refuted",
    "Verif.C105_one_reaction_refuted"
   ],
   "note": "C105_coverages_partial, C105_series_partial, C105_order; C105_tofs_partial and C105_forward_partial for frequencies. Any argsort and any order of directories. Refuted: the files written by the analysis cannot be executed (C105_own_files_refuted, by C57), one run without a fixed type or a directory not named by a number loses everything (C105_types_refuted, C105_nested_refuted), equal pressures have no fixed order (C105_ties_refuted), rates backwards are not taken off and at least three labels are needed (C105_net_refuted, C105_one_reaction_refuted). float() is a parameter; the import of a Python 2 module in extract_tofs.py is left out."
  },
  {
   "property": "C106",
   "status": "partial",
   "theorems": [
    "Verif.C106_failing",
    "Verif.C106_map_partial",
    "Verif.C106_rows",
    "Verif.C106_failed_refuted",
    "Verif.C106_coverage_partial",
    "Verif.C106_species_refuted",
    "Verif.C106_own_files_refuted",
    "Verif.C106_tof_partial",
    "Verif.C106_few_refuted",
    "Verif.C106_columns_refuted",
    "Verif.C106_order_refuted"
   ],
   "note": "C106_map_partial for equal columns, C106_rows for every map, C106_coverage_partial and C106_tof_partial for the values. Refuted: pressures of the last directory are used for all rows (C106_columns_refuted), the order is that of names (C106_order_refuted), species are taken by place (C106_species_refuted), one failed run or fewer than seven reactions leave no map (C106_failed_refuted, C106_few_refuted), files of the analysis cannot be executed (C106_own_files_refuted). execfile exists in Python 2 only; not modelled."
  },
  {
   "property": "C107",
   "status": "partial",
   "theorems": [
    "Verif.C107_succeeds",
    "Verif.C107_failing",
    "Verif.C107_lengths",
    "Verif.C107_merged_partial",
    "Verif.C107_sum_partial",
    "Verif.C107_own_files_refuted",
    "Verif.C107_ode_partial",
    "Verif.C107_three_refuted",
    "Verif.C107_one_refuted",
    "Verif.C107_letters_refuted"
   ],
   "note": "C107_merged_partial, C107_sum_partial, C107_ode_partial; C107_succeeds says for all files whether the figure is drawn. Refuted: other first letters are dropped (C107_letters_refuted), three adsorbates or one (C107_three_refuted, C107_one_refuted), files of the analysis cannot be executed (C107_own_files_refuted). Drawing is not modelled."
  },
  {
   "property": "C108",
   "status": "partial",
   "theorems": [
    "Verif.C108_rows_partial",
    "Verif.C108_arrow_partial",
    "Verif.C108_arrow_refuted",
    "Verif.C108_percent_partial",
    "Verif.C108_percent_refuted",
    "Verif.C108_sites",
    "Verif.C108_file_partial",
    "Verif.C108_step_refuted",
    "Verif.C108_header",
    "Verif.C108_empty",
    "Verif.C108_arrow_iff",
    "Verif.C108_step_numbers"
   ],
   "note": "C108_rows_partial, C108_arrow_partial, C108_percent_partial, C108_file_partial; C108_sites, C108_header and C108_empty in full. Refuted: a picked process without a label is not shown (C108_arrow_refuted), the percentages need not add up to exactly a hundred (C108_percent_refuted), the number of the step is wrong unless the analysis is made after every step (C108_step_refuted). The drawing of tables by prettytable is a parameter; rounding of machine numbers is not modelled. C108_arrow_iff: marked exactly if the picked process has a label, a number of sites and a rate."
  },
  {
   "property": "C109",
   "status": "partial",
   "theorems": [
    "Verif.C109_name_iff",
    "Verif.C109_definition_partial",
    "Verif.C109_all_partial",
    "Verif.C109_four_refuted",
    "Verif.C109_conflict_refuted",
    "Verif.C109_no_groups_refuted",
    "Verif.C109_name_partial",
    "Verif.C109_name_refuted",
    "Verif.C109_file"
   ],
   "note": "C109_definition_partial, C109_all_partial, C109_name_partial; C109_file in full. Refuted: a place of four numbers is accepted, as in the example's own input (C109_four_refuted), two atoms at one place lose one of them without a message (C109_conflict_refuted), no groups raise (C109_no_groups_refuted), inputs given with a directory overwrite one output (C109_name_refuted). The text of a dictionary is a parameter; the import of the package under its former name and negative kinds of origin are left out. C109_name_iff: the same output exactly if the names agree up to the first point."
  },
  {
   "property": "C110",
   "status": "partial",
   "theorems": [
    "Verif.C110_coords_failing",
    "Verif.C110_points_partial",
    "Verif.C110_markers",
    "Verif.C110_area_refuted",
    "Verif.C110_size",
    "Verif.C110_colors",
    "Verif.C110_large_partial",
    "Verif.C110_unexpected_refuted",
    "Verif.C110_unknown_type_refuted",
    "Verif.C110_time",
    "Verif.C110_sixty_refuted",
    "Verif.C110_frames_partial",
    "Verif.C110_third_refuted",
    "Verif.C110_rerun_refuted",
    "Verif.C110_failing"
   ],
   "note": "C110_points_partial, C110_large_partial, C110_frames_partial; C110_markers, C110_size, C110_colors, C110_time, C110_failing in full. Refuted: a given size raises in the script for small (100) lattices (C110_area_refuted), a type with a colour that is not among the expected ones raises in the script for large lattices (C110_unexpected_refuted), sixty seconds can be shown (C110_sixty_refuted), the third frame of a step replaces the second (C110_third_refuted), pictures of a run before stay and shift the names (C110_rerun_refuted). What matplotlib and the writer of movies make of the points is not modelled."
  },
  {
   "property": "C111",
   "status": "partial",
   "theorems": [
    "Verif.C111_failing",
    "Verif.C111_places_failing",
    "Verif.C111_after_failing",
    "Verif.C111_process_partial",
    "Verif.C111_others_refuted",
    "Verif.C111_empty_refuted",
    "Verif.C111_color_refuted",
    "Verif.C111_names"
   ],
   "note": "C111_process_partial; C111_names in full. Refuted: other groups and other basis sites of a process are not shown (C111_others_refuted), a group without coordinates (C111_empty_refuted) or an element without a colour (C111_color_refuted) raises."
  },
  {
   "property": "C112",
   "status": "partial",
   "theorems": [
    "Verif.C112_residual",
    "Verif.C112_quiet",
    "Verif.C112_protocol",
    "Verif.C112_raised",
    "Verif.C112_zero_refuted",
    "Verif.C112_finalize_refuted",
    "Verif.C112_dump_partial",
    "Verif.C112_good_guess_refuted",
    "Verif.C112_guesses_refuted"
   ],
   "note": "C112_residual, C112_quiet, C112_protocol, C112_raised in full; C112_dump_partial for a guess that is not good and leads to a root. Refuted: ZeroDivisionError of a plugin is taken for a failure of the iteration (C112_zero_refuted), an error of finalize takes the place of the coverages (C112_finalize_refuted), the plugin of the example raises for a good guess or writes the errors of an earlier search (C112_good_guess_refuted) and forgets the errors of earlier guesses (C112_guesses_refuted). Plugins that change the model or the solver are not modelled."
  },
  {
   "property": "C113",
   "status": "partial",
   "theorems": [
    "Verif.C113_text_partial",
    "Verif.C113_add_refuted",
    "Verif.C113_formula_types",
    "Verif.C113_states_partial",
    "Verif.C113_state_types_refuted",
    "Verif.C113_state_argument"
   ],
   "note": "C113_text_partial for the text of the sum, which the method does not get to; C113_states_partial for two states; C113_formula_types in full. Refuted: addition of formulas always raises a type error, since a method is added to a text (C113_add_refuted); the check of states returns an exception for other objects, which counts as true (C113_state_types_refuted)."
  },
  {
   "property": "C114",
   "status": "partial",
   "theorems": [
    "Verif.C114_kmc_time",
    "Verif.C114_no_deadlock",
    "Verif.C114_clean",
    "Verif.C114_kmc_clean_refuted",
    "Verif.C114_setup_partial",
    "Verif.C114_setup_refuted",
    "Verif.C114_errors",
    "Verif.C114_kmc_errors_partial",
    "Verif.C114_kmc_errors_refuted",
    "Verif.C114_processes"
   ],
   "note": "C114_clean, C114_errors and C114_processes in full; C114_setup_partial for setup files whose names do not begin with auto_ and C114_kmc_errors_partial for errors of the run itself. Refuted: the script for lattice runs removes nothing, because of an invalid option (C114_kmc_clean_refuted); a setup file with auto_ at the head of its name is removed (C114_setup_refuted); errors before the run of a lattice model are not logged (C114_kmc_errors_refuted)."
  },
  {
   "property": "C115",
   "status": "partial",
   "theorems": [
    "Verif.C115_contours",
    "Verif.C115_failing",
    "Verif.C115_fits",
    "Verif.C115_nodes",
    "Verif.C115_cell",
    "Verif.C115_between",
    "Verif.C115_outside",
    "Verif.C115_order",
    "Verif.C115_difference",
    "Verif.C115_places",
    "Verif.C115_figure",
    "Verif.C115_runs",
    "Verif.C115_window_refuted",
    "Verif.C115_phases"
   ],
   "note": "C115_fits, C115_nodes, C115_cell, C115_between, C115_outside, C115_order, C115_difference, C115_places, C115_figure, C115_phases in full, and C115_runs from the directories of the runs to the figure. Refuted: the contour plots of lattice runs end at a pressure of carbon monoxide of 0.0001, so for all runs at or above it, as those made by create_jobs.py, every row of the figure has one value (C115_window_refuted)."
  },
  {
   "property": "C116",
   "status": "partial",
   "theorems": [
    "Verif.C116_too_few",
    "Verif.C116_limits",
    "Verif.C116_extent_refuted",
    "Verif.C116_series",
    "Verif.C116_runs_partial",
    "Verif.C116_runs_refuted",
    "Verif.C116_legend_refuted",
    "Verif.C116_steady_partial",
    "Verif.C116_steady_refuted",
    "Verif.C116_coverages",
    "Verif.C116_labels",
    "Verif.C116_vacancy_refuted"
   ],
   "note": "C116_limits, C116_series, C116_coverages and C116_labels in full; C116_runs_partial when each run has both files; C116_steady_partial for the columns of the steady states. Refuted: with absent files coverages are shown at pressures of other runs (C116_runs_refuted); a series of equal values has an axis without extent (C116_extent_refuted); a point that is no datum is drawn at the origin and seen for small pressures (C116_legend_refuted); names of adsorbates are ignored (C116_steady_refuted); empty sites are labelled as an adsorbate (C116_vacancy_refuted)."
  },
  {
   "property": "C117",
   "status": "partial",
   "theorems": [
    "Verif.C117_radius",
    "Verif.C117_few_colours",
    "Verif.C117_three_colours",
    "Verif.C117_step",
    "Verif.C117_reserved_colour",
    "Verif.C117_closer",
    "Verif.C117_counts",
    "Verif.C117_bias_partial",
    "Verif.C117_bias_refuted",
    "Verif.C117_samples",
    "Verif.C117_every_pixel",
    "Verif.C117_map",
    "Verif.C117_rounding",
    "Verif.C117_small_refuted",
    "Verif.C117_refused",
    "Verif.C117_nearest",
    "Verif.C117_exact",
    "Verif.C117_picture",
    "Verif.C117_palette"
   ],
   "note": "C117_step, C117_reserved_colour, C117_closer, C117_counts, C117_samples, C117_every_pixel, C117_map, C117_rounding, C117_refused, C117_nearest, C117_exact, C117_picture, C117_palette in full; C117_bias_partial: the documented bias is an upper bound at all times. Refuted: the documented formula is wrong after the first contest (C117_bias_refuted); pictures that pass the check of the size fail with ZeroDivisionError when fewer than 100 pixels are looked at (C117_small_refuted). Read as Python 2: with Python 3 a float is shifted and nothing is learnt. Floats are exact; writeColourMap, the search tree of scipy and the last step by the library of pictures are not modelled."
  },
  {
   "property": "C118",
   "status": "partial",
   "theorems": [
    "Verif.C118_rates_partial",
    "Verif.C118_nothing",
    "Verif.C118_history",
    "Verif.C118_balanced",
    "Verif.C118_coverages_refuted",
    "Verif.C118_coverage_lines_refuted"
   ],
   "note": "Rates are written in full (C118_rates_partial), in every history (C118_history), with closed braces (C118_balanced). Refuted for coverages: the call raises AttributeError for every model (C118_coverages_refuted), and the lines made for it close a brace that is not open (C118_coverage_lines_refuted). The LaTeX text sympy makes of an expression is a parameter."
  },
  {
   "property": "C119",
   "status": "partial",
   "theorems": [
    "Verif.C119_reported_partial",
    "Verif.C119_cycle_partial",
    "Verif.C119_catalyst_partial",
    "Verif.C119_allowed_partial",
    "Verif.C119_collision_refuted"
   ],
   "note": "C119_reported_partial, C119_cycle_partial, C119_catalyst_partial and C119_allowed_partial hold for the networks of C85. Refuted for collision theory, where a reverse barrier of adsorption cut off at zero breaks the balance of a loop (C119_collision_refuted)."
  },
  {
   "property": "C120",
   "status": "partial",
   "theorems": [
    "Verif.C120_rates_partial",
    "Verif.C120_balance_partial",
    "Verif.C120_stationary_partial",
    "Verif.C120_isotherm_partial",
    "Verif.C120_mean_field_partial",
    "Verif.C120_collision_partial",
    "Verif.C120_limit_refuted",
    "Verif.C120_redist_refuted",
    "Verif.C120_made"
   ],
   "note": "C120_rates_partial, C120_balance_partial, C120_stationary_partial, C120_isotherm_partial and C120_mean_field_partial hold for transition state theory, gases without coefficients, no redistribution processes and wildcards at the same positions before and after; C120_collision_partial gives the ratio of the rates by collision theory. Refuted at the limit of the reverse rate in collision theory (C120_limit_refuted) and for redistribution processes (C120_redist_refuted). The engine itself is not modelled."
  },
  {
   "property": "C121",
   "status": "partial",
   "theorems": [
    "Verif.C121_drift_partial",
    "Verif.C121_rates_partial",
    "Verif.C121_collision_rates_partial",
    "Verif.C121_equations_partial",
    "Verif.C121_agreement_partial",
    "Verif.C121_neighbours_refuted"
   ],
   "note": "C121_drift_partial, C121_rates_partial, C121_equations_partial and C121_agreement_partial hold for both theories of the rate constants (with collision theory at most one gas per reaction, from the data base: C121_collision_rates_partial), without liquids, gases with coefficients, redistribution processes and wildcards; the last with the factor z of places per site. C121_neighbours_refuted: with one group of coordinates for each of two neighbours the lattice model reacts twice as fast as the mean field model of the same input. The engine itself is not modelled."
  },
  {
   "property": "C122",
   "status": "partial",
   "theorems": [
    "Verif.C122_intermediate_refuted",
    "Verif.C122_exists_partial",
    "Verif.C122_some_partial",
    "Verif.C122_computed_partial"
   ],
   "note": "C122_exists_partial, C122_some_partial and C122_computed_partial (rate constants by transition state or collision theory) hold for networks whose end states have no transition states or starred species, no species on both sides of a reaction and adsorbates on one site each. Uniqueness fails (C96_multiple_refuted), and the existence says nothing of whether the search finds the state. C122_intermediate_refuted: with an adsorbate as intermediate state there may be no physical steady state although all constants are positive."
  },
  {
   "property": "C123",
   "status": "partial",
   "theorems": [
    "Verif.C123_present_partial",
    "Verif.C123_reversibilities_partial",
    "Verif.C123_adsorption",
    "Verif.C123_exists_partial",
    "Verif.C123_isolated_refuted"
   ],
   "note": "C123_adsorption is full. C123_present_partial, C123_reversibilities_partial and C123_exists_partial are for networks as in C93. C123_isolated_refuted: with an isomerisation alone the empty surface is steady."
  },
  {
   "property": "C124",
   "status": "partial",
   "theorems": [
    "Verif.C124_fills_partial",
    "Verif.C124_equilibrium_partial",
    "Verif.C124_converges_partial",
    "Verif.C124_intermediate_refuted"
   ],
   "note": "C124_fills_partial, C124_equilibrium_partial and C124_converges_partial are for networks as in C93, and about exact solutions of the equations, not about the numerical integrator. C124_intermediate_refuted: the same for an unblocked network."
  },
  {
   "property": "C125",
   "status": "partial",
   "theorems": [
    "Verif.C125_unique_partial",
    "Verif.C125_evolves",
    "Verif.C125_steady",
    "Verif.C125_means",
    "Verif.C125_forgets_partial",
    "Verif.C125_coverage_partial",
    "Verif.C125_adsorption",
    "Verif.C125_transition_state_partial",
    "Verif.C125_rates",
    "Verif.C125_hops_refuted"
   ],
   "note": "C125_evolves, C125_steady, C125_means, C125_rates and C125_adsorption are full, about the jump process of the list of processes, not about the engine (an external package). C125_unique_partial, C125_forgets_partial and C125_coverage_partial give the stationary distribution for processes that balance, C125_transition_state_partial these from absolute energies (C120). C125_hops_refuted: with hops alone the lattice remembers its beginning."
  },
  {
   "property": "C126",
   "status": "partial",
   "theorems": [
    "Verif.C126_events_partial",
    "Verif.C126_reactions_partial",
    "Verif.C126_rates_partial",
    "Verif.C126_balance_partial",
    "Verif.C126_mean_partial",
    "Verif.C126_stationary_partial",
    "Verif.C126_windows_partial",
    "Verif.C126_average_partial",
    "Verif.C126_wild_refuted",
    "Verif.C126_fast_refuted"
   ],
   "note": "All about runs of jumps, not the engine (an external package). C126_events_partial, C126_mean_partial, C126_stationary_partial, C126_windows_partial and C126_average_partial exclude wildcards on one side only (C126_wild_refuted); C126_reactions_partial, C126_rates_partial and C126_balance_partial also redistribution and fast processes (C126_fast_refuted: the labels are shifted, C51) and definitions of one reaction that change the lattice differently."
  },
  {
   "property": "C127",
   "status": "partial",
   "theorems": [
    "Verif.C127_constants_partial",
    "Verif.C127_direction_partial",
    "Verif.C127_energy_partial",
    "Verif.C127_steady_partial",
    "Verif.C127_reported_partial",
    "Verif.C127_equilibrium_partial",
    "Verif.C127_lattice_partial",
    "Verif.C127_two_gases_refuted",
    "Verif.C127_unknown_gas_refuted"
   ],
   "note": "Needs at most one gas among the ends of a reaction, without a star in its name, with a positive pressure and in the data base of the library, and reverse constants below kB T/h. C127_two_gases_refuted: with two gases only the first one's term is used. C127_unknown_gas_refuted: a gas outside the data base desorbs at a rate that does not depend on its pressure. Cut off barriers: C119_collision_refuted, C120_limit_refuted."
  },
  {
   "property": "C128",
   "status": "partial",
   "theorems": [
    "Verif.C128_constants_partial",
    "Verif.C128_gases_partial",
    "Verif.C128_reached_partial",
    "Verif.C128_turnover_partial",
    "Verif.C128_transition_partial",
    "Verif.C128_collision_partial",
    "Verif.C128_loop_refuted"
   ],
   "note": "Within FlowOk (clean end states, species on one side only, adsorbates on one site each), as C96; reaching the equilibrium and the statement about all steady states need a network that is not blocked (C123). C128_loop_refuted: with constants not from energies a loop can run although nothing is turned over."
  },
  {
   "property": "C129",
   "status": "partial",
   "theorems": [
    "Verif.C129_equilibria_partial",
    "Verif.C129_uncorrelated_partial",
    "Verif.C129_coverage_partial",
    "Verif.C129_same_limit_partial",
    "Verif.C129_driven_refuted"
   ],
   "note": "Within C121 (adsorbates of one site each, every type of the lattice one species of the network, processes that show the reaction) and, for the limits, C125 (every arrangement reached) and C128. C129_driven_refuted: driven oxygen on two sites has coverage 1/3 in the mean field model and 57/166 on the lattice."
  },
  {
   "property": "C130",
   "status": "partial",
   "theorems": [
    "Verif.C130_exact",
    "Verif.C130_constant",
    "Verif.C130_constants",
    "Verif.C130_sites",
    "Verif.C130_rates",
    "Verif.C130_signs",
    "Verif.C130_net",
    "Verif.C130_equations",
    "Verif.C130_residual",
    "Verif.C130_net_refuted",
    "Verif.C130_energies",
    "Verif.C130_tof",
    "Verif.C130_reversibilities",
    "Verif.C130_exact_tof",
    "Verif.C130_sites_refuted",
    "Verif.C130_returned",
    "Verif.C130_search"
   ],
   "note": "The evaluation of constants, coverages, rates, net rates, right hand sides, turnover frequencies and reversibilities, from left to right as in the texts the code executes. Not included: the iteration for the roots (its steps are those of C31 with exact arithmetic) and underflow or overflow (mpmath exponents are unbounded). C130_net_refuted: for p+1 digits a net rate 1/2 is computed as 0. C130_sites_refuted: coverages 1/2 and 1/2-2^-(p+2) are numbers with p+1 digits, their sum is rounded to 1 and no site is free. The conversion of reversibilities to float is a parameter with its own relative error. C130_returned, C130_search: coverages returned by the search in finite precision satisfy the exact equations up to the tolerance and rounding errors, whatever the iterator and the hybrid method do."
  },
  {
   "property": "C131",
   "status": "partial",
   "theorems": [
    "Verif.C131_constants",
    "Verif.C131_search",
    "Verif.C131_state",
    "Verif.C131_barriers",
    "Verif.C131_consistent",
    "Verif.C131_balance",
    "Verif.C131_absolute",
    "Verif.C131_data",
    "Verif.C131_cycles",
    "Verif.C131_exact",
    "Verif.C131_consistent_refuted",
    "Verif.C131_correction",
    "Verif.C131_exact_correction"
   ],
   "note": "The energies read from files and the barriers computed from them (Python floats, overflow and subnormal numbers not modelled) and the rate constants made from these. C131_consistent_refuted: exact consistency fails for every precision, the computed barriers agree although the computed reaction energy is positive. Without a transition state it holds exactly (C131_consistent).  The corrections given by the corrector are inputs here. C131_constants, C131_search: the same from the energies of species, in one precision, to the coverages returned by a solver in another."
  },
  {
   "property": "C132",
   "status": "proved",
   "theorems": [
    "Verif.C132_close",
    "Verif.C132_search",
    "Verif.C132_unique",
    "Verif.C132_adsorption",
    "Verif.C132_uniform_refuted",
    "Verif.C132_equilibrium"
   ],
   "note": "C132_uniform_refuted: no tolerance serves all energies. For every tolerance and temperature there is a barrier such that the search returns the empty surface although the only steady coverage is one half. C132_adsorption gives the exact relation for adsorption in one step. C132_equilibrium: for unblocked networks with gases in equilibrium the steady state near by is an equilibrium. Reactions must be distinct and the rates defined (C25_defined_iff)."
  },
  {
   "property": "C133",
   "status": "partial",
   "theorems": [
    "Verif.C133_steady_partial",
    "Verif.C133_source",
    "Verif.C133_physical_partial",
    "Verif.C133_constrained_partial",
    "Verif.C133_near_partial",
    "Verif.C133_overfull_refuted",
    "Verif.C133_constrained_refuted",
    "Verif.C133_excess_partial",
    "Verif.C133_search_excess_partial",
    "Verif.C133_each_excess_partial",
    "Verif.C133_each_close_partial",
    "Verif.C133_each_search_near_partial",
    "Verif.C133_each_unique_partial",
    "Verif.C133_close_partial",
    "Verif.C133_search_near_partial",
    "Verif.C133_unique_partial"
   ],
   "note": "Refuted: the search only rejects negative coverages, not over-full sites. C133_overfull_refuted: adsorption of CO and of O and their reaction, positive rate constants, MDNewton with the tolerance of the library and the norm exact to thirty decimals, no hybrid method, a surface covered with CO as guess: coverages of CO and O that add up to more than 7/5 are returned, and the rate of adsorption there is negative. C133_constrained_refuted: the same for ConstrainedNewton, whose first five points are not constrained, for some step sizes (the golden section search is not modelled). C133_source, C133_physical_partial, C133_constrained_partial, C133_near_partial: what holds. C133_excess_partial, C133_search_excess_partial: if no reaction needs or frees more than one empty site, coverages that are returned over-fill a site by at most the number of its adsorbates times the tolerance, divided by the rate constant and the other activities of any reaction that needs the site. C133_steady_partial: the same for steady states. C133_close_partial, C133_search_near_partial, C133_unique_partial: if moreover every site adsorbs something, searches with a small tolerance return coverages close to a physical steady state, for every iterator. C133_each_excess_partial, C133_each_close_partial, C133_each_search_near_partial, C133_each_unique_partial: the same where every state has at most one empty site, so that adsorbates may move between kinds of sites. The network of C133_overfull_refuted has a reaction that frees two sites at once."
  },
  {
   "property": "C134",
   "status": "partial",
   "theorems": [
    "Verif.C134_kept_partial",
    "Verif.C134_read_partial",
    "Verif.C134_assign",
    "Verif.C134_checked_partial",
    "Verif.C134_copy",
    "Verif.C134_default",
    "Verif.C134_default_refuted",
    "Verif.C134_assigned_refuted"
   ],
   "note": "Refuted: C134_default_refuted, a default list or dictionary belongs to all models; who reads it and changes it changes it for all, also for models made later. C134_assigned_refuted: objects assigned are not copied, so they can be changed afterwards without any check, also for species_definitions. C134_kept_partial: nothing else changes an attribute. C134_read_partial, C134_assign, C134_checked_partial: reading, assigning, and what the checks then guarantee. C134_copy, C134_default: species_definitions, which copies on reading. An object stands for a value with everything inside it."
  },
  {
   "property": "C135",
   "status": "partial",
   "theorems": [
    "Verif.C135_iff",
    "Verif.C135_frames",
    "Verif.C135_all_partial",
    "Verif.C135_damaged_refuted",
    "Verif.C135_read"
   ],
   "note": "C135_frames: what is read, exactly; C135_read: the whole function. Refuted: C135_damaged_refuted, an EOFError raised while a frame is decoded is taken for the end of the file, and the frames before are given as if they were all. C135_all_partial: otherwise all frames or an exception. Whether Pillow raises this exception for a given file is not modelled. C135_iff: when frames are left out silently, exactly."
  }
 ]
}