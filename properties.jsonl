{"id": "C01", "title": "A formula text is read back exactly", "statement": "Writing a chemical formula as [coefficient]species_[number]site and constructing ChemFormula from that text reports exactly that coefficient, species, number of sites, site type and species_site string; an omitted coefficient or site number is reported as 1. Whatever text is accepted, the reported fields occur contiguously in it.", "quantifier": "all coefficients, species names, site numbers and site names of the documented form; for the soundness half, all input strings", "why_tests_cant": "The text is taken apart by a backtracking regular expression whose groups overlap (digits, word characters, underscore); examples cannot show which split wins for every name.", "anchors": ["scaks/parsers/rxn_parser.py: ChemFormula.__split, stoichiometry, species, species_site, nsite, site"]}
{"id": "C02", "title": "Element counts are coefficient times composition and add up over a state", "statement": "ChemFormula.get_elements_dict gives, for each element letter, the coefficient times the sum of the counts written after that letter; ChemState.get_elements_dict is the sum over the formulas of the state and does not depend on their order or grouping.", "quantifier": "all formulas and all states (lists of formulas of any length, in any order)", "why_tests_cant": "The dictionaries are merged incrementally with a first-occurrence case and a later-occurrence case; only induction covers every repetition pattern.", "anchors": ["scaks/parsers/rxn_parser.py: ChemFormula.get_elements_dict, get_species_elements_dict, ChemState.get_elements_dict, get_sites_dict"]}
{"id": "C03", "title": "An equation text is split into its states in order", "statement": "RxnEquation.tolist on 'IS -> FS', 'IS <-> FS', 'IS <-> TS -> FS' returns exactly the written states, in order and stripped of blanks, and to_formula_list the formulas of each; conversely a text with no arrow is not silently accepted.", "quantifier": "all states that contain no '<' or '>' and are not blank", "why_tests_cant": "Two optional groups of a backtracking regular expression compete for the same text.", "anchors": ["scaks/parsers/rxn_parser.py: RxnEquation.tolist, to_formula_list, ChemState.split, ChemState.tolist"]}
{"id": "C04", "title": "Conservation check accepts exactly the balanced reactions", "statement": "RxnEquation.check_conservation returns True if and only if every state has the same total of every element letter and of every surface site type (gas and liquid excluded) as the first state; otherwise it raises ValueError.", "quantifier": "all equations with any number of states and formulas whose coefficients and counts are positive", "why_tests_cant": "It is an equivalence over all pairs of states; unit tests only show a few acceptances and rejections.", "anchors": ["scaks/parsers/rxn_parser.py: RxnEquation.check_conservation, ChemState.conserve, ChemFormula.conserve"]}
{"id": "C05", "title": "An accepted reaction conserves molecular mass", "statement": "If check_conservation accepts a reaction then the total molecular mass (as computed by get_molecular_mass from the species names) is the same in every state.", "quantifier": "all accepted reactions over species written with element symbols", "why_tests_cant": "Two different functions parse the same species name in two different ways (single letters versus chemical symbols); agreement for every name cannot be sampled.", "anchors": ["scaks/parsers/rxn_parser.py: ChemFormula.get_species_elements_dict, ChemState.conserve", "scaks/parsers/parser_base.py: ParserBase.get_molecular_mass", "scaks/functions.py: string2symbols"]}
{"id": "C06", "title": "Reverting a reaction reverses its states and is an involution", "statement": "RxnEquation.revert yields an equation whose states are the original states in reverse order; reverting twice gives back the original states; the reverse is accepted by check_conservation exactly when the original is; adsorption gases of the reverse are the desorption gases of the original.", "quantifier": "all equations with two or three states", "why_tests_cant": "Round trip through text formatting and regular-expression parsing for every state string.", "anchors": ["scaks/parsers/rxn_parser.py: RxnEquation.revert, tolist, adsorption_gases, desorption_gases, check_conservation"]}
{"id": "C07", "title": "Per-state species dictionary reports total coefficients", "statement": "ChemState.get_species_site_dict maps each species in the state to its total coefficient in that state.", "quantifier": "all states, including those that write the same species more than once", "why_tests_cant": "Depends on repetition patterns of the whole list of formulas.", "anchors": ["scaks/parsers/rxn_parser.py: ChemState.get_species_site_dict"]}
{"id": "C08", "title": "Species of a network are classified completely, once, and canonically", "statement": "After model construction every species occurring in any state of any reaction is listed in exactly one of gas_names, liquid_names, transition_state_names, adsorbate_names or is an empty site; every surface site type in use is in site_names; each list is sorted, duplicate free, and independent of the order in which reactions are given.", "quantifier": "all lists of accepted reactions and all permutations of them", "why_tests_cant": "A statement about all networks and all orderings of the setup input.", "anchors": ["scaks/parsers/parser_base.py: ParserBase.parse_elementary_rxns", "scaks/models/kinetic_model.py: gas_names, adsorbate_names, liquid_names, site_names, transition_state_names"]}
{"id": "C09", "title": "Stoichiometry matrices hold initial minus final coefficients", "statement": "get_stoichiometry_matrices returns matrices whose entry for reaction i and species j is the total coefficient of j in the initial state minus its total coefficient in the final state, zero for species that do not take part.", "quantifier": "all networks, all reactions and all listed species", "why_tests_cant": "Accumulating loops over arbitrary formula lists.", "anchors": ["scaks/parsers/parser_base.py: ParserBase.get_stoichiometry_matrices"]}
{"id": "C10", "title": "Matrices of accepted networks conserve every element and site", "statement": "For every accepted reaction, the row of the two stoichiometry matrices weighted by the element composition of the species sums to zero for every element, and weighted by occupied sites sums to zero for every site type.", "quantifier": "all networks accepted at construction, every reaction, element and site type", "why_tests_cant": "Links the acceptance check with the matrices for every network.", "anchors": ["scaks/parsers/parser_base.py: get_stoichiometry_matrices, parse_elementary_rxns", "scaks/parsers/rxn_parser.py: ChemState.conserve"]}
{"id": "C11", "title": "Turnover frequencies at steady state conserve every element", "statement": "Whenever the coverages make all adsorbate time derivatives zero, the turnover frequencies returned by get_tof, weighted by the element composition of the gas and liquid species, sum to zero for every element.", "quantifier": "all accepted networks without transition-state end states, all rates, all coverages with zero net production of adsorbates", "why_tests_cant": "A consequence of linear algebra over all networks; numerical tests check one network.", "anchors": ["scaks/solvers/mean_field_solver.py: get_tof, get_net_rates", "scaks/parsers/parser_base.py: get_stoichiometry_matrices"]}
{"id": "C12", "title": "Relative energies derived from absolute energies are thermodynamically consistent", "statement": "For every reaction the energies satisfy Gaf - Gar = dG, dG is final minus initial state energy, a reaction without transition state has non-negative barriers with at least one of them zero, swapping the direction swaps the barriers and negates dG, and dG adds to zero around every closed cycle of reactions.", "quantifier": "all energy tables, all reactions and all cycles of any length", "why_tests_cant": "Quantifies over all energy tables and cycles.", "anchors": ["scaks/parsers/parser_base.py: _get_state_energy, _get_single_relative_energies, _get_relative_from_absolute", "scaks/parsers/absolute_energy_parser.py: parse_data"]}
{"id": "C13", "title": "Relative energy input is normalised consistently", "statement": "After RelativeEnergyParser.parse_data, for every reaction Gar = Gaf - dG; a barrierless endothermic step has Gaf = dG (hence Gar = 0); every other step keeps its given barrier; normalising again changes nothing; data of the wrong length is rejected and leaves the model's energies unchanged.", "quantifier": "all energy data files and dictionaries", "why_tests_cant": "All lengths and all real inputs, including the error path.", "anchors": ["scaks/parsers/relative_energy_parser.py: __chk_data_validity, __get_relative_energies, parse_data"]}
{"id": "C14", "title": "Energy correction keeps relative energies consistent", "statement": "correct_relative_energies preserves Gaf - Gar = dG for every reaction, changes dG by the correction of the final state minus that of the initial state, keeps the length, and gives barrierless steps non-negative barriers.", "quantifier": "all networks, corrections and energy tables satisfying the relation", "why_tests_cant": "Holds for every table; in-place mutation history matters.", "anchors": ["scaks/correctors/thermodynamic_corrector.py: correct_relative_energies, __correct_single_relative_energies, __change_relative_energies"]}
{"id": "C15", "title": "Gas corrections scale with the coefficient of the gas", "statement": "The correction applied to a state counts every molecule: a state containing nX_g is corrected by n times the correction of X_g.", "quantifier": "all states, coefficients and gases in the data base", "why_tests_cant": "Depends on the textual key used for the lookup for every coefficient.", "anchors": ["scaks/correctors/thermodynamic_corrector.py: __correct_single_relative_energies, shomate_correction, entropy_correction"]}
{"id": "C16", "title": "Transition state theory rate constants are positive and monotone", "statement": "get_kTST is positive for every barrier and positive temperature, strictly decreasing in the barrier, and strictly increasing in temperature for non-negative barriers.", "quantifier": "all barriers and temperatures", "why_tests_cant": "Real analysis over a continuum.", "anchors": ["scaks/solvers/solver_base.py: SolverBase.get_kTST"]}
{"id": "C17", "title": "Detailed balance of TST rate constants", "statement": "For energies with Gaf - Gar = dG the ratio of forward to reverse rate constant from get_rxn_rates_TST is exp(-dG/(kB T)), the equilibrium constant.", "quantifier": "all energies, temperatures and reactions", "why_tests_cant": "A continuum identity.", "anchors": ["scaks/solvers/solver_base.py: get_rxn_rates_TST, get_kTST", "scaks/solvers/mean_field_solver.py: get_rate_constants, get_equilibrium_constant_syms"]}
{"id": "C18", "title": "Equilibrium is a fixed point of the kinetics", "statement": "With energies derived from absolute energies, if every species activity (pressure, concentration, coverage, free-site coverage) equals exp(-G/(kB T)) up to a factor common to both sides of each reaction, then forward and reverse rates of every reaction are equal and all coverages are stationary.", "quantifier": "all networks, absolute energies and temperatures", "why_tests_cant": "Global thermodynamic consistency of parser, solver and rate expressions together.", "anchors": ["scaks/parsers/parser_base.py: _get_single_relative_energies", "scaks/solvers/solver_base.py: get_kTST", "scaks/solvers/mean_field_solver.py: get_rates, get_net_rates", "scaks/solvers/steady_state_solver.py: steady_state_function"]}
{"id": "C19", "title": "Collision theory and TST barrier conversion are inverse", "statement": "get_TST_barrier_from_CT returns the barrier for which get_kTST gives back the same rate constant, and conversely.", "quantifier": "all positive rate constants and temperatures, all barriers", "why_tests_cant": "Continuum round trip.", "anchors": ["scaks/solvers/solver_base.py: get_TST_barrier_from_CT, get_kTST"]}
{"id": "C20", "title": "Collision theory rates are bounded and guarded", "statement": "get_kCT rejects active-area ratios or factors above 1, and otherwise returns a rate that is positive, at most the collision rate for non-negative barriers and linear in pressure; the reverse rate of an adsorption never exceeds kB T/h and obeys detailed balance with the corrected reaction energy unless the equivalent barrier is clamped at zero.", "quantifier": "all parameters in the physical range", "why_tests_cant": "Continuum, with a clamped branch.", "anchors": ["scaks/solvers/solver_base.py: get_kCT, get_rxn_rates_CT"]}
{"id": "C21", "title": "Rates including pressure are proportional to every gas consumed", "statement": "get_rxn_rates_TST with include_pressure multiplies the forward (reverse) rate by the product of the pressures of the gases of the initial (final) state, each raised to its coefficient, as the mean-field rate expression does.", "quantifier": "all reactions and pressures", "why_tests_cant": "Depends on coefficient and repetition patterns.", "anchors": ["scaks/solvers/solver_base.py: get_rxn_rates_TST", "scaks/solvers/mean_field_solver.py: get_elementary_rate_expression"]}
{"id": "C22", "title": "Each reaction uses its own energies", "statement": "The rate constants at position i of get_rate_constants are computed from the energies at position i.", "quantifier": "all reaction lists, including lists with repeated expressions", "why_tests_cant": "Look-up by text; depends on repetitions in the list.", "anchors": ["scaks/solvers/solver_base.py: _get_relative_energies", "scaks/solvers/mean_field_solver.py: get_rate_constants, get_elementary_rate_expression"]}
{"id": "C23", "title": "Coverage conversion conserves sites and round-trips", "statement": "Converting an adsorbate coverage tuple to the coverage dictionary adds free-site coverages such that free plus adsorbed equals the declared total on every site type, every adsorbate belongs to exactly one site type, and converting back returns the original tuple.", "quantifier": "all networks, totals and coverage tuples", "why_tests_cant": "Index look-ups over arbitrary name lists.", "anchors": ["scaks/solvers/mean_field_solver.py: _cvg_tuple2dict, _cvg_dict2tuple, __classify_adsorbates"]}
{"id": "C24", "title": "Constrained coverages are physical", "statement": "The coverage constraint returns coverages that are all non-negative, at most 1 and at most the total of their site, whose sum on each site type is at most the total; coverages already satisfying this are returned unchanged; constraining twice equals constraining once.", "quantifier": "all coverage tuples (any values) and all non-negative totals", "why_tests_cant": "Clipping followed by rescaling; needs inequalities over all reals.", "anchors": ["scaks/solvers/steady_state_solver.py: __constrain_coverages"]}
{"id": "C25", "title": "Rates obey the law of mass action", "statement": "get_rates returns for every reaction kf times the product of activities of the initial-state species raised to their coefficients, and kr times the same for the final state; intermediate transition states do not enter.", "quantifier": "all reactions, coverages, pressures and concentrations", "why_tests_cant": "The rate is built as program text and executed; correctness concerns every generated text.", "anchors": ["scaks/solvers/mean_field_solver.py: get_elementary_rate_expression, get_rate_expressions, get_rates"]}
{"id": "C26", "title": "Coverage derivatives are stoichiometry times net rates", "statement": "steady_state_function returns for each adsorbate the sum over reactions of (final minus initial coefficient) times (forward minus reverse rate).", "quantifier": "all networks, including adsorbates that occur on both sides or repeatedly", "why_tests_cant": "Text generation with first-match searches; repetition patterns matter.", "anchors": ["scaks/solvers/steady_state_solver.py: get_elementary_dtheta_dt_expression, get_adsorbate_dtheta_dt_expression, steady_state_function"]}
{"id": "C27", "title": "Site conservation of the coverage equations", "statement": "If every adsorbate occupies one site of its type and reactions are accepted, the derivatives returned by steady_state_function together with the free-site change implied by the reactions keep the total number of sites of each type constant.", "quantifier": "all accepted networks, coverages and rate constants", "why_tests_cant": "Invariant over all networks.", "anchors": ["scaks/solvers/steady_state_solver.py: steady_state_function", "scaks/solvers/mean_field_solver.py: _cvg_tuple2dict"]}
{"id": "C28", "title": "Analytical Jacobian is the derivative of the coverage equations", "statement": "analytical_jacobian(cvgs)[i][j] is the partial derivative of component i of steady_state_function with respect to coverage j, including the dependence of free-site coverages on adsorbate coverages.", "quantifier": "all networks and coverages", "why_tests_cant": "Derivatives are obtained by rewriting program text; correctness is a statement over a continuum and all term shapes.", "anchors": ["scaks/solvers/steady_state_solver.py: __term_adsorbate_derivation, __total_term_adsorbate_derivation, poly_adsorbate_derivation, analytical_jacobian"]}
{"id": "C29", "title": "Symbolic and numerical coverage equations agree", "statement": "steady_state_function_by_sym returns the same values as steady_state_function and analytical_jacobian_by_sym works for any number of adsorbates.", "quantifier": "all networks and coverages", "why_tests_cant": "Two independent implementations must agree everywhere.", "anchors": ["scaks/solvers/steady_state_solver.py: get_elementary_dtheta_dt_sym, steady_state_function_by_sym, analytical_jacobian_sym, analytical_jacobian_by_sym"]}
{"id": "C30", "title": "Residual measures stationarity", "statement": "get_residual is non-negative, is zero exactly when every derivative is zero, bounds the magnitude of every derivative, and is attained by one of them.", "quantifier": "all networks with at least one adsorbate, all coverages", "why_tests_cant": "Maximum over a list of arbitrary length.", "anchors": ["scaks/solvers/steady_state_solver.py: get_residual"]}
{"id": "C31", "title": "Returned steady states are converged and physical", "statement": "Whenever get_steady_state_cvgs returns coverages, their residual is at most the tolerance and no coverage is negative; it returns None otherwise.", "quantifier": "all Newton iterate sequences, all hybrid-method guesses, all iteration limits", "why_tests_cant": "Nested retry loops with exceptions; every schedule of iterates and guesses has to be covered.", "anchors": ["scaks/solvers/steady_state_solver.py: get_steady_state_cvgs"]}
{"id": "C32", "title": "On-the-fly analysis plugins follow their protocol", "statement": "During get_steady_state_cvgs each plugin sees setup, then register_step exactly at the accepted Newton steps whose number is a multiple of its interval, in order, then finalize, once per initial guess.", "quantifier": "all iteration histories and plugin intervals", "why_tests_cant": "Call sequences for every history.", "anchors": ["scaks/solvers/steady_state_solver.py: get_steady_state_cvgs", "scaks/plugins/metaclasses.py: AnalysisMeta"]}
{"id": "C33", "title": "Newton iterators report consistent and monotone states", "statement": "Every triple produced by the root-finding iterators has the norm belonging to its point; with MDNewton the norm never increases and the reported function value is that of the reported point; with ConstrainedNewton every point from the sixth on satisfies the constraint.", "quantifier": "all functions, Jacobians and starting points", "why_tests_cant": "Holds for every run of a generator with damping and early exit.", "anchors": ["scaks/solvers/rootfinding_iterators.py: ConstrainedNewton.__iter__, MDNewton.__iter__"]}
{"id": "C34", "title": "Rate control analysis leaves the model as it was", "statement": "get_single_XRC does not change the supplied energies, the archived steady-state coverages or the solver's coverages of the unperturbed model.", "quantifier": "all networks and perturbation sizes", "why_tests_cant": "Aliasing and side effects over the whole call history.", "anchors": ["scaks/solvers/steady_state_solver.py: get_single_XRC, get_steady_state_cvgs", "scaks/__init__.py: ModelShell.archive_data"]}
{"id": "C35", "title": "Archive holds the latest whitelisted values", "statement": "After any sequence of archive_data calls the data file contains exactly the last value of every archived whitelisted variable and nothing else.", "quantifier": "all call sequences and whitelists", "why_tests_cant": "History property.", "anchors": ["scaks/__init__.py: ModelShell.archive_data"]}
{"id": "C36", "title": "A crash never loses archived data", "statement": "If the process stops at any point, the data file still holds a complete earlier or the newest archive.", "quantifier": "all call sequences and all crash points", "why_tests_cant": "Crash points between truncation and completed write cannot be exercised by unit tests.", "anchors": ["scaks/__init__.py: ModelShell.archive_data"]}
{"id": "C37", "title": "A later run starts from the archived steady state", "statement": "MicroKineticModel.run without initial coverages uses the steady-state coverages archived by an earlier converged run.", "quantifier": "all histories of runs", "why_tests_cant": "Depends on agreement between writer and reader of the archive over histories.", "anchors": ["scaks/models/micro_kinetic_model.py: run", "scaks/solvers/steady_state_solver.py: get_steady_state_cvgs", "scaks/__init__.py: archive_data"]}
{"id": "C38", "title": "Model attributes are write-once and always valid", "statement": "A model attribute can be assigned at most once; a rejected value leaves it unassigned; after any history of reads and writes the value read is the one assigned or the default, and it always passed the attribute's check; reads do not affect later assignments.", "quantifier": "all histories of reads and (valid or invalid) writes", "why_tests_cant": "History property of a descriptor.", "anchors": ["scaks/descriptors/descriptors.py: AttrDescriptor.__get__, __set__, Type._check, Sequence._check"]}
{"id": "C39", "title": "Attribute type checks accept exactly the declared values", "statement": "Integer, Float, String, Bool, Dict and Sequence attributes accept exactly the values of the declared type (ints allowed for floats, bool not allowed for int) and candidate set.", "quantifier": "all values", "why_tests_cant": "Decision procedure over all values.", "anchors": ["scaks/descriptors/descriptors.py: Type._check, Float._check, Sequence._check"]}
{"id": "C40", "title": "Cached rate constants equal recomputed ones", "statement": "get_rate_constants returns what a fresh computation with the current model's temperature, reactions and the given energies would return, after any history of calls on any models.", "quantifier": "all call histories over any number of models", "why_tests_cant": "Cache keyed by call arguments only; needs histories over several models.", "anchors": ["scaks/descriptors/descriptors.py: Memoized, HashableDict, make_hashable", "scaks/solvers/mean_field_solver.py: get_rate_constants"]}
{"id": "C41", "title": "Analysis registered on one model does not affect another", "statement": "analysis_register adds the plugin to that model only.", "quantifier": "all sequences of registrations on any number of models", "why_tests_cant": "Shared mutable defaults show up only across instances and histories.", "anchors": ["scaks/models/micro_kinetic_model.py: analysis_register, analysis", "scaks/descriptors/descriptors.py: AttrDescriptor.__get__"]}
{"id": "C42", "title": "Work sizes split over processes are complete and balanced", "statement": "The values of split_size over all ranks add up to the given size, differ by at most one and do not increase with rank.", "quantifier": "all sizes and all numbers of processes", "why_tests_cant": "All sizes and ranks.", "anchors": ["scaks/mpicommons.py: MPIUtil.split_size"]}
{"id": "C43", "title": "Splitting and merging a sequence over processes gives it back", "statement": "Concatenating the results of split_seq over all ranks (as merge_seq does) gives the original sequence.", "quantifier": "all sequences and process numbers", "why_tests_cant": "All lengths, including those not divisible by the number of processes.", "anchors": ["scaks/mpicommons.py: MPIUtil.split_seq, merge_seq"]}
{"id": "C44", "title": "Coordinate groups stay consistent", "statement": "After any sequence of append, extend, move and + operations, including failing ones, a CoordsGroup has as many elements as coordinates.", "quantifier": "all operation histories", "why_tests_cant": "History property including exception paths.", "anchors": ["scaks/utilities/coordinate_utilities.py: CoordsGroup.__init__, append, extend, move, __add__"]}
{"id": "C45", "title": "Moving coordinate groups is translation", "statement": "move returns a new group with every coordinate translated by the vector and the same elements, leaves the original unchanged, composes additively and is undone by the opposite vector.", "quantifier": "all groups and vectors", "why_tests_cant": "Algebraic laws over all groups.", "anchors": ["scaks/utilities/coordinate_utilities.py: CoordsGroup.move"]}
{"id": "C46", "title": "Merging coordinate groups covers both operands", "statement": "a + b keeps all coordinates of a in order, contains for every coordinate of b one within the tolerance, never overwrites a non-empty element of a, adds no coordinate within tolerance of one of a, and leaves a and b unchanged; a + a has the coordinates of a.", "quantifier": "all groups", "why_tests_cant": "Nested loops with early exit over arbitrary lists.", "anchors": ["scaks/utilities/coordinate_utilities.py: CoordsGroup.__add__, __compare_coords"]}
{"id": "C47", "title": "Accepted process definitions are well formed", "statement": "check_process_dict accepts a definition only if all required keys are present, every coordinate has three floats, coordinates of a group differ pairwise by more than the tolerance in some component, and element lists are as long as every coordinate group; and it accepts every such definition.", "quantifier": "all process definitions", "why_tests_cant": "Nested universally quantified checks.", "anchors": ["scaks/utilities/check_utilities.py: check_process_dict, check_process_coordinates, check_sequence"]}
{"id": "C48", "title": "Accepted analysis intervals are usable", "statement": "check_analysis_interval accepts an integer or a list of integers and (start, end, step) triples only if they describe a positive sampling interval within the range.", "quantifier": "all values", "why_tests_cant": "Decision procedure over all values.", "anchors": ["scaks/utilities/check_utilities.py: check_analysis_interval"]}
{"id": "C49", "title": "Species definitions provide every gas pressure", "statement": "An accepted species_definitions has a pressure for every gas species, so reading the pressures of the model's gases never fails for declared gases.", "quantifier": "all dictionaries", "why_tests_cant": "Universally quantified check over dictionaries.", "anchors": ["scaks/utilities/check_utilities.py: check_species_definitions", "scaks/solvers/mean_field_solver.py: get_data"]}
{"id": "C50", "title": "Lattice site maps match the lattice", "statement": "construct_sitesmap builds a map with exactly prod(repetitions)*len(basis_sites) entries, all of them possible site types, or raises SetupError; without a file all entries are the first possible type.", "quantifier": "all lattice sizes and site files", "why_tests_cant": "All sizes.", "anchors": ["scaks/parsers/kmc_parser.py: construct_sitesmap, parse_configuration"]}
{"id": "C51", "title": "Every lattice process is labelled with its reaction", "statement": "For every index i the i-th kMC process produced by the solver is described by the i-th entry of process_mapping, forward and reverse processes come in pairs with exchanged elements, and their number is basis sites times coordinate groups times two.", "quantifier": "all process definitions, including fast and redistribution processes", "why_tests_cant": "Positions in two lists built in different branches.", "anchors": ["scaks/solvers/kmc_solver.py: get_processes, __get_single_process, process_mapping"]}
{"id": "C52", "title": "Lattice coverages are fractions that add to one", "statement": "The coverages recorded by CoveragesAnalysis are listed in the order of possible_element_types and add to one; each species coverage is the ratio-weighted number of its sites over the number of unit cells, is non-negative and, with weights adding to at most one per cell, the total of occupied sites is at most one.", "quantifier": "all configurations, type lists and coverage ratios", "why_tests_cant": "All lattice sizes and configurations.", "anchors": ["scaks/solvers/kmc_plugins/coverages_analysis.py: setup, registerStep", "scaks/solvers/kmc_plugins/kmc_functions.py: collect_coverages"]}
{"id": "C53", "title": "Python and compiled coverage collection agree", "statement": "The pure Python collect_coverages and the C++ backend return the same numbers.", "quantifier": "all inputs", "why_tests_cant": "Two implementations, all inputs.", "anchors": ["scaks/solvers/kmc_plugins/kmc_functions.py: collect_coverages", "c++/src/kmc_functions.cpp: collect_coverages"]}
{"id": "C54", "title": "Event frequencies count every step once", "statement": "After any run the process occurrences sum to the number of registered steps, steady occurrences count the steps from tof_start on, reaction occurrences partition the process occurrences, and reported rates are steady occurrences per site and time from the first counted step to the last.", "quantifier": "all event histories", "why_tests_cant": "History property.", "anchors": ["scaks/solvers/kmc_plugins/frequency_analysis.py: registerStep, finalize"]}
{"id": "C55", "title": "Windowed turnover frequencies account for every event", "statement": "TOFAnalysis windows are contiguous and non-overlapping, each window longer than the interval, and frequency times duration times sites equals the number of events of that process in the window; every event of the run is in some reported window.", "quantifier": "all event histories and intervals", "why_tests_cant": "History property with a reset at every window.", "anchors": ["scaks/solvers/kmc_plugins/tof_analysis.py: registerStep, finalize"]}
{"id": "C56", "title": "Event tables give a probability distribution", "statement": "The probabilities in each event table are non-negative, add to one, and are proportional to available sites times rate; every table is written exactly once, in order.", "quantifier": "all interactions with positive total rate, all histories and buffer sizes", "why_tests_cant": "All list lengths and histories.", "anchors": ["scaks/solvers/kmc_plugins/event_analysis.py: __get_interactions_table, registerStep, finalize, __flush"]}
{"id": "C57", "title": "Buffered analysis files reproduce the whole recording", "statement": "Executing the data file written by the analysis plugins (coverages, TOF, ODE trajectory) yields exactly the recorded times, steps and values in order, whatever the buffer size.", "quantifier": "all recordings and buffer sizes", "why_tests_cant": "Flush boundaries for every length.", "anchors": ["scaks/solvers/kmc_plugins/coverages_analysis.py: __flush, finalize", "scaks/solvers/kmc_plugins/tof_analysis.py: __flush, finalize", "scaks/solvers/steady_state_solver.py: solve_ode, __ode_flush"]}
{"id": "C58", "title": "Chemical symbol expansion is compositional", "statement": "string2symbols on a formula built from symbols, counts and parentheses returns every symbol with its total multiplicity; concatenation of formulas concatenates the results; malformed starts raise ValueError; molecular mass is additive accordingly.", "quantifier": "all formulas of any nesting depth", "why_tests_cant": "Recursive structure of unbounded depth.", "anchors": ["scaks/functions.py: string2symbols", "scaks/parsers/parser_base.py: get_molecular_mass"]}
{"id": "C59", "title": "Time conversion is exact and normalised", "statement": "convert_time(sec) returns hours, minutes, seconds with hours*3600 + minutes*60 + seconds = sec, 0 <= minutes < 60 and 0 <= seconds < 60 for non-negative input.", "quantifier": "all non-negative times", "why_tests_cant": "Continuum of inputs and boundary cases.", "anchors": ["scaks/utilities/format_utilities.py: convert_time"]}
{"id": "C60", "title": "Numerical Jacobian is exact on affine functions", "statement": "numerical_jacobian returns the coefficient matrix for every affine vector function, for either direction and any positive step.", "quantifier": "all dimensions, affine functions and points", "why_tests_cant": "All dimensions and values.", "anchors": ["scaks/functions.py: numerical_jacobian", "scaks/solvers/mean_field_solver.py: classified_numerical_jacobian"]}
{"id": "C61", "title": "Reversibilities characterise equilibrium", "statement": "get_reversibilities returns rr/rf for each reaction, equals one exactly for reactions with zero net rate, is below one exactly when the reaction proceeds forward (for positive rates), and rejects lists of different length.", "quantifier": "all rate lists", "why_tests_cant": "All lengths and values, including the error path.", "anchors": ["scaks/solvers/mean_field_solver.py: get_reversibilities, get_net_rates"]}
{"id": "C62", "title": "Boltzmann coverages form a distribution", "statement": "boltzmann_coverages returns positive coverages that, without empty sites, add to one and, with empty sites, add to less than one with the remainder being the weight of the empty sites; lower energy gives higher coverage.", "quantifier": "all energies and temperatures", "why_tests_cant": "Continuum, all species numbers.", "anchors": ["scaks/solvers/mean_field_solver.py: boltzmann_coverages"]}
{"id": "C63", "title": "Setup values are loaded independent of order and unknown keys are ignored", "statement": "Loading a setup dictionary assigns each recognised key once, ignores unrecognised ones, gives the same model for every key order, and requires a parser.", "quantifier": "all setup dictionaries and orders", "why_tests_cant": "Permutations of inputs.", "anchors": ["scaks/models/kinetic_model.py: __init__, _load"]}
{"id": "C64", "title": "ODE trajectory sampling", "statement": "With trajectory output, solve_ode records exactly the states after every ode_output_interval-th step until the end time is reached, and returns the final time and coverages.", "quantifier": "all end times, step sizes and intervals", "why_tests_cant": "Loop of unbounded length.", "anchors": ["scaks/solvers/steady_state_solver.py: solve_ode"]}
{"id": "C65", "title": "No part of an accepted text is ignored", "statement": "Every character of an accepted formula or equation text is accounted for by the reported coefficient, species, site or state; text that does not fit the notation is rejected rather than dropped.", "quantifier": "all input texts", "why_tests_cant": "A statement about all strings that a searching regular expression accepts.", "anchors": ["scaks/parsers/rxn_parser.py: ChemFormula.__split, RxnEquation.tolist"]}
{"id": "C66", "title": "A correction of zero leaves the energies unchanged", "statement": "Correcting relative energies when every species' correction is zero returns the energies that were given.", "quantifier": "all networks and relative energies", "why_tests_cant": "Ranges over all barriers and reaction forms.", "anchors": ["scaks/correctors/thermodynamic_corrector.py: correct_relative_energies, __change_relative_energies"]}
{"id": "C67", "title": "The entropy correction is defined and depends on pressure like an ideal gas", "statement": "For every gas of the data base, positive temperature and positive pressure, entropy_correction has a value, and raising the pressure from p1 to p2 raises it by kB T ln(p2/p1).", "quantifier": "all gases of the data base, all positive temperatures and pressures", "why_tests_cant": "Continuum of temperatures and pressures.", "anchors": ["scaks/correctors/thermodynamic_corrector.py: entropy_correction", "scaks/database/thermo_data.py"]}
{"id": "C68", "title": "Incomplete energies are rejected", "statement": "Rate constants asked for with relative energies that lack a barrier list end in a parameter error, and energies with both barrier lists are enough for transition state theory; an unknown method is rejected.", "quantifier": "all energy dictionaries, reaction lists and methods", "why_tests_cant": "tests use complete dictionaries", "anchors": ["scaks/solvers/mean_field_solver.py: get_rate_constants", "scaks/solvers/solver_base.py: _get_relative_energies"]}
{"id": "C69", "title": "Turnover frequency counts produced molecules", "statement": "get_tof returns for every gas and liquid the sum over reactions of (final minus initial coefficient) times net rate, in the order gases then liquids; asked for one gas it returns that gas's entry, and it rejects gases the model does not have.", "quantifier": "all networks, rate constants, coverages and gas names", "why_tests_cant": "The sum ranges over arbitrary networks and coefficients; a test checks one network.", "anchors": ["scaks/solvers/mean_field_solver.py: get_tof"]}
{"id": "C70", "title": "Runs start from the coverages the user gives, and a first run finds its own", "statement": "MicroKineticModel.run started with coverages uses exactly those, whatever is archived, and raises ParameterError if their number or type is wrong; started without coverages and without an archive it lets the solver find a first guess.", "quantifier": "all argument values, all contents of the archive, all numbers of adsorbates", "why_tests_cant": "needs every combination of argument, archive content and network size", "anchors": ["scaks/models/micro_kinetic_model.py: run", "scaks/solvers/steady_state_solver.py: coarse_steady_state_cvgs"]}
{"id": "C71", "title": "Symbolic and numerical rates agree", "statement": "After get_data_symbols and get_data, get_rate_constants_by_sym, get_rates_by_sym, get_net_rates_by_sym and get_tof_by_sym return the values of their numerical counterparts (transition-state theory, reverse barrier = forward barrier - reaction energy).", "quantifier": "all networks, energies, temperatures and coverages", "why_tests_cant": "Two independent implementations must agree on every network.", "anchors": ["scaks/solvers/mean_field_solver.py: get_rate_constants_by_sym, get_rates_by_sym, get_net_rates_by_sym, get_tof_by_sym, get_subs_dict"]}
{"id": "C72", "title": "Results of a run belong together", "statement": "After a run of a micro-kinetic model, the coverages, turnover frequencies, reversibilities and error that the model reports all belong to that run and its energies; a run that fails leaves the results of the last good run, or none; an unsolved model says that it is unsolved.", "quantifier": "all networks, rate constants, settings, initial guesses and hybrid methods; all histories of runs, good or failing at any point", "why_tests_cant": "a test looks at one run of a fresh model; results of different runs mix only for particular histories and failures", "anchors": ["scaks/models/micro_kinetic_model.py: run, model_info, steady_state_coverages, TOFs, reversibilities, error", "scaks/solvers/steady_state_solver.py: fsolve_steady_state_cvgs, error"]}
{"id": "C73", "title": "Analysis plugin classes are checked and complete", "statement": "A class derived from OnTheFlyAnalysis is accepted exactly if its interval, if given, is a positive integer and its setup, register_step and finalize, if given, can be called (TypeError and AttributeError otherwise); calling a hook calls the function the user wrote or inherited, or does nothing; every interval is positive.", "quantifier": "all class bodies, all bases and chains of derived classes", "why_tests_cant": "needs every combination of given, missing, inherited and wrong members", "anchors": ["scaks/plugins/metaclasses.py: AnalysisMeta.__new__", "scaks/plugins/analysis.py: OnTheFlyAnalysis"]}
{"id": "C74", "title": "Several processes construct a model and store their archives", "statement": "When a micro-kinetic model is constructed by several MPI processes, then under every interleaving all of them finish construction and their first archive, whether or not ./log and ./data exist.", "quantifier": "all numbers of processes, all interleavings of their steps, all initial states of the two directories", "why_tests_cant": "The outcome depends on the schedule; a test runs one, usually with one process.", "anchors": ["scaks/models/kinetic_model.py: _set_logger", "scaks/models/micro_kinetic_model.py: data_file, __init__", "scaks/mpicommons.py: barrier, is_master", "scaks/__init__.py: ModelShell.archive_data"]}
{"id": "C75", "title": "Log messages of a model go where its levels say", "statement": "Each message of a model is written once to its console and once to its log file exactly if it is at least as severe as the levels set; set_logger_level changes the level of the model asked, returns the old one, and rejects unknown handler names.", "quantifier": "all levels, all sequences of constructing models, setting levels and clearing handlers", "why_tests_cant": "The logger is shared by all models of a program, so the outcome depends on the history.", "anchors": ["scaks/models/kinetic_model.py: _set_logger, set_logger_level, clear_handlers"]}
{"id": "C76", "title": "Components can be exchanged", "statement": "set_solver, set_corrector and set_plotter make the object given the component of the model, leave the other components, and reject objects that are not such a component.", "quantifier": "all objects, all states of the model", "why_tests_cant": "Tests give a correct object once; acceptance of wrong ones is not examined.", "anchors": ["scaks/models/kinetic_model.py: set_solver, set_corrector, set_plotter"]}
{"id": "C77", "title": "Generated energy files, filled in, are read back", "statement": "The file written by generate_absolute_energies_file lists every species and site once; filled in with any numbers it is read back name by name and is complete, so that the energies of all reactions can be computed; as generated it gives zero for every reaction. The file written by generate_relative_energies_file, filled in, is read back in the order of the reactions; as generated it is refused.", "quantifier": "all reaction networks that are accepted, all numbers filled in", "why_tests_cant": "The names come from parsed texts of any form; completeness must hold for every network.", "anchors": ["scaks/models/kinetic_model.py: generate_absolute_energies_file, generate_relative_energies_file", "scaks/parsers/absolute_energy_parser.py: parse_data", "scaks/parsers/relative_energy_parser.py: parse_data"]}
{"id": "C78", "title": "Lists and dictionaries written to data files are read back", "statement": "The text made by get_list_string, executed by Python, assigns to the given name a list with exactly the given elements in order, whatever the number of columns; the text made by get_dict_string assigns the dictionary with exactly the given keys and numbers, in sorted order.", "quantifier": "all names, all lists of numbers, strings, lists and tuples, all numbers of columns; all dictionaries", "why_tests_cant": "Line breaks depend on the position and kind of every element; examples show a few layouts.", "anchors": ["scaks/utilities/format_utilities.py: get_list_string, get_dict_string"]}
{"id": "C79", "title": "The total reaction equation is the net reaction of the network", "statement": "get_total_rxn_equation returns a balanced equation that lists every gas and liquid of the network exactly once, on the left if the elementary reactions, weighted so that adsorbates and sites are unchanged, consume it and on the right if they form it, with coefficients in the ratio of the amounts; whenever such a net reaction exists it is returned.", "quantifier": "all networks, all vectors that the null-space computation may give, and all weights", "why_tests_cant": "Tests try a few networks; the sign, the truncation and the division by the smallest amount depend on the weights and the columns of any network.", "anchors": ["scaks/parsers/parser_base.py: get_total_rxn_equation"]}
{"id": "C80", "title": "LaTeX texts show the whole reaction", "statement": "texen of an equation gives the equation as a chemist writes it: coefficients other than one, elements with their counts as subscripts, the site in parentheses, and the arrows; two reactions get the same text only if they are the same reaction, every accepted equation has a text, and the numbered LaTeX lines are one for each symbol, in order, numbered from one.", "quantifier": "all reactions with any species, coefficients, sites, numbers of states and spellings of the arrows; all lists of symbols", "why_tests_cant": "Two different reactions with the same text, or an accepted reaction without a text, can only be excluded for all reactions at once.", "anchors": ["scaks/parsers/rxn_parser.py: texen, __sub_texen", "scaks/solvers/mean_field_solver.py: get_latex_strs"]}
{"id": "C81", "title": "A lattice run uses the files, settings and labels of the model", "statement": "Processes, configuration and site map are read together or not at all; every run hands the simulation exactly one call with the processes of the definitions and energies that were read last, the lattice, the control parameters of the settings and the analyses in their order; the labels shown by the model belong to these processes after any sequence of readings, queries, failed attempts and runs.", "quantifier": "all settings, all contents of the input files, all histories of reading, asking for processes and running, on the first or another process", "why_tests_cant": "Caches and shared label lists go wrong only after particular sequences of calls; no finite set of tests covers all sequences.", "anchors": ["scaks/models/kmc_model.py: run, processes, process_mapping", "scaks/solvers/kmc_solver.py: run, get_processes, get_control_parameters, processes", "scaks/parsers/kmc_parser.py: parse_data, parse_processes"]}
{"id": "C82", "title": "The analytical Jacobian of a model does not depend on other models or earlier calls", "statement": "analytical_jacobian returns the same matrix for the same model, coverages and rate constants, whatever Jacobians of this or other models were computed before in the same program.", "quantifier": "all models, coverages and rate constants, and all histories of earlier Jacobians of any models", "why_tests_cant": "The derived texts are kept in one cache for all solvers; whether an entry fits depends on every model used before.", "anchors": ["scaks/solvers/steady_state_solver.py: poly_adsorbate_derivation, analytical_jacobian", "scaks/descriptors/descriptors.py: Memoized"]}
{"id": "C83", "title": "The Shomate correction of a gas is a Gibbs energy", "statement": "For every gas of the data base and every temperature it has data for, shomate_correction returns a Gibbs energy: its derivative with respect to temperature is minus the published entropy, the derivative of the entropy is the published heat capacity over temperature, and the enthalpy is 298.15 K times the heat capacity there plus the heat taken up since. Below 300 K it is extrapolated; above the data the user is told.", "quantifier": "all gases of the data base and all real temperatures, in particular around the limits of the ranges", "why_tests_cant": "A continuum of temperatures for thirty entries; a wrong factor in one power changes values smoothly and still looks plausible; gaps between ranges are found only by asking for every temperature.", "anchors": ["scaks/correctors/thermodynamic_corrector.py: ThermodynamicCorrector.shomate_correction", "scaks/database/thermo_data.py: shomate_params"]}
{"id": "C84", "title": "The entropy correction is the free energy of an ideal gas", "statement": "For every gas of the data base, positive temperature and pressure, entropy_correction is the free energy of an ideal gas of that molecule: translation through the thermal wave length, rotation and all vibrations, with the energies of all gases counted from the same level.", "quantifier": "all gases of both tables, all positive temperatures and pressures for which a value is returned", "why_tests_cant": "A continuum of temperatures and pressures; a wrong power or unit still gives plausible numbers. That gases are treated alike is a statement about pairs of gases.", "anchors": ["scaks/correctors/thermodynamic_corrector.py: ThermodynamicCorrector.entropy_correction", "scaks/database/thermo_data.py: rotation_temperatures, vibration_temperatures"]}
{"id": "C85", "title": "Reactions run downhill in free energy", "statement": "With rate constants from a table of absolute energies by transition state theory, and positive coverages, pressures and concentrations: each reaction runs from the state of higher to the state of lower chemical potential and stands still exactly when they are equal; the free energy of surface and surroundings, changing at the returned coverage derivatives and turnover frequencies, never grows; at a steady state the turnover itself runs downhill.", "quantifier": "all accepted networks, tables of energies, positive temperatures, coverages, pressures and concentrations", "why_tests_cant": "An inequality over a continuum of conditions and all networks. A test at some conditions shows positive rates; a violation of the second law needs a whole cycle to be seen.", "anchors": ["scaks/solvers/mean_field_solver.py: MeanFieldSolver.get_rates, MeanFieldSolver.get_net_rates, MeanFieldSolver.get_tof", "scaks/solvers/solver_base.py: SolverBase.get_rxn_rates_TST", "scaks/solvers/steady_state_solver.py: SteadyStateSolver.steady_state_function"]}
{"id": "C86", "title": "What is absent is not consumed", "statement": "At physical conditions all rates are nonnegative, a reaction that needs something absent does not run in that direction, and the returned derivatives point back into the physical range: a coverage of zero does not fall, the coverages on a full site do not grow in sum, and the turnover frequency of an absent gas is not negative.", "quantifier": "all accepted networks, nonnegative rate constants and pressures, coverages between empty and full", "why_tests_cant": "The boundary of the physical range has as many faces as species; a wrong sign on one face is seen only when a run reaches it.", "anchors": ["scaks/solvers/mean_field_solver.py: MeanFieldSolver.get_rates, MeanFieldSolver.get_tof", "scaks/solvers/steady_state_solver.py: SteadyStateSolver.steady_state_function"]}
{"id": "C87", "title": "The order of the reactions does not matter", "statement": "Listing the reactions in another order gives the same coverage derivatives, turnover frequencies and rate of each reaction, also when the rate constants are computed from the same energies.", "quantifier": "all accepted networks and permutations of their reactions, all rate constants and coverages", "why_tests_cant": "The number of orders grows factorially, and the order of species comes from the parser by way of sets and sorting.", "anchors": ["scaks/solvers/mean_field_solver.py: MeanFieldSolver.get_rates, MeanFieldSolver.get_tof, MeanFieldSolver.get_rate_constants", "scaks/parsers/rxn_parser.py: RxnEquation, ChemState, ChemFormula", "scaks/solvers/steady_state_solver.py: SteadyStateSolver.steady_state_function"]}
{"id": "C88", "title": "The direction in which a reaction is written does not matter", "statement": "Writing reactions in the other direction exchanges their forward and reverse rates and leaves coverage derivatives and turnover frequencies unchanged; the solver computes the exchanged constants from the same table of energies.", "quantifier": "all accepted networks and all subsets of reactions turned round, all rate constants, coverages and tables", "why_tests_cant": "Every subset of the reactions may be turned round. Tests use one way of writing.", "anchors": ["scaks/solvers/mean_field_solver.py: MeanFieldSolver.get_rates, MeanFieldSolver.get_tof", "scaks/solvers/solver_base.py: SolverBase.get_rxn_rates_TST, SolverBase.get_rxn_rates_CT", "scaks/parsers/rxn_parser.py: RxnEquation.revert", "scaks/solvers/steady_state_solver.py: SteadyStateSolver.steady_state_function"]}
{"id": "C89", "title": "The unit of time is free", "statement": "Multiplying all rate constants by a number multiplies all rates, turnover frequencies and coverage derivatives by it, and leaves failures as they are; so steady states do not depend on the unit of time.", "quantifier": "all networks, numbers, rate constants and coverages", "why_tests_cant": "A relation between two runs for every factor and every network.", "anchors": ["scaks/solvers/mean_field_solver.py: MeanFieldSolver.get_rates, MeanFieldSolver.get_tof", "scaks/solvers/steady_state_solver.py: SteadyStateSolver.steady_state_function"]}
{"id": "C90", "title": "Degrees of rate control mean what the literature says", "statement": "With barriers from transition state theory, the value returned for a reaction is the relative response of the turnover frequency to multiplying both its rate constants by exp(-eps/kT). A reaction at equilibrium has degree zero when the search returns to the same coverages, the only reaction of a network has degree one, and the degrees sum to one in the limit of small eps.", "quantifier": "all networks, energies, temperatures, perturbations and outcomes of the search for coverages", "why_tests_cant": "The sum rule is a limit statement over a continuum; a test with a finite perturbation sees a number near one and cannot tell a wrong term from rounding.", "anchors": ["scaks/solvers/steady_state_solver.py: SteadyStateSolver.get_single_XRC", "scaks/solvers/mean_field_solver.py: MeanFieldSolver.get_tof, MeanFieldSolver.get_rate_constants"]}
{"id": "C91", "title": "Sub-rectangles of an animation show the original images", "statement": "The images cut out, drawn at their places over what was there, show exactly the images given, one after the other. Each is the smallest rectangle holding all pixels that changed, and images of different shapes are rejected.", "quantifier": "all sequences of images of any size and number of channels, any screen before", "why_tests_cant": "A pixel can change in 255 ways in each channel, in any position and order of images; wrap-around of bytes and off-by-one limits show only for particular ones.", "anchors": ["scaks/plotters/images2gif.py: GifWriter.getSubRectangles, GifWriter.handleSubRectangles"]}
{"id": "C92", "title": "Animated GIF files hold what was asked for", "statement": "A decoder of the GIF 89a format reads from the file written the size, the repetitions and for each image a frame with its time, disposal, place, colours and data; played, the frames show the images. Arguments that are rejected leave the file as it was.", "quantifier": "all images, durations, repetitions, places, disposals and qualities, and every packing of pixels without loss", "why_tests_cant": "Layout errors depend on values of single bytes and on combinations of colours, disposal and places; the player's screen depends on all frames before.", "anchors": ["scaks/plotters/images2gif.py: writeGif, GifWriter.writeGifToFile, GifWriter.getheaderAnim, GifWriter.getImageDescriptor, GifWriter.getAppExt, GifWriter.getGraphicsControlExt, GifWriter.convertImagesToPIL, checkImages, intToBin"]}
{"id": "C93", "title": "The coverage equations have one physical solution for all times", "statement": "From every physical coverage of the surface the equations that solve_ode integrates have a solution for all times and only one. It never leaves the physical range: no coverage becomes negative, none exceeds the total of its site, and nothing that was there vanishes completely. A steady state stays as it is. With rate constants of transition state theory from absolute energies, free energy never rises along it.", "quantifier": "all networks, rate constants, pressures, concentrations, totals, physical coverages at the beginning, and all times", "why_tests_cant": "Tests integrate single networks over single intervals with a numerical method; existence, uniqueness and invariance speak of every trajectory and every time.", "anchors": ["scaks/solvers/steady_state_solver.py: SteadyStateSolver.steady_state_function, SteadyStateSolver.solve_ode", "scaks/solvers/mean_field_solver.py: MeanFieldSolver.get_tof"]}
{"id": "C94", "title": "Each reaction gets its own energy profile", "statement": "After plot_all every elementary reaction with energies has an image of its own, named by its position and its equation, showing that equation and a profile that starts at zero, ends at its own reaction energy and passes through its own barrier (left out only below 0.00001). No image overwrites another and files of other names stay. The call succeeds for all reactions of the documented notation with any of the documented arguments.", "quantifier": "all lists of reactions, relative energies, keyword arguments and previous contents of the directory", "why_tests_cant": "Tests only construct the plotter; which image shows which energies, and whether names can collide, depends on all reactions and positions.", "anchors": ["scaks/plotters/energy_profile_plotter.py: EnergyProfilePlotter.plot_all"]}
{"id": "C95", "title": "Scripts of simulation objects rebuild them", "statement": "Running the script that the kMC solver writes for a list of processes defines the same processes in the same order, for every number of processes; scripts of single objects define the object. The file holds exactly the text that is returned, under the given name with a prefix, and no other file is touched; without a name no file is written.", "quantifier": "all lists of processes, names and previous files, and all surroundings in which the script is run", "why_tests_cant": "Tests compare single scripts; collisions between generated variable names show only for particular numbers of processes.", "anchors": ["scaks/solvers/kmc_solver.py: KMCSolver.script_processes, KMCSolver.script_decorator, KMCSolver.script_lattice_model"]}
{"id": "C96", "title": "Equilibrium: no turnover, one state, reached from everywhere", "statement": "If the given pressures allow the surface to be in equilibrium with the gas (coverages at which the forward and reverse rate of every reaction agree), then every steady state of the coverage equations in which all species are present is an equilibrium: all turnover frequencies are zero, whatever the rate constants. With given conserved amounts there is exactly one such state, integration from any start moves towards it in free energy and converges to it. Away from equilibrium the steady state, and so the turnover frequency found, can depend on the initial guess.", "quantifier": "all networks, positive rate constants and pressures, all steady states, all initial coverages and all times up to infinity", "why_tests_cant": "Tests compare coverages at single conditions after finite integration; uniqueness and convergence speak about all coverages and infinite time.", "anchors": ["scaks/solvers/steady_state_solver.py: SteadyStateSolver.steady_state_function, SteadyStateSolver.solve_ode", "scaks/solvers/mean_field_solver.py: MeanFieldSolver.get_rates, MeanFieldSolver.get_tof"]}
{"id": "C97", "title": "The default search always makes progress", "statement": "From any coverages at which the coverage equations do not hold, a step of the default root finder ends: after finitely many halvings of the step the residual has a smaller norm. So the iterator gives as many points as are asked for, each better than the one before, unless the linear solver raises or an exact steady state has been reached; it never hangs. Close to a steady state in which every adsorbate is present and the Jacobian can be inverted, the whole search succeeds within a bounded number of steps and returns coverages as close to it as one wants.", "quantifier": "all networks, rate constants and pressures, all initial coverages, all linear solvers that solve the equations, any number of steps", "why_tests_cant": "Tests run single systems from single guesses; that the halving ends for every guess speaks about a limit of arbitrarily short steps.", "anchors": ["scaks/solvers/rootfinding_iterators.py: MDNewton.__iter__", "scaks/solvers/steady_state_solver.py: SteadyStateSolver.analytical_jacobian, SteadyStateSolver.get_steady_state_cvgs"]}
{"id": "C98", "title": "Tables in the log show every result with its name", "statement": "The tables that a model writes to its log (turnover frequencies, steady-state coverages, reversibilities, degrees of rate control, rate constants and rates) have one row for each gas, adsorbate or reaction, in order. Read back, a row gives the index, the name or reaction text unchanged, and the number that the calculation returns for it, correct to all digits shown. Names and numbers are separated by blanks.", "quantifier": "all networks and result lists, names of any length, all numbers in the range of machine numbers", "why_tests_cant": "Tests look at single tables; that the columns can always be told apart, whatever the length of names and the size of exponents, and that rounding never loses a digit or a carry, is a statement about all texts and numbers.", "anchors": ["scaks/solvers/mean_field_solver.py: MeanFieldSolver.__log_rates, MeanFieldSolver.__log_reversibilities, MeanFieldSolver.__log_tof", "scaks/solvers/steady_state_solver.py: SteadyStateSolver.__log_sscvg, SteadyStateSolver.__log_single_XRC"]}
{"id": "C99", "title": "New guesses come from ten seconds of integration", "statement": "A model that registers no hybrid method gets a new guess, whenever a guess has failed or none is given, by integrating the coverage equations over ten seconds. The integration begins with the coverages the solver keeps (the last point the iteration went on from, or the empty surface), uses the energies of the search, and gives a physical guess. If the surface comes close to a regular steady state in that time, the search returns it; the search never returns None.", "quantifier": "all networks, coverages kept, rounds of the search, integrators, tolerances and numbers of iterations", "why_tests_cant": "Tests integrate one model once; which coverages the integration begins with after any history of failed rounds, and that it then leads to a result, are statements about all histories and all solutions of the equations.", "anchors": ["scaks/plugins/hybrid_methods.py: ODE_integration", "scaks/solvers/steady_state_solver.py: SteadyStateSolver.coverages, SteadyStateSolver.solve_ode, SteadyStateSolver.get_steady_state_cvgs, SteadyStateSolver.modify_init_guess"]}
{"id": "C100", "title": "The plotted turnover is what the reactions make", "statement": "Plotting the turnover frequency of a product of a lattice run shows at every recorded time the number of molecules made per site and second: the sum over the processes of the molecules their reaction makes times their rate, reverse processes subtracted.", "quantifier": "all networks of accepted reactions, products, buffer sizes, numbers of records and rates", "why_tests_cant": "Which processes are added depends on every pair of names in the network: one product name inside another one is enough to change the sum.", "anchors": ["scripts/kmc_plot/plot_tof.py: (whole script)", "scaks/solvers/kmc_plugins/tof_analysis.py: TOFAnalysis"]}
{"id": "C101", "title": "The plotted frequencies pair the two directions", "statement": "The bars of the frequency plot put, for every reaction once, the occurrences of its forward direction beside those of its reverse direction.", "quantifier": "all sets of reactions and numbers of occurrences, in any order of the file", "why_tests_cant": "The pairs come from the sorted order of all labels, in which any reaction may come between the two directions of another one.", "anchors": ["scripts/kmc_plot/plot_frequencies.py: (lines 11-20)", "scaks/solvers/kmc_plugins/frequency_analysis.py: FrequencyAnalysis.finalize"]}
{"id": "C102", "title": "A continued lattice run begins where the last one ended", "statement": "Continuing a lattice run makes a setup file that reads back with all settings of the old one and the last recorded time as start time, also after any number of continuations, and the configuration recorded last.", "quantifier": "all setup files of assignments, blank lines and comments, recorded times, and numbers of continuations", "why_tests_cant": "Whether the new file can be read depends on what stands on the line after the start time; histories of continuations have any length.", "anchors": ["scripts/kmc_run/change_start_time.py: (whole script)", "scripts/kmc_run/kmc_continue.sh: create_new_job"]}
{"id": "C103", "title": "Series of jobs differ from their template in the pressures only", "statement": "The scripts that prepare series of lattice runs make one directory for every pressure (or pair of pressures), whatever an earlier or interrupted run has left there. The setup file of each reads back with the values of the template and the pressures of this job, and the list names the jobs in order.", "quantifier": "all templates, series of pressures and states of the directory before", "why_tests_cant": "The template is changed in place from job to job, and a rerun meets any mixture of old, half made and missing directories.", "anchors": ["scripts/kmc_run/1d-run/create_jobs.py: dict2setup, (main)", "scripts/kmc_run/2d-run/create_jobs.py: dict2setup, (main)"]}
{"id": "C104", "title": "The run script starts the search from the end of the integration", "statement": "The script for micro-kinetic runs takes the last setup file of the directory, integrates the coverage equations up to the end time it is given, writes the sampled trajectory, and searches the steady state from the coverages at the end time. If these are close enough to a regular steady state, it reports that state with all its results.", "quantifier": "all directories, networks where the coverage equations are right, energies, steps, end times, output intervals and steady states", "why_tests_cant": "What the script reports depends on a trajectory and on an iterative search; closeness and step counts are real numbers with no bound.", "anchors": ["scripts/mkm_run/run.py: (whole script)", "scaks/solvers/steady_state_solver.py: solve_ode", "scaks/solvers/mean_field_solver.py: boltzmann_coverages", "scaks/models/micro_kinetic_model.py: run"]}
{"id": "C105", "title": "Results of a series of lattice runs are gathered with their own pressures", "statement": "The scripts that gather coverages and turnover frequencies of a series of runs write arrays in which every pressure stands next to the result of the run made at this pressure, in increasing order of the pressures, whatever the order in which the directories are found. Directories without results are left out.", "quantifier": "all lists of directories in any order, files, numbers of recordings, pressures, and all ways to sort equal pressures", "why_tests_cant": "The order of directories and the choice of a sort are not fixed, and the number of runs has no bound; a test sees one order of one machine.", "anchors": ["scripts/kmc_plot/batch_plot/extract_cvgs.py: (whole script)", "scripts/kmc_plot/batch_plot/extract_tofs.py: (whole script)"]}
{"id": "C106", "title": "Maps over two pressures hold every run at its own place", "statement": "The scripts that gather a map over two pressures write, in the row of an oxygen pressure and the column of a carbon monoxide pressure, the value of the run made at these two pressures.", "quantifier": "all listings of directories with other files among them, pressures, runs and values", "why_tests_cant": "The rows come from separate listings; that they agree must hold for every set of directories.", "anchors": ["scripts/kmc_plot/map_plot/extract_tofs.py: (whole script)", "scripts/kmc_plot/map_plot/extract_CO_cvgs.py: (whole script)", "scripts/kmc_plot/map_plot/extract_O_cvgs.py: (whole script)"]}
{"id": "C107", "title": "The figures of coverages show the coverages of the file", "statement": "The figure of merged coverages shows at every recording the total coverage of carbon monoxide, of oxygen and of empty sites, with the averages over the recordings, and the three add to one. The figure of an integration shows the coverages of the adsorbates and of the free sites.", "quantifier": "all files with any number of recordings, types, and coverages; all trajectories", "why_tests_cant": "The sums range over types and recordings without bound, and depend on how types are told apart.", "anchors": ["scripts/kmc_plot/plot_merged_coverages.py: (whole script)", "scripts/mkm_plot/plot_ode_coverages.py: (whole script)"]}
{"id": "C108", "title": "The event file tells what was possible and what was picked", "statement": "The event file begins with the list of processes. For every step it then has the number of the step, the number of available sites, a row for every process with its sites, its total rate and its probability in percent, and an arrow at the process picked in the next step; what is written can be read back to the precision shown, and the percentages add up to a hundred within rounding. The size of the buffer makes no difference.", "quantifier": "all numbers of processes, sites, rates, steps, picked processes, and sizes of the buffer", "why_tests_cant": "The texts come from numbers of any size and from buffers flushed at any moment; a test sees a few tables.", "anchors": ["scaks/solvers/kmc_plugins/event_analysis.py: EventAnalysis.setup, EventAnalysis.registerStep, EventAnalysis.finalize"]}
{"id": "C109", "title": "Definitions of processes are the superposition of their groups of sites", "statement": "The script of the example of superposition writes one process definition for every list of groups and every place. In it every site of the groups and of the moved group stands once, before the process with the atom that any of them has there, after it empty; the groups themselves are not changed, and different inputs have different outputs.", "quantifier": "all groups of sites, atoms, places, kinds of origin, and file names", "why_tests_cant": "Groups share places in arbitrary ways and the lists have any length; a test sees a few of the combinations.", "anchors": ["examples/KMC/CO-Oxidation-Pt-100/10x10/superposition/NN-1/scripts/get_process_definitions.py: generate_process_dict, tofile", "examples/KMC/CO-Oxidation-Pt-100/10x10/superposition/NN-2/scripts/get_process_definitions.py: generate_process_dict", "scaks/utilities/coordinate_utilities.py: CoordsGroup.__add__, CoordsGroup.move"]}
{"id": "C110", "title": "Pictures of lattice trajectories show every site of every frame", "statement": "Every site of a frame is drawn once at its place, with the colour of the type on it and its marker; the script for large lattices shows the same points in the same colours as that for small ones. The time in the title is the time of the frame within half of its last digit. Every frame has a picture of its own, and the movie has the pictures in the order of the frames.", "quantifier": "all lattices, types, colours, times and sequences of frames", "why_tests_cant": "Trajectories have any number of frames, also several at one step, and directories may have pictures of other runs; a test draws a few frames in an empty directory.", "anchors": ["scripts/kmc_plot/plot_scatters_small-100.py: plot_scatters", "scripts/kmc_plot/plot_scatters_small-111.py: plot_scatters", "scripts/kmc_plot/plot_scatters_large-100.py: plot_scatters", "scripts/kmc_plot/plot_scatters_large-111.py: plot_scatters"]}
{"id": "C111", "title": "Pictures of processes show the state before and the state after", "statement": "For every process of the input there are two pictures, before and after, named by its number and titled by its equation; every site of the process is at its place in the cell, moved to the site of the basis, with the colour and marker of its element. No picture replaces another.", "quantifier": "all processes, cells, places of the basis, colours and markers", "why_tests_cant": "The places depend on the cell and on the basis and the names on the number of processes; a test draws a few.", "anchors": ["scripts/kmc_plot/plot_processes-100.py: plot_elements, plot_process", "scripts/kmc_plot/plot_processes-111.py: plot_elements, plot_process"]}
{"id": "C112", "title": "Analysis plugins with a state that may raise", "statement": "Whatever analysis plugins compute, write or raise, coverages returned by the search for steady states have a residual within the tolerance, are kept by the solver and archived. Plugins that do not raise leave the result as it is without them. An error raised by a plugin comes out of the search after all plugins have been finalized. The plugin of the example leaves in its file the errors of the steps of the search.", "quantifier": "all plugins (any state, any computation, raising anywhere), guesses, residuals and iterations", "why_tests_cant": "Plugins are code of users and may fail at any step of any iteration; a test runs one that works.", "anchors": ["scaks/solvers/steady_state_solver.py: get_steady_state_cvgs", "scaks/plugins/analysis.py: OnTheFlyAnalysis", "examples/MKM/on-the-fly-analysis/on-the-fly-analysis.py: DumpTrajectory"]}
{"id": "C113", "title": "Adding formulas and comparing objects of different kinds", "statement": "A formula added to a formula is a formula whose atoms and sites are those of both. The conservation check of formulas takes formulas and raises for other objects; the check of states is true for states with the same atoms and sites, and raises for everything else.", "quantifier": "all formulas, states and other objects given to the two methods", "why_tests_cant": "The methods take objects of any type; a test tries a few, and a returned exception looks like a true result.", "anchors": ["scaks/parsers/rxn_parser.py: ChemFormula.conserve, ChemFormula.__add__, ChemState.conserve"]}
{"id": "C114", "title": "What the run scripts leave behind", "statement": "A run starts in a directory without the output of earlier runs, keeps the setup files, and tells of every error: the error is logged and the script ends with it, in every process.", "quantifier": "all directories, all stages in which an error may happen, all schedules of the processes", "why_tests_cant": "Old output is only in the way in directories with a history; errors and the removal by one of several processes are matters of the environment.", "anchors": ["scripts/mkm_run/run.py: __main__", "scripts/kmc_run/run.py: __main__", "scaks/models/kinetic_model.py: _set_logger"]}
{"id": "C115", "title": "Maps over two pressures", "statement": "A map of runs over two pressures shows at the pressures of each run the value of that run. Between neighbouring runs it follows straight lines, everywhere it stays between the least and the greatest value, and the order in which the runs are listed does not matter. The boundary between the phases is drawn where both coverages are shown as equal. The figure covers the pressures of the runs.", "quantifier": "all sets of pressures, in any order, all tables of values, all places of a figure", "why_tests_cant": "A test compares a few numbers or a picture. That every run stands at its own place and that the window meets the data depends on all pressures and on how they are listed.", "anchors": ["scripts/kmc_plot/map_plot/plot_tofs_contour.py: __main__", "scripts/kmc_plot/map_plot/plot_CO_cvgs_contour.py: __main__", "scripts/kmc_plot/map_plot/plot_O_cvgs_contour.py: __main__", "scripts/kmc_plot/map_plot/plot_phase_diagram.py: __main__", "scripts/mkm_plot/map_plot/plot_tof_contour.py: __main__"]}
{"id": "C116", "title": "Figures of series", "statement": "A figure of a series shows for each run, at its own pressure, its coverages and its frequency under the names they belong to, and nothing else; all data lie inside the axes. The figure of the coverages of a lattice run shows every type under its own label. Data that do not fit are reported.", "quantifier": "all series of runs with any files present or absent, all lists of adsorbates and types, all values", "why_tests_cant": "Runs without one of their files, another order of adsorbates or equal values are rare in the data a test is made of, and the figure is drawn without an error.", "anchors": ["scripts/kmc_plot/batch_plot/plot_cvgs_tof.py: __main__", "scripts/kmc_plot/batch_plot/plot_cvgs.py: __main__", "scripts/kmc_plot/batch_plot/plot_tofs.py: __main__", "scripts/mkm_plot/plot_cvgs_tof.py: __main__", "scripts/mkm_plot/plot_cvgs.py: __main__", "scripts/mkm_plot/plot_TOFs.py: __main__", "scripts/kmc_plot/plot_coverages.py: __main__"]}
{"id": "C117", "title": "The choice of colours for pictures", "statement": "The quantiser gives any picture it accepts a map with the number of colours that was asked for; all entries are bytes, and black, white and the colour of the first pixel are among them. Every pixel is used at most once to learn from, and exactly once for the highest quality. Learning never moves a colour away from the pixel it learns from. A pixel is drawn in the nearest colour of the map; colours of the map are drawn exactly. The biases follow their documented formula.", "quantifier": "all pictures of any size, all sampling factors and numbers of colours, all histories of the network", "why_tests_cant": "The network depends on all pixels in the order they are visited; wrong slices at its ends, pixels visited twice or small pictures need inputs that a sample of pictures does not contain.", "anchors": ["scaks/plotters/images2gif.py: NeuQuant.setconstants, NeuQuant.__init__, NeuQuant.setUpArrays, NeuQuant.altersingle, NeuQuant.geta, NeuQuant.alterneigh, NeuQuant.contest, NeuQuant.specialFind, NeuQuant.learn, NeuQuant.fix, NeuQuant.inxbuild, NeuQuant.paletteImage, NeuQuant.quantize_without_scipy, NeuQuant.convert, NeuQuant.inxsearch"]}
{"id": "C118", "title": "Equations written to a file", "statement": "When the symbolic functions for rates and coverages are asked to write LaTeX, they add their equations, one line for each in order with numbers from one, to the end of the file of formulas, keep all that the file held before, and return what they return without writing. Without being asked, and on errors, they write nothing. The text closes all its braces.", "quantifier": "all models, all contents of the file, all sequences of calls with and without writing", "why_tests_cant": "That nothing is lost or written twice has to hold for every order of calls; the branch that writes is not reached by any test.", "anchors": ["scaks/solvers/mean_field_solver.py: MeanFieldSolver.log_latex, MeanFieldSolver.get_latex_strs, MeanFieldSolver.get_rate_syms", "scaks/solvers/steady_state_solver.py: SteadyStateSolver.get_dtheta_dt_syms", "scaks/__init__.py: ModelShell.write2file"]}
{"id": "C119", "title": "Reversibilities reported by a run follow the gas phase", "statement": "For a completed run whose rate constants come from absolute energies by transition state theory, take each reaction any number of times so that nothing is left over on the surface. The product of the reported reversibilities, each taken as often, is the exponential of the free energy of the gases and liquids made, over kB T: it does not depend on adsorbates, transition states, the coverages found or the way they were found, and is one if nothing is made at all. If no reaction of the way runs backwards the overall free energy is not positive and no single reaction is further from equilibrium than the whole.", "quantifier": "all networks, absolute energies, temperatures, pressures, runs, positive coverages and all numbers of times", "why_tests_cant": "An identity over all energies and coverages through parser, rate constants, solver and the report of a run.", "anchors": ["scaks/models/micro_kinetic_model.py: MicroKineticModel.run", "scaks/solvers/mean_field_solver.py: MeanFieldSolver.get_reversibilities, MeanFieldSolver.get_rates, MeanFieldSolver.get_rate_constants", "scaks/parsers/parser_base.py: ParserBase._get_single_relative_energies"]}
{"id": "C120", "title": "The lattice model has the equilibrium of its energies", "statement": "The processes handed to the Monte Carlo engine define jumps between configurations of a lattice. If the element types can be given energies that fit every process definition (types after less types before differ by the free energies of the end states of its reaction, gases at their pressures), then on every finite lattice, for every two configurations, the Boltzmann weight of the one times the rate of the jump to the other is the same in both directions. So the weights are stationary, the coverage that the analysis records is in their mean the Langmuir isotherm, and at the coverages of the isotherm every process is balanced in the mean field sense as well.", "quantifier": "all process definitions, absolute energies, temperatures, pressures, element energies that fit, finite lattices, shapes and pairs of configurations", "why_tests_cant": "Detailed balance and stationarity are statements about all pairs of configurations; a run samples a few of them.", "anchors": ["scaks/solvers/kmc_solver.py: KMCSolver.get_processes, KMCSolver._KMCSolver__get_single_process", "scaks/solvers/solver_base.py: SolverBase.get_rxn_rates_TST, SolverBase.get_rxn_rates_CT", "scaks/solvers/kmc_plugins/coverages_analysis.py: CoveragesAnalysis.registerStep"]}
{"id": "C121", "title": "The lattice model and the mean field model agree on independent sites", "statement": "For the same reactions, energies, temperature and pressures, with one process definition for each reaction whose element types are the surface species of its end states: when the sites of the lattice are independent, each with the coverages of the species, the rate given to each process times the coverages it needs is the rate that the mean field solver computes; the mean number of sites taken by an adsorbate changes at the sum of the net rates times the numbers produced, each multiplied by the number of places of the process; and if every process has as many places as there are sites, the mean coverages change exactly as the steady state function says.", "quantifier": "all networks, process definitions, energies, temperatures, pressures, coverages, finite lattices and shapes", "why_tests_cant": "The mean is over all configurations of the lattice (exponentially many); a run of either solver shows one trajectory or one point.", "anchors": ["scaks/solvers/kmc_solver.py: KMCSolver.get_processes, KMCSolver._KMCSolver__get_single_process", "scaks/solvers/solver_base.py: SolverBase.get_rxn_rates_TST", "scaks/solvers/mean_field_solver.py: MeanFieldSolver.get_rates, MeanFieldSolver.get_net_rates, MeanFieldSolver.get_rate_constants", "scaks/solvers/steady_state_solver.py: SteadyStateSolver.steady_state_function"]}
{"id": "C122", "title": "Every network has a physical steady state", "statement": "For every reaction network whose rate constants, pressures, concentrations and site totals are not negative there are coverages, none negative and none over-filling its site, at which the steady state function returns only zeros; and from every physical beginning there is such a state in which every conserved amount of adsorbates is the same as at the beginning. So a steady-state search always has something to find.", "quantifier": "all networks, energies, temperatures, pressures, totals and beginnings", "why_tests_cant": "Existence for all networks cannot be observed from runs: a failed search shows nothing, and a successful one covers one input.", "anchors": ["scaks/solvers/mean_field_solver.py: MeanFieldSolver.get_rates, MeanFieldSolver.get_rate_constants", "scaks/solvers/steady_state_solver.py: SteadyStateSolver.steady_state_function, SteadyStateSolver.get_steady_state_cvgs", "scaks/models/micro_kinetic_model.py: MicroKineticModel.run"]}
{"id": "C123", "title": "No surface species vanishes in a steady state of an unblocked network", "statement": "If no set of surface species can block itself (stay away once it is away, short of a whole kind of site), then in every physical steady state with positive rate constants, pressures, concentrations and totals every adsorbate and every kind of free site has a positive coverage; all forward and reverse rates are positive, so the reversibilities are defined. Networks in which every adsorbate adsorbs directly on free sites are of this kind, whatever their other reactions.", "quantifier": "all networks without blocked species, all physical steady states, all positive conditions", "why_tests_cant": "A run shows one steady state of one network; that a zero coverage (and a division by a zero rate) cannot occur in any of them is not observable.", "anchors": ["scaks/solvers/mean_field_solver.py: MeanFieldSolver.get_rates, MeanFieldSolver.get_reversibilities", "scaks/solvers/steady_state_solver.py: SteadyStateSolver.steady_state_function"]}
{"id": "C124", "title": "An unblocked surface fills at once and goes to its equilibrium", "statement": "From every physical beginning, also from the empty or the full surface, the coverages of an unblocked network followed in time have every adsorbate and every kind of free site present at all later times. If the gases can be in equilibrium with the surface, every physical steady state is an equilibrium without turnover, there is only one with given conserved amounts, and from every physical beginning with these amounts the coverages converge to it.", "quantifier": "all networks without blocked species, all beginnings, all times", "why_tests_cant": "It is a statement about all solutions of the equations for all times; an integration shows one solution up to one time with rounding.", "anchors": ["scaks/solvers/mean_field_solver.py: MeanFieldSolver.get_rates, MeanFieldSolver.get_tof", "scaks/solvers/steady_state_solver.py: SteadyStateSolver.steady_state_function, SteadyStateSolver.solve_ode"]}
{"id": "C125", "title": "The lattice model has one equilibrium and forgets how it began", "statement": "From every distribution of configurations at the beginning the processes handed to the Monte Carlo engine give one distribution at every later time. If every configuration can be reached, which holds if every type can adsorb on and desorb from single sites, there is exactly one stationary distribution, all configurations have a positive chance in it, and every distribution tends to it exponentially fast, so the means of coverages and of numbers of events tend to values that do not depend on the beginning. If the rates balance with energies of the element types it is given by the Boltzmann weights, and the mean of the coverage that the analysis records tends to the isotherm. The rates handed over are never negative.", "quantifier": "all lists of processes, all finite lattices, all beginnings, all times", "why_tests_cant": "One simulation is one history of one lattice; uniqueness of the equilibrium and the loss of the beginning are statements about all distributions and all times.", "anchors": ["scaks/solvers/kmc_solver.py: KMCSolver.get_processes, KMCSolver._KMCSolver__get_single_process", "scaks/solvers/kmc_plugins/kmc_functions.py: collect_coverages"]}
{"id": "C126", "title": "The events counted account for the change of the lattice", "statement": "Whatever sequence of processes happens on the lattice, the change of the number of sites of each element type (and of every other sum over the sites) is the sum over the reactions of the net number of events that the frequency analysis reports, times the change by one event. The reported rates account for the change in the counted time in the same way, so that for each element type they balance up to one over the counted time. In the mean over the runs, the numbers change at every time by the mean rates of the processes, and in a stationary distribution these cancel.", "quantifier": "all lists of processes, all lattices, all runs, all numbers of steps, all energies or other quantities of the sites", "why_tests_cant": "A simulation in a test shows the numbers of one run; that the numbers fit the lattice after every possible run is a statement about all sequences of events.", "anchors": ["scaks/solvers/kmc_plugins/frequency_analysis.py: FrequencyAnalysis.registerStep, FrequencyAnalysis.finalize", "scaks/solvers/kmc_solver.py: KMCSolver.get_processes, KMCSolver._KMCSolver__get_single_process"]}
{"id": "C127", "title": "Collision theory and equilibrium", "statement": "With rate constants by collision theory from absolute energies, the ratio of the two constants of a reaction is the Boltzmann factor of its free energy, where a gas counts with the entropy term of the library at the pressure of the calculation; unless the reverse constant reaches kB T / h, where the code cuts its barrier off. Below that limit the mean field model and the lattice model are thermodynamically consistent: reactions run towards lower chemical potential, free energy never rises, reported reversibilities multiply to the free energy of the overall reaction, the lattice processes are balanced, and equilibria are those of transition state theory with the same energies.", "quantifier": "all networks, temperatures, pressures, coverages, areas and ratios of active sites, all tables of absolute energies, one gas per reaction", "why_tests_cant": "Two routes of rate constants can agree in the cases a test runs and differ in others; consistency with equilibrium is about every cycle of reactions and every coverage.", "anchors": ["scaks/solvers/solver_base.py: SolverBase.get_rxn_rates_CT, SolverBase.get_kCT", "scaks/correctors/thermodynamic_corrector.py: ThermodynamicCorrector.entropy_correction", "scaks/solvers/mean_field_solver.py: MeanFieldSolver.get_rate_constants"]}
{"id": "C128", "title": "Turnover exactly away from equilibrium of the gases", "statement": "A mean field model has an equilibrium exactly if the gases and liquids it is given are in equilibrium with each other: no combination of its reactions that leaves the surface as it is changes their free energy. Then every physical beginning tends to an equilibrium, the only one with its conserved amounts, and no steady state turns anything over. If they are not in equilibrium, every physical steady state turns something over.", "quantifier": "all networks, energies, temperatures, positive pressures, concentrations and totals of sites; all steady states and all solutions of the coverage equations; rate constants by transition state and by collision theory", "why_tests_cant": "Whether a catalyst model turns anything over at given pressures is decided by all cycles of its reactions together; a test sees one network at one set of pressures and a solver that stops at a tolerance.", "anchors": ["scaks/solvers/mean_field_solver.py: MeanFieldSolver.get_rate_constants, MeanFieldSolver.get_rates, MeanFieldSolver.get_tof", "scaks/solvers/steady_state_solver.py: SteadyStateSolver.steady_state_function", "scaks/models/micro_kinetic_model.py: MicroKineticModel.run"]}
{"id": "C129", "title": "The lattice model and the mean field model have the same equilibria", "statement": "A lattice model that shows every reaction of a mean field model, with its rates, is in equilibrium at independently occupied sites exactly when the mean field model is in equilibrium at those coverages. Then a lattice run forgets its beginning and correlations between sites vanish: every arrangement of the lattice gets as probability the product of the coverages of its sites. Both models tend to the same coverages from every beginning. Away from equilibrium they need not agree, not even when every rate does.", "quantifier": "all networks, energies, temperatures, positive pressures and totals; all lattices, placements and processes that show the reactions; all solutions of the coverage equations and of the master equation", "why_tests_cant": "The mean field model neglects correlations; whether the two kinds of run agree is a statement about limits of all runs of both, of which a test sees one noisy lattice run and one truncated integration.", "anchors": ["scaks/solvers/kmc_solver.py: KMCSolver.get_processes, KMCSolver._KMCSolver__get_single_process", "scaks/solvers/kmc_plugins/kmc_functions.py: collect_coverages", "scaks/solvers/mean_field_solver.py: MeanFieldSolver.get_rates, MeanFieldSolver.get_rate_constants", "scaks/solvers/steady_state_solver.py: SteadyStateSolver.steady_state_function"]}
{"id": "C130", "title": "Finite precision changes rates by a bounded relative error, but not net rates", "statement": "The mean field solver computes with numbers of `decimal_precision` digits. The coverages it uses are the exact ones of a model whose site totals differ from the given ones by rounding errors of the total and the coverages of that site. Computed rate constants and rates are the exact ones of that model up to a relative error that depends only on the precision, the number of factors and the size of barriers in units of kT; the same calls fail, and a rate is zero or positive exactly if the exact one is. Net rates and the right hand sides of the coverage equations are off by at most such a part of all gains and losses added up, so coverages accepted with a tolerance satisfy the exact equations up to that tolerance and this part; turnover frequencies likewise, by a part of all production and consumption of the gas. Reversibilities again have a relative error. There is no such bound relative to the net rate itself: at every precision a computed net rate can be zero although the exact one is not. The same holds for free sites: at every precision there are coverages for which the computed coverage of free sites, and with it every adsorption rate, is zero although some are free.", "quantifier": "all precisions and ways of rounding whose operations have a bounded relative error; all networks, constants, energies, coverages, totals and pressures", "why_tests_cant": "The size of rounding errors depends on all numbers at once; a test compares a few values at one precision and cannot see the worst case, nor that it exists for every precision.", "anchors": ["scaks/solvers/mean_field_solver.py: MeanFieldSolver._cvg_tuple2dict, MeanFieldSolver.get_rates, MeanFieldSolver.get_net_rates, MeanFieldSolver.get_tof, MeanFieldSolver.get_reversibilities, MeanFieldSolver.get_elementary_rate_expression", "scaks/solvers/steady_state_solver.py: SteadyStateSolver.steady_state_function, SteadyStateSolver.get_adsorbate_dtheta_dt_expression", "scaks/solvers/solver_base.py: SolverBase.get_kTST"]}
{"id": "C131", "title": "Energies in finite precision stay consistent up to rounding", "statement": "When barriers and reaction energies are computed with numbers of finite precision from absolute energies, each of them differs from the exact one by at most a rounding error of the energies of the states; the difference of the barriers is the reaction energy up to roundings of these three numbers alone; the total reaction energy of a closed combination of reactions is zero up to rounding; the ratio of the computed rate constants is the equilibrium constant of the computed reaction energy up to a bounded factor, and the constants are positive. For energies given as barriers and reaction energies only the reverse barrier is rounded. Corrections make reactions without a transition state consistent up to rounding and add at most roundings to the others.", "quantifier": "all tables of energies, reaction networks, temperatures and all arithmetics whose operations have a relative error of at most u (in particular rounding to p binary digits for every p)", "why_tests_cant": "Rounding errors depend on the particular numbers; a test sees a few of them and cannot bound the error for all tables, nor separate the size of the energies from the size of the barriers.", "anchors": ["scaks/parsers/parser_base.py: ParserBase._get_state_energy, _get_single_relative_energies, _get_relative_from_absolute", "scaks/parsers/relative_energy_parser.py: RelativeEnergyParser.parse_data", "scaks/solvers/solver_base.py: SolverBase.get_kTST"]}
{"id": "C132", "title": "A small residual means that a steady state is near", "statement": "For a given network and given rate constants: for every distance there is a tolerance such that physical coverages (not negative, no site over-full) whose residual is below the tolerance lie within this distance of physical coverages at which the right hand sides are zero; so a search with this tolerance that returns physical coverages returns them close to a steady state, and if there is only one, close to it. The tolerance depends on the rate constants.", "quantifier": "all networks whose rates can be formed, all rate constants, pressures and concentrations, all distances, all iterators, hybrid methods and beginnings of the search", "why_tests_cant": "The search stops on the size of the residual, not on the distance from a solution; a test knows the solution of a few networks only, and the distance depends on all rate constants at once.", "anchors": ["scaks/solvers/steady_state_solver.py: SteadyStateSolver.get_residual, get_steady_state_cvgs, steady_state_function", "scaks/solvers/mean_field_solver.py: MeanFieldSolver.get_rates, get_net_rates"]}
{"id": "C133", "title": "Coverages found by the search are coverages of a surface", "statement": "Coverages returned by get_steady_state_cvgs are physical: one number for every adsorbate, none negative or above one, and on no site do they add up to more than the site has.", "quantifier": "all networks, rate constants, pressures, guesses, both iterators, all hybrid methods and histories of the solver", "why_tests_cant": "Whether an iteration leaves the surface depends on the rate constants and on the guess together; from most guesses the same model gives a physical solution, so a test with a fixed guess does not see the others.", "anchors": ["scaks/solvers/steady_state_solver.py: SteadyStateSolver.get_steady_state_cvgs, __constrain_coverages", "scaks/solvers/rootfinding_iterators.py: ConstrainedNewton, MDNewton"]}
{"id": "C134", "title": "Attributes of a model change only by assignment", "statement": "Once an attribute of a model has been assigned or read, it stays the same, and what it is was checked; an attribute nobody assigned has the documented default. Nothing done to other models, or to lists and dictionaries got from a model or given to it, changes this.", "quantifier": "all histories of making objects, changing them in place, reading and assigning the attribute, on any number of models", "why_tests_cant": "Needs two models, or an object changed after it was given away, in one program; tests use one model and leave its lists alone.", "anchors": ["scaks/descriptors/descriptors.py: AttrDescriptor.__get__, AttrDescriptor.__set__, SpeciesDefinitions", "scaks/models/kinetic_model.py: KineticModel", "scaks/models/kmc_model.py: KMCModel"]}
{"id": "C135", "title": "Reading an animation gives all of its frames", "statement": "Reading an animated GIF file gives all of its frames, in order, as arrays or as images, or raises an exception: no frame is left out, repeated or exchanged, and a damaged file is reported.", "quantifier": "all files, as far as they are decoded (any number of frames, any exception at any frame or at the end), with and without the libraries, arrays or images asked for", "why_tests_cant": "The exception that ends the loop at the last frame is the same as one raised inside a damaged frame; tests read intact files.", "anchors": ["scaks/plotters/images2gif.py: readGif"]}
