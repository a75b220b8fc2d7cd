# Formal model of SCAKS: design

The code under study is the Python package in `/repo/scaks` (with the C++ coverage routine in `/repo/c++/src/kmc_functions.cpp`).
The model and all proofs are in Lean 4 under `lean/Verif`.

## How the model is organised

| directory | content |
|---|---|
| `Verif/Py/*` | the fragment of Python semantics the code relies on: exceptions as values, insertion-ordered dictionaries, string methods, a backtracking regular-expression matcher |
| `Verif/Model/*` | function-by-function models; every definition cites file and lines in `/repo` |
| `Verif/Lemmas/*` | helper lemmas about the models (no claims) |
| `Verif/Props/*` | the small independent specifications, the property theorems (names start with the property id, e.g. `C42_…`), and beside each a concrete case meeting its hypotheses |

Conventions:

* `Cnn_name` is a full proof of (a part of) property `Cnn`; `Cnn_name_partial` is a proof under an extra guard, the guard being
  exactly what the code needs; `Cnn_name_refuted` is a proof that the unguarded property is false for the code that exists, with a concrete witness.
* Exceptions are values (`Except PyErr`). A theorem about a function that can raise covers the raising branch or says which inputs do not raise.
* Numbers: Python floats, `mpmath`/`gmpy` numbers and `numpy` arrays are idealised as exact numbers: an arbitrary linearly ordered field
  where only arithmetic is used, `ℝ` where `exp`, `log` or `sqrt` is used. Rounding is modelled for
  the mean field rates and equations (C130) and for the energies (C131); everywhere else it is not.
* Text: `List Char`. The character classes `\w`, `\d`, blanks are the ASCII ones; other Unicode letters, digits and blanks are not modelled.

## Trusted base

* Lean's kernel (version 4.33.0) and Mathlib as installed. No axioms are added; the theorems depend at most on `propext`,
  `Classical.choice` and `Quot.sound` (`Verif/Audit.lean` prints them for each property theorem).
* The hand translation from Python to Lean. Each definition carries the lines it models and what was simplified.
* The semantics of Python itself for the fragment used, as written in `Verif/Py/*`.
* Taken from the documentation of libraries and not checked: `interp2d(kind="linear")` sorts its grid, follows straight lines between nodes, is constant outside, and wants a table of the shape of the grid (C115); `np.linspace`; `plot` raises for lists of different lengths (C107, C116).
* Not modelled: `numpy` linear algebra (`svd` in `get_total_rxn_equation`, `solve`), `scipy` integrators (the ODE integrator is an arbitrary
  function), `sympy` internals (symbolic expressions are modelled by their value), `mpmath`/`gmpy` rounding (except as a parameter in C130 and C131), logging, plotting,
  KMCLib itself (its event sequence is arbitrary input), MPI transport (`allgather` is taken to gather in rank order).


## Properties: what is modelled and how it is proved

| id | property | plan |
|---|---|---|
| C01 | A formula text is read back exactly | Regex as ordered-choice matcher (`Py/Regex`), `Model/Formula`. Round trip `parse (render f) = f` by lemmas on greedy stars; soundness by inversion of the match. |
| C02 | Element counts are coefficient times composition and add up over a state | `Model/Formula`, `Model/State`. Spec: sum over tokens. Induction over token list / formula list; permutation invariance. |
| C03 | An equation text is split into its states in order | `Model/Equation`. Matcher for the three-group expression; rendered texts parse back; no arrow gives the error. |
| C04 | Conservation check accepts exactly the balanced reactions | `Model/State`,`Model/Equation`. Spec: totals of each letter/site as functions; `↔` theorem under positive coefficients; zero-coefficient counterexample. |
| C05 | An accepted reaction conserves molecular mass | Spec: `string2symbols` counts. Proved for names over one-letter symbols; refuted with `Cl2_g + C_s -> 2Cl_s + *_s`-like witness. |
| C06 | Reverting a reaction reverses its states and is an involution | `revert` as rendering followed by parsing; uses C03. |
| C07 | Per-state species dictionary reports total coefficients | Refuted for repeated species; partial for distinct ones. |
| C08 | Species of a network are classified completely, once, and canonically | `Model/Network`. Membership characterisations, `Sorted`, `Nodup`, permutation invariance. |
| C09 | Stoichiometry matrices hold initial minus final coefficients | `Model/Network`. Loop invariant by induction over formula list. |
| C10 | Matrices of accepted networks conserve every element and site | From C04 and C09: weighted row sums. |
| C11 | Turnover frequencies at steady state conserve every element | From C10: finite sums exchanged. |
| C12 | Relative energies derived from absolute energies are thermodynamically consistent | `Model/Energy` over a linear ordered field. |
| C13 | Relative energy input is normalised consistently | `Model/Energy`: element-wise pass; idempotence; error branch leaves owner's energies. |
| C14 | Energy correction keeps relative energies consistent | `Model/Corrector`: in-place pass over index list. |
| C15 | Gas corrections scale with the coefficient of the gas | Refuted (`2CO_g` keys), partial for coefficient 1. |
| C16 | Transition state theory rate constants are positive and monotone | `Model/Rates` over ℝ; Mathlib `Real.exp` monotonicity; derivative-free monotonicity in T. |
| C17 | Detailed balance of TST rate constants | `Real.exp_sub`. |
| C18 | Equilibrium is a fixed point of the kinetics | Combine C12, C17, C25: products of exponentials. |
| C19 | Collision theory and TST barrier conversion are inverse | `Real.log_exp`/`exp_log`. |
| C20 | Collision theory rates are bounded and guarded | Order reasoning on ℝ with `max`. |
| C21 | Rates including pressure are proportional to every gas consumed | Refuted for repeated/with coefficient; partial otherwise. |
| C22 | Each reaction uses its own energies | Refuted for duplicate expressions; partial for `Nodup`. |
| C23 | Coverage conversion conserves sites and round-trips | `Model/MeanField`: list look-ups, sums over filtered lists. |
| C24 | Constrained coverages are physical | `Model/Constrain`: clip then rescale per site; fold over sites. |
| C25 | Rates obey the law of mass action | `Model/Expr`: expression trees as generated text with an evaluator; theorem evaluator = product of powers. |
| C26 | Coverage derivatives are stoichiometry times net rates | Refuted for a species on both sides or repeated; partial otherwise, by induction over reactions. |
| C27 | Site conservation of the coverage equations | From C10 and C26. |
| C28 | Analytical Jacobian is the derivative of the coverage equations | `Model/Jacobian`: term rewriting on factor lists; `HasDerivAt`; refuted for subtracted terms with both factors, partial otherwise. |
| C29 | Symbolic and numerical coverage equations agree | Symbolic version as expression without coefficients: refuted for coefficient 2, partial for coefficient 1. |
| C30 | Residual measures stationarity | Maximum of absolute values. |
| C31 | Returned steady states are converged and physical | `Model/SteadyLoop`: loop over oracle streams of Newton iterates; invariant; refuted for unconstrained hybrid guesses. |
| C32 | On-the-fly analysis plugins follow their protocol | Call trace of the loop; refuted for good initial guesses (finalize without setup), partial otherwise. |
| C33 | Newton iterators report consistent and monotone states | `Model/Newton`: generator as step function; invariant over runs. |
| C34 | Rate control analysis leaves the model as it was | Effects model of XRC on store. |
| C35 | Archive holds the latest whitelisted values | State machine archive; refinement to map of last values. |
| C36 | A crash never loses archived data | Write split in truncate and dump; refuted; partial: crash outside the write window is safe. |
| C37 | A later run starts from the archived steady state | Writer and reader keys; refuted. |
| C38 | Model attributes are write-once and always valid | Descriptor state machine; invariants by induction on histories; default-freezing read refuted. |
| C39 | Attribute type checks accept exactly the declared values | Decision function on a value type. |
| C40 | Cached rate constants equal recomputed ones | Cache state machine with several instances; refuted; partial for a single environment. |
| C41 | Analysis registered on one model does not affect another | Heap model of shared default; refuted; partial. |
| C42 | Work sizes split over processes are complete and balanced | `Model/Mpi`: sums of lists. |
| C43 | Splitting and merging a sequence over processes gives it back | `Model/Mpi`: exact characterisation: prefix of length size*(len/size); equality iff divisible. |
| C44 | Coordinate groups stay consistent | State machine; refuted through failing append; partial for successful operations. |
| C45 | Moving coordinate groups is translation | List maps over an additive group. |
| C46 | Merging coordinate groups covers both operands | Nested loops; induction. |
| C47 | Accepted process definitions are well formed | Decision procedure = declarative predicate. |
| C48 | Accepted analysis intervals are usable | Decision procedure; refuted for non-positive steps. |
| C49 | Species definitions provide every gas pressure | Decision procedure. |
| C50 | Lattice site maps match the lattice | Length and membership. |
| C51 | Every lattice process is labelled with its reaction | Two lists built in lock step; refuted for redistribution/fast; partial otherwise. |
| C52 | Lattice coverages are fractions that add to one | Sums over lists. |
| C53 | Python and compiled coverage collection agree | Two loops related by `i % n`; refuted for duplicates/incomplete cells; partial otherwise. |
| C54 | Event frequencies count every step once | Invariant over event histories. |
| C55 | Windowed turnover frequencies account for every event | Invariant over event histories; refuted for the tail. |
| C56 | Event tables give a probability distribution | Sums over lists; buffer replay; last table missing (refuted). |
| C57 | Buffered analysis files reproduce the whole recording | File as list of extend-statements with executor; invariant; refuted for empty coverage flush. |
| C58 | Chemical symbol expansion is compositional | Recursive grammar; fuel-free recursion on length; round trip from syntax trees. |
| C59 | Time conversion is exact and normalised | Integer/ordered field floor division. |
| C60 | Numerical Jacobian is exact on affine functions | Finite-difference algebra. |
| C61 | Reversibilities characterise equilibrium | List recursion; division facts. |
| C62 | Boltzmann coverages form a distribution | Sums of exponentials. |
| C63 | Setup values are loaded independent of order and unknown keys are ignored | Fold over keys with write-once attributes; permutation invariance. |
| C64 | ODE trajectory sampling | Loop over steps; list of samples. |
| C65 | No part of an accepted text is ignored | Same matchers; counterexamples for arbitrary text (refuted), completeness for documented texts. |
| C66 | A correction of zero leaves the energies unchanged | Model of the correction loop; refuted for two-state reactions with an explicit barrier, proved otherwise. |
| C67 | The entropy correction is defined and depends on pressure like an ideal gas | Real-number model of the partition functions with the literal tables; log algebra; refuted at low temperature where an undefined attribute is used. |
| C68 | Incomplete energies are rejected | Model the key check as written and the lookups. Prove rejection for the reverse key, refute for the forward key and for the reaction energies. |
| C69 | Turnover frequency counts produced molecules | Model get_tof with the stoichiometry matrices; prove equality with the independent production sum and the error case. |
| C70 | Runs start from the coverages the user gives, and a first run finds its own | Model the choice of the starting point in run as a function of the argument, the archive content and the number of adsorbates; prove the chosen start in each case. |
| C71 | Symbolic and numerical rates agree | Sympy expressions as trees with a value; the value of each rate expression is the product of rate constant and activities. Networks with liquids are refuted. |
| C72 | Results of a run belong together | The run is modelled as a function of the state of the model and its solver, with the search of C31 inside, storing the results one after the other as the code does; `fsolve` of SciPy and ODE integration are arbitrary functions. Invariant over histories by induction. |
| C73 | Analysis plugin classes are checked and complete | Classes as lists of dictionaries searched in resolution order; the metaclass as a function on the class body. Acceptance is an equivalence with an independent description; induction over chains of derived classes. Inherited hooks are refuted. |
| C74 | Several processes construct a model and store their archives | A state machine with one program counter per process, counted barriers and two directories; a schedule is a list of ranks. Invariant by induction over the schedule; deadlock and failure schedules as refutations; a bound on the number of steps gives termination. |
| C75 | Log messages of a model go where its levels say | The logger as a state machine with a list of handlers; induction over histories. Refuted for two models. |
| C76 | Components can be exchanged | Instance dictionary with mangled names; the three methods as written, names looked up in the function and then in the module. |
| C77 | Generated energy files, filled in, are read back | The text of the files, and a reader for the part of Python that occurs in them; reading a number is an arbitrary function. Read-back by induction over the entries; completeness from the classification of species. |
| C78 | Lists and dictionaries written to data files are read back | The loops as written, and a reader for list and dictionary displays working character by character; induction over the elements, nested elements as texts with matching brackets. |
| C79 | The total reaction equation is the net reaction of the network | Model: weights from any null-space basis, weighted sum of the matrix rows, division by the smallest, truncation, text and check. Proved: what a returned equation says (by reading the text back); completeness when the ratios are whole numbers; failures for recycled gases, ratios that are not whole, and reactions that run in reverse. |
| C80 | LaTeX texts show the whole reaction | Model: texen of formula, state and equation and get_latex_strs. Proved: the text equals an independent rendering for every reaction and spelling of the arrows; equality of texts is exactly equality up to the number of sites (by splitting the text back into words); counterexamples for the number of sites, counts inside a name and equations with one side. |
| C81 | A lattice run uses the files, settings and labels of the model | Model: a state machine of the model with its solver (files read, process cache, shared label list, calls to the simulation). Proved by induction over histories: all calls get the cached processes, made of definitions and energies that were read, with their labels once. Counterexamples: files read later are ignored, labels after a failed attempt, a failed reading mixes energies and definitions, the time seed is ignored. |
| C82 | The analytical Jacobian of a model does not depend on other models or earlier calls | Model: the shared cache of derived texts, threaded through the loops of analytical_jacobian. Proved by induction over histories: every entry was derived by some earlier model, so the result is the one without cache for one model, for models of one network with equal site totals, and whenever the models agree on shared equations. Counterexamples: a model with more adsorbates on the site gets a wrong entry; in the other order a KeyError. |
| C83 | The Shomate correction of a gas is a Gibbs energy | Model: the full table as exact rationals, the three polynomials and the loop over the entries over the reals. Derivatives by HasDerivAt, enthalpy by the fundamental theorem of calculus; selection of the entry by induction over the table; above the data: zero for all temperatures, with a witness of a jump of more than 1 eV. |
| C84 | The entropy correction is the free energy of an ideal gas | Model over the reals with both tables. The value is proved equal to the textbook sum of logarithms (thermal wave length, rotational sum, one term per vibration) by logarithm laws and induction over the vibrations. Refuted: the ground state energy is contained for gases with one vibration only; degenerate vibrations are counted once. |
| C85 | Reactions run downhill in free energy | Chemical potentials are defined in the specification from the table and the activities. The ratio of the two rates is the exponential of the change of potential (products over the states). Summed over the reactions, each term (rf - rr) * log(rr/rf) is at most zero; exchange of sums gives the derivative of the free energy. Refuted for sites with a star in the name: the energy of the adsorbate is never used. |
| C86 | What is absent is not consumed | Law of mass action (C25): the activity of a state with something absent is zero. The derivative is a sum over reactions whose consuming parts vanish (C26, C27). Refuted: an adsorbate that occurs only as an intermediate is driven negative, and one on two sites lets the coverages exceed the total. |
| C87 | The order of the reactions does not matter | Rates are functions of the text of a reaction and of the data of the species; the species are sorted, so they are the same lists. Sums over a permuted list are equal. |
| C88 | The direction in which a reaction is written does not matter | Net production of a reaction is unchanged when states and constants are exchanged; reversal of the texts comes from C05 and C12. Refuted for adsorbates on both sides and for collision theory. |
| C89 | The unit of time is free | Every term is linear in exactly one rate constant; induction over the terms. |
| C90 | Degrees of rate control mean what the literature says | The constants of raised barriers are those of the unperturbed model times the same factor in both directions. Net rates are linear in the constants of one reaction. The sum rule is Euler's identity for a function homogeneous of degree one in all constants (C89), by the chain rule along the diagonal. |
| C91 | Sub-rectangles of an animation show the original images | The difference of bytes modulo 256 is zero only for equal bytes, so the limits found by argwhere hold all changed pixels; induction over the images with the invariant that the screen shows the image before. |
| C92 | Animated GIF files hold what was asked for | A decoder written from the format as specification; reading the bytes of each function gives back its arguments, and induction over the frames. The packing of Pillow is a function with the properties the format asks for, and Lean checks that there is one. |
| C93 | The coverage equations have one physical solution for all times | The derivatives computed by the model as a polynomial vector field on adsorbates and free sites; theorem of Picard and Lindelöf for the field cut to the physical range, Gronwall's inequality for the squares of the negative parts and of the difference of two solutions, conservation of sites to remove the cut; C85 and C86 at each time. |
| C94 | Each reaction gets its own energy profile | The directory as a dictionary from names to images, the loop with its index. Injectivity of decimal numbers before the first underscore; induction over the reactions; the highest point of the profile compared with the highest of start, barrier and end. |
| C95 | Scripts of simulation objects rebuild them | Scripts as statements with a small interpreter; generated names are injective, induction over the list of processes. |
| C96 | Equilibrium: no turnover, one state, reached from everywhere | Affinities of the reactions relative to the equilibrium as logarithms of rate quotients; free energy relative to equilibrium as Lyapunov function with a continuous bound for its decay, compactness of the reachable set; existence by scaling of balanced activities to the totals; a rational witness of two steady states. |
| C97 | The default search always makes progress | The equations as one function differentiable in all coverages; entries of the analytical Jacobian as partial derivatives (C28), so the direction found decreases the squared norm to first order; the sequence of halved steps tends to zero; induction over the steps. A witness where the Jacobian is wrong and the halving never ends. |
| C98 | Tables in the log show every result with its name | Format with width and scientific format (rounding half to even, carry into the exponent) as functions on exact numbers; separate readers for numbers, rows and tables; the value read is within half a unit of the last digit; induction over the rows; turnover frequencies composed with the calculation (C69). |
| C99 | New guesses come from ten seconds of integration | The hybrid method becomes a function of the coverages kept and the number of the guess; ODE_integration on top of the model of solve_ode (C64) with an abstract integrator. An exact integrator follows the unique solution (C93), so a thousand steps give its state after ten seconds; composed with C97 for the round that follows. |
| C100 | The plotted turnover is what the reactions make | The script is a function of the file and the product; the file is that of the model of the TOF plugin (C57). The labels are texts of reactions of the grammar (C04) with the mark of the direction. Molecules are counted on the syntax tree of the reaction. |
| C101 | The plotted frequencies pair the two directions | Sorting of the labels by code points; entries with even and odd positions. Reaction texts hold no bracket, so the two labels of a reaction are neighbours. |
| C102 | A continued lattice run begins where the last one ended | Text of the file as lines with their line ends; a reader for files of assignments in one line. Induction over the lines and over the continuations. |
| C103 | Series of jobs differ from their template in the pressures only | The script as a list of steps on the directories, run from any state; values of setup files as a tree. Induction over the jobs with the relation 'differs in pressures only'. |
| C104 | The run script starts the search from the end of the integration | The script as one function of integrator, archive and search. The trajectory by induction over the steps with uniqueness of solutions (C93), the result by convergence of the search (C90). |
| C105 | Results of a series of lattice runs are gathered with their own pressures | Reading of the files by the model of C57, the loop over directories, and sorting by any function that gives the places of the entries in increasing order. Pairs are kept by permutation arguments; uniqueness for different pressures. |
| C106 | Maps over two pressures hold every run at its own place | The nested loop over listings with the value of a run as a parameter, then the three values. Induction over the listing; concrete maps where the rows do not agree. |
| C107 | The figures of coverages show the coverages of the file | The data given to the plotting library as a function of the executed file. Induction over the types; the sum by the first letters. |
| C108 | The event file tells what was possible and what was picked | The cells and texts around the tables as functions, with the table library as a parameter, on top of the model of the buffer of C56. The numbers are read by a separate specification; the file by the theorem on the buffer; the sum of percentages by induction over the rows. |
| C109 | Definitions of processes are the superposition of their groups of sites | The two loops over the store of lists of C44 to C46. A sum of groups on a grid is first shown to be the pointwise superposition (C46_union); then induction over the groups, the places and the lists of groups. |
| C110 | Pictures of lattice trajectories show every site of every frame | The points as a list; the classification by types is a permutation of it, by induction with the dictionary as state. The names of the files by induction over the frames with the number of frames of every step so far. |
| C111 | Pictures of processes show the state before and the state after | The moved coordinates of C45 times the rows of the cell; the names are read back from their digits, so that equal names have equal numbers. |
| C112 | Analysis plugins with a state that may raise | The loops of C31 with a state threaded through the methods of the plugins, each of which may raise. The spec of the bodies as for C31; a simulation between the loops with plugins that do not raise and the loops of C31 and C32; induction over the items of the iterator for the plugin of the example. |
| C113 | Adding formulas and comparing objects of different kinds | The two methods as functions of an argument that is a formula, a state or another object, with results that are booleans or returned exceptions. States are reduced to the specification of C02; the text of a sum is read back as in C01; refutations for all objects. |
| C114 | What the run scripts leave behind | Directories as sets of names, the script as stages any of which may fail, and the removal of old output as a transition system of a master and its workers with a barrier; invariant over all schedules. |
| C115 | Maps over two pressures | Linear interpolation over a grid as sorted nodes and a recursive spline, first along the rows and then across them; nodes, cells, bounds and linearity by induction on sorted lists; the window of the figures as exact lists of places; composed with the collection of the runs (C106). |
| C116 | Figures of series | Figures as limits, curves and labels given to the plotting library; exact conditions for success; composed with the collection of the runs (C105) for a statement from directories to figure; refutations by witnesses and for all inputs. |
| C117 | The choice of colours for pictures | The arrays as lists of rational numbers, the loops as recursions, slices with Python's rules for negative bounds; invariants over the learning by induction on the pixels; the index by an invariant over the selection sort; the visited places by the cancellation law modulo the size of the picture. |
| C118 | Equations written to a file | The file as an optional text, each call as a function to its result and the file after it, a history as a list of calls; induction over the calls. Braces by counting those open after each character. |
| C119 | Reversibilities reported by a run follow the gas phase | From C72 (what a run reports) and C85 (ratio of the rates of one reaction); the sum over reactions is exchanged with the sum over species. |
| C120 | The lattice model has the equilibrium of its energies | Model of the rates given to processes; the jump process of a list of processes is specification (the engine is not modelled). Pairing of processes as in C51, rates from C12, C17 and C21, coverages from C52. |
| C121 | The lattice model and the mean field model agree on independent sites | Same jump process as in C120. The chance of a list of types at a place is a product over sites (sum over all functions); each jump has one target; the pairing of processes from C51, the rates from C21 and C25, the derivatives from C26. |
| C122 | Every network has a physical steady state | Brouwer's fixed point theorem (proved here by the argument of Milnor and Rogers with the change of variables formula) gives a zero of every continuous field that points into a compact convex set; the set of physical states with given conserved amounts is one for the coverage equations, by the boundary behaviour of C86 and the site balance of C27. |
| C123 | No surface species vanishes in a steady state of an unblocked network | At a steady state the absent species form a self-blocking set: a species with coverage zero is produced at a rate that is a sum of terms none of which is negative, so each term is zero and one of the reactants of every producing direction is absent. A self-blocking set that holds a whole kind of site contradicts its positive total. |
| C124 | An unblocked surface fills at once and goes to its equilibrium | The set of species present only grows in time (C93), so just after the beginning it is constant; then the absent species do not change and block themselves (C123), which leaves none. Convergence from the interior is C96; its condition on the boundary holds by C123. |
| C125 | The lattice model has one equilibrium and forgets how it began | Master equation of the jump process of the processes as made by the solver. Stationary weights from the kernel of the equation, positive as every configuration is reached. Uniqueness and convergence from the sum of squared differences over the jumps: it vanishes only for multiples of the weights, so by compactness it bounds the distance from them (a gap), and the distance decays. Existence and positivity as for the mean field equations. |
| C126 | The events counted account for the change of the lattice | A run is any sequence of jumps that processes of the list allow at their places (the engine is not modelled). Induction over the run for the sums, C54 for the counters, C51 for the labels; the master equation of C125 for the means. |
| C127 | Collision theory and equilibrium | The two branches of the code give kf/kr = exp(-(dG - n c)/kB T) or cut the barrier off (C20); the correction c splits into a term of temperature only and kB T log p; the network theory of C85, C86 and C119 holds for any constants with such a ratio (FitConstants). |
| C128 | Turnover exactly away from equilibrium of the gases | Linear algebra: the equations for the logarithms of the activities have a solution exactly if every combination of reactions that vanishes on the surface has a vanishing right side, which is the free energy of the gases (GasesInEquilibrium). Existence of the equilibrium by C96, an equilibrium for every beginning by a minimum of the dissipation on a compact set, convergence by C124; turnover zero gives standstill by C85. |
| C129 | The lattice model and the mean field model have the same equilibria | Rates of the two models agree by C121; a vanishing net rate of the mean field model is then detailed balance of the process with the coverages as weights of the types (C120). Independence, convergence and coverages by C125; the mean field limit by C128. Refutation: dissociating oxygen with its own removal on two sites, the master equation of four arrangements solved exactly. |
| C130 | Finite precision changes rates by a bounded relative error, but not net rates | The operations are a parameter; an arithmetic rounds with `u` if each operation is within the part `u` of the exact result. Products multiply the factors 1+u, sums from left to right are bounded by induction with the sum of sizes, the free coverage is explained by a changed total. Round-to-nearest with p binary digits is shown to meet the hypothesis and gives the refutation: adsorption with kf = P = 2^p+1. |
| C131 | Energies in finite precision stay consistent up to rounding | The loops over formulas and reactions with the operations as a parameter, as in C130. Induction over the formulas of a state with the sum of sizes; the maximum of two numbers is not rounded and does not enlarge errors; three rounded differences of the same three numbers; Hess's law from C12. Refutation of exact consistency: for p+1 digits the energies 0, 2 and 2^-(p+2) give equal barriers and a positive reaction energy. |
| C132 | A small residual means that a steady state is near | The right hand sides are polynomials of the coverages (closed form from the rates) and the physical coverages are a compact set, so outside a neighbourhood of the zeros the residual has a positive minimum. Together with the acceptance test of the search (C31). For adsorption in one step the residual in closed form. Refutation of a tolerance for all energies: for every tolerance the barrier at which both constants equal it. |
| C133 | Coverages found by the search are coverages of a surface | Follow where the coverages returned come from (the guess made physical, a guess of the hybrid method, a point of the iterator) by induction over the rounds of the search. Physical if the iterator and the hybrid method stay physical; with ConstrainedNewton unless one of its first five points is returned. Refuted for the iterators of the library by a network of three reactions, computed exactly. With C132 the physical ones are near a steady state. |
| C134 | Attributes of a model change only by assignment | Objects by address, and for each model the address it keeps; a descriptor either gives its object or a copy. Induction over histories: what is kept stays kept unless that very object is changed in place; descriptors that copy never give away the default. Refuted for descriptors that give the object itself (all but species_definitions), and for objects changed after they were assigned. |
| C135 | Reading an animation gives all of its frames | What Pillow decodes is an input: a result for each frame, and the exception raised after the last. Induction over the frames; the result is characterised exactly by the first place where something is raised. Refuted for an EOFError inside a frame. |

## Which parts of the code are modelled

"Modelled" means: there is a definition under `Verif/Model` that cites the lines and follows their branches. Where a function mixes computing
with logging or plotting, only the computing is modelled.

| file | modelled | not modelled |
|---|---|---|
| `parsers/rxn_parser.py` | all classes and functions (formula, state, equation, conservation, reversal, LaTeX) | properties that only return a stored field |
| `parsers/parser_base.py` | energies files, stoichiometry matrices, classification, total equation (the null vector is an input: `svd` is not modelled) | |
| `parsers/absolute_energy_parser.py`, `relative_energy_parser.py` | all | constructors that only store the owner |
| `parsers/kmc_parser.py` | process construction, labels, rates, site map | `construct_lattice` (calls into KMCLib) |
| `correctors/thermodynamic_corrector.py` | Shomate, entropy and zero corrections over ℝ, with the tables of `database/thermo_data.py` as exact rationals | warnings in the log |
| `models/kinetic_model.py`, `micro_kinetic_model.py`, `kmc_model.py` | setup loading, start-up, attributes, run, archive, file readers | log messages |
| `descriptors/*.py` | every descriptor, memoisation | |
| `solvers/solver_base.py` | rate constants, energies by equation, total equation, corrections | |
| `solvers/mean_field_solver.py` | coverages, rate and derivative texts, Jacobian texts, symbolic equations, symbols, turnover, reversibilities, Boltzmann coverages | `sympy` simplification (an expression is its value), log output |
| `solvers/rootfinding_iterators.py` | both Newton iterators, with `norm`, the linear solver and the residual as inputs | |
| `solvers/steady_state_solver.py` | constraint, guess loop, fsolve run, rate control, ODE (the integrator is an input), archive | log output |
| `solvers/kmc_solver.py` | run control, process hand-over, site map hand-over, scripts (as statements) | the text KMCLib writes for one object |
| `solvers/kmc_plugins/*.py`, `/repo/c++/src/kmc_functions.cpp` | all counting, buffering and flushing | KMCLib (its sequence of events is an input), layout of the text tables |
| `plugins/*.py` | metaclass protocol, registration, calling order, `hybrid_methods.ODE_integration` | |
| `utilities/check_utilities.py`, `coordinate_utilities.py`, `format_utilities.py` | all | |
| `functions.py`, `mpicommons.py`, `compatutil.py`, `__init__.py`, `errors/error.py` | splitting, gathering, time conversion, numerical derivative, logger | transport of MPI |
| `plotters/images2gif.py` | checks, sub-rectangles, layout of the file, the choice of colours, reading frames back | packing and decoding of pixels by Pillow (inputs), the search tree used for colours |
| `plotters/energy_profile_plotter.py` | which image shows which energies, file names, arguments | drawing by catplot |
| `scripts/kmc_plot/plot_tof.py`, `plot_frequencies.py` | the data shown | drawing by matplotlib |
| `scripts/kmc_run/change_start_time.py`, `1d-run/create_jobs.py`, `2d-run/create_jobs.py` | all | other files of the template, the shell scripts (only the configuration of `kmc_continue.sh`) |
| `utilities/profiling_utitlities.py`, `database/lattice_data.py` | | profiling, lattice constants: imported by other files, used by none |

## Where the code does less than a user would expect

Each line is a theorem with suffix `_refuted` (or the guard of a `_partial` theorem), with a concrete case computed by the model.
They are statements about the code at the pinned commit.

Equations and matrices
* An equation with a zero coefficient is rejected although it is balanced, and an equation with an empty side is accepted (C04).
* Text can be lost without an error: `2 O_s` loses its coefficient, the fourth state of an equation is dropped (C65).
* Mass is not conserved by accepted equations with two-letter element symbols; unbalanced parentheses lose the last symbol (C05, C58).
* A species repeated in a state overwrites the first entry of the species dictionary (C07).
* A numbered empty site `*_2s`, or a transition state at an end of a reaction, has no column in the matrices, and rates raise `KeyError` (C09, C10, C25).
* The total equation divides by zero for a gas that is only recycled, truncates ratios, and drops the sign of reversed reactions (C79).
* The LaTeX text drops the number of sites; a one-sided equation raises `UnboundLocalError`; digits at the start of a part (`CO-2H`) are lost (C80).

Energies and rate constants
* Gas corrections ignore the coefficient (C15); barriers of two-state reactions are overwritten by the corrector (C66).
* The entropy correction raises `AttributeError` for H2 at or below 291 K (C67).
* Above its highest data temperature a gas is silently not corrected, a jump of several eV (C83).
* The entropy correction contains the ground state energy of diatomic gases only, and counts degenerate vibrations once (C84).
* The check of the relative energy keys has no effect for `Gaf`; `dG` is always needed (C68).
* Pressure factors raise `KeyError` for `2CO_g` (C21); reactions with equal text use the first one's energies (C22).
* Rate constants remembered for one model are returned for another one, and energies changed in place from -1 to -2 get the constants of -1, as both numbers have the same hash in CPython (C40); the derived texts of one model are used for another one (C82).
* A failed reading leaves new absolute energies beside old relative ones (C68).

Mean-field kinetics
* Coverage derivatives are wrong for an adsorbate on both sides, a repeated formula, or a species found only in intermediate states (C26).
* The number of sites of a formula is ignored by the free-site coverage (C27).
* The energy of an adsorbate on a site with a star in its name is never used (C85). An adsorbate that occurs only as an intermediate is driven
  to negative coverages, and one on two sites lets the coverages exceed the total (C86).
* Turning a reaction round changes the derivative of an adsorbate found on both sides, and with collision theory the rate constants (C88).
* A reaction listed twice gets `inf` as degree of rate control for its second copy, since the shift of its barriers is never read (C90).
* The analytical Jacobian has the wrong sign for subtracted terms with both factors; powers of ten and more are derived wrongly (C28).
* Symbolic equations leave out the coefficients, cannot handle a liquid or a starred site name, need a fixed calling order, and the
  symbolic Jacobian works only for exactly two adsorbates (C29, C71).
* `MDNewton` reports the value of a rejected point at a stationary point; `ConstrainedNewton` lets `ValueError` through for a singular matrix (C33).
* The error of an accepted first guess is computed with the solver's own energies; hybrid guesses are not constrained, so negative coverages may be
  returned, and the search has no end when a hybrid method is set (C31). The property `good_guess` has no `return` and gives None.
* `plot_all` documents the arguments `energies` and `rxn_equation`, which always raise TypeError; a reaction text with a slash, which the parser
  accepts, cannot be saved (C94).
* `finalize` is called with the next guess's number and without `setup` for a good first guess (C32).
* Rate control archives perturbed coverages and replaces those of the solver (C34).
* The fsolve run raises `AttributeError` on a fresh solver; "unsolved model" errors are never raised (C31, C72).

Models and files
* The archive is written under one key and read under another; the first default run without coverages raises `TypeError`; a new run overwrites the archive;
  a crash while writing leaves an empty file which stops the next run (C35, C36, C37).
* Reading an attribute freezes its default (C38). The default list of analyses is shared by all models (C41).
* Entries of a setup named like a method replace the method; logger levels in a setup dictionary raise `AttributeError`;
  the accepted value `sympy` of the number representation makes solver construction raise (C63, C70).
* Texts with quotes are not read back from data files (C78); `*_2g` has no entry in the generated files (C77).
* Several processes starting together race on `./log` and `./data` (C74). Log messages are doubled with several models (C75).

Lattice kinetics
* Labels of processes are misaligned with redistribution or fast processes and doubled by a second reading (C51).
* Files read after a run are ignored; a failed reading mixes new energies with old definitions; the `time_seed` setting is ignored (C81).
* Coverages ignore incomplete cells and repeated types; the default empty ratios divide by zero (C52); the Python and C++ counters differ (C53).
* Frequency analysis divides by zero for a single counted step and loses unlabelled processes (C54); the tail window of turnover frequencies is dropped (C55);
  the last event table is never written and probabilities are truncated (C56); the coverages file cannot be read back and an empty last flush raises `IndexError` (C57).
* Negative and zero intervals are accepted (C48); there are holes in the species-definition check (C49); empty site-map settings raise (C50).
* `split_seq` loses the tail and fails for short sequences (C43); coordinate groups become inconsistent after a failed append and share lists (C44).

Animations
* Sub-rectangles with disposal 2 clear what did not change (C91). Repetition for ever is written as 65535 times, the place of a frame is lost when
  its colours are those used most and its disposal is 2, `nq` of one or more always fails, a missing image or a time that does not fit leaves an empty or
  unfinished file, and whole numbers out of range are taken modulo 256 (C92).

## Axioms of each theorem

Output of `#print axioms` for every theorem of `MANIFEST.json` (file `Verif/Audit.lean`), grouped.

**propext** (48): `C04_zero_coefficient_refuted`, `C10_transition_state_end_refuted`, `C10_numbered_empty_site_refuted`, `C100_entries`, `C102_missing_refuted`, `C102_other_name_refuted`, `C102_configuration`, `C102_failing`, `C103_quote_refuted`, `C103_same_text_refuted`, `C105_failing`, `C109_name_partial`, `C109_file`, `C110_markers`, `C113_formula_types`, `C113_state_types_refuted`, `C134_assign`, `C32_limit`, `C33_bad_start`, `C36_after_crash`, `C37_start_partial`, `C37_nothing`, `C39_refEnergies`, `C40_handle_refuted`, `C41_shared_refuted`, `C44_failing`, `C51_twice_refuted`, `C54_index`, `C56_written_partial`, `C57_names`, `C63_failing`, `C63_failing_parts`, `C63_failing_solver`, `C63_components_later`, `C70_first_partial`, `C70_first_refuted`, `C73_boolean_interval`, `C73_mixin_refuted`, `C75_set`, `C75_single_partial`, `C75_twice_refuted`, `C75_other_refuted`, `C78_quote_refuted`, `C80_sites_refuted`, `C80_part_refuted`, `C80_oneSided_refuted`, `C81_files`, `C81_failure`

**no axioms** (24): `C04_missing_side_refuted`, `C101_one_direction_refuted`, `C102_no_times`, `C109_name_refuted`, `C110_third_refuted`, `C110_failing`, `C113_add_refuted`, `C114_kmc_time`, `C114_setup_refuted`, `C114_errors`, `C114_kmc_errors_partial`, `C114_kmc_errors_refuted`, `C116_vacancy_refuted`, `C31_no_guess`, `C38_once`, `C39_bool`, `C41_once`, `C44_unequal`, `C58_unbalanced_parenthesis_refuted`, `C64_returns`, `C65_formula_text_ignored_refuted`, `C65_equation_text_ignored_refuted`, `C74_data_refuted`, `C81_timeSeed_refuted`

**propext, Quot.sound** (179): `C01_formula_sound`, `C01_formula_rejected_iff`, `C03_states_of_text`, `C03_no_arrow_rejected_iff`, `C04_acceptance_equivalence`, `C06_revert_states`, `C06_revert_conservation`, `C06_revert_gases`, `C100_labels`, `C100_numbers`, `C100_rows_rejected`, `C102_start_partial`, `C102_chain_partial`, `C102_next_line_refuted`, `C102_names`, `C103_jobs_partial`, `C103_one_partial`, `C103_two_partial`, `C103_no_species`, `C103_failing`, `C104_delivered`, `C104_setup`, `C104_ode_only_refuted`, `C105_one_reaction_refuted`, `C106_map_partial`, `C106_rows`, `C106_own_files_refuted`, `C106_few_refuted`, `C106_columns_refuted`, `C106_order_refuted`, `C107_failing`, `C107_own_files_refuted`, `C107_ode_partial`, `C107_three_refuted`, `C107_one_refuted`, `C108_header`, `C109_name_iff`, `C109_no_groups_refuted`, `C110_area_refuted`, `C110_size`, `C110_colors`, `C111_failing`, `C111_places_failing`, `C111_others_refuted`, `C112_quiet`, `C112_protocol`, `C112_good_guess_refuted`, `C113_text_partial`, `C113_state_argument`, `C114_no_deadlock`, `C114_setup_partial`, `C114_processes`, `C116_too_few`, `C118_nothing`, `C118_balanced`, `C118_coverages_refuted`, `C118_coverage_lines_refuted`, `C12_owner`, `C12_reading`, `C13_rejected`, `C13_file_first`, `C13_failing`, `C134_default_refuted`, `C135_frames`, `C135_all_partial`, `C135_damaged_refuted`, `C135_read`, `C14_short_lists`, `C25_failing`, `C25_middle_irrelevant`, `C28_no_factor`, `C29_arguments`, `C30_no_adsorbates`, `C33_stops`, `C33_singular`, `C33_affine`, `C34_no_coverages`, `C34_no_steady`, `C36_crash_partial`, `C36_trace_ends`, `C36_crash_refuted`, `C38_history`, `C38_valid`, `C38_assign_partial`, `C38_read_refuted`, `C38_others`, `C39_type`, `C39_float`, `C39_sequence`, `C40_cached_partial`, `C40_in_place_partial`, `C40_objects_partial`, `C40_repeat`, `C43_short_refuted`, `C45_move_partial`, `C45_moves_compose`, `C45_empty_refuted`, `C45_short_vector`, `C45_iff`, `C48_interval_partial`, `C48_zero_refuted`, `C49_pressure_partial`, `C49_reading`, `C49_text_refuted`, `C49_number_refuted`, `C49_readable_iff`, `C49_pressure`, `C50_configuration`, `C50_empty_refuted`, `C51_errors`, `C51_mapping_partial`, `C51_redist_refuted`, `C51_fast_refuted`, `C52_whole_cells`, `C52_settings`, `C53_small`, `C54_reactions`, `C54_labels_refuted`, `C54_rates_partial`, `C54_single_refuted`, `C55_tail_refuted`, `C56_zero`, `C56_last_refuted`, `C57_coverages_refuted`, `C57_flushes`, `C58_malformed_rejected`, `C60_other_direction`, `C61_length_mismatch`, `C63_solver`, `C63_expressions`, `C63_expression_check`, `C63_parser`, `C65_formula_iff`, `C65_equation_iff`, `C71_unready`, `C71_arguments`, `C71_liquid_refuted`, `C71_needs_preparation`, `C71_no_energies`, `C72_nothing`, `C72_integration_failing`, `C72_fsolve_refuted`, `C72_integration`, `C72_integration_fails`, `C72_rate_control`, `C72_unsolved_refuted`, `C72_coarse`, `C73_absent`, `C73_accepted`, `C73_methods`, `C73_interval_partial`, `C73_steps_partial`, `C73_inherited_refuted`, `C73_raiser`, `C74_master`, `C74_progress_partial`, `C74_ready`, `C74_log_refuted`, `C75_handlers`, `C76_solver_partial`, `C76_corrector_refuted`, `C76_plotter_refuted`, `C77_relative`, `C77_unfilled`, `C77_no_table`, `C78_closed`, `C78_list_partial`, `C78_columns`, `C78_dict`, `C80_lines`, `C81_unread`, `C81_solver_unread`, `C81_control`, `C81_call`, `C89_rates`, `C89_turnover`, `C91_shapes`, `C94_written`, `C95_files`

**propext, Classical.choice** (2): `C81_reading`, `C81_history_partial`

**propext, Classical.choice, Quot.sound** (647): `C01_formula_roundtrip`, `C02_formula_elements`, `C02_state_elements`, `C02_state_sites`, `C02_order_independent`, `C03_equation_states`, `C04_exact`, `C04_check_iff_balanced`, `C04_formula_check`, `C05_kept`, `C05_mass_iff`, `C05_two_letters_partial`, `C05_mass_conserved_partial`, `C05_two_letter_elements_refuted`, `C07_last`, `C07_iff`, `C07_species_list`, `C07_repeated_species_refuted`, `C07_species_dict_partial`, `C08_lists_complete`, `C08_listed_exactly_once`, `C08_site_names`, `C08_lists_sorted`, `C08_order_independent`, `C09_entries`, `C09_not_taking_part`, `C10_lost`, `C10_iff`, `C10_weights_match_specification`, `C10_elements_conserved_partial`, `C10_sites_conserved_partial`, `C100_shown`, `C100_unmarked`, `C100_lengths`, `C100_turnover_partial`, `C100_name_refuted`, `C100_coefficient_refuted`, `C100_exact_iff`, `C101_pairs_partial`, `C101_iff`, `C104_no_setup_refuted`, `C104_guess_partial`, `C104_found_partial`, `C104_start_partial`, `C104_start_refuted`, `C105_places_failing`, `C105_coverages_partial`, `C105_series_partial`, `C105_order`, `C105_types_refuted`, `C105_own_files_refuted`, `C105_nested_refuted`, `C105_ties_refuted`, `C105_tofs_partial`, `C105_forward_partial`, `C105_net_refuted`, `C106_failing`, `C106_failed_refuted`, `C106_coverage_partial`, `C106_species_refuted`, `C106_tof_partial`, `C107_succeeds`, `C107_lengths`, `C107_merged_partial`, `C107_sum_partial`, `C107_letters_refuted`, `C108_rows_partial`, `C108_arrow_partial`, `C108_arrow_refuted`, `C108_percent_partial`, `C108_percent_refuted`, `C108_sites`, `C108_file_partial`, `C108_step_refuted`, `C108_empty`, `C108_arrow_iff`, `C108_step_numbers`, `C109_definition_partial`, `C109_all_partial`, `C109_four_refuted`, `C109_conflict_refuted`, `C11_run_partial`, `C11_build_up`, `C11_near_steady`, `C11_element_balance_partial`, `C11_at_steady_state_partial`, `C11_repeated_formula_refuted`, `C110_coords_failing`, `C110_points_partial`, `C110_large_partial`, `C110_unexpected_refuted`, `C110_unknown_type_refuted`, `C110_time`, `C110_sixty_refuted`, `C110_frames_partial`, `C110_rerun_refuted`, `C111_after_failing`, `C111_process_partial`, `C111_empty_refuted`, `C111_color_refuted`, `C111_names`, `C112_residual`, `C112_raised`, `C112_zero_refuted`, `C112_finalize_refuted`, `C112_dump_partial`, `C112_guesses_refuted`, `C113_states_partial`, `C114_clean`, `C114_kmc_clean_refuted`, `C115_contours`, `C115_failing`, `C115_fits`, `C115_nodes`, `C115_cell`, `C115_between`, `C115_outside`, `C115_order`, `C115_difference`, `C115_places`, `C115_figure`, `C115_runs`, `C115_window_refuted`, `C115_phases`, `C116_limits`, `C116_extent_refuted`, `C116_series`, `C116_runs_partial`, `C116_runs_refuted`, `C116_legend_refuted`, `C116_steady_partial`, `C116_steady_refuted`, `C116_coverages`, `C116_labels`, `C117_radius`, `C117_few_colours`, `C117_three_colours`, `C117_step`, `C117_reserved_colour`, `C117_closer`, `C117_counts`, `C117_bias_partial`, `C117_bias_refuted`, `C117_samples`, `C117_every_pixel`, `C117_map`, `C117_rounding`, `C117_small_refuted`, `C117_refused`, `C117_nearest`, `C117_exact`, `C117_picture`, `C117_palette`, `C118_rates_partial`, `C118_history`, `C119_reported_partial`, `C119_cycle_partial`, `C119_catalyst_partial`, `C119_allowed_partial`, `C119_collision_refuted`, `C12_state_energy`, `C12_single_reaction`, `C12_lists`, `C12_complete_tables`, `C12_reversal`, `C12_cycles`, `C120_rates_partial`, `C120_balance_partial`, `C120_stationary_partial`, `C120_isotherm_partial`, `C120_mean_field_partial`, `C120_collision_partial`, `C120_limit_refuted`, `C120_redist_refuted`, `C120_made`, `C121_drift_partial`, `C121_rates_partial`, `C121_collision_rates_partial`, `C121_equations_partial`, `C121_agreement_partial`, `C121_neighbours_refuted`, `C122_intermediate_refuted`, `C122_exists_partial`, `C122_some_partial`, `C122_computed_partial`, `C123_present_partial`, `C123_reversibilities_partial`, `C123_adsorption`, `C123_exists_partial`, `C123_isolated_refuted`, `C124_fills_partial`, `C124_equilibrium_partial`, `C124_converges_partial`, `C124_intermediate_refuted`, `C125_unique_partial`, `C125_evolves`, `C125_steady`, `C125_means`, `C125_forgets_partial`, `C125_coverage_partial`, `C125_adsorption`, `C125_transition_state_partial`, `C125_rates`, `C125_hops_refuted`, `C126_events_partial`, `C126_reactions_partial`, `C126_rates_partial`, `C126_balance_partial`, `C126_mean_partial`, `C126_stationary_partial`, `C126_windows_partial`, `C126_average_partial`, `C126_wild_refuted`, `C126_fast_refuted`, `C127_constants_partial`, `C127_direction_partial`, `C127_energy_partial`, `C127_steady_partial`, `C127_reported_partial`, `C127_equilibrium_partial`, `C127_lattice_partial`, `C127_two_gases_refuted`, `C127_unknown_gas_refuted`, `C128_constants_partial`, `C128_gases_partial`, `C128_reached_partial`, `C128_turnover_partial`, `C128_transition_partial`, `C128_collision_partial`, `C128_loop_refuted`, `C129_equilibria_partial`, `C129_uncorrelated_partial`, `C129_coverage_partial`, `C129_same_limit_partial`, `C129_driven_refuted`, `C13_normalised`, `C13_idempotent`, `C130_exact`, `C130_constant`, `C130_constants`, `C130_sites`, `C130_rates`, `C130_signs`, `C130_net`, `C130_equations`, `C130_residual`, `C130_net_refuted`, `C130_energies`, `C130_tof`, `C130_reversibilities`, `C130_exact_tof`, `C130_sites_refuted`, `C130_returned`, `C130_search`, `C131_constants`, `C131_search`, `C131_state`, `C131_barriers`, `C131_consistent`, `C131_balance`, `C131_absolute`, `C131_data`, `C131_cycles`, `C131_exact`, `C131_consistent_refuted`, `C131_correction`, `C131_exact_correction`, `C132_close`, `C132_search`, `C132_unique`, `C132_adsorption`, `C132_uniform_refuted`, `C132_equilibrium`, `C133_steady_partial`, `C133_source`, `C133_physical_partial`, `C133_constrained_partial`, `C133_near_partial`, `C133_overfull_refuted`, `C133_constrained_refuted`, `C133_excess_partial`, `C133_search_excess_partial`, `C133_each_excess_partial`, `C133_each_close_partial`, `C133_each_search_near_partial`, `C133_each_unique_partial`, `C133_close_partial`, `C133_search_near_partial`, `C133_unique_partial`, `C134_kept_partial`, `C134_read_partial`, `C134_checked_partial`, `C134_copy`, `C134_default`, `C134_assigned_refuted`, `C135_iff`, `C14_correction`, `C15_entropy_once`, `C15_shomate_written`, `C15_entropy_state`, `C15_shomate_state`, `C15_shomate_iff`, `C15_entropy_coefficient_refuted`, `C15_shomate_coefficient_ignored`, `C15_shomate_coefficient_refuted`, `C15_unit_coefficients_partial`, `C16_positive_decreasing`, `C16_increasing_in_temperature`, `C16_zero_temperature`, `C17_detailed_balance`, `C17_from_absolute_energies`, `C18_iff`, `C18_equilibrium_partial`, `C18_pair_of_sites_refuted`, `C19_rate_of_barrier`, `C19_barrier_of_rate`, `C19_no_barrier`, `C20_unknown`, `C20_guard`, `C20_bounded`, `C20_adsorption`, `C21_written`, `C21_pressures_partial`, `C21_coefficient_refuted`, `C21_collision_adsorption_partial`, `C21_collision_desorption_partial`, `C21_collision_both_sides_refuted`, `C22_first`, `C22_iff`, `C22_repeated_reaction_refuted`, `C22_own_energies_partial`, `C22_own_energies_CT_partial`, `C23_conversion`, `C23_one_site`, `C23_short_tuple`, `C24_physical`, `C24_physical_unchanged`, `C24_idempotent`, `C24_overfull_site`, `C24_short_tuple`, `C25_mass_action_partial`, `C25_solver_constants_partial`, `C25_transition_state_end_refuted`, `C25_defined_iff`, `C26_counted`, `C26_iff`, `C26_derivatives_partial`, `C26_both_sides_refuted`, `C26_repeated_formula_refuted`, `C26_intermediate_refuted`, `C27_weighted`, `C27_iff`, `C27_sites_partial`, `C27_bridge_refuted`, `C28_jacobian_partial`, `C28_dissociation_refuted`, `C28_large_power_refuted`, `C28_repeated_species_refuted`, `C28_length_checked`, `C28_error`, `C28_iff`, `C29_difference`, `C29_values_partial`, `C29_agreement_partial`, `C29_dissociation_refuted`, `C29_jacobian_two_partial`, `C29_jacobian_refuted`, `C30_residual`, `C31_residual`, `C31_nonneg_partial`, `C31_none`, `C31_found`, `C31_negative_refuted`, `C31_given_energies`, `C31_error_refuted`, `C31_guess_refuted`, `C31_forever_refuted`, `C32_blocks_partial`, `C32_steps`, `C32_finalize_refuted`, `C33_constrained`, `C33_norms`, `C33_value_partial`, `C33_physical`, `C33_value_refuted`, `C34_values`, `C34_slope`, `C34_coverages_refuted`, `C35_archive_partial`, `C35_untouched`, `C35_earlier_refuted`, `C35_documented`, `C36_history_partial`, `C37_archive_refuted`, `C37_given`, `C39_float_rows`, `C39_vectors`, `C39_species`, `C40_same_model_partial`, `C40_temperature_refuted`, `C40_absent_refuted`, `C40_in_place_refuted`, `C40_hash`, `C40_hash_small`, `C41_own_partial`, `C42_split_size`, `C43_iff`, `C43_split_merge`, `C43_roundtrip_partial`, `C43_tail_refuted`, `C44_consistent_partial`, `C44_append`, `C44_extend`, `C44_share`, `C44_bad_element_refuted`, `C44_shared_list_refuted`, `C46_merge`, `C46_self`, `C46_union`, `C47_process_dict`, `C50_sitesmap_partial`, `C50_iff`, `C51_pairs`, `C51_accepted`, `C51_labels_iff`, `C52_iff`, `C52_types`, `C52_sum`, `C52_coverages_partial`, `C52_repeated_refuted`, `C52_incomplete_refuted`, `C53_values`, `C53_iff`, `C53_agree_partial`, `C53_refuted`, `C54_counts`, `C54_zero_time_refuted`, `C55_windows_partial`, `C55_events`, `C55_start_refuted`, `C55_lost_iff`, `C55_start_iff`, `C56_table_partial`, `C56_labels_refuted`, `C56_sum_iff`, `C57_tof_file`, `C57_coverages_partial`, `C57_coverages_index_refuted`, `C58_symbols_multiplicity`, `C58_symbols_append`, `C58_leading_multiplier`, `C58_symbols_wellformed`, `C58_mass_additive`, `C58_mass_unknown_element`, `C59_convert_time`, `C60_quadratic`, `C60_classified_quadratic`, `C60_affine`, `C60_classified`, `C61_reversibilities`, `C62_temperature`, `C62_distribution`, `C62_needs_energies`, `C63_defaults`, `C63_protected`, `C63_methods`, `C63_part_names`, `C63_loop`, `C63_order`, `C63_slots`, `C63_level_refuted`, `C63_species_refuted`, `C63_sympy_refuted`, `C63_levels`, `C64_trajectory`, `C64_failure`, `C64_terminates`, `C65_formula_text_complete_partial`, `C66_zero_correction_refuted`, `C66_zero_correction_partial`, `C66_iff`, `C67_iff`, `C67_gases`, `C67_others`, `C67_pressure_dependence`, `C67_defined_partial`, `C67_low_temperature_refuted`, `C67_not_corrected`, `C67_zero_pressure`, `C68_missing_reverse`, `C68_missing_forward_refuted`, `C68_missing_reaction_energy_refuted`, `C68_unknown_method`, `C68_short_lists`, `C69_turnover`, `C70_given`, `C70_iff`, `C70_first_iff`, `C71_failing`, `C71_rates_partial`, `C71_rate_constants_partial`, `C71_solver_partial`, `C71_equilibrium`, `C71_starred_site_refuted`, `C71_liquid_example_refuted`, `C71_few_energies`, `C71_few_coverages`, `C72_run`, `C72_history_partial`, `C72_steady`, `C72_info`, `C72_mixed_refuted`, `C73_total`, `C74_bounded`, `C75_iff`, `C77_absolute_partial`, `C77_zero`, `C77_starred_refuted`, `C79_returned`, `C79_complete_partial`, `C79_recycled_refuted`, `C79_ratios_refuted`, `C79_direction_refuted`, `C79_weights`, `C79_scale`, `C80_tex`, `C80_formula_partial`, `C80_determined_partial`, `C81_fresh`, `C81_stale_refuted`, `C81_retry_refuted`, `C81_mixed_refuted`, `C81_solverRun_refuted`, `C82_history_partial`, `C82_one_model`, `C82_same_network_partial`, `C82_models_refuted`, `C82_missing_refuted`, `C83_gibbs`, `C83_enthalpy`, `C83_corrected`, `C83_above`, `C83_above_refuted`, `C83_borders`, `C83_border_refuted`, `C83_reference`, `C83_heat_capacity`, `C83_entropy_grows`, `C84_value`, `C84_ground_state_refuted`, `C84_vibrations_partial`, `C84_vibrations_refuted`, `C85_direction_partial`, `C85_dissipation_partial`, `C85_free_energy_partial`, `C85_steady_partial`, `C85_starred_refuted`, `C86_absent_partial`, `C86_boundary_partial`, `C86_intermediate_refuted`, `C86_bridge_refuted`, `C87_order`, `C87_constants`, `C88_direction_partial`, `C88_constants`, `C88_both_sides_refuted`, `C88_collision_refuted`, `C89_derivatives`, `C90_equilibrated`, `C90_constants`, `C90_value`, `C90_defined`, `C90_no_control`, `C90_only_reaction`, `C90_repeated_refuted`, `C90_sum_partial`, `C91_shows`, `C91_accepted`, `C91_smallest`, `C91_dispose_refuted`, `C92_failing`, `C92_ints`, `C92_none`, `C92_layout`, `C92_accepted`, `C92_untouched`, `C92_plays`, `C92_intensity`, `C92_delay`, `C92_images`, `C92_repeats`, `C92_positions`, `C92_forever_refuted`, `C92_position_refuted`, `C92_empty_refuted`, `C92_unfinished_refuted`, `C92_quality_refuted`, `C92_integers_refuted`, `C92_mixed_refuted`, `C93_physical_partial`, `C93_positive_partial`, `C93_unique_partial`, `C93_exists_partial`, `C93_rest_partial`, `C93_energy_partial`, `C93_released_partial`, `C93_intermediate_refuted`, `C94_profiles`, `C94_succeeds`, `C94_slash_refuted`, `C94_directory_refuted`, `C94_documented_refuted`, `C94_short_refuted`, `C95_processes`, `C96_no_turnover_partial`, `C96_unique_partial`, `C96_steady_unique_partial`, `C96_stable_partial`, `C96_converges_partial`, `C96_attracts_partial`, `C96_exists_partial`, `C96_multiple_refuted`, `C97_descent_partial`, `C97_never_ends_refuted`, `C97_finds_partial`, `C98_words_iff`, `C98_columns`, `C98_ties`, `C98_tof`, `C98_coverages`, `C98_reactions`, `C98_titles`, `C98_rates`, `C98_aligned`, `C98_empty_refuted`, `C98_words_partial`, `C98_words_refuted`, `C99_round`, `C99_stuck`, `C99_guess_partial`, `C99_defined_partial`, `C99_found_partial`, `C99_modify_partial`, `C99_interval`, `C99_never_none`, `C99_energies_refuted`, `C99_negative_refuted`
